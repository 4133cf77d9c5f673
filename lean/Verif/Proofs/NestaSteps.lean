import Verif.Props.NestaOpt

/-!
# NESTA with several continuation steps

Every step ends near the minimiser of its own smoothed problem, so the start of the next one is not far away either.
-/

namespace L1c
open Scalar Matrix

variable {n m p : ℕ} {σ : Type}
variable {A : Matrix (Fin n) (Fin m) ℝ} {W : Matrix (Fin m) (Fin p) ℝ} {Inv : σ → Prop} {D : Dbl → Prop} {ax : NAx Dbl σ n m p}
variable {b : Fin n → ℝ} {sigma mu K a : ℝ} {opts : NestaOpts Dbl}

theorem nestaErr_anti {k : ℕ} {d l : ℝ} (hl : 0 < l) (h : l ≤ mu) : nestaErr p K mu k d ≤ nestaErr p K l k d := by
  have hk : (0 : ℝ) ≤ k := Nat.cast_nonneg k
  have ht1 : 0 ≤ 1 - 2 / (k + 2 : ℝ) := by
    rw [sub_nonneg, div_le_one (by linarith)]; linarith
  unfold nestaErr
  gcongr

theorem nestaErr_nonneg {k : ℕ} {d : ℝ} (hm : 0 < mu) (hK : 0 ≤ K) (hd : 0 ≤ d) : 0 ≤ nestaErr p K mu k d := by
  have hk : (0 : ℝ) ≤ k := Nat.cast_nonneg k
  have ht1 : 0 ≤ 1 - 2 / (k + 2 : ℝ) := by
    rw [sub_nonneg, div_le_one (by linarith)]; linarith
  unfold nestaErr
  positivity

theorem nestaErr_iter {q k : ℕ} {d : ℝ} (hm : 0 < mu) (hK : 0 ≤ K) (hd : 0 ≤ d) (hq : 1 ≤ q) (h : q ≤ k) : nestaErr p K mu k d ≤ nestaErr p K mu q d := by
  have e : ∀ k : ℕ, 1 ≤ k → nestaErr p K mu k d = 2 * (K ^ 2 / mu) * d ^ 2 / ((k + 1) * (k + 2)) + 2 / (k + 2 : ℝ) * (√p * (K * d)) := fun k hk => by
    have : (0 : ℝ) < k := by exact_mod_cast hk
    unfold nestaErr
    field_simp
    ring
  have hqk : (q : ℝ) ≤ k := by exact_mod_cast h
  have hq' : (0 : ℝ) < q := by exact_mod_cast hq
  rw [e k (hq.trans h), e q hq]
  gcongr

theorem nrm_sub_le (x y : Fin m → ℝ) : nrm (x - y) ≤ nrm x + nrm y := by
  have := nrm_add_le x (-y)
  rwa [← sub_eq_add_neg, show nrm (-y) = nrm y by rw [nrm, neg_dotProduct, dotProduct_neg, neg_neg, nrm]] at this

/-- one continuation step started at `xo` -/
theorem step_near (hA : A * Aᵀ = 1) (hs : 0 < sigma) (hm : 0 < mu) (hK0 : 0 < K) (hW : ∀ x, nrm (Wᵀ *ᵥ x) ≤ K * nrm x)
    (ha : 0 < a) (hWa : ∀ x, a * nrm x ≤ nrm (Wᵀ *ᵥ x)) (xo : Fin m → ℝ) (k : ℕ) {v : Fin m → ℝ} (hv : Feas A b sigma v) :
    ∑ i, |(Wᵀ *ᵥ (seqR A W b sigma mu (K * K) xo (k + 1)).1) i| ≤ ∑ i, |(Wᵀ *ᵥ v) i| + p * mu / 2 +
      nestaErr p K mu (k + 1) ((∑ i, |(Wᵀ *ᵥ (Aᵀ *ᵥ b)) i| + p * mu / 2) / a + nrm xo) := by
  obtain ⟨w, hw1, hw2⟩ := C67_minimiser hm ha hWa (proj_init_feas hA hs b)
  have hmin : ∀ v, Feas A b sigma v → smF mu (Wᵀ *ᵥ w) ≤ smF mu (Wᵀ *ᵥ v) := fun v hv =>
    hw1.2 v _ _ hv (smF_isSmooth hm _) (smF_isSmooth hm _)
  have a1 := seqR_opt hA hs hm hK0 hW (xo := xo) hw1.1 hmin k
  have a2 := hmin v hv
  have a3 := smF_le_l1 hm (Wᵀ *ᵥ v)
  have a4 := l1_le_smF hm (Wᵀ *ᵥ (seqR A W b sigma mu (K * K) xo (k + 1)).1)
  have a5 : nestaErr p K mu (k + 1) (nrm (w - xo)) ≤
      nestaErr p K mu (k + 1) ((∑ i, |(Wᵀ *ᵥ (Aᵀ *ᵥ b)) i| + p * mu / 2) / a + nrm xo) := by
    refine nestaErr_mono hm hK0 (nrm_nonneg _) ((nrm_sub_le _ _).trans (add_le_add ?_ le_rfl))
    rw [le_div_iff₀ ha, mul_comm]
    exact hw2
  linarith

/-- the steps make at least `q` iterations: one always, 10000 with a tolerance that stops none of them -/
def AtLeast (q : ℕ) (bt tol : Dbl) : Prop :=
  q = 1 ∨ (q = 10000 ∧ (bt = Dbl.nan ∨ bt = Dbl.fin 0) ∧ (tol = Dbl.nan ∨ ∃ r : ℝ, tol = Dbl.fin r))

theorem AtLeast.mul {q : ℕ} {bt tol : Dbl} (h : AtLeast q bt tol) : AtLeast q bt (tol * bt) := by
  rcases h with h | ⟨h1, h2, h3⟩
  · exact Or.inl h
  · refine Or.inr ⟨h1, h2, ?_⟩
    rcases noTol_mul h3 h2 with h | ⟨r, -, h⟩
    · exact Or.inl h
    · exact Or.inr ⟨r, h⟩

theorem AtLeast.pos {q : ℕ} {bt tol : Dbl} (h : AtLeast q bt tol) : 1 ≤ q := by
  rcases h with h | ⟨h, -⟩ <;> omega

theorem continue_atLeast (R : Realises ax Inv D A W) (hn : n ≤ max m p) (hs : 0 < sigma) {beta L : ℝ} (hm : 0 < mu * beta) (hL0 : 0 < L) {xo : Fin m → ℝ}
    {P P' : NestaProb Dbl n m p} (h : OuterAt A D b sigma mu L xo P) {bt : Dbl} {q k : ℕ} (hq : AtLeast q bt P.tol_j) {s s' : NState σ} (hI : Inv s.cb)
    (h1 : nestaContinue ax (Dbl.fin beta) bt P s = some ((P', k + 1), s')) : q ≤ k + 1 := by
  rcases hq with rfl | ⟨rfl, h2, h3⟩
  · omega
  · unfold nestaContinue at h1
    obtain ⟨⟨⟨st', k'⟩, s1⟩, h4, h5⟩ := Option.bind_eq_some_iff.1 h1
    have := inner_full R hn hs hm hL0 (noTol_mul h3 h2) _ _ _ _ _ _ _ (reset_at (W := W) h bt) fifoNonneg_new hI h4
    have hk := (Prod.mk.inj (Prod.mk.inj (Option.some.inj h5)).1).2
    simp only [L1C_NESTA_MAX_INNER_ITER] at this
    omega

/-- the bound on the norm after one more step -/
theorem step_reach (hA : A * Aᵀ = 1) (hs : 0 < sigma) {l U : ℝ} (hl : 0 < l) (hlm : l ≤ mu) (hmU : mu ≤ U) (hK0 : 0 < K) (hW : ∀ x, nrm (Wᵀ *ᵥ x) ≤ K * nrm x)
    (ha : 0 < a) (hWa : ∀ x, a * nrm x ≤ nrm (Wᵀ *ᵥ x)) {xo : Fin m → ℝ} {r : ℝ} (hr : nrm xo ≤ r) {q k : ℕ} (hq : 1 ≤ q) (hqk : q ≤ k + 1) :
    nrm (seqR A W b sigma mu (K * K) xo (k + 1)).1 ≤ (∑ i, |(Wᵀ *ᵥ (Aᵀ *ᵥ b)) i| + p * U / 2 +
      nestaErr p K l q ((∑ i, |(Wᵀ *ᵥ (Aᵀ *ᵥ b)) i| + p * U / 2) / a + r)) / a := by
  have hm := hl.trans_le hlm
  have h1 := step_near (W := W) hA hs hm hK0 hW ha hWa xo k (proj_init_feas hA hs b)
  have h2 := (hWa (seqR A W b sigma mu (K * K) xo (k + 1)).1).trans (nrm_le_l1 _)
  have h3 : p * mu / 2 ≤ p * U / 2 := by have : (0 : ℝ) ≤ p := Nat.cast_nonneg p; gcongr
  have hS : 0 ≤ ∑ i, |(Wᵀ *ᵥ (Aᵀ *ᵥ b)) i| := Finset.sum_nonneg fun _ _ => abs_nonneg _
  have h0 : 0 ≤ (∑ i, |(Wᵀ *ᵥ (Aᵀ *ᵥ b)) i| + p * mu / 2) / a + nrm xo := by
    have := nrm_nonneg xo; positivity
  have h4 : nestaErr p K mu (k + 1) ((∑ i, |(Wᵀ *ᵥ (Aᵀ *ᵥ b)) i| + p * mu / 2) / a + nrm xo) ≤
      nestaErr p K l q ((∑ i, |(Wᵀ *ᵥ (Aᵀ *ᵥ b)) i| + p * U / 2) / a + r) := by
    refine (nestaErr_iter hm hK0.le h0 hq hqk).trans ((nestaErr_anti hl hlm).trans (nestaErr_mono hl hK0 h0 (add_le_add ?_ hr)))
    · gcongr
  rw [le_div_iff₀ ha, mul_comm]
  linarith

/-- the weights of the schedule lie between its first and its last -/
theorem sched_between {mu0 beta : ℝ} (h0 : 0 < mu0) (hb : 0 < beta) {N : ℕ} (hm : mu0 * beta ^ N = mu) {j : ℕ} (hj : j ≤ N) :
    min mu0 mu ≤ mu0 * beta ^ j ∧ mu0 * beta ^ j ≤ max mu0 mu := by
  rcases le_total beta 1 with h1 | h1
  · have h2 : beta ^ N ≤ beta ^ j := pow_le_pow_of_le_one hb.le h1 hj
    have h3 : beta ^ j ≤ 1 := pow_le_one₀ hb.le h1
    refine ⟨(min_le_right _ _).trans ?_, le_trans ?_ (le_max_left _ _)⟩
    · rw [← hm]; gcongr
    · nlinarith
  · have h2 : beta ^ j ≤ beta ^ N := pow_le_pow_right₀ h1 hj
    have h3 : 1 ≤ beta ^ j := one_le_pow₀ h1
    refine ⟨(min_le_left _ _).trans ?_, le_trans ?_ (le_max_right _ _)⟩
    · nlinarith
    · rw [← hm]; gcongr

/-- where the continuation steps before the last one arrive, with a tolerance that stops none of them -/
theorem outer_reach (R : Realises ax Inv D A W) (hA : A * Aᵀ = 1) (hs : 0 < sigma) {beta l U : ℝ} (hbeta : 0 < beta) (hl : 0 < l) (hK0 : 0 < K)
    (hW : ∀ x, nrm (Wᵀ *ᵥ x) ≤ K * nrm x) (ha : 0 < a) (hWa : ∀ x, a * nrm x ≤ nrm (Wᵀ *ᵥ x)) {r0 : ℝ}
    {bt : Dbl} {q : ℕ} : ∀ (fuel : ℕ) (iter : Int) (total i : ℕ) (P : NestaProb Dbl n m p) (mu : ℝ) (xo : Fin m → ℝ) (s : NState σ),
      (∀ j, 1 ≤ j → j ≤ fuel → l ≤ mu * beta ^ j ∧ mu * beta ^ j ≤ U) → OuterAt A D b sigma mu (K * K) xo P → Feas A b sigma xo → 0 < mu →
      nrm xo ≤ nestaReach q p K l U a (∑ i, |(Wᵀ *ᵥ (Aᵀ *ᵥ b)) i|) r0 i →
      AtLeast q bt P.tol_j → iter + fuel ≤ INT_MAX → Inv s.cb →
      ∃ (P' : NestaProb Dbl n m p) (T : ℕ) (c' : σ) (x' : Fin m → ℝ),
        nestaOuter ax (Dbl.fin beta) bt fuel iter total P s = some ((P', T), { s with cb := c' }) ∧ Inv c' ∧
        OuterAt A D b sigma (mu * beta ^ fuel) (K * K) x' P' ∧ Feas A b sigma x' ∧ AtLeast q bt P'.tol_j ∧
        nrm x' ≤ nestaReach q p K l U a (∑ i, |(Wᵀ *ᵥ (Aᵀ *ᵥ b)) i|) r0 (i + fuel) := by
  have hn := (rows_le hA).trans (le_max_left m p)
  have hL0 : 0 < K * K := mul_pos hK0 hK0
  intro fuel
  induction fuel with
  | zero =>
    intro iter total i P mu xo s _ h hx _ hr ht hi hI
    refine ⟨P, total, s.cb, xo, ?_, hI, by simpa using h, hx, ht, hr⟩
    unfold nestaOuter
    rw [if_pos (by simpa using hi)]; rfl
  | succ fuel ih =>
    intro iter total i P mu xo s hsch h hx hmu hr ht hi hI
    have hmb := mul_pos hmu hbeta
    obtain ⟨P1, k, c1, h1, hI1, -, hO, -, ht1⟩ := continue_fin R hn hs hmb hL0 h bt s hI
    obtain ⟨hl1, hU1⟩ := hsch 1 le_rfl (by omega)
    rw [pow_one] at hl1 hU1
    obtain ⟨P', T, c', x', e1, e2, e3, e4, e6, e7⟩ := ih (iter + 1) (total + (k + 1)) (i + 1) P1 (mu * beta) _ { s with cb := c1 }
      (fun j hj hj' => by
        have := hsch (j + 1) (by omega) (by omega)
        rwa [pow_succ', ← mul_assoc] at this) hO (seqR_feas hA hs hmb hL0 k) hmb
      (step_reach hA hs hl hl1 hU1 hK0 hW ha hWa hr ht.pos (continue_atLeast R hn hs hmb hL0 h ht hI h1))
      (by rw [ht1]; exact ht.mul) (by push_cast at hi; omega) hI1
    refine ⟨P', T, c', x', ?_, e2, ?_, e4, e6, by rw [show i + (fuel + 1) = i + 1 + fuel by omega]; exact e7⟩
    · unfold nestaOuter
      rw [nbind h1]
      exact e1
    · rw [pow_succ', ← mul_assoc]; exact e3

/-- a whole run with a tolerance that stops no step -/
theorem nesta_steps (R : Realises ax Inv D A W) (hA : A * Aᵀ = 1) {M l U : ℝ} {q : ℕ}
    (hsig : opts.sigma = Dbl.fin sigma) (hs : 0 < sigma) (hmu : opts.mu = Dbl.fin mu) (hm : 0 < mu) (hq : q = 1 ∨ (q = 10000 ∧ ∃ t ≤ 0, opts.tol = Dbl.fin t))
    (hK : ax.norm_W = Dbl.fin K) (hK0 : 0 < K) (hW : ∀ x, nrm (Wᵀ *ᵥ x) ≤ K * nrm x) (ha : 0 < a) (hWa : ∀ x, a * nrm x ≤ nrm (Wᵀ *ᵥ x))
    (hM : vmax (fvec (absHead m (Wᵀ *ᵥ (Aᵀ *ᵥ b)))) = Dbl.fin M) (hl : 0 < l) (hlM : l ≤ 9 / 10 * M) (hlm : l ≤ mu) (hUM : 9 / 10 * M ≤ U) (hUm : mu ≤ U)
    (hN : 1 ≤ opts.n_continue) (hN' : opts.n_continue < INT_MAX) (xk : Vec Dbl m) (s : NState σ) (hI : Inv s.cb) (hwf : s.WF)
    (hal : ∀ i < 11, s.oracle (s.calls + i) = true) :
    ∃ (xo : Fin m → ℝ) (k : ℕ) (P' : NestaProb Dbl n m p) (T : ℕ) (s' : NState σ),
      l1c_nesta m n xk (fvec b) ax opts s =
        some (⟨L1C_SUCCESS, fvec (seqR A W b sigma mu (K * K) xo (k + 1)).1, T, some P'⟩, s') ∧ 1 ≤ q ∧ q ≤ k + 1 ∧
      nrm xo ≤ nestaReach q p K l U a (∑ i, |(Wᵀ *ᵥ (Aᵀ *ᵥ b)) i|) (nrm (Aᵀ *ᵥ b)) (opts.n_continue.toNat - 1) := by
  have hmu0 : 0 < 9 / 10 * M := hl.trans_le hlM
  obtain ⟨s1, e1, -, -, hrun⟩ := nesta_after_setup xk (fvec b) ax opts s hwf (fun i hi => hal i (by omega)) R.notMissing
  obtain ⟨P1, c1, h1, hI1, f1, f2, f3, f4, f5, f6, f7, f8⟩ := setup_fin R (P := nestaZero (fvec b)) R.zero hK b opts hM s1 (e1 ▸ hI)
  obtain ⟨beta, hbeta, hb0, hbN, -⟩ := beta_fin hm hmu0 hN
  rw [hmu, hbeta] at h1
  have hat : OuterAt A D b sigma (9 / 10 * M) (K * K) (Aᵀ *ᵥ b) { P1 with xk := P1.xo } :=
    ⟨⟨f1, f2, f3.trans hsig, f5, f4, f8 R.zero⟩, f7, f7⟩
  have hn := (rows_le hA).trans (le_max_left m p)
  have hL0 : 0 < K * K := mul_pos hK0 hK0
  obtain ⟨j, hj⟩ : ∃ j, opts.n_continue.toNat = j + 1 := ⟨opts.n_continue.toNat - 1, by omega⟩
  have hq' : AtLeast q (fexp (flog (opts.tol / Dbl.fin (1 / 10)) / lit opts.n_continue)) P1.tol_j := by
    rcases hq with h | ⟨h, t, ht, htol⟩
    · exact Or.inl h
    · rw [htol]
      exact Or.inr ⟨h, beta_tol_nonpos ht hN, Or.inr ⟨_, f6⟩⟩
  set s2 : NState σ := { s1 with live := insert s1.next s1.live, next := s1.next + 1, calls := s1.calls + 1, cb := c1 } with hs2
  obtain ⟨P2, T, c2, xo, g1, g2, g3, g4, g6, g7⟩ := outer_reach R hA hs hb0 hl hK0 hW ha hWa (U := U) (r0 := nrm (Aᵀ *ᵥ b)) (bt := fexp (flog (opts.tol / Dbl.fin (1 / 10)) / lit opts.n_continue)) (q := q) j 1 0 0 _ _ _ s2
    (fun i _ hi => by
      have := sched_between hmu0 hb0 hbN (j := i) (by omega)
      exact ⟨(le_min hlM hlm).trans this.1, this.2.trans (max_le hUM hUm)⟩) hat
    (proj_init_feas hA hs b) hmu0 le_rfl hq' (by omega) hI1
  have hmj : 9 / 10 * M * beta ^ j * beta = mu := by rw [mul_assoc, ← pow_succ, ← hj]; exact hbN
  obtain ⟨P3, k, c3, k1, k2, k3, k4, -, -⟩ := continue_fin R hn hs (hmj ▸ hm) hL0 g3
    (fexp (flog (opts.tol / Dbl.fin (1 / 10)) / lit opts.n_continue)) { s2 with cb := c2 } g2
  have hlast := outer_last _ _ j 1 0 _ _ _ _ _ _ _ _ g1 k1 (by omega)
  rw [hmj] at k4
  refine ⟨xo, k, P3, T + (k + 1), { s2 with live := s.live, cb := c3 }, ?_, g6.pos, continue_atLeast R hn hs (hmj ▸ hm) hL0 g3 g6 g2 k1, by rw [hj, Nat.add_sub_cancel]; simpa using g7⟩
  rw [hrun, h1, Option.bind_some, if_pos (hal 10 (by omega))]
  dsimp only
  rw [hj, hlast, Option.map_some]
  dsimp only
  rw [k4.hxk]

end L1c
