import Verif.Proofs.NestaDbl

/-! # NESTA's loops on finite data -/

namespace L1c
open Scalar Matrix

variable {n m p : ℕ} {σ : Type}
variable {A : Matrix (Fin n) (Fin m) ℝ} {W : Matrix (Fin m) (Fin p) ℝ} {Inv : σ → Prop} {D : Dbl → Prop} {ax : NAx Dbl σ n m p}

/-! ## The exact sequence -/

/-- iterates and gradient sums of a continuation step started at `xo` -/
noncomputable def seqR (A : Matrix (Fin n) (Fin m) ℝ) (W : Matrix (Fin m) (Fin p) ℝ) (b : Fin n → ℝ) (sigma mu L : ℝ)
    (xo : Fin m → ℝ) : ℕ → (Fin m → ℝ) × (Fin m → ℝ)
  | 0 => (xo, 0)
  | k + 1 =>
    let q := seqR A W b sigma mu L xo k
    ((bodyR A W b sigma mu L xo k q.1 q.2).1, (bodyR A W b sigma mu L xo k q.1 q.2).2.1)

/-- the points `y_k` -/
noncomputable def seqY (A : Matrix (Fin n) (Fin m) ℝ) (W : Matrix (Fin m) (Fin p) ℝ) (b : Fin n → ℝ) (sigma mu L : ℝ)
    (xo : Fin m → ℝ) (k : ℕ) : Fin m → ℝ :=
  (bodyR A W b sigma mu L xo k (seqR A W b sigma mu L xo k).1 (seqR A W b sigma mu L xo k).2).2.2.1

noncomputable def seqZ (A : Matrix (Fin n) (Fin m) ℝ) (W : Matrix (Fin m) (Fin p) ℝ) (b : Fin n → ℝ) (sigma mu L : ℝ)
    (xo : Fin m → ℝ) (k : ℕ) : Fin m → ℝ :=
  (bodyR A W b sigma mu L xo k (seqR A W b sigma mu L xo k).1 (seqR A W b sigma mu L xo k).2).2.2.2

variable {b : Fin n → ℝ} {sigma mu L : ℝ} {xo : Fin m → ℝ}

theorem seqR_sum (k : ℕ) : (seqR A W b sigma mu L xo k).2 =
    ∑ i ∈ Finset.range k, ((i + 1 : ℝ) / 2) • gradR mu W (seqR A W b sigma mu L xo i).1 := by
  induction k with
  | zero => rfl
  | succ k ih =>
    rw [Finset.sum_range_succ, ← ih]
    exact add_comm _ _

theorem seqR_accel : AccelSeq A b sigma (L / mu) (gradR mu W) xo (fun k => (seqR A W b sigma mu L xo k).1)
    (seqY A W b sigma mu L xo) (seqZ A W b sigma mu L xo) where
  x0 := rfl
  hy := fun k => rfl
  hz := fun k => by rw [← seqR_sum]; rfl
  hx := fun k => rfl

theorem seqR_feas (hA : A * Aᵀ = 1) (hs : 0 < sigma) (hm : 0 < mu) (hL : 0 < L) (k : ℕ) :
    Feas A b sigma (seqR A W b sigma mu L xo (k + 1)).1 := by
  have hc := div_pos hL hm
  refine Feas.convex (projR_feas hA hs hc _ _) (projR_feas hA hs hc _ _) (by positivity) ?_
  rw [div_le_one (by positivity)]
  have : (0 : ℝ) ≤ k := Nat.cast_nonneg k
  linarith

/-! ## Inner loop -/

/-- state of the loop after `k` iterations of the exact sequence -/
structure InnerAt (A : Matrix (Fin n) (Fin m) ℝ) (W : Matrix (Fin m) (Fin p) ℝ) (D : Dbl → Prop) (b : Fin n → ℝ) (sigma mu L : ℝ)
    (xo : Fin m → ℝ) (tol : Dbl) (k : ℕ) (P : NestaProb Dbl n m p) : Prop where
  fix : NFix A D P b sigma mu L
  hxo : P.xo = fvec xo
  hxk : P.xk = fvec (seqR A W b sigma mu L xo k).1
  hgs : P.gradf_sum = fvec (seqR A W b sigma mu L xo k).2
  hyk : ∀ j, k = j + 1 → P.yk = fvec (seqY A W b sigma mu L xo j)
  htol : P.tol_j = tol

theorem inner_fin (R : Realises ax Inv D A W) (hn : n ≤ max m p) (hs : 0 < sigma) (hm : 0 < mu) (hL0 : 0 < L) (tol : Dbl) :
    ∀ (fuel k : ℕ) (st : NLoop Dbl n m p) (s : NState σ), InnerAt A W D b sigma mu L xo tol k st.P → Inv s.cb →
      ∃ (st' : NLoop Dbl n m p) (K : ℕ) (c' : σ), nestaInner ax fuel k st s = some ((st', K), { s with cb := c' }) ∧ Inv c' ∧
        InnerAt A W D b sigma mu L xo tol K st'.P ∧ k ≤ K ∧ K ≤ k + fuel ∧ (0 < fuel → k < K) := by
  intro fuel
  induction fuel with
  | zero => exact fun k st s h hI => ⟨st, k, s.cb, rfl, hI, h, le_rfl, le_rfl, fun h => absurd h (lt_irrefl _)⟩
  | succ fuel ih =>
    intro k st s h hI
    obtain ⟨P', c', hrun, hI', hF', hxo', -, hxk', hgs', hyk', -, htol', -, -⟩ :=
      body_fin R hn h.fix hs hm hL0 h.hxo h.hxk h.hgs k s hI
    have hat : InnerAt A W D b sigma mu L xo tol (k + 1) P' :=
      ⟨hF', hxo', hxk', hgs', fun j hj => by obtain rfl : k = j := by omega
                                             exact hyk', htol'.trans h.htol⟩
    unfold nestaInner
    rw [nbind hrun]
    dsimp only
    split
    · exact ⟨_, k + 1, c', rfl, hI', hat, by omega, by omega, fun _ => by omega⟩
    · obtain ⟨st', K, c'', h1, h2, h3, h4, h5, -⟩ := ih (k + 1) ⟨P', _⟩ { s with cb := c' } hat hI'
      exact ⟨st', K, c'', h1, h2, h3, by omega, by omega, fun _ => by omega⟩

/-- the state at the start of a continuation step -/
structure OuterAt (A : Matrix (Fin n) (Fin m) ℝ) (D : Dbl → Prop) (b : Fin n → ℝ) (sigma mu L : ℝ)
    (xo : Fin m → ℝ) (P : NestaProb Dbl n m p) : Prop where
  fix : NFix A D P b sigma mu L
  hxo : P.xo = fvec xo
  hxk : P.xk = fvec xo

theorem reset_at {beta : ℝ} {P : NestaProb Dbl n m p} (h : OuterAt A D b sigma mu L xo P) (beta_tol : Dbl) :
    InnerAt A W D b sigma (mu * beta) L xo (P.tol_j * beta_tol) 0 (nestaReset (Dbl.fin beta) beta_tol P).P where
  fix := ⟨h.fix.hb, h.fix.hAtb, h.fix.hsigma, by
    show P.mu_j * Dbl.fin beta = _
    rw [h.fix.hmu, Dbl.fin_mul], h.fix.hL, h.fix.hd⟩
  hxo := h.hxo
  hxk := h.hxk
  hgs := by funext i; simp [nestaReset, seqR]
  hyk := fun j hj => by omega
  htol := rfl

/-- one continuation step on finite data: at least one and at most 10000 iterations of the exact sequence -/
theorem continue_fin (R : Realises ax Inv D A W) (hn : n ≤ max m p) (hs : 0 < sigma) {beta : ℝ} (hm : 0 < mu * beta) (hL0 : 0 < L)
    {P : NestaProb Dbl n m p} (h : OuterAt A D b sigma mu L xo P) (beta_tol : Dbl) (s : NState σ) (hI : Inv s.cb) :
    ∃ (P' : NestaProb Dbl n m p) (K : ℕ) (c' : σ),
      nestaContinue ax (Dbl.fin beta) beta_tol P s = some ((P', K + 1), { s with cb := c' }) ∧ Inv c' ∧ K + 1 ≤ 10000 ∧
      OuterAt A D b sigma (mu * beta) L (seqR A W b sigma (mu * beta) L xo (K + 1)).1 P' ∧
      P'.yk = fvec (seqY A W b sigma (mu * beta) L xo K) ∧ P'.tol_j = P.tol_j * beta_tol := by
  obtain ⟨st', K, c', h1, h2, h3, h4, h5, h6⟩ := inner_fin R hn hs hm hL0 (P.tol_j * beta_tol) L1C_NESTA_MAX_INNER_ITER 0 _ s
    (reset_at (W := W) h beta_tol) hI
  have h6 := h6 (by decide)
  obtain ⟨K, rfl⟩ : ∃ j, K = j + 1 := ⟨K - 1, by omega⟩
  refine ⟨{ st'.P with xo := st'.P.xk }, K, c', ?_, h2, by simpa [L1C_NESTA_MAX_INNER_ITER] using h5,
    ⟨⟨h3.fix.hb, h3.fix.hAtb, h3.fix.hsigma, h3.fix.hmu, h3.fix.hL, h3.fix.hd⟩, h3.hxk, h3.hxk⟩, h3.hyk K rfl, h3.htol⟩
  unfold nestaContinue
  rw [nbind h1]; rfl

/-- the continuation loop on finite data -/
theorem outer_fin (R : Realises ax Inv D A W) (hA : A * Aᵀ = 1) (hn : n ≤ max m p) (hs : 0 < sigma) {beta : ℝ} (hbeta : 0 < beta) (hL0 : 0 < L)
    (beta_tol : Dbl) : ∀ (fuel : ℕ) (iter : Int) (total : ℕ) (P : NestaProb Dbl n m p) (mu : ℝ) (xo : Fin m → ℝ) (s : NState σ),
      0 < mu → OuterAt A D b sigma mu L xo P → Feas A b sigma xo → iter + fuel ≤ INT_MAX → Inv s.cb →
      ∃ (P' : NestaProb Dbl n m p) (T : ℕ) (c' : σ) (x' : Fin m → ℝ),
        nestaOuter ax (Dbl.fin beta) beta_tol fuel iter total P s = some ((P', T), { s with cb := c' }) ∧ Inv c' ∧
        OuterAt A D b sigma (mu * beta ^ fuel) L x' P' ∧ Feas A b sigma x' ∧
        (∀ t bt : ℝ, P.tol_j = Dbl.fin t → beta_tol = Dbl.fin bt → P'.tol_j = Dbl.fin (t * bt ^ fuel)) := by
  intro fuel
  induction fuel with
  | zero =>
    intro iter total P mu xo s _ h hx hi hI
    refine ⟨P, total, s.cb, xo, ?_, hI, by simpa using h, hx, fun t bt ht _ => by simpa using ht⟩
    unfold nestaOuter
    rw [if_pos (by simpa using hi)]; rfl
  | succ fuel ih =>
    intro iter total P mu xo s hmu h hx hi hI
    have hmb := mul_pos hmu hbeta
    obtain ⟨P1, K, c1, h1, hI1, -, hO, -, ht⟩ := continue_fin R hn hs hmb hL0 h beta_tol s hI
    obtain ⟨P', T, c', x', h2, hI2, hO2, hf2, ht2⟩ := ih (iter + 1) (total + (K + 1)) P1 (mu * beta) _ { s with cb := c1 } hmb hO
      (seqR_feas hA hs hmb hL0 K) (by push_cast at hi; omega) hI1
    refine ⟨P', T, c', x', ?_, hI2, ?_, hf2, ?_⟩
    · unfold nestaOuter
      rw [nbind h1]; exact h2
    · rw [pow_succ', ← mul_assoc]; exact hO2
    · intro t bt h3 h4
      rw [pow_succ', ← mul_assoc]
      exact ht2 _ bt (by rw [ht, h3, h4, Dbl.fin_mul]) h4

/-! ## Largest entry -/

theorem foldl_max_fvec {k : ℕ} (x : Fin k → ℝ) (l : List (Fin k)) (a : ℝ) :
    ∃ M : ℝ, l.foldl (fun xmax i => if flt xmax (fvec x i) then fvec x i else xmax) (Dbl.fin a) = Dbl.fin M ∧
      a ≤ M ∧ (∀ i ∈ l, x i ≤ M) ∧ (M = a ∨ ∃ i ∈ l, M = x i) := by
  induction l generalizing a with
  | nil => exact ⟨a, rfl, le_rfl, by simp, Or.inl rfl⟩
  | cons i l ih =>
    rw [List.foldl_cons]
    by_cases h : a < x i
    · obtain ⟨M, h1, h2, h3, h4⟩ := ih (x i)
      refine ⟨M, ?_, by linarith, ?_, ?_⟩
      · rw [← h1]; congr 1; simp [h]
      · intro j hj
        rcases List.mem_cons.1 hj with rfl | hj
        · exact h2
        · exact h3 j hj
      · rcases h4 with h4 | ⟨j, hj, h4⟩
        · exact Or.inr ⟨i, List.mem_cons_self, h4⟩
        · exact Or.inr ⟨j, List.mem_cons_of_mem _ hj, h4⟩
    · obtain ⟨M, h1, h2, h3, h4⟩ := ih a
      refine ⟨M, ?_, h2, ?_, ?_⟩
      · rw [← h1]; congr 1; simp [h]
      · intro j hj
        rcases List.mem_cons.1 hj with rfl | hj
        · linarith
        · exact h3 j hj
      · rcases h4 with h4 | ⟨j, hj, h4⟩
        · exact Or.inl h4
        · exact Or.inr ⟨j, List.mem_cons_of_mem _ hj, h4⟩

/-- on a finite nonempty vector `vmax` is the largest entry -/
theorem vmax_fvec {k : ℕ} (hk : 0 < k) (x : Fin k → ℝ) :
    ∃ M : ℝ, vmax (fvec x) = Dbl.fin M ∧ (∀ i, x i ≤ M) ∧ ∃ i, M = x i := by
  obtain ⟨k, rfl⟩ : ∃ j, k = j + 1 := ⟨k - 1, by omega⟩
  obtain ⟨M, h1, h2, h3, h4⟩ := foldl_max_fvec (fun i => x i.succ) (List.finRange k) (x 0)
  refine ⟨M, h1, fun i => ?_, ?_⟩
  · refine Fin.cases h2 (fun j => h3 j (List.mem_finRange j)) i
  · rcases h4 with h4 | ⟨j, -, h4⟩
    · exact ⟨0, h4⟩
    · exact ⟨_, h4⟩

/-! ## Setup -/

/-- the vector whose maximum the setup takes: absolute values of the first `m` entries only -/
def absHead (m : ℕ) (w : Fin p → ℝ) : Fin p → ℝ := fun i => if i.val < m then |w i| else w i

/-- setup on finite data -/
theorem setup_fin (R : Realises ax Inv D A W) {P : NestaProb Dbl n m p} (hdA : ∀ i, D (P.Atb i)) {K : ℝ} (hK : ax.norm_W = Dbl.fin K)
    (b : Fin n → ℝ) (opts : NestaOpts Dbl) {M : ℝ} (hM : vmax (fvec (absHead m (Wᵀ *ᵥ (Aᵀ *ᵥ b)))) = Dbl.fin M)
    (s : NState σ) (hI : Inv s.cb) :
    ∃ (P' : NestaProb Dbl n m p) (c' : σ), l1c_nesta_setup ax P (fvec b) opts s =
      some ((L1C_SUCCESS, P', fexp (flog (opts.mu / Dbl.fin (9 / 10 * M)) / lit opts.n_continue),
        fexp (flog (opts.tol / Dbl.fin (1 / 10)) / lit opts.n_continue)), { s with cb := c' }) ∧ Inv c' ∧
      P'.b = fvec b ∧ P'.Atb = fvec (Aᵀ *ᵥ b) ∧ P'.sigma = opts.sigma ∧ P'.L = Dbl.fin (K * K) ∧
      P'.mu_j = Dbl.fin (9 / 10 * M) ∧ P'.tol_j = Dbl.fin (1 / 10) ∧ P'.xo = fvec (Aᵀ *ᵥ b) ∧
      ((∀ i, D (P.dwork1 i)) → ∀ i, D (P'.dwork1 i)) := by
  have hnone : ¬ (ax.Wz.isNone ∨ ax.Wtx.isNone ∨ ax.hasRx = false ∨ ax.hasRty = false) := by
    obtain ⟨g, hg, -⟩ := R.Wz
    obtain ⟨g', hg', -⟩ := R.Wtx
    simp [hg, hg', R.hasRx, R.hasRty]
  obtain ⟨c1, hc1, hI1⟩ := R.Aty.call b P.Atb hdA s hI
  obtain ⟨c2, hc2, hI2⟩ := R.Wtx.call (Aᵀ *ᵥ b) (fun i => P.dwork1 ⟨0 + i.val, by omega⟩) (fun _ => trivial) { s with cb := c1 } hI1
  set w := Wᵀ *ᵥ (Aᵀ *ᵥ b) with hw
  obtain ⟨d1, hd1, hv1⟩ := writeAt_val (le_max_right m p) (fvec w) P.dwork1
  have hs1 := slice_eq (m := m) 0 (by omega) d1
  obtain ⟨d2, hd2, hv2⟩ := writeAt_val (le_max_left m p) (fun i : Fin m => fabs (d1 ⟨0 + i.val, by omega⟩)) d1
  have hs2 : slice p 0 d2 = some (fvec (absHead m w)) := by
    rw [slice_eq 0 (by omega)]
    congr 1
    funext i
    rw [hv2]
    simp only [hv1, absHead, fvec_apply, zero_add, i.isLt, dif_pos]
    split <;> simp
  refine ⟨{ P with b := fvec b, sigma := opts.sigma, mu := opts.mu, L := Dbl.fin (K * K), tol := opts.tol, Atb := fvec (Aᵀ *ᵥ b), xo := fvec (Aᵀ *ᵥ b), dwork1 := d2, mu_j := Dbl.fin (9 / 10 * M), tol_j := Dbl.fin (1 / 10) }, c2, ?_, hI2, rfl, rfl, rfl, rfl, rfl, rfl, rfl, fun hd j => ?_⟩
  swap
  · show D (d2 j)
    rw [hv2]
    split
    · rw [hv1]
      split
      · rw [fvec_apply, Dbl.fabs_fin]; exact R.fin _
      · exact R.abs _ (hd _)
    · rw [hv1]
      split
      · exact R.fin _
      · exact hd j
  unfold l1c_nesta_setup
  rw [if_neg hnone]
  dsimp only
  rw [nbind hc1, nbind (nlift_some (slice_eq 0 (by omega) P.dwork1) _), nbind hc2, nbind (nlift_some hd1 _),
    nbind (nlift_some hs1 _), nbind (nlift_some hd2 _), nbind (nlift_some hs2 _), npure, hM, hK, Dbl.fin_mul]
  have h9 : (lit (9 / 10) * Dbl.fin M : Dbl) = Dbl.fin (9 / 10 * M) := by
    rw [Dbl.lit_eq, Dbl.fin_mul]; push_cast; rfl
  have h1 : (lit (1 / 10) : Dbl) = Dbl.fin (1 / 10) := by rw [Dbl.lit_eq]; push_cast; rfl
  rw [h9, h1]

end L1c
