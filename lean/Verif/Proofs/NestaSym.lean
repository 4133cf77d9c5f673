import Verif.Proofs.NestaFin
import Verif.Proofs.TvSym

/-! # Two runs of NESTA whose data differ by a symmetry of the problem -/

namespace L1c
open Scalar Matrix

variable {n m p : ℕ} {σ τ : Type}

/-- entries permuted and some of their signs changed -/
def sgnPerm (e : Fin p → ℝ) (f : Equiv.Perm (Fin p)) (z : Fin p → ℝ) : Fin p → ℝ := fun i => e i * z (f i)

/-- the image is transformed by `S`, the samples by `T`, the coefficients by a permutation with changes of sign -/
structure SymR (A A' : Matrix (Fin n) (Fin m) ℝ) (W W' : Matrix (Fin m) (Fin p) ℝ) (S : (Fin m → ℝ) →ₗ[ℝ] Fin m → ℝ) (T : (Fin n → ℝ) →ₗ[ℝ] Fin n → ℝ)
    (e : Fin p → ℝ) (f : Equiv.Perm (Fin p)) : Prop where
  hA : ∀ x, A' *ᵥ S x = T (A *ᵥ x)
  hAt : ∀ y, A'ᵀ *ᵥ T y = S (Aᵀ *ᵥ y)
  hW : ∀ z, W' *ᵥ sgnPerm e f z = S (W *ᵥ z)
  hWt : ∀ x, W'ᵀ *ᵥ S x = sgnPerm e f (Wᵀ *ᵥ x)
  hT : ∀ y, nrm (T y) = nrm y
  he : ∀ i, e i = 1 ∨ e i = -1

variable {A A' : Matrix (Fin n) (Fin m) ℝ} {W W' : Matrix (Fin m) (Fin p) ℝ} {S : (Fin m → ℝ) →ₗ[ℝ] Fin m → ℝ} {T : (Fin n → ℝ) →ₗ[ℝ] Fin n → ℝ}
  {e : Fin p → ℝ} {f : Equiv.Perm (Fin p)} {b : Fin n → ℝ} {sigma mu L c : ℝ}

/-! ## The textbook method -/

theorem smU_scale (hc : 0 < c) (mu w : ℝ) : smU (c * mu) (c * w) = smU mu w := by
  unfold smU
  rw [abs_mul, abs_of_pos hc, ← mul_max_of_nonneg _ _ hc.le, mul_div_mul_left _ _ hc.ne']

theorem smU_sign {a : ℝ} (ha : a = 1 ∨ a = -1) (mu w : ℝ) : smU mu (a * w) = a * smU mu w := by
  unfold smU
  have : |a| = 1 := by rcases ha with rfl | rfl <;> simp
  rw [abs_mul, this, one_mul, mul_div_assoc]

theorem smUv_sym (he : ∀ i, e i = 1 ∨ e i = -1) (hc : 0 < c) (w : Fin p → ℝ) : smUv (c * mu) (c • sgnPerm e f w) = sgnPerm e f (smUv mu w) := by
  funext i
  show smU (c * mu) (c * (e i * w (f i))) = e i * smU mu (w (f i))
  rw [smU_scale hc, smU_sign (he i)]

theorem smF_sym (he : ∀ i, e i = 1 ∨ e i = -1) (hc : 0 < c) (w : Fin p → ℝ) : smF (c * mu) (c • sgnPerm e f w) = c * smF mu w := by
  unfold smF
  rw [Finset.mul_sum, ← Equiv.sum_comp f fun i => c * smV mu (w i)]
  refine Finset.sum_congr rfl fun i _ => ?_
  show smV (c * mu) (c * (e i * w (f i))) = _
  unfold smV
  rw [smU_scale hc, smU_sign (he i)]
  have : e i * e i = 1 := by rcases he i with h | h <;> rw [h] <;> norm_num
  linear_combination (c * (smU mu (w (f i)) * w (f i)) - c * mu / 2 * (smU mu (w (f i)) * smU mu (w (f i)))) * this

theorem gradR_sym (h : SymR A A' W W' S T e f) (hc : 0 < c) (x : Fin m → ℝ) : gradR (c * mu) W' (c • S x) = S (gradR mu W x) := by
  unfold gradR
  rw [mulVec_smul, h.hWt, smUv_sym h.he hc, h.hW]

theorem projR_sym (h : SymR A A' W W' S T e f) (hc : 0 < c) (x g : Fin m → ℝ) (k : ℝ) :
    projR A' (c • T b) (c * sigma) (k / c) (c • S x) (S g) = c • S (projR A b sigma k x g) := by
  have hq : c • S x - (1 / (k / c)) • S g = c • S (x - (1 / k) • g) := by
    rw [map_sub, map_smul, smul_sub, smul_smul]
    congr 2
    rw [one_div_div, mul_one_div]
  unfold projR
  rw [hq]
  set q := x - (1 / k) • g
  have hr : c • T b - A' *ᵥ (c • S q) = c • T (b - A *ᵥ q) := by
    rw [mulVec_smul, h.hA, map_sub, smul_sub]
  have hl : projLam A' (c • T b) (c * sigma) (k / c) (c • S q) = projLam A b sigma k q / c := by
    unfold projLam
    rw [hr, nrm_smul, abs_of_pos hc, h.hT, mul_div_mul_left _ _ hc.ne', ← max_div_div_right hc.le, zero_div, div_mul_eq_mul_div]
  have ha : projA1 A' (c • T b) (c * sigma) (k / c) (c • S q) = projA1 A b sigma k q := by
    unfold projA1
    rw [hl, ← add_div, div_div_div_cancel_right₀ hc.ne']
  rw [ha, hr, mulVec_smul, h.hAt, map_add, map_smul, smul_add, smul_comm c]

theorem seqR_sym (h : SymR A A' W W' S T e f) (hc : 0 < c) (xo : Fin m → ℝ) (k : ℕ) :
    seqR A' W' (c • T b) (c * sigma) (c * mu) L (c • S xo) k =
      (c • S (seqR A W b sigma mu L xo k).1, S (seqR A W b sigma mu L xo k).2) := by
  induction k with
  | zero => simp [seqR]
  | succ k ih =>
    have hL : L / (c * mu) = L / mu / c := by rw [div_div, mul_comm]
    have hg : ((k + 1 : ℝ) / 2) • S (gradR mu W (seqR A W b sigma mu L xo k).1) + S (seqR A W b sigma mu L xo k).2 =
        S (((k + 1 : ℝ) / 2) • gradR mu W (seqR A W b sigma mu L xo k).1 + (seqR A W b sigma mu L xo k).2) := by
      rw [map_add, map_smul]
    simp only [seqR, ih, bodyR, gradR_sym h hc, hL, hg, projR_sym h hc]
    congr 1
    rw [map_add, map_smul, map_smul]
    module

/-! ## The window -/

/-- one window holds `c` times what the other holds -/
def FifoScaled (c : ℝ) (q q' : Fifo Dbl) : Prop := q'.n_total = q.n_total ∧ q'.next = q.next ∧ ∃ v : Fin 10 → ℝ, q.f_vals = fvec v ∧ q'.f_vals = fvec (c • v)

theorem FifoScaled.new : FifoScaled c fifoNew fifoNew := ⟨rfl, rfl, 0, by funext i; simp [fifoNew], by funext i; simp [fifoNew]⟩

theorem FifoScaled.push {q q' : Fifo Dbl} (h : FifoScaled c q q') (x : ℝ) : FifoScaled c (fifoPush q (.fin x)) (fifoPush q' (.fin (c * x))) := by
  obtain ⟨v, n, nx⟩ := q
  obtain ⟨v', n', nx'⟩ := q'
  obtain ⟨h1, h2, u, h3, h4⟩ := h
  dsimp only at h1 h2 h3 h4
  subst h1 h2 h3 h4
  refine ⟨rfl, rfl, Function.update u nx' x, ?_, ?_⟩
  · funext i
    simp only [fifoPush, Function.update_apply, fvec_apply]
    split <;> rfl
  · funext i
    simp only [fifoPush, Function.update_apply, fvec_apply, Pi.smul_apply, smul_eq_mul]
    split <;> rfl

/-- the test that ends a continuation step gives the same answer -/
theorem FifoScaled.stop {q q' : Fifo Dbl} (h : FifoScaled c q q') (hc : 0 < c) (x : ℝ) :
    fabs (Dbl.fin (c * x) - fifoMean q') / fifoMean q' = fabs (Dbl.fin x - fifoMean q) / fifoMean q := by
  obtain ⟨v, n, nx⟩ := q
  obtain ⟨v', n', nx'⟩ := q'
  obtain ⟨h1, h2, u, h3, h4⟩ := h
  dsimp only at h1 h2 h3 h4
  subst h1 h2 h3 h4
  have hs : ∑ i, (c • u) i = c * ∑ i, u i := by rw [Finset.mul_sum]; rfl
  unfold fifoMean
  dsimp only
  rw [dsum_fvec, dsum_fvec, hs, Dbl.lit_eq]
  generalize ∑ i, u i = a
  by_cases hn : ((n' : ℚ) : ℝ) = 0
  · rw [hn]
    have e : (Dbl.fin (c * a) / Dbl.fin 0 : Dbl) = Dbl.fin a / Dbl.fin 0 := by
      have := fin_div_scale (a := a) (b := 0) hc
      rwa [mul_zero] at this
    rw [e]
    have hv : ∀ v : Dbl, (v = .nan ∨ v = .pinf ∨ v = .ninf) → fabs (Dbl.fin (c * x) - v) / v = fabs (Dbl.fin x - v) / v := by
      rintro v (rfl | rfl | rfl) <;> rfl
    apply hv
    rw [Dbl.fin_div', if_pos rfl]
    unfold Dbl.infMul
    split
    · exact Or.inl rfl
    · split
      · exact Or.inr (Or.inl rfl)
      · exact Or.inr (Or.inr rfl)
  · rw [Dbl.fin_div hn, Dbl.fin_div hn, Dbl.fin_sub, Dbl.fin_sub, Dbl.fabs_fin, Dbl.fabs_fin, mul_div_assoc, ← mul_sub, abs_mul, abs_of_pos hc, fin_div_scale hc]

/-! ## Both runs -/

section runs
variable {Inv : σ → Prop} {Inv' : τ → Prop} {D D' : Dbl → Prop} {ax : NAx Dbl σ n m p} {ax' : NAx Dbl τ n m p}

theorem inner_sym (h : SymR A A' W W' S T e f) (hc : 0 < c) (R : Realises ax Inv D A W) (R' : Realises ax' Inv' D' A' W') (hn : n ≤ max m p) (hs : 0 < sigma)
    (hm : 0 < mu) (hL0 : 0 < L) {xo : Fin m → ℝ} (tol : Dbl) : ∀ (fuel k : ℕ) (st st' : NLoop Dbl n m p) (s : NState σ) (s' : NState τ),
      InnerAt A W D b sigma mu L xo tol k st.P → InnerAt A' W' D' (c • T b) (c * sigma) (c * mu) L (c • S xo) tol k st'.P → FifoScaled c st.fifo st'.fifo →
      Inv s.cb → Inv' s'.cb →
      ∃ (r r' : NLoop Dbl n m p) (K : ℕ) (d : σ) (d' : τ), nestaInner ax fuel k st s = some ((r, K), { s with cb := d }) ∧ Inv d ∧
        nestaInner ax' fuel k st' s' = some ((r', K), { s' with cb := d' }) ∧ Inv' d' ∧
        InnerAt A W D b sigma mu L xo tol K r.P ∧ InnerAt A' W' D' (c • T b) (c * sigma) (c * mu) L (c • S xo) tol K r'.P := by
  intro fuel
  induction fuel with
  | zero => exact fun k st st' s s' h1 h2 _ i1 i2 => ⟨st, st', k, s.cb, s'.cb, rfl, i1, rfl, i2, h1, h2⟩
  | succ fuel ih =>
    intro k st st' s s' h1 h2 hf i1 i2
    obtain ⟨P, d, hrun, hI, hF, hxo, -, hxk, hgs, hyk, -, htol, -, -⟩ := body_fin R hn h1.fix hs hm hL0 h1.hxo h1.hxk h1.hgs k s i1
    obtain ⟨P', d', hrun', hI', hF', hxo', -, hxk', hgs', hyk', -, htol', -, -⟩ :=
      body_fin R' hn h2.fix (mul_pos hc hs) (mul_pos hc hm) hL0 h2.hxo h2.hxk h2.hgs k s' i2
    have hat : InnerAt A W D b sigma mu L xo tol (k + 1) P :=
      ⟨hF, hxo, hxk, hgs, fun j hj => by obtain rfl : k = j := by omega
                                         exact hyk, htol.trans h1.htol⟩
    have hat' : InnerAt A' W' D' (c • T b) (c * sigma) (c * mu) L (c • S xo) tol (k + 1) P' :=
      ⟨hF', hxo', hxk', hgs', fun j hj => by obtain rfl : k = j := by omega
                                             exact hyk', htol'.trans h2.htol⟩
    have hfx : smF (c * mu) (W'ᵀ *ᵥ (seqR A' W' (c • T b) (c * sigma) (c * mu) L (c • S xo) k).1) = c * smF mu (Wᵀ *ᵥ (seqR A W b sigma mu L xo k).1) := by
      rw [seqR_sym h hc, mulVec_smul, h.hWt, smF_sym h.he hc]
    rw [hfx, hf.stop hc, h2.htol] at hrun'
    rw [h1.htol] at hrun
    unfold nestaInner
    rw [nbind hrun, nbind hrun']
    dsimp only
    split
    · exact ⟨_, _, k + 1, d, d', rfl, hI, rfl, hI', hat, hat'⟩
    · exact ih (k + 1) ⟨P, _⟩ ⟨P', _⟩ { s with cb := d } { s' with cb := d' } hat hat' (hf.push _) hI hI'

theorem continue_sym (h : SymR A A' W W' S T e f) (hc : 0 < c) (R : Realises ax Inv D A W) (R' : Realises ax' Inv' D' A' W') (hn : n ≤ max m p) (hs : 0 < sigma)
    {beta : ℝ} (hm : 0 < mu * beta) (hL0 : 0 < L) {xo : Fin m → ℝ} {bt : Dbl} {P P' : NestaProb Dbl n m p} (h1 : OuterAt A D b sigma mu L xo P)
    (h2 : OuterAt A' D' (c • T b) (c * sigma) (c * mu) L (c • S xo) P') (ht : P'.tol_j = P.tol_j) (s : NState σ) (s' : NState τ) (i1 : Inv s.cb) (i2 : Inv' s'.cb) :
    ∃ (Q Q' : NestaProb Dbl n m p) (K : ℕ) (d : σ) (d' : τ) (x : Fin m → ℝ), nestaContinue ax (Dbl.fin beta) bt P s = some ((Q, K), { s with cb := d }) ∧ Inv d ∧
      nestaContinue ax' (Dbl.fin beta) bt P' s' = some ((Q', K), { s' with cb := d' }) ∧ Inv' d' ∧ OuterAt A D b sigma (mu * beta) L x Q ∧
      OuterAt A' D' (c • T b) (c * sigma) (c * (mu * beta)) L (c • S x) Q' ∧ Q'.tol_j = Q.tol_j := by
  have r2 := reset_at (W := W') (beta := beta) h2 bt
  rw [ht, mul_assoc c] at r2
  obtain ⟨r, r', K, d, d', e1, e2, e3, e4, e5, e6⟩ := inner_sym h hc R R' hn hs hm hL0 (P.tol_j * bt) L1C_NESTA_MAX_INNER_ITER 0 _ _ s s' (reset_at (W := W) h1 bt) r2 .new i1 i2
  refine ⟨{ r.P with xo := r.P.xk }, { r'.P with xo := r'.P.xk }, K, d, d', (seqR A W b sigma (mu * beta) L xo K).1, ?_, e2, ?_, e4,
    ⟨⟨e5.fix.hb, e5.fix.hAtb, e5.fix.hsigma, e5.fix.hmu, e5.fix.hL, e5.fix.hd⟩, e5.hxk, e5.hxk⟩, ?_, e6.htol.trans e5.htol.symm⟩
  · unfold nestaContinue
    rw [nbind e1]; rfl
  · unfold nestaContinue
    rw [nbind e3]; rfl
  · have := e6.hxk
    rw [seqR_sym h hc] at this
    exact ⟨⟨e6.fix.hb, e6.fix.hAtb, e6.fix.hsigma, e6.fix.hmu, e6.fix.hL, e6.fix.hd⟩, this, this⟩

theorem outer_sym (h : SymR A A' W W' S T e f) (hc : 0 < c) (R : Realises ax Inv D A W) (R' : Realises ax' Inv' D' A' W') (hn : n ≤ max m p) (hs : 0 < sigma)
    {beta : ℝ} (hbeta : 0 < beta) (hL0 : 0 < L) (bt : Dbl) : ∀ (fuel : ℕ) (iter : Int) (total : ℕ) (P P' : NestaProb Dbl n m p) (mu : ℝ) (xo : Fin m → ℝ)
      (s : NState σ) (s' : NState τ), 0 < mu → OuterAt A D b sigma mu L xo P → OuterAt A' D' (c • T b) (c * sigma) (c * mu) L (c • S xo) P' → P'.tol_j = P.tol_j →
      iter + fuel ≤ INT_MAX → Inv s.cb → Inv' s'.cb →
      ∃ (Q Q' : NestaProb Dbl n m p) (K : ℕ) (d : σ) (d' : τ) (x : Fin m → ℝ), nestaOuter ax (Dbl.fin beta) bt fuel iter total P s = some ((Q, K), { s with cb := d }) ∧
        nestaOuter ax' (Dbl.fin beta) bt fuel iter total P' s' = some ((Q', K), { s' with cb := d' }) ∧ Q.xk = fvec x ∧ Q'.xk = fvec (c • S x) := by
  intro fuel
  induction fuel with
  | zero =>
    intro iter total P P' mu xo s s' _ h1 h2 _ hi i1 i2
    refine ⟨P, P', total, s.cb, s'.cb, xo, ?_, ?_, h1.hxk, h2.hxk⟩ <;> unfold nestaOuter <;> rw [if_pos (by simpa using hi)] <;> rfl
  | succ fuel ih =>
    intro iter total P P' mu xo s s' hmu h1 h2 ht hi i1 i2
    have hmb := mul_pos hmu hbeta
    obtain ⟨Q, Q', K, d, d', x, e1, e2, e3, e4, e5, e6, e7⟩ := continue_sym h hc R R' hn hs hmb hL0 (bt := bt) h1 h2 ht s s' i1 i2
    obtain ⟨q, q', k, g, g', y, f1, f2, f3, f4⟩ := ih (iter + 1) (total + K) Q Q' (mu * beta) x { s with cb := d } { s' with cb := d' } hmb e5 e6 e7
      (by push_cast at hi; omega) e2 e4
    refine ⟨q, q', k, g, g', y, ?_, ?_, f3, f4⟩
    · unfold nestaOuter
      rw [nbind e1]; exact f1
    · unfold nestaOuter
      rw [nbind e3]; exact f2

theorem nesta_sym (h : SymR A A' W W' S T e f) (hc : 0 < c) (R : Realises ax Inv D A W) (R' : Realises ax' Inv' D' A' W') (hA : A * Aᵀ = 1) (hs : 0 < sigma)
    (hm : 0 < mu) {K M : ℝ} (hK : ax.norm_W = Dbl.fin K) (hK' : ax'.norm_W = Dbl.fin K) (hK0 : K ≠ 0)
    (hM : vmax (fvec (absHead m (Wᵀ *ᵥ (Aᵀ *ᵥ b)))) = Dbl.fin M) (hM' : vmax (fvec (absHead m (W'ᵀ *ᵥ (A'ᵀ *ᵥ (c • T b))))) = Dbl.fin (c * M)) (hM0 : 0 < M)
    {tol : Dbl} {N : Int} (hN : 1 ≤ N) (hN' : N < INT_MAX) {xk xk' : Vec Dbl m} {s s1 : NState σ} {s' s1' : NState τ} (hI : Inv s.cb) (hI' : Inv' s'.cb) (hwf : s.WF) (hwf' : s'.WF)
    (hal : ∀ i < 10, s.oracle (s.calls + i) = true) (hal' : ∀ i < 10, s'.oracle (s'.calls + i) = true) {o o' : NestaOut Dbl n m p}
    (hr : l1c_nesta m n xk (fvec b) ax ⟨.fin sigma, .fin mu, tol, N⟩ s = some (o, s1))
    (hr' : l1c_nesta m n xk' (fvec (c • T b)) ax' ⟨.fin (c * sigma), .fin (c * mu), tol, N⟩ s' = some (o', s1')) :
    ∃ x : Fin m → ℝ, o.xk = fvec x ∧ o'.xk = fvec (c • S x) := by
  obtain ⟨q, e1, -, -, hrun⟩ := nesta_after_setup xk (fvec b) ax ⟨.fin sigma, .fin mu, tol, N⟩ s hwf hal R.notMissing
  obtain ⟨q', e1', -, -, hrun'⟩ := nesta_after_setup xk' (fvec (c • T b)) ax' ⟨.fin (c * sigma), .fin (c * mu), tol, N⟩ s' hwf' hal' R'.notMissing
  obtain ⟨P, d, h1, hI1, f1, f2, f3, f4, f5, f6, f7, f8⟩ := setup_fin R (P := nestaZero (fvec b)) R.zero hK b ⟨.fin sigma, .fin mu, tol, N⟩ hM q (e1 ▸ hI)
  obtain ⟨P', d', h1', hI1', f1', f2', f3', f4', f5', f6', f7', f8'⟩ := setup_fin R' (P := nestaZero (fvec (c • T b))) R'.zero hK' (c • T b)
    ⟨.fin (c * sigma), .fin (c * mu), tol, N⟩ hM' q' (e1' ▸ hI')
  have hmu0 : 0 < 9 / 10 * M := by positivity
  have hc9 : 9 / 10 * (c * M) = c * (9 / 10 * M) := by ring
  obtain ⟨beta, hbeta, hb0, -, -⟩ := beta_fin hm hmu0 hN
  dsimp only at h1 h1'
  rw [hc9, Dbl.fin_div (mul_pos hc hmu0).ne', mul_div_mul_left _ _ hc.ne', ← Dbl.fin_div hmu0.ne', hbeta] at h1'
  rw [hbeta] at h1
  rw [hrun, h1, Option.bind_some] at hr
  rw [hrun', h1', Option.bind_some] at hr'
  split at hr
  swap
  · cases hr
  split at hr'
  swap
  · cases hr'
  have hat : OuterAt A D b sigma (9 / 10 * M) (K * K) (Aᵀ *ᵥ b) { P with xk := P.xo } := ⟨⟨f1, f2, f3, f5, f4, f8 R.zero⟩, f7, f7⟩
  have hS : A'ᵀ *ᵥ (c • T b) = c • S (Aᵀ *ᵥ b) := by rw [mulVec_smul, h.hAt]
  have hat' : OuterAt A' D' (c • T b) (c * sigma) (c * (9 / 10 * M)) (K * K) (c • S (Aᵀ *ᵥ b)) { P' with xk := P'.xo } :=
    ⟨⟨f1', f2', f3', f5'.trans (by rw [hc9]), f4', f8' R'.zero⟩, hS ▸ f7', hS ▸ f7'⟩
  obtain ⟨Q, Q', k, g, g', x, k1, k2, k3, k4⟩ := outer_sym h hc R R' ((rows_le hA).trans (le_max_left m p)) hs hb0 (mul_self_pos.2 hK0)
    (fexp (flog (tol / Dbl.fin (1 / 10)) / lit N)) N.toNat 1 0 _ _ _ _
    { q with live := insert q.next q.live, next := q.next + 1, calls := q.calls + 1, cb := d }
    { q' with live := insert q'.next q'.live, next := q'.next + 1, calls := q'.calls + 1, cb := d' } hmu0 hat hat' (f6'.trans f6.symm) (by omega) hI1 hI1'
  dsimp only at hr hr'
  rw [k1, Option.map_some] at hr
  rw [k2, Option.map_some] at hr'
  cases hr
  cases hr'
  exact ⟨x, k3, k4⟩

end runs

end L1c
