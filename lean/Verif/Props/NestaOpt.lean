import Verif.Proofs.NestaOpt
import Verif.Props.Nesta

/-!
# C67: how close the point returned by NESTA is to the optimum

`C44` speaks about the points `y`; the routine returns the mixed point `x`.
-/

namespace L1c
open Scalar Matrix

variable {n m p : ℕ} {σ : Type}
variable {A : Matrix (Fin n) (Fin m) ℝ} {W : Matrix (Fin m) (Fin p) ℝ} {Inv : σ → Prop} {D : Dbl → Prop} {ax : NAx Dbl σ n m p}
variable {b : Fin n → ℝ} {sigma mu K : ℝ} {opts : NestaOpts Dbl}

/-- the start value of the smoothing parameter is positive -/
theorem start_pos (hdata : ∃ i : Fin p, (i.val < m ∧ (Wᵀ *ᵥ (Aᵀ *ᵥ b)) i ≠ 0) ∨ 0 < (Wᵀ *ᵥ (Aᵀ *ᵥ b)) i) :
    ∃ M : ℝ, vmax (fvec (absHead m (Wᵀ *ᵥ (Aᵀ *ᵥ b)))) = Dbl.fin M ∧ 0 < M := by
  obtain ⟨i, hi⟩ := hdata
  obtain ⟨M, h1, h2, -⟩ := vmax_fvec (Nat.pos_of_ne_zero fun h => by subst h; exact i.elim0) (absHead m (Wᵀ *ᵥ (Aᵀ *ᵥ b)))
  refine ⟨M, h1, lt_of_lt_of_le ?_ (h2 i)⟩
  unfold absHead
  rcases hi with ⟨h3, h4⟩ | h3
  · rw [if_pos h3]; exact abs_pos.2 h4
  · split
    · exact abs_pos.2 h3.ne'
    · exact h3

theorem nestaErr_mono {k : ℕ} (hm : 0 < mu) (hK0 : 0 < K) {d d' : ℝ} (h0 : 0 ≤ d) (h : d ≤ d') : nestaErr p K mu k d ≤ nestaErr p K mu k d' := by
  have hk : (0 : ℝ) ≤ k := Nat.cast_nonneg k
  have ht1 : 0 ≤ 1 - 2 / (k + 2 : ℝ) := by
    rw [sub_nonneg, div_le_one (by linarith)]; linarith
  unfold nestaErr
  have e1 : d ^ 2 ≤ d' ^ 2 := pow_le_pow_left₀ h0 h 2
  gcongr

/-- **C67**.  A run on finite data with a dictionary of norm at most `norm_W` returns a point whose 1-norm of `Wᵀ x` exceeds that of
every point satisfying the constraint by at most `p mu / 2` plus the error bound of the last continuation step: `k` is the number of
its iterations, `xo` the point that the steps before it arrived at (`Aᵀ b` if there are none), `w` any minimiser of the smoothed problem. -/
theorem C67_optimality (R : Realises ax Inv D A W) (hA : A * Aᵀ = 1)
    (hsig : opts.sigma = Dbl.fin sigma) (hs : 0 < sigma) (hmu : opts.mu = Dbl.fin mu) (hm : 0 < mu)
    (hK : ax.norm_W = Dbl.fin K) (hK0 : 0 < K) (hW : ∀ x, nrm (Wᵀ *ᵥ x) ≤ K * nrm x)
    (hdata : ∃ i : Fin p, (i.val < m ∧ (Wᵀ *ᵥ (Aᵀ *ᵥ b)) i ≠ 0) ∨ 0 < (Wᵀ *ᵥ (Aᵀ *ᵥ b)) i)
    (hN : 1 ≤ opts.n_continue) (hN' : opts.n_continue < INT_MAX) (xk : Vec Dbl m) (s : NState σ) (hI : Inv s.cb) (hwf : s.WF)
    (hal : ∀ i < 11, s.oracle (s.calls + i) = true) :
    ∃ (x xo : Fin m → ℝ) (k T : ℕ) (out : NestaOut Dbl n m p) (s' : NState σ), l1c_nesta m n xk (fvec b) ax opts s = some (out, s') ∧
      out.status = L1C_SUCCESS ∧ out.xk = fvec x ∧ out.inner = T + k ∧ 1 ≤ k ∧ k ≤ 10000 ∧ Feas A b sigma x ∧ Feas A b sigma xo ∧
      (opts.n_continue = 1 → xo = Aᵀ *ᵥ b ∧ T = 0) ∧
      (∃ (P1 P2 : NestaProb Dbl n m p) (bm bt : Dbl) (s1 s2 s3 s4 : NState σ),
        l1c_nesta_setup ax (nestaZero (fvec b)) (fvec b) opts s1 = some ((L1C_SUCCESS, P1, bm, bt), s2) ∧
        nestaOuter ax bm bt (opts.n_continue.toNat - 1) 1 0 { P1 with xk := P1.xo } s3 = some ((P2, T), s4) ∧ P2.xk = fvec xo) ∧
      ∀ w, IsSmoothMin A b sigma mu W w → ∀ v, Feas A b sigma v →
        ∑ i, |(Wᵀ *ᵥ x) i| ≤ ∑ i, |(Wᵀ *ᵥ v) i| + p * mu / 2 + nestaErr p K mu k (nrm (w - xo)) := by
  obtain ⟨M, hM, hM0⟩ := start_pos hdata
  obtain ⟨xo, k, T, P', s', h1, h2, h3, h4, P1, P2, bm, bt, s1, s2, s3, g1, g2, g3⟩ :=
    nesta_last R hA hsig hs hmu hm hK hK0.ne' hM hM0 hN hN' xk s hI hwf hal
  refine ⟨_, xo, k + 1, T, _, s', h1, rfl, rfl, rfl, by omega, h3, seqR_feas hA hs hm (mul_self_pos.2 hK0.ne') k, h2, h4,
    ⟨P1, P2, bm, bt, s1, s2, _, s3, g1, g2, g3⟩, fun w hw v hv => ?_⟩
  have hmin : ∀ v, Feas A b sigma v → smF mu (Wᵀ *ᵥ w) ≤ smF mu (Wᵀ *ᵥ v) := fun v hv =>
    hw.2 v _ _ hv (smF_isSmooth hm _) (smF_isSmooth hm _)
  have a1 := seqR_opt hA hs hm hK0 hW (xo := xo) hw.1 hmin k
  have a2 := hmin v hv
  have a3 := smF_le_l1 hm (Wᵀ *ᵥ v)
  have a4 := l1_le_smF hm (Wᵀ *ᵥ (seqR A W b sigma mu (K * K) xo (k + 1)).1)
  linarith

/-- Such a minimiser exists when the dictionary separates points, and it is not far from the origin. -/
theorem C67_minimiser (hm : 0 < mu) {a : ℝ} (ha : 0 < a) (hW : ∀ x, a * nrm x ≤ nrm (Wᵀ *ᵥ x)) {x0 : Fin m → ℝ} (hx0 : Feas A b sigma x0) :
    ∃ w, IsSmoothMin A b sigma mu W w ∧ a * nrm w ≤ ∑ i, |(Wᵀ *ᵥ x0) i| + p * mu / 2 := by
  obtain ⟨w, h1, h2, h3⟩ := exists_smooth_min (A := A) (b := b) (sigma := sigma) hm ha hW hx0
  refine ⟨w, ⟨h1, fun v fw fv hv hfw hfv => ?_⟩, h3.trans ?_⟩
  · rw [hfw.unique (smF_isSmooth hm _), hfv.unique (smF_isSmooth hm _)]
    exact h2 v hv
  · have := smF_le_l1 hm (Wᵀ *ᵥ x0)
    linarith

/-- With a nonpositive tolerance no continuation step ends early. -/
theorem C67_full_length (R : Realises ax Inv D A W) (hA : A * Aᵀ = 1) {t : ℝ}
    (hsig : opts.sigma = Dbl.fin sigma) (hs : 0 < sigma) (hmu : opts.mu = Dbl.fin mu) (hm : 0 < mu) (htol : opts.tol = Dbl.fin t) (ht : t ≤ 0)
    (hK : ax.norm_W = Dbl.fin K) (hK0 : K ≠ 0)
    (hdata : ∃ i : Fin p, (i.val < m ∧ (Wᵀ *ᵥ (Aᵀ *ᵥ b)) i ≠ 0) ∨ 0 < (Wᵀ *ᵥ (Aᵀ *ᵥ b)) i)
    (hN : 1 ≤ opts.n_continue) (xk : Vec Dbl m) (s : NState σ) (hI : Inv s.cb) (hwf : s.WF)
    (hal : ∀ i < 11, s.oracle (s.calls + i) = true) {out : NestaOut Dbl n m p} {s' : NState σ}
    (hrun : l1c_nesta m n xk (fvec b) ax opts s = some (out, s')) : (out.inner : Int) = 10000 * opts.n_continue := by
  obtain ⟨M, hM, hM0⟩ := start_pos hdata
  exact nesta_full R hA hsig hs hmu hm htol ht hK hK0 hM hM0 hN xk s hI hwf hal hrun

/-- A bound in terms of the arguments only: one continuation step, nonpositive tolerance, and a dictionary with
`a ‖x‖ ≤ ‖Wᵀ x‖ ≤ norm_W ‖x‖`. -/
theorem C67_closed (R : Realises ax Inv D A W) (hA : A * Aᵀ = 1) {t a : ℝ}
    (hsig : opts.sigma = Dbl.fin sigma) (hs : 0 < sigma) (hmu : opts.mu = Dbl.fin mu) (hm : 0 < mu) (htol : opts.tol = Dbl.fin t) (ht : t ≤ 0)
    (hK : ax.norm_W = Dbl.fin K) (hK0 : 0 < K) (hW : ∀ x, nrm (Wᵀ *ᵥ x) ≤ K * nrm x) (ha : 0 < a) (hWa : ∀ x, a * nrm x ≤ nrm (Wᵀ *ᵥ x))
    (hdata : ∃ i : Fin p, (i.val < m ∧ (Wᵀ *ᵥ (Aᵀ *ᵥ b)) i ≠ 0) ∨ 0 < (Wᵀ *ᵥ (Aᵀ *ᵥ b)) i)
    (hN : opts.n_continue = 1) (xk : Vec Dbl m) (s : NState σ) (hI : Inv s.cb) (hwf : s.WF)
    (hal : ∀ i < 11, s.oracle (s.calls + i) = true) :
    ∃ (x : Fin m → ℝ) (out : NestaOut Dbl n m p) (s' : NState σ), l1c_nesta m n xk (fvec b) ax opts s = some (out, s') ∧
      out.status = L1C_SUCCESS ∧ out.xk = fvec x ∧ Feas A b sigma x ∧ ∀ v, Feas A b sigma v →
        ∑ i, |(Wᵀ *ᵥ x) i| ≤ ∑ i, |(Wᵀ *ᵥ v) i| + p * mu / 2 +
          nestaErr p K mu 10000 ((∑ i, |(Wᵀ *ᵥ (Aᵀ *ᵥ b)) i| + p * mu / 2) / a + nrm (Aᵀ *ᵥ b)) := by
  obtain ⟨x, xo, k, T, out, s', h1, h2, h3, h4, -, -, h6, -, h8, -, h9⟩ :=
    C67_optimality R hA hsig hs hmu hm hK hK0 hW hdata hN.ge (by rw [hN]; decide) xk s hI hwf hal
  have h10 := C67_full_length R hA hsig hs hmu hm htol ht hK hK0.ne' hdata hN.ge xk s hI hwf hal h1
  obtain ⟨rfl, rfl⟩ := h8 hN
  have hk : k = 10000 := by rw [hN] at h10; omega
  subst hk
  refine ⟨x, out, s', h1, h2, h3, h6, fun v hv => ?_⟩
  obtain ⟨w, hw1, hw2⟩ := C67_minimiser hm ha hWa (proj_init_feas hA hs b)
  refine (h9 w hw1 v hv).trans (add_le_add le_rfl (nestaErr_mono hm hK0 (nrm_nonneg _) ?_))
  have e : nrm (w - Aᵀ *ᵥ b) ≤ nrm w + nrm (Aᵀ *ᵥ b) := by
    have := nrm_add_le w (-(Aᵀ *ᵥ b))
    rwa [← sub_eq_add_neg, show nrm (-(Aᵀ *ᵥ b)) = nrm (Aᵀ *ᵥ b) by rw [nrm, neg_dotProduct, dotProduct_neg, neg_neg, nrm]] at this
  refine e.trans (add_le_add ?_ le_rfl)
  rw [le_div_iff₀ ha, mul_comm]
  exact hw2

/-- the hypotheses hold: one sample of a two-pixel image, dictionary the identity -/
example : ∃ (x : Fin 2 → ℝ) (out : NestaOut Dbl 1 2 2) (s' : NState Unit),
    l1c_nesta 2 1 (fun _ => lit 0) (fvec ![3]) (realAx exA (1 : Matrix (Fin 2) (Fin 2) ℝ) (Dbl.fin 1)) ⟨Dbl.fin (1 / 2), Dbl.fin (1 / 100), Dbl.fin 0, 1⟩ exState = some (out, s') ∧
      out.status = L1C_SUCCESS ∧ out.xk = fvec x ∧ ∀ v, Feas exA ![3] (1 / 2) v → ∑ i, |x i| ≤ ∑ i, |v i| + 1 / 50 := by
  have hW : ∀ x : Fin 2 → ℝ, ((1 : Matrix (Fin 2) (Fin 2) ℝ)ᵀ *ᵥ x) = x := fun x => by simp
  have hb : ((exA)ᵀ *ᵥ ![(3 : ℝ)]) = ![9 / 5, 12 / 5] := by
    funext i; fin_cases i <;> norm_num [exA, mulVec, dotProduct]
  obtain ⟨x, out, s', h1, h2, h3, -, h5⟩ := C67_closed (opts := ⟨Dbl.fin (1 / 2), Dbl.fin (1 / 100), Dbl.fin 0, 1⟩)
    (realAx_realises exA (1 : Matrix (Fin 2) (Fin 2) ℝ) (Dbl.fin 1)) (b := ![3]) (a := 1)
    (by ext i j; fin_cases i; fin_cases j; norm_num [exA, Matrix.mul_apply]) rfl (by norm_num) rfl (by norm_num) rfl le_rfl rfl one_pos
    (fun x => by rw [hW, one_mul]) one_pos (fun x => by rw [hW, one_mul])
    ⟨0, Or.inl ⟨by decide, by rw [hW, hb]; norm_num⟩⟩ rfl (fun _ => lit 0) exState trivial exState_wf (fun _ _ => rfl)
  refine ⟨x, out, s', h1, h2, h3, fun v hv => ?_⟩
  have := h5 v hv
  rw [hW, hW, hb] at this
  simp only [hW] at this
  have e3 : nrm ![(9 / 5 : ℝ), 12 / 5] = 3 := by
    rw [nrm]
    norm_num [dotProduct, Fin.sum_univ_two]
    rw [show (9 : ℝ) = 3 * 3 by norm_num, Real.sqrt_mul_self (by norm_num)]
  rw [e3, Fin.sum_univ_two (f := fun i => |(![(9 / 5 : ℝ), 12 / 5]) i|)] at this
  unfold nestaErr at this
  norm_num at this ⊢
  have hsq : √(2 : ℝ) ≤ 2 := by
    rw [Real.sqrt_le_left (by norm_num)]; norm_num
  linarith

end L1c
