import Verif.Proofs.DctTVK
import Verif.Props.Dct

/-! # C26, C27, C29, C30, C58 and the matrix part of C23 -/

namespace L1c
open Scalar Matrix

variable {mrow mcol n : ℕ} {c : TvCfg Dbl mrow mcol n} {idx : Fin n → Int} {av ah : ℝ}

/-! ## C26 -/

/-- **C26**, dictionary: after any calls, `Wv` (`Wz` in analysis mode, `Mx` in synthesis mode) computes the documented
dictionary `[M, αv·Dv, αh·Dh]` of the DCT underneath, `Wtx` computes its adjoint whatever its output array held before,
for all combinations of zero and positive weights. -/
theorem C26_dictionary (h : TvSetR c idx av ah) :
    ∃ (M : (Fin (mrow * mcol) → ℝ) → (Fin (mrow * mcol) → ℝ)) (Wt : (Fin (mrow * mcol) → ℝ) → (Fin c.p → ℝ)),
      Gives c.loc c.loc.Mx M ∧ TvGives (TvReach c) (tvWv c) (dictW M av ah) ∧
      (∀ old, TvGives (TvReach c) (fun x => tvWtx c x old) Wt) ∧
      ∀ v x, dictW M av ah v ⬝ᵥ x = v ⬝ᵥ Wt x := by
  obtain ⟨ix, Q, ok⟩ := funsOk h.loc
  refine ⟨_, wtReal Q av ah, ok.Mx.gives h.loc, fun s hs v => ?_, fun old s hs x => ?_, fun v x => ?_⟩
  · obtain ⟨s', h1, _⟩ := tvWv_real h ok v s (tvReach_inv h.loc.toSet hs)
    exact ⟨s', h1⟩
  · obtain ⟨s', h1, _⟩ := tvWtx_real h ok x old s (tvReach_inv h.loc.toSet hs)
    exact ⟨s', h1⟩
  · exact w_adjoint h.p_eq Q v x

/-- **C26**, shape: the number of coefficients is one image per active part. -/
theorem C26_lengths (h : TvSetR c idx av ah) :
    c.p = mrow * mcol * (1 + (if 0 < av then 1 else 0) + (if 0 < ah then 1 else 0)) := by
  rw [h.p_eq]; unfold pReal
  split <;> split <;> ring

/-- The part of C26's `<Ax x, y> = <x, Aty y>` that holds, analysis mode (`Ax = Rx`, `Aty = Rty`): distinct indices and an
output array of `Rty` that already holds finite numbers.  Missing: repeated indices, where it is false (`C22_adjoint_iff`
for the DCT underneath), and NaN in the output array (`C58_Rty_keeps_nan`). -/
theorem C26_analysis_partial (h : TvSetR c idx av ah) (hinj : Function.Injective idx) :
    ∃ (R : (Fin (mrow * mcol) → ℝ) → (Fin n → ℝ)) (Rt : (Fin n → ℝ) → (Fin (mrow * mcol) → ℝ)),
      TvGives (TvReach c) (tvRx c) R ∧ (∀ old, TvGives (TvReach c) (fun y => tvRty c y (fvec old)) Rt) ∧
      (∀ x i (t : Fin (mrow * mcol)), ((t : ℕ) : Int) = idx i → R x i = x t) ∧
      ∀ x y, R x ⬝ᵥ y = x ⬝ᵥ Rt y := by
  obtain ⟨ix, Q, ok⟩ := funsOk h.loc
  refine ⟨gather ix, scat ix, fun s hs x => ?_, fun old s hs y => ?_, fun x i t ht => ?_, fun x y => ?_⟩
  · obtain ⟨b, h1, _⟩ := ok.Rx x s.dct (tvReach_inv h.loc.toSet hs)
    exact ⟨⟨b, s.u⟩, by unfold tvRx; rw [h1]; rfl⟩
  · obtain ⟨b, h1, _⟩ := ok.Rty old y s.dct (tvReach_inv h.loc.toSet hs)
    refine ⟨⟨b, s.u⟩, ?_⟩
    simp only [] at h1
    unfold tvRty; beta_reduce; rw [h1]; rfl
  · show x (ix i) = x t
    congr 1
    exact Fin.ext (by have := ok.hix i; omega)
  · exact gather_adj ix ((injective_iff ok.hix).1 hinj) x y

/-- the states in which the work array `u` holds finite numbers (its first image) -/
def TvReadyState (c : TvCfg Dbl mrow mcol n) (s : TvBuf Dbl (mrow * mcol) c.p) : Prop := TvReach c s ∧ UFin s

/-- The part of C26's `<Ax x, y> = <x, Aty y>` that holds, synthesis mode (`Ax = R W`, `Aty = Wᵀ Rᵀ`): distinct indices,
and for `Aty` finite numbers in the library's work array.  Missing: repeated indices (false) and a first `Aty` call on
uninitialised memory (`C58_Aty_uninitialised`). -/
theorem C26_synthesis_partial (h : TvSetR c idx av ah) (hinj : Function.Injective idx) :
    ∃ (M : (Fin (mrow * mcol) → ℝ) → (Fin (mrow * mcol) → ℝ)) (R : (Fin (mrow * mcol) → ℝ) → (Fin n → ℝ))
      (At : (Fin n → ℝ) → (Fin c.p → ℝ)),
      Gives c.loc c.loc.Mx M ∧ TvGives (TvReach c) (tvRx c) R ∧
      TvGives (TvReach c) (tvAv c) (fun v => R (dictW M av ah v)) ∧
      (∀ old, TvGives (TvReadyState c) (fun y => tvAty c y old) At) ∧
      ∀ v y, R (dictW M av ah v) ⬝ᵥ y = v ⬝ᵥ At y := by
  obtain ⟨ix, Q, ok⟩ := funsOk h.loc
  refine ⟨_, gather ix, fun y => wtReal Q av ah (scat ix y), ok.Mx.gives h.loc, fun s hs x => ?_, fun s hs v => ?_,
    fun old s hs y => ?_, fun v y => ?_⟩
  · obtain ⟨b, h1, _⟩ := ok.Rx x s.dct (tvReach_inv h.loc.toSet hs)
    exact ⟨⟨b, s.u⟩, by unfold tvRx; rw [h1]; rfl⟩
  · obtain ⟨s', h1, _⟩ := tvAv_real h ok v s (tvReach_inv h.loc.toSet hs)
    exact ⟨s', h1⟩
  · obtain ⟨s', h1, _⟩ := tvAty_real h ok y old s (tvReach_inv h.loc.toSet hs.1) hs.2
    exact ⟨s', h1⟩
  · rw [← w_adjoint h.p_eq Q, ← gather_adj ix ((injective_iff ok.hix).1 hinj)]
    rfl

/-- A successful `Av` or `Wv` call on real data makes the work array finite: the state `C26_synthesis_partial` asks for. -/
theorem C26_ready_after_Av (h : TvSetR c idx av ah) {s : TvBuf Dbl (mrow * mcol) c.p} (hs : TvReach c s)
    (v : Fin c.p → ℝ) : ∃ o, tvAv c (fvec v) s = some o ∧ TvReadyState c o.buf := by
  obtain ⟨ix, Q, ok⟩ := funsOk h.loc
  have h0 : 0 + mrow * mcol ≤ c.p := by rw [h.p_eq]; exact pReal_zero _
  obtain ⟨s1, hW, hs1⟩ := tvWv_real h ok v s (tvReach_inv h.loc.toSet hs)
  obtain ⟨w0, hw0⟩ := writeAt_some 0 h0 (fvec (wReal Q av ah v)) s1.u
  have hsl := slice_writeAt hw0
  obtain ⟨b', hR, hb'⟩ := ok.Rx (wReal Q av ah v) s1.dct hs1
  have e : tvAv c (fvec v) s = some ⟨fvec (gather ix (wReal Q av ah v)), ⟨b', w0⟩⟩ := by
    unfold tvAv
    rw [hW, obind]
    simp only []
    rw [hw0, obind, hsl, obind, hR]
    rfl
  exact ⟨_, e, .call (.Av (fvec v)) hs (by rw [TvCall.run, e]; rfl), ⟨_, hsl⟩⟩

/-- **C26 is false** in synthesis mode with a positive weight.  `Wz` and `Wtx` are then the same copy of `mrow*mcol`
numbers, although the coefficient vectors have `c.p > mrow*mcol` entries: `Wz` leaves the rest of its output as it was,
and the adjoint identity fails. -/
theorem C26_synthesis_identity_false (h : TvSetR c idx av ah) (hw : 0 < av ∨ 0 < ah) (hm : 0 < mrow * mcol) :
    mrow * mcol < c.p ∧
    ∃ (z : Fin (mrow * mcol) → ℝ) (x : Fin c.p → ℝ) (old : Fin c.p → ℝ) (old' : Fin (mrow * mcol) → ℝ)
      (Wz : Fin c.p → ℝ) (Wtx : Fin (mrow * mcol) → ℝ),
      tvIdentity (mrow * mcol) (fvec z) (fvec old) = some (fvec Wz) ∧
      tvIdentity (mrow * mcol) (fvec x) (fvec old') = some (fvec Wtx) ∧ Wz ⬝ᵥ x ≠ z ⬝ᵥ Wtx := by
  have hp : mrow * mcol < c.p := by
    rw [h.p_eq]; unfold pReal
    rcases hw with hw | hw <;> rw [if_pos hw] <;> omega
  refine ⟨hp, ?_⟩
  refine ⟨0, fun k => if k.val < mrow * mcol then 0 else 1, fun _ => 1, 0,
    fun k => if k.val < mrow * mcol then 0 else 1, 0, ?_, ?_, ?_⟩
  · unfold tvIdentity dcopy
    rw [slice_eq 0 (by omega), obind, writeAt_eq 0 (by omega)]
    congr 1
    funext k
    unfold fvec
    beta_reduce
    by_cases hk : k.val < mrow * mcol
    · rw [dif_pos ⟨by omega, by omega⟩, if_pos hk]; rfl
    · rw [dif_neg (by omega), if_neg hk]
  · unfold tvIdentity dcopy
    rw [slice_eq 0 (by omega), obind, writeAt_eq 0 (by omega)]
    congr 1
    funext k
    have hk := k.2
    rw [dif_pos ⟨by omega, by omega⟩]
    unfold fvec
    simp only [zero_add]
    rw [if_pos (by omega)]; rfl
  · rw [zero_dotProduct]
    have : 0 < (fun k : Fin c.p => if k.val < mrow * mcol then (0 : ℝ) else 1) ⬝ᵥ
        fun k => if k.val < mrow * mcol then (0 : ℝ) else 1 := by
      refine dot_self_pos fun h0 => ?_
      have := congrFun h0 ⟨mrow * mcol, hp⟩
      simp at this
    exact this.ne'

/-- copying `m` numbers between arrays of that length is the identity: `Mx`, `Mty` in analysis mode, `Wz`, `Wtx` in
synthesis mode without weights and of the plain DCT and matrix sets. -/
theorem C26_identity {F : Type} [Scalar F] {m : ℕ} (x z : Vec F m) : tvIdentity m x z = some x := by
  unfold tvIdentity dcopy
  rw [slice_eq 0 (by omega), obind, writeAt_eq 0 (by omega)]
  congr 1
  funext k
  have hk := k.2
  rw [dif_pos ⟨by omega, by omega⟩]
  congr 1
  exact Fin.ext (by simp)

/-! ## C27 -/

/-- **C27**, analysis mode: the advertised `norm_W` bounds the dictionary. -/
theorem C27_analysis (h : TvSetR c idx av ah) :
    ∃ (W : (Fin c.p → ℝ) → (Fin (mrow * mcol) → ℝ)) (nw : ℝ), TvGives (TvReach c) (tvWv c) W ∧
      tvNormW true c.alp_v c.alp_h = .fin nw ∧ 0 < nw ∧ ∀ v, nrm (W v) ≤ nw * nrm v := by
  obtain ⟨ix, Q, ok⟩ := funsOk h.loc
  have hpos : (0 : ℝ) < 1 + 4 * av ^ 2 + 4 * ah ^ 2 := by positivity
  refine ⟨wReal Q av ah, Real.sqrt (1 + 4 * av ^ 2 + 4 * ah ^ 2), fun s hs v => ?_, ?_, Real.sqrt_pos.2 hpos, fun v => ?_⟩
  · obtain ⟨s', h1, _⟩ := tvWv_real h ok v s (tvReach_inv h.loc.toSet hs)
    exact ⟨s', h1⟩
  · rw [h.hv, h.hh]
    unfold tvNormW
    rw [if_pos rfl]
    simp only [Dbl.lit_eq, Dbl.fin_mul, Dbl.fin_add, Rat.cast_one, Rat.cast_ofNat]
    have e : (1 : ℝ) + 4 * av * av + 4 * ah * ah = 1 + 4 * av ^ 2 + 4 * ah ^ 2 := by ring
    rw [e, Dbl.fsqrt_fin hpos.le]
  · unfold nrm
    rw [← Real.sqrt_mul hpos.le]
    exact Real.sqrt_le_sqrt (w_norm h.p_eq ok.orth h.av0 h.ah0 v)

/-- **C27**, DCT sets and synthesis mode without weights: `norm_W` is 1 and `Wz` is the identity.
(src/dct1.c:138, src/dct2.c:166 set the same constant 1 as the synthesis branch.) -/
theorem C27_identity {m : ℕ} (a b : Dbl) (z old : Fin m → ℝ) :
    ∃ Wz nw, tvIdentity m (fvec z) (fvec old) = some (fvec Wz) ∧ tvNormW false a b = .fin nw ∧
      nrm Wz ≤ nw * nrm z := by
  refine ⟨z, 1, C26_identity _ _, ?_, by rw [one_mul]⟩
  unfold tvNormW
  rw [if_neg (by simp), Dbl.lit_eq, Rat.cast_one]

/-- **C27 is false** for matrix sets: `norm_W` is 0 while `Wz` is the identity, so every nonzero vector violates it
(NESTA then works with the Lipschitz constant 0). -/
theorem C27_matrix_false {m : ℕ} (z old : Fin m → ℝ) (hz : z ≠ 0) :
    ∃ Wz nw, tvIdentity m (fvec z) (fvec old) = some (fvec Wz) ∧ (matNormW : Dbl) = .fin nw ∧
      ¬ nrm Wz ≤ nw * nrm z := by
  refine ⟨z, 0, C26_identity _ _, ?_, ?_⟩
  · unfold matNormW; rw [Dbl.lit_eq, Rat.cast_zero]
  · rw [zero_mul, not_le]; exact nrm_pos hz

/-! ## C29 -/

theorem sum_blocks {p m : ℕ} (hp : p = pReal m av ah) (v : Fin p → ℝ) :
    ∑ k, |v k| = (∑ i, |coef m 0 v i|) + (if 0 < av then ∑ i, |coef m m v i| else 0)
      + (if 0 < ah then ∑ i, |coef m (offH m av) v i| else 0) := by
  set f : ℕ → ℝ := fun k => if h : k < p then |v ⟨k, h⟩| else 0 with hf
  have h1 : ∑ k, |v k| = ∑ k ∈ Finset.range p, f k := by
    rw [← Fin.sum_univ_eq_sum_range]
    refine Finset.sum_congr rfl fun i _ => ?_
    simp only [hf]; rw [dif_pos i.2]
  have h2 : ∀ off, ∑ i, |coef m off v i| = ∑ k ∈ Finset.range m, f (off + k) := by
    intro off
    rw [← Fin.sum_univ_eq_sum_range (fun k => f (off + k))]
    refine Finset.sum_congr rfl fun i _ => ?_
    simp only [hf, coef]
    split <;> simp
  rw [h1, h2, h2, h2, hp]
  unfold pReal offH
  by_cases hv : 0 < av <;> by_cases hh : 0 < ah
  · simp only [hv, hh, if_true, zero_add, Finset.sum_range_add, two_mul]
  · simp only [hv, hh, if_true, if_false, zero_add, Finset.sum_range_add, add_zero]
  · simp only [hv, hh, if_true, if_false, zero_add, Finset.sum_range_add, add_zero]
  · simp only [hv, hh, if_false, zero_add, add_zero]

theorem adjRow_abs (α : ℝ) (hα : 0 < α) (k : ℕ) (x : ℕ → ℝ) :
    ∑ j ∈ Finset.range (k + 2), |adjRow α (k + 2) x j| = α * lineTv k x := by
  rw [Finset.sum_range_succ, Finset.sum_range_succ']
  unfold lineTv
  have e1 : |adjRow α (k + 2) x 0| = α * |x 0| := by
    unfold adjRow; rw [if_pos rfl, if_pos (by omega), zero_sub, abs_mul, abs_neg, abs_of_pos hα]
  have e2 : |adjRow α (k + 2) x (k + 1)| = α * |x k| := by
    unfold adjRow; rw [if_neg (by omega), if_neg (by omega), sub_zero, abs_mul, abs_of_pos hα, Nat.add_sub_cancel]
  have e3 : ∑ j ∈ Finset.range k, |adjRow α (k + 2) x (j + 1)| = α * ∑ j ∈ Finset.range k, |x (j + 1) - x j| := by
    rw [Finset.mul_sum]
    refine Finset.sum_congr rfl fun j hj => ?_
    have := Finset.mem_range.1 hj
    unfold adjRow
    rw [if_neg (by omega), if_pos (by omega), abs_mul, abs_of_pos hα, Nat.add_sub_cancel, abs_sub_comm]
  rw [e1, e2, e3]; ring

theorem abs_ofImg (u : Img) : ∑ t, |(ofImg u : Fin (mrow * mcol) → ℝ) t| =
    ∑ i ∈ Finset.range mrow, ∑ j ∈ Finset.range mcol, |u i j| := sum_pixels fun i j => |u i j|

theorem wt_l1 (h : TvSetR c idx av ah) (Q : Matrix (Fin (mrow * mcol)) (Fin (mrow * mcol)) ℝ) (x : Fin (mrow * mcol) → ℝ) :
    ∑ k, |(wtReal Q av ah x : Fin c.p → ℝ) k| = (∑ i, |(Qᵀ *ᵥ x) i|)
        + av * (if 0 < av then ∑ j ∈ Finset.range mcol, lineTv (mrow - 2) (fun i => asImg x i j) else 0)
        + ah * (if 0 < ah then ∑ i ∈ Finset.range mrow, lineTv (mcol - 2) (fun j => asImg x i j) else 0) := by
  rw [sum_blocks h.p_eq, coef_wt0 h.p_eq]
  congr 1
  · congr 1
    by_cases hv : 0 < av
    · rw [if_pos hv, if_pos hv, coef_wtV h.p_eq hv]
      unfold rDyT
      rw [abs_ofImg, Finset.sum_comm, Finset.mul_sum]
      refine Finset.sum_congr rfl fun j _ => ?_
      have hd := (h.dims (.inl hv)).1
      obtain ⟨k, rfl⟩ : ∃ k, mrow = k + 2 := ⟨mrow - 2, by omega⟩
      exact adjRow_abs av hv k _
    · rw [if_neg hv, if_neg hv, mul_zero]
  · by_cases hh : 0 < ah
    · rw [if_pos hh, if_pos hh, coef_wtH h.p_eq hh]
      unfold rDxT
      rw [abs_ofImg, Finset.mul_sum]
      refine Finset.sum_congr rfl fun i _ => ?_
      have hd := (h.dims (.inr hh)).2
      obtain ⟨k, rfl⟩ : ∃ k, mcol = k + 2 := ⟨mcol - 2, by omega⟩
      exact adjRow_abs ah hh k _
    · rw [if_neg hh, if_neg hh, mul_zero]

/-- **C29**, what the analysis-mode regulariser really is: the 1-norm of `Wtx x` is that of the DCT plus weighted *adjoint*
differences, in which the first and the last but one pixel of every line count on their own. -/
theorem C29_actual_regulariser (h : TvSetR c idx av ah) :
    ∃ (Mt : (Fin (mrow * mcol) → ℝ) → (Fin (mrow * mcol) → ℝ)) (Wt : (Fin (mrow * mcol) → ℝ) → (Fin c.p → ℝ)),
      Gives c.loc c.loc.Mty Mt ∧ (∀ old, TvGives (TvReach c) (fun x => tvWtx c x old) Wt) ∧
      ∀ x, ∑ k, |Wt x k| = (∑ i, |Mt x i|)
        + av * (if 0 < av then ∑ j ∈ Finset.range mcol, lineTv (mrow - 2) (fun i => asImg x i j) else 0)
        + ah * (if 0 < ah then ∑ i ∈ Finset.range mrow, lineTv (mcol - 2) (fun j => asImg x i j) else 0) := by
  obtain ⟨ix, Q, ok⟩ := funsOk h.loc
  refine ⟨_, wtReal Q av ah, ok.Mty.gives h.loc, fun old s hs x => ?_, fun x => wt_l1 h Q x⟩
  obtain ⟨s', h1, _⟩ := tvWtx_real h ok x old s (tvReach_inv h.loc.toSet hs)
  exact ⟨s', h1⟩

/-- documented total variation, vertical and horizontal -/
noncomputable def tvVert (mrow mcol : ℕ) (u : Img) : ℝ :=
  ∑ i ∈ Finset.range mrow, ∑ j ∈ Finset.range mcol, |gradY 1 mrow u i j|
noncomputable def tvHor (mrow mcol : ℕ) (u : Img) : ℝ :=
  ∑ i ∈ Finset.range mrow, ∑ j ∈ Finset.range mcol, |gradX 1 mcol u i j|

/-- **C29 is false**, for every setup with a positive weight and every constant image `a ≠ 0`: its documented total
variation is zero, but the regulariser adds `2|a|` per line and unit of weight. -/
theorem C29_constant_image_false (h : TvSetR c idx av ah) (hw : 0 < av ∨ 0 < ah) (a : ℝ) (ha : a ≠ 0) :
    ∃ (Mt : (Fin (mrow * mcol) → ℝ) → (Fin (mrow * mcol) → ℝ)) (Wt : (Fin (mrow * mcol) → ℝ) → (Fin c.p → ℝ)),
      Gives c.loc c.loc.Mty Mt ∧ (∀ old, TvGives (TvReach c) (fun x => tvWtx c x old) Wt) ∧
      tvVert mrow mcol (asImg (mrow := mrow) (mcol := mcol) fun _ => a) = 0 ∧
      tvHor mrow mcol (asImg (mrow := mrow) (mcol := mcol) fun _ => a) = 0 ∧
      ∑ k, |Wt (fun _ => a) k| = (∑ i, |Mt (fun _ => a) i|) + 2 * |a| * (av * mcol + ah * mrow) ∧
      ∑ k, |Wt (fun _ => a) k| ≠ (∑ i, |Mt (fun _ => a) i|)
        + av * tvVert mrow mcol (asImg (mrow := mrow) (mcol := mcol) fun _ => a)
        + ah * tvHor mrow mcol (asImg (mrow := mrow) (mcol := mcol) fun _ => a) := by
  obtain ⟨Mt, Wt, h1, h2, h3⟩ := C29_actual_regulariser h
  have hd := h.dims hw
  have hc : ∀ i < mrow, ∀ j < mcol, asImg (mrow := mrow) (mcol := mcol) (fun _ => a) i j = a := by
    intro i hi j hj
    unfold asImg
    rw [dif_pos (idx_bound hi hj)]
  have tv : tvVert mrow mcol (asImg (mrow := mrow) (mcol := mcol) fun _ => a) = 0 := by
    unfold tvVert
    refine Finset.sum_eq_zero fun i hi => Finset.sum_eq_zero fun j hj => ?_
    have hi := Finset.mem_range.1 hi
    have hj := Finset.mem_range.1 hj
    unfold gradY
    split
    · rw [hc _ (by assumption) _ hj, hc _ hi _ hj]; simp
    · simp
  have th : tvHor mrow mcol (asImg (mrow := mrow) (mcol := mcol) fun _ => a) = 0 := by
    unfold tvHor
    refine Finset.sum_eq_zero fun i hi => Finset.sum_eq_zero fun j hj => ?_
    have hi := Finset.mem_range.1 hi
    have hj := Finset.mem_range.1 hj
    unfold gradX
    split
    · rw [hc _ hi _ (by assumption), hc _ hi _ hj]; simp
    · simp
  have key : ∑ k, |Wt (fun _ => a) k| = (∑ i, |Mt (fun _ => a) i|) + 2 * |a| * (av * mcol + ah * mrow) := by
    rw [h3]
    have l1 : ∀ j < mcol, lineTv (mrow - 2) (fun i => asImg (mrow := mrow) (mcol := mcol) (fun _ => a) i j) = 2 * |a| := by
      intro j hj
      unfold lineTv
      beta_reduce
      rw [hc _ (by omega) _ hj, hc _ (by omega) _ hj, Finset.sum_eq_zero]
      · ring
      · intro i hi
        have hi := Finset.mem_range.1 hi
        rw [hc _ (by omega) _ hj, hc _ (by omega) _ hj]; simp
    have l2 : ∀ i < mrow, lineTv (mcol - 2) (fun j => asImg (mrow := mrow) (mcol := mcol) (fun _ => a) i j) = 2 * |a| := by
      intro i hi
      unfold lineTv
      beta_reduce
      rw [hc _ hi _ (by omega), hc _ hi _ (by omega), Finset.sum_eq_zero]
      · ring
      · intro j hj
        have hj := Finset.mem_range.1 hj
        rw [hc _ hi _ (by omega), hc _ hi _ (by omega)]; simp
    rw [Finset.sum_congr rfl fun j hj => l1 j (Finset.mem_range.1 hj),
      Finset.sum_congr rfl fun i hi => l2 i (Finset.mem_range.1 hi)]
    simp only [Finset.sum_const, Finset.card_range, nsmul_eq_mul]
    have a1 : ∀ {w t : ℝ}, 0 ≤ w → w * (if 0 < w then t else 0) = w * t := by
      intro w t hw
      rcases hw.eq_or_lt with h | h
      · rw [← h]; simp
      · rw [if_pos h]
    rw [a1 h.av0, a1 h.ah0]; ring
  refine ⟨Mt, Wt, h1, h2, tv, th, key, ?_⟩
  rw [key, tv, th]
  have hpos : 0 < 2 * |a| * (av * mcol + ah * mrow) := by
    have hr : (0 : ℝ) < mrow := by exact_mod_cast (by omega : 0 < mrow)
    have hcl : (0 : ℝ) < mcol := by exact_mod_cast (by omega : 0 < mcol)
    have := h.av0
    have := h.ah0
    have : 0 < |a| := abs_pos.2 ha
    have : 0 < av * mcol + ah * mrow := by
      rcases hw with hw | hw
      · have := mul_pos hw hcl; positivity
      · have := mul_pos hw hr; positivity
    positivity
  intro hcon
  linarith

/-- the part of C29 that holds: without TV weights the regulariser is the 1-norm of the DCT.  Missing: positive weights,
where it is false. -/
theorem C29_partial (h : TvSetR c idx 0 0) :
    ∃ (Mt : (Fin (mrow * mcol) → ℝ) → (Fin (mrow * mcol) → ℝ)) (Wt : (Fin (mrow * mcol) → ℝ) → (Fin c.p → ℝ)),
      Gives c.loc c.loc.Mty Mt ∧ (∀ old, TvGives (TvReach c) (fun x => tvWtx c x old) Wt) ∧
      ∀ x, ∑ k, |Wt x k| = ∑ i, |Mt x i| := by
  obtain ⟨Mt, Wt, h1, h2, h3⟩ := C29_actual_regulariser h
  exact ⟨Mt, Wt, h1, h2, fun x => by rw [h3, zero_mul, zero_mul, add_zero, add_zero]⟩

/-! ## C58: outputs and uninitialised memory -/

/-- **C58 is false** for `Rty`: an output array that held NaN outside the samples still holds NaN after the call (the
routine clears the array by multiplying it with zero). -/
theorem C58_Rty_keeps_nan {m : ℕ} {f : DctFuns Dbl m n} {idx : Fin n → Int} (h : DctSet f idx) (y : Vec Dbl n)
    (old : Vec Dbl m) (s : DctBuf Dbl m) (t : Fin m) (ht : ∀ i, idx i ≠ ((t : ℕ) : Int)) (hnan : old t = .nan) :
    ∃ o, f.Rty y old s = some o ∧ o.res t = .nan := by
  have key : ∀ ix : Fin n → Fin m, (∀ i, ((ix i : ℕ) : Int) = idx i) →
      scatter ix y (vscale (lit 0) old) t = Dbl.nan := by
    intro ix hix
    rw [scatter_out ix y _ t fun i hi => ht i (by rw [← hix i, hi])]
    show old t * lit 0 = Dbl.nan
    rw [hnan]; rfl
  cases h with
  | d1 fw idx hidx =>
    obtain ⟨ix, hr, hix⟩ := resolve_eq hidx
    refine ⟨⟨scatter ix y (vscale (lit 0) old), y, s⟩, ?_, key ix hix⟩
    show dct_Ety (dct1Cfg fw idx) y old s = _
    have hres : resolve _ (dct1Cfg fw idx).idx = some ix := hr
    unfold dct_Ety; rw [hres]; rfl
  | @d2 mrow mcol _ _ _ fw idx hidx =>
    obtain ⟨ix, hr, hix⟩ := resolve_eq hidx
    refine ⟨⟨scatter ix y (vscale (lit 0) old), y, s⟩, ?_, key ix hix⟩
    show dct_Ety (dct2Cfg fw idx) y old s = _
    have hres : resolve _ (dct2Cfg fw idx).idx = some ix := hr
    unfold dct_Ety; rw [hres]; rfl

/-- **C58 is false** for synthesis-mode `Aty`: directly after setup the library's own uninitialised work array can make
the TV part of the result NaN, on finite data, for every pixel (outside the last row) that is not sampled. -/
theorem C58_Aty_uninitialised (h : TvSetR c idx av ah) (hv : 0 < av) (y : Fin n → ℝ) (old : Vec Dbl c.p)
    (t : Fin (mrow * mcol)) (ht : ∀ i, idx i ≠ ((t : ℕ) : Int)) (hrow : t.val / mcol + 1 < mrow) :
    ∃ (s : TvBuf Dbl (mrow * mcol) c.p) (o : TvOut Dbl c.p (mrow * mcol) c.p) (k : Fin c.p), TvReach c s ∧
      tvAty c (fvec y) old s = some o ∧ k.val = mrow * mcol + t ∧ o.res k = .nan := by
  have h0 : 0 + mrow * mcol ≤ c.p := by rw [h.p_eq]; exact pReal_zero _
  have h1 : mrow * mcol + mrow * mcol ≤ c.p := by rw [h.p_eq]; exact pReal_v _ hv
  have htl := t.2
  obtain ⟨r, hr, hrn⟩ := C58_Rty_keeps_nan h.loc.toSet (fvec y) (fun _ => Dbl.nan) DctBuf.fresh t ht rfl
  have hb : BufInv idx r.buf := ((setOk h.loc.toSet).Rty _).keep _ _ _ (bufInv_fresh idx) hr
  obtain ⟨w0, hw0⟩ := writeAt_some 0 h0 r.res (fun _ => Dbl.nan)
  have hsl := slice_writeAt hw0
  obtain ⟨q, _, hq, _⟩ := (setOk h.loc.toSet).Mty.same r.res r.buf hb
  set x := r.res with hx
  have hy : vDyT c.alp_v x t = Dbl.nan := by
    have hrow' : rowOf t + 1 < mrow := hrow
    unfold vDyT
    rw [if_pos hrow']
    have e : pixel x (rowOf t) (colOf t) = x t := by
      unfold pixel
      have hidx : rowOf t * mcol + colOf t = t.val := by
        unfold rowOf colOf; rw [mul_comm]; exact Nat.div_add_mod _ _
      rw [dif_pos (by rw [hidx]; exact htl)]
      congr 1
      exact Fin.ext hidx
    rw [e, hrn, h.hv]
    generalize (if rowOf t = 0 then lit 0 else pixel x (rowOf t - 1) (colOf t)) = z
    cases z <;> rfl
  have hjv : job c.alp_v = true := by rw [h.hv, job_fin, decide_eq_true hv]
  have hinc : incV (mrow * mcol) c.alp_v = mrow * mcol := by rw [h.hv]; exact incV_eq _ hv
  refine ⟨⟨DctBuf.fresh, fun _ => .nan⟩, ?_⟩
  unfold tvAty
  rw [slice_eq 0 h0, obind, hr, obind]
  simp only []
  rw [hw0, obind, hsl, obind]
  unfold tvWtx
  simp only []
  rw [hq, obind, writeAt_eq 0 h0, obind, if_pos hjv, hinc, writeAt_eq _ h1, obind]
  by_cases hh : 0 < ah
  · have h2 : 2 * (mrow * mcol) + mrow * mcol ≤ c.p := by
      rw [h.p_eq]; have := pReal_h (av := av) (mrow * mcol) hh; unfold offH at this; rwa [if_pos hv] at this
    have hjh : job c.alp_h = true := by rw [h.hh, job_fin, decide_eq_true hh]
    have hincH : incH (mrow * mcol) c.alp_v c.alp_h = 2 * (mrow * mcol) := by
      rw [h.hv, h.hh, incH_eq _ hh]; exact if_pos hv
    rw [if_pos hjh, hincH, writeAt_eq _ h2, obind]
    refine ⟨_, ⟨mrow * mcol + t, by omega⟩, .fresh _, rfl, rfl, ?_⟩
    simp only []
    rw [dif_neg (by omega), dif_pos ⟨by omega, by omega⟩]
    rw [← hy]; congr 1; exact Fin.ext (by simp)
  · have hjh : ¬ job c.alp_h = true := by rw [h.hh, job_fin, decide_eq_false hh]; simp
    rw [if_neg hjh, pure_bind]
    refine ⟨_, ⟨mrow * mcol + t, by omega⟩, .fresh _, rfl, rfl, ?_⟩
    simp only []
    rw [dif_pos ⟨by omega, by omega⟩]
    rw [← hy]; congr 1; exact Fin.ext (by simp)

/-- the part of C58 that holds: `Wtx` does not depend on what its output array held, in any arithmetic.
Missing: `Rty` and synthesis-mode `Aty`, where it is false. -/
theorem C58_Wtx_partial {F : Type} [Scalar F] (c : TvCfg F mrow mcol n) (x : Vec F (mrow * mcol)) (old old' : Vec F c.p)
    (s : TvBuf F (mrow * mcol) c.p) : tvWtx c x old s = tvWtx c x old' s := by
  unfold tvWtx
  cases hM : c.loc.Mty x s.dct with
  | none => rfl
  | some o =>
    rw [obind, obind]
    have h0 : 0 + mrow * mcol ≤ c.p := by show _ ≤ tvP _ _ _; unfold tvP; omega
    rw [writeAt_eq 0 h0, writeAt_eq 0 h0, obind, obind]
    cases hv : job c.alp_v <;> cases hh : job c.alp_h
    · simp only [Bool.false_eq_true, if_false, pure_bind]
      congr 2
      funext k
      have hk : k.val < mrow * mcol := by
        have := k.2; have e : c.p = mrow * mcol := by show tvP _ _ _ = _; unfold tvP; simp [hv, hh]
        omega
      rw [dif_pos ⟨by omega, by omega⟩, dif_pos ⟨by omega, by omega⟩]
    · have e : c.p = mrow * mcol + mrow * mcol := by show tvP _ _ _ = _; unfold tvP; simp [hv, hh]
      have i2 : incH (mrow * mcol) c.alp_v c.alp_h = mrow * mcol := by unfold incH incV; simp [hv, hh]
      simp only [Bool.false_eq_true, if_false, if_true, pure_bind]
      rw [i2, writeAt_eq _ (by omega), writeAt_eq _ (by omega), obind, obind]
      congr 2
      funext k
      have hk := k.2
      by_cases k1 : k.val < mrow * mcol
      · rw [dif_neg (by omega), dif_pos ⟨by omega, by omega⟩, dif_neg (by omega), dif_pos ⟨by omega, by omega⟩]
      · rw [dif_pos ⟨by omega, by omega⟩, dif_pos ⟨by omega, by omega⟩]
    · have e : c.p = mrow * mcol + mrow * mcol := by show tvP _ _ _ = _; unfold tvP; simp [hv, hh]
      have i1 : incV (mrow * mcol) c.alp_v = mrow * mcol := by unfold incV; simp [hv]
      simp only [Bool.false_eq_true, if_false, if_true]
      rw [i1, writeAt_eq _ (by omega), writeAt_eq _ (by omega), obind, obind, pure_bind, pure_bind]
      congr 2
      funext k
      have hk := k.2
      by_cases k1 : k.val < mrow * mcol
      · rw [dif_neg (by omega), dif_pos ⟨by omega, by omega⟩, dif_neg (by omega), dif_pos ⟨by omega, by omega⟩]
      · rw [dif_pos ⟨by omega, by omega⟩, dif_pos ⟨by omega, by omega⟩]
    · have e : c.p = mrow * mcol + mrow * mcol + mrow * mcol := by
        show tvP _ _ _ = _; unfold tvP; simp [hv, hh]
      have i1 : incV (mrow * mcol) c.alp_v = mrow * mcol := by unfold incV; simp [hv]
      have i2 : incH (mrow * mcol) c.alp_v c.alp_h = mrow * mcol + mrow * mcol := by unfold incH incV; simp [hv, hh]
      simp only [if_true]
      rw [i1, i2, writeAt_eq _ (by omega), writeAt_eq _ (by omega), obind, obind, writeAt_eq _ (by omega),
        writeAt_eq _ (by omega), obind, obind]
      congr 2
      funext k
      have hk := k.2
      by_cases k1 : k.val < mrow * mcol
      · rw [dif_neg (by omega), dif_neg (by omega), dif_pos ⟨by omega, by omega⟩,
          dif_neg (by omega), dif_neg (by omega), dif_pos ⟨by omega, by omega⟩]
      · by_cases k2 : k.val < mrow * mcol + mrow * mcol
        · rw [dif_neg (by omega), dif_pos ⟨by omega, by omega⟩, dif_neg (by omega), dif_pos ⟨by omega, by omega⟩]
        · rw [dif_pos ⟨by omega, by omega⟩, dif_pos ⟨by omega, by omega⟩]

/-! ## C30, C23: matrix sets -/

section matrix
variable {m : ℕ}

/-- **C30.**  `Ax` and `Aty` are the products with the row-major matrix and its transpose. -/
theorem C30_products (A : Fin (n * m) → ℝ) (B : Matrix (Fin n) (Fin m) ℝ)
    (hB : ∀ (i : Fin n) (j : Fin m) (h : i.val * m + j.val < n * m), B i j = A ⟨i.val * m + j.val, h⟩) :
    (∀ x, matAx (fvec A) (fvec x) = fvec (B *ᵥ x)) ∧ (∀ y, matAty (fvec A) (fvec y) = fvec (Bᵀ *ᵥ y)) := by
  have e : ∀ i j, entry (fvec A) i j = Dbl.fin (B i j) := by
    intro i j
    have hb : i.val * m + j.val < n * m := idx_bound i.2 j.2
    rw [hB i j hb]
    show Dbl.fin _ = Dbl.fin _
    congr 2
    exact Fin.ext (by show j.val + m * i.val = _; ring)
  refine ⟨fun x => ?_, fun y => ?_⟩
  · funext i
    show ddot (fun j => entry (fvec A) i j) (fvec x) = Dbl.fin ((fun j => B i j) ⬝ᵥ x)
    rw [← ddot_fvec]
    congr 1
    funext j
    exact e i j
  · funext j
    show ddot (fun i => entry (fvec A) i j) (fvec y) = Dbl.fin ((fun i => B i j) ⬝ᵥ y)
    rw [← ddot_fvec]
    congr 1
    funext i
    exact e i j

/-- **C23**, **C30**: in any arithmetic `AtAx` is `Aty` after `Ax`, whatever the work array held, without leaving the
work array. -/
theorem C23_matrix {F : Type} [Scalar F] (A : Vec F (n * m)) (x : Vec F m) (dwork : Vec F (max n m)) :
    ∃ dwork', matAtAx A x dwork = some (matAty A (matAx A x), dwork') := by
  obtain ⟨w, hw⟩ := writeAt_some 0 (by omega : 0 + n ≤ max n m) (matAx A x) dwork
  have hs := slice_writeAt hw
  refine ⟨w, ?_⟩
  unfold matAtAx
  rw [hw, obind, hs, obind]
  rfl

/-- **C30**: `Ax` and `Aty` are adjoint. -/
theorem C30_adjoint (A : Fin (n * m) → ℝ) : ∃ (B : (Fin m → ℝ) → (Fin n → ℝ)) (Bt : (Fin n → ℝ) → (Fin m → ℝ)),
    (∀ x, matAx (fvec A) (fvec x) = fvec (B x)) ∧ (∀ y, matAty (fvec A) (fvec y) = fvec (Bt y)) ∧
    ∀ x y, B x ⬝ᵥ y = x ⬝ᵥ Bt y := by
  obtain ⟨h1, h2⟩ := C30_products A (fun i j => A ⟨i.val * m + j.val, idx_bound i.2 j.2⟩) (fun _ _ _ => rfl)
  exact ⟨_, _, h1, h2, mulVec_adj _⟩

end matrix

/-! ## The hypotheses can be met -/

/-- a 3×4 image sampled at pixels 5 and 11 with both weights positive -/
noncomputable def exTv : TvCfg Dbl 3 4 2 :=
  ⟨dct2Funs (mrow := 3) (mcol := 4) refFftw2 ![5, 11], .fin (1 / 2), .fin 3⟩

theorem exTv_set : TvSetR exTv ![5, 11] (1 / 2) 3 :=
  ⟨.d2 _ _ refFftw2_ok (by intro i; fin_cases i <;> simp), rfl, rfl, by norm_num, by norm_num,
    fun _ => ⟨by norm_num, by norm_num⟩⟩

example : ∃ s, TvReadyState exTv s := by
  obtain ⟨o, _, h⟩ := C26_ready_after_Av exTv_set (TvReach.fresh (c := exTv) fun _ => Dbl.nan) fun _ => 1
  exact ⟨o.buf, h⟩

/-- pixel 2 is not sampled and not in the last row, as `C58_Aty_uninitialised` asks -/
example : (∀ i, (![5, 11] : Fin 2 → Int) i ≠ (((2 : Fin (3 * 4)) : ℕ) : Int)) ∧ (2 : Fin (3 * 4)).val / 4 + 1 < 3 := by
  constructor
  · intro i; fin_cases i <;> decide
  · decide

/-- `C29_partial`, `C26_synthesis_identity_false` and `C58_Rty_keeps_nan` on that set of operators. -/
example : TvSetR (⟨dct2Funs (mrow := 3) (mcol := 4) refFftw2 ![5, 11], .fin 0, .fin 0⟩ : TvCfg Dbl 3 4 2) ![5, 11] 0 0 :=
  ⟨.d2 _ _ refFftw2_ok (by intro i; fin_cases i <;> simp), rfl, rfl, le_rfl, le_rfl, fun _ => ⟨by norm_num, by norm_num⟩⟩

example : 12 < exTv.p := (C26_synthesis_identity_false exTv_set (Or.inr (by norm_num)) (by norm_num)).1

example : ∃ o, exTv.loc.Rty (fvec ![1, 2]) (fun _ => .nan) DctBuf.fresh = some o ∧ o.res 2 = .nan :=
  C58_Rty_keeps_nan exTv_set.loc.toSet _ _ _ 2 (by intro i; fin_cases i <;> decide) rfl

/-- `C30_products` for the matrix `1 2 3 / 4 5 6` stored by rows. -/
example : matAx (n := 2) (m := 3) (fvec ![1, 2, 3, 4, 5, 6]) (fvec ![1, 0, -1]) = fvec ![-2, -2] := by
  rw [(C30_products (n := 2) (m := 3) ![1, 2, 3, 4, 5, 6] !![1, 2, 3; 4, 5, 6] (by intro i j h; fin_cases i <;> fin_cases j <;> rfl)).1]
  congr 1
  funext i
  fin_cases i <;> simp [Matrix.mulVec, dotProduct, Fin.sum_univ_succ] <;> norm_num

end L1c
