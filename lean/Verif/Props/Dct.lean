import Verif.Proofs.DctSet

/-!
# Properties of the DCT transform sets (C21–C25)

`DctSetR f idx` ranges over every 1-D and 2-D operator set with any size ≥ 1 and any in-range index list.
-/

namespace L1c
open Scalar Matrix

variable {m n k l : ℕ}

section generic
variable {F : Type} [Scalar F]

/-- The call `op x` in buffer state `s` is defined and gives the same output array, and leaves the same argument
array, as the same call made right after setup. -/
def SameAsFirst (op : Vec F l → DctBuf F m → Option (XOut F k l m)) (s : DctBuf F m) : Prop :=
  ∀ x, ∃ o o', op x s = some o ∧ op x DctBuf.fresh = some o' ∧ o.res = o'.res ∧ o.arg = o'.arg

/-- **C25.**  After any sequence of calls, with any data (including NaN), on any set, each operator is defined and
gives the result it would have given as the very first call.  Holds for every scalar type, hence in floating point. -/
theorem C25_history {f : DctFuns F m n} {idx : Fin n → Int} (h : DctSet f idx) {s : DctBuf F m} (hs : Reach f s) :
    SameAsFirst f.Ax s ∧ SameAsFirst f.Aty s ∧ SameAsFirst f.AtAx s ∧ SameAsFirst f.Mx s ∧ SameAsFirst f.Mty s ∧
      SameAsFirst f.Rx s ∧ ∀ old, SameAsFirst (fun y => f.Rty y old) s := by
  have ok := setOk h
  have inv := reach_inv h hs
  exact ⟨fun x => ok.Ax.same x s inv, fun x => ok.Aty.same x s inv, fun x => ok.AtAx.same x s inv,
    fun x => ok.Mx.same x s inv, fun x => ok.Mty.same x s inv, fun x => ok.Rx.same x s inv,
    fun old x => (ok.Rty old).same x s inv⟩

/-- the call leaves its argument array as it was -/
def KeepsArg (op : Vec F l → DctBuf F m → Option (XOut F k l m)) (s : DctBuf F m) : Prop :=
  ∀ x o, op x s = some o → o.arg = x

omit [Scalar F] in
theorem upd_restore [NeZero m] (x : Vec F m) (v : F) : Function.update (Function.update x 0 v) 0 (x 0) = x := by
  rw [Function.update_idem, Function.update_eq_self]

/-- **C25**, arguments: all operators but `Mx` leave their argument untouched for every scalar type; `Mx` changes
at most entry 0, which becomes `x0 * sqrt 2 / sqrt 2`. -/
theorem C25_arguments {f : DctFuns F m n} {idx : Fin n → Int} (h : DctSet f idx) (s : DctBuf F m) :
    KeepsArg f.Ax s ∧ KeepsArg f.Aty s ∧ KeepsArg f.AtAx s ∧ KeepsArg f.Mty s ∧ KeepsArg f.Rx s ∧
      (∀ old, KeepsArg (fun y => f.Rty y old) s) ∧
      ∀ x o, f.Mx x s = some o → ∀ i : Fin m, o.arg i = x i ∨ i.val = 0 ∧ o.arg i = x i * root2 / root2 := by
  cases h with
  | d1 fw idx hidx =>
    obtain ⟨ix, hr, hix⟩ := resolve_eq hidx
    have hres : resolve m (dct1Cfg fw idx).idx = some ix := hr
    refine ⟨?_, ?_, ?_, ?_, ?_, ?_, ?_⟩
    · intro x o ho
      have ho : dct_EMx (dct1Cfg fw idx) x s = _ := ho
      unfold dct_EMx at ho; rw [hres] at ho; cases ho; exact upd_restore x _
    · intro x o ho
      have ho : dct_MtEty (dct1Cfg fw idx) x s = _ := ho
      unfold dct_MtEty at ho; rw [hres] at ho; cases ho; rfl
    · intro x o ho
      have ho : dct_MtEt_EMx (dct1Cfg fw idx) x s = _ := ho
      unfold dct_MtEt_EMx at ho; rw [hres] at ho; cases ho; exact upd_restore x _
    · intro x o ho; cases ho; rfl
    · intro x o ho
      have ho : dct_Ex (dct1Cfg fw idx) x s = _ := ho
      unfold dct_Ex at ho; rw [hres] at ho; cases ho; rfl
    · intro old x o ho
      have ho : dct_Ety (dct1Cfg fw idx) x old s = _ := ho
      unfold dct_Ety at ho; rw [hres] at ho; cases ho; rfl
    · intro x o ho i
      have ho : dct_Mx (dct1Cfg fw idx) x s = _ := ho
      unfold dct_Mx at ho; cases ho
      show Function.update _ _ _ i = _ ∨ _ ∧ Function.update _ _ _ i = _
      rw [Function.update_self, Function.update_idem]
      by_cases hi : i = 0
      · subst hi; right; exact ⟨rfl, Function.update_self ..⟩
      · left; rw [Function.update_of_ne hi]
  | @d2 mrow mcol _ _ _ fw idx hidx =>
    obtain ⟨ix, hr, hix⟩ := resolve_eq hidx
    have hres : resolve (mrow * mcol) (dct2Cfg fw idx).idx = some ix := hr
    refine ⟨?_, ?_, ?_, ?_, ?_, ?_, ?_⟩
    · intro x o ho
      have ho : dct2_EMx (dct2Cfg fw idx) x s = _ := ho
      unfold dct2_EMx at ho; rw [hres] at ho; cases ho; rfl
    · intro x o ho
      have ho : dct2_MtEty (dct2Cfg fw idx) x s = _ := ho
      unfold dct2_MtEty at ho; rw [hres] at ho; cases ho; rfl
    · intro x o ho
      have ho : dct2_MtEt_EMx (dct2Cfg fw idx) x s = _ := ho
      unfold dct2_MtEt_EMx at ho; rw [hres] at ho; cases ho; rfl
    · intro x o ho; cases ho; rfl
    · intro x o ho
      have ho : dct_Ex (dct2Cfg fw idx) x s = _ := ho
      unfold dct_Ex at ho; rw [hres] at ho; cases ho; rfl
    · intro old x o ho
      have ho : dct_Ety (dct2Cfg fw idx) x old s = _ := ho
      unfold dct_Ety at ho; rw [hres] at ho; cases ho; rfl
    · intro x o ho i
      cases ho; exact Or.inl rfl

/-- **C23.**  `AtAx x` is exactly (bit for bit) `Aty (Ax x)`, in every reachable state, for every scalar type. -/
theorem C23_dct {f : DctFuns F m n} {idx : Fin n → Int} (h : DctSet f idx) {s s₁ s₂ : DctBuf F m}
    (hs : Reach f s) (hs₁ : Reach f s₁) (hs₂ : Reach f s₂) (x : Vec F m) :
    ∃ o o₁ o₂, f.AtAx x s = some o ∧ f.Ax x s₁ = some o₁ ∧ f.Aty o₁.res s₂ = some o₂ ∧ o.res = o₂.res := by
  obtain ⟨o, o', h1, h1', e1, _⟩ := (setOk h).AtAx.same x s (reach_inv h hs)
  obtain ⟨p, p', h2, h2', e2, _⟩ := (setOk h).Ax.same x s₁ (reach_inv h hs₁)
  obtain ⟨q, q', h3, h3', e3, _⟩ := (setOk h).Aty.same p.res s₂ (reach_inv h hs₂)
  refine ⟨o, p, q, h1, h2, h3, ?_⟩
  rw [e1, e3]
  rw [e2] at h3'
  clear h1 h2 h3 e1 e2 e3 hs hs₁ hs₂
  cases h with
  | d1 fw idx hidx =>
    obtain ⟨ix, hr, hix⟩ := resolve_eq hidx
    have hres : resolve m (dct1Cfg fw idx).idx = some ix := hr
    have h1' : dct_MtEt_EMx (dct1Cfg fw idx) x _ = _ := h1'
    have h2' : dct_EMx (dct1Cfg fw idx) x _ = _ := h2'
    have h3' : dct_MtEty (dct1Cfg fw idx) p'.res _ = _ := h3'
    unfold dct_MtEt_EMx at h1'; unfold dct_EMx at h2'; unfold dct_MtEty at h3'
    rw [hres] at h1' h2' h3'
    cases h2'; cases h1'; cases h3'; rfl
  | @d2 mrow mcol _ _ _ fw idx hidx =>
    obtain ⟨ix, hr, hix⟩ := resolve_eq hidx
    have hres : resolve (mrow * mcol) (dct2Cfg fw idx).idx = some ix := hr
    have h1' : dct2_MtEt_EMx (dct2Cfg fw idx) x _ = _ := h1'
    have h2' : dct2_EMx (dct2Cfg fw idx) x _ = _ := h2'
    have h3' : dct2_MtEty (dct2Cfg fw idx) p'.res _ = _ := h3'
    unfold dct2_MtEt_EMx at h1'; unfold dct2_EMx at h2'; unfold dct2_MtEty at h3'
    rw [hres] at h1' h2' h3'
    cases h2'; cases h1'; cases h3'; rfl

end generic

/-! ## Exact arithmetic -/

/-- **C21.**  `Mx` and `Mty` compute mutually inverse, mutually adjoint, norm-preserving maps. -/
theorem C21_orthonormal {f : DctFuns Dbl m n} {idx : Fin n → Int} (h : DctSetR f idx) :
    ∃ M Mt : (Fin m → ℝ) → (Fin m → ℝ), Gives f f.Mx M ∧ Gives f f.Mty Mt ∧
      (∀ x, Mt (M x) = x) ∧ (∀ y, M (Mt y) = y) ∧ (∀ x y, M x ⬝ᵥ y = x ⬝ᵥ Mt y) ∧
      (∀ x, nrm (M x) = nrm x) ∧ (∀ y, nrm (Mt y) = nrm y) := by
  obtain ⟨ix, Q, ok⟩ := funsOk h
  have hQ := ok.orth
  have hQ' : Q * Qᵀ = 1 := mul_eq_one_comm.1 hQ
  have hadj := mulVec_adj Q
  have h1 : ∀ x, Qᵀ *ᵥ (Q *ᵥ x) = x := fun x => by rw [mulVec_mulVec, hQ, one_mulVec]
  have h2 : ∀ x, Q *ᵥ (Qᵀ *ᵥ x) = x := fun x => by rw [mulVec_mulVec, hQ', one_mulVec]
  refine ⟨_, _, ok.Mx.gives h, ok.Mty.gives h, h1, h2, hadj, fun x => ?_, fun y => ?_⟩
  · show nrm (Q *ᵥ x) = _
    unfold nrm; rw [hadj, h1]
  · show nrm (Qᵀ *ᵥ y) = _
    unfold nrm; rw [← hadj, h2]

theorem Dbl.mul_div_root2 (x : Dbl) : x * root2 / root2 = x := by
  rw [root2_eq]
  have hp : (0 : ℝ) < Real.sqrt 2 := by positivity
  cases x with
  | fin a => rw [Dbl.fin_mul, Dbl.fin_div root2_ne, mul_div_cancel_right₀ _ root2_ne]
  | pinf =>
    have h1 : (Dbl.pinf * Dbl.fin (Real.sqrt 2) : Dbl) = .pinf := by
      show Dbl.infMul (Real.sqrt 2) = _; unfold Dbl.infMul; rw [if_neg hp.ne', if_pos hp]
    rw [h1]; show (if (0 : ℝ) ≤ Real.sqrt 2 then Dbl.pinf else Dbl.ninf) = _; rw [if_pos hp.le]
  | ninf =>
    have hn : ¬ (0 : ℝ) < -Real.sqrt 2 := by linarith
    have h1 : (Dbl.ninf * Dbl.fin (Real.sqrt 2) : Dbl) = .ninf := by
      show Dbl.infMul (-Real.sqrt 2) = _; unfold Dbl.infMul; rw [if_neg (by linarith), if_neg hn]
    rw [h1]; show (if (0 : ℝ) ≤ Real.sqrt 2 then Dbl.ninf else Dbl.pinf) = _; rw [if_pos hp.le]
  | nan => rfl

/-- **C25**, arguments: without rounding `Mx`, too, leaves its argument as it was, whatever the data. -/
theorem C25_argument_Mx {f : DctFuns Dbl m n} {idx : Fin n → Int} (h : DctSet f idx) (s : DctBuf Dbl m) :
    KeepsArg f.Mx s := by
  intro x o ho
  funext i
  rcases (C25_arguments h s).2.2.2.2.2.2 x o ho i with h | ⟨_, h⟩
  · exact h
  · rw [h, Dbl.mul_div_root2]

/-- `i`-th sample of the `k`-th orthonormal DCT-II basis vector of length `m` -/
noncomputable def dctBasis [NeZero m] (k i : Fin m) : ℝ :=
  (if k = 0 then Real.sqrt (1 / m) else Real.sqrt (2 / m)) * Real.cos (Real.pi * k * ((i : ℝ) + 1 / 2) / m)

theorem dctMat_basis [NeZero m] (i k : Fin m) : dctMat m i k = dctBasis k i := by
  have hm : (0 : ℝ) < m := by exact_mod_cast Nat.pos_of_ne_zero (NeZero.ne m)
  unfold dctMat dctBasis rootN
  congr 1
  split
  · rw [← Real.sqrt_mul (by positivity)]; congr 1; field_simp
  · have : (2 : ℝ) = Real.sqrt 4 := by
      rw [show (4 : ℝ) = 2 ^ 2 by norm_num, Real.sqrt_sq (by norm_num)]
    conv_lhs => rw [this]
    rw [← Real.sqrt_mul (by positivity)]; congr 1
    rw [← this]; field_simp; norm_num

/-- **C21**, the basis: `Mx` synthesises with *the* orthonormal DCT-II cosines, not just some orthogonal map. 1-D. -/
theorem C21_basis_1d [NeZero m] {fw : Fftw Dbl m} (hfw : FftwOk1 fw) {idx : Fin n → Int} (hi : IdxOk m idx) :
    Gives (dct1Funs fw idx) (dct1Funs fw idx).Mx fun x i => ∑ k : Fin m, dctBasis k i * x k := by
  obtain ⟨ix, hr, hix⟩ := resolve_eq hi
  have h := (dct1_ok hfw hr hix).Mx.gives (.d1 fw idx hfw hi)
  have e : (fun x : Fin m → ℝ => dctMat m *ᵥ x) = fun x i => ∑ k : Fin m, dctBasis k i * x k := by
    funext x i
    simp only [mulVec, dotProduct, dctMat_basis]
  rw [← e]; exact h

/-- **C21**, the basis, 2-D: products of the 1-D cosines, rows and columns in row-major order. -/
theorem C21_basis_2d {mrow mcol : ℕ} [NeZero mrow] [NeZero mcol] {fw : Fftw Dbl (mrow * mcol)} (hfw : FftwOk2 fw)
    {idx : Fin n → Int} (hi : IdxOk (mrow * mcol) idx) :
    ∃ M, Gives (dct2Funs fw idx) (dct2Funs fw idx).Mx M ∧ ∀ x (i : Fin mrow) (j : Fin mcol),
      M x (px i j) = ∑ k : Fin mrow, ∑ l : Fin mcol, dctBasis k i * dctBasis l j * x (px k l) := by
  obtain ⟨ix, hr, hix⟩ := resolve_eq hi
  refine ⟨_, (dct2_ok hfw hr hix).Mx.gives (.d2 fw idx hfw hi), fun x i j => ?_⟩
  show (dctMat2 mrow mcol *ᵥ x) (px i j) = _
  rw [dctMat2, ← sep2_mulVec, sep2_apply, prow_px, pcol_px]
  simp only [mulVec, dotProduct, dctMat_basis]
  refine Finset.sum_congr rfl fun k _ => ?_
  rw [Finset.mul_sum]
  exact Finset.sum_congr rfl fun l _ => by ring

/-- **C21/C22**, sampling: entry `i` of `Ax x` is entry `idx i` of `Mx x`; `Rx` alone is that sampling. -/
theorem C22_samples {f : DctFuns Dbl m n} {idx : Fin n → Int} (h : DctSetR f idx) :
    ∃ (M : (Fin m → ℝ) → (Fin m → ℝ)) (A R : (Fin m → ℝ) → (Fin n → ℝ)), Gives f f.Mx M ∧ Gives f f.Ax A ∧
      Gives f f.Rx R ∧ ∀ x i (t : Fin m), idx i = (t : ℕ) → A x i = M x t ∧ R x i = x t := by
  obtain ⟨ix, Q, ok⟩ := funsOk h
  refine ⟨_, _, _, ok.Mx.gives h, ok.Ax.gives h, ok.Rx.gives h, fun x i t ht => ?_⟩
  have : ix i = t := Fin.ext (by have := ok.hix i; omega)
  simp only [gather, this, and_self]

/-- **C22.**  `Ax` and `Aty` compute maps which are adjoint exactly when the index list has no repetition. -/
theorem C22_adjoint_iff {f : DctFuns Dbl m n} {idx : Fin n → Int} (h : DctSetR f idx) :
    ∃ (A : (Fin m → ℝ) → (Fin n → ℝ)) (At : (Fin n → ℝ) → (Fin m → ℝ)), Gives f f.Ax A ∧ Gives f f.Aty At ∧
      ((∀ x y, A x ⬝ᵥ y = x ⬝ᵥ At y) ↔ Function.Injective idx) := by
  obtain ⟨ix, Q, ok⟩ := funsOk h
  refine ⟨_, _, ok.Ax.gives h, ok.Aty.gives h, ?_⟩
  rw [injective_iff ok.hix]
  constructor
  · intro hadj a b hab
    by_contra hne
    classical
    -- sample the pixel that is listed twice
    set y : Fin n → ℝ := fun k => if ix k = ix a then 1 else 0 with hy
    set e : Fin m → ℝ := Pi.single (ix a) 1 with he
    have hQ' : Q * Qᵀ = 1 := mul_eq_one_comm.1 ok.orth
    have h1 : Q *ᵥ (Qᵀ *ᵥ e) = e := by rw [mulVec_mulVec, hQ', one_mulVec]
    have h2 := hadj (Qᵀ *ᵥ e) y
    simp only [h1] at h2
    rw [← mulVec_adj Q, h1] at h2
    have hy1 : scat ix y (ix a) = y a := scatter_const ix y 0 a fun j hj => by simp [hy, hj]
    have hr : e ⬝ᵥ scat ix y = 1 := by
      rw [he, single_dotProduct, hy1]; simp [hy]
    have hl : gather ix e ⬝ᵥ y = ∑ k, if ix k = ix a then (1 : ℝ) else 0 := by
      simp only [dotProduct]
      refine Finset.sum_congr rfl fun k _ => ?_
      by_cases hk : ix k = ix a
      · simp [gather, hy, he, hk]
      · simp [hy, hk]
    rw [hl, hr] at h2
    have hge : (2 : ℝ) ≤ ∑ k, if ix k = ix a then (1 : ℝ) else 0 := by
      calc (2 : ℝ) = ∑ k ∈ ({a, b} : Finset (Fin n)), if ix k = ix a then (1 : ℝ) else 0 := by
            rw [Finset.sum_pair hne, if_pos rfl, if_pos hab.symm]; norm_num
        _ ≤ _ := Finset.sum_le_sum_of_subset_of_nonneg (Finset.subset_univ _) fun k _ _ => by split <;> norm_num
    linarith
  · intro hinj x y
    show gather ix (Q *ᵥ x) ⬝ᵥ y = x ⬝ᵥ (Qᵀ *ᵥ scat ix y)
    rw [gather_adj ix hinj, mulVec_adj]

/-- the part of C22 that holds: no repeated index.  Missing: lists with repetitions, where it is false. -/
theorem C22_adjoint_partial {f : DctFuns Dbl m n} {idx : Fin n → Int} (h : DctSetR f idx)
    (hinj : Function.Injective idx) :
    ∃ (A : (Fin m → ℝ) → (Fin n → ℝ)) (At : (Fin n → ℝ) → (Fin m → ℝ)), Gives f f.Ax A ∧ Gives f f.Aty At ∧
      ∀ x y, A x ⬝ᵥ y = x ⬝ᵥ At y := by
  obtain ⟨A, At, h1, h2, h3⟩ := C22_adjoint_iff h
  exact ⟨A, At, h1, h2, h3.2 hinj⟩

/-- **C24.**  `Ax (Aty y) = y` for all `y` exactly when the index list has no repetition. -/
theorem C24_rows_orthonormal_iff {f : DctFuns Dbl m n} {idx : Fin n → Int} (h : DctSetR f idx) :
    ∃ (A : (Fin m → ℝ) → (Fin n → ℝ)) (At : (Fin n → ℝ) → (Fin m → ℝ)), Gives f f.Ax A ∧ Gives f f.Aty At ∧
      ((∀ y, A (At y) = y) ↔ Function.Injective idx) := by
  obtain ⟨ix, Q, ok⟩ := funsOk h
  refine ⟨_, _, ok.Ax.gives h, ok.Aty.gives h, ?_⟩
  rw [injective_iff ok.hix]
  have hQ' : Q * Qᵀ = 1 := mul_eq_one_comm.1 ok.orth
  have h2 : ∀ y : Fin n → ℝ, Q *ᵥ (Qᵀ *ᵥ scat ix y) = scat ix y := fun x => by
    rw [mulVec_mulVec, hQ', one_mulVec]
  simp only [h2]
  constructor
  · intro hall a b hab
    by_contra hne
    classical
    have h3 := hall (Pi.single a 1)
    have ha := congrFun h3 a
    have hb := congrFun h3 b
    simp only [gather, hab] at ha hb
    rw [Pi.single_eq_same] at ha
    rw [Pi.single_eq_of_ne (Ne.symm hne), ha] at hb
    norm_num at hb
  · intro hinj y
    exact gather_scat ix hinj y

/-- the part of C24 that holds: no repeated index.  Missing: lists with repetitions, where it is false. -/
theorem C24_rows_orthonormal_partial {f : DctFuns Dbl m n} {idx : Fin n → Int} (h : DctSetR f idx)
    (hinj : Function.Injective idx) :
    ∃ (A : (Fin m → ℝ) → (Fin n → ℝ)) (At : (Fin n → ℝ) → (Fin m → ℝ)), Gives f f.Ax A ∧ Gives f f.Aty At ∧
      ∀ y, A (At y) = y := by
  obtain ⟨A, At, h1, h2, h3⟩ := C24_rows_orthonormal_iff h
  exact ⟨A, At, h1, h2, h3.2 hinj⟩

/-! ## The hypotheses can be met -/

/-- the finite part of a double -/
def Dbl.toR : Dbl → ℝ
  | .fin a => a
  | _ => 0

/-- plans that compute the documented transforms -/
noncomputable def refFftw1 [NeZero m] : Fftw Dbl m :=
  ⟨fun v => fvec (redft10 fun i => (v i).toR), fun v => fvec (redft01 fun i => (v i).toR)⟩

theorem refFftw1_ok [NeZero m] : FftwOk1 (refFftw1 : Fftw Dbl m) := ⟨fun _ => rfl, fun _ => rfl⟩

noncomputable def refFftw2 {mrow mcol : ℕ} [NeZero mrow] [NeZero mcol] : Fftw Dbl (mrow * mcol) :=
  ⟨fun v => fvec (sep2 redft10 redft10 fun i => (v i).toR), fun v => fvec (sep2 redft01 redft01 fun i => (v i).toR)⟩

theorem refFftw2_ok {mrow mcol : ℕ} [NeZero mrow] [NeZero mcol] :
    FftwOk2 (refFftw2 : Fftw Dbl (mrow * mcol)) := ⟨fun _ => rfl, fun _ => rfl⟩

/-- a 3×4 image sampled at pixels 5 and 11, after one call -/
example : ∃ (f : DctFuns Dbl (3 * 4) 2) (s : DctBuf Dbl (3 * 4)), DctSetR f ![5, 11] ∧
    Function.Injective (![5, 11] : Fin 2 → Int) ∧ Reach f s ∧ s ≠ DctBuf.fresh := by
  have hset : DctSetR (dct2Funs (mrow := 3) (mcol := 4) refFftw2 ![5, 11]) ![5, 11] :=
    .d2 _ _ refFftw2_ok (by intro i; fin_cases i <;> simp)
  obtain ⟨o, ho⟩ : ∃ o, (dct2Funs (mrow := 3) (mcol := 4) refFftw2 ![5, 11]).Aty (fvec ![7, 8]) DctBuf.fresh = some o := by
    obtain ⟨o, _, h, _⟩ := (C25_history hset.toSet .fresh).2.1 (fvec ![7, 8])
    exact ⟨o, h⟩
  refine ⟨_, o.buf, hset, by decide, .call (.Aty (fvec ![7, 8])) .fresh (by rw [DctCall.run, ho]; rfl), ?_⟩
  obtain ⟨ix, hr, hix⟩ := resolve_eq (m := 3 * 4) (idx := ![5, 11]) (by intro i; fin_cases i <;> simp)
  intro hf
  have ho : dct2_MtEty (dct2Cfg (mrow := 3) (mcol := 4) refFftw2 ![5, 11]) (fvec ![7, 8]) DctBuf.fresh = some o := ho
  unfold dct2_MtEty at ho
  have hres : resolve (3 * 4) (dct2Cfg (mrow := 3) (mcol := 4) refFftw2 ![5, 11]).idx = some ix := hr
  rw [hres] at ho; cases ho
  have h5 := congrArg DctBuf.Ety hf
  have h6 := congrFun h5 (ix 0)
  have hinj : Function.Injective ix := (injective_iff hix).1 (by decide)
  have : scatter ix (fvec ![7, 8]) (DctBuf.fresh : DctBuf Dbl (3 * 4)).Ety (ix 0) = fvec ![7, 8] 0 :=
    scatter_const ix _ _ 0 fun j hj => by rw [hinj hj]
  change scatter ix (fvec ![7, 8]) (DctBuf.fresh : DctBuf Dbl (3 * 4)).Ety (ix 0) = lit 0 at h6
  rw [this] at h6
  simp [fvec] at h6

/-- a list with a repetition, as for C22/C24's negative direction -/
example : ∃ f : DctFuns Dbl 8 2, DctSetR f ![3, 3] ∧ ¬ Function.Injective (![3, 3] : Fin 2 → Int) :=
  ⟨_, .d1 refFftw1 ![3, 3] refFftw1_ok (by intro i; fin_cases i <;> simp), by decide⟩

end L1c
