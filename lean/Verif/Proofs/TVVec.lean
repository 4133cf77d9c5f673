import Verif.Model.DctTV
import Verif.Proofs.TVReal
import Verif.Proofs.DctK

/-!
# From memory-level image kernels to functions on images, and from there to real difference operators
-/

namespace L1c
open Prog Scalar

variable {F : Type} {mrow mcol : ℕ}

/-! ## Refinement: the parallel kernels compute the functions `vDx`, … of the second layer -/

/-- the array at `p` is `x` -/
def HoldsArr {N : ℕ} (mem : Mem F) (p : Ptr) (x : Vec F N) : Prop :=
  mem.Has p (N : Int) ∧ ∀ t : Fin N, mem.val (p + ((t : ℕ) : Int)) = x t

theorem HoldsArr.pix {mem : Mem F} [Scalar F] {p : Ptr} {x : Vec F (mrow * mcol)} (h : HoldsArr mem p x)
    {i j : ℕ} (hi : i < mrow) (hj : j < mcol) : mem.pix p mcol i j = pixel x i j := by
  unfold Mem.pix pixel
  rw [dif_pos (idx_bound hi hj)]
  exact h.2 ⟨i * mcol + j, idx_bound hi hj⟩

theorem rowOf_lt (t : Fin (mrow * mcol)) : rowOf t < mrow := by
  have := t.2
  unfold rowOf
  rw [Nat.div_lt_iff_lt_mul (by rcases Nat.eq_zero_or_pos mcol with h | h; · simp [h] at this
                                · exact h)]
  exact this

theorem colOf_lt (t : Fin (mrow * mcol)) : colOf t < mcol := by
  have := t.2
  exact Nat.mod_lt _ (by rcases Nat.eq_zero_or_pos mcol with h | h; · simp [h] at this
                         · exact h)

/-- memory in which the array at `p` is `v` and nothing else changed -/
def Mem.setVec [Scalar F] {N : ℕ} (mem : Mem F) (p : Ptr) (v : Vec F N) : Mem F :=
  mem.setRange p (N : Int) fun k => if h : k.toNat < N then v ⟨k.toNat, h⟩ else nan

theorem setImg_eq_setVec [Scalar F] (mem : Mem F) (p : Ptr) (f : ℕ → ℕ → F) (v : Vec F (mrow * mcol))
    (h : ∀ t : Fin (mrow * mcol), f (rowOf t) (colOf t) = v t) :
    mem.setImg p mrow mcol f = mem.setVec p v := by
  unfold Mem.setImg Mem.setVec
  apply Mem.setRange_congr
  intro k h0 h1
  have hk : k.toNat < mrow * mcol := by omega
  rw [dif_pos hk]
  exact h ⟨k.toNat, hk⟩

section
variable [Scalar F] {mem : Mem F} {X D : Ptr} {x : Vec F (mrow * mcol)} {alpha : F}

theorem refine_Dx (hm : 1 ≤ mcol) (hfit : FitsInt ((mrow : Int) * mcol)) (hX : HoldsArr mem X x)
    (hD : mem.Has D ((mrow * mcol : ℕ) : Int)) (hs : Sep ((mrow * mcol : ℕ) : Int) D X) :
    KSpec (l1c_Dx mrow mcol alpha X D) mem (mem.setVec D (vDx alpha x)) := by
  rw [← setImg_eq_setVec mem D _ _ fun t => ?_]
  · exact kspec_Dx hm hfit hX.1 hD hs
  · have hc := colOf_lt t
    have hr := rowOf_lt t
    unfold dRow vDx
    split
    · rw [hX.pix hr (by omega), hX.pix hr hc]
    · rfl

theorem refine_DxT (hm : 2 ≤ mcol) (hfit : FitsInt ((mrow : Int) * mcol)) (hX : HoldsArr mem X x)
    (hD : mem.Has D ((mrow * mcol : ℕ) : Int)) (hs : Sep ((mrow * mcol : ℕ) : Int) D X) :
    KSpec (l1c_DxT mrow mcol alpha X D) mem (mem.setVec D (vDxT alpha x)) := by
  rw [← setImg_eq_setVec mem D _ _ fun t => ?_]
  · exact kspec_DxT hm hfit hX.1 hD hs
  · have hc := colOf_lt t
    have hr := rowOf_lt t
    unfold dRowT vDxT
    rw [hX.pix hr (by omega), hX.pix hr (by omega), hX.pix hr (by omega), hX.pix hr hc]

theorem refine_Dy (hn : 1 ≤ mrow) (hfit : FitsInt ((mrow : Int) * mcol)) (hX : HoldsArr mem X x)
    (hD : mem.Has D ((mrow * mcol : ℕ) : Int)) (hs : Sep ((mrow * mcol : ℕ) : Int) D X) :
    KSpec (l1c_Dy mrow mcol alpha X D) mem (mem.setVec D (vDy alpha x)) := by
  rw [← setImg_eq_setVec mem D _ _ fun t => ?_]
  · exact kspec_Dy hn hfit hX.1 hD hs
  · have hc := colOf_lt t
    have hr := rowOf_lt t
    unfold vDy
    split
    · rw [hX.pix (by omega) hc, hX.pix hr hc]
    · rfl

theorem refine_DyT (hfit : FitsInt ((mrow : Int) * mcol)) (hX : HoldsArr mem X x)
    (hD : mem.Has D ((mrow * mcol : ℕ) : Int)) (hs : Sep ((mrow * mcol : ℕ) : Int) D X) :
    KSpec (l1c_DyT mrow mcol alpha X D) mem (mem.setVec D (vDyT alpha x)) := by
  rw [← setImg_eq_setVec mem D _ _ fun t => ?_]
  · exact kspec_DyT hfit hX.1 hD hs
  · have hc := colOf_lt t
    have hr := rowOf_lt t
    unfold vDyT dColT
    simp only
    rw [hX.pix hr hc]
    by_cases h0 : rowOf t = 0
    · simp [h0]
    · simp only [h0, if_false]
      rw [hX.pix (by omega) hc]

end

/-! ## Real images -/

/-- pixel function of a real vector -/
noncomputable def toImg (x : Fin (mrow * mcol) → ℝ) : Img := fun i j =>
  if h : i * mcol + j < mrow * mcol then x ⟨i * mcol + j, h⟩ else 0

/-- image as a vector -/
def ofImg (u : Img) : Fin (mrow * mcol) → ℝ := fun t => u (rowOf t) (colOf t)

theorem pixel_fvec (x : Fin (mrow * mcol) → ℝ) {i j : ℕ} (hi : i < mrow) (hj : j < mcol) :
    pixel (fvec x) i j = Dbl.fin (toImg x i j) := by
  unfold pixel toImg
  rw [dif_pos (idx_bound hi hj), dif_pos (idx_bound hi hj), fvec_apply]

theorem toImg_row_col (x : Fin (mrow * mcol) → ℝ) (t : Fin (mrow * mcol)) : toImg x (rowOf t) (colOf t) = x t := by
  have e : rowOf t * mcol + colOf t = t.val := Nat.div_add_mod' _ _
  unfold toImg
  rw [dif_pos (by rw [e]; exact t.2)]
  congr 1
  exact Fin.ext e

theorem ofImg_toImg (x : Fin (mrow * mcol) → ℝ) : ofImg (toImg x) = x := funext fun t => toImg_row_col x t

theorem toImg_ofImg (u : Img) {i j : ℕ} (hi : i < mrow) (hj : j < mcol) :
    toImg (ofImg u : Fin (mrow * mcol) → ℝ) i j = u i j := by
  unfold toImg ofImg rowOf colOf
  rw [dif_pos (idx_bound hi hj)]
  have hm : 0 < mcol := by omega
  simp only [mul_comm _ mcol, Nat.mul_add_div hm, Nat.mul_add_mod, Nat.div_eq_of_lt hj, Nat.mod_eq_of_lt hj, add_zero]

/-- sums over the entries of an image are sums over its pixels -/
theorem sum_pixels (f : ℕ → ℕ → ℝ) :
    ∑ t : Fin (mrow * mcol), f (rowOf t) (colOf t) = ∑ i ∈ Finset.range mrow, ∑ j ∈ Finset.range mcol, f i j := by
  rw [← (finProdFinEquiv (m := mrow) (n := mcol)).sum_comp, Fintype.sum_prod_type, ← Fin.sum_univ_eq_sum_range (fun i => ∑ j ∈ Finset.range mcol, f i j)]
  refine Finset.sum_congr rfl fun i _ => ?_
  rw [← Fin.sum_univ_eq_sum_range (fun j => f i j)]
  refine Finset.sum_congr rfl fun j _ => ?_
  have hm : 0 < mcol := by have := j.2; omega
  have e : ((finProdFinEquiv (i, j) : Fin (mrow * mcol)) : ℕ) = j + mcol * i := rfl
  unfold rowOf colOf
  rw [e, Nat.add_mul_div_left _ _ hm, Nat.add_mul_mod_self_left, Nat.div_eq_of_lt j.2, Nat.mod_eq_of_lt j.2, zero_add]

theorem dot_eq_inner2 (x : Fin (mrow * mcol) → ℝ) (u : Img) :
    x ⬝ᵥ ofImg u = inner2 mrow mcol (toImg x) u := by
  unfold inner2
  rw [← sum_pixels fun i j => toImg x i j * u i j]
  simp only [dotProduct, ofImg, toImg_row_col]

theorem inner2_congr {n m : ℕ} {u v u' v' : Img} (h : ∀ i < n, ∀ j < m, u i j = u' i j)
    (h' : ∀ i < n, ∀ j < m, v i j = v' i j) : inner2 n m u v = inner2 n m u' v' := by
  unfold inner2
  refine Finset.sum_congr rfl fun i hi => Finset.sum_congr rfl fun j hj => ?_
  rw [h i (Finset.mem_range.1 hi) j (Finset.mem_range.1 hj), h' i (Finset.mem_range.1 hi) j (Finset.mem_range.1 hj)]

/-- lifted real operators on vectors -/
noncomputable def rDx (α : ℝ) (x : Fin (mrow * mcol) → ℝ) : Fin (mrow * mcol) → ℝ := ofImg (gradX α mcol (toImg x))
noncomputable def rDy (α : ℝ) (x : Fin (mrow * mcol) → ℝ) : Fin (mrow * mcol) → ℝ := ofImg (gradY α mrow (toImg x))
noncomputable def rDxT (α : ℝ) (x : Fin (mrow * mcol) → ℝ) : Fin (mrow * mcol) → ℝ := ofImg (gradXT α mcol (toImg x))
noncomputable def rDyT (α : ℝ) (x : Fin (mrow * mcol) → ℝ) : Fin (mrow * mcol) → ℝ := ofImg (gradYT α mrow (toImg x))

theorem rDx_adj (α : ℝ) (x y : Fin (mrow * mcol) → ℝ) : rDx α x ⬝ᵥ y = x ⬝ᵥ rDxT α y := by
  rw [dotProduct_comm, rDx, dot_eq_inner2, rDxT, dot_eq_inner2, ← gradX_adjoint]
  unfold inner2
  exact Finset.sum_congr rfl fun i _ => Finset.sum_congr rfl fun j _ => mul_comm _ _

theorem rDy_adj (α : ℝ) (x y : Fin (mrow * mcol) → ℝ) : rDy α x ⬝ᵥ y = x ⬝ᵥ rDyT α y := by
  rw [dotProduct_comm, rDy, dot_eq_inner2, rDyT, dot_eq_inner2, ← gradY_adjoint]
  unfold inner2
  exact Finset.sum_congr rfl fun i _ => Finset.sum_congr rfl fun j _ => mul_comm _ _

theorem dot_ofImg (u : Img) : (ofImg u : Fin (mrow * mcol) → ℝ) ⬝ᵥ ofImg u = normSq2 mrow mcol u := by
  rw [dot_eq_inner2]
  exact inner2_congr (fun i hi j hj => toImg_ofImg u hi hj) fun _ _ _ _ => rfl

theorem dot_self_eq (x : Fin (mrow * mcol) → ℝ) : x ⬝ᵥ x = normSq2 mrow mcol (toImg x) := by
  conv_lhs => rw [← ofImg_toImg x]
  exact dot_ofImg _

theorem rDx_norm (α : ℝ) (x : Fin (mrow * mcol) → ℝ) : rDx α x ⬝ᵥ rDx α x ≤ 4 * α ^ 2 * (x ⬝ᵥ x) := by
  rw [rDx, dot_ofImg, dot_self_eq]; exact gradX_norm ..
theorem rDy_norm (α : ℝ) (x : Fin (mrow * mcol) → ℝ) : rDy α x ⬝ᵥ rDy α x ≤ 4 * α ^ 2 * (x ⬝ᵥ x) := by
  rw [rDy, dot_ofImg, dot_self_eq]; exact gradY_norm ..

theorem vDx_fvec (α : ℝ) (x : Fin (mrow * mcol) → ℝ) : vDx (Dbl.fin α) (fvec x) = fvec (rDx α x) := by
  funext t
  have hc := colOf_lt t
  have hr := rowOf_lt t
  unfold vDx rDx ofImg gradX
  simp only [fvec_apply]
  split
  · rw [pixel_fvec x hr (by omega), pixel_fvec x hr hc]; simp
  · simp

theorem vDy_fvec (α : ℝ) (x : Fin (mrow * mcol) → ℝ) : vDy (Dbl.fin α) (fvec x) = fvec (rDy α x) := by
  funext t
  have hc := colOf_lt t
  have hr := rowOf_lt t
  unfold vDy rDy ofImg gradY
  simp only [fvec_apply]
  split
  · rw [pixel_fvec x (by omega) hc, pixel_fvec x hr hc]; simp
  · simp

theorem vDxT_fvec (hm : 2 ≤ mcol) (α : ℝ) (x : Fin (mrow * mcol) → ℝ) :
    vDxT (Dbl.fin α) (fvec x) = fvec (rDxT α x) := by
  funext t
  have hc := colOf_lt t
  have hr := rowOf_lt t
  unfold vDxT rDxT ofImg gradXT adjRow
  simp only [fvec_apply]
  by_cases h1 : colOf t + 1 = mcol
  · rw [if_pos h1, if_neg (by omega), if_neg (by omega), pixel_fvec x hr (by omega)]
    have : colOf t - 1 = mcol - 2 := by omega
    simp [this]
  · by_cases h2 : colOf t = 0
    · rw [if_neg h1, if_pos h2, if_pos h2, if_pos (by omega), pixel_fvec x hr (by omega)]
      simp [h2]
    · rw [if_neg h1, if_neg h2, if_neg h2, if_pos (by omega), pixel_fvec x hr hc, pixel_fvec x hr (by omega)]
      simp

theorem vDyT_fvec (α : ℝ) (x : Fin (mrow * mcol) → ℝ) : vDyT (Dbl.fin α) (fvec x) = fvec (rDyT α x) := by
  funext t
  have hc := colOf_lt t
  have hr := rowOf_lt t
  unfold vDyT rDyT ofImg gradYT adjRow
  simp only [fvec_apply]
  rw [pixel_fvec x hr hc]
  by_cases h0 : rowOf t = 0 <;> by_cases h1 : rowOf t + 1 < mrow
  · simp only [h0, if_true]; rw [h0] at h1; simp [h1]
  · simp only [h0, if_true]; rw [h0] at h1; simp [h1]
  · simp only [h0, if_false, h1, if_true]; rw [pixel_fvec x (by omega) hc]; simp
  · simp only [h0, if_false, h1]; rw [pixel_fvec x (by omega) hc]; simp

end L1c
