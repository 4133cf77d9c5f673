import Verif.Proofs.TVK
import Mathlib.Tactic.Linarith
import Mathlib.Algebra.BigOperators.Intervals
import Mathlib.Algebra.Order.BigOperators.Group.Finset

/-! Real linear algebra of the difference operators, and the bridge from `Dbl` images. -/

namespace L1c
open Prog Scalar Finset

/-- adjoint of the forward difference on a vector of length `m` -/
noncomputable def adjRow (α : ℝ) (m : ℕ) (y : ℕ → ℝ) (j : ℕ) : ℝ :=
  α * ((if j = 0 then 0 else y (j - 1)) - (if j + 1 < m then y j else 0))

noncomputable def fwdRow (α : ℝ) (m : ℕ) (x : ℕ → ℝ) (j : ℕ) : ℝ :=
  if j + 1 < m then α * (x (j + 1) - x j) else 0

theorem sum_ite_last (k : ℕ) (f : ℕ → ℝ) :
    ∑ j ∈ range (k + 1), (if j + 1 < k + 1 then f j else 0) = ∑ j ∈ range k, f j := by
  rw [sum_range_succ, if_neg (by omega), add_zero]
  exact sum_congr rfl fun j hj => if_pos (by have := mem_range.1 hj; omega)

theorem sum_ite_first (k : ℕ) (f : ℕ → ℝ) :
    ∑ j ∈ range (k + 1), (if j = 0 then 0 else f (j - 1)) = ∑ j ∈ range k, f j := by
  rw [sum_range_succ', if_pos rfl, add_zero]
  exact sum_congr rfl fun j _ => by rw [if_neg (by omega)]; rfl

theorem row_adjoint (α : ℝ) (m : ℕ) (x y : ℕ → ℝ) :
    ∑ j ∈ range m, fwdRow α m x j * y j = ∑ j ∈ range m, x j * adjRow α m y j := by
  rcases m with _ | k
  · simp
  have e1 : ∑ j ∈ range (k + 1), fwdRow α (k + 1) x j * y j = ∑ j ∈ range k, α * (x (j + 1) - x j) * y j := by
    rw [← sum_ite_last k]
    exact sum_congr rfl fun j _ => by unfold fwdRow; split <;> ring
  have e2 : ∑ j ∈ range (k + 1), x j * adjRow α (k + 1) y j
      = ∑ j ∈ range (k + 1), (if j = 0 then 0 else α * x (j - 1 + 1) * y (j - 1))
        - ∑ j ∈ range (k + 1), (if j + 1 < k + 1 then α * x j * y j else 0) := by
    rw [← sum_sub_distrib]
    refine sum_congr rfl fun j _ => ?_
    unfold adjRow
    by_cases h : j = 0
    · subst h; simp only [if_true]; split <;> ring
    · rw [if_neg h, if_neg h, Nat.sub_add_cancel (by omega)]; split <;> ring
  rw [e1, e2, sum_ite_last, sum_ite_first k (fun j => α * x (j + 1) * y j), ← sum_sub_distrib]
  exact sum_congr rfl fun j _ => by ring

theorem row_norm (α : ℝ) (m : ℕ) (x : ℕ → ℝ) :
    ∑ j ∈ range m, fwdRow α m x j ^ 2 ≤ 4 * α ^ 2 * ∑ j ∈ range m, x j ^ 2 := by
  rcases m with _ | k
  · simp
  have e1 : ∑ j ∈ range (k + 1), fwdRow α (k + 1) x j ^ 2 = ∑ j ∈ range k, (α * (x (j + 1) - x j)) ^ 2 := by
    rw [← sum_ite_last k]
    exact sum_congr rfl fun j _ => by unfold fwdRow; split <;> ring
  have e2 : ∑ j ∈ range k, (α * (x (j + 1) - x j)) ^ 2
      ≤ ∑ j ∈ range k, (2 * α ^ 2 * x (j + 1) ^ 2 + 2 * α ^ 2 * x j ^ 2) :=
    sum_le_sum fun j _ => by nlinarith [sq_nonneg (α * (x (j + 1) + x j))]
  rw [sum_add_distrib, ← mul_sum, ← mul_sum] at e2
  have e3 : ∑ j ∈ range k, x (j + 1) ^ 2 ≤ ∑ j ∈ range (k + 1), x j ^ 2 := by
    rw [sum_range_succ']; linarith [sq_nonneg (x 0)]
  have e4 : ∑ j ∈ range k, x j ^ 2 ≤ ∑ j ∈ range (k + 1), x j ^ 2 := by
    rw [sum_range_succ]; linarith [sq_nonneg (x k)]
  rw [e1]
  nlinarith [sq_nonneg α]

theorem row_norm_adj (α : ℝ) (m : ℕ) (y : ℕ → ℝ) :
    ∑ j ∈ range m, adjRow α m y j ^ 2 ≤ 4 * α ^ 2 * ∑ j ∈ range m, y j ^ 2 := by
  rcases m with _ | k
  · simp
  have e2 : ∑ j ∈ range (k + 1), adjRow α (k + 1) y j ^ 2
      ≤ ∑ j ∈ range (k + 1), (2 * α ^ 2 * (if j = 0 then 0 else y (j - 1) ^ 2)
        + 2 * α ^ 2 * (if j + 1 < k + 1 then y j ^ 2 else 0)) :=
    sum_le_sum fun j _ => by
      unfold adjRow
      have key : ∀ a b : ℝ, (α * (a - b)) ^ 2 ≤ 2 * α ^ 2 * a ^ 2 + 2 * α ^ 2 * b ^ 2 := by
        intro a b; nlinarith [sq_nonneg (α * (a + b))]
      refine (key _ _).trans (le_of_eq ?_)
      split <;> split <;> ring
  rw [sum_add_distrib, ← mul_sum, ← mul_sum, sum_ite_last, sum_ite_first k (fun j => y j ^ 2)] at e2
  have e4 : ∑ j ∈ range k, y j ^ 2 ≤ ∑ j ∈ range (k + 1), y j ^ 2 := by
    rw [sum_range_succ]; linarith [sq_nonneg (y k)]
  nlinarith [sq_nonneg α]

/-! ### images -/

/-- adjoint of `gradX` -/
noncomputable def gradXT (α : ℝ) (m : ℕ) (u : Img) : Img := fun i j => adjRow α m (u i) j
/-- adjoint of `gradY` -/
noncomputable def gradYT (α : ℝ) (n : ℕ) (u : Img) : Img := fun i j => adjRow α n (fun i => u i j) i

theorem inner2_comm (n m : ℕ) (u v : Img) :
    inner2 n m u v = ∑ j ∈ range m, ∑ i ∈ range n, u i j * v i j := sum_comm

theorem gradX_adjoint (α : ℝ) (n m : ℕ) (u v : Img) :
    inner2 n m (gradX α m u) v = inner2 n m u (gradXT α m v) :=
  sum_congr rfl fun i _ => row_adjoint α m (u i) (v i)

theorem gradY_adjoint (α : ℝ) (n m : ℕ) (u v : Img) :
    inner2 n m (gradY α n u) v = inner2 n m u (gradYT α n v) := by
  rw [inner2_comm, inner2_comm]
  exact sum_congr rfl fun j _ => row_adjoint α n (fun i => u i j) (fun i => v i j)

theorem normSq2_eq (n m : ℕ) (u : Img) : normSq2 n m u = ∑ i ∈ range n, ∑ j ∈ range m, u i j ^ 2 := by
  unfold normSq2 inner2
  exact sum_congr rfl fun i _ => sum_congr rfl fun j _ => by ring

theorem normSq2_nonneg (n m : ℕ) (u : Img) : 0 ≤ normSq2 n m u := by
  rw [normSq2_eq]; positivity

theorem gradX_norm (α : ℝ) (n m : ℕ) (u : Img) : normSq2 n m (gradX α m u) ≤ 4 * α ^ 2 * normSq2 n m u := by
  rw [normSq2_eq, normSq2_eq, mul_sum]
  exact sum_le_sum fun i _ => row_norm α m (u i)

theorem gradXT_norm (α : ℝ) (n m : ℕ) (u : Img) : normSq2 n m (gradXT α m u) ≤ 4 * α ^ 2 * normSq2 n m u := by
  rw [normSq2_eq, normSq2_eq, mul_sum]
  exact sum_le_sum fun i _ => row_norm_adj α m (u i)

theorem gradY_norm (α : ℝ) (n m : ℕ) (u : Img) : normSq2 n m (gradY α n u) ≤ 4 * α ^ 2 * normSq2 n m u := by
  rw [normSq2_eq, normSq2_eq, sum_comm, sum_comm (f := fun i j => u i j ^ 2), mul_sum]
  exact sum_le_sum fun j _ => row_norm α n (fun i => u i j)

theorem gradYT_norm (α : ℝ) (n m : ℕ) (u : Img) : normSq2 n m (gradYT α n u) ≤ 4 * α ^ 2 * normSq2 n m u := by
  rw [normSq2_eq, normSq2_eq, sum_comm, sum_comm (f := fun i j => u i j ^ 2), mul_sum]
  exact sum_le_sum fun j _ => row_norm_adj α n (fun i => u i j)

/-! ### kernels on finite images -/

/-- the kernel family `k` computes the image operator `T` on finite real images -/
def ImgOp (k : Ptr → Ptr → Kernel Dbl) (n m : ℕ) (T : Img → Img) : Prop :=
  ∀ (mem : Mem Dbl) (X D : Ptr) (u : Img), HoldsImg mem X n m u → mem.Has D ((n * m : ℕ) : Int) →
    Sep ((n * m : ℕ) : Int) D X →
    KSpec (k X D) mem (mem.setImg D n m fun i j => Dbl.fin (T u i j))

theorem holdsImg_setImg {mem : Mem Dbl} {D : Ptr} {n m : ℕ} {u : Img} (h : mem.Has D ((n * m : ℕ) : Int)) :
    HoldsImg (mem.setImg D n m fun i j => Dbl.fin (u i j)) D n m u :=
  ⟨h, fun _ hi _ hj => Mem.setImg_pix _ _ _ _ _ hi hj⟩

theorem HoldsImg.setImg {mem : Mem Dbl} {D X : Ptr} {n m : ℕ} {u : Img} {f : ℕ → ℕ → Dbl}
    (h : HoldsImg mem X n m u) (hs : Sep ((n * m : ℕ) : Int) D X) :
    HoldsImg (mem.setImg D n m f) X n m u :=
  ⟨h.1, fun i hi j hj => by rw [Mem.setImg_pix_out _ _ _ _ _ _ hi hj hs]; exact h.2 i hi j hj⟩

theorem imgOp_Dx {n m : ℕ} (hm : 1 ≤ m) (hfit : FitsInt ((n : Int) * m)) (α : ℝ) :
    ImgOp (l1c_Dx n m (Dbl.fin α)) n m (gradX α m) := by
  intro mem X D u hX hD hs
  have := kspec_Dx (alpha := Dbl.fin α) hm hfit hX.1 hD hs
  rwa [Mem.setImg_congr _ _ _ _ _ (fun i j => Dbl.fin (gradX α m u i j))] at this
  intro i hi j hj
  unfold dRow gradX
  split
  · rw [hX.2 i hi _ (by omega), hX.2 i hi _ hj]; simp
  · simp

theorem imgOp_DxT {n m : ℕ} (hm : 2 ≤ m) (hfit : FitsInt ((n : Int) * m)) (α : ℝ) :
    ImgOp (l1c_DxT n m (Dbl.fin α)) n m (gradXT α m) := by
  intro mem X D u hX hD hs
  have := kspec_DxT (alpha := Dbl.fin α) hm hfit hX.1 hD hs
  rwa [Mem.setImg_congr _ _ _ _ _ (fun i j => Dbl.fin (gradXT α m u i j))] at this
  intro i hi j hj
  unfold dRowT gradXT adjRow
  by_cases h1 : j + 1 = m
  · rw [if_pos h1, if_neg (by omega), if_neg (by omega), hX.2 i hi _ (by omega)]
    have : j - 1 = m - 2 := by omega
    simp [this]
  · by_cases h2 : j = 0
    · subst h2
      rw [if_neg h1, if_pos rfl, if_pos rfl, if_pos (by omega), hX.2 i hi _ hj]
      simp
    · rw [if_neg h1, if_neg h2, if_neg h2, if_pos (by omega), hX.2 i hi _ hj, hX.2 i hi _ (by omega)]
      simp

theorem imgOp_DxTDx {n m : ℕ} (hm : 2 ≤ m) (hfit : FitsInt ((n : Int) * m)) (α : ℝ) :
    ImgOp (l1c_DxTDx n m (Dbl.fin α)) n m (fun u => gradXT α m (gradX α m u)) := by
  intro mem X D u hX hD hs
  have := kspec_DxTDx (alpha := Dbl.fin α) hm hfit hX.1 hD hs
  rwa [Mem.setImg_congr _ _ _ _ _ (fun i j => Dbl.fin (gradXT α m (gradX α m u) i j))] at this
  intro i hi j hj
  unfold dRow2 gradXT adjRow gradX
  by_cases h1 : j + 1 = m
  · have a : ¬ j = 0 := by omega
    have b : ¬ j + 1 < m := by omega
    have c : j - 1 + 1 < m := by omega
    simp only [h1, a, c, if_true, if_false]
    rw [hX.2 i hi _ (by omega), hX.2 i hi _ (by omega)]
    have e1 : j - 1 + 1 = m - 1 := by omega
    have e2 : j - 1 = m - 2 := by omega
    rw [e1, e2]; simp; ring
  · by_cases h2 : j = 0
    · subst h2
      have b : 0 + 1 < m := by omega
      simp only [h1, b, if_true, if_false]
      rw [hX.2 i hi _ hj, hX.2 i hi _ (by omega)]
      simp; ring
    · have b : j + 1 < m := by omega
      simp only [h1, h2, b, hj, if_true, if_false, Nat.sub_add_cancel (show 1 ≤ j by omega)]
      rw [hX.2 i hi _ hj, hX.2 i hi _ (by omega), hX.2 i hi _ (by omega)]
      simp; ring

theorem imgOp_Dy {n m : ℕ} (hn : 1 ≤ n) (hfit : FitsInt ((n : Int) * m)) (α : ℝ) :
    ImgOp (l1c_Dy n m (Dbl.fin α)) n m (gradY α n) := by
  intro mem X D u hX hD hs
  have := kspec_Dy (alpha := Dbl.fin α) hn hfit hX.1 hD hs
  rwa [Mem.setImg_congr _ _ _ _ _ (fun i j => Dbl.fin (gradY α n u i j))] at this
  intro i hi j hj
  unfold gradY
  split
  · rw [hX.2 _ (by omega) j hj, hX.2 i hi _ hj]; simp
  · simp

theorem imgOp_DyT {n m : ℕ} (hfit : FitsInt ((n : Int) * m)) (α : ℝ) :
    ImgOp (l1c_DyT n m (Dbl.fin α)) n m (gradYT α n) := by
  intro mem X D u hX hD hs
  have := kspec_DyT (alpha := Dbl.fin α) hfit hX.1 hD hs
  rwa [Mem.setImg_congr _ _ _ _ _ (fun i j => Dbl.fin (gradYT α n u i j))] at this
  intro i hi j hj
  unfold dColT gradYT adjRow
  rw [hX.2 i hi j hj, hX.2 (i - 1) (by omega) j hj]
  split <;> split <;> simp

theorem imgOp_DyTDy {n m : ℕ} (hn : 2 ≤ n) (hfit : FitsInt ((n : Int) * m)) (α : ℝ) :
    ImgOp (l1c_DyTDy n m (Dbl.fin α)) n m (fun u => gradYT α n (gradY α n u)) := by
  intro mem X D u hX hD hs
  have := kspec_DyTDy (alpha := Dbl.fin α) hfit hX.1 hD hs
  rwa [Mem.setImg_congr _ _ _ _ _ (fun i j => Dbl.fin (gradYT α n (gradY α n u) i j))] at this
  intro i hi j hj
  unfold dCol2 gradYT adjRow gradY
  rw [hX.2 i hi j hj, hX.2 (i - 1) (by omega) j hj]
  by_cases h1 : i + 1 = n
  · have a : ¬ i = 0 := by omega
    have b : ¬ i + 1 < n := by omega
    simp only [h1, a, hi, if_true, if_false, or_true, Nat.sub_add_cancel (show 1 ≤ i by omega)]
    simp; ring
  · rw [hX.2 (i + 1) (by omega) j hj]
    by_cases h2 : i = 0
    · subst h2
      have b : 0 + 1 < n := by omega
      simp only [b, if_true, true_or]
      simp; ring
    · have b : i + 1 < n := by omega
      simp only [h1, h2, b, hi, if_true, if_false, or_self, Nat.sub_add_cancel (show 1 ≤ i by omega)]
      simp; ring

end L1c
