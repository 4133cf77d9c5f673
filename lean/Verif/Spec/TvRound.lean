import Verif.Spec.Rounding
import Verif.Spec.Image

/-!
# Difference operators and soft threshold over the reals, for the rounding theorems

`FpSign M` adds to `FpModel` what the image kernels use besides sums and products: negation and the literals 1, -1, 2 are exact.
-/

namespace L1c
open Scalar

structure FpSign {F : Type} [Scalar F] (M : FpModel F) : Prop where
  neg : ∀ {a : F}, M.fin (-a) → M.fin a ∧ M.val (-a) = -M.val a
  two : M.val (lit 2) = 2

/-- the real image a floating-point image in memory stands for -/
def FpModel.img {F : Type} [Scalar F] (M : FpModel F) (mem : Mem F) (X : Ptr) (m : ℕ) : Img := fun i j => M.val (mem.pix X m i j)

/-- transposed row difference (documentation of `l1c_DxT`): the entry on the left minus the entry, the last column not taking part -/
noncomputable def backX (α : ℝ) (m : ℕ) (u : Img) : Img :=
  fun i j => α * ((if j = 0 then 0 else u i (j - 1)) - (if j + 1 < m then u i j else 0))

/-- transposed column difference -/
noncomputable def backY (α : ℝ) (n : ℕ) (u : Img) : Img :=
  fun i j => α * ((if i = 0 then 0 else u (i - 1) j) - (if i + 1 < n then u i j else 0))

/-- sum of the absolute values of the pixels in the second difference along the row -/
noncomputable def sizeX (m : ℕ) (u : Img) : Img :=
  fun i j => (if j = 0 then 0 else |u i (j - 1)| + |u i j|) + (if j + 1 < m then |u i j| + |u i (j + 1)| else 0)

/-- same along the column -/
noncomputable def sizeY (n : ℕ) (u : Img) : Img :=
  fun i j => (if i = 0 then 0 else |u (i - 1) j| + |u i j|) + (if i + 1 < n then |u i j| + |u (i + 1) j| else 0)

/-- soft threshold: what is within `γ` of zero becomes zero, the rest moves by `γ` towards zero -/
noncomputable def softR (γ x : ℝ) : ℝ := if |x| ≤ γ then 0 else if 0 < x then x - γ else x + γ

end L1c
