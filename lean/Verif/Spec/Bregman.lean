import Verif.Spec.Image

/-!
# TV denoising (specification)

The optimisation problem stated in the documentation of `l1c_breg_anistropic_TV`, the scalar problem solved by
the shrinkage operator and the linear equation solved by the smoother.  Nothing here mentions the code.
-/

namespace L1c
open Finset

/-- scalar problem `min_d gamma*|d| + (d-x)^2/2` -/
noncomputable def shrinkObj (gamma x d : ℝ) : ℝ := gamma * |d| + (d - x) ^ 2 / 2

/-- sum of absolute values of an image -/
noncomputable def norm1 (n m : ℕ) (u : Img) : ℝ := ∑ i ∈ range n, ∑ j ∈ range m, |u i j|

/-- `||Dx u||_1 + ||Dy u||_1 + mu/2 ||u - f||^2` -/
noncomputable def tvObj (n m : ℕ) (mu : ℝ) (f u : Img) : ℝ :=
  norm1 n m (gradX 1 m u) + norm1 n m (gradY 1 n u) + mu / 2 * normSq2 n m (fun i j => u i j - f i j)

/-- `(mu + lam*DxT Dx + lam*DyT Dy) u = rhs`, stated by testing against every image `v` -/
def SolvesTV (n m : ℕ) (mu lam : ℝ) (rhs u : Img) : Prop :=
  ∀ v : Img, mu * inner2 n m u v + lam * inner2 n m (gradX 1 m u) (gradX 1 m v)
    + lam * inner2 n m (gradY 1 n u) (gradY 1 n v) = inner2 n m rhs v

/-- equal on the `n × m` pixels -/
def ImgEq (n m : ℕ) (u v : Img) : Prop := ∀ i < n, ∀ j < m, u i j = v i j

/-- every pixel of `u` and `v` differs by at most `E` -/
def ImgNear (n m : ℕ) (E : ℝ) (u v : Img) : Prop := ∀ i < n, ∀ j < m, |u i j - v i j| ≤ E

end L1c
