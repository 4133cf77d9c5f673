import Verif.Spec.Bregman

/-! # Mirrored and transposed images, variation, sum of pixels -/

namespace L1c

/-- upside down -/
def flipV (n : ℕ) (u : Img) : Img := fun i j => u (n - 1 - i) j

/-- left to right -/
def flipH (m : ℕ) (u : Img) : Img := fun i j => u i (m - 1 - j)

/-- rows and columns exchanged -/
def transp (u : Img) : Img := fun i j => u j i

/-- sum of the absolute differences of neighbouring pixels -/
noncomputable def tvPart (n m : ℕ) (u : Img) : ℝ := norm1 n m (gradX 1 m u) + norm1 n m (gradY 1 n u)

/-- sum of all pixels of an `n`×`m` image -/
noncomputable def pixelSum (n m : ℕ) (u : Img) : ℝ := ∑ i ∈ Finset.range n, ∑ j ∈ Finset.range m, u i j

end L1c
