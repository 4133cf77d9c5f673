import Verif.Spec.DctTV
import Verif.Spec.Nesta

/-! # Specification of image recovery with NESTA in analysis mode -/

namespace L1c

variable {m n mrow mcol : ℕ}

/-- orthonormal DCT-II of a vector -/
noncomputable def odct (x : Fin m → ℝ) : Fin m → ℝ := fun k =>
  (if k.val = 0 then √(1 / m) else √(2 / m)) * ∑ j : Fin m, Real.cos (Real.pi * k * ((j : ℝ) + 1 / 2) / m) * x j

/-- the DCT of an image: along columns and rows, or of all pixels in one row -/
noncomputable def imgDct (two : Bool) (x : Fin (mrow * mcol) → ℝ) : Fin (mrow * mcol) → ℝ :=
  if two then sep2 odct odct x else odct x

/-- The quantity minimised in analysis mode: 1-norm of the DCT plus the weighted sums over all columns and all rows of what `lineTv` says. -/
noncomputable def anaCost (two : Bool) (av ah : ℝ) (x : Fin (mrow * mcol) → ℝ) : ℝ :=
  ∑ i, |imgDct two x i| + av * ∑ j ∈ Finset.range mcol, lineTv (mrow - 2) (fun i => asImg x i j)
    + ah * ∑ i ∈ Finset.range mrow, lineTv (mcol - 2) (fun j => asImg x i j)

/-- the samples `b` at the pixels `ix` on a black background -/
noncomputable def onBlack (ix : Fin n → Fin m) (b : Fin n → ℝ) : Fin m → ℝ := fun t => ∑ i, if ix i = t then b i else 0

/-- number of coefficients: one image per active part -/
noncomputable def anaCoefs (m : ℕ) (av ah : ℝ) : ℕ := m + (if 0 < av then m else 0) + (if 0 < ah then m else 0)

/-- The image `y` fits the samples within `sigma`, and no image that does so costs less by more than `gap`. -/
def NearlyBest (two : Bool) (av ah : ℝ) (ix : Fin n → Fin (mrow * mcol)) (b : Fin n → ℝ) (sigma gap : ℝ) (y : Fin (mrow * mcol) → ℝ) : Prop :=
  √(∑ i, (y (ix i) - b i) ^ 2) ≤ sigma ∧ ∀ v : Fin (mrow * mcol) → ℝ, √(∑ i, (v (ix i) - b i) ^ 2) ≤ sigma → anaCost two av ah y ≤ anaCost two av ah v + gap

/-- The gap after `N` continuation steps of at least `q` iterations that end with the smoothing parameter `mu`.  `S` is the cost of the samples on a black
background, `B` their norm, `m` the number of pixels. -/
noncomputable def anaGap (q m : ℕ) (av ah mu S B : ℝ) (N : ℕ) : ℝ :=
  anaCoefs m av ah * mu / 2 + nestaErr (anaCoefs m av ah) (√(1 + 4 * av ^ 2 + 4 * ah ^ 2)) mu q (S + anaCoefs m av ah * mu / 2 +
    nestaReach q (anaCoefs m av ah) (√(1 + 4 * av ^ 2 + 4 * ah ^ 2)) (min mu (9 / 10 * (B / √m))) (max mu S) 1 S B (N - 1))

end L1c
