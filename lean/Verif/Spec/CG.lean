import Mathlib.Data.Matrix.Mul
import Mathlib.Data.Real.Basic
import Mathlib.Algebra.BigOperators.Fin
import Mathlib.Algebra.Module.LinearMap.Defs

/-!
# Textbook (preconditioned) conjugate gradients over the reals
-/

namespace L1c

variable {N : ℕ}

/-- iterate, residual, search direction -/
structure CGIt (N : ℕ) where
  x : Fin N → ℝ
  r : Fin N → ℝ
  p : Fin N → ℝ

/-- one iteration of CG with diagonal preconditioner `w` (`w = 1/M`) -/
noncomputable def CGIt.next (A : (Fin N → ℝ) →ₗ[ℝ] (Fin N → ℝ)) (w : Fin N → ℝ) (t : CGIt N) : CGIt N :=
  let a := (t.r ⬝ᵥ (w * t.r)) / (t.p ⬝ᵥ A t.p)
  let r' := t.r - a • A t.p
  let c := (r' ⬝ᵥ (w * r')) / (t.r ⬝ᵥ (w * t.r))
  ⟨t.x + a • t.p, r', w * r' + c • t.p⟩

/-- the sequence of iterates started at `x0` -/
noncomputable def cgSeq (A : (Fin N → ℝ) →ₗ[ℝ] (Fin N → ℝ)) (w b x0 : Fin N → ℝ) : ℕ → CGIt N
  | 0 => ⟨x0, b - A x0, w * (b - A x0)⟩
  | k + 1 => (cgSeq A w b x0 k).next A w

/-- iterate `k` exists: no division by zero happened before it -/
def CGOk (A : (Fin N → ℝ) →ₗ[ℝ] (Fin N → ℝ)) (w b x0 : Fin N → ℝ) (k : ℕ) : Prop :=
  ∀ j < k, (cgSeq A w b x0 j).r ≠ 0 ∧ (cgSeq A w b x0 j).p ⬝ᵥ A (cgSeq A w b x0 j).p ≠ 0

/-- symmetric positive definite -/
def SPD (A : (Fin N → ℝ) →ₗ[ℝ] (Fin N → ℝ)) : Prop :=
  (∀ u v, A u ⬝ᵥ v = u ⬝ᵥ A v) ∧ ∀ v, v ≠ 0 → 0 < v ⬝ᵥ A v

end L1c
