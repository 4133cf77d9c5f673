import Verif.Base.Vec
import Mathlib.Analysis.SpecialFunctions.Log.Basic
import Mathlib.Analysis.Calculus.FDeriv.Basic
import Mathlib.Analysis.Calculus.Deriv.Basic
import Mathlib.Topology.Algebra.Module.FiniteDimension

/-!
# The problem solved by `l1c_l1qc_newton` (C45–C52)

Minimise `‖x‖₁` subject to `‖A x - b‖ ≤ eps`, by a log-barrier method in the variables `(x, u)`.
-/

namespace L1c
open Matrix

variable {n m : ℕ}

/-- pairs `(x, u)` -/
abbrev XU (m : ℕ) := (Fin m → ℝ) × (Fin m → ℝ)

/-- the barrier objective with weight `tau` -/
noncomputable def barrier (A : Matrix (Fin n) (Fin m) ℝ) (b : Fin n → ℝ) (eps tau : ℝ) (p : XU m) : ℝ :=
  ∑ i, p.2 i - (1 / tau) * (∑ i, Real.log (p.2 i - p.1 i) + ∑ i, Real.log (p.2 i + p.1 i) +
    Real.log ((eps ^ 2 - (A *ᵥ p.1 - b) ⬝ᵥ (A *ᵥ p.1 - b)) / 2))

/-- strictly inside all constraints -/
def StrictFeas (A : Matrix (Fin n) (Fin m) ℝ) (b : Fin n → ℝ) (eps : ℝ) (p : XU m) : Prop :=
  (∀ i, -p.2 i < p.1 i ∧ p.1 i < p.2 i) ∧ nrm (A *ᵥ p.1 - b) < eps

/-- the linear form `d ↦ ⟨g, d⟩` -/
noncomputable def pairCLM (g : XU m) : XU m →L[ℝ] ℝ :=
  LinearMap.toContinuousLinearMap
    { toFun := fun d => g.1 ⬝ᵥ d.1 + g.2 ⬝ᵥ d.2
      map_add' := fun a b => by simp only [Prod.fst_add, Prod.snd_add, dotProduct_add]; ring
      map_smul' := fun c a => by
        simp only [Prod.smul_fst, Prod.smul_snd, dotProduct_smul, smul_eq_mul, RingHom.id_apply]; ring }

@[simp] theorem pairCLM_apply (g d : XU m) : pairCLM g d = g.1 ⬝ᵥ d.1 + g.2 ⬝ᵥ d.2 := rfl

/-- `g` is the gradient of `f` at `p` -/
def IsGrad (f : XU m → ℝ) (g : XU m) (p : XU m) : Prop := HasFDerivAt f (pairCLM g) p

/-- `d` solves the Newton system of the barrier objective at `p`: along `d` the gradient changes at the rate that cancels it -/
def IsNewtonDir (A : Matrix (Fin n) (Fin m) ℝ) (b : Fin n → ℝ) (eps tau : ℝ) (p d : XU m) : Prop :=
  ∃ g : XU m → XU m, (∀ q, StrictFeas A b eps q → IsGrad (barrier A b eps tau) (g q) q) ∧ HasDerivAt (fun t : ℝ => g (p + t • d)) (-(g p)) 0

end L1c
