import Verif.Base.Scalar

/-!
# Floating-point arithmetic with rounding

`FpModel F` is what the usual error analyses assume of a floating-point type.  IEEE binary64 in round-to-nearest has it with
`u = 2^-53` and `w = 2^-1075`: a result that is finite comes from finite arguments and is the exact result up to a relative error
`u`, and for products an absolute error `w` (underflow).  Nothing is assumed about results that are not finite.  Contraction of
`a*b + c` into one rounding is not covered.
-/

namespace L1c
open Scalar

structure FpModel (F : Type) [Scalar F] where
  /-- the real number a finite value stands for -/
  val : F → ℝ
  /-- neither infinite nor NaN -/
  fin : F → Prop
  /-- unit roundoff -/
  u : ℝ
  /-- underflow unit -/
  w : ℝ
  u_nonneg : 0 ≤ u
  w_nonneg : 0 ≤ w
  zero : val (lit 0) = 0
  add : ∀ {a b}, fin (a + b) → fin a ∧ fin b ∧ ∃ δ, |δ| ≤ u ∧ val (a + b) = (val a + val b) * (1 + δ)
  sub : ∀ {a b}, fin (a - b) → fin a ∧ fin b ∧ ∃ δ, |δ| ≤ u ∧ val (a - b) = (val a - val b) * (1 + δ)
  mul : ∀ {a b}, fin (a * b) → fin a ∧ fin b ∧ ∃ δ η, |δ| ≤ u ∧ |η| ≤ w ∧ val (a * b) = val a * val b * (1 + δ) + η
  fabs : ∀ {a}, fin (fabs a) → fin a ∧ val (Scalar.fabs a) = |val a|
  sqrt : ∀ {a}, fin (fsqrt a) → fin a ∧ 0 ≤ val a ∧ ∃ δ, |δ| ≤ u ∧ val (fsqrt a) = √(val a) * (1 + δ)

/-- relative error of `k` roundings -/
noncomputable def FpModel.gam {F : Type} [Scalar F] (M : FpModel F) (k : ℕ) : ℝ := (1 + M.u) ^ k - 1

/-- an order of summation: `add` is one addition -/
inductive SumTree (F : Type) where
  | leaf (a : F)
  | add (l r : SumTree F)

namespace SumTree
variable {F : Type} [Scalar F]

/-- the computed sum -/
def eval : SumTree F → F
  | leaf a => a
  | add l r => l.eval + r.eval

/-- the summands -/
def leaves : SumTree F → List F
  | leaf a => [a]
  | add l r => l.leaves ++ r.leaves

/-- largest number of additions a summand takes part in -/
def depth : SumTree F → ℕ
  | leaf _ => 0
  | add l r => max l.depth r.depth + 1

end SumTree

end L1c
