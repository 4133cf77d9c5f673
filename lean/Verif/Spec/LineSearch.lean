import Verif.Model.LineSearch

/-!
# Specification of a backtracking line search

Trial `k` uses step `s·βᵏ` and is made with the callback memory left by trials `0..k-1`.  The search
must take the first trial that meets the sufficient-decrease test, or change nothing.
-/

namespace L1c
open Scalar

variable {F : Type} [Scalar F] {σ X : Type}

/-- `k`-th step length, `β·(β·(… s))` -/
def stepAt (prm : LSParams F) (k : ℕ) : F := (fun t => prm.beta * t)^[k] prm.s

/-- callback memory before trial `k` -/
def cbAt (trial : F → X) (feval : X → CbMem σ F → F × CbMem σ F) (prm : LSParams F) (cb : CbMem σ F) :
    ℕ → CbMem σ F
  | 0 => cb
  | k + 1 => (feval (trial (stepAt prm k)) (cbAt trial feval prm cb k)).2

/-- objective value at trial `k` -/
def fAt (trial : F → X) (feval : X → CbMem σ F → F × CbMem σ F) (prm : LSParams F) (cb : CbMem σ F)
    (k : ℕ) : F := (feval (trial (stepAt prm k)) (cbAt trial feval prm cb k)).1

/-- trial `k` meets the sufficient-decrease test against the reference value `f0` -/
def Accept (trial : F → X) (feval : X → CbMem σ F → F × CbMem σ F) (prm : LSParams F) (cb : CbMem σ F)
    (g f0 : F) (k : ℕ) : Prop :=
  isNaN (fAt trial feval prm cb k) = false ∧
    fle (fAt trial feval prm cb k) (f0 + prm.alpha * stepAt prm k * g) = true

/-- the promised outcome, for reference value `f0` and starting point `x` -/
def LSGood (trial : F → X) (feval : X → CbMem σ F → F × CbMem σ F) (prm : LSParams F) (cb : CbMem σ F)
    (g f0 : F) (x : X) (out : LSOut σ F X) : Prop :=
  (∃ k < 32, Accept trial feval prm cb g f0 k ∧ (∀ j < k, ¬ Accept trial feval prm cb g f0 j) ∧
      out.stat.status = 0 ∧ out.stat.iter = k + 1 ∧ out.stat.step = stepAt prm k ∧
      out.stat.flin = f0 + prm.alpha * stepAt prm k * g ∧
      out.x = trial (stepAt prm k) ∧ out.cb.fx0 = fAt trial feval prm cb k ∧
      out.cb.st = (cbAt trial feval prm cb (k + 1)).st) ∨
  ((∀ k < 32, ¬ Accept trial feval prm cb g f0 k) ∧ out.stat.status = 1 ∧ out.stat.iter = 32 ∧ out.x = x ∧
      out.cb = cbAt trial feval prm cb 32)

end L1c
