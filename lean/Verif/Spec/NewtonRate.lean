import Verif.Spec.Newton
import Mathlib.Analysis.Real.Sqrt

/-!
# Quantities in the convergence statements of the log-barrier Newton solver (C68, C69)
-/

namespace L1c

/-- a number below `tau * barrier` at every strictly feasible point -/
noncomputable def barrierLow (m : ℕ) (eps tau : ℝ) : ℝ := m * (2 + 2 * Real.log (tau / 2)) - Real.log (eps ^ 2 / 2)

/-- a guaranteed decrease of `tau * barrier` in one Newton step whose squared Newton decrement is at least `eta` -/
noncomputable def stepGain (eta : ℝ) : ℝ := 99 / 20000 * min eta (√eta)

/-- a bound of `tau * barrier` at the start of the `j`-th following barrier iteration, when the weight is multiplied by `mu` each time and
`S` is its value now -/
noncomputable def startBound (m : ℕ) (eps mu : ℝ) : ℕ → ℝ → ℝ → ℝ
  | 0, _, S => S
  | j + 1, tau, S => startBound m eps mu j (tau * mu) (S + 2 * (mu - 1) * (S - barrierLow m eps (tau / 2)))

/-- a bound of `tau * barrier` at the starting point of the solver: `X` is the 1-norm of the start, `s` half the slack in the measurement
constraint -/
noncomputable def startTop (m : ℕ) (s X : ℝ) : ℝ := (19 / 20 + m / 10) * max (2 * m + 1 : ℝ) X - 2 * m * Real.log (X / (20 * m)) - Real.log s

/-- the first weight -/
noncomputable def startTau (m : ℕ) (X : ℝ) : ℝ := max ((2 * m + 1 : ℝ) / X) 1

/-- the number of barrier iterations when it is chosen automatically -/
noncomputable def autoBarrier (m : ℕ) (lbtol mu X : ℝ) : Int :=
  ⌈(Real.log (2 * m + 1) - Real.log lbtol - Real.log (startTau m X)) / Real.log mu⌉

/-- `N` Newton iterations are enough in the last of `k + 1` barrier iterations -/
def EnoughNewton (m : ℕ) (eps mu tol s X : ℝ) (k N : ℕ) : Prop :=
  startBound m eps mu k (startTau m X) (startTop m s X) <
    barrierLow m eps (startTau m X * mu ^ k) + N * stepGain (2 * (startTau m X * mu ^ k) * tol)

/-- A relative accuracy of the linear solver that is sharp enough at weight `tau`, where `tau * barrier` exceeds its lower bound by at most
`G` and `a` bounds the norm of the measurement matrix.  It is positive and shrinks exponentially in `G`. -/
noncomputable def cgSharp (m : ℕ) (a eps tau G : ℝ) : ℝ :=
  tau / (32 * (G + 1) * (3 * √m * tau * Real.exp (G + 1) + 2 * a / eps * Real.exp G))

/-- the same for the last of `k + 1` barrier iterations -/
noncomputable def cgLimit (m : ℕ) (a eps mu s X : ℝ) (k : ℕ) : ℝ :=
  cgSharp m a eps (startTau m X * mu ^ k)
    (max (startBound m eps mu k (startTau m X) (startTop m s X) - barrierLow m eps (startTau m X * mu ^ k)) 0)

end L1c
