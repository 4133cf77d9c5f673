import Verif.Base.Vec

/-!
# What NESTA's building blocks should compute (C38–C44)

Real matrices `A` (measurements, `n × m`) and `W` (dictionary, `m × p`).
-/

namespace L1c
open Matrix

variable {n m p : ℕ}

/-- the measurement constraint -/
def Feas (A : Matrix (Fin n) (Fin m) ℝ) (b : Fin n → ℝ) (sigma : ℝ) (x : Fin m → ℝ) : Prop :=
  nrm (b - A *ᵥ x) ≤ sigma

/-- objective of the projection step -/
noncomputable def proxObj (c : ℝ) (xx g x : Fin m → ℝ) : ℝ := c / 2 * ((x - xx) ⬝ᵥ (x - xx)) + g ⬝ᵥ x

/-- `f` is the value at `w` of the smoothed 1-norm: the maximum of `<u, w> - mu/2 ||u||²` over `|u_i| ≤ 1` -/
def IsSmoothL1 (mu : ℝ) (w : Fin p → ℝ) (f : ℝ) : Prop :=
  IsGreatest {t | ∃ u : Fin p → ℝ, (∀ i, |u i| ≤ 1) ∧ t = u ⬝ᵥ w - mu / 2 * (u ⬝ᵥ u)} f

/-- mean of the last `min k 10` entries of a list (most recent first) of `k` recordings -/
noncomputable def windowMean (recent : List Dbl) : Dbl :=
  (recent.take 10).sum / Dbl.fin ((min recent.length 10 : ℕ) : ℝ)

/-- `w` minimises the smoothed 1-norm of `Wᵀ x` among the points that satisfy the measurement constraint -/
def IsSmoothMin (A : Matrix (Fin n) (Fin m) ℝ) (b : Fin n → ℝ) (sigma mu : ℝ) (W : Matrix (Fin m) (Fin p) ℝ) (w : Fin m → ℝ) : Prop :=
  Feas A b sigma w ∧ ∀ v fw fv, Feas A b sigma v → IsSmoothL1 mu (Wᵀ *ᵥ w) fw → IsSmoothL1 mu (Wᵀ *ᵥ v) fv → fw ≤ fv

/-- error bound after `k` iterations of a continuation step started at distance `d` from a minimiser, `K` bounding the
norm of the dictionary with `p` columns: of order `d² K²/(mu k²) + d K √p / k` -/
noncomputable def nestaErr (p : ℕ) (K mu : ℝ) (k : ℕ) (d : ℝ) : ℝ :=
  (1 - 2 / (k + 2 : ℝ)) * (2 * (K ^ 2 / mu) * d ^ 2 / (k * (k + 1))) + 2 / (k + 2 : ℝ) * (√p * (K * d))

/-- Bound on the norm of the point that `j` continuation steps of at least `q` iterations arrive at when they start from a point of norm at most `r0`: the
smoothing parameters lie between `l` and `U`, the dictionary has `p` columns and `a ‖x‖ ≤ ‖Wᵀ x‖ ≤ K ‖x‖`, and `S` is the 1-norm of `Wᵀ Aᵀ b`. -/
noncomputable def nestaReach (q p : ℕ) (K l U a S r0 : ℝ) : ℕ → ℝ
  | 0 => r0
  | j + 1 => (S + p * U / 2 + nestaErr p K l q ((S + p * U / 2) / a + nestaReach q p K l U a S r0 j)) / a

end L1c
