import Verif.Model.DctTV
import Verif.Spec.Dct
import Verif.Spec.Image

/-! # Specification of the DCT + TV dictionary -/

namespace L1c
open Scalar Matrix

variable {F : Type} [Scalar F] {mrow mcol n : ℕ}

/-- `m` consecutive coefficients starting at `off` -/
noncomputable def coef {p : ℕ} (m off : ℕ) (v : Fin p → ℝ) : Fin m → ℝ := fun i =>
  if h : off + i.val < p then v ⟨off + i, h⟩ else 0

/-- real image stored row-major in a vector -/
noncomputable def asImg (x : Fin (mrow * mcol) → ℝ) : Img := fun i j =>
  if h : i * mcol + j < mrow * mcol then x ⟨i * mcol + j, h⟩ else 0

/-- vector of an image -/
def asVec (u : Img) : Fin (mrow * mcol) → ℝ := fun t => u (t.val / mcol) (t.val % mcol)

/-- Documented dictionary `W = [M, αv·D_vertical, αh·D_horizontal]` (parts with zero weight left out): `M` is the
inverse DCT, `v` the stacked coefficients. -/
noncomputable def dictW {p : ℕ} (M : (Fin (mrow * mcol) → ℝ) → (Fin (mrow * mcol) → ℝ)) (av ah : ℝ) (v : Fin p → ℝ) :
    Fin (mrow * mcol) → ℝ :=
  M (coef (mrow * mcol) 0 v)
    + (if 0 < av then asVec (gradY av mrow (asImg (mcol := mcol) (coef (mrow * mcol) (mrow * mcol) v))) else 0)
    + (if 0 < ah then asVec (gradX ah mcol (asImg (mrow := mrow)
        (coef (mrow * mcol) (if 0 < av then 2 * (mrow * mcol) else mrow * mcol) v))) else 0)

/-- What one row or column `x 0, …, x (k+1)` contributes to the analysis-mode regulariser: the interior differences,
except the last one, plus the moduli of the first and of the last but one value. -/
noncomputable def lineTv (k : ℕ) (x : ℕ → ℝ) : ℝ :=
  |x 0| + ∑ j ∈ Finset.range k, |x (j + 1) - x j| + |x k|

/-- calls a client of a DCT+TV set can make (in either mode) -/
inductive TvCall (F : Type) (m n p : ℕ) where
  | Wv (v : Vec F p)
  | Wtx (x : Vec F m) (old : Vec F p)
  | Rx (x : Vec F m)
  | Rty (y : Vec F n) (old : Vec F m)
  | Av (v : Vec F p)
  | Aty (y : Vec F n) (old : Vec F p)

def TvCall.run (c : TvCfg F mrow mcol n) : TvCall F (mrow * mcol) n c.p → TvBuf F (mrow * mcol) c.p →
    Option (TvBuf F (mrow * mcol) c.p)
  | .Wv v, s => (tvWv c v s).map (·.buf)
  | .Wtx x old, s => (tvWtx c x old s).map (·.buf)
  | .Rx x, s => (tvRx c x s).map (·.buf)
  | .Rty y old, s => (tvRty c y old s).map (·.buf)
  | .Av v, s => (tvAv c v s).map (·.buf)
  | .Aty y old, s => (tvAty c y old s).map (·.buf)

/-- buffer states after setup and any calls; `u` starts uninitialised, i.e. with any contents -/
inductive TvReach (c : TvCfg F mrow mcol n) : TvBuf F (mrow * mcol) c.p → Prop
  | fresh (u : Vec F c.p) : TvReach c ⟨DctBuf.fresh, u⟩
  | call {s s'} (k : TvCall F (mrow * mcol) n c.p) : TvReach c s → k.run c s = some s' → TvReach c s'

/-- In every state of `S` the operator maps real data `x` to `g x`, without undefined behaviour. -/
def TvGives {m p k l : ℕ} (S : TvBuf Dbl m p → Prop)
    (op : Vec Dbl l → TvBuf Dbl m p → Option (TvOut Dbl k m p)) (g : (Fin l → ℝ) → (Fin k → ℝ)) : Prop :=
  ∀ s, S s → ∀ x, ∃ s', op (fvec x) s = some ⟨fvec (g x), s'⟩

/-- DCT+TV sets in exact arithmetic: weights `av, ah ≥ 0`, at least 2 rows and columns if a weight is positive (setup
asks for 3), a DCT set underneath. -/
structure TvSetR (c : TvCfg Dbl mrow mcol n) (idx : Fin n → Int) (av ah : ℝ) : Prop where
  loc : DctSetR c.loc idx
  hv : c.alp_v = .fin av
  hh : c.alp_h = .fin ah
  av0 : 0 ≤ av
  ah0 : 0 ≤ ah
  dims : (0 < av ∨ 0 < ah) → 2 ≤ mrow ∧ 2 ≤ mcol

end L1c
