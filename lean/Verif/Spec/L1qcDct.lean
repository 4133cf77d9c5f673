import Verif.Model.L1qcDct
import Verif.Spec.World

/-!
# Specification side of the image recovery

`recover` describes the routine without state: the transforms are the functions a DCT set has right after setup, there is
no memory and nothing can fail to be allocated.
-/

namespace L1c
open Scalar

variable {F : Type} [Scalar F]

/-- the transforms for an image, one- or two-dimensional -/
def imageFuns (lib : FftwLib F) (mrow mcol n : ℕ) (idx : List Int) (two : Bool) (h : 0 < mrow ∧ 0 < mcol) : DctFuns F (mrow * mcol) n :=
  if two then fun2 lib mrow mcol n idx h else fun1 lib (mrow * mcol) n idx (Nat.mul_pos h.1 h.2)

/-- the transforms as functions without state -/
def pureAx {m n : ℕ} (f : DctFuns F m n) : QAx F Unit n m where
  Ax v _ := (f.Ax v DctBuf.fresh).map fun o => (o.res, ())
  Aty v _ := (f.Aty v DctBuf.fresh).map fun o => (o.res, ())
  AtAx v _ := (f.AtAx v DctBuf.fresh).map fun o => (o.res, ())

/-- result record and recovered image: solve from the start `Aᵀb`, then transform back -/
def recover {m n : ℕ} (f : DctFuns F m n) (b : Vec F n) (opts : QOpts F) : Option (LBResult F × Vec F m) := do
  let a ← f.Aty b DctBuf.fresh
  let (u, prm) ← l1qc_newton_init a.res opts
  let r ← l1qc_solve (pureAx f) prm b a.res u ()
  let y ← f.Mx r.1.x DctBuf.fresh
  pure (r.1.res, y.res)

/-- the FFTW transforms are the documented ones, at every size -/
structure LibOk (lib : FftwLib Dbl) : Prop where
  f1 : ∀ m [NeZero m], FftwOk1 (lib.f1 m)
  f2 : ∀ mrow mcol [NeZero mrow] [NeZero mcol], FftwOk2 (lib.f2 mrow mcol)

end L1c
