import Verif.Base.Vec

/-!
# Model of `src/linesearch.c`

The objective callback is an arbitrary function of the trial point and of the memory it can reach:
its private state `σ` **and** the double that `fx0` points to (the l1qc solver passes the address of a
field of the callback's own data).  It returns a value and may change both.  The callback is assumed
not to write to `x`, `u`, `dx`, `du`.  Printing is not modelled.
-/

namespace L1c
open Scalar

variable {F : Type} [Scalar F] {σ : Type} {m : ℕ}

/-- include/linesearch.h:5 -/
def MAX_LINESEARCH_ITER : ℕ := 32

/-- include/l1c.h, `LSParams` -/
structure LSParams (F : Type) where
  alpha : F
  beta : F
  s : F

/-- include/l1c.h, `LSStat` -/
structure LSStat (F : Type) where
  flin : F
  step : F
  iter : ℕ
  status : ℕ

/-- memory visible to the callback: its own state and `*fx0` -/
structure CbMem (σ F : Type) where
  st : σ
  fx0 : F

/-- everything the caller can observe after a line search -/
structure LSOut (σ F X : Type) where
  x : X
  cb : CbMem σ F
  stat : LSStat F

/-- The loop src/linesearch.c:85-118 (and 194-226).  `trial step` is the trial point, `f0 cb` is the
reference value of the decrease test: the saved `fx0_orig` in `l1c_linesearch_xu`, the current `*fx0` in
`l1c_linesearch`.  `flin` is the last value of the C variable of that name. -/
def lsLoop {X : Type} (trial : F → X) (feval : X → CbMem σ F → F × CbMem σ F) (f0 : CbMem σ F → F)
    (g : F) (prm : LSParams F) (x : X) : ℕ → ℕ → F → F → CbMem σ F → LSOut σ F X
  | 0, iter, step, flin, cb =>
    ⟨x, cb, ⟨flin, step, min iter MAX_LINESEARCH_ITER, 1⟩⟩
  | fuel + 1, iter, step, flin, cb =>
    let (f_val, cb) := feval (trial step) cb
    if isNaN f_val then
      lsLoop trial feval f0 g prm x fuel (iter + 1) (prm.beta * step) flin cb
    else
      let flin := f0 cb + prm.alpha * step * g
      if fle f_val flin then
        ⟨trial step, { cb with fx0 := f_val }, ⟨flin, step, iter, 0⟩⟩
      else
        lsLoop trial feval f0 g prm x fuel (iter + 1) (prm.beta * step) flin cb

/-- src/linesearch.c:64-134 -/
def l1c_linesearch_xu (x u dx du : Vec F m) (cb : CbMem σ F) (g_dot_dxu : F)
    (feval : Vec F m → Vec F m → CbMem σ F → F × CbMem σ F) (prm : LSParams F) :
    LSOut σ F (Vec F m × Vec F m) :=
  let fx0_orig := cb.fx0
  lsLoop (fun step => (vaxpy step dx x, vaxpy step du u)) (fun p => feval p.1 p.2) (fun _ => fx0_orig)
    g_dot_dxu prm (x, u) MAX_LINESEARCH_ITER 1 prm.s (lit 0) cb

/-- src/linesearch.c:177-241 -/
def l1c_linesearch (x dx : Vec F m) (cb : CbMem σ F) (g_dot_dx : F)
    (objective_fun : Vec F m → CbMem σ F → F × CbMem σ F) (prm : LSParams F) : LSOut σ F (Vec F m) :=
  lsLoop (fun step => vaxpy step dx x) objective_fun (fun cb => cb.fx0) g_dot_dx prm x
    MAX_LINESEARCH_ITER 1 prm.s (lit 0) cb

end L1c
