import Verif.Model.CG
import Verif.Model.Bregman

/-!
# Model of `src/cgsolve.c` on memory

The same two functions as in `Model/CG`, but the arrays are pointers into memory and the operator callback
`AX_func(N, in, out, data)` is an arbitrary command on memory.  Which arrays may overlap is therefore part of
what is proved.  `cblas_daxpy(N, a, x, 1, y, 1)` is the loop `y[i] = a*x[i] + y[i]`, `daxpyK`.
The progress report only prints and is not modelled.
-/

namespace L1c
open Prog Scalar

variable {F : Type} [Scalar F] {γ : Type}

namespace Cmd
/-- `for (; i <= hi; i++) { … }` whose body updates the local variables `v` and may `break`; the result is the
variables and the value of `i` after the loop -/
def loopSt (hi : Int) (body : γ → Cmd F (γ × Bool)) (i : Int) (v : γ) : Cmd F (γ × Int) :=
  if i ≤ hi then do
    let r ← body v
    if r.2 then pure (r.1, i)
    else do
      need (FitsInt (i + 1))
      loopSt hi body (i + 1) r.1
  else pure (v, i)
termination_by (hi + 1 - i).toNat
decreasing_by omega
end Cmd

open Cmd

/-- loop body src/cgsolve.c:118-152; the local variables are `(delta, best_rel_res)` -/
def cgBodyM (N : Int) (x r p bestx q : Ptr) (ax : Ptr → Ptr → Cmd F Unit) (delta_0 tol : F) (v : F × F) : Cmd F ((F × F) × Bool) := do
  ax p q
  let pq ← eval (cblas_ddot N p q)
  let alpha := v.1 / pq
  exec (daxpyK N alpha p x)
  exec (daxpyK N (-alpha) q r)
  let delta_old := v.1
  let delta ← eval (cblas_ddot N r r)
  let beta := delta / delta_old
  exec (l1c_daxpby N (lit 1) r beta p)
  let rel_res := fsqrt (delta / delta_0)
  if flt rel_res v.2 then do
    exec (cblas_dcopy N x bestx)
    pure ((delta, rel_res), flt rel_res tol)
  else pure ((delta, v.2), flt rel_res tol)

/-- src/cgsolve.c:101-103 and 248-250 -/
def copyLoop (N : Int) (x bestx : Ptr) : Prog F Unit :=
  forUp 0 N fun i => do
    let v ← load (x + i)
    store (bestx + i) v

/-- src/cgsolve.c:63-161; `Dwork` is the table of the four work arrays -/
def l1c_cgsolveM (N : Int) (x b : Ptr) (Dwork : ℕ → Ptr) (ax : Ptr → Ptr → Cmd F Unit) (prm : CgParams F) : Cmd F (CgResults F) := do
  let r := Dwork 0
  let p := Dwork 1
  let bestx := Dwork 2
  let q := Dwork 3
  exec (seqK (copyLoop N x bestx))
  ax x r
  exec (l1c_daxpby N (lit 1) b (-(lit 1)) r)
  exec (cblas_dcopy N r p)
  let delta ← eval (cblas_ddot N r r)
  let delta_0 ← eval (cblas_ddot N b b)
  let best_rel_res := fsqrt (delta / delta_0)
  let t ← loopSt prm.max_iter (cgBodyM N x r p bestx q ax delta_0 prm.tol) 1 (delta, best_rel_res)
  exec (cblas_dcopy N bestx x)
  pure ⟨t.1.2, min t.2 prm.max_iter⟩

/-- loop body src/cgsolve.c:269-301 -/
def pcgBodyM (N : Int) (x Minv r p bestx q z : Ptr) (ax : Ptr → Ptr → Cmd F Unit) (nrm_b_sqrd tol : F) (v : F × F) : Cmd F ((F × F) × Bool) := do
  ax p q
  let pq ← eval (cblas_ddot N p q)
  let alpha := v.1 / pq
  exec (daxpyK N alpha p x)
  exec (daxpyK N (-alpha) q r)
  exec (l1c_dxmuly_z N r Minv z)
  let delta_old := v.1
  let delta ← eval (cblas_ddot N r z)
  let beta := delta / delta_old
  exec (l1c_daxpby N (lit 1) z beta p)
  let nrm_r_sqrd ← eval (cblas_ddot N r r)
  let rel_res := fsqrt (nrm_r_sqrd / nrm_b_sqrd)
  if flt rel_res v.2 then do
    exec (cblas_dcopy N x bestx)
    pure ((delta, rel_res), flt rel_res tol)
  else pure ((delta, v.2), flt rel_res tol)

/-- src/cgsolve.c:206-310; `Dwork` is the table of the five work arrays -/
def l1c_cgsolve_diag_precondM (N : Int) (x b Minv : Ptr) (Dwork : ℕ → Ptr) (ax : Ptr → Ptr → Cmd F Unit) (prm : CgParams F) :
    Cmd F (CgResults F) := do
  let r := Dwork 0
  let p := Dwork 1
  let bestx := Dwork 2
  let q := Dwork 3
  let z := Dwork 4
  exec (seqK (copyLoop N x bestx))
  ax x r
  exec (l1c_daxpby N (lit 1) b (-(lit 1)) r)
  exec (l1c_dxmuly_z N r Minv z)
  exec (cblas_dcopy N z p)
  let delta ← eval (cblas_ddot N r z)
  let nrm_b_sqrd ← eval (cblas_ddot N b b)
  let best_rel_res := fsqrt (delta / nrm_b_sqrd)
  let t ← loopSt prm.max_iter (pcgBodyM N x Minv r p bestx q z ax nrm_b_sqrd prm.tol) 1 (delta, best_rel_res)
  exec (cblas_dcopy N bestx x)
  pure ⟨t.1.2, min t.2 prm.max_iter⟩

end L1c
