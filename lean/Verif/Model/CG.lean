import Verif.Base.Vec

/-!
# Model of `src/cgsolve.c`

The linear operator callback `AX_func(N, x, out, data)` is a function of the argument vector and of a
private state `σ`, both arbitrary; it is assumed to write all of `out` and nothing else the solver uses.
`iter` is a C `int`: running past `INT_MAX` is undefined behaviour, outcome `none`.  The progress
report (src/cgsolve.c:146-148, 295-297) only prints and is not modelled.
-/

namespace L1c
open Scalar

variable {F : Type} [Scalar F] {σ : Type} {N : ℕ}

/-- include/l1c.h, `l1c_CgParams` (without `verbose`) -/
structure CgParams (F : Type) where
  max_iter : Int
  tol : F

/-- include/l1c.h, `l1c_CgResults` -/
structure CgResults (F : Type) where
  cgres : F
  cgiter : Int

/-- what the caller can observe: solution vector, result struct, callback state -/
structure CgOut (F σ : Type) (N : ℕ) where
  x : Vec F N
  res : CgResults F
  cb : σ

/-- local variables of `l1c_cgsolve` alive across iterations -/
structure CgState (F : Type) (N : ℕ) where
  x : Vec F N
  r : Vec F N
  p : Vec F N
  bestx : Vec F N
  delta : F
  best : F

/-- src/cgsolve.c:101-114 -/
def cgInit (op : Vec F N → σ → Vec F N × σ) (x b : Vec F N) (s : σ) : CgState F N × σ :=
  let (r, s) := op x s
  let r := vaxpby (lit 1) b (-(lit 1)) r
  let delta := ddot r r
  let delta_0 := ddot b b
  ({ x := x, r := r, p := r, bestx := x, delta := delta, best := fsqrt (delta / delta_0) }, s)

/-- loop body src/cgsolve.c:118-143; returns the new state and `rel_res` -/
def cgStep (op : Vec F N → σ → Vec F N × σ) (delta_0 : F) (st : CgState F N) (s : σ) :
    (CgState F N × F) × σ :=
  let (q, s) := op st.p s
  let alpha := st.delta / ddot st.p q
  let x := vaxpy alpha st.p st.x
  let r := vaxpy (-alpha) q st.r
  let delta_old := st.delta
  let delta := ddot r r
  let beta := delta / delta_old
  let p := vaxpby (lit 1) r beta st.p
  let rel_res := fsqrt (delta / delta_0)
  if flt rel_res st.best then
    (({ x := x, r := r, p := p, bestx := x, delta := delta, best := rel_res }, rel_res), s)
  else
    (({ x := x, r := r, p := p, bestx := st.bestx, delta := delta, best := st.best }, rel_res), s)

/-- the `for` loop shared by both solvers (src/cgsolve.c:116-153 and 267-302), `fuel` iterations left;
returns the state and the value of `iter` after the loop -/
def cgLoop (step : CgState F N → σ → (CgState F N × F) × σ) (tol : F) :
    ℕ → Int → CgState F N → σ → Option (CgState F N × Int × σ)
  | 0, iter, st, s => if iter ≤ INT_MAX then some (st, iter, s) else none
  | fuel + 1, iter, st, s =>
    let ((st, rel_res), s) := step st s
    if flt rel_res tol then some (st, iter, s)
    else cgLoop step tol fuel (iter + 1) st s

/-- src/cgsolve.c:155-158 and 304-307 -/
def cgFinish (prm : CgParams F) (t : CgState F N × Int × σ) : CgOut F σ N :=
  ⟨t.1.bestx, ⟨t.1.best, min t.2.1 prm.max_iter⟩, t.2.2⟩

/-- src/cgsolve.c:63-161 -/
def l1c_cgsolve (x b : Vec F N) (op : Vec F N → σ → Vec F N × σ) (s : σ) (prm : CgParams F) :
    Option (CgOut F σ N) :=
  let (st, s) := cgInit op x b s
  (cgLoop (cgStep op (ddot b b)) prm.tol prm.max_iter.toNat 1 st s).map (cgFinish prm)

/-- src/cgsolve.c:248-265 -/
def pcgInit (op : Vec F N → σ → Vec F N × σ) (x b Minv : Vec F N) (s : σ) : CgState F N × σ :=
  let (r, s) := op x s
  let r := vaxpby (lit 1) b (-(lit 1)) r
  let z := vmul r Minv
  let delta := ddot r z
  let nrm_b_sqrd := ddot b b
  ({ x := x, r := r, p := z, bestx := x, delta := delta, best := fsqrt (delta / nrm_b_sqrd) }, s)

/-- loop body src/cgsolve.c:269-292 -/
def pcgStep (op : Vec F N → σ → Vec F N × σ) (Minv : Vec F N) (nrm_b_sqrd : F) (st : CgState F N) (s : σ) :
    (CgState F N × F) × σ :=
  let (q, s) := op st.p s
  let alpha := st.delta / ddot st.p q
  let x := vaxpy alpha st.p st.x
  let r := vaxpy (-alpha) q st.r
  let z := vmul r Minv
  let delta_old := st.delta
  let delta := ddot r z
  let beta := delta / delta_old
  let p := vaxpby (lit 1) z beta st.p
  let nrm_r_sqrd := ddot r r
  let rel_res := fsqrt (nrm_r_sqrd / nrm_b_sqrd)
  if flt rel_res st.best then
    (({ x := x, r := r, p := p, bestx := x, delta := delta, best := rel_res }, rel_res), s)
  else
    (({ x := x, r := r, p := p, bestx := st.bestx, delta := delta, best := st.best }, rel_res), s)

/-- src/cgsolve.c:206-310 -/
def l1c_cgsolve_diag_precond (x b Minv : Vec F N) (op : Vec F N → σ → Vec F N × σ) (s : σ)
    (prm : CgParams F) : Option (CgOut F σ N) :=
  let (st, s) := pcgInit op x b Minv s
  (cgLoop (pcgStep op Minv (ddot b b)) prm.tol prm.max_iter.toNat 1 st s).map (cgFinish prm)

end L1c
