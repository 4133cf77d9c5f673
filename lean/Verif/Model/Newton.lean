import Verif.Base.Errors
import Verif.Model.Nesta
import Verif.Model.CG
import Verif.Model.LineSearch

/-!
# Model of `src/l1qc_newton.c`

* Arrays are `Vec`s held in the problem record; the vector kernels and BLAS calls are the functional versions justified
  by C03, C04, C05 and C06 (`vcl_sum` and `vcl_logsum` add in another order; over `Dbl` the order does not matter).
* The rows of `DWORK7` are always written before they are read, so each use is a local value here; they have length
  `m`, and writing `n > m` values to one is undefined behaviour (`none`).
* The operators are arbitrary functions of the argument array and of a private state `σ`, with possibly undefined
  behaviour (which includes a NULL pointer).  They are assumed to write all of their output and nothing else.
* `l1c_cgsolve` and `l1c_linesearch_xu` are the models of C12–C18.  Their callbacks are total, so an operator with
  undefined behaviour puts the callback state to `none`, and the solver's own outcome is then undefined.
* Memory is tracked as for NESTA: ids of live allocations and an oracle deciding which requests succeed.
* `m`, `n` are not negative.  Not modelled: printing (`verbose` has no other effect).
-/

namespace L1c
open Scalar

/-- an operator: argument, private state; `none` is undefined behaviour -/
abbrev LOp (F σ : Type) (l k : ℕ) := Vec F l → σ → Option (Vec F k × σ)

/-- computations with the operators' private state and undefined behaviour -/
abbrev OM (σ α : Type) := StateT σ Option α

/-- undefined behaviour -/
def oub {σ α : Type} : OM σ α := fun _ => none

/-- a computation that may be undefined -/
def olift {σ α : Type} (o : Option α) : OM σ α := fun s => o.map fun a => (a, s)

/-- signed `int` arithmetic: overflow is undefined -/
def cint (z : Int) : Option Int := if FitsInt z then some z else none

variable {F : Type} [Scalar F] {σ : Type} {n m : ℕ}

/-- the operators of `l1c_AxFuns` that the solver uses -/
structure QAx (F σ : Type) (n m : ℕ) where
  Ax : LOp F σ m n
  Aty : LOp F σ n m
  AtAx : LOp F σ m m

/-- include/l1c.h:220-260 (without `verbose`, `cg_verbose` and `dct_mode`) -/
structure QOpts (F : Type) where
  epsilon : F
  mu : F
  lbtol : F
  tau : F
  lbiter : Int
  newton_tol : F
  newton_max_iter : Int
  l1_tol : F
  cg_tol : F
  cg_maxiter : Int
  warm_start_cg : Int

/-- include/l1qc_newton.h:45-69; `gradf` is kept as its two halves -/
structure QProb (F : Type) (n m : ℕ) where
  b : Vec F n
  tau : F
  epsilon : F
  r : Vec F n
  fu1 : Vec F m
  fu2 : Vec F m
  fe_val : F
  f_val : F
  w1p : Vec F m
  dx : Vec F m
  du : Vec F m
  sig11 : Vec F m
  sig12 : Vec F m
  ntgu : Vec F m
  gradf_x : Vec F m
  gradf_u : Vec F m

/-- `vcl_logsum(m, alpha, x)` -/
def dlogsum {k : ℕ} (alpha : F) (x : Vec F k) : F :=
  (List.finRange k).foldl (fun s i => s + flog (x i * alpha)) (lit 0)

/-- src/l1qc_newton.c:39-65; the returned value is the new `f_val` -/
def l1qc_f_eval (ax : QAx F σ n m) (P : QProb F n m) (x u : Vec F m) : OM σ (QProb F n m) := do
  let r ← ax.Ax x
  let r := vaxpy (lit (-1)) P.b r
  let fu1 := vaxpy (lit (-1)) u x
  let fu2 := vaxpby (lit (-1)) x (lit (-1)) u
  let fe_val := lit (1 / 2) * (ddot r r - P.epsilon * P.epsilon)
  let a1 := dlogsum (lit (-1)) fu1
  let a2 := dlogsum (lit (-1)) fu2
  let a3 := flog (-fe_val)
  let f_val := dsum u - (lit 1 / P.tau) * (a1 + a2 + a3)
  pure { P with r := r, fu1 := fu1, fu2 := fu2, fe_val := fe_val, f_val := f_val }

/-- include/l1qc_newton.h:13-20 -/
structure HessData (F : Type) (m : ℕ) where
  one_by_fe : F
  one_by_fe_sqrd : F
  atr : Vec F m
  sigx : Vec F m

/-- src/l1qc_newton.c:69-81 -/
def l1qc_H11pfun (ax : QAx F σ n m) (h : HessData F m) (z : Vec F m) : OM σ (Vec F m) := do
  let atr_dot_z_fe := ddot h.atr z
  let atr_dot_z_fe := atr_dot_z_fe * h.one_by_fe_sqrd
  let y ← ax.AtAx z
  let y := vaxpby atr_dot_z_fe h.atr (-h.one_by_fe) y
  pure fun i => h.sigx i * z i + y i

/-- src/l1qc_newton.c:115-152; also returns `sigx` -/
def l1qc_hess_grad (P : QProb F n m) (atr : Vec F m) : QProb F n m × Vec F m :=
  let mone_by_tau := lit (-1) / P.tau
  let o1 : Vec F m := fun i => lit 1 / P.fu1 i
  let o2 : Vec F m := fun i => lit 1 / P.fu2 i
  let ntgz : Vec F m := fun i => o1 i - o2 i + (lit 1 / P.fe_val) * atr i
  let ntgu : Vec F m := fun i => -P.tau - o1 i - o2 i
  let sig11 : Vec F m := fun i => o1 i * o1 i + o2 i * o2 i
  let sig12 : Vec F m := fun i => -o1 i * o1 i + o2 i * o2 i
  ({ P with
      gradf_x := fun i => mone_by_tau * ntgz i
      gradf_u := fun i => mone_by_tau * ntgu i
      w1p := fun i => ntgz i - (sig12 i / sig11 i) * ntgu i
      sig11 := sig11
      sig12 := sig12
      ntgu := ntgu },
   fun i => sig11 i - (sig12 i * sig12 i) / sig11 i)

/-- a partial callback as one on a state that can be undefined -/
def poison {α β : Type} (f : α → OM σ β) (dflt : α → β) : α → Option σ → β × Option σ := fun a s =>
  match s with
  | none => (dflt a, none)
  | some s =>
    match f a s with
    | none => (dflt a, none)
    | some (b, s) => (b, some s)

/-- the call of `l1c_cgsolve` at src/l1qc_newton.c:189-196 -/
def l1qc_cg (ax : QAx F σ n m) (h : HessData F m) (dx w1p : Vec F m) (prm : CgParams F) :
    OM σ (Vec F m × CgResults F) := fun s =>
  match l1c_cgsolve dx w1p (poison (l1qc_H11pfun ax h) id) (some s) prm with
  | none => none
  | some out => out.cb.map fun s => ((out.x, out.res), s)

/-- src/l1qc_newton.c:164-209; returns the status -/
def l1qc_descent_dir (ax : QAx F σ n m) (P : QProb F n m) (prm : CgParams F) :
    OM σ (Int × QProb F n m × CgResults F) := do
  let fe := P.fe_val
  let atr ← ax.Aty P.r
  let (P, sigx) := l1qc_hess_grad P atr
  let h : HessData F m := ⟨lit 1 / fe, lit 1 / (fe * fe), atr, sigx⟩
  let (dx, res) ← l1qc_cg ax h P.dx P.w1p prm
  let P := { P with dx := dx }
  if flt (lit (1 / 2)) res.cgres then pure (L1C_CGSOLVE_FAILURE, P, res)
  else
    let du : Vec F m := fun i => (lit 1 / P.sig11 i) * P.ntgu i - (P.sig12 i / P.sig11 i) * P.dx i
    pure (0, { P with du := du }, res)

/-- src/l1qc_newton.c:264-271 (and 272-279): smallest ratio over the entries moving towards the bound -/
def minRatio {k : ℕ} (fu d : Vec F k) : F :=
  (List.finRange k).foldl (fun acc i => if flt (lit 0) (d i) then cmin acc (-fu i / d i) else acc) inf

/-- src/l1qc_newton.c:226-284 -/
def l1qc_find_max_step (ax : QAx F σ n m) (P : QProb F n m) : OM σ F := do
  let Adx ← ax.Ax P.dx
  if m < n then oub
  else
    let aqe := ddot Adx Adx
    let bqe := lit 2 * ddot P.r Adx
    let cqe := ddot P.r P.r - P.epsilon * P.epsilon
    let root := (-bqe + fsqrt (bqe * bqe - lit 4 * aqe * cqe)) / (lit 2 * aqe)
    let root := if isNaN root then lit 1 else root
    let min_u1 := minRatio P.fu1 fun i => P.dx i - P.du i
    let min_u2 := minRatio P.fu2 fun i => -P.dx i - P.du i
    let smax := cmin min_u1 min_u2
    let smax := cmin smax root
    pure (cmin (lit 1) smax * lit (99 / 100))

/-- src/l1qc_newton.c:288-315; returns `u` and the completed parameters -/
def l1qc_newton_init (x : Vec F m) (prm : QOpts F) : Option (Vec F m × QOpts F) := do
  let x_max := (List.finRange m).foldl (fun a i => cmax a (fabs (x i))) (-inf)
  let u : Vec F m := fun i => lit (95 / 100) * fabs (x i) + lit (1 / 10) * x_max
  let k ← cint (2 * m + 1)
  let tau := cmax (lit k / dasum x) (lit 1)
  let lbiter ←
    if prm.lbiter = 0 then
      ceilInt ((flog (lit 2 * lit m + lit 1) - flog prm.lbtol - flog tau) / flog prm.mu)
    else some prm.lbiter
  pure (u, { prm with tau := tau, lbiter := lbiter })

/-- src/l1qc_newton.c:317-334 -/
def l1qc_check_feasible_start (ax : QAx F σ n m) (P : QProb F n m) (x : Vec F m) : OM σ Int := do
  let w ← ax.Ax x
  if m < n then oub
  else
    let w := vaxpy (lit (-1)) P.b w
    let tmp := dnrm2 w - P.epsilon
    pure (if flt (lit 0) tmp then L1C_INFEASIBLE_START else 0)

/-- src/l1qc_newton.c:345-389: the fields of a new problem (arrays zeroed) -/
def qprobZero (b : Vec F n) (prm : QOpts F) : QProb F n m where
  b := b
  tau := prm.tau
  epsilon := prm.epsilon
  r := fun _ => lit 0
  fu1 := fun _ => lit 0
  fu2 := fun _ => lit 0
  fe_val := lit 0
  f_val := lit 0
  w1p := fun _ => lit 0
  dx := fun _ => lit 0
  du := fun _ => lit 0
  sig11 := fun _ => lit 0
  sig12 := fun _ => lit 0
  ntgu := fun _ => lit 0
  gradf_x := fun _ => lit 0
  gradf_u := fun _ => lit 0

/-- variables of the main loops; `step` is `ls_stat.step` (the other fields of `ls_stat` are not used later), `cg` and
`newton` are the counters of the result -/
structure QLoop (F : Type) (n m : ℕ) where
  x : Vec F m
  u : Vec F m
  P : QProb F n m
  step : F
  l1_prev : F
  cg : Int
  newton : Int

/-- the objective as the line search sees it: it updates the problem record, whose `f_val` is also `*fx0` -/
def l1qc_feval_cb (ax : QAx F σ n m) (x u : Vec F m) (c : CbMem (Option (QProb F n m × σ)) F) :
    F × CbMem (Option (QProb F n m × σ)) F :=
  match c.st with
  | none => (c.fx0, c)
  | some (P, s) =>
    match l1qc_f_eval ax P x u s with
    | none => (c.fx0, ⟨none, c.fx0⟩)
    | some (P, s) => (P.f_val, ⟨some (P, s), P.f_val⟩)

/-- the call of `l1c_linesearch_xu` at src/l1qc_newton.c:527-537; returns `x`, `u`, the problem and `ls_stat` -/
def l1qc_linesearch (ax : QAx F σ n m) (x u : Vec F m) (P : QProb F n m) (g : F) (prm : LSParams F) :
    OM σ ((Vec F m × Vec F m) × QProb F n m × LSStat F) := fun s =>
  let out := l1c_linesearch_xu x u P.dx P.du ⟨some (P, s), P.f_val⟩ g (l1qc_feval_cb ax) prm
  out.cb.st.map fun t => ((out.x, { t.1 with f_val := out.cb.fx0 }, out.stat), t.2)

/-- src/l1qc_newton.c:504-508 (`dscal` is modelled as a product, also for a zero factor) -/
def warmStart (w : Int) (step : F) (dx : Vec F m) : Vec F m :=
  if w = 0 then fun i => lit 0 * dx i
  else if w = 2 then fun i => step * dx i
  else dx

/-- src/l1qc_newton.c:501-573: body of the Newton loop; the result says whether it ends in `break`.  A failure of the
descent direction is only printed. -/
def l1qc_newton_body (ax : QAx F σ n m) (prm : QOpts F) (st : QLoop F n m) : OM σ (QLoop F n m × Bool) := do
  let P := { st.P with dx := warmStart prm.warm_start_cg st.step st.P.dx }
  let (_, P, res) ← l1qc_descent_dir ax P ⟨prm.cg_maxiter, prm.cg_tol⟩
  let cg ← olift (cint (st.cg + res.cgiter))
  let s ← l1qc_find_max_step ax P
  let g := ddot P.gradf_x P.dx + ddot P.gradf_u P.du
  let (xu, P, stat) ← l1qc_linesearch ax st.x st.u P g ⟨lit (1 / 100), lit (1 / 2), s⟩
  let st := { st with x := xu.1, u := xu.2, P := P, step := stat.step, cg := cg }
  if stat.status > 0 then pure (st, true)
  else
    let lambda2 := -g
    if flt (lambda2 / lit 2) prm.newton_tol then pure (st, true)
    else
      let l1 := dasum st.x
      let rate := fabs (st.l1_prev - l1) / l1
      pure ({ st with l1_prev := l1 }, flt rate prm.l1_tol)

/-- src/l1qc_newton.c:499-574: the Newton loop with `fuel` iterations left, `iter` the C variable -/
def l1qc_newton_loop (ax : QAx F σ n m) (prm : QOpts F) : ℕ → Int → QLoop F n m → OM σ (QLoop F n m × Int)
  | 0, iter, st => pure (st, iter)
  | fuel + 1, iter, st => do
    let (st, stop) ← l1qc_newton_body ax prm st
    if stop then pure (st, iter) else l1qc_newton_loop ax prm fuel (iter + 1) st

/-- src/l1qc_newton.c:490-587: one log-barrier iteration.  `params.tau` and `l1qc_prob.tau` are always equal and are one
field here. -/
def l1qc_lb_body (ax : QAx F σ n m) (prm : QOpts F) (st : QLoop F n m) : OM σ (QLoop F n m) := do
  let P := { st.P with dx := fun _ => lit 0 }
  let P ← l1qc_f_eval ax P st.x st.u
  let (st, iter) ← l1qc_newton_loop ax prm (prm.newton_max_iter - 1).toNat 1 { st with P := P, l1_prev := inf }
  let newton ← olift (cint (st.newton + iter))
  pure { st with newton := newton, P := { st.P with tau := st.P.tau * prm.mu } }

/-- src/l1qc_newton.c:490-587: the log-barrier loop with `fuel` iterations left; incrementing `lb_iter` past `INT_MAX` is
undefined -/
def l1qc_lb_loop (ax : QAx F σ n m) (prm : QOpts F) : ℕ → Int → QLoop F n m → OM σ (QLoop F n m)
  | 0, lb_iter, st => if lb_iter ≤ INT_MAX then pure st else oub
  | fuel + 1, lb_iter, st => do
    let st ← l1qc_lb_body ax prm st
    l1qc_lb_loop ax prm fuel (lb_iter + 1) st

/-- include/l1c.h:203-214 -/
structure LBResult (F : Type) where
  l1 : F
  total_newton_iter : Int
  total_cg_iter : Int
  status : Int

/-- what the caller observes: the result and the array `x`; `st` holds the loop variables at the end of the barrier loop
(only for stating properties) -/
structure QOut (F : Type) (n m : ℕ) where
  res : LBResult F
  x : Vec F m
  st : Option (QLoop F n m)

/-- src/l1qc_newton.c:476-587: everything between the allocations and the clean-up -/
def l1qc_solve (ax : QAx F σ n m) (prm : QOpts F) (b : Vec F n) (x u : Vec F m) : OM σ (QOut F n m) := do
  let P := qprobZero b prm
  let bad ← l1qc_check_feasible_start ax P x
  if bad ≠ 0 then pure ⟨⟨dasum x, 0, 0, L1C_INFEASIBLE_START⟩, x, none⟩
  else do
    let st ← l1qc_lb_loop ax prm prm.lbiter.toNat 1 ⟨x, u, P, lit 0, lit 0, 0, 0⟩
    pure ⟨⟨dasum st.x, st.newton, st.cg, 0⟩, st.x, some st⟩

/-! ## Memory -/

/-- an operator computation inside the routine that tracks memory -/
def nrun {α : Type} (x : OM σ α) : NM σ α := fun s => (x s.cb).map fun r => (r.1, { s with cb := r.2 })

/-- the rows of `l1c_malloc_double_2D`, src/l1c_memory.c:101-114: stop at the first failure and release what there is -/
def nallocRows : ℕ → List ℕ → NM σ (Option (List ℕ))
  | 0, rows => pure (some rows)
  | k + 1, rows => do
    let a ← nalloc
    match a with
    | none => do
      nfreeAll (rows.map some)
      pure none
    | some a => nallocRows k (rows ++ [a])

/-- `l1c_calloc_double_2D(nrow, m)`, src/l1c_memory.c:68-118: the table and its rows -/
def nalloc2D (nrow : ℕ) : NM σ (Option (ℕ × List ℕ)) := do
  let t ← nalloc
  match t with
  | none => pure none
  | some t => do
    let rows ← nallocRows nrow []
    match rows with
    | none => do
      nfree (some t)
      pure none
    | some rows => pure (some (t, rows))

/-- `l1c_free_double_2D`, src/l1c_memory.c:127-136 -/
def nfree2D (d : Option (ℕ × List ℕ)) : NM σ Unit :=
  match d with
  | none => nfree none
  | some (t, rows) => do
    nfreeAll (rows.map some)
    nfree (some t)

/-- the allocations of `_l1c_l1qcProb_new`, src/l1qc_newton.c:369-382: ten arrays and `DWORK7` -/
def l1qcProb_new : NM σ (List (Option ℕ) × Option (ℕ × List ℕ)) := do
  let arrs ← nallocs 10
  let dwork7 ← nalloc2D 7
  pure (arrs, dwork7)

/-- src/l1qc_newton.c:396-411 -/
def l1qcProb_delete (arrs : List (Option ℕ)) (dwork7 : Option (ℕ × List ℕ)) : NM σ Unit := do
  nfreeAll arrs
  nfree2D dwork7

/-- src/l1qc_newton.c:436-598.  If the allocation of `u` fails the clean-up releases the pointers of a problem record that
was never initialised, which is undefined. -/
def l1c_l1qc_newton (ax : QAx F σ n m) (x : Vec F m) (b : Vec F n) (prm : QOpts F) : NM σ (QOut F n m) := do
  let u ← nalloc
  match u with
  | none => nub
  | some up => do
    let (u, prm) ← nlift (l1qc_newton_init x prm)
    let (arrs, dwork7) ← l1qcProb_new
    let out ←
      if arrs.any Option.isNone ∨ dwork7.isNone then pure ⟨⟨dasum x, 0, 0, L1C_OUT_OF_MEMORY⟩, x, none⟩
      else nrun (l1qc_solve ax prm b x u)
    nfree (some up)
    l1qcProb_delete arrs dwork7
    pure out

end L1c
