import Verif.Model.CGMem
import Verif.Model.Newton

/-!
# Model of `src/l1qc_newton.c` and `l1c_linesearch_xu` on memory

The same functions as in `Model/Newton`, but every array is a pointer into memory, the reductions are the programs of
`vcl_math.cpp`, and the operators `Ax`, `Aty`, `AtAx` are arbitrary commands on memory.  Scalars of the problem record and
local variables are values.  Not modelled: printing; `total_cg_iter` and `total_newton_iter` are checked `int` sums.
-/

namespace L1c
open Prog Scalar Cmd

variable {F : Type} [Scalar F] {γ : Type}

/-- `ax_funs` on memory: input, output -/
structure QAxM (F : Type) where
  Ax : Ptr → Ptr → Cmd F Unit
  Aty : Ptr → Ptr → Cmd F Unit
  AtAx : Ptr → Ptr → Cmd F Unit

/-- the array fields of `l1c_l1qcProb`, include/l1qc_newton.h:45-69 -/
structure QPtr where
  b : Ptr
  r : Ptr
  fu1 : Ptr
  fu2 : Ptr
  w1p : Ptr
  dx : Ptr
  du : Ptr
  sig11 : Ptr
  sig12 : Ptr
  ntgu : Ptr
  gradf : Ptr
  DWORK7 : ℕ → Ptr

/-- its scalar fields -/
structure QScal (F : Type) where
  tau : F
  epsilon : F
  fe_val : F
  f_val : F

/-- src/l1qc_newton.c:39-65.  The aligned loads of `vcl_logsum` and `vcl_sum` (src/vcl/vcl_math.cpp:22-30, 43-49) are counted as a promise that the array is aligned,
also when it is too short for a vector. -/
def l1qc_f_evalM (n m : Int) (ax : QAxM F) (q : QPtr) (c : QScal F) (x u : Ptr) : Cmd F (QScal F) := do
  ax.Ax x q.r
  exec (daxpyK n (lit (-1)) q.b q.r)
  exec (l1c_daxpy_z m (lit (-1)) u x q.fu1)
  exec (l1c_daxpby_z m (lit (-1)) x (lit (-1)) u q.fu2)
  let rr ← eval (cblas_ddot n q.r q.r)
  let fe_val := lit (1 / 2) * (rr - c.epsilon * c.epsilon)
  Cmd.assume [q.fu1, q.fu2, u]
  let a1 ← eval (vcl_logsum m (lit (-1)) q.fu1)
  let a2 ← eval (vcl_logsum m (lit (-1)) q.fu2)
  let a3 := flog (-fe_val)
  let su ← eval (vcl_sum m u)
  pure { c with fe_val := fe_val, f_val := su - (lit 1 / c.tau) * (a1 + a2 + a3) }

/-- src/l1qc_newton.c:69-81; the aligned loads of `vcl_dxMy_pz` as above -/
def l1qc_H11pfunM (m : Int) (AtAx : Ptr → Ptr → Cmd F Unit) (one_by_fe one_by_fe_sqrd : F) (atr sigx z y : Ptr) : Cmd F Unit := do
  let d ← eval (cblas_ddot m atr z)
  let d := d * one_by_fe_sqrd
  AtAx z y
  exec (l1c_daxpby m d atr (-one_by_fe) y)
  exec (seqK (al := [sigx, z, y]) (vcl_dxMy_pz m sigx z y))

/-- src/l1qc_newton.c:115-152 -/
def l1qc_hess_gradM (m : Int) (q : QPtr) (c : QScal F) (sigx atr : Ptr) : Kernel F :=
  parFor 0 m fun i => do
    let a ← load (q.fu1 + i)
    let o1 := lit 1 / a
    let b ← load (q.fu2 + i)
    let o2 := lit 1 / b
    let d ← load (atr + i)
    let ntgz := o1 - o2 + (lit 1 / c.fe_val) * d
    let ntgu := -c.tau - o1 - o2
    store (q.gradf + i) (lit (-1) / c.tau * ntgz)
    store (q.gradf + (i + m)) (lit (-1) / c.tau * ntgu)
    let sig11 := o1 * o1 + o2 * o2
    let sig12 := -o1 * o1 + o2 * o2
    store (sigx + i) (sig11 - (sig12 * sig12) / sig11)
    store (q.w1p + i) (ntgz - (sig12 / sig11) * ntgu)
    store (q.sig11 + i) sig11
    store (q.sig12 + i) sig12
    store (q.ntgu + i) ntgu

/-- the loop at src/l1qc_newton.c:202-206 -/
def l1qc_duM (m : Int) (q : QPtr) : Kernel F :=
  parFor 0 m fun i => do
    let a ← load (q.sig11 + i)
    let b ← load (q.ntgu + i)
    let c ← load (q.sig12 + i)
    let d ← load (q.sig11 + i)
    let e ← load (q.dx + i)
    store (q.du + i) ((lit 1 / a) * b - (c / d) * e)

/-- src/l1qc_newton.c:164-209 -/
def l1qc_descent_dirM (m : Int) (ax : QAxM F) (q : QPtr) (c : QScal F) (prm : CgParams F) : Cmd F (Int × CgResults F) := do
  let fe := c.fe_val
  let sigx := q.DWORK7 0
  let atr := q.DWORK7 2
  ax.Aty q.r atr
  exec (l1qc_hess_gradM m q c sigx atr)
  let res ← l1c_cgsolveM m q.dx q.w1p (fun i => q.DWORK7 (i + 3)) (l1qc_H11pfunM m ax.AtAx (lit 1 / fe) (lit 1 / (fe * fe)) atr sigx) prm
  if flt (lit (1 / 2)) res.cgres then pure (L1C_CGSOLVE_FAILURE, res)
  else do
    exec (l1qc_duM m q)
    pure (0, res)

/-- src/l1qc_newton.c:264-271; `d` computes the entry of the direction -/
def minRatioM (m : Int) (fu : Ptr) (d : Int → Prog F F) : Prog F F :=
  foldUp 0 m inf fun i acc => do
    let v ← d i
    if flt (lit 0) v then do
      let f ← load (fu + i)
      let v ← d i
      pure (cmin acc (-f / v))
    else pure acc

/-- src/l1qc_newton.c:226-284 -/
def l1qc_find_max_stepM (n m : Int) (ax : QAxM F) (q : QPtr) (c : QScal F) : Cmd F F := do
  let Adx := q.DWORK7 0
  ax.Ax q.dx Adx
  let aqe ← eval (cblas_ddot n Adx Adx)
  let ra ← eval (cblas_ddot n q.r Adx)
  let bqe := lit 2 * ra
  let rr ← eval (cblas_ddot n q.r q.r)
  let cqe := rr - c.epsilon * c.epsilon
  let root := (-bqe + fsqrt (bqe * bqe - lit 4 * aqe * cqe)) / (lit 2 * aqe)
  let root := if isNaN root then lit 1 else root
  let min_u1 ← eval (minRatioM m q.fu1 fun i => do
    let a ← load (q.dx + i)
    let b ← load (q.du + i)
    pure (a - b))
  let min_u2 ← eval (minRatioM m q.fu2 fun i => do
    let a ← load (q.dx + i)
    let b ← load (q.du + i)
    pure (-a - b))
  let smax := cmin min_u1 min_u2
  let smax := cmin smax root
  pure (cmin (lit 1) smax * lit (99 / 100))

/-- the loop src/linesearch.c:85-118 and what follows; the callback works on its scalars `γ` and `*fx0` -/
def lsLoopM (m : Int) (x u dx du xp up : Ptr) (feval : CbMem γ F → Ptr → Ptr → Cmd F (F × CbMem γ F)) (fx0_orig g : F) (prm : LSParams F) :
    ℕ → ℕ → F → F → CbMem γ F → Cmd F (LSStat F × CbMem γ F)
  | 0, iter, step, flin, cb => pure (⟨flin, step, min iter MAX_LINESEARCH_ITER, 1⟩, cb)
  | fuel + 1, iter, step, flin, cb => do
    exec (l1c_daxpy_z m step dx x xp)
    exec (l1c_daxpy_z m step du u up)
    let r ← feval cb xp up
    if isNaN r.1 then lsLoopM m x u dx du xp up feval fx0_orig g prm fuel (iter + 1) (prm.beta * step) flin r.2
    else
      let flin := fx0_orig + prm.alpha * step * g
      if fle r.1 flin then do
        exec (cblas_dcopy m xp x)
        exec (cblas_dcopy m up u)
        pure (⟨flin, step, iter, 0⟩, { r.2 with fx0 := r.1 })
      else lsLoopM m x u dx du xp up feval fx0_orig g prm fuel (iter + 1) (prm.beta * step) flin r.2

/-- src/linesearch.c:64-134; `DWORK2` is the table of the two work arrays -/
def l1c_linesearch_xuM (m : Int) (x u dx du : Ptr) (cb : CbMem γ F) (g_dot_dxu : F) (feval : CbMem γ F → Ptr → Ptr → Cmd F (F × CbMem γ F))
    (prm : LSParams F) (DWORK2 : ℕ → Ptr) : Cmd F (LSStat F × CbMem γ F) :=
  lsLoopM m x u dx du (DWORK2 0) (DWORK2 1) feval cb.fx0 g_dot_dxu prm MAX_LINESEARCH_ITER 1 prm.s (lit 0) cb

/-- `_l1c_l1qc_f_eval` as callback; `fx0` is the field `f_val` -/
def l1qc_fevalM (n m : Int) (ax : QAxM F) (q : QPtr) (cb : CbMem (QScal F) F) (x u : Ptr) : Cmd F (F × CbMem (QScal F) F) := do
  let c ← l1qc_f_evalM n m ax q cb.st x u
  pure (c.f_val, ⟨c, c.f_val⟩)

/-- the variables of the main loops -/
structure QVars (F : Type) where
  c : QScal F
  step : F
  l1_prev : F
  cg : Int
  newton : Int

/-- src/l1qc_newton.c:504-508 -/
def warmStartM (m : Int) (w : Int) (step : F) (dx : Ptr) : Cmd F Unit :=
  if w = 0 then exec (parFor 0 m fun i => do
    let v ← load (dx + i)
    store (dx + i) (lit 0 * v))
  else if w = 2 then exec (parFor 0 m fun i => do
    let v ← load (dx + i)
    store (dx + i) (step * v))
  else pure ()

/-- src/l1qc_newton.c:501-573 -/
def l1qc_newton_bodyM (n m : Int) (ax : QAxM F) (q : QPtr) (x u : Ptr) (prm : QOpts F) (st : QVars F) : Cmd F (QVars F × Bool) := do
  warmStartM m prm.warm_start_cg st.step q.dx
  let d ← l1qc_descent_dirM m ax q st.c ⟨prm.cg_maxiter, prm.cg_tol⟩
  need (FitsInt (st.cg + d.2.cgiter))
  let s ← l1qc_find_max_stepM n m ax q st.c
  let gx ← eval (cblas_ddot m q.gradf q.dx)
  let gu ← eval (cblas_ddot m (q.gradf + m) q.du)
  let g := gx + gu
  let ls ← l1c_linesearch_xuM m x u q.dx q.du ⟨st.c, st.c.f_val⟩ g (l1qc_fevalM n m ax q) ⟨lit (1 / 100), lit (1 / 2), s⟩ q.DWORK7
  let st := { st with c := { ls.2.st with f_val := ls.2.fx0 }, step := ls.1.step, cg := st.cg + d.2.cgiter }
  if ls.1.status > 0 then pure (st, true)
  else
    let lambda2 := -g
    if flt (lambda2 / lit 2) prm.newton_tol then pure (st, true)
    else do
      let l1 ← eval (l1c_dnorm1 m x)
      let rate := fabs (st.l1_prev - l1) / l1
      pure ({ st with l1_prev := l1 }, flt rate prm.l1_tol)

/-- src/l1qc_newton.c:499-574 -/
def l1qc_newton_loopM (n m : Int) (ax : QAxM F) (q : QPtr) (x u : Ptr) (prm : QOpts F) : ℕ → Int → QVars F → Cmd F (QVars F × Int)
  | 0, iter, st => pure (st, iter)
  | fuel + 1, iter, st => do
    let r ← l1qc_newton_bodyM n m ax q x u prm st
    if r.2 then pure (r.1, iter) else l1qc_newton_loopM n m ax q x u prm fuel (iter + 1) r.1

/-- src/l1qc_newton.c:490-587 -/
def l1qc_lb_bodyM (n m : Int) (ax : QAxM F) (q : QPtr) (x u : Ptr) (prm : QOpts F) (st : QVars F) : Cmd F (QVars F) := do
  exec (l1c_init_vec m q.dx (lit 0))
  let c ← l1qc_f_evalM n m ax q st.c x u
  let r ← l1qc_newton_loopM n m ax q x u prm (prm.newton_max_iter - 1).toNat 1 { st with c := c, l1_prev := inf }
  need (FitsInt (r.1.newton + r.2))
  pure { r.1 with newton := r.1.newton + r.2, c := { r.1.c with tau := r.1.c.tau * prm.mu } }

/-- src/l1qc_newton.c:490-587; incrementing `lb_iter` past `INT_MAX` is undefined -/
def l1qc_lb_loopM (n m : Int) (ax : QAxM F) (q : QPtr) (x u : Ptr) (prm : QOpts F) : ℕ → Int → QVars F → Cmd F (QVars F)
  | 0, lb_iter, st => do
    need (lb_iter ≤ INT_MAX)
    pure st
  | fuel + 1, lb_iter, st => do
    let st ← l1qc_lb_bodyM n m ax q x u prm st
    l1qc_lb_loopM n m ax q x u prm fuel (lb_iter + 1) st

/-- src/l1qc_newton.c:317-334 -/
def l1qc_check_feasible_startM (n : Int) (ax : QAxM F) (q : QPtr) (c : QScal F) (x : Ptr) : Cmd F Int := do
  let w := q.DWORK7 0
  ax.Ax x w
  exec (daxpyK n (lit (-1)) q.b w)
  let d ← eval (cblas_ddot n w w)
  let tmp := fsqrt d - c.epsilon
  pure (if flt (lit 0) tmp then L1C_INFEASIBLE_START else 0)

/-- src/l1qc_newton.c:476-587: everything between the allocations and the clean-up; the status and the two counters -/
def l1qc_solveM (n m : Int) (ax : QAxM F) (q : QPtr) (x u : Ptr) (prm : QOpts F) : Cmd F (Int × Int × Int) := do
  let c : QScal F := ⟨prm.tau, prm.epsilon, lit 0, lit 0⟩
  let bad ← l1qc_check_feasible_startM n ax q c x
  if bad ≠ 0 then pure (L1C_INFEASIBLE_START, 0, 0)
  else do
    let st ← l1qc_lb_loopM n m ax q x u prm prm.lbiter.toNat 1 ⟨c, lit 0, lit 0, 0, 0⟩
    pure (0, st.newton, st.cg)

/-- src/l1qc_newton.c:288-315; a conversion to `int` that does not fit is undefined -/
def l1qc_newton_initM (m : Int) (x u : Ptr) (prm : QOpts F) : Cmd F (QOpts F) := do
  let x_max ← eval (foldUp 0 m (-inf) fun i a => do
    let v ← load (x + i)
    pure (cmax a (fabs v)))
  exec (seqK (forUp 0 m fun i => do
    let v ← load (x + i)
    store (u + i) (lit (95 / 100) * fabs v + lit (1 / 10) * x_max)))
  let l1 ← eval (l1c_dnorm1 m x)
  need (FitsInt (2 * m + 1))
  let tau := cmax (lit ((2 * m + 1 : Int) : ℚ) / l1) (lit 1)
  if prm.lbiter = 0 then do
    let k := ceilInt ((flog (lit 2 * lit (m : ℚ) + lit 1) - flog prm.lbtol - flog tau) / flog prm.mu)
    need (k.isSome = true)
    pure { prm with tau := tau, lbiter := k.getD 0 }
  else pure { prm with tau := tau, lbiter := prm.lbiter }

/-! ## Allocation -/

/-- calls of `l1c_calloc_double` one after the other -/
def callocsC : List Int → Cmd F (List (Option Ptr))
  | [] => pure []
  | N :: Ns => do
    let p ← callocC N
    let ps ← callocsC Ns
    pure (p :: ps)

/-- calls of `l1c_free_double` (or `free`) one after the other -/
def freesC : List (Option Ptr) → Cmd F Unit
  | [] => pure ()
  | p :: ps => do
    freeC p
    freesC ps

/-- the rows, src/l1c_memory.c:101-118: stop at the first failure and release what there is.  The rows are filled with zeros by
`l1c_calloc_double_2D` afterwards; here at once. -/
def callocRowsC (N : Int) : ℕ → List Ptr → Cmd F (Option (List Ptr))
  | 0, rows => pure (some rows)
  | k + 1, rows => do
    let p ← callocC N
    match p with
    | none => do
      freesC (rows.map some)
      pure none
    | some p => callocRowsC N k (rows ++ [p])

/-- `l1c_calloc_double_2D(nrow, ncol)`, src/l1c_memory.c:68-125.  The table of row pointers is a block of `nrow` words that no
kernel touches; its contents are the list returned with it. -/
def calloc2DC (nrow : ℕ) (N : Int) : Cmd F (Option (Ptr × List Ptr)) := do
  let t ← callocC nrow
  match t with
  | none => pure none
  | some t => do
    let rows ← callocRowsC N nrow []
    match rows with
    | none => do
      freeC (some t)
      pure none
    | some rows => pure (some (t, rows))

/-- `l1c_free_double_2D`, src/l1c_memory.c:127-136 -/
def free2DC : Option (Ptr × List Ptr) → Cmd F Unit
  | none => freeC none
  | some (t, rows) => do
    freesC (rows.map some)
    freeC (some t)

/-- the problem record, once every allocation has succeeded, src/l1qc_newton.c:369-388 -/
def mkQPtr (b : Ptr) : List (Option Ptr) → Option (Ptr × List Ptr) → Option QPtr
  | [some r, some fu1, some fu2, some w1p, some dx, some du, some sig11, some sig12, some ntgu, some gradf], some (_, rows) =>
    some ⟨b, r, fu1, fu2, w1p, dx, du, sig11, sig12, ntgu, gradf, fun i => rows.getD i ⟨0, 0⟩⟩
  | _, _ => none

/-- src/l1qc_newton.c:436-598.  If the allocation of `u` fails, the clean-up releases the pointers of a problem record that was
never initialised, which is undefined.  The norm of `x` is computed after the clean-up. -/
def l1c_l1qc_newtonM (n m : ℕ) (ax : QAxM F) (x b : Ptr) (prm : QOpts F) : Cmd F (LBResult F) := do
  let u ← callocC m
  match u with
  | none => do
    need False
    pure ⟨lit 0, 0, 0, L1C_OUT_OF_MEMORY⟩
  | some u => do
    let prm ← l1qc_newton_initM m x u prm
    let arrs ← callocsC [(n : Int), m, m, m, m, m, m, m, m, 2 * m]
    let dwork7 ← calloc2DC 7 m
    let r ← match mkQPtr b arrs dwork7 with
      | none => pure (L1C_OUT_OF_MEMORY, 0, 0)
      | some q => l1qc_solveM n m ax q x u prm
    freeC (some u)
    freesC arrs
    free2DC dwork7
    let l1 ← eval (l1c_dnorm1 m x)
    pure ⟨l1, r.2.1, r.2.2, r.1⟩

end L1c
