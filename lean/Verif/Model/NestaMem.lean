import Verif.Model.NewtonMem
import Verif.Model.Nesta

/-!
# Model of `src/nesta.c` on memory

The same functions as in `Model/Nesta`, but every array (also the window of recent objective values) is a pointer into memory, the
reductions are programs that read memory, and the operators are arbitrary commands on memory or missing.  Scalars of the problem record
and local variables are values.  `cblas_daxpy(N, a, x, 1, y, 1)` is the loop `y[i] = a*x[i] + y[i]`, `daxpyK`.
Not modelled: printing.
-/

namespace L1c
open Prog Scalar Cmd

variable {F : Type} [Scalar F]

/-- the part of `l1c_AxFuns` that is used; `none` is NULL -/
structure NAxM (F : Type) where
  n : Int
  m : Int
  p : Int
  Ax : Option (Ptr → Ptr → Cmd F Unit)
  Aty : Option (Ptr → Ptr → Cmd F Unit)
  Wz : Option (Ptr → Ptr → Cmd F Unit)
  Wtx : Option (Ptr → Ptr → Cmd F Unit)
  hasRx : Bool
  hasRty : Bool
  norm_W : F

/-- a call through a function pointer; through NULL it is undefined -/
def callFn (f : Option (Ptr → Ptr → Cmd F Unit)) (x y : Ptr) : Cmd F Unit :=
  match f with
  | none => need False
  | some f => f x y

/-- the array fields of `l1c_NestaProb`, include/nesta.h:15-65 -/
structure NPtr where
  xo : Ptr
  xk : Ptr
  yk : Ptr
  zk : Ptr
  Atb : Ptr
  gradf : Ptr
  gradf_sum : Ptr
  dwork1 : Ptr
  dwork2 : Ptr
  b : Ptr

/-- its scalar fields -/
structure NScal (F : Type) where
  fx : F
  sigma : F
  mu : F
  tol : F
  mu_j : F
  tol_j : F
  L : F

/-- `cblas_dnrm2(N, x, 1)` -/
def cblas_dnrm2 (N : Int) (x : Ptr) : Prog F F := do
  let d ← cblas_ddot N x x
  pure (fsqrt d)

/-- `struct l1c_fmean_fifo`, include/nesta.h:67-71 -/
structure FifoM where
  f_vals : Ptr
  n_total : ℕ
  next : Ptr

/-- src/nesta.c:61-74; the comparison of pointers is the one of their offsets -/
def fifoPushM (q : FifoM) (fval : F) : Cmd F FifoM := do
  exec (seqK (store q.next fval))
  let next := if (q.next + (1 : Int)).off > (q.f_vals + ((L1C_NESTA_NMEAN : Int) - 1)).off then q.f_vals else q.next + (1 : Int)
  let n_total := if q.n_total < L1C_NESTA_NMEAN then q.n_total + 1 else q.n_total
  pure ⟨q.f_vals, n_total, next⟩

/-- src/nesta.c:83-92 -/
def fifoMeanM (q : FifoM) : Cmd F F := do
  let mean ← eval (foldUp 0 (L1C_NESTA_NMEAN : Int) (lit 0) fun i mean => do
    let v ← load (q.f_vals + i)
    pure (mean + v))
  pure (mean / lit q.n_total)

/-- src/nesta.c:192-221 -/
def l1c_nesta_projectM (ax : NAxM F) (q : NPtr) (c : NScal F) (xx g vk : Ptr) : Cmd F Unit := do
  let n := ax.n
  let m := ax.m
  let Aq := q.dwork2
  let AtAq := q.dwork1
  let Lmu := c.L / c.mu_j
  exec (l1c_daxpy_z m (lit (-1) / Lmu) g xx vk)
  callFn ax.Ax vk Aq
  callFn ax.Aty Aq AtAq
  Cmd.assume [q.b, Aq]
  let a0 ← eval (l1c_dnrm2_err n q.b Aq)
  let a0 := Lmu * (a0 / c.sigma - lit 1)
  let lambda := cmax (lit 0) a0
  let a1 := lambda / (Lmu + lambda)
  exec (daxpyK m ((lambda / Lmu) * (lit 1 - a1)) q.Atb vk)
  exec (daxpyK m (-a1) AtAq vk)

/-- src/nesta.c:237-258 -/
def l1c_nesta_fevalM (ax : NAxM F) (q : NPtr) (c : NScal F) : Cmd F (NScal F) := do
  let p := ax.p
  let Wtxk := q.dwork1
  let u := q.dwork2
  callFn ax.Wtx q.xk Wtxk
  exec (seqK (forUp 0 p fun i => do
    let w ← load (Wtxk + i)
    store (u + i) (w / cmax c.mu_j (fabs w))))
  let nrm_u2 ← eval (cblas_dnrm2 p u)
  let nrm_u2 := nrm_u2 * nrm_u2
  let d ← eval (cblas_ddot p u Wtxk)
  let fx := d - lit (1 / 2) * c.mu_j * nrm_u2
  callFn ax.Wz u q.gradf
  pure { c with fx := fx }

/-- src/nesta.c:272-325; `none` is the return of `L1C_INCONSISTENT_ARGUMENTS`, otherwise the problem's scalars, `beta_mu`, `beta_tol` -/
def l1c_nesta_setupM (ax : NAxM F) (q : NPtr) (opts : NestaOpts F) : Cmd F (Option (NScal F × F × F)) :=
  if ax.Wz.isNone ∨ ax.Wtx.isNone ∨ ax.hasRx = false ∨ ax.hasRty = false then pure none
  else do
    let L := ax.norm_W * ax.norm_W
    let mu_final := opts.mu
    let tol_final := opts.tol
    let Wtx_ref := q.dwork1
    callFn ax.Aty q.b q.Atb
    exec (cblas_dcopy ax.m q.Atb q.xo)
    callFn ax.Wtx q.xo Wtx_ref
    exec (seqK (l1c_abs_vec ax.m Wtx_ref Wtx_ref))
    let mx ← eval (l1c_max_vec ax.p Wtx_ref)
    let mu0 := lit (9 / 10) * mx
    let tol0 := lit (1 / 10)
    let beta_mu := fexp (flog (mu_final / mu0) / lit opts.n_continue)
    let beta_tol := fexp (flog (tol_final / tol0) / lit opts.n_continue)
    pure (some (⟨lit 0, opts.sigma, opts.mu, opts.tol, mu0, tol0, L⟩, beta_mu, beta_tol))

/-- the variables of the main loop -/
structure NVars (F : Type) where
  c : NScal F
  fifo : FifoM

/-- src/nesta.c:411-454 -/
def nestaBodyM (ax : NAxM F) (q : NPtr) (k : ℕ) (st : NVars F) : Cmd F (NVars F × Bool) := do
  let m := ax.m
  let c ← l1c_nesta_fevalM ax q st.c
  l1c_nesta_projectM ax q c q.xk q.gradf q.yk
  let alpha_k := lit (1 / 2) * lit (k + 1)
  let tau_k := lit 2 / lit (k + 3)
  exec (daxpyK m alpha_k q.gradf q.gradf_sum)
  l1c_nesta_projectM ax q c q.xo q.gradf_sum q.zk
  exec (l1c_daxpby_z m tau_k q.zk (lit 1 - tau_k) q.yk q.xk)
  let fbar ← fifoMeanM st.fifo
  let fifo ← fifoPushM st.fifo c.fx
  let rel_delta_fmu := fabs (c.fx - fbar) / fbar
  pure (⟨c, fifo⟩, flt rel_delta_fmu c.tol_j)

/-- src/nesta.c:410-455, from `k` with `fuel` iterations left -/
def nestaInnerM (ax : NAxM F) (q : NPtr) : ℕ → ℕ → NVars F → Cmd F (NVars F)
  | 0, _, st => pure st
  | fuel + 1, k, st => do
    let r ← nestaBodyM ax q k st
    if r.2 then pure r.1 else nestaInnerM ax q fuel (k + 1) r.1

/-- src/nesta.c:393-458: one continuation step -/
def nestaContinueM (ax : NAxM F) (q : NPtr) (beta_mu beta_tol : F) (st : NVars F) : Cmd F (NVars F) := do
  let c := { st.c with mu_j := st.c.mu_j * beta_mu, tol_j := st.c.tol_j * beta_tol }
  exec (l1c_init_vec (L1C_NESTA_NMEAN : Int) st.fifo.f_vals (lit 0))
  exec (l1c_init_vec ax.m q.gradf_sum (lit 0))
  let st ← nestaInnerM ax q L1C_NESTA_MAX_INNER_ITER 0 ⟨c, ⟨st.fifo.f_vals, 0, st.fifo.f_vals⟩⟩
  exec (cblas_dcopy ax.m q.xk q.xo)
  pure st

/-- src/nesta.c:393-458, `fuel` steps left; incrementing `iter` past `INT_MAX` is undefined -/
def nestaOuterM (ax : NAxM F) (q : NPtr) (beta_mu beta_tol : F) : ℕ → Int → NVars F → Cmd F (NVars F)
  | 0, iter, st => do
    need (iter ≤ INT_MAX)
    pure st
  | fuel + 1, iter, st => do
    let st ← nestaContinueM ax q beta_mu beta_tol st
    nestaOuterM ax q beta_mu beta_tol fuel (iter + 1) st

/-- src/nesta.c:45-54; `malloc` is not checked, so a failure is a write through NULL -/
def fifoNewM : Cmd F FifoM := do
  let fvals ← callocC (L1C_NESTA_NMEAN : Int)
  match fvals with
  | none => do
    need False
    pure ⟨⟨0, 0⟩, 0, ⟨0, 0⟩⟩
  | some fvals => do
    exec (seqK (forUp 0 (L1C_NESTA_NMEAN : Int) fun i => store (fvals + i) (lit 0)))
    pure ⟨fvals, 0, fvals⟩

/-- the problem record, once every allocation has succeeded, src/nesta.c:127-141 -/
def mkNPtr (b : Ptr) : List (Option Ptr) → Option NPtr
  | [some xo, some xk, some yk, some zk, some Atb, some gradf, some gradf_sum, some dwork1, some dwork2] =>
    some ⟨xo, xk, yk, zk, Atb, gradf, gradf_sum, dwork1, dwork2, b⟩
  | _ => none

/-- the size of the problem record in words; no kernel touches it -/
def NP_WORDS : Int := 40

/-- src/nesta.c:363-463 -/
def l1c_nestaM (m : Int) (xk : Ptr) (n : Int) (b : Ptr) (ax : NAxM F) (opts : NestaOpts F) : Cmd F Int :=
  if n ≠ ax.n ∨ m ≠ ax.m then pure L1C_INVALID_ARGUMENT
  else do
    let np ← callocC NP_WORDS
    match np with
    | none => pure L1C_OUT_OF_MEMORY
    | some np => do
      let arrs ← callocsC [ax.m, ax.m, ax.m, ax.m, ax.m, ax.m, ax.m, max ax.m ax.p, max ax.m ax.p]
      match mkNPtr b arrs with
      | none => do
        freesC arrs
        freeC (some np)
        pure L1C_OUT_OF_MEMORY
      | some q => do
        let r ← l1c_nesta_setupM ax q opts
        match r with
        | none => pure L1C_INCONSISTENT_ARGUMENTS
        | some (c, beta_mu, beta_tol) => do
          let fifo ← fifoNewM
          exec (cblas_dcopy ax.m q.xo q.xk)
          let st ← nestaOuterM ax q beta_mu beta_tol opts.n_continue.toNat 1 ⟨c, fifo⟩
          exec (cblas_dcopy m q.xk xk)
          freesC arrs
          freeC (some np)
          freeC (some st.fifo.f_vals)
          pure L1C_SUCCESS

end L1c
