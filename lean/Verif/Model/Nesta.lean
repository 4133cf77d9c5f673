import Verif.Base.Errors
import Verif.Model.DctTV

/-!
# Model of `src/nesta.c`

* Arrays are `Vec`s held in the problem record; the vector kernels and BLAS calls are the functional versions justified
  by C03, C04, C05 and C06.  The two work arrays keep their real length `max m p`; an access outside is undefined
  behaviour (`none`).
* Memory is tracked by the ids of live allocations and an arbitrary oracle deciding which requests succeed.  Contents
  are not looked up through the ids (arrays are only used between allocation and release).
* The operators are arbitrary functions of the argument array, of what the output array held before, and of a private
  state `σ`; they may change the argument array, may be missing (NULL) and may have undefined behaviour.  They are assumed
  to write to nothing else.
* Reference BLAS skips `daxpy` with a zero factor; here the product is formed (a difference only for non-finite data).
* Not modelled: printing.
-/

namespace L1c
open Scalar

/-- include/nesta.h:6 -/
abbrev L1C_NESTA_NMEAN : ℕ := 10
/-- include/nesta.h:7 -/
def L1C_NESTA_MAX_INNER_ITER : ℕ := 10000

/-- live allocations, the allocator's future decisions, and the operators' private state -/
structure NState (σ : Type) where
  live : Finset ℕ
  next : ℕ
  calls : ℕ
  oracle : ℕ → Bool
  cb : σ

abbrev NM (σ α : Type) := StateT (NState σ) Option α

section monad
variable {σ α : Type}

/-- undefined behaviour -/
def nub : NM σ α := fun _ => none

/-- `malloc` or `l1c_calloc_double`; `none` is NULL -/
def nalloc : NM σ (Option ℕ) := fun s =>
  if s.oracle s.calls then
    some (some s.next, { s with live := insert s.next s.live, next := s.next + 1, calls := s.calls + 1 })
  else some (none, { s with calls := s.calls + 1 })

/-- `free` or `l1c_free_double` -/
def nfree (p : Option ℕ) : NM σ Unit := fun s =>
  match p with
  | none => some ((), s)
  | some b => if b ∈ s.live then some ((), { s with live := s.live.erase b }) else none

/-- an array access that may leave the array -/
def nlift (o : Option α) : NM σ α := fun s => o.map fun a => (a, s)

/-- an operator: argument, previous output, private state; the argument array and the output afterwards -/
abbrev NOp (F σ : Type) (l k : ℕ) := Vec F l → Vec F k → σ → Option ((Vec F l × Vec F k) × σ)

/-- calling an operator through a function pointer: both arrays afterwards -/
def ncall {F : Type} {l k : ℕ} (f : Option (NOp F σ l k)) (x : Vec F l) (old : Vec F k) : NM σ (Vec F l × Vec F k) := fun s =>
  match f with
  | none => none
  | some f => (f x old s.cb).map fun r => (r.1, { s with cb := r.2 })
end monad

variable {F : Type} [Scalar F] {σ : Type} {n m p : ℕ}

/-! ## The window of recent objective values -/

/-- include/nesta.h:67-71; `next` is the offset of the pointer -/
structure Fifo (F : Type) where
  f_vals : Vec F L1C_NESTA_NMEAN
  n_total : ℕ
  next : Fin L1C_NESTA_NMEAN

/-- src/nesta.c:45-54, and the reset at src/nesta.c:398-400 -/
def fifoNew : Fifo F := ⟨fun _ => lit 0, 0, ⟨0, by decide⟩⟩

/-- src/nesta.c:61-74 -/
def fifoPush (q : Fifo F) (fval : F) : Fifo F where
  f_vals := Function.update q.f_vals q.next fval
  next := if h : q.next.val + 1 > L1C_NESTA_NMEAN - 1 then ⟨0, by decide⟩
    else ⟨q.next.val + 1, by have : L1C_NESTA_NMEAN = 10 := rfl; omega⟩
  n_total := if q.n_total < L1C_NESTA_NMEAN then q.n_total + 1 else q.n_total

/-- src/nesta.c:83-92 -/
def fifoMean (q : Fifo F) : F := dsum q.f_vals / lit q.n_total

/-! ## Problem record -/

/-- the part of `l1c_AxFuns` that is used.  `Rx` and `Rty` are only tested for NULL. -/
structure NAx (F σ : Type) (n m p : ℕ) where
  Ax : Option (NOp F σ m n)
  Aty : Option (NOp F σ n m)
  Wz : Option (NOp F σ p m)
  Wtx : Option (NOp F σ m p)
  hasRx : Bool
  hasRty : Bool
  norm_W : F

/-- include/l1c.h, `l1c_NestaOpts` (without `verbose` and `flags`) -/
structure NestaOpts (F : Type) where
  sigma : F
  mu : F
  tol : F
  n_continue : Int

/-- include/nesta.h:15-65 -/
structure NestaProb (F : Type) (n m p : ℕ) where
  fx : F
  xo : Vec F m
  xk : Vec F m
  yk : Vec F m
  zk : Vec F m
  Atb : Vec F m
  gradf : Vec F m
  gradf_sum : Vec F m
  b : Vec F n
  dwork1 : Vec F (max m p)
  dwork2 : Vec F (max m p)
  sigma : F
  mu : F
  tol : F
  mu_j : F
  tol_j : F
  L : F

/-- `*NP = …` and zeroed arrays, src/nesta.c:109-135; `b` is filled in by the setup -/
def nestaZero (b : Vec F n) : NestaProb F n m p :=
  ⟨lit 0, fun _ => lit 0, fun _ => lit 0, fun _ => lit 0, fun _ => lit 0, fun _ => lit 0, fun _ => lit 0, fun _ => lit 0,
    b, fun _ => lit 0, fun _ => lit 0, lit 0, lit 0, lit 0, lit 0, lit 0, lit 0⟩

/-- release a list of arrays -/
def nfreeAll : List (Option ℕ) → NM σ Unit
  | [] => pure ()
  | q :: qs => do
    nfree q
    nfreeAll qs

/-- src/nesta.c:153-167; `arrs` are the nine arrays, `np` the structure -/
def l1c_free_nesta_problem (np : ℕ) (arrs : List (Option ℕ)) : NM σ Unit := do
  nfreeAll arrs
  nfree (some np)

/-- `k` allocations in a row -/
def nallocs : ℕ → NM σ (List (Option ℕ))
  | 0 => pure []
  | k + 1 => do
    let a ← nalloc
    let as ← nallocs k
    pure (a :: as)

/-- src/nesta.c:98-146: the structure and nine arrays -/
def NestaProb_new : NM σ (Option (ℕ × List (Option ℕ))) := do
  let np ← nalloc
  match np with
  | none => pure none
  | some np => do
    let arrs ← nallocs 9
    if arrs.any Option.isNone then do
      l1c_free_nesta_problem np arrs
      pure none
    else pure (some (np, arrs))

/-- `l1c_dnrm2_err`, src/l1c_math.c:191-202 -/
def vnrm2err {k : ℕ} (x y : Vec F k) : F := dnrm2 fun i => x i - y i

/-- `l1c_max_vec`, src/l1c_math.c:158-174 -/
def vmax : {k : ℕ} → Vec F k → F
  | 0, _ => nan
  | _ + 1, x => (List.finRange _).foldl (fun xmax i => if flt xmax (x i.succ) then x i.succ else xmax) (x 0)

/-- src/nesta.c:192-221; returns `vk` and the problem with its work arrays overwritten -/
def l1c_nesta_project (ax : NAx F σ n m p) (P : NestaProb F n m p) (xx g : Vec F m) :
    NM σ (Vec F m × NestaProb F n m p) := do
  let Lmu := P.L / P.mu_j
  let vk := vaxpy (lit (-1) / Lmu) g xx
  let old ← nlift (slice n 0 P.dwork2)
  let (vk, Aq) ← ncall ax.Ax vk old
  let dwork2 ← nlift (writeAt 0 Aq P.dwork2)
  let Aq ← nlift (slice n 0 dwork2)
  let old ← nlift (slice m 0 P.dwork1)
  let (Aq, AtAq) ← ncall ax.Aty Aq old
  let dwork2 ← nlift (writeAt 0 Aq dwork2)
  let dwork1 ← nlift (writeAt 0 AtAq P.dwork1)
  let AtAq ← nlift (slice m 0 dwork1)
  let a0 := vnrm2err P.b Aq
  let a0 := Lmu * (a0 / P.sigma - lit 1)
  let lambda := cmax (lit 0) a0
  let a1 := lambda / (Lmu + lambda)
  let vk := vaxpy ((lambda / Lmu) * (lit 1 - a1)) P.Atb vk
  let vk := vaxpy (-a1) AtAq vk
  pure (vk, { P with dwork1 := dwork1, dwork2 := dwork2 })

/-- src/nesta.c:237-258 -/
def l1c_nesta_feval (ax : NAx F σ n m p) (P : NestaProb F n m p) : NM σ (NestaProb F n m p) := do
  let old ← nlift (slice p 0 P.dwork1)
  let (xk, r) ← ncall ax.Wtx P.xk old
  let dwork1 ← nlift (writeAt 0 r P.dwork1)
  let Wtxk ← nlift (slice p 0 dwork1)
  let dwork2 ← nlift (writeAt 0 (fun i => Wtxk i / cmax P.mu_j (fabs (Wtxk i))) P.dwork2)
  let u ← nlift (slice p 0 dwork2)
  let nrm_u2 := dnrm2 u
  let nrm_u2 := nrm_u2 * nrm_u2
  let fx := ddot u Wtxk - lit (1 / 2) * P.mu_j * nrm_u2
  let (u, gradf) ← ncall ax.Wz u P.gradf
  let dwork2 ← nlift (writeAt 0 u dwork2)
  pure { P with xk := xk, dwork1 := dwork1, dwork2 := dwork2, fx := fx, gradf := gradf }

/-- src/nesta.c:272-325; returns the status, the problem, `beta_mu`, `beta_tol` (the last two are not written in the
error case) -/
def l1c_nesta_setup (ax : NAx F σ n m p) (P : NestaProb F n m p) (b : Vec F n) (opts : NestaOpts F) :
    NM σ (Int × NestaProb F n m p × F × F) := do
  if ax.Wz.isNone ∨ ax.Wtx.isNone ∨ ax.hasRx = false ∨ ax.hasRty = false then
    pure (L1C_INCONSISTENT_ARGUMENTS, P, lit 0, lit 0)
  else do
    let L := ax.norm_W * ax.norm_W
    let P := { P with b := b, sigma := opts.sigma, mu := opts.mu, L := L, tol := opts.tol }
    let mu_final := opts.mu
    let tol_final := opts.tol
    let (b, Atb) ← ncall ax.Aty P.b P.Atb
    let xo := Atb
    let old ← nlift (slice p 0 P.dwork1)
    let (xo, r) ← ncall ax.Wtx xo old
    let Wtx_ref ← nlift (writeAt 0 r P.dwork1)
    let head ← nlift (slice m 0 Wtx_ref)
    let Wtx_ref ← nlift (writeAt 0 (fun i => fabs (head i)) Wtx_ref)
    let ref ← nlift (slice p 0 Wtx_ref)
    let mu0 := lit (9 / 10) * vmax ref
    let tol0 := lit (1 / 10)
    let beta_mu := fexp (flog (mu_final / mu0) / lit opts.n_continue)
    let beta_tol := fexp (flog (tol_final / tol0) / lit opts.n_continue)
    pure (L1C_SUCCESS, { P with b := b, Atb := Atb, xo := xo, dwork1 := Wtx_ref, mu_j := mu0, tol_j := tol0 }, beta_mu, beta_tol)

/-- loop variables of a continuation step -/
structure NLoop (F : Type) (n m p : ℕ) where
  P : NestaProb F n m p
  fifo : Fifo F

/-- src/nesta.c:394-402: start of a continuation step -/
def nestaReset (beta_mu beta_tol : F) (P : NestaProb F n m p) : NLoop F n m p :=
  ⟨{ P with mu_j := P.mu_j * beta_mu, tol_j := P.tol_j * beta_tol, gradf_sum := fun _ => lit 0 }, fifoNew⟩

/-- src/nesta.c:411-454: body of the inner loop; the result says whether it ends in `break` -/
def nestaBody (ax : NAx F σ n m p) (k : ℕ) (st : NLoop F n m p) : NM σ (NLoop F n m p × Bool) := do
  let P ← l1c_nesta_feval ax st.P
  let (yk, P) ← l1c_nesta_project ax P P.xk P.gradf
  let P := { P with yk := yk }
  let alpha_k := lit (1 / 2) * lit (k + 1)
  let tau_k := lit 2 / lit (k + 3)
  let P := { P with gradf_sum := vaxpy alpha_k P.gradf P.gradf_sum }
  let (zk, P) ← l1c_nesta_project ax P P.xo P.gradf_sum
  let P := { P with zk := zk }
  let P := { P with xk := vaxpby tau_k P.zk (lit 1 - tau_k) P.yk }
  let fbar := fifoMean st.fifo
  let fifo := fifoPush st.fifo P.fx
  let rel_delta_fmu := fabs (P.fx - fbar) / fbar
  pure (⟨P, fifo⟩, flt rel_delta_fmu P.tol_j)

/-- src/nesta.c:410-455: the inner loop from `k` with `fuel` iterations left; also counts the executed bodies -/
def nestaInner (ax : NAx F σ n m p) : ℕ → ℕ → NLoop F n m p → NM σ (NLoop F n m p × ℕ)
  | 0, k, st => pure (st, k)
  | fuel + 1, k, st => do
    let (st, stop) ← nestaBody ax k st
    if stop then pure (st, k + 1) else nestaInner ax fuel (k + 1) st

/-- src/nesta.c:393-458: one continuation step -/
def nestaContinue (ax : NAx F σ n m p) (beta_mu beta_tol : F) (P : NestaProb F n m p) :
    NM σ (NestaProb F n m p × ℕ) := do
  let (st, k) ← nestaInner ax L1C_NESTA_MAX_INNER_ITER 0 (nestaReset beta_mu beta_tol P)
  pure ({ st.P with xo := st.P.xk }, k)

/-- src/nesta.c:393-458: the continuation loop, `fuel` steps left; `total` counts the inner iterations.  Incrementing
`iter` past `INT_MAX` is undefined. -/
def nestaOuter (ax : NAx F σ n m p) (beta_mu beta_tol : F) :
    ℕ → Int → ℕ → NestaProb F n m p → NM σ (NestaProb F n m p × ℕ)
  | 0, iter, total, P => if iter ≤ INT_MAX then pure (P, total) else nub
  | fuel + 1, iter, total, P => do
    let (P, k) ← nestaContinue ax beta_mu beta_tol P
    nestaOuter ax beta_mu beta_tol fuel (iter + 1) (total + k) P

/-- what the caller observes: return value and the array `xk`; `inner` counts inner iterations and `prob` is the problem
record when the loop ended (both only for stating properties) -/
structure NestaOut (F : Type) (n m p : ℕ) where
  status : Int
  xk : Vec F m
  inner : ℕ
  prob : Option (NestaProb F n m p)

/-- src/nesta.c:390-462 after a successful setup: the window (its `malloc` is not checked, so a failure is a write through
NULL), the loop, the copy and the releases -/
def nestaMain (ax : NAx F σ n m p) (np : ℕ) (arrs : List (Option ℕ)) (opts : NestaOpts F)
    (P : NestaProb F n m p) (beta_mu beta_tol : F) : NM σ (NestaOut F n m p) := do
  let fv ← nalloc
  match fv with
  | none => nub
  | some fv => do
    let P := { P with xk := P.xo }
    let (P, total) ← nestaOuter ax beta_mu beta_tol opts.n_continue.toNat 1 0 P
    l1c_free_nesta_problem np arrs
    nfree (some fv)
    pure ⟨L1C_SUCCESS, P.xk, total, some P⟩

/-- src/nesta.c:363-463.  `m_arg`, `n_arg` are the arguments `m`, `n`; the sizes in `ax_funs` are the type parameters. -/
def l1c_nesta (m_arg n_arg : Int) (xk : Vec F m) (b : Vec F n) (ax : NAx F σ n m p) (opts : NestaOpts F) :
    NM σ (NestaOut F n m p) := do
  if n_arg ≠ n ∨ m_arg ≠ m then pure ⟨L1C_INVALID_ARGUMENT, xk, 0, none⟩
  else do
    let np ← NestaProb_new
    match np with
    | none => pure ⟨L1C_OUT_OF_MEMORY, xk, 0, none⟩
    | some (np, arrs) => do
      let (status, P, beta_mu, beta_tol) ← l1c_nesta_setup ax (nestaZero b) b opts
      if status ≠ 0 then pure ⟨status, xk, 0, none⟩
      else nestaMain ax np arrs opts P beta_mu beta_tol

end L1c
