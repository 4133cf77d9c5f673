import Verif.Model.L1qcDct
import Verif.Model.Json

/-!
# The l1qc_dct functions of the Matlab and Python interfaces

`interfaces/mex/l1qc_dct_mex.c`, `interfaces/mex/l1c_mex_utils.c`, `interfaces/python/l1cPy.c`.

* A call from Matlab passes an array of `mxArray`s.  `MxVal` has the parts that the interface looks at.  An error raised with
  `mexErrMsgIdAndTxt` ends the call (`longjmp`); its identifier is the result.
* Python arguments appear as `PyArg_ParseTupleAndKeywords` delivers them (`int`s that fit).  Python objects are
  counted: `refs o` is the number of strong references to `o`.  A numpy conversion gives a reference to a new object; converting an
  object that already is such an array adds a reference to it instead, which changes no count below.
* Memory of Matlab and Python that those systems manage is not tracked, apart from the reference counts.
* Printing is left out.
-/

namespace L1c
open Scalar

variable {F : Type} [Scalar F]

/-- `(int)x`: truncation towards zero; undefined if the value does not fit -/
def castInt (x : F) : Option Int :=
  (if flt x (lit 0) then ceilInt x else (ceilInt (-x)).map fun z => -z).bind fun z => if FitsInt z then some z else none

/-! ## Matlab -/

/-- `mxArray` of numbers: class, `mxGetM`, `mxGetN` (product of all dimensions but the first), number of dimensions, `mxGetPr` -/
structure MxArr (F : Type) where
  isDouble : Bool
  M : ℕ
  N : ℕ
  dims : ℕ
  data : Vec F (M * N)

/-- arguments of a Matlab call: numbers or structs (fields that are not numbers count as non-double arrays) -/
inductive MxVal (F : Type) where
  | arr (a : MxArr F)
  | struct (M N : ℕ) (field : String → Option (MxArr F))

/-- parsing: `none` is undefined behaviour, `error` the identifier of a Matlab error -/
abbrev MexP (α : Type) := ExceptT String Option α

def mexErr {α : Type} (id : String) : MexP α := throw id
def mexUB {α : Type} : MexP α := ExceptT.mk none
def mexLift {α : Type} (o : Option α) : MexP α := ExceptT.lift o

/-- interfaces/mex/l1c_mex_utils.c:41-46, 75-79 -/
def mexScalarA (a : MxArr F) : MexP F :=
  if h : a.isDouble = true ∧ a.M = 1 ∧ a.N = 1 then pure (a.data ⟨0, by rw [h.2.1, h.2.2]; decide⟩) else mexErr "l1c:notDoubleScalar"

def mexScalar : MxVal F → MexP F
  | .arr a => mexScalarA a
  | .struct _ _ _ => mexErr "l1c:notDoubleScalar"

/-- interfaces/mex/l1c_mex_utils.c:60-73 -/
def mexField (field : String → Option (MxArr F)) (name : String) : MexP F :=
  match field name with
  | none => mexErr "l1c:notAField"
  | some a => mexScalarA a

/-- interfaces/mex/l1c_mex_utils.c:89-105, 141-161 -/
def mexArray : MxVal F → MexP (Arr F)
  | .struct _ _ _ => mexErr "l1c:notDouble"
  | .arr a =>
    if ¬ a.isDouble then mexErr "l1c:notDouble"
    else if a.N = 0 ∨ a.M = 0 then mexErr "l1c:not1DArray"
    else if a.M = 1 ∧ a.N = 1 then mexErr "l1c:not1DArray"
    else if 2 < a.dims ∨ (a.N ≠ 1 ∧ a.M ≠ 1) then mexErr "l1c:not1DArray"
    else if INT_MAX < a.M * a.N then mexErr "l1c:ArrayTooLarge"
    else pure ⟨a.M * a.N, a.data⟩

/-- what the interface has read before it allocates anything -/
structure MexCall (F : Type) where
  mrow : Int
  mcol : Int
  b : Arr F
  pix_idx : Arr F
  opts : QOpts F

/-- interfaces/mex/l1qc_dct_mex.c:78-94 -/
def l1qc_mex_opts (field : String → Option (MxArr F)) : MexP (QOpts F) := do
  let epsilon ← mexField field "epsilon"
  let mu ← mexField field "mu"
  let tau ← mexField field "tau"
  let newton_tol ← mexField field "newton_tol"
  let lbtol ← mexField field "lbtol"
  let l1_tol ← mexField field "l1_tol"
  let cg_tol ← mexField field "cgtol"
  let warm_start_cg ← mexField field "warm_start_cg"
  let warm_start_cg ← mexLift (castInt warm_start_cg)
  let verbose ← mexField field "verbose"
  let _ ← mexLift (castInt verbose)
  let newton_max_iter ← mexField field "newton_max_iter"
  let newton_max_iter ← mexLift (castInt newton_max_iter)
  let cg_maxiter ← mexField field "cgmaxiter"
  let cg_maxiter ← mexLift (castInt cg_maxiter)
  let lbiter ← mexField field "lbiter"
  let lbiter ← mexLift (castInt lbiter)
  pure ⟨epsilon, mu, lbtol, tau, lbiter, newton_tol, newton_max_iter, l1_tol, cg_tol, cg_maxiter, warm_start_cg⟩

/-- interfaces/mex/l1qc_dct_mex.c:54-94 -/
def l1qc_mex_parse (nlhs : ℕ) : List (MxVal F) → MexP (MexCall F)
  | a0 :: a1 :: a2 :: a3 :: a4 :: _ => do
    if nlhs < 1 then mexErr "l1c:nlhs"
    else do
      let mrow ← mexScalar a0
      let mrow ← mexLift (castInt mrow)
      let mcol ← mexScalar a1
      let mcol ← mexLift (castInt mcol)
      if ¬ FitsInt (mcol * mrow) then mexUB
      else do
        let b ← mexArray a2
        let pix_idx ← mexArray a3
        if ¬ (mrow * mcol > b.1) ∨ b.1 ≠ pix_idx.1 ∨ mrow ≤ 0 ∨ mcol ≤ 0 then mexErr "l1c:l1qc_dct:incompatible_dimensions"
        else match a4 with
          | .arr a => mexErr (if a.M ≠ 1 ∨ a.N ≠ 1 then "l1c:notScalar" else "l1c:notStruct")
          | .struct M N field =>
            if M ≠ 1 ∨ N ≠ 1 then mexErr "l1c:notScalar"
            else do
              let opts ← l1qc_mex_opts field
              pure ⟨mrow, mcol, b, pix_idx, opts⟩
  | _ => mexErr "l1c:nlhs"

/-- interfaces/mex/l1qc_dct_mex.c:122-133, interfaces/mex/nesta_dctTV_mex.c:108-119: outer `none` undefined, inner `none` refused -/
def mexIndices (mtot : Int) : List F → Option (Option (List Int))
  | [] => some (some [])
  | x :: xs => (castInt x).bind fun v =>
    if ¬ FitsInt (v - 1) then none
    else if v - 1 < 0 ∨ v - 1 > mtot - 1 then some none
    else (mexIndices mtot xs).map fun r => r.map fun l => (v - 1) :: l

/-- how a call from Matlab ends: an error, or the image and, if asked for, the result structure -/
inductive MexOut (F : Type) where
  | error (id : String)
  | ret (x : Arr F) (res : Option (LBResult F))

/-- interfaces/mex/l1qc_dct_mex.c:26-189.  `junk` is what `x_ours` contains after `l1c_malloc_double`. -/
def l1qc_dct_mex (lib : FftwLib F) (junk : ℕ → F) (nlhs : ℕ) (prhs : List (MxVal F)) : NM (World F) (MexOut F) :=
  match (l1qc_mex_parse nlhs prhs).run with
  | none => nub
  | some (.error id) => pure (.error id)
  | some (.ok c) => do
    let x_ours ← nalloc
    let pix_idx ← nalloc
    if x_ours.isNone ∨ pix_idx.isNone then do
      nfree pix_idx
      nfree x_ours
      pure (.error "l1c:l1qc_dct:outofmemory")
    else do
      let mtot := c.mcol * c.mrow
      let idx ← nlift (mexIndices mtot (List.ofFn c.pix_idx.2))
      match idx with
      | none => do
        nfree pix_idx
        nfree x_ours
        pure (.error "l1c:l1qc_dct:bad_index")
      | some idx => do
        let out ← l1qc_dct lib c.mrow c.mcol ⟨mtot.toNat, fun i => junk i⟩ c.b.1 c.b idx DCT1 c.opts
        let res := out.lb_res.getD ⟨inf, 0, 0, 0⟩
        let res := if out.status ≠ 0 then { res with status := out.status } else res
        nfree pix_idx
        nfree x_ours
        pure (.ret out.x_out (if nlhs = 2 then some res else none))

/-! ## Python -/

/-- a numpy array: number of dimensions, first dimension, and its contents when there is just that dimension -/
structure NpArr (α : Type) where
  ndim : ℕ
  dim0 : ℕ
  data : Vec α dim0

structure PyState (F : Type) where
  w : World F
  refs : ℕ → ℕ
  next : ℕ
  calls : ℕ
  oracle : ℕ → Bool

/-- a library call from Python -/
def pyC {α : Type} (x : NM (World F) α) : NM (PyState F) α := fun s =>
  (x ⟨s.live, s.next, s.calls, s.oracle, s.cb.w⟩).map fun r => (r.1, ⟨r.2.live, r.2.next, r.2.calls, r.2.oracle, { s.cb with w := r.2.cb }⟩)

/-- a new Python object with one reference, or NULL -/
def pyNew : NM (PyState F) (Option ℕ) := fun s =>
  if s.cb.oracle s.cb.calls then
    some (some s.cb.next, { s with cb := { s.cb with refs := Function.update s.cb.refs s.cb.next 1, next := s.cb.next + 1, calls := s.cb.calls + 1 } })
  else some (none, { s with cb := { s.cb with calls := s.cb.calls + 1 } })

/-- `Py_INCREF` -/
def pyInc (o : ℕ) : NM (PyState F) Unit := fun s => some ((), { s with cb := { s.cb with refs := Function.update s.cb.refs o (s.cb.refs o + 1) } })

/-- `Py_XDECREF`; dropping a reference that does not exist is undefined -/
def pyDec (o : Option ℕ) : NM (PyState F) Unit := fun s =>
  match o with
  | none => some ((), s)
  | some o => if s.cb.refs o = 0 then none
    else some ((), { s with cb := { s.cb with refs := Function.update s.cb.refs o (s.cb.refs o - 1) } })

/-- `PyArray_FROM_OTF` of an object that can be converted (`some`) or not -/
def pyFromOTF {α : Type} (o : Option α) : NM (PyState F) (Option (ℕ × α)) :=
  match o with
  | none => pure none
  | some a => do
    let p ← pyNew
    pure (p.map fun p => (p, a))

/-- arguments as parsed, interfaces/python/l1cPy.c:106-156; `tau`, `lbiter`, `warm_start_cg` stay 0 -/
structure PyL1qcArgs (F : Type) where
  mrow : Int
  mcol : Int
  b : Option (NpArr F)
  pix_idx : Option (NpArr Int)
  opts : QOpts F
  dct_mode : Int

/-- how a Python call ends: an exception, or the result tuple (object ids of the tuple, image and dictionary; shape and
contents of the image; the result record) -/
inductive PyOut (F : Type) where
  | exc (kind : String)
  | ret (tuple x_obj res_obj : ℕ) (rows cols : Int) (x : Arr F) (res : LBResult F)

/-- interfaces/python/l1cPy.c:236-244 -/
def pyFail (b_npA pix_idx_npA x_ours : Option ℕ) (kind : String) : NM (PyState F) (PyOut F) := do
  pyDec b_npA
  pyDec pix_idx_npA
  pyC (nfree x_ours)
  pure (.exc kind)

/-- interfaces/python/l1cPy.c:94-245 after the conversion of the arrays.  `PyArray_SimpleDoubleCopy` (lines 508-541) makes a new
array, takes and drops a second reference to it, and copies `mrow*mcol` numbers. -/
def py_l1qc_main (lib : FftwLib F) (a : PyL1qcArgs F) (bo po : ℕ) (b : NpArr F) (p : NpArr Int) : NM (PyState F) (PyOut F) := do
  if b.ndim ≠ 1 ∨ p.ndim ≠ 1 then pyFail (some bo) (some po) none "IndexError"
  else do
    let mtot ← pyC (nrun (wmul a.mrow a.mcol))
    let n := toCInt b.dim0
    let n' := toCInt p.dim0
    if mtot < n ∨ n ≠ n' then pyFail (some bo) (some po) none "ValueError"
    else do
      let x_ours ← if mtot < 0 then pure none else pyC nalloc
      match x_ours with
      | none => pyFail (some bo) (some po) none "MemoryError"
      | some x => do
        let out ← pyC (l1qc_dct lib a.mrow a.mcol ⟨mtot.toNat, fun _ => lit 0⟩ n ⟨b.dim0, b.data⟩ ((List.ofFn p.data).take n.toNat) a.dct_mode a.opts)
        if out.status ≠ 0 then pyFail (some bo) (some po) (some x) "RuntimeError"
        else do
          let xo ← pyNew
          match xo with
          | none => pyFail (some bo) (some po) (some x) "MemoryError"
          | some xo => do
            let ro ← pyNew
            match ro with
            | none => do
              pyDec (some xo)
              pyFail (some bo) (some po) (some x) "MemoryError"
            | some ro => do
              pyDec (some bo)
              pyDec (some po)
              pyC (nfree (some x))
              let t ← pyNew
              match t with
              | none => pure (.exc "MemoryError")
              | some t => do
                pyInc xo
                pyInc ro
                pure (.ret t xo ro a.mrow a.mcol out.x_out (out.lb_res.getD ⟨inf, 0, 0, 0⟩))

/-- interfaces/python/l1cPy.c:94-245 -/
def py_l1qc_dct (lib : FftwLib F) (a : PyL1qcArgs F) : NM (PyState F) (PyOut F) := do
  if a.dct_mode ≠ DCT1 ∧ a.dct_mode ≠ DCT2 then pure (.exc "ValueError")
  else do
    let b_npA ← pyFromOTF a.b
    let pix_idx_npA ← pyFromOTF a.pix_idx
    match b_npA, pix_idx_npA with
    | some (bo, b), some (po, p) => py_l1qc_main lib a bo po b p
    | b_npA, pix_idx_npA => pyFail (b_npA.map (·.1)) (pix_idx_npA.map (·.1)) none "RuntimeError"

end L1c
