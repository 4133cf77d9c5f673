import Verif.Model.Bindings
import Verif.Model.Nesta

/-!
# The nesta_dctTV functions of the Matlab and Python interfaces

`interfaces/mex/nesta_dctTV_mex.c` and `_nesta_dctTV` in `interfaces/python/l1cPy.c`, on top of the real DCT-TV transform set
(`World`) and of `l1c_nesta`.  The conventions are those of `Verif/Model/Bindings.lean`.  Printing is left out.
-/

namespace L1c
open Scalar

variable {F : Type} [Scalar F]

/-- A function of a transform set as NESTA calls it. -/
def setNOp (lib : FftwLib F) (K : Kind) (op : Op) (l k : ℕ) : NOp F (World F) l k := fun v old w =>
  (wcall lib K op ⟨l, v⟩ ⟨k, old⟩ w).bind fun r => (slice l 0 r.1.1.2).bind fun a => (slice k 0 r.1.2.2).map fun o => ((a, o), r.2)

/-- the functions of a DCT-TV set that NESTA uses, all of them present: src/dct_tv_transforms.c:145-162 -/
def setNAx (lib : FftwLib F) (K : Kind) (n m p : ℕ) (norm_W : F) : NAx F (World F) n m p where
  Ax := some (setNOp lib K .Ax m n)
  Aty := some (setNOp lib K .Aty n m)
  Wz := some (setNOp lib K .Wz p m)
  Wtx := some (setNOp lib K .Wtx m p)
  hasRx := true
  hasRty := true
  norm_W := norm_W

/-- `l1c_nesta` on arrays: status and the array `xk`.  With sizes that do not match it returns at once
(src/nesta.c:371-373), otherwise it uses `m` entries of `xk` and `n` of `b`. -/
def nestaArr (lib : FftwLib F) (ax : AxFuns F) (m_arg : Int) (xk : Arr F) (n_arg : Int) (b : Arr F) (opts : NestaOpts F) :
    NM (World F) (Int × Arr F) :=
  if n_arg ≠ ax.n ∨ m_arg ≠ ax.m then pure (L1C_INVALID_ARGUMENT, xk)
  else do
    let x ← nlift (slice ax.m.toNat 0 xk.2)
    let b ← nlift (slice ax.n.toNat 0 b.2)
    let o ← l1c_nesta ax.m.toNat ax.n.toNat x b (setNAx lib ax.kind ax.n.toNat ax.m.toNat ax.p.toNat ax.normW) opts
    let y ← nlift (writeAt 0 o.xk xk.2)
    pure (o.status, ⟨xk.1, y⟩)

/-! ## Matlab -/

/-- what has been read when the work starts -/
structure NestaMexCall (F : Type) where
  mrow : Int
  mcol : Int
  b : Arr F
  pix_idx : Arr F
  opts : NestaOpts F
  alp_v : F
  alp_h : F
  dct_mode : Int
  analysis : Bool

/-- the numeric options, interfaces/mex/nesta_dctTV_mex.c:56-63.  `dct_mode` is a C enumeration, taken to be
an `int`. -/
def nesta_mex_opts (field : String → Option (MxArr F)) : MexP (NestaOpts F × F × F × Int) := do
  let sigma ← mexField field "sigma"
  let verbose ← mexField field "verbose"
  let _ ← mexLift (castInt verbose)
  let mu ← mexField field "mu"
  let tol ← mexField field "tol"
  let n_continue ← mexField field "n_continue"
  let n_continue ← mexLift (castInt n_continue)
  let alpha_v ← mexField field "alpha_v"
  let alpha_h ← mexField field "alpha_h"
  let dct_mode ← mexField field "dct_mode"
  let dct_mode ← mexLift (castInt dct_mode)
  pure (⟨sigma, mu, tol, n_continue⟩, alpha_v, alpha_h, dct_mode)

/-- the option `bp_mode`, interfaces/mex/nesta_dctTV_mex.c:64-86: absent, not a string, or a string (without a zero
character).  It is copied into ten characters, so longer strings count as bad. -/
def nesta_mex_mode : Option (Option String) → MexP Bool
  | none => mexErr "l1c:notAField"
  | some none => mexErr "l1c:badField"
  | some (some v) => if v = "synthesis" then pure false else if v = "analysis" then pure true else mexErr "l1c:badField"

/-- interfaces/mex/nesta_dctTV_mex.c:39-93.  `mode` is the field `bp_mode` of the last argument. -/
def nesta_mex_parse (nlhs : ℕ) (mode : Option (Option String)) : List (MxVal F) → MexP (NestaMexCall F)
  | a0 :: a1 :: a2 :: a3 :: a4 :: _ => do
    if nlhs < 2 then mexErr "l1c:nlhs"
    else do
      let mrow ← mexScalar a0
      let mrow ← mexLift (castInt mrow)
      let mcol ← mexScalar a1
      let mcol ← mexLift (castInt mcol)
      if ¬ FitsInt (mcol * mrow) then mexUB
      else do
        let b ← mexArray a2
        let pix_idx ← mexArray a3
        match a4 with
        | .arr a => mexErr (if a.M ≠ 1 ∨ a.N ≠ 1 then "l1c:notScalar" else "l1c:notStruct")
        | .struct M N field =>
          if M ≠ 1 ∨ N ≠ 1 then mexErr "l1c:notScalar"
          else do
            let (opts, alp_v, alp_h, dct_mode) ← nesta_mex_opts field
            let analysis ← nesta_mex_mode mode
            if ¬ (mrow * mcol > b.1) ∨ b.1 ≠ pix_idx.1 ∨ mrow ≤ 0 ∨ mcol ≤ 0 then mexErr "l1c:incompatible_dimensions"
            else pure ⟨mrow, mcol, b, pix_idx, opts, alp_v, alp_h, dct_mode, analysis⟩
  | _ => mexErr "l1c:nlhs"

/-- how a call from Matlab ends: an error, or the image (with its shape) and the status; `unset` is a return without
results -/
inductive NestaMexOut (F : Type) where
  | error (id : String)
  | unset
  | ret (rows cols : Int) (x : Arr F) (status : Int)

/-- interfaces/mex/nesta_dctTV_mex.c:154-167 -/
def nestaMexExit (status : Int) (out : NestaMexOut F) : NestaMexOut F :=
  if status = L1C_OUT_OF_MEMORY then .error "l1c:l1qc_dct:outofmemory"
  else if status = L1C_INVALID_ARGUMENT then .error "l1c:l1qc_dct:bad_index"
  else if status = L1C_DCT_INIT_FAILURE then .error "l1c:dct_failure"
  else out

/-- interfaces/mex/nesta_dctTV_mex.c:112-119: like `mexIndices`, but the array `pix_idx` may be NULL -/
def nestaIndices (ok : Bool) (mtot : Int) : List F → Option (Option (List Int))
  | [] => some (some [])
  | x :: xs => (castInt x).bind fun v =>
    if ¬ FitsInt (v - 1) then none
    else if v - 1 < 0 ∨ v - 1 > mtot - 1 then some none
    else if ¬ ok then none
    else (nestaIndices ok mtot xs).map fun r => r.map fun l => (v - 1) :: l

/-- interfaces/mex/nesta_dctTV_mex.c:127-152, from the allocations after the setup on.  `junk` is what `x0` contains after
`l1c_malloc_double`. -/
def nesta_mex_run (lib : FftwLib F) (junk : ℕ → F) (c : NestaMexCall F) (pix_idx : Option ℕ) (ax : AxFuns F) : NM (World F) (NestaMexOut F) := do
  let x0 ← nalloc
  let b_ours ← nalloc
  if pix_idx.isNone ∨ b_ours.isNone ∨ x0.isNone then do
    nfree pix_idx
    nfree x0
    nfree b_ours
    pure (nestaMexExit L1C_OUT_OF_MEMORY .unset)
  else do
    let o ← nestaArr lib ax (c.mcol * c.mrow) ⟨ax.m.toNat, fun i => junk i⟩ c.b.1 c.b c.opts
    let z ← nrun (wcall lib ax.kind .Mx o.2 ⟨(c.mrow * c.mcol).toNat, fun _ => lit 0⟩)
    nrun (wdestroy ax.kind)
    nfree pix_idx
    nfree x0
    nfree b_ours
    pure (nestaMexExit o.1 (.ret c.mrow c.mcol z.2 o.1))

/-- interfaces/mex/nesta_dctTV_mex.c:22-169 -/
def nesta_dctTV_mex (lib : FftwLib F) (junk : ℕ → F) (nlhs : ℕ) (prhs : List (MxVal F)) (mode : Option (Option String)) :
    NM (World F) (NestaMexOut F) :=
  match (nesta_mex_parse nlhs mode prhs).run with
  | none => nub
  | some (.error id) => pure (.error id)
  | some (.ok c) => do
    let pix_idx ← nalloc
    let idx ← nlift (nestaIndices pix_idx.isSome (c.mcol * c.mrow) (List.ofFn c.pix_idx.2))
    match idx with
    | none => do
      nfree pix_idx
      pure (nestaMexExit L1C_INVALID_ARGUMENT .unset)
    | some idx => do
      let r ← nrun (l1c_setup_dctTV_transforms c.b.1 c.mrow c.mcol c.alp_v c.alp_h c.dct_mode c.analysis idx)
      match r.2 with
      | none => do
        nfree pix_idx
        pure (nestaMexExit r.1 .unset)
      | some ax => nesta_mex_run lib junk c pix_idx ax

/-! ## Python -/

/-- include/l1c.h: `BpMode` -/
def BP_ANALYSIS : Int := 1
def BP_SYNTHESIS : Int := 2

/-- arguments as parsed, interfaces/python/l1cPy.c:334-389 -/
structure PyNestaArgs (F : Type) where
  mrow : Int
  mcol : Int
  b : Option (NpArr F)
  pix_idx : Option (NpArr Int)
  alpha_v : F
  alpha_h : F
  bp_mode : Int
  dct_mode : Int
  opts : NestaOpts F

/-- how the call ends: an exception, or the tuple (object ids of the tuple and of the array; shape and contents of the array;
status) -/
inductive PyNestaOut (F : Type) where
  | exc (kind : String)
  | ret (tuple x_obj : ℕ) (rows cols : Int) (x : Arr F) (status : Int)

/-- interfaces/python/l1cPy.c:466-472 -/
def pyNestaFail (b_npA pix_idx_npA x_ours b_ours : Option ℕ) (kind : String) : NM (PyState F) (PyNestaOut F) := do
  pyC (nfree x_ours)
  pyC (nfree b_ours)
  pyDec b_npA
  pyDec pix_idx_npA
  pure (.exc kind)

/-- interfaces/python/l1cPy.c:448-463, after a successful setup -/
def py_nesta_run (lib : FftwLib F) (a : PyNestaArgs F) (mtot n : Int) (bo po x b : ℕ) (bd : Arr F) (ax : AxFuns F) :
    NM (PyState F) (PyNestaOut F) := do
  let o ← pyC (nestaArr lib ax mtot ⟨mtot.toNat, fun _ => lit 0⟩ n bd a.opts)
  let xo ← pyNew
  match xo with
  | none => pyNestaFail (some bo) (some po) (some x) (some b) "MemoryError"
  | some xo => do
    pyDec (some bo)
    pyDec (some po)
    pyC (nfree (some b))
    pyC (nfree (some x))
    let t ← pyNew
    match t with
    | none => pure (.exc "MemoryError")
    | some t => do
      pyInc xo
      pure (.ret t xo a.mrow a.mcol o.2 o.1)

/-- interfaces/python/l1cPy.c:411-463, after the conversion of the arrays -/
def py_nesta_main (lib : FftwLib F) (a : PyNestaArgs F) (bo po : ℕ) (b : NpArr F) (p : NpArr Int) : NM (PyState F) (PyNestaOut F) := do
  if b.ndim ≠ 1 ∨ p.ndim ≠ 1 then pyNestaFail (some bo) (some po) none none "IndexError"
  else do
    let mtot ← pyC (nrun (wmul a.mrow a.mcol))
    let n := toCInt b.dim0
    let n' := toCInt p.dim0
    if mtot < n ∨ n ≠ n' then pyNestaFail (some bo) (some po) none none "ValueError"
    else do
      let x_ours ← if mtot < 0 then pure none else pyC nalloc
      let b_ours ← if n < 0 then pure none else pyC nalloc
      match x_ours, b_ours with
      | some x, some bb => do
        let bd ← nlift (slice n.toNat 0 b.data)
        let r ← pyC (nrun (l1c_setup_dctTV_transforms n a.mrow a.mcol a.alpha_v a.alpha_h a.dct_mode (decide (a.bp_mode = BP_ANALYSIS))
          ((List.ofFn p.data).take n.toNat)))
        match r.2 with
        | none => pyNestaFail (some bo) (some po) (some x) (some bb) "RuntimeError"
        | some ax => py_nesta_run lib a mtot n bo po x bb ⟨n.toNat, bd⟩ ax
      | x, bb => pyNestaFail (some bo) (some po) x bb "MemoryError"

/-- interfaces/python/l1cPy.c:334-473 -/
def py_nesta_dctTV (lib : FftwLib F) (a : PyNestaArgs F) : NM (PyState F) (PyNestaOut F) := do
  if a.bp_mode ≠ BP_ANALYSIS ∧ a.bp_mode ≠ BP_SYNTHESIS then pure (.exc "ValueError")
  else if a.dct_mode ≠ DCT1 ∧ a.dct_mode ≠ DCT2 then pure (.exc "ValueError")
  else do
    let b_npA ← pyFromOTF a.b
    let pix_idx_npA ← pyFromOTF a.pix_idx
    match b_npA, pix_idx_npA with
    | some (bo, b), some (po, p) => py_nesta_main lib a bo po b p
    | b_npA, pix_idx_npA => pyNestaFail (b_npA.map (·.1)) (pix_idx_npA.map (·.1)) none none "RuntimeError"

end L1c
