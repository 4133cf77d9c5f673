import Verif.Model.Bindings
import Verif.Model.Bregman

/-!
# The TV denoising functions of the Matlab and Python interfaces

`interfaces/mex/breg_anistropic_TV_mex.c` and `_breg_anistropic_TV` in `interfaces/python/l1cPy.c`.

The image passed by the caller is a block of memory (`f`); the returned image is the list of numbers that is copied out.
`l1c_malloc_double` appears as `callocC`: both buffers are overwritten before they are read.  Memory and references that
Matlab and Python manage are not tracked here, and Python arguments are taken as parsed; `Model/PyTV` adds both for Python.
-/

namespace L1c
open Prog Scalar

variable {F : Type} [Scalar F]

/-- what `mxArray` says about an image: class, `mxGetM` (rows), `mxGetN` (columns), number of dimensions -/
structure MxHdr where
  isDouble : Bool
  M : ℕ
  N : ℕ
  dims : ℕ

/-- how a call ends: an error (exception), no value, or an image of a shape with its numbers in storage order -/
inductive BregOut (F : Type) where
  | error (id : String)
  | null
  | ret (rows cols : Int) (data : List F)

/-- copying `N` numbers out of a buffer: interfaces/mex/breg_anistropic_TV_mex.c:76-78, `PyArray_SimpleDoubleCopy` -/
def readBuf (p : Ptr) : ℕ → Cmd F (List F)
  | 0 => pure []
  | N + 1 => do
    let l ← readBuf p N
    let x ← Cmd.eval (load (p + (N : Int)))
    pure (l ++ [x])

/-- interfaces/mex/breg_anistropic_TV_mex.c:37-56: checks and numbers `mu`, `tol`, `max_iter`; interfaces/mex/l1c_mex_utils.c:107-139 -/
def breg_mex_parse (nlhs : ℕ) (img : MxHdr) : List (MxVal F) → MexP (F × F × Int)
  | a1 :: a2 :: a3 :: _ => do
    if nlhs < 1 then mexErr "l1c:nlhs"
    else if ¬ img.isDouble then mexErr "l1c:notDouble"
    else if img.M = 0 ∨ img.N = 0 then mexErr "l1c:not2DArray"
    else if img.M = 1 ∧ img.N = 1 then mexErr "l1c:not2DArray"
    else if 2 < img.dims then mexErr "l1c:not2DArray"
    else if img.M < 3 ∨ img.N < 3 then mexErr "l1c:ArraySize"
    else do
      let mu ← mexScalar a1
      let tol ← mexScalar a2
      let max_iter ← mexScalar a3
      let max_iter ← mexLift (castInt max_iter)
      pure (mu, tol, max_iter)
  | _ => mexErr "l1c:nlhs"

/-- interfaces/mex/breg_anistropic_TV_mex.c:46-85.  `mexErrMsgIdAndTxt` does not return, so nothing is freed after it. -/
def breg_mex_main (img : MxHdr) (f : Ptr) (mu tol : F) (max_iter : Int) : Cmd F (BregOut F) := do
  let M := toCInt img.N
  let N := toCInt img.M
  Cmd.need (FitsInt (N * M))
  let f_ours ← Cmd.callocC (N * M)
  let uk ← Cmd.callocC (N * M)
  match f_ours, uk with
  | some f_ours, some uk => do
    Cmd.exec (cblas_dcopy (N * M) f f_ours)
    let st ← l1c_breg_anistropic_TV N M uk f_ours mu tol max_iter 1
    if st.1 ≠ 0 then do
      Cmd.freeC (some f_ours)
      Cmd.freeC (some uk)
      pure .null
    else do
      let data ← readBuf uk (N * M).toNat
      Cmd.freeC (some f_ours)
      Cmd.freeC (some uk)
      pure (.ret M N data)
  | _, _ => pure (.error "l1c:l1qc_dct:outofmemory")

/-- interfaces/mex/breg_anistropic_TV_mex.c:27-85 -/
def breg_mex (nlhs : ℕ) (img : MxHdr) (f : Ptr) (prhs : List (MxVal F)) : Cmd F (BregOut F) :=
  match (breg_mex_parse nlhs img prhs).run with
  | none => do
    Cmd.need False
    pure .null
  | some (.error id) => pure (.error id)
  | some (.ok (mu, tol, max_iter)) => breg_mex_main img f mu tol max_iter

/-- interfaces/python/l1cPy.c:275-331, after the conversion to a numpy array with `ndim` dimensions `dim0`, `dim1`, stored at
`f`; `copied` says whether numpy had memory for the result. -/
def py_breg (ndim dim0 dim1 : ℕ) (f : Ptr) (mu tol : F) (max_iter max_jac_iter : Int) (copied : Bool) : Cmd F (BregOut F) :=
  if ndim ≠ 2 then pure (.error "IndexError")
  else
    let n := toCInt dim0
    let m := toCInt dim1
    if n < 3 ∨ m < 3 then pure (.error "ValueError")
    else do
      Cmd.need (FitsInt (n * m))
      let f_ours ← Cmd.callocC (n * m)
      let uk ← Cmd.callocC (n * m)
      match f_ours, uk with
      | some f_ours, some uk => do
        Cmd.exec (cblas_dcopy (n * m) f f_ours)
        let st ← l1c_breg_anistropic_TV n m uk f_ours mu tol max_iter max_jac_iter
        if st.1 ≠ 0 then do
          Cmd.freeC (some f_ours)
          Cmd.freeC (some uk)
          pure (.error "MemoryError")
        else if ¬ copied then do
          Cmd.freeC (some f_ours)
          Cmd.freeC (some uk)
          pure (.error "MemoryError")
        else do
          let data ← readBuf uk (n * m).toNat
          Cmd.freeC (some f_ours)
          Cmd.freeC (some uk)
          pure (.ret n m data)
      | _, _ => pure (.error "MemoryError")

end L1c
