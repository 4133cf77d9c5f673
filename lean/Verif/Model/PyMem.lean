import Verif.Model.NestaMexMem
import Verif.Model.NestaBindings

/-!
# The solvers called from Python, on memory

`_l1qc_dct`, interfaces/python/l1cPy.c:94-238, and `_nesta_dctTV`, lines 334-473, once the arguments are parsed and the arrays are converted: `b` is the data
of the converted array of samples, `idx` the converted index array, which are both one-dimensional.

* As in `Model/L1qcDctMem` and `Model/NestaMexMem`: plans are blocks of length 0, no set was made before, the index list is a list of `int`s, and `b_ours`,
  which is overwritten before it is read, is taken to be zero after `l1c_malloc_double`.
* Of the Python objects only the data block of the returned array is modelled; reference counts, the dictionary and the tuple are in `Model/Bindings` and
  `Model/NestaBindings`.
-/

namespace L1c
open Prog Scalar Cmd

variable {F : Type} [Scalar F]

/-- how a call ends: an exception, or the data block of the returned array together with the other results -/
inductive PyRes (α : Type) where
  | exc (kind : String)
  | ret (x : Ptr) (a : α)

/-- `PyArray_SimpleDoubleCopy`, interfaces/python/l1cPy.c:508-541: a new array with a copy of `N` numbers.  What numpy allocates is one block. -/
def simpleDoubleCopyM (N : ℕ) (data : Ptr) : Cmd F (Option Ptr) := do
  let their_data ← callocC N
  match their_data with
  | none => pure none
  | some z => do
    exec (cblas_dcopy (N : Int) data z)
    pure (some z)

/-- interfaces/python/l1cPy.c:204-228, 232-238: what follows the call of the solver; `r` is what `l1qc_dct` returned and `lb_res` -/
def pyL1qcEndM (mtot : ℕ) (x_ours : Ptr) (r : Int × Option (LBResult F)) : Cmd F (PyRes (Option (LBResult F))) := do
  if r.1 ≠ 0 then do
    freesC [some x_ours]
    pure (.exc "RuntimeError")
  else do
    let z ← simpleDoubleCopyM mtot x_ours
    freesC [some x_ours]
    match z with
    | none => pure (.exc "MemoryError")
    | some z => pure (.ret z r.2)

/-- `_l1qc_dct`, interfaces/python/l1cPy.c:94-238; `n` is the length of the array of samples -/
def pyL1qcM (fw1 : ℕ → FftwM F) (fw2 : ℕ → ℕ → FftwM F) (mrow mcol n : Int) (b : Ptr) (idx : List Int) (dct_mode : Int) (opts : QOpts F) :
    Cmd F (PyRes (Option (LBResult F))) := do
  if dct_mode ≠ DCT1 ∧ dct_mode ≠ DCT2 then pure (.exc "ValueError")
  else do
    need (FitsInt (mrow * mcol))
    if mrow * mcol < n ∨ n ≠ idx.length then pure (.exc "ValueError")
    else do
      let x_ours ← callocC (mrow * mcol)
      match x_ours with
      | none => pure (.exc "MemoryError")
      | some x => do
        let r ← l1qc_dctM fw1 fw2 mrow mcol x n b idx dct_mode opts
        pyL1qcEndM (mrow.toNat * mcol.toNat) x r

/-- interfaces/python/l1cPy.c:448-472: NESTA and what follows.  The set is not destroyed. -/
def pyNestaUseM (ax : NAxM F) (mtot n : ℕ) (x b' : Ptr) (opts : NestaOpts F) : Cmd F (PyRes Int) := do
  let st ← l1c_nestaM mtot x n b' ax opts
  let z ← simpleDoubleCopyM mtot x
  match z with
  | none => do
    freesC [some x, some b']
    pure (.exc "MemoryError")
  | some z => do
    freesC [some b', some x]
    pure (.ret z st)

/-- interfaces/python/l1cPy.c:439-472, once the arrays are there -/
def pyNestaSetM (fw1 : ℕ → FftwM F) (fw2 : ℕ → ℕ → FftwM F) (junkU : ℕ → F) (mrow mcol n : Int) (alp_v alp_h : F) (dct_mode : Int) (analysis : Bool) (idx : List Int)
    (x b' : Ptr) (opts : NestaOpts F) : Cmd F (PyRes Int) := do
  let r ← tvSetupM junkU n mrow mcol alp_v alp_h dct_mode idx
  match r.2 with
  | none => do
    freesC [some x, some b']
    pure (.exc "RuntimeError")
  | some o =>
    let c := tvVarOf fw1 fw2 mrow.toNat mcol.toNat n.toNat alp_v alp_h (decide (¬ (mcol = 1 ∨ mrow = 1 ∨ dct_mode = DCT1))) idx o
    if analysis then pyNestaUseM (tvAnaM n.toNat c) (mrow.toNat * mcol.toNat) n.toNat x b' opts
    else pyNestaUseM (tvSynM n.toNat c) (mrow.toNat * mcol.toNat) n.toNat x b' opts

/-- `_nesta_dctTV`, interfaces/python/l1cPy.c:334-473; `junkU` is the contents of the work array of the set after allocation -/
def pyNestaM (fw1 : ℕ → FftwM F) (fw2 : ℕ → ℕ → FftwM F) (junkU : ℕ → F) (mrow mcol n : Int) (alp_v alp_h : F) (dct_mode bp_mode : Int) (idx : List Int) (b : Ptr)
    (opts : NestaOpts F) : Cmd F (PyRes Int) := do
  if bp_mode ≠ BP_ANALYSIS ∧ bp_mode ≠ BP_SYNTHESIS then pure (.exc "ValueError")
  else if dct_mode ≠ DCT1 ∧ dct_mode ≠ DCT2 then pure (.exc "ValueError")
  else do
    need (FitsInt (mrow * mcol))
    if mrow * mcol < n ∨ n ≠ idx.length then pure (.exc "ValueError")
    else do
      let x_ours ← callocC (mrow * mcol)
      let b_ours ← callocC n
      match x_ours, b_ours with
      | some x, some b' => do
        exec (cblas_dcopy n b b')
        pyNestaSetM fw1 fw2 junkU mrow mcol n alp_v alp_h dct_mode (decide (bp_mode = BP_ANALYSIS)) idx x b' opts
      | x, b' => do
        freesC [x, b']
        pure (.exc "MemoryError")

end L1c
