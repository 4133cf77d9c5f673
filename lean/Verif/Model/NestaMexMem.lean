import Verif.Model.DctTvMem
import Verif.Model.L1qcDctMem
import Verif.Model.NestaMem

/-!
# NESTA from Matlab on memory

Lines 120-152 and 154-156 of interfaces/mex/nesta_dctTV_mex.c, once the arguments are parsed and the indices are converted: the setup of the DCT + TV set
(src/dct_tv_transforms.c:62-171), the arrays of the routine, NESTA, the transformation of the result and the destruction of the set.

* As in `Model/L1qcDctMem`: plans are blocks of length 0, making a plan leaves the arrays alone, no set was made before, and the index list is a list of
  `int`s.
* `l1c_malloc_double` returns a block with arbitrary contents: `junk`.  `b_ours` is overwritten before it is read and is taken to be zero.
* `z_out`, the output array made by `mxCreateDoubleMatrix`, belongs to the caller, and so does `pix_idx`.
-/

namespace L1c
open Prog Scalar Cmd

variable {F : Type} [Scalar F]

/-- `l1c_malloc_double(N)`, src/l1c_memory.c:9-43: a block holding whatever was there -/
def mallocC (N : ℕ) (junk : ℕ → F) : Cmd F (Option Ptr) := do
  let p ← callocC N
  match p with
  | none => pure none
  | some q => do
    exec (seqK (forUp 0 (N : Int) fun i => store (q + i) (junk i.toNat)))
    pure (some q)

/-- a DCT + TV set: the work array and the DCT set -/
structure TvObj where
  u : Ptr
  dct : DctObj

/-- what `destroy` releases, in that order, src/dct_tv_transforms.c:173-176 -/
def TvObj.blocks (o : TvObj) : List (Option Ptr) := o.dct.blocks ++ [some o.u]

/-- src/dct_tv_transforms.c:134-143, 165-170: the work array and the DCT set -/
def tvAllocM (two : Bool) (m p : ℕ) (junk : ℕ → F) : Cmd F (Int × Option TvObj) := do
  let u ← mallocC p junk
  match u with
  | none => pure (L1C_OUT_OF_MEMORY, none)
  | some u => do
    let r ← dctSetupM two m
    match r.2 with
    | some o => pure (L1C_SUCCESS, some ⟨u, o⟩)
    | none => do
      freesC [some u]
      pure (r.1, none)

/-- `l1c_setup_dctTV_transforms`, src/dct_tv_transforms.c:62-171.  The DCT setup repeats checks that have already succeeded. -/
def tvSetupM (junk : ℕ → F) (n mrow mcol : Int) (alp_v alp_h : F) (dct_mode : Int) (idx : List Int) : Cmd F (Int × Option TvObj) := do
  need (FitsInt (mrow * mcol))
  if tvBad n mrow mcol (mrow * mcol) alp_v alp_h idx then pure (L1C_INVALID_ARGUMENT, none)
  else do
    need (FitsInt (tvP (mrow.toNat * mcol.toNat) alp_v alp_h))
    tvAllocM (decide (¬ (mcol = 1 ∨ mrow = 1 ∨ dct_mode = DCT1))) (mrow.toNat * mcol.toNat) (tvP (mrow.toNat * mcol.toNat) alp_v alp_h) junk

/-- interfaces/mex/nesta_dctTV_mex.c:127-152, 154-156, once the set is there; `Mx` is `ax_funs.Mx`.  When an array is refused the set is not destroyed. -/
def nestaMexUseM (ax : NAxM F) (Mx : Ptr → Ptr → Cmd F Unit) (o : TvObj) (junk : ℕ → F) (mtot n : ℕ) (b z_out : Ptr) (opts : NestaOpts F) : Cmd F Int := do
  let x0 ← mallocC ax.m.toNat junk
  let b_ours ← callocC n
  match x0, b_ours with
  | some x, some b' => do
    exec (cblas_dcopy (n : Int) b b')
    let st ← l1c_nestaM mtot x n b' ax opts
    Mx x z_out
    freesC o.blocks
    freesC [some x, some b']
    pure st
  | x0, b_ours => do
    freesC [x0, b_ours]
    pure L1C_OUT_OF_MEMORY

/-- the variables of src/dct_tv_transforms.c:24-35 after a successful setup -/
def tvVarOf (fw1 : ℕ → FftwM F) (fw2 : ℕ → ℕ → FftwM F) (mrow mcol n : ℕ) (alp_v alp_h : F) (two : Bool) (idx : List Int) (o : TvObj) : TvVarM F :=
  ⟨imageFunsM fw1 fw2 mrow mcol n idx two o.dct.buf, mrow, mcol, alp_v, alp_h, o.u⟩

/-- interfaces/mex/nesta_dctTV_mex.c:120-156: the status; `junkU` and `junkX` are the contents of the work array and of `x0` after allocation -/
def nestaMexM (fw1 : ℕ → FftwM F) (fw2 : ℕ → ℕ → FftwM F) (junkU junkX : ℕ → F) (mrow mcol n : Int) (alp_v alp_h : F) (dct_mode : Int) (analysis : Bool)
    (idx : List Int) (b z_out : Ptr) (opts : NestaOpts F) : Cmd F Int := do
  let r ← tvSetupM junkU n mrow mcol alp_v alp_h dct_mode idx
  match r.2 with
  | none => pure r.1
  | some o =>
    let c := tvVarOf fw1 fw2 mrow.toNat mcol.toNat n.toNat alp_v alp_h (decide (¬ (mcol = 1 ∨ mrow = 1 ∨ dct_mode = DCT1))) idx o
    if analysis then nestaMexUseM (tvAnaM n.toNat c) (identityM (mrow.toNat * mcol.toNat)) o junkX (mrow.toNat * mcol.toNat) n.toNat b z_out opts
    else nestaMexUseM (tvSynM n.toNat c) (tvWvM c) o junkX (mrow.toNat * mcol.toNat) n.toNat b z_out opts

end L1c
