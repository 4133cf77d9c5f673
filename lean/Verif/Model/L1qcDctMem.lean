import Verif.Model.NewtonMem
import Verif.Model.TransMem
import Verif.Model.World

/-!
# Image recovery from DCT samples on memory

`l1qc_dct` (src/l1qc_dct.c:30-96) with the setup and destruction of the DCT set (src/dct_transforms.c:42-80, src/dct1.c:94-175,
src/dct2.c:117-205), the transforms of `Model/TransMem` and the solver of `Model/NewtonMem`.  Every array is a block of memory.

* An FFTW plan is a block of length 0: making it may be refused, destroying it releases it.  What the plans compute are the commands `fw1`,
  `fw2`.  Making a plan leaves the arrays as they are (`Props/Planner` says what else could happen).
* The file-scope pointers are NULL on entry: no DCT set was made before (`Model/World` has the general case).
* `l1c_malloc_double` followed by a loop that stores zeros (src/dct2.c:125-141) is an allocation filled with zeros, and so is `b_ours`, which is
  overwritten before it is read.
* The index list is a list of `int`s; entries beyond its end read as -1.  The `printf`s and the clock are left out.
-/

namespace L1c
open Prog Scalar Cmd

variable {F : Type} [Scalar F]

/-- a DCT set: buffers and plans -/
structure DctObj where
  buf : DctPtr
  pE : Ptr
  pM : Ptr

/-- what `dct_destroy` / `dct2_destroy` release, in that order, src/dct1.c:166-175, src/dct2.c:195-205 -/
def DctObj.blocks (o : DctObj) : List (Option Ptr) := [some o.buf.Ety, some o.buf.dx, some o.buf.dy, some o.pE, some o.pM]

/-- `l1c_dct1_setup`, src/dct1.c:94-164, and `l1c_dct2_setup` (`two`), src/dct2.c:117-193: three buffers, then the plans `MtEty` and `EMx`.  When something
is refused the one-dimensional setup calls `dct_destroy`, the two-dimensional one releases nothing. -/
def dctSetupM (two : Bool) (m : ℕ) : Cmd F (Int × Option DctObj) := do
  let bufs ← callocsC [(m : Int), m, m]
  match bufs with
  | [some e, some x, some y] => do
    let plans ← callocsC [0, 0]
    match plans with
    | [some pM, some pE] => pure (L1C_SUCCESS, some ⟨⟨e, x, y⟩, pE, pM⟩)
    | _ => if two then pure (L1C_DCT_INIT_FAILURE, none) else do
      freesC (bufs ++ plans.reverse)
      pure (L1C_DCT_INIT_FAILURE, none)
  | _ => if two then pure (L1C_OUT_OF_MEMORY, none) else do
    freesC bufs
    pure (L1C_OUT_OF_MEMORY, none)

/-- `pix_idx[i]` -/
def idxAt (idx : List Int) (i : Int) : Int := idx.getD i.toNat (-1)

/-- the functions of the set, src/dct1.c:138-157, src/dct2.c:168-186 -/
def imageFunsM (fw1 : ℕ → FftwM F) (fw2 : ℕ → ℕ → FftwM F) (mrow mcol n : ℕ) (idx : List Int) (two : Bool) (buf : DctPtr) : DctFunsM F :=
  if two then dct2FunsM mrow mcol ⟨fw2 mrow mcol, buf, n, idxAt idx, fsqrt (lit 1 / (lit mrow * lit mcol * lit 4))⟩
  else dct1FunsM (mrow * mcol) ⟨fw1 (mrow * mcol), buf, n, idxAt idx, fsqrt (lit 1 / (lit ((mrow * mcol : ℕ) : ℚ) * lit 2))⟩

/-- src/l1qc_dct.c:62-76, once the arrays are there -/
def l1qc_dct_bodyM (n m : ℕ) (c : DctFunsM F) (eta_0 b_ours x_out b : Ptr) (opts : QOpts F) : Cmd F (Int × Option (LBResult F)) := do
  exec (cblas_dcopy (n : Int) b b_ours)
  c.Aty b_ours eta_0
  let r ← l1c_l1qc_newtonM n m c.q eta_0 b_ours opts
  if r.status ≠ 0 then pure (r.status, some r)
  else do
    exec (cblas_dcopy (m : Int) eta_0 x_out)
    c.Mx eta_0 x_out
    pure (0, some r)

/-- src/l1qc_dct.c:54-88, once the set is there -/
def l1qc_dct_withM (n m : ℕ) (c : DctFunsM F) (o : DctObj) (x_out b : Ptr) (opts : QOpts F) : Cmd F (Int × Option (LBResult F)) := do
  let eta_0 ← callocC m
  let b_ours ← callocC n
  let out ← match eta_0, b_ours with
    | some eta_0, some b_ours => l1qc_dct_bodyM n m c eta_0 b_ours x_out b opts
    | _, _ => pure (L1C_OUT_OF_MEMORY, none)
  freesC o.blocks
  freesC [b_ours, eta_0]
  pure out

/-- `l1qc_dct`, src/l1qc_dct.c:30-96: return value and `*lb_res` if it was written.  `mtot` is an `int` product formed before any check. -/
def l1qc_dctM (fw1 : ℕ → FftwM F) (fw2 : ℕ → ℕ → FftwM F) (mrow mcol : Int) (x_out : Ptr) (n : Int) (b : Ptr) (idx : List Int) (dct_mode : Int)
    (opts : QOpts F) : Cmd F (Int × Option (LBResult F)) := do
  need (FitsInt (mrow * mcol))
  if n ≤ 0 ∨ mrow ≤ 0 ∨ mcol ≤ 0 then pure (L1C_DCT_INIT_FAILURE, none)
  else if check_pix_idx idx (mrow * mcol - 1) then pure (L1C_DCT_INIT_FAILURE, none)
  else do
    let two := decide (¬ (mcol = 1 ∨ mrow = 1 ∨ dct_mode = DCT1))
    let r ← dctSetupM two (mrow.toNat * mcol.toNat)
    match r.2 with
    | none => pure (L1C_DCT_INIT_FAILURE, none)
    | some o => l1qc_dct_withM n.toNat (mrow.toNat * mcol.toNat) (imageFunsM fw1 fw2 mrow.toNat mcol.toNat n.toNat idx two o.buf) o x_out b opts

end L1c
