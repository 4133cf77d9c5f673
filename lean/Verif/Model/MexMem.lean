import Verif.Model.PyMem

/-!
# `l1qc_dct` called from Matlab, on memory

Lines 63-189 of interfaces/mex/l1qc_dct_mex.c, once the arguments are parsed: `b` and `pix` are the data of the Matlab arrays of samples and of one-based positions.

* As in `Model/L1qcDctMem`: plans are blocks of length 0, no set was made before.  The block of the converted indices is allocated and released, its contents are
  the list `idx`.
* Of the results only the data block of `plhs[0]` is modelled as memory; the result structure is a value.
* When Matlab cannot allocate `plhs[0]` it leaves the function at once, and nothing after line 141 is executed.
-/

namespace L1c
open Prog Scalar Cmd

variable {F : Type} [Scalar F]

/-- interfaces/mex/l1qc_dct_mex.c:126-133: `k` positions from the `i`-th on.  `none` is a position outside of the image. -/
def mexIndicesM (mtot : Int) (pix : Ptr) : ℕ → ℕ → Cmd F (Option (List Int))
  | 0, _ => pure (some [])
  | k + 1, i => do
    let x ← eval (load (pix + ((i : ℕ) : Int)))
    match castInt x with
    | none => do
      need False
      pure none
    | some v => do
      need (FitsInt (v - 1))
      if v - 1 < 0 ∨ v - 1 > mtot - 1 then pure none
      else do
        let r ← mexIndicesM mtot pix k (i + 1)
        pure (r.map fun l => (v - 1) :: l)

/-- interfaces/mex/l1qc_dct_mex.c:136-175: what follows the call of the solver; `r` is what `l1qc_dct` returned and `lb_res` -/
def mexL1qcEndM (mtot : ℕ) (x_ours pix_idx : Ptr) (r : Int × Option (LBResult F)) : Cmd F (PyRes (LBResult F)) := do
  let res := r.2.getD ⟨inf, 0, 0, 0⟩
  let res := if r.1 ≠ 0 then { res with status := r.1 } else res
  let z ← simpleDoubleCopyM mtot x_ours
  match z with
  | none => pure (.exc "MATLAB:nomem")
  | some z => do
    freesC [some pix_idx, some x_ours]
    pure (.ret z res)

/-- interfaces/mex/l1qc_dct_mex.c:63-71, 114-189; `n` and `npix` are the lengths of the two arrays, `junk` is the contents of `x_ours` after allocation -/
def mexL1qcM (fw1 : ℕ → FftwM F) (fw2 : ℕ → ℕ → FftwM F) (junk : ℕ → F) (mrow mcol n npix : Int) (b pix : Ptr) (opts : QOpts F) : Cmd F (PyRes (LBResult F)) := do
  need (FitsInt (mrow * mcol))
  if ¬ (mrow * mcol > n) ∨ n ≠ npix ∨ mrow ≤ 0 ∨ mcol ≤ 0 then pure (.exc "l1c:l1qc_dct:incompatible_dimensions")
  else do
    let x_ours ← mallocC (mrow.toNat * mcol.toNat) junk
    let pix_idx ← callocC n
    match x_ours, pix_idx with
    | some x, some p => do
      let idx ← mexIndicesM (mrow * mcol) pix n.toNat 0
      match idx with
      | none => do
        freesC [some p, some x]
        pure (.exc "l1c:l1qc_dct:bad_index")
      | some idx => do
        let r ← l1qc_dctM fw1 fw2 mrow mcol x n b idx DCT1 opts
        mexL1qcEndM (mrow.toNat * mcol.toNat) x p r
    | x, p => do
      freesC [p, x]
      pure (.exc "l1c:l1qc_dct:outofmemory")

end L1c
