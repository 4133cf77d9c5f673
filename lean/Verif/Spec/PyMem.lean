import Verif.Spec.NestaMexMem
import Verif.Spec.L1qcDctMem
import Verif.Model.PyMem

/-!
# The solvers called from Python, on memory (specification)
-/

namespace L1c
open Scalar

variable {F : Type} [Scalar F]

/-- samples `bv` at `b` in an allocated block, sizes and indices as documented, no more samples than pixels, and an FFTW that computes the transforms `lib` -/
structure PyImageCall (lib : FftwLib F) (fw1 : ℕ → FftwM F) (fw2 : ℕ → ℕ → FftwM F) (mrow mcol n : ℕ) (idx : List Int) (mode : Int) (b : Ptr) (bv : Vec F n)
    (s : PState F) : Prop where
  wf : s.WF
  f1 : ∀ m, FftwImpl (fw1 m) (lib.f1 m)
  f2 : ∀ mrow mcol, FftwImpl (fw2 mrow mcol) (lib.f2 mrow mcol)
  valid : ValidDct n mrow mcol idx
  len : idx.length = n
  le : n ≤ mrow * mcol
  dct : mode = DCT1 ∨ mode = DCT2
  fits : FitsInt ((mrow : Int) * mcol)
  hb : HoldsV s b bv
  blive : s.live b.blk = true

/-- everything that was allocated before the call still is, with the same contents -/
def CallerKept (s s' : PState F) : Prop := (∀ k, s.live k = true → s'.live k = true ∧ s'.mem.len k = s.mem.len k) ∧ ∀ a : Ptr, s.live a.blk = true → s'.mem.val a = s.mem.val a

/-- `k` blocks are allocated that were not before -/
def NewBlocks (s s' : PState F) (k : ℕ) : Prop := {b | s'.live b = true ∧ s.live b = false}.encard = k

/-- a new array that holds `v`: its block was not allocated before the call, is now, and is no longer than `v` -/
def NewArray {N : ℕ} (s s' : PState F) (z : Ptr) (v : Vec F N) : Prop :=
  HoldsV s' z v ∧ s.live z.blk = false ∧ s'.live z.blk = true ∧ s'.mem.len z.blk = N

end L1c
