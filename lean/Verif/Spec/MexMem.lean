import Verif.Spec.PyMem
import Verif.Spec.Bindings
import Verif.Model.MexMem

/-!
# `l1qc_dct` called from Matlab, on memory (specification)
-/

namespace L1c
open Scalar

variable {F : Type} [Scalar F]

/-- samples `bv` at `b` and positions `pv` at `pix` in allocated blocks, fewer samples than pixels, and an FFTW that computes the transforms `lib` -/
structure MexImageCall (lib : FftwLib F) (fw1 : ℕ → FftwM F) (fw2 : ℕ → ℕ → FftwM F) (mrow mcol n : ℕ) (b pix : Ptr) (bv pv : Vec F n) (s : PState F) : Prop where
  wf : s.WF
  f1 : ∀ m, FftwImpl (fw1 m) (lib.f1 m)
  f2 : ∀ mrow mcol, FftwImpl (fw2 mrow mcol) (lib.f2 mrow mcol)
  pos : 0 < mrow ∧ 0 < mcol ∧ 0 < n
  lt : n < mrow * mcol
  fits : FitsInt ((mrow : Int) * mcol)
  hb : HoldsV s b bv
  blive : s.live b.blk = true
  hpix : HoldsV s pix pv
  plive : s.live pix.blk = true

end L1c
