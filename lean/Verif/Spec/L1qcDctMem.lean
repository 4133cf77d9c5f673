import Verif.Spec.L1qcDct
import Verif.Spec.TransMem
import Verif.Model.L1qcDctMem

/-!
# Image recovery on memory (specification)
-/

namespace L1c
open Scalar

variable {F : Type} [Scalar F]

/-- what a caller of `l1qc_dct` has to provide: measurements `bv` at `b`, room for the image at `x_out`, both in allocated blocks (they may overlap), sizes and
indices as documented, and an FFTW that computes the transforms `lib` -/
structure ImageCall (lib : FftwLib F) (fw1 : ℕ → FftwM F) (fw2 : ℕ → ℕ → FftwM F) (mrow mcol n : ℕ) (idx : List Int) (x_out b : Ptr) (bv : Vec F n) (s : PState F) : Prop where
  wf : s.WF
  f1 : ∀ m, FftwImpl (fw1 m) (lib.f1 m)
  f2 : ∀ mrow mcol, FftwImpl (fw2 mrow mcol) (lib.f2 mrow mcol)
  valid : ValidDct n mrow mcol idx
  len : idx.length = n
  fits : FitsInt ((mrow : Int) * mcol)
  hb : HoldsV s b bv
  blive : s.live b.blk = true
  hx : s.mem.Has x_out ((mrow * mcol : ℕ) : Int)
  xlive : s.live x_out.blk = true

end L1c
