import Verif.Spec.DctTvMem
import Verif.Spec.World
import Verif.Model.NestaMexMem

/-!
# NESTA from Matlab on memory (specification)
-/

namespace L1c
open Scalar

variable {F : Type} [Scalar F]

/-- samples `bv` at `b` in an allocated block, sizes, weights and indices as documented, counts that fit in `int`, and an FFTW that computes the transforms `lib` -/
structure TvPyCall (lib : FftwLib F) (fw1 : ℕ → FftwM F) (fw2 : ℕ → ℕ → FftwM F) (mrow mcol n : ℕ) (alp_v alp_h : F) (idx : List Int) (b : Ptr) (bv : Vec F n)
    (s : PState F) : Prop where
  wf : s.WF
  f1 : ∀ m, FftwImpl (fw1 m) (lib.f1 m)
  f2 : ∀ mrow mcol, FftwImpl (fw2 mrow mcol) (lib.f2 mrow mcol)
  valid : ValidTv n mrow mcol alp_v alp_h idx
  len : idx.length = n
  fits : FitsInt ((mrow : Int) * mcol)
  fitp : FitsInt (tvP (mrow * mcol) alp_v alp_h)
  hb : HoldsV s b bv
  blive : s.live b.blk = true

/-- what the call from Matlab provides: in addition room for the image at `z_out` in an allocated block, which may overlap the samples -/
structure TvMexCall (lib : FftwLib F) (fw1 : ℕ → FftwM F) (fw2 : ℕ → ℕ → FftwM F) (mrow mcol n : ℕ) (alp_v alp_h : F) (idx : List Int) (b z_out : Ptr) (bv : Vec F n)
    (s : PState F) : Prop extends TvPyCall lib fw1 fw2 mrow mcol n alp_v alp_h idx b bv s where
  hz : s.mem.Has z_out ((mrow * mcol : ℕ) : Int)
  zlive : s.live z_out.blk = true

end L1c
