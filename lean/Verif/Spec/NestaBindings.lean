import Verif.Model.NestaBindings
import Verif.Spec.Bindings

/-!
# What a Matlab caller of `nesta_dctTV` passes
-/

namespace L1c
open Scalar

variable {F : Type} [Scalar F]

/-- the arguments of `nesta_dctTV(mrow, mcol, b, pix_idx, opts)` describe a sampled image and a complete set of options; `mode`
is `opts.bp_mode` -/
structure NestaMexGood (prhs : List (MxVal F)) (mode : Option (Option String)) (c : NestaMexCall F) : Prop where
  args : ∃ a0 a1 a2 a3 f rest r0 r1 vb nc dm vi, prhs = a0 :: a1 :: a2 :: a3 :: .struct 1 1 f :: rest ∧ IsMxScalar a0 r0 ∧ castInt r0 = some c.mrow ∧
    IsMxScalar a1 r1 ∧ castInt r1 = some c.mcol ∧ IsMxVector a2 c.b ∧ IsMxVector a3 c.pix_idx ∧
    IsMxField f "sigma" c.opts.sigma ∧ IsMxField f "mu" c.opts.mu ∧ IsMxField f "tol" c.opts.tol ∧
    IsMxField f "verbose" vb ∧ castInt vb = some vi ∧ IsMxField f "n_continue" nc ∧ castInt nc = some c.opts.n_continue ∧
    IsMxField f "alpha_v" c.alp_v ∧ IsMxField f "alpha_h" c.alp_h ∧ IsMxField f "dct_mode" dm ∧ castInt dm = some c.dct_mode
  mode : mode = some (some (if c.analysis then "analysis" else "synthesis"))
  fits : FitsInt (c.mrow * c.mcol)
  pos : 0 < c.mrow ∧ 0 < c.mcol
  len : c.b.1 = c.pix_idx.1
  lt : (c.b.1 : Int) < c.mrow * c.mcol

end L1c
