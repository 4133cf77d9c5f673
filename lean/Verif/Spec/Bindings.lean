import Verif.Model.Bindings
import Verif.Spec.L1qcDct

/-!
# What a Matlab or Python caller passes
-/

namespace L1c
open Scalar

variable {F : Type} [Scalar F]

/-- a Matlab double scalar with value `x` -/
def IsMxScalar (v : MxVal F) (x : F) : Prop := ∃ d, v = .arr ⟨true, 1, 1, d, fun _ => x⟩

/-- a Matlab row or column of doubles, with two dimensions and at least two entries -/
def IsMxVector (v : MxVal F) (x : Arr F) : Prop :=
  ∃ M N d data, v = .arr ⟨true, M, N, d, data⟩ ∧ x = ⟨M * N, data⟩ ∧ (M = 1 ∨ N = 1) ∧ 2 ≤ M * N ∧ d ≤ 2

/-- the field `name` is a double scalar with value `x` -/
def IsMxField (field : String → Option (MxArr F)) (name : String) (x : F) : Prop := ∃ d, field name = some ⟨true, 1, 1, d, fun _ => x⟩

/-- the struct `opts` of `l1qc_dct` has every field, and the options take the values of the fields of their names (`cgtol` and
`cgmaxiter` for the two of the linear solver); counts are cut to integers -/
def IsMxL1qcOpts (f : String → Option (MxArr F)) (o : QOpts F) : Prop :=
  ∃ wf vf nf cf lf vi, IsMxField f "epsilon" o.epsilon ∧ IsMxField f "mu" o.mu ∧ IsMxField f "tau" o.tau ∧ IsMxField f "newton_tol" o.newton_tol ∧
    IsMxField f "lbtol" o.lbtol ∧ IsMxField f "l1_tol" o.l1_tol ∧ IsMxField f "cgtol" o.cg_tol ∧
    IsMxField f "warm_start_cg" wf ∧ castInt wf = some o.warm_start_cg ∧ IsMxField f "verbose" vf ∧ castInt vf = some vi ∧
    IsMxField f "newton_max_iter" nf ∧ castInt nf = some o.newton_max_iter ∧ IsMxField f "cgmaxiter" cf ∧ castInt cf = some o.cg_maxiter ∧
    IsMxField f "lbiter" lf ∧ castInt lf = some o.lbiter

/-- the arguments of `l1qc_dct(mrow, mcol, b, pix_idx, opts)` describe a sampled image -/
structure MexGood (prhs : List (MxVal F)) (c : MexCall F) : Prop where
  args : ∃ a0 a1 a2 a3 f rest r0 r1, prhs = a0 :: a1 :: a2 :: a3 :: .struct 1 1 f :: rest ∧ IsMxScalar a0 r0 ∧ castInt r0 = some c.mrow ∧
    IsMxScalar a1 r1 ∧ castInt r1 = some c.mcol ∧ IsMxVector a2 c.b ∧ IsMxVector a3 c.pix_idx ∧ IsMxL1qcOpts f c.opts
  fits : FitsInt (c.mrow * c.mcol)
  pos : 0 < c.mrow ∧ 0 < c.mcol
  len : c.b.1 = c.pix_idx.1
  lt : (c.b.1 : Int) < c.mrow * c.mcol

/-- the numbers `x` are the 1-based positions of the 0-based indices `idx` (a fraction is cut off), all inside an image of `mtot` pixels -/
def OneBased (mtot : Int) (x : List F) (idx : List Int) : Prop :=
  List.Forall₂ (fun x i => castInt x = some (i + 1) ∧ 0 ≤ i ∧ i < mtot) x idx

end L1c
