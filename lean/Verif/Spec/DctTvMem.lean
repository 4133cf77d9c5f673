import Verif.Spec.TransMem
import Verif.Spec.DctTV
import Verif.Model.DctTvMem

/-!
# The DCT + TV transform set on memory (specification)
-/

namespace L1c
open Scalar

variable {F : Type} [Scalar F] {mrow mcol n : ℕ}

/-- the variables of a set with the DCT functions `loc` and the work array `u` -/
def TvCfg.varM (c : TvCfg F mrow mcol n) (loc : DctFunsM F) (u : Ptr) : TvVarM F := ⟨loc, mrow, mcol, c.alp_v, c.alp_h, u⟩

/-- the buffers of the DCT set and the work array are in memory -/
structure TvAt {m p : ℕ} (b : DctPtr) (u : Ptr) (t : TvBuf F m p) (s : PState F) : Prop where
  dct : BufAt b t.dct s
  u : HoldsV s u t.u

/-- their addresses -/
def tvOwn (b : DctPtr) (u : Ptr) (m p : ℕ) : Set Ptr := b.Own m ∪ Rng u p

/-- they do not overlap -/
structure TvSep (b : DctPtr) (u : Ptr) (m p : ℕ) : Prop where
  dct : b.Sep m
  u : Disjoint (b.Own m) (Rng u p)

/-- the functions of the set as operators that may change their argument (only the first entry does change, see `tvWvArg`) -/
def tvWvN (c : TvCfg F mrow mcol n) : NOp F (TvBuf F (mrow * mcol) c.p) c.p (mrow * mcol) := fun v _ t =>
  (tvWv c v t).map fun o => ((tvWvArg c v t, o.res), o.buf)

def tvWtxN (c : TvCfg F mrow mcol n) : NOp F (TvBuf F (mrow * mcol) c.p) (mrow * mcol) c.p := fun x old t =>
  (tvWtx c x old t).map fun o => ((x, o.res), o.buf)

def tvRxN (c : TvCfg F mrow mcol n) : NOp F (TvBuf F (mrow * mcol) c.p) (mrow * mcol) n := fun x _ t =>
  (tvRx c x t).map fun o => ((x, o.res), o.buf)

def tvRtyN (c : TvCfg F mrow mcol n) : NOp F (TvBuf F (mrow * mcol) c.p) n (mrow * mcol) := fun y old t =>
  (tvRty c y old t).map fun o => ((y, o.res), o.buf)

def tvAvN (c : TvCfg F mrow mcol n) : NOp F (TvBuf F (mrow * mcol) c.p) c.p n := fun v _ t =>
  (tvAv c v t).map fun o => ((tvWvArg c v t, o.res), o.buf)

def tvAtyN (c : TvCfg F mrow mcol n) : NOp F (TvBuf F (mrow * mcol) c.p) n c.p := fun y old t =>
  (tvAty c y old t).map fun o => ((y, o.res), o.buf)

/-- the copy of the first `m` numbers of one array to another -/
def tvIdN {σ : Type} {l k : ℕ} (m : ℕ) : NOp F σ l k := fun v old t => (tvIdentity m v old).map fun r => ((v, r), t)

/-- what NESTA uses of the set in analysis mode, on vectors -/
def tvAna (c : TvCfg F mrow mcol n) : NAx F (TvBuf F (mrow * mcol) c.p) n (mrow * mcol) c.p :=
  ⟨some (tvRxN c), some (tvRtyN c), some (tvWvN c), some (tvWtxN c), true, true, tvNormW true c.alp_v c.alp_h⟩

/-- and in synthesis mode -/
def tvSyn (c : TvCfg F mrow mcol n) : NAx F (TvBuf F (mrow * mcol) c.p) n c.p (mrow * mcol) :=
  ⟨some (tvAvN c), some (tvAtyN c), some (tvIdN (mrow * mcol)), some (tvIdN (mrow * mcol)), true, true, tvNormW false c.alp_v c.alp_h⟩

/-- the image fits an `int` and, when a weight is positive, has at least two rows and columns (setup asks for three) -/
structure TvDims (c : TvCfg F mrow mcol n) : Prop where
  fit : FitsInt ((mrow : Int) * mcol)
  pos : 0 < mrow ∧ 0 < mcol
  two : job c.alp_v = true ∨ job c.alp_h = true → 2 ≤ mrow ∧ 2 ≤ mcol

/-- the commands compute the functions of a DCT + TV set, with the buffers and the work array as common private data -/
structure TvImpl (cM : TvVarM F) (c : TvCfg F mrow mcol n) (R : TvBuf F (mrow * mcol) c.p → PState F → Prop) (Own : Set Ptr) : Prop where
  Wv : NOpImpl (tvWvM cM) (tvWvN c) R Own
  Wtx : NOpImpl (tvWtxM cM) (tvWtxN c) R Own
  Rx : NOpImpl (tvRxM cM) (tvRxN c) R Own
  Rty : NOpImpl (tvRtyM cM) (tvRtyN c) R Own
  Av : NOpImpl (tvAvM cM) (tvAvN c) R Own
  Aty : NOpImpl (tvAtyM cM) (tvAtyN c) R Own
  Id : ∀ l k, NOpImpl (l := l) (k := k) (identityM (mrow * mcol)) (tvIdN (mrow * mcol)) R Own

end L1c
