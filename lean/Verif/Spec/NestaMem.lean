import Verif.Spec.NewtonMem
import Verif.Model.NestaMem

/-!
# NESTA on memory: operators and caller's obligations (specification)
-/

namespace L1c

variable {F : Type} [Scalar F] {σ : Type} {n m p : ℕ}

/-- The command `ax in out` computes the operator `op` in memory wherever `op` is defined: it may also change its input, and reads and writes
nothing else but its own data at the addresses `Own`. -/
def NOpImpl {l k : ℕ} (ax : Ptr → Ptr → Cmd F Unit) (op : NOp F σ l k) (R : σ → PState F → Prop) (Own : Set Ptr) : Prop :=
  ∀ (t : σ) (s : PState F) (x y : Ptr) (v : Vec F l) (old : Vec F k) (r : (Vec F l × Vec F k) × σ), R t s → HoldsV s x v → HoldsV s y old →
    Disjoint (Rng x l) (Rng y k) → Disjoint (Rng x l) Own → Disjoint (Rng y k) Own → op v old t = some r →
    ∃ s', CSpec (ax x y) s () s' ∧ R r.2 s' ∧ HoldsV s' x r.1.1 ∧ HoldsV s' y r.1.2 ∧ Only (Rng x l ∪ Rng y k ∪ Own) s s'

/-- a missing operator is missing, any other is computed -/
def NOptImpl {l k : ℕ} (R : σ → PState F → Prop) (Own : Set Ptr) : Option (Ptr → Ptr → Cmd F Unit) → Option (NOp F σ l k) → Prop
  | none, none => True
  | some c, some f => NOpImpl c f R Own
  | _, _ => False

/-- the commands compute the operators, with common private data -/
structure NImpl (axM : NAxM F) (ax : NAx F σ n m p) (R : σ → PState F → Prop) (Own : Set Ptr) : Prop where
  n : axM.n = n
  m : axM.m = m
  p : axM.p = p
  Ax : NOptImpl R Own axM.Ax ax.Ax
  Aty : NOptImpl R Own axM.Aty ax.Aty
  Wz : NOptImpl R Own axM.Wz ax.Wz
  Wtx : NOptImpl R Own axM.Wtx ax.Wtx
  hasRx : axM.hasRx = ax.hasRx
  hasRty : axM.hasRty = ax.hasRty
  norm_W : axM.norm_W = ax.norm_W

/-- what a caller of NESTA has to provide: operators computed by commands, an output array at `x` (holding anything, `xv`), data `bv` at `b` and the
operators' data, in allocated blocks; the data array must not overlap the operators' data (the output array may overlap both) -/
structure NCall (axM : NAxM F) (ax : NAx F σ n m p) (R : σ → PState F → Prop) (Own : Set Ptr) (x b : Ptr) (xv : Vec F m) (bv : Vec F n) (t : σ)
    (s : PState F) : Prop where
  wf : s.WF
  impl : NImpl axM ax R Own
  own : OwnData R Own
  hx : HoldsV s x xv
  hb : HoldsV s b bv
  hR : R t s
  xlive : s.live x.blk = true
  blive : s.live b.blk = true
  olive : ∀ a ∈ Own, s.live a.blk = true
  bo : Disjoint (Rng b n) Own

end L1c
