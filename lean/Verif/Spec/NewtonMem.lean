import Verif.Spec.MemVec
import Verif.Model.NewtonMem

/-!
# The l1qc solver on memory: operators and arrays (specification)
-/

namespace L1c

variable {F : Type} [Scalar F] {σ : Type} {n m : ℕ}

/-- operators that are always defined -/
structure QOps (F σ : Type) (n m : ℕ) where
  A : Vec F m → σ → Vec F n × σ
  At : Vec F n → σ → Vec F m × σ
  AtA : Vec F m → σ → Vec F m × σ

/-- as operators of the vector model -/
def QOps.ax (f : QOps F σ n m) : QAx F σ n m := ⟨fun v t => some (f.A v t), fun v t => some (f.At v t), fun v t => some (f.AtA v t)⟩

/-- the commands compute the operators, with common private data -/
structure QImpl (axM : QAxM F) (f : QOps F σ n m) (R : σ → PState F → Prop) (Own : Set Ptr) : Prop where
  A : OpImpl axM.Ax f.A R Own
  At : OpImpl axM.Aty f.At R Own
  AtA : OpImpl axM.AtAx f.AtA R Own

/-- the operators' state is in their data: whether `R` holds depends on the doubles at `Own` and the lengths of their blocks only -/
def OwnData (R : σ → PState F → Prop) (Own : Set Ptr) : Prop :=
  ∀ (t : σ) (s s' : PState F), R t s → (∀ a ∈ Own, s'.mem.val a = s.mem.val a ∧ s'.mem.len a.blk = s.mem.len a.blk) → R t s'

/-- the allocator answers, the number of requests so far and the operators' state, as the solver on values sees them -/
def PState.asN (s : PState F) (t : σ) : NState σ := ⟨∅, 0, s.calls, s.oracle, t⟩

/-- names of the arrays of length `n` -/
inductive QN | b | r
  deriving DecidableEq

/-- names of the arrays of length `m`; `gradf` has length `2m` and counts as two -/
inductive QM | x | u | fu1 | fu2 | w1p | dx | du | sig11 | sig12 | ntgu | gx | gu | d (i : Fin 7)
  deriving DecidableEq

/-- where they are -/
def QPtr.pn (q : QPtr) : QN → Ptr
  | .b => q.b
  | .r => q.r

def QPtr.pm (q : QPtr) (m : ℕ) (x u : Ptr) : QM → Ptr
  | .x => x
  | .u => u
  | .fu1 => q.fu1
  | .fu2 => q.fu2
  | .w1p => q.w1p
  | .dx => q.dx
  | .du => q.du
  | .sig11 => q.sig11
  | .sig12 => q.sig12
  | .ntgu => q.ntgu
  | .gx => q.gradf
  | .gu => q.gradf + (m : Int)
  | .d i => q.DWORK7 i

/-- what a caller of the solver has to provide: operators computed by commands, a start `xv` at `x`, data `bv` at `b` and the operators' data, all
in allocated blocks and not overlapping -/
structure QCall (axM : QAxM F) (f : QOps F σ n m) (R : σ → PState F → Prop) (Own : Set Ptr) (x b : Ptr) (xv : Vec F m) (bv : Vec F n) (t : σ)
    (s : PState F) : Prop where
  wf : s.WF
  impl : QImpl axM f R Own
  own : OwnData R Own
  hx : HoldsV s x xv
  hb : HoldsV s b bv
  hR : R t s
  xlive : s.live x.blk = true
  blive : s.live b.blk = true
  olive : ∀ a ∈ Own, s.live a.blk = true
  xb : Disjoint (Rng b n) (Rng x m)
  xo : Disjoint (Rng x m) Own
  bo : Disjoint (Rng b n) Own

end L1c
