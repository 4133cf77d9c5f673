import Verif.Model.Concurrent

/-! # The part of the memory that belongs to one caller -/

namespace L1c

open Classical in
/-- memory with the blocks of `O` only: everything else does not exist -/
noncomputable def Mem.part {F : Type} [Scalar F] (m : Mem F) (O : Set ℕ) : Mem F :=
  ⟨fun b => if b ∈ O then m.len b else 0, fun p => if p.blk ∈ O then m.val p else Scalar.lit 0⟩

/-- memory inside a set of blocks is the same -/
def Mem.SameIn {F : Type} (O : Set ℕ) (m m' : Mem F) : Prop := ∀ b ∈ O, m'.len b = m.len b ∧ ∀ o, m'.val ⟨b, o⟩ = m.val ⟨b, o⟩

/-- the command writes to no block of `C` and releases none, whatever it reads and whatever other blocks the allocator returns -/
def Cmd.Spares {F α : Type} (C : Set ℕ) : Cmd F α → Prop
  | .done _ => True
  | .kern k c => (∀ ph ∈ k, ∀ i, Prog.Foot {a | a.blk ∉ C} Set.univ (ph.body i)) ∧ c.Spares C
  | .query p c => Prog.Foot {a | a.blk ∉ C} Set.univ p ∧ ∀ v, (c v).Spares C
  | .calloc _ c => ∀ r : Option Ptr, (∀ p, r = some p → p.blk ∉ C) → (c r).Spares C
  | .free p c => (∀ q, p = some q → q.blk ∉ C) ∧ c.Spares C

end L1c
