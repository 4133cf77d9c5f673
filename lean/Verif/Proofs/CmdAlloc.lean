import Verif.Base.Cmd
import Verif.Spec.Image

/-! Helper lemmas: bookkeeping for functions that allocate work arrays and free them before returning. -/

namespace L1c
open Prog Scalar

variable {F : Type} [Scalar F]

/-- `s'` is `s` with exactly the (non-NULL) blocks of `L` allocated in addition -/
structure Ext (s s' : PState F) (L : List (Option Ptr)) : Prop where
  next_le : s.next ≤ s'.next
  orc : s'.oracle = s.oracle
  old_live : ∀ b < s.next, s'.live b = s.live b
  old_len : ∀ b < s.next, s'.mem.len b = s.mem.len b
  new_live : ∀ b, s.next ≤ b → (s'.live b = true ↔ ∃ p, some p ∈ L ∧ p.blk = b)
  new_len : ∀ b, s.next ≤ b → s'.live b = false → s'.mem.len b = 0
  ptrs : ∀ p, some p ∈ L → s.next ≤ p.blk ∧ p.blk < s'.next ∧ p.off = 0
  nd : L.Pairwise fun o o' => ∀ p p', o = some p → o' = some p' → p.blk ≠ p'.blk

omit [Scalar F] in
theorem Ext.init {s : PState F} (h : s.WF) : Ext s s [] where
  next_le := le_rfl
  orc := rfl
  old_live _ _ := rfl
  old_len _ _ := rfl
  new_live b hb := by simp [(h b hb).1]
  new_len b hb _ := (h b hb).2
  ptrs p hp := by simp at hp
  nd := List.Pairwise.nil

/-- values of the blocks that existed in `s` are the same in `s'` -/
def OldVals (s s' : PState F) : Prop := ∀ p : Ptr, p.blk < s.next → s'.mem.val p = s.mem.val p

/-- an allocation extends the list -/
theorem Ext.calloc {s s' : PState F} {L : List (Option Ptr)} (h : Ext s s' L) (N : Int) :
    Ext s (s'.calloc N).2 (L ++ [(s'.calloc N).1]) ∧
    (∀ p : Ptr, p.blk < s'.next → (s'.calloc N).2.mem.val p = s'.mem.val p) ∧
    (∀ p, (s'.calloc N).1 = some p → p.blk = s'.next ∧ (s'.calloc N).2.mem.len p.blk = N.toNat ∧
      ∀ q : Ptr, q.blk = p.blk → (s'.calloc N).2.mem.val q = lit 0) ∧
    (∀ b, b ≠ s'.next → (s'.calloc N).2.mem.len b = s'.mem.len b) ∧
    (s'.calloc N).2.calls = s'.calls + 1 ∧
    ((s'.calloc N).1.isSome = true ↔ s.oracle s'.calls = true ∧ 0 ≤ N) ∧ s'.next ≤ (s'.calloc N).2.next := by
  have ho := h.orc
  unfold PState.calloc
  split
  · rename_i hc
    refine ⟨⟨?_, ho, ?_, ?_, ?_, ?_, ?_, ?_⟩, ?_, ?_, ?_, rfl, ?_, ?_⟩
    · exact le_trans h.next_le (Nat.le_succ _)
    · intro b hb
      have : b ≠ s'.next := by have := h.next_le; omega
      rw [← h.old_live b hb]; exact Function.update_of_ne this _ _
    · intro b hb
      have : b ≠ s'.next := by have := h.next_le; omega
      rw [← h.old_len b hb]; exact Function.update_of_ne this _ _
    · intro b hb
      by_cases e : b = s'.next
      · subst e
        simp only [Function.update_self, true_iff]
        exact ⟨⟨s'.next, 0⟩, by simp, rfl⟩
      · simp only [Function.update_of_ne e]
        rw [h.new_live b hb]
        constructor
        · rintro ⟨p, h1, h2⟩; exact ⟨p, by simp [h1], h2⟩
        · rintro ⟨p, h1, h2⟩
          rw [List.mem_append, List.mem_singleton] at h1
          rcases h1 with h1 | h1
          · exact ⟨p, h1, h2⟩
          · rw [Option.some.injEq] at h1; subst h1; exact absurd h2.symm e
    · intro b hb hl
      by_cases e : b = s'.next
      · subst e; simp at hl
      · simp only [Function.update_of_ne e] at hl ⊢; exact h.new_len b hb hl
    · intro p hp
      rw [List.mem_append, List.mem_singleton] at hp
      rcases hp with hp | hp
      · obtain ⟨a, b, c⟩ := h.ptrs p hp; exact ⟨a, Nat.lt_succ_of_lt b, c⟩
      · rw [Option.some.injEq] at hp; subst hp; exact ⟨h.next_le, Nat.lt_succ_self _, rfl⟩
    · rw [List.pairwise_append]
      refine ⟨h.nd, List.pairwise_singleton _ _, ?_⟩
      intro o ho' o' ho'' p p' e1 e2
      rw [List.mem_singleton] at ho''
      subst e1 ho''
      rw [Option.some.injEq] at e2; subst e2
      exact ne_of_lt (h.ptrs p ho').2.1
    · intro p hp; exact if_neg (ne_of_lt hp)
    · intro p hp
      rw [Option.some.injEq] at hp; subst hp
      exact ⟨rfl, Function.update_self .., fun q hq => if_pos hq⟩
    · intro b hb; exact Function.update_of_ne hb _ _
    · simp [← ho, hc]
    · exact Nat.le_succ _
  · rename_i hc
    refine ⟨⟨h.next_le, ho, h.old_live, h.old_len, ?_, h.new_len, ?_, ?_⟩, fun _ _ => rfl, ?_, fun _ _ => rfl, rfl, ?_, le_rfl⟩
    · intro b hb; rw [h.new_live b hb]; simp
    · intro p hp; exact h.ptrs p (by simpa using hp)
    · rw [List.pairwise_append]
      refine ⟨h.nd, List.pairwise_singleton _ _, ?_⟩
      intro o ho' o' ho'' p p' e1 e2
      rw [List.mem_singleton] at ho''
      subst e2; cases ho''
    · intro p hp; cases hp
    · simpa [← ho] using hc

omit [Scalar F] in
/-- freeing the first entry of the list is legal and removes it -/
theorem Ext.free {s s' : PState F} {o : Option Ptr} {L : List (Option Ptr)} (h : Ext s s' (o :: L)) :
    ∃ s'', s'.free o = some s'' ∧ Ext s s'' L ∧ s''.mem.val = s'.mem.val ∧ s''.calls = s'.calls := by
  have hnd := List.pairwise_cons.1 h.nd
  cases o with
  | none =>
    refine ⟨s', rfl, ⟨h.next_le, h.orc, h.old_live, h.old_len, ?_, h.new_len, ?_, hnd.2⟩, rfl, rfl⟩
    · intro b hb; rw [h.new_live b hb]; simp
    · intro p hp; exact h.ptrs p (by simpa using hp)
  | some p =>
    obtain ⟨p1, p2, p3⟩ := h.ptrs p (by simp)
    have hl : s'.live p.blk = true := (h.new_live _ p1).2 ⟨p, by simp, rfl⟩
    refine ⟨{ s' with mem := { s'.mem with len := Function.update s'.mem.len p.blk 0 },
                       live := Function.update s'.live p.blk false }, if_pos ⟨hl, p3⟩, ⟨h.next_le, h.orc, ?_, ?_, ?_, ?_, ?_, hnd.2⟩, rfl, rfl⟩
    · intro b hb
      rw [← h.old_live b hb]; exact Function.update_of_ne (by omega) _ _
    · intro b hb
      rw [← h.old_len b hb]; exact Function.update_of_ne (by omega) _ _
    · intro b hb
      by_cases e : b = p.blk
      · subst e
        simp only [Function.update_self]
        constructor
        · intro q; cases q
        · rintro ⟨q, q1, q2⟩; exact absurd q2.symm (hnd.1 _ q1 p q rfl rfl)
      · simp only [Function.update_of_ne e]
        rw [h.new_live b hb]
        constructor
        · rintro ⟨q, h1, h2⟩
          rw [List.mem_cons, Option.some.injEq] at h1
          rcases h1 with rfl | h1
          · exact absurd h2.symm e
          · exact ⟨q, h1, h2⟩
        · rintro ⟨q, h1, h2⟩; exact ⟨q, by simp [h1], h2⟩
    · intro b hb hb'
      by_cases e : b = p.blk
      · subst e; simp
      · simp only [Function.update_of_ne e] at hb' ⊢; exact h.new_len b hb hb'
    · intro q hq; exact h.ptrs q (by simp [hq])

omit [Scalar F] in
/-- work on memory contents keeps the bookkeeping -/
theorem Ext.setMem {s s' : PState F} {L : List (Option Ptr)} (h : Ext s s' L) {m : Mem F} (hm : m.len = s'.mem.len) :
    Ext s { s' with mem := m } L :=
  ⟨h.next_le, h.orc, h.old_live, fun b hb => by rw [← h.old_len b hb]; exact congrFun hm b, h.new_live,
   fun b hb hl => by rw [← h.new_len b hb hl]; exact congrFun hm b, h.ptrs, h.nd⟩

omit [Scalar F] in
/-- with an empty list everything is as before -/
theorem Ext.final {s s' : PState F} (h : Ext s s' []) (hw : s.WF) : s'.live = s.live ∧ s'.mem.len = s.mem.len := by
  constructor <;> funext b
  · by_cases hb : b < s.next
    · exact h.old_live b hb
    · have h1 := h.new_live b (by omega)
      rw [(hw b (by omega)).1]
      simpa using h1
  · by_cases hb : b < s.next
    · exact h.old_len b hb
    · have h1 := h.new_live b (by omega)
      rw [(hw b (by omega)).2]
      exact h.new_len b (by omega) (by simpa using h1)

/-- state after a series of allocations of `N` doubles with answers `L` -/
structure Alloc (s s' : PState F) (N : Int) (L : List (Option Ptr)) : Prop where
  ext : Ext s s' L
  calls : s'.calls = s.calls + L.length
  old : OldVals s s'
  zeros : ∀ p, some p ∈ L → s'.mem.len p.blk = N.toNat ∧ ∀ q : Ptr, q.blk = p.blk → s'.mem.val q = lit 0
  some_iff : ∀ k (hk : k < L.length), (L[k].isSome = true ↔ s.oracle (s.calls + k) = true ∧ 0 ≤ N)

theorem Alloc.init {s : PState F} (h : s.WF) (N : Int) : Alloc s s N [] :=
  ⟨.init h, rfl, fun _ _ => rfl, fun p hp => by simp at hp, fun k hk => by simp at hk⟩

theorem Alloc.step {s s' : PState F} {N : Int} {L : List (Option Ptr)} (h : Alloc s s' N L) :
    Alloc s (s'.calloc N).2 N (L ++ [(s'.calloc N).1]) := by
  obtain ⟨h1, h2, h3, h4, h5, h6, h7⟩ := h.ext.calloc N
  refine ⟨h1, ?_, ?_, ?_, ?_⟩
  · rw [h5, h.calls, List.length_append]; rfl
  · intro p hp
    rw [h2 p (lt_of_lt_of_le hp h.ext.next_le), h.old p hp]
  · intro p hp
    rw [List.mem_append, List.mem_singleton] at hp
    rcases hp with hp | hp
    · obtain ⟨a, b⟩ := h.zeros p hp
      have hlt := (h.ext.ptrs p hp).2.1
      refine ⟨by rw [h4 _ (ne_of_lt hlt), a], fun q hq => ?_⟩
      rw [h2 q (by rw [hq]; exact hlt), b q hq]
    · obtain ⟨a, b, c⟩ := h3 p hp.symm
      exact ⟨b, c⟩
  · intro k hk
    rw [List.length_append, List.length_singleton] at hk
    by_cases e : k < L.length
    · rw [List.getElem_append_left e]; exact h.some_iff k e
    · have : k = L.length := by omega
      subst this
      rw [List.getElem_append_right le_rfl]
      simp only [Nat.sub_self, List.getElem_cons_zero]
      rw [h6, h.calls]

/-- free a list of arrays, then return -/
def freeAll {α : Type} (r : α) : List (Option Ptr) → Cmd F α
  | [] => pure r
  | o :: L => Cmd.freeC o >>= fun _ => freeAll r L

theorem cspec_freeAll {α : Type} (r : α) {s s' : PState F} {L : List (Option Ptr)} (hw : s.WF) (h : Ext s s' L) :
    ∃ s'', CSpec (freeAll r L) s' r s'' ∧ s''.live = s.live ∧ s''.mem.len = s.mem.len ∧ s''.mem.val = s'.mem.val := by
  induction L generalizing s' with
  | nil => exact ⟨s', .done _ _, (h.final hw).1, (h.final hw).2, rfl⟩
  | cons o L ih =>
    obtain ⟨s1, h1, h2, h3, -⟩ := h.free
    obtain ⟨s2, g1, g2, g3, g4⟩ := ih h2
    exact ⟨s2, (cspec_free h1).bind g1, g2, g3, g4.trans h3⟩

end L1c
