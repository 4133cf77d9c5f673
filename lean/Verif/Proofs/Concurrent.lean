import Verif.Spec.Concurrent
import Mathlib.Data.Finset.Basic
import Mathlib.Data.Fintype.Basic

/-! # Callers on separate blocks do not influence each other -/

namespace L1c
open Prog

variable {F : Type} [Scalar F] {α : Type}

section part
variable {m : Mem F} {O O' : Set ℕ}

theorem part_ok {p : Ptr} (h : (m.part O).Ok p) : p.blk ∈ O ∧ m.Ok p := by
  obtain ⟨h0, h1⟩ := h
  simp only [Mem.part] at h1
  by_cases hb : p.blk ∈ O
  · rw [if_pos hb] at h1; exact ⟨hb, h0, h1⟩
  · rw [if_neg hb] at h1; exact absurd h1 (by simp; omega)

theorem ok_part {p : Ptr} (hb : p.blk ∈ O) (h : m.Ok p) : (m.part O).Ok p := by
  refine ⟨h.1, ?_⟩
  simp only [Mem.part]; rw [if_pos hb]; exact h.2

theorem part_val {p : Ptr} (hb : p.blk ∈ O) : (m.part O).val p = m.val p := by
  simp only [Mem.part]; rw [if_pos hb]

theorem part_len {b : ℕ} (hb : b ∈ O) : (m.part O).len b = m.len b := by
  simp only [Mem.part]; rw [if_pos hb]

theorem part_write {p : Ptr} {v : F} (hb : p.blk ∈ O) : (m.write p v).part O = (m.part O).write p v := by
  ext a
  · rfl
  · simp only [Mem.part, Mem.write_val]
    by_cases e : a = p
    · subst e; simp [hb]
    · simp [e]

theorem part_write_out {p : Ptr} {v : F} (hb : p.blk ∉ O) : (m.write p v).part O = m.part O := by
  ext a
  · rfl
  · simp only [Mem.part, Mem.write_val]
    by_cases e : a = p
    · subst e; simp [hb]
    · simp [e]

/-- only blocks of `O` differ -/
def SameOut (O : Set ℕ) (m m' : Mem F) : Prop := ∀ b, b ∉ O → m'.len b = m.len b ∧ ∀ o, m'.val ⟨b, o⟩ = m.val ⟨b, o⟩

omit [Scalar F] in
theorem SameOut.refl (O : Set ℕ) (m : Mem F) : SameOut O m m := fun _ _ => ⟨rfl, fun _ => rfl⟩

omit [Scalar F] in
theorem SameOut.trans {m₁ m₂ m₃ : Mem F} (h : SameOut O m₁ m₂) (h' : SameOut O m₂ m₃) : SameOut O m₁ m₃ :=
  fun b hb => ⟨(h' b hb).1.trans (h b hb).1, fun o => ((h' b hb).2 o).trans ((h b hb).2 o)⟩

omit [Scalar F] in
theorem SameOut.write {p : Ptr} {v : F} (hb : p.blk ∈ O) : SameOut O m (m.write p v) := by
  intro b h
  refine ⟨rfl, fun o => ?_⟩
  rw [Mem.write_val, if_neg]
  rintro rfl; exact h hb

theorem SameOut.part {m' : Mem F} (h : SameOut O m m') (hd : ∀ b ∈ O', b ∉ O) : m'.part O' = m.part O' := by
  ext a
  · simp only [Mem.part]
    by_cases hb : a ∈ O'
    · rw [if_pos hb, if_pos hb]; exact (h a (hd a hb)).1
    · rw [if_neg hb, if_neg hb]
  · simp only [Mem.part]
    by_cases hb : a.blk ∈ O'
    · rw [if_pos hb, if_pos hb]; exact (h a.blk (hd _ hb)).2 a.off
    · rw [if_neg hb, if_neg hb]

end part

/-- what a caller still has to do is safe and leads to `a` in state `s'` -/
def CallGood (A : Act F α) (s : PState F) (a : α) (s' : PState F) : Prop :=
  match A with
  | .cmd c => CSpec c s a s'
  | .loop T k c => ∃ m₁ m₂, (∀ x, Steps (T, s.mem) x → ¬ IsUB x ∧ (IsDone x → x.2 = m₁) ∧ ∃ y, Steps x y ∧ IsDone y ∧ y.2 = m₁) ∧
      KSpec k m₁ m₂ ∧ CSpec c { s with mem := m₂ } a s'
  | .comp p c => ∃ v m₁, p.run s.mem = some (v, m₁) ∧ CSpec (c v) { s with mem := m₁ } a s'

/-- the rest of the call writes to no block of `C` -/
def Act.Spares (C : Set ℕ) : Act F α → Prop
  | .cmd c => c.Spares C
  | .loop T k c => (∀ i, Foot {a | a.blk ∉ C} Set.univ (T i)) ∧ (∀ ph ∈ k, ∀ i, Foot {a | a.blk ∉ C} Set.univ (ph.body i)) ∧ c.Spares C
  | .comp p c => Foot {a | a.blk ∉ C} Set.univ p ∧ ∀ v, (c v).Spares C

/-- a caller with the blocks `O` in the middle of its call; `C` are blocks it may only read -/
structure CallInv (O C : Set ℕ) (A : Act F α) (l : Local) (m : Mem F) (a : α) (s' : PState F) : Prop where
  good : CallGood A (l.on (m.part (O ∪ C))) a s'
  live : ∀ b, l.live b = true → b ∈ O
  pool : ∀ b, l.next ≤ b → b < s'.next → b ∈ O
  spare : A.Spares C

theorem CSpec.next_le {c : Cmd F α} {s s' : PState F} {a : α} (h : CSpec c s a s') : s.next ≤ s'.next := by
  induction h with
  | done => exact le_rfl
  | kern _ _ ih => exact ih
  | query _ _ ih => exact ih
  | @calloc N c s s' a t ih =>
    refine le_trans ?_ ih
    unfold PState.calloc; split <;> simp
  | @free p c s s₁ s' a h t ih =>
    refine le_trans ?_ ih
    unfold PState.free at h
    split at h
    · simp only [Option.some.injEq] at h; rw [h]
    · split at h
      · simp only [Option.some.injEq] at h; rw [← h]
      · simp at h

theorem calloc_part {O C : Set ℕ} {l : Local} {m : Mem F} {N : Int} (h : l.next < ((l.on (m.part (O ∪ C))).calloc N).2.next → l.next ∈ O) :
    ((l.on (m.part (O ∪ C))).calloc N).1 = ((l.on m).calloc N).1 ∧ ((l.on (m.part (O ∪ C))).calloc N).2 = ((l.on m).calloc N).2.loc.on (((l.on m).calloc N).2.mem.part (O ∪ C)) ∧
    SameOut O m ((l.on m).calloc N).2.mem ∧ (∀ b, ((l.on m).calloc N).2.live b = true → l.live b = true ∨ b ∈ O) := by
  unfold PState.calloc at *
  by_cases hc : l.oracle l.calls = true ∧ 0 ≤ N
  · have hc' : (l.on m).oracle (l.on m).calls = true ∧ 0 ≤ N := hc
    have hc'' : (l.on (m.part (O ∪ C))).oracle (l.on (m.part (O ∪ C))).calls = true ∧ 0 ≤ N := hc
    rw [if_pos hc'] at *
    rw [if_pos hc''] at *
    have hO : l.next ∈ O := h (by simp [Local.on])
    have hP : l.next ∈ O ∪ C := .inl hO
    refine ⟨rfl, ?_, ?_, ?_⟩
    · simp only [Local.on, PState.loc, PState.mk.injEq, and_true]
      ext a
      · simp only [Mem.part, Function.update_apply]
        by_cases e : a = l.next
        · subst e; simp only [hP, if_true]
        · simp [e]
      · simp only [Mem.part]
        by_cases e : a.blk = l.next
        · simp only [e, hP, if_true]
        · simp [e]
    · intro b hb
      have e : b ≠ l.next := by rintro rfl; exact hb hO
      exact ⟨by simp [Local.on, e], fun o => by simp [Local.on, e]⟩
    · intro b hb
      by_cases e : b = l.next
      · subst e; exact .inr hO
      · left; simpa [Local.on, e] using hb
  · have hc' : ¬ ((l.on m).oracle (l.on m).calls = true ∧ 0 ≤ N) := hc
    have hc'' : ¬ ((l.on (m.part (O ∪ C))).oracle (l.on (m.part (O ∪ C))).calls = true ∧ 0 ≤ N) := hc
    rw [if_neg hc'] at *
    rw [if_neg hc''] at *
    exact ⟨rfl, rfl, SameOut.refl _ _, fun b hb => .inl hb⟩

theorem free_part {O C : Set ℕ} {l : Local} {m : Mem F} {p : Option Ptr} (hl : ∀ b, l.live b = true → b ∈ O) :
    ((l.on (m.part (O ∪ C))).free p = none ↔ (l.on m).free p = none) ∧
    ∀ s, (l.on m).free p = some s → (l.on (m.part (O ∪ C))).free p = some (s.loc.on (s.mem.part (O ∪ C))) ∧ SameOut O m s.mem ∧
      (∀ b, s.live b = true → l.live b = true) ∧ s.next = l.next := by
  unfold PState.free
  cases p with
  | none =>
    refine ⟨by simp, ?_⟩
    rintro s ⟨⟩
    exact ⟨rfl, SameOut.refl _ _, fun b hb => hb, rfl⟩
  | some p =>
    by_cases hc : l.live p.blk = true ∧ p.off = 0
    · have hc' : (l.on m).live p.blk = true ∧ p.off = 0 := hc
      have hc'' : (l.on (m.part (O ∪ C))).live p.blk = true ∧ p.off = 0 := hc
      simp only [if_pos hc', if_pos hc'']
      refine ⟨by simp, ?_⟩
      rintro s ⟨⟩
      have hO := hl _ hc.1
      refine ⟨?_, ?_, ?_, rfl⟩
      · simp only [Local.on, PState.loc, Option.some.injEq, PState.mk.injEq, and_true]
        ext a
        · simp only [Mem.part, Function.update_apply]
          by_cases e : a = p.blk
          · simp [e]
          · simp [e]
        · rfl
      · intro b hb
        have e : b ≠ p.blk := by rintro rfl; exact hb hO
        exact ⟨by simp [Local.on, e], fun o => rfl⟩
      · intro b hb
        by_cases e : b = p.blk
        · subst e; exact hc.1
        · simpa [Local.on, e] using hb
    · have hc' : ¬ ((l.on m).live p.blk = true ∧ p.off = 0) := hc
      have hc'' : ¬ ((l.on (m.part (O ∪ C))).live p.blk = true ∧ p.off = 0) := hc
      simp only [if_neg hc', if_neg hc'']
      exact ⟨by simp, by rintro s ⟨⟩⟩

/-- one step of a loop on the shared memory is a step on the caller's part -/
theorem step_part {O C : Set ℕ} {T T' : ℕ → Prog F Unit} {m m' : Mem F} (hu : ¬ IsUB (T, m.part (O ∪ C))) (hq : ∀ i, Foot {a | a.blk ∉ C} Set.univ (T i)) (h : Step (T, m) (T', m')) :
    Step (T, m.part (O ∪ C)) (T', m'.part (O ∪ C)) ∧ SameOut O m m' ∧ ∀ i, Foot {a | a.blk ∉ C} Set.univ (T' i) := by
  cases h with
  | rd i p k hi ok =>
    have : (m.part (O ∪ C)).Ok p := by
      by_contra hn; exact hu (.inl ⟨i, .inr (.inl ⟨p, k, hi, hn⟩)⟩)
    have h2 := Step.rd i p k hi this
    rw [part_val (part_ok this).1] at h2
    refine ⟨h2, SameOut.refl _ _, fun j => ?_⟩
    by_cases e : j = i
    · subst e
      have := hq j
      rw [hi] at this
      simpa using this.2 _
    · simpa [e] using hq j
  | wr i p v k hi ok =>
    have : (m.part (O ∪ C)).Ok p := by
      by_contra hn; exact hu (.inl ⟨i, .inr (.inr ⟨p, v, k, hi, hn⟩)⟩)
    have h2 := Step.wr i p v k hi this
    rw [← part_write (part_ok this).1] at h2
    have hq' := hq i
    rw [hi] at hq'
    refine ⟨h2, SameOut.write ((part_ok this).1.resolve_right hq'.1), fun j => ?_⟩
    by_cases e : j = i
    · subst e; simpa using hq'.2
    · simpa [e] using hq j

/-- a step on the caller's part can be made on the shared memory -/
theorem step_lift {O : Set ℕ} {T T' : ℕ → Prog F Unit} {m m₁ : Mem F} (h : Step (T, m.part O) (T', m₁)) :
    ∃ m', Step (T, m) (T', m') ∧ m'.part O = m₁ := by
  cases h with
  | rd i p k hi ok =>
    refine ⟨m, ?_, rfl⟩
    rw [part_val (part_ok ok).1]
    exact Step.rd i p k hi (part_ok ok).2
  | wr i p v k hi ok => exact ⟨_, Step.wr i p v k hi (part_ok ok).2, part_write (part_ok ok).1⟩

/-- nothing undefined is about to happen -/
theorem CallInv.safe {O C : Set ℕ} {A : Act F α} {l : Local} {m : Mem F} {a : α} {s' : PState F} (h : CallInv O C A l m a s') : ¬ A.Bad l m := by
  obtain ⟨g, hl, hp, hq⟩ := h
  cases A with
  | cmd c =>
    cases c with
    | free p c =>
      intro hb
      cases g with
      | free h t =>
        rw [((free_part hl).1).2 hb] at h; simp at h
    | _ => exact fun h => h
  | loop T k c =>
    obtain ⟨m₁, m₂, h1, -, -⟩ := g
    intro hb
    apply (h1 _ .refl).1
    refine hb.imp_left ?_
    rintro ⟨i, hi⟩
    refine ⟨i, ?_⟩
    rcases hi with hi | ⟨p, k, hi, hn⟩ | ⟨p, v, k, hi, hn⟩
    · exact .inl hi
    · exact .inr (.inl ⟨p, k, hi, fun hk => hn (part_ok hk).2⟩)
    · exact .inr (.inr ⟨p, v, k, hi, fun hk => hn (part_ok hk).2⟩)
  | comp p c =>
    obtain ⟨v, m₁, h1, -⟩ := g
    cases p with
    | ret a => exact fun h => h
    | ub => simp at h1
    | rd q k =>
      intro hb
      simp only [run] at h1
      rw [if_neg (show ¬ (l.on (m.part (O ∪ C))).mem.Ok q from fun hk => hb (part_ok hk).2)] at h1
      simp at h1
    | wr q v k =>
      intro hb
      simp only [run] at h1
      rw [if_neg (show ¬ (l.on (m.part (O ∪ C))).mem.Ok q from fun hk => hb (part_ok hk).2)] at h1
      simp at h1

/-- a caller reads its own blocks and common blocks -/
theorem CallInv.reads {O C : Set ℕ} {A : Act F α} {l : Local} {m : Mem F} {a : α} {s' : PState F} (h : CallInv O C A l m a s') {p : Ptr} (hr : A.Reads p) : p.blk ∈ O ∪ C := by
  obtain ⟨g, hl, hp, hq⟩ := h
  cases A with
  | cmd c => exact absurd hr (by unfold Act.Reads; simp)
  | loop T k c =>
    obtain ⟨m₁, m₂, h1, -, -⟩ := g
    obtain ⟨i, k, hi⟩ := hr
    by_contra hn
    exact (h1 _ .refl).1 (.inl ⟨i, .inr (.inl ⟨p, k, hi, fun ok => hn (part_ok ok).1⟩)⟩)
  | comp q c =>
    obtain ⟨v, m₁, h1, -⟩ := g
    cases q with
    | rd q k =>
      obtain rfl : q = p := hr
      simp only [run] at h1
      split at h1
      · next hk => exact (part_ok hk).1
      · simp at h1
    | _ => exact absurd hr (by unfold Act.Reads; simp)

/-- a caller writes to its own blocks and releases none but its own -/
theorem CallInv.writes {O C : Set ℕ} {A : Act F α} {l : Local} {m : Mem F} {a : α} {s' : PState F} (h : CallInv O C A l m a s') {p : Ptr} (hr : A.Writes p) : p.blk ∈ O := by
  obtain ⟨g, hl, hp, hq⟩ := h
  cases A with
  | cmd c =>
    cases c with
    | free q c =>
      cases q with
      | none => exact absurd hr (by unfold Act.Writes; simp)
      | some q =>
        have e : q.blk = p.blk := hr
        rw [← e]
        cases g with
        | free h t =>
          unfold PState.free at h
          simp only at h
          split at h
          · next hk => exact hl _ hk.1
          · simp at h
    | _ => exact absurd hr (by unfold Act.Writes; simp)
  | loop T k c =>
    obtain ⟨m₁, m₂, h1, -, -⟩ := g
    obtain ⟨i, v, k, hi⟩ := hr
    have hf := hq.1 i
    rw [hi] at hf
    refine Or.resolve_right ?_ hf.1
    by_contra hn
    exact (h1 _ .refl).1 (.inl ⟨i, .inr (.inr ⟨p, v, k, hi, fun ok => hn (part_ok ok).1⟩)⟩)
  | comp q c =>
    obtain ⟨v, m₁, h1, -⟩ := g
    cases q with
    | wr q w k =>
      obtain rfl : q = p := hr
      simp only [run] at h1
      split at h1
      · next hk => exact (part_ok hk).1.resolve_right hq.1.1
      · simp at h1
    | _ => exact absurd hr (by unfold Act.Writes; simp)

/-- a caller's own step -/
theorem CallInv.step {O C : Set ℕ} {A A' : Act F α} {l l' : Local} {m m' : Mem F} {a : α} {s' : PState F} (hd : Disjoint O C) (h : CallInv O C A l m a s')
    (st : CStep A l m A' l' m') : CallInv O C A' l' m' a s' ∧ SameOut O m m' := by
  obtain ⟨g, hl, hp, hq⟩ := h
  cases st with
  | skip =>
    cases g with
    | kern h t => cases h; exact ⟨⟨t, hl, hp, hq.2⟩, SameOut.refl _ _⟩
  | @enter p =>
    cases g with
    | kern h t => cases h with
      | cons h1 h2 =>
        refine ⟨⟨⟨_, _, h1, h2, t⟩, hl, hp, fun i => ?_, fun ph hph => hq.1 ph (List.mem_cons_of_mem _ hph), hq.2⟩, SameOut.refl _ _⟩
        unfold threads
        split
        · exact hq.1 p List.mem_cons_self i
        · trivial
  | par h =>
    obtain ⟨m₁, m₂, h1, h2, h3⟩ := g
    obtain ⟨h4, h5, h6⟩ := step_part (h1 _ .refl).1 hq.1 h
    exact ⟨⟨⟨m₁, m₂, fun x hx => h1 x (Relation.ReflTransGen.head h4 hx), h2, h3⟩, hl, hp, h6, hq.2⟩, h5⟩
  | barrier h =>
    obtain ⟨m₁, m₂, h1, h2, h3⟩ := g
    have e := (h1 _ .refl).2.1 h
    simp only at e
    rw [← e] at h2
    exact ⟨⟨.kern h2 h3, hl, hp, hq.2⟩, SameOut.refl _ _⟩
  | ask =>
    cases g with
    | query h t => exact ⟨⟨⟨_, _, h, t⟩, hl, hp, hq⟩, SameOut.refl _ _⟩
  | rd ok =>
    obtain ⟨v, m₁, h1, h2⟩ := g
    simp only [run] at h1
    split at h1
    · next hk =>
      rw [show (l.on (m.part (O ∪ C))).mem = m.part (O ∪ C) from rfl, part_val (part_ok hk).1] at h1
      exact ⟨⟨⟨v, m₁, h1, h2⟩, hl, hp, hq.1.2 _, hq.2⟩, SameOut.refl _ _⟩
    · simp at h1
  | wr ok =>
    obtain ⟨v, m₁, h1, h2⟩ := g
    simp only [run] at h1
    split at h1
    · next hk =>
      rw [show (l.on (m.part (O ∪ C))).mem = m.part (O ∪ C) from rfl, ← part_write (part_ok hk).1] at h1
      exact ⟨⟨⟨v, m₁, h1, h2⟩, hl, hp, hq.1.2, hq.2⟩, SameOut.write ((part_ok hk).1.resolve_right hq.1.1)⟩
    · simp at h1
  | answer =>
    obtain ⟨v, m₁, h1, h2⟩ := g
    simp only [run_ret, Option.some.injEq, Prod.mk.injEq] at h1
    obtain ⟨rfl, rfl⟩ := h1
    exact ⟨⟨h2, hl, hp, hq.2 _⟩, SameOut.refl _ _⟩
  | @calloc N c =>
    cases g with
    | calloc t =>
      have hn : l.next < ((l.on (m.part (O ∪ C))).calloc N).2.next → l.next ∈ O := fun hlt => hp _ le_rfl (lt_of_lt_of_le hlt t.next_le)
      obtain ⟨h1, h2, h3, h4⟩ := calloc_part hn
      rw [h1, h2] at t
      refine ⟨⟨t, fun b hb => ?_, fun b hb hb' => hp b (le_trans ?_ hb) hb', hq _ fun p hp' hc => ?_⟩, h3⟩
      · rcases h4 b hb with h5 | h5
        · exact hl b h5
        · exact h5
      · simp only [PState.loc]
        unfold PState.calloc; split <;> simp [Local.on]
      · rw [← h1] at hp'
        have h5 : p.blk = l.next ∧ l.next < ((l.on (m.part (O ∪ C))).calloc N).2.next := by
          unfold PState.calloc at hp' ⊢
          split at hp'
          · next hcond =>
            rw [if_pos hcond]
            simp only [Option.some.injEq] at hp'
            rw [← hp']
            exact ⟨rfl, by simp [Local.on]⟩
          · simp at hp'
        rw [h5.1] at hc
        exact Set.disjoint_left.1 hd (hn h5.2) hc
  | free h =>
    cases g with
    | free h' t =>
      obtain ⟨h1, h2, h3, h4⟩ := (free_part (m := m) (O := O) (C := C) hl).2 _ h
      rw [h1] at h'
      simp only [Option.some.injEq] at h'
      rw [← h'] at t
      exact ⟨⟨t, fun b hb => hl b (h3 b hb), fun b hb => hp b (by rw [← h4]; exact hb), hq.2⟩, h2⟩

/-- the steps of others -/
theorem CallInv.frame {O O' C : Set ℕ} {A : Act F α} {l : Local} {m m' : Mem F} {a : α} {s' : PState F} (h : CallInv O C A l m a s')
    (ho : SameOut O' m m') (hd : ∀ b ∈ O, b ∉ O') (hc : ∀ b ∈ C, b ∉ O') : CallInv O C A l m' a s' := by
  refine ⟨?_, h.live, h.pool, h.spare⟩
  rw [ho.part fun b hb => hb.elim (hd b) (hc b)]; exact h.good

/-- any number of steps of one caller -/
inductive CSteps : Act F α → Local → Mem F → Act F α → Local → Mem F → Prop
  | refl (A : Act F α) (l : Local) (m : Mem F) : CSteps A l m A l m
  | head {A A₁ A₂ : Act F α} {l l₁ l₂ : Local} {m m₁ m₂ : Mem F} (h : CStep A l m A₁ l₁ m₁) (t : CSteps A₁ l₁ m₁ A₂ l₂ m₂) : CSteps A l m A₂ l₂ m₂

theorem CSteps.trans {A A₁ A₂ : Act F α} {l l₁ l₂ : Local} {m m₁ m₂ : Mem F} (h : CSteps A l m A₁ l₁ m₁) (t : CSteps A₁ l₁ m₁ A₂ l₂ m₂) :
    CSteps A l m A₂ l₂ m₂ := by
  induction h with
  | refl => exact t
  | head h _ ih => exact .head h (ih t)

theorem CSteps.loop {T T' : ℕ → Prog F Unit} {m m' : Mem F} {k : Kernel F} {c : Cmd F α} {l : Local} (h : Steps (T, m) (T', m')) :
    CSteps (.loop T k c) l m (.loop T' k c) l m' := by
  generalize hx : (T, m) = x at h
  generalize hy : (T', m') = y at h
  induction h using Relation.ReflTransGen.head_induction_on generalizing T m with
  | refl =>
    rw [← hy] at hx
    simp only [Prod.mk.injEq] at hx
    obtain ⟨rfl, rfl⟩ := hx
    exact .refl _ _ _
  | @head a b h' _ ih =>
    subst hx
    exact .head (.par (T' := b.1) (m' := b.2) h') (ih rfl)

theorem CSteps.comp {p : Prog F F} {m m' : Mem F} {v : F} {c : F → Cmd F α} {l : Local} (h : p.run m = some (v, m')) :
    CSteps (.comp p c) l m (.cmd (c v)) l m' := by
  induction p generalizing m with
  | ret a =>
    simp only [run_ret, Option.some.injEq, Prod.mk.injEq] at h
    obtain ⟨rfl, rfl⟩ := h
    exact .head .answer (.refl _ _ _)
  | ub => simp at h
  | rd q k ih =>
    simp only [run] at h
    split at h
    · next hk => exact .head (.rd hk) (ih _ h)
    · simp at h
  | wr q v k ih =>
    simp only [run] at h
    split at h
    · next hk => exact .head (.wr hk) (ih h)
    · simp at h

theorem CSteps.kern {k : Kernel F} {m m' : Mem F} {c : Cmd F α} {l : Local} (h : KSpec k m m') :
    CSteps (.cmd (.kern k c)) l m (.cmd c) l m' := by
  induction h with
  | nil => exact .head .skip (.refl _ _ _)
  | cons h _ ih =>
    obtain ⟨x, h1, h2, h3⟩ := (h _ .refl).2.2
    subst h3
    exact .head .enter ((CSteps.loop (T' := x.1) (m' := x.2) h1).trans (.head (.barrier h2) ih))

/-- a command with a description can be run by itself, also as the first part of a longer one -/
theorem CSpec.steps {β : Type} {c : Cmd F α} {s s' : PState F} {a : α} (h : CSpec c s a s') (f : α → Cmd F β) :
    CSteps (.cmd (c.bind f)) s.loc s.mem (.cmd (f a)) s'.loc s'.mem := by
  induction h with
  | done => exact .refl _ _ _
  | kern h _ ih => exact (CSteps.kern h).trans ih
  | query h _ ih => exact .head .ask ((CSteps.comp h).trans ih)
  | calloc _ ih => exact .head .calloc ih
  | free h _ ih => exact .head (.free h) ih

theorem CallInv.steps {O C : Set ℕ} {A A' : Act F α} {l l' : Local} {m m' : Mem F} {a : α} {s' : PState F} (hd : Disjoint O C) (st : CSteps A l m A' l' m') :
    CallInv O C A l m a s' → CallInv O C A' l' m' a s' ∧ SameOut O m m' := by
  induction st with
  | refl => exact fun h => ⟨h, SameOut.refl _ _⟩
  | head h _ ih =>
    intro hi
    obtain ⟨h1, h2⟩ := hi.step hd h
    obtain ⟨h3, h4⟩ := ih h1
    exact ⟨h3, h2.trans h4⟩

theorem steps_lift {O : Set ℕ} {T T' : ℕ → Prog F Unit} {m m₁ : Mem F} (h : Steps (T, m.part O) (T', m₁)) :
    ∃ m', Steps (T, m) (T', m') ∧ m'.part O = m₁ := by
  generalize hx : (T, m.part O) = x at h
  generalize hy : (T', m₁) = y at h
  induction h using Relation.ReflTransGen.head_induction_on generalizing T m with
  | refl =>
    rw [← hy] at hx
    simp only [Prod.mk.injEq] at hx
    obtain ⟨rfl, rfl⟩ := hx
    exact ⟨m, .refl, rfl⟩
  | @head a b h' _ ih =>
    subst hx
    obtain ⟨m', h1, h2⟩ := step_lift (T' := b.1) (m₁ := b.2) h'
    obtain ⟨m'', h3, h4⟩ := ih (T := b.1) (m := m') (by rw [h2])
    exact ⟨m'', Relation.ReflTransGen.head h1 h3, h4⟩

theorem run_lift {O : Set ℕ} {p : Prog F F} {m m₁ : Mem F} {v : F} (h : p.run (m.part O) = some (v, m₁)) : ∃ m', p.run m = some (v, m') := by
  induction p generalizing m with
  | ret a =>
    simp only [run_ret, Option.some.injEq, Prod.mk.injEq] at h
    exact ⟨m, by simp [h.1]⟩
  | ub => simp at h
  | rd q k ih =>
    simp only [run] at h ⊢
    split at h
    · next hk =>
      rw [part_val (part_ok hk).1] at h
      rw [if_pos (part_ok hk).2]
      exact ih _ h
    · simp at h
  | wr q v k ih =>
    simp only [run] at h ⊢
    split at h
    · next hk =>
      rw [← part_write (part_ok hk).1] at h
      rw [if_pos (part_ok hk).2]
      exact ih h
    · simp at h

/-- a call can be completed while the others rest -/
theorem CallInv.finish_cmd {O C : Set ℕ} {c : Cmd F α} {a : α} {s' : PState F} (hd : Disjoint O C) :
    ∀ {l : Local} {m : Mem F}, CallInv O C (.cmd c) l m a s' → ∃ l' m', CSteps (.cmd c) l m (.cmd (.done a)) l' m' := by
  induction c with
  | done r =>
    intro l m h
    cases h.good
    exact ⟨l, m, .refl _ _ _⟩
  | kern k c ih =>
    induction k with
    | nil =>
      intro l m h
      obtain ⟨l', m', h1⟩ := ih (h.step hd .skip).1
      exact ⟨l', m', .head .skip h1⟩
    | cons p k ihk =>
      intro l m h
      have h1 := (h.step hd .enter).1
      obtain ⟨m₁, m₂, h2, -, -⟩ := h1.good
      obtain ⟨y, h3, h4, -⟩ := (h2 _ .refl).2.2
      obtain ⟨m', h5, -⟩ := steps_lift (T' := y.1) (m₁ := y.2) h3
      have h6 : CSteps (.cmd (.kern (p :: k) c)) l m (.cmd (.kern k c)) l m' := .head .enter ((CSteps.loop h5).trans (.head (.barrier h4) (.refl _ _ _)))
      obtain ⟨l'', m'', h7⟩ := ihk (h.steps hd h6).1
      exact ⟨l'', m'', h6.trans h7⟩
  | query p c ih =>
    intro l m h
    have h1 := (h.step hd .ask).1
    obtain ⟨v, m₁, h2, -⟩ := h1.good
    obtain ⟨m', h3⟩ := run_lift h2
    have h6 : CSteps (.cmd (.query p c)) l m (.cmd (c v)) l m' := .head .ask (CSteps.comp h3)
    obtain ⟨l'', m'', h7⟩ := ih v (h.steps hd h6).1
    exact ⟨l'', m'', h6.trans h7⟩
  | calloc N c ih =>
    intro l m h
    obtain ⟨l', m', h1⟩ := ih _ (h.step hd .calloc).1
    exact ⟨l', m', .head .calloc h1⟩
  | free p c ih =>
    intro l m h
    obtain ⟨s, hs⟩ : ∃ s, (l.on m).free p = some s := by
      cases hs : (l.on m).free p with
      | none => exact absurd hs h.safe
      | some s => exact ⟨s, rfl⟩
    obtain ⟨l', m', h1⟩ := ih (h.step hd (.free hs)).1
    exact ⟨l', m', .head (.free hs) h1⟩

theorem CallInv.finish {O C : Set ℕ} {A : Act F α} {l : Local} {m : Mem F} {a : α} {s' : PState F} (hd : Disjoint O C) (h : CallInv O C A l m a s') :
    ∃ l' m', CSteps A l m (.cmd (.done a)) l' m' := by
  cases A with
  | cmd c => exact h.finish_cmd hd
  | loop T k c =>
    obtain ⟨m₁, m₂, h2, -, -⟩ := h.good
    obtain ⟨y, h3, h4, -⟩ := (h2 _ .refl).2.2
    obtain ⟨m', h5, -⟩ := steps_lift (T' := y.1) (m₁ := y.2) h3
    have h6 : CSteps (.loop T k c) l m (.cmd (.kern k c)) l m' := (CSteps.loop h5).trans (.head (.barrier h4) (.refl _ _ _))
    obtain ⟨l'', m'', h7⟩ := (h.steps hd h6).1.finish_cmd hd
    exact ⟨l'', m'', h6.trans h7⟩
  | comp p c =>
    obtain ⟨v, m₁, h2, -⟩ := h.good
    obtain ⟨m', h3⟩ := run_lift h2
    have h6 : CSteps (.comp p c) l m (.cmd (c v)) l m' := CSteps.comp h3
    obtain ⟨l'', m'', h7⟩ := (h.steps hd h6).1.finish_cmd hd
    exact ⟨l'', m'', h6.trans h7⟩

theorem CallInv.returned {O C : Set ℕ} {r : α} {l : Local} {m : Mem F} {a : α} {s' : PState F} (h : CallInv O C (.cmd (.done r)) l m a s') :
    r = a ∧ l = s'.loc ∧ m.part (O ∪ C) = s'.mem := by
  have := h.good
  cases this
  exact ⟨rfl, rfl, rfl⟩

section sys
variable {ι : Type} [DecidableEq ι] {β : ι → Type}

theorem SSteps.caller {X : Sys F β} (i : ι) {A : Act F (β i)} {l : Local} {m : Mem F} (h : CSteps (X.act i) (X.loc i) X.mem A l m) :
    SSteps X ⟨Function.update X.act i A, Function.update X.loc i l, m⟩ := by
  obtain ⟨act, loc, mem⟩ := X
  simp only at h ⊢
  generalize ha : act i = A₀ at h
  generalize hl : loc i = l₀ at h
  induction h generalizing act loc with
  | refl => subst ha hl; simp; exact .refl
  | @head A A₁ A₂ l l₁ l₂ m m₁ m₂ h _ ih =>
    subst ha hl
    refine Relation.ReflTransGen.head (SStep.step (X := ⟨act, loc, m⟩) i h) ?_
    have := ih (Function.update act i A₁) (Function.update loc i l₁) (by simp) (by simp)
    simpa using this

/-- every caller is in the middle of its call; blocks of nobody are as at the start -/
structure SysInv (O : ι → Set ℕ) (C : Set ℕ) (a : ∀ i, β i) (s' : ι → PState F) (m₀ : Mem F) (X : Sys F β) : Prop where
  inv : ∀ i, CallInv (O i) C (X.act i) (X.loc i) X.mem (a i) (s' i)
  out : SameOut (⋃ i, O i) m₀ X.mem

variable {O : ι → Set ℕ} {C : Set ℕ} {a : ∀ i, β i} {s' : ι → PState F} {m₀ : Mem F} {X Y : Sys F β}

theorem SysInv.upd (hd : ∀ i j, i ≠ j → Disjoint (O i) (O j)) (hc : ∀ i, Disjoint (O i) C)
    (h : SysInv O C a s' m₀ X) (i : ι) {A : Act F (β i)} {l : Local} {m : Mem F} (hi : CallInv (O i) C A l m (a i) (s' i)) (ho : SameOut (O i) X.mem m) :
    SysInv O C a s' m₀ ⟨Function.update X.act i A, Function.update X.loc i l, m⟩ := by
  refine ⟨fun j => ?_, h.out.trans fun b hb => ho b fun hn => hb (Set.mem_iUnion.2 ⟨i, hn⟩)⟩
  by_cases e : j = i
  · subst e; simpa using hi
  · simpa [e] using (h.inv j).frame ho (fun b hb hb' => Set.disjoint_left.1 (hd j i e) hb hb') fun b hb hb' => Set.disjoint_left.1 (hc i) hb' hb

theorem SysInv.step (hd : ∀ i j, i ≠ j → Disjoint (O i) (O j)) (hc : ∀ i, Disjoint (O i) C) (h : SysInv O C a s' m₀ X) (st : SStep X Y) : SysInv O C a s' m₀ Y := by
  cases st with
  | step i hs =>
    obtain ⟨h1, h2⟩ := (h.inv i).step (hc i) hs
    exact h.upd hd hc i h1 h2

theorem SysInv.steps (hd : ∀ i j, i ≠ j → Disjoint (O i) (O j)) (hc : ∀ i, Disjoint (O i) C) (h : SysInv O C a s' m₀ X) (st : SSteps X Y) : SysInv O C a s' m₀ Y := by
  induction st with
  | refl => exact h
  | tail _ hs ih => exact ih.step hd hc hs

theorem SysInv.finish [Fintype ι] (hd : ∀ i j, i ≠ j → Disjoint (O i) (O j)) (hc : ∀ i, Disjoint (O i) C) (h : SysInv O C a s' m₀ X) : ∃ Y, SSteps X Y ∧ Y.Returned a := by
  suffices hs : ∀ S : Finset ι, ∃ Y, SSteps X Y ∧ ∀ i ∈ S, Y.act i = .cmd (.done (a i)) by
    obtain ⟨Y, h1, h2⟩ := hs Finset.univ
    exact ⟨Y, h1, fun i => h2 i (Finset.mem_univ i)⟩
  intro S
  induction S using Finset.induction_on with
  | empty => exact ⟨X, .refl, by simp⟩
  | insert i S hi ih =>
    obtain ⟨Y, h1, h2⟩ := ih
    obtain ⟨l', m', h3⟩ := ((h.steps hd hc h1).inv i).finish (hc i)
    refine ⟨_, h1.trans (SSteps.caller i h3), fun j hj => ?_⟩
    by_cases e : j = i
    · subst e; simp
    · simpa [e] using h2 j (by simpa [e] using hj)

end sys

omit [Scalar F] in
theorem foot_empty {γ : Type} (p : Prog F γ) : Foot {a : Ptr | a.blk ∉ (∅ : Set ℕ)} Set.univ p := by
  induction p with
  | ret => trivial
  | ub => trivial
  | rd p k ih => exact ⟨Set.mem_univ _, ih⟩
  | wr p v k ih => exact ⟨fun h => h, ih⟩

omit [Scalar F] in
theorem spares_empty (c : Cmd F α) : c.Spares ∅ := by
  induction c with
  | done => trivial
  | kern k c ih => exact ⟨fun ph _ i => foot_empty _, ih⟩
  | query p c ih => exact ⟨foot_empty _, ih⟩
  | calloc N c ih => exact fun r _ => ih r
  | free p c ih => exact ⟨fun q _ h => h, ih⟩

end L1c
