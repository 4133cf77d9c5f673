import Verif.Model.NewtonMem
import Verif.Proofs.CmdAlloc

/-! Helper lemmas: series of allocations of different sizes. -/

namespace L1c
open Prog Scalar Cmd

variable {F : Type} [Scalar F]

/-- `p` points to a zeroed block of `N` doubles with a number of at least `lo` -/
structure FreshBlk (lo : ℕ) (s : PState F) (p : Ptr) (N : ℕ) : Prop where
  ge : lo ≤ p.blk
  lt : p.blk < s.next
  off : p.off = 0
  len : s.mem.len p.blk = N
  zero : ∀ q : Ptr, q.blk = p.blk → s.mem.val q = lit 0

/-- the blocks of `s` are as they were -/
structure Grow (s s' : PState F) : Prop where
  next_le : s.next ≤ s'.next
  orc : s'.oracle = s.oracle
  val : OldVals s s'
  len : ∀ b < s.next, s'.mem.len b = s.mem.len b

omit [Scalar F] in
theorem Grow.refl (s : PState F) : Grow s s := ⟨le_rfl, rfl, fun _ _ => rfl, fun _ _ => rfl⟩

omit [Scalar F] in
theorem Grow.trans {s s' s'' : PState F} (h : Grow s s') (g : Grow s' s'') : Grow s s'' :=
  ⟨h.next_le.trans g.next_le, g.orc.trans h.orc, fun p hp => (g.val p (hp.trans_le h.next_le)).trans (h.val p hp),
   fun b hb => (g.len b (hb.trans_le h.next_le)).trans (h.len b hb)⟩

theorem FreshBlk.grow {lo : ℕ} {s s' : PState F} {p : Ptr} {N : ℕ} (h : FreshBlk lo s p N) (g : Grow s s') : FreshBlk lo s' p N :=
  ⟨h.ge, h.lt.trans_le g.next_le, h.off, (g.len _ h.lt).trans h.len, fun q hq => (g.val q (hq ▸ h.lt)).trans (h.zero q hq)⟩

theorem FreshBlk.lo {lo lo' : ℕ} {s : PState F} {p : Ptr} {N : ℕ} (h : FreshBlk lo s p N) (hl : lo' ≤ lo) : FreshBlk lo' s p N :=
  ⟨hl.trans h.ge, h.lt, h.off, h.len, h.zero⟩

omit [Scalar F] in
theorem Ext.perm {s s' : PState F} {L L' : List (Option Ptr)} (h : Ext s s' L) (hp : L.Perm L') : Ext s s' L' where
  next_le := h.next_le
  orc := h.orc
  old_live := h.old_live
  old_len := h.old_len
  new_live b hb := by
    rw [h.new_live b hb]
    simp only [hp.mem_iff]
  new_len := h.new_len
  ptrs p hm := h.ptrs p (hp.mem_iff.2 hm)
  nd := by
    refine (hp.pairwise_iff ?_).1 h.nd
    intro a b hab p p' e1 e2 e
    exact hab p' p e2 e1 e.symm

/-- one allocation -/
theorem Ext.alloc {s0 s : PState F} {L : List (Option Ptr)} (h : Ext s0 s L) (N : ℕ) :
    Ext s0 (s.calloc N).2 (L ++ [(s.calloc N).1]) ∧ Grow s (s.calloc N).2 ∧ (s.calloc N).2.calls = s.calls + 1 ∧
    (∀ p, (s.calloc N).1 = some p → FreshBlk s.next (s.calloc N).2 p N) ∧ ((s.calloc N).1.isSome = true ↔ s0.oracle s.calls = true) := by
  obtain ⟨h1, h2, h3, h4, h5, h6, h7⟩ := h.calloc (N : Int)
  refine ⟨h1, ⟨h7, h1.orc.trans h.orc.symm, h2, fun b hb => h4 b (by omega)⟩, h5, fun p hp => ?_, by simpa using h6⟩
  obtain ⟨a, b, c⟩ := h3 p hp
  obtain ⟨d, e, f⟩ := h1.ptrs p (by simp [hp])
  exact ⟨a.ge, e, f, by simpa using b, c⟩

theorem callocs_spec (Ns : List ℕ) {s0 s : PState F} {L : List (Option Ptr)} (h : Ext s0 s L) :
    ∃ l s', CSpec (callocsC (Ns.map fun N => (N : Int))) s l s' ∧ Ext s0 s' (L ++ l) ∧ Grow s s' ∧ s'.calls = s.calls + Ns.length ∧
      List.Forall₂ (fun o N => ∀ p, o = some p → FreshBlk s.next s' p N) l Ns ∧
      ((∀ o ∈ l, o.isSome = true) ↔ ∀ i < Ns.length, s0.oracle (s.calls + i) = true) := by
  induction Ns generalizing s L with
  | nil => exact ⟨[], s, .done _ _, by simpa using h, Grow.refl s, rfl, .nil, by simp⟩
  | cons N Ns ih =>
    obtain ⟨a1, a2, a3, a4, a5⟩ := h.alloc N
    obtain ⟨l, s', b1, b2, b3, b4, b5, b6⟩ := ih a1
    refine ⟨(s.calloc N).1 :: l, s', (cspec_calloc _ s).bind (b1.bind (.done _ _)), by simpa using b2, a2.trans b3, ?_,
      .cons (fun p hp => (a4 p hp).grow b3) (b5.imp fun o M ho p hp => (ho p hp).lo a2.next_le), ?_⟩
    · rw [b4, a3, List.length_cons]; omega
    · rw [List.forall_mem_cons, a5, b6, List.length_cons, a3]
      constructor
      · rintro ⟨h0, h1⟩ i hi
        rcases i with _ | i
        · exact h0
        · have := h1 i (by omega)
          rwa [show s.calls + (i + 1) = s.calls + 1 + i by omega]
      · intro hh
        refine ⟨hh 0 (by omega), fun i hi => ?_⟩
        have := hh (i + 1) (by omega)
        rwa [show s.calls + 1 + i = s.calls + (i + 1) by omega]

theorem frees_spec (l : List (Option Ptr)) {s0 s : PState F} {L : List (Option Ptr)} (h : Ext s0 s (l ++ L)) :
    ∃ s', CSpec (freesC l) s () s' ∧ Ext s0 s' L ∧ s'.mem.val = s.mem.val ∧ s'.calls = s.calls := by
  induction l generalizing s with
  | nil => exact ⟨s, .done _ _, h, rfl, rfl⟩
  | cons o l ih =>
    obtain ⟨s1, a1, a2, a3, a4⟩ := h.free
    obtain ⟨s2, b1, b2, b3, b4⟩ := ih a2
    exact ⟨s2, (cspec_free a1).bind b1, b2, b3.trans a3, b4.trans a4⟩

theorem callocRows_spec (N k : ℕ) {s0 s : PState F} {rows : List Ptr} {L : List (Option Ptr)} (h : Ext s0 s (rows.map some ++ L)) :
    ∃ res s', CSpec (callocRowsC N k rows) s res s' ∧ OldVals s s' ∧
      (((∀ i < k, s0.oracle (s.calls + i) = true) ∧ ∃ new, res = some (rows ++ new) ∧ new.length = k ∧ (∀ p ∈ new, FreshBlk s.next s' p N) ∧
        Ext s0 s' ((rows ++ new).map some ++ L) ∧ Grow s s') ∨
       ((¬ ∀ i < k, s0.oracle (s.calls + i) = true) ∧ res = none ∧ Ext s0 s' L)) := by
  induction k generalizing s rows with
  | zero => exact ⟨_, s, .done _ _, fun _ _ => rfl, Or.inl ⟨by simp, [], by simp, rfl, by simp, by simpa using h, Grow.refl s⟩⟩
  | succ k ih =>
    obtain ⟨a1, a2, a3, a4, a5⟩ := h.alloc N
    cases hp : (s.calloc N).1 with
    | none =>
      rw [hp] at a1 a5
      obtain ⟨s2, b1, b2, b3, b4⟩ := frees_spec (rows.map some) (L := L ++ [none]) (by simpa using a1)
      obtain ⟨s3, c1, c2, c3, c4⟩ := (b2.perm (List.perm_append_comm (l₂ := [none]))).free
      obtain rfl : s2 = s3 := Option.some.inj c1
      have hc := (cspec_calloc (N : Int) s)
      rw [hp] at hc
      refine ⟨none, s2, hc.bind (b1.bind (.done _ _)), fun p hp' => by rw [b3]; exact a2.val p hp', Or.inr ⟨fun hh => ?_, rfl, c2⟩⟩
      exact absurd (a5.2 (hh 0 (by omega))) (by simp)
    | some p =>
      rw [hp] at a1 a5
      have hfr := a4 p hp
      obtain ⟨res, s', b1, b2, b3⟩ := ih (s := (s.calloc N).2) (rows := rows ++ [p]) (a1.perm (by
        rw [List.map_append, List.append_assoc, List.append_assoc]
        exact List.Perm.append_left _ List.perm_append_comm))
      have hc := (cspec_calloc (N : Int) s)
      rw [hp] at hc
      refine ⟨res, s', hc.bind b1, fun q hq => (b2 q (hq.trans_le a2.next_le)).trans (a2.val q hq), ?_⟩
      have h0 : s0.oracle s.calls = true := a5.1 rfl
      rw [a3] at b3
      rcases b3 with ⟨c0, new, c1, c2, c3, c4, c5⟩ | ⟨c0, c1, c2⟩
      · refine Or.inl ⟨fun i hi => ?_, p :: new, by simpa using c1, by simp [c2], ?_, by simpa using c4, a2.trans c5⟩
        · rcases i with _ | i
          · exact h0
          · have := c0 i (by omega)
            rwa [show s.calls + (i + 1) = s.calls + 1 + i by omega]
        · intro p' hp'
          rcases List.mem_cons.1 hp' with rfl | hp'
          · exact hfr.grow c5
          · exact (c3 p' hp').lo a2.next_le
      · refine Or.inr ⟨fun hh => c0 fun i hi => ?_, c1, c2⟩
        have := hh (i + 1) (by omega)
        rwa [show s.calls + 1 + i = s.calls + (i + 1) by omega]

theorem calloc2D_spec (nrow N : ℕ) {s0 s : PState F} {L : List (Option Ptr)} (h : Ext s0 s L) :
    ∃ res s', CSpec (calloc2DC nrow N) s res s' ∧ OldVals s s' ∧
      (((∀ i < nrow + 1, s0.oracle (s.calls + i) = true) ∧ ∃ t rows, res = some (t, rows) ∧ rows.length = nrow ∧ (∀ p ∈ rows, FreshBlk s.next s' p N) ∧
        Ext s0 s' (rows.map some ++ (some t :: L)) ∧ Grow s s') ∨
       ((¬ ∀ i < nrow + 1, s0.oracle (s.calls + i) = true) ∧ res = none ∧ Ext s0 s' L)) := by
  obtain ⟨a1, a2, a3, a4, a5⟩ := h.alloc nrow
  have hc := (cspec_calloc (nrow : Int) s)
  cases hp : (s.calloc nrow).1 with
  | none =>
    rw [hp] at a1 a5 hc
    obtain ⟨s3, c1, c2, -, -⟩ := (a1.perm (List.perm_append_comm (l₂ := [none]))).free
    obtain rfl : (s.calloc nrow).2 = s3 := Option.some.inj c1
    refine ⟨none, _, hc.bind (.done _ _), a2.val, Or.inr ⟨fun hh => ?_, rfl, c2⟩⟩
    exact absurd (a5.2 (hh 0 (by omega))) (by simp)
  | some t =>
    rw [hp] at a1 a5 hc
    have h0 : s0.oracle s.calls = true := a5.1 rfl
    obtain ⟨res, s', b1, b2, b3⟩ := callocRows_spec N nrow (rows := []) (a1.perm (List.perm_append_comm (l₂ := [some t])))
    have hv : OldVals s s' := fun q hq => (b2 q (hq.trans_le a2.next_le)).trans (a2.val q hq)
    rw [a3] at b3
    rcases b3 with ⟨c0, new, c1, c2, c3, c4, c5⟩ | ⟨c0, c1, c2⟩
    · rw [c1] at b1
      refine ⟨_, s', hc.bind (b1.bind (.done _ _)), hv, Or.inl ⟨fun i hi => ?_, t, new, by simp, c2, fun p hp' => (c3 p hp').lo a2.next_le, c4, a2.trans c5⟩⟩
      rcases i with _ | i
      · exact h0
      · have := c0 i (by omega)
        rwa [show s.calls + (i + 1) = s.calls + 1 + i by omega]
    · rw [c1] at b1
      obtain ⟨s3, d1, d2, d3, d4⟩ := Ext.free (o := some t) (L := L) c2
      refine ⟨none, s3, hc.bind (b1.bind ((cspec_free d1).bind (.done _ _))), fun q hq => by rw [d3]; exact hv q hq, Or.inr ⟨fun hh => c0 fun i hi => ?_, rfl, d2⟩⟩
      have := hh (i + 1) (by omega)
      rwa [show s.calls + 1 + i = s.calls + (i + 1) by omega]

theorem free2D_spec (d : Option (Ptr × List Ptr)) {s0 s : PState F} {L : List (Option Ptr)}
    (h : Ext s0 s ((match d with | none => [] | some (t, rows) => rows.map some ++ [some t]) ++ L)) :
    ∃ s', CSpec (free2DC d) s () s' ∧ Ext s0 s' L ∧ s'.mem.val = s.mem.val := by
  rcases d with _ | ⟨t, rows⟩
  · exact ⟨s, cspec_free rfl, by simpa using h, rfl⟩
  · obtain ⟨s1, a1, a2, a3, -⟩ := frees_spec (rows.map some) (L := some t :: L) (by simpa using h)
    obtain ⟨s2, b1, b2, b3, -⟩ := a2.free
    exact ⟨s2, a1.bind (cspec_free b1), b2, b3.trans a3⟩

end L1c
