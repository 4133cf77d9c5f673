import Verif.Spec.PyMem
import Verif.Proofs.NestaMexMem

/-! Helper lemmas: the solvers called from Python, on memory. -/

namespace L1c
open Prog Scalar Cmd

section generic
variable {F : Type} [Scalar F] {s s1 s2 : PState F} {L : List (Option Ptr)}

omit [Scalar F] in
theorem Ext.kept (hw : s.WF) (E : Ext s s1 L) (v : ∀ a : Ptr, s.live a.blk = true → s1.mem.val a = s.mem.val a) : CallerKept s s1 :=
  ⟨fun k hk => ⟨by rw [E.old_live k (hw.lt hk)]; exact hk, E.old_len k (hw.lt hk)⟩, v⟩

theorem freesC_len {l : List (Option Ptr)} {k : ℕ} (h : CSpec (freesC l) s () s1) (hk : ∀ p, some p ∈ l → p.blk ≠ k) : s1.mem.len k = s.mem.len k := by
  induction l generalizing s with
  | nil =>
    cases h
    rfl
  | cons o l ih =>
    have h' : CSpec (Cmd.free o (freesC l)) s () s1 := h
    cases h' with
    | @free _ _ _ s₂ _ _ e t =>
      rw [ih t fun p hp => hk p (List.mem_cons_of_mem _ hp)]
      cases o with
      | none =>
        cases Option.some.inj e
        rfl
      | some p =>
        have e' : (if s.live p.blk = true ∧ p.off = 0 then some { s with mem := { s.mem with len := Function.update s.mem.len p.blk 0 }, live := Function.update s.live p.blk false } else none) = some s₂ := e
        by_cases hc : s.live p.blk = true ∧ p.off = 0
        · rw [if_pos hc] at e'
          rw [← Option.some.inj e']
          exact Function.update_of_ne (hk p (by simp)).symm _ _
        · rw [if_neg hc] at e'
          cases e'

theorem copyOut_spec {N : ℕ} {x : Ptr} {v : Vec F N} (E : Ext s s1 L) (hx : some x ∈ L) (h : HoldsV s1 x v) :
    ∃ r s2, CSpec (simpleDoubleCopyM N x) s1 r s2 ∧ Ext s s2 (L ++ [r]) ∧ OldVals s1 s2 ∧ (r.isSome = true ↔ s.oracle s1.calls = true) ∧
      ∀ z, r = some z → HoldsV s2 z v ∧ s2.mem.len z.blk = N := by
  obtain ⟨a1, a2, a3, a4, a5⟩ := E.alloc N
  rcases e : (s1.calloc N).1 with _ | z
  · rw [e] at a1 a5
    refine ⟨none, _, (cspec_calloc (N : Int) s1).bind ?_, a1, a2.val, a5, fun z hz => by cases hz⟩
    rw [e]
    exact .done _ _
  · rw [e] at a1 a5
    have f := a4 z e
    have hxl := (E.ptrs x hx).2.1
    have hx' : HoldsV (s1.calloc N).2 x v := h.grow (a2.len _ hxl) fun q hq => a2.val q (hq ▸ hxl)
    have hzx : z.blk ≠ x.blk := by
      have := f.ge
      omega
    obtain ⟨s2, c1, c2, c3⟩ := cmd_copy hx' f.holds0.1 (NoCross.of_disj (rng_disj hzx))
    refine ⟨some z, s2, (cspec_calloc (N : Int) s1).bind ?_, a1.only c3, (a2.only c3 fun a ha => by rw [ha.1]; exact f.ge).val, a5, fun z' hz => ?_⟩
    · rw [e]
      exact c1.bind (.done _ _)
    · cases hz
      exact ⟨c2, by rw [c3.len]; exact f.len⟩

omit [Scalar F] in
/-- a block handed out during the call -/
theorem Ext.newArray {N : ℕ} {z : Ptr} {v : Vec F N} (hw : s.WF) (E : Ext s s1 L) (hz : some z ∈ L) (h : HoldsV s1 z v) (hl : s1.mem.len z.blk = N) : NewArray s s1 z v :=
  ⟨h, (hw _ (E.ptrs z hz).1).1, E.liveAt hz, hl⟩

omit [Scalar F] in
theorem newBlocks_of (hw : s.WF) (E : Ext s s1 L) (h : ∀ o ∈ L, o.isSome = true) : NewBlocks s s1 L.length := by
  have hf : {b | s1.live b = true ∧ s.live b = false}.Finite := (Set.finite_Iio s1.next).subset fun b hb => E.wf.lt hb.1
  unfold NewBlocks
  rw [← hf.cast_ncard_eq, ext_leak hw E h]

omit [Scalar F] in
theorem newBlocks_none (E : Ext s s1 [none]) : NewBlocks s s1 0 := by
  unfold NewBlocks
  rw [show {b | s1.live b = true ∧ s.live b = false} = ∅ from Set.eq_empty_iff_forall_notMem.2 fun b hb => ?_]
  · exact Set.encard_empty
  · rcases Nat.lt_or_ge b s.next with hn | hn
    · have h1 := E.old_live b hn
      rw [hb.1, hb.2] at h1
      cases h1
    · obtain ⟨p, hp, -⟩ := (E.new_live b hn).1 hb.1
      simp at hp

/-- the end of `_l1qc_dct` -/
theorem pyL1qcEnd_spec (hw : s.WF) {mtot : ℕ} {x : Ptr} {st : Int} {res : Option (LBResult F)} (E : Ext s s1 [some x]) (hold : ∀ a : Ptr, s.live a.blk = true → s1.mem.val a = s.mem.val a)
    {image : Vec F mtot} (hx : st = 0 → HoldsV s1 x image) :
    ∃ out s', CSpec (pyL1qcEndM mtot x (st, res)) s1 out s' ∧ CallerKept s s' ∧
      ((st ≠ 0 ∧ out = .exc "RuntimeError" ∧ NewBlocks s s' 0) ∨ (st = 0 ∧ s.oracle s1.calls = false ∧ out = .exc "MemoryError" ∧ NewBlocks s s' 0) ∨
        (st = 0 ∧ s.oracle s1.calls = true ∧ ∃ z, out = .ret z res ∧ NewArray s s' z image ∧ NewBlocks s s' 1)) := by
  by_cases h0 : st = 0
  · obtain ⟨r, s2, a1, a2, a3, a4, a5⟩ := copyOut_spec E (by simp) (hx h0)
    obtain ⟨s3, b1, b2, b3, -⟩ := frees_spec [some x] a2
    have hv : ∀ a : Ptr, s.live a.blk = true → s3.mem.val a = s.mem.val a := fun a ha => by
      rw [b3, a3 a (lt_of_lt_of_le (hw.lt ha) E.next_le), hold a ha]
    rcases r with _ | z
    · refine ⟨.exc "MemoryError", s3, ?_, b2.kept hw hv, .inr (.inl ⟨h0, ?_, rfl, ?_⟩)⟩
      · unfold pyL1qcEndM
        rw [if_neg (not_not.2 h0)]
        exact a1.bind (b1.bind (.done _ _))
      · exact Bool.eq_false_iff.2 fun hc => by cases a4.2 hc
      · exact newBlocks_none b2
    · obtain ⟨c1, c2⟩ := a5 z rfl
      have hz : some z ∈ [some z] := by simp
      have hne : z.blk ≠ x.blk := by
        have := a2.nd
        simp only [List.singleton_append, List.pairwise_cons] at this
        exact (this.1 (some z) (by simp) _ _ rfl rfl).symm
      refine ⟨.ret z res, s3, ?_, b2.kept hw hv, .inr (.inr ⟨h0, a4.1 rfl, z, rfl, ?_, ?_⟩)⟩
      · unfold pyL1qcEndM
        rw [if_neg (not_not.2 h0)]
        exact a1.bind (b1.bind (.done _ _))
      · have hl : s3.mem.len z.blk = s2.mem.len z.blk := freesC_len b1 fun p hp => by
          simp only [List.mem_singleton, Option.some.injEq] at hp
          rw [hp]; exact hne.symm
        exact b2.newArray hw hz (c1.grow hl fun q _ => by rw [b3]) (hl.trans c2)
      · exact newBlocks_of hw b2 (by simp)
  · obtain ⟨s3, b1, b2, b3, -⟩ := frees_spec [some x] (L := []) E
    refine ⟨.exc "RuntimeError", s3, ?_, b2.kept hw fun a ha => by rw [b3]; exact hold a ha, .inl ⟨h0, rfl, newBlocks_of hw b2 (by simp)⟩⟩
    unfold pyL1qcEndM
    rw [if_pos h0]
    exact b1.bind (.done _ _)

/-! ## NESTA -/

/-- the two arrays of `_nesta_dctTV` -/
theorem pyArrays (hw : s.WF) (m n : ℕ) : ∃ x0 bo s1 s2, CSpec (callocC (m : Int)) s x0 s1 ∧ CSpec (callocC (n : Int)) s1 bo s2 ∧ Ext s s2 [x0, bo] ∧ OldVals s s2 ∧
    (x0.isSome = true ↔ s.oracle s.calls = true) ∧ (bo.isSome = true ↔ s.oracle (s.calls + 1) = true) ∧
    ∀ x b', x0 = some x → bo = some b' → ∀ (b : Ptr) (bv : Vec F n), HoldsV s b bv → b.blk < s.next →
      ∃ s3, CSpec (exec (cblas_dcopy (n : Int) b b')) s2 () s3 ∧ Ext s s3 [some x, some b'] ∧ OldVals s s3 ∧ s3.calls = s.calls + 2 ∧
        HoldsV s3 x (fun _ : Fin m => lit 0) ∧ HoldsV s3 b' bv := by
  obtain ⟨a1, a2, a3, a4, a5⟩ := (Ext.init hw).alloc m
  obtain ⟨b1, b2, b3, b4, b5⟩ := a1.alloc n
  rw [List.nil_append] at b1
  refine ⟨_, _, _, _, cspec_calloc _ _, cspec_calloc _ _, b1, (a2.trans b2).val, a5, by rw [b5, a3], fun x b' hx hb b bv h1 h2 => ?_⟩
  have E : Ext s (((s.calloc (m : Int)).2).calloc (n : Int)).2 [some x, some b'] := by rw [← hx, ← hb]; exact b1
  have fx := (a4 x hx).grow b2
  have fb := b4 b' hb
  have hge := (E.ptrs b' (by simp)).1
  have hb3 : HoldsV (((s.calloc (m : Int)).2).calloc (n : Int)).2 b bv := h1.grow (E.old_len _ h2) fun q hq => (a2.trans b2).val q (hq ▸ h2)
  obtain ⟨s3, c1, c2, c3⟩ := cmd_copy hb3 fb.holds0.1 (NoCross.of_disj (rng_disj (by omega)))
  have hxb : x.blk ≠ b'.blk := by
    have := E.nd
    simp only [List.pairwise_cons] at this
    exact this.1 (some b') (by simp) _ _ rfl rfl
  refine ⟨s3, c1, E.only c3, ((a2.trans b2).only c3 fun a ha => by rw [ha.1]; exact hge).val, ?_, fx.holds0.keep c3 (rng_disj hxb), c2⟩
  rw [c3.rest.2.2.1, b3, a3]

theorem pyMexAt {s3 s4 : PState F} {m p n : ℕ} {junkU : ℕ → F} {bv : Vec F n} {o : TvObj} {x b' : Ptr} (E : Ext s s3 [some x, some b']) (v : OldVals s s3) (c : s3.calls = s.calls + 2)
    (hx : HoldsV s3 x (fun _ : Fin m => lit 0)) (hb : HoldsV s3 b' bv) (U : TvUp s3 s4 m p junkU o) :
    MexAt s s4 m p m junkU (fun _ => lit 0) bv o x b' where
  ext := E.trans U.ext
  old q hq := (U.grow.val q (lt_of_lt_of_le hq E.next_le)).trans (v q hq)
  calls := by rw [U.calls, c]
  hx := by
    have h := (E.ptrs x (by simp)).2.1
    exact hx.grow (U.grow.len _ h) fun q hq => U.grow.val q (hq ▸ h)
  hb := by
    have h := (E.ptrs b' (by simp)).2.1
    exact hb.grow (U.grow.len _ h) fun q hq => U.grow.val q (hq ▸ h)
  tv := ⟨⟨U.e.holds0, U.x.holds0, U.y.holds0⟩, U.u⟩

/-- NESTA and the end of `_nesta_dctTV` -/
theorem pyNestaUse_spec (hw : s.WF) {s4 s5 : PState F} {mtot n : ℕ} {x b' : Ptr} {o : TvObj} {ax : NAxM F} {opts : NestaOpts F} {st : Int} {v : Vec F mtot}
    (E : Ext s s5 ([some x, some b'] ++ o.blocks)) (k1 : CSpec (l1c_nestaM (mtot : Int) x n b' ax opts) s4 st s5) (k2 : HoldsV s5 x v)
    (k3 : ∀ a : Ptr, s.live a.blk = true → s5.mem.val a = s.mem.val a) :
    ∃ out s', CSpec (pyNestaUseM ax mtot n x b' opts) s4 out s' ∧ CallerKept s s' ∧
      ((s.oracle s5.calls = false ∧ out = .exc "MemoryError" ∧ NewBlocks s s' 6) ∨
        (s.oracle s5.calls = true ∧ ∃ z, out = .ret z st ∧ NewArray s s' z v ∧ NewBlocks s s' 7)) := by
  obtain ⟨r, s6, a1, a2, a3, a4, a5⟩ := copyOut_spec E (by simp) k2
  have hv : ∀ {s7 : PState F}, s7.mem.val = s6.mem.val → ∀ a : Ptr, s.live a.blk = true → s7.mem.val a = s.mem.val a := fun e a ha => by
    rw [e, a3 a (lt_of_lt_of_le (hw.lt ha) E.next_le), k3 a ha]
  have some6 : ∀ q ∈ o.blocks, q.isSome = true := by simp [TvObj.blocks, DctObj.blocks]
  rcases r with _ | z
  · have E7 : Ext s s6 ([some x, some b'] ++ o.blocks) := by
      have hp : ([some x, some b'] ++ o.blocks ++ [none]).Perm (none :: ([some x, some b'] ++ o.blocks)) := List.perm_append_comm
      obtain ⟨s7, e1, e2, -⟩ := (a2.perm hp).free
      cases Option.some.inj e1
      exact e2
    obtain ⟨s7, b1, b2, b3, -⟩ := frees_spec [some x, some b'] E7
    exact ⟨_, s7, k1.bind (a1.bind (b1.bind (.done _ _))), b2.kept hw (hv b3), .inl ⟨Bool.eq_false_iff.2 (fun hc => by cases a4.2 hc), rfl, newBlocks_of hw b2 some6⟩⟩
  · obtain ⟨c1, c2⟩ := a5 z rfl
    have hp : ([some x, some b'] ++ o.blocks ++ [some z]).Perm ([some b', some x] ++ (o.blocks ++ [some z])) := by
      rw [List.append_assoc]
      exact List.Perm.append_right _ (List.Perm.swap _ _ _)
    obtain ⟨s7, b1, b2, b3, -⟩ := frees_spec [some b', some x] (a2.perm hp)
    have nd := (List.pairwise_append.1 (a2.perm hp).nd).2.2
    have hl : s7.mem.len z.blk = s6.mem.len z.blk := freesC_len b1 fun p hp => nd (some p) hp (some z) (by simp) _ _ rfl rfl
    refine ⟨_, s7, k1.bind (a1.bind (b1.bind (.done _ _))), b2.kept hw (hv b3), .inr ⟨a4.1 rfl, z, rfl, ?_, ?_⟩⟩
    · exact b2.newArray hw (by simp) (c1.grow hl fun q _ => by rw [b3]) (hl.trans c2)
    · exact newBlocks_of hw b2 fun q hq => by
        rcases List.mem_append.1 hq with hq | hq
        · exact some6 q hq
        · rw [List.mem_singleton.1 hq]; rfl

end generic
end L1c
