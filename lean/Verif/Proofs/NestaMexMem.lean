import Verif.Spec.NestaMexMem
import Verif.Proofs.DctTvNear
import Verif.Proofs.L1qcDctMem
import Verif.Props.NestaRam

/-! Helper lemmas: NESTA from Matlab on memory. -/

namespace L1c
open Prog Scalar Cmd

section generic
variable {F : Type}

theorem Ext.trans {s s1 s2 : PState F} {L L' : List (Option Ptr)} (h : Ext s s1 L) (g : Ext s1 s2 L') : Ext s s2 (L ++ L') where
  next_le := h.next_le.trans g.next_le
  orc := g.orc.trans h.orc
  old_live b hb := (g.old_live b (hb.trans_le h.next_le)).trans (h.old_live b hb)
  old_len b hb := (g.old_len b (hb.trans_le h.next_le)).trans (h.old_len b hb)
  new_live b hb := by
    by_cases hc : b < s1.next
    · rw [g.old_live b hc, h.new_live b hb]
      constructor
      · rintro ⟨p, h1, h2⟩
        exact ⟨p, List.mem_append_left _ h1, h2⟩
      · rintro ⟨p, h1, h2⟩
        rcases List.mem_append.1 h1 with h1 | h1
        · exact ⟨p, h1, h2⟩
        · have := (g.ptrs p h1).1
          omega
    · rw [g.new_live b (by omega)]
      constructor
      · rintro ⟨p, h1, h2⟩
        exact ⟨p, List.mem_append_right _ h1, h2⟩
      · rintro ⟨p, h1, h2⟩
        rcases List.mem_append.1 h1 with h1 | h1
        · have := (h.ptrs p h1).2.1
          omega
        · exact ⟨p, h1, h2⟩
  new_len b hb hf := by
    by_cases hc : b < s1.next
    · rw [g.old_live b hc] at hf
      rw [g.old_len b hc]
      exact h.new_len b hb hf
    · exact g.new_len b (by omega) hf
  ptrs p hp := by
    have h1 := h.next_le
    have h2 := g.next_le
    rcases List.mem_append.1 hp with hp | hp
    · have := h.ptrs p hp
      exact ⟨this.1, by omega, this.2.2⟩
    · have := g.ptrs p hp
      exact ⟨by omega, this.2.1, this.2.2⟩
  nd := List.pairwise_append.2 ⟨h.nd, g.nd, fun o ho o' ho' p p' e e' => by
    have h1 := (h.ptrs p (e ▸ ho)).2.1
    have h2 := (g.ptrs p' (e' ▸ ho')).1
    omega⟩

variable [Scalar F]

omit [Scalar F] in
/-- writing into new blocks only -/
theorem Grow.only {s s1 s2 : PState F} {S : Set Ptr} (h : Grow s s1) (o : Only S s1 s2) (hs : ∀ a ∈ S, s.next ≤ a.blk) : Grow s s2 := by
  obtain ⟨-, o2, -, o4⟩ := o.rest
  exact ⟨by rw [o2]; exact h.next_le, o4.trans h.orc, fun p hp => (o.keepVals hs p hp).trans (h.val p hp), fun b hb => by rw [o.len]; exact h.len b hb⟩

theorem malloc_spec {s0 s : PState F} {L : List (Option Ptr)} (h : Ext s0 s L) (N : ℕ) (junk : ℕ → F) :
    ∃ r s', CSpec (mallocC N junk) s r s' ∧ Ext s0 s' (L ++ [r]) ∧ Grow s s' ∧ s'.calls = s.calls + 1 ∧ (r.isSome = true ↔ s0.oracle s.calls = true) ∧
      ∀ p, r = some p → HoldsV s' p (fun i : Fin N => junk i) ∧ s.next ≤ p.blk := by
  obtain ⟨a1, a2, a3, a4, a5⟩ := h.alloc N
  rcases e : (s.calloc N).1 with _ | q
  · rw [e] at a1 a5
    refine ⟨none, _, (cspec_calloc (N : Int) s).bind ?_, a1, a2, a3, a5, fun p hp => by cases hp⟩
    rw [e]
    exact .done _ _
  · rw [e] at a1 a5
    have f := a4 q e
    have hq : (s.calloc N).2.mem.Has q N := f.holds0.1
    obtain ⟨s', b1, b2, b3⟩ := cmd_seqGen hq (fun i : Fin N => junk i) (body := fun i => store (q + i) (junk i.toNat)) fun i M hl _ => by
      have hy' : M.Ok (q + ((i : ℕ) : Int)) := by have := hq _ (show (0 : Int) ≤ ((i : ℕ) : Int) by omega) (by omega); unfold Mem.Ok at this ⊢; rwa [hl]
      rw [run_store hy']
      simp
    refine ⟨some q, s', (cspec_calloc (N : Int) s).bind ?_, a1.only b3, a2.only b3 fun a ha => by rw [ha.1]; exact f.ge, ?_, a5, fun p hp => ?_⟩
    · rw [e]
      exact b1.bind (.done _ _)
    · rw [b3.rest.2.2.1, a3]
    · cases hp
      exact ⟨b2, f.ge⟩

/-- what a finished set consists of -/
structure TvUp (s s1 : PState F) (m p : ℕ) (junk : ℕ → F) (o : TvObj) : Prop where
  ext : Ext s s1 o.blocks
  grow : Grow s s1
  calls : s1.calls = s.calls + 6
  e : FreshBlk s.next s1 o.dct.buf.Ety m
  x : FreshBlk s.next s1 o.dct.buf.dx m
  y : FreshBlk s.next s1 o.dct.buf.dy m
  u : HoldsV s1 o.u (fun i : Fin p => junk i)

theorem tvAllocM_spec {s : PState F} (hw : s.WF) (two : Bool) (m p : ℕ) (junk : ℕ → F) :
    ∃ res s1, CSpec (tvAllocM two m p junk) s res s1 ∧
      (((∀ i < 6, s.oracle (s.calls + i) = true) ∧ ∃ o, res = (L1C_SUCCESS, some o) ∧ TvUp s s1 m p junk o) ∨
       ((¬ ∀ i < 6, s.oracle (s.calls + i) = true) ∧ res.2 = none ∧ (res.1 = L1C_OUT_OF_MEMORY ∨ res.1 = L1C_DCT_INIT_FAILURE) ∧ OldVals s s1 ∧
         (((two = false ∨ s.oracle s.calls = false) ∧ Ext s s1 []) ∨
          (two = true ∧ s.oracle s.calls = true ∧ ∃ L, Ext s s1 L ∧ (s.oracle (s.calls + 1) = true → ∃ p, some p ∈ L))))) := by
  obtain ⟨r, s1, a1, a2, a3, a4, a5, a6⟩ := malloc_spec (Ext.init hw) p junk
  rw [List.nil_append] at a2
  rcases r with _ | u
  · have h0 : s.oracle s.calls = false := by
      cases e : s.oracle s.calls with
      | false => rfl
      | true => exact absurd (a5.2 e) (by decide)
    refine ⟨_, s1, a1.bind (.done _ _), Or.inr ⟨fun h => (Bool.eq_false_iff.1 h0 (h 0 (by omega))), rfl, Or.inl rfl, a3.val, Or.inl ⟨Or.inr h0, ?_⟩⟩⟩
    exact ⟨a2.next_le, a2.orc, a2.old_live, a2.old_len, fun b hb => by rw [a2.new_live b hb]; simp, a2.new_len, fun p hp => by simp at hp, .nil⟩
  · have h0 := a5.1 rfl
    obtain ⟨res, s2, b1, ⟨b2, o, rfl, U⟩ | ⟨b2, b3, b4, b5, b6⟩⟩ := dctSetupM_spec a2.wf two m
    · rw [a4] at b2
      refine ⟨(L1C_SUCCESS, some ⟨u, o⟩), s2, a1.bind (b1.bind (.done _ _)), Or.inl ⟨fun i hi => ?_, ⟨u, o⟩, rfl, ?_⟩⟩
      · rcases Nat.eq_zero_or_pos i with rfl | hpos
        · exact h0
        · have := b2 (i - 1) (by omega)
          rwa [show s.calls + 1 + (i - 1) = s.calls + i by omega, a2.orc] at this
      · refine ⟨(a2.trans U.ext).perm List.perm_append_comm, a3.trans U.grow, by rw [U.calls, a4], U.e.lo a3.next_le, U.x.lo a3.next_le, U.y.lo a3.next_le, ?_⟩
        have hlt := (a2.ptrs u (by simp)).2.1
        exact (a6 u rfl).1.grow (U.grow.len _ hlt) fun q hq => U.grow.val q (hq ▸ hlt)
    · rw [a4, a2.orc] at b2
      have hn : ¬ ∀ i < 6, s.oracle (s.calls + i) = true := fun h => b2 fun i hi => by
        rw [Nat.add_assoc]
        exact h (1 + i) (by omega)
      have run : ∀ {s3 : PState F}, CSpec (freesC [some u]) s2 () s3 → CSpec (tvAllocM two m p junk) s (res.1, none) s3 := fun {s3} hf =>
        a1.bind (b1.bind (by rw [b3]; exact hf.bind (.done _ _)))
      rcases b6 with ⟨b6, b7⟩ | ⟨b6, L, b7, b8⟩
      · obtain ⟨s3, c1, c2, c3, -⟩ := frees_spec [some u] (L := []) (a2.trans b7)
        exact ⟨_, s3, run c1, Or.inr ⟨hn, rfl, b4, fun q hq => by rw [c3]; exact (a3.trans b5).val q hq, Or.inl ⟨Or.inl b6, c2⟩⟩⟩
      · obtain ⟨s3, c1, c2, c3, -⟩ := frees_spec [some u] (L := L) (a2.trans b7)
        refine ⟨_, s3, run c1, Or.inr ⟨hn, rfl, b4, fun q hq => by rw [c3]; exact (a3.trans b5).val q hq, Or.inr ⟨b6, h0, L, c2, fun h => b8 ?_⟩⟩⟩
        rw [a4, a2.orc]
        exact h

/-- everything is ready for NESTA: the copy of the samples, the output array and the set -/
structure MexAt (s s4 : PState F) {n : ℕ} (m p N : ℕ) (junkU junkX : ℕ → F) (bv : Vec F n) (o : TvObj) (x b' : Ptr) : Prop where
  ext : Ext s s4 ([some x, some b'] ++ o.blocks)
  old : OldVals s s4
  calls : s4.calls = s.calls + 8
  hx : HoldsV s4 x (fun i : Fin N => junkX i)
  hb : HoldsV s4 b' bv
  tv : TvAt o.dct.buf o.u (⟨DctBuf.fresh, fun i => junkU i⟩ : TvBuf F m p) s4

theorem mexArrays {s s1 : PState F} {m p : ℕ} {junkU : ℕ → F} {o : TvObj} (U : TvUp s s1 m p junkU o) (N n : ℕ) (junkX : ℕ → F) :
    ∃ x0 bo s2 s3, CSpec (mallocC N junkX) s1 x0 s2 ∧ CSpec (callocC (n : Int)) s2 bo s3 ∧ Ext s s3 ([x0, bo] ++ o.blocks) ∧ OldVals s s3 ∧
      (x0.isSome = true ↔ s.oracle (s.calls + 6) = true) ∧ (bo.isSome = true ↔ s.oracle (s.calls + 7) = true) ∧
      ∀ x b', x0 = some x → bo = some b' → ∀ (b : Ptr) (bv : Vec F n), HoldsV s b bv → b.blk < s.next →
        ∃ s4, CSpec (exec (cblas_dcopy (n : Int) b b')) s3 () s4 ∧ MexAt s s4 m p N junkU junkX bv o x b' := by
  obtain ⟨x0, s2, a1, a2, a3, a4, a5, a6⟩ := malloc_spec U.ext N junkX
  obtain ⟨b1, b2, b3, b4, b5⟩ := a2.alloc n
  have hE : Ext s (s2.calloc n).2 ([x0, (s2.calloc n).1] ++ o.blocks) := b1.perm (by
    rw [List.append_assoc]
    exact List.perm_append_comm)
  have G : Grow s1 (s2.calloc n).2 := a3.trans b2
  refine ⟨x0, _, s2, _, a1, cspec_calloc _ _, hE, (U.grow.trans G).val, ?_, ?_, fun x b' hx hb b bv h1 h2 => ?_⟩
  · rw [a5, U.calls]
  · rw [b5, a4, U.calls]
  · subst hx
    rw [hb] at hE
    have f := b4 b' hb
    have hge : s.next ≤ b'.blk := (hE.ptrs b' (by simp)).1
    have hd : Disjoint (Rng b' n) (Rng b n) := rng_disj (by omega)
    have hb3 : HoldsV (s2.calloc n).2 b bv := h1.grow (hE.old_len _ h2) fun q hq => (U.grow.trans G).val q (hq ▸ h2)
    obtain ⟨s4, c1, c2, c3⟩ := cmd_copy hb3 f.holds0.1 (NoCross.of_disj hd)
    have nd := hE.nd
    have hxb : x.blk ≠ b'.blk := by
      rw [List.pairwise_append] at nd
      have := nd.1
      simp only [List.pairwise_cons] at this
      exact this.1 (some b') (by simp) _ _ rfl rfl
    have hob : ∀ q, some q ∈ o.blocks → ∀ M : ℕ, Disjoint (Rng q M) (Rng b' n) := fun q hq M => by
      rw [List.pairwise_append] at nd
      exact rng_disj (nd.2.2 (some b') (by simp) (some q) hq _ _ rfl rfl).symm
    have hu : some o.u ∈ o.blocks := by simp [TvObj.blocks]
    have he : some o.dct.buf.Ety ∈ o.blocks := by simp [TvObj.blocks, DctObj.blocks]
    have hdx : some o.dct.buf.dx ∈ o.blocks := by simp [TvObj.blocks, DctObj.blocks]
    have hdy : some o.dct.buf.dy ∈ o.blocks := by simp [TvObj.blocks, DctObj.blocks]
    have hxl := (a2.ptrs x (by simp)).2.1
    have hul := (U.ext.ptrs o.u hu).2.1
    refine ⟨s4, c1, hE.only c3, ((U.grow.trans G).only c3 fun a ha => by rw [ha.1]; exact hge).val, ?_, ?_, c2, ⟨⟨?_, ?_, ?_⟩, ?_⟩⟩
    · rw [c3.rest.2.2.1, b3, a4, U.calls]
    · exact ((a6 x rfl).1.grow (b2.len _ hxl) fun q hq => b2.val q (hq ▸ hxl)).keep c3 (rng_disj hxb)
    · exact ((U.e.grow G).holds0).keep c3 (hob _ he _)
    · exact ((U.x.grow G).holds0).keep c3 (hob _ hdx _)
    · exact ((U.y.grow G).holds0).keep c3 (hob _ hdy _)
    · exact (U.u.grow (G.len _ hul) fun q hq => G.val q (hq ▸ hul)).keep c3 (hob _ hu _)

section run
variable {s s4 : PState F} {mrow mcol n N p : ℕ} {junkU junkX : ℕ → F} {bv : Vec F n} {o : TvObj} {x b' z : Ptr}

theorem tvOwn_in {a : Ptr} {m : ℕ} (ha : a ∈ tvOwn o.dct.buf o.u m p) : ∃ q, some q ∈ o.blocks ∧ a.blk = q.blk := by
  rcases ha with ha | ha
  · obtain ⟨q, h1, h2⟩ := own_ge ha
    exact ⟨q, List.mem_append_left _ h1, h2⟩
  · exact ⟨o.u, by simp [TvObj.blocks], ha.1⟩

theorem MexAt.apart {m : ℕ} (M : MexAt s s4 m p N junkU junkX bv o x b') {q : Ptr} (hq : some q ∈ [some x, some b']) (K : ℕ) : Disjoint (Rng q K) (tvOwn o.dct.buf o.u m p) := by
  have nd := M.ext.nd
  rw [List.pairwise_append] at nd
  refine Set.disjoint_left.2 fun a h1 h2 => ?_
  obtain ⟨r, hr, e⟩ := tvOwn_in h2
  exact nd.2.2 _ hq _ hr q r rfl rfl (h1.1.symm.trans e)

omit [Scalar F] in
theorem tvSep_of {m : ℕ} {L : List (Option Ptr)} (E : Ext s s4 (L ++ o.blocks)) : TvSep o.dct.buf o.u m p := by
  have nd := (List.pairwise_append.1 E.nd).2.1
  unfold TvObj.blocks at nd
  rw [List.pairwise_append] at nd
  have h := nd.1
  simp only [DctObj.blocks, List.pairwise_cons] at h
  refine ⟨⟨rng_disj (h.1 (some o.dct.buf.dx) (by simp) _ _ rfl rfl), rng_disj (h.1 (some o.dct.buf.dy) (by simp) _ _ rfl rfl),
    rng_disj (h.2.1 (some o.dct.buf.dy) (by simp) _ _ rfl rfl)⟩, Set.disjoint_left.2 fun a h1 h2 => ?_⟩
  obtain ⟨r, hr, e⟩ := own_ge h1
  exact nd.2.2 _ hr (some o.u) (by simp) r o.u rfl rfl (e.symm.trans h2.1)

/-- an address of the caller is none of the new ones -/
theorem MexAt.caller {m : ℕ} (hw : s.WF) (M : MexAt s s4 m p N junkU junkX bv o x b') {a : Ptr} (ha : s.live a.blk = true) :
    s4.live a.blk = true ∧ a ∉ Rng x N ∧ a ∉ Rng b' n ∧ a ∉ tvOwn o.dct.buf o.u m p := by
  have hl := hw.lt ha
  have hx := (M.ext.ptrs x (by simp)).1
  have hb := (M.ext.ptrs b' (by simp)).1
  refine ⟨by rw [M.ext.old_live _ hl]; exact ha, fun h => ?_, fun h => ?_, fun h => ?_⟩
  · have := h.1
    omega
  · have := h.1
    omega
  · obtain ⟨r, hr, e⟩ := tvOwn_in h
    have := (M.ext.ptrs r (List.mem_append_right _ hr)).1
    omega

theorem frees_two (hw : s.WF) {A B : List (Option Ptr)} {s' : PState F} (E : Ext s s' (A ++ B)) {α : Type} (out : α) :
    ∃ s'', CSpec (do freesC B; freesC A; pure out : Cmd F α) s' out s'' ∧ s''.live = s.live ∧ s''.mem.len = s.mem.len ∧ s''.mem.val = s'.mem.val := by
  obtain ⟨s1, a1, a2, a3, -⟩ := frees_spec B (E.perm List.perm_append_comm)
  obtain ⟨s2, b1, b2, b3, -⟩ := frees_spec A (L := []) (by simpa using a2)
  exact ⟨s2, a1.bind (b1.bind (.done _ _)), (b2.final hw).1, (b2.final hw).2, b3.trans a3⟩

/-- the end of the routine, once NESTA has returned and `Mx` has written the image -/
theorem mex_end (hw : s.WF) {s5 s6 : PState F} {m : ℕ} (E5 : Ext s s5 ([some x, some b'] ++ o.blocks)) (v5 : ∀ a, s.live a.blk = true → s5.mem.val a = s.mem.val a)
    {S : Set Ptr} (o6 : Only S s5 s6) (hS : ∀ a ∈ S, s.live a.blk = true → a ∈ Rng z m) {zv : Vec F m} (hz : HoldsV s6 z zv) (zl : s.live z.blk = true) (st : Int) :
    ∃ s', CSpec (do freesC o.blocks; freesC [some x, some b']; pure st : Cmd F Int) s6 st s' ∧ s'.live = s.live ∧ s'.mem.len = s.mem.len ∧ HoldsV s' z zv ∧
      ∀ a : Ptr, s.live a.blk = true → a ∉ Rng z m → s'.mem.val a = s.mem.val a := by
  have E6 := E5.only o6
  obtain ⟨s7, c1, c2, c3, c4⟩ := frees_two hw E6 st
  refine ⟨s7, c1, c2, c3, hz.grow ((congrFun c3 _).trans (E6.old_len _ (hw.lt zl)).symm) fun q _ => by rw [c4], fun a ha hn => ?_⟩
  rw [c4, o6.val a fun h => hn (hS a h ha), v5 a ha]

end run

/-! ## The whole routine -/

section whole
variable {s s1 s' : PState F} {lib : FftwLib F} {fw1 : ℕ → FftwM F} {fw2 : ℕ → ℕ → FftwM F} {mrow mcol n : ℕ} {av ah : F} {idx : List Int} {mode : Int} {b z : Ptr} {bv : Vec F n}
  {junkU junkX : ℕ → F} {opts : NestaOpts F} {st : Int} {o : TvObj}

/-- the vector functions of the set -/
def mexCfg (lib : FftwLib F) (mrow mcol n : ℕ) (av ah : F) (two : Bool) (idx : List Int) (h : 0 < mrow ∧ 0 < mcol) : TvCfg F mrow mcol n :=
  ⟨imageFuns lib mrow mcol n idx two h, av, ah⟩

theorem mode_eq : decide (¬ ((mcol : Int) = 1 ∨ (mrow : Int) = 1 ∨ mode = DCT1)) = twoDim mrow mcol mode := by
  unfold twoDim
  rw [decide_eq_decide]
  tauto

theorem not_bad {n mrow mcol : Int} (hv : ValidTv n mrow mcol av ah idx) : ¬ tvBad n mrow mcol (mrow * mcol) av ah idx := by
  obtain ⟨⟨h1, h2, h3, h4⟩, h5, h6, h7⟩ := hv
  rintro ((h | h | h | h | h) | ⟨h, h'⟩ | h)
  · omega
  · omega
  · omega
  · exact h5 h
  · exact h6 h
  · have := h7 h.symm
    omega
  · unfold check_pix_idx at h
    obtain ⟨i, hi, hd⟩ := List.any_eq_true.1 h
    have := h4 i hi
    simp only [decide_eq_true_eq] at hd
    omega

theorem bad_of {n mrow mcol : Int} (hv : ¬ ValidTv n mrow mcol av ah idx) : tvBad n mrow mcol (mrow * mcol) av ah idx := by
  by_contra hb
  unfold tvBad at hb
  push Not at hb
  obtain ⟨⟨h1, h2, h3, h4, h5⟩, h6, h7⟩ := hb
  refine hv ⟨⟨h1, h2, h3, fun i hi => ?_⟩, h4, h5, fun h => h6 h.symm⟩
  unfold check_pix_idx at h7
  have h7 := List.any_eq_false.1 (Bool.eq_false_iff.2 h7) i hi
  simp only [decide_eq_true_eq] at h7
  omega

/-- the set of the call -/
def mexVar (fw1 : ℕ → FftwM F) (fw2 : ℕ → ℕ → FftwM F) (mrow mcol n : ℕ) (av ah : F) (mode : Int) (idx : List Int) (o : TvObj) : TvVarM F :=
  tvVarOf fw1 fw2 mrow mcol n av ah (twoDim mrow mcol mode) idx o

theorem mex_setup (C : TvPyCall lib fw1 fw2 mrow mcol n av ah idx b bv s) {r : Int × Option TvObj}
    {s0 : PState F} (h : CSpec (tvAllocM (twoDim mrow mcol mode) (mrow * mcol) (tvP (mrow * mcol) av ah) junkU) s0 r s1) :
    CSpec (tvSetupM junkU n mrow mcol av ah mode idx) s0 r s1 := by
  refine (cspec_need C.fits s0).bind ?_
  rw [if_neg (not_bad C.valid), mode_eq]
  exact (cspec_need C.fitp s0).bind h

theorem mex_fails (C : TvMexCall lib fw1 fw2 mrow mcol n av ah idx b z bv s) {ana : Bool} {r : Int × Option TvObj}
    (h : CSpec (tvAllocM (twoDim mrow mcol mode) (mrow * mcol) (tvP (mrow * mcol) av ah) junkU) s r s1) (hr : r.2 = none) :
    CSpec (nestaMexM fw1 fw2 junkU junkX mrow mcol n av ah mode ana idx b z opts) s r.1 s1 := by
  refine (mex_setup C.toTvPyCall h).bind ?_
  rw [hr]
  exact .done _ _

theorem mex_ana (C : TvMexCall lib fw1 fw2 mrow mcol n av ah idx b z bv s)
    (h : CSpec (tvAllocM (twoDim mrow mcol mode) (mrow * mcol) (tvP (mrow * mcol) av ah) junkU) s (L1C_SUCCESS, some o) s1) :
    (CSpec (nestaMexUseM (tvAnaM n (mexVar fw1 fw2 mrow mcol n av ah mode idx o)) (identityM (mrow * mcol)) o junkX (mrow * mcol) n b z opts) s1 st s' →
      CSpec (nestaMexM fw1 fw2 junkU junkX mrow mcol n av ah mode true idx b z opts) s st s') ∧
    (CUB (nestaMexUseM (tvAnaM n (mexVar fw1 fw2 mrow mcol n av ah mode idx o)) (identityM (mrow * mcol)) o junkX (mrow * mcol) n b z opts) s1 →
      CUB (nestaMexM fw1 fw2 junkU junkX mrow mcol n av ah mode true idx b z opts) s) := by
  refine ⟨fun g => (mex_setup C.toTvPyCall h).bind ?_, fun g => (mex_setup C.toTvPyCall h).bind_ub ?_⟩
  · show CSpec (if true = true then _ else _) _ _ _
    rw [if_pos rfl, mode_eq]
    exact g
  · show CUB (if true = true then _ else _) _
    rw [if_pos rfl, mode_eq]
    exact g

theorem mex_syn (C : TvMexCall lib fw1 fw2 mrow mcol n av ah idx b z bv s)
    (h : CSpec (tvAllocM (twoDim mrow mcol mode) (mrow * mcol) (tvP (mrow * mcol) av ah) junkU) s (L1C_SUCCESS, some o) s1)
    (g : CSpec (nestaMexUseM (tvSynM n (mexVar fw1 fw2 mrow mcol n av ah mode idx o)) (tvWvM (mexVar fw1 fw2 mrow mcol n av ah mode idx o)) o junkX (mrow * mcol) n b z opts) s1 st s') :
    CSpec (nestaMexM fw1 fw2 junkU junkX mrow mcol n av ah mode false idx b z opts) s st s' := by
  refine (mex_setup C.toTvPyCall h).bind ?_
  show CSpec (if false = true then _ else _) _ _ _
  rw [if_neg (by decide), mode_eq]
  exact g

theorem mex_dims (C : TvPyCall lib fw1 fw2 mrow mcol n av ah idx b bv s) {two : Bool} (h : 0 < mrow ∧ 0 < mcol) : TvDims (mexCfg lib mrow mcol n av ah two idx h) := by
  refine ⟨C.fits, h, fun hj => ?_⟩
  have := C.valid.2.2.2 (by
    rcases hj with hj | hj
    · exact Or.inl hj
    · exact Or.inr hj)
  omega

theorem mex_impl (C : TvPyCall lib fw1 fw2 mrow mcol n av ah idx b bv s) (h : 0 < mrow ∧ 0 < mcol) (hi : IdxOk (mrow * mcol) (idxFun n idx))
    {s4 : PState F} {L : List (Option Ptr)} (E : Ext s s4 (L ++ o.blocks)) :
    TvImpl (mexVar fw1 fw2 mrow mcol n av ah mode idx o) (mexCfg lib mrow mcol n av ah (twoDim mrow mcol mode) idx h) (TvAt o.dct.buf o.u)
      (tvOwn o.dct.buf o.u (mrow * mcol) (mexCfg lib mrow mcol n av ah (twoDim mrow mcol mode) idx h).p) := by
  have sep := tvSep_of (m := mrow * mcol) (p := (mexCfg lib mrow mcol n av ah (twoDim mrow mcol mode) idx h).p) E
  exact tv_impl (c := mexCfg lib mrow mcol n av ah (twoDim mrow mcol mode) idx h) (imageFuns_set (lib := lib) (two := twoDim mrow mcol mode) h hi) (mex_dims C h)
    (imageFunsM_impl C.f1 C.f2 h idx _ sep.dct) sep

/-- NESTA's preconditions hold after the preparations -/
theorem mex_call (C : TvPyCall lib fw1 fw2 mrow mcol n av ah idx b bv s) (h : 0 < mrow ∧ 0 < mcol) (hi : IdxOk (mrow * mcol) (idxFun n idx))
    {s4 : PState F} {x b' : Ptr} (M : MexAt s s4 (mrow * mcol) (tvP (mrow * mcol) av ah) (mrow * mcol) junkU junkX bv o x b') :
    NCall (tvAnaM n (mexVar fw1 fw2 mrow mcol n av ah mode idx o)) (tvAna (mexCfg lib mrow mcol n av ah (twoDim mrow mcol mode) idx h)) (TvAt o.dct.buf o.u)
      (tvOwn o.dct.buf o.u (mrow * mcol) (mexCfg lib mrow mcol n av ah (twoDim mrow mcol mode) idx h).p) x b' (fun i => junkX i) bv ⟨DctBuf.fresh, fun i => junkU i⟩ s4 :=
  ⟨M.ext.wf, tvAna_impl (c := mexCfg lib mrow mcol n av ah (twoDim mrow mcol mode) idx h) (loc := imageFunsM fw1 fw2 mrow mcol n idx (twoDim mrow mcol mode) o.dct.buf) (u := o.u) (mex_impl C h hi M.ext), tv_own, M.hx, M.hb, M.tv, M.ext.liveAt (by simp), M.ext.liveAt (by simp), fun a ha => by
    obtain ⟨q, hq, e⟩ := tvOwn_in ha
    rw [e]
    exact M.ext.liveAt (List.mem_append_right _ hq), M.apart (by simp) n⟩

/-- NESTA and what follows it in analysis mode -/
theorem mex_rest (C : TvMexCall lib fw1 fw2 mrow mcol n av ah idx b z bv s) {s4 s5 : PState F} {x b' : Ptr} {ax : NAxM F}
    (M : MexAt s s4 (mrow * mcol) (tvP (mrow * mcol) av ah) (mrow * mcol) junkU junkX bv o x b') {v : Vec F (mrow * mcol)}
    (k1 : CSpec (l1c_nestaM ((mrow * mcol : ℕ) : Int) x n b' ax opts) s4 st s5) (k2 : HoldsV s5 x v) (k3 : s5.live = s4.live) (k4 : s5.mem.len = s4.mem.len)
    (k5 : ∀ a, s.live a.blk = true → s5.mem.val a = s4.mem.val a) :
    ∃ s', CSpec (do
        let st ← l1c_nestaM ((mrow * mcol : ℕ) : Int) x n b' ax opts
        identityM (mrow * mcol) x z
        freesC o.blocks
        freesC [some x, some b']
        pure st) s4 st s' ∧ s'.live = s.live ∧ s'.mem.len = s.mem.len ∧ HoldsV s' z v ∧ ∀ a : Ptr, s.live a.blk = true → a ∉ Rng z (mrow * mcol) → s'.mem.val a = s.mem.val a := by
  obtain ⟨n5, o5⟩ := cspec_next k1
  have E5 := M.ext.balanced k3 k4 n5 o5
  have zl := C.wf.lt C.zlive
  have hz5 : s5.mem.Has z ((mrow * mcol : ℕ) : Int) := fun k g0 g1 => ⟨(C.hz k g0 g1).1, by
    have := (C.hz k g0 g1).2
    rw [show (z + k).blk = z.blk from rfl] at this ⊢
    rw [E5.old_len _ zl]
    exact this⟩
  have hxz : Disjoint (Rng x (mrow * mcol)) (Rng z (mrow * mcol)) := rng_disj (by have := (M.ext.ptrs x (by simp)).1; omega)
  obtain ⟨s6, d1, d2, d3⟩ := cmd_copy k2 hz5 (NoCross.of_disj hxz.symm)
  obtain ⟨s', e1, e2⟩ := mex_end C.wf E5 (fun a ha => (k5 a ha).trans (M.old a (C.wf.lt ha))) d3 (fun a ha _ => ha) d2 C.zlive st
  exact ⟨s', k1.bind (d1.bind e1), e2⟩

end whole

end generic
end L1c
