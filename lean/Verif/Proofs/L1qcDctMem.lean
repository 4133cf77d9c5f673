import Verif.Model.L1qcDctMem
import Verif.Proofs.MatRam
import Verif.Proofs.NewtonFull
import Verif.Props.L1qcDct
import Verif.Props.TransRam

/-! Helper lemmas: `l1qc_dct` on memory. -/

namespace L1c
open Prog Scalar Cmd

section generic
variable {F : Type} [Scalar F]

theorem cspec_next {α : Type} {c : Cmd F α} {s s' : PState F} {a : α} (h : CSpec c s a s') : s.next ≤ s'.next ∧ s'.oracle = s.oracle := by
  induction h with
  | done => exact ⟨le_rfl, rfl⟩
  | kern _ _ ih => exact ih
  | query _ _ ih => exact ih
  | @calloc N c s s' a t ih =>
    unfold PState.calloc at ih
    split at ih
    · exact ⟨(Nat.le_succ _).trans ih.1, ih.2⟩
    · exact ih
  | @free p c s s₁ s' a h t ih =>
    unfold PState.free at h
    split at h
    · cases h; exact ih
    · split at h
      · cases h; exact ih
      · cases h

omit [Scalar F] in
theorem Ext.wf {s s' : PState F} {L : List (Option Ptr)} (h : Ext s s' L) : s'.WF := fun b hb => by
  have hn := h.next_le
  have hl : s'.live b = false := by
    cases e : s'.live b with
    | false => rfl
    | true =>
      obtain ⟨p, h1, h2⟩ := (h.new_live b (by omega)).1 e
      have := (h.ptrs p h1).2.1
      omega
  exact ⟨hl, h.new_len b (by omega) hl⟩

omit [Scalar F] in
/-- a balanced call keeps the list -/
theorem Ext.balanced {s s1 s2 : PState F} {L : List (Option Ptr)} (h : Ext s s1 L) (hl : s2.live = s1.live) (hm : s2.mem.len = s1.mem.len)
    (hn : s1.next ≤ s2.next) (ho : s2.oracle = s1.oracle) : Ext s s2 L where
  next_le := h.next_le.trans hn
  orc := ho.trans h.orc
  old_live b hb := by rw [hl]; exact h.old_live b hb
  old_len b hb := by rw [hm]; exact h.old_len b hb
  new_live b hb := by rw [hl]; exact h.new_live b hb
  new_len b hb hf := by rw [hm]; rw [hl] at hf; exact h.new_len b hb hf
  ptrs p hp := ⟨(h.ptrs p hp).1, (h.ptrs p hp).2.1.trans_le hn, (h.ptrs p hp).2.2⟩
  nd := h.nd

omit [Scalar F] in
theorem Ext.liveAt {s s' : PState F} {L : List (Option Ptr)} (h : Ext s s' L) {p : Ptr} (hp : some p ∈ L) : s'.live p.blk = true :=
  (h.new_live _ (h.ptrs p hp).1).2 ⟨p, hp, rfl⟩

/-- what a finished set consists of -/
structure SetUp (s s1 : PState F) (m : ℕ) (o : DctObj) : Prop where
  ext : Ext s s1 o.blocks
  grow : Grow s s1
  calls : s1.calls = s.calls + 5
  e : FreshBlk s.next s1 o.buf.Ety m
  x : FreshBlk s.next s1 o.buf.dx m
  y : FreshBlk s.next s1 o.buf.dy m

theorem dctSetupM_spec {s : PState F} (hw : s.WF) (two : Bool) (m : ℕ) :
    ∃ res s1, CSpec (dctSetupM two m) s res s1 ∧
      (((∀ i < 5, s.oracle (s.calls + i) = true) ∧ ∃ o, res = (L1C_SUCCESS, some o) ∧ SetUp s s1 m o) ∨
       ((¬ ∀ i < 5, s.oracle (s.calls + i) = true) ∧ res.2 = none ∧ (res.1 = L1C_OUT_OF_MEMORY ∨ res.1 = L1C_DCT_INIT_FAILURE) ∧ Grow s s1 ∧
         ((two = false ∧ Ext s s1 []) ∨ (two = true ∧ ∃ L, Ext s s1 L ∧ (s.oracle s.calls = true → ∃ p, some p ∈ L))))) := by
  obtain ⟨l, s1, a1, a2, a3, a4, a5, a6⟩ := callocs_spec [m, m, m] (Ext.init hw)
  rw [List.nil_append] at a2
  rcases a5 with _ | ⟨f0, a5⟩
  rcases a5 with _ | ⟨f1, a5⟩
  rcases a5 with _ | ⟨f2, a5⟩
  cases a5
  rename_i e x y
  have a1 : CSpec (callocsC [(m : Int), m, m]) s [e, x, y] s1 := a1
  by_cases hall : ∀ o ∈ [e, x, y], o.isSome = true
  · simp only [List.forall_mem_cons, Option.isSome_iff_exists] at hall
    obtain ⟨⟨e, rfl⟩, ⟨x, rfl⟩, ⟨y, rfl⟩, -⟩ := hall
    have g3 := a6.1 (by simp)
    obtain ⟨l, s2, b1, b2, b3, b4, b5, b6⟩ := callocs_spec [0, 0] a2
    rcases b5 with _ | ⟨k0, b5⟩
    rcases b5 with _ | ⟨k1, b5⟩
    cases b5
    rename_i pM pE
    have b1 : CSpec (callocsC [(0 : Int), 0]) s1 [pM, pE] s2 := b1
    have hcalls : s2.calls = s.calls + 5 := by rw [b4, a4]; simp
    have hiff : (∀ o ∈ [pM, pE], o.isSome = true) ↔ ∀ i < 5, s.oracle (s.calls + i) = true := by
      rw [b6, a4]
      constructor
      · intro h i hi
        rcases Nat.lt_or_ge i 3 with h3 | h3
        · exact g3 i (by simpa using h3)
        · have := h (i - 3) (by simp; omega)
          rwa [show s.calls + [m, m, m].length + (i - 3) = s.calls + i by simp; omega] at this
      · intro h i hi
        have := h (3 + i) (by simp at hi; omega)
        rwa [show s.calls + (3 + i) = s.calls + [m, m, m].length + i by simp; omega] at this
    by_cases hp : ∀ o ∈ [pM, pE], o.isSome = true
    · have h5 := hiff.1 hp
      simp only [List.forall_mem_cons, Option.isSome_iff_exists] at hp
      obtain ⟨⟨pM, rfl⟩, ⟨pE, rfl⟩, -⟩ := hp
      refine ⟨_, s2, a1.bind (b1.bind (.done _ _)), Or.inl ⟨h5, ⟨⟨e, x, y⟩, pE, pM⟩, rfl, ?_⟩⟩
      refine ⟨b2.perm ?_, a3.trans b3, hcalls, (f0 e rfl).grow b3, (f1 x rfl).grow b3, (f2 y rfl).grow b3⟩
      exact List.Perm.append_left [some e, some x, some y] (List.Perm.swap _ _ _)
    · have hn : ¬ ∀ i < 5, s.oracle (s.calls + i) = true := fun h => hp (hiff.2 h)
      have key : ∀ {r : Cmd F (Int × Option DctObj)}, (match [pM, pE] with
          | [some pM, some pE] => pure (L1C_SUCCESS, some (⟨⟨e, x, y⟩, pE, pM⟩ : DctObj))
          | _ => r : Cmd F (Int × Option DctObj)) = r := by
        intro r
        rcases pM with _ | pM
        · rfl
        · rcases pE with _ | pE
          · rfl
          · exact absurd (by simp) hp
      cases two
      · obtain ⟨s3, c1, c2, c3, -⟩ := frees_spec ([some e, some x, some y] ++ [pM, pE].reverse) (L := []) (b2.perm (by
          rw [List.append_nil]
          exact List.Perm.append_left [some e, some x, some y] (List.Perm.swap _ _ _)))
        refine ⟨(L1C_DCT_INIT_FAILURE, none), s3, a1.bind (b1.bind ?_), Or.inr ⟨hn, rfl, Or.inr rfl, ?_, Or.inl ⟨rfl, c2⟩⟩⟩
        · show CSpec (match [pM, pE] with
            | [some pM, some pE] => _
            | _ => _) _ _ _
          rw [key]
          exact c1.bind (.done _ _)
        · exact ⟨c2.next_le, c2.orc, fun p hp => by rw [c3]; exact (a3.trans b3).val p hp, c2.old_len⟩
      · refine ⟨(L1C_DCT_INIT_FAILURE, none), s2, a1.bind (b1.bind ?_), Or.inr ⟨hn, rfl, Or.inr rfl, a3.trans b3, Or.inr ⟨rfl, _, b2, fun _ => ⟨e, by simp⟩⟩⟩⟩
        show CSpec (match [pM, pE] with
            | [some pM, some pE] => _
            | _ => _) _ _ _
        rw [key]
        exact .done _ _
  · have hn : ¬ ∀ i < 5, s.oracle (s.calls + i) = true := fun h => hall (a6.2 fun i hi => h i (by simp at hi; omega))
    have key : ∀ {r : Ptr → Ptr → Ptr → Cmd F (Int × Option DctObj)} {r' : Cmd F (Int × Option DctObj)}, (match [e, x, y] with
          | [some e, some x, some y] => r e x y
          | _ => r' : Cmd F (Int × Option DctObj)) = r' := by
      intro r r'
      rcases e with _ | e
      · rfl
      · rcases x with _ | x
        · rfl
        · rcases y with _ | y
          · rfl
          · exact absurd (by simp) hall
    cases two
    · obtain ⟨s3, c1, c2, c3, -⟩ := frees_spec [e, x, y] (L := []) (by simpa using a2)
      refine ⟨(L1C_OUT_OF_MEMORY, none), s3, a1.bind ?_, Or.inr ⟨hn, rfl, Or.inl rfl, ?_, Or.inl ⟨rfl, c2⟩⟩⟩
      · show CSpec (match [e, x, y] with
            | [some e, some x, some y] => _
            | _ => _) _ _ _
        rw [key]
        exact c1.bind (.done _ _)
      · exact ⟨c2.next_le, c2.orc, fun p hp => by rw [c3]; exact a3.val p hp, c2.old_len⟩
    · refine ⟨(L1C_OUT_OF_MEMORY, none), s1, a1.bind ?_, Or.inr ⟨hn, rfl, Or.inl rfl, a3, Or.inr ⟨rfl, _, a2, fun h0 => ?_⟩⟩⟩
      · show CSpec (match [e, x, y] with
            | [some e, some x, some y] => _
            | _ => _) _ _ _
        rw [key]
        exact .done _ _
      · have : e.isSome = true := by
          obtain ⟨g, -, -, -, h⟩ := (Ext.init hw).alloc m
          obtain ⟨l2, s2, d1, -⟩ := callocs_spec [m, m] g
          have hu := (a1.unique ((cspec_calloc (m : Int) s).bind (d1.bind (.done _ _)))).1
          rw [(List.cons.inj hu).1]
          exact h.2 h0
        obtain ⟨p, rfl⟩ := Option.isSome_iff_exists.1 this
        exact ⟨p, by simp⟩

theorem imageFunsM_impl {lib : FftwLib F} {fw1 : ℕ → FftwM F} {fw2 : ℕ → ℕ → FftwM F} (H1 : ∀ m, FftwImpl (fw1 m) (lib.f1 m))
    (H2 : ∀ mrow mcol, FftwImpl (fw2 mrow mcol) (lib.f2 mrow mcol)) {mrow mcol n : ℕ} (hp : 0 < mrow ∧ 0 < mcol) (idx : List Int) (two : Bool) {buf : DctPtr}
    (hb : buf.Sep (mrow * mcol)) :
    DctImpl (imageFunsM fw1 fw2 mrow mcol n idx two buf) (imageFuns lib mrow mcol n idx two hp) (BufAt buf) (buf.Own (mrow * mcol)) := by
  have : NeZero mrow := ⟨hp.1.ne'⟩
  have : NeZero mcol := ⟨hp.2.ne'⟩
  have : NeZero (mrow * mcol) := ⟨(Nat.mul_pos hp.1 hp.2).ne'⟩
  cases two
  · exact dct1_impl (H1 (mrow * mcol)) hb n (idxAt idx)
  · exact dct2_impl (H2 mrow mcol) hb n (idxAt idx)

end generic

/-! ## The body -/

section body
variable {s s3 : PState Dbl} {n m : ℕ} {f : DctFuns Dbl m n} {idx : Fin n → Int} {c : DctFunsM Dbl} {o : DctObj} {eta bo x_out b : Ptr} {bv : Vec Dbl n} {opts : QOpts Dbl}
  {res : LBResult Dbl} {image : Vec Dbl m}

theorem own_ge {a : Ptr} (ha : a ∈ o.buf.Own m) : ∃ p, some p ∈ o.blocks ∧ a.blk = p.blk := by
  rcases ha with (ha | ha) | ha
  · exact ⟨_, by simp [DctObj.blocks], ha.1⟩
  · exact ⟨_, by simp [DctObj.blocks], ha.1⟩
  · exact ⟨_, by simp [DctObj.blocks], ha.1⟩

/-- the arrays of the routine and of the set -/
structure Ready (s s3 : PState Dbl) (n m : ℕ) (o : DctObj) (eta bo : Ptr) (idx : Fin n → Int) : Prop where
  ext : Ext s s3 ([some bo, some eta] ++ o.blocks)
  old : OldVals s s3
  eta : HoldsV s3 eta (fun _ : Fin m => (lit 0 : Dbl))
  bo : HoldsV s3 bo (fun _ : Fin n => (lit 0 : Dbl))
  bufs : BufsAt o.buf m idx s3

theorem start_run (hw : s.WF) (R : Ready s s3 n m o eta bo idx) (S : DctSet f idx) (H : DctImpl c f (BufAt o.buf) (o.buf.Own m)) (hb : HoldsV s b bv)
    (bl : s.live b.blk = true) {a : XOut Dbl m n m} (ha : f.Aty bv DctBuf.fresh = some a) :
    ∃ s4 s5, CSpec (exec (cblas_dcopy (n : Int) b bo)) s3 () s4 ∧ CSpec (c.Aty bo eta) s4 () s5 ∧ s5.calls = s3.calls ∧ s5.oracle = s.oracle ∧
      OldVals s s5 ∧ Ext s s5 ([some bo, some eta] ++ o.blocks) ∧
      QCall c.q (dctOps f) (fun _ s => BufsAt o.buf m idx s) (o.buf.Own m) eta bo a.res bv () s5 := by
  have hbl := hw.lt bl
  have pb := R.ext.ptrs bo (by simp)
  have pe := R.ext.ptrs eta (by simp)
  have nd := R.ext.nd
  have hbe : bo.blk ≠ eta.blk := by
    rw [List.pairwise_append] at nd
    have := nd.1
    simp only [List.pairwise_cons] at this
    exact this.1 (some eta) (by simp) _ _ rfl rfl
  have hown : ∀ p : Ptr, some p ∈ [some bo, some eta] → ∀ N : ℕ, Disjoint (Rng p N) (o.buf.Own m) := fun p hp N => by
    rw [List.pairwise_append] at nd
    refine Set.disjoint_left.2 fun a h1 h2 => ?_
    obtain ⟨q, hq, e⟩ := own_ge h2
    exact nd.2.2 _ hp _ hq p q rfl rfl (h1.1.symm.trans e)
  have hb3 : HoldsV s3 b bv := hb.grow (R.ext.old_len _ hbl) fun q hq => R.old q (hq ▸ hbl)
  have hd : Disjoint (Rng bo n) (Rng b n) := rng_disj (by omega)
  obtain ⟨s4, c1, c2, c3⟩ := cmd_copy hb3 R.bo.1 (NoCross.of_disj hd)
  have q := dct_qimpl S H
  have hR4 : BufsAt o.buf m idx s4 := q.At.keep () s3 s4 R.bufs (c3.mono fun a ha hc => Set.disjoint_left.1 (hown bo (by simp) n) ha hc)
  have hE4 : Disjoint (Rng bo n) (Rng eta m) := rng_disj hbe
  obtain ⟨s5, d1, d2, d3, d4⟩ := q.At.call () s4 bo eta bv hR4 c2 (has_stay R.eta.1 c3) hE4 (hown bo (by simp) n) (hown eta (by simp) m)
  have hat : ((dctOps f).At bv ()).1 = a.res := by
    show ((f.Aty bv DctBuf.fresh).map (·.res)).getD _ = _
    rw [ha]
    rfl
  have E5 : Ext s s5 ([some bo, some eta] ++ o.blocks) := (R.ext.only c3).only d4
  refine ⟨s4, s5, c1, d1, ?_, E5.orc, fun p hp => ?_, E5, ?_⟩
  · rw [d4.rest.2.2.1, c3.rest.2.2.1]
  · rw [d4.val p, c3.val p, R.old p hp]
    · intro hc
      have := hc.1
      omega
    · rintro (hc | hc)
      · have := hc.1
        omega
      · obtain ⟨q, hq, e⟩ := own_ge hc
        have := (R.ext.ptrs q (List.mem_append_right _ hq)).1
        omega
  · refine ⟨E5.wf, q, bufs_own, ?_, ?_, d2, E5.liveAt (by simp), E5.liveAt (by simp), fun a ha => ?_, hE4, hown eta (by simp) m, hown bo (by simp) n⟩
    · rw [← hat]; exact d3
    · exact c2.keep d4 (Set.disjoint_union_right.2 ⟨hE4, hown bo (by simp) n⟩)
    · obtain ⟨q, hq, e⟩ := own_ge ha
      rw [e]
      exact E5.liveAt (List.mem_append_right _ hq)

/-- all requests granted -/
theorem body_run (hw : s.WF) (R : Ready s s3 n m o eta bo idx) (S : DctSet f idx) (H : DctImpl c f (BufAt o.buf) (o.buf.Own m)) (hb : HoldsV s b bv)
    (bl : s.live b.blk = true) (hx : s.mem.Has x_out m) (xl : s.live x_out.blk = true) (hnm : n ≤ m) (hmax : opts.cg_maxiter ≤ INT_MAX)
    (hr : recover f bv opts = some (res, image)) (ho : ∀ i < 19, s.oracle (s3.calls + i) = true) :
    ∃ s', CSpec (l1qc_dct_bodyM n m c eta bo x_out b opts) s3 (res.status, some res) s' ∧ Ext s s' ([some bo, some eta] ++ o.blocks) ∧
      (res.status = 0 → HoldsV s' x_out image) ∧
      ∀ a : Ptr, s.live a.blk = true → (a ∉ Rng x_out m ∨ res.status ≠ 0) → s'.mem.val a = s.mem.val a := by
  obtain ⟨a, u, prm, r, v, y, h1, h2, h3, h4, h5⟩ := recover_inv hr
  obtain ⟨rfl, rfl⟩ := Prod.mk.inj h5
  obtain ⟨s4, s5, c1, c2, c3, c4, c5, E5, C⟩ := start_run hw R S H hb bl h1
  obtain ⟨tau, L, rfl, -⟩ := init_opts h2
  have hax : (dctOps f).ax = pureAx f := (C96_dct_stateless S H).2.2
  have ho5 : ∀ i < 19, s5.oracle (s5.calls + i) = true := fun i hi => by rw [c3, c4]; exact ho i hi
  obtain ⟨r', t', s6, k1, k2, k3, k4, k5, k6, k7⟩ := (newtonM_run C hnm (prm := opts) (prm' := { opts with tau := tau, lbiter := L }) hmax (ho5 0 (by omega)) h2).2 ho5
    (by rw [hax, h3]; exact Option.some_ne_none _)
  rw [hax, h3] at k1
  obtain ⟨rfl, rfl⟩ := Prod.mk.inj (Option.some.inj k1)
  obtain ⟨n6, o6⟩ := cspec_next k2
  have E6 : Ext s s6 ([some bo, some eta] ++ o.blocks) := E5.balanced k5 k6 n6 o6
  have pe := R.ext.ptrs eta (by simp)
  have hxl := hw.lt xl
  have fresh : ∀ {a : Ptr}, s.live a.blk = true → a ∉ Rng eta m ∧ a ∉ o.buf.Own m := fun {a} ha => by
    have hal := hw.lt ha
    refine ⟨fun hc => ?_, fun hc => ?_⟩
    · have := hc.1
      omega
    · obtain ⟨q, hq, e⟩ := own_ge hc
      have := (R.ext.ptrs q (List.mem_append_right _ hq)).1
      omega
  have v6 : ∀ a : Ptr, s.live a.blk = true → s6.mem.val a = s.mem.val a := fun a ha => by
    rw [k7 a (by rw [E5.old_live _ (hw.lt ha)]; exact ha) (fresh ha).1 (fresh ha).2]
    exact c5 a (hw.lt ha)
  by_cases hst : r.res.status = 0
  · have hx6 : s6.mem.Has x_out m := fun k g0 g1 => ⟨(hx k g0 g1).1, by
      have := (hx k g0 g1).2
      rw [show (x_out + k).blk = x_out.blk from rfl] at this ⊢
      rw [E6.old_len _ hxl]
      exact this⟩
    have hde : Disjoint (Rng eta m) (Rng x_out m) := rng_disj (by omega)
    have hxo : Disjoint (Rng x_out m) (o.buf.Own m) := Set.disjoint_left.2 fun a g1 g2 => by
      refine (fresh (a := a) ?_).2 g2
      rw [g1.1]
      exact xl
    obtain ⟨s7, d1, d2, d3⟩ := cmd_copy k3 hx6 (NoCross.of_disj hde.symm)
    have R7 : BufsAt o.buf m idx s7 := (dct_qimpl S H).At.keep () s6 s7 k4 (d3.mono fun a ha hc => Set.disjoint_left.1 hxo ha hc)
    obtain ⟨t, ht, htb⟩ := R7
    obtain ⟨w, w', g1, g2, g3, -⟩ := (setOk S).Mx.same r.x t ht
    obtain rfl : w' = y := Option.some.inj (g2.symm.trans h4)
    obtain ⟨s8, e1, -, -, e4, e5⟩ := H.Mx t s7 eta x_out r.x r.x ((w.arg, w.res), w.buf) htb (k3.keep d3 hde) d2 hde C.xo hxo (by simp [dctNOp, g1])
    refine ⟨s8, ?_, (E6.only d3).only e5, fun _ => ?_, fun a ha hor => ?_⟩
    · rw [hst]
      refine c1.bind (c2.bind (k2.bind ?_))
      rw [if_neg (not_not.2 hst)]
      exact d1.bind (e1.bind (.done _ _))
    · rw [← g3]
      exact e4
    · have hax : a ∉ Rng x_out m := hor.resolve_right (not_not.2 hst)
      rw [e5.val a, d3.val a hax, v6 a ha]
      rintro ((hc | hc) | hc)
      · exact (fresh ha).1 hc
      · exact hax hc
      · exact (fresh ha).2 hc
  · refine ⟨s6, ?_, E6, fun h => absurd h hst, fun a ha _ => v6 a ha⟩
    refine c1.bind (c2.bind (k2.bind ?_))
    rw [if_pos hst]
    exact .done _ _

/-- one of the solver's requests but the first refused -/
theorem body_oom (hw : s.WF) (R : Ready s s3 n m o eta bo idx) (S : DctSet f idx) (H : DctImpl c f (BufAt o.buf) (o.buf.Own m)) (hb : HoldsV s b bv)
    (bl : s.live b.blk = true) (hnm : n ≤ m) (hmax : opts.cg_maxiter ≤ INT_MAX) {a : XOut Dbl m n m} (ha : f.Aty bv DctBuf.fresh = some a)
    {r : Vec Dbl m × QOpts Dbl} (hi : l1qc_newton_init a.res opts = some r) (h0 : s.oracle s3.calls = true) (ho : ¬ ∀ i < 19, s.oracle (s3.calls + i) = true) :
    ∃ s', CSpec (l1qc_dct_bodyM n m c eta bo x_out b opts) s3 (L1C_OUT_OF_MEMORY, some ⟨dasum a.res, 0, 0, L1C_OUT_OF_MEMORY⟩) s' ∧
      Ext s s' ([some bo, some eta] ++ o.blocks) ∧ ∀ a : Ptr, s.live a.blk = true → s'.mem.val a = s.mem.val a := by
  obtain ⟨s4, s5, c1, c2, c3, c4, c5, E5, C⟩ := start_run hw R S H hb bl ha
  obtain ⟨u, prm⟩ := r
  obtain ⟨tau, L, rfl, -⟩ := init_opts hi
  have ho5 : ¬ ∀ i < 19, s5.oracle (s5.calls + i) = true := by rw [c3, c4]; exact ho
  obtain ⟨s6, k1, k2, k3, k4⟩ := (newtonM_run C hnm (prm := opts) (prm' := { opts with tau := tau, lbiter := L }) hmax (by rw [c3, c4]; exact h0) hi).1 ho5
  obtain ⟨n6, o6⟩ := cspec_next k1
  refine ⟨s6, c1.bind (c2.bind (k1.bind ?_)), E5.balanced k2 k3 n6 o6, fun a ha => ?_⟩
  · rw [if_pos (show L1C_OUT_OF_MEMORY ≠ 0 by decide)]
    exact .done _ _
  · rw [k4 a (by rw [E5.old_live _ (hw.lt ha)]; exact ha)]
    exact c5 a (hw.lt ha)

theorem body_ub (hw : s.WF) (R : Ready s s3 n m o eta bo idx) (S : DctSet f idx) (H : DctImpl c f (BufAt o.buf) (o.buf.Own m)) (hb : HoldsV s b bv)
    (bl : s.live b.blk = true) (h0 : s.oracle s3.calls = false) : CUB (l1qc_dct_bodyM n m c eta bo x_out b opts) s3 := by
  obtain ⟨a, -, ha, -⟩ := (setOk S).Aty.same bv DctBuf.fresh (bufInv_fresh idx)
  obtain ⟨s4, s5, c1, c2, c3, c4, c5, E5, C⟩ := start_run hw R S H hb bl ha
  exact c1.bind_ub (c2.bind_ub (CUB.bind (newtonM_first_fails (by rw [c3, c4]; exact h0))))
end body

/-! ## The routine with a set -/

section withSet
variable {s s1 : PState Dbl} {n m : ℕ} {f : DctFuns Dbl m n} {idx : Fin n → Int} {c : DctFunsM Dbl} {o : DctObj} {x_out b : Ptr} {bv : Vec Dbl n} {opts : QOpts Dbl}
  {res : LBResult Dbl} {image : Vec Dbl m}

theorem SetUp.sep (U : SetUp s s1 m o) : o.buf.Sep m := by
  have h := U.ext.nd
  simp only [DctObj.blocks, List.pairwise_cons] at h
  exact ⟨rng_disj (h.1 (some o.buf.dx) (by simp) _ _ rfl rfl), rng_disj (h.1 (some o.buf.dy) (by simp) _ _ rfl rfl), rng_disj (h.2.1 (some o.buf.dy) (by simp) _ _ rfl rfl)⟩

/-- the two arrays of the routine -/
theorem arrays (U : SetUp s s1 m o) (idx : Fin n → Int) :
    ∃ eta bo s3, CSpec (callocC (m : Int)) s1 eta (s1.calloc m).2 ∧ CSpec (callocC (n : Int)) (s1.calloc m).2 bo s3 ∧ s3.calls = s.calls + 7 ∧ OldVals s s3 ∧
      Ext s s3 ([bo, eta] ++ o.blocks) ∧ (eta.isSome = true ↔ s.oracle (s.calls + 5) = true) ∧ (bo.isSome = true ↔ s.oracle (s.calls + 6) = true) ∧
      ∀ e b', eta = some e → bo = some b' → Ready s s3 n m o e b' idx := by
  obtain ⟨a1, a2, a3, a4, a5⟩ := U.ext.alloc m
  obtain ⟨b1, b2, b3, b4, b5⟩ := a1.alloc n
  have hE : Ext s ((s1.calloc m).2.calloc n).2 ([((s1.calloc m).2.calloc n).1, (s1.calloc m).1] ++ o.blocks) := b1.perm (by
    rw [List.append_assoc]
    refine List.perm_append_comm.trans (List.Perm.append_right _ ?_)
    exact List.Perm.swap _ _ _)
  have G : Grow s1 ((s1.calloc m).2.calloc n).2 := a2.trans b2
  refine ⟨_, _, _, cspec_calloc _ _, cspec_calloc _ _, ?_, (U.grow.trans G).val, hE, ?_, ?_, fun e b' he hb => ?_⟩
  · rw [b3, a3, U.calls]
  · rw [a5, U.calls]
  · rw [b5, a3, U.calls]
  · refine ⟨he ▸ hb ▸ hE, (U.grow.trans G).val, ((a4 e he).grow b2).holds0, (b4 b' hb).holds0, DctBuf.fresh, bufInv_fresh idx, ?_⟩
    exact ⟨(U.e.grow G).holds0, (U.x.grow G).holds0, (U.y.grow G).holds0⟩

theorem finish (hw : s.WF) {bo eta : Option Ptr} {s' : PState Dbl} (E : Ext s s' ([bo, eta] ++ o.blocks)) {α : Type} (out : α) :
    ∃ s'', CSpec (do freesC o.blocks; freesC [bo, eta]; pure out : Cmd Dbl α) s' out s'' ∧ s''.live = s.live ∧ s''.mem.len = s.mem.len ∧ s''.mem.val = s'.mem.val := by
  obtain ⟨s1, a1, a2, a3, -⟩ := frees_spec o.blocks (E.perm List.perm_append_comm)
  obtain ⟨s2, b1, b2, b3, -⟩ := frees_spec [bo, eta] (L := []) (by simpa using a2)
  exact ⟨s2, a1.bind (b1.bind (.done _ _)), (b2.final hw).1, (b2.final hw).2, b3.trans a3⟩

theorem with_run (hw : s.WF) (U : SetUp s s1 m o) (S : DctSet f idx) (H : DctImpl c f (BufAt o.buf) (o.buf.Own m)) (hb : HoldsV s b bv)
    (bl : s.live b.blk = true) (hx : s.mem.Has x_out m) (xl : s.live x_out.blk = true) (hnm : n ≤ m) (hmax : opts.cg_maxiter ≤ INT_MAX)
    (hr : recover f bv opts = some (res, image)) (ho : ∀ i < 26, s.oracle (s.calls + i) = true) :
    ∃ s', CSpec (l1qc_dct_withM n m c o x_out b opts) s1 (res.status, some res) s' ∧ s'.live = s.live ∧ s'.mem.len = s.mem.len ∧
      (res.status = 0 → HoldsV s' x_out image) ∧
      ∀ a : Ptr, s.live a.blk = true → (a ∉ Rng x_out m ∨ res.status ≠ 0) → s'.mem.val a = s.mem.val a := by
  obtain ⟨eta, bo, s3, a1, a2, a3, a4, a5, a6, a7, a8⟩ := arrays (n := n) U idx
  obtain ⟨e, rfl⟩ := Option.isSome_iff_exists.1 (a6.2 (ho 5 (by omega)))
  obtain ⟨b', rfl⟩ := Option.isSome_iff_exists.1 (a7.2 (ho 6 (by omega)))
  obtain ⟨s4, c1, c2, c3, c4⟩ := body_run hw (a8 e b' rfl rfl) S H hb bl hx xl hnm hmax hr fun i hi => by
    rw [a3, Nat.add_assoc]
    exact ho _ (by omega)
  obtain ⟨s5, d1, d2, d3, d4⟩ := finish hw c2 (res.status, some res)
  refine ⟨s5, a1.bind (a2.bind (c1.bind d1)), d2, d3, fun h => ?_, fun a h1 h2 => by rw [d4]; exact c4 a h1 h2⟩
  have hxl := hw.lt xl
  exact (c3 h).grow ((congrFun d3 _).trans (c2.old_len _ hxl).symm) fun q _ => by rw [d4]

theorem with_oom (hw : s.WF) (U : SetUp s s1 m o) (S : DctSet f idx) (H : DctImpl c f (BufAt o.buf) (o.buf.Own m)) (hb : HoldsV s b bv)
    (bl : s.live b.blk = true) (hnm : n ≤ m) (hmax : opts.cg_maxiter ≤ INT_MAX) {a : XOut Dbl m n m} (ha : f.Aty bv DctBuf.fresh = some a)
    {r : Vec Dbl m × QOpts Dbl} (hi : l1qc_newton_init a.res opts = some r) (h7 : s.oracle (s.calls + 7) = true) (h5 : ∀ i < 5, s.oracle (s.calls + i) = true)
    (ho : ¬ ∀ i < 26, s.oracle (s.calls + i) = true) :
    ∃ r s', CSpec (l1qc_dct_withM n m c o x_out b opts) s1 (L1C_OUT_OF_MEMORY, r) s' ∧ s'.live = s.live ∧ s'.mem.len = s.mem.len ∧
      ∀ a : Ptr, s.live a.blk = true → s'.mem.val a = s.mem.val a := by
  obtain ⟨eta, bo, s3, a1, a2, a3, a4, a5, a6, a7, a8⟩ := arrays (n := n) U idx
  by_cases hs : eta.isSome = true ∧ bo.isSome = true
  · have g5 := a6.1 hs.1
    have g6 := a7.1 hs.2
    obtain ⟨e, rfl⟩ := Option.isSome_iff_exists.1 hs.1
    obtain ⟨b', rfl⟩ := Option.isSome_iff_exists.1 hs.2
    obtain ⟨s4, c1, c2, c3⟩ := body_oom (x_out := x_out) hw (a8 e b' rfl rfl) S H hb bl hnm hmax ha hi (by rw [a3]; exact h7) fun hc => ho fun i hi => by
      rcases Nat.lt_or_ge i 5 with h | h
      · exact h5 i h
      rcases Nat.lt_or_ge i 7 with h' | h'
      · rcases Nat.lt_or_ge i 6 with h'' | h''
        · obtain rfl : i = 5 := by omega
          exact g5
        · obtain rfl : i = 6 := by omega
          exact g6
      · have := hc (i - 7) (by omega)
        rwa [a3, show s.calls + 7 + (i - 7) = s.calls + i by omega] at this
    obtain ⟨s5, d1, d2, d3, d4⟩ := finish hw c2 _
    exact ⟨_, s5, a1.bind (a2.bind (c1.bind d1)), d2, d3, fun a h1 => by rw [d4]; exact c3 a h1⟩
  · obtain ⟨s5, d1, d2, d3, d4⟩ := finish hw a5 (L1C_OUT_OF_MEMORY, (none : Option (LBResult Dbl)))
    refine ⟨none, s5, a1.bind (a2.bind ?_), d2, d3, fun a h1 => by rw [d4]; exact a4 a (hw.lt h1)⟩
    rcases eta with _ | e
    · exact CSpec.bind (.done _ _) d1
    · rcases bo with _ | b'
      · exact CSpec.bind (.done _ _) d1
      · exact absurd ⟨rfl, rfl⟩ hs

theorem with_ub (hw : s.WF) (U : SetUp s s1 m o) (S : DctSet f idx) (H : DctImpl c f (BufAt o.buf) (o.buf.Own m)) (hb : HoldsV s b bv)
    (bl : s.live b.blk = true) (ho : ∀ i < 7, s.oracle (s.calls + i) = true) (h7 : s.oracle (s.calls + 7) = false) : CUB (l1qc_dct_withM n m c o x_out b opts) s1 := by
  obtain ⟨eta, bo, s3, a1, a2, a3, a4, a5, a6, a7, a8⟩ := arrays (n := n) U idx
  obtain ⟨e, rfl⟩ := Option.isSome_iff_exists.1 (a6.2 (ho 5 (by omega)))
  obtain ⟨b', rfl⟩ := Option.isSome_iff_exists.1 (a7.2 (ho 6 (by omega)))
  exact a1.bind_ub (a2.bind_ub (CUB.bind (body_ub hw (a8 e b' rfl rfl) S H hb bl (by rw [a3]; exact h7))))
end withSet

/-! ## The front end -/

section front
variable {F : Type} [Scalar F] {s : PState F} {fw1 : ℕ → FftwM F} {fw2 : ℕ → ℕ → FftwM F} {mrow mcol n : ℕ} {idx : List Int} {mode : Int} {x_out b : Ptr} {opts : QOpts F}

theorem front_eq (hv : ValidDct n mrow mcol idx) : l1qc_dctM fw1 fw2 mrow mcol x_out n b idx mode opts = (do
    need (FitsInt ((mrow : Int) * mcol))
    let r ← dctSetupM (twoDim mrow mcol mode) (mrow * mcol)
    match r.2 with
    | none => pure (L1C_DCT_INIT_FAILURE, none)
    | some o => l1qc_dct_withM n (mrow * mcol) (imageFunsM fw1 fw2 mrow mcol n idx (twoDim mrow mcol mode) o.buf) o x_out b opts) := by
  obtain ⟨h1, h2, h3, h4⟩ := hv
  unfold l1qc_dctM
  have e1 : ¬ ((n : Int) ≤ 0 ∨ (mrow : Int) ≤ 0 ∨ (mcol : Int) ≤ 0) := by omega
  have e2 : check_pix_idx idx ((mrow : Int) * mcol - 1) = false := by
    unfold check_pix_idx
    rw [List.any_eq_false]
    intro i hi
    have := h4 i hi
    simp only [decide_eq_true_eq]
    omega
  have e3 : decide (¬ ((mcol : Int) = 1 ∨ (mrow : Int) = 1 ∨ mode = DCT1)) = twoDim mrow mcol mode := by
    unfold twoDim
    rw [decide_eq_decide]
    tauto
  rw [if_neg e1, e2, e3]
  rfl

theorem validIdx (hv : ValidDct n mrow mcol idx) (hl : idx.length = n) : (0 < mrow ∧ 0 < mcol) ∧ IdxOk (mrow * mcol) (idxFun n idx) := by
  obtain ⟨h1, h2, h3, h4⟩ := hv
  refine ⟨by omega, fun i => ?_⟩
  have e : idxFun n idx i = idx[i.val]'(by omega) := by
    unfold idxFun
    simp [hl]
  rw [e]
  have := h4 _ (List.getElem_mem (by omega : i.val < idx.length))
  push_cast
  exact this
end front
end L1c
