import Verif.Proofs.NestaRam
import Verif.Proofs.NestaRes

/-! Helper lemmas: the allocations of NESTA on memory. -/

namespace L1c
open Prog Scalar Cmd

variable {F : Type} [Scalar F] {σ : Type} {n m p : ℕ} {axM : NAxM F} {ax : NAx F σ n m p} {R : σ → PState F → Prop} {Own : Set Ptr} {x b : Ptr} {t : σ} {s : PState F}
  {xv : Vec F m} {bv : Vec F n} {opts : NestaOpts F}

/-- position in the list of blocks -/
def nIdx : NI → ℕ
  | .xo => 0
  | .xk => 1
  | .yk => 2
  | .zk => 3
  | .Atb => 4
  | .gradf => 5
  | .gradf_sum => 6
  | .dwork1 => 7
  | .dwork2 => 8
  | .fifo => 9
  | .b => 10

theorem nIdx_inj {a c : NI} (h : a ≠ c) : nIdx a ≠ nIdx c := by
  cases a <;> cases c <;> first | exact absurd rfl h | decide

theorem nIdx_lt {a : NI} (h : a ≠ .b) : nIdx a < 10 := by
  cases a <;> first | exact absurd rfl h | decide

theorem nSep {k K : ℕ} {q : NPtr} {fv : Ptr} {l : List ℕ} (hnd : l.Nodup) (hlen : l.length = 10) (hge : ∀ i < 10, k ≤ l.getD i 0)
    (hat : ∀ a : NI, a ≠ .b → (q.pt fv a).blk = l.getD (nIdx a) 0) (hb : q.b.blk < k) (ho : ∀ a ∈ Own, a.blk < k) (bo : Disjoint (Rng q.b n) Own) :
    ASep (nlen n m p K) (q.pt fv) Own := by
  have hge' : ∀ a : NI, a ≠ .b → k ≤ (q.pt fv a).blk := fun a ha => hat a ha ▸ hge _ (nIdx_lt ha)
  have inj : ∀ i < 10, ∀ j < 10, i ≠ j → l.getD i 0 ≠ l.getD j 0 := fun i hi j hj h e => by
    have g : ∀ (i : ℕ) (hi : i < 10), l.getD i 0 = l[i] := fun i hi => by
      rw [List.getD_eq_getElem?_getD, List.getElem?_eq_getElem (by omega), Option.getD_some]
    rw [g i hi, g j hj] at e
    exact h (hnd.getElem_inj_iff.1 e)
  refine ⟨fun a c hac => ?_, fun a => ?_⟩
  · by_cases ha : a = .b
    · subst ha
      have := hge' c (Ne.symm hac)
      exact rng_disj (show q.b.blk ≠ (q.pt fv c).blk by omega)
    by_cases hc : c = .b
    · subst hc
      have := hge' a ha
      exact rng_disj (show (q.pt fv a).blk ≠ q.b.blk by omega)
    refine rng_disj (p := q.pt fv a) (q := q.pt fv c) ?_
    rw [hat a ha, hat c hc]
    exact inj _ (nIdx_lt ha) _ (nIdx_lt hc) (nIdx_inj hac)
  · by_cases ha : a = .b
    · subst ha
      exact bo
    · refine Set.disjoint_left.2 fun r h1 h2 => ?_
      have := ho r h2
      have := h1.1
      have := hge' a ha
      omega

theorem mkNPtr_some {arrs : List (Option Ptr)} {q : NPtr} (h : mkNPtr b arrs = some q) : ∀ o ∈ arrs, o.isSome = true := by
  unfold mkNPtr at h
  split at h
  · simp
  · cases h

/-- the sizes of the arrays -/
def nSizes (m p : ℕ) : List ℕ := [m, m, m, m, m, m, m, max m p, max m p]

theorem nSizes_cast (m p : ℕ) : (nSizes m p).map (fun N => (N : Int)) = [(m : Int), m, m, m, m, m, m, max (m : Int) p, max (m : Int) p] := by
  simp [nSizes]

/-- a failed allocation -/
theorem nestaM_oom (C : NCall axM ax R Own x b xv bv t s) (h : ¬ ∀ i < 10, s.oracle (s.calls + i) = true) :
    ∃ s', CSpec (l1c_nestaM m x n b axM opts) s L1C_OUT_OF_MEMORY s' ∧ s'.live = s.live ∧ s'.mem.len = s.mem.len ∧ ∀ a, s.live a.blk = true → s'.mem.val a = s.mem.val a := by
  obtain ⟨a1, a2, a3, a4, a5⟩ := (Ext.init C.wf).alloc 40
  have hc := cspec_calloc NP_WORDS s
  have e40 : NP_WORDS = ((40 : ℕ) : Int) := rfl
  unfold l1c_nestaM
  rw [C.impl.n, C.impl.m, C.impl.p, if_neg (by simp)]
  cases hnp : (s.calloc ((40 : ℕ) : Int)).1 with
  | none =>
    rw [e40, hnp] at hc
    rw [hnp] at a1
    have E := a1.free
    refine ⟨_, hc.bind (.done _ _), ?_⟩
    obtain ⟨s1, b1, b2, -, -⟩ := E
    have : s1 = (s.calloc ((40 : ℕ) : Int)).2 := (Option.some.inj b1).symm
    subst this
    exact ⟨(b2.final C.wf).1, (b2.final C.wf).2, fun a ha => a2.val a (C.wf.lt ha)⟩
  | some np =>
    rw [e40, hnp] at hc
    rw [hnp] at a1
    obtain ⟨arrs, s2, b1, b2, b3, b4, b5, b6⟩ := callocs_spec (nSizes m p) a1
    rw [nSizes_cast] at b1
    have hq : mkNPtr b arrs = none := by
      cases hq : mkNPtr b arrs with
      | none => rfl
      | some q =>
        refine absurd (fun i hi => ?_) h
        rcases i with _ | i
        · exact a5.1 (by rw [hnp]; rfl)
        · have := b6.1 (mkNPtr_some hq) i (by simp [nSizes]; omega)
          rwa [a3, show s.calls + 1 + i = s.calls + (i + 1) by omega] at this
    obtain ⟨s3, c1, c2, c3, -⟩ := frees_spec arrs (b2.perm List.perm_append_comm)
    obtain ⟨s4, d1, d2, d3, -⟩ := c2.free
    refine ⟨s4, hc.bind (b1.bind ?_), (d2.final C.wf).1, (d2.final C.wf).2, fun a ha => ?_⟩
    · rw [hq]
      exact c1.bind ((cspec_free d1).bind (.done _ _))
    · have := C.wf.lt ha
      rw [d3, c3, b3.val a (this.trans_le a2.next_le), a2.val a this]

/-- successful allocations -/
theorem nestaM_alloc (C : NCall axM ax R Own x b xv bv t s) (h : ∀ i < 10, s.oracle (s.calls + i) = true) :
    ∃ np arrs q s1 s2, CSpec (callocC NP_WORDS) s (some np) s1 ∧
      CSpec (callocsC [(m : Int), m, m, m, m, m, m, max (m : Int) p, max (m : Int) p]) s1 arrs s2 ∧ mkNPtr b arrs = some q ∧ q.b = b ∧
      Ext s s2 (arrs ++ [some np]) ∧ OldVals s s2 ∧ s2.calls = s.calls + 10 ∧
      AHolds (nlen n m p 0) (q.pt ⟨s2.next, 0⟩) s2 (nEnv (nestaZero bv) Fin.elim0) ∧ (∀ K, ASep (nlen n m p K) (q.pt ⟨s2.next, 0⟩) Own) ∧
      (∀ i, i ≠ .b → s.next ≤ (q.pt ⟨s2.next, 0⟩ i).blk) ∧ (∀ i, i ≠ .fifo → (q.pt ⟨s2.next, 0⟩ i).blk < s2.next) ∧ R t s2 ∧ (arrs ++ [some np]).length = 10 := by
  have hbl := C.wf.lt C.blive
  have hol : ∀ a ∈ Own, a.blk < s.next := fun a ha => C.wf.lt (C.olive a ha)
  obtain ⟨a1, a2, a3, a4, a5⟩ := (Ext.init C.wf).alloc 40
  have hc := cspec_calloc NP_WORDS s
  have e40 : NP_WORDS = ((40 : ℕ) : Int) := rfl
  rw [e40] at hc
  obtain ⟨np, hnp⟩ := Option.isSome_iff_exists.1 (a5.2 (h 0 (by decide)))
  rw [hnp] at a1 hc
  set s1 := (s.calloc ((40 : ℕ) : Int)).2 with hs1
  obtain ⟨arrs, s2, b1, b2, b3, b4, b5, b6⟩ := callocs_spec (nSizes m p) a1
  rw [nSizes_cast] at b1
  have g1 : ∀ o ∈ arrs, o.isSome = true := b6.2 fun i hi => by
    have := h (i + 1) (by simp [nSizes] at hi; omega)
    rw [a3, show s.calls + 1 + i = s.calls + (i + 1) by omega]
    exact this
  have v2 : OldVals s s2 := fun q hq => (b3.val q (hq.trans_le a2.next_le)).trans (a2.val q hq)
  unfold nSizes at b5
  rcases b5 with _ | ⟨f0, b5⟩
  rcases b5 with _ | ⟨f1, b5⟩
  rcases b5 with _ | ⟨f2, b5⟩
  rcases b5 with _ | ⟨f3, b5⟩
  rcases b5 with _ | ⟨f4, b5⟩
  rcases b5 with _ | ⟨f5, b5⟩
  rcases b5 with _ | ⟨f6, b5⟩
  rcases b5 with _ | ⟨f7, b5⟩
  rcases b5 with _ | ⟨f8, b5⟩
  cases b5
  simp only [List.forall_mem_cons, Option.isSome_iff_exists] at g1
  obtain ⟨⟨p0, rfl⟩, ⟨p1, rfl⟩, ⟨p2, rfl⟩, ⟨p3, rfl⟩, ⟨p4, rfl⟩, ⟨p5, rfl⟩, ⟨p6, rfl⟩, ⟨p7, rfl⟩, ⟨p8, rfl⟩, -⟩ := g1
  have E2 := b2.perm List.perm_append_comm
  set q : NPtr := ⟨p0, p1, p2, p3, p4, p5, p6, p7, p8, b⟩ with hq
  set l : List Ptr := [p0, p1, p2, p3, p4, p5, p6, p7, p8, ⟨s2.next, 0⟩] with hl
  have hmem : ∀ r ∈ [p0, p1, p2, p3, p4, p5, p6, p7, p8], s.next ≤ r.blk ∧ r.blk < s2.next := fun r hr => by
    have := E2.ptrs r (by simp only [List.mem_append]; left; exact List.mem_map_of_mem (f := some) hr)
    exact ⟨this.1, this.2.1⟩
  have hnd : (l.map Ptr.blk).Nodup := by
    have h' := (List.pairwise_append.1 E2.nd).1
    have h'' : ([p0, p1, p2, p3, p4, p5, p6, p7, p8].map some).Pairwise fun o o' => ∀ p p', o = some p → o' = some p' → p.blk ≠ p'.blk := h'
    rw [List.pairwise_map] at h''
    have : l = [p0, p1, p2, p3, p4, p5, p6, p7, p8] ++ [⟨s2.next, 0⟩] := rfl
    rw [this, List.map_append]
    refine List.nodup_append.2 ⟨List.pairwise_map.2 (h''.imp fun hh => hh _ _ rfl rfl), by simp, ?_⟩
    rintro a ha c hc rfl
    obtain ⟨r, hr, rfl⟩ := List.mem_map.1 ha
    simp only [List.map_cons, List.map_nil, List.mem_singleton] at hc
    have := (hmem r hr).2
    omega
  have hgel : ∀ r ∈ l, s.next ≤ r.blk := fun r hr => by
    have : l = [p0, p1, p2, p3, p4, p5, p6, p7, p8] ++ [⟨s2.next, 0⟩] := rfl
    rw [this, List.mem_append] at hr
    rcases hr with hr | hr
    · exact (hmem r hr).1
    · rw [List.mem_singleton] at hr
      subst hr
      exact E2.next_le
  have hge : ∀ i < 10, s.next ≤ (l.map Ptr.blk).getD i 0 := fun i hi => by
    have hm : (l.map Ptr.blk).getD i 0 ∈ l.map Ptr.blk := by
      rw [List.getD_eq_getElem?_getD, List.getElem?_eq_getElem (by simpa [hl] using hi), Option.getD_some]
      exact List.getElem_mem _
    obtain ⟨r, e1, e2⟩ := List.mem_map.1 hm
    rw [← e2]
    exact hgel r e1
  have hat : ∀ a : NI, a ≠ .b → (q.pt ⟨s2.next, 0⟩ a).blk = (l.map Ptr.blk).getD (nIdx a) 0 := fun a ha => by
    cases a <;> first | exact absurd rfl ha | rfl
  have hb2 : HoldsV s2 b bv := C.hb.grow (E2.old_len _ hbl) fun r hr => v2 r (hr ▸ hbl)
  refine ⟨np, _, q, s1, s2, hc, b1, rfl, rfl, E2, v2, ?_, fun i => ?_, fun K => nSep hnd rfl hge hat hbl hol C.bo, fun i hi => ?_, fun i hi => ?_, ?_, rfl⟩
  · rw [b4, a3]
    rfl
  · cases i
    case b => exact hb2
    case fifo => exact ⟨fun k h0 h1 => absurd h1 (by show ¬ k < ((0 : ℕ) : Int); omega), fun i => i.elim0⟩
    case xo => exact (f0 _ rfl).holds0
    case xk => exact (f1 _ rfl).holds0
    case yk => exact (f2 _ rfl).holds0
    case zk => exact (f3 _ rfl).holds0
    case Atb => exact (f4 _ rfl).holds0
    case gradf => exact (f5 _ rfl).holds0
    case gradf_sum => exact (f6 _ rfl).holds0
    case dwork1 => exact (f7 _ rfl).holds0
    case dwork2 => exact (f8 _ rfl).holds0
  · rw [hat i hi]
    exact hge _ (nIdx_lt hi)
  · cases i
    case b => exact lt_of_lt_of_le hbl E2.next_le
    case fifo => exact absurd rfl hi
    all_goals exact (hmem _ (by simp [hq, NPtr.pt])).2
  · exact C.own t s s2 C.hR fun a ha => ⟨v2 a (hol a ha), E2.old_len _ (hol a ha)⟩

/-- an array of NESTA other than the data is in a new block -/
theorem nAll_new {k K : ℕ} {q : NPtr} {fv a : Ptr} (hq : q.b = b) (hge : ∀ i : NI, i ≠ .b → k ≤ (q.pt fv i).blk) (ha : a ∈ AAll (nlen n m p K) (q.pt fv) ∪ Own) (hlt : a.blk < k)
    (hb : a ∉ Rng b n) : a ∈ Own := by
  rcases ha with ⟨i, hi⟩ | ha
  · by_cases e : i = .b
    · subst e
      exact absurd (hq ▸ hi) hb
    · have h1 := hge i e
      have h2 : a.blk = (q.pt fv i).blk := hi.1
      omega
  · exact ha

/-- an operator is missing: the ten blocks are not released -/
theorem nestaM_missing (C : NCall axM ax R Own x b xv bv t s) (h : ∀ i < 10, s.oracle (s.calls + i) = true) (hm : ax.Missing) :
    ∃ s' L, CSpec (l1c_nestaM m x n b axM opts) s L1C_INCONSISTENT_ARGUMENTS s' ∧ Ext s s' L ∧ L.length = 10 ∧ (∀ o ∈ L, o.isSome = true) ∧ OldVals s s' := by
  obtain ⟨np, arrs, q, s1, s2, c1, c2, c3, c4, E, v2, -, hH, S, -, -, hR, hlen⟩ := nestaM_alloc C h
  have hm' : axM.Wz.isNone ∨ axM.Wtx.isNone ∨ axM.hasRx = false ∨ axM.hasRty = false := by
    have hW : ∀ {l k : ℕ} {c : Option (Ptr → Ptr → Cmd F Unit)} {op : Option (NOp F σ l k)}, NOptImpl R Own c op → c.isNone = op.isNone := by
      intro l k c op h
      cases c <;> cases op <;> first | rfl | exact h.elim
    rw [hW C.impl.Wz, hW C.impl.Wtx, C.impl.hasRx, C.impl.hasRty]
    exact hm
  refine ⟨s2, arrs ++ [some np], ?_, E, hlen, ?_, v2⟩
  · unfold l1c_nestaM
    rw [C.impl.n, C.impl.m, C.impl.p, if_neg (by simp)]
    refine c1.bind (c2.bind ?_)
    rw [c3]
    refine CSpec.bind (a := none) (s₁ := s2) ?_ (.done _ _)
    unfold l1c_nesta_setupM
    rw [if_pos hm']
    exact .done _ _
  · intro o ho
    rcases List.mem_append.1 ho with ho | ho
    · exact mkNPtr_some c3 o ho
    · rw [List.mem_singleton.1 ho]; rfl

/-- the run after the setup -/
theorem nestaM_run (C : NCall axM ax R Own x b xv bv t s) (h : ∀ i < 10, s.oracle (s.calls + i) = true) (hm : ¬ ax.Missing) {n1 n2 : NState σ} {st : Int}
    {P : NestaProb F n m p} {bm bt : F} (hs : l1c_nesta_setup ax (nestaZero bv) bv opts n1 = some ((st, P, bm, bt), n2)) (hcb : n1.cb = t) :
    (s.oracle (s.calls + 10) = false → CUB (l1c_nestaM m x n b axM opts) s) ∧
    (s.oracle (s.calls + 10) = true → ∀ {n3 n4 : NState σ} {o : NestaProb F n m p × ℕ}, n3.cb = n2.cb →
      nestaOuter ax bm bt opts.n_continue.toNat 1 0 { P with xk := P.xo } n3 = some (o, n4) →
      ∃ s', CSpec (l1c_nestaM m x n b axM opts) s L1C_SUCCESS s' ∧ HoldsV s' x o.1.xk ∧ (Disjoint (Rng x m) (Rng b n) → HoldsV s' b o.1.b) ∧
        (Disjoint (Rng x m) Own → R n4.cb s') ∧ s'.live = s.live ∧ s'.mem.len = s.mem.len ∧
        ∀ a, s.live a.blk = true → a ∉ Rng x m → a ∉ Rng b n → a ∉ Own → s'.mem.val a = s.mem.val a) := by
  have hxl := C.wf.lt C.xlive
  have hbl := C.wf.lt C.blive
  have hol : ∀ a ∈ Own, a.blk < s.next := fun a ha => C.wf.lt (C.olive a ha)
  obtain ⟨np, arrs, q, s1, s2, c1, c2, c3, c4, E, v2, hcalls, hH, S, hge, hlt, hR, hlen⟩ := nestaM_alloc C h
  set fv : Ptr := ⟨s2.next, 0⟩ with hfv
  have hst := nesta_run.setup_status hm hs
  subst hst
  obtain ⟨r, V', s3, d1, d2, d3, d4, d5, -⟩ := setupM_sim C.impl C.own (S 0) bv Fin.elim0 opts n1 _ n2 hs s2 hH (hcb.symm ▸ hR)
  rcases d5 with ⟨-, d5, -⟩ | ⟨rfl, -, rfl⟩
  · exact absurd d5 (by show ¬ L1C_SUCCESS = L1C_INCONSISTENT_ARGUMENTS; decide)
  have E3 := E.only d4
  have hn3 : s3.next = s2.next := d4.rest.2.1
  have hc3 : s3.calls = s.calls + 10 := d4.rest.2.2.1.trans hcalls
  obtain ⟨g1, g2, g3, g4, g5, g6, g7⟩ := E3.calloc (L1C_NESTA_NMEAN : Int)
  have hw := cspec_calloc (F := F) (L1C_NESTA_NMEAN : Int) s3
  unfold l1c_nestaM
  rw [C.impl.n, C.impl.m, C.impl.p, if_neg (by simp)]
  refine ⟨fun hf => ?_, fun ht => ?_⟩
  · have hnone : (s3.calloc (L1C_NESTA_NMEAN : Int)).1 = none := by
      cases e : (s3.calloc (L1C_NESTA_NMEAN : Int)).1 with
      | none => rfl
      | some w =>
        have := (g6.1 (by rw [e]; rfl)).1
        rw [hc3, hf] at this
        cases this
    rw [hnone] at hw
    refine c1.bind_ub (c2.bind_ub ?_)
    rw [c3]
    refine d1.bind_ub (CUB.bind (hw.bind_ub ?_))
    exact CUB.bind (cub_need (by simp) _)
  · intro n3 n4 o hn hout
    obtain ⟨w, hwp⟩ := Option.isSome_iff_exists.1 (g6.2 ⟨by rw [hc3]; exact ht, by decide⟩)
    obtain ⟨w1, w2, w3⟩ := g3 w hwp
    have hwo := (g1.ptrs w (by rw [hwp]; simp)).2.2
    have hwf : w = fv := by
      ext
      · exact w1.trans hn3
      · exact hwo
    rw [hwp, hwf] at g1 hw
    rw [hwf] at w2 w3
    set s4 := (s3.calloc (L1C_NESTA_NMEAN : Int)).2 with hs4
    have hhas : s4.mem.Has fv (L1C_NESTA_NMEAN : ℕ) := fun k h0 h1 => ⟨by show 0 ≤ (0 : Int) + k; omega, by
      show (0 : Int) + k < s4.mem.len fv.blk
      rw [w2]; simpa using h1⟩
    obtain ⟨s5, i1, i2, i3⟩ := cmd_seqInit hhas (lit 0 : F)
    have hH5 : AHolds (nlen n m p L1C_NESTA_NMEAN) (q.pt fv) s5 (nEnv P fun _ => lit 0) := fun i => by
      by_cases e : i = .fifo
      · subst e; exact i2
      · have hb4 : (q.pt fv i).blk < s3.next := hn3 ▸ hlt i e
        have h3 := d2 i
        have h4 : ∀ {N : ℕ} {v : Vec F N}, HoldsV s3 (q.pt fv i) v → HoldsV s5 (q.pt fv i) v := fun {N v} hh => by
          have h4 : HoldsV s4 (q.pt fv i) v := hh.grow (g4 _ (by omega)) fun r hr => g2 r (by omega)
          refine h4.grow (by rw [i3.len]) fun r hr => i3.val r fun hc => ?_
          have h1 : r.blk = fv.blk := hc.1
          have h2 : fv.blk = s2.next := rfl
          omega
        cases i <;> first | exact h4 h3 | exact absurd rfl e
    have hR5 : R n3.cb s5 := by
      rw [hn]
      refine C.own _ s3 s5 d3 fun a ha => ?_
      have hl := (hol a ha).trans_le E3.next_le
      refine ⟨?_, ?_⟩
      · rw [i3.val a fun hc => ?_]
        · exact g2 a hl
        · have h1 : a.blk = fv.blk := hc.1
          have h2 : fv.blk = s2.next := rfl
          omega
      · rw [i3.len]; exact g4 _ (by omega)
    obtain ⟨s55, y1, y2, y3⟩ := cmd_map1 (fun u => u) rfl (hH5 .xo) (hH5 .xk).1 (NoCross.of_disj ((S L1C_NESTA_NMEAN).dis .xk .xo (by decide)))
    have hH55 := hH5.set (V' := nEnv { P with xk := P.xo } fun _ => lit 0) (S L1C_NESTA_NMEAN) .xk le_rfl y2 (y3.mono Set.subset_union_left) (vput_full _ _ _).symm
      (by intro i hi; cases i <;> first | rfl | exact absurd rfl hi)
    have hR55 : R n3.cb s55 := C.own _ s5 s55 hR5 fun a ha => ⟨y3.val a fun hc => Set.disjoint_left.1 ((S L1C_NESTA_NMEAN).own .xk) hc ha, by rw [y3.len]⟩
    obtain ⟨st, V6, s6, k1, k2, k3, k4', ⟨k5, w', rfl⟩, -⟩ := outerM_sim C.impl C.own (S L1C_NESTA_NMEAN) bm bt opts.n_continue.toNat 1 0 ⟨fv, 0, fv⟩ rfl { P with xk := P.xo }
      (fun _ => lit 0) n3 o n4 hout s55 hH55 hR55
    have k4 : Only (AAll (nlen n m p L1C_NESTA_NMEAN) (q.pt fv) ∪ Own) s5 s6 := (y3.mono ((aall (len := nlen n m p L1C_NESTA_NMEAN) (ptr := q.pt fv) .xk).trans Set.subset_union_left)).trans k4' subset_rfl
    have E6 : Ext s s6 (arrs ++ [some np] ++ [some fv]) := (g1.only i3).only k4
    have hx6 : s6.mem.Has x m := fun k h0 h1 => ⟨(C.hx.1 k h0 h1).1, by
      show _ < ((s6.mem.len x.blk : ℕ) : Int)
      rw [E6.old_len _ hxl]; exact (C.hx.1 k h0 h1).2⟩
    have hkx : x.blk ≠ (q.pt fv .xk).blk := by have := hge .xk (by decide); omega
    obtain ⟨s7, j1, j2, j3⟩ := cmd_map1 (fun u => u) rfl (k2 .xk) hx6 (NoCross.of_disj (rng_disj hkx))
    have E7 : Ext s s7 (arrs ++ ([some np] ++ [some fv])) := by rw [← List.append_assoc]; exact E6.only j3
    obtain ⟨s8, l1, l2, l3, -⟩ := frees_spec arrs E7
    obtain ⟨s9, m1, m2, m3, -⟩ := l2.free
    obtain ⟨s10, o1, o2, o3, -⟩ := m2.free
    have hv : s10.mem.val = s7.mem.val := o3.trans (m3.trans l3)
    have hl10 := (o2.final C.wf).2
    have keep : ∀ {y : Ptr} {N : ℕ} {v : Vec F N}, y.blk < s.next → HoldsV s7 y v → HoldsV s10 y v := fun {y N v} hy hh =>
      hh.grow (by rw [hl10]; exact (E7.old_len _ hy).symm) fun r _ => by rw [hv]
    refine ⟨s10, ?_, keep hxl j2, fun hd => keep hbl ?_, fun hd => ?_, (o2.final C.wf).1, hl10, fun a ha h1 h2 h3 => ?_⟩
    · refine c1.bind (c2.bind ?_)
      rw [c3]
      refine d1.bind ?_
      refine CSpec.bind (a := ⟨fv, 0, fv⟩) (s₁ := s5) (hw.bind (i1.bind (.done _ _))) ?_
      refine y1.bind (k1.bind ?_)
      rw [k5]
      exact j1.bind (l1.bind ((cspec_free m1).bind ((cspec_free o1).bind (.done _ _))))
    · have h6 : HoldsV s6 b o.1.b := c4 ▸ k2 .b
      exact h6.keep j3 hd.symm
    · refine C.own _ s6 s10 k3 fun a ha => ⟨?_, ?_⟩
      · rw [hv]; exact j3.val a fun hc => Set.disjoint_left.1 hd hc ha
      · rw [hl10, E6.old_len _ (hol a ha)]
    · have hlt' := C.wf.lt ha
      have hge' : ∀ i : NI, i ≠ .b → s.next ≤ (q.pt fv i).blk := hge
      rw [hv, j3.val a h1, k4.val a fun hc => h3 (nAll_new c4 hge' hc hlt' h2), i3.val a fun hc => ?_, g2 a (hlt'.trans_le E3.next_le), d4.val a fun hc => h3 (nAll_new c4 hge' hc hlt' h2), v2 a hlt']
      have h4 : a.blk = fv.blk := hc.1
      have h5 := hge .fifo (by decide)
      have h6 : (q.pt fv .fifo).blk = fv.blk := rfl
      omega

/-! the data stay in the record -/

theorem project_b {P P' : NestaProb F n m p} {xx g v : Vec F m} {s s' : NState σ} (h : l1c_nesta_project ax P xx g s = some ((v, P'), s')) : P'.b = P.b := by
  unfold l1c_nesta_project at h
  dsimp only at h
  repeat (obtain ⟨⟨_, _⟩, -, h⟩ := Option.bind_eq_some_iff.1 h)
  obtain ⟨h, -⟩ := Prod.mk.inj (Option.some.inj h)
  rw [← (Prod.mk.inj h).2]

theorem feval_b {P P' : NestaProb F n m p} {s s' : NState σ} (h : l1c_nesta_feval ax P s = some (P', s')) : P'.b = P.b := by
  unfold l1c_nesta_feval at h
  dsimp only at h
  repeat (obtain ⟨⟨_, _⟩, -, h⟩ := Option.bind_eq_some_iff.1 h)
  rw [← (Prod.mk.inj (Option.some.inj h)).1]

theorem body_b {k : ℕ} {st st' : NLoop F n m p} {stop : Bool} {s s' : NState σ} (h : nestaBody ax k st s = some ((st', stop), s')) : st'.P.b = st.P.b := by
  unfold nestaBody at h
  obtain ⟨⟨P1, s1⟩, h1, h⟩ := Option.bind_eq_some_iff.1 h
  obtain ⟨⟨⟨y, P2⟩, s2⟩, h2, h⟩ := Option.bind_eq_some_iff.1 h
  obtain ⟨⟨⟨z, P3⟩, s3⟩, h3, h⟩ := Option.bind_eq_some_iff.1 h
  obtain ⟨h, -⟩ := Prod.mk.inj (Option.some.inj h)
  obtain ⟨rfl, rfl⟩ := Prod.mk.inj h
  exact (project_b h3).trans ((project_b h2).trans (feval_b h1))

theorem inner_b {fuel : ℕ} : ∀ {k : ℕ} {st : NLoop F n m p} {r : NLoop F n m p × ℕ} {s s' : NState σ}, nestaInner ax fuel k st s = some (r, s') → r.1.P.b = st.P.b := by
  induction fuel with
  | zero =>
    intro k st r s s' h
    rw [← (Prod.mk.inj (Option.some.inj h)).1]
  | succ fuel ih =>
    intro k st r s s' h
    unfold nestaInner at h
    obtain ⟨⟨⟨st1, stop⟩, s1⟩, h1, h⟩ := Option.bind_eq_some_iff.1 h
    cases stop with
    | true =>
      rw [← (Prod.mk.inj (Option.some.inj h)).1]
      exact body_b h1
    | false => exact (ih h).trans (body_b h1)

theorem outer_b {bm bt : F} {fuel : ℕ} : ∀ {iter : Int} {total : ℕ} {P : NestaProb F n m p} {r : NestaProb F n m p × ℕ} {s s' : NState σ},
    nestaOuter ax bm bt fuel iter total P s = some (r, s') → r.1.b = P.b := by
  induction fuel with
  | zero =>
    intro iter total P r s s' h
    unfold nestaOuter at h
    split at h
    · rw [← (Prod.mk.inj (Option.some.inj h)).1]
    · cases h
  | succ fuel ih =>
    intro iter total P r s s' h
    unfold nestaOuter at h
    obtain ⟨⟨⟨P1, k⟩, s1⟩, h1, h⟩ := Option.bind_eq_some_iff.1 h
    obtain ⟨⟨⟨st, k'⟩, s2⟩, h2, h3⟩ := Option.bind_eq_some_iff.1 h1
    obtain ⟨h3, -⟩ := Prod.mk.inj (Option.some.inj h3)
    obtain ⟨rfl, rfl⟩ := Prod.mk.inj h3
    have := inner_b h2
    exact (ih h).trans this

theorem setup_b {P P' : NestaProb F n m p} {r : Int × F × F} {s s' : NState σ} (hk : ∀ g, ax.Aty = some g → ∀ old t r, g bv old t = some r → r.1.1 = bv) (hm : ¬ ax.Missing)
    (h : l1c_nesta_setup ax P bv opts s = some ((r.1, P', r.2.1, r.2.2), s')) : P'.b = bv := by
  unfold l1c_nesta_setup at h
  unfold NAx.Missing at hm
  rw [if_neg hm] at h
  dsimp only at h
  obtain ⟨⟨⟨b', Atb⟩, s1⟩, h1, h⟩ := Option.bind_eq_some_iff.1 h
  have hb : b' = bv := by
    cases hA : ax.Aty with
    | none => rw [hA] at h1; cases h1
    | some g =>
      rw [hA] at h1
      obtain ⟨⟨⟨y, z⟩, t'⟩, e3, e4⟩ := Option.map_eq_some_iff.1 h1
      obtain ⟨e4, -⟩ := Prod.mk.inj e4
      rw [← (Prod.mk.inj e4).1]
      exact hk g hA _ _ _ e3
  repeat (obtain ⟨⟨_, _⟩, -, h⟩ := Option.bind_eq_some_iff.1 h)
  obtain ⟨h, -⟩ := Prod.mk.inj (Option.some.inj h)
  rw [← (Prod.mk.inj (Prod.mk.inj h).2).1]
  exact hb

theorem nesta_missing_cb {s ns : NState σ} {o : NestaOut F n m p} (hs : s.WF) (h : ∀ i < 10, s.oracle (s.calls + i) = true) (hm : ax.Missing)
    (e : l1c_nesta m n xv bv ax opts s = some (o, ns)) : ns.cb = s.cb := by
  rcases prob_new_spec s hs with ⟨-, arrs, N, h1, -⟩ | ⟨h', -⟩
  · unfold l1c_nesta at e
    rw [if_neg (by simp), nbind h1] at e
    dsimp only at e
    rw [nbind (a := (L1C_INCONSISTENT_ARGUMENTS, nestaZero bv, lit 0, lit 0)) (by
      unfold l1c_nesta_setup
      unfold NAx.Missing at hm
      rw [if_pos hm]; rfl)] at e
    dsimp only at e
    rw [if_pos (by decide)] at e
    rw [← (Prod.mk.inj (Option.some.inj e)).2]
  · exact absurd h h'

omit [Scalar F] in
/-- the number of blocks that stay -/
theorem ext_leak {s' : PState F} {L : List (Option Ptr)} (hw : s.WF) (E : Ext s s' L) (hs : ∀ o ∈ L, o.isSome = true) :
    {k | s'.live k = true ∧ s.live k = false}.ncard = L.length := by
  have hL : L = (L.filterMap id).map some := by
    clear E
    induction L with
    | nil => rfl
    | cons o L ih =>
      obtain ⟨q, rfl⟩ := Option.isSome_iff_exists.1 (hs o (by simp))
      simp only [List.filterMap_cons_some (show id (some q) = some q from rfl), List.map_cons]
      rw [← ih fun o ho => hs o (by simp [ho])]
  generalize L.filterMap id = l at hL
  subst hL
  have hnd : (l.map Ptr.blk).Nodup := by
    have h := E.nd
    rw [List.pairwise_map] at h
    exact List.pairwise_map.2 (h.imp fun hh => hh _ _ rfl rfl)
  have : {k | s'.live k = true ∧ s.live k = false} = ((l.map Ptr.blk).toFinset : Set ℕ) := by
    ext k
    simp only [Set.mem_ofPred_eq, List.coe_toFinset, List.mem_map]
    constructor
    · rintro ⟨h1, h2⟩
      by_cases hk : k < s.next
      · rw [E.old_live k hk, h2] at h1
        cases h1
      · obtain ⟨q, hq, e⟩ := (E.new_live k (by omega)).1 h1
        obtain ⟨q', hq', e'⟩ := List.mem_map.1 hq
        cases e'
        exact ⟨q, hq', e⟩
    · rintro ⟨q, hq, rfl⟩
      have hq' : some q ∈ l.map some := List.mem_map_of_mem hq
      have h := (E.ptrs q hq').1
      exact ⟨(E.new_live _ h).2 ⟨q, hq', rfl⟩, (hw _ h).1⟩
  rw [this, Set.ncard_coe_finset, List.toFinset_card_of_nodup hnd, List.length_map, List.length_map]

omit [Scalar F] in
theorem NAx.Total.notMissing {Inv : σ → Prop} (ha : ax.Total Inv) (hR : ax.hasRx = true ∧ ax.hasRty = true) : ¬ ax.Missing := by
  obtain ⟨g1, e1, -⟩ := ha.Wz
  obtain ⟨g2, e2, -⟩ := ha.Wtx
  unfold NAx.Missing
  rw [e1, e2, hR.1, hR.2]
  simp

end L1c
