import Verif.Proofs.Example

/-!
# C72: the example program

`main` of examples/c/l1qc_dct_c.c, from program start, for every file, every parser and every pattern of allocation failures.
-/

namespace L1c
open Scalar

variable {F : Type} [Scalar F] {lib : FftwLib F} {parse : List UInt8 → Option (CJ F)} {e : FileEnv} {junk : ℕ → F}
variable {s s' : NState (ℕ × World F)} {st : Int} {o : Option (DctOut F)} {wo : ℕ → Bool} {wj : ℕ → ℕ → F}

omit [Scalar F] in
theorem Sets.empty_not_busy (two : Bool) : ¬ (Sets.empty : Sets F).busy two := by
  rintro (h | ⟨t, h, -⟩)
  · cases two <;> cases h
  · cases h

/-- **C72**, every defined run.  The file is closed and no transform object is left.  It ends in one of four ways: no memory for
the path (1); the file could not be loaded (`L1C_FILE_READ_FAILURE`; at most one block, the text buffer, stays
allocated); a field was missing or memory refused (not 0, nothing stays allocated); or 0, and then the document of the file has arrays `b` and `pix_idx` and a
number `mtot`, the recovery was run on exactly these with `mtot` by 1 pixels, and nothing stays allocated.  Missing: a failed recovery is not
reported and the text buffer can stay allocated, see below. -/
theorem C72_outcome_partial (hs : s.WF) (hw : s.cb.2 = World.init wo wj false) (h : exampleMain lib parse e junk s = some ((st, o), s')) :
    s'.cb.1 = s.cb.1 ∧ (∀ c, s'.cb.2.obj c = none) ∧
    ((st = 1 ∧ o = none ∧ s'.live = s.live ∧ s.oracle s.calls = false) ∨
     (st = L1C_FILE_READ_FAILURE ∧ o = none ∧ (s'.live = s.live ∨ ∃ b, b ∉ s.live ∧ s'.live = insert b s.live)) ∨
     (st ≠ 0 ∧ o = none ∧ s'.live = s.live) ∨
     (st = 0 ∧ s'.live = s.live ∧ ∃ d lb lp v m out t t', parse (cstring (e.stream.take (toCInt e.ftell).toNat)) = some d ∧
        d.get "b" = some (.arr lb) ∧ d.get "pix_idx" = some (.arr lp) ∧ d.get "mtot" = some (.num v m) ∧ 0 ≤ m ∧
        t.cb = s.cb.2 ∧ o = some out ∧
        l1qc_dct lib m 1 (freshArr m junk) lp.length (listArr (lb.map CJ.valuedouble)) (lp.map CJ.valueint) DCT1 exampleOpts t = some (out, t'))) := by
  have hH : Hist lib s.cb.2 Sets.empty := hw ▸ Hist.start wo wj
  have hobj : ∀ c, s.cb.2.obj c = none := C32_no_leak_partial hH (by simp [Sets.idle, Sets.empty])
  unfold exampleMain at h
  obtain ⟨fp, s1, h1, h⟩ := nbind_some h
  obtain ⟨g1, gn⟩ := nalloc_grab hs h1
  cases fp with
  | none =>
    cases h
    exact ⟨by rw [g1.cb], by rw [g1.cb]; exact hobj, Or.inl ⟨rfl, rfl, g1.live, gn rfl⟩⟩
  | some f =>
  obtain ⟨f1, f2, f3⟩ := g1.fresh hs rfl
  dsimp only at h
  obtain ⟨⟨st0, doc⟩, s2, h2, h⟩ := nbind_some h
  obtain ⟨t2, k2, rfl⟩ := nfiles_some h2
  obtain ⟨p0, g2, hd⟩ := load_grab (s := ⟨s1.live, s1.next, s1.calls, s1.oracle, s1.cb.1⟩) g1.wf k2
  replace g2 := g2.files (s := s1)
  dsimp only at h
  split_ifs at h with hst
  · obtain ⟨⟨⟩, s3, h3, h⟩ := nbind_some h
    cases h
    have e3 := nfree_ins (p := some f) (A := ins p0 s.live) (by rw [g2.live, g1.live, ins_comm]) (fun b hb => by
      cases hb
      refine not_ins f1 fun hc => ?_
      have := g2.new f hc
      omega) h3
    have ecb : s'.cb = s.cb := by rw [e3.2, g2.cb, g1.cb]
    refine ⟨by rw [ecb], by rw [ecb]; exact hobj, Or.inr (Or.inl ⟨rfl, rfl, ?_⟩)⟩
    cases p0 with
    | none => exact Or.inl e3.1
    | some b =>
      refine Or.inr ⟨b, fun hc => ?_, e3.1⟩
      have := g2.new b rfl
      have := hs b hc
      omega
  · obtain ⟨rfl, rfl⟩ := hd (not_not.1 hst)
    obtain ⟨b, s3, h3, h⟩ := nbind_some h
    obtain ⟨t3, k3, rfl⟩ := nfiles_some h3
    obtain ⟨g3, b0, hb⟩ := darray_grab (s := ⟨t2.live, t2.next, t2.calls, t2.oracle, t2.cb⟩) g2.wf k3
    replace g3 := g3.files (s := ⟨t2.live, t2.next, t2.calls, t2.oracle, (t2.cb, s1.cb.2)⟩)
    obtain ⟨p, s4, h4, h⟩ := nbind_some h
    obtain ⟨t4, k4, rfl⟩ := nfiles_some h4
    obtain ⟨g4, p0, hp⟩ := iarray_grab (s := ⟨t3.live, t3.next, t3.calls, t3.oracle, t3.cb⟩) g3.wf k4
    replace g4 := g4.files (s := ⟨t3.live, t3.next, t3.calls, t3.oracle, (t3.cb, s1.cb.2)⟩)
    obtain ⟨m0, hm⟩ := extract_int_inv (parse (cstring (e.stream.take (toCInt e.ftell).toNat))) "mtot"
    obtain ⟨x, s5, h5, h⟩ := nbind_some h
    obtain ⟨t5, k5, rfl⟩ := nfiles_some h5
    obtain ⟨g5, hx⟩ := ncalloc_grab (s := ⟨t4.live, t4.next, t4.calls, t4.oracle, t4.cb⟩) g4.wf k5
    replace g5 := g5.files (s := ⟨t4.live, t4.next, t4.calls, t4.oracle, (t4.cb, s1.cb.2)⟩)
    dsimp only [Option.getD_some] at h
    have hg5 : ins x (ins ((p.x.getD none).map (·.1)) (ins ((b.x.getD none).map (·.1)) (ins (some f) s.live))) = t5.live := by
      have e5 := g5.live
      have e4 := g4.live
      have e3 := g3.live
      have e2 := g2.live
      dsimp only at e5 e4 e3 e2
      rw [e5, e4, e3, e2, g1.live]
      rfl
    have n1 := g1.next
    have n2 := g2.next
    have n3 := g3.next
    have n4 := g4.next
    dsimp only at n1 n2 n3 n4
    have kb : ∀ k, (b.x.getD none).map (·.1) = some k → k ∉ s.live ∧ f < k ∧ k < t3.next := fun k hk => by
      have := g3.fresh g2.wf hk
      dsimp only at this
      refine ⟨fun hc => ?_, by omega, this.2.2⟩
      have := hs k hc
      omega
    have kp : ∀ k, (p.x.getD none).map (·.1) = some k → k ∉ s.live ∧ f < k ∧ t3.next ≤ k ∧ k < t4.next := fun k hk => by
      have := g4.fresh g3.wf hk
      dsimp only at this
      refine ⟨fun hc => ?_, by omega, this.2.1, this.2.2⟩
      have := hs k hc
      omega
    have kx : ∀ k, x = some k → k ∉ s.live ∧ f < k ∧ t4.next ≤ k := fun k hk => by
      have := g5.fresh g4.wf hk
      dsimp only at this
      refine ⟨fun hc => ?_, by omega, this.2.1⟩
      have := hs k hc
      omega
    have hfree : ∀ {u u1 u2 u3 u4 : NState (ℕ × World F)}, u.live = t5.live → nfree (some f) u = some ((), u1) → nfree x u1 = some ((), u2) →
        nfree ((p.x.getD none).map (·.1)) u2 = some ((), u3) → nfree ((b.x.getD none).map (·.1)) u3 = some ((), u4) →
        u4.live = s.live ∧ u4.cb = u.cb := by
      intro u u1 u2 u3 u4 hu j1 j2 j3 j4
      refine free_four (hu.trans hg5.symm) ?_ ?_ ?_ ?_ j1 j2 j3 j4
      · intro k hk
        cases hk
        refine not_ins (not_ins (not_ins f1 fun hc => ?_) fun hc => ?_) fun hc => ?_
        · have := kb f hc; omega
        · have := kp f hc; omega
        · have := kx f hc; omega
      · intro k hk
        have := kx k hk
        refine not_ins (not_ins this.1 fun hc => ?_) fun hc => ?_
        · have := kb k hc; omega
        · have := kp k hc; omega
      · intro k hk
        have := kp k hk
        refine not_ins this.1 fun hc => ?_
        have := kb k hc; omega
      · exact fun k hk => (kb k hk).1
    have cb5 : (t5.cb, s1.cb.2) = s.cb := by
      have c5 := g5.cb
      have c4 := g4.cb
      have c3 := g3.cb
      have c2 := g2.cb
      dsimp only at c5 c4 c3 c2
      rw [c5, c4, c3, c2, g1.cb]
    split_ifs at h with hcond
    · rw [pure_bind] at h
      obtain ⟨⟨⟩, s7, h7, h⟩ := nbind_some h
      obtain ⟨⟨⟩, s8, h8, h⟩ := nbind_some h
      obtain ⟨⟨⟩, s9, h9, h⟩ := nbind_some h
      obtain ⟨⟨⟩, s10, h10, h⟩ := nbind_some h
      cases h
      obtain ⟨l1, l2⟩ := hfree rfl h7 h8 h9 h10
      have l2 := l2.trans cb5
      refine ⟨by rw [l2], by rw [l2]; exact hobj, Or.inr (Or.inr (Or.inl ⟨by omega, rfl, l1⟩))⟩
    · rw [not_or, not_not] at hcond
      obtain ⟨hc1, hc2⟩ := hcond
      obtain ⟨out, s6, h6, h⟩ := nbind_some h
      rw [pure_bind] at h
      obtain ⟨t6, k6, rfl⟩ := nworld_some h6
      obtain ⟨⟨⟩, s7, h7, h⟩ := nbind_some h
      obtain ⟨⟨⟩, s8, h8, h⟩ := nbind_some h
      obtain ⟨⟨⟩, s9, h9, h⟩ := nbind_some h
      obtain ⟨⟨⟩, s10, h10, h⟩ := nbind_some h
      cases h
      obtain ⟨d, lb, bb, hd1, hb1, rfl⟩ := hb (by omega)
      obtain ⟨d', lp, hd2, hp1, hp2, hp3⟩ := hp (by omega)
      obtain ⟨d'', v, m, hd3, hm1, hm2⟩ := hm (by omega)
      simp only [Option.getD_some] at hd1 hd2
      rw [hd1] at hd2 hd3
      cases hd2
      cases hd3
      have hm0 : 0 ≤ m := by
        have := hx (by rw [Option.isSome_iff_ne_none]; simpa using hc2)
        rw [Option.getD_some (b := none), hm2] at this
        exact this
      rw [hm2, hp2, hp3] at k6
      simp only [Option.getD_some, Option.map_some] at k6
      obtain ⟨k, rfl⟩ := Int.eq_ofNat_of_zero_le hm0
      have hcb : s1.cb.2 = s.cb.2 := by rw [g1.cb]
      have htwo : twoDim (k : Int) ((1 : ℕ) : Int) DCT1 = false := by simp [twoDim]
      obtain ⟨r1, -, r3⟩ := C53_released_partial (mrow := k) (mcol := 1) (n := lp.length) (lib := lib) (L := Sets.empty)
        (s := ⟨t5.live, t5.next, t5.calls, t5.oracle, s1.cb.2⟩) g5.wf (by dsimp only; rw [hcb]; exact hH) (by rw [List.length_map])
        (Sets.empty_not_busy _) k6
      obtain ⟨l1, l2⟩ := hfree (u := ⟨t6.live, t6.next, t6.calls, t6.oracle, (t5.cb, t6.cb)⟩) r1 h7 h8 h9 h10
      refine ⟨by rw [l2, ← cb5], by rw [l2]; exact r3 (by simp [Sets.idle, Sets.empty]) (Or.inl htwo), Or.inr (Or.inr (Or.inr ⟨by omega, l1, ?_⟩))⟩
      exact ⟨d, lb, lp, v, k, out, _, t6, hd1, hb1, hp1, hm1, hm0, hcb, rfl, k6⟩

/-- a file that loads and whose document has the three fields -/
structure GoodFile (parse : List UInt8 → Option (CJ F)) (e : FileEnv) (lb lp : List (CJ F)) (m : Int) : Prop where
  opens : e.opens = true
  pos : 0 < e.stream.length
  short : (e.stream.length : Int) < INT_MAX
  size : e.ftell = e.stream.length
  doc : ∃ d v, parse (cstring e.stream) = some d ∧ d.get "b" = some (.arr lb) ∧ d.get "pix_idx" = some (.arr lp) ∧ d.get "mtot" = some (.num v m)
  bfits : (lb.length : Int) ≤ INT_MAX
  pfits : (lp.length : Int) ≤ INT_MAX
  mpos : 0 ≤ m

/-- **C72**, a file with the three fields when memory is there: the program is defined exactly when the recovery is, and then
exits with 0 whatever the recovery returned. -/
theorem C72_runs {lb lp : List (CJ F)} {m : Int} (hs : s.WF) (hw : s.cb.2 = World.init wo wj false) (ho : ∀ i, s.oracle i = true)
    (hf : GoodFile parse e lb lp m) :
    ∃ t : NState (World F), t.WF ∧ t.cb = s.cb.2 ∧ (∀ i, t.oracle i = true) ∧
      (l1qc_dct lib m 1 (freshArr m junk) lp.length (listArr (lb.map CJ.valuedouble)) (lp.map CJ.valueint) DCT1 exampleOpts t = none →
        exampleMain lib parse e junk s = none) ∧
      (∀ out t', l1qc_dct lib m 1 (freshArr m junk) lp.length (listArr (lb.map CJ.valuedouble)) (lp.map CJ.valueint) DCT1 exampleOpts t =
        some (out, t') → ∃ s', exampleMain lib parse e junk s = some ((0, some out), s') ∧ s'.live = s.live) := by
  obtain ⟨hopen, hpos, hshort, hsize, ⟨d, v, hd, hb, hp, hm⟩, hbf, hpf, hm0⟩ := hf
  have hc : toCInt e.ftell = e.stream.length := by
    rw [hsize]
    exact toCInt_of_fits ⟨by unfold INT_MIN; omega, hshort.le⟩
  have hB : toCInt (lb.length : Int) = lb.length := toCInt_of_fits ⟨by unfold INT_MIN; omega, hbf⟩
  have hP : toCInt (lp.length : Int) = lp.length := toCInt_of_fits ⟨by unfold INT_MIN; omega, hpf⟩
  have nl : ∀ k, s.next ≤ k → k ∉ s.live := fun k hk hc => absurd (hs _ hc) (by omega)
  -- the states
  set A := s.live with hA
  set n := s.next with hn
  have e1 : nalloc s = some (some n, ⟨insert n A, n + 1, s.calls + 1, s.oracle, s.cb⟩) := nalloc_ok (ho _)
  have wf1 : (⟨insert n A, n + 1, s.calls + 1, s.oracle, s.cb.1⟩ : NState ℕ).WF := by
    intro b hb
    rcases Finset.mem_insert.1 hb with rfl | hb
    · exact Nat.lt_succ_self _
    · exact (hs b hb).trans (Nat.lt_succ_self _)
  have n1 : n + 1 ∉ insert n A := by
    rw [Finset.mem_insert, not_or]
    exact ⟨by omega, nl _ (by omega)⟩
  have e2 : load_file_to_json parse e ⟨insert n A, n + 1, s.calls + 1, s.oracle, s.cb.1⟩ =
      some ((0, some (some d)), ⟨insert n A, n + 2, s.calls + 2, s.oracle, s.cb.1⟩) := by
    obtain ⟨-, -, -, a4, -⟩ := text_run (e := e) wf1
    obtain ⟨text, h1, h2⟩ := a4 hopen (by rw [hc]; exact hshort) (by omega) (ho _) (by omega)
    rw [if_pos (by omega)] at h1
    unfold load_file_to_json
    rw [nbind h1, if_neg (fun hc => hc rfl)]
    dsimp only [Option.map_some, Option.getD_some]
    rw [nbind (nfree_some (Finset.mem_insert_self _ _)), h2, hc, Int.toNat_natCast, List.take_length, hd]
    show some ((0, some (some d)), (⟨(insert (n + 1) (insert n A)).erase (n + 1), n + 2, s.calls + 2, s.oracle, s.cb.1⟩ : NState ℕ)) = _
    rw [Finset.erase_insert n1]
  have calloc : ∀ (k : Int) (u : NState ℕ), 0 ≤ k → u.oracle = s.oracle →
      ncalloc k u = some (some u.next, { u with live := insert u.next u.live, next := u.next + 1, calls := u.calls + 1 }) := by
    intro k u hk hu
    unfold ncalloc
    rw [if_neg (by omega)]
    exact nalloc_ok (by rw [hu]; exact ho _)
  have e3 : extract_json_double_array (some d) "b" ⟨insert n A, n + 2, s.calls + 2, s.oracle, s.cb.1⟩ =
      some (⟨0, some lb.length, some (some (n + 2, lb.map CJ.valuedouble))⟩, ⟨insert (n + 2) (insert n A), n + 3, s.calls + 3, s.oracle, s.cb.1⟩) := by
    unfold extract_json_double_array
    simp only [hb, hB]
    rw [nbind (calloc _ _ (by omega) rfl)]
    dsimp only
    rw [if_neg (lt_irrefl _)]
    rfl
  have e4 : extract_json_int_array (some d) "pix_idx" ⟨insert (n + 2) (insert n A), n + 3, s.calls + 3, s.oracle, s.cb.1⟩ =
      some (⟨0, some lp.length, some (some (n + 3, lp.map CJ.valueint))⟩,
        ⟨insert (n + 3) (insert (n + 2) (insert n A)), n + 4, s.calls + 4, s.oracle, s.cb.1⟩) := by
    unfold extract_json_int_array
    simp only [hp, hP]
    rw [nbind (calloc _ _ (by omega) rfl)]
    dsimp only
    rw [if_neg (lt_irrefl _)]
    rfl
  have e5 : ncalloc m ⟨insert (n + 3) (insert (n + 2) (insert n A)), n + 4, s.calls + 4, s.oracle, s.cb.1⟩ =
      some (some (n + 4), ⟨insert (n + 4) (insert (n + 3) (insert (n + 2) (insert n A))), n + 5, s.calls + 5, s.oracle, s.cb.1⟩) :=
    calloc _ _ hm0 rfl
  have em : extract_json_int (some d) "mtot" = (0, some m) := by simp [extract_json_int, hm, CJ.valueint]
  have lift : ∀ {α : Type} {x : NM ℕ α} {a : α} {B B' : Finset ℕ} {i i' j j' : ℕ},
      x ⟨B, i, j, s.oracle, s.cb.1⟩ = some (a, ⟨B', i', j', s.oracle, s.cb.1⟩) →
      nfiles x (⟨B, i, j, s.oracle, s.cb⟩ : NState (ℕ × World F)) = some (a, ⟨B', i', j', s.oracle, s.cb⟩) := by
    intro α x a B B' i i' j j' h
    unfold nfiles
    dsimp only
    rw [h]
    rfl
  let t : NState (World F) := ⟨insert (n + 4) (insert (n + 3) (insert (n + 2) (insert n A))), n + 5, s.calls + 5, s.oracle, s.cb.2⟩
  have wft : t.WF := by
    intro b hb
    show b < n + 5
    simp only [t, Finset.mem_insert] at hb
    rcases hb with hb | hb | hb | hb | hb
    · omega
    · omega
    · omega
    · omega
    · have := hs b hb
      omega
  have run : exampleMain lib parse e junk s = ((do
      let o ← nworld (l1qc_dct lib m 1 (freshArr m junk) lp.length (listArr (lb.map CJ.valuedouble)) (lp.map CJ.valueint) DCT1 exampleOpts)
      nfree (some n)
      nfree (some (n + 4))
      nfree (some (n + 3))
      nfree (some (n + 2))
      pure (0, some o) : NM (ℕ × World F) (Int × Option (DctOut F))) ⟨t.live, t.next, t.calls, t.oracle, s.cb⟩) := by
    unfold exampleMain
    rw [nbind e1]
    dsimp only
    rw [nbind (lift e2)]
    dsimp only
    rw [if_neg (fun hc => hc rfl)]
    dsimp only [Option.getD_some]
    rw [nbind (lift e3), nbind (lift e4)]
    simp only [em, Option.getD_some]
    rw [nbind (lift e5)]
    dsimp only [Option.getD_some, Option.map_some]
    rw [if_neg (by simp)]
    simp only [pure_bind]
    rfl
  refine ⟨t, wft, rfl, ho, fun hnone => ?_, fun out t' hsome => ?_⟩
  · rw [run]
    show (nworld _ _).bind _ = none
    unfold nworld
    dsimp only
    rw [show (⟨t.live, t.next, t.calls, t.oracle, s.cb.2⟩ : NState (World F)) = t from rfl, hnone]
    rfl
  · have hl : t'.live = t.live := by
      obtain ⟨k, rfl⟩ := Int.eq_ofNat_of_zero_le hm0
      exact (C53_outcome_partial (mrow := k) (mcol := 1) (n := lp.length) (lib := lib) (L := Sets.empty) wft (by show Hist lib s.cb.2 _; exact hw ▸ Hist.start wo wj)
        (by rw [List.length_map]) (Sets.empty_not_busy _) hsome).1
    have hrun : ∃ s', exampleMain lib parse e junk s = some ((0, some out), s') := by
      rw [run]
      have e6 : nworld (l1qc_dct lib m 1 (freshArr m junk) lp.length (listArr (lb.map CJ.valuedouble)) (lp.map CJ.valueint) DCT1 exampleOpts)
          (⟨t.live, t.next, t.calls, t.oracle, s.cb⟩ : NState (ℕ × World F)) = some (out, ⟨t'.live, t'.next, t'.calls, t'.oracle, (s.cb.1, t'.cb)⟩) := by
        unfold nworld
        dsimp only
        rw [show (⟨t.live, t.next, t.calls, t.oracle, s.cb.2⟩ : NState (World F)) = t from rfl, hsome]
        rfl
      rw [nbind e6, nbind (nfree_some (by rw [hl]; simp [t])), nbind (nfree_some (by dsimp only; rw [hl]; simp [t])),
        nbind (nfree_some (by dsimp only; rw [hl]; simp [t])), nbind (nfree_some (by dsimp only; rw [hl]; simp [t]))]
      exact ⟨_, rfl⟩
    obtain ⟨s', h'⟩ := hrun
    refine ⟨s', h', ?_⟩
    obtain ⟨-, -, ⟨h1, -⟩ | ⟨h1, -⟩ | ⟨h1, -⟩ | ⟨-, h1, -⟩⟩ := C72_outcome_partial hs hw h'
    · cases h1
    · cases h1
    · exact absurd rfl h1
    · exact h1

/-- **C72 is false**: sample positions outside the signal (or none at all) make the recovery fail, and the program exits with 0. -/
theorem C72_failure_reported_false {lb lp : List (CJ F)} {m : Int} (hs : s.WF) (hw : s.cb.2 = World.init wo wj false) (ho : ∀ i, s.oracle i = true)
    (hf : GoodFile parse e lb lp m) (hm : m ≤ INT_MAX) (hv : ¬ ValidDct lp.length m 1 (lp.map CJ.valueint)) :
    ∃ out s', exampleMain lib parse e junk s = some ((0, some out), s') ∧ out.status = L1C_DCT_INIT_FAILURE := by
  obtain ⟨t, -, -, -, -, h⟩ := C72_runs (lib := lib) (junk := junk) hs hw ho hf
  have hfit : FitsInt (m * 1) := by
    have := hf.mpos
    rw [mul_one]
    exact ⟨by unfold INT_MIN; omega, hm⟩
  obtain ⟨s', h1, -⟩ := h _ _ (C53_rejects_partial hfit hv)
  exact ⟨_, s', h1, rfl⟩

/-- **C72 is false**: the length of `b` is overwritten by that of `pix_idx`; with fewer data than positions `b` is read past its end. -/
theorem C72_short_data_false {lb lp : List (CJ F)} {m : Int} (hs : s.WF) (hw : s.cb.2 = World.init wo wj false) (ho : ∀ i, s.oracle i = true)
    (hwo : ∀ i, wo i = true) (hf : GoodFile parse e lb lp m) (hm : m ≤ INT_MAX) (hv : ValidDct lp.length m 1 (lp.map CJ.valueint))
    (hlt : lb.length < lp.length) : exampleMain lib parse e junk s = none := by
  obtain ⟨t, wft, ht, hto, h, -⟩ := C72_runs (lib := lib) (junk := junk) hs hw ho hf
  apply h
  obtain ⟨k, rfl⟩ := Int.eq_ofNat_of_zero_le hf.mpos
  have hfit : FitsInt ((k : Int) * ((1 : ℕ) : Int)) := by
    rw [Nat.cast_one, mul_one]
    exact ⟨by unfold INT_MIN; omega, hm⟩
  refine Option.eq_none_iff_forall_ne_some.2 fun r hr => ?_
  obtain ⟨-, ⟨-, st, w', hst, e'⟩ | ⟨-, -, ⟨-, -, i, -, h2⟩ | ⟨b', -, -, hb', -⟩⟩⟩ := C53_outcome_partial (mrow := k) (mcol := 1) (n := lp.length)
    (lib := lib) (L := Sets.empty) (out := r.1) (s' := r.2) wft (by rw [ht]; exact hw ▸ Hist.start wo wj) (by rw [List.length_map]) (Sets.empty_not_busy _) hr
  · obtain ⟨ax, w'', e'', -⟩ := C19_accepts (w := t.cb) (dct_mode := DCT1) hfit hv (fun i _ => by rw [ht, hw]; exact hwo _)
    rw [e''] at e'
    cases e'
  · rw [hto] at h2
    cases h2
  · unfold slice at hb'
    rw [dif_neg (by show ¬ 0 + lp.length ≤ (lb.map CJ.valuedouble).length; rw [List.length_map]; omega)] at hb'
    cases hb'

/-- **C72 is false**: an empty file leaves the text buffer allocated. -/
theorem C72_released_false (hs : s.WF) (ho : ∀ i, s.oracle i = true) (hopen : e.opens = true) (ht : e.ftell = 0) :
    ∃ s' b, exampleMain lib parse e junk s = some ((L1C_FILE_READ_FAILURE, none), s') ∧ b ∉ s.live ∧ b ∈ s'.live := by
  let s1 : NState ℕ := ⟨insert s.next s.live, s.next + 1, s.calls + 1, s.oracle, s.cb.1⟩
  have wf1 : s1.WF := by
    intro b hb
    rcases Finset.mem_insert.1 hb with rfl | hb
    · exact Nat.lt_succ_self _
    · exact (hs b hb).trans (Nat.lt_succ_self _)
  obtain ⟨t, h, h1, h2⟩ := C57_buffer_released_false (parse := parse) (e := e) wf1 hopen (ho _) ht
  have hsub : s.next ∈ t.live := by
    obtain ⟨p, g, -⟩ := load_grab wf1 h
    rw [g.live]
    have : s.next ∈ s1.live := Finset.mem_insert_self _ _
    cases p with
    | none => exact this
    | some b => exact Finset.mem_insert_of_mem this
  have e2 : nfiles (load_file_to_json parse e) (⟨insert s.next s.live, s.next + 1, s.calls + 1, s.oracle, s.cb⟩ : NState (ℕ × World F)) =
      some ((1, none), ⟨t.live, t.next, t.calls, t.oracle, (t.cb, s.cb.2)⟩) := by
    unfold nfiles
    dsimp only
    rw [show (⟨insert s.next s.live, s.next + 1, s.calls + 1, s.oracle, s.cb.1⟩ : NState ℕ) = s1 from rfl, h]
    rfl
  refine ⟨⟨t.live.erase s.next, t.next, t.calls, t.oracle, (t.cb, s.cb.2)⟩, s.next + 1, ?_, ?_, ?_⟩
  · unfold exampleMain
    rw [nbind (nalloc_ok (ho _))]
    dsimp only
    rw [nbind e2, if_pos (by show (1 : Int) ≠ 0; decide), nbind (nfree_some (by exact hsub))]
    rfl
  · intro hc
    have := hs _ hc
    omega
  · exact Finset.mem_erase.2 ⟨by omega, h2⟩

/-! ### The hypotheses are met -/

noncomputable def exStart : NState (ℕ × World Dbl) := ⟨∅, 0, 0, fun _ => true, (0, freshWorld Dbl)⟩

/-- a parser that reads every file as this document -/
noncomputable def exDoc (lb lp : List (CJ Dbl)) (m : Int) : List UInt8 → Option (CJ Dbl) := fun _ =>
  some (.obj [("b", .arr lb), ("pix_idx", .arr lp), ("mtot", .num (.fin m) m)])

theorem exDoc_good (lb lp : List (CJ Dbl)) (m : Int) (h1 : (lb.length : Int) ≤ INT_MAX) (h2 : (lp.length : Int) ≤ INT_MAX) (h3 : 0 ≤ m) :
    GoodFile (exDoc lb lp m) ⟨true, 2, [123, 125]⟩ lb lp m :=
  ⟨rfl, by simp, by simp [INT_MAX], rfl, ⟨_, .fin m, rfl, by simp [CJ.get], by simp [CJ.get], by simp [CJ.get]⟩, h1, h2, h3⟩

example : ∃ s' b, exampleMain refLib (exDoc [] [] 4) ⟨true, 0, []⟩ (fun _ => .fin 0) exStart = some ((L1C_FILE_READ_FAILURE, none), s') ∧ b ∉ exStart.live ∧ b ∈ s'.live :=
  C72_released_false (fun b h => by cases h) (fun _ => rfl) rfl rfl

/-- position 7 of a signal of length 4: the recovery fails, the exit status is 0 -/
example : ∃ out s', exampleMain refLib (exDoc [.num (.fin 1) 1] [.num (.fin 7) 7] 4) ⟨true, 2, [123, 125]⟩ (fun _ => .fin 0) exStart =
    some ((0, some out), s') ∧ out.status = L1C_DCT_INIT_FAILURE :=
  C72_failure_reported_false (fun b h => by cases h) rfl (fun _ => rfl) (exDoc_good _ _ 4 (by simp [INT_MAX]) (by simp [INT_MAX]) (by omega)) (by simp [INT_MAX])
    (by simp [ValidDct, CJ.valueint])

/-- two positions, one datum -/
example : exampleMain refLib (exDoc [.num (.fin 1) 1] [.num (.fin 3) 3, .num (.fin 0) 0] 4) ⟨true, 2, [123, 125]⟩ (fun _ => .fin 0) exStart = none :=
  C72_short_data_false (fun b h => by cases h) rfl (fun _ => rfl) (fun _ => rfl) (exDoc_good _ _ 4 (by simp [INT_MAX]) (by simp [INT_MAX]) (by omega))
    (by simp [INT_MAX]) (by simp [ValidDct, CJ.valueint]) (by simp)

/-- `C72_runs` and `C72_outcome_partial` for a good file: the program does what `l1qc_dct` does on its contents. -/
example : ∃ t : NState (World Dbl), t.cb = exStart.cb.2 ∧ ∀ out t',
    l1qc_dct refLib 4 1 (freshArr 4 fun _ => .fin 0) 1 (listArr [.fin 1]) [3] DCT1 exampleOpts t = some (out, t') →
      ∃ s', exampleMain refLib (exDoc [.num (.fin 1) 1] [.num (.fin 3) 3] 4) ⟨true, 2, [123, 125]⟩ (fun _ => .fin 0) exStart = some ((0, some out), s') ∧
        s'.live = ∅ ∧ ∀ c, s'.cb.2.obj c = none := by
  obtain ⟨t, -, ht, -, -, h⟩ := C72_runs (lib := refLib) (junk := fun _ => .fin 0) (s := exStart) (fun b h => by cases h) rfl (fun _ => rfl)
    (exDoc_good [.num (.fin 1) 1] [.num (.fin 3) 3] 4 (by simp [INT_MAX]) (by simp [INT_MAX]) (by omega))
  refine ⟨t, ht, fun out t' hr => ?_⟩
  obtain ⟨s', hs, hl⟩ := h out t' hr
  exact ⟨s', hs, hl, (C72_outcome_partial (s := exStart) (fun b h => by cases h) rfl hs).2.1⟩

end L1c
