import Verif.Model.Newton
import Verif.Proofs.NestaRes

/-! # Memory of the log-barrier Newton solver, for every scalar type and every set of operators -/

namespace L1c
open Scalar

variable {F : Type} [Scalar F] {σ : Type} {n m : ℕ}

theorem nalloc_ok {s : NState σ} (h : s.oracle s.calls = true) :
    nalloc s = some (some s.next, { s with live := insert s.next s.live, next := s.next + 1, calls := s.calls + 1 }) := by
  unfold nalloc; rw [if_pos h]

theorem nalloc_fail {s : NState σ} (h : s.oracle s.calls = false) : nalloc s = some (none, { s with calls := s.calls + 1 }) := by
  unfold nalloc; rw [if_neg (by rw [h]; decide)]

/-- new ids -/
structure Fresh (s : NState σ) (l : List ℕ) (N : ℕ) : Prop where
  nodup : l.Nodup
  bnd : ∀ b ∈ l, s.next ≤ b ∧ b < N

theorem filterMap_map_some (l : List ℕ) : (l.map some).filterMap id = l := by
  induction l with
  | nil => rfl
  | cons a l ih => rw [List.map_cons, List.filterMap_cons_some (show id (some a) = some a from rfl), ih]

/-- the rows: all of them, or nothing new remains -/
theorem nallocRows_spec (k : ℕ) (rows : List ℕ) (L : Finset ℕ) (N0 : ℕ) (s : NState σ) (hnd : rows.Nodup)
    (hb : ∀ b ∈ rows, N0 ≤ b ∧ b < s.next) (hL : ∀ b ∈ L, b < N0) (hN : N0 ≤ s.next) (hlive : s.live = L ∪ rows.toFinset) :
    ((∀ i < k, s.oracle (s.calls + i) = true) ∧ ∃ (rows' : List ℕ) (N : ℕ), nallocRows k rows s =
      some (some rows', { s with live := L ∪ rows'.toFinset, next := N, calls := s.calls + k }) ∧ rows'.Nodup ∧
      (∀ b ∈ rows', N0 ≤ b ∧ b < N) ∧ s.next ≤ N) ∨
    ((¬ ∀ i < k, s.oracle (s.calls + i) = true) ∧ ∃ s', nallocRows k rows s = some (none, s') ∧ s'.live = L ∧ s'.cb = s.cb) := by
  induction k generalizing rows s with
  | zero =>
    exact Or.inl ⟨by simp, rows, s.next, by unfold nallocRows; rw [npure, ← hlive]; rfl, hnd, hb, le_rfl⟩
  | succ k ih =>
    unfold nallocRows
    cases h : s.oracle s.calls with
    | false =>
      refine Or.inr ⟨fun hc => absurd (hc 0 (by omega)) (by rw [Nat.add_zero, h]; decide), ?_⟩
      rw [nbind (nalloc_fail h)]
      dsimp only
      have hf := nfreeAll_spec (rows.map some) { s with calls := s.calls + 1 } (by rwa [filterMap_map_some])
        (by rw [filterMap_map_some]; intro b hb'; rw [hlive]; exact Finset.mem_union_right _ (List.mem_toFinset.2 hb'))
      rw [nbind hf]
      refine ⟨_, rfl, ?_, rfl⟩
      show s.live \ ((rows.map some).filterMap id).toFinset = L
      rw [filterMap_map_some, hlive]
      refine Finset.union_sdiff_cancel_right ?_
      rw [Finset.disjoint_left]
      intro a ha hr
      have := hL a ha
      have := hb a (List.mem_toFinset.1 hr)
      omega
    | true =>
      rw [nbind (nalloc_ok h)]
      dsimp only
      have hiff : (∀ i < k + 1, s.oracle (s.calls + i) = true) ↔ ∀ i < k, s.oracle (s.calls + 1 + i) = true := by
        constructor
        · intro hh i hi
          have := hh (i + 1) (by omega); rwa [show s.calls + (i + 1) = s.calls + 1 + i by omega] at this
        · intro hh i hi
          rcases i with - | i
          · exact h
          · have := hh i (by omega); rwa [show s.calls + (i + 1) = s.calls + 1 + i by omega]
      rw [hiff]
      rcases ih (rows ++ [s.next]) { s with live := insert s.next s.live, next := s.next + 1, calls := s.calls + 1 }
        (by
          refine List.Nodup.append hnd (List.nodup_singleton _) ?_
          intro a ha hb'
          obtain rfl := List.mem_singleton.1 hb'
          have := (hb _ ha).2; omega)
        (by
          intro b hb'
          rcases List.mem_append.1 hb' with hb' | hb'
          · have := hb b hb'; exact ⟨this.1, by dsimp only; omega⟩
          · obtain rfl := List.mem_singleton.1 hb'; exact ⟨hN, by dsimp only; omega⟩)
        (by dsimp only; omega)
        (by
          dsimp only
          rw [hlive]
          ext a
          simp only [Finset.mem_insert, Finset.mem_union, List.mem_toFinset, List.mem_append, List.mem_singleton]
          tauto) with ⟨h1, rows', N, h2, h3, h4, h5⟩ | ⟨h1, s', h2, h3, h4⟩
      · refine Or.inl ⟨h1, rows', N, ?_, h3, h4, by dsimp only at h5; omega⟩
        rw [h2]
        congr 3
        dsimp only; omega
      · exact Or.inr ⟨h1, s', h2, h3, h4⟩

theorem nalloc2D_spec (k : ℕ) (s : NState σ) (hs : s.WF) :
    ((∀ i < k + 1, s.oracle (s.calls + i) = true) ∧ ∃ (t : ℕ) (rows : List ℕ) (N : ℕ), nalloc2D k s =
      some (some (t, rows), { s with live := s.live ∪ (t :: rows).toFinset, next := N, calls := s.calls + (k + 1) }) ∧
      (t :: rows).Nodup ∧ (∀ b ∈ t :: rows, s.next ≤ b)) ∨
    ((¬ ∀ i < k + 1, s.oracle (s.calls + i) = true) ∧ ∃ s', nalloc2D k s = some (none, s') ∧ s'.live = s.live ∧ s'.cb = s.cb) := by
  unfold nalloc2D
  cases h : s.oracle s.calls with
  | false =>
    refine Or.inr ⟨fun hc => absurd (hc 0 (by omega)) (by rw [Nat.add_zero, h]; decide), _, nbind (nalloc_fail h), rfl, rfl⟩
  | true =>
    rw [nbind (nalloc_ok h)]
    dsimp only
    have hiff : (∀ i < k + 1, s.oracle (s.calls + i) = true) ↔ ∀ i < k, s.oracle (s.calls + 1 + i) = true := by
      constructor
      · intro hh i hi
        have := hh (i + 1) (by omega); rwa [show s.calls + (i + 1) = s.calls + 1 + i by omega] at this
      · intro hh i hi
        rcases i with - | i
        · exact h
        · have := hh i (by omega); rwa [show s.calls + (i + 1) = s.calls + 1 + i by omega]
    rw [hiff]
    have hns : s.next ∉ s.live := fun hc => lt_irrefl _ (hs _ hc)
    rcases nallocRows_spec k [] (insert s.next s.live) (s.next + 1)
      { s with live := insert s.next s.live, next := s.next + 1, calls := s.calls + 1 } (by simp) (by simp)
      (by
        intro b hb
        rcases Finset.mem_insert.1 hb with rfl | hb
        · omega
        · have := hs b hb; omega) (by dsimp only; omega) (by simp) with ⟨h1, rows, N, h2, h3, h4, h5⟩ | ⟨h1, s', h2, h3, h4⟩
    · refine Or.inl ⟨h1, s.next, rows, N, ?_, ?_, ?_⟩
      · rw [nbind h2]
        dsimp only
        rw [npure]
        have e1 : insert s.next s.live ∪ rows.toFinset = s.live ∪ (s.next :: rows).toFinset := by
          ext a; simp
        rw [e1, show s.calls + 1 + k = s.calls + (k + 1) by omega]
      · refine List.nodup_cons.2 ⟨fun hc => ?_, h3⟩
        have := (h4 _ hc).1; omega
      · intro b hb
        rcases List.mem_cons.1 hb with rfl | hb
        · exact le_rfl
        · have := (h4 b hb).1; omega
    · refine Or.inr ⟨h1, { s' with live := s'.live.erase s.next }, ?_, ?_, h4⟩
      · rw [nbind h2]
        dsimp only
        rw [nbind (nfree_some (by rw [h3]; exact Finset.mem_insert_self _ _))]
        rfl
      · show s'.live.erase s.next = s.live
        rw [h3, Finset.erase_insert hns]

theorem nfree2D_spec (t : ℕ) (rows : List ℕ) (s : NState σ) (hnd : (t :: rows).Nodup) (hl : ∀ b ∈ t :: rows, b ∈ s.live) :
    nfree2D (some (t, rows)) s = some ((), { s with live := s.live \ (t :: rows).toFinset }) := by
  unfold nfree2D
  obtain ⟨h1, h2⟩ := List.nodup_cons.1 hnd
  have hf := nfreeAll_spec (rows.map some) s (by rwa [filterMap_map_some])
    (by rw [filterMap_map_some]; intro b hb; exact hl b (List.mem_cons_of_mem _ hb))
  rw [filterMap_map_some] at hf
  dsimp only
  rw [nbind hf, nfree_some (Finset.mem_sdiff.2 ⟨hl t List.mem_cons_self, fun hc => h1 (List.mem_toFinset.1 hc)⟩)]
  congr 3
  dsimp only
  ext a
  simp only [Finset.mem_erase, Finset.mem_sdiff, List.mem_toFinset, List.mem_cons]
  tauto

/-- the ids of a two-dimensional array -/
def d2list (d : Option (ℕ × List ℕ)) : List ℕ :=
  match d with | none => [] | some (t, rows) => t :: rows

/-- releasing all that was allocated on top of `L` -/
theorem newton_cleanup (L : Finset ℕ) (up : ℕ) (arrs : List (Option ℕ)) (d : Option (ℕ × List ℕ)) (s : NState σ)
    (hall : ((up :: arrs.filterMap id) ++ d2list d).Nodup)
    (hL : ∀ b ∈ (up :: arrs.filterMap id) ++ d2list d, b ∉ L)
    (hlive : s.live = L ∪ ((up :: arrs.filterMap id) ++ d2list d).toFinset) :
    (do nfree (some up); l1qcProb_delete arrs d : NM σ Unit) s = some ((), { s with live := L }) := by
  have mem : ∀ b, b ∈ (up :: arrs.filterMap id) ++ d2list d → b ∈ s.live := by
    intro b hb; rw [hlive]; exact Finset.mem_union_right _ (List.mem_toFinset.2 hb)
  obtain ⟨nd1, nd2, nd3⟩ := List.nodup_append.1 hall
  obtain ⟨nd4, nd5⟩ := List.nodup_cons.1 nd1
  rw [nbind (nfree_some (mem up (by simp)))]
  unfold l1qcProb_delete
  have hf := nfreeAll_spec arrs { s with live := s.live.erase up } nd5 (fun b hb => Finset.mem_erase.2
    ⟨fun hc => nd4 (hc ▸ hb), mem b (List.mem_append_left _ (List.mem_cons_of_mem _ hb))⟩)
  rw [nbind hf]
  cases d with
  | none =>
    show some ((), _) = some ((), _)
    congr 3
    dsimp only
    simp only [d2list, List.append_nil] at hlive hL
    rw [hlive]
    ext a
    have := hL a
    simp only [Finset.mem_erase, Finset.mem_sdiff, Finset.mem_union, List.mem_toFinset, List.mem_cons] at this ⊢
    tauto
  | some tr =>
    obtain ⟨t, rows⟩ := tr
    dsimp only [d2list] at hlive hL mem nd2 nd3 hf
    rw [nfree2D_spec t rows _ nd2]
    · congr 3
      dsimp only
      rw [hlive]
      ext a
      have := hL a
      simp only [Finset.mem_erase, Finset.mem_sdiff, Finset.mem_union, List.mem_toFinset, List.mem_cons, List.mem_append] at this ⊢
      tauto
    · intro b hb
      refine Finset.mem_sdiff.2 ⟨Finset.mem_erase.2 ⟨fun hc => ?_, mem b (List.mem_append_right _ hb)⟩, fun hc => ?_⟩
      · exact nd3 up (by simp) b hb hc.symm
      · exact nd3 b (List.mem_cons_of_mem _ (List.mem_toFinset.1 hc)) b hb rfl

theorem probNew_eq {s s2 s3 : NState σ} {arrs : List (Option ℕ)} {d : Option (ℕ × List ℕ)} (h1 : nallocs 10 s = some (arrs, s2))
    (h2 : nalloc2D 7 s2 = some (d, s3)) : l1qcProb_new s = some ((arrs, d), s3) := by
  unfold l1qcProb_new
  rw [nbind h1, nbind h2]; rfl

/-- the routine after its allocations -/
theorem newton_split (ax : QAx F σ n m) (x : Vec F m) (b : Vec F n) {prm prm' : QOpts F} {u : Vec F m} {s s1 s3 : NState σ} {up : ℕ}
    {arrs : List (Option ℕ)} {d : Option (ℕ × List ℕ)} (h : nalloc s = some (some up, s1))
    (hi : l1qc_newton_init x prm = some (u, prm')) (hn : l1qcProb_new s1 = some ((arrs, d), s3)) :
    l1c_l1qc_newton ax x b prm s =
      Option.bind ((if arrs.any Option.isNone ∨ d.isNone then (pure ⟨⟨dasum x, 0, 0, L1C_OUT_OF_MEMORY⟩, x, none⟩ : NM σ (QOut F n m))
            else nrun (l1qc_solve ax prm' b x u)) s3) fun r =>
          (do
            nfree (some up)
            l1qcProb_delete arrs d
            pure r.1 : NM σ (QOut F n m)) r.2 := by
  unfold l1c_l1qc_newton
  rw [nbind h]
  dsimp only
  rw [nbind (nlift_some hi s1)]
  dsimp only
  rw [nbind hn]
  by_cases hc : arrs.any Option.isNone = true ∨ d.isNone = true
  · dsimp only
    rw [if_pos hc, if_pos hc]; rfl
  · dsimp only
    rw [if_neg hc, if_neg hc]; rfl

/-- the whole routine in terms of its allocation results -/
theorem newton_mem (ax : QAx F σ n m) (x : Vec F m) (b : Vec F n) (prm : QOpts F) (s : NState σ) (hs : s.WF) :
    (s.oracle s.calls = false → l1c_l1qc_newton ax x b prm s = none) ∧
    (s.oracle s.calls = true → l1qc_newton_init x prm = none → l1c_l1qc_newton ax x b prm s = none) ∧
    (∀ u prm', s.oracle s.calls = true → l1qc_newton_init x prm = some (u, prm') →
      ((¬ ∀ i < 19, s.oracle (s.calls + i) = true) ∧ ∃ s', l1c_l1qc_newton ax x b prm s =
        some (⟨⟨dasum x, 0, 0, L1C_OUT_OF_MEMORY⟩, x, none⟩, s') ∧ s'.live = s.live ∧ s'.cb = s.cb) ∨
      ((∀ i < 19, s.oracle (s.calls + i) = true) ∧ ∃ (s1 : NState σ), s1.cb = s.cb ∧ s1.live = s.live ∧
        l1c_l1qc_newton ax x b prm s = (l1qc_solve ax prm' b x u s.cb).map fun r => (r.1, { s1 with cb := r.2 }))) := by
  refine ⟨fun h => ?_, fun h hi => ?_, fun u prm' h hi => ?_⟩
  · unfold l1c_l1qc_newton
    rw [nbind (nalloc_fail h)]; rfl
  · unfold l1c_l1qc_newton
    rw [nbind (nalloc_ok h)]
    dsimp only
    rw [hi]; rfl
  · have hs1 : ({ s with live := insert s.next s.live, next := s.next + 1, calls := s.calls + 1 } : NState σ).WF := by
      intro b hb
      rcases Finset.mem_insert.1 hb with rfl | hb
      · exact Nat.lt_succ_self _
      · exact Nat.lt_succ_of_lt (hs b hb)
    obtain ⟨arrs, N, a1, a2, a3, a4, a5⟩ := nallocs_spec 10 _ hs1
    dsimp only at a1 a2 a4 a5
    have hns : s.next ∉ s.live := fun hc => lt_irrefl _ (hs _ hc)
    have hs2 : ({ s with live := insert s.next s.live ∪ (arrs.filterMap id).toFinset, next := N, calls := s.calls + 1 + 10 } : NState σ).WF := by
      intro b hb
      rcases Finset.mem_union.1 hb with hb | hb
      · have := hs1 b hb; dsimp only at *; omega
      · exact (a4 b (List.mem_toFinset.1 hb)).2
    have hrun := fun (d : Option (ℕ × List ℕ)) (s3 : NState σ) (hd : nalloc2D 7 { s with
        live := insert s.next s.live ∪ (arrs.filterMap id).toFinset, next := N, calls := s.calls + 1 + 10 } = some (d, s3)) =>
      newton_split ax x b (nalloc_ok h) hi (probNew_eq a1 hd)
    have hiff : (∀ i < 19, s.oracle (s.calls + i) = true) ↔ (∀ i < 10, s.oracle (s.calls + 1 + i) = true) ∧
        ∀ i < 8, s.oracle (s.calls + 1 + 10 + i) = true := by
      constructor
      · intro hh
        exact ⟨fun i hi => by have := hh (i + 1) (by omega); rwa [show s.calls + (i + 1) = s.calls + 1 + i by omega] at this,
          fun i hi => by have := hh (i + 11) (by omega); rwa [show s.calls + (i + 11) = s.calls + 1 + 10 + i by omega] at this⟩
      · rintro ⟨h1, h2⟩ i hi
        rcases i with - | i
        · exact h
        · by_cases hi' : i < 10
          · have := h1 i hi'; rwa [show s.calls + (i + 1) = s.calls + 1 + i by omega]
          · have := h2 (i - 10) (by omega); rwa [show s.calls + (i + 1) = s.calls + 1 + 10 + (i - 10) by omega]
    have fresh1 : ∀ b ∈ s.next :: arrs.filterMap id, b ∉ s.live := by
      intro b hb hc
      have h1 := hs b hc
      rcases List.mem_cons.1 hb with rfl | hb
      · omega
      · have := (a4 b hb).1; omega
    have nd1 : (s.next :: arrs.filterMap id).Nodup := List.nodup_cons.2 ⟨fun hc => by have := (a4 _ hc).1; omega, a3⟩
    have lt1 : ∀ b ∈ s.next :: arrs.filterMap id, b < N := by
      intro b hb
      rcases List.mem_cons.1 hb with rfl | hb
      · omega
      · exact (a4 b hb).2
    have live1 : insert s.next s.live ∪ (arrs.filterMap id).toFinset = s.live ∪ (s.next :: arrs.filterMap id).toFinset := by
      ext a; simp
    rcases nalloc2D_spec 7 _ hs2 with ⟨d1, t, rows, N', d2, d3, d4⟩ | ⟨d1, s3, d2, d3, d4⟩
    · dsimp only at d1 d2 d4
      have hcl := fun (c : σ) => newton_cleanup s.live s.next arrs (some (t, rows))
        { s with live := insert s.next s.live ∪ (arrs.filterMap id).toFinset ∪ (t :: rows).toFinset, next := N', calls := s.calls + 1 + 10 + (7 + 1), cb := c }
        (List.nodup_append.2 ⟨nd1, d3, fun a ha b hb hc => by have := lt1 a ha; have := d4 b hb; omega⟩)
        (by
          intro b hb hc
          rcases List.mem_append.1 hb with hb | hb
          · exact fresh1 b hb hc
          · have := d4 b hb; have := hs b hc; omega)
        (by
          dsimp only
          rw [live1]
          rw [List.toFinset_append, Finset.union_assoc]; rfl)
      have hr := hrun _ _ d2
      cases hany : arrs.any Option.isNone with
      | true =>
        refine Or.inl ⟨fun hc => ?_, { s with next := N', calls := s.calls + 1 + 10 + (7 + 1) }, ?_, rfl, rfl⟩
        · have := a5.2 (hiff.1 hc).1; rw [hany] at this; cases this
        · rw [hr, if_pos (Or.inl hany)]
          exact nbind3 (hcl s.cb)
      | false =>
        refine Or.inr ⟨hiff.2 ⟨a5.1 hany, d1⟩, { s with next := N', calls := s.calls + 1 + 10 + (7 + 1) }, rfl, rfl, ?_⟩
        rw [hr, if_neg (by rw [hany]; simp)]
        unfold nrun
        dsimp only
        cases hq : l1qc_solve ax prm' b x u s.cb with
        | none => rfl
        | some r =>
          exact nbind3 (hcl r.2)
    · dsimp only at d1 d2 d3 d4
      have hcl := newton_cleanup s.live s.next arrs none s3 (by simpa [d2list] using nd1) (by simpa [d2list] using fresh1)
        (by rw [d3, live1]; simp [d2list])
      refine Or.inl ⟨fun hc => d1 (hiff.1 hc).2, { s3 with live := s.live }, ?_, rfl, d4⟩
      rw [hrun _ _ d2, if_pos (Or.inr (show (none : Option (ℕ × List ℕ)).isNone = true from rfl))]
      exact nbind3 hcl
where
  nbind3 {α : Type} {a : NM σ Unit} {c : NM σ Unit} {o : α} {s s' : NState σ} (h : (do a; c : NM σ Unit) s = some ((), s')) :
      (do a; c; pure o : NM σ α) s = some (o, s') := by
    obtain ⟨⟨u, s1⟩, h1, h2⟩ := Option.bind_eq_some_iff.1 h
    rw [nbind h1, nbind h2]; rfl

end L1c
