import Verif.Proofs.NestaDbl
import Mathlib.Data.Finset.Card
import Mathlib.Order.Interval.Finset.Nat

/-! # Memory and failure paths of NESTA, for every scalar type and every set of operators -/

namespace L1c
open Scalar

variable {F : Type} [Scalar F] {σ α β : Type} {n m p : ℕ}

/-! ## Parts that only touch the operators' state -/

/-- changes nothing but the private state of the operators -/
def CbOnly (x : NM σ α) : Prop := ∀ s a s', x s = some (a, s') → ∃ c, s' = { s with cb := c }

theorem CbOnly.pure (a : α) : CbOnly (pure a : NM σ α) := fun s a' s' h => by
  obtain ⟨-, rfl⟩ := Prod.mk.inj (Option.some.inj h); exact ⟨s.cb, rfl⟩

theorem CbOnly.nub : CbOnly (nub : NM σ α) := fun _ _ _ h => by cases h

theorem CbOnly.bind {x : NM σ α} {f : α → NM σ β} (hx : CbOnly x) (hf : ∀ a, CbOnly (f a)) : CbOnly (x >>= f) := by
  intro s b s' h
  obtain ⟨⟨a, s1⟩, h1, h2⟩ := Option.bind_eq_some_iff.1 h
  obtain ⟨c, rfl⟩ := hx s a s1 h1
  obtain ⟨c', rfl⟩ := hf a _ b s' h2
  exact ⟨c', rfl⟩

theorem CbOnly.nlift (o : Option α) : CbOnly (nlift o : NM σ α) := by
  intro s a s' h
  obtain ⟨a', -, h'⟩ := Option.map_eq_some_iff.1 h
  obtain ⟨-, rfl⟩ := Prod.mk.inj h'; exact ⟨s.cb, rfl⟩

omit [Scalar F] in
theorem CbOnly.ncall {l k : ℕ} (f : Option (NOp F σ l k)) (x : Vec F l) (old : Vec F k) : CbOnly (ncall f x old) := by
  intro s a s' h
  cases f with
  | none => cases h
  | some f =>
    obtain ⟨r, -, h'⟩ := Option.map_eq_some_iff.1 h
    obtain ⟨-, rfl⟩ := Prod.mk.inj h'; exact ⟨r.2, rfl⟩

theorem project_cb (ax : NAx F σ n m p) (P : NestaProb F n m p) (xx g : Vec F m) : CbOnly (l1c_nesta_project ax P xx g) := by
  unfold l1c_nesta_project
  repeat first
    | exact .pure _
    | refine .bind (.nlift _) fun _ => ?_
    | refine .bind (.ncall _ _ _) fun _ => ?_

theorem feval_cb (ax : NAx F σ n m p) (P : NestaProb F n m p) : CbOnly (l1c_nesta_feval ax P) := by
  unfold l1c_nesta_feval
  repeat first
    | exact .pure _
    | refine .bind (.nlift _) fun _ => ?_
    | refine .bind (.ncall _ _ _) fun _ => ?_

theorem setup_cb (ax : NAx F σ n m p) (P : NestaProb F n m p) (b : Vec F n) (opts : NestaOpts F) :
    CbOnly (l1c_nesta_setup ax P b opts) := by
  unfold l1c_nesta_setup
  split
  · exact .pure _
  dsimp only
  repeat first
    | exact .pure _
    | refine .bind (.nlift _) fun _ => ?_
    | refine .bind (.ncall _ _ _) fun _ => ?_

theorem body_cb (ax : NAx F σ n m p) (k : ℕ) (st : NLoop F n m p) : CbOnly (nestaBody ax k st) := by
  unfold nestaBody
  refine .bind (feval_cb _ _) fun _ => .bind (project_cb _ _ _ _) fun _ => .bind (project_cb _ _ _ _) fun _ => .pure _

theorem inner_cb (ax : NAx F σ n m p) (fuel k : ℕ) (st : NLoop F n m p) : CbOnly (nestaInner ax fuel k st) := by
  induction fuel generalizing k st with
  | zero => exact .pure _
  | succ fuel ih =>
    unfold nestaInner
    refine .bind (body_cb _ _ _) fun a => ?_
    dsimp only
    split
    · exact .pure _
    · exact ih _ _

theorem continue_cb (ax : NAx F σ n m p) (bm bt : F) (P : NestaProb F n m p) : CbOnly (nestaContinue ax bm bt P) :=
  .bind (inner_cb _ _ _ _) fun _ => .pure _

theorem outer_cb (ax : NAx F σ n m p) (bm bt : F) (fuel : ℕ) (iter : Int) (total : ℕ) (P : NestaProb F n m p) :
    CbOnly (nestaOuter ax bm bt fuel iter total P) := by
  induction fuel generalizing iter total P with
  | zero => unfold nestaOuter; split; exacts [.pure _, .nub]
  | succ fuel ih => exact .bind (continue_cb _ _ _ _) fun _ => ih _ _ _

/-! ## Counting inner iterations -/

theorem inner_count {ax : NAx F σ n m p} {fuel k : ℕ} {st st' : NLoop F n m p} {K : ℕ} {s s' : NState σ}
    (h : nestaInner ax fuel k st s = some ((st', K), s')) : k ≤ K ∧ K ≤ k + fuel := by
  induction fuel generalizing k st s with
  | zero =>
    obtain ⟨h, -⟩ := Prod.mk.inj (Option.some.inj h)
    obtain ⟨-, rfl⟩ := Prod.mk.inj h
    omega
  | succ fuel ih =>
    unfold nestaInner at h
    obtain ⟨⟨⟨st1, stop⟩, s1⟩, -, h2⟩ := Option.bind_eq_some_iff.1 h
    dsimp only at h2
    split at h2
    · obtain ⟨h, -⟩ := Prod.mk.inj (Option.some.inj h2)
      obtain ⟨-, rfl⟩ := Prod.mk.inj h
      omega
    · have := ih h2; omega

theorem outer_count {ax : NAx F σ n m p} {bm bt : F} {fuel : ℕ} {iter : Int} {total : ℕ} {P P' : NestaProb F n m p} {T : ℕ}
    {s s' : NState σ} (h : nestaOuter ax bm bt fuel iter total P s = some ((P', T), s')) : T ≤ total + fuel * 10000 := by
  induction fuel generalizing iter total P s with
  | zero =>
    unfold nestaOuter at h
    split at h
    · obtain ⟨h, -⟩ := Prod.mk.inj (Option.some.inj h)
      obtain ⟨-, rfl⟩ := Prod.mk.inj h
      omega
    · cases h
  | succ fuel ih =>
    unfold nestaOuter at h
    obtain ⟨⟨⟨P1, k⟩, s1⟩, h1, h2⟩ := Option.bind_eq_some_iff.1 h
    obtain ⟨⟨⟨st, k'⟩, s2⟩, h3, h4⟩ := Option.bind_eq_some_iff.1 h1
    obtain ⟨h5, -⟩ := Prod.mk.inj (Option.some.inj h4)
    obtain ⟨-, rfl⟩ := Prod.mk.inj h5
    have h6 := (inner_count h3).2
    have h7 := ih h2
    rw [L1C_NESTA_MAX_INNER_ITER] at h6
    omega

/-! ## Allocation -/

/-- ids handed out later are new -/
def NState.WF (s : NState σ) : Prop := ∀ b ∈ s.live, b < s.next

theorem nallocs_spec (k : ℕ) (s : NState σ) (hs : s.WF) :
    ∃ (arrs : List (Option ℕ)) (N : ℕ), nallocs k s =
      some (arrs, { s with live := s.live ∪ (arrs.filterMap id).toFinset, next := N, calls := s.calls + k }) ∧
      s.next ≤ N ∧ (arrs.filterMap id).Nodup ∧ (∀ b ∈ arrs.filterMap id, s.next ≤ b ∧ b < N) ∧
      (arrs.any Option.isNone = false ↔ ∀ i < k, s.oracle (s.calls + i) = true) := by
  induction k generalizing s with
  | zero => exact ⟨[], s.next, by simp [nallocs, npure], le_rfl, by simp, by simp, by simp⟩
  | succ k ih =>
    unfold nallocs
    by_cases h : s.oracle s.calls = true
    · have hal : nalloc s = some (some s.next, { s with live := insert s.next s.live, next := s.next + 1, calls := s.calls + 1 }) := by
        unfold nalloc; rw [if_pos h]
      obtain ⟨arrs, N, h1, h2, h3, h4, h5⟩ := ih { s with live := insert s.next s.live, next := s.next + 1, calls := s.calls + 1 }
        (by
          intro b hb
          rcases Finset.mem_insert.1 hb with rfl | hb
          · exact Nat.lt_succ_self _
          · exact Nat.lt_succ_of_lt (hs b hb))
      dsimp only at h1 h2 h4 h5
      refine ⟨some s.next :: arrs, N, ?_, by omega, ?_, ?_, ?_⟩
      · rw [nbind hal, nbind h1, npure]
        simp only [List.filterMap_cons_some (show id (some s.next) = some s.next from rfl), List.toFinset_cons, Option.some.injEq, Prod.mk.injEq,
          true_and, NState.mk.injEq, and_true]
        refine ⟨?_, by omega⟩
        ext a; simp
      · rw [List.filterMap_cons_some (show id (some s.next) = some s.next from rfl)]
        refine List.nodup_cons.2 ⟨fun hb => ?_, h3⟩
        have := h4 _ hb; omega
      · rw [List.filterMap_cons_some (show id (some s.next) = some s.next from rfl)]
        intro b hb
        rcases List.mem_cons.1 hb with rfl | hb
        · omega
        · have := h4 b hb; omega
      · rw [List.any_cons, Option.isNone_some, Bool.false_or, h5]
        constructor
        · intro hh i hi
          rcases i with - | i
          · exact h
          · have := hh i (by omega); rwa [show s.calls + (i + 1) = s.calls + 1 + i by omega]
        · intro hh i hi
          have := hh (i + 1) (by omega); rwa [show s.calls + (i + 1) = s.calls + 1 + i by omega] at this
    · have hal : nalloc s = some (none, { s with calls := s.calls + 1 }) := by
        unfold nalloc; rw [if_neg h]
      obtain ⟨arrs, N, h1, h2, h3, h4, h5⟩ := ih { s with calls := s.calls + 1 } hs
      dsimp only at h1 h2 h4 h5
      refine ⟨none :: arrs, N, ?_, h2, ?_, ?_, ?_⟩
      · rw [nbind hal, nbind h1, npure]
        simp only [List.filterMap_cons_none (show id (none : Option ℕ) = none from rfl)]
        congr 3; omega
      · rwa [List.filterMap_cons_none (show id (none : Option ℕ) = none from rfl)]
      · rwa [List.filterMap_cons_none (show id (none : Option ℕ) = none from rfl)]
      · simp only [List.any_cons, Option.isNone_none, Bool.true_or, Bool.true_eq_false, false_iff]
        intro hh
        exact h (hh 0 (by omega))

theorem nfreeAll_spec (l : List (Option ℕ)) (s : NState σ) (hnd : (l.filterMap id).Nodup)
    (hl : ∀ b ∈ l.filterMap id, b ∈ s.live) :
    nfreeAll l s = some ((), { s with live := s.live \ (l.filterMap id).toFinset }) := by
  induction l generalizing s with
  | nil => simp [nfreeAll, npure]
  | cons q l ih =>
    unfold nfreeAll
    cases q with
    | none =>
      rw [nbind (show nfree none s = some ((), s) from rfl)]
      simp only [List.filterMap_cons_none (show id (none : Option ℕ) = none from rfl)] at *
      exact ih s hnd hl
    | some b =>
      rw [List.filterMap_cons_some (show id (some b) = some b from rfl)] at hnd hl ⊢
      have hb : b ∈ s.live := hl b List.mem_cons_self
      obtain ⟨hnb, hnd'⟩ := List.nodup_cons.1 hnd
      rw [nbind (show nfree (some b) s = some ((), { s with live := s.live.erase b }) by unfold nfree; exact if_pos hb),
        ih _ hnd' fun c hc => Finset.mem_erase.2 ⟨fun (h : c = b) => hnb (h ▸ hc), hl c (List.mem_cons_of_mem _ hc)⟩]
      congr 3
      ext a
      simp only [Finset.mem_sdiff, Finset.mem_erase, List.mem_toFinset, List.mem_cons]
      tauto

theorem nfree_some {b : ℕ} {s : NState σ} (h : b ∈ s.live) : nfree (some b) s = some ((), { s with live := s.live.erase b }) := by
  unfold nfree; exact if_pos h

/-- the ten allocations of the problem record -/
theorem prob_new_spec (s : NState σ) (hs : s.WF) :
    ((∀ i < 10, s.oracle (s.calls + i) = true) ∧ ∃ (arrs : List (Option ℕ)) (N : ℕ),
      NestaProb_new s = some (some (s.next, arrs), { s with live := s.live ∪ ((s.next :: arrs.filterMap id).toFinset), next := N, calls := s.calls + 10 }) ∧
      (s.next :: arrs.filterMap id).Nodup ∧ arrs.length = 9 ∧ arrs.any Option.isNone = false ∧
      (∀ b ∈ s.next :: arrs.filterMap id, s.next ≤ b ∧ b < N)) ∨
    (¬ (∀ i < 10, s.oracle (s.calls + i) = true) ∧ ∃ s', NestaProb_new s = some (none, s') ∧ s'.live = s.live ∧ s'.cb = s.cb) := by
  unfold NestaProb_new
  by_cases h : s.oracle s.calls = true
  · have hal : nalloc s = some (some s.next, { s with live := insert s.next s.live, next := s.next + 1, calls := s.calls + 1 }) := by
      unfold nalloc; rw [if_pos h]
    have hs1 : ({ s with live := insert s.next s.live, next := s.next + 1, calls := s.calls + 1 } : NState σ).WF := by
      intro b hb
      rcases Finset.mem_insert.1 hb with rfl | hb
      · exact Nat.lt_succ_self _
      · exact Nat.lt_succ_of_lt (hs b hb)
    obtain ⟨arrs, N, h1, h2, h3, h4, h5⟩ := nallocs_spec 9 _ hs1
    dsimp only at h1 h2 h4 h5
    rw [nbind hal]
    dsimp only
    rw [nbind h1]
    have hnin : s.next ∉ arrs.filterMap id := fun hc => by have := h4 _ hc; omega
    have hiff : (∀ i < 10, s.oracle (s.calls + i) = true) ↔ ∀ i < 9, s.oracle (s.calls + 1 + i) = true := by
      constructor
      · intro hh i hi
        have := hh (i + 1) (by omega); rwa [show s.calls + (i + 1) = s.calls + 1 + i by omega] at this
      · intro hh i hi
        rcases i with - | i
        · exact h
        · have := hh i (by omega); rwa [show s.calls + (i + 1) = s.calls + 1 + i by omega]
    rw [hiff]
    cases hany : arrs.any Option.isNone with
    | false =>
      refine Or.inl ⟨h5.1 hany, arrs, N, ?_, List.nodup_cons.2 ⟨hnin, h3⟩, ?_, hany, ?_⟩
      · rw [if_neg (by simp), npure]
        congr 3
        ext a; simp
      · exact nallocs_length h1
      · intro b hb
        rcases List.mem_cons.1 hb with rfl | hb
        · omega
        · have := h4 b hb; omega
    | true =>
      refine Or.inr ⟨fun hc => by rw [← h5, hany] at hc; exact absurd hc (by decide), ?_⟩
      rw [if_pos rfl]
      have hf := nfreeAll_spec arrs { s with live := insert s.next s.live ∪ (arrs.filterMap id).toFinset, next := N, calls := s.calls + 1 + 9 } h3
        (fun b hb => Finset.mem_union_right _ (List.mem_toFinset.2 hb))
      dsimp only at hf
      unfold l1c_free_nesta_problem
      refine ⟨{ s with live := ((insert s.next s.live ∪ (arrs.filterMap id).toFinset) \ (arrs.filterMap id).toFinset).erase s.next, next := N, calls := s.calls + 1 + 9 }, ?_, ?_, rfl⟩
      · exact nbind ((nbind hf).trans (nfree_some (Finset.mem_sdiff.2 ⟨by simp, fun hc => hnin (List.mem_toFinset.1 hc)⟩)))
      · show ((insert s.next s.live ∪ (arrs.filterMap id).toFinset) \ (arrs.filterMap id).toFinset).erase s.next = s.live
        ext a
        have hns : s.next ∉ s.live := fun hc => lt_irrefl _ (hs _ hc)
        simp only [Finset.mem_erase, Finset.mem_sdiff, Finset.mem_union, Finset.mem_insert, List.mem_toFinset]
        constructor
        · tauto
        · intro ha
          refine ⟨fun hc => hns (hc ▸ ha), Or.inl (Or.inr ha), fun hc => ?_⟩
          have := h4 a hc
          have := hs a ha
          omega
  · have hal : nalloc s = some (none, { s with calls := s.calls + 1 }) := by
      unfold nalloc; rw [if_neg h]
    exact Or.inr ⟨fun hc => h (hc 0 (by omega)), _, nbind hal, rfl, rfl⟩
where
  nallocs_length {k : ℕ} {s s' : NState σ} {arrs : List (Option ℕ)} (h : nallocs k s = some (arrs, s')) : arrs.length = k := by
    induction k generalizing s s' arrs with
    | zero => obtain ⟨rfl, -⟩ := Prod.mk.inj (Option.some.inj h); rfl
    | succ k ih =>
      unfold nallocs at h
      obtain ⟨⟨a, s1⟩, -, h2⟩ := Option.bind_eq_some_iff.1 h
      obtain ⟨⟨as, s2⟩, h3, h4⟩ := Option.bind_eq_some_iff.1 h2
      obtain ⟨rfl, -⟩ := Prod.mk.inj (Option.some.inj h4)
      rw [List.length_cons, ih h3]

/-! ## The whole routine -/

/-- a required operator is missing -/
def NAx.Missing (ax : NAx F σ n m p) : Prop := ax.Wz.isNone ∨ ax.Wtx.isNone ∨ ax.hasRx = false ∨ ax.hasRty = false

theorem nesta_invalid {m_arg n_arg : Int} (h : n_arg ≠ n ∨ m_arg ≠ m) (xk : Vec F m) (b : Vec F n) (ax : NAx F σ n m p)
    (opts : NestaOpts F) (s : NState σ) :
    l1c_nesta m_arg n_arg xk b ax opts s = some (⟨L1C_INVALID_ARGUMENT, xk, 0, none⟩, s) := by
  unfold l1c_nesta; rw [if_pos h]; rfl

theorem nesta_oom (xk : Vec F m) (b : Vec F n) (ax : NAx F σ n m p) (opts : NestaOpts F) (s : NState σ) (hs : s.WF)
    (h : ¬ ∀ i < 10, s.oracle (s.calls + i) = true) :
    ∃ s', l1c_nesta m n xk b ax opts s = some (⟨L1C_OUT_OF_MEMORY, xk, 0, none⟩, s') ∧ s'.live = s.live ∧ s'.cb = s.cb := by
  rcases prob_new_spec s hs with ⟨h', -⟩ | ⟨-, s', h1, h2⟩
  · exact absurd h' h
  · refine ⟨s', ?_, h2⟩
    unfold l1c_nesta; rw [if_neg (by simp), nbind h1]; rfl

theorem nesta_inconsistent (xk : Vec F m) (b : Vec F n) (ax : NAx F σ n m p) (opts : NestaOpts F) (s : NState σ) (hs : s.WF)
    (h : ∀ i < 10, s.oracle (s.calls + i) = true) (hm : ax.Missing) :
    ∃ s', l1c_nesta m n xk b ax opts s = some (⟨L1C_INCONSISTENT_ARGUMENTS, xk, 0, none⟩, s') ∧
      s.live ⊆ s'.live ∧ (s'.live \ s.live).card = 10 := by
  rcases prob_new_spec s hs with ⟨-, arrs, N, h1, h2, h3, h4, h5⟩ | ⟨h', -⟩
  · refine ⟨{ s with live := s.live ∪ ((s.next :: arrs.filterMap id).toFinset), next := N, calls := s.calls + 10 }, ?_, ?_, ?_⟩
    · unfold l1c_nesta
      rw [if_neg (by simp), nbind h1]
      dsimp only
      rw [nbind (a := (L1C_INCONSISTENT_ARGUMENTS, nestaZero b, lit 0, lit 0)) (by
        unfold l1c_nesta_setup
        unfold NAx.Missing at hm
        rw [if_pos hm]; rfl)]
      dsimp only
      rw [if_pos (by decide)]; rfl
    · exact Finset.subset_union_left
    · show ((s.live ∪ (s.next :: arrs.filterMap id).toFinset) \ s.live).card = 10
      have hd : Disjoint s.live (s.next :: arrs.filterMap id).toFinset := by
        rw [Finset.disjoint_left]
        intro a ha hb
        have := (h5 a (List.mem_toFinset.1 hb)).1
        have := hs a ha
        omega
      rw [Finset.union_sdiff_cancel_left hd, List.toFinset_card_of_nodup h2, List.length_cons, filterMap_length h4, h3]
  · exact absurd h h'
where
  filterMap_length {l : List (Option ℕ)} (h : l.any Option.isNone = false) : (l.filterMap id).length = l.length := by
    induction l with
    | nil => rfl
    | cons a l ih =>
      rw [List.any_cons, Bool.or_eq_false_iff] at h
      cases a with
      | none => simp at h
      | some a => rw [List.filterMap_cons_some (show id (some a) = some a from rfl), List.length_cons, List.length_cons, ih h.2]

/-- what a run that gets past the setup does: the main part, started with the ten blocks -/
theorem nesta_run (xk : Vec F m) (b : Vec F n) (ax : NAx F σ n m p) (opts : NestaOpts F) (s : NState σ) (hs : s.WF)
    (h : ∀ i < 10, s.oracle (s.calls + i) = true) (hm : ¬ ax.Missing) :
    ∃ (arrs : List (Option ℕ)) (N : ℕ), (s.next :: arrs.filterMap id).Nodup ∧
      (∀ b ∈ s.next :: arrs.filterMap id, s.next ≤ b ∧ b < N) ∧
      l1c_nesta m n xk b ax opts s =
        (l1c_nesta_setup ax (nestaZero b) b opts
          { s with live := s.live ∪ ((s.next :: arrs.filterMap id).toFinset), next := N, calls := s.calls + 10 }).bind
          fun r => nestaMain ax s.next arrs opts r.1.2.1 r.1.2.2.1 r.1.2.2.2 r.2 := by
  rcases prob_new_spec s hs with ⟨-, arrs, N, h1, h2, h3, h4, h5⟩ | ⟨h', -⟩
  · refine ⟨arrs, N, h2, h5, ?_⟩
    unfold l1c_nesta
    rw [if_neg (by simp), nbind h1]
    dsimp only
    generalize hq : l1c_nesta_setup ax (nestaZero b) b opts _ = q
    cases q with
    | none =>
      show Option.bind _ _ = _
      rw [hq]; rfl
    | some r =>
      obtain ⟨⟨st, P, bm, bt⟩, s1⟩ := r
      have : st = L1C_SUCCESS := setup_status hm hq
      subst this
      rw [nbind hq]
      dsimp only
      rw [if_neg (by decide)]; rfl
  · exact absurd h h'
where
  setup_status {ax : NAx F σ n m p} {P P' : NestaProb F n m p} {b : Vec F n} {opts : NestaOpts F} {st : Int} {bm bt : F} {s s' : NState σ}
      (hm : ¬ ax.Missing) (h : l1c_nesta_setup ax P b opts s = some ((st, P', bm, bt), s')) : st = L1C_SUCCESS := by
    unfold l1c_nesta_setup at h
    unfold NAx.Missing at hm
    rw [if_neg hm] at h
    dsimp only at h
    repeat (obtain ⟨⟨_, _⟩, -, h⟩ := Option.bind_eq_some_iff.1 h)
    obtain ⟨h, -⟩ := Prod.mk.inj (Option.some.inj h)
    exact (Prod.mk.inj h).1.symm

/-- the main part: the window's allocation is unchecked; otherwise everything is released -/
theorem main_spec {ax : NAx F σ n m p} {np : ℕ} {arrs : List (Option ℕ)} {opts : NestaOpts F} {P : NestaProb F n m p} {bm bt : F}
    {s : NState σ} {L : Finset ℕ} (hnd : (np :: arrs.filterMap id).Nodup) (hb : ∀ b ∈ np :: arrs.filterMap id, b < s.next)
    (hL : ∀ b ∈ L, b < s.next) (hdis : ∀ b ∈ L, b ∉ np :: arrs.filterMap id)
    (hlive : s.live = L ∪ (np :: arrs.filterMap id).toFinset) :
    (s.oracle s.calls = false ∧ nestaMain ax np arrs opts P bm bt s = none) ∨
    (s.oracle s.calls = true ∧ nestaMain ax np arrs opts P bm bt s =
      (nestaOuter ax bm bt opts.n_continue.toNat 1 0 { P with xk := P.xo }
        { s with live := insert s.next s.live, next := s.next + 1, calls := s.calls + 1 }).map fun r =>
          (⟨L1C_SUCCESS, r.1.1.xk, r.1.2, some r.1.1⟩, { r.2 with live := L })) := by
  unfold nestaMain
  by_cases h : s.oracle s.calls = true
  · right
    have hal : nalloc s = some (some s.next, { s with live := insert s.next s.live, next := s.next + 1, calls := s.calls + 1 }) := by
      unfold nalloc; rw [if_pos h]
    refine ⟨h, ?_⟩
    rw [nbind hal]
    dsimp only
    generalize hq : nestaOuter ax bm bt _ _ _ _ _ = q
    cases q with
    | none =>
      show Option.bind _ _ = _
      rw [hq]; rfl
    | some r =>
      obtain ⟨⟨P', T⟩, s1⟩ := r
      obtain ⟨c, rfl⟩ := outer_cb _ _ _ _ _ _ _ _ _ _ hq
      rw [nbind hq]
      dsimp only
      obtain ⟨hn1, hn2⟩ := List.nodup_cons.1 hnd
      have hf := nfreeAll_spec arrs { s with live := insert s.next s.live, next := s.next + 1, calls := s.calls + 1, cb := c } hn2
        (fun b hb => Finset.mem_insert_of_mem (by rw [hlive]; exact Finset.mem_union_right _ (List.mem_toFinset.2 (List.mem_cons_of_mem _ hb))))
      dsimp only at hf
      have hnp : np ∈ insert s.next s.live \ (arrs.filterMap id).toFinset := by
        rw [Finset.mem_sdiff, List.mem_toFinset]
        exact ⟨Finset.mem_insert_of_mem (by rw [hlive]; exact Finset.mem_union_right _ (by simp)), hn1⟩
      have hfv : s.next ∈ (insert s.next s.live \ (arrs.filterMap id).toFinset).erase np := by
        rw [Finset.mem_erase, Finset.mem_sdiff, List.mem_toFinset]
        refine ⟨fun hc => ?_, Finset.mem_insert_self _ _, fun hc => ?_⟩
        · have := hb np List.mem_cons_self; omega
        · have := hb _ (List.mem_cons_of_mem _ hc); omega
      unfold l1c_free_nesta_problem
      rw [nbind ((nbind hf).trans (nfree_some hnp)), nbind (nfree_some hfv), npure]
      dsimp only
      rw [Option.map_some]
      congr 3
      ext a
      simp only [Finset.mem_erase, Finset.mem_sdiff, Finset.mem_insert, hlive, Finset.mem_union, List.mem_toFinset, List.mem_cons]
      constructor
      · tauto
      · intro ha
        have h1 := hdis a ha
        have h2 := hL a ha
        rw [List.mem_cons] at h1
        refine ⟨by omega, ?_⟩
        tauto
  · left
    have hal : nalloc s = some (none, { s with calls := s.calls + 1 }) := by
      unfold nalloc; rw [if_neg h]
    refine ⟨by simpa using h, ?_⟩
    rw [nbind hal]; rfl

/-- the same with the setup in front -/
theorem nesta_after_setup (xk : Vec F m) (b : Vec F n) (ax : NAx F σ n m p) (opts : NestaOpts F) (s : NState σ) (hs : s.WF)
    (h : ∀ i < 10, s.oracle (s.calls + i) = true) (hm : ¬ ax.Missing) :
    ∃ s1 : NState σ, s1.cb = s.cb ∧ s1.oracle = s.oracle ∧ s1.calls = s.calls + 10 ∧
      l1c_nesta m n xk b ax opts s = (l1c_nesta_setup ax (nestaZero b) b opts s1).bind fun r =>
        if s.oracle (s.calls + 10) = true then
          (nestaOuter ax r.1.2.2.1 r.1.2.2.2 opts.n_continue.toNat 1 0 { r.1.2.1 with xk := r.1.2.1.xo }
            { r.2 with live := insert r.2.next r.2.live, next := r.2.next + 1, calls := r.2.calls + 1 }).map fun q =>
              (⟨L1C_SUCCESS, q.1.1.xk, q.1.2, some q.1.1⟩, { q.2 with live := s.live })
        else none := by
  obtain ⟨arrs, N, h1, h2, h3⟩ := nesta_run xk b ax opts s hs h hm
  refine ⟨{ s with live := s.live ∪ ((s.next :: arrs.filterMap id).toFinset), next := N, calls := s.calls + 10 }, rfl, rfl, rfl, h3.trans ?_⟩
  generalize hq : l1c_nesta_setup ax (nestaZero b) b opts _ = q
  cases q with
  | none => rfl
  | some r =>
    obtain ⟨⟨st, P, bm, bt⟩, s1⟩ := r
    obtain ⟨c, rfl⟩ := setup_cb _ _ _ _ _ _ _ hq
    have hsN : s.next < N := (h2 s.next List.mem_cons_self).2
    rcases main_spec (ax := ax) (opts := opts) (P := P) (bm := bm) (bt := bt) (np := s.next) (arrs := arrs) (L := s.live)
      (s := { s with live := s.live ∪ ((s.next :: arrs.filterMap id).toFinset), next := N, calls := s.calls + 10, cb := c })
      h1 (fun b hb => (h2 b hb).2) (fun b hb => (hs b hb).trans hsN)
      (fun b hb hc => by have := (h2 b hc).1; have := hs b hb; omega) rfl with ⟨h4, h5⟩ | ⟨h4, h5⟩
    · show nestaMain _ _ _ _ _ _ _ _ = _
      rw [h5]
      dsimp only at h4 ⊢
      rw [Option.bind_some, if_neg (by rw [h4]; decide)]
    · show nestaMain _ _ _ _ _ _ _ _ = _
      rw [h5]
      dsimp only at h4 ⊢
      rw [Option.bind_some, if_pos h4]

/-! ## Absence of undefined behaviour -/

/-- the operator is present and defined on every argument, in the states `Inv`, which it keeps -/
def OpTotal {l k : ℕ} (Inv : σ → Prop) (f : Option (NOp F σ l k)) : Prop :=
  ∃ g, f = some g ∧ ∀ x old s, Inv s → ∃ o s', g x old s = some (o, s') ∧ Inv s'

structure NAx.Total (ax : NAx F σ n m p) (Inv : σ → Prop) : Prop where
  Ax : OpTotal Inv ax.Ax
  Aty : OpTotal Inv ax.Aty
  Wz : OpTotal Inv ax.Wz
  Wtx : OpTotal Inv ax.Wtx

/-- no undefined behaviour in the states `Inv`, which are kept -/
def Tot (Inv : σ → Prop) (x : NM σ α) : Prop := ∀ s, Inv s.cb → ∃ a s', x s = some (a, s') ∧ Inv s'.cb

variable {Inv : σ → Prop}

theorem Tot.pure (a : α) : Tot Inv (pure a : NM σ α) := fun s hs => ⟨a, s, rfl, hs⟩

theorem Tot.bind {x : NM σ α} {f : α → NM σ β} (hx : Tot Inv x) (hf : ∀ a, Tot Inv (f a)) : Tot Inv (x >>= f) := fun s hs => by
  obtain ⟨a, s1, h1, i1⟩ := hx s hs
  obtain ⟨b, s2, h2, i2⟩ := hf a s1 i1
  exact ⟨b, s2, (nbind h1).trans h2, i2⟩

omit [Scalar F] in
theorem Tot.slice {k l : ℕ} (h : k ≤ l) (v : Vec F l) : Tot Inv (nlift (slice k 0 v) : NM σ _) := fun s hs =>
  ⟨_, s, nlift_some (slice_eq 0 (by omega) v) s, hs⟩

omit [Scalar F] in
theorem Tot.writeAt {k l : ℕ} (h : k ≤ l) (x : Vec F k) (v : Vec F l) : Tot Inv (nlift (writeAt 0 x v) : NM σ _) := fun s hs => by
  obtain ⟨w, hw⟩ := writeAt_some 0 (by omega) x v
  exact ⟨_, s, nlift_some hw s, hs⟩

omit [Scalar F] in
theorem Tot.ncall {l k : ℕ} {f : Option (NOp F σ l k)} (h : OpTotal Inv f) (x : Vec F l) (old : Vec F k) : Tot Inv (ncall f x old) := fun s hs => by
  obtain ⟨g, rfl, hg⟩ := h
  obtain ⟨o, s', hr, hi⟩ := hg x old s.cb hs
  exact ⟨o, { s with cb := s' }, by simp [L1c.ncall, hr], hi⟩

theorem project_tot {ax : NAx F σ n m p} (ha : ax.Total Inv) (hn : n ≤ max m p) (P : NestaProb F n m p) (xx g : Vec F m) :
    Tot Inv (l1c_nesta_project ax P xx g) := by
  unfold l1c_nesta_project
  repeat first
    | exact .pure _
    | refine .bind (.slice hn _) fun _ => ?_
    | refine .bind (.slice (le_max_left m p) _) fun _ => ?_
    | refine .bind (.writeAt hn _ _) fun _ => ?_
    | refine .bind (.writeAt (le_max_left m p) _ _) fun _ => ?_
    | refine .bind (.ncall ha.Ax _ _) fun _ => ?_
    | refine .bind (.ncall ha.Aty _ _) fun _ => ?_

theorem feval_tot {ax : NAx F σ n m p} (ha : ax.Total Inv) (P : NestaProb F n m p) : Tot Inv (l1c_nesta_feval ax P) := by
  unfold l1c_nesta_feval
  repeat first
    | exact .pure _
    | refine .bind (.slice (le_max_right m p) _) fun _ => ?_
    | refine .bind (.writeAt (le_max_right m p) _ _) fun _ => ?_
    | refine .bind (.ncall ha.Wtx _ _) fun _ => ?_
    | refine .bind (.ncall ha.Wz _ _) fun _ => ?_

theorem setup_tot {ax : NAx F σ n m p} (ha : ax.Total Inv) (P : NestaProb F n m p) (b : Vec F n) (opts : NestaOpts F) :
    Tot Inv (l1c_nesta_setup ax P b opts) := by
  unfold l1c_nesta_setup
  split
  · exact .pure _
  dsimp only
  repeat first
    | exact .pure _
    | refine .bind (.slice (le_max_right m p) _) fun _ => ?_
    | refine .bind (.slice (le_max_left m p) _) fun _ => ?_
    | refine .bind (.writeAt (le_max_right m p) _ _) fun _ => ?_
    | refine .bind (.writeAt (le_max_left m p) _ _) fun _ => ?_
    | refine .bind (.ncall ha.Wtx _ _) fun _ => ?_
    | refine .bind (.ncall ha.Aty _ _) fun _ => ?_

theorem body_tot {ax : NAx F σ n m p} (ha : ax.Total Inv) (hn : n ≤ max m p) (k : ℕ) (st : NLoop F n m p) : Tot Inv (nestaBody ax k st) := by
  unfold nestaBody
  exact .bind (feval_tot ha _) fun _ => .bind (project_tot ha hn _ _ _) fun _ => .bind (project_tot ha hn _ _ _) fun _ => .pure _

theorem inner_tot {ax : NAx F σ n m p} (ha : ax.Total Inv) (hn : n ≤ max m p) (fuel k : ℕ) (st : NLoop F n m p) :
    Tot Inv (nestaInner ax fuel k st) := by
  induction fuel generalizing k st with
  | zero => exact .pure _
  | succ fuel ih =>
    unfold nestaInner
    refine .bind (body_tot ha hn _ _) fun a => ?_
    dsimp only
    split
    · exact .pure _
    · exact ih _ _

theorem outer_tot {ax : NAx F σ n m p} (ha : ax.Total Inv) (hn : n ≤ max m p) (bm bt : F) (fuel : ℕ) (iter : Int) (total : ℕ)
    (P : NestaProb F n m p) (hi : iter + fuel ≤ INT_MAX) : Tot Inv (nestaOuter ax bm bt fuel iter total P) := by
  induction fuel generalizing iter total P with
  | zero => unfold nestaOuter; rw [if_pos (by simpa using hi)]; exact .pure _
  | succ fuel ih =>
    exact .bind (.bind (inner_tot ha hn _ _ _) fun _ => .pure _) fun _ => ih _ _ _ (by push_cast at hi; omega)

/-! ## The small work array -/

theorem project_need {ax : NAx F σ n m p} {P : NestaProb F n m p} {xx g : Vec F m} {s : NState σ}
    (h : (l1c_nesta_project ax P xx g s).isSome) : n ≤ max m p := by
  by_contra hc
  have : slice n 0 P.dwork2 = none := by unfold slice; rw [dif_neg (by omega)]
  unfold l1c_nesta_project at h
  have h' : (nlift (slice n 0 P.dwork2) : NM σ _) s = none := by rw [nlift, this]; rfl
  have : ∀ {β : Type} (f : Vec F n → NM σ β), ((nlift (slice n 0 P.dwork2)) >>= f) s = none := fun f => by
    show Option.bind _ _ = _
    rw [h']; rfl
  dsimp only at h
  rw [this] at h
  cases h

theorem outer_need {ax : NAx F σ n m p} {bm bt : F} {fuel : ℕ} {iter : Int} {total : ℕ} {P : NestaProb F n m p} {s : NState σ}
    {r : (NestaProb F n m p × ℕ) × NState σ} (h : nestaOuter ax bm bt (fuel + 1) iter total P s = some r) : n ≤ max m p := by
  unfold nestaOuter nestaContinue at h
  obtain ⟨⟨_, _⟩, h1, -⟩ := Option.bind_eq_some_iff.1 h
  obtain ⟨⟨_, _⟩, h2, -⟩ := Option.bind_eq_some_iff.1 h1
  rw [show L1C_NESTA_MAX_INNER_ITER = 9999 + 1 from rfl] at h2
  unfold nestaInner nestaBody at h2
  obtain ⟨⟨_, _⟩, h3, -⟩ := Option.bind_eq_some_iff.1 h2
  obtain ⟨⟨_, _⟩, -, h4⟩ := Option.bind_eq_some_iff.1 h3
  obtain ⟨⟨_, _⟩, h5, -⟩ := Option.bind_eq_some_iff.1 h4
  exact project_need (Option.isSome_iff_exists.2 ⟨_, h5⟩)

/-! ## Non-finite results -/

theorem Dbl.isFin_mul {a b : Dbl} (h : (a * b).IsFin) : a.IsFin ∧ b.IsFin := by
  have hi : ∀ r : ℝ, ¬ (Dbl.infMul r).IsFin := fun r => by unfold Dbl.infMul; split_ifs <;> simp [Dbl.IsFin]
  change (Dbl.mul a b).IsFin at h
  cases a <;> cases b <;> simp_all [Dbl.mul, Dbl.IsFin]

/-- step length or smoothing parameter degenerate -/
def Bad (P : NestaProb Dbl n m p) : Prop := P.L = Dbl.fin 0 ∨ P.mu_j = Dbl.nan

theorem Bad.step {P : NestaProb Dbl n m p} (h : Bad P) {c : Dbl} :
    ¬ (-(cmax (lit 0) (P.L / P.mu_j * c) / (P.L / P.mu_j + cmax (lit 0) (P.L / P.mu_j * c))) : Dbl).IsFin := by
  have h1 : P.L / P.mu_j = Dbl.fin 0 ∨ P.L / P.mu_j = Dbl.nan := by
    rcases h with h | h
    · rw [h]
      cases hm : P.mu_j with
      | fin r =>
        by_cases hr : r = 0
        · right; rw [hr]; exact Dbl.zero_div_zero
        · left; rw [Dbl.fin_div hr, zero_div]
      | _ => first | exact Or.inl rfl | exact Or.inr rfl
    · rw [h]; right
      cases P.L <;> rfl
  have hneg : ∀ x : Dbl, (-x).IsFin → x.IsFin := fun x hx => by cases x <;> trivial
  rcases h1 with h1 | h1 <;> rw [h1, Dbl.lit_eq] <;> refine fun h => ?_
  · have h := hneg _ h
    have hc : cmax (Dbl.fin ((0 : ℚ) : ℝ)) (Dbl.fin 0 * c) = Dbl.fin 0 ∨ cmax (Dbl.fin ((0 : ℚ) : ℝ)) (Dbl.fin 0 * c) = Dbl.nan := by
      cases c with
      | fin r => left; rw [Dbl.fin_mul, Dbl.cmax_fin]; simp
      | _ =>
        right
        have e : ∀ x : Dbl, x = Dbl.nan → cmax (Dbl.fin ((0 : ℚ) : ℝ)) x = Dbl.nan := fun x hx => by
          rw [hx]; unfold cmax; exact if_neg (by simp)
        refine e _ ?_
        first
        | rfl
        | (show Dbl.infMul _ = _; simp [Dbl.infMul])
    rcases hc with e | e <;> rw [e] at h
    · rw [Dbl.fin_add, add_zero, Dbl.zero_div_zero] at h; exact h
    · exact h
  · have h := hneg _ h
    revert h
    generalize cmax (Dbl.fin ((0 : ℚ) : ℝ)) (Dbl.nan * c) = x
    cases x <;> exact fun h => h

theorem vaxpy_nonfin {k : ℕ} {a : Dbl} {x y : Vec Dbl k} {i : Fin k} (h : ¬ (y i).IsFin) : ¬ (vaxpy a x y i).IsFin := fun hc =>
  h (Dbl.isFin_add.1 hc).2

theorem project_nonfin {ax : NAx Dbl σ n m p} {P P' : NestaProb Dbl n m p} {xx g v : Vec Dbl m} {s s' : NState σ} (hb : Bad P)
    (h : l1c_nesta_project ax P xx g s = some ((v, P'), s')) :
    (∀ i, ¬ (v i).IsFin) ∧ P'.L = P.L ∧ P'.mu_j = P.mu_j := by
  unfold l1c_nesta_project at h
  dsimp only at h
  repeat (obtain ⟨⟨_, _⟩, -, h⟩ := Option.bind_eq_some_iff.1 h)
  obtain ⟨h, -⟩ := Prod.mk.inj (Option.some.inj h)
  obtain ⟨rfl, rfl⟩ := Prod.mk.inj h
  exact ⟨fun i hc => hb.step (Dbl.isFin_mul (Dbl.isFin_add.1 hc).1).1, rfl, rfl⟩

theorem feval_frame {ax : NAx F σ n m p} {P P' : NestaProb F n m p} {s s' : NState σ}
    (h : l1c_nesta_feval ax P s = some (P', s')) : P'.L = P.L ∧ P'.mu_j = P.mu_j := by
  unfold l1c_nesta_feval at h
  repeat (obtain ⟨⟨_, _⟩, -, h⟩ := Option.bind_eq_some_iff.1 h)
  obtain ⟨rfl, -⟩ := Prod.mk.inj (Option.some.inj h)
  exact ⟨rfl, rfl⟩

theorem body_nonfin {ax : NAx Dbl σ n m p} {k : ℕ} {st st' : NLoop Dbl n m p} {stop : Bool} {s s' : NState σ} (hb : Bad st.P)
    (h : nestaBody ax k st s = some ((st', stop), s')) : Bad st'.P ∧ ∀ i, ¬ (st'.P.xk i).IsFin := by
  unfold nestaBody at h
  obtain ⟨⟨P1, s1⟩, h1, h⟩ := Option.bind_eq_some_iff.1 h
  obtain ⟨⟨⟨y, P2⟩, s2⟩, h2, h⟩ := Option.bind_eq_some_iff.1 h
  obtain ⟨⟨⟨z, P3⟩, s3⟩, h3, h⟩ := Option.bind_eq_some_iff.1 h
  obtain ⟨e1, e2⟩ := feval_frame h1
  have hb1 : Bad P1 := by unfold Bad; rw [e1, e2]; exact hb
  obtain ⟨-, e3, e4⟩ := project_nonfin hb1 h2
  have hb2 : Bad P2 := by unfold Bad; rw [e3, e4]; exact hb1
  obtain ⟨hz, e5, e6⟩ := project_nonfin (by exact hb2) h3
  obtain ⟨h, -⟩ := Prod.mk.inj (Option.some.inj h)
  obtain ⟨rfl, -⟩ := Prod.mk.inj h
  refine ⟨?_, fun i hc => hz i (Dbl.isFin_mul (Dbl.isFin_add.1 hc).1).2⟩
  unfold Bad
  dsimp only at e5 e6 ⊢
  rw [e5, e6]; exact hb2

theorem inner_nonfin {ax : NAx Dbl σ n m p} {fuel k : ℕ} {st st' : NLoop Dbl n m p} {K : ℕ} {s s' : NState σ} (hb : Bad st.P)
    (h : nestaInner ax fuel k st s = some ((st', K), s')) : Bad st'.P ∧ (0 < fuel → ∀ i, ¬ (st'.P.xk i).IsFin) := by
  induction fuel generalizing k st s with
  | zero =>
    obtain ⟨h, -⟩ := Prod.mk.inj (Option.some.inj h)
    obtain ⟨rfl, -⟩ := Prod.mk.inj h
    exact ⟨hb, fun h => absurd h (lt_irrefl _)⟩
  | succ fuel ih =>
    unfold nestaInner at h
    obtain ⟨⟨⟨st1, stop⟩, s1⟩, h1, h2⟩ := Option.bind_eq_some_iff.1 h
    obtain ⟨hb1, hx1⟩ := body_nonfin hb h1
    dsimp only at h2
    split at h2
    · obtain ⟨h, -⟩ := Prod.mk.inj (Option.some.inj h2)
      obtain ⟨rfl, -⟩ := Prod.mk.inj h
      exact ⟨hb1, fun _ => hx1⟩
    · obtain ⟨hb2, hx2⟩ := ih hb1 h2
      refine ⟨hb2, fun _ => ?_⟩
      rcases Nat.eq_zero_or_pos fuel with rfl | hf
      · obtain ⟨h, -⟩ := Prod.mk.inj (Option.some.inj h2)
        obtain ⟨rfl, -⟩ := Prod.mk.inj h
        exact hx1
      · exact hx2 hf

theorem outer_nonfin {ax : NAx Dbl σ n m p} {bm bt : Dbl} {fuel : ℕ} {iter : Int} {total : ℕ} {P P' : NestaProb Dbl n m p} {T : ℕ}
    {s s' : NState σ} (hb : P.L = Dbl.fin 0 ∨ P.mu_j * bm = Dbl.nan)
    (h : nestaOuter ax bm bt (fuel + 1) iter total P s = some ((P', T), s')) : ∀ i, ¬ (P'.xk i).IsFin := by
  induction fuel generalizing iter total P s with
  | zero =>
    unfold nestaOuter at h
    obtain ⟨⟨⟨P1, k⟩, s1⟩, h1, h2⟩ := Option.bind_eq_some_iff.1 h
    obtain ⟨⟨⟨st, k'⟩, s2⟩, h3, h4⟩ := Option.bind_eq_some_iff.1 h1
    obtain ⟨h5, -⟩ := Prod.mk.inj (Option.some.inj h4)
    obtain ⟨rfl, rfl⟩ := Prod.mk.inj h5
    have := (inner_nonfin (by exact hb) h3).2 (by decide)
    unfold nestaOuter at h2
    dsimp only at h2
    split at h2
    · obtain ⟨h, -⟩ := Prod.mk.inj (Option.some.inj h2)
      obtain ⟨rfl, -⟩ := Prod.mk.inj h
      exact this
    · cases h2
  | succ fuel ih =>
    rw [nestaOuter] at h
    obtain ⟨⟨⟨P1, k⟩, s1⟩, h1, h2⟩ := Option.bind_eq_some_iff.1 h
    obtain ⟨⟨⟨st, k'⟩, s2⟩, h3, h4⟩ := Option.bind_eq_some_iff.1 h1
    obtain ⟨h5, -⟩ := Prod.mk.inj (Option.some.inj h4)
    obtain ⟨rfl, rfl⟩ := Prod.mk.inj h5
    refine ih ?_ h2
    rcases (inner_nonfin (by exact hb) h3).1 with h | h
    · exact Or.inl h
    · right; show st.P.mu_j * bm = _; rw [h]; rfl

theorem setup_L {ax : NAx F σ n m p} {P P' : NestaProb F n m p} {b : Vec F n} {opts : NestaOpts F} {st : Int} {bm bt : F} {s s' : NState σ}
    (hm : ¬ ax.Missing) (h : l1c_nesta_setup ax P b opts s = some ((st, P', bm, bt), s')) : P'.L = ax.norm_W * ax.norm_W := by
  unfold l1c_nesta_setup at h
  unfold NAx.Missing at hm
  rw [if_neg hm] at h
  dsimp only at h
  repeat (obtain ⟨⟨_, _⟩, -, h⟩ := Option.bind_eq_some_iff.1 h)
  obtain ⟨h, -⟩ := Prod.mk.inj (Option.some.inj h)
  obtain ⟨-, h⟩ := Prod.mk.inj h
  obtain ⟨rfl, -⟩ := Prod.mk.inj h
  rfl

end L1c
