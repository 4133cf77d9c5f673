import Verif.Spec.Memory

/-! Helper lemmas for `src/l1c_memory.c`. -/

namespace L1c
variable {F : Type} [Scalar F]

omit [Scalar F] in
theorem hm_bind {α β : Type} (x : HM F α) (f : α → HM F β) (h : Heap F) :
    (x >>= f) h = (x h).bind (fun p => f p.1 p.2) := rfl
omit [Scalar F] in
theorem hm_pure {α : Type} (a : α) (h : Heap F) : (pure a : HM F α) h = some (a, h) := rfl

omit [Scalar F] in
theorem hstore_run {h : Heap F} {b i : ℕ} {c : Cell F} {B : Block F} (hb : h.blk b = some B)
    (hi : 8 * (i + 1) ≤ B.bytes) : hstore b i c h = some ((), { h with
      blk := Function.update h.blk b (some { B with cells := Function.update B.cells i c }) }) := by
  simp [hstore, hb, hi]

omit [Scalar F] in
theorem hloadPtr_run {h : Heap F} {b i : ℕ} {p : Option ℕ} {B : Block F} (hb : h.blk b = some B)
    (hi : 8 * (i + 1) ≤ B.bytes) (hc : B.cells i = .ptr p) : hloadPtr b i h = some (p, h) := by
  simp [hloadPtr, hb, hi, hc]

theorem sizeBytes_nonneg {N : Int} (h0 : 0 ≤ N) (h1 : N ≤ INT_MAX) : sizeBytes N = 8 * N.toNat := by
  unfold sizeBytes INT_MAX at *
  omega

theorem sizeBytes_neg {N : Int} (h0 : N < 0) (h1 : INT_MIN ≤ N) : PTRDIFF_MAX < sizeBytes N := by
  unfold sizeBytes INT_MIN PTRDIFF_MAX at *
  omega

omit [Scalar F] in
/-- store loop: set cells `0..n-1` of block `b` -/
theorem run_fill (h : Heap F) (b : ℕ) (B : Block F) (c : ℕ → Cell F) (n : ℕ) (hb : h.blk b = some B)
    (hB : 8 * n ≤ B.bytes) : ∀ m ≤ n, hfor (fun k => hstore b k (c k)) m h = some ((), { h with
      blk := Function.update h.blk b (some { B with cells := fun k => if k < m then c k else B.cells k }) }) := by
  intro m
  induction m with
  | zero =>
    intro _
    simp only [hfor, hm_pure, not_lt_zero, if_false]
    rw [← hb, Function.update_eq_self]
  | succ m ih =>
    intro hm
    rw [hfor, hm_bind, ih (by omega), Option.bind_some]
    rw [hstore_run (B := { B with cells := fun k => if k < m then c k else B.cells k })
      (by simp) (by simp only; omega)]
    simp only [Function.update_idem]
    congr 6
    funext k
    simp only [Function.update_apply]
    split_ifs <;> first | rfl | (subst_vars; rfl) | omega

omit [Scalar F] in
/-- freeing the rows listed in a pointer table -/
theorem run_freeRows (h : Heap F) (t n : ℕ) (B : Block F) (p : ℕ → Option ℕ) (ht : h.blk t = some B)
    (hB : 8 * n ≤ B.bytes) (hp : ∀ k < n, B.cells k = .ptr (p k))
    (hlive : ∀ k < n, ∀ b, p k = some b → (h.blk b).isSome ∧ b ≠ t)
    (hinj : ∀ k < n, ∀ l < n, ∀ b, p k = some b → p l = some b → k = l) :
    ∀ m ≤ n, hfor (fun k => do
      let r ← hloadPtr t k
      l1c_free_double r) m h = some ((), { h with
        blk := fun b => if ∃ k < m, p k = some b then none else h.blk b }) := by
  intro m
  induction m with
  | zero => intro _; simp [hfor, hm_pure]
  | succ m ih =>
    intro hm
    rw [hfor, hm_bind, ih (by omega), Option.bind_some]
    have ht' : ¬ ∃ k < m, p k = some t := by
      rintro ⟨k, hk, e⟩; exact (hlive k (by omega) t e).2 rfl
    rw [hm_bind, hloadPtr_run (B := B) (p := p m) (by simp [ht', ht]) (by omega) (hp m (by omega)),
      Option.bind_some]
    simp only [l1c_free_double, hfree]
    cases hpm : p m with
    | none =>
      simp only
      congr 3
      funext b
      have : (∃ k < m + 1, p k = some b) ↔ ∃ k < m, p k = some b := by
        constructor
        · rintro ⟨k, hk, e⟩
          refine ⟨k, ?_, e⟩
          rcases Nat.lt_succ_iff_lt_or_eq.1 hk with h | rfl
          · exact h
          · rw [hpm] at e; simp at e
        · rintro ⟨k, hk, e⟩; exact ⟨k, by omega, e⟩
      simp only [this]
    | some b₀ =>
      have hnot : ¬ ∃ k < m, p k = some b₀ := by
        rintro ⟨k, hk, e⟩; have := hinj k (by omega) m (by omega) b₀ e hpm; omega
      have hl := (hlive m (by omega) b₀ hpm).1
      simp only [hnot, if_false, hl, if_true]
      congr 3
      funext b
      by_cases hb : b = b₀
      · subst hb
        rw [Function.update_self, if_pos ⟨m, by omega, hpm⟩]
      · rw [Function.update_of_ne hb]
        have : (∃ k < m + 1, p k = some b) ↔ ∃ k < m, p k = some b := by
          constructor
          · rintro ⟨k, hk, e⟩
            refine ⟨k, ?_, e⟩
            rcases Nat.lt_succ_iff_lt_or_eq.1 hk with h | rfl
            · exact h
            · rw [hpm] at e; simp at e; exact absurd e.symm hb
          · rintro ⟨k, hk, e⟩; exact ⟨k, by omega, e⟩
        simp only [this]

/-- state of the heap after the table and `j` of `n` rows (of `w` bytes) have been allocated -/
structure RowsInv (h₀ h : Heap F) (t n j w : ℕ) : Prop where
  tab : ∃ cells, h.blk t = some ⟨8 * n, cells⟩ ∧ (∀ k < j, cells k = .ptr (some (t + 1 + k))) ∧
    ∀ k, j ≤ k → k < n → cells k = .ptr none
  rows : ∀ k < j, h.blk (t + 1 + k) = some ⟨w, fun _ => .undef⟩
  old : ∀ b < t, h.blk b = h₀.blk b
  nxt : h.next = t + 1 + j
  fresh : ∀ b, t + 1 + j ≤ b → h.blk b = none

omit [Scalar F] in
theorem run_allocRows (h₀ : Heap F) (t n : ℕ) (ncol : Int) : ∀ (fuel j : ℕ) (h : Heap F), j + fuel = n →
    RowsInv h₀ h t n j (sizeBytes ncol) →
    ∃ ok h', allocRows t ncol fuel j h = some (ok, h') ∧
      (ok = true → RowsInv h₀ h' t n n (sizeBytes ncol) ∧ (1 ≤ fuel → sizeBytes ncol ≤ PTRDIFF_MAX)) ∧
      (ok = false → ∃ j' < n, RowsInv h₀ h' t n j' (sizeBytes ncol)) := by
  intro fuel
  induction fuel with
  | zero =>
    intro j h hj hI
    obtain rfl : j = n := by omega
    exact ⟨true, h, rfl, fun _ => ⟨hI, by omega⟩, by simp⟩
  | succ fuel ih =>
    intro j h hj hI
    obtain ⟨cells, htab, hc1, hc2⟩ := hI.tab
    rw [allocRows, hm_bind]
    by_cases hok : h.oracle h.calls = true ∧ sizeBytes ncol ≤ PTRDIFF_MAX
    · have hm : l1c_malloc_double ncol h = some (some h.next, { h with
          blk := Function.update h.blk h.next (some ⟨sizeBytes ncol, fun _ => .undef⟩),
          next := h.next + 1, calls := h.calls + 1 }) := by
        simp only [l1c_malloc_double, hmalloc]; rw [if_pos hok]
      rw [hm, Option.bind_some, hm_bind, hstore_run (B := ⟨8 * n, cells⟩)
        (by simp only; rw [Function.update_of_ne (by rw [hI.nxt]; omega)]; exact htab) (by simp only; omega)]
      simp only [Option.bind_some]
      obtain ⟨ok, h', hrun, h1, h2⟩ := ih (j + 1) _ (by omega) (show RowsInv h₀ { h with
          blk := Function.update (Function.update h.blk h.next (some ⟨sizeBytes ncol, fun _ => .undef⟩)) t
            (some ⟨8 * n, Function.update cells j (.ptr (some h.next))⟩),
          next := h.next + 1, calls := h.calls + 1 } t n (j + 1) (sizeBytes ncol) from by
        refine ⟨⟨Function.update cells j (.ptr (some h.next)), by simp, fun k hk => ?_, fun k hk hk' => ?_⟩,
          fun k hk => ?_, fun b hb => ?_, ?_, fun b hb => ?_⟩
        · by_cases e : k = j
          · subst e; simp [hI.nxt]
          · rw [Function.update_of_ne e]; exact hc1 k (by omega)
        · rw [Function.update_of_ne (by omega)]; exact hc2 k (by omega) hk'
        · simp only
          rw [Function.update_of_ne (by omega), hI.nxt]
          by_cases e : k = j
          · subst e; simp
          · rw [Function.update_of_ne (by omega)]; exact hI.rows k (by omega)
        · simp only
          rw [Function.update_of_ne (by omega), Function.update_of_ne (by rw [hI.nxt]; omega)]
          exact hI.old b hb
        · simp only [hI.nxt]; ring
        · simp only
          rw [Function.update_of_ne (by omega), Function.update_of_ne (by rw [hI.nxt]; omega)]
          exact hI.fresh b (by omega))
      exact ⟨ok, h', hrun, fun e => ⟨(h1 e).1, fun _ => hok.2⟩, h2⟩
    · have hm : l1c_malloc_double ncol h = some (none, { h with calls := h.calls + 1 }) := by
        simp only [l1c_malloc_double, hmalloc]; rw [if_neg hok]
      rw [hm, Option.bind_some, hm_bind, hstore_run (B := ⟨8 * n, cells⟩)
        (by simp only; exact htab) (by simp only; omega)]
      simp only [Option.bind_some]
      refine ⟨false, _, rfl, by simp, fun _ => ⟨j, by omega, ?_⟩⟩
      refine ⟨⟨Function.update cells j (.ptr none), by simp, fun k hk => ?_, fun k hk hk' => ?_⟩,
          fun k hk => ?_, fun b hb => ?_, ?_, fun b hb => ?_⟩
      · rw [Function.update_of_ne (by omega)]; exact hc1 k hk
      · by_cases e : k = j
        · subst e; simp
        · rw [Function.update_of_ne e]; exact hc2 k hk hk'
      · simp only; rw [Function.update_of_ne (by omega)]; exact hI.rows k hk
      · simp only; rw [Function.update_of_ne (by omega)]; exact hI.old b hb
      · exact hI.nxt
      · simp only; rw [Function.update_of_ne (by omega)]; exact hI.fresh b hb

omit [Scalar F] in
theorem malloc2D_core (nrow ncol : Int) (hr : FitsInt nrow) (h₀ : Heap F) (hwf : h₀.WF) :
    ∃ r h, l1c_malloc_double_2D nrow ncol h₀ = some (r, h) ∧
      (r = none → h.blk = h₀.blk) ∧
      (∀ t, r = some t → 0 ≤ nrow ∧ t = h₀.next ∧ RowsInv h₀ h t nrow.toNat nrow.toNat (sizeBytes ncol) ∧
        (1 ≤ nrow → sizeBytes ncol ≤ PTRDIFF_MAX)) := by
  unfold l1c_malloc_double_2D
  by_cases hok : h₀.oracle h₀.calls = true ∧ sizeBytes nrow ≤ PTRDIFF_MAX
  · have hn : 0 ≤ nrow := by
      by_contra hneg
      have := sizeBytes_neg (N := nrow) (by omega) hr.1
      omega
    have hsz := sizeBytes_nonneg hn hr.2
    rw [hm_bind]
    have hm : hmalloc (sizeBytes nrow) h₀ = some (some h₀.next, { h₀ with
        blk := Function.update h₀.blk h₀.next (some ⟨sizeBytes nrow, fun _ => .undef⟩),
        next := h₀.next + 1, calls := h₀.calls + 1 }) := by
      simp only [hmalloc]; rw [if_pos hok]
    rw [hm, Option.bind_some]
    simp only
    rw [hm_bind, run_fill _ _ ⟨sizeBytes nrow, fun _ => .undef⟩ (fun _ => .ptr none) nrow.toNat (by simp)
      (by simp only; omega) _ le_rfl, Option.bind_some, hm_bind]
    simp only [Function.update_idem]
    obtain ⟨ok, h', hrun, h1, h2⟩ := run_allocRows h₀ h₀.next nrow.toNat ncol nrow.toNat 0
      { h₀ with blk := Function.update h₀.blk h₀.next (some ⟨sizeBytes nrow,
          fun k => if k < nrow.toNat then .ptr none else .undef⟩), next := h₀.next + 1, calls := h₀.calls + 1 }
      (by omega)
      ⟨⟨fun k => if k < nrow.toNat then .ptr none else .undef, by simp [hsz], by simp, fun k _ hk => by simp [hk]⟩,
        by simp, fun b hb => by simp only; rw [Function.update_of_ne (by omega)],
        by simp, fun b hb => by simp only; rw [Function.update_of_ne (by omega)]; exact hwf b (by omega)⟩
    rw [hrun, Option.bind_some]
    cases ok with
    | true =>
      simp only [if_true]
      refine ⟨some h₀.next, h', rfl, by simp, fun t ht => ?_⟩
      obtain rfl : h₀.next = t := by simpa using ht
      exact ⟨hn, rfl, (h1 rfl).1, fun h => (h1 rfl).2 (by omega)⟩
    | false =>
      obtain ⟨j, hj, hI⟩ := h2 rfl
      obtain ⟨cells, htab, hc1, hc2⟩ := hI.tab
      simp only [Bool.false_eq_true, if_false]
      rw [hm_bind, freeRows, run_freeRows h' h₀.next nrow.toNat ⟨8 * nrow.toNat, cells⟩
        (fun k => if k < j then some (h₀.next + 1 + k) else none) htab le_rfl
        (fun k hk => by
          by_cases h : k < j
          · simp only [h, if_true]; exact hc1 k h
          · simp only [h, if_false]; exact hc2 k (by omega) hk)
        (fun k hk b hb => by
          split_ifs at hb with h
          obtain rfl : h₀.next + 1 + k = b := by simpa using hb
          exact ⟨by rw [hI.rows k h]; rfl, by omega⟩)
        (fun k hk l hl b hb hb' => by
          split_ifs at hb hb' with h h'
          have e1 : h₀.next + 1 + k = b := by simpa using hb
          have e2 : h₀.next + 1 + l = b := by simpa using hb'
          omega) _ le_rfl, Option.bind_some, hm_bind]
      have hnot : ¬ ∃ k < nrow.toNat, (if k < j then some (h₀.next + 1 + k) else none) = some h₀.next := by
        rintro ⟨k, _, e⟩
        split_ifs at e
        simp at e
        omega
      simp only [hfree, hnot, if_false, htab, Option.isSome_some, if_true, Option.bind_some]
      refine ⟨none, _, rfl, fun _ => ?_, by simp⟩
      simp only
      funext b
      by_cases hb : b = h₀.next
      · subst hb; simp [hwf h₀.next le_rfl]
      · rw [Function.update_of_ne hb]
        by_cases hlt : b < h₀.next
        · rw [if_neg]
          · exact hI.old b hlt
          · rintro ⟨k, _, e⟩
            split_ifs at e
            simp at e; omega
        · rw [hwf b (by omega)]
          split_ifs with he
          · rfl
          · by_cases hj' : b < h₀.next + 1 + j
            · exact absurd ⟨b - (h₀.next + 1), by omega, by
                rw [if_pos (by omega)]; congr 1; omega⟩ he
            · exact hI.fresh b (by omega)
  · have hm : hmalloc (sizeBytes nrow) h₀ = some (none, { h₀ with calls := h₀.calls + 1 }) := by
      simp only [hmalloc]; rw [if_neg hok]
    rw [hm_bind, hm, Option.bind_some]
    exact ⟨none, { h₀ with calls := h₀.calls + 1 }, rfl, fun _ => rfl, by simp⟩

omit [Scalar F] in
theorem RowsInv.is2D {nrow ncol : Int} {h₀ h : Heap F} (hc : FitsInt ncol) (hwf : h₀.WF)
    (hI : RowsInv h₀ h h₀.next nrow.toNat nrow.toNat (sizeBytes ncol))
    (hsz : 1 ≤ nrow → sizeBytes ncol ≤ PTRDIFF_MAX) :
    Is2D h₀ h h₀.next (fun k => h₀.next + 1 + k) nrow ncol .undef := by
  obtain ⟨cells, htab, hc1, _⟩ := hI.tab
  refine ⟨hwf _ le_rfl, ⟨_, htab, le_rfl, hc1⟩, fun k hk => ⟨hwf _ (by omega), by omega⟩,
    fun k _ l _ e => by simpa using e, fun k hk => ?_, fun b hb hb' => ?_⟩
  · have hn : 0 ≤ ncol := by
      by_contra hneg
      have := sizeBytes_neg (N := ncol) (by omega) hc.1
      have := hsz (by omega)
      omega
    exact ⟨hn, _, hI.rows k hk, by rw [sizeBytes_nonneg hn hc.2], fun _ _ => rfl⟩
  · by_cases hlt : b < h₀.next
    · exact hI.old b hlt
    · rw [hwf b (by omega)]
      apply hI.fresh
      by_contra hcon
      exact hb' (b - (h₀.next + 1)) (by omega) (by omega)

/-- zero filling of the rows -/
theorem run_zeroRows (h : Heap F) (t n : ℕ) (ncol : Int) (T : Block F) (row : ℕ → ℕ) (ht : h.blk t = some T)
    (hT : 8 * n ≤ T.bytes) (hcell : ∀ k < n, T.cells k = .ptr (some (row k)))
    (hne : ∀ k < n, row k ≠ t) (hinj : ∀ k < n, ∀ l < n, row k = row l → k = l)
    (hsz : ∀ k < n, ∃ B, h.blk (row k) = some B ∧ 8 * ncol.toNat ≤ B.bytes) :
    ∀ m ≤ n, ∃ h', hfor (fun i => do
      let r ← hloadPtr t i
      initRow ncol r) m h = some ((), h') ∧
      (∀ k < m, ∃ B B', h.blk (row k) = some B ∧ h'.blk (row k) = some B' ∧ B'.bytes = B.bytes ∧
        ∀ i < ncol.toNat, B'.cells i = .num (Scalar.lit 0)) ∧
      (∀ b, (∀ k < m, b ≠ row k) → h'.blk b = h.blk b) := by
  intro m
  induction m with
  | zero => intro _; exact ⟨h, rfl, by simp, by simp⟩
  | succ m ih =>
    intro hm
    obtain ⟨h₁, hrun, hz, ho⟩ := ih (by omega)
    obtain ⟨B, hB, hBs⟩ := hsz m (by omega)
    have ht₁ : h₁.blk t = some T := by rw [ho t (fun k hk e => hne k (by omega) e.symm), ht]
    have hB₁ : h₁.blk (row m) = some B := by
      rw [ho _ (fun k hk e => ?_), hB]
      have := hinj m (by omega) k (by omega) e
      omega
    rw [hfor, hm_bind, hrun, Option.bind_some, hm_bind,
      hloadPtr_run ht₁ (by omega) (hcell m (by omega)), Option.bind_some]
    simp only [initRow, h_init_vec]
    rw [run_fill h₁ (row m) B (fun _ => .num (Scalar.lit 0)) ncol.toNat hB₁ hBs _ le_rfl]
    refine ⟨_, rfl, fun k hk => ?_, fun b hb => ?_⟩
    · by_cases e : k = m
      · subst e
        exact ⟨B, ⟨B.bytes, fun k => if k < ncol.toNat then .num (Scalar.lit 0) else B.cells k⟩, hB,
          by simp only [Function.update_self], rfl, fun i hi => by simp [hi]⟩
      · obtain ⟨C, C', h1, h2, h3, h4⟩ := hz k (by omega)
        refine ⟨C, C', h1, ?_, h3, h4⟩
        simp only
        rw [Function.update_of_ne (fun e' => e (hinj k (by omega) m (by omega) e'))]
        exact h2
    · simp only
      rw [Function.update_of_ne (hb m (by omega))]
      exact ho b fun k hk => hb k (by omega)

end L1c
