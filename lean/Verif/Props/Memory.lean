import Verif.Proofs.MemoryH

/-!
# C01, C02: the allocation functions of `src/l1c_memory.c`

A heap computation returning `none` is undefined behaviour (bad free, bad access).
`h.blk b = none` means block `b` is not live.
-/

namespace L1c
variable {F : Type} [Scalar F]

/-! ## C01 -/

omit [Scalar F] in
/-- `C01`: `l1c_malloc_double_2D` never runs into undefined behaviour; it returns NULL with every block
exactly as before (contents included), or a correct fresh table.  Any allocation may fail. -/
theorem C01_malloc_2D (nrow ncol : Int) (hr : FitsInt nrow) (hc : FitsInt ncol) (h₀ : Heap F) (hwf : h₀.WF) :
    ∃ r h, l1c_malloc_double_2D nrow ncol h₀ = some (r, h) ∧
      (r = none → h.blk = h₀.blk) ∧
      (∀ t, r = some t → 0 ≤ nrow ∧ ∃ row, Is2D h₀ h t row nrow ncol .undef) := by
  obtain ⟨r, h, hrun, h1, h2⟩ := malloc2D_core nrow ncol hr h₀ hwf
  refine ⟨r, h, hrun, h1, fun t ht => ?_⟩
  obtain ⟨hn, rfl, hI, hsz⟩ := h2 t ht
  exact ⟨hn, _, hI.is2D hc hwf hsz⟩

/-- `C01`: the same for `l1c_calloc_double_2D`, with zeroed rows. -/
theorem C01_calloc_2D (nrow ncol : Int) (hr : FitsInt nrow) (hc : FitsInt ncol) (h₀ : Heap F) (hwf : h₀.WF) :
    ∃ r h, l1c_calloc_double_2D nrow ncol h₀ = some (r, h) ∧
      (r = none → h.blk = h₀.blk) ∧
      (∀ t, r = some t → 0 ≤ nrow ∧ ∃ row, Is2D h₀ h t row nrow ncol (.num (Scalar.lit 0))) := by
  obtain ⟨r, h, hrun, h1, h2⟩ := C01_malloc_2D nrow ncol hr hc h₀ hwf
  unfold l1c_calloc_double_2D
  rw [hm_bind, hrun, Option.bind_some]
  cases r with
  | none => exact ⟨none, h, rfl, fun _ => h1 rfl, by simp⟩
  | some t =>
    obtain ⟨hn, row, H⟩ := h2 t rfl
    obtain ⟨T, hT, hTs, hTc⟩ := H.table
    obtain ⟨h', hrun', hz, ho⟩ := run_zeroRows h t nrow.toNat ncol T row hT hTs hTc
      (fun k hk => (H.rnew k hk).2) H.inj (fun k hk => by
        obtain ⟨_, B, h1, h2, _⟩ := H.size k hk
        exact ⟨B, h1, h2⟩) _ le_rfl
    simp only
    rw [hm_bind, hrun', Option.bind_some]
    refine ⟨some t, h', rfl, by simp, fun t' ht' => ?_⟩
    obtain rfl : t = t' := by simpa using ht'
    refine ⟨hn, row, H.tnew, ⟨T, by rw [ho t fun k hk e => (H.rnew k hk).2 e.symm, hT], hTs, hTc⟩, H.rnew, H.inj,
      fun k hk => ?_, fun b hb hb' => by rw [ho b hb', H.others b hb hb']⟩
    obtain ⟨hc0, B, hB, hBs, _⟩ := H.size k hk
    obtain ⟨C, C', e1, e2, e3, e4⟩ := hz k hk
    obtain rfl : B = C := by rw [hB] at e1; simpa using e1
    exact ⟨hc0, C', e2, by rw [e3]; exact hBs, e4⟩

omit [Scalar F] in
/-- `C01`: freeing a returned table never frees a block twice and restores the set of live blocks, even
when the caller has used the rows and other blocks have been allocated or released since (`h` is any later
heap in which the table is intact and its rows are live; `others` describes the rest). -/
theorem C01_free_2D (nrow ncol : Int) (h₀ h₁ h : Heap F) (t : ℕ) (row : ℕ → ℕ) (c : Cell F)
    (H : Is2D h₀ h₁ t row nrow ncol c) (htab : h.blk t = h₁.blk t)
    (hrows : ∀ k < nrow.toNat, h.Live (row k)) :
    ∃ h', l1c_free_double_2D nrow (some t) h = some ((), h') ∧ ¬ h'.Live t ∧
      (∀ k < nrow.toNat, ¬ h'.Live (row k)) ∧
      (∀ b, b ≠ t → (∀ k < nrow.toNat, b ≠ row k) → h'.blk b = h.blk b) ∧
      ((∀ b, h.Live b ↔ h₁.Live b) → ∀ b, h'.Live b ↔ h₀.Live b) := by
  obtain ⟨T, hT, hTs, hTc⟩ := H.table
  have hrun : l1c_free_double_2D nrow (some t) h = some ((), { h with
      blk := Function.update (fun b => if ∃ k < nrow.toNat, some (row k) = some b then none else h.blk b) t none }) := by
    unfold l1c_free_double_2D
    simp only
    rw [hm_bind, freeRows, run_freeRows h t nrow.toNat T (fun k => some (row k)) (by rw [htab, hT]) hTs hTc
      (fun k hk b hb => by
        obtain rfl : row k = b := by simpa using hb
        exact ⟨hrows k hk, (H.rnew k hk).2⟩)
      (fun k hk l hl b hb hb' => H.inj k hk l hl (by simpa using hb.trans hb'.symm)) _ le_rfl, Option.bind_some]
    have hnot : ¬ ∃ k < nrow.toNat, some (row k) = some t := by
      rintro ⟨k, hk, e⟩; exact (H.rnew k hk).2 (by simpa using e)
    simp only [hfree, hnot, if_false, htab, hT, Option.isSome_some, if_true]
  have hother : ∀ b, b ≠ t → (∀ k < nrow.toNat, b ≠ row k) →
      Function.update (fun b => if ∃ k < nrow.toNat, some (row k) = some b then none else h.blk b) t none b
        = h.blk b := by
    intro b hb hb'
    rw [Function.update_of_ne hb, if_neg]
    rintro ⟨k, hk, e⟩; exact hb' k hk (by simpa using e.symm)
  have hrow : ∀ k < nrow.toNat,
      Function.update (fun b => if ∃ k < nrow.toNat, some (row k) = some b then none else h.blk b) t none (row k)
        = none := by
    intro k hk
    rw [Function.update_of_ne (H.rnew k hk).2, if_pos ⟨k, hk, rfl⟩]
  refine ⟨_, hrun, by simp [Heap.Live], fun k hk => ?_, hother, fun hlive b => ?_⟩
  · simp only [Heap.Live]; rw [hrow k hk]; simp
  · by_cases hb : b = t
    · subst hb; simp [Heap.Live, H.tnew]
    · by_cases hb' : ∃ k < nrow.toNat, b = row k
      · obtain ⟨k, hk, rfl⟩ := hb'
        simp only [Heap.Live]
        rw [hrow k hk, (H.rnew k hk).1]
      · push Not at hb'
        have := hlive b
        simp only [Heap.Live] at this ⊢
        rw [hother b hb hb', this, H.others b hb hb']

omit [Scalar F] in
/-- freeing NULL is harmless -/
theorem C01_free_null (nrow : Int) (h : Heap F) : l1c_free_double_2D nrow none h = some ((), h) := rfl

/-- The array `C01_free_2D` releases is the one `C01_calloc_2D` made: when every request is granted a calloc/free pair of
a `3 × 5` array puts back the set of live blocks it began with. -/
example (h₀ : Heap F) (hwf : h₀.WF) {t : ℕ} {h : Heap F} (hc : l1c_calloc_double_2D 3 5 h₀ = some (some t, h)) :
    ∃ h', l1c_free_double_2D 3 (some t) h = some ((), h') ∧ ∀ b, h'.Live b ↔ h₀.Live b := by
  obtain ⟨r, h₁, he, -, hr⟩ := C01_calloc_2D 3 5 (by unfold FitsInt INT_MAX INT_MIN; omega)
    (by unfold FitsInt INT_MAX INT_MIN; omega) h₀ hwf
  rw [hc] at he
  cases he
  obtain ⟨-, row, H⟩ := hr t rfl
  obtain ⟨h', e, -, -, -, hl⟩ := C01_free_2D 3 5 h₀ h h t row _ H rfl fun k hk => by
    obtain ⟨-, B, hB, -⟩ := H.size k hk
    simp [Heap.Live, hB]
  exact ⟨h', e, hl fun b => Iff.rfl⟩

/-- the allocator may refuse any single request: `C01` is not vacuous -/
example : ∃ h₀ : Heap F, h₀.WF ∧ ∃ t h, l1c_malloc_double_2D 1 2 h₀ = some (some t, h) :=
  ⟨⟨fun _ => none, 0, 0, fun _ => true⟩, fun _ _ => rfl, 0, _, rfl⟩
example : ∃ h₀ : Heap F, h₀.WF ∧ ∃ h, l1c_malloc_double_2D 2 2 h₀ = some (none, h) ∧ h.calls = 3 :=
  ⟨⟨fun _ => none, 0, 0, fun k => k ≠ 2⟩, fun _ _ => rfl, _, rfl, rfl⟩

/-! ## C02 -/

omit [Scalar F] in
/-- `C02`: a block returned by `l1c_malloc_double(N)` really holds `N ≥ 0` doubles; a negative `N`
always yields NULL. -/
theorem C02_malloc (N : Int) (hN : FitsInt N) (h : Heap F) :
    ∃ r h', l1c_malloc_double N h = some (r, h') ∧
      (N < 0 → r = none) ∧
      (r = none → h'.blk = h.blk) ∧
      (∀ b, r = some b → 0 ≤ N ∧ ∃ B, h'.blk b = some B ∧ B.bytes = 8 * N.toNat) := by
  by_cases hok : h.oracle h.calls = true ∧ sizeBytes N ≤ PTRDIFF_MAX
  · have hn : 0 ≤ N := by
      by_contra hneg
      have := sizeBytes_neg (N := N) (by omega) hN.1
      omega
    refine ⟨_, _, by simp only [l1c_malloc_double, hmalloc]; rw [if_pos hok], by omega, by simp, ?_⟩
    intro b hb
    obtain rfl : h.next = b := by simpa using hb
    exact ⟨hn, ⟨_, fun _ => .undef⟩, by simp; rfl, sizeBytes_nonneg hn hN.2⟩
  · exact ⟨none, { h with calls := h.calls + 1 }, by simp only [l1c_malloc_double, hmalloc]; rw [if_neg hok],
      fun _ => rfl, fun _ => rfl, by simp⟩

/-- `C02`: the same for `l1c_calloc_double`, with all `N` doubles zero and no write outside the block. -/
theorem C02_calloc (N : Int) (hN : FitsInt N) (h : Heap F) :
    ∃ r h', l1c_calloc_double N h = some (r, h') ∧
      (N < 0 → r = none) ∧
      (r = none → h'.blk = h.blk) ∧
      (∀ b, r = some b → 0 ≤ N ∧ (∃ B, h'.blk b = some B ∧ B.bytes = 8 * N.toNat ∧
        ∀ i < N.toNat, B.cells i = .num (Scalar.lit 0)) ∧ ∀ b', b' ≠ b → h'.blk b' = h.blk b') := by
  by_cases hok : h.oracle h.calls = true ∧ sizeBytes N ≤ PTRDIFF_MAX
  · have hn : 0 ≤ N := by
      by_contra hneg
      have := sizeBytes_neg (N := N) (by omega) hN.1
      omega
    have hm : l1c_malloc_double N h = some (some h.next, { h with
        blk := Function.update h.blk h.next (some ⟨sizeBytes N, fun _ => .undef⟩),
        next := h.next + 1, calls := h.calls + 1 }) := by
      simp only [l1c_malloc_double, hmalloc]; rw [if_pos hok]
    have hsz := sizeBytes_nonneg hn hN.2
    unfold l1c_calloc_double
    rw [hm_bind, hm, Option.bind_some]
    simp only [h_init_vec]
    rw [hm_bind, run_fill _ _ ⟨sizeBytes N, fun _ => .undef⟩ (fun _ => .num (Scalar.lit 0)) N.toNat (by simp)
      (by simp only; omega) _ le_rfl, Option.bind_some]
    refine ⟨some h.next, _, rfl, by omega, by simp, fun b hb => ?_⟩
    obtain rfl : h.next = b := by simpa using hb
    refine ⟨hn, ⟨_, by simp only [Function.update_self]; rfl, hsz, fun i hi => by simp [hi]⟩, fun b' hb' => ?_⟩
    simp only
    rw [Function.update_of_ne hb', Function.update_of_ne hb']
  · have hm : l1c_malloc_double N h = some (none, { h with calls := h.calls + 1 }) := by
      simp only [l1c_malloc_double, hmalloc]; rw [if_neg hok]
    unfold l1c_calloc_double
    rw [hm_bind, hm]
    exact ⟨none, { h with calls := h.calls + 1 }, rfl, fun _ => rfl, fun _ => rfl, by simp⟩

example : ∃ h : Heap F, ∃ b h', l1c_malloc_double 7 h = some (some b, h') :=
  ⟨⟨fun _ => none, 0, 0, fun _ => true⟩, 0, _, rfl⟩

end L1c
