import Verif.Spec.BregBindings
import Verif.Proofs.BregmanMain
import Verif.Proofs.BregmanFin
import Mathlib.Algebra.BigOperators.Field

/-! Helper lemmas for the TV denoising functions of the interfaces. -/

namespace L1c
open Prog Scalar

section mem
variable {F : Type} [Scalar F]

theorem calloc_ok {s : PState F} {N : Int} (h : s.oracle s.calls = true) (hN : 0 ≤ N) :
    s.calloc N = (some ⟨s.next, 0⟩,
      { s with mem := ⟨Function.update s.mem.len s.next N.toNat, fun p => if p.blk = s.next then Scalar.lit 0 else s.mem.val p⟩,
               live := Function.update s.live s.next true, next := s.next + 1, calls := s.calls + 1 }) := by
  unfold PState.calloc; rw [if_pos ⟨h, hN⟩]

theorem calloc_no {s : PState F} {N : Int} (h : s.oracle s.calls = false) : s.calloc N = (none, { s with calls := s.calls + 1 }) := by
  unfold PState.calloc; rw [if_neg (by rw [h]; rintro ⟨h, -⟩; cases h)]

theorem calloc_wf {s : PState F} (hw : s.WF) (N : Int) : (s.calloc N).2.WF := by
  unfold PState.calloc
  split
  · intro b hb
    have hb : s.next + 1 ≤ b := hb
    have hne : b ≠ s.next := by omega
    refine ⟨?_, ?_⟩
    · show Function.update s.live s.next true b = false
      rw [Function.update_of_ne hne]; exact (hw b (by omega)).1
    · show Function.update s.mem.len s.next N.toNat b = 0
      rw [Function.update_of_ne hne]; exact (hw b (by omega)).2
  · exact hw

/-- copying out of a buffer -/
theorem cspec_readBuf {s : PState F} {p : Ptr} {N : ℕ} (h : s.mem.Has p (N : Int)) :
    CSpec (readBuf p N) s ((List.range N).map fun k : ℕ => s.mem.val (p + (k : Int))) s := by
  induction N with
  | zero => exact .done _ _
  | succ N ih =>
    unfold readBuf
    refine CSpec.bind (ih fun i h0 h1 => h i h0 (by push_cast; omega)) ?_
    refine CSpec.bind (cspec_eval (run_load (h N (by omega) (by push_cast; omega)))) ?_
    rw [List.range_succ, List.map_append]
    exact .done _ _

theorem idx_boundN {n m i j : ℕ} (hi : i < n) (hj : j < m) : i * m + j < n * m :=
  calc i * m + j < i * m + m := by omega
    _ = (i + 1) * m := by ring
    _ ≤ n * m := Nat.mul_le_mul_right _ hi

omit [Scalar F] in
theorem holdsF_of_buf {mem : Mem F} {p : Ptr} {n m : ℕ} {v : ℕ → F} (h : HoldsBuf mem p (n * m) v) : HoldsF mem p n m (rowImg m v) := by
  exact ⟨h.1, fun i hi j hj => h.2 _ (idx_boundN hi hj)⟩

omit [Scalar F] in
theorem holdsF_flat {mem : Mem F} {p : Ptr} {n m : ℕ} {A : FImg F} (h : HoldsF mem p n m A) {k : ℕ} (hk : k < n * m) :
    mem.val (p + (k : Int)) = A (k / m) (k % m) := by
  have hm : 0 < m := by
    rcases Nat.eq_zero_or_pos m with rfl | hm
    · simp at hk
    · exact hm
  rw [← h.2 _ ((Nat.div_lt_iff_lt_mul hm).2 hk) _ (Nat.mod_lt _ hm)]
  unfold Mem.pix
  rw [Nat.div_add_mod']

/-- the numbers in a buffer -/
def bufList (s : PState F) (p : Ptr) (N : ℕ) : List F := (List.range N).map fun k : ℕ => s.mem.val (p + (k : Int))

omit [Scalar F] in
theorem bufList_get (s : PState F) (p : Ptr) {N k : ℕ} (h : k < N) : (bufList s p N)[k]? = some (s.mem.val (p + (k : Int))) := by
  unfold bufList
  rw [List.getElem?_map, List.getElem?_range h]; rfl

omit [Scalar F] in
theorem bufList_length (s : PState F) (p : Ptr) (N : ℕ) : (bufList s p N).length = N := by
  unfold bufList; rw [List.length_map, List.length_range]

/-- the two buffers have been allocated -/
def twoBufs (s : PState F) (N : Int) : PState F := ((s.calloc N).2.calloc N).2

/-- what the two interfaces do after allocating two buffers: copy the image and call the library -/
theorem denoise_core {s : PState F} (hw : s.WF) {n m : ℕ} (hn : 3 ≤ n) (hm : 3 ≤ m) (hfit : FitsInt ((n : Int) * m)) {f : Ptr} {v : ℕ → F}
    (hf : HoldsBuf s.mem f (n * m) v) (h0 : s.oracle s.calls = true) (h1 : s.oracle (s.calls + 1) = true) {mu tol : F} {max_iter jac : Int}
    (hmax : max_iter < INT_MAX) (hj : jac < INT_MAX) :
    (s.calloc ((n : Int) * m)).1 = some ⟨s.next, 0⟩ ∧ ((s.calloc ((n : Int) * m)).2.calloc ((n : Int) * m)).1 = some ⟨s.next + 1, 0⟩ ∧
    ∃ s3 st i s4 s5 s6, CSpec (Cmd.exec (cblas_dcopy ((n : Int) * m) f ⟨s.next, 0⟩)) (twoBufs s ((n : Int) * m)) () s3 ∧
      CSpec (l1c_breg_anistropic_TV n m ⟨s.next + 1, 0⟩ ⟨s.next, 0⟩ mu tol max_iter jac) s3 (st, i) s4 ∧
      s4.mem.Has ⟨s.next + 1, 0⟩ ((n * m : ℕ) : Int) ∧
      s4.free (some ⟨s.next, 0⟩) = some s5 ∧ s5.free (some ⟨s.next + 1, 0⟩) = some s6 ∧
      s6.live = s.live ∧ s6.mem.len = s.mem.len ∧ (∀ p : Ptr, p.blk < s.next → s6.mem.val p = s.mem.val p) ∧
      ((st = L1C_OUT_OF_MEMORY ∧ ∃ k < 8, s.oracle (s.calls + 2 + k) = false) ∨
       (st = 0 ∧ (∀ k < 8, s.oracle (s.calls + 2 + k) = true) ∧ ∃ K, K ≤ max_iter.toNat ∧
          (K = max_iter.toNat ∨ 0 < K ∧ bregBrk n m mu (lit 2 * mu) tol jac.toNat (rowImg m v) (K - 1) = true) ∧
          LibraryResult n m mu tol max_iter jac v (bufList s4 ⟨s.next + 1, 0⟩ (n * m)) ∧
          ∀ i < n, ∀ j < m, (bufList s4 ⟨s.next + 1, 0⟩ (n * m))[i * m + j]? = some ((bregIter n m mu (lit 2 * mu) jac.toNat (rowImg m v) K).u i j))) := by
  have hpos : (0 : Int) ≤ (n : Int) * m := by positivity
  have hnm : ((n : Int) * m).toNat = n * m := by rw [← Int.natCast_mul]; rfl
  have e1 := calloc_ok (s := s) h0 hpos
  have e2 := calloc_ok (s := (s.calloc ((n : Int) * m)).2) (N := (n : Int) * m) (by rw [e1]; exact h1) hpos
  have w2 : (twoBufs s ((n : Int) * m)).WF := calloc_wf (calloc_wf hw _) _
  set s2 := twoBufs s ((n : Int) * m) with hs2
  have es2 : s2 = { s with
      mem := ⟨Function.update (Function.update s.mem.len s.next (n * m)) (s.next + 1) (n * m),
        fun p => if p.blk = s.next + 1 then Scalar.lit 0 else if p.blk = s.next then Scalar.lit 0 else s.mem.val p⟩,
      live := Function.update (Function.update s.live s.next true) (s.next + 1) true, next := s.next + 1 + 1, calls := s.calls + 1 + 1 } := by
    rw [hs2]; unfold twoBufs
    rw [e2, e1]
    simp only [hnm]
  refine ⟨by rw [e1], by rw [e2, e1], ?_⟩
  -- the caller's image is still there, the buffers have their size
  have fold : f.blk < s.next := by
    by_contra hc
    have := hf.1 0 le_rfl (by have : 0 < n * m := Nat.mul_pos (by omega) (by omega)
                              exact_mod_cast this)
    unfold Mem.Ok at this
    rw [Ptr.add_blk, (hw _ (not_lt.1 hc)).2] at this
    omega
  have hasf : s2.mem.Has f ((n * m : ℕ) : Int) := by
    intro i g0 g1
    have := hf.1 i g0 g1
    unfold Mem.Ok at this ⊢
    rw [es2]
    show 0 ≤ _ ∧ _ < ((Function.update (Function.update s.mem.len s.next (n * m)) (s.next + 1) (n * m) (f + i).blk : ℕ) : Int)
    rw [Ptr.add_blk] at this ⊢
    rw [Function.update_of_ne (by omega), Function.update_of_ne (by omega)]
    exact this
  have hasb : s2.mem.Has ⟨s.next, 0⟩ ((n * m : ℕ) : Int) := by
    intro i g0 g1
    unfold Mem.Ok
    rw [es2]
    show 0 ≤ (0 + i : Int) ∧ (0 + i : Int) < ((Function.update (Function.update s.mem.len s.next (n * m)) (s.next + 1) (n * m) s.next : ℕ) : Int)
    rw [Function.update_of_ne (by omega), Function.update_self]
    omega
  have hasu : s2.mem.Has ⟨s.next + 1, 0⟩ ((n * m : ℕ) : Int) := by
    intro i g0 g1
    unfold Mem.Ok
    rw [es2]
    show 0 ≤ (0 + i : Int) ∧ (0 + i : Int) < ((Function.update (Function.update s.mem.len s.next (n * m)) (s.next + 1) (n * m) (s.next + 1) : ℕ) : Int)
    rw [Function.update_self]
    omega
  have hf2 : HoldsBuf s2.mem f (n * m) v := by
    refine ⟨hasf, fun k hk => ?_⟩
    rw [← hf.2 k hk, es2]
    show (if f.blk = s.next + 1 then _ else if f.blk = s.next then _ else _) = _
    rw [if_neg (by omega), if_neg (by omega)]
  have hcopy := kspec_img1 (al := []) (y := ⟨s.next, 0⟩) (fun x : F => x) (holdsF_of_buf hf2) hasb (Sep.noCross (Sep.of_blk (by show s.next ≠ f.blk; omega)))
  set s3 : PState F := { s2 with mem := s2.mem.setImg ⟨s.next, 0⟩ n m (rowImg m v) } with hs3
  have w3 : s3.WF := w2
  have hfo : HoldsF s3.mem ⟨s.next, 0⟩ n m (rowImg m v) := holdsF_setImg hasb
  have huk : HoldsF s3.mem ⟨s.next + 1, 0⟩ n m (fun i j => s3.mem.pix ⟨s.next + 1, 0⟩ m i j) := ⟨hasu, fun _ _ _ _ => rfl⟩
  have hsep : Sep ((n * m : ℕ) : Int) ⟨s.next + 1, 0⟩ ⟨s.next, 0⟩ := Sep.of_blk (by show s.next + 1 ≠ s.next; omega)
  have or3 : ∀ k, s3.oracle (s3.calls + k) = s.oracle (s.calls + 2 + k) := fun k => by rw [hs3, es2]
  have nx3 : s3.next = s.next + 1 + 1 := by rw [hs3, es2]
  have old3 : ∀ p : Ptr, p.blk < s.next → s3.mem.val p = s.mem.val p := fun p hp => by
    have a1 : s3.mem.val p = s2.mem.val p := by
      show (s2.mem.setImg ⟨s.next, 0⟩ n m (rowImg m v)).val p = _
      refine setRange_frame (p := p) s2.mem ⟨s.next, 0⟩ (n * m) _ fun k hk e => ?_
      rw [e] at hp; exact absurd hp (lt_irrefl _)
    rw [a1, es2]
    show (if p.blk = s.next + 1 then _ else if p.blk = s.next then _ else _) = _
    rw [if_neg (by omega), if_neg (by omega)]
  have live3 : s3.live = Function.update (Function.update s.live s.next true) (s.next + 1) true := by rw [hs3, es2]
  have len3 : s3.mem.len = Function.update (Function.update s.mem.len s.next (n * m)) (s.next + 1) (n * m) := by
    show s2.mem.len = _; rw [es2]
  -- the two outcomes of the library call
  have key : ∃ st i s4, CSpec (l1c_breg_anistropic_TV n m ⟨s.next + 1, 0⟩ ⟨s.next, 0⟩ mu tol max_iter jac) s3 (st, i) s4 ∧
      s4.live = s3.live ∧ s4.mem.len = s3.mem.len ∧ (∀ p : Ptr, p.blk < s.next → s4.mem.val p = s3.mem.val p) ∧
      ((st = L1C_OUT_OF_MEMORY ∧ ∃ k < 8, s.oracle (s.calls + 2 + k) = false) ∨
       (st = 0 ∧ (∀ k < 8, s.oracle (s.calls + 2 + k) = true) ∧ ∃ K, K ≤ max_iter.toNat ∧
          (K = max_iter.toNat ∨ 0 < K ∧ bregBrk n m mu (lit 2 * mu) tol jac.toNat (rowImg m v) (K - 1) = true) ∧
          HoldsF s4.mem ⟨s.next + 1, 0⟩ n m (bregIter n m mu (lit 2 * mu) jac.toNat (rowImg m v) K).u)) := by
    by_cases hor : ∀ k < 8, s.oracle (s.calls + 2 + k) = true
    · obtain ⟨K, i, s4, g1, g2, g3, g4, g5, g6, g7⟩ := cspec_breg (mu := mu) (tol := tol) w3 (by omega) (by omega) hfit huk hfo hsep hmax hj
        (fun k hk => by rw [or3]; exact hor k hk)
      refine ⟨0, i, s4, g1, g2, g3, fun p hp => g5 p (by rw [nx3]; omega) fun k _ e => ?_, Or.inr ⟨rfl, hor, K, g6, ?_, g4⟩⟩
      · rw [e] at hp
        have : s.next + 1 < s.next := hp
        omega
      · rcases g7 with ⟨g7, -⟩ | ⟨g7, -, g8, -⟩
        · exact Or.inl g7
        · exact Or.inr ⟨g7, g8⟩
    · obtain ⟨s4, g1, g2, g3, g4⟩ := cspec_breg_oom (uk := (⟨s.next + 1, 0⟩ : Ptr)) (f := (⟨s.next, 0⟩ : Ptr)) (mu := mu) (tol := tol) (max_iter := max_iter)
        (jac := jac) w3 hfit (fun c => hor fun k hk => by rw [← or3]; exact c.1 k hk)
      push Not at hor
      obtain ⟨k, hk, e⟩ := hor
      exact ⟨_, _, s4, g1, g2, g3, fun p hp => g4 p (by rw [nx3]; omega), Or.inl ⟨rfl, k, hk, by simpa using e⟩⟩
  obtain ⟨st, i, s4, g1, g2, g3, g4, g5⟩ := key
  have l0 : s4.live s.next = true := by rw [g2, live3, Function.update_of_ne (by omega), Function.update_self]
  have l1 : s4.live (s.next + 1) = true := by rw [g2, live3, Function.update_self]
  refine ⟨s3, st, i, s4, { s4 with mem := { s4.mem with len := Function.update s4.mem.len s.next 0 }, live := Function.update s4.live s.next false },
    { s4 with mem := { s4.mem with len := Function.update (Function.update s4.mem.len s.next 0) (s.next + 1) 0 },
              live := Function.update (Function.update s4.live s.next false) (s.next + 1) false },
    cspec_exec hcopy, g1, ?_, ?_, ?_, ?_, ?_, ?_, ?_⟩
  · intro i q0 q1
    have := hasu i q0 q1
    unfold Mem.Ok at this ⊢
    rw [g3]; exact this
  · unfold PState.free; dsimp only; rw [if_pos ⟨l0, rfl⟩]
  · unfold PState.free
    dsimp only
    rw [if_pos ⟨by rw [Function.update_of_ne (by omega)]; exact l1, rfl⟩]
  · funext b
    show Function.update (Function.update s4.live s.next false) (s.next + 1) false b = s.live b
    by_cases b1 : b = s.next + 1
    · subst b1; rw [Function.update_self, (hw (s.next + 1) (by omega)).1]
    by_cases b0 : b = s.next
    · subst b0; rw [Function.update_of_ne b1, Function.update_self, (hw s.next le_rfl).1]
    · rw [Function.update_of_ne b1, Function.update_of_ne b0, g2, live3, Function.update_of_ne b1, Function.update_of_ne b0]
  · funext b
    show Function.update (Function.update s4.mem.len s.next 0) (s.next + 1) 0 b = s.mem.len b
    by_cases b1 : b = s.next + 1
    · subst b1; rw [Function.update_self, (hw (s.next + 1) (by omega)).2]
    by_cases b0 : b = s.next
    · subst b0; rw [Function.update_of_ne b1, Function.update_self, (hw s.next le_rfl).2]
    · rw [Function.update_of_ne b1, Function.update_of_ne b0, g3, len3, Function.update_of_ne b1, Function.update_of_ne b0]
  · exact fun p hp => (g4 p hp).trans (old3 p hp)
  · rcases g5 with g5 | ⟨rfl, g6, K, g7, g8, g9⟩
    · exact Or.inl g5
    · refine Or.inr ⟨rfl, g6, K, g7, g8, ⟨s3, s4, _, _, i, w3, hasu, ⟨hasb, fun k hk => ?_⟩, g1, bufList_length _ _ _, fun k hk => bufList_get _ _ hk⟩,
        fun a ha b hb => ?_⟩
      · rw [holdsF_flat hfo hk]; unfold rowImg; rw [Nat.div_add_mod']
      · rw [bufList_get _ _ (idx_boundN ha hb), ← g9.2 a ha b hb]; rfl

end mem

open Finset

theorem sum_delta_diff {m j0 : ℕ} (hj : j0 < m) :
    ∑ j ∈ range m, |if j + 1 < m then (1 : ℝ) * ((if j + 1 = j0 then 1 else 0) - if j = j0 then 1 else 0) else 0| =
      (if 0 < j0 then 1 else 0) + if j0 + 1 < m then 1 else 0 := by
  have e : ∀ j ∈ range m, |if j + 1 < m then (1 : ℝ) * ((if j + 1 = j0 then 1 else 0) - if j = j0 then 1 else 0) else 0| =
      (if j + 1 = j0 then 1 else 0) + if j = j0 then (if j0 + 1 < m then 1 else 0) else 0 := fun j h => by
    have h := mem_range.1 h
    by_cases h1 : j + 1 < m
    · rw [if_pos h1]
      by_cases h2 : j + 1 = j0
      · rw [if_pos h2, if_neg (by omega : ¬ j = j0), if_neg (by omega : ¬ j = j0)]; norm_num
      · rw [if_neg h2]
        by_cases h3 : j = j0
        · subst h3; rw [if_pos rfl, if_pos rfl, if_pos h1]; norm_num
        · rw [if_neg h3, if_neg h3]; norm_num
    · rw [if_neg h1, if_neg (by omega : ¬ j + 1 = j0)]
      by_cases h3 : j = j0
      · subst h3; rw [if_pos rfl, if_neg h1]; norm_num
      · rw [if_neg h3]; norm_num
  rw [sum_congr rfl e, sum_add_distrib, sum_ite_eq' (range m) j0, if_pos (mem_range.2 hj)]
  congr 1
  rcases Nat.eq_zero_or_pos j0 with h | h
  · subst h; simp
  · rw [if_pos h, sum_congr rfl (g := fun j => if j = j0 - 1 then (1 : ℝ) else 0) (fun j _ => by
      by_cases h2 : j = j0 - 1
      · rw [if_pos h2, if_pos (by omega)]
      · rw [if_neg h2, if_neg (by omega)]), sum_ite_eq' (range m) (j0 - 1), if_pos (mem_range.2 (by omega))]

/-- total variation of an image with a single bright pixel: the number of its neighbours -/
theorem tv_delta {n m i0 j0 : ℕ} (hi : i0 < n) (hj : j0 < m) {u : Img} (hu : ∀ i < n, ∀ j < m, u i j = if i = i0 ∧ j = j0 then 1 else 0) (mu : ℝ) :
    tvObj n m mu u u = ((if 0 < j0 then 1 else 0) + if j0 + 1 < m then 1 else 0) + ((if 0 < i0 then 1 else 0) + if i0 + 1 < n then 1 else 0) := by
  have hx : norm1 n m (gradX 1 m u) = (if 0 < j0 then 1 else 0) + if j0 + 1 < m then 1 else 0 := by
    unfold norm1
    rw [sum_eq_single_of_mem i0 (mem_range.2 hi), ← sum_delta_diff hj]
    · refine sum_congr rfl fun j h => ?_
      have h := mem_range.1 h
      unfold gradX
      by_cases h1 : j + 1 < m
      · rw [if_pos h1, if_pos h1, hu _ hi _ h1, hu _ hi _ h]; simp
      · rw [if_neg h1, if_neg h1]
    · intro i h ne
      refine sum_eq_zero fun j h' => ?_
      have h := mem_range.1 h
      have h' := mem_range.1 h'
      unfold gradX
      by_cases h1 : j + 1 < m
      · rw [if_pos h1, hu _ h _ h1, hu _ h _ h', if_neg (fun c => ne c.1), if_neg (fun c => ne c.1)]; simp
      · rw [if_neg h1]; simp
  have hy : norm1 n m (gradY 1 n u) = (if 0 < i0 then 1 else 0) + if i0 + 1 < n then 1 else 0 := by
    unfold norm1
    rw [sum_comm, sum_eq_single_of_mem j0 (mem_range.2 hj), ← sum_delta_diff hi]
    · refine sum_congr rfl fun j h => ?_
      have h := mem_range.1 h
      unfold gradY
      by_cases h1 : j + 1 < n
      · rw [if_pos h1, if_pos h1, hu _ h1 _ hj, hu _ h _ hj]; simp
      · rw [if_neg h1, if_neg h1]
    · intro j h ne
      refine sum_eq_zero fun i h' => ?_
      have h := mem_range.1 h
      have h' := mem_range.1 h'
      unfold gradY
      by_cases h1 : i + 1 < n
      · rw [if_pos h1, hu _ h1 _ h, hu _ h' _ h, if_neg (fun c => ne c.2), if_neg (fun c => ne c.2)]; simp
      · rw [if_neg h1]; simp
  have hq : normSq2 n m (fun i j => u i j - u i j) = 0 := by
    unfold normSq2 inner2
    exact sum_eq_zero fun i _ => sum_eq_zero fun j _ => by simp
  unfold tvObj
  rw [hx, hy, hq]; ring

/-- the objective does not change when a square image is transposed -/
theorem tvObj_transpose (n : ℕ) (mu : ℝ) (f u : Img) : tvObj n n mu (fun r c => f c r) (fun r c => u c r) = tvObj n n mu f u := by
  have h1 : norm1 n n (gradX 1 n fun r c => u c r) = norm1 n n (gradY 1 n u) := by unfold norm1; rw [sum_comm]; rfl
  have h2 : norm1 n n (gradY 1 n fun r c => u c r) = norm1 n n (gradX 1 n u) := by unfold norm1; rw [sum_comm]; rfl
  have h3 : normSq2 n n (fun r c => u c r - f c r) = normSq2 n n (fun r c => u r c - f r c) := by unfold normSq2 inner2; rw [sum_comm]
  unfold tvObj
  rw [h1, h2, h3]; ring

end L1c
