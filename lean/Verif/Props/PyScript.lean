import Verif.Proofs.PyScript
import Verif.Props.BregmanConv
import Verif.Props.BregBindings
import Verif.Proofs.Json

/-!
# The Python script `L1c.py` (`C101`)
-/

namespace L1c
open Prog Scalar Cmd

section
variable {F : Type} [Scalar F] {s : PState F} {names : List String} {x : NdArr} {lam : F}

/-- Against the library as it is built from src/, every call raises: the name the script looks up is not there (the function is called
`l1c_breg_anistropic_TV`).  No image is ever returned. -/
theorem C101_name_false (s : PState F) (loaded : Bool) (x : NdArr) (n m : Int) (lam : F) (max_iter jac : Int) :
    ∃ kind, CSpec (brAnsTV libl1cNames loaded x n m lam max_iter jac) s (.raised kind) s ∧
      ∀ p s', ¬ CSpec (brAnsTV libl1cNames loaded x n m lam max_iter jac) s (.array p) s' := by
  have key : ∃ kind, CSpec (brAnsTV libl1cNames loaded x n m lam max_iter jac) s (.raised kind) s := by
    unfold brAnsTV
    cases loaded with
    | false => rw [if_pos rfl]; exact ⟨_, .done _ _⟩
    | true =>
      rw [if_neg (by simp), if_pos (by decide)]
      exact ⟨_, .done _ _⟩
  obtain ⟨kind, h⟩ := key
  exact ⟨kind, h, fun p s' h' => by cases (h.unique h').1⟩

/-- With a library that has the name (bound to `l1c_breg_anistropic_TV`): for an image of at least 2×2 pixels whose size fits an `int`, an array of `n*m`
doubles and iteration counts that fit an `int`, the call is defined, changes none of the caller's memory and
* raises exactly when one of the nine allocations is refused, leaving nothing behind, or
* returns a new array of `n*m` numbers, the only thing that stays allocated, holding an iterate of the denoising loop, with the tolerance 0.001.
Missing for the full claim: the library has no such name (`C101_name_false`), and lengths and counts are not checked (`C101_short_false`,
`C101_count_false`). -/
theorem C101_outcome_partial (hw : s.WF) (hx : "breg_anistropic_TV" ∈ names) (hF : x.Fits) {n m : ℕ} (hn : 2 ≤ n) (hm : 2 ≤ m) (hfit : FitsInt ((n : Int) * m))
    {v : ℕ → F} (hv : HoldsBuf s.mem x.data (n * m) v) {max_iter jac : Int} (hmi : FitsInt max_iter) (hji : FitsInt jac) (hmax : max_iter < INT_MAX)
    (hj : jac < INT_MAX) :
    ∃ out s', CSpec (brAnsTV names true x n m lam max_iter jac) s out s' ∧ ¬ CUB (brAnsTV names true x n m lam max_iter jac) s ∧
      (∀ p : Ptr, p.blk < s.next → s'.mem.val p = s.mem.val p) ∧
      (((∃ kind, out = .raised kind) ∧ (∃ k < 9, s.oracle (s.calls + k) = false) ∧ s'.live = s.live ∧ s'.mem.len = s.mem.len) ∨
       ∃ p, out = .array p ∧ (∀ k < 9, s.oracle (s.calls + k) = true) ∧ s.live p.blk = false ∧ p.off = 0 ∧
         s'.live = Function.update s.live p.blk true ∧ s'.mem.len = Function.update s.mem.len p.blk (n * m) ∧
         ∃ K ≤ max_iter.toNat, (∀ i < n, ∀ j < m, s'.mem.val (p + ((i * m + j : ℕ) : Int)) = (bregIter n m lam (lit 2 * lam) jac.toNat (rowImg m v) K).u i j) ∧
           (K = max_iter.toNat ∨ 0 < K ∧ flt (relErrF n m (bregIter n m lam (lit 2 * lam) jac.toNat (rowImg m v) K).u
              (bregOld n m lam (lit 2 * lam) jac.toNat (rowImg m v) (K - 1))) (lit (1 / 1000)) = true)) := by
  suffices h : ∃ out s', CSpec (brAnsTV names true x n m lam max_iter jac) s out s' ∧ (∀ p : Ptr, p.blk < s.next → s'.mem.val p = s.mem.val p) ∧ _ by
    obtain ⟨out, s', h1, h2, h3⟩ := h
    exact ⟨out, s', h1, h1.safe, h2, h3⟩
  have hnm0 : (0 : Int) ≤ (n : Int) * m := by positivity
  have hpos : 0 < n * m := Nat.mul_pos (by omega) (by omega)
  have hnt : ((n : Int) * m).toNat = n * m := by rw [← Int.natCast_mul]; rfl
  have hnb : (n : Int) ≤ (n : Int) * m := by nlinarith
  have hmb : (m : Int) ≤ (n : Int) * m := by nlinarith
  have c1 : toCInt n = n := toCInt_of_fits ⟨by have := hfit.1; unfold INT_MIN at *; omega, hnb.trans hfit.2⟩
  have c2 : toCInt m = m := toCInt_of_fits ⟨by have := hfit.1; unfold INT_MIN at *; omega, hmb.trans hfit.2⟩
  by_cases h0 : s.oracle s.calls = true
  swap
  · refine ⟨.raised "MemoryError", (s.calloc ((n : Int) * m)).2, ?_, ?_⟩
    · unfold brAnsTV
      rw [if_neg (by simp), if_neg (by simpa using hx), if_neg (by omega)]
      refine CSpec.bind (cspec_calloc _ s) ?_
      have e : (s.calloc ((n : Int) * m)).1 = none := by unfold PState.calloc; rw [if_neg (fun c => h0 c.1)]
      rw [e]
      exact .done _ _
    · have e : (s.calloc ((n : Int) * m)).2 = { s with calls := s.calls + 1 } := by unfold PState.calloc; rw [if_neg (fun c => h0 c.1)]
      rw [e]
      exact ⟨fun _ _ => rfl, .inl ⟨⟨_, rfl⟩, ⟨0, by norm_num, by simpa using h0⟩, rfl, rfl⟩⟩
  have e2 : (s.calloc ((n : Int) * m)).2 = { s with
      mem := ⟨Function.update s.mem.len s.next (n * m), fun p => if p.blk = s.next then lit 0 else s.mem.val p⟩
      live := Function.update s.live s.next true, next := s.next + 1, calls := s.calls + 1 } := by
    unfold PState.calloc; rw [if_pos ⟨h0, hnm0⟩, hnt]
  have hd : x.data.blk < s.next := blk_old hw hpos hv.1
  set s1 := (s.calloc ((n : Int) * m)).2 with hs1
  have hw1 : s1.WF := by
    intro b hb
    rw [e2] at hb ⊢
    have hb' : s.next + 1 ≤ b := hb
    have := hw b (by omega)
    refine ⟨?_, ?_⟩
    · show Function.update s.live s.next true b = false
      rw [Function.update_of_ne (by omega)]; exact this.1
    · show Function.update s.mem.len s.next (n * m) b = 0
      rw [Function.update_of_ne (by omega)]; exact this.2
  have hu : HoldsF s1.mem ⟨s.next, 0⟩ n m fun _ _ => lit 0 := by
    refine holdsF_zero rfl ?_ ?_
    · rw [e2]; exact Function.update_self ..
    · intro q hq; rw [e2]; exact if_pos hq
  have old : ∀ p : Ptr, p.blk < s.next → s1.mem.val p = s.mem.val p := fun p hp => by rw [e2]; exact if_neg (by omega)
  have hf : HoldsF s1.mem x.data n m (rowImg m v) := by
    refine ⟨fun i h1 h2 => ?_, fun i hi j hj => ?_⟩
    · have := hv.1 i h1 h2
      refine ⟨this.1, ?_⟩
      rw [e2]
      show _ < ((Function.update s.mem.len s.next (n * m) (x.data + i).blk : ℕ) : Int)
      rw [Function.update_of_ne (by rw [Ptr.add_blk]; omega)]
      exact this.2
    · unfold Mem.pix
      rw [old _ (by rw [Ptr.add_blk]; exact hd)]
      exact hv.2 (i * m + j) (by calc i * m + j < i * m + m := by omega
                                    _ = (i + 1) * m := by ring
                                    _ ≤ n * m := Nat.mul_le_mul_right m hi)
  have hsep : Sep ((n * m : ℕ) : Int) (⟨s.next, 0⟩ : Ptr) x.data := Sep.of_blk (by simpa using (ne_of_lt hd).symm)
  have ho1 : ∀ k, s1.oracle (s1.calls + k) = s.oracle (s.calls + (k + 1)) := fun k => by
    rw [e2]; show s.oracle (s.calls + 1 + k) = _; rw [add_assoc, add_comm 1 k]
  have hn1 : s1.next = s.next + 1 := by rw [e2]
  have hl1 : s1.live = Function.update s.live s.next true := by rw [e2]
  have hm1 : s1.mem.len = Function.update s.mem.len s.next (n * m) := by rw [e2]
  by_cases hor : ∀ k < 8, s1.oracle (s1.calls + k) = true
  · obtain ⟨K, i, s2, g1, g2, g3, g4, g5, g6, g7⟩ := cspec_breg (mu := lam) (tol := lit (1 / 1000)) (max_iter := max_iter) (jac := jac) hw1 hn hm hfit hu hf hsep hmax hj hor
    refine ⟨.array ⟨s.next, 0⟩, s2, script_start hx hF h0 hnm0 ?_, ?_, .inr ⟨_, rfl, ?_, (hw _ le_rfl).1, rfl, ?_, ?_, K, g6, ?_, ?_⟩⟩
    · rw [c1, c2, toCInt_of_fits hmi, toCInt_of_fits hji]
      refine CSpec.bind g1 ?_
      rw [if_neg (by norm_num)]
      exact .done _ _
    · intro p hp
      rw [g5 p (by omega) ?_, old p hp]
      intro k _ e
      rw [e, Ptr.add_blk] at hp
      exact absurd hp (lt_irrefl _)
    · intro k hk
      rcases k with _ | k
      · exact h0
      · rw [← ho1 k]; exact hor k (by omega)
    · rw [g2, hl1]
    · rw [g3, hm1]
    · intro i hi j hj'
      exact g4.2 i hi j hj'
    · rcases g7 with ⟨h, -⟩ | ⟨h0', -, hb, -⟩
      · exact .inl h
      · refine .inr ⟨h0', ?_⟩
        unfold bregBrk at hb
        rwa [Nat.sub_add_cancel h0'] at hb
  · obtain ⟨s2, g1, g2, g3, g4⟩ := cspec_breg_oom (uk := (⟨s.next, 0⟩ : Ptr)) (f := x.data) (mu := lam) (tol := lit (1 / 1000)) (max_iter := max_iter) (jac := jac)
      hw1 hfit (fun c => hor c.1)
    have hlv : s2.live s.next = true := by rw [g2, hl1]; exact Function.update_self ..
    have hfr : s2.free (some ⟨s.next, 0⟩) = some { s2 with mem := { s2.mem with len := Function.update s2.mem.len s.next 0 }, live := Function.update s2.live s.next false } :=
      if_pos ⟨hlv, rfl⟩
    refine ⟨.raised "Exception", { s2 with mem := { s2.mem with len := Function.update s2.mem.len s.next 0 }, live := Function.update s2.live s.next false },
      script_start hx hF h0 hnm0 (CSpec.bind (a := (L1C_OUT_OF_MEMORY, 0)) (s₁ := s2) ?_ ?_), ?_, .inl ⟨⟨_, rfl⟩, ?_, ?_, ?_⟩⟩
    · rw [c1, c2, toCInt_of_fits hmi, toCInt_of_fits hji]
      exact g1
    · rw [if_pos (by show L1C_OUT_OF_MEMORY > 0; unfold L1C_OUT_OF_MEMORY; norm_num)]
      exact CSpec.bind (cspec_free hfr) (.done _ _)
    · intro p hp
      rw [← old p hp]
      exact g4 p (by omega)
    · push Not at hor
      obtain ⟨k, hk, e⟩ := hor
      exact ⟨k + 1, by omega, by rw [← ho1 k]; simpa using e⟩
    · show Function.update s2.live s.next false = s.live
      rw [g2, hl1, Function.update_idem]
      conv_lhs => rw [← (hw _ le_rfl).1]
      exact Function.update_eq_self ..
    · show Function.update s2.mem.len s.next 0 = s.mem.len
      rw [g3, hm1, Function.update_idem]
      conv_lhs => rw [← (hw _ le_rfl).2]
      exact Function.update_eq_self ..

/-- False for arrays shorter than `n*m`: nobody compares the length with `n*m`, and the library reads behind the end. -/
theorem C101_short_false (hw : s.WF) (hx : "breg_anistropic_TV" ∈ names) (hF : x.Fits) {n m : ℕ} (hfit : FitsInt ((n : Int) * m)) (hn : FitsInt (n : Int))
    (hm : FitsInt (m : Int)) {len : ℕ} (h0 : x.data.off = 0) (hl : s.mem.len x.data.blk = len) (hb : x.data.blk < s.next) (hs : len < n * m)
    (hor : ∀ k < 9, s.oracle (s.calls + k) = true) (max_iter jac : Int) : CUB (brAnsTV names true x n m lam max_iter jac) s := by
  have hnm0 : (0 : Int) ≤ (n : Int) * m := by positivity
  have hnt : ((n : Int) * m).toNat = n * m := by rw [← Int.natCast_mul]; rfl
  have ho := hor 0 (by norm_num)
  unfold brAnsTV
  rw [if_neg (by simp), if_neg (by simpa using hx), if_neg (by omega)]
  refine (cspec_calloc _ s).bind_ub ?_
  have e : (s.calloc ((n : Int) * m)).1 = some ⟨s.next, 0⟩ := by unfold PState.calloc; rw [if_pos ⟨ho, hnm0⟩]
  rw [e]
  dsimp only
  rw [if_neg (not_not.2 (show x.dbl = true ∧ x.ndim = 1 ∧ x.contig = true from hF)), toCInt_of_fits hn, toCInt_of_fits hm]
  refine CUB.bind ?_
  have a1 : Alloc s (s.calloc ((n : Int) * m)).2 ((n : Int) * m) ([] ++ [(s.calloc ((n : Int) * m)).1]) := (Alloc.init hw ((n : Int) * m)).step
  have hw1 : (s.calloc ((n : Int) * m)).2.WF := calloc_wf hw _
  obtain ⟨o1, o2, o3, o4, o5, o6, o7, o8, s8, ha, -, hub⟩ := breg_allocs hw1 (n : Int) m ⟨s.next, 0⟩ x.data lam (lit (1 / 1000)) (toCInt max_iter) (toCInt jac) hfit
  refine hub (CUB.bind ?_)
  have hsome : ∀ k (hk : k < 8), ([o1, o2, o3, o4, o5, o6, o7, o8][k]'hk).isSome = true := fun k hk =>
    (ha.some_iff k hk).2 ⟨by
      rw [a1.ext.orc, a1.calls]
      have := hor (1 + k) (by omega)
      rwa [← add_assoc] at this, hnm0⟩
  have g1 := hsome 0 (by norm_num)
  have g2 := hsome 1 (by norm_num)
  have g3 := hsome 2 (by norm_num)
  have g4 := hsome 3 (by norm_num)
  have g5 := hsome 4 (by norm_num)
  have g6 := hsome 5 (by norm_num)
  have g7 := hsome 6 (by norm_num)
  have g8 := hsome 7 (by norm_num)
  simp only [List.getElem_cons_zero, List.getElem_cons_succ, Option.isSome_iff_exists] at g1 g2 g3 g4 g5 g6 g7 g8
  obtain ⟨p1, rfl⟩ := g1
  obtain ⟨p2, rfl⟩ := g2
  obtain ⟨p3, rfl⟩ := g3
  obtain ⟨p4, rfl⟩ := g4
  obtain ⟨p5, rfl⟩ := g5
  obtain ⟨p6, rfl⟩ := g6
  obtain ⟨p7, rfl⟩ := g7
  obtain ⟨p8, rfl⟩ := g8
  unfold bregGuarded
  refine CUB.bind ?_
  unfold bregLoop
  refine CUB.bind (cub_exec ?_)
  unfold cblas_dcopy
  have hs' : (len : Int) < (n : Int) * m := by exact_mod_cast hs
  rw [← List.append_nil (parFor _ _ _ _)]
  refine kub_parFor (len : Int) (by positivity) hs' ?_ []
  rw [run_bind, run_load_ub]
  · rfl
  · rintro ⟨-, h⟩
    rw [Ptr.add_blk, Ptr.add_off, h0, ha.ext.old_len _ (lt_of_lt_of_le hb a1.ext.next_le), a1.ext.old_len _ hb, hl] at h
    omega

/-- False for iteration counts that do not fit an `int`: they are reduced modulo 2³².  With `max_iter = 2³²` no iteration is made: the call succeeds and
returns the noisy image. -/
theorem C101_count_false (hw : s.WF) (hx : "breg_anistropic_TV" ∈ names) (hF : x.Fits) {n m : ℕ} (hn : 2 ≤ n) (hm : 2 ≤ m) (hfit : FitsInt ((n : Int) * m))
    {v : ℕ → F} (hv : HoldsBuf s.mem x.data (n * m) v) (hor : ∀ k < 9, s.oracle (s.calls + k) = true) :
    (∀ (max_iter jac : Int) (c : Int), brAnsTV (F := F) names true x n m lam (max_iter + 4294967296 * c) jac = brAnsTV names true x n m lam max_iter jac) ∧
    ∃ p s', CSpec (brAnsTV names true x n m lam 4294967296 10) s (.array p) s' ∧ HoldsBuf s'.mem p (n * m) v := by
  have key : ∀ (max_iter jac : Int) (c : Int),
      brAnsTV (F := F) names true x n m lam (max_iter + 4294967296 * c) jac = brAnsTV names true x n m lam max_iter jac := by
    intro a b c
    have : toCInt (a + 4294967296 * c) = toCInt a := by unfold toCInt; omega
    unfold brAnsTV
    rw [this]
  refine ⟨key, ?_⟩
  obtain ⟨out, s', h1, -, -, ⟨-, ⟨k, hk, e⟩, -⟩ | ⟨p, rfl, -, h2, h2', h3, h4, K, hK, h5, -⟩⟩ := C101_outcome_partial (lam := lam) (max_iter := 0) (jac := 10)
    hw hx hF hn hm hfit hv (by unfold FitsInt INT_MIN INT_MAX; norm_num) (by unfold FitsInt INT_MIN INT_MAX; norm_num) (by unfold INT_MAX; norm_num)
    (by unfold INT_MAX; norm_num)
  · rw [hor k hk] at e; cases e
  obtain rfl : K = 0 := by simpa using hK
  refine ⟨p, s', ?_, fun i hi hi' => ?_, fun k hk => ?_⟩
  · have := key 0 10 1
    rw [show (0 : Int) + 4294967296 * 1 = 4294967296 by norm_num] at this
    rw [this]
    exact h1
  · constructor
    · rw [Ptr.add_off, h2']; omega
    · rw [Ptr.add_blk, Ptr.add_off, h2', h4, Function.update_self]; omega
  · have hk1 : k / m < n := Nat.div_lt_of_lt_mul (by rwa [mul_comm] at hk)
    have hk2 : k % m < m := Nat.mod_lt _ (by omega)
    have e : k / m * m + k % m = k := Nat.div_add_mod' k m
    have := h5 (k / m) hk1 (k % m) hk2
    rw [e] at this
    rw [this]
    show rowImg m v (k / m) (k % m) = v k
    unfold rowImg
    rw [e]

end

/-- In exact arithmetic, with such a library, a finite image, `lam > 0` and at least ten inner sweeps: there is a sequence of images `u 0, u 1, …`, which does not
depend on the state or the number of iterations, converging to the minimiser of the documented objective, and the array returned is one of `u 0 … u max_iter`. -/
theorem C101_denoises {names : List String} (hx : "breg_anistropic_TV" ∈ names) {n m : ℕ} (hn : 2 ≤ n) (hm : 2 ≤ m) (hfit : FitsInt ((n : Int) * m)) {lam : ℝ}
    (hlam : 0 < lam) (v : ℕ → ℝ) {jac : Int} (hj0 : 10 ≤ jac) (hj : jac < INT_MAX) :
    ∃ (us : Img) (u : ℕ → Img), (∀ w, tvObj n m lam (fun i j => v (i * m + j)) us + lam / 2 * dist2 n m w us ≤ tvObj n m lam (fun i j => v (i * m + j)) w) ∧
      Filter.Tendsto (fun K => dist2 n m (u K) us) Filter.atTop (nhds 0) ∧
      ∀ (s : PState Dbl) (x : NdArr) (max_iter : Int), s.WF → x.Fits → HoldsBuf s.mem x.data (n * m) (fun k => Dbl.fin (v k)) → 0 ≤ max_iter → max_iter < INT_MAX →
        (∀ k < 9, s.oracle (s.calls + k) = true) →
        ∃ (p : Ptr) (s' : PState Dbl) (K : ℕ), CSpec (brAnsTV names true x n m (Dbl.fin lam) max_iter jac) s (.array p) s' ∧ (K : Int) ≤ max_iter ∧ HoldsImg s'.mem p n m (u K) := by
  obtain ⟨us, bx, bY, hS⟩ := saddle_exists n m hlam (by linarith : 0 < 2 * lam) fun i j => v (i * m + j)
  have hsum : ∀ K, ∑ k ∈ Finset.range K, dist2 n m (bregIterR n m lam (2 * lam) jac.toNat (fun i j => v (i * m + j)) (k + 1)).u us ≤
      tvBudget n m lam fun i j => v (i * m + j) := fun K => (err_sum hlam (by omega) hS K).trans (start_bound hlam hS)
  refine ⟨us, fun K => (bregIterR n m lam (2 * lam) jac.toNat (fun i j => v (i * m + j)) K).u, hS.strong, ?_, ?_⟩
  · rw [← Filter.tendsto_add_atTop_iff_nat 1]
    exact (summable_of_sum_range_le (fun k => normSq2_nonneg n m _) hsum).tendsto_atTop_zero
  · intro s x max_iter hw hF hv h0 hmax hor
    have hjf : FitsInt jac := ⟨by unfold INT_MIN; omega, hj.le⟩
    obtain ⟨out, s', h1, -, -, ⟨-, ⟨k, hk, e⟩, -⟩ | ⟨p, rfl, -, h2, h2', h3, h4, K, hK, h5, -⟩⟩ := C101_outcome_partial (lam := Dbl.fin lam) (max_iter := max_iter) (jac := jac)
      hw hx hF hn hm hfit hv ⟨by unfold INT_MIN; omega, hmax.le⟩ hjf hmax hj
    · rw [hor k hk] at e; cases e
    have e2 : (lit 2 : Dbl) * Dbl.fin lam = Dbl.fin (2 * lam) := by rw [Dbl.lit_eq, Dbl.fin_mul]; norm_num
    rw [e2] at h5
    have hit := iter_fin (lam := 2 * lam) hn hm hlam (by linarith) jac.toNat (f := fun i j => v (i * m + j)) (fF := rowImg m fun k => Dbl.fin (v k))
      (fun _ _ _ _ => rfl) K
    refine ⟨p, s', K, h1, by omega, fun i hi hi' => ?_, fun i hi j hj' => ?_⟩
    · constructor
      · rw [Ptr.add_off, h2']; omega
      · rw [Ptr.add_blk, Ptr.add_off, h2', h4, Function.update_self]; omega
    · exact (h5 i hi j hj').trans (hit.u i hi j hj')

/-! ### the hypotheses can be met -/

/-- a library with the name, a 2×3 image of the numbers 0…5, and the caller's state -/
example : ∃ p s' K u, CSpec (brAnsTV ["breg_anistropic_TV"] true ⟨true, 1, true, ⟨0, 0⟩⟩ 2 3 (Dbl.fin 1) 50 10) (demoP 2 3) (.array p) s' ∧ (K : ℕ) ≤ 50 ∧
    HoldsImg s'.mem p 2 3 u := by
  obtain ⟨us, u, -, -, h⟩ := C101_denoises (names := ["breg_anistropic_TV"]) (by simp) (n := 2) (m := 3) le_rfl (by norm_num)
    (by unfold FitsInt INT_MAX INT_MIN; norm_num) one_pos (fun k => (k : ℝ)) (jac := 10) le_rfl (by unfold INT_MAX; norm_num)
  obtain ⟨p, s', K, h1, h2, h3⟩ := h (demoP 2 3) ⟨true, 1, true, ⟨0, 0⟩⟩ 50 (demoP_ok 2 3).1 ⟨rfl, rfl, rfl⟩
    ⟨fun i h0 h1 => ⟨by simpa using h0, by simpa [demoP] using h1⟩, fun k _ => by simp [demoP]⟩ (by norm_num) (by unfold INT_MAX; norm_num) (fun _ _ => rfl)
  exact ⟨p, s', K, u K, h1, by omega, h3⟩

/-- an array of six numbers declared as an image of 3×3 pixels -/
example : CUB (brAnsTV ["breg_anistropic_TV"] true ⟨true, 1, true, ⟨0, 0⟩⟩ 3 3 (Dbl.fin 1) 50 10) (demoP 2 3) :=
  C101_short_false (n := 3) (m := 3) (demoP_ok 2 3).1 (by simp) ⟨rfl, rfl, rfl⟩ (by unfold FitsInt INT_MAX INT_MIN; norm_num)
    (by unfold FitsInt INT_MAX INT_MIN; norm_num) (by unfold FitsInt INT_MAX INT_MIN; norm_num) (len := 6) rfl rfl (by show 0 < 2; norm_num) (by norm_num) (fun _ _ => rfl) 50 10

end L1c
