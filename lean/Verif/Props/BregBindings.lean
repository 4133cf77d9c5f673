import Verif.Proofs.BregBindings
import Verif.Props.Bregman
import Verif.Props.Bindings

/-!
# C56, C63: TV denoising from Matlab and Python
-/

namespace L1c
open Prog Scalar

section
variable {F : Type} [Scalar F]

theorem fits_factor {n m : ℕ} (hm : 0 < m) (h : FitsInt ((n : Int) * m)) : (n : Int) ≤ INT_MAX := by
  have : (n : Int) * 1 ≤ (n : Int) * m := mul_le_mul_of_nonneg_left (by omega) (by omega)
  have := h.2
  omega

theorem toCInt_pair {n m : ℕ} (hn : 3 ≤ n) (hm : 3 ≤ m) (h : FitsInt ((n : Int) * m)) : toCInt (n : Int) = n ∧ toCInt (m : Int) = m :=
  ⟨toCInt_small (fits_factor (by omega) h), toCInt_small (fits_factor (m := n) (by omega) (by rwa [mul_comm]))⟩

theorem breg_parse_size {nlhs : ℕ} {img : MxHdr} {prhs : List (MxVal F)} {x : F × F × Int} (h : (breg_mex_parse nlhs img prhs).run = some (.ok x)) :
    1 ≤ nlhs ∧ img.isDouble = true ∧ 3 ≤ img.M ∧ 3 ≤ img.N ∧ img.dims ≤ 2 := by
  unfold breg_mex_parse at h
  split at h
  · by_cases h1 : nlhs < 1
    · rw [if_pos h1] at h; cases h
    rw [if_neg h1] at h
    by_cases h2 : ¬ img.isDouble = true
    · rw [if_pos h2] at h; cases h
    rw [if_neg h2] at h
    by_cases h3 : img.M = 0 ∨ img.N = 0
    · rw [if_pos h3] at h; cases h
    rw [if_neg h3] at h
    by_cases h4 : img.M = 1 ∧ img.N = 1
    · rw [if_pos h4] at h; cases h
    rw [if_neg h4] at h
    by_cases h5 : 2 < img.dims
    · rw [if_pos h5] at h; cases h
    rw [if_neg h5] at h
    by_cases h6 : img.M < 3 ∨ img.N < 3
    · rw [if_pos h6] at h; cases h
    exact ⟨by omega, not_not.1 h2, by omega, by omega, by omega⟩
  · cases h

/-- **C56**, Matlab: with at least one output, the argument lists that pass the checks are exactly the good ones, with the values
in this order. -/
theorem C56_arguments {nlhs : ℕ} (hn : 1 ≤ nlhs) {img : MxHdr} {prhs : List (MxVal F)} {mu tol : F} {max_iter : Int} :
    (breg_mex_parse nlhs img prhs).run = some (.ok (mu, tol, max_iter)) ↔ BregMexGood img prhs mu tol max_iter := by
  constructor
  · intro h
    obtain ⟨-, g2, g3, g4, g5⟩ := breg_parse_size h
    refine ⟨⟨g2, g3, g4, g5⟩, ?_⟩
    unfold breg_mex_parse at h
    split at h
    · rename_i a1 a2 a3 rest
      rw [if_neg (by omega), if_neg (by simp [g2]), if_neg (by omega), if_neg (by omega), if_neg (by omega), if_neg (by omega)] at h
      obtain ⟨m, h1, h⟩ := mexBind_ok h
      obtain ⟨t, h2, h⟩ := mexBind_ok h
      obtain ⟨k, h3, h⟩ := mexBind_ok h
      obtain ⟨ki, h4, h⟩ := mexBind_ok h
      cases h
      exact ⟨a1, a2, a3, rest, k, rfl, mexScalar_ok h1, mexScalar_ok h2, mexScalar_ok h3, mexLift_ok h4⟩
    · cases h
  · rintro ⟨⟨g2, g3, g4, g5⟩, a1, a2, a3, rest, k, rfl, h1, h2, h3, h4⟩
    unfold breg_mex_parse
    dsimp only
    rw [if_neg (by omega), if_neg (by simp [g2]), if_neg (by omega), if_neg (by omega), if_neg (by omega), if_neg (by omega),
      mexScalar_eq h1, pure_bind, mexScalar_eq h2, pure_bind, mexScalar_eq h3, pure_bind, mexLift_eq h4, pure_bind]
    rfl

variable {s : PState F} (hw : s.WF)
include hw

/-- What the Matlab function does with a good argument list, an image whose size fits an `int`, and `max_iter` below `INT_MAX`,
when its two buffers are allocated: it is defined, frees what it allocated and changes nothing of the caller's; it returns no value
exactly when the library runs out of memory; otherwise it returns a matrix with rows and columns SWAPPED, holding what the library
computes for the `rows` by `cols` image whose pixel in row `r`, column `c` is the number `r*cols + c` of the caller's storage
(Matlab keeps that pixel at `c*rows + r`). -/
theorem C56_outcome_partial {nlhs : ℕ} {img : MxHdr} {prhs : List (MxVal F)} {mu tol : F} {max_iter : Int}
    (hp : (breg_mex_parse nlhs img prhs).run = some (.ok (mu, tol, max_iter))) (hfit : FitsInt ((img.M : Int) * img.N)) {f : Ptr} {v : ℕ → F}
    (hf : HoldsBuf s.mem f (img.M * img.N) v) (hmax : max_iter < INT_MAX) (h0 : s.oracle s.calls = true) (h1 : s.oracle (s.calls + 1) = true) :
    ∃ r s', CSpec (breg_mex nlhs img f prhs) s r s' ∧ s'.live = s.live ∧ s'.mem.len = s.mem.len ∧
      (∀ p : Ptr, p.blk < s.next → s'.mem.val p = s.mem.val p) ∧
      ((r = .null ∧ ∃ k < 8, s.oracle (s.calls + 2 + k) = false) ∨
       ∃ data, r = .ret img.N img.M data ∧ (∀ k < 8, s.oracle (s.calls + 2 + k) = true) ∧
         LibraryResult img.M img.N mu tol max_iter 1 v data ∧
         ∃ K ≤ max_iter.toNat, (K = max_iter.toNat ∨ 0 < K) ∧ ∀ i < img.M, ∀ j < img.N,
          data[i * img.N + j]? = some ((bregIter img.M img.N mu (lit 2 * mu) 1 (rowImg img.N v) K).u i j)) := by
  obtain ⟨-, -, hn, hm, -⟩ := breg_parse_size hp
  obtain ⟨c1, c2⟩ := toCInt_pair hn hm hfit
  obtain ⟨a1, a2, s3, st, i, s4, s5, s6, g1, g2, g3, g4, g5, g6, g7, g8, g9⟩ :=
    denoise_core (mu := mu) (tol := tol) hw hn hm hfit hf h0 h1 hmax (by unfold INT_MAX; norm_num : (1 : Int) < INT_MAX)
  have hnm : ((img.M : Int) * img.N).toNat = img.M * img.N := by rw [← Int.natCast_mul]; rfl
  have hrun : ∀ {r : BregOut F}, CSpec (if st ≠ 0 then do
        Cmd.freeC (some ⟨s.next, 0⟩)
        Cmd.freeC (some ⟨s.next + 1, 0⟩)
        pure BregOut.null
      else do
        let data ← readBuf ⟨s.next + 1, 0⟩ (img.M * img.N)
        Cmd.freeC (some ⟨s.next, 0⟩)
        Cmd.freeC (some ⟨s.next + 1, 0⟩)
        pure (.ret img.N img.M data)) s4 r s6 → CSpec (breg_mex nlhs img f prhs) s r s6 := by
    intro r hr
    unfold breg_mex
    rw [hp]
    dsimp only
    unfold breg_mex_main
    dsimp only
    rw [c1, c2]
    refine CSpec.bind (cspec_need hfit s) ?_
    refine CSpec.bind (cspec_calloc _ s) ?_
    refine CSpec.bind (cspec_calloc _ _) ?_
    rw [a1, a2]
    dsimp only
    refine CSpec.bind g1 ?_
    refine CSpec.bind g2 ?_
    rw [hnm]
    exact hr
  rcases g9 with ⟨rfl, g9⟩ | ⟨rfl, g9, K, g10, gK, g11, g12⟩
  · refine ⟨.null, s6, hrun ?_, g6, g7, g8, Or.inl ⟨rfl, g9⟩⟩
    rw [if_pos (by unfold L1C_OUT_OF_MEMORY; norm_num)]
    exact CSpec.bind (cspec_free g4) (CSpec.bind (cspec_free g5) (.done _ _))
  · refine ⟨.ret img.N img.M (bufList s4 ⟨s.next + 1, 0⟩ (img.M * img.N)), s6, hrun ?_, g6, g7, g8, Or.inr ⟨_, rfl, g9, g11, K, g10, gK.imp_right And.left, g12⟩⟩
    rw [if_neg (by norm_num)]
    exact CSpec.bind (cspec_readBuf g3) (CSpec.bind (cspec_free g4) (CSpec.bind (cspec_free g5) (.done _ _)))

/-- Every value returned has rows and columns swapped: for an image that is not square the result never has the image's shape. -/
theorem C56_shape_false {nlhs : ℕ} {img : MxHdr} {prhs : List (MxVal F)} {mu tol : F} {max_iter : Int}
    (hp : (breg_mex_parse nlhs img prhs).run = some (.ok (mu, tol, max_iter))) (hfit : FitsInt ((img.M : Int) * img.N)) {f : Ptr} {v : ℕ → F}
    (hf : HoldsBuf s.mem f (img.M * img.N) v) (hmax : max_iter < INT_MAX) (h0 : s.oracle s.calls = true) (h1 : s.oracle (s.calls + 1) = true)
    (h8 : ∀ k < 8, s.oracle (s.calls + 2 + k) = true) (hne : img.M ≠ img.N) :
    ∃ a b data s', CSpec (breg_mex nlhs img f prhs) s (.ret a b data) s' ∧ a = img.N ∧ b = img.M ∧ ¬ (a = img.M ∧ b = img.N) := by
  obtain ⟨r, s', g1, -, -, -, ⟨-, k, hk, e⟩ | ⟨data, rfl, -⟩⟩ := C56_outcome_partial hw hp hfit hf hmax h0 h1
  · rw [h8 k hk] at e; cases e
  · exact ⟨_, _, data, s', g1, rfl, rfl, fun h => hne (by have := h.1; omega)⟩

/-- When the second buffer cannot be allocated the call reports an error, but the first buffer is never released. -/
theorem C56_leak_false {nlhs : ℕ} {img : MxHdr} {prhs : List (MxVal F)} {mu tol : F} {max_iter : Int}
    (hp : (breg_mex_parse nlhs img prhs).run = some (.ok (mu, tol, max_iter))) (hfit : FitsInt ((img.M : Int) * img.N)) (f : Ptr)
    (h0 : s.oracle s.calls = true) (h1 : s.oracle (s.calls + 1) = false) :
    ∃ s', CSpec (breg_mex nlhs img f prhs) s (.error "l1c:l1qc_dct:outofmemory") s' ∧ s.live s.next = false ∧ s'.live s.next = true := by
  obtain ⟨-, -, hn, hm, -⟩ := breg_parse_size hp
  obtain ⟨c1, c2⟩ := toCInt_pair hn hm hfit
  have e1 := calloc_ok (s := s) (N := (img.M : Int) * img.N) h0 (by positivity)
  have e2 := calloc_no (s := (s.calloc ((img.M : Int) * img.N)).2) (N := (img.M : Int) * img.N) (by rw [e1]; exact h1)
  refine ⟨((s.calloc ((img.M : Int) * img.N)).2.calloc ((img.M : Int) * img.N)).2, ?_, (hw _ le_rfl).1, ?_⟩
  · unfold breg_mex
    rw [hp]
    dsimp only
    unfold breg_mex_main
    dsimp only
    rw [c1, c2]
    refine CSpec.bind (cspec_need hfit s) ?_
    refine CSpec.bind (cspec_calloc _ s) ?_
    refine CSpec.bind (cspec_calloc _ _) ?_
    rw [e2]
    cases (s.calloc ((img.M : Int) * img.N)).1 <;> exact .done _ _
  · rw [e2, e1]
    show Function.update s.live s.next true s.next = true
    rw [Function.update_self]

omit hw in
/-- A bad argument list is an error and nothing happens. -/
theorem C56_rejects {nlhs : ℕ} {img : MxHdr} (h : nlhs < 1 ∨ img.isDouble = false ∨ img.M < 3 ∨ img.N < 3 ∨ 2 < img.dims) (f : Ptr) (prhs : List (MxVal F)) :
    ∃ id, CSpec (breg_mex nlhs img f prhs) s (.error id) s := by
  have key : ∃ id, (breg_mex_parse nlhs img prhs).run = some (.error id) := by
    unfold breg_mex_parse
    split
    · by_cases h1 : nlhs < 1
      · rw [if_pos h1]; exact ⟨_, rfl⟩
      rw [if_neg h1]
      by_cases h2 : ¬ img.isDouble = true
      · rw [if_pos h2]; exact ⟨_, rfl⟩
      rw [if_neg h2]
      by_cases h3 : img.M = 0 ∨ img.N = 0
      · rw [if_pos h3]; exact ⟨_, rfl⟩
      rw [if_neg h3]
      by_cases h4 : img.M = 1 ∧ img.N = 1
      · rw [if_pos h4]; exact ⟨_, rfl⟩
      rw [if_neg h4]
      by_cases h5 : 2 < img.dims
      · rw [if_pos h5]; exact ⟨_, rfl⟩
      rw [if_neg h5]
      by_cases h6 : img.M < 3 ∨ img.N < 3
      · rw [if_pos h6]; exact ⟨_, rfl⟩
      rcases h with h | h | h | h | h
      · exact absurd h h1
      · rw [h] at h2; exact absurd (by simp) h2
      · exact absurd (Or.inl h) h6
      · exact absurd (Or.inr h) h6
      · exact absurd h h5
    · exact ⟨_, rfl⟩
  obtain ⟨id, e⟩ := key
  refine ⟨id, ?_⟩
  unfold breg_mex
  rw [e]
  exact .done _ _

omit hw in
/-- An image whose number of pixels does not fit an `int` gives undefined behaviour. -/
theorem C56_overflow_false {nlhs : ℕ} {img : MxHdr} {prhs : List (MxVal F)} {mu tol : F} {max_iter : Int}
    (hp : (breg_mex_parse nlhs img prhs).run = some (.ok (mu, tol, max_iter))) (hM : (img.M : Int) ≤ INT_MAX) (hN : (img.N : Int) ≤ INT_MAX)
    (hfit : ¬ FitsInt ((img.M : Int) * img.N)) (f : Ptr) : CUB (breg_mex nlhs img f prhs) s := by
  unfold breg_mex
  rw [hp]
  dsimp only
  unfold breg_mex_main
  dsimp only
  rw [toCInt_small hM, toCInt_small hN]
  exact CUB.bind (cub_need hfit s)

/-! ## C63 -/

/-- What the Python function does with a two-dimensional array of at least 3 by 3 numbers whose size fits an `int`, when its two buffers
are allocated: it is defined, frees what it allocated, changes nothing of the caller's, and either raises an exception, which happens
exactly when memory runs out, or returns an array of the same shape holding what the library computes for that image. -/
theorem C63_outcome_partial {n m : ℕ} (hn : 3 ≤ n) (hm : 3 ≤ m) (hfit : FitsInt ((n : Int) * m)) {f : Ptr} {v : ℕ → F}
    (hf : HoldsBuf s.mem f (n * m) v) (mu tol : F) {max_iter jac : Int} (hmax : max_iter < INT_MAX) (hj : jac < INT_MAX) (copied : Bool)
    (h0 : s.oracle s.calls = true) (h1 : s.oracle (s.calls + 1) = true) :
    ∃ r s', CSpec (py_breg 2 n m f mu tol max_iter jac copied) s r s' ∧ s'.live = s.live ∧ s'.mem.len = s.mem.len ∧
      (∀ p : Ptr, p.blk < s.next → s'.mem.val p = s.mem.val p) ∧
      ((r = .error "MemoryError" ∧ ((∃ k < 8, s.oracle (s.calls + 2 + k) = false) ∨ copied = false)) ∨
       ∃ data, r = .ret n m data ∧ (∀ k < 8, s.oracle (s.calls + 2 + k) = true) ∧ copied = true ∧
         LibraryResult n m mu tol max_iter jac v data ∧
         ∃ K ≤ max_iter.toNat, (K = max_iter.toNat ∨ 0 < K) ∧ ∀ i < n, ∀ j < m,
          data[i * m + j]? = some ((bregIter n m mu (lit 2 * mu) jac.toNat (rowImg m v) K).u i j)) := by
  obtain ⟨c1, c2⟩ := toCInt_pair hn hm hfit
  obtain ⟨a1, a2, s3, st, i, s4, s5, s6, g1, g2, g3, g4, g5, g6, g7, g8, g9⟩ := denoise_core (mu := mu) (tol := tol) hw hn hm hfit hf h0 h1 hmax hj
  have hnm : ((n : Int) * m).toNat = n * m := by rw [← Int.natCast_mul]; rfl
  have hrun : ∀ {r : BregOut F}, CSpec (if st ≠ 0 then do
        Cmd.freeC (some ⟨s.next, 0⟩)
        Cmd.freeC (some ⟨s.next + 1, 0⟩)
        pure (BregOut.error "MemoryError")
      else if ¬ copied then do
        Cmd.freeC (some ⟨s.next, 0⟩)
        Cmd.freeC (some ⟨s.next + 1, 0⟩)
        pure (.error "MemoryError")
      else do
        let data ← readBuf ⟨s.next + 1, 0⟩ (n * m)
        Cmd.freeC (some ⟨s.next, 0⟩)
        Cmd.freeC (some ⟨s.next + 1, 0⟩)
        pure (.ret n m data)) s4 r s6 → CSpec (py_breg 2 n m f mu tol max_iter jac copied) s r s6 := by
    intro r hr
    unfold py_breg
    rw [if_neg (fun h => h rfl)]
    dsimp only
    rw [c1, c2, if_neg (by omega)]
    refine CSpec.bind (cspec_need hfit s) ?_
    refine CSpec.bind (cspec_calloc _ s) ?_
    refine CSpec.bind (cspec_calloc _ _) ?_
    rw [a1, a2]
    dsimp only
    refine CSpec.bind g1 ?_
    refine CSpec.bind g2 ?_
    rw [hnm]
    exact hr
  rcases g9 with ⟨rfl, g9⟩ | ⟨rfl, g9, K, g10, gK, g11, g12⟩
  · refine ⟨.error "MemoryError", s6, hrun ?_, g6, g7, g8, Or.inl ⟨rfl, Or.inl g9⟩⟩
    rw [if_pos (by unfold L1C_OUT_OF_MEMORY; norm_num)]
    exact CSpec.bind (cspec_free g4) (CSpec.bind (cspec_free g5) (.done _ _))
  · cases copied
    · refine ⟨.error "MemoryError", s6, hrun ?_, g6, g7, g8, Or.inl ⟨rfl, Or.inr rfl⟩⟩
      rw [if_neg (by norm_num), if_pos (by simp)]
      exact CSpec.bind (cspec_free g4) (CSpec.bind (cspec_free g5) (.done _ _))
    · refine ⟨.ret n m (bufList s4 ⟨s.next + 1, 0⟩ (n * m)), s6, hrun ?_, g6, g7, g8, Or.inr ⟨_, rfl, g9, rfl, g11, K, g10, gK.imp_right And.left, g12⟩⟩
      rw [if_neg (by norm_num), if_neg (by simp)]
      exact CSpec.bind (cspec_readBuf g3) (CSpec.bind (cspec_free g4) (CSpec.bind (cspec_free g5) (.done _ _)))

omit hw in
/-- Arrays that do not have two dimensions, or are smaller than 3 by 3, are refused with an exception; nothing happens. -/
theorem C63_rejects {ndim n m : ℕ} (hN : (n : Int) ≤ INT_MAX) (hM : (m : Int) ≤ INT_MAX) (h : ndim ≠ 2 ∨ n < 3 ∨ m < 3) (f : Ptr) (mu tol : F)
    (max_iter jac : Int) (copied : Bool) : ∃ id, CSpec (py_breg ndim n m f mu tol max_iter jac copied) s (.error id) s := by
  unfold py_breg
  by_cases h1 : ndim ≠ 2
  · rw [if_pos h1]; exact ⟨_, .done _ _⟩
  · rw [if_neg h1]
    dsimp only
    rw [toCInt_small hN, toCInt_small hM, if_pos (by rcases h with h | h | h; exacts [absurd h h1, Or.inl (by omega), Or.inr (by omega)])]
    exact ⟨_, .done _ _⟩

/-- When exactly one of the two buffers can be allocated the call raises an exception, but that buffer is never released. -/
theorem C63_leak_false {n m : ℕ} (hn : 3 ≤ n) (hm : 3 ≤ m) (hfit : FitsInt ((n : Int) * m)) (f : Ptr) (mu tol : F) (max_iter jac : Int)
    (copied : Bool) (h : s.oracle s.calls ≠ s.oracle (s.calls + 1)) :
    ∃ s', CSpec (py_breg 2 n m f mu tol max_iter jac copied) s (.error "MemoryError") s' ∧ s.live s.next = false ∧ s'.live s.next = true := by
  obtain ⟨c1, c2⟩ := toCInt_pair hn hm hfit
  have hpos : (0 : Int) ≤ (n : Int) * m := by positivity
  refine ⟨((s.calloc ((n : Int) * m)).2.calloc ((n : Int) * m)).2, ?_, (hw _ le_rfl).1, ?_⟩
  · unfold py_breg
    rw [if_neg (fun h => h rfl)]
    dsimp only
    rw [c1, c2, if_neg (by omega)]
    refine CSpec.bind (cspec_need hfit s) ?_
    refine CSpec.bind (cspec_calloc _ s) ?_
    refine CSpec.bind (cspec_calloc _ _) ?_
    cases h0 : s.oracle s.calls
    · rw [calloc_no h0]; exact .done _ _
    · rw [h0] at h
      rw [calloc_no (s := (s.calloc ((n : Int) * m)).2) (by rw [calloc_ok h0 hpos]; exact (Bool.eq_false_iff.2 h.symm))]
      cases (s.calloc ((n : Int) * m)).1 <;> exact .done _ _
  · cases h0 : s.oracle s.calls
    · rw [h0] at h
      rw [calloc_no h0, calloc_ok (by exact (Bool.eq_true_of_not_eq_false h.symm)) hpos]
      show Function.update s.live s.next true s.next = true
      rw [Function.update_self]
    · rw [h0] at h
      rw [calloc_no (s := (s.calloc ((n : Int) * m)).2) (by rw [calloc_ok h0 hpos]; exact (Bool.eq_false_iff.2 h.symm)), calloc_ok h0 hpos]
      show Function.update s.live s.next true s.next = true
      rw [Function.update_self]

omit hw in
/-- An array whose number of entries does not fit an `int` gives undefined behaviour. -/
theorem C63_overflow_false {n m : ℕ} (hn : 3 ≤ n) (hm : 3 ≤ m) (hN : (n : Int) ≤ INT_MAX) (hM : (m : Int) ≤ INT_MAX) (hfit : ¬ FitsInt ((n : Int) * m))
    (f : Ptr) (mu tol : F) (max_iter jac : Int) (copied : Bool) : CUB (py_breg 2 n m f mu tol max_iter jac copied) s := by
  unfold py_breg
  rw [if_neg (fun h => h rfl)]
  dsimp only
  rw [toCInt_small hN, toCInt_small hM, if_neg (by omega)]
  exact CUB.bind (cub_need hfit s)

end

/-! ## real numbers -/

/-- For which shapes reading Matlab's storage row by row leaves the denoising problem unchanged: exactly the square ones. -/
theorem C56_objective_iff {rows cols : ℕ} (hr : 2 ≤ rows) (hc : 2 ≤ cols) (mu : ℝ) :
    (∀ f u : ℕ → ℝ, tvObj rows cols mu (rowImg cols f) (rowImg cols u) = tvObj rows cols mu (matImg rows f) (matImg rows u)) ↔ rows = cols := by
  constructor
  · intro h
    by_contra hne
    set k := min rows cols - 1 with hk
    set d : ℕ → ℝ := fun i => if i = k then 1 else 0 with hd
    have h := h d d
    have hkr : k < rows := by omega
    have hkc : k < cols := by omega
    rw [tv_delta (i0 := 0) (j0 := k) (by omega) hkc, tv_delta (i0 := k) (j0 := 0) hkr (by omega)] at h
    · rw [if_pos (by omega : 0 < k), if_neg (lt_irrefl 0), if_pos (by omega : 0 + 1 < rows), if_pos (by omega : 0 + 1 < cols)] at h
      by_cases hlt : rows < cols
      · rw [if_pos (by omega : k + 1 < cols), if_neg (by omega : ¬ k + 1 < rows)] at h
        norm_num at h
      · rw [if_neg (by omega : ¬ k + 1 < cols), if_pos (by omega : k + 1 < rows)] at h
        norm_num at h
    · intro i hi j hj
      show (if j * rows + i = k then (1 : ℝ) else 0) = _
      by_cases hj0 : j = 0
      · subst hj0; simp
      · have : 1 * rows ≤ j * rows := Nat.mul_le_mul_right _ (by omega)
        rw [if_neg (by omega), if_neg (fun c => hj0 c.2)]
    · intro i hi j hj
      show (if i * cols + j = k then (1 : ℝ) else 0) = _
      by_cases hi0 : i = 0
      · subst hi0; simp
      · have : 1 * cols ≤ i * cols := Nat.mul_le_mul_right _ (by omega)
        rw [if_neg (by omega), if_neg (fun c => hi0 c.1)]
  · rintro rfl f u
    exact tvObj_transpose rows mu (matImg rows f) (matImg rows u)

/-- With real data and `mu > 0`: whenever Python gets an array back its entries are real numbers, and a constant image comes back unchanged. -/
theorem C63_finite_and_constant {s : PState Dbl} (hw : s.WF) {n m : ℕ} (hn : 3 ≤ n) (hm : 3 ≤ m) (hfit : FitsInt ((n : Int) * m)) {f : Ptr} {v : ℕ → ℝ}
    (hf : HoldsBuf s.mem f (n * m) fun k => Dbl.fin (v k)) {mu : ℝ} (hmu : 0 < mu) (tol : Dbl) {max_iter jac : Int} (hmax : max_iter < INT_MAX)
    (hj : jac < INT_MAX) (h : ∀ k < 10, s.oracle (s.calls + k) = true) :
    ∃ data s' u, CSpec (py_breg 2 n m f (Dbl.fin mu) tol max_iter jac true) s (.ret n m data) s' ∧ s'.live = s.live ∧
      (∀ i < n, ∀ j < m, data[i * m + j]? = some (Dbl.fin (u i j))) ∧ ∀ c, (∀ k, v k = c) → ImgEq n m u fun _ _ => c := by
  have h8 : ∀ k < 8, s.oracle (s.calls + 2 + k) = true := fun k hk => by rw [add_assoc]; exact h (2 + k) (by omega)
  obtain ⟨r, s', g1, g2, -, -, ⟨-, ⟨k, hk, e⟩ | e⟩ | ⟨data, rfl, -, -, -, K, -, -, g3⟩⟩ :=
    C63_outcome_partial hw hn hm hfit hf (Dbl.fin mu) tol hmax hj true (h 0 (by norm_num)) (h 1 (by norm_num))
  · rw [h8 k hk] at e; cases e
  · cases e
  · have e2 : (lit 2 : Dbl) * Dbl.fin mu = Dbl.fin (2 * mu) := by rw [Dbl.lit_eq, Dbl.fin_mul]; norm_num
    rw [e2] at g3
    have hit := iter_fin (n := n) (m := m) (lam := 2 * mu) (by omega) (by omega) hmu (by linarith) jac.toNat (f := rowImg m v)
      (fF := rowImg m fun k => Dbl.fin (v k)) (fun _ _ _ _ => rfl) K
    refine ⟨data, s', _, g1, g2, fun i hi j hj => by rw [g3 i hi j hj, hit.u i hi j hj], fun c hc => ?_⟩
    have ev : rowImg m v = fun _ _ => c := by funext i j; exact hc _
    rw [ev]
    exact (const_iter hmu (by linarith) c K).u

/-! ### the hypotheses can be met -/

/-- `mu = 2`, `tol = 3`, `max_iter = 50` -/
noncomputable def exBreg : List (MxVal Dbl) := [.arr (mxNum 2), .arr (mxNum 3), .arr (mxNum 50)]

theorem exBregParse {M N : ℕ} (hM : 3 ≤ M) (hN : 3 ≤ N) : (breg_mex_parse 1 ⟨true, M, N, 2⟩ exBreg).run = some (.ok (Dbl.fin 2, Dbl.fin 3, 50)) := by
  unfold breg_mex_parse exBreg
  dsimp only
  have e0 : mexScalar (.arr (mxNum 2)) = (pure (Dbl.fin 2) : MexP Dbl) := rfl
  have e1 : mexScalar (.arr (mxNum 3)) = (pure (Dbl.fin 3) : MexP Dbl) := rfl
  have e2 : mexScalar (.arr (mxNum 50)) = (pure (Dbl.fin 50) : MexP Dbl) := rfl
  have e3 : mexLift (castInt (Dbl.fin 50)) = (pure 50 : MexP Int) := by
    have := castInt_nat (k := 50) (by decide)
    rw [Nat.cast_ofNat] at this
    rw [this]; rfl
  rw [if_neg (by omega), if_neg (by simp), if_neg (by omega), if_neg (by omega), if_neg (by omega), if_neg (by omega), e0, e1, e2]
  simp only [pure_bind, e3]
  rfl

theorem demoP_buf (n m : ℕ) : HoldsBuf (demoP n m).mem ⟨1, 0⟩ (n * m) fun k => Dbl.fin (k : ℝ) :=
  ⟨(demoP_ok n m).2.2.1.1, fun k _ => by simp [demoP]⟩

/-- a 3 by 4 image passed from Matlab comes back as a 4 by 3 one -/
example : ∃ a b data s', CSpec (breg_mex 1 ⟨true, 3, 4, 2⟩ ⟨1, 0⟩ exBreg) (demoP 3 4) (.ret a b data) s' ∧ a = (4 : ℕ) ∧ b = (3 : ℕ) ∧
    ¬ (a = (3 : ℕ) ∧ b = (4 : ℕ)) :=
  C56_shape_false (img := ⟨true, 3, 4, 2⟩) (demoP_ok 3 4).1 (exBregParse (by norm_num) (by norm_num)) (by unfold FitsInt INT_MAX INT_MIN; norm_num)
    (demoP_buf 3 4) (by unfold INT_MAX; norm_num) rfl rfl (fun _ _ => rfl) (by norm_num)

/-- the second allocation is refused -/
example : ∃ s', CSpec (breg_mex 1 ⟨true, 3, 4, 2⟩ ⟨1, 0⟩ exBreg) { demoP 3 4 with oracle := fun k => k == 0 } (.error "l1c:l1qc_dct:outofmemory") s' ∧
    s'.live 2 = true :=
  let ⟨s', h, _, g⟩ := C56_leak_false (s := { demoP 3 4 with oracle := fun k => k == 0 }) (img := ⟨true, 3, 4, 2⟩) (demoP_ok 3 4).1
    (exBregParse (by norm_num) (by norm_num)) (by unfold FitsInt INT_MAX INT_MIN; norm_num) ⟨1, 0⟩ rfl rfl
  ⟨s', h, g⟩

/-- an image of 50000 by 50000 pixels -/
example : CUB (breg_mex 1 ⟨true, 50000, 50000, 2⟩ ⟨1, 0⟩ exBreg) (demoP 50000 50000) :=
  C56_overflow_false (img := ⟨true, 50000, 50000, 2⟩) (exBregParse (by norm_num) (by norm_num)) (by unfold INT_MAX; norm_num) (by unfold INT_MAX; norm_num)
    (by unfold FitsInt INT_MAX INT_MIN; norm_num) _

/-- a 3 by 4 array passed from Python -/
example : ∃ (data : List Dbl) (s' : PState Dbl) (u : Img), CSpec (py_breg 2 3 4 ⟨1, 0⟩ (Dbl.fin 2) (Dbl.fin (1/8)) 50 2 true) (demoP 3 4) (.ret (3 : ℕ) (4 : ℕ) data) s' ∧
    ∀ i < 3, ∀ j < 4, data[i * 4 + j]? = some (Dbl.fin (u i j)) :=
  let ⟨data, s', u, h1, _, h2, _⟩ := C63_finite_and_constant (demoP_ok 3 4).1 (n := 3) (m := 4) (by norm_num) (by norm_num)
    (by unfold FitsInt INT_MAX INT_MIN; norm_num) (demoP_buf 3 4) two_pos (Dbl.fin (1/8)) (max_iter := 50) (jac := 2)
    (by unfold INT_MAX; norm_num) (by unfold INT_MAX; norm_num) (fun _ _ => rfl)
  ⟨data, s', u, h1, h2⟩

example : ∃ s', CSpec (py_breg 2 3 4 ⟨1, 0⟩ (Dbl.fin 2) (Dbl.fin 3) 50 2 true) { demoP 3 4 with oracle := fun k => k == 1 } (.error "MemoryError") s' ∧
    s'.live 2 = true :=
  let ⟨s', h, _, g⟩ := C63_leak_false (s := { demoP 3 4 with oracle := fun k => k == 1 }) (demoP_ok 3 4).1 (n := 3) (m := 4) (by norm_num) (by norm_num)
    (by unfold FitsInt INT_MAX INT_MIN; norm_num) ⟨1, 0⟩ (Dbl.fin 2) (Dbl.fin 3) 50 2 true (by decide)
  ⟨s', h, g⟩

/-- `C56_rejects`, `C63_rejects`: an image of two rows; `C63_overflow_false`: an image whose number of pixels is no `int`. -/
example : ∃ id, CSpec (breg_mex 1 ⟨true, 2, 4, 2⟩ ⟨1, 0⟩ exBreg) (demoP 2 4) (.error id) (demoP 2 4) :=
  C56_rejects (Or.inr (Or.inr (Or.inl (by norm_num)))) _ _

example : ∃ id, CSpec (py_breg 2 2 4 ⟨1, 0⟩ (Dbl.fin 2) (Dbl.fin 3) 50 2 true) (demoP 2 4) (.error id) (demoP 2 4) :=
  C63_rejects (by unfold INT_MAX; norm_num) (by unfold INT_MAX; norm_num) (Or.inr (Or.inl (by norm_num))) _ _ _ _ _ _

example : CUB (py_breg 2 50000 50000 ⟨1, 0⟩ (Dbl.fin 2) (Dbl.fin 3) 50 2 true) (demoP 50000 50000) :=
  C63_overflow_false (n := 50000) (m := 50000) (by norm_num) (by norm_num) (by unfold INT_MAX; norm_num) (by unfold INT_MAX; norm_num)
    (by unfold FitsInt INT_MAX INT_MIN; norm_num) _ _ _ _ _ _

end L1c
