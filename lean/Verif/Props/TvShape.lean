import Verif.Proofs.TvShape
import Verif.Props.TvSym

/-!
# What TV denoising keeps of an image (`C86`)

Exact arithmetic, images of at least 2×2 pixels, at least ten inner sweeps per iteration, `tol ≤ 0` (so that `max_iter`
iterations are run).  The statements hold for all but `tvBudget/eps` values of `max_iter`, up to an error given by `eps`.
-/

namespace L1c
open Prog Scalar Finset

variable {n m : ℕ} {mu : ℝ} {jac : Int}

/-- `w` is the image that the call leaves in `uk` -/
def TVReturns (s : PState Dbl) (n m : ℕ) (uk f : Ptr) (mu t : ℝ) (max_iter jac : Int) (w : Img) : Prop :=
  ∃ i s', CSpec (l1c_breg_anistropic_TV n m uk f (Dbl.fin mu) (Dbl.fin t) max_iter jac) s (0, i) s' ∧ HoldsImg s'.mem uk n m w

/-- a value of `max_iter` for which the loop counter does not overflow, outside of the list `bad` -/
def GoodIter (bad : Finset Int) (max_iter : Int) : Prop := 0 < max_iter ∧ max_iter < INT_MAX ∧ max_iter ∉ bad

theorem strong_min_exists (hn : 2 ≤ n) (hm : 2 ≤ m) (hfit : FitsInt ((n : Int) * m)) (hmu : 0 < mu) (f0 : Img) : ∃ us, StrongMin n m mu f0 us := by
  obtain ⟨us, -, h, -⟩ := C73_converges (jac := 10) hn hm hfit hmu f0 le_rfl (by unfold INT_MAX; norm_num)
  exact ⟨us, h⟩

theorem near_min (hn : 2 ≤ n) (hm : 2 ≤ m) (hfit : FitsInt ((n : Int) * m)) (hmu : 0 < mu) {f0 us : Img} (h10 : 10 ≤ jac) (hj : jac < INT_MAX)
    (hus : StrongMin n m mu f0 us) (eps : ℝ) : ∃ bad : Finset Int, (bad.card : ℝ) * eps ≤ tvBudget n m mu f0 ∧
      ∀ s uk f, TVReady s n m uk f f0 → ∀ k, GoodIter bad k → ∀ t ≤ 0, ∃ w, TVReturns s n m uk f mu t k jac w ∧ dist2 n m w us ≤ eps := by
  obtain ⟨bad, h1, h2⟩ := C73_few_inaccurate hn hm hfit hmu f0 h10 hj
    (fun v => by have := hus v; have := mul_nonneg (half_pos hmu).le (dist2_nonneg (n := n) (m := m) v us); linarith) eps
  refine ⟨bad, h1, fun s uk f hr k hk t ht => ?_⟩
  obtain ⟨i, s', w, a, b, c⟩ := h2 s uk f hr k hk.1 hk.2.1 hk.2.2 t ht
  exact ⟨w, ⟨i, s', a, b⟩, c⟩

theorem GoodIter.left {b b' : Finset Int} {k : Int} (h : GoodIter (b ∪ b') k) : GoodIter b k :=
  ⟨h.1, h.2.1, fun hc => h.2.2 (mem_union_left _ hc)⟩

theorem GoodIter.right {b b' : Finset Int} {k : Int} (h : GoodIter (b ∪ b') k) : GoodIter b' k :=
  ⟨h.1, h.2.1, fun hc => h.2.2 (mem_union_right _ hc)⟩

theorem union_card {b b' : Finset Int} {eps x y : ℝ} (he : 0 < eps) (h : (b.card : ℝ) * eps ≤ x) (h' : (b'.card : ℝ) * eps ≤ y) :
    ((b ∪ b').card : ℝ) * eps ≤ x + y := by
  have : ((b ∪ b').card : ℝ) ≤ b.card + b'.card := by exact_mod_cast card_union_le b b'
  nlinarith

/-- The returned image has the average of the noisy image and no pixel leaves the range of the noisy image, up to `eps`. -/
theorem C86_average_and_range (hn : 2 ≤ n) (hm : 2 ≤ m) (hfit : FitsInt ((n : Int) * m)) (hmu : 0 < mu) (f0 : Img)
    (h10 : 10 ≤ jac) (hj : jac < INT_MAX) (eps : ℝ) :
    ∃ bad : Finset Int, (bad.card : ℝ) * eps ≤ tvBudget n m mu f0 ∧
      ∀ s uk f, TVReady s n m uk f f0 → ∀ k, GoodIter bad k → ∀ t ≤ 0, ∃ w, TVReturns s n m uk f mu t k jac w ∧
        |pixelSum n m w - pixelSum n m f0| ≤ √(n * m * eps) ∧
        ∀ lo hi : ℝ, (∀ i < n, ∀ j < m, lo ≤ f0 i j ∧ f0 i j ≤ hi) → ∀ i < n, ∀ j < m, lo - √eps ≤ w i j ∧ w i j ≤ hi + √eps := by
  obtain ⟨us, hus⟩ := strong_min_exists hn hm hfit hmu f0
  obtain ⟨bad, hb, H⟩ := near_min hn hm hfit hmu h10 hj hus eps
  refine ⟨bad, hb, fun s uk f hr k hk t ht => ?_⟩
  obtain ⟨w, hw, hd⟩ := H s uk f hr k hk t ht
  refine ⟨w, hw, ?_, fun lo hi h i hi' j hj' => ?_⟩
  · have := pixelSum_near hd
    rwa [show pixelSum n m us = pixelSum n m f0 from hus.mean hmu] at this
  · have h1 := hus.range hmu h i hi' j hj'
    have h2 := abs_le.1 (pixel_near hd i hi' j hj')
    exact ⟨by linarith, by linarith⟩

/-- Two images: the results are not farther apart than the noisy images, and if one noisy image is nowhere brighter than
the other, so are the results, up to `eps`.  The two calls may use different states, arrays and `max_iter`. -/
theorem C86_two_images (hn : 2 ≤ n) (hm : 2 ≤ m) (hfit : FitsInt ((n : Int) * m)) (hmu : 0 < mu) (f0 g0 : Img)
    (h10 : 10 ≤ jac) (hj : jac < INT_MAX) {eps : ℝ} (he : 0 < eps) :
    ∃ bad : Finset Int, (bad.card : ℝ) * eps ≤ tvBudget n m mu f0 + tvBudget n m mu g0 ∧
      ∀ s uk f s' uk' g, TVReady s n m uk f f0 → TVReady s' n m uk' g g0 → ∀ k k', GoodIter bad k → GoodIter bad k' → ∀ t ≤ 0, ∀ t' ≤ 0,
        ∃ w w', TVReturns s n m uk f mu t k jac w ∧ TVReturns s' n m uk' g mu t' k' jac w' ∧
          √(dist2 n m w w') ≤ √(dist2 n m f0 g0) + 2 * √eps ∧
          ((∀ i < n, ∀ j < m, f0 i j ≤ g0 i j) → ∀ i < n, ∀ j < m, w i j ≤ w' i j + 2 * √eps) := by
  obtain ⟨us, hus⟩ := strong_min_exists hn hm hfit hmu f0
  obtain ⟨vs, hvs⟩ := strong_min_exists hn hm hfit hmu g0
  obtain ⟨b, hb, H⟩ := near_min hn hm hfit hmu h10 hj hus eps
  obtain ⟨b', hb', H'⟩ := near_min hn hm hfit hmu h10 hj hvs eps
  refine ⟨b ∪ b', union_card he hb hb', fun s uk f s' uk' g hr hr' k k' hk hk' t ht t' ht' => ?_⟩
  obtain ⟨w, hw, hd⟩ := H s uk f hr k hk.left t ht
  obtain ⟨w', hw', hd'⟩ := H' s' uk' g hr' k' hk'.right t' ht'
  refine ⟨w, w', hw, hw', ?_, fun hle i hi j hj' => ?_⟩
  · have h1 := dist_triangle (n := n) (m := m) w us w'
    have h2 := dist_triangle (n := n) (m := m) us vs w'
    have h3 := Real.sqrt_le_sqrt (hus.nonexpansive hmu hvs)
    have h4 := Real.sqrt_le_sqrt hd
    rw [dist2_comm] at hd'
    have h5 := Real.sqrt_le_sqrt hd'
    linarith
  · have h1 := hus.mono hmu hvs hle i hi j hj'
    have h2 := abs_le.1 (pixel_near hd i hi j hj')
    have h3 := abs_le.1 (pixel_near hd' i hi j hj')
    linarith

theorem turned {n' m' : ℕ} {σ τ : Img → Img} (hT : Turn n m n' m' σ τ) (hs : n' * m' = n * m)
    (hn : 2 ≤ n) (hm : 2 ≤ m) (hn' : 2 ≤ n') (hm' : 2 ≤ m') (hfit : FitsInt ((n : Int) * m)) (hmu : 0 < mu) (f0 : Img)
    (h10 : 10 ≤ jac) (hj : jac < INT_MAX) {eps : ℝ} (he : 0 < eps) :
    ∃ bad : Finset Int, (bad.card : ℝ) * eps ≤ 2 * tvBudget n m mu f0 ∧
      ∀ s uk f s' uk' g, TVReady s n m uk f f0 → TVReady s' n' m' uk' g (σ f0) → ∀ k k', GoodIter bad k → GoodIter bad k' → ∀ t ≤ 0, ∀ t' ≤ 0,
        ∃ w w', TVReturns s n m uk f mu t k jac w ∧ TVReturns s' n' m' uk' g mu t' k' jac w' ∧ √(dist2 n' m' w' (σ w)) ≤ 2 * √eps := by
  have hfit' : FitsInt ((n' : Int) * m') := by
    have : (n' : Int) * m' = n * m := by exact_mod_cast hs
    rwa [this]
  obtain ⟨us, hus⟩ := strong_min_exists hn hm hfit hmu f0
  obtain ⟨b, hb, H⟩ := near_min hn hm hfit hmu h10 hj hus eps
  obtain ⟨b', hb', H'⟩ := near_min hn' hm' hfit' hmu h10 hj (hus.turn hT) eps
  rw [hT.budget hs] at hb'
  refine ⟨b ∪ b', (union_card he hb hb').trans_eq (two_mul _).symm, fun s uk f s' uk' g hr hr' k k' hk hk' t ht t' ht' => ?_⟩
  obtain ⟨w, hw, hd⟩ := H s uk f hr k hk.left t ht
  obtain ⟨w', hw', hd'⟩ := H' s' uk' g hr' k' hk'.right t' ht'
  refine ⟨w, w', hw, hw', ?_⟩
  have h1 := dist_triangle (n := n') (m := m') w' (σ us) (σ w)
  rw [hT.dist, dist2_comm us w] at h1
  have h2 := Real.sqrt_le_sqrt hd
  have h3 := Real.sqrt_le_sqrt hd'
  linarith

/-- Mirrored noisy images (upside down, left to right) give the mirrored results, up to `eps`. -/
theorem C86_mirrored (hn : 2 ≤ n) (hm : 2 ≤ m) (hfit : FitsInt ((n : Int) * m)) (hmu : 0 < mu) (f0 : Img)
    (h10 : 10 ≤ jac) (hj : jac < INT_MAX) {eps : ℝ} (he : 0 < eps) {σ : Img → Img} (hσ : σ = flipV n ∨ σ = flipH m) :
    ∃ bad : Finset Int, (bad.card : ℝ) * eps ≤ 2 * tvBudget n m mu f0 ∧
      ∀ s uk f s' uk' g, TVReady s n m uk f f0 → TVReady s' n m uk' g (σ f0) → ∀ k k', GoodIter bad k → GoodIter bad k' → ∀ t ≤ 0, ∀ t' ≤ 0,
        ∃ w w', TVReturns s n m uk f mu t k jac w ∧ TVReturns s' n m uk' g mu t' k' jac w' ∧ √(dist2 n m w' (σ w)) ≤ 2 * √eps := by
  rcases hσ with rfl | rfl
  · exact turned turn_flipV rfl hn hm hn hm hfit hmu f0 h10 hj he
  · exact turned turn_flipH rfl hn hm hn hm hfit hmu f0 h10 hj he

/-- The transposed noisy image gives the transposed result, up to `eps`. -/
theorem C86_transposed (hn : 2 ≤ n) (hm : 2 ≤ m) (hfit : FitsInt ((n : Int) * m)) (hmu : 0 < mu) (f0 : Img)
    (h10 : 10 ≤ jac) (hj : jac < INT_MAX) {eps : ℝ} (he : 0 < eps) :
    ∃ bad : Finset Int, (bad.card : ℝ) * eps ≤ 2 * tvBudget n m mu f0 ∧
      ∀ s uk f s' uk' g, TVReady s n m uk f f0 → TVReady s' m n uk' g (transp f0) → ∀ k k', GoodIter bad k → GoodIter bad k' → ∀ t ≤ 0, ∀ t' ≤ 0,
        ∃ w w', TVReturns s n m uk f mu t k jac w ∧ TVReturns s' m n uk' g mu t' k' jac w' ∧ √(dist2 m n w' (transp w)) ≤ 2 * √eps :=
  turned turn_transp (mul_comm m n) hn hm hm hn hfit hmu f0 h10 hj he

/-- fewer than `N` values are excluded, so one of `1 … N` is left -/
theorem good_iter_exists {bad : Finset Int} {eps x : ℝ} (he : 0 < eps) (h : (bad.card : ℝ) * eps ≤ x) {N : ℕ} (hN : x < N * eps) (hN' : (N : Int) < INT_MAX) :
    ∃ k : Int, k ≤ N ∧ GoodIter bad k := by
  have hc : bad.card < N := by
    have : (bad.card : ℝ) < N := lt_of_mul_lt_mul_right (h.trans_lt hN) he.le
    exact_mod_cast this
  obtain ⟨k, hk, hb⟩ := exists_mem_notMem_of_card_lt_card (s := bad) (t := (range N).image fun k : ℕ => (k : Int) + 1)
    (by rw [card_image_of_injective _ (fun a b h => by simpa using h), card_range]; exact hc)
  obtain ⟨i, hi, rfl⟩ := mem_image.1 hk
  have := mem_range.1 hi
  exact ⟨(i : Int) + 1, by omega, by omega, by omega, hb⟩

/-- the 3×4 ramp 0 … 11 -/
def ramp34 : Img := fun i j => ((i * 4 + j : ℕ) : ℝ)

theorem ramp_ready : TVReady (demoP 3 4) 3 4 ⟨0, 0⟩ ⟨1, 0⟩ ramp34 := by
  obtain ⟨a, b, c, d, e⟩ := demoP_ok 3 4
  exact ⟨a, ⟨_, holdsImg_iff.1 b⟩, c, d, e⟩

theorem ramp_budget : tvBudget 3 4 1 ramp34 = 33680 := by
  unfold tvBudget norm1 gradX gradY ramp34
  simp [sum_range_succ]
  norm_num

/-- `C86`: for the ramp some `max_iter` of at most four million gives pixels between `-1/10` and `11 + 1/10` -/
example : ∃ (k : Int) (w : Img), k ≤ (4000000 : ℕ) ∧ TVReturns (demoP 3 4) 3 4 ⟨0, 0⟩ ⟨1, 0⟩ 1 0 k 10 w ∧
    ∀ i < 3, ∀ j < 4, -(1 / 10) ≤ w i j ∧ w i j ≤ 11 + 1 / 10 := by
  have hfit : FitsInt (((3 : ℕ) : Int) * (4 : ℕ)) := by unfold FitsInt INT_MAX INT_MIN; norm_num
  obtain ⟨bad, hb, H⟩ := C86_average_and_range (n := 3) (m := 4) (mu := 1) (jac := 10) (by norm_num) (by norm_num) hfit one_pos ramp34
    le_rfl (by unfold INT_MAX; norm_num) ((1 / 10) ^ 2)
  obtain ⟨k, hk, hg⟩ := good_iter_exists (N := 4000000) (by norm_num) hb (by rw [ramp_budget]; norm_num) (by unfold INT_MAX; norm_num)
  obtain ⟨w, hw, -, hr⟩ := H _ _ _ ramp_ready k hg 0 le_rfl
  refine ⟨k, w, hk, hw, fun i hi j hj => ?_⟩
  have h := hr 0 11 (fun i hi j hj => ⟨Nat.cast_nonneg _, by
    have : i * 4 + j ≤ 11 := by omega
    show ((i * 4 + j : ℕ) : ℝ) ≤ 11
    exact_mod_cast this⟩) i hi j hj
  rw [Real.sqrt_sq (by norm_num)] at h
  exact ⟨by linarith [h.1], h.2⟩

/-- `C86`: the ramp and a ramp with one brighter pixel -/
example : ∃ (k : Int) (w w' : Img), k ≤ (8000000 : ℕ) ∧ TVReturns (demoP 3 4) 3 4 ⟨0, 0⟩ ⟨1, 0⟩ 1 0 k 10 w ∧
    TVReturns (imgP 3 4 fun i j => if i = 0 ∧ j = 0 then 1 else ramp34 i j) 3 4 ⟨0, 0⟩ ⟨1, 0⟩ 1 (-1) k 10 w' ∧
    (∀ i < 3, ∀ j < 4, w i j ≤ w' i j + 1 / 5) ∧ √(dist2 3 4 w w') ≤ 1 + 1 / 5 := by
  have hfit : FitsInt (((3 : ℕ) : Int) * (4 : ℕ)) := by unfold FitsInt INT_MAX INT_MIN; norm_num
  obtain ⟨bad, hb, H⟩ := C86_two_images (n := 3) (m := 4) (mu := 1) (jac := 10) (by norm_num) (by norm_num) hfit one_pos ramp34
    (fun i j => if i = 0 ∧ j = 0 then 1 else ramp34 i j) le_rfl (by unfold INT_MAX; norm_num) (eps := (1 / 10) ^ 2) (by norm_num)
  have hb2 : tvBudget 3 4 1 (fun i j => if i = 0 ∧ j = 0 then 1 else ramp34 i j) ≤ 33680 := by
    unfold tvBudget norm1 gradX gradY ramp34
    simp [sum_range_succ]
    norm_num
  obtain ⟨k, hk, hg⟩ := good_iter_exists (N := 8000000) (by norm_num) hb (by rw [ramp_budget]; linarith) (by unfold INT_MAX; norm_num)
  obtain ⟨w, w', h1, h2, h3, h4⟩ := H _ _ _ _ _ _ ramp_ready (imgP_ready _ _ _) k k hg hg 0 le_rfl (-1) (by norm_num)
  rw [Real.sqrt_sq (by norm_num)] at h3 h4
  refine ⟨k, w, w', hk, h1, h2, fun i hi j hj => ?_, ?_⟩
  · have := h4 (fun i _ j _ => by
      split_ifs with h
      · rw [h.1, h.2]; unfold ramp34; norm_num
      · exact le_rfl) i hi j hj
    linarith
  · have e : dist2 3 4 ramp34 (fun i j => if i = 0 ∧ j = 0 then 1 else ramp34 i j) = 1 := by
      rw [dist2_sum]
      simp [sum_range_succ, ramp34]
    rw [e, Real.sqrt_one] at h3
    linarith

/-- `C86`: the ramp upside down, and with rows and columns exchanged -/
example : ∃ (k : Int) (w w' : Img), k ≤ (8000000 : ℕ) ∧ TVReturns (demoP 3 4) 3 4 ⟨0, 0⟩ ⟨1, 0⟩ 1 0 k 10 w ∧
    TVReturns (imgP 3 4 (flipV 3 ramp34)) 3 4 ⟨0, 0⟩ ⟨1, 0⟩ 1 0 k 10 w' ∧ √(dist2 3 4 w' (flipV 3 w)) ≤ 2 * √((1 / 10) ^ 2) := by
  have hfit : FitsInt (((3 : ℕ) : Int) * (4 : ℕ)) := by unfold FitsInt INT_MAX INT_MIN; norm_num
  obtain ⟨bad, hb, H⟩ := C86_mirrored (n := 3) (m := 4) (mu := 1) (jac := 10) (by norm_num) (by norm_num) hfit one_pos ramp34
    le_rfl (by unfold INT_MAX; norm_num) (eps := (1 / 10) ^ 2) (by norm_num) (Or.inl rfl)
  obtain ⟨k, hk, hg⟩ := good_iter_exists (N := 8000000) (by norm_num) hb (by rw [ramp_budget]; norm_num) (by unfold INT_MAX; norm_num)
  obtain ⟨w, w', h⟩ := H _ _ _ _ _ _ ramp_ready (imgP_ready _ _ _) k k hg hg 0 le_rfl 0 le_rfl
  exact ⟨k, w, w', hk, h⟩

example : ∃ (k : Int) (w w' : Img), k ≤ (8000000 : ℕ) ∧ TVReturns (demoP 3 4) 3 4 ⟨0, 0⟩ ⟨1, 0⟩ 1 0 k 10 w ∧
    TVReturns (imgP 4 3 (transp ramp34)) 4 3 ⟨0, 0⟩ ⟨1, 0⟩ 1 0 k 10 w' ∧ √(dist2 4 3 w' (transp w)) ≤ 2 * √((1 / 10) ^ 2) := by
  have hfit : FitsInt (((3 : ℕ) : Int) * (4 : ℕ)) := by unfold FitsInt INT_MAX INT_MIN; norm_num
  obtain ⟨bad, hb, H⟩ := C86_transposed (n := 3) (m := 4) (mu := 1) (jac := 10) (by norm_num) (by norm_num) hfit one_pos ramp34
    le_rfl (by unfold INT_MAX; norm_num) (eps := (1 / 10) ^ 2) (by norm_num)
  obtain ⟨k, hk, hg⟩ := good_iter_exists (N := 8000000) (by norm_num) hb (by rw [ramp_budget]; norm_num) (by unfold INT_MAX; norm_num)
  obtain ⟨w, w', h⟩ := H _ _ _ _ _ _ ramp_ready (imgP_ready _ _ _) k k hg hg 0 le_rfl 0 le_rfl
  exact ⟨k, w, w', hk, h⟩

end L1c
