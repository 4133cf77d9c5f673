import Verif.Proofs.TvMu
import Verif.Props.TvShape

/-!
# What the weight `mu` does in TV denoising (`C87`)

Setting and form of the statements as in `C86`.
-/

namespace L1c
open Prog Scalar Finset

variable {n m : ℕ} {mu mu' : ℝ} {jac : Int}

/-- No pixel is changed by more than `4/mu`, the variation of the image does not grow, and when `mu` times the sum of the
deviations from the average is at most 1 the result is the constant image with this average; all up to `eps`. -/
theorem C87_one_weight (hn : 2 ≤ n) (hm : 2 ≤ m) (hfit : FitsInt ((n : Int) * m)) (hmu : 0 < mu) (f0 : Img)
    (h10 : 10 ≤ jac) (hj : jac < INT_MAX) (eps : ℝ) :
    ∃ bad : Finset Int, (bad.card : ℝ) * eps ≤ tvBudget n m mu f0 ∧
      ∀ s uk f, TVReady s n m uk f f0 → ∀ k, GoodIter bad k → ∀ t ≤ 0, ∃ w, TVReturns s n m uk f mu t k jac w ∧
        (∀ i < n, ∀ j < m, |w i j - f0 i j| ≤ 4 / mu + √eps) ∧
        tvPart n m w ≤ tvPart n m f0 + 4 * √(n * m * eps) ∧
        ∀ c : ℝ, pixelSum n m f0 = n * m * c → mu * pixelSum n m (fun i j => |f0 i j - c|) ≤ 1 → ∀ i < n, ∀ j < m, |w i j - c| ≤ √eps := by
  obtain ⟨us, hus⟩ := strong_min_exists hn hm hfit hmu f0
  obtain ⟨bad, hb, H⟩ := near_min hn hm hfit hmu h10 hj hus eps
  refine ⟨bad, hb, fun s uk f hr k hk t ht => ?_⟩
  obtain ⟨w, hw, hd⟩ := H s uk f hr k hk t ht
  refine ⟨w, hw, fun i hi j hj' => ?_, ?_, fun c hc hs i hi j hj' => ?_⟩
  · have h1 := pixel_near hd i hi j hj'
    have h2 := hus.pixel hmu hi hj'
    have h3 := abs_sub_le (w i j) (us i j) (f0 i j)
    linarith
  · have h1 := tvPart_close hd
    have h2 := hus.tv_le hmu
    linarith
  · have hsum : ∑ i ∈ range n, ∑ j ∈ range m, (f0 i j - c) = 0 := by
      simp only [sum_sub_distrib, sum_const, card_range, nsmul_eq_mul]
      unfold pixelSum at hc
      linarith
    have hmin := strongMin_mean hmu hsum hs
    have h1 := hus.nonexpansive hmu hmin
    have e : dist2 n m f0 f0 = 0 := by simp [dist2_sum]
    rw [e] at h1
    have h2 := normSq2_eq_zero (le_antisymm h1 (dist2_nonneg _ _)) i hi j hj'
    have h3 := pixel_near hd i hi j hj'
    have h4 : us i j = c := sub_eq_zero.1 h2
    rwa [h4] at h3

/-- A larger weight gives a result that is nearer to the noisy image and has more variation, up to `eps`. -/
theorem C87_two_weights (hn : 2 ≤ n) (hm : 2 ≤ m) (hfit : FitsInt ((n : Int) * m)) (hmu : 0 < mu) (hmm : mu < mu') (f0 : Img)
    (h10 : 10 ≤ jac) (hj : jac < INT_MAX) {eps : ℝ} (he : 0 < eps) :
    ∃ bad : Finset Int, (bad.card : ℝ) * eps ≤ tvBudget n m mu f0 + tvBudget n m mu' f0 ∧
      ∀ s uk f s' uk' f', TVReady s n m uk f f0 → TVReady s' n m uk' f' f0 → ∀ k k', GoodIter bad k → GoodIter bad k' → ∀ t ≤ 0, ∀ t' ≤ 0,
        ∃ w w', TVReturns s n m uk f mu t k jac w ∧ TVReturns s' n m uk' f' mu' t' k' jac w' ∧
          √(dist2 n m w' f0) ≤ √(dist2 n m w f0) + 2 * √eps ∧ tvPart n m w ≤ tvPart n m w' + 8 * √(n * m * eps) := by
  obtain ⟨us, hus⟩ := strong_min_exists hn hm hfit hmu f0
  obtain ⟨vs, hvs⟩ := strong_min_exists hn hm hfit (hmu.trans hmm) f0
  obtain ⟨b, hb, H⟩ := near_min hn hm hfit hmu h10 hj hus eps
  obtain ⟨b', hb', H'⟩ := near_min hn hm hfit (hmu.trans hmm) h10 hj hvs eps
  refine ⟨b ∪ b', union_card he hb hb', fun s uk f s' uk' f' hr hr' k k' hk hk' t ht t' ht' => ?_⟩
  obtain ⟨w, hw, hd⟩ := H s uk f hr k hk.left t ht
  obtain ⟨w', hw', hd'⟩ := H' s' uk' f' hr' k' hk'.right t' ht'
  refine ⟨w, w', hw, hw', ?_, ?_⟩
  · have h1 := dist_triangle (n := n) (m := m) w' vs f0
    have h2 := dist_triangle (n := n) (m := m) us w f0
    have h3 := Real.sqrt_le_sqrt (hus.dist_anti hmm hmu hvs)
    have h4 := Real.sqrt_le_sqrt hd'
    rw [dist2_comm] at hd
    have h5 := Real.sqrt_le_sqrt hd
    linarith
  · have h1 := tvPart_close hd
    rw [dist2_comm] at hd'
    have h2 := tvPart_close hd'
    have h3 := hus.tv_mono hmm hmu hvs
    linarith

/-- `C87`: with weight 40 some `max_iter` changes no pixel of the ramp by more than `1/10 + 1/10` -/
example : ∃ (k : Int) (w : Img), k ≤ (4000000 : ℕ) ∧ TVReturns (demoP 3 4) 3 4 ⟨0, 0⟩ ⟨1, 0⟩ 40 0 k 10 w ∧
    ∀ i < 3, ∀ j < 4, |w i j - ramp34 i j| ≤ 4 / 40 + 1 / 10 := by
  have hfit : FitsInt (((3 : ℕ) : Int) * (4 : ℕ)) := by unfold FitsInt INT_MAX INT_MIN; norm_num
  obtain ⟨bad, hb, H⟩ := C87_one_weight (n := 3) (m := 4) (mu := 40) (jac := 10) (by norm_num) (by norm_num) hfit (by norm_num) ramp34
    le_rfl (by unfold INT_MAX; norm_num) ((1 / 10) ^ 2)
  have hb2 : tvBudget 3 4 40 ramp34 ≤ 33680 := by
    unfold tvBudget norm1 gradX gradY ramp34
    simp [sum_range_succ]
    norm_num
  obtain ⟨k, hk, hg⟩ := good_iter_exists (N := 4000000) (by norm_num) hb (by linarith) (by unfold INT_MAX; norm_num)
  obtain ⟨w, hw, h, -⟩ := H _ _ _ ramp_ready k hg 0 le_rfl
  rw [Real.sqrt_sq (by norm_num)] at h
  exact ⟨k, w, hk, hw, h⟩

/-- `C87`: with weight 1/36 the ramp becomes its average 11/2 up to 1/10 -/
example : ∃ (k : Int) (w : Img), k ≤ (20000000 : ℕ) ∧ TVReturns (demoP 3 4) 3 4 ⟨0, 0⟩ ⟨1, 0⟩ (1 / 36) 0 k 10 w ∧
    ∀ i < 3, ∀ j < 4, |w i j - 11 / 2| ≤ 1 / 10 := by
  have hfit : FitsInt (((3 : ℕ) : Int) * (4 : ℕ)) := by unfold FitsInt INT_MAX INT_MIN; norm_num
  obtain ⟨bad, hb, H⟩ := C87_one_weight (n := 3) (m := 4) (mu := 1 / 36) (jac := 10) (by norm_num) (by norm_num) hfit (by norm_num) ramp34
    le_rfl (by unfold INT_MAX; norm_num) ((1 / 10) ^ 2)
  have hb2 : tvBudget 3 4 (1 / 36) ramp34 ≤ 120000 := by
    unfold tvBudget norm1 gradX gradY ramp34
    simp [sum_range_succ]
    norm_num
  obtain ⟨k, hk, hg⟩ := good_iter_exists (N := 20000000) (by norm_num) hb (by linarith) (by unfold INT_MAX; norm_num)
  obtain ⟨w, hw, -, -, h⟩ := H _ _ _ ramp_ready k hg 0 le_rfl
  rw [Real.sqrt_sq (by norm_num)] at h
  refine ⟨k, w, hk, hw, h (11 / 2) ?_ ?_⟩
  · simp [pixelSum, ramp34, sum_range_succ]; norm_num
  · simp only [pixelSum, ramp34, sum_range_succ, sum_range_zero]
    norm_num [abs_of_nonneg, abs_of_neg]

/-- `C87`: weights 1 and 2 on the ramp -/
example : ∃ (k : Int) (w w' : Img), k ≤ (8000000 : ℕ) ∧ TVReturns (demoP 3 4) 3 4 ⟨0, 0⟩ ⟨1, 0⟩ 1 0 k 10 w ∧
    TVReturns (demoP 3 4) 3 4 ⟨0, 0⟩ ⟨1, 0⟩ 2 0 k 10 w' ∧ √(dist2 3 4 w' ramp34) ≤ √(dist2 3 4 w ramp34) + 2 * √((1 / 10) ^ 2) := by
  have hfit : FitsInt (((3 : ℕ) : Int) * (4 : ℕ)) := by unfold FitsInt INT_MAX INT_MIN; norm_num
  obtain ⟨bad, hb, H⟩ := C87_two_weights (n := 3) (m := 4) (mu := 1) (mu' := 2) (jac := 10) (by norm_num) (by norm_num) hfit one_pos (by norm_num) ramp34
    le_rfl (by unfold INT_MAX; norm_num) (eps := (1 / 10) ^ 2) (by norm_num)
  have hb2 : tvBudget 3 4 2 ramp34 ≤ 33680 := by
    unfold tvBudget norm1 gradX gradY ramp34
    simp [sum_range_succ]
    norm_num
  obtain ⟨k, hk, hg⟩ := good_iter_exists (N := 8000000) (by norm_num) hb (by rw [ramp_budget]; linarith) (by unfold INT_MAX; norm_num)
  obtain ⟨w, w', h1, h2, h3, -⟩ := H _ _ _ _ _ _ ramp_ready ramp_ready k k hg hg 0 le_rfl 0 le_rfl
  exact ⟨k, w, w', hk, h1, h2, h3⟩

end L1c
