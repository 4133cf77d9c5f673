import Verif.Props.TvMu
import Verif.Props.PyTV

/-!
# TV denoising from Python: average, range, order, distances, weight (`C86`, `C87`)

Setting and form of the statements as in Props/TvShape and Props/TvMu, for arrays of at least 3×3 numbers.
-/

namespace L1c
open Prog Scalar Finset

variable {n m : ℕ} {mu : ℝ} {jac : Int} {v v' : ℕ → ℝ}

/-- `w` is the array that the Python call returns, and the C memory is as before -/
def PyTVReturns (conv : PyVal Dbl → Option NpImg) (args : List (PyVal Dbl)) (kw : List (String × PyVal Dbl)) (s : PState Dbl) (r : PyRefs) (n m : ℕ)
    (w : Img) : Prop :=
  ∃ o data s' r', PySpec (py_breg_call conv args kw) s r (.ret o n m data) s' r' ∧ s'.live = s.live ∧
    ∀ i < n, ∀ j < m, data[i * m + j]? = some (Dbl.fin (w i j))

theorem near_min_py (hn : 3 ≤ n) (hm : 3 ≤ m) (hfit : FitsInt ((n : Int) * m)) (hmu : 0 < mu) {us : Img} (h10 : 10 ≤ jac) (hj : jac < INT_MAX)
    (hus : StrongMin n m mu (rowImg m v) us) (eps : ℝ) : ∃ bad : Finset Int, (bad.card : ℝ) * eps ≤ tvBudget n m mu (rowImg m v) ∧
      ∀ k, GoodIter bad k → ∀ t ≤ 0, ∀ conv args kw s r, PyTVReady conv args kw s r n m v (Dbl.fin mu) (Dbl.fin t) k jac →
        ∃ w, PyTVReturns conv args kw s r n m w ∧ dist2 n m w us ≤ eps := by
  obtain ⟨us', u, h1, h2, h3, -⟩ := C77_converges (v := v) hn hm hfit hmu h10 hj
  have he : ImgEq n m us us' := strong_unique hmu h1
    (by have := hus us'; have := mul_nonneg (half_pos hmu).le (dist2_nonneg (n := n) (m := m) us' us); linarith)
  obtain ⟨N, hN⟩ : ∃ N : ℕ, (N : Int) = INT_MAX := ⟨INT_MAX.toNat, Int.toNat_of_nonneg (by unfold INT_MAX; norm_num)⟩
  set B := (range N).filter fun k => eps < dist2 n m (u (k + 1)) us' with hB
  have hc : (B.card : ℝ) * eps ≤ tvBudget n m mu (rowImg m v) := by
    calc (B.card : ℝ) * eps = ∑ k ∈ B, eps := by rw [sum_const, nsmul_eq_mul]
      _ ≤ ∑ k ∈ B, dist2 n m (u (k + 1)) us' := sum_le_sum fun k hk => (mem_filter.1 hk).2.le
      _ ≤ ∑ k ∈ range N, dist2 n m (u (k + 1)) us' :=
          sum_le_sum_of_subset_of_nonneg (filter_subset _ _) fun k _ _ => normSq2_nonneg n m _
      _ ≤ _ := h3 N
  refine ⟨B.image fun k : ℕ => (k : Int) + 1, ?_, ?_⟩
  · rw [card_image_of_injective _ (fun a b h => by simpa using h)]; exact hc
  · rintro k ⟨hp, hmax, hnb⟩ t ht conv args kw s r hr
    obtain ⟨o, data, s', r', K, g1, g2, g3, -, g4⟩ := h2 conv args kw s r (Dbl.fin t) k hmax hr
    refine ⟨u K, ⟨o, data, s', r', g1, g2, g3⟩, ?_⟩
    rw [g4 t ht rfl, dist2_congr he]
    by_contra hcon
    push Not at hcon
    refine hnb (mem_image.2 ⟨k.toNat - 1, mem_filter.2 ⟨mem_range.2 (by omega), ?_⟩, by omega⟩)
    rwa [show k.toNat - 1 + 1 = k.toNat by omega]

/-- Average, range and largest change of a pixel of the array returned to Python, up to `eps` -/
theorem C86_python_one_image (hn : 3 ≤ n) (hm : 3 ≤ m) (hfit : FitsInt ((n : Int) * m)) (hmu : 0 < mu) (v : ℕ → ℝ)
    (h10 : 10 ≤ jac) (hj : jac < INT_MAX) (eps : ℝ) :
    ∃ bad : Finset Int, (bad.card : ℝ) * eps ≤ tvBudget n m mu (rowImg m v) ∧
      ∀ k, GoodIter bad k → ∀ t ≤ 0, ∀ conv args kw s r, PyTVReady conv args kw s r n m v (Dbl.fin mu) (Dbl.fin t) k jac →
        ∃ w, PyTVReturns conv args kw s r n m w ∧
          |pixelSum n m w - pixelSum n m (rowImg m v)| ≤ √(n * m * eps) ∧
          (∀ lo hi : ℝ, (∀ k < n * m, lo ≤ v k ∧ v k ≤ hi) → ∀ i < n, ∀ j < m, lo - √eps ≤ w i j ∧ w i j ≤ hi + √eps) ∧
          (∀ i < n, ∀ j < m, |w i j - v (i * m + j)| ≤ 4 / mu + √eps) ∧
          tvPart n m w ≤ tvPart n m (rowImg m v) + 4 * √(n * m * eps) := by
  obtain ⟨us, hus⟩ := strong_min_exists (n := n) (m := m) (by omega) (by omega) hfit hmu (rowImg m v)
  obtain ⟨bad, hb, H⟩ := near_min_py hn hm hfit hmu h10 hj hus eps
  refine ⟨bad, hb, fun k hk t ht conv args kw s r hr => ?_⟩
  obtain ⟨w, hw, hd⟩ := H k hk t ht conv args kw s r hr
  refine ⟨w, hw, ?_, fun lo hi h i hi' j hj' => ?_, fun i hi j hj' => ?_, ?_⟩
  · have := pixelSum_near hd
    rwa [show pixelSum n m us = pixelSum n m (rowImg m v) from hus.mean hmu] at this
  · have h1 := hus.range hmu (lo := lo) (hi := hi) (fun i hi j hj => h (i * m + j) (by nlinarith)) i hi' j hj'
    have h2 := abs_le.1 (pixel_near hd i hi' j hj')
    exact ⟨by linarith, by linarith⟩
  · have h1 := pixel_near hd i hi j hj'
    have h2 : |us i j - v (i * m + j)| ≤ 4 / mu := hus.pixel hmu hi hj'
    have h3 := abs_sub_le (w i j) (us i j) (v (i * m + j))
    linarith
  · have h1 := tvPart_close hd
    have h2 := hus.tv_le hmu
    linarith

/-- Order and distance of the arrays returned to Python for two arrays, up to `eps` -/
theorem C86_python_two_images (hn : 3 ≤ n) (hm : 3 ≤ m) (hfit : FitsInt ((n : Int) * m)) (hmu : 0 < mu) (v v' : ℕ → ℝ)
    (h10 : 10 ≤ jac) (hj : jac < INT_MAX) {eps : ℝ} (he : 0 < eps) :
    ∃ bad : Finset Int, (bad.card : ℝ) * eps ≤ tvBudget n m mu (rowImg m v) + tvBudget n m mu (rowImg m v') ∧
      ∀ k k', GoodIter bad k → GoodIter bad k' → ∀ t ≤ 0, ∀ t' ≤ 0, ∀ conv args kw s r conv' args' kw' s' r',
        PyTVReady conv args kw s r n m v (Dbl.fin mu) (Dbl.fin t) k jac → PyTVReady conv' args' kw' s' r' n m v' (Dbl.fin mu) (Dbl.fin t') k' jac →
        ∃ w w', PyTVReturns conv args kw s r n m w ∧ PyTVReturns conv' args' kw' s' r' n m w' ∧
          √(dist2 n m w w') ≤ √(dist2 n m (rowImg m v) (rowImg m v')) + 2 * √eps ∧
          ((∀ k < n * m, v k ≤ v' k) → ∀ i < n, ∀ j < m, w i j ≤ w' i j + 2 * √eps) := by
  obtain ⟨us, hus⟩ := strong_min_exists (n := n) (m := m) (by omega) (by omega) hfit hmu (rowImg m v)
  obtain ⟨vs, hvs⟩ := strong_min_exists (n := n) (m := m) (by omega) (by omega) hfit hmu (rowImg m v')
  obtain ⟨b, hb, H⟩ := near_min_py hn hm hfit hmu h10 hj hus eps
  obtain ⟨b', hb', H'⟩ := near_min_py hn hm hfit hmu h10 hj hvs eps
  refine ⟨b ∪ b', union_card he hb hb', fun k k' hk hk' t ht t' ht' conv args kw s r conv' args' kw' s' r' hr hr' => ?_⟩
  obtain ⟨w, hw, hd⟩ := H k hk.left t ht conv args kw s r hr
  obtain ⟨w', hw', hd'⟩ := H' k' hk'.right t' ht' conv' args' kw' s' r' hr'
  refine ⟨w, w', hw, hw', ?_, fun hle i hi j hj' => ?_⟩
  · have h1 := dist_triangle (n := n) (m := m) w us w'
    have h2 := dist_triangle (n := n) (m := m) us vs w'
    have h3 := Real.sqrt_le_sqrt (hus.nonexpansive hmu hvs)
    have h4 := Real.sqrt_le_sqrt hd
    rw [dist2_comm] at hd'
    have h5 := Real.sqrt_le_sqrt hd'
    linarith
  · have h1 := hus.mono hmu hvs (fun i hi j hj => hle (i * m + j) (by nlinarith)) i hi j hj'
    have h2 := abs_le.1 (pixel_near hd i hi j hj')
    have h3 := abs_le.1 (pixel_near hd' i hi j hj')
    linarith

/-- the Python call on the 3 by 4 ramp: pixels between `-1/10` and `11 + 1/10` for some `max_iter` of at most four million -/
example : ∃ (K : Int) (w : Img), K ≤ (4000000 : ℕ) ∧
    PyTVReturns (fun _ => some ⟨2, 3, 4, ⟨1, 0⟩⟩) [⟨none, none, none⟩, ⟨some (.inl 1), none, none⟩] (exTvKw K) (demoP 3 4) ⟨fun _ => 0, 0, 0, fun _ => true⟩ 3 4 w ∧
    ∀ i < 3, ∀ j < 4, -(1 / 10) ≤ w i j ∧ w i j ≤ 11 + 1 / 10 := by
  have hfit : FitsInt (((3 : ℕ) : Int) * (4 : ℕ)) := by unfold FitsInt INT_MAX INT_MIN; norm_num
  obtain ⟨bad, hb, H⟩ := C86_python_one_image (n := 3) (m := 4) (mu := 1) (jac := 10) (by norm_num) (by norm_num) hfit one_pos (fun k => (k : ℝ))
    le_rfl (by unfold INT_MAX; norm_num) ((1 / 10) ^ 2)
  have hb2 : tvBudget 3 4 1 (rowImg 4 fun k => (k : ℝ)) = 33680 := ramp_budget
  obtain ⟨k, hk, hg⟩ := good_iter_exists (N := 4000000) (by norm_num) hb (by rw [hb2]; norm_num) (by unfold INT_MAX; norm_num)
  have hf : FitsInt k := ⟨by have := hg.1; unfold INT_MIN; omega, hg.2.1.le⟩
  obtain ⟨w, hw, -, hr, -⟩ := H k hg 0 le_rfl _ _ _ _ _ (exTv_ready hf)
  refine ⟨k, w, hk, hw, fun i hi j hj => ?_⟩
  have h := hr 0 11 (fun k hk => ⟨Nat.cast_nonneg _, by exact_mod_cast (by omega : k ≤ 11)⟩) i hi j hj
  rw [Real.sqrt_sq (by norm_num)] at h
  exact ⟨by linarith [h.1], h.2⟩

end L1c
