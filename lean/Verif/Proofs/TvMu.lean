import Verif.Proofs.TvShape

/-! # Minimisers of the TV objective for different weights -/

namespace L1c
open Finset

variable {n m : ℕ} {mu mu' : ℝ} {f u v : Img}

/-- `t` added to one pixel -/
def bump (u : Img) (a b : ℕ) (t : ℝ) : Img := fun i j => if i = a ∧ j = b then u i j + t else u i j

theorem sum_two_le {k a : ℕ} {c : ℝ} (hc : 0 ≤ c) (x : ℕ → ℝ) (h : ∀ j, j ≠ a → j + 1 ≠ a → x j ≤ 0) (h' : ∀ j, x j ≤ c) : ∑ j ∈ range k, x j ≤ 2 * c := by
  have h1 : ∀ j ∈ range k, x j ≤ (if j = a then c else 0) + if j + 1 = a then c else 0 := fun j _ => by
    by_cases e1 : j = a
    · rw [if_pos e1]; have := h' j; split <;> linarith
    · by_cases e2 : j + 1 = a
      · rw [if_neg e1, if_pos e2]; linarith [h' j]
      · rw [if_neg e1, if_neg e2]; linarith [h j e1 e2]
  refine (sum_le_sum h1).trans ?_
  rw [sum_add_distrib]
  have h2 : ∑ j ∈ range k, (if j = a then c else 0) ≤ c := by
    rw [sum_ite_eq' (range k) a fun _ => c]; split <;> linarith
  have h3 : ∑ j ∈ range k, (if j + 1 = a then c else 0) ≤ c := by
    have : ∀ j ∈ range k, (if j + 1 = a then c else 0) ≤ if j = a - 1 then c else 0 := fun j _ => by
      split_ifs <;> first | linarith | omega
    refine (sum_le_sum this).trans ?_
    rw [sum_ite_eq' (range k) (a - 1) fun _ => c]; split <;> linarith
  linarith

theorem abs_shift (x t : ℝ) : |x + t| - |x| ≤ |t| := by linarith [abs_add_le x t]

theorem tvPart_bump (u : Img) (a b : ℕ) (t : ℝ) : tvPart n m (bump u a b t) ≤ tvPart n m u + 4 * |t| := by
  have hx : norm1 n m (gradX 1 m (bump u a b t)) - norm1 n m (gradX 1 m u) ≤ 2 * |t| := by
    unfold norm1
    rw [← sum_sub_distrib]
    have : ∀ i ∈ range n, ∑ j ∈ range m, |gradX 1 m (bump u a b t) i j| - ∑ j ∈ range m, |gradX 1 m u i j| ≤ if i = a then 2 * |t| else 0 := fun i _ => by
      rw [← sum_sub_distrib]
      by_cases e : i = a
      · rw [if_pos e]
        refine sum_two_le (a := b) (abs_nonneg t) _ (fun j h1 h2 => ?_) fun j => ?_
        · simp [gradX, bump, h1, h2]
        · unfold gradX
          split
          · by_cases h1 : j = b
            · have : bump u a b t i (j + 1) - bump u a b t i j = (u i (j + 1) - u i j) + -t := by
                simp [bump, e, h1]; ring
              rw [one_mul, one_mul, this, ← abs_neg t]; exact abs_shift _ _
            · by_cases h2 : j + 1 = b
              · have : bump u a b t i (j + 1) - bump u a b t i j = (u i (j + 1) - u i j) + t := by
                  simp [bump, e, h1, h2]; ring
                rw [one_mul, one_mul, this]; exact abs_shift _ _
              · simp [bump, h1, h2]
          · simp
      · rw [if_neg e]
        exact (sum_eq_zero fun j _ => by simp [gradX, bump, e]).le
    refine (sum_le_sum this).trans ?_
    rw [sum_ite_eq' (range n) a fun _ => 2 * |t|]
    split
    · exact le_rfl
    · positivity
  have hy : norm1 n m (gradY 1 n (bump u a b t)) - norm1 n m (gradY 1 n u) ≤ 2 * |t| := by
    unfold norm1
    rw [sum_comm, sum_comm (s := range n), ← sum_sub_distrib]
    have : ∀ j ∈ range m, ∑ i ∈ range n, |gradY 1 n (bump u a b t) i j| - ∑ i ∈ range n, |gradY 1 n u i j| ≤ if j = b then 2 * |t| else 0 := fun j _ => by
      rw [← sum_sub_distrib]
      by_cases e : j = b
      · rw [if_pos e]
        refine sum_two_le (a := a) (abs_nonneg t) _ (fun i h1 h2 => ?_) fun i => ?_
        · simp [gradY, bump, h1, h2]
        · unfold gradY
          split
          · by_cases h1 : i = a
            · have : bump u a b t (i + 1) j - bump u a b t i j = (u (i + 1) j - u i j) + -t := by
                simp [bump, e, h1]; ring
              rw [one_mul, one_mul, this, ← abs_neg t]; exact abs_shift _ _
            · by_cases h2 : i + 1 = a
              · have : bump u a b t (i + 1) j - bump u a b t i j = (u (i + 1) j - u i j) + t := by
                  simp [bump, e, h1, h2]; ring
                rw [one_mul, one_mul, this]; exact abs_shift _ _
              · simp [bump, h1, h2]
          · simp
      · rw [if_neg e]
        exact (sum_eq_zero fun i _ => by simp [gradY, bump, e]).le
    refine (sum_le_sum this).trans ?_
    rw [sum_ite_eq' (range m) b fun _ => 2 * |t|]
    split
    · exact le_rfl
    · positivity
  unfold tvPart
  linarith

theorem dist2_bump {a b : ℕ} (ha : a < n) (hb : b < m) (u v : Img) (t : ℝ) :
    dist2 n m (bump u a b t) v = dist2 n m u v + 2 * t * (u a b - v a b) + t ^ 2 := by
  have h : dist2 n m (bump u a b t) v - dist2 n m u v = 2 * t * (u a b - v a b) + t ^ 2 := by
    simp only [dist2_sum, ← sum_sub_distrib]
    rw [sum_eq_single_of_mem a (mem_range.2 ha), sum_eq_single_of_mem b (mem_range.2 hb)]
    · simp [bump]; ring
    · intro j _ hj; simp [bump, hj]
    · intro i _ hi; exact sum_eq_zero fun j _ => by simp [bump, hi]
  linarith

/-- no pixel of the minimiser is farther than `4/mu` from the image -/
theorem StrongMin.pixel (hmu : 0 < mu) (h : StrongMin n m mu f u) {a b : ℕ} (ha : a < n) (hb : b < m) : |u a b - f a b| ≤ 4 / mu := by
  set d := u a b - f a b with hd
  have h1 := h (bump u a b (-d))
  rw [tvObj_eq, tvObj_eq, dist2_bump ha hb, dist2_bump ha hb, ← hd] at h1
  have h2 := tvPart_bump (n := n) (m := m) u a b (-d)
  have e : dist2 n m u u = 0 := by simp [dist2_sum]
  rw [e] at h1
  rw [abs_neg] at h2
  rw [le_div_iff₀ hmu]
  have h3 : mu * d ^ 2 ≤ 4 * |d| := by linear_combination h1 + h2
  rcases (abs_nonneg d).eq_or_lt with h0 | h0
  · rw [← h0]; norm_num
  · rw [← sq_abs] at h3
    nlinarith

/-- with a larger weight the minimiser is nearer to the image -/
theorem StrongMin.dist_anti (hmm : mu < mu') (hmu : 0 < mu) (hu : StrongMin n m mu f u) (hv : StrongMin n m mu' f v) : dist2 n m v f ≤ dist2 n m u f := by
  have h1 := hu v
  have h2 := hv u
  rw [tvObj_eq, tvObj_eq] at h1 h2
  have h3 := mul_nonneg (half_pos hmu).le (dist2_nonneg (n := n) (m := m) v u)
  have h4 := mul_nonneg (half_pos (hmu.trans hmm)).le (dist2_nonneg (n := n) (m := m) u v)
  by_contra hc
  push Not at hc
  nlinarith

/-- … and has more variation -/
theorem StrongMin.tv_mono (hmm : mu < mu') (hmu : 0 < mu) (hu : StrongMin n m mu f u) (hv : StrongMin n m mu' f v) : tvPart n m u ≤ tvPart n m v := by
  have h1 := hu v
  rw [tvObj_eq, tvObj_eq] at h1
  have h3 := mul_nonneg (half_pos hmu).le (dist2_nonneg (n := n) (m := m) v u)
  have h4 := mul_le_mul_of_nonneg_left (hu.dist_anti hmm hmu hv) (half_pos hmu).le
  linarith

/-- the minimiser has no more variation than the image -/
theorem StrongMin.tv_le (hmu : 0 < mu) (hu : StrongMin n m mu f u) : tvPart n m u ≤ tvPart n m f := by
  have h1 := hu f
  rw [tvObj_eq, tvObj_eq] at h1
  have e : dist2 n m f f = 0 := by simp [dist2_sum]
  rw [e] at h1
  have h3 := mul_nonneg (half_pos hmu).le (dist2_nonneg (n := n) (m := m) u f)
  have h4 := mul_nonneg (half_pos hmu).le (dist2_nonneg (n := n) (m := m) f u)
  linarith

theorem path_le {k a : ℕ} (ha : a < k) (x : ℕ → ℝ) : |x a - x 0| ≤ ∑ j ∈ range k, |if j + 1 < k then 1 * (x (j + 1) - x j) else 0| := by
  have h : x a - x 0 = ∑ j ∈ range a, (x (j + 1) - x j) := (sum_range_sub x a).symm
  rw [h]
  refine (abs_sum_le_sum_abs _ _).trans ?_
  calc ∑ j ∈ range a, |x (j + 1) - x j| = ∑ j ∈ range a, |if j + 1 < k then 1 * (x (j + 1) - x j) else 0| :=
        sum_congr rfl fun j hj => by rw [if_pos (by have := mem_range.1 hj; omega), one_mul]
    _ ≤ _ := sum_le_sum_of_subset_of_nonneg (range_subset_range.2 ha.le) fun _ _ _ => abs_nonneg _

/-- differences of pixels are bounded by the variation -/
theorem diff_le_tv {a b : ℕ} (ha : a < n) (hb : b < m) (u : Img) : |u a b - u 0 0| ≤ tvPart n m u := by
  have h1 := path_le hb (u a)
  have h2 := path_le ha fun i => u i 0
  have h3 : ∑ j ∈ range m, |if j + 1 < m then 1 * (u a (j + 1) - u a j) else 0| ≤ norm1 n m (gradX 1 m u) :=
    single_le_sum (f := fun i => ∑ j ∈ range m, |gradX 1 m u i j|) (fun _ _ => sum_nonneg fun _ _ => abs_nonneg _) (mem_range.2 ha)
  have h4 : ∑ i ∈ range n, |if i + 1 < n then 1 * (u (i + 1) 0 - u i 0) else 0| ≤ norm1 n m (gradY 1 n u) := by
    unfold norm1
    rw [sum_comm]
    exact single_le_sum (f := fun j => ∑ i ∈ range n, |gradY 1 n u i j|) (fun _ _ => sum_nonneg fun _ _ => abs_nonneg _) (mem_range.2 (by omega : 0 < m))
  have h5 := abs_sub_le (u a b) (u a 0) (u 0 0)
  unfold tvPart
  linarith

/-- for a small weight the minimiser is the constant image with the average of `f` -/
theorem strongMin_mean {c : ℝ} (hmu : 0 < mu) (hc : ∑ i ∈ range n, ∑ j ∈ range m, (f i j - c) = 0) (hs : mu * ∑ i ∈ range n, ∑ j ∈ range m, |f i j - c| ≤ 1) :
    StrongMin n m mu f fun _ _ => c := by
  intro v
  have e1 : tvPart n m (fun _ _ => c) = 0 := by
    rw [tvPart_sum]
    refine sum_eq_zero fun i _ => sum_eq_zero fun j _ => ?_
    unfold gradX gradY
    split_ifs <;> simp
  have e2 : dist2 n m v f = dist2 n m v (fun _ _ => c) + dist2 n m (fun _ _ => c) f - 2 * ∑ i ∈ range n, ∑ j ∈ range m, (v i j - v 0 0) * (f i j - c) := by
    have : ∑ i ∈ range n, ∑ j ∈ range m, (v i j - v 0 0) * (f i j - c) = ∑ i ∈ range n, ∑ j ∈ range m, (v i j - c) * (f i j - c) := by
      have h : ∑ i ∈ range n, ∑ j ∈ range m, (v 0 0 - c) * (f i j - c) = 0 := by
        simp only [← mul_sum]; rw [hc, mul_zero]
      rw [← sub_eq_zero, ← sum_sub_distrib, ← neg_eq_zero, ← sum_neg_distrib, ← h]
      refine sum_congr rfl fun i _ => ?_
      rw [← sum_sub_distrib, ← sum_neg_distrib]
      exact sum_congr rfl fun j _ => by ring
    rw [this]
    simp only [dist2_sum, mul_sum, ← sum_add_distrib, ← sum_sub_distrib]
    exact sum_congr rfl fun i _ => sum_congr rfl fun j _ => by ring
  have h3 : ∑ i ∈ range n, ∑ j ∈ range m, (v i j - v 0 0) * (f i j - c) ≤ tvPart n m v * ∑ i ∈ range n, ∑ j ∈ range m, |f i j - c| := by
    simp only [mul_sum]
    refine sum_le_sum fun i hi => sum_le_sum fun j hj => ?_
    refine (le_abs_self _).trans ?_
    rw [abs_mul]
    exact mul_le_mul_of_nonneg_right (diff_le_tv (mem_range.1 hi) (mem_range.1 hj) v) (abs_nonneg _)
  rw [tvObj_eq, tvObj_eq, e1, e2]
  have h4 := tvPart_nonneg (n := n) (m := m) v
  have h5 := mul_le_mul_of_nonneg_left h3 hmu.le
  have h6 := mul_le_mul_of_nonneg_left hs h4
  linarith

/-! ## Variation of nearby images -/

theorem shift_sum_le (k : ℕ) (x : ℕ → ℝ) (hx : ∀ j, 0 ≤ x j) : ∑ j ∈ range k, (if j + 1 < k then x (j + 1) + x j else 0) ≤ 2 * ∑ j ∈ range k, x j := by
  rcases k with _ | k
  · simp
  have h1 : ∑ j ∈ range (k + 1), (if j + 1 < k + 1 then x (j + 1) + x j else 0) = ∑ j ∈ range k, x (j + 1) + ∑ j ∈ range k, x j := by
    rw [sum_range_succ, if_neg (lt_irrefl _), add_zero, ← sum_add_distrib]
    exact sum_congr rfl fun j hj => by rw [if_pos (by have := mem_range.1 hj; omega)]
  have h2 := sum_range_succ' x k
  have h3 := sum_range_succ x k
  have := hx 0
  have := hx k
  rw [h1]
  linarith

theorem tvPart_near (u v : Img) : tvPart n m u ≤ tvPart n m v + 4 * ∑ i ∈ range n, ∑ j ∈ range m, |u i j - v i j| := by
  have hx : norm1 n m (gradX 1 m u) ≤ norm1 n m (gradX 1 m v) + 2 * ∑ i ∈ range n, ∑ j ∈ range m, |u i j - v i j| := by
    unfold norm1
    rw [mul_sum, ← sum_add_distrib]
    refine sum_le_sum fun i _ => ?_
    refine le_trans ?_ (add_le_add le_rfl (shift_sum_le m (fun j => |u i j - v i j|) fun _ => abs_nonneg _))
    rw [← sum_add_distrib]
    refine sum_le_sum fun j _ => ?_
    unfold gradX
    split
    · have h1 := abs_sub_abs_le_abs_sub (1 * (u i (j + 1) - u i j)) (1 * (v i (j + 1) - v i j))
      have h2 := abs_sub (u i (j + 1) - v i (j + 1)) (u i j - v i j)
      rw [show 1 * (u i (j + 1) - u i j) - 1 * (v i (j + 1) - v i j) = (u i (j + 1) - v i (j + 1)) - (u i j - v i j) by ring] at h1
      linarith
    · simp
  have hy : norm1 n m (gradY 1 n u) ≤ norm1 n m (gradY 1 n v) + 2 * ∑ i ∈ range n, ∑ j ∈ range m, |u i j - v i j| := by
    unfold norm1
    rw [sum_comm, sum_comm (s := range n) (f := fun i j => |gradY 1 n v i j|), sum_comm (s := range n) (f := fun i j => |u i j - v i j|), mul_sum, ← sum_add_distrib]
    refine sum_le_sum fun j _ => ?_
    refine le_trans ?_ (add_le_add le_rfl (shift_sum_le n (fun i => |u i j - v i j|) fun _ => abs_nonneg _))
    rw [← sum_add_distrib]
    refine sum_le_sum fun i _ => ?_
    unfold gradY
    split
    · have h1 := abs_sub_abs_le_abs_sub (1 * (u (i + 1) j - u i j)) (1 * (v (i + 1) j - v i j))
      have h2 := abs_sub (u (i + 1) j - v (i + 1) j) (u i j - v i j)
      rw [show 1 * (u (i + 1) j - u i j) - 1 * (v (i + 1) j - v i j) = (u (i + 1) j - v (i + 1) j) - (u i j - v i j) by ring] at h1
      linarith
    · simp
  unfold tvPart
  linarith

theorem tvPart_close {eps : ℝ} (h : dist2 n m u v ≤ eps) : tvPart n m u ≤ tvPart n m v + 4 * √(n * m * eps) := by
  refine (tvPart_near u v).trans ?_
  have h1 : dist2 n m (fun i j => |u i j - v i j|) (fun _ _ => 0) ≤ eps := by
    refine le_trans (le_of_eq ?_) h
    simp only [dist2_sum]
    exact sum_congr rfl fun i _ => sum_congr rfl fun j _ => by rw [sub_zero, abs_mul_abs_self]
  have h2 := (abs_le.1 (pixelSum_near h1)).2
  unfold pixelSum at h2
  simp only [sum_const_zero, sub_zero] at h2
  linarith

end L1c
