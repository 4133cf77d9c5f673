import Verif.Props.BregmanConv
import Verif.Spec.TvShape
import Mathlib.Algebra.Order.Chebyshev

/-! # Minimisers of the TV objective: average, range, order, distance, mirror images -/

namespace L1c
open Finset

variable {n m : ℕ} {mu : ℝ} {f g u v : Img}

/-- a minimum with quadratic growth -/
def StrongMin (n m : ℕ) (mu : ℝ) (f u : Img) : Prop := ∀ v, tvObj n m mu f u + mu / 2 * dist2 n m v u ≤ tvObj n m mu f v

theorem tvObj_eq (u : Img) : tvObj n m mu f u = tvPart n m u + mu / 2 * dist2 n m u f := rfl

theorem dist2_sum (u v : Img) : dist2 n m u v = ∑ i ∈ range n, ∑ j ∈ range m, (u i j - v i j) * (u i j - v i j) := rfl

theorem tvPart_sum (u : Img) : tvPart n m u = ∑ i ∈ range n, ∑ j ∈ range m, (|gradX 1 m u i j| + |gradY 1 n u i j|) := by
  unfold tvPart norm1
  simp only [sum_add_distrib]

theorem tvPart_shift (u : Img) (c : ℝ) : tvPart n m (fun i j => u i j + c) = tvPart n m u := by
  simp only [tvPart_sum]
  refine sum_congr rfl fun i _ => sum_congr rfl fun j _ => ?_
  unfold gradX gradY
  congr 2
  · split <;> ring
  · split <;> ring

theorem tvPart_nonneg (u : Img) : 0 ≤ tvPart n m u := by
  rw [tvPart_sum]
  exact sum_nonneg fun i _ => sum_nonneg fun j _ => by positivity

theorem lattice_abs (a b c d : ℝ) : |min a b - min c d| + |max a b - max c d| ≤ |a - c| + |b - d| := by
  rcases le_total a b with h1 | h1 <;> rcases le_total c d with h2 | h2
  · rw [min_eq_left h1, max_eq_right h1, min_eq_left h2, max_eq_right h2]
  · rw [min_eq_left h1, max_eq_right h1, min_eq_right h2, max_eq_left h2]
    rcases abs_cases (a - d) with ⟨e1, _⟩ | ⟨e1, _⟩ <;> rcases abs_cases (b - c) with ⟨e2, _⟩ | ⟨e2, _⟩ <;> rcases abs_cases (a - c) with ⟨e3, _⟩ | ⟨e3, _⟩ <;>
      rcases abs_cases (b - d) with ⟨e4, _⟩ | ⟨e4, _⟩ <;> rw [e1, e2, e3, e4] <;> linarith
  · rw [min_eq_right h1, max_eq_left h1, min_eq_left h2, max_eq_right h2]
    rcases abs_cases (b - c) with ⟨e1, _⟩ | ⟨e1, _⟩ <;> rcases abs_cases (a - d) with ⟨e2, _⟩ | ⟨e2, _⟩ <;> rcases abs_cases (a - c) with ⟨e3, _⟩ | ⟨e3, _⟩ <;>
      rcases abs_cases (b - d) with ⟨e4, _⟩ | ⟨e4, _⟩ <;> rw [e1, e2, e3, e4] <;> linarith
  · rw [min_eq_right h1, max_eq_left h1, min_eq_right h2, max_eq_left h2, add_comm]

theorem tvPart_lattice (u v : Img) : tvPart n m (fun i j => min (u i j) (v i j)) + tvPart n m (fun i j => max (u i j) (v i j)) ≤ tvPart n m u + tvPart n m v := by
  simp only [tvPart_sum, ← sum_add_distrib]
  refine sum_le_sum fun i _ => sum_le_sum fun j _ => ?_
  have h1 : |gradX 1 m (fun i j => min (u i j) (v i j)) i j| + |gradX 1 m (fun i j => max (u i j) (v i j)) i j| ≤ |gradX 1 m u i j| + |gradX 1 m v i j| := by
    unfold gradX
    split
    · simp only [one_mul]; exact lattice_abs _ _ _ _
    · simp
  have h2 : |gradY 1 n (fun i j => min (u i j) (v i j)) i j| + |gradY 1 n (fun i j => max (u i j) (v i j)) i j| ≤ |gradY 1 n u i j| + |gradY 1 n v i j| := by
    unfold gradY
    split
    · simp only [one_mul]; exact lattice_abs _ _ _ _
    · simp
  linarith

theorem dist2_nonneg (u v : Img) : 0 ≤ dist2 n m u v := normSq2_nonneg n m _

theorem dist2_comm (u v : Img) : dist2 n m u v = dist2 n m v u := by
  simp only [dist2_sum]
  exact sum_congr rfl fun i _ => sum_congr rfl fun j _ => by ring

/-- the minimiser has the average of the image -/
theorem StrongMin.mean (hmu : 0 < mu) (h : StrongMin n m mu f u) : ∑ i ∈ range n, ∑ j ∈ range m, u i j = ∑ i ∈ range n, ∑ j ∈ range m, f i j := by
  set S := ∑ i ∈ range n, ∑ j ∈ range m, (u i j - f i j) with hS
  have key : ∀ c : ℝ, 0 ≤ 2 * c * S + (n * m : ℝ) * c ^ 2 := fun c => by
    have h1 := h fun i j => u i j + c
    rw [tvObj_eq, tvObj_eq, tvPart_shift] at h1
    have h2 := dist2_nonneg (n := n) (m := m) (fun i j => u i j + c) u
    have h3 : dist2 n m (fun i j => u i j + c) f = dist2 n m u f + 2 * c * S + (n * m : ℝ) * c ^ 2 := by
      simp only [dist2_sum, hS, mul_sum]
      rw [show (n * m : ℝ) * c ^ 2 = ∑ i ∈ range n, ∑ j ∈ range m, c ^ 2 by simp; ring]
      simp only [← sum_add_distrib]
      exact sum_congr rfl fun i _ => sum_congr rfl fun j _ => by ring
    rw [h3] at h1
    have h4 : 0 ≤ mu / 2 * dist2 n m (fun i j => u i j + c) u := mul_nonneg (half_pos hmu).le h2
    by_contra hc
    push Not at hc
    have := mul_neg_of_pos_of_neg (half_pos hmu) hc
    linarith
  have hz : S = 0 := by
    by_contra hc
    have hn : (0 : ℝ) ≤ n * m := by positivity
    have h1 := key (-S / (n * m + 1))
    have hp : (0 : ℝ) < n * m + 1 := by positivity
    have e : 2 * (-S / (n * m + 1)) * S + (n * m : ℝ) * (-S / (n * m + 1)) ^ 2 = -(S ^ 2 * (n * m + 2)) / (n * m + 1) ^ 2 := by
      field_simp
      ring
    rw [e] at h1
    have : 0 < S ^ 2 * (n * m + 2) := mul_pos (by positivity) (by positivity)
    have h2 : -(S ^ 2 * (n * m + 2)) / (n * m + 1) ^ 2 < 0 := div_neg_of_neg_of_pos (by linarith) (by positivity)
    linarith
  have : S = ∑ i ∈ range n, ∑ j ∈ range m, u i j - ∑ i ∈ range n, ∑ j ∈ range m, f i j := by
    rw [hS]; simp only [sum_sub_distrib]
  linarith

/-- minimisers are not farther apart than the images -/
theorem StrongMin.nonexpansive (hmu : 0 < mu) (hu : StrongMin n m mu f u) (hv : StrongMin n m mu g v) : dist2 n m u v ≤ dist2 n m f g := by
  have h1 := hu v
  have h2 := hv u
  rw [tvObj_eq, tvObj_eq] at h1 h2
  rw [dist2_comm v u] at h1
  have h3 : mu * dist2 n m u v ≤ mu / 2 * (dist2 n m v f - dist2 n m u f + dist2 n m u g - dist2 n m v g) := by linarith
  have h4 : 2 * dist2 n m u v ≤ dist2 n m v f - dist2 n m u f + dist2 n m u g - dist2 n m v g := by
    by_contra hc
    push Not at hc
    have := mul_lt_mul_of_pos_left hc (half_pos hmu)
    linarith
  have h5 : 0 ≤ dist2 n m u v - (dist2 n m v f - dist2 n m u f + dist2 n m u g - dist2 n m v g) + dist2 n m f g := by
    have h := normSq2_nonneg n m fun i j => (u i j - v i j) - (f i j - g i j)
    have e : normSq2 n m (fun i j => (u i j - v i j) - (f i j - g i j)) =
        dist2 n m u v - (dist2 n m v f - dist2 n m u f + dist2 n m u g - dist2 n m v g) + dist2 n m f g := by
      unfold normSq2 inner2
      simp only [dist2_sum, ← sum_add_distrib, ← sum_sub_distrib]
      exact sum_congr rfl fun i _ => sum_congr rfl fun j _ => by ring
    rw [← e]; exact h
  linarith

/-- a brighter image has a brighter minimiser -/
theorem StrongMin.mono (hmu : 0 < mu) (hu : StrongMin n m mu f u) (hv : StrongMin n m mu g v) (hfg : ∀ i < n, ∀ j < m, f i j ≤ g i j) :
    ∀ i < n, ∀ j < m, u i j ≤ v i j := by
  have h1 := hu fun i j => min (u i j) (v i j)
  have h2 := hv fun i j => max (u i j) (v i j)
  have h3 := tvPart_lattice (n := n) (m := m) u v
  rw [tvObj_eq, tvObj_eq] at h1 h2
  have e : dist2 n m (fun i j => min (u i j) (v i j)) f - dist2 n m u f - dist2 n m (fun i j => min (u i j) (v i j)) u +
      (dist2 n m (fun i j => max (u i j) (v i j)) g - dist2 n m v g - dist2 n m (fun i j => max (u i j) (v i j)) v) ≤
      -2 * ∑ i ∈ range n, ∑ j ∈ range m, max (u i j - v i j) 0 * max (u i j - v i j) 0 := by
    simp only [dist2_sum, mul_sum, ← sum_add_distrib, ← sum_sub_distrib]
    refine sum_le_sum fun i hi => sum_le_sum fun j hj => ?_
    have hf := hfg i (mem_range.1 hi) j (mem_range.1 hj)
    rcases le_total (u i j) (v i j) with h | h
    · rw [min_eq_left h, max_eq_right h, max_eq_right (sub_nonpos.2 h)]
      linarith
    · rw [min_eq_right h, max_eq_left h, max_eq_left (sub_nonneg.2 h)]
      nlinarith
  have h4 : mu / 2 * (2 * ∑ i ∈ range n, ∑ j ∈ range m, max (u i j - v i j) 0 * max (u i j - v i j) 0) ≤ 0 := by
    have := mul_le_mul_of_nonneg_left e (half_pos hmu).le
    linarith
  have h5 : normSq2 n m (fun i j => max (u i j - v i j) 0) = 0 := by
    have a := normSq2_nonneg n m fun i j => max (u i j - v i j) 0
    have b : normSq2 n m (fun i j => max (u i j - v i j) 0) = ∑ i ∈ range n, ∑ j ∈ range m, max (u i j - v i j) 0 * max (u i j - v i j) 0 := rfl
    rw [← b] at h4
    nlinarith
  intro i hi j hj
  have := normSq2_eq_zero h5 i hi j hj
  have h6 := le_max_left (u i j - v i j) 0
  dsimp only at this
  linarith

theorem strongMin_const (c : ℝ) : StrongMin n m mu (fun _ _ => c) fun _ _ => c := by
  intro v
  have e1 : tvPart n m (fun _ _ => c) = 0 := by
    rw [tvPart_sum]
    refine sum_eq_zero fun i _ => sum_eq_zero fun j _ => ?_
    unfold gradX gradY
    split_ifs <;> simp
  have e2 : dist2 n m (fun _ _ => c) (fun _ _ => c) = 0 := by simp [dist2_sum]
  rw [tvObj_eq, tvObj_eq, e1, e2]
  have := tvPart_nonneg (n := n) (m := m) v
  linarith

/-- the minimiser stays in the range of the image -/
theorem StrongMin.range (hmu : 0 < mu) (hu : StrongMin n m mu f u) {lo hi : ℝ} (h : ∀ i < n, ∀ j < m, lo ≤ f i j ∧ f i j ≤ hi) :
    ∀ i < n, ∀ j < m, lo ≤ u i j ∧ u i j ≤ hi := fun i hi' j hj =>
  ⟨(strongMin_const lo).mono hmu hu (fun i hi j hj => (h i hi j hj).1) i hi' j hj,
    hu.mono hmu (strongMin_const hi) (fun i hi j hj => (h i hi j hj).2) i hi' j hj⟩

/-! ## Mirrored and transposed images -/

theorem diff_reflect (k : ℕ) (x : ℕ → ℝ) :
    ∑ j ∈ range k, |if j + 1 < k then 1 * (x (k - 1 - (j + 1)) - x (k - 1 - j)) else 0| = ∑ j ∈ range k, |if j + 1 < k then 1 * (x (j + 1) - x j) else 0| := by
  rcases k with _ | k
  · simp
  rw [sum_range_succ, sum_range_succ, if_neg (lt_irrefl _), if_neg (lt_irrefl _), ← sum_range_reflect]
  congr 1
  refine sum_congr rfl fun j hj => ?_
  have hj := mem_range.1 hj
  rw [if_pos (by omega), if_pos (by omega), show k + 1 - 1 - (k - 1 - j + 1) = j by omega, show k + 1 - 1 - (k - 1 - j) = j + 1 by omega, one_mul, one_mul, abs_sub_comm]

theorem tvPart_flipV (u : Img) : tvPart n m (flipV n u) = tvPart n m u := by
  unfold tvPart norm1
  congr 1
  · rw [← sum_range_reflect]
    refine sum_congr rfl fun i hi => sum_congr rfl fun j _ => ?_
    have hi := mem_range.1 hi
    unfold gradX flipV
    rw [show n - 1 - (n - 1 - i) = i by omega]
  · rw [sum_comm, sum_comm (s := range n)]
    refine sum_congr rfl fun j _ => ?_
    exact diff_reflect n fun i => u i j

theorem tvPart_transp (u : Img) : tvPart m n (transp u) = tvPart n m u := by
  unfold tvPart norm1
  rw [add_comm]
  congr 1
  · rw [sum_comm]; rfl
  · rw [sum_comm]; rfl

theorem flipH_transp (u : Img) : flipH m u = transp (flipV m (transp u)) := rfl

theorem tvPart_flipH (u : Img) : tvPart n m (flipH m u) = tvPart n m u := by
  rw [flipH_transp, tvPart_transp, tvPart_flipV, tvPart_transp]

theorem dist2_flipV (u v : Img) : dist2 n m (flipV n u) (flipV n v) = dist2 n m u v := by
  simp only [dist2_sum]
  rw [← sum_range_reflect]
  refine sum_congr rfl fun i hi => sum_congr rfl fun j _ => ?_
  have hi := mem_range.1 hi
  unfold flipV
  rw [show n - 1 - (n - 1 - i) = i by omega]

theorem dist2_transp (u v : Img) : dist2 m n (transp u) (transp v) = dist2 n m u v := by
  simp only [dist2_sum]
  rw [sum_comm]
  rfl

theorem dist2_flipH (u v : Img) : dist2 n m (flipH m u) (flipH m v) = dist2 n m u v := by
  rw [flipH_transp, flipH_transp, dist2_transp, dist2_flipV, dist2_transp]

theorem tvBudget_eq (f : Img) : tvBudget n m mu f = 20 * tvPart n m f ^ 2 + 5 * (n * m) / mu ^ 2 := rfl

/-- a change of pixel positions that keeps differences of neighbours and distances -/
structure Turn (n m n' m' : ℕ) (σ τ : Img → Img) : Prop where
  back : ∀ v, ImgEq n' m' (σ (τ v)) v
  tv : ∀ v, tvPart n' m' (σ v) = tvPart n m v
  tv' : ∀ v, tvPart n m (τ v) = tvPart n' m' v
  dist : ∀ v w, dist2 n' m' (σ v) (σ w) = dist2 n m v w

theorem turn_flipV : Turn n m n m (flipV n) (flipV n) :=
  ⟨fun v i hi j _ => by unfold flipV; rw [show n - 1 - (n - 1 - i) = i by omega], tvPart_flipV, tvPart_flipV, dist2_flipV⟩

theorem turn_flipH : Turn n m n m (flipH m) (flipH m) :=
  ⟨fun v i _ j hj => by unfold flipH; rw [show m - 1 - (m - 1 - j) = j by omega], tvPart_flipH, tvPart_flipH, dist2_flipH⟩

theorem turn_transp : Turn n m m n transp transp :=
  ⟨fun _ _ _ _ _ => rfl, tvPart_transp, tvPart_transp, dist2_transp⟩

theorem StrongMin.turn {n' m' : ℕ} {σ τ : Img → Img} (hT : Turn n m n' m' σ τ) (h : StrongMin n m mu f u) : StrongMin n' m' mu (σ f) (σ u) := by
  intro v
  have e : ∀ w, dist2 n' m' v (σ w) = dist2 n m (τ v) w := fun w => by
    rw [dist2_comm, ← dist2_congr (hT.back v), hT.dist, dist2_comm]
  have := h (τ v)
  rw [tvObj_eq, tvObj_eq, hT.tv'] at this
  rwa [tvObj_eq, tvObj_eq, e, e, hT.tv, hT.dist]

theorem Turn.budget {n' m' : ℕ} {σ τ : Img → Img} (hT : Turn n m n' m' σ τ) (hs : n' * m' = n * m) (f : Img) : tvBudget n' m' mu (σ f) = tvBudget n m mu f := by
  have : (n' * m' : ℝ) = n * m := by exact_mod_cast hs
  rw [tvBudget_eq, tvBudget_eq, hT.tv, this]

/-! ## Images near a minimiser -/

theorem pixel_near {eps : ℝ} (h : dist2 n m u v ≤ eps) : ∀ i < n, ∀ j < m, |u i j - v i j| ≤ √eps := by
  intro i hi j hj
  refine Real.abs_le_sqrt (le_trans ?_ h)
  rw [dist2_sum]
  calc (u i j - v i j) ^ 2 = (u i j - v i j) * (u i j - v i j) := sq _
    _ ≤ ∑ j ∈ range m, (u i j - v i j) * (u i j - v i j) :=
        single_le_sum (f := fun j => (u i j - v i j) * (u i j - v i j)) (fun _ _ => mul_self_nonneg _) (mem_range.2 hj)
    _ ≤ _ := single_le_sum (f := fun i => ∑ j ∈ range m, (u i j - v i j) * (u i j - v i j))
        (fun _ _ => sum_nonneg fun _ _ => mul_self_nonneg _) (mem_range.2 hi)

theorem pixelSum_near {eps : ℝ} (h : dist2 n m u v ≤ eps) : |pixelSum n m u - pixelSum n m v| ≤ √(n * m * eps) := by
  refine Real.abs_le_sqrt ?_
  have e : pixelSum n m u - pixelSum n m v = ∑ p ∈ range n ×ˢ range m, (u p.1 p.2 - v p.1 p.2) := by
    rw [sum_product]; unfold pixelSum; simp only [sum_sub_distrib]
  have e2 : dist2 n m u v = ∑ p ∈ range n ×ˢ range m, (u p.1 p.2 - v p.1 p.2) ^ 2 := by
    rw [sum_product, dist2_sum]
    exact sum_congr rfl fun _ _ => sum_congr rfl fun _ _ => (sq _).symm
  rw [e]
  refine sq_sum_le_card_mul_sum_sq.trans ?_
  rw [← e2, card_product, card_range, card_range, Nat.cast_mul]
  exact mul_le_mul_of_nonneg_left h (by positivity)

theorem dist_triangle (u v w : Img) : √(dist2 n m u w) ≤ √(dist2 n m u v) + √(dist2 n m v w) := by
  have e2 : ∀ u v : Img, dist2 n m u v = ∑ p ∈ range n ×ˢ range m, (u p.1 p.2 - v p.1 p.2) ^ 2 := fun u v => by
    rw [sum_product, dist2_sum]
    exact sum_congr rfl fun _ _ => sum_congr rfl fun _ _ => (sq _).symm
  rw [Real.sqrt_le_left (by positivity), add_sq, Real.sq_sqrt (dist2_nonneg _ _), Real.sq_sqrt (dist2_nonneg _ _)]
  have h := Real.sum_mul_le_sqrt_mul_sqrt (range n ×ˢ range m) (fun p => u p.1 p.2 - v p.1 p.2) (fun p => v p.1 p.2 - w p.1 p.2)
  rw [← e2, ← e2] at h
  have e : dist2 n m u w = dist2 n m u v + 2 * ∑ p ∈ range n ×ˢ range m, (u p.1 p.2 - v p.1 p.2) * (v p.1 p.2 - w p.1 p.2) + dist2 n m v w := by
    simp only [e2, mul_sum, ← sum_add_distrib]
    exact sum_congr rfl fun _ _ => by ring
  rw [e]
  linarith

end L1c
