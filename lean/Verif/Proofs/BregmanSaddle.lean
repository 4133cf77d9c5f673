import Verif.Proofs.BregmanGS
import Mathlib.Topology.Order.Compact
import Mathlib.Topology.Algebra.Order.Field
import Mathlib.Topology.Instances.Real.Lemmas
import Mathlib.Analysis.Convex.Basic

/-!
Helper lemmas: the TV denoising problem has a minimiser with a dual certificate, obtained from the dual problem
(least squares over a box, which is compact).
-/

namespace L1c
open Finset

variable {n m : ℕ} {mu lam : ℝ} {f : Img}

/-- optimality conditions of the denoising problem, with multipliers `bx`, `bY` -/
structure Saddle (n m : ℕ) (mu lam : ℝ) (f us bx bY : Img) : Prop where
  hx : ∀ i < n, ∀ j < m, |lam * bx i j| ≤ 1
  hy : ∀ i < n, ∀ j < m, |lam * bY i j| ≤ 1
  ex : ∀ i < n, ∀ j < m, lam * bx i j * gradX 1 m us i j = |gradX 1 m us i j|
  ey : ∀ i < n, ∀ j < m, lam * bY i j * gradY 1 n us i j = |gradY 1 n us i j|
  st : ∀ v, mu * inner2 n m (fun i j => us i j - f i j) v + lam * inner2 n m bx (gradX 1 m v)
    + lam * inner2 n m bY (gradY 1 n v) = 0

theorem inner2_gradXT (b v : Img) : inner2 n m (gradXT lam m b) v = lam * inner2 n m b (gradX 1 m v) := by
  rw [inner2_swap, ← gradX_adjoint, ← inner2_smul, inner2_swap]
  unfold inner2
  refine sum_congr rfl fun i _ => sum_congr rfl fun j _ => ?_
  unfold gradX; split <;> ring

theorem inner2_gradYT (b v : Img) : inner2 n m (gradYT lam n b) v = lam * inner2 n m b (gradY 1 n v) := by
  rw [inner2_swap, ← gradY_adjoint, ← inner2_smul, inner2_swap]
  unfold inner2
  refine sum_congr rfl fun i _ => sum_congr rfl fun j _ => ?_
  unfold gradY; split <;> ring

/-- primal image of a dual point -/
noncomputable def dualImg (n m : ℕ) (mu lam : ℝ) (f : Img) (p : Img × Img) : Img := fun i j =>
  f i j - (1 / mu) * (gradXT lam m p.1 i j + gradYT lam n p.2 i j)

theorem cont_pix (i j : ℕ) : Continuous fun p : Img => p i j := (continuous_apply j).comp (continuous_apply i)

theorem cont_dual (i j : ℕ) : Continuous fun p : Img × Img => dualImg n m mu lam f p i j := by
  unfold dualImg gradXT gradYT adjRow
  have h1 : ∀ a b, Continuous fun p : Img × Img => p.1 a b := fun a b => (cont_pix a b).comp continuous_fst
  have h2 : ∀ a b, Continuous fun p : Img × Img => p.2 a b := fun a b => (cont_pix a b).comp continuous_snd
  refine continuous_const.sub (continuous_const.mul ((continuous_const.mul ?_).add (continuous_const.mul ?_)))
  · refine Continuous.sub ?_ ?_
    · split
      · exact continuous_const
      · exact h1 _ _
    · split
      · exact h1 _ _
      · exact continuous_const
  · refine Continuous.sub ?_ ?_
    · split
      · exact continuous_const
      · exact h2 _ _
    · split
      · exact h2 _ _
      · exact continuous_const

/-- a linear-plus-quadratic function that is nonnegative near `0` on the right has nonnegative slope -/
theorem slope_nonneg {a c : ℝ} (h : ∀ t, 0 < t → t ≤ 1 → 0 ≤ t * a + t ^ 2 * c) : 0 ≤ a := by
  by_contra hn
  push Not at hn
  have hc : 0 < |c| + 1 := by positivity
  have h1 : 0 < -a / (|c| + 1 - a) := div_pos (by linarith) (by linarith)
  have h2 : -a / (|c| + 1 - a) ≤ 1 := by rw [div_le_one (by linarith)]; linarith
  have h3 := h _ h1 h2
  set t := -a / (|c| + 1 - a) with ht
  have h4 : 0 ≤ a + t * c := by
    have : 0 ≤ t * (a + t * c) := by nlinarith
    exact nonneg_of_mul_nonneg_right this h1
  have h5 : t * (|c| + 1 - a) = -a := by 
    have : 0 < |c| + 1 - a := by linarith
    rw [ht]; exact div_mul_cancel₀ _ this.ne'
  have h6 := le_abs_self c
  have h7 : t * c ≤ t * |c| := mul_le_mul_of_nonneg_left h6 h1.le
  nlinarith

theorem normSq2_shift (u y : Img) (t : ℝ) : normSq2 n m (fun i j => u i j - t * y i j)
    = normSq2 n m u - 2 * t * inner2 n m u y + t ^ 2 * normSq2 n m y := by
  unfold normSq2 inner2
  simp only [mul_sum]
  rw [← sum_sub_distrib, ← sum_add_distrib]
  refine sum_congr rfl fun i _ => ?_
  rw [← sum_sub_distrib, ← sum_add_distrib]
  exact sum_congr rfl fun j _ => by ring

/-- equal sums with a termwise inequality are termwise equal -/
theorem sum2_eq_of_le {u v : Img} (h : ∀ i < n, ∀ j < m, u i j ≤ v i j) (hs : sum2 n m v ≤ sum2 n m u) :
    ∀ i < n, ∀ j < m, u i j = v i j := by
  have h0 : sum2 n m (fun i j => v i j + -1 * u i j) = 0 := by
    rw [sum2_add, sum2_smul]
    have := sum2_le h
    linarith
  intro i hi j hj
  unfold sum2 at h0
  have hp : ∀ i ∈ range n, 0 ≤ ∑ j ∈ range m, (v i j + -1 * u i j) := fun i hi =>
    sum_nonneg fun j hj => by have := h i (mem_range.1 hi) j (mem_range.1 hj); linarith
  have h1 := (sum_eq_zero_iff_of_nonneg hp).1 h0 i (mem_range.2 hi)
  have h2 := (sum_eq_zero_iff_of_nonneg fun j hj => by
    have := h i hi j (mem_range.1 hj); linarith).1 h1 j (mem_range.2 hj)
  linarith

theorem sgn_spec (x : ℝ) : (if 0 ≤ x then (1 : ℝ) else -1) * x = |x| := by
  split
  · rename_i h; rw [abs_of_nonneg h, one_mul]
  · rename_i h; rw [abs_of_neg (by linarith)]; ring

theorem saddle_exists (n m : ℕ) (hmu : 0 < mu) (hlam : 0 < lam) (f : Img) : ∃ us bx bY, Saddle n m mu lam f us bx bY := by
  have hg : (0 : ℝ) < 1 / lam := by positivity
  set lo : Img × Img := (fun _ _ => -(1 / lam), fun _ _ => -(1 / lam)) with hlo
  set hi : Img × Img := (fun _ _ => 1 / lam, fun _ _ => 1 / lam) with hhi
  have hne : (Set.Icc lo hi).Nonempty := ⟨lo, le_refl _, ⟨fun _ _ => by simp only [hlo, hhi]; linarith, fun _ _ => by simp only [hlo, hhi]; linarith⟩⟩
  have hcont : Continuous fun p : Img × Img => normSq2 n m (dualImg n m mu lam f p) := by
    unfold normSq2 inner2
    exact continuous_finsetSum _ fun i _ => continuous_finsetSum _ fun j _ => (cont_dual i j).mul (cont_dual i j)
  obtain ⟨p, hp, hmin⟩ := isCompact_Icc.exists_isMinOn hne hcont.continuousOn
  set us := dualImg n m mu lam f p with hus
  -- first-order condition
  have hfo : ∀ q ∈ Set.Icc lo hi, lam * inner2 n m q.1 (gradX 1 m us) + lam * inner2 n m q.2 (gradY 1 n us)
      ≤ lam * inner2 n m p.1 (gradX 1 m us) + lam * inner2 n m p.2 (gradY 1 n us) := by
    intro q hq
    set y : Img := fun i j => (1 / mu) * (gradXT lam m (fun i j => q.1 i j - p.1 i j) i j + gradYT lam n (fun i j => q.2 i j - p.2 i j) i j) with hy
    have key : ∀ t, 0 < t → t ≤ 1 → 0 ≤ t * (-2 * inner2 n m us y) + t ^ 2 * normSq2 n m y := by
      intro t ht0 ht1
      have hmem : ((fun i j => p.1 i j + t * (q.1 i j - p.1 i j), fun i j => p.2 i j + t * (q.2 i j - p.2 i j)) : Img × Img) ∈ Set.Icc lo hi := by
        obtain ⟨⟨p1, p2⟩, p3, p4⟩ := hp
        obtain ⟨⟨q1, q2⟩, q3, q4⟩ := hq
        have cvx : ∀ {a b l h : ℝ}, l ≤ a → a ≤ h → l ≤ b → b ≤ h → l ≤ a + t * (b - a) ∧ a + t * (b - a) ≤ h := by
          intro a b l h h1 h2 h3 h4
          have e : a + t * (b - a) = (1 - t) * a + t * b := by ring
          have ht : 0 ≤ 1 - t := by linarith
          rw [e]
          constructor
          · have := mul_le_mul_of_nonneg_left h1 ht; have := mul_le_mul_of_nonneg_left h3 ht0.le; linarith
          · have := mul_le_mul_of_nonneg_left h2 ht; have := mul_le_mul_of_nonneg_left h4 ht0.le; linarith
        exact ⟨⟨fun i j => (cvx (p1 i j) (p3 i j) (q1 i j) (q3 i j)).1, fun i j => (cvx (p2 i j) (p4 i j) (q2 i j) (q4 i j)).1⟩,
          fun i j => (cvx (p1 i j) (p3 i j) (q1 i j) (q3 i j)).2, fun i j => (cvx (p2 i j) (p4 i j) (q2 i j) (q4 i j)).2⟩
      have h1 := hmin hmem
      have e : dualImg n m mu lam f (fun i j => p.1 i j + t * (q.1 i j - p.1 i j), fun i j => p.2 i j + t * (q.2 i j - p.2 i j))
          = fun i j => us i j - t * y i j := by
        funext i j
        simp only [hus, hy]
        unfold dualImg gradXT gradYT adjRow
        split_ifs <;> ring
      have h2 : normSq2 n m us ≤ normSq2 n m (fun i j => us i j - t * y i j) := by rw [← e]; exact h1
      rw [normSq2_shift] at h2
      linarith
    have h1 := slope_nonneg key
    have h2 : inner2 n m us y = (1 / mu) * (lam * inner2 n m (fun i j => q.1 i j - p.1 i j) (gradX 1 m us)
        + lam * inner2 n m (fun i j => q.2 i j - p.2 i j) (gradY 1 n us)) := by
      rw [inner2_swap, hy, inner2_smul, inner2_add, inner2_gradXT, inner2_gradYT]
    rw [inner2_sub, inner2_sub] at h2
    have h3 : inner2 n m us y ≤ 0 := by linarith
    rw [h2] at h3
    have hpos : 0 < 1 / mu := by positivity
    have := nonpos_of_mul_nonpos_right h3 hpos
    linarith
  have bnd : ∀ x : ℝ, -(1 / lam) ≤ x → x ≤ 1 / lam → |lam * x| ≤ 1 := by
    intro x h1 h2
    rw [abs_mul, abs_of_pos hlam]
    have : |x| ≤ 1 / lam := abs_le.2 ⟨h1, h2⟩
    calc lam * |x| ≤ lam * (1 / lam) := mul_le_mul_of_nonneg_left this hlam.le
      _ = 1 := by field_simp
  have px : ∀ i j, |lam * p.1 i j| ≤ 1 := fun i j => bnd _ (hp.1.1 i j) (hp.2.1 i j)
  have py : ∀ i j, |lam * p.2 i j| ≤ 1 := fun i j => bnd _ (hp.1.2 i j) (hp.2.2 i j)
  have tw : ∀ {a g : ℝ}, |lam * a| ≤ 1 → lam * a * g ≤ |g| := fun {a g} h => by
    calc lam * a * g ≤ |lam * a * g| := le_abs_self _
      _ = |lam * a| * |g| := abs_mul _ _
      _ ≤ 1 * |g| := mul_le_mul_of_nonneg_right h (abs_nonneg _)
      _ = |g| := one_mul _
  have sgnb : ∀ x : ℝ, -(1 / lam) ≤ 1 / lam * (if 0 ≤ x then (1 : ℝ) else -1) ∧ 1 / lam * (if 0 ≤ x then (1 : ℝ) else -1) ≤ 1 / lam := by
    intro x; split <;> constructor <;> linarith
  have tosum : ∀ b g : Img, lam * inner2 n m b g = sum2 n m fun i j => lam * b i j * g i j := by
    intro b g
    unfold inner2 sum2
    simp only [mul_sum]
    exact sum_congr rfl fun i _ => sum_congr rfl fun j _ => by ring
  have sgs : ∀ g : Img, lam * inner2 n m (fun i j => 1 / lam * (if 0 ≤ g i j then (1 : ℝ) else -1)) g = sum2 n m fun i j => |g i j| := by
    intro g
    rw [tosum]
    refine sum2_congr fun i _ j _ => ?_
    rw [← sgn_spec (g i j)]
    field_simp
  refine ⟨us, p.1, p.2, fun i _ j _ => px i j, fun i _ j _ => py i j, ?_, ?_, ?_⟩
  · have h := hfo (fun i j => 1 / lam * (if 0 ≤ gradX 1 m us i j then (1 : ℝ) else -1), p.2)
      ⟨⟨fun i j => (sgnb _).1, hp.1.2⟩, fun i j => (sgnb _).2, hp.2.2⟩
    simp only at h
    rw [sgs, tosum p.1] at h
    exact sum2_eq_of_le (fun i _ j _ => tw (px i j)) (by linarith)
  · have h := hfo (p.1, fun i j => 1 / lam * (if 0 ≤ gradY 1 n us i j then (1 : ℝ) else -1))
      ⟨⟨hp.1.1, fun i j => (sgnb _).1⟩, hp.2.1, fun i j => (sgnb _).2⟩
    simp only at h
    rw [sgs, tosum p.2] at h
    exact sum2_eq_of_le (fun i _ j _ => tw (py i j)) (by linarith)
  · intro v
    have e : (fun i j => us i j - f i j) = fun i j => -(1 / mu) * (gradXT lam m p.1 i j + gradYT lam n p.2 i j) := by
      funext i j
      simp only [hus]
      unfold dualImg; ring
    rw [e, inner2_smul, inner2_add, inner2_gradXT, inner2_gradYT]
    field_simp
    ring

theorem Saddle.strong {us bx bY : Img} (h : Saddle n m mu lam f us bx bY) (v : Img) :
    tvObj n m mu f us + mu / 2 * normSq2 n m (fun i j => v i j - us i j) ≤ tvObj n m mu f v :=
  tv_strong h.hx h.hy h.ex h.ey h.st v

end L1c
