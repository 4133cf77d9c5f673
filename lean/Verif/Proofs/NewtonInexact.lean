import Verif.Proofs.NewtonCentre

/-! # How accurately the linear systems have to be solved -/

namespace L1c
open Scalar Matrix

variable {n m : ℕ} {A : Matrix (Fin n) (Fin m) ℝ} {b : Fin n → ℝ} {eps tau G a : ℝ}

/-- the `x` part of a direction is no longer than its rates allow -/
theorem dir_nrm {p : XU m} (h : StrictFeas A b eps p) {U : ℝ} (hU : 0 ≤ U) (h1 : ∀ i, p.2 i - p.1 i ≤ U) (h2 : ∀ i, p.2 i + p.1 i ≤ U) (e : XU m) :
    nrm e.1 ≤ U * √(∑ k, rate A b eps p e k ^ 2) := by
  refine nrm_le_of_sq (mul_nonneg hU (Real.sqrt_nonneg _)) ?_
  have hs : 0 ≤ ∑ k, rate A b eps p e k ^ 2 := Finset.sum_nonneg fun k _ => sq_nonneg _
  rw [mul_mul_mul_comm, Real.mul_self_sqrt hs, Fintype.sum_sum_type, Fintype.sum_sum_type, ← Finset.sum_add_distrib]
  have hi : ∀ i, e.1 i * e.1 i ≤ U * U * (rate A b eps p e (.inl (.inl i)) ^ 2 + rate A b eps p e (.inl (.inr i)) ^ 2) := by
    intro i
    have a1 : 0 < p.2 i - p.1 i := by linarith [(h.1 i).2]
    have a2 : 0 < p.2 i + p.1 i := by linarith [(h.1 i).1]
    have e1 : (e.1 i - e.2 i) = rate A b eps p e (.inl (.inl i)) * (p.2 i - p.1 i) := by
      show _ = (e.1 i - e.2 i) / (p.2 i - p.1 i) * _
      rw [div_mul_cancel₀ _ a1.ne']
    have e2 : -(e.1 i + e.2 i) = rate A b eps p e (.inl (.inr i)) * (p.2 i + p.1 i) := by
      show _ = -(e.1 i + e.2 i) / (p.2 i + p.1 i) * _
      rw [div_mul_cancel₀ _ a2.ne']
    generalize rate A b eps p e (.inl (.inl i)) = r1 at *
    generalize rate A b eps p e (.inl (.inr i)) = r2 at *
    have e3 : e.1 i = (r1 * (p.2 i - p.1 i) - r2 * (p.2 i + p.1 i)) / 2 := by linarith
    have q1 : (r1 * (p.2 i - p.1 i)) ^ 2 ≤ U * U * r1 ^ 2 := by
      rw [mul_pow, mul_comm]
      exact mul_le_mul_of_nonneg_right (by nlinarith [h1 i]) (sq_nonneg _)
    have q2 : (r2 * (p.2 i + p.1 i)) ^ 2 ≤ U * U * r2 ^ 2 := by
      rw [mul_pow, mul_comm]
      exact mul_le_mul_of_nonneg_right (by nlinarith [h2 i]) (sq_nonneg _)
    rw [e3]
    nlinarith [sq_nonneg (r1 * (p.2 i - p.1 i) + r2 * (p.2 i + p.1 i)), sq_nonneg (r1 * (p.2 i - p.1 i)), sq_nonneg (r2 * (p.2 i + p.1 i))]
  have hsum : e.1 ⬝ᵥ e.1 ≤ U * U * ∑ i, (rate A b eps p e (.inl (.inl i)) ^ 2 + rate A b eps p e (.inl (.inr i)) ^ 2) := by
    rw [Finset.mul_sum]
    exact Finset.sum_le_sum fun i _ => hi i
  refine hsum.trans (mul_le_mul_of_nonneg_left ?_ (mul_nonneg hU hU))
  have : 0 ≤ ∑ k : Fin 2, rate A b eps p e (.inr k) ^ 2 := Finset.sum_nonneg fun k _ => sq_nonneg _
  linarith

/-! ## Slacks where the barrier objective is not too large -/

theorem barrier_terms (htau : 0 < tau) (p : XU m) :
    tau * barrier A b eps tau p = ∑ i, (tau / 2 * (p.2 i - p.1 i) - Real.log (p.2 i - p.1 i)) + ∑ i, (tau / 2 * (p.2 i + p.1 i) - Real.log (p.2 i + p.1 i)) -
      Real.log (slackR A b eps p.1 / 2) := by
  have e : tau * barrier A b eps tau p = tau * ∑ i, p.2 i - (∑ i, Real.log (p.2 i - p.1 i) + ∑ i, Real.log (p.2 i + p.1 i) +
      Real.log (slackR A b eps p.1 / 2)) := by
    unfold barrier slackR; field_simp
  have e2 : tau * ∑ i, p.2 i = ∑ i, (tau / 2 * (p.2 i - p.1 i)) + ∑ i, (tau / 2 * (p.2 i + p.1 i)) := by
    rw [Finset.mul_sum, ← Finset.sum_add_distrib]
    exact Finset.sum_congr rfl fun i _ => by ring
  rw [e, e2, Finset.sum_sub_distrib, Finset.sum_sub_distrib]
  ring

theorem log_term (htau : 0 < tau) {y : ℝ} (hy : 0 < y) : 1 + Real.log (tau / 2) ≤ tau / 2 * y - Real.log y := by
  have l1 := Real.log_le_sub_one_of_pos (mul_pos hy (half_pos htau))
  rw [Real.log_mul hy.ne' (half_pos htau).ne'] at l1
  linarith

theorem log_slack {p : XU m} (h : StrictFeas A b eps p) : Real.log (slackR A b eps p.1 / 2) ≤ Real.log (eps ^ 2 / 2) := by
  have hs := h.slack
  refine Real.log_le_log (by linarith) ?_
  unfold slackR
  linarith [dot_self_nonneg (A *ᵥ p.1 - b)]

/-- a sum in which each term is at least `c`: one term cannot exceed `c` by more than the sum exceeds its bound -/
theorem one_term {c : ℝ} {f : Fin m → ℝ} (h : ∀ i, c ≤ f i) (i : Fin m) : f i - c ≤ ∑ i, f i - m * c := by
  have := Finset.single_le_sum (f := fun i => f i - c) (fun i _ => sub_nonneg.2 (h i)) (Finset.mem_univ i)
  simpa [Finset.sum_sub_distrib] using this

theorem all_terms {c : ℝ} {f : Fin m → ℝ} (h : ∀ i, c ≤ f i) : (m : ℝ) * c ≤ ∑ i, f i := by
  have := Finset.sum_le_sum fun i (_ : i ∈ Finset.univ) => h i
  simpa using this

theorem term_bounds (htau : 0 < tau) {y : ℝ} (hy : 0 < y) (h : tau / 2 * y - Real.log y - (1 + Real.log (tau / 2)) ≤ G) :
    1 / y ≤ tau / 2 * Real.exp (G + 1) ∧ y ≤ 4 / tau * (G + 1) := by
  constructor
  · have h1 : Real.log (1 / y) ≤ Real.log (tau / 2 * Real.exp (G + 1)) := by
      rw [Real.log_mul (half_pos htau).ne' (Real.exp_pos _).ne', Real.log_exp, Real.log_div one_ne_zero hy.ne', Real.log_one]
      have : 0 < tau / 2 * y := by positivity
      linarith
    exact (Real.log_le_log_iff (by positivity) (by positivity)).1 h1
  · have hz : 0 < tau / 4 * y := by positivity
    have l1 := Real.log_le_sub_one_of_pos hz
    have e : tau / 4 * y = (tau / 2 * y) * (1 / 2) := by ring
    rw [e, Real.log_mul (by positivity) (by norm_num), Real.log_mul (half_pos htau).ne' hy.ne'] at l1
    have l2 : Real.log (1 / 2) = -Real.log 2 := by rw [one_div, Real.log_inv]
    have l3 := Real.log_le_sub_one_of_pos (show (0 : ℝ) < 2 by norm_num)
    have h4 : tau / 4 * y ≤ G + 1 := by linarith
    have : y = 4 / tau * (tau / 4 * y) := by field_simp
    rw [this]
    exact mul_le_mul_of_nonneg_left h4 (by positivity)

theorem slack_bounds (htau : 0 < tau) {p : XU m} (h : StrictFeas A b eps p) (hG : tau * barrier A b eps tau p ≤ barrierLow m eps tau + G) :
    (∀ i, 1 / (p.2 i - p.1 i) ≤ tau / 2 * Real.exp (G + 1) ∧ p.2 i - p.1 i ≤ 4 / tau * (G + 1)) ∧
    (∀ i, 1 / (p.2 i + p.1 i) ≤ tau / 2 * Real.exp (G + 1) ∧ p.2 i + p.1 i ≤ 4 / tau * (G + 1)) ∧
    1 / (slackR A b eps p.1 / 2) ≤ 2 / eps ^ 2 * Real.exp G := by
  have heps : 0 < eps := lt_of_le_of_lt (nrm_nonneg _) h.2
  have a1 : ∀ i, 0 < p.2 i - p.1 i := fun i => by linarith [(h.1 i).2]
  have a2 : ∀ i, 0 < p.2 i + p.1 i := fun i => by linarith [(h.1 i).1]
  have t1 := fun i => log_term htau (a1 i)
  have t2 := fun i => log_term htau (a2 i)
  have t3 := log_slack h
  have s1 := all_terms t1
  have s2 := all_terms t2
  rw [barrier_terms htau] at hG
  unfold barrierLow at hG
  refine ⟨fun i => term_bounds htau (a1 i) ?_, fun i => term_bounds htau (a2 i) ?_, ?_⟩
  · have := one_term t1 i
    linarith
  · have := one_term t2 i
    linarith
  · have hs := h.slack
    refine (Real.log_le_log_iff (by positivity) (by positivity)).1 ?_
    rw [Real.log_mul (by positivity) (Real.exp_pos _).ne', Real.log_exp, one_div, Real.log_inv,
      show 2 / eps ^ 2 = (eps ^ 2 / 2)⁻¹ by rw [inv_div], Real.log_inv]
    linarith

/-! ## The right-hand side -/

theorem w_nrm (htau : 0 < tau) {p : XU m} (h : StrictFeas A b eps p) (ha0 : 0 ≤ a) (ha : ∀ v, nrm (Aᵀ *ᵥ v) ≤ a * nrm v) (hG0 : 0 ≤ G)
    (hG : tau * barrier A b eps tau p ≤ barrierLow m eps tau + G) :
    nrm (w1pR A b eps tau p) ≤ 3 * √m * tau * Real.exp (G + 1) + 2 * a / eps * Real.exp G := by
  have heps : 0 < eps := lt_of_le_of_lt (nrm_nonneg _) h.2
  obtain ⟨b1, b2, b3⟩ := slack_bounds htau h hG
  set g : Fin m → ℝ := (1 / feR A b eps p.1) • (Aᵀ *ᵥ (A *ᵥ p.1 - b)) with hg
  have hE : 1 ≤ Real.exp (G + 1) := Real.one_le_exp (by linarith)
  have hsplit : w1pR A b eps tau p = (w1pR A b eps tau p - g) + g := by abel
  have h1 : nrm (w1pR A b eps tau p - g) ≤ 3 * √m * tau * Real.exp (G + 1) := by
    have hi : ∀ i, |(w1pR A b eps tau p - g) i| ≤ 3 * tau * Real.exp (G + 1) := by
      intro i
      have a1 : 0 < p.2 i - p.1 i := by linarith [(h.1 i).2]
      have a2 : 0 < p.2 i + p.1 i := by linarith [(h.1 i).1]
      have c1 := (b1 i).1
      have c2 := (b2 i).1
      have e1 : 1 / (p.1 i - p.2 i) = -(1 / (p.2 i - p.1 i)) := by rw [← neg_sub, one_div, inv_neg, one_div]
      have e2 : 1 / (-p.1 i - p.2 i) = -(1 / (p.2 i + p.1 i)) := by rw [show -p.1 i - p.2 i = -(p.2 i + p.1 i) by ring, one_div, inv_neg, one_div]
      have p1 : 0 < 1 / (p.2 i - p.1 i) := by positivity
      have p2 : 0 < 1 / (p.2 i + p.1 i) := by positivity
      have e3 : (w1pR A b eps tau p - g) i = (-(1 / (p.2 i - p.1 i)) + 1 / (p.2 i + p.1 i)) -
          s12R p i / s11R p i * (-tau + 1 / (p.2 i - p.1 i) + 1 / (p.2 i + p.1 i)) := by
        simp only [hg, Pi.sub_apply, Pi.smul_apply, smul_eq_mul, w1pR, ntgzR, ntguR, e1, e2]
        ring
      have hq : |s12R p i / s11R p i| ≤ 1 := by
        have hp := s11_pos h.1 i
        rw [abs_div, abs_of_pos hp, div_le_one hp, abs_le]
        unfold s11R s12R
        constructor <;> nlinarith [mul_self_nonneg (1 / (p.1 i - p.2 i)), mul_self_nonneg (1 / (-p.1 i - p.2 i))]
      rw [e3]
      generalize 1 / (p.2 i - p.1 i) = r1 at *
      generalize 1 / (p.2 i + p.1 i) = r2 at *
      generalize s12R p i / s11R p i = k at *
      have f1 : |-r1 + r2| ≤ r1 + r2 := abs_le.2 ⟨by linarith, by linarith⟩
      have f2 : |-tau + r1 + r2| ≤ tau + r1 + r2 := abs_le.2 ⟨by linarith, by linarith⟩
      have f3 : |k * (-tau + r1 + r2)| ≤ tau + r1 + r2 := by
        rw [abs_mul]
        have := mul_le_mul_of_nonneg_right hq (abs_nonneg (-tau + r1 + r2))
        linarith
      have f4 := abs_sub (-r1 + r2) (k * (-tau + r1 + r2))
      have f5 : tau ≤ tau * Real.exp (G + 1) := by nlinarith
      linarith
    have hm0 := Real.sqrt_nonneg (m : ℝ)
    have hms := Real.mul_self_sqrt (show (0 : ℝ) ≤ m by positivity)
    refine nrm_le_of_sq (by positivity) ?_
    have hb : ∀ i, (w1pR A b eps tau p - g) i * (w1pR A b eps tau p - g) i ≤ (3 * tau * Real.exp (G + 1)) * (3 * tau * Real.exp (G + 1)) := fun i => by
      rw [← abs_mul_abs_self]
      exact mul_self_le_mul_self (abs_nonneg _) (hi i)
    have hs : (w1pR A b eps tau p - g) ⬝ᵥ (w1pR A b eps tau p - g) ≤ m * ((3 * tau * Real.exp (G + 1)) * (3 * tau * Real.exp (G + 1))) := by
      refine (Finset.sum_le_sum fun i (_ : i ∈ Finset.univ) => hb i).trans_eq ?_
      rw [Finset.sum_const, Finset.card_univ, Fintype.card_fin, nsmul_eq_mul]
    refine hs.trans (le_of_eq ?_)
    calc (m : ℝ) * ((3 * tau * Real.exp (G + 1)) * (3 * tau * Real.exp (G + 1)))
        = (√m * √m) * ((3 * tau * Real.exp (G + 1)) * (3 * tau * Real.exp (G + 1))) := by rw [hms]
      _ = _ := by ring
  have h2 : nrm g ≤ 2 * a / eps * Real.exp G := by
    have hfe : feR A b eps p.1 = -(slackR A b eps p.1 / 2) := by unfold feR slackR; ring
    have hs := h.slack
    have hae : nrm (Aᵀ *ᵥ (A *ᵥ p.1 - b)) ≤ a * eps := (ha _).trans (mul_le_mul_of_nonneg_left h.2.le ha0)
    rw [hg, nrm_smul, hfe, one_div, inv_neg, abs_neg, abs_of_pos (by positivity), ← one_div]
    refine (mul_le_mul b3 hae (nrm_nonneg _) (by positivity)).trans (le_of_eq ?_)
    field_simp
  rw [hsplit]
  exact (nrm_add_le _ _).trans (add_le_add h1 h2)

theorem cgSharp_nonneg (htau : 0 < tau) (heps : 0 < eps) (ha0 : 0 ≤ a) (hG0 : 0 ≤ G) : 0 ≤ cgSharp m a eps tau G := by
  unfold cgSharp; positivity

theorem cgLimit_nonneg {mu s X : ℝ} (heps : 0 < eps) (ha0 : 0 ≤ a) (hmu : 0 < mu) (k : ℕ) : 0 ≤ cgLimit m a eps mu s X k :=
  cgSharp_nonneg (mul_pos (lt_of_lt_of_le one_pos (le_max_right _ _)) (pow_pos hmu k)) heps ha0 (le_max_right _ _)

theorem cgLimit_pos {mu s X : ℝ} (heps : 0 < eps) (ha0 : 0 ≤ a) (hmu : 0 < mu) (hm : 0 < m) (k : ℕ) : 0 < cgLimit m a eps mu s X k := by
  have ht : 0 < startTau m X * mu ^ k := mul_pos (lt_of_lt_of_le one_pos (le_max_right _ _)) (pow_pos hmu k)
  unfold cgLimit cgSharp
  have hG := le_max_right (startBound m eps mu k (startTau m X) (startTop m s X) - barrierLow m eps (startTau m X * mu ^ k)) 0
  generalize max (startBound m eps mu k (startTau m X) (startTop m s X) - barrierLow m eps (startTau m X * mu ^ k)) 0 = G at *
  generalize startTau m X * mu ^ k = T at *
  have hm' : 0 < √(m : ℝ) := Real.sqrt_pos.2 (by exact_mod_cast hm)
  positivity

/-- exact solution is accurate enough -/
theorem tol_mono {c : ℝ} {v : Dbl} (hc : 0 ≤ c) (h : ¬ Dbl.Lt (.fin 0) v) : ¬ Dbl.Lt (.fin c) v := fun hl =>
  h (by rcases hc.eq_or_lt with h0 | h0
        · rw [h0]; exact hl
        · exact Dbl.Lt.fin_trans h0 hl)

/-- a residual this small hardly matters -/
theorem resid_small (htau : 0 < tau) {p : XU m} (h : StrictFeas A b eps p) (ha0 : 0 ≤ a) (ha : ∀ v, nrm (Aᵀ *ᵥ v) ≤ a * nrm v)
    (hG : tau * barrier A b eps tau p ≤ barrierLow m eps tau + G) {dx : Fin m → ℝ}
    (hr : nrm (w1pR A b eps tau p - redR A b eps p dx) ≤ cgSharp m a eps tau G * nrm (w1pR A b eps tau p)) (e : XU m) :
    (w1pR A b eps tau p - redR A b eps p dx) ⬝ᵥ e.1 ≤ 1 / 8 * √(∑ k, rate A b eps p e k ^ 2) := by
  have heps : 0 < eps := lt_of_le_of_lt (nrm_nonneg _) h.2
  have hG0 : 0 ≤ G := by linarith [low_le htau h]
  obtain ⟨b1, b2, -⟩ := slack_bounds htau h hG
  have h1 := dir_nrm h (U := 4 / tau * (G + 1)) (by positivity) (fun i => (b1 i).2) (fun i => (b2 i).2) e
  have h2 := w_nrm htau h ha0 ha hG0 hG
  have hc := cgSharp_nonneg (m := m) htau heps ha0 hG0
  set W := 3 * √m * tau * Real.exp (G + 1) + 2 * a / eps * Real.exp G with hW
  have hW0 : 0 ≤ W := by positivity
  have hq : cgSharp m a eps tau G * W * (4 / tau * (G + 1)) ≤ 1 / 8 := by
    unfold cgSharp
    rw [← hW]
    rcases hW0.eq_or_lt with h0 | h0
    · rw [← h0]; norm_num
    · refine le_of_eq ?_
      have : G + 1 ≠ 0 := by positivity
      field_simp
      norm_num
  have h3 : nrm (w1pR A b eps tau p - redR A b eps p dx) ≤ cgSharp m a eps tau G * W := hr.trans (mul_le_mul_of_nonneg_left h2 hc)
  calc (w1pR A b eps tau p - redR A b eps p dx) ⬝ᵥ e.1 ≤ nrm (w1pR A b eps tau p - redR A b eps p dx) * nrm e.1 := dot_le_nrm _ _
    _ ≤ cgSharp m a eps tau G * W * (4 / tau * (G + 1) * √(∑ k, rate A b eps p e k ^ 2)) :=
        mul_le_mul h3 h1 (nrm_nonneg _) (by positivity)
    _ = cgSharp m a eps tau G * W * (4 / tau * (G + 1)) * √(∑ k, rate A b eps p e k ^ 2) := by ring
    _ ≤ _ := mul_le_mul_of_nonneg_right hq (Real.sqrt_nonneg _)

end L1c
