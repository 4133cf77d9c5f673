import Verif.Proofs.NewtonLoop
import Mathlib.Analysis.Calculus.Deriv.MeanValue

/-! # The barrier objective along a line, and how far one Newton step reduces it -/

namespace L1c
open Scalar Matrix

variable {n m : ℕ} {σ : Type} {A : Matrix (Fin n) (Fin m) ℝ} {b : Fin n → ℝ} {eps tau : ℝ} {Inv : σ → Prop}
  {ax : QAx Dbl σ n m}

/-! ## Rates -/

/-- twice the slack of the quadratic constraint -/
noncomputable def slackR (A : Matrix (Fin n) (Fin m) ℝ) (b : Fin n → ℝ) (eps : ℝ) (x : Fin m → ℝ) : ℝ :=
  eps ^ 2 - (A *ᵥ x - b) ⬝ᵥ (A *ᵥ x - b)

theorem StrictFeas.slack {p : XU m} (h : StrictFeas A b eps p) : 0 < slackR A b eps p.1 := by
  have := h.fe; unfold feR at this; unfold slackR; nlinarith

noncomputable def qaR (A : Matrix (Fin n) (Fin m) ℝ) (b : Fin n → ℝ) (eps : ℝ) (x v : Fin m → ℝ) : ℝ :=
  2 * ((A *ᵥ x - b) ⬝ᵥ (A *ᵥ v)) / slackR A b eps x

noncomputable def qcR (A : Matrix (Fin n) (Fin m) ℝ) (b : Fin n → ℝ) (eps : ℝ) (x v : Fin m → ℝ) : ℝ :=
  (A *ᵥ v) ⬝ᵥ (A *ᵥ v) / slackR A b eps x

/-- the slacks along `p + t d` are `slack * ∏ (1 - t rate)`: one factor for each of the linear constraints, two for the quadratic one -/
noncomputable def rate (A : Matrix (Fin n) (Fin m) ℝ) (b : Fin n → ℝ) (eps : ℝ) (p d : XU m) : (Fin m ⊕ Fin m) ⊕ Fin 2 → ℝ
  | .inl (.inl i) => (d.1 i - d.2 i) / (p.2 i - p.1 i)
  | .inl (.inr i) => -(d.1 i + d.2 i) / (p.2 i + p.1 i)
  | .inr k => if k = 0 then (qaR A b eps p.1 d.1 + √(qaR A b eps p.1 d.1 ^ 2 + 4 * qcR A b eps p.1 d.1)) / 2
      else (qaR A b eps p.1 d.1 - √(qaR A b eps p.1 d.1 ^ 2 + 4 * qcR A b eps p.1 d.1)) / 2

theorem qcR_nonneg {p : XU m} (h : StrictFeas A b eps p) (v : Fin m → ℝ) : 0 ≤ qcR A b eps p.1 v :=
  div_nonneg (dot_self_nonneg _) h.slack.le

theorem sum_rate (f : ℝ → ℝ) (p d : XU m) : ∑ k, f (rate A b eps p d k) =
    ∑ i, f ((d.1 i - d.2 i) / (p.2 i - p.1 i)) + ∑ i, f (-(d.1 i + d.2 i) / (p.2 i + p.1 i)) +
    (f ((qaR A b eps p.1 d.1 + √(qaR A b eps p.1 d.1 ^ 2 + 4 * qcR A b eps p.1 d.1)) / 2) +
      f ((qaR A b eps p.1 d.1 - √(qaR A b eps p.1 d.1 ^ 2 + 4 * qcR A b eps p.1 d.1)) / 2)) := by
  rw [Fintype.sum_sum_type, Fintype.sum_sum_type, Fin.sum_univ_two]
  rfl

theorem rate_sum (p d : XU m) : ∑ k, rate A b eps p d k =
    ∑ i, (d.1 i - d.2 i) / (p.2 i - p.1 i) + ∑ i, -(d.1 i + d.2 i) / (p.2 i + p.1 i) + qaR A b eps p.1 d.1 := by
  have := sum_rate (A := A) (b := b) (eps := eps) id p d
  simp only [id] at this
  rw [this]; ring

theorem rate_sq {p : XU m} (h : StrictFeas A b eps p) (d : XU m) : ∑ k, rate A b eps p d k ^ 2 =
    ∑ i, ((d.1 i - d.2 i) / (p.2 i - p.1 i)) ^ 2 + ∑ i, (-(d.1 i + d.2 i) / (p.2 i + p.1 i)) ^ 2 +
      (qaR A b eps p.1 d.1 ^ 2 + 2 * qcR A b eps p.1 d.1) := by
  rw [sum_rate (fun r => r ^ 2)]
  have hD : 0 ≤ qaR A b eps p.1 d.1 ^ 2 + 4 * qcR A b eps p.1 d.1 := by have := qcR_nonneg h d.1; positivity
  have := Real.sq_sqrt hD
  congr 1
  nlinarith

theorem rate_root0 {p : XU m} (h : StrictFeas A b eps p) (d : XU m) : 0 ≤ rate A b eps p d (.inr 0) := by
  have hc := qcR_nonneg h d.1
  have : |qaR A b eps p.1 d.1| ≤ √(qaR A b eps p.1 d.1 ^ 2 + 4 * qcR A b eps p.1 d.1) := by
    rw [← Real.sqrt_sq_eq_abs]; exact Real.sqrt_le_sqrt (by linarith)
  have h2 := neg_abs_le (qaR A b eps p.1 d.1)
  show 0 ≤ (qaR A b eps p.1 d.1 + _) / 2
  linarith

theorem rate_root1 {p : XU m} (h : StrictFeas A b eps p) (d : XU m) : rate A b eps p d (.inr 1) ≤ 0 := by
  have hc := qcR_nonneg h d.1
  have : |qaR A b eps p.1 d.1| ≤ √(qaR A b eps p.1 d.1 ^ 2 + 4 * qcR A b eps p.1 d.1) := by
    rw [← Real.sqrt_sq_eq_abs]; exact Real.sqrt_le_sqrt (by linarith)
  have h2 := le_abs_self (qaR A b eps p.1 d.1)
  show (qaR A b eps p.1 d.1 - _) / 2 ≤ 0
  linarith

theorem rate_prod {p : XU m} (h : StrictFeas A b eps p) (d : XU m) (t : ℝ) :
    slackR A b eps (p + t • d).1 = slackR A b eps p.1 * ((1 - t * rate A b eps p d (.inr 0)) * (1 - t * rate A b eps p d (.inr 1))) := by
  have hD : 0 ≤ qaR A b eps p.1 d.1 ^ 2 + 4 * qcR A b eps p.1 d.1 := by have := qcR_nonneg h d.1; positivity
  have hs := Real.sq_sqrt hD
  have e0 : (1 - t * rate A b eps p d (.inr 0)) * (1 - t * rate A b eps p d (.inr 1)) =
      1 - t * qaR A b eps p.1 d.1 - t ^ 2 * qcR A b eps p.1 d.1 := by
    have r0 : rate A b eps p d (.inr 0) = (qaR A b eps p.1 d.1 + √(qaR A b eps p.1 d.1 ^ 2 + 4 * qcR A b eps p.1 d.1)) / 2 := rfl
    have r1 : rate A b eps p d (.inr 1) = (qaR A b eps p.1 d.1 - √(qaR A b eps p.1 d.1 ^ 2 + 4 * qcR A b eps p.1 d.1)) / 2 := rfl
    rw [r0, r1]
    linear_combination (-(t ^ 2) / 4) * hs
  rw [e0]
  have e : A *ᵥ (p + t • d).1 - b = (A *ᵥ p.1 - b) + t • (A *ᵥ d.1) := by
    rw [Prod.fst_add, Prod.smul_fst, mulVec_add, mulVec_smul]; abel
  have hs0 := h.slack.ne'
  have e1 : slackR A b eps p.1 * (1 - t * qaR A b eps p.1 d.1 - t ^ 2 * qcR A b eps p.1 d.1) =
      slackR A b eps p.1 - t * (2 * ((A *ᵥ p.1 - b) ⬝ᵥ (A *ᵥ d.1))) - t ^ 2 * ((A *ᵥ d.1) ⬝ᵥ (A *ᵥ d.1)) := by
    unfold qaR qcR; field_simp
  rw [e1]
  unfold slackR
  rw [e, add_dotProduct, dotProduct_add, dotProduct_add, smul_dotProduct, dotProduct_smul, smul_dotProduct,
    dotProduct_smul, dotProduct_comm (A *ᵥ d.1) (A *ᵥ p.1 - b)]
  simp only [smul_eq_mul]
  ring

theorem rate_lin1 {p : XU m} (h : StrictFeas A b eps p) (d : XU m) (t : ℝ) (i : Fin m) :
    (p + t • d).2 i - (p + t • d).1 i = (p.2 i - p.1 i) * (1 - t * rate A b eps p d (.inl (.inl i))) := by
  have h1 : p.2 i - p.1 i ≠ 0 := by have := (h.1 i).2; intro hc; linarith
  show p.2 i + t * d.2 i - (p.1 i + t * d.1 i) = (p.2 i - p.1 i) * (1 - t * ((d.1 i - d.2 i) / (p.2 i - p.1 i)))
  field_simp; ring

theorem rate_lin2 {p : XU m} (h : StrictFeas A b eps p) (d : XU m) (t : ℝ) (i : Fin m) :
    (p + t • d).2 i + (p + t • d).1 i = (p.2 i + p.1 i) * (1 - t * rate A b eps p d (.inl (.inr i))) := by
  have h1 : p.2 i + p.1 i ≠ 0 := by have := (h.1 i).1; intro hc; linarith
  show p.2 i + t * d.2 i + (p.1 i + t * d.1 i) = (p.2 i + p.1 i) * (1 - t * (-(d.1 i + d.2 i) / (p.2 i + p.1 i)))
  field_simp; ring

/-- a strictly feasible point of the ray keeps all factors positive -/
theorem rate_lt {p : XU m} (h : StrictFeas A b eps p) {d : XU m} {t : ℝ} (ht : 0 ≤ t) (h' : StrictFeas A b eps (p + t • d))
    (k : (Fin m ⊕ Fin m) ⊕ Fin 2) : t * rate A b eps p d k < 1 := by
  have r1 : t * rate A b eps p d (.inr 1) ≤ 0 := mul_nonpos_of_nonneg_of_nonpos ht (rate_root1 h d)
  match k with
  | .inl (.inl i) =>
    have e := rate_lin1 h d t i
    have h1 := (h.1 i).2
    have h2 := (h'.1 i).2
    by_contra hc
    nlinarith
  | .inl (.inr i) =>
    have e := rate_lin2 h d t i
    have h1 := (h.1 i).1
    have h2 := (h'.1 i).1
    by_contra hc
    nlinarith
  | .inr 0 =>
    have e := rate_prod h d t
    have h1 := h.slack
    have h2 := h'.slack
    by_contra hc
    have : (1 - t * rate A b eps p d (.inr 0)) * (1 - t * rate A b eps p d (.inr 1)) ≤ 0 :=
      mul_nonpos_of_nonpos_of_nonneg (by linarith) (by linarith)
    nlinarith
  | .inr 1 => linarith

/-- conversely, positive factors mean strict feasibility -/
theorem rate_feas {p : XU m} (h : StrictFeas A b eps p) {d : XU m} {t : ℝ} (ht : ∀ k, t * rate A b eps p d k < 1) :
    StrictFeas A b eps (p + t • d) := by
  refine ⟨fun i => ⟨?_, ?_⟩, ?_⟩
  · have e := rate_lin2 h d t i
    have h1 := (h.1 i).1
    have := mul_pos (show 0 < p.2 i + p.1 i by linarith) (sub_pos.2 (ht (.inl (.inr i))))
    linarith
  · have e := rate_lin1 h d t i
    have h1 := (h.1 i).2
    have := mul_pos (show 0 < p.2 i - p.1 i by linarith) (sub_pos.2 (ht (.inl (.inl i))))
    linarith
  · have e := rate_prod h d t
    have h1 := mul_pos h.slack (mul_pos (sub_pos.2 (ht (.inr 0))) (sub_pos.2 (ht (.inr 1))))
    have heps : 0 < eps := lt_of_le_of_lt (nrm_nonneg _) h.2
    rw [← e] at h1
    unfold slackR at h1
    unfold nrm
    rw [Real.sqrt_lt' heps]
    linarith

/-- the barrier objective along a line -/
theorem line_barrier {p : XU m} (h : StrictFeas A b eps p) {d : XU m} {t : ℝ} (ht : ∀ k, t * rate A b eps p d k < 1) :
    barrier A b eps tau (p + t • d) = barrier A b eps tau p + t * ∑ i, d.2 i - 1 / tau * ∑ k, Real.log (1 - t * rate A b eps p d k) := by
  have e1 : ∑ i, Real.log ((p + t • d).2 i - (p + t • d).1 i) = ∑ i, Real.log (p.2 i - p.1 i) +
      ∑ i, Real.log (1 - t * rate A b eps p d (.inl (.inl i))) := by
    rw [← Finset.sum_add_distrib]
    refine Finset.sum_congr rfl fun i _ => ?_
    have h1 := (h.1 i).2
    rw [rate_lin1 h, Real.log_mul (by intro hc; linarith) (sub_pos.2 (ht _)).ne']
  have e2 : ∑ i, Real.log ((p + t • d).2 i + (p + t • d).1 i) = ∑ i, Real.log (p.2 i + p.1 i) +
      ∑ i, Real.log (1 - t * rate A b eps p d (.inl (.inr i))) := by
    rw [← Finset.sum_add_distrib]
    refine Finset.sum_congr rfl fun i _ => ?_
    have h1 := (h.1 i).1
    rw [rate_lin2 h, Real.log_mul (by intro hc; linarith) (sub_pos.2 (ht _)).ne']
  have e3 : Real.log ((eps ^ 2 - (A *ᵥ (p + t • d).1 - b) ⬝ᵥ (A *ᵥ (p + t • d).1 - b)) / 2) =
      Real.log ((eps ^ 2 - (A *ᵥ p.1 - b) ⬝ᵥ (A *ᵥ p.1 - b)) / 2) +
        (Real.log (1 - t * rate A b eps p d (.inr 0)) + Real.log (1 - t * rate A b eps p d (.inr 1))) := by
    have e := rate_prod h d t
    have hs := h.slack
    unfold slackR at e hs
    rw [e, ← Real.log_mul (sub_pos.2 (ht _)).ne' (sub_pos.2 (ht _)).ne', ← Real.log_mul (by positivity)
      (mul_pos (sub_pos.2 (ht _)) (sub_pos.2 (ht _))).ne']
    congr 1; ring
  have e4 : ∑ i, (p + t • d).2 i = ∑ i, p.2 i + t * ∑ i, d.2 i := by
    rw [Finset.mul_sum, ← Finset.sum_add_distrib]; rfl
  have e5 : ∑ k, Real.log (1 - t * rate A b eps p d k) = ∑ i, Real.log (1 - t * rate A b eps p d (.inl (.inl i))) +
      ∑ i, Real.log (1 - t * rate A b eps p d (.inl (.inr i))) +
      (Real.log (1 - t * rate A b eps p d (.inr 0)) + Real.log (1 - t * rate A b eps p d (.inr 1))) := by
    rw [Fintype.sum_sum_type, Fintype.sum_sum_type, Fin.sum_univ_two]
  unfold barrier
  rw [e1, e2, e3, e4, e5]
  ring

/-- the slope of the barrier objective -/
theorem line_slope (ht : tau ≠ 0) {p : XU m} (h : StrictFeas A b eps p) (d : XU m) :
    gxR A b eps tau p ⬝ᵥ d.1 + guR tau p ⬝ᵥ d.2 = ∑ i, d.2 i + 1 / tau * ∑ k, rate A b eps p d k := by
  have hfe : feR A b eps p.1 = -slackR A b eps p.1 / 2 := by unfold feR slackR; ring
  have hs := h.slack.ne'
  have e1 : gxR A b eps tau p ⬝ᵥ d.1 = -1 / tau * (∑ i, (1 / (p.1 i - p.2 i) - 1 / (-p.1 i - p.2 i)) * d.1 i +
      1 / feR A b eps p.1 * ((Aᵀ *ᵥ (A *ᵥ p.1 - b)) ⬝ᵥ d.1)) := by
    simp only [dotProduct, gxR, Finset.mul_sum, ← Finset.sum_add_distrib]
    exact Finset.sum_congr rfl fun i _ => by ring
  have e2 : 1 / feR A b eps p.1 * ((Aᵀ *ᵥ (A *ᵥ p.1 - b)) ⬝ᵥ d.1) = -qaR A b eps p.1 d.1 := by
    rw [dot_mulVec_T, hfe]; unfold qaR; field_simp
  rw [rate_sum, e1, e2]
  simp only [dotProduct, guR]
  rw [show ∀ X Y Z W V : ℝ, -1 / tau * (X + -Y) + Z = W + 1 / tau * (V + Y) ↔ -1 / tau * X + Z = W + 1 / tau * V from
    fun X Y Z W V => by constructor <;> intro h <;> linear_combination h]
  rw [← Finset.sum_add_distrib]
  simp only [Finset.mul_sum, ← Finset.sum_add_distrib]
  refine Finset.sum_congr rfl fun i _ => ?_
  have h1 : p.2 i - p.1 i ≠ 0 := by have := (h.1 i).2; intro hc; linarith
  have h2 : p.2 i + p.1 i ≠ 0 := by have := (h.1 i).1; intro hc; linarith
  have q1 : 1 / (p.1 i - p.2 i) = -(1 / (p.2 i - p.1 i)) := by rw [← neg_sub (p.2 i), one_div_neg_eq_neg_one_div]
  have q2 : 1 / (-p.1 i - p.2 i) = -(1 / (p.2 i + p.1 i)) := by
    rw [show -p.1 i - p.2 i = -(p.2 i + p.1 i) by ring, one_div_neg_eq_neg_one_div]
  rw [q1, q2]
  field_simp
  ring

/-- the curvature -/
theorem line_curv {p : XU m} (h : StrictFeas A b eps p) (d : XU m) :
    hxR A b eps tau p d ⬝ᵥ d.1 + huR tau p d ⬝ᵥ d.2 = 1 / tau * ∑ k, rate A b eps p d k ^ 2 := by
  have hfe : feR A b eps p.1 = -slackR A b eps p.1 / 2 := by unfold feR slackR; ring
  have hs := h.slack.ne'
  rw [hess_quad, rate_sq h]
  congr 1
  have e1 : ∑ i, (1 / (p.1 i - p.2 i) * (d.1 i - d.2 i)) ^ 2 = ∑ i, ((d.1 i - d.2 i) / (p.2 i - p.1 i)) ^ 2 :=
    Finset.sum_congr rfl fun i _ => by
      rw [← neg_sub (p.2 i) (p.1 i), one_div_neg_eq_neg_one_div]; ring
  have e2 : ∑ i, (1 / (-p.1 i - p.2 i) * (d.1 i + d.2 i)) ^ 2 = ∑ i, (-(d.1 i + d.2 i) / (p.2 i + p.1 i)) ^ 2 :=
    Finset.sum_congr rfl fun i _ => by
      rw [show -p.1 i - p.2 i = -(p.2 i + p.1 i) by ring, one_div_neg_eq_neg_one_div]; ring
  rw [e1, e2, dot_mulVec_T, hfe]
  unfold qaR qcR
  field_simp
  ring

/-! ## Decrease -/

theorem neg_log_le {s : ℝ} (hs : s ≤ 1 / 2) : -Real.log (1 - s) ≤ s + s ^ 2 := by
  have hd : ∀ x : ℝ, x < 1 → HasDerivAt (fun x => x + x ^ 2 + Real.log (1 - x)) (x * (1 - 2 * x) / (1 - x)) x := by
    intro x hx
    have h1 : (1 : ℝ) - x ≠ 0 := by intro hc; linarith
    have := ((hasDerivAt_id x).add ((hasDerivAt_id x).pow 2)).add (((hasDerivAt_id x).const_sub 1).log h1)
    refine this.congr_deriv ?_
    simp only [id]
    field_simp
    ring
  have hcont : ∀ S : Set ℝ, (∀ x ∈ S, x < 1) → ContinuousOn (fun x => x + x ^ 2 + Real.log (1 - x)) S :=
    fun S hS x hx => (hd x (hS x hx)).continuousAt.continuousWithinAt
  have h0 : (fun x : ℝ => x + x ^ 2 + Real.log (1 - x)) 0 = 0 := by simp
  suffices (0 : ℝ) ≤ (fun x : ℝ => x + x ^ 2 + Real.log (1 - x)) s by dsimp only at this; linarith
  rw [← h0]
  rcases le_total 0 s with h | h
  · have hm : MonotoneOn (fun x : ℝ => x + x ^ 2 + Real.log (1 - x)) (Set.Icc 0 (1 / 2)) := by
      refine monotoneOn_of_deriv_nonneg (convex_Icc _ _) (hcont _ fun x hx => by have := hx.2; linarith)
        (fun x hx => ?_) (fun x hx => ?_)
      · rw [interior_Icc] at hx
        exact (hd x (by have := hx.2; linarith)).differentiableAt.differentiableWithinAt
      · rw [interior_Icc] at hx
        have := hx.1; have := hx.2
        rw [(hd x (by linarith)).deriv]
        exact div_nonneg (mul_nonneg (by linarith) (by linarith)) (by linarith)
    exact hm ⟨le_rfl, by norm_num⟩ ⟨h, hs⟩ h
  · have hm : AntitoneOn (fun x : ℝ => x + x ^ 2 + Real.log (1 - x)) (Set.Iic 0) := by
      refine antitoneOn_of_deriv_nonpos (convex_Iic _) (hcont _ fun x hx => by have : x ≤ 0 := hx; linarith)
        (fun x hx => ?_) (fun x hx => ?_)
      · rw [interior_Iic] at hx
        have : x < 0 := hx
        exact (hd x (by linarith)).differentiableAt.differentiableWithinAt
      · rw [interior_Iic] at hx
        have : x < 0 := hx
        rw [(hd x (by linarith)).deriv]
        exact div_nonpos_of_nonpos_of_nonneg (mul_nonpos_of_nonpos_of_nonneg (by linarith) (by linarith)) (by linarith)
    exact hm h Set.self_mem_Iic h

/-- Armijo's condition holds for every step at most half way to the boundary -/
theorem armijo (htau : 0 < tau) {p : XU m} (h : StrictFeas A b eps p) {d : XU m} {L : ℝ}
    (hL : ∑ k, rate A b eps p d k ^ 2 = L) (hslope : gxR A b eps tau p ⬝ᵥ d.1 + guR tau p ⬝ᵥ d.2 = -(1 / tau * L))
    {t : ℝ} (h0 : 0 ≤ t) (h1 : t ≤ 99 / 100) (hk : ∀ k, t * rate A b eps p d k ≤ 1 / 2) :
    barrier A b eps tau (p + t • d) ≤ barrier A b eps tau p + 1 / 100 * t * (gxR A b eps tau p ⬝ᵥ d.1 + guR tau p ⬝ᵥ d.2) := by
  have hL0 : 0 ≤ L := by rw [← hL]; exact Finset.sum_nonneg fun k _ => sq_nonneg _
  rw [line_barrier h fun k => lt_of_le_of_lt (hk k) (by norm_num)]
  have e1 : -∑ k, Real.log (1 - t * rate A b eps p d k) ≤ t * ∑ k, rate A b eps p d k + t ^ 2 * L := by
    rw [← hL, ← Finset.sum_neg_distrib, Finset.mul_sum, Finset.mul_sum, ← Finset.sum_add_distrib]
    refine Finset.sum_le_sum fun k _ => ?_
    have := neg_log_le (hk k)
    rw [mul_pow] at this
    exact this
  have e2 := line_slope htau.ne' h d
  rw [hslope] at e2
  rw [hslope]
  have hi : 0 < 1 / tau := one_div_pos.2 htau
  have e3 := mul_le_mul_of_nonneg_left e1 hi.le
  have e4 : t * ∑ i, d.2 i = -(1 / tau * (t * L)) - 1 / tau * (t * ∑ k, rate A b eps p d k) := by
    linear_combination (-t) * e2
  have e5 : 0 ≤ 1 / tau * (t * L * (99 / 100 - t)) := by
    have : 0 ≤ t * L * (99 / 100 - t) := mul_nonneg (mul_nonneg h0 hL0) (by linarith)
    positivity
  rw [e4]
  nlinarith

/-! ## Energy of the code's direction -/

theorem hess_energy (ht : tau ≠ 0) {p : XU m} (h : StrictFeas A b eps p) (dx : Fin m → ℝ) :
    hxR A b eps tau p (dx, duR tau p dx) ⬝ᵥ dx + huR tau p (dx, duR tau p dx) ⬝ᵥ duR tau p dx =
      1 / tau * (dx ⬝ᵥ redR A b eps p dx + ∑ i, ntguR tau p i ^ 2 / s11R p i) := by
  have h0 := fun i => (s11_pos h.1 i).ne'
  have hr : ∀ i, redR A b eps p dx i = (s11R p i - s12R p i * s12R p i / s11R p i) * dx i + denseR A b eps p.1 dx i := fun i => rfl
  simp only [dotProduct, ← Finset.sum_add_distrib, Finset.mul_sum, hr]
  refine Finset.sum_congr rfl fun i _ => ?_
  unfold hxR huR duR
  have := h0 i
  dsimp only
  field_simp
  ring

/-- with a cold start the direction's slope is minus its energy -/
theorem slope_energy (ht : tau ≠ 0) {p : XU m} (h : StrictFeas A b eps p) {dx : Fin m → ℝ}
    (hen : w1pR A b eps tau p ⬝ᵥ dx = dx ⬝ᵥ redR A b eps p dx) :
    gxR A b eps tau p ⬝ᵥ dx + guR tau p ⬝ᵥ duR tau p dx = -(1 / tau * ∑ k, rate A b eps p (dx, duR tau p dx) k ^ 2) := by
  rw [slope_eq ht h, hen, ← line_curv (tau := tau) h]
  have := hess_energy ht h dx
  dsimp only at this ⊢
  rw [this]; ring

end L1c
