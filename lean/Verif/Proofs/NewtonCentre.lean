import Verif.Proofs.NewtonConv
import Verif.Spec.NewtonRate

/-! # How far from optimal a point with small Newton decrement can be -/

namespace L1c
open Scalar Matrix

variable {n m : ℕ} {σ : Type} {A : Matrix (Fin n) (Fin m) ℝ} {b : Fin n → ℝ} {eps tau : ℝ} {Inv : σ → Prop}
  {ax : QAx Dbl σ n m}

/-! ## Cauchy–Schwarz for the Hessian -/

/-- the Hessian is `1/tau` times the Gram form of these features -/
noncomputable def feat (A : Matrix (Fin n) (Fin m) ℝ) (b : Fin n → ℝ) (eps : ℝ) (p d : XU m) : (Fin m ⊕ Fin m) ⊕ (Fin 1 ⊕ Fin n) → ℝ
  | .inl (.inl i) => 1 / (p.1 i - p.2 i) * (d.1 i - d.2 i)
  | .inl (.inr i) => 1 / (-p.1 i - p.2 i) * (d.1 i + d.2 i)
  | .inr (.inl _) => (Aᵀ *ᵥ (A *ᵥ p.1 - b)) ⬝ᵥ d.1 * (1 / feR A b eps p.1)
  | .inr (.inr j) => √(-(1 / feR A b eps p.1)) * (A *ᵥ d.1) j

theorem hess_feat {p : XU m} (h : StrictFeas A b eps p) (d e : XU m) :
    hxR A b eps tau p d ⬝ᵥ e.1 + huR tau p d ⬝ᵥ e.2 = 1 / tau * ∑ k, feat A b eps p d k * feat A b eps p e k := by
  have e1 : denseR A b eps p.1 d.1 ⬝ᵥ e.1 = ((Aᵀ *ᵥ (A *ᵥ p.1 - b)) ⬝ᵥ d.1 * (1 / feR A b eps p.1)) *
      ((Aᵀ *ᵥ (A *ᵥ p.1 - b)) ⬝ᵥ e.1 * (1 / feR A b eps p.1)) - 1 / feR A b eps p.1 * ((A *ᵥ d.1) ⬝ᵥ (A *ᵥ e.1)) := by
    have : denseR A b eps p.1 d.1 = ((Aᵀ *ᵥ (A *ᵥ p.1 - b)) ⬝ᵥ d.1 * (1 / (feR A b eps p.1 * feR A b eps p.1))) • (Aᵀ *ᵥ (A *ᵥ p.1 - b)) +
      (-(1 / feR A b eps p.1)) • (Aᵀ *ᵥ (A *ᵥ d.1)) := rfl
    rw [this, add_dotProduct, smul_dotProduct, smul_dotProduct, dot_mulVec_T A (A *ᵥ d.1)]
    simp only [smul_eq_mul, one_div, mul_inv]
    ring
  have e2 : hxR A b eps tau p d ⬝ᵥ e.1 + huR tau p d ⬝ᵥ e.2 = 1 / tau * (∑ i, (s11R p i * d.1 i * e.1 i + s12R p i * (d.2 i * e.1 i + d.1 i * e.2 i) +
      s11R p i * d.2 i * e.2 i) + denseR A b eps p.1 d.1 ⬝ᵥ e.1) := by
    simp only [dotProduct, hxR, huR, Finset.mul_sum, ← Finset.sum_add_distrib]
    exact Finset.sum_congr rfl fun i _ => by ring
  have e3 : ∀ i, s11R p i * d.1 i * e.1 i + s12R p i * (d.2 i * e.1 i + d.1 i * e.2 i) + s11R p i * d.2 i * e.2 i =
      (1 / (p.1 i - p.2 i) * (d.1 i - d.2 i)) * (1 / (p.1 i - p.2 i) * (e.1 i - e.2 i)) +
      (1 / (-p.1 i - p.2 i) * (d.1 i + d.2 i)) * (1 / (-p.1 i - p.2 i) * (e.1 i + e.2 i)) := by
    intro i; unfold s11R s12R; ring
  have hneg : 0 ≤ -(1 / feR A b eps p.1) := by have := one_div_neg.2 h.fe; linarith
  have e4 : ∑ j, √(-(1 / feR A b eps p.1)) * (A *ᵥ d.1) j * (√(-(1 / feR A b eps p.1)) * (A *ᵥ e.1) j) =
      -(1 / feR A b eps p.1) * ((A *ᵥ d.1) ⬝ᵥ (A *ᵥ e.1)) := by
    simp only [dotProduct, Finset.mul_sum]
    refine Finset.sum_congr rfl fun j _ => ?_
    rw [mul_mul_mul_comm, Real.mul_self_sqrt hneg]
  rw [e2, e1, Finset.sum_congr rfl fun i _ => e3 i, Fintype.sum_sum_type, Fintype.sum_sum_type, Fintype.sum_sum_type, Finset.sum_add_distrib]
  show _ = 1 / tau * (_ + (∑ _k : Fin 1, (Aᵀ *ᵥ (A *ᵥ p.1 - b)) ⬝ᵥ d.1 * (1 / feR A b eps p.1) * ((Aᵀ *ᵥ (A *ᵥ p.1 - b)) ⬝ᵥ e.1 * (1 / feR A b eps p.1)) +
    ∑ j, √(-(1 / feR A b eps p.1)) * (A *ᵥ d.1) j * (√(-(1 / feR A b eps p.1)) * (A *ᵥ e.1) j)))
  rw [e4]
  simp only [Finset.univ_unique, Finset.sum_singleton, feat]
  ring

theorem hess_cs (htau : 0 < tau) {p : XU m} (h : StrictFeas A b eps p) (d e : XU m) :
    hxR A b eps tau p d ⬝ᵥ e.1 + huR tau p d ⬝ᵥ e.2 ≤ 1 / tau * (√(∑ k, rate A b eps p d k ^ 2) * √(∑ k, rate A b eps p e k ^ 2)) := by
  have key : ∀ d : XU m, ∑ k, feat A b eps p d k ^ 2 = ∑ k, rate A b eps p d k ^ 2 := by
    intro d
    have h1 := line_curv (tau := 1) h d
    rw [hess_feat h] at h1
    simpa [pow_two] using h1
  rw [hess_feat h, ← key d, ← key e]
  exact mul_le_mul_of_nonneg_left (Real.sum_mul_le_sqrt_mul_sqrt _ _ _) (one_div_pos.2 htau).le

/-! ## The gap at a point with small decrement -/

/-- rates towards a feasible point are at most one, and one of them is not positive -/
theorem rate_feasible {p : XU m} (h : StrictFeas A b eps p) {z : Fin m → ℝ} (hz : nrm (A *ᵥ z - b) ≤ eps)
    (k : (Fin m ⊕ Fin m) ⊕ Fin 2) : rate A b eps p (z - p.1, fun i => |z i| - p.2 i) k ≤ 1 := by
  match k with
  | .inl (.inl i) =>
    have h1 := (h.1 i).2
    show (z i - p.1 i - (|z i| - p.2 i)) / (p.2 i - p.1 i) ≤ 1
    rw [div_le_one (by linarith)]
    linarith [le_abs_self (z i)]
  | .inl (.inr i) =>
    have h1 := (h.1 i).1
    show -(z i - p.1 i + (|z i| - p.2 i)) / (p.2 i + p.1 i) ≤ 1
    rw [div_le_one (by linarith)]
    linarith [neg_abs_le (z i)]
  | .inr 0 =>
    have e := rate_prod h (z - p.1, fun i => |z i| - p.2 i) 1
    have h1 := h.slack
    have h2 : 0 ≤ slackR A b eps (p + (1 : ℝ) • ((z - p.1, fun i => |z i| - p.2 i) : XU m)).1 := by
      have e2 : (p + (1 : ℝ) • ((z - p.1, fun i => |z i| - p.2 i) : XU m)).1 = z := by simp
      rw [e2]
      unfold slackR
      have := nrm_sq (A *ᵥ z - b)
      have := nrm_nonneg (A *ᵥ z - b)
      nlinarith
    have h3 := rate_root1 h (z - p.1, fun i => |z i| - p.2 i)
    by_contra hc
    rw [not_le] at hc
    have : (1 - 1 * rate A b eps p (z - p.1, fun i => |z i| - p.2 i) (.inr 0)) * (1 - 1 * rate A b eps p (z - p.1, fun i => |z i| - p.2 i) (.inr 1)) < 0 :=
      mul_neg_of_neg_of_pos (by linarith) (by linarith)
    nlinarith
  | .inr 1 => exact (rate_root1 h _).trans zero_le_one

theorem sum_sq_le_sq {ι : Type} (s : Finset ι) (f : ι → ℝ) (h : ∀ i ∈ s, 0 ≤ f i) : ∑ i ∈ s, f i ^ 2 ≤ (∑ i ∈ s, f i) ^ 2 := by
  classical
  induction s using Finset.induction_on with
  | empty => simp
  | insert a s ha ih =>
    rw [Finset.sum_insert ha, Finset.sum_insert ha]
    have h1 := ih fun i hi => h i (Finset.mem_insert_of_mem hi)
    have h2 := h a (Finset.mem_insert_self _ _)
    have h3 : 0 ≤ ∑ i ∈ s, f i := Finset.sum_nonneg fun i hi => h i (Finset.mem_insert_of_mem hi)
    nlinarith

/-- numbers bounded above whose sum is not too negative have bounded length -/
theorem rate_len {ι : Type} [Fintype ι] {R : ι → ℝ} {nu lam : ℝ} (hnu : 0 ≤ nu) (h1 : ∀ k, R k ≤ 1) (hp : ∑ k, max (R k) 0 ≤ nu)
    (hS : -(lam * √(∑ k, R k ^ 2)) ≤ ∑ k, R k) (hl0 : 0 ≤ lam) (hl1 : lam < 1) :
    √(∑ k, R k ^ 2) ≤ (nu + √nu) / (1 - lam) := by
  set Q := √(∑ k, R k ^ 2) with hQ
  have hQ0 : 0 ≤ Q := Real.sqrt_nonneg _
  have hsum : ∑ k, R k = ∑ k, max (R k) 0 - ∑ k, max (-R k) 0 := by
    rw [← Finset.sum_sub_distrib]
    refine Finset.sum_congr rfl fun k _ => ?_
    rcases le_total (R k) 0 with h | h
    · rw [max_eq_right h, max_eq_left (by linarith)]; ring
    · rw [max_eq_left h, max_eq_right (by linarith)]; ring
  have hN0 : 0 ≤ ∑ k, max (-R k) 0 := Finset.sum_nonneg fun k _ => le_max_right _ _
  have hN : ∑ k, max (-R k) 0 ≤ nu + lam * Q := by linarith
  have hsq : ∑ k, R k ^ 2 ≤ nu + (∑ k, max (-R k) 0) ^ 2 := by
    have e : ∑ k, R k ^ 2 = ∑ k, max (R k) 0 ^ 2 + ∑ k, max (-R k) 0 ^ 2 := by
      rw [← Finset.sum_add_distrib]
      refine Finset.sum_congr rfl fun k _ => ?_
      rcases le_total (R k) 0 with h | h
      · rw [max_eq_right h, max_eq_left (by linarith)]; ring
      · rw [max_eq_left h, max_eq_right (by linarith)]; ring
    have e1 : ∑ k, max (R k) 0 ^ 2 ≤ nu := by
      refine le_trans (Finset.sum_le_sum fun k _ => ?_) hp
      have a0 := le_max_right (R k) 0
      have a1 : max (R k) 0 ≤ 1 := max_le (h1 k) zero_le_one
      nlinarith
    have e2 := sum_sq_le_sq Finset.univ (fun k => max (-R k) 0) fun k _ => le_max_right _ _
    linarith
  have hs := Real.sq_sqrt hnu
  have hs0 := Real.sqrt_nonneg nu
  have hle : Q ≤ √nu + (nu + lam * Q) := by
    rw [hQ]
    refine Real.sqrt_le_iff.2 ⟨by rw [← hQ]; positivity, hsq.trans ?_⟩
    rw [← hQ]
    have : (∑ k, max (-R k) 0) ^ 2 ≤ (nu + lam * Q) ^ 2 := by
      refine pow_le_pow_left₀ hN0 hN 2
    have h5 : 0 ≤ nu + lam * Q := by positivity
    nlinarith [mul_nonneg hs0 h5]
  rw [le_div_iff₀ (by linarith)]
  linarith

theorem gap_approx (htau : 0 < tau) {p : XU m} (h : StrictFeas A b eps p) {dx : Fin m → ℝ} {lam0 rho lam : ℝ}
    (hdx : ∀ e : XU m, (w1pR A b eps tau p - redR A b eps p dx) ⬝ᵥ e.1 ≤ rho * √(∑ k, rate A b eps p e k ^ 2)) (hr0 : 0 ≤ rho)
    (hlam0 : √(∑ k, rate A b eps p (dx, duR tau p dx) k ^ 2) ≤ lam0) (hlam : lam0 + rho ≤ lam) (hl1 : lam < 1)
    {z : Fin m → ℝ} (hz : nrm (A *ᵥ z - b) ≤ eps) :
    tau * (∑ i, p.2 i - ∑ i, |z i|) ≤ (2 * m + 1) + lam * (((2 * m + 1) + √(2 * m + 1)) / (1 - lam)) := by
  have hl0 : 0 ≤ lam := by linarith [(Real.sqrt_nonneg _).trans hlam0]
  have hnu : (0 : ℝ) ≤ 2 * m + 1 := by positivity
  set e : XU m := (z - p.1, fun i => |z i| - p.2 i) with he
  obtain ⟨g1, g2⟩ := newton_residual htau.ne' h dx
  have hB := hess_cs htau h (dx, duR tau p dx) e
  rw [g1, g2, sub_dotProduct, smul_dotProduct, smul_eq_mul, neg_dotProduct, neg_dotProduct] at hB
  have hres := hdx e
  have hs := line_slope (tau := tau) htau.ne' h e
  have he2 : ∑ i, e.2 i = ∑ i, |z i| - ∑ i, p.2 i := by rw [← Finset.sum_sub_distrib]
  have hR1 : ∀ k, rate A b eps p e k ≤ 1 := rate_feasible h hz
  have hpos : ∑ k, max (rate A b eps p e k) 0 ≤ 2 * m + 1 := by
    rw [Fintype.sum_sum_type, Fintype.sum_sum_type, Fin.sum_univ_two, max_eq_right (rate_root1 h e)]
    have s1 : ∑ i : Fin m, max (rate A b eps p e (.inl (.inl i))) 0 ≤ m := by
      have : ∑ i : Fin m, max (rate A b eps p e (.inl (.inl i))) 0 ≤ ∑ _i : Fin m, (1 : ℝ) :=
        Finset.sum_le_sum fun i _ => max_le (hR1 _) zero_le_one
      simpa using this
    have s2 : ∑ i : Fin m, max (rate A b eps p e (.inl (.inr i))) 0 ≤ m := by
      have : ∑ i : Fin m, max (rate A b eps p e (.inl (.inr i))) 0 ≤ ∑ _i : Fin m, (1 : ℝ) :=
        Finset.sum_le_sum fun i _ => max_le (hR1 _) zero_le_one
      simpa using this
    have s3 := max_le (hR1 (.inr 0)) zero_le_one
    linarith
  have hS : ∑ k, rate A b eps p e k ≤ 2 * m + 1 := (Finset.sum_le_sum fun k _ => le_max_left _ 0).trans hpos
  set Q := √(∑ k, rate A b eps p e k ^ 2) with hQ
  have hQ0 : 0 ≤ Q := Real.sqrt_nonneg _
  have hmain : tau * (∑ i, p.2 i - ∑ i, |z i|) ≤ ∑ k, rate A b eps p e k + lam * Q := by
    have h2 := mul_le_mul_of_nonneg_right hlam0 hQ0
    have h2' := mul_le_mul_of_nonneg_right hlam hQ0
    have h3 : tau * (-(gxR A b eps tau p ⬝ᵥ e.1) + -(guR tau p ⬝ᵥ e.2)) ≤ lam * Q := by
      have h4 := mul_le_mul_of_nonneg_left hB htau.le
      rw [← mul_assoc, mul_one_div_cancel htau.ne', one_mul] at h4
      have h5 : tau * (-(gxR A b eps tau p ⬝ᵥ e.1) - 1 / tau * ((w1pR A b eps tau p - redR A b eps p dx) ⬝ᵥ e.1) + -(guR tau p ⬝ᵥ e.2)) =
          tau * (-(gxR A b eps tau p ⬝ᵥ e.1) + -(guR tau p ⬝ᵥ e.2)) - (w1pR A b eps tau p - redR A b eps p dx) ⬝ᵥ e.1 := by
        field_simp
        ring
      rw [h5] at h4
      linarith
    have h5 : tau * (gxR A b eps tau p ⬝ᵥ e.1 + guR tau p ⬝ᵥ e.2) = tau * ∑ i, e.2 i + ∑ k, rate A b eps p e k := by
      rw [hs]; field_simp
    rw [he2] at h5
    linarith
  have hfin : 0 ≤ lam * ((2 * m + 1 + √(2 * m + 1 : ℝ)) / (1 - lam)) :=
    mul_nonneg hl0 (div_nonneg (by positivity) (by linarith))
  rcases le_total (tau * (∑ i, p.2 i - ∑ i, |z i|)) 0 with hneg | hge
  · linarith
  · have hlen := rate_len (R := rate A b eps p e) hnu hR1 hpos (by rw [← hQ]; linarith) hl0 hl1
    rw [← hQ] at hlen
    have := mul_le_mul_of_nonneg_left hlen hl0
    linarith

/-- the same after the step has been taken -/
theorem gap_after (htau : 0 < tau) {p : XU m} (h : StrictFeas A b eps p) {dx : Fin m → ℝ} {L t lam0 rho lam : ℝ} (hg : GoodStep A b eps tau p dx L t)
    (hdx : ∀ e : XU m, (w1pR A b eps tau p - redR A b eps p dx) ⬝ᵥ e.1 ≤ rho * √(∑ k, rate A b eps p e k ^ 2)) (hr0 : 0 ≤ rho)
    (hlam : √L ≤ lam0) (hlam' : lam0 + rho ≤ lam) (hl1 : lam < 1) {z : Fin m → ℝ} (hz : nrm (A *ᵥ z - b) ≤ eps) :
    tau * (∑ i, |(p + t • ((dx, duR tau p dx) : XU m)).1 i| - ∑ i, |z i|) ≤
      (2 * m + 1) + lam * (((2 * m + 1) + √(2 * m + 1)) / (1 - lam)) + lam0 * √(2 * m + 2) := by
  have hl0 : 0 ≤ lam0 := (Real.sqrt_nonneg _).trans hlam
  have h0 := gap_approx htau h hdx hr0 (by rw [hg.dec]; exact hlam) hlam' hl1 hz
  set d : XU m := (dx, duR tau p dx) with hd
  have habs : ∑ i, |(p + t • d).1 i| ≤ ∑ i, (p + t • d).2 i :=
    Finset.sum_le_sum fun i _ => (abs_lt.2 (hg.strict.1 i)).le
  have hu : ∑ i, (p + t • d).2 i = ∑ i, p.2 i + t * ∑ i, d.2 i := by
    rw [Finset.mul_sum, ← Finset.sum_add_distrib]; rfl
  have hs := line_slope (tau := tau) htau.ne' h d
  have hL0 : 0 ≤ L := by rw [← hg.dec]; exact Finset.sum_nonneg fun k _ => sq_nonneg _
  have hcs : -∑ k, rate A b eps p d k ≤ √(2 * m + 2) * √L := by
    have := Real.sum_mul_le_sqrt_mul_sqrt Finset.univ (fun _ : (Fin m ⊕ Fin m) ⊕ Fin 2 => (1 : ℝ)) (fun k => -rate A b eps p d k)
    simp only [one_mul, neg_sq, one_pow, Finset.sum_const, Finset.card_univ, Fintype.card_sum, Fintype.card_fin, nsmul_eq_mul, mul_one,
      Finset.sum_neg_distrib] at this
    rw [hg.dec] at this
    refine this.trans_eq ?_
    congr 2; push_cast; ring
  have hd2 : tau * ∑ i, d.2 i ≤ √(2 * m + 2) * lam0 := by
    have e : tau * (gxR A b eps tau p ⬝ᵥ d.1 + guR tau p ⬝ᵥ d.2) = tau * ∑ i, d.2 i + ∑ k, rate A b eps p d k := by
      rw [hs]; field_simp
    have e2 : tau * (gxR A b eps tau p ⬝ᵥ d.1 + guR tau p ⬝ᵥ d.2) = -L := by
      rw [hg.slope]; field_simp
    have e3 := mul_le_mul_of_nonneg_left hlam (Real.sqrt_nonneg (2 * m + 2))
    linarith
  have ht : tau * (t * ∑ i, d.2 i) ≤ √(2 * m + 2) * lam0 := by
    have e1 : tau * (t * ∑ i, d.2 i) = t * (tau * ∑ i, d.2 i) := by ring
    have e2 : 0 ≤ √(2 * m + 2 : ℝ) * lam0 := mul_nonneg (Real.sqrt_nonneg _) hl0
    have := hg.t0; have := hg.t1
    rw [e1]
    nlinarith
  have := mul_le_mul_of_nonneg_left habs htau.le
  rw [hu] at this
  linarith

/-- with decrement at most 1/4 and residual at most 1/8: three times the gap of the exact centre -/
theorem gap_after_quarter (htau : 0 < tau) {p : XU m} (h : StrictFeas A b eps p) {dx : Fin m → ℝ} {L t : ℝ} (hg : GoodStep A b eps tau p dx L t)
    (hdx : ∀ e : XU m, (w1pR A b eps tau p - redR A b eps p dx) ⬝ᵥ e.1 ≤ 1 / 8 * √(∑ k, rate A b eps p e k ^ 2)) (hlam : L ≤ 1 / 16) {z : Fin m → ℝ} (hz : nrm (A *ᵥ z - b) ≤ eps) :
    ∑ i, |(p + t • ((dx, duR tau p dx) : XU m)).1 i| ≤ ∑ i, |z i| + 3 * ((2 * m + 1) / tau) := by
  have hl : √L ≤ 1 / 4 := by
    rw [show (1 / 4 : ℝ) = √(1 / 16) by rw [show (1 / 16 : ℝ) = (1 / 4) ^ 2 by norm_num, Real.sqrt_sq (by norm_num)]]
    exact Real.sqrt_le_sqrt hlam
  have h0 := gap_after htau h hg hdx (by norm_num) hl (lam := 3 / 8) (by norm_num) (by norm_num) hz
  have hm : (0 : ℝ) ≤ m := by positivity
  have s1 : √(2 * m + 1 : ℝ) ≤ 2 * m + 1 := Real.sqrt_le_iff.2 ⟨by linarith, by nlinarith⟩
  have s2 : √(2 * m + 2 : ℝ) ≤ 2 * m + 2 := Real.sqrt_le_iff.2 ⟨by linarith, by nlinarith⟩
  have h1 : tau * (∑ i, |(p + t • ((dx, duR tau p dx) : XU m)).1 i| - ∑ i, |z i|) ≤ 3 * (2 * m + 1) := by
    refine h0.trans ?_
    have : (1 : ℝ) - 3 / 8 = 5 / 8 := by norm_num
    rw [this]
    linarith
  rw [mul_div_assoc', ← sub_le_iff_le_add', le_div_iff₀ htau, mul_comm]
  exact h1

/-! ## Lower bound of the barrier objective -/

theorem low_le (htau : 0 < tau) {p : XU m} (h : StrictFeas A b eps p) : barrierLow m eps tau ≤ tau * barrier A b eps tau p := by
  have heps : 0 < eps := lt_of_le_of_lt (nrm_nonneg _) h.2
  have hq : Real.log ((eps ^ 2 - (A *ᵥ p.1 - b) ⬝ᵥ (A *ᵥ p.1 - b)) / 2) ≤ Real.log (eps ^ 2 / 2) := by
    have hs := h.slack
    unfold slackR at hs
    refine Real.log_le_log (by linarith) ?_
    linarith [dot_self_nonneg (A *ᵥ p.1 - b)]
  have hi : ∀ i, 2 + 2 * Real.log (tau / 2) ≤ tau * p.2 i - Real.log (p.2 i - p.1 i) - Real.log (p.2 i + p.1 i) := by
    intro i
    have a1 : 0 < p.2 i - p.1 i := by linarith [(h.1 i).2]
    have a2 : 0 < p.2 i + p.1 i := by linarith [(h.1 i).1]
    have l1 := Real.log_le_sub_one_of_pos (mul_pos a1 (half_pos htau))
    have l2 := Real.log_le_sub_one_of_pos (mul_pos a2 (half_pos htau))
    rw [Real.log_mul a1.ne' (half_pos htau).ne'] at l1
    rw [Real.log_mul a2.ne' (half_pos htau).ne'] at l2
    linarith
  have hsum : (m : ℝ) * (2 + 2 * Real.log (tau / 2)) ≤ ∑ i, (tau * p.2 i - Real.log (p.2 i - p.1 i) - Real.log (p.2 i + p.1 i)) := by
    have := Finset.sum_le_sum fun i (_ : i ∈ Finset.univ) => hi i
    rwa [Finset.sum_const, Finset.card_univ, Fintype.card_fin, nsmul_eq_mul] at this
  rw [Finset.sum_sub_distrib, Finset.sum_sub_distrib, ← Finset.mul_sum] at hsum
  have e : tau * barrier A b eps tau p = tau * ∑ i, p.2 i - (∑ i, Real.log (p.2 i - p.1 i) + ∑ i, Real.log (p.2 i + p.1 i) +
      Real.log ((eps ^ 2 - (A *ᵥ p.1 - b) ⬝ᵥ (A *ᵥ p.1 - b)) / 2)) := by
    unfold barrier; field_simp
  rw [e]
  unfold barrierLow
  linarith

/-- changing the weight -/
theorem barrier_weight {tau' : ℝ} (ht : tau ≠ 0) (ht' : tau' ≠ 0) (p : XU m) :
    tau' * barrier A b eps tau' p = tau * barrier A b eps tau p + (tau' - tau) * ∑ i, p.2 i := by
  unfold barrier; field_simp; ring

theorem sum_u_le (htau : 0 < tau) {p : XU m} (h : StrictFeas A b eps p) :
    tau * ∑ i, p.2 i ≤ 2 * (tau * barrier A b eps tau p - barrierLow m eps (tau / 2)) := by
  have h1 := low_le (half_pos htau) h
  rw [barrier_weight (tau := tau) (tau' := tau / 2) htau.ne' (half_pos htau).ne'] at h1
  linarith

end L1c
