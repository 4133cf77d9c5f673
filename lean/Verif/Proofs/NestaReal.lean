import Verif.Spec.Nesta
import Mathlib.Analysis.Calculus.FDeriv.Basic
import Mathlib.Analysis.Normed.Module.FiniteDimension
import Mathlib.Algebra.BigOperators.Field
import Mathlib.Tactic.LinearCombination
import Mathlib.Tactic.Module

/-! # Mathematics of NESTA: projection, smoothing, accelerated rate -/

namespace L1c
open Matrix

variable {n m p : ℕ}

/-! ## Inner products -/

theorem nrm_sq (x : Fin n → ℝ) : nrm x * nrm x = x ⬝ᵥ x := Real.mul_self_sqrt (dot_self_nonneg x)

theorem dot_le_nrm (x y : Fin n → ℝ) : x ⬝ᵥ y ≤ nrm x * nrm y := by
  have := Real.sum_mul_le_sqrt_mul_sqrt Finset.univ x y
  simpa only [nrm, dotProduct, pow_two] using this

theorem neg_nrm_le_dot (x y : Fin n → ℝ) : -(nrm x * nrm y) ≤ x ⬝ᵥ y := by
  have := dot_le_nrm (-x) y
  rw [neg_dotProduct] at this
  have e : nrm (-x) = nrm x := by simp [nrm]
  rw [e] at this; linarith

theorem nrm_smul (a : ℝ) (x : Fin n → ℝ) : nrm (a • x) = |a| * nrm x := by
  simp only [nrm, smul_dotProduct, dotProduct_smul, smul_eq_mul, ← mul_assoc]
  rw [Real.sqrt_mul (mul_self_nonneg a), Real.sqrt_mul_self_eq_abs]

theorem nrm_le_of_sq {x : Fin n → ℝ} {c : ℝ} (hc : 0 ≤ c) (h : x ⬝ᵥ x ≤ c * c) : nrm x ≤ c := by
  rw [nrm, ← Real.sqrt_mul_self hc]; exact Real.sqrt_le_sqrt h

theorem nrm_add_le (x y : Fin n → ℝ) : nrm (x + y) ≤ nrm x + nrm y := by
  refine nrm_le_of_sq (add_nonneg (nrm_nonneg _) (nrm_nonneg _)) ?_
  have := dot_le_nrm x y
  rw [add_dotProduct, dotProduct_add, dotProduct_add, dotProduct_comm y x]
  nlinarith [nrm_sq x, nrm_sq y]

theorem dot_mulVec_T (A : Matrix (Fin n) (Fin m) ℝ) (y : Fin n → ℝ) (x : Fin m → ℝ) :
    (Aᵀ *ᵥ y) ⬝ᵥ x = y ⬝ᵥ (A *ᵥ x) := by
  rw [dotProduct_mulVec, vecMul_eq_mulVec_transpose]
where
  vecMul_eq_mulVec_transpose : y ᵥ* A = Aᵀ *ᵥ y := by rw [mulVec_transpose]

theorem Feas.convex {A : Matrix (Fin n) (Fin m) ℝ} {b : Fin n → ℝ} {sigma t : ℝ} {x y : Fin m → ℝ}
    (hx : Feas A b sigma x) (hy : Feas A b sigma y) (h0 : 0 ≤ t) (h1 : t ≤ 1) :
    Feas A b sigma (t • x + (1 - t) • y) := by
  unfold Feas at *
  have e : b - A *ᵥ (t • x + (1 - t) • y) = t • (b - A *ᵥ x) + (1 - t) • (b - A *ᵥ y) := by
    rw [mulVec_add, mulVec_smul, mulVec_smul]; module
  rw [e]
  refine (nrm_add_le _ _).trans ?_
  rw [nrm_smul, nrm_smul, abs_of_nonneg h0, abs_of_nonneg (by linarith : 0 ≤ 1 - t)]
  nlinarith

/-! ## Projection -/

/-- multiplier of the projection -/
noncomputable def projLam (A : Matrix (Fin n) (Fin m) ℝ) (b : Fin n → ℝ) (sigma c : ℝ) (q : Fin m → ℝ) : ℝ :=
  max 0 (c * (nrm (b - A *ᵥ q) / sigma - 1))

/-- step length of the projection -/
noncomputable def projA1 (A : Matrix (Fin n) (Fin m) ℝ) (b : Fin n → ℝ) (sigma c : ℝ) (q : Fin m → ℝ) : ℝ :=
  projLam A b sigma c q / (c + projLam A b sigma c q)

/-- result of the projection -/
noncomputable def projR (A : Matrix (Fin n) (Fin m) ℝ) (b : Fin n → ℝ) (sigma c : ℝ) (xx g : Fin m → ℝ) : Fin m → ℝ :=
  (xx - (1 / c) • g) + projA1 A b sigma c (xx - (1 / c) • g) • (Aᵀ *ᵥ (b - A *ᵥ (xx - (1 / c) • g)))

variable {A : Matrix (Fin n) (Fin m) ℝ} {b : Fin n → ℝ} {sigma c : ℝ}

theorem projA1_cases (hs : 0 < sigma) (hc : 0 < c) (q : Fin m → ℝ) :
    (projA1 A b sigma c q = 0 ∧ nrm (b - A *ᵥ q) ≤ sigma) ∨
    (0 < projA1 A b sigma c q ∧ projA1 A b sigma c q < 1 ∧ (1 - projA1 A b sigma c q) * nrm (b - A *ᵥ q) = sigma) := by
  set r := nrm (b - A *ᵥ q) with hr
  by_cases h : r ≤ sigma
  · left
    refine ⟨?_, h⟩
    have : projLam A b sigma c q = 0 := by
      unfold projLam
      rw [max_eq_left]
      have : r / sigma ≤ 1 := (div_le_one hs).2 h
      nlinarith
    rw [projA1, this, zero_div]
  · right
    have h := not_le.1 h
    have hl : projLam A b sigma c q = c * (r / sigma - 1) := by
      unfold projLam
      rw [max_eq_right]
      have : 1 < r / sigma := (one_lt_div hs).2 h
      nlinarith
    have h1 : 1 < r / sigma := (one_lt_div hs).2 h
    have hr0 : 0 < r := hs.trans h
    have e : projA1 A b sigma c q = 1 - sigma / r := by
      rw [projA1, hl]; field_simp; ring
    rw [e]
    have h2 : sigma / r < 1 := (div_lt_one hr0).2 h
    refine ⟨by linarith, by have := div_pos hs hr0; linarith, ?_⟩
    field_simp; ring

theorem mul_transpose_mulVec (hA : A * Aᵀ = 1) (y : Fin n → ℝ) : A *ᵥ (Aᵀ *ᵥ y) = y := by
  rw [mulVec_mulVec, hA, one_mulVec]

theorem proj_resid (hA : A * Aᵀ = 1) (q : Fin m → ℝ) (a : ℝ) :
    b - A *ᵥ (q + a • (Aᵀ *ᵥ (b - A *ᵥ q))) = (1 - a) • (b - A *ᵥ q) := by
  rw [mulVec_add, mulVec_smul, mul_transpose_mulVec hA]; module

theorem projR_feas (hA : A * Aᵀ = 1) (hs : 0 < sigma) (hc : 0 < c) (xx g : Fin m → ℝ) :
    Feas A b sigma (projR A b sigma c xx g) := by
  unfold Feas projR
  rw [proj_resid hA, nrm_smul]
  rcases projA1_cases (A := A) (b := b) hs hc (xx - (1 / c) • g) with ⟨h0, h1⟩ | ⟨h0, h1, h2⟩
  · rw [h0]; simpa using h1
  · rw [abs_of_pos (by linarith), h2]

theorem proxObj_expand (hc : c ≠ 0) (xx g x v : Fin m → ℝ) :
    proxObj c xx g x = proxObj c xx g v + c / 2 * ((x - v) ⬝ᵥ (x - v)) + c * ((v - (xx - (1 / c) • g)) ⬝ᵥ (x - v)) := by
  have e : v - (xx - (1 / c) • g) = (v - xx) + (1 / c) • g := by module
  have e2 : x - xx = (x - v) + (v - xx) := by module
  rw [e, add_dotProduct, smul_dotProduct, smul_eq_mul]
  unfold proxObj
  rw [e2]
  simp only [add_dotProduct, dotProduct_add, dotProduct_sub g]
  rw [dotProduct_comm (v - xx) (x - v)]
  field_simp
  ring

/-- strong optimality of the projection -/
theorem projR_opt (hA : A * Aᵀ = 1) (hs : 0 < sigma) (hc : 0 < c) (xx g x : Fin m → ℝ) (hx : Feas A b sigma x) :
    proxObj c xx g (projR A b sigma c xx g) +
      c / 2 * ((x - projR A b sigma c xx g) ⬝ᵥ (x - projR A b sigma c xx g)) ≤ proxObj c xx g x := by
  rw [proxObj_expand hc.ne' xx g x (projR A b sigma c xx g)]
  set q := xx - (1 / c) • g with hq
  set a := projA1 A b sigma c q with ha
  set e := b - A *ᵥ q with he
  have hv : projR A b sigma c xx g = q + a • (Aᵀ *ᵥ e) := rfl
  have hAv : A *ᵥ projR A b sigma c xx g = b - (1 - a) • e := by
    have := proj_resid (b := b) hA q a
    rw [hv, ← this]; abel
  have key : 0 ≤ (projR A b sigma c xx g - q) ⬝ᵥ (x - projR A b sigma c xx g) := by
    have e1 : projR A b sigma c xx g - q = a • (Aᵀ *ᵥ e) := by rw [hv]; abel
    rw [e1, smul_dotProduct, dot_mulVec_T, mulVec_sub, hAv, smul_eq_mul]
    have e2 : A *ᵥ x - (b - (1 - a) • e) = (1 - a) • e - (b - A *ᵥ x) := by abel
    rw [e2, dotProduct_sub, dotProduct_smul, smul_eq_mul, ← nrm_sq]
    rcases projA1_cases (A := A) (b := b) hs hc q with ⟨h0, h1⟩ | ⟨h0, h1, h2⟩
    · rw [← ha] at h0; rw [h0]; simp
    · rw [← ha, ← he] at h2; rw [← ha] at h0 h1
      refine mul_nonneg h0.le ?_
      have h3 := dot_le_nrm e (b - A *ᵥ x)
      have h4 : nrm e * nrm (b - A *ᵥ x) ≤ nrm e * sigma := mul_le_mul_of_nonneg_left hx (nrm_nonneg _)
      have h5 : (1 - a) * (nrm e * nrm e) = nrm e * sigma := by rw [← h2]; ring
      linarith
  have := mul_nonneg hc.le key
  linarith

/-! ## Smoothing -/

/-- dual variable of the smoothed absolute value -/
noncomputable def smU (mu w : ℝ) : ℝ := w / max mu |w|

/-- smoothed absolute value -/
noncomputable def smV (mu w : ℝ) : ℝ := smU mu w * w - mu / 2 * (smU mu w * smU mu w)

variable {mu : ℝ}

theorem smU_abs_le (hmu : 0 < mu) (w : ℝ) : |smU mu w| ≤ 1 := by
  have : 0 < max mu |w| := lt_max_of_lt_left hmu
  rw [smU, abs_div, abs_of_pos this]
  exact (div_le_one this).2 (le_max_right _ _)

/-- `smU` is the projection of `w/mu` on `[-1,1]` -/
theorem smU_opt (hmu : 0 < mu) (w u : ℝ) (hu : |u| ≤ 1) : (w - mu * smU mu w) * (u - smU mu w) ≤ 0 := by
  rw [abs_le] at hu
  by_cases h : |w| ≤ mu
  · have : w - mu * smU mu w = 0 := by
      rw [smU, max_eq_left h]; field_simp; ring
    rw [this, zero_mul]
  · have h := not_le.1 h
    rcases lt_or_ge w 0 with h0 | h0
    · rw [abs_of_neg h0] at h
      have e : smU mu w = -1 := by
        rw [smU, abs_of_neg h0, max_eq_right h.le, div_neg, div_self h0.ne]
      rw [e]
      nlinarith
    · rw [abs_of_nonneg h0] at h
      have e : smU mu w = 1 := by
        rw [smU, abs_of_nonneg h0, max_eq_right h.le, div_self (by linarith)]
      rw [e]
      nlinarith

theorem smV_max (hmu : 0 < mu) (w u : ℝ) (hu : |u| ≤ 1) : u * w - mu / 2 * (u * u) ≤ smV mu w := by
  have h := smU_opt hmu w u hu
  unfold smV
  nlinarith [mul_self_nonneg (u - smU mu w), mul_nonneg hmu.le (mul_self_nonneg (u - smU mu w))]

theorem smV_descent (hmu : 0 < mu) (w w' : ℝ) :
    smV mu w' ≤ smV mu w + smU mu w * (w' - w) + (w' - w) * (w' - w) / (2 * mu) := by
  have h := smU_opt hmu w (smU mu w') (smU_abs_le hmu w')
  have h2 : 0 ≤ (mu * (smU mu w' - smU mu w) - (w' - w)) ^ 2 / (2 * mu) := by positivity
  have h3 : (mu * (smU mu w' - smU mu w) - (w' - w)) ^ 2 / (2 * mu) =
      mu / 2 * (smU mu w' - smU mu w) ^ 2 - (smU mu w' - smU mu w) * (w' - w) + (w' - w) * (w' - w) / (2 * mu) := by
    field_simp; ring
  rw [h3] at h2
  unfold smV
  nlinarith

theorem smU_lip (hmu : 0 < mu) (w w' : ℝ) :
    (smU mu w' - smU mu w) * (smU mu w' - smU mu w) ≤ (w' - w) * (w' - w) / (mu * mu) := by
  have h := smU_opt hmu w (smU mu w') (smU_abs_le hmu w')
  have h' := smU_opt hmu w' (smU mu w) (smU_abs_le hmu w)
  set d := smU mu w' - smU mu w
  have h1 : mu * (d * d) ≤ (w' - w) * d := by
    have e : (w - mu * smU mu w) * d + (w' - mu * smU mu w') * (smU mu w - smU mu w') = mu * (d * d) - (w' - w) * d := by
      simp only [d]; ring
    have : (w - mu * smU mu w) * d ≤ 0 := h
    linarith
  rw [le_div_iff₀ (mul_pos hmu hmu)]
  nlinarith [mul_self_nonneg (mu * d - (w' - w)), mul_le_mul_of_nonneg_left h1 hmu.le]

/-- smoothed 1-norm -/
noncomputable def smF (mu : ℝ) (w : Fin p → ℝ) : ℝ := ∑ i, smV mu (w i)

/-- its dual vector -/
noncomputable def smUv (mu : ℝ) (w : Fin p → ℝ) : Fin p → ℝ := fun i => smU mu (w i)

theorem smF_eq (mu : ℝ) (w : Fin p → ℝ) : smF mu w = smUv mu w ⬝ᵥ w - mu / 2 * (smUv mu w ⬝ᵥ smUv mu w) := by
  simp only [smF, smV, dotProduct, smUv, Finset.sum_sub_distrib, Finset.mul_sum]

theorem smF_isSmooth (hmu : 0 < mu) (w : Fin p → ℝ) : IsSmoothL1 mu w (smF mu w) := by
  refine ⟨⟨smUv mu w, fun i => smU_abs_le hmu _, smF_eq mu w⟩, ?_⟩
  rintro t ⟨u, hu, rfl⟩
  simp only [dotProduct, Finset.mul_sum, ← Finset.sum_sub_distrib]
  exact Finset.sum_le_sum fun i _ => smV_max hmu _ _ (hu i)

theorem smF_lower (hmu : 0 < mu) (w w' : Fin p → ℝ) : smF mu w + smUv mu w ⬝ᵥ (w' - w) ≤ smF mu w' := by
  have := (smF_isSmooth hmu w').2 ⟨smUv mu w, fun i => smU_abs_le hmu _, rfl⟩
  rw [smF_eq mu w, dotProduct_sub]; linarith

theorem smF_upper (hmu : 0 < mu) (w w' : Fin p → ℝ) :
    smF mu w' ≤ smF mu w + smUv mu w ⬝ᵥ (w' - w) + ((w' - w) ⬝ᵥ (w' - w)) / (2 * mu) := by
  simp only [smF, dotProduct, smUv, Finset.sum_div, ← Finset.sum_add_distrib, Pi.sub_apply]
  exact Finset.sum_le_sum fun i _ => smV_descent hmu _ _

theorem smUv_lip (hmu : 0 < mu) (w w' : Fin p → ℝ) : nrm (smUv mu w' - smUv mu w) ≤ nrm (w' - w) / mu := by
  refine nrm_le_of_sq (div_nonneg (nrm_nonneg _) hmu.le) ?_
  rw [div_mul_div_comm, nrm_sq]
  simp only [dotProduct, Finset.sum_div]
  exact Finset.sum_le_sum fun i _ => smU_lip hmu _ _

theorem smF_nonneg (hmu : 0 < mu) (w : Fin p → ℝ) : 0 ≤ smF mu w := by
  have := (smF_isSmooth hmu w).2 ⟨0, by simp, rfl⟩
  simpa using this

theorem smF_le_l1 (hmu : 0 < mu) (w : Fin p → ℝ) : smF mu w ≤ ∑ i, |w i| := by
  refine Finset.sum_le_sum fun i _ => ?_
  have h := smU_abs_le hmu (w i)
  have h1 : smU mu (w i) * w i ≤ |w i| := by
    calc _ ≤ |smU mu (w i) * w i| := le_abs_self _
      _ = |smU mu (w i)| * |w i| := abs_mul _ _
      _ ≤ 1 * |w i| := mul_le_mul_of_nonneg_right h (abs_nonneg _)
      _ = _ := one_mul _
  unfold smV
  nlinarith [mul_nonneg hmu.le (mul_self_nonneg (smU mu (w i)))]

theorem l1_le_smF (hmu : 0 < mu) (w : Fin p → ℝ) : ∑ i, |w i| ≤ smF mu w + p * mu / 2 := by
  have h : ∀ i, |w i| - mu / 2 ≤ smV mu (w i) := fun i => by
    rcases le_total 0 (w i) with h | h
    · have := smV_max hmu (w i) 1 (by simp); rw [abs_of_nonneg h]; linarith
    · have := smV_max hmu (w i) (-1) (by simp); rw [abs_of_nonpos h]; linarith
  have := Finset.sum_le_sum fun i (_ : i ∈ Finset.univ) => h i
  rw [Finset.sum_sub_distrib] at this
  simp only [Finset.sum_const, Finset.card_univ, Fintype.card_fin, nsmul_eq_mul] at this
  unfold smF; linarith

/-! ## The composite objective `x ↦ smF mu (Wᵀ x)` -/

/-- gradient of the composite objective -/
noncomputable def gradR (mu : ℝ) (W : Matrix (Fin m) (Fin p) ℝ) (x : Fin m → ℝ) : Fin m → ℝ :=
  W *ᵥ smUv mu (Wᵀ *ᵥ x)

variable {W : Matrix (Fin m) (Fin p) ℝ} {K : ℝ}

theorem dot_gradR (x d : Fin m → ℝ) : gradR mu W x ⬝ᵥ d = smUv mu (Wᵀ *ᵥ x) ⬝ᵥ (Wᵀ *ᵥ d) := by
  have := dot_mulVec_T Wᵀ (smUv mu (Wᵀ *ᵥ x)) d
  rwa [transpose_transpose] at this

theorem comp_lower (hmu : 0 < mu) (x y : Fin m → ℝ) :
    smF mu (Wᵀ *ᵥ x) + gradR mu W x ⬝ᵥ (y - x) ≤ smF mu (Wᵀ *ᵥ y) := by
  rw [dot_gradR, mulVec_sub]; exact smF_lower hmu _ _

theorem comp_upper (hmu : 0 < mu) (hW : ∀ x, nrm (Wᵀ *ᵥ x) ≤ K * nrm x) (x y : Fin m → ℝ) :
    smF mu (Wᵀ *ᵥ y) ≤ smF mu (Wᵀ *ᵥ x) + gradR mu W x ⬝ᵥ (y - x) + K * K / mu / 2 * ((y - x) ⬝ᵥ (y - x)) := by
  have h1 := smF_upper hmu (Wᵀ *ᵥ x) (Wᵀ *ᵥ y)
  rw [← mulVec_sub] at h1
  rw [dot_gradR]
  have h2 : (Wᵀ *ᵥ (y - x)) ⬝ᵥ (Wᵀ *ᵥ (y - x)) ≤ K * K * ((y - x) ⬝ᵥ (y - x)) := by
    rw [← nrm_sq, ← nrm_sq]
    calc _ ≤ (K * nrm (y - x)) * (K * nrm (y - x)) := mul_self_le_mul_self (nrm_nonneg _) (hW _)
      _ = _ := by ring
  have h3 : (Wᵀ *ᵥ (y - x)) ⬝ᵥ (Wᵀ *ᵥ (y - x)) / (2 * mu) ≤ K * K * ((y - x) ⬝ᵥ (y - x)) / (2 * mu) :=
    div_le_div_of_nonneg_right h2 (by linarith)
  have h4 : K * K / mu / 2 * ((y - x) ⬝ᵥ (y - x)) = K * K * ((y - x) ⬝ᵥ (y - x)) / (2 * mu) := by
    field_simp
  rw [h4]; linarith

theorem W_bound (hK : 0 ≤ K) (hW : ∀ x, nrm (Wᵀ *ᵥ x) ≤ K * nrm x) (u : Fin p → ℝ) : nrm (W *ᵥ u) ≤ K * nrm u := by
  by_cases h0 : nrm (W *ᵥ u) = 0
  · rw [h0]; exact mul_nonneg hK (nrm_nonneg _)
  have hpos : 0 < nrm (W *ᵥ u) := lt_of_le_of_ne (nrm_nonneg _) (Ne.symm h0)
  have h1 : nrm (W *ᵥ u) * nrm (W *ᵥ u) ≤ nrm u * (K * nrm (W *ᵥ u)) := by
    rw [nrm_sq]
    have := dot_mulVec_T Wᵀ u (W *ᵥ u)
    rw [transpose_transpose] at this
    rw [this]
    exact (dot_le_nrm _ _).trans (mul_le_mul_of_nonneg_left (hW _) (nrm_nonneg _))
  nlinarith

theorem gradR_lip (hmu : 0 < mu) (hK : 0 ≤ K) (hW : ∀ x, nrm (Wᵀ *ᵥ x) ≤ K * nrm x) (x y : Fin m → ℝ) :
    nrm (gradR mu W y - gradR mu W x) ≤ K * K / mu * nrm (y - x) := by
  unfold gradR
  rw [← mulVec_sub]
  refine (W_bound hK hW _).trans ?_
  have h1 := smUv_lip hmu (Wᵀ *ᵥ x) (Wᵀ *ᵥ y)
  rw [← mulVec_sub] at h1
  have h2 : nrm (Wᵀ *ᵥ (y - x)) / mu ≤ K * nrm (y - x) / mu := div_le_div_of_nonneg_right (hW _) hmu.le
  calc _ ≤ K * (K * nrm (y - x) / mu) := mul_le_mul_of_nonneg_left (h1.trans h2) hK
    _ = _ := by ring

/-! ## The accelerated rate -/

/-- the iteration of one continuation step -/
structure AccelSeq (A : Matrix (Fin n) (Fin m) ℝ) (b : Fin n → ℝ) (sigma c : ℝ) (g : (Fin m → ℝ) → Fin m → ℝ)
    (xo : Fin m → ℝ) (x y z : ℕ → Fin m → ℝ) : Prop where
  x0 : x 0 = xo
  hy : ∀ k, y k = projR A b sigma c (x k) (g (x k))
  hz : ∀ k, z k = projR A b sigma c xo (∑ i ∈ Finset.range (k + 1), ((i + 1 : ℝ) / 2) • g (x i))
  hx : ∀ k, x (k + 1) = (2 / (k + 3 : ℝ)) • z k + (1 - 2 / (k + 3 : ℝ)) • y k

/-- the model function of the estimate sequence -/
noncomputable def psi (f : (Fin m → ℝ) → ℝ) (g : (Fin m → ℝ) → Fin m → ℝ) (c : ℝ) (xo : Fin m → ℝ)
    (x : ℕ → Fin m → ℝ) (k : ℕ) (w : Fin m → ℝ) : ℝ :=
  c / 2 * ((w - xo) ⬝ᵥ (w - xo)) + ∑ i ∈ Finset.range (k + 1), ((i + 1 : ℝ) / 2) * (f (x i) + g (x i) ⬝ᵥ (w - x i))

theorem psi_eq (f : (Fin m → ℝ) → ℝ) (g : (Fin m → ℝ) → Fin m → ℝ) (c : ℝ) (xo : Fin m → ℝ)
    (x : ℕ → Fin m → ℝ) (k : ℕ) (w : Fin m → ℝ) :
    psi f g c xo x k w = proxObj c xo (∑ i ∈ Finset.range (k + 1), ((i + 1 : ℝ) / 2) • g (x i)) w +
      ∑ i ∈ Finset.range (k + 1), ((i + 1 : ℝ) / 2) * (f (x i) - g (x i) ⬝ᵥ x i) := by
  unfold psi proxObj
  rw [sum_dotProduct, add_assoc, ← Finset.sum_add_distrib]
  congr 1
  refine Finset.sum_congr rfl fun i _ => ?_
  rw [smul_dotProduct, dotProduct_sub, smul_eq_mul]; ring

theorem accel {f : (Fin m → ℝ) → ℝ} {g : (Fin m → ℝ) → Fin m → ℝ} {xo : Fin m → ℝ} {x y z : ℕ → Fin m → ℝ}
    (hA : A * Aᵀ = 1) (hs : 0 < sigma) (hc : 0 < c) (S : AccelSeq A b sigma c g xo x y z)
    (hlow : ∀ x y, f x + g x ⬝ᵥ (y - x) ≤ f y)
    (hup : ∀ x y, f y ≤ f x + g x ⬝ᵥ (y - x) + c / 2 * ((y - x) ⬝ᵥ (y - x))) :
    ∀ (k : ℕ) w, Feas A b sigma w → ((k + 1 : ℝ) * (k + 2) / 4) * f (y k) ≤ psi f g c xo x k w := by
  -- the gradient step
  have hy : ∀ k w, Feas A b sigma w → f (y k) ≤ f (x k) + g (x k) ⬝ᵥ (w - x k) + c / 2 * ((w - x k) ⬝ᵥ (w - x k)) := by
    intro k w hw
    have h1 := projR_opt hA hs hc (x k) (g (x k)) w hw
    rw [← S.hy k] at h1
    have h2 := hup (x k) (y k)
    have h3 := dot_self_nonneg (w - y k)
    unfold proxObj at h1
    rw [dotProduct_sub] at h2 ⊢
    nlinarith [mul_nonneg hc.le h3]
  intro k
  induction k with
  | zero =>
    intro w hw
    have h := hy 0 w hw
    have h3 := dot_self_nonneg (w - xo)
    unfold psi
    rw [S.x0] at h
    simp only [zero_add, Finset.sum_range_one, S.x0]
    push_cast
    nlinarith [mul_nonneg hc.le h3]
  | succ k ih =>
    intro w hw
    have hzf : Feas A b sigma (z k) := by rw [S.hz k]; exact projR_feas hA hs hc _ _
    have hyf : Feas A b sigma (y k) := by rw [S.hy k]; exact projR_feas hA hs hc _ _
    have h1 := ih (z k) hzf
    -- strong convexity of psi
    have h2 : psi f g c xo x k (z k) + c / 2 * ((w - z k) ⬝ᵥ (w - z k)) ≤ psi f g c xo x k w := by
      have := projR_opt hA hs hc xo (∑ i ∈ Finset.range (k + 1), ((i + 1 : ℝ) / 2) • g (x i)) w hw
      rw [← S.hz k] at this
      rw [psi_eq, psi_eq]; linarith
    have h3 : psi f g c xo x (k + 1) w =
        psi f g c xo x k w + ((k + 2 : ℝ) / 2) * (f (x (k + 1)) + g (x (k + 1)) ⬝ᵥ (w - x (k + 1))) := by
      unfold psi
      rw [Finset.sum_range_succ _ (k + 1)]
      push_cast; ring
    have h4 := hlow (x (k + 1)) (y k)
    have hk : (0 : ℝ) < k + 3 := by positivity
    -- the comparison point
    set v := (2 / (k + 3 : ℝ)) • w + (1 - 2 / (k + 3 : ℝ)) • y k with hv
    have hvf : Feas A b sigma v := by
      refine hw.convex hyf (by positivity) ?_
      rw [div_le_one hk]; have : (0 : ℝ) ≤ k := Nat.cast_nonneg k; linarith
    have h5 := hy (k + 1) v hvf
    have e1 : v - x (k + 1) = (2 / (k + 3 : ℝ)) • (w - z k) := by rw [hv, S.hx k]; module
    rw [e1, dotProduct_smul, smul_dotProduct, dotProduct_smul] at h5
    simp only [smul_eq_mul] at h5
    have e2 : y k - x (k + 1) = (2 / (k + 3 : ℝ)) • (y k - z k) := by rw [S.hx k]; module
    rw [e2, dotProduct_smul, smul_eq_mul] at h4
    have e3 : w - x (k + 1) = (w - z k) + (1 - 2 / (k + 3 : ℝ)) • (z k - y k) := by rw [S.hx k]; module
    have e4 : g (x (k + 1)) ⬝ᵥ (z k - y k) = -(g (x (k + 1)) ⬝ᵥ (y k - z k)) := by
      rw [← dotProduct_neg, neg_sub]
    rw [e3, dotProduct_add, dotProduct_smul, e4, smul_eq_mul] at h3
    have h6 := dot_self_nonneg (w - z k)
    generalize f (x (k + 1)) = F at *
    generalize g (x (k + 1)) ⬝ᵥ (w - z k) = G1 at *
    generalize g (x (k + 1)) ⬝ᵥ (y k - z k) = G2 at *
    generalize (w - z k) ⬝ᵥ (w - z k) = D at *
    generalize f (y (k + 1)) = Y1 at *
    generalize f (y k) = Y0 at *
    rw [h3]
    push_cast
    have hk0 : (0 : ℝ) ≤ k := Nat.cast_nonneg k
    generalize (k : ℝ) = t at *
    have h5' : ((t + 2) * (t + 3) / 4) * Y1 ≤ ((t + 2) * (t + 3) / 4) * F + (t + 2) / 2 * G1 + (t + 2) / (t + 3) * (c / 2 * D) := by
      have := mul_le_mul_of_nonneg_left h5 (by positivity : 0 ≤ (t + 2) * (t + 3) / 4)
      have e : (t + 2) * (t + 3) / 4 * (F + 2 / (t + 3) * G1 + c / 2 * (2 / (t + 3) * (2 / (t + 3) * D))) =
        ((t + 2) * (t + 3) / 4) * F + (t + 2) / 2 * G1 + (t + 2) / (t + 3) * (c / 2 * D) := by field_simp; ring
      linarith
    have h4' : (t + 1) * (t + 2) / 4 * F + (t + 1) * (t + 2) / (2 * (t + 3)) * G2 ≤ (t + 1) * (t + 2) / 4 * Y0 := by
      have := mul_le_mul_of_nonneg_left h4 (by positivity : 0 ≤ (t + 1) * (t + 2) / 4)
      have e : (t + 1) * (t + 2) / 4 * (F + 2 / (t + 3) * G2) =
        (t + 1) * (t + 2) / 4 * F + (t + 1) * (t + 2) / (2 * (t + 3)) * G2 := by field_simp; ring
      linarith
    have h7 : (t + 2) / (t + 3) * (c / 2 * D) ≤ c / 2 * D := by
      have : (t + 2) / (t + 3) ≤ 1 := by rw [div_le_one hk]; linarith
      have h8 : 0 ≤ c / 2 * D := by positivity
      nlinarith
    have e5 : (t + 2) / 2 * (F + (G1 + (1 - 2 / (t + 3)) * -G2)) =
        (t + 2) / 2 * F + (t + 2) / 2 * G1 - (t + 1) * (t + 2) / (2 * (t + 3)) * G2 := by field_simp; ring
    have e6 : (t + 1 + 1) * (t + 1 + 2) / 4 * Y1 = (t + 2) * (t + 3) / 4 * Y1 := by ring
    rw [e5, e6]
    have e7 : (t + 2) * (t + 3) / 4 * F = (t + 1) * (t + 2) / 4 * F + (t + 2) / 2 * F := by ring
    linarith

/-- the rate -/
theorem accel_rate {f : (Fin m → ℝ) → ℝ} {g : (Fin m → ℝ) → Fin m → ℝ} {xo : Fin m → ℝ} {x y z : ℕ → Fin m → ℝ}
    (hA : A * Aᵀ = 1) (hs : 0 < sigma) (hc : 0 < c) (S : AccelSeq A b sigma c g xo x y z)
    (hlow : ∀ x y, f x + g x ⬝ᵥ (y - x) ≤ f y)
    (hup : ∀ x y, f y ≤ f x + g x ⬝ᵥ (y - x) + c / 2 * ((y - x) ⬝ᵥ (y - x))) (k : ℕ) (w : Fin m → ℝ)
    (hw : Feas A b sigma w) : f (y k) ≤ f w + 2 * c * ((w - xo) ⬝ᵥ (w - xo)) / ((k + 1) * (k + 2)) := by
  have h := accel hA hs hc S hlow hup k w hw
  have hsum : ∀ k : ℕ, ∑ i ∈ Finset.range (k + 1), ((i + 1 : ℝ) / 2) = (k + 1) * (k + 2) / 4 := by
    intro k
    induction k with
    | zero => simp; norm_num
    | succ k ih => rw [Finset.sum_range_succ, ih]; push_cast; ring
  have h2 : ∑ i ∈ Finset.range (k + 1), ((i + 1 : ℝ) / 2) * (f (x i) + g (x i) ⬝ᵥ (w - x i)) ≤ (k + 1) * (k + 2) / 4 * f w := by
    rw [← hsum, Finset.sum_mul]
    exact Finset.sum_le_sum fun i _ => mul_le_mul_of_nonneg_left (hlow _ _) (by positivity)
  unfold psi at h
  have hk : (0 : ℝ) < (k + 1) * (k + 2) := by positivity
  have h3 : (k + 1 : ℝ) * (k + 2) / 4 * (f (y k) - f w) ≤ c / 2 * ((w - xo) ⬝ᵥ (w - xo)) := by linarith
  have h4 : f (y k) - f w ≤ 2 * c * ((w - xo) ⬝ᵥ (w - xo)) / ((k + 1) * (k + 2)) := by
    rw [le_div_iff₀ hk]; linarith
  linarith

/-! ## The reported gradient is the derivative -/

theorem dot_self_le_norm (d : Fin m → ℝ) : d ⬝ᵥ d ≤ m * (‖d‖ * ‖d‖) := by
  have : ∀ i ∈ Finset.univ, d i * d i ≤ ‖d‖ * ‖d‖ := fun i _ => by
    have h := norm_le_pi_norm d i
    rw [Real.norm_eq_abs] at h
    have := mul_self_le_mul_self (abs_nonneg (d i)) h
    rwa [abs_mul_abs_self] at this
  have := Finset.sum_le_sum this
  simpa [dotProduct] using this

/-- `d ↦ <g, d>` as a continuous linear map -/
noncomputable def dotCLM (g : Fin m → ℝ) : (Fin m → ℝ) →L[ℝ] ℝ :=
  LinearMap.toContinuousLinearMap
    { toFun := fun d => g ⬝ᵥ d, map_add' := fun a b => dotProduct_add g a b, map_smul' := fun a b => dotProduct_smul a g b }

@[simp] theorem dotCLM_apply (g d : Fin m → ℝ) : dotCLM g d = g ⬝ᵥ d := rfl

theorem hasFDerivAt_of_bounds {f : (Fin m → ℝ) → ℝ} {g x : Fin m → ℝ} {c : ℝ} (hc : 0 ≤ c)
    (hlow : ∀ y, f x + g ⬝ᵥ (y - x) ≤ f y)
    (hup : ∀ y, f y ≤ f x + g ⬝ᵥ (y - x) + c * ((y - x) ⬝ᵥ (y - x))) : HasFDerivAt f (dotCLM g) x := by
  rw [hasFDerivAt_iff_isLittleO]
  have hO : (fun y => f y - f x - dotCLM g (y - x)) =O[nhds x] fun y => ‖y - x‖ ^ 2 := by
    refine Asymptotics.IsBigO.of_bound (c * m) (Filter.Eventually.of_forall fun y => ?_)
    have h1 := hlow y
    have h2 := hup y
    have h3 := dot_self_le_norm (y - x)
    have h4 := mul_le_mul_of_nonneg_left h3 hc
    rw [dotCLM_apply, Real.norm_of_nonneg (by linarith), norm_pow, norm_norm]
    nlinarith
  refine hO.trans_isLittleO ?_
  have hz : Filter.Tendsto (fun y => y - x) (nhds x) (nhds 0) := by
    have : Filter.Tendsto (fun y => y - x) (nhds x) (nhds (x - x)) := (continuous_id.sub continuous_const).tendsto x
    rwa [sub_self] at this
  exact (Asymptotics.isLittleO_norm_pow_id (E' := Fin m → ℝ) one_lt_two).comp_tendsto hz

end L1c
