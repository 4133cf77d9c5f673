import Verif.Spec.Dct
import Mathlib.LinearAlgebra.Matrix.Kronecker
import Mathlib.LinearAlgebra.Matrix.NonsingularInverse
import Mathlib.Tactic.FieldSimp
import Mathlib.Algebra.BigOperators.Field

/-! # The DCT matrices are orthogonal -/

namespace L1c
open Matrix

variable {m n mrow mcol : ℕ}

/-! ## Trigonometric sums -/

theorem cos_sum (θ : ℝ) (n : ℕ) :
    2 * Real.sin (θ / 2) * ∑ j ∈ Finset.range n, Real.cos (θ * ((j : ℝ) + 1 / 2)) = Real.sin (θ * n) := by
  induction n with
  | zero => simp
  | succ n ih =>
    rw [Finset.sum_range_succ, mul_add, ih]
    have h1 := Real.sin_add (θ * ((n : ℝ) + 1 / 2)) (θ / 2)
    have h2 := Real.sin_sub (θ * ((n : ℝ) + 1 / 2)) (θ / 2)
    have e1 : θ * ((n : ℝ) + 1 / 2) + θ / 2 = θ * ((n + 1 : ℕ) : ℝ) := by push_cast; ring
    have e2 : θ * ((n : ℝ) + 1 / 2) - θ / 2 = θ * n := by ring
    rw [e1] at h1; rw [e2] at h2
    rw [h1, h2]; ring

/-- `Σ_j cos(π r (j+1/2)/m)` -/
noncomputable def csum (m : ℕ) (r : ℤ) : ℝ := ∑ j : Fin m, Real.cos (Real.pi * r * ((j : ℝ) + 1 / 2) / m)

theorem csum_zero : csum m 0 = m := by simp [csum]

theorem csum_pos_eq_zero {r : ℤ} (h0 : 0 < r) (h1 : r < 2 * m) : csum m r = 0 := by
  have hm : (0 : ℝ) < m := by
    have : 0 < m := by omega
    exact_mod_cast this
  have hs := cos_sum (Real.pi * r / m) m
  have hpi : Real.pi * r / m * m = r * Real.pi := by field_simp
  rw [hpi, Real.sin_int_mul_pi] at hs
  have hr : (0 : ℝ) < r := by exact_mod_cast h0
  have hr' : (r : ℝ) < 2 * m := by exact_mod_cast h1
  have hpos : 0 < Real.sin (Real.pi * r / m / 2) := by
    apply Real.sin_pos_of_pos_of_lt_pi
    · have := Real.pi_pos; positivity
    · rw [div_div, div_lt_iff₀ (by positivity)]
      have := Real.pi_pos
      nlinarith
  have : ∑ j ∈ Finset.range m, Real.cos (Real.pi * r / m * ((j : ℝ) + 1 / 2)) = 0 := by
    rcases mul_eq_zero.1 hs with h | h
    · exfalso; linarith
    · exact h
  rw [csum, ← this, Finset.sum_range]
  exact Finset.sum_congr rfl fun j _ => by congr 1; ring

theorem csum_neg (r : ℤ) : csum m (-r) = csum m r := by
  unfold csum
  refine Finset.sum_congr rfl fun j _ => ?_
  rw [← Real.cos_neg]
  congr 1; push_cast; ring

theorem csum_eq_zero {r : ℤ} (h0 : r ≠ 0) (h1 : |r| < 2 * m) : csum m r = 0 := by
  rcases lt_or_gt_of_ne h0 with h | h
  · rw [← csum_neg]
    rw [abs_of_neg h] at h1
    exact csum_pos_eq_zero (by omega) h1
  · rw [abs_of_pos h] at h1
    exact csum_pos_eq_zero h h1

theorem cos_prod_sum (k l : Fin m) :
    ∑ i : Fin m, Real.cos (Real.pi * k * ((i : ℝ) + 1 / 2) / m) * Real.cos (Real.pi * l * ((i : ℝ) + 1 / 2) / m) =
      (csum m ((k : ℤ) - l) + csum m ((k : ℤ) + l)) / 2 := by
  rw [csum, csum, ← Finset.sum_add_distrib, Finset.sum_div]
  refine Finset.sum_congr rfl fun i _ => ?_
  have e1 : Real.pi * (((k : ℤ) - l : ℤ) : ℝ) * ((i : ℝ) + 1 / 2) / m =
      Real.pi * k * ((i : ℝ) + 1 / 2) / m - Real.pi * l * ((i : ℝ) + 1 / 2) / m := by push_cast; ring
  have e2 : Real.pi * (((k : ℤ) + l : ℤ) : ℝ) * ((i : ℝ) + 1 / 2) / m =
      Real.pi * k * ((i : ℝ) + 1 / 2) / m + Real.pi * l * ((i : ℝ) + 1 / 2) / m := by push_cast; ring
  rw [e1, e2, Real.cos_sub, Real.cos_add]; ring

/-! ## The 1-D matrix -/

section d1
variable [NeZero m]

/-- normalisation used by the code -/
noncomputable def rootN (m : ℕ) : ℝ := Real.sqrt (1 / ((m : ℝ) * 2))

/-- inverse DCT as computed: weight entry 0, transform, normalise -/
noncomputable def idct1 (x : Fin m → ℝ) : Fin m → ℝ := fun i =>
  redft01 (Function.update x 0 (x 0 * Real.sqrt 2)) i * rootN m

/-- DCT as computed -/
noncomputable def dct1 (y : Fin m → ℝ) : Fin m → ℝ := fun k =>
  Function.update (redft10 y) 0 (redft10 y 0 / Real.sqrt 2) k * rootN m

/-- its matrix -/
noncomputable def dctMat (m : ℕ) [NeZero m] : Matrix (Fin m) (Fin m) ℝ := fun i k =>
  (rootN m * if k = 0 then Real.sqrt 2 else 2) * Real.cos (Real.pi * k * ((i : ℝ) + 1 / 2) / m)

theorem idct1_eq (x : Fin m → ℝ) : idct1 x = dctMat m *ᵥ x := by
  funext i
  simp only [idct1, redft01, mulVec, dotProduct, dctMat]
  rw [← Finset.add_sum_erase Finset.univ (fun j : Fin m => if j = 0 then (0 : ℝ) else _) (Finset.mem_univ 0),
    ← Finset.add_sum_erase Finset.univ (fun j : Fin m => rootN m * (if j = 0 then Real.sqrt 2 else 2) *
      Real.cos (Real.pi * (j : ℝ) * ((i : ℝ) + 1 / 2) / m) * x j) (Finset.mem_univ 0)]
  simp only [Function.update_self, if_true]
  have h1 : ∑ j ∈ Finset.univ.erase (0 : Fin m), (if j = 0 then (0 : ℝ) else
      Function.update x 0 (x 0 * Real.sqrt 2) j * Real.cos (Real.pi * (j : ℝ) * ((i : ℝ) + 1 / 2) / m)) =
      ∑ j ∈ Finset.univ.erase (0 : Fin m), x j * Real.cos (Real.pi * (j : ℝ) * ((i : ℝ) + 1 / 2) / m) := by
    refine Finset.sum_congr rfl fun j hj => ?_
    have hj0 : j ≠ 0 := (Finset.mem_erase.1 hj).1
    rw [if_neg hj0, Function.update_of_ne hj0]
  have h2 : ∑ j ∈ Finset.univ.erase (0 : Fin m), rootN m * (if j = 0 then Real.sqrt 2 else 2) *
      Real.cos (Real.pi * (j : ℝ) * ((i : ℝ) + 1 / 2) / m) * x j =
      rootN m * 2 * ∑ j ∈ Finset.univ.erase (0 : Fin m), x j * Real.cos (Real.pi * (j : ℝ) * ((i : ℝ) + 1 / 2) / m) := by
    rw [Finset.mul_sum]
    refine Finset.sum_congr rfl fun j hj => ?_
    rw [if_neg (Finset.mem_erase.1 hj).1]; ring
  rw [h1, h2]
  simp only [Fin.val_zero, Nat.cast_zero, mul_zero, zero_mul, zero_div, Real.cos_zero]
  ring

theorem dct1_eq (y : Fin m → ℝ) : dct1 y = (dctMat m)ᵀ *ᵥ y := by
  funext k
  simp only [dct1, mulVec, dotProduct, dctMat, transpose_apply]
  have h2 : (Real.sqrt 2) ≠ 0 := by positivity
  have hsq : Real.sqrt 2 * Real.sqrt 2 = 2 := Real.mul_self_sqrt (by norm_num)
  have harg : ∀ j : Fin m, Real.pi * ((j : ℝ) + 1 / 2) * k / m = Real.pi * k * ((j : ℝ) + 1 / 2) / m :=
    fun j => by ring
  have hsum : ∑ j : Fin m, rootN m * (if k = 0 then Real.sqrt 2 else 2) *
      Real.cos (Real.pi * k * ((j : ℝ) + 1 / 2) / m) * y j =
      rootN m * (if k = 0 then Real.sqrt 2 else 2) *
        ∑ j : Fin m, y j * Real.cos (Real.pi * ((j : ℝ) + 1 / 2) * k / m) := by
    rw [Finset.mul_sum]
    exact Finset.sum_congr rfl fun j _ => by rw [harg]; ring
  rw [hsum]
  by_cases hk : k = 0
  · subst hk
    rw [Function.update_self, if_pos rfl]
    simp only [redft10]
    rw [div_mul_eq_mul_div, div_eq_iff h2]
    linear_combination -(rootN m * ∑ j : Fin m, y j * Real.cos (Real.pi * ((j : ℝ) + 1 / 2) * ((0 : Fin m) : ℕ) / m)) * hsq
  · rw [Function.update_of_ne hk, if_neg hk]
    simp only [redft10]; ring

omit [NeZero m] in
theorem rootN_sq : rootN m * rootN m = 1 / ((m : ℝ) * 2) := Real.mul_self_sqrt (by positivity)

theorem dctMat_orth : (dctMat m)ᵀ * dctMat m = 1 := by
  have hm : (0 : ℝ) < m := by exact_mod_cast Nat.pos_of_ne_zero (NeZero.ne m)
  have hsq : Real.sqrt 2 * Real.sqrt 2 = 2 := Real.mul_self_sqrt (by norm_num)
  ext k l
  rw [mul_apply]
  simp only [transpose_apply, dctMat]
  have : ∀ i : Fin m, rootN m * (if k = 0 then Real.sqrt 2 else 2) * Real.cos (Real.pi * k * ((i : ℝ) + 1 / 2) / m) *
      (rootN m * (if l = 0 then Real.sqrt 2 else 2) * Real.cos (Real.pi * l * ((i : ℝ) + 1 / 2) / m)) =
      (rootN m * rootN m) * ((if k = 0 then Real.sqrt 2 else 2) * (if l = 0 then Real.sqrt 2 else 2)) *
      (Real.cos (Real.pi * k * ((i : ℝ) + 1 / 2) / m) * Real.cos (Real.pi * l * ((i : ℝ) + 1 / 2) / m)) :=
    fun i => by ring
  simp_rw [this]
  rw [← Finset.mul_sum, cos_prod_sum, rootN_sq]
  by_cases hkl : k = l
  · subst hkl
    rw [one_apply_eq, sub_self, csum_zero]
    by_cases hk : k = 0
    · subst hk
      rw [if_pos rfl, hsq, Fin.val_zero, Nat.cast_zero, add_zero, csum_zero]
      field_simp; norm_num
    · rw [if_neg hk]
      have hk0 : (k : ℕ) ≠ 0 := fun h => hk (Fin.ext h)
      rw [csum_eq_zero (by omega) (by rw [abs_of_nonneg (by omega)]; omega)]
      field_simp; norm_num
  · rw [one_apply_ne hkl]
    have hne : (k : ℕ) ≠ l := fun h => hkl (Fin.ext h)
    rw [csum_eq_zero (by omega) (by rw [abs_lt]; omega),
      csum_eq_zero (by omega) (by rw [abs_of_nonneg (by omega)]; omega)]
    simp

end d1

/-! ## The 2-D matrix -/

section d2
variable [NeZero mrow] [NeZero mcol]

omit [NeZero mrow] [NeZero mcol] in
theorem sep2_mulVec (A : Matrix (Fin mrow) (Fin mrow) ℝ) (B : Matrix (Fin mcol) (Fin mcol) ℝ)
    (x : Fin (mrow * mcol) → ℝ) :
    sep2 (A *ᵥ ·) (B *ᵥ ·) x = (reindex finProdFinEquiv finProdFinEquiv (kroneckerMap (· * ·) A B)) *ᵥ x := by
  funext t
  simp only [sep2, mulVec, dotProduct, reindex_apply, submatrix_apply, kroneckerMap_apply]
  rw [← Equiv.sum_comp finProdFinEquiv, Fintype.sum_prod_type]
  refine Finset.sum_congr rfl fun i _ => ?_
  rw [Finset.mul_sum]
  refine Finset.sum_congr rfl fun j _ => ?_
  rw [Equiv.symm_apply_apply]
  simp only [px]; ring

/-- the 2-D inverse DCT matrix -/
noncomputable def dctMat2 (mrow mcol : ℕ) [NeZero mrow] [NeZero mcol] :
    Matrix (Fin (mrow * mcol)) (Fin (mrow * mcol)) ℝ :=
  reindex finProdFinEquiv finProdFinEquiv (kroneckerMap (· * ·) (dctMat mrow) (dctMat mcol))

theorem dctMat2_orth : (dctMat2 mrow mcol)ᵀ * dctMat2 mrow mcol = 1 := by
  unfold dctMat2
  rw [transpose_reindex, ← kroneckerMap_transpose]
  simp only [reindex_apply]
  rw [submatrix_mul_equiv]
  have := (mul_kronecker_mul (dctMat mrow)ᵀ (dctMat mrow) (dctMat mcol)ᵀ (dctMat mcol)).symm
  have h2 : (kroneckerMap (· * ·) (dctMat mrow)ᵀ (dctMat mcol)ᵀ) * (kroneckerMap (· * ·) (dctMat mrow) (dctMat mcol)) = 1 := by
    refine this.trans ?_
    rw [dctMat_orth, dctMat_orth, one_kronecker_one]
  rw [h2, submatrix_one_equiv]

end d2

end L1c
