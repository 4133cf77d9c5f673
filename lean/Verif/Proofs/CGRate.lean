import Verif.Proofs.CGReal
import Mathlib.Tactic.Module
import Mathlib.Tactic.Positivity
import Mathlib.Analysis.SpecialFunctions.Exp

/-!
# Rate of convergence of conjugate gradients

The error of iterate `k` is the smallest one over the Krylov space (`cg_optimal`); comparing with a Chebyshev polynomial, built here
directly as a sequence of vectors, gives the classical bound (`cg_energy_rate`).
-/

namespace L1c

variable {N : ℕ} {A : (Fin N → ℝ) →ₗ[ℝ] (Fin N → ℝ)} {w b x0 : Fin N → ℝ}

/-! ## Search directions span the Krylov space -/

/-- span of the first `k` search directions -/
noncomputable def dirSpan (A : (Fin N → ℝ) →ₗ[ℝ] (Fin N → ℝ)) (w b x0 : Fin N → ℝ) (k : ℕ) : Submodule ℝ (Fin N → ℝ) :=
  Submodule.span ℝ ((fun j => (cgSeq A w b x0 j).p) '' Set.Iio k)

theorem dir_mem {j k : ℕ} (h : j < k) : (cgSeq A w b x0 j).p ∈ dirSpan A w b x0 k :=
  Submodule.subset_span ⟨j, h, rfl⟩

theorem dirSpan_mono {j k : ℕ} (h : j ≤ k) : dirSpan A w b x0 j ≤ dirSpan A w b x0 k :=
  Submodule.span_mono (Set.image_mono fun _ hi => lt_of_lt_of_le hi h)

theorem wres_mem (k : ℕ) : w * (cgSeq A w b x0 k).r ∈ dirSpan A w b x0 (k + 1) := by
  cases k with
  | zero => exact dir_mem (j := 0) (by omega)
  | succ k =>
    have h : w * (cgSeq A w b x0 (k+1)).r = (cgSeq A w b x0 (k+1)).p -
        (((cgSeq A w b x0 (k+1)).r ⬝ᵥ (w * (cgSeq A w b x0 (k+1)).r)) / ((cgSeq A w b x0 k).r ⬝ᵥ (w * (cgSeq A w b x0 k).r))) •
          (cgSeq A w b x0 k).p := by
      exact (add_sub_cancel_right _ _).symm
    rw [h]
    exact Submodule.sub_mem _ (dir_mem (by omega)) (Submodule.smul_mem _ _ (dir_mem (by omega)))

theorem wA_mem (hw : ∀ i, 0 < w i) {k : ℕ} (hok : CGOk A w b x0 k) {v : Fin N → ℝ} (hv : v ∈ dirSpan A w b x0 k) :
    w * A v ∈ dirSpan A w b x0 (k + 1) := by
  induction hv using Submodule.span_induction with
  | mem v h =>
    obtain ⟨j, hj, rfl⟩ := h
    have hj : j < k := hj
    obtain ⟨hr, hpq⟩ := hok j hj
    set al := ((cgSeq A w b x0 j).r ⬝ᵥ (w * (cgSeq A w b x0 j).r)) / ((cgSeq A w b x0 j).p ⬝ᵥ A (cgSeq A w b x0 j).p) with hal
    have hal0 : al ≠ 0 := div_ne_zero (wdot_pos hw hr).ne' hpq
    have h1 : (cgSeq A w b x0 (j+1)).r = (cgSeq A w b x0 j).r - al • A (cgSeq A w b x0 j).p := rfl
    have h2 : w * A (cgSeq A w b x0 j).p = al⁻¹ • (w * (cgSeq A w b x0 j).r - w * (cgSeq A w b x0 (j+1)).r) := by
      rw [h1, mul_sub, mul_smul_comm, sub_sub_cancel, smul_smul, inv_mul_cancel₀ hal0, one_smul]
    show w * A (cgSeq A w b x0 j).p ∈ _
    rw [h2]
    exact Submodule.smul_mem _ _ (Submodule.sub_mem _ (dirSpan_mono (by omega) (wres_mem j)) (dirSpan_mono (by omega) (wres_mem (j+1))))
  | zero => rw [map_zero, mul_zero]; exact Submodule.zero_mem _
  | add u v _ _ hu hv => rw [map_add, mul_add]; exact Submodule.add_mem _ hu hv
  | smul c v _ hv => rw [map_smul, mul_smul_comm]; exact Submodule.smul_mem _ _ hv

theorem sub_start_mem (k : ℕ) : (cgSeq A w b x0 k).x - x0 ∈ dirSpan A w b x0 k := by
  induction k with
  | zero =>
    show x0 - x0 ∈ _
    rw [sub_self]; exact Submodule.zero_mem _
  | succ k ih =>
    have h : (cgSeq A w b x0 (k+1)).x - x0 = ((cgSeq A w b x0 k).x - x0) +
        (((cgSeq A w b x0 k).r ⬝ᵥ (w * (cgSeq A w b x0 k).r)) / ((cgSeq A w b x0 k).p ⬝ᵥ A (cgSeq A w b x0 k).p)) • (cgSeq A w b x0 k).p := by
      show ((cgSeq A w b x0 k).x + _ • _) - x0 = _
      abel
    rw [h]
    exact Submodule.add_mem _ (dirSpan_mono (by omega) ih) (Submodule.smul_mem _ _ (dir_mem (by omega)))

theorem res_orth (hA : ∀ u v, A u ⬝ᵥ v = u ⬝ᵥ A v) (hw : ∀ i, 0 < w i) {k : ℕ} (hok : CGOk A w b x0 k) {v : Fin N → ℝ}
    (hv : v ∈ dirSpan A w b x0 k) : (cgSeq A w b x0 k).r ⬝ᵥ v = 0 := by
  induction hv using Submodule.span_induction with
  | mem v h =>
    obtain ⟨j, hj, rfl⟩ := h
    exact (cgInv hA hw k hok k le_rfl).rp j hj
  | zero => simp
  | add u v _ _ hu hv => rw [dotProduct_add, hu, hv, add_zero]
  | smul c v _ hv => rw [dotProduct_smul, hv, smul_zero]

/-- iterate `k` has the smallest energy error in `x0 + dirSpan k` -/
theorem cg_optimal (hA : SPD A) (hw : ∀ i, 0 < w i) {k : ℕ} (hok : CGOk A w b x0 k) {xs : Fin N → ℝ} (hxs : A xs = b) {y : Fin N → ℝ}
    (hy : y ∈ dirSpan A w b x0 k) :
    (xs - (cgSeq A w b x0 k).x) ⬝ᵥ A (xs - (cgSeq A w b x0 k).x) ≤ (xs - x0 - y) ⬝ᵥ A (xs - x0 - y) := by
  set e := xs - (cgSeq A w b x0 k).x with he
  have hr : A e = (cgSeq A w b x0 k).r := by rw [he, map_sub, hxs, cgSeq_r]
  set z := ((cgSeq A w b x0 k).x - x0) - y with hz
  have hzm : z ∈ dirSpan A w b x0 k := Submodule.sub_mem _ (sub_start_mem k) hy
  have h0 : A e ⬝ᵥ z = 0 := by rw [hr]; exact res_orth hA.1 hw hok hzm
  have hsplit : xs - x0 - y = e + z := by rw [he, hz]; abel
  have hzz : 0 ≤ z ⬝ᵥ A z := by
    by_cases h : z = 0
    · rw [h]; simp
    · exact (hA.2 z h).le
  rw [hsplit, map_add, add_dotProduct, dotProduct_add, dotProduct_add, ← hA.1 e z, h0, dotProduct_comm z (A e), h0]
  linarith

/-! ## Chebyshev vectors -/

/-- `T_k(S) e` and `U_{k-1}(S) e` -/
def chebVec (S : (Fin N → ℝ) →ₗ[ℝ] (Fin N → ℝ)) (e : Fin N → ℝ) : ℕ → (Fin N → ℝ) × (Fin N → ℝ)
  | 0 => (e, 0)
  | k + 1 => (S (chebVec S e k).1 - ((chebVec S e k).2 - S (S (chebVec S e k).2)), S (chebVec S e k).2 + (chebVec S e k).1)

theorem cheb_three (S : (Fin N → ℝ) →ₗ[ℝ] (Fin N → ℝ)) (e : Fin N → ℝ) (k : ℕ) :
    (chebVec S e (k + 2)).1 = (2 : ℝ) • S (chebVec S e (k + 1)).1 - (chebVec S e k).1 := by
  simp only [chebVec, map_sub, map_add]
  module

/-- the Chebyshev polynomials are bounded by one where `1 - S²` is nonnegative -/
theorem cheb_energy (hA : ∀ u v, A u ⬝ᵥ v = u ⬝ᵥ A v) {S : (Fin N → ℝ) →ₗ[ℝ] (Fin N → ℝ)} (hS : ∀ u v, S u ⬝ᵥ A v = u ⬝ᵥ A (S v))
    (hp : ∀ v, S v ⬝ᵥ A (S v) ≤ v ⬝ᵥ A v) (e : Fin N → ℝ) (k : ℕ) :
    (chebVec S e k).1 ⬝ᵥ A (chebVec S e k).1 ≤ e ⬝ᵥ A e := by
  have key : ∀ k, (chebVec S e k).1 ⬝ᵥ A (chebVec S e k).1 + ((chebVec S e k).2 ⬝ᵥ A (chebVec S e k).2 -
      S (chebVec S e k).2 ⬝ᵥ A (S (chebVec S e k).2)) = e ⬝ᵥ A e := by
    intro k
    induction k with
    | zero => simp [chebVec]
    | succ k ih =>
      rw [← ih]
      simp only [chebVec]
      generalize (chebVec S e k).1 = t
      generalize (chebVec S e k).2 = u
      have hs : ∀ u v, u ⬝ᵥ A v = v ⬝ᵥ A u := fun u v => by rw [← hA, dotProduct_comm]
      simp only [map_sub, map_add, sub_dotProduct, add_dotProduct, dotProduct_sub, dotProduct_add]
      have a1 := hs (S t) u
      have a2 := hs (S t) (S (S u))
      have a3 := hs u (S (S u))
      have a4 := hs (S u) t
      have a5 := hs (S (S u)) (S t)
      have a6 := hS t u
      have a7 := hS t (S (S u))
      have a8 := hS u (S u)
      linarith
  have := key k
  linarith [hp (chebVec S e k).2]

/-! ## The bound -/

/-- `W A` is symmetric and between `lo` and `hi` in the energy inner product -/
theorem band_energy (hA : ∀ u v, A u ⬝ᵥ v = u ⬝ᵥ A v) (hw : ∀ i, 0 < w i) {lo hi : ℝ} (hlo : 0 < lo)
    (hl : ∀ v, lo * (v ⬝ᵥ (w⁻¹ * v)) ≤ v ⬝ᵥ A v) (hh : ∀ v, v ⬝ᵥ A v ≤ hi * (v ⬝ᵥ (w⁻¹ * v))) (v : Fin N → ℝ) :
    lo * (v ⬝ᵥ A v) ≤ A v ⬝ᵥ (w * A v) ∧ A v ⬝ᵥ (w * A v) ≤ hi * (v ⬝ᵥ A v) := by
  have hwi : w⁻¹ * (w * A v) = A v := by
    funext i; simp only [Pi.mul_apply, Pi.inv_apply]; rw [← mul_assoc, inv_mul_cancel₀ (hw i).ne', one_mul]
  have hP : ∀ u, 0 ≤ u ⬝ᵥ A u := fun u => by
    refine le_trans (mul_nonneg hlo.le (Finset.sum_nonneg fun i _ => ?_)) (hl u)
    have := mul_nonneg (inv_nonneg.2 (hw i).le) (mul_self_nonneg (u i))
    simp only [Pi.mul_apply, Pi.inv_apply]; linarith [mul_left_comm (u i) (w i)⁻¹ (u i)]
  have hQ : 0 ≤ A v ⬝ᵥ (w * A v) := Finset.sum_nonneg fun i _ => by
    have := mul_nonneg (hw i).le (mul_self_nonneg (A v i))
    simp only [Pi.mul_apply]; linarith [mul_left_comm (A v i) (w i) (A v i)]
  have hs : ∀ u v, u ⬝ᵥ A v = v ⬝ᵥ A u := fun u v => by rw [← hA, dotProduct_comm]
  set P := v ⬝ᵥ A v with hPdef
  set Q := A v ⬝ᵥ (w * A v) with hQdef
  have hzA : (w * A v) ⬝ᵥ A v = Q := by rw [hQdef, dotProduct_comm]
  constructor
  · -- test `lo` with the vector `v - s (w A v)`
    -- Cauchy–Schwarz for the weighted product
    have hR : ∀ s : ℝ, 0 ≤ (v - s • (w * A v)) ⬝ᵥ (w⁻¹ * (v - s • (w * A v))) := fun s =>
      Finset.sum_nonneg fun i _ => by
        have := mul_nonneg (inv_nonneg.2 (hw i).le) (mul_self_nonneg ((v - s • (w * A v)) i))
        simp only [Pi.mul_apply, Pi.inv_apply]; linarith [mul_left_comm ((v - s • (w * A v)) i) (w i)⁻¹ ((v - s • (w * A v)) i)]
    have hexp : ∀ s : ℝ, (v - s • (w * A v)) ⬝ᵥ (w⁻¹ * (v - s • (w * A v))) = v ⬝ᵥ (w⁻¹ * v) - 2 * s * P + s ^ 2 * Q := by
      intro s
      have h1 : (w * A v) ⬝ᵥ (w⁻¹ * v) = P := by
        rw [hPdef, wdot_comm, hwi]
      rw [mul_sub, mul_smul_comm, hwi, sub_dotProduct, dotProduct_sub, dotProduct_sub, smul_dotProduct, smul_dotProduct, dotProduct_smul,
        dotProduct_smul, h1, hzA]
      simp only [smul_eq_mul]
      ring
    have h := hR lo⁻¹
    rw [hexp] at h
    have h2 := hl v
    have h3 : v ⬝ᵥ (w⁻¹ * v) ≤ lo⁻¹ * P := by
      have h6 := mul_le_mul_of_nonneg_left h2 (inv_pos.2 hlo).le
      rwa [← mul_assoc, inv_mul_cancel₀ hlo.ne', one_mul] at h6
    have h4 : lo⁻¹ * P ≤ lo⁻¹ ^ 2 * Q := by linarith
    have h5 : lo⁻¹ * (lo * P) ≤ lo⁻¹ * Q := by
      have : lo⁻¹ ^ 2 * Q = lo⁻¹ * (lo⁻¹ * Q) := by ring
      rw [this] at h4
      have h6 := le_of_mul_le_mul_left h4 (inv_pos.2 hlo)
      rwa [← mul_assoc, inv_mul_cancel₀ hlo.ne', one_mul]
    exact le_of_mul_le_mul_left h5 (inv_pos.2 hlo)
  · have h1 := hh (w * A v)
    rw [hwi, hzA] at h1
    set Z := (w * A v) ⬝ᵥ A (w * A v) with hZ
    -- `0 ≤ ‖Q v - P z‖²` in energy
    by_contra hcon
    rw [not_le] at hcon
    have hQ0 : 0 < Q := by
      rcases hQ.lt_or_eq with h | h
      · exact h
      · rw [← h] at hcon
        have hhi : 0 ≤ hi * P := by
          by_contra hneg
          have hP0 := hP v
          have hPpos : 0 < P := by
            rcases hP0.lt_or_eq with h' | h'
            · exact h'
            · rw [hPdef, ← h'] at hneg; simp at hneg
          have : 0 < v ⬝ᵥ (w⁻¹ * v) := by
            by_contra hn
            have hz : v = 0 := by
              by_contra hv
              exact hn (wdot_pos (w := w⁻¹) (fun i => inv_pos.2 (hw i)) hv)
            rw [hPdef, hz] at hPpos; simp at hPpos
          have hhv := hh v
          have hhi : hi < 0 := by
            by_contra h0
            exact hneg (mul_nonneg (not_lt.1 h0) hP0)
          nlinarith
        linarith
    have hexp : ∀ s : ℝ, (s • v - w * A v) ⬝ᵥ A (s • v - w * A v) = s ^ 2 * P - 2 * s * Q + Z := by
      intro s
      have h2 : v ⬝ᵥ A (w * A v) = Q := by rw [← hA]
      rw [map_sub, map_smul, sub_dotProduct, dotProduct_sub, dotProduct_sub, smul_dotProduct, smul_dotProduct, dotProduct_smul,
        dotProduct_smul, h2, hzA]
      simp only [smul_eq_mul]
      ring
    have hi0 : 0 < hi := by
      have := hP (w * A v)
      by_contra hn
      have hZ0 : Z ≤ 0 := h1.trans (mul_nonpos_of_nonpos_of_nonneg (not_lt.1 hn) hQ0.le)
      have h3 := hexp 1
      have hP1 : P ≤ 0 := (hh v).trans (mul_nonpos_of_nonpos_of_nonneg (not_lt.1 hn) (by
        by_cases hv : v = 0
        · rw [hv]; simp
        · exact (wdot_pos (w := w⁻¹) (fun i => inv_pos.2 (hw i)) hv).le))
      have := hP ((1 : ℝ) • v - w * A v)
      linarith
    have h3 := hP (hi • v - w * A v)
    rw [hexp] at h3
    nlinarith

/-- the energy of the error after `k` iterations -/
theorem cg_energy_rate (hA : SPD A) (hw : ∀ i, 0 < w i) {lo hi : ℝ} (hlo : 0 < lo) (hlh : lo < hi)
    (hl : ∀ v, lo * (v ⬝ᵥ (w⁻¹ * v)) ≤ v ⬝ᵥ A v) (hh : ∀ v, v ⬝ᵥ A v ≤ hi * (v ⬝ᵥ (w⁻¹ * v))) {k : ℕ} (hok : CGOk A w b x0 k)
    {xs : Fin N → ℝ} (hxs : A xs = b) {s : ℝ} (hs : 1 ≤ s) (hst : (hi - lo) * (s ^ 2 + 1) = 2 * (hi + lo) * s) :
    (s ^ k / 2) ^ 2 * ((xs - (cgSeq A w b x0 k).x) ⬝ᵥ A (xs - (cgSeq A w b x0 k).x)) ≤ (xs - x0) ⬝ᵥ A (xs - x0) := by
  have hs0 : 0 < s := by linarith
  have hd : 0 < hi - lo := by linarith
  set e := xs - x0 with he
  -- the map `S`
  let B : (Fin N → ℝ) →ₗ[ℝ] (Fin N → ℝ) := (LinearMap.mulLeft ℝ w).comp A
  have hB : ∀ v, B v = w * A v := fun v => rfl
  set ta : ℝ := (hi + lo) / (hi - lo) with hta
  let S : (Fin N → ℝ) →ₗ[ℝ] (Fin N → ℝ) := ta • LinearMap.id - (2 / (hi - lo)) • B
  have hSv : ∀ v, S v = ta • v - (2 / (hi - lo)) • (w * A v) := fun v => rfl
  have hsymm : ∀ u v, u ⬝ᵥ A v = v ⬝ᵥ A u := fun u v => by rw [← hA.1, dotProduct_comm]
  have hBs : ∀ u v, (w * A u) ⬝ᵥ A v = u ⬝ᵥ A (w * A v) := fun u v => by
    rw [dotProduct_comm, wdot_comm, hA.1]
  have hS : ∀ u v, S u ⬝ᵥ A v = u ⬝ᵥ A (S v) := fun u v => by
    rw [hSv, hSv, map_sub, map_smul, map_smul, sub_dotProduct, dotProduct_sub, smul_dotProduct, smul_dotProduct, dotProduct_smul,
      dotProduct_smul, hBs]
  have hband := band_energy hA.1 hw hlo hl hh
  have hpos : ∀ v, S v ⬝ᵥ A (S v) ≤ v ⬝ᵥ A v := by
    intro v
    -- `(hi - lo)(B - lo)(hi - B) = (B - lo)(hi - B)(B - lo) + (hi - B)(B - lo)(hi - B)`
    set z := w * A v with hz
    have h1 := (hband (z - lo • v)).2
    have h2 := (hband (hi • v - z)).1
    have e1 : A v ⬝ᵥ z = v ⬝ᵥ A z := by rw [hA.1]
    have hAz : ∀ u, A u ⬝ᵥ (w * A u) = u ⬝ᵥ A (w * A u) := fun u => by rw [hA.1]
    rw [hAz] at h1 h2
    have hc : w * A (z - lo • v) = w * A z - lo • z := by rw [map_sub, map_smul, mul_sub, mul_smul_comm]
    have hc' : w * A (hi • v - z) = hi • z - w * A z := by rw [map_sub, map_smul, mul_sub, mul_smul_comm]
    rw [hc] at h1
    rw [hc'] at h2
    rw [hSv]
    simp only [map_sub, map_smul, sub_dotProduct, dotProduct_sub, smul_dotProduct, dotProduct_smul, smul_eq_mul] at h1 h2 ⊢
    have a1 : z ⬝ᵥ A v = v ⬝ᵥ A z := hsymm z v
    have a2 : v ⬝ᵥ A (w * A z) = z ⬝ᵥ A z := by rw [← hBs]
    rw [a1, a2] at h1 h2
    rw [a1]
    set p := v ⬝ᵥ A v
    set q := v ⬝ᵥ A z
    set r := z ⬝ᵥ A z
    have h3 : 0 ≤ (hi - lo) * (-(r) + (hi + lo) * q - hi * lo * p) := by nlinarith
    have h4 : 0 ≤ -(r) + (hi + lo) * q - hi * lo * p := by
      by_contra hn
      exact absurd h3 (not_le.2 (mul_neg_of_pos_of_neg hd (not_le.1 hn)))
    rw [hta]
    have h5 : (hi + lo) / (hi - lo) * ((hi + lo) / (hi - lo) * p) - 2 / (hi - lo) * ((hi + lo) / (hi - lo) * q) -
        ((hi + lo) / (hi - lo) * (2 / (hi - lo) * q) - 2 / (hi - lo) * (2 / (hi - lo) * r)) =
        p - 4 / (hi - lo) ^ 2 * (-(r) + (hi + lo) * q - hi * lo * p) := by
      field_simp
      ring
    have h6 : 0 ≤ 4 / (hi - lo) ^ 2 * (-(r) + (hi + lo) * q - hi * lo * p) := mul_nonneg (by positivity) h4
    linarith
  have hche := cheb_energy hA.1 hS hpos e
  -- membership
  have hta' : ta = (s + s⁻¹) / 2 := by
    rw [hta]
    field_simp
    linarith
  have hBe : w * A e ∈ dirSpan A w b x0 1 := by
    have : w * A e = (cgSeq A w b x0 0).p := by
      show _ = w * (b - A x0)
      rw [he, map_sub, hxs]
    rw [this]; exact dir_mem (by omega)
  have hmem : ∀ j, j ≤ k → (chebVec S e j).1 - ((s ^ j + s⁻¹ ^ j) / 2) • e ∈ dirSpan A w b x0 j := by
    have hSm : ∀ j, j < k → ∀ (v : Fin N → ℝ) (g : ℝ), v - g • e ∈ dirSpan A w b x0 j → S v - (ta * g) • e ∈ dirSpan A w b x0 (j + 1) := by
      intro j hj v g hv
      have h1 : S v - (ta * g) • e = ta • (v - g • e) - (2 / (hi - lo)) • (w * A (v - g • e)) - (2 / (hi - lo) * g) • (w * A e) := by
        rw [hSv, map_sub, map_smul, mul_sub, mul_smul_comm]
        module
      rw [h1]
      refine Submodule.sub_mem _ (Submodule.sub_mem _ (Submodule.smul_mem _ _ (dirSpan_mono (by omega) hv)) (Submodule.smul_mem _ _
        (wA_mem hw (hok.mono (by omega)) hv))) (Submodule.smul_mem _ _ (dirSpan_mono (by omega) hBe))
    intro j
    induction j using Nat.twoStepInduction with
    | zero =>
      intro _
      simp [chebVec]
    | one =>
      intro h1
      have h := hSm 0 (by omega) e 1 (by simp)
      have e1 : (chebVec S e 1).1 = S e := by simp [chebVec]
      rw [e1]
      simp only [pow_one, zero_add, mul_one] at h ⊢
      rw [← hta']; exact h
    | more j ih1 ih2 =>
      intro h2
      have hh := hSm (j + 1) (by omega) _ _ (ih2 (by omega))
      rw [cheb_three]
      have e1 : (2 : ℝ) • S (chebVec S e (j + 1)).1 - (chebVec S e j).1 - ((s ^ (j + 2) + s⁻¹ ^ (j + 2)) / 2) • e =
          (2 : ℝ) • (S (chebVec S e (j + 1)).1 - (ta * ((s ^ (j + 1) + s⁻¹ ^ (j + 1)) / 2)) • e) -
            ((chebVec S e j).1 - ((s ^ j + s⁻¹ ^ j) / 2) • e) := by
        have hg : (s ^ (j + 2) + s⁻¹ ^ (j + 2)) / 2 = 2 * (ta * ((s ^ (j + 1) + s⁻¹ ^ (j + 1)) / 2)) - (s ^ j + s⁻¹ ^ j) / 2 := by
          rw [hta', pow_succ, pow_succ, pow_succ s⁻¹, pow_succ s⁻¹]
          generalize s ^ j = X
          generalize s⁻¹ ^ j = Y
          field_simp
          ring
        rw [hg]
        module
      rw [e1]
      exact Submodule.sub_mem _ (Submodule.smul_mem _ _ hh) (dirSpan_mono (by omega) (ih1 (by omega)))
  set g : ℝ := (s ^ k + s⁻¹ ^ k) / 2 with hg
  have hg0 : 0 < g := by positivity
  have hgs : s ^ k / 2 ≤ g := by
    have : 0 ≤ s⁻¹ ^ k := by positivity
    rw [hg]; linarith
  have hopt := cg_optimal hA hw hok hxs (y := -(g⁻¹ • ((chebVec S e k).1 - g • e))) (Submodule.neg_mem _ (Submodule.smul_mem _ _ (hmem k le_rfl)))
  have heq : xs - x0 - -(g⁻¹ • ((chebVec S e k).1 - g • e)) = g⁻¹ • (chebVec S e k).1 := by
    rw [← he, smul_sub, smul_smul, inv_mul_cancel₀ hg0.ne', one_smul]; abel
  rw [heq, map_smul, smul_dotProduct, dotProduct_smul, smul_eq_mul, smul_eq_mul] at hopt
  have h1 := hche k
  set E := (xs - (cgSeq A w b x0 k).x) ⬝ᵥ A (xs - (cgSeq A w b x0 k).x) with hE
  have hE0 : 0 ≤ E := by
    by_cases h : xs - (cgSeq A w b x0 k).x = 0
    · rw [hE, h]; simp
    · exact (hA.2 _ h).le
  calc (s ^ k / 2) ^ 2 * E ≤ g ^ 2 * E := mul_le_mul_of_nonneg_right (pow_le_pow_left₀ (by positivity) hgs 2) hE0
    _ ≤ g ^ 2 * (g⁻¹ * (g⁻¹ * ((chebVec S e k).1 ⬝ᵥ A (chebVec S e k).1))) := mul_le_mul_of_nonneg_left hopt (by positivity)
    _ = (chebVec S e k).1 ⬝ᵥ A (chebVec S e k).1 := by field_simp
    _ ≤ e ⬝ᵥ A e := h1

end L1c
