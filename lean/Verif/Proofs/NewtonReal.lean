import Verif.Spec.Newton
import Verif.Spec.CG
import Verif.Proofs.NestaReal
import Mathlib.Analysis.SpecialFunctions.Log.Deriv
import Mathlib.Analysis.Calculus.Deriv.Pi
import Mathlib.Analysis.Calculus.Deriv.Prod
import Mathlib.Analysis.Calculus.FDeriv.Prod
import Mathlib.Analysis.Calculus.FDeriv.Pow

/-! # Mathematics of the log-barrier Newton method -/

namespace L1c
open Matrix

variable {n m : ℕ} {A : Matrix (Fin n) (Fin m) ℝ} {b : Fin n → ℝ} {eps tau : ℝ}

/-- `fe` of the code: half the squared residual minus half the squared radius -/
noncomputable def feR (A : Matrix (Fin n) (Fin m) ℝ) (b : Fin n → ℝ) (eps : ℝ) (x : Fin m → ℝ) : ℝ :=
  ((A *ᵥ x - b) ⬝ᵥ (A *ᵥ x - b) - eps * eps) / 2

noncomputable def gxR (A : Matrix (Fin n) (Fin m) ℝ) (b : Fin n → ℝ) (eps tau : ℝ) (p : XU m) : Fin m → ℝ := fun i =>
  -1 / tau * (1 / (p.1 i - p.2 i) - 1 / (-p.1 i - p.2 i) + 1 / feR A b eps p.1 * (Aᵀ *ᵥ (A *ᵥ p.1 - b)) i)

noncomputable def guR (tau : ℝ) (p : XU m) : Fin m → ℝ := fun i =>
  -1 / tau * (-tau - 1 / (p.1 i - p.2 i) - 1 / (-p.1 i - p.2 i))

theorem feR_neg {x : Fin m → ℝ} (h : nrm (A *ᵥ x - b) < eps) : feR A b eps x < 0 := by
  have h0 := nrm_nonneg (A *ᵥ x - b)
  have := nrm_sq (A *ᵥ x - b)
  unfold feR
  nlinarith

theorem StrictFeas.fe {p : XU m} (h : StrictFeas A b eps p) : feR A b eps p.1 < 0 := feR_neg h.2

/-- `p ↦ p.1 i`, `p ↦ p.2 i` -/
theorem hasFDerivAt_fst_apply (p : XU m) (i : Fin m) :
    HasFDerivAt (fun q : XU m => q.1 i) ((ContinuousLinearMap.proj i).comp (ContinuousLinearMap.fst ℝ (Fin m → ℝ) (Fin m → ℝ))) p :=
  ((ContinuousLinearMap.proj (R := ℝ) (φ := fun _ : Fin m => ℝ) i).comp (ContinuousLinearMap.fst ℝ (Fin m → ℝ) (Fin m → ℝ))).hasFDerivAt

theorem hasFDerivAt_snd_apply (p : XU m) (i : Fin m) :
    HasFDerivAt (fun q : XU m => q.2 i) ((ContinuousLinearMap.proj i).comp (ContinuousLinearMap.snd ℝ (Fin m → ℝ) (Fin m → ℝ))) p :=
  ((ContinuousLinearMap.proj (R := ℝ) (φ := fun _ : Fin m => ℝ) i).comp (ContinuousLinearMap.snd ℝ (Fin m → ℝ) (Fin m → ℝ))).hasFDerivAt

/-- half squared residual -/
theorem hasFDerivAt_resid (p : XU m) :
    HasFDerivAt (fun q : XU m => (A *ᵥ q.1 - b) ⬝ᵥ (A *ᵥ q.1 - b)) (pairCLM ((2 : ℝ) • (Aᵀ *ᵥ (A *ᵥ p.1 - b)), 0)) p := by
  have h1 : HasFDerivAt (fun x : Fin m → ℝ => (A *ᵥ x - b) ⬝ᵥ (A *ᵥ x - b)) (dotCLM ((2 : ℝ) • (Aᵀ *ᵥ (A *ᵥ p.1 - b)))) p.1 := by
    obtain ⟨c, hc0, hc⟩ : ∃ c : ℝ, 0 ≤ c ∧ ∀ d : Fin m → ℝ, (A *ᵥ d) ⬝ᵥ (A *ᵥ d) ≤ c * (d ⬝ᵥ d) := by
      refine ⟨∑ i, (fun j => A i j) ⬝ᵥ (fun j => A i j), Finset.sum_nonneg fun i _ => dot_self_nonneg _, fun d => ?_⟩
      rw [Finset.sum_mul]
      refine Finset.sum_le_sum fun i _ => ?_
      have h := Finset.sum_mul_sq_le_sq_mul_sq Finset.univ (fun j => A i j) d
      simpa only [dotProduct, mulVec, pow_two] using h
    have key : ∀ y : Fin m → ℝ, (A *ᵥ y - b) ⬝ᵥ (A *ᵥ y - b) = (A *ᵥ p.1 - b) ⬝ᵥ (A *ᵥ p.1 - b) +
        ((2 : ℝ) • (Aᵀ *ᵥ (A *ᵥ p.1 - b))) ⬝ᵥ (y - p.1) + (A *ᵥ (y - p.1)) ⬝ᵥ (A *ᵥ (y - p.1)) := by
      intro y
      rw [smul_dotProduct, dot_mulVec_T, smul_eq_mul]
      have e : A *ᵥ y - b = (A *ᵥ p.1 - b) + A *ᵥ (y - p.1) := by rw [mulVec_sub]; abel
      rw [e, add_dotProduct, dotProduct_add, dotProduct_add, dotProduct_comm (A *ᵥ (y - p.1)) (A *ᵥ p.1 - b)]
      ring
    refine hasFDerivAt_of_bounds hc0 (fun y => ?_) fun y => ?_
    · rw [key y]; linarith [dot_self_nonneg (A *ᵥ (y - p.1))]
    · rw [key y]; linarith [hc (y - p.1)]
  have h2 := h1.comp p (hasFDerivAt_fst (𝕜 := ℝ) (E := Fin m → ℝ) (F := Fin m → ℝ) (p := p))
  refine h2.congr_fderiv ?_
  ext d
  · simp
  · simp

theorem barrier_grad (htau : tau ≠ 0) {p : XU m} (h : StrictFeas A b eps p) :
    IsGrad (barrier A b eps tau) (gxR A b eps tau p, guR tau p) p := by
  have hq : (eps ^ 2 - (A *ᵥ p.1 - b) ⬝ᵥ (A *ᵥ p.1 - b)) / 2 ≠ 0 := by
    have := h.fe; unfold feR at this; intro hc; nlinarith
  have hs : ∀ i, p.2 i - p.1 i ≠ 0 := fun i => by have := (h.1 i).2; intro hc; linarith
  have ht : ∀ i, p.2 i + p.1 i ≠ 0 := fun i => by have := (h.1 i).1; intro hc; linarith
  have H := (HasFDerivAt.fun_sum (u := Finset.univ) fun i _ => hasFDerivAt_snd_apply p i).sub
    (((((HasFDerivAt.fun_sum (u := Finset.univ) fun i _ =>
        ((hasFDerivAt_snd_apply p i).sub (hasFDerivAt_fst_apply p i)).log (hs i)).add
      (HasFDerivAt.fun_sum (u := Finset.univ) fun i _ =>
        ((hasFDerivAt_snd_apply p i).add (hasFDerivAt_fst_apply p i)).log (ht i))).add
      ((((hasFDerivAt_const (eps ^ 2) p).sub (hasFDerivAt_resid (A := A) (b := b) p)).mul_const (1 / 2 : ℝ)).log
        (by simpa [div_eq_mul_inv] using hq)))).const_mul (1 / tau))
  unfold IsGrad
  refine (H.congr_fderiv ?_).congr_of_eventuallyEq (Filter.Eventually.of_forall fun q => ?_)
  · refine ContinuousLinearMap.ext fun d => ?_
    have e1 : (eps ^ 2 - (A *ᵥ p.1 - b) ⬝ᵥ (A *ᵥ p.1 - b)) * (1 / 2) = -feR A b eps p.1 := by unfold feR; ring
    have hfe : feR A b eps p.1 ≠ 0 := h.fe.ne
    simp only [_root_.sub_apply, _root_.add_apply, _root_.smul_apply, _root_.sum_apply, _root_.neg_apply,
      ContinuousLinearMap.comp_apply, ContinuousLinearMap.proj_apply, Pi.sub_apply, Pi.add_apply,
      ContinuousLinearMap.coe_fst', ContinuousLinearMap.coe_snd', pairCLM_apply, smul_eq_mul, zero_dotProduct, add_zero,
      zero_sub, e1, smul_dotProduct]
    have e2 : gxR A b eps tau p ⬝ᵥ d.1 = -1 / tau * (∑ i, (1 / (p.1 i - p.2 i) - 1 / (-p.1 i - p.2 i)) * d.1 i +
        1 / feR A b eps p.1 * ((Aᵀ *ᵥ (A *ᵥ p.1 - b)) ⬝ᵥ d.1)) := by
      simp only [dotProduct, gxR, Finset.mul_sum, ← Finset.sum_add_distrib]
      exact Finset.sum_congr rfl fun i _ => by ring
    have e3 : guR tau p ⬝ᵥ d.2 = ∑ i, d.2 i - 1 / tau * ∑ i, (- 1 / (p.1 i - p.2 i) - 1 / (-p.1 i - p.2 i)) * d.2 i := by
      simp only [dotProduct, guR, Finset.mul_sum, ← Finset.sum_sub_distrib]
      exact Finset.sum_congr rfl fun i _ => by field_simp; ring
    rw [e2, e3]
    have e4 : ∑ i, (p.2 i - p.1 i)⁻¹ * (d.2 i - d.1 i) + ∑ i, (p.2 i + p.1 i)⁻¹ * (d.2 i + d.1 i) =
        ∑ i, (1 / (p.1 i - p.2 i) - 1 / (-p.1 i - p.2 i)) * d.1 i +
        ∑ i, (- 1 / (p.1 i - p.2 i) - 1 / (-p.1 i - p.2 i)) * d.2 i := by
      simp only [← Finset.sum_add_distrib]
      refine Finset.sum_congr rfl fun i _ => ?_
      have e5 : p.1 i - p.2 i = -(p.2 i - p.1 i) := by ring
      have e6 : -p.1 i - p.2 i = -(p.2 i + p.1 i) := by ring
      rw [e5, e6]
      have := hs i
      have := ht i
      field_simp
      ring
    rw [e4]
    field_simp
    ring
  · simp only [barrier, Pi.sub_apply, Pi.add_apply, div_eq_mul_inv, one_mul]

/-! ## Second derivative -/

noncomputable def s11R (p : XU m) (i : Fin m) : ℝ :=
  1 / (p.1 i - p.2 i) * (1 / (p.1 i - p.2 i)) + 1 / (-p.1 i - p.2 i) * (1 / (-p.1 i - p.2 i))

noncomputable def s12R (p : XU m) (i : Fin m) : ℝ :=
  -(1 / (p.1 i - p.2 i)) * (1 / (p.1 i - p.2 i)) + 1 / (-p.1 i - p.2 i) * (1 / (-p.1 i - p.2 i))

/-- the dense part of the Hessian (times `tau`) -/
noncomputable def denseR (A : Matrix (Fin n) (Fin m) ℝ) (b : Fin n → ℝ) (eps : ℝ) (x z : Fin m → ℝ) : Fin m → ℝ := fun i =>
  (Aᵀ *ᵥ (A *ᵥ x - b)) ⬝ᵥ z * (1 / (feR A b eps x * feR A b eps x)) * (Aᵀ *ᵥ (A *ᵥ x - b)) i +
    -(1 / feR A b eps x) * (Aᵀ *ᵥ (A *ᵥ z)) i

noncomputable def hxR (A : Matrix (Fin n) (Fin m) ℝ) (b : Fin n → ℝ) (eps tau : ℝ) (p d : XU m) : Fin m → ℝ := fun i =>
  1 / tau * (s11R p i * d.1 i + s12R p i * d.2 i + denseR A b eps p.1 d.1 i)

noncomputable def huR (tau : ℝ) (p d : XU m) : Fin m → ℝ := fun i =>
  1 / tau * (s12R p i * d.1 i + s11R p i * d.2 i)

theorem inv_line {a c : ℝ} (ha : a ≠ 0) : HasDerivAt (fun t : ℝ => 1 / (a + t * c)) (-(1 / a * (1 / a) * c)) 0 := by
  have h1 : HasDerivAt (fun t : ℝ => a + t * c) c 0 := by
    simpa using ((hasDerivAt_id (0 : ℝ)).mul_const c).const_add a
  have h2 := h1.inv (by simpa using ha)
  simp only [zero_mul, add_zero] at h2
  refine (h2.congr_deriv ?_).congr_of_eventuallyEq (Filter.Eventually.of_forall fun t => ?_)
  · field_simp
  · simp [one_div]

theorem fe_line (x v : Fin m → ℝ) :
    HasDerivAt (fun t : ℝ => feR A b eps (x + t • v)) ((Aᵀ *ᵥ (A *ᵥ x - b)) ⬝ᵥ v) 0 := by
  have e : ∀ t : ℝ, feR A b eps (x + t • v) = feR A b eps x + t * ((Aᵀ *ᵥ (A *ᵥ x - b)) ⬝ᵥ v) +
      t * t * ((A *ᵥ v) ⬝ᵥ (A *ᵥ v) / 2) := by
    intro t
    have e1 : A *ᵥ (x + t • v) - b = (A *ᵥ x - b) + t • (A *ᵥ v) := by rw [mulVec_add, mulVec_smul]; abel
    unfold feR
    rw [e1, add_dotProduct, dotProduct_add, dotProduct_add, dot_mulVec_T, smul_dotProduct, dotProduct_smul, smul_dotProduct,
      dotProduct_smul, dotProduct_comm (A *ᵥ v) (A *ᵥ x - b)]
    simp only [smul_eq_mul]
    ring
  have h := (((hasDerivAt_id (0 : ℝ)).mul_const ((Aᵀ *ᵥ (A *ᵥ x - b)) ⬝ᵥ v)).const_add (feR A b eps x)).add
    (((hasDerivAt_id (0 : ℝ)).mul (hasDerivAt_id (0 : ℝ))).mul_const ((A *ᵥ v) ⬝ᵥ (A *ᵥ v) / 2))
  refine (h.congr_deriv (by simp)).congr_of_eventuallyEq (Filter.Eventually.of_forall fun t => ?_)
  show feR A b eps (x + t • v) = _
  rw [e t]; simp

theorem gx_line (htau : tau ≠ 0) {p : XU m} (h : StrictFeas A b eps p) (d : XU m) :
    HasDerivAt (fun t : ℝ => gxR A b eps tau (p + t • d)) (hxR A b eps tau p d) 0 := by
  rw [hasDerivAt_pi]
  intro i
  have h1 := inv_line (a := p.1 i - p.2 i) (c := d.1 i - d.2 i) (by have := (h.1 i).2; intro hc; linarith)
  have h2 := inv_line (a := -p.1 i - p.2 i) (c := -d.1 i - d.2 i) (by have := (h.1 i).1; intro hc; linarith)
  have hfe : feR A b eps p.1 ≠ 0 := h.fe.ne
  have h3 := (fe_line (A := A) (b := b) (eps := eps) p.1 d.1).inv (by simpa using hfe)
  have h4 : HasDerivAt (fun t : ℝ => (Aᵀ *ᵥ (A *ᵥ (p.1 + t • d.1) - b)) i) ((Aᵀ *ᵥ (A *ᵥ d.1)) i) 0 := by
    have := ((hasDerivAt_id (0 : ℝ)).mul_const ((Aᵀ *ᵥ (A *ᵥ d.1)) i)).const_add ((Aᵀ *ᵥ (A *ᵥ p.1 - b)) i)
    refine (this.congr_deriv (by simp)).congr_of_eventuallyEq (Filter.Eventually.of_forall fun t => ?_)
    show (Aᵀ *ᵥ (A *ᵥ (p.1 + t • d.1) - b)) i = _ + id t * _
    have e1 : A *ᵥ (p.1 + t • d.1) - b = (A *ᵥ p.1 - b) + t • (A *ᵥ d.1) := by rw [mulVec_add, mulVec_smul]; abel
    rw [e1, mulVec_add, mulVec_smul]; rfl
  have H := (((h1.sub h2).add (h3.mul h4)).const_mul (-1 / tau))
  refine (H.congr_deriv ?_).congr_of_eventuallyEq (Filter.Eventually.of_forall fun t => ?_)
  · simp only [zero_smul, add_zero, hxR, s11R, s12R, denseR]
    have := (h.1 i).1
    have := (h.1 i).2
    have n1 : p.1 i - p.2 i ≠ 0 := by intro hc; linarith
    have n2 : -p.1 i - p.2 i ≠ 0 := by intro hc; linarith
    simp only [Pi.inv_apply, zero_smul, add_zero]
    field_simp
    ring
  · simp only [gxR, Prod.fst_add, Prod.snd_add, Prod.smul_fst, Prod.smul_snd, Pi.add_apply, Pi.smul_apply, smul_eq_mul,
      Pi.sub_apply, Pi.mul_apply, Pi.inv_apply, one_div]
    congr 3
    · ring_nf
    · ring_nf

theorem gu_line (htau : tau ≠ 0) {p : XU m} (h : ∀ i, -p.2 i < p.1 i ∧ p.1 i < p.2 i) (d : XU m) :
    HasDerivAt (fun t : ℝ => guR tau (p + t • d)) (huR tau p d) 0 := by
  rw [hasDerivAt_pi]
  intro i
  have n1 : p.1 i - p.2 i ≠ 0 := by have := (h i).2; intro hc; linarith
  have n2 : -p.1 i - p.2 i ≠ 0 := by have := (h i).1; intro hc; linarith
  have h1 := inv_line (c := d.1 i - d.2 i) n1
  have h2 := inv_line (c := -d.1 i - d.2 i) n2
  have H := (((hasDerivAt_const (0 : ℝ) (-tau)).sub h1).sub h2).const_mul (-1 / tau)
  refine (H.congr_deriv ?_).congr_of_eventuallyEq (Filter.Eventually.of_forall fun t => ?_)
  · simp only [huR, s11R, s12R]
    field_simp
    ring
  · simp only [guR, Prod.fst_add, Prod.snd_add, Prod.smul_fst, Prod.smul_snd, Pi.add_apply, Pi.smul_apply, smul_eq_mul,
      Pi.sub_apply]
    congr 3
    · ring_nf
    · ring_nf

/-- quadratic form of the Hessian -/
theorem hess_quad (p d : XU m) :
    hxR A b eps tau p d ⬝ᵥ d.1 + huR tau p d ⬝ᵥ d.2 =
      1 / tau * (∑ i, (1 / (p.1 i - p.2 i) * (d.1 i - d.2 i)) ^ 2 + ∑ i, (1 / (-p.1 i - p.2 i) * (d.1 i + d.2 i)) ^ 2 +
        ((Aᵀ *ᵥ (A *ᵥ p.1 - b)) ⬝ᵥ d.1 * (1 / feR A b eps p.1)) ^ 2 - 1 / feR A b eps p.1 * ((A *ᵥ d.1) ⬝ᵥ (A *ᵥ d.1))) := by
  have e1 : denseR A b eps p.1 d.1 ⬝ᵥ d.1 = ((Aᵀ *ᵥ (A *ᵥ p.1 - b)) ⬝ᵥ d.1 * (1 / feR A b eps p.1)) ^ 2 -
      1 / feR A b eps p.1 * ((A *ᵥ d.1) ⬝ᵥ (A *ᵥ d.1)) := by
    have : denseR A b eps p.1 d.1 = ((Aᵀ *ᵥ (A *ᵥ p.1 - b)) ⬝ᵥ d.1 * (1 / (feR A b eps p.1 * feR A b eps p.1))) • (Aᵀ *ᵥ (A *ᵥ p.1 - b)) +
      (-(1 / feR A b eps p.1)) • (Aᵀ *ᵥ (A *ᵥ d.1)) := rfl
    rw [this, add_dotProduct, smul_dotProduct, smul_dotProduct, dot_mulVec_T A (A *ᵥ d.1)]
    simp only [smul_eq_mul, one_div, mul_inv]
    ring
  have e2 : hxR A b eps tau p d ⬝ᵥ d.1 + huR tau p d ⬝ᵥ d.2 = 1 / tau * (∑ i, (s11R p i * d.1 i ^ 2 + 2 * s12R p i * d.1 i * d.2 i +
      s11R p i * d.2 i ^ 2) + denseR A b eps p.1 d.1 ⬝ᵥ d.1) := by
    simp only [dotProduct, hxR, huR, Finset.mul_sum, ← Finset.sum_add_distrib]
    exact Finset.sum_congr rfl fun i _ => by ring
  rw [e2, e1, ← Finset.sum_add_distrib]
  have e3 : ∀ i, s11R p i * d.1 i ^ 2 + 2 * s12R p i * d.1 i * d.2 i + s11R p i * d.2 i ^ 2 =
      (1 / (p.1 i - p.2 i) * (d.1 i - d.2 i)) ^ 2 + (1 / (-p.1 i - p.2 i) * (d.1 i + d.2 i)) ^ 2 := by
    intro i; unfold s11R s12R; ring
  rw [Finset.sum_congr rfl fun i _ => e3 i]
  ring

theorem hess_pos (htau : 0 < tau) {p : XU m} (h : StrictFeas A b eps p) {d : XU m} (hd : d ≠ 0) :
    0 < hxR A b eps tau p d ⬝ᵥ d.1 + huR tau p d ⬝ᵥ d.2 := by
  rw [hess_quad]
  have hfe := h.fe
  have n1 : ∀ i, 1 / (p.1 i - p.2 i) ≠ 0 := fun i => by
    have := (h.1 i).2; exact one_div_ne_zero (by intro hc; linarith)
  have n2 : ∀ i, 1 / (-p.1 i - p.2 i) ≠ 0 := fun i => by
    have := (h.1 i).1; exact one_div_ne_zero (by intro hc; linarith)
  have a1 : 0 ≤ ∑ i, (1 / (p.1 i - p.2 i) * (d.1 i - d.2 i)) ^ 2 := Finset.sum_nonneg fun i _ => sq_nonneg _
  have a2 : 0 ≤ ∑ i, (1 / (-p.1 i - p.2 i) * (d.1 i + d.2 i)) ^ 2 := Finset.sum_nonneg fun i _ => sq_nonneg _
  have a3 := sq_nonneg ((Aᵀ *ᵥ (A *ᵥ p.1 - b)) ⬝ᵥ d.1 * (1 / feR A b eps p.1))
  have a4 : 0 ≤ -(1 / feR A b eps p.1 * ((A *ᵥ d.1) ⬝ᵥ (A *ᵥ d.1))) := by
    have : 1 / feR A b eps p.1 < 0 := one_div_neg.2 hfe
    have := dot_self_nonneg (A *ᵥ d.1)
    nlinarith
  have key : 0 < ∑ i, (1 / (p.1 i - p.2 i) * (d.1 i - d.2 i)) ^ 2 + ∑ i, (1 / (-p.1 i - p.2 i) * (d.1 i + d.2 i)) ^ 2 := by
    rcases lt_or_eq_of_le (add_nonneg a1 a2) with hlt | heq
    · exact hlt
    · exfalso
      apply hd
      have b1 : ∑ i, (1 / (p.1 i - p.2 i) * (d.1 i - d.2 i)) ^ 2 = 0 := by linarith
      have b2 : ∑ i, (1 / (-p.1 i - p.2 i) * (d.1 i + d.2 i)) ^ 2 = 0 := by linarith
      have c1 := fun i => (Finset.sum_eq_zero_iff_of_nonneg (fun i _ => sq_nonneg _)).1 b1 i (Finset.mem_univ i)
      have c2 := fun i => (Finset.sum_eq_zero_iff_of_nonneg (fun i _ => sq_nonneg _)).1 b2 i (Finset.mem_univ i)
      have d1 : ∀ i, d.1 i - d.2 i = 0 := fun i => (mul_eq_zero.1 (pow_eq_zero_iff two_ne_zero |>.1 (c1 i))).resolve_left (n1 i)
      have d2 : ∀ i, d.1 i + d.2 i = 0 := fun i => (mul_eq_zero.1 (pow_eq_zero_iff two_ne_zero |>.1 (c2 i))).resolve_left (n2 i)
      refine Prod.ext (funext fun i => ?_) (funext fun i => ?_)
      · have := d1 i; have := d2 i; show d.1 i = 0; linarith
      · have := d1 i; have := d2 i; show d.2 i = 0; linarith
  have : 0 < 1 / tau := one_div_pos.2 htau
  refine mul_pos this ?_
  linarith

/-! ## The reduced system -/

theorem s11_pos {p : XU m} (h : ∀ i, -p.2 i < p.1 i ∧ p.1 i < p.2 i) (i : Fin m) : 0 < s11R p i := by
  have n1 : 1 / (p.1 i - p.2 i) ≠ 0 := by
    have := (h i).2; exact one_div_ne_zero (by intro hc; linarith)
  have := mul_self_pos.2 n1
  have := mul_self_nonneg (1 / (-p.1 i - p.2 i))
  unfold s11R; linarith

theorem sigx_pos {p : XU m} (h : ∀ i, -p.2 i < p.1 i ∧ p.1 i < p.2 i) (i : Fin m) :
    0 < s11R p i - s12R p i * s12R p i / s11R p i := by
  have h0 := s11_pos h i
  have n1 : 1 / (p.1 i - p.2 i) ≠ 0 := by
    have := (h i).2; exact one_div_ne_zero (by intro hc; linarith)
  have n2 : 1 / (-p.1 i - p.2 i) ≠ 0 := by
    have := (h i).1; exact one_div_ne_zero (by intro hc; linarith)
  have h1 := mul_self_pos.2 n1
  have h2 := mul_self_pos.2 n2
  rw [sub_pos, div_lt_iff₀ h0]
  unfold s11R s12R
  nlinarith [mul_pos h1 h2]

/-- the operator of the reduced system -/
noncomputable def redR (A : Matrix (Fin n) (Fin m) ℝ) (b : Fin n → ℝ) (eps : ℝ) (p : XU m) :
    (Fin m → ℝ) →ₗ[ℝ] (Fin m → ℝ) where
  toFun z := fun i => (s11R p i - s12R p i * s12R p i / s11R p i) * z i + denseR A b eps p.1 z i
  map_add' z w := by
    funext i
    simp only [denseR, Pi.add_apply, dotProduct_add, mulVec_add]; ring
  map_smul' c z := by
    funext i
    simp only [denseR, Pi.smul_apply, dotProduct_smul, mulVec_smul, smul_eq_mul, RingHom.id_apply]; ring

theorem dense_dot (x z w : Fin m → ℝ) : denseR A b eps x z ⬝ᵥ w =
    (Aᵀ *ᵥ (A *ᵥ x - b)) ⬝ᵥ z * ((Aᵀ *ᵥ (A *ᵥ x - b)) ⬝ᵥ w) * (1 / (feR A b eps x * feR A b eps x)) -
      1 / feR A b eps x * ((A *ᵥ z) ⬝ᵥ (A *ᵥ w)) := by
  have : denseR A b eps x z = ((Aᵀ *ᵥ (A *ᵥ x - b)) ⬝ᵥ z * (1 / (feR A b eps x * feR A b eps x))) • (Aᵀ *ᵥ (A *ᵥ x - b)) +
      (-(1 / feR A b eps x)) • (Aᵀ *ᵥ (A *ᵥ z)) := rfl
  rw [this, add_dotProduct, smul_dotProduct, smul_dotProduct, dot_mulVec_T A (A *ᵥ z)]
  simp only [smul_eq_mul]
  ring

theorem redR_spd {p : XU m} (h : StrictFeas A b eps p) : SPD (redR A b eps p) := by
  have hdot : ∀ z w, redR A b eps p z ⬝ᵥ w = ∑ i, (s11R p i - s12R p i * s12R p i / s11R p i) * z i * w i +
      denseR A b eps p.1 z ⬝ᵥ w := by
    intro z w
    simp only [dotProduct, ← Finset.sum_add_distrib]
    exact Finset.sum_congr rfl fun i _ => by
      show (_ * z i + denseR A b eps p.1 z i) * w i = _
      ring
  refine ⟨fun z w => ?_, fun z hz => ?_⟩
  · rw [dotProduct_comm z, hdot, hdot, dense_dot, dense_dot, dotProduct_comm (A *ᵥ w)]
    rw [Finset.sum_congr rfl fun i _ => show (s11R p i - s12R p i * s12R p i / s11R p i) * z i * w i =
      (s11R p i - s12R p i * s12R p i / s11R p i) * w i * z i by ring]
    ring
  · rw [dotProduct_comm, hdot, dense_dot]
    have hfe := h.fe
    have a1 : 0 < ∑ i, (s11R p i - s12R p i * s12R p i / s11R p i) * z i * z i := by
      obtain ⟨i, hi⟩ : ∃ i, z i ≠ 0 := by
        by_contra hc; push Not at hc; exact hz (funext hc)
      refine Finset.sum_pos' (fun j _ => ?_) ⟨i, Finset.mem_univ i, ?_⟩
      · rw [mul_assoc]; exact mul_nonneg (sigx_pos h.1 j).le (mul_self_nonneg _)
      · rw [mul_assoc]; exact mul_pos (sigx_pos h.1 i) (mul_self_pos.2 hi)
    have a2 : 0 ≤ (Aᵀ *ᵥ (A *ᵥ p.1 - b)) ⬝ᵥ z * ((Aᵀ *ᵥ (A *ᵥ p.1 - b)) ⬝ᵥ z) * (1 / (feR A b eps p.1 * feR A b eps p.1)) :=
      mul_nonneg (mul_self_nonneg _) (one_div_nonneg.2 (mul_self_nonneg _))
    have a3 : 0 ≤ -(1 / feR A b eps p.1 * ((A *ᵥ z) ⬝ᵥ (A *ᵥ z))) := by
      have : 1 / feR A b eps p.1 < 0 := one_div_neg.2 hfe
      have := dot_self_nonneg (A *ᵥ z)
      nlinarith
    linarith

noncomputable def ntgzR (A : Matrix (Fin n) (Fin m) ℝ) (b : Fin n → ℝ) (eps : ℝ) (p : XU m) (i : Fin m) : ℝ :=
  1 / (p.1 i - p.2 i) - 1 / (-p.1 i - p.2 i) + 1 / feR A b eps p.1 * (Aᵀ *ᵥ (A *ᵥ p.1 - b)) i

noncomputable def ntguR (tau : ℝ) (p : XU m) (i : Fin m) : ℝ := -tau - 1 / (p.1 i - p.2 i) - 1 / (-p.1 i - p.2 i)

noncomputable def w1pR (A : Matrix (Fin n) (Fin m) ℝ) (b : Fin n → ℝ) (eps tau : ℝ) (p : XU m) : Fin m → ℝ := fun i =>
  ntgzR A b eps p i - s12R p i / s11R p i * ntguR tau p i

noncomputable def duR (tau : ℝ) (p : XU m) (dx : Fin m → ℝ) : Fin m → ℝ := fun i =>
  1 / s11R p i * ntguR tau p i - s12R p i / s11R p i * dx i

/-- the residual of the reduced system is the residual of the full one -/
theorem newton_residual (htau : tau ≠ 0) {p : XU m} (h : StrictFeas A b eps p) (dx : Fin m → ℝ) :
    hxR A b eps tau p (dx, duR tau p dx) = -gxR A b eps tau p - (1 / tau) • (w1pR A b eps tau p - redR A b eps p dx) ∧
      huR tau p (dx, duR tau p dx) = -guR tau p := by
  have h0 := fun i => (s11_pos h.1 i).ne'
  constructor
  · funext i
    have hi : redR A b eps p dx i = (s11R p i - s12R p i * s12R p i / s11R p i) * dx i + denseR A b eps p.1 dx i := rfl
    have hw : w1pR A b eps tau p i = ntgzR A b eps p i - s12R p i / s11R p i * ntguR tau p i := rfl
    have e : -gxR A b eps tau p i = 1 / tau * ntgzR A b eps p i := by
      unfold gxR ntgzR; ring
    show hxR A b eps tau p (dx, duR tau p dx) i = -gxR A b eps tau p i - 1 / tau * (w1pR A b eps tau p i - redR A b eps p dx i)
    rw [e, hi, hw]
    unfold hxR duR
    have := h0 i
    ring
  · funext i
    have e : -guR tau p i = 1 / tau * ntguR tau p i := by unfold guR ntguR; ring
    show huR tau p (dx, duR tau p dx) i = -guR tau p i
    rw [e]
    unfold huR duR
    have := h0 i
    field_simp
    ring

/-- an exact solution of the reduced system gives an exact solution of the full one -/
theorem newton_system (htau : tau ≠ 0) {p : XU m} (h : StrictFeas A b eps p) {dx : Fin m → ℝ}
    (hdx : redR A b eps p dx = w1pR A b eps tau p) :
    hxR A b eps tau p (dx, duR tau p dx) = -gxR A b eps tau p ∧ huR tau p (dx, duR tau p dx) = -guR tau p := by
  have := newton_residual htau h dx
  rwa [hdx, sub_self, smul_zero, sub_zero] at this

/-! ## Duality gap -/

theorem barrier_gap (htau : 0 < tau) {p : XU m} (h : StrictFeas A b eps p)
    (hst : IsGrad (barrier A b eps tau) 0 p) {z : Fin m → ℝ} (hz : nrm (A *ᵥ z - b) ≤ eps) :
    ∑ i, p.2 i - ∑ i, |z i| ≤ (2 * m + 1) / tau := by
  have huniq := (barrier_grad htau.ne' h).unique hst
  have hz0 := congrArg (fun L : XU m →L[ℝ] ℝ => L (z - p.1, fun i => |z i| - p.2 i)) huniq
  simp only [pairCLM_apply, Prod.fst_zero, Prod.snd_zero, zero_dotProduct, add_zero] at hz0
  have hfe := h.fe
  have e2 : gxR A b eps tau p ⬝ᵥ (z - p.1) + guR tau p ⬝ᵥ (fun i => |z i| - p.2 i) =
      (∑ i, |z i| - ∑ i, p.2 i) - 1 / tau * (∑ i, ((|z i| - z i) / (p.2 i - p.1 i) - 1) + ∑ i, ((|z i| + z i) / (p.2 i + p.1 i) - 1) +
        1 / feR A b eps p.1 * ((Aᵀ *ᵥ (A *ᵥ p.1 - b)) ⬝ᵥ (z - p.1))) := by
    have t1 : gxR A b eps tau p ⬝ᵥ (z - p.1) = -1 / tau * (∑ i, (1 / (p.1 i - p.2 i) - 1 / (-p.1 i - p.2 i)) * (z i - p.1 i) +
        1 / feR A b eps p.1 * ((Aᵀ *ᵥ (A *ᵥ p.1 - b)) ⬝ᵥ (z - p.1))) := by
      simp only [dotProduct, gxR, Finset.mul_sum, ← Finset.sum_add_distrib, Pi.sub_apply]
      exact Finset.sum_congr rfl fun i _ => by ring
    have t2 : guR tau p ⬝ᵥ (fun i => |z i| - p.2 i) = (∑ i, |z i| - ∑ i, p.2 i) -
        1 / tau * ∑ i, (- 1 / (p.1 i - p.2 i) - 1 / (-p.1 i - p.2 i)) * (|z i| - p.2 i) := by
      simp only [dotProduct, guR, Finset.mul_sum, ← Finset.sum_sub_distrib]
      exact Finset.sum_congr rfl fun i _ => by field_simp; ring
    have t3 : ∑ i, ((|z i| - z i) / (p.2 i - p.1 i) - 1) + ∑ i, ((|z i| + z i) / (p.2 i + p.1 i) - 1) =
        ∑ i, (1 / (p.1 i - p.2 i) - 1 / (-p.1 i - p.2 i)) * (z i - p.1 i) +
        ∑ i, (- 1 / (p.1 i - p.2 i) - 1 / (-p.1 i - p.2 i)) * (|z i| - p.2 i) := by
      simp only [← Finset.sum_add_distrib]
      refine Finset.sum_congr rfl fun i _ => ?_
      have e5 : p.1 i - p.2 i = -(p.2 i - p.1 i) := by ring
      have e6 : -p.1 i - p.2 i = -(p.2 i + p.1 i) := by ring
      rw [e5, e6]
      have n1 : p.2 i - p.1 i ≠ 0 := by have := (h.1 i).2; intro hc; linarith
      have n2 : p.2 i + p.1 i ≠ 0 := by have := (h.1 i).1; intro hc; linarith
      field_simp
      ring
    rw [t1, t2, t3]; ring
  rw [e2] at hz0
  have b1 : -(m : ℝ) ≤ ∑ i, ((|z i| - z i) / (p.2 i - p.1 i) - 1) := by
    have : ∑ _i : Fin m, (-1 : ℝ) ≤ ∑ i, ((|z i| - z i) / (p.2 i - p.1 i) - 1) := Finset.sum_le_sum fun i _ => by
      have h1 := (h.1 i).2
      have h2 := le_abs_self (z i)
      have : 0 ≤ (|z i| - z i) / (p.2 i - p.1 i) := div_nonneg (by linarith) (by linarith)
      linarith
    simpa using this
  have b2 : -(m : ℝ) ≤ ∑ i, ((|z i| + z i) / (p.2 i + p.1 i) - 1) := by
    have : ∑ _i : Fin m, (-1 : ℝ) ≤ ∑ i, ((|z i| + z i) / (p.2 i + p.1 i) - 1) := Finset.sum_le_sum fun i _ => by
      have h1 := (h.1 i).1
      have h2 := neg_abs_le (z i)
      have : 0 ≤ (|z i| + z i) / (p.2 i + p.1 i) := div_nonneg (by linarith) (by linarith)
      linarith
    simpa using this
  have b3 : -1 ≤ 1 / feR A b eps p.1 * ((Aᵀ *ᵥ (A *ᵥ p.1 - b)) ⬝ᵥ (z - p.1)) := by
    rw [dot_mulVec_T, mulVec_sub]
    have e3 : A *ᵥ z - A *ᵥ p.1 = (A *ᵥ z - b) - (A *ᵥ p.1 - b) := by abel
    rw [e3, dotProduct_sub]
    have hfr : feR A b eps p.1 = ((A *ᵥ p.1 - b) ⬝ᵥ (A *ᵥ p.1 - b) - eps * eps) / 2 := rfl
    generalize A *ᵥ p.1 - b = r at *
    generalize A *ᵥ z - b = q at *
    have c1 : r ⬝ᵥ q - r ⬝ᵥ r ≤ -feR A b eps p.1 := by
      have hsq := dot_self_nonneg (r - q)
      rw [sub_dotProduct, dotProduct_sub, dotProduct_sub, dotProduct_comm q r] at hsq
      have hq := nrm_sq q
      have hqn := nrm_nonneg q
      have : q ⬝ᵥ q ≤ eps * eps := by nlinarith
      rw [hfr]
      linarith
    rw [one_div, inv_mul_eq_div, le_div_iff_of_neg hfe]
    linarith
  have key : ∑ i, p.2 i - ∑ i, |z i| = 1 / tau * -(∑ i, ((|z i| - z i) / (p.2 i - p.1 i) - 1) + ∑ i, ((|z i| + z i) / (p.2 i + p.1 i) - 1) +
        1 / feR A b eps p.1 * ((Aᵀ *ᵥ (A *ᵥ p.1 - b)) ⬝ᵥ (z - p.1))) := by linarith
  rw [key, div_eq_mul_one_div (2 * (m : ℝ) + 1), mul_comm _ (1 / tau)]
  exact mul_le_mul_of_nonneg_left (by linarith) (one_div_pos.2 htau).le

end L1c
