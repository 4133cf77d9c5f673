import Verif.Proofs.BregmanReal
import Mathlib.LinearAlgebra.FiniteDimensional.Basic

/-! Helper lemmas: existence for the linear equation, shrinkage, optimality, and the passage from finite doubles to
reals in split Bregman TV denoising. -/

namespace L1c
open Finset

variable {n m : ℕ} {mu lam : ℝ} {rhs u us : Img}

/-! ### existence -/

noncomputable def extI (n m : ℕ) (v : Fin n × Fin m → ℝ) : Img := fun i j =>
  if h : i < n ∧ j < m then v (⟨i, h.1⟩, ⟨j, h.2⟩) else 0

theorem nbSum_add (n m : ℕ) (u v : Img) (i j : ℕ) :
    nbSum n m (fun a b => u a b + v a b) i j = nbSum n m u i j + nbSum n m v i j := by
  unfold nbSum; split_ifs <;> ring

theorem nbSum_smul (n m : ℕ) (c : ℝ) (v : Img) (i j : ℕ) :
    nbSum n m (fun a b => c * v a b) i j = c * nbSum n m v i j := by
  unfold nbSum; split_ifs <;> ring

noncomputable def pixLin (n m : ℕ) (mu lam : ℝ) : (Fin n × Fin m → ℝ) →ₗ[ℝ] (Fin n × Fin m → ℝ) where
  toFun v p := pixOp n m mu lam (extI n m v) p.1 p.2
  map_add' v w := by
    funext p
    have e : extI n m (v + w) = fun a b => extI n m v a b + extI n m w a b := by
      funext a b; unfold extI; split <;> simp
    show pixOp n m mu lam (extI n m (v + w)) p.1 p.2 = pixOp n m mu lam (extI n m v) p.1 p.2 + pixOp n m mu lam (extI n m w) p.1 p.2
    rw [e]; unfold pixOp; rw [nbSum_add]; ring
  map_smul' c v := by
    funext p
    have e : extI n m (c • v) = fun a b => c * extI n m v a b := by
      funext a b; unfold extI; split <;> simp
    show pixOp n m mu lam (extI n m (c • v)) p.1 p.2 = c * pixOp n m mu lam (extI n m v) p.1 p.2
    rw [e]; unfold pixOp; rw [nbSum_smul]; ring

theorem solves_exists (hmu : 0 < mu) (hlam : 0 ≤ lam) (rhs : Img) : ∃ u, SolvesTV n m mu lam rhs u := by
  have hinj : Function.Injective (pixLin n m mu lam) := by
    rw [← LinearMap.ker_eq_bot, LinearMap.ker_eq_bot']
    intro v hv
    have h1 : SolvesTV n m mu lam (fun _ _ => 0) (extI n m v) := by
      rw [solves_iff_pix]
      intro i hi j hj
      exact congrFun hv (⟨i, hi⟩, ⟨j, hj⟩)
    have h2 : SolvesTV n m mu lam (fun _ _ => 0) (fun _ _ => 0) := by
      rw [solves_iff_pix]
      intro i hi j hj
      have : nbSum n m (fun _ _ => 0) i j = 0 := by unfold nbSum; simp
      show (mu + nbCnt n m i j * lam) * 0 - lam * nbSum n m (fun _ _ => 0) i j = 0
      rw [this]; ring
    have h3 := solves_unique hmu hlam h1 h2
    funext p
    have := h3 p.1 p.1.2 p.2 p.2.2
    unfold extI at this
    rw [dif_pos ⟨p.1.2, p.2.2⟩] at this
    exact this
  obtain ⟨v, hv⟩ := (LinearMap.injective_iff_surjective.1 hinj) (fun p => rhs p.1 p.2)
  refine ⟨extI n m v, ?_⟩
  rw [solves_iff_pix]
  intro i hi j hj
  exact congrFun hv (⟨i, hi⟩, ⟨j, hj⟩)

/-! ### shrinkage -/

/-- real shrinkage -/
noncomputable def shrinkR (g x : ℝ) : ℝ := (if 0 ≤ x then 1 else -1) * max (|x| - g) 0

theorem shrinkVal_fin (g x : ℝ) : shrinkVal (Dbl.fin g) (Dbl.fin x) = Dbl.fin (shrinkR g x) := by
  unfold shrinkVal dsign shrinkR
  have h0 : (Scalar.lit 0 : Dbl) = Dbl.fin 0 := by rw [Dbl.lit_eq, Rat.cast_zero]
  rw [h0, Dbl.fabs_fin, Dbl.fin_sub, Dbl.cmax_fin]
  by_cases h : 0 ≤ x
  · rw [if_pos ((Dbl.fle_fin 0 x).2 h), if_pos h, Dbl.lit_eq, Dbl.fin_mul, Rat.cast_one]
  · rw [if_neg (fun c => h ((Dbl.fle_fin 0 x).1 c)), if_neg h, Dbl.lit_eq, Dbl.fin_mul]; norm_num

theorem shrinkR_spec {g : ℝ} (hg : 0 ≤ g) (x : ℝ) :
    |x - shrinkR g x| ≤ g ∧ (x - shrinkR g x) * shrinkR g x = g * |shrinkR g x| := by
  unfold shrinkR
  by_cases h : 0 ≤ x
  · rw [if_pos h, abs_of_nonneg h, one_mul]
    by_cases hx : x ≤ g
    · rw [max_eq_right (by linarith)]
      refine ⟨by rw [sub_zero, abs_of_nonneg h]; exact hx, by simp⟩
    · rw [max_eq_left (by linarith)]
      refine ⟨by rw [show x - (x - g) = g by ring, abs_of_nonneg hg], ?_⟩
      rw [abs_of_nonneg (show 0 ≤ x - g by linarith)]; ring
  · have ha : |x| = -x := abs_of_neg (by linarith)
    rw [if_neg h, ha]
    by_cases hx : -x ≤ g
    · rw [max_eq_right (by linarith)]
      refine ⟨by rw [mul_zero, sub_zero, ha]; exact hx, by simp⟩
    · rw [max_eq_left (by linarith)]
      refine ⟨by rw [show x - -1 * (-x - g) = -g by ring, abs_neg, abs_of_nonneg hg], ?_⟩
      rw [abs_of_neg (show -1 * (-x - g) < 0 by linarith)]; ring

/-- subgradient form of the scalar problem -/
theorem shrinkObj_strong {g x d : ℝ} (h1 : |x - d| ≤ g) (h2 : (x - d) * d = g * |d|) (e : ℝ) :
    shrinkObj g x d + (e - d) ^ 2 / 2 ≤ shrinkObj g x e := by
  unfold shrinkObj
  have : (x - d) * e ≤ g * |e| := by
    calc (x - d) * e ≤ |(x - d) * e| := le_abs_self _
      _ = |x - d| * |e| := abs_mul _ _
      _ ≤ g * |e| := mul_le_mul_of_nonneg_right h1 (abs_nonneg _)
  nlinarith

/-! ### optimality at a fixed state -/

theorem norm1_ge {n m : ℕ} {p w : Img} {c : ℝ} (hp : ∀ i < n, ∀ j < m, |c * p i j| ≤ 1) :
    c * inner2 n m p w ≤ norm1 n m w := by
  unfold inner2 norm1
  rw [mul_sum]
  refine sum_le_sum fun i hi => ?_
  rw [mul_sum]
  refine sum_le_sum fun j hj => ?_
  calc c * (p i j * w i j) = (c * p i j) * w i j := by ring
    _ ≤ |(c * p i j) * w i j| := le_abs_self _
    _ = |c * p i j| * |w i j| := abs_mul _ _
    _ ≤ 1 * |w i j| := mul_le_mul_of_nonneg_right (hp i (mem_range.1 hi) j (mem_range.1 hj)) (abs_nonneg _)
    _ = |w i j| := one_mul _

theorem norm1_eq {n m : ℕ} {p w : Img} {c : ℝ} (hp : ∀ i < n, ∀ j < m, c * p i j * w i j = |w i j|) :
    c * inner2 n m p w = norm1 n m w := by
  unfold inner2 norm1
  rw [mul_sum]
  refine sum_congr rfl fun i hi => ?_
  rw [mul_sum]
  refine sum_congr rfl fun j hj => ?_
  rw [← hp i (mem_range.1 hi) j (mem_range.1 hj)]; ring

theorem gradX_sub (m : ℕ) (u v : Img) : gradX 1 m (fun i j => u i j - v i j) = fun i j => gradX 1 m u i j - gradX 1 m v i j := by
  funext i j; unfold gradX; split <;> ring
theorem gradY_sub (n : ℕ) (u v : Img) : gradY 1 n (fun i j => u i j - v i j) = fun i j => gradY 1 n u i j - gradY 1 n v i j := by
  funext i j; unfold gradY; split <;> ring

/-- optimality conditions imply a strong minimum -/
theorem tv_strong {f bx bY : Img} {p : ℝ}
    (hx : ∀ i < n, ∀ j < m, |p * bx i j| ≤ 1) (hy : ∀ i < n, ∀ j < m, |p * bY i j| ≤ 1)
    (ex : ∀ i < n, ∀ j < m, p * bx i j * gradX 1 m u i j = |gradX 1 m u i j|)
    (ey : ∀ i < n, ∀ j < m, p * bY i j * gradY 1 n u i j = |gradY 1 n u i j|)
    (hst : ∀ v, mu * inner2 n m (fun i j => u i j - f i j) v + p * inner2 n m bx (gradX 1 m v) + p * inner2 n m bY (gradY 1 n v) = 0)
    (v : Img) : tvObj n m mu f u + mu / 2 * normSq2 n m (fun i j => v i j - u i j) ≤ tvObj n m mu f v := by
  have h1 := norm1_ge (w := gradX 1 m v) hx
  have h2 := norm1_ge (w := gradY 1 n v) hy
  have h3 := norm1_eq ex
  have h4 := norm1_eq ey
  have h5 := hst (fun i j => v i j - u i j)
  have hr : ∀ a b c : Img, inner2 n m a (fun i j => b i j - c i j) = inner2 n m a b - inner2 n m a c := fun a b c => by
    rw [inner2_swap, inner2_sub, inner2_swap n m b, inner2_swap n m c]
  rw [gradX_sub, gradY_sub, hr bx, hr bY] at h5
  have e : normSq2 n m (fun i j => v i j - f i j) = normSq2 n m (fun i j => u i j - f i j)
      + 2 * inner2 n m (fun i j => u i j - f i j) (fun i j => v i j - u i j) + normSq2 n m (fun i j => v i j - u i j) := by
    unfold normSq2 inner2
    simp only [mul_sum, ← sum_add_distrib]
    exact sum_congr rfl fun i _ => sum_congr rfl fun j _ => by ring
  unfold tvObj
  rw [e, ← h3, ← h4]
  nlinarith

theorem iterate_near (hmu : 0 < mu) (hlam : 0 < lam) (hs : SolvesTV n m mu lam rhs us) {E : ℝ}
    (h : ImgNear n m E u us) (k : ℕ) :
    ImgNear n m ((4 * lam / (mu + 4 * lam)) ^ k * E) ((gsSweepR n m mu lam rhs)^[k] u) us := by
  induction k with
  | zero => simpa using h
  | succ k ih =>
    rw [Function.iterate_succ_apply', pow_succ, mul_comm (_ ^ k), mul_assoc]
    exact gsSweepR_near hmu hlam ((solves_iff_pix ..).1 hs) ih

/-- a finite image has a bound for its distance to another -/
theorem near_exists (u v : Img) : ∃ E, ImgNear n m E u v := by
  refine ⟨∑ i ∈ range n, ∑ j ∈ range m, |u i j - v i j|, fun i hi j hj => ?_⟩
  have h1 : |u i j - v i j| ≤ ∑ j ∈ range m, |u i j - v i j| :=
    single_le_sum (f := fun j => |u i j - v i j|) (fun j _ => abs_nonneg _) (mem_range.2 hj)
  exact h1.trans (single_le_sum (f := fun i => ∑ j ∈ range m, |u i j - v i j|)
    (fun i _ => sum_nonneg fun j _ => abs_nonneg _) (mem_range.2 hi))

/-- if some positive number of sweeps gives back the same image, the image is the solution -/
theorem iterate_fixed (hmu : 0 < mu) (hlam : 0 < lam) {k : ℕ} (hk : 1 ≤ k)
    (h : ImgEq n m ((gsSweepR n m mu lam rhs)^[k] u) u) : SolvesTV n m mu lam rhs u := by
  obtain ⟨us, hs⟩ := solves_exists (n := n) (m := m) hmu hlam.le rhs
  -- best possible bound: the maximum of the distances
  have key : ∀ E, ImgNear n m E u us → ImgNear n m ((4 * lam / (mu + 4 * lam)) ^ k * E) u us := fun E hE i hi j hj => by
    rw [← h i hi j hj]; exact iterate_near hmu hlam hs hE k i hi j hj
  have q0 : 0 ≤ 4 * lam / (mu + 4 * lam) := by positivity
  have q1 : 4 * lam / (mu + 4 * lam) < 1 := by rw [div_lt_one (by positivity)]; linarith
  obtain ⟨E, hE⟩ := near_exists (n := n) (m := m) u us
  have hN : ∀ N : ℕ, ImgNear n m (((4 * lam / (mu + 4 * lam)) ^ k) ^ N * E) u us := by
    intro N
    induction N with
    | zero => simpa using hE
    | succ N ih => rw [pow_succ, mul_comm (_ ^ N), mul_assoc]; exact key _ ih
  have heq : ImgEq n m u us := by
    intro i hi j hj
    have hlim : Filter.Tendsto (fun N : ℕ => ((4 * lam / (mu + 4 * lam)) ^ k) ^ N * E) Filter.atTop (nhds (0 * E)) :=
      (tendsto_pow_atTop_nhds_zero_of_lt_one (pow_nonneg q0 k) (pow_lt_one₀ q0 q1 (by omega))).mul_const E
    have := ge_of_tendsto' hlim fun N => hN N i hi j hj
    rw [zero_mul] at this
    have := abs_nonpos_iff.1 this
    linarith
  rw [solves_iff_pix] at hs ⊢
  intro i hi j hj
  rw [← hs i hi j hj]
  unfold pixOp
  rw [nbSum_congr heq hi hj, heq i hi j hj]

end L1c
