import Verif.Proofs.BregmanFin
import Verif.Proofs.BregmanMain

/-! # How the TV iteration transforms when the image is scaled and shifted -/

namespace L1c
open Scalar

variable {n m : ℕ} {mu lam c t : ℝ}

theorem nbSum_affine (u : Img) (i j : ℕ) : nbSum n m (fun i j => c * u i j + t) i j = c * nbSum n m u i j + t * nbCnt n m i j := by
  unfold nbCnt nbSum
  split_ifs <;> ring

theorem gsPixR_affine (hmu : 0 < mu) (hlam : 0 ≤ lam) (hc : c ≠ 0) {rhs : Img} (u : Img) (i j : ℕ) :
    gsPixR n m (mu / |c|) (lam / |c|) (fun i j => c / |c| * rhs i j + mu / |c| * t) (fun i j => c * u i j + t) i j = c * gsPixR n m mu lam rhs u i j + t := by
  have ha : (0 : ℝ) < |c| := abs_pos.2 hc
  have hd := diag_pos (n := n) (m := m) hmu hlam i j
  unfold gsPixR
  rw [nbSum_affine]
  rw [show mu / |c| + nbCnt n m i j * (lam / |c|) = (mu + nbCnt n m i j * lam) / |c| by field_simp]
  rw [show c / |c| * rhs i j + mu / |c| * t + lam / |c| * (c * nbSum n m u i j + t * nbCnt n m i j)
    = (c * (rhs i j + lam * nbSum n m u i j) + t * (mu + nbCnt n m i j * lam)) / |c| by ring, div_div_div_cancel_right₀ ha.ne', add_div,
    mul_div_cancel_right₀ _ hd.ne', mul_div_assoc]

theorem gsStateR_affine (hmu : 0 < mu) (hlam : 0 ≤ lam) (hc : c ≠ 0) (rhs u : Img) (k : ℕ) :
    gsStateR n m (mu / |c|) (lam / |c|) (fun i j => c / |c| * rhs i j + mu / |c| * t) (fun i j => c * u i j + t) k
      = fun i j => c * gsStateR n m mu lam rhs u k i j + t := by
  induction k with
  | zero => rfl
  | succ k ih =>
    funext a b
    unfold gsStateR
    rw [ih]
    split
    · exact gsPixR_affine hmu hlam hc _ _ _
    · rfl

theorem gsIterR_affine (hmu : 0 < mu) (hlam : 0 ≤ lam) (hc : c ≠ 0) (rhs u : Img) (k : ℕ) :
    (gsSweepR n m (mu / |c|) (lam / |c|) (fun i j => c / |c| * rhs i j + mu / |c| * t))^[k] (fun i j => c * u i j + t)
      = fun i j => c * (gsSweepR n m mu lam rhs)^[k] u i j + t := by
  induction k generalizing u with
  | zero => rfl
  | succ k ih =>
    rw [Function.iterate_succ_apply, Function.iterate_succ_apply]
    rw [show gsSweepR n m (mu / |c|) (lam / |c|) (fun i j => c / |c| * rhs i j + mu / |c| * t) (fun i j => c * u i j + t)
      = fun i j => c * gsSweepR n m mu lam rhs u i j + t from gsStateR_affine hmu hlam hc rhs u _]
    exact ih _

theorem shrinkR_scale {g : ℝ} (hg : 0 ≤ g) (x : ℝ) : shrinkR (|c| * g) (c * x) = c * shrinkR g x := by
  unfold shrinkR
  rw [abs_mul, ← mul_sub]
  have hm : max (|c| * (|x| - g)) 0 = |c| * max (|x| - g) 0 := by
    rw [mul_max_of_nonneg _ _ (abs_nonneg c), mul_zero]
  rw [hm]
  rcases lt_trichotomy c 0 with h | h | h
  · rw [abs_of_neg h]
    rcases lt_trichotomy x 0 with hx | hx | hx
    · rw [if_pos (mul_pos_of_neg_of_neg h hx).le, if_neg (not_le.2 hx)]; ring
    · subst hx
      rw [abs_zero, zero_sub, max_eq_right (by linarith)]; ring
    · rw [if_neg (not_le.2 (mul_neg_of_neg_of_pos h hx)), if_pos hx.le]; ring
  · subst h; simp
  · rw [abs_of_pos h]
    by_cases hx : 0 ≤ x
    · rw [if_pos (mul_nonneg h.le hx), if_pos hx]; ring
    · rw [if_neg (not_le.2 (mul_neg_of_pos_of_neg h (not_le.1 hx))), if_neg hx]; ring

/-- the run on the image `c*f + t`, with the weights divided by `|c|` -/
theorem bregIterR_affine (hmu : 0 < mu) (hlam : 0 < lam) (hc : c ≠ 0) (jac : ℕ) (f : Img) (k : ℕ) :
    bregIterR n m (mu / |c|) (lam / |c|) jac (fun i j => c * f i j + t) k
      = ⟨fun i j => c * (bregIterR n m mu lam jac f k).u i j + t, fun i j => c * (bregIterR n m mu lam jac f k).dx i j,
        fun i j => c * (bregIterR n m mu lam jac f k).dy i j, fun i j => c * (bregIterR n m mu lam jac f k).bx i j,
        fun i j => c * (bregIterR n m mu lam jac f k).bY i j⟩ := by
  have ha : (0 : ℝ) < |c| := abs_pos.2 hc
  have hg : 1 / (lam / |c|) = |c| * (1 / lam) := by field_simp
  have hg0 : 0 ≤ 1 / lam := by positivity
  induction k with
  | zero => unfold bregIterR; simp
  | succ k ih =>
    unfold bregIterR
    rw [ih]
    set s := bregIterR n m mu lam jac f k
    have hr : rhsR n m (mu / |c|) (lam / |c|) (fun i j => c * f i j + t) ⟨fun i j => c * s.u i j + t, fun i j => c * s.dx i j, fun i j => c * s.dy i j,
        fun i j => c * s.bx i j, fun i j => c * s.bY i j⟩ = fun i j => c / |c| * rhsR n m mu lam f s i j + mu / |c| * t := by
      funext i j
      unfold rhsR gradXT gradYT adjRow
      split_ifs <;> ring
    have hu : (gsSweepR n m (mu / |c|) (lam / |c|) (rhsR n m (mu / |c|) (lam / |c|) (fun i j => c * f i j + t) ⟨fun i j => c * s.u i j + t, fun i j => c * s.dx i j, fun i j => c * s.dy i j,
        fun i j => c * s.bx i j, fun i j => c * s.bY i j⟩))^[jac] (fun i j => c * s.u i j + t) = fun i j => c * (gsSweepR n m mu lam (rhsR n m mu lam f s))^[jac] s.u i j + t := by
      rw [hr]
      exact gsIterR_affine hmu hlam.le hc _ _ _
    unfold bregNextR
    dsimp only
    rw [hu]
    set u := (gsSweepR n m mu lam (rhsR n m mu lam f s))^[jac] s.u
    have hx : ∀ i j, gradX 1 m (fun i j => c * u i j + t) i j + c * s.bx i j = c * (gradX 1 m u i j + s.bx i j) := fun i j => by
      unfold gradX
      split_ifs <;> ring
    have hy : ∀ i j, gradY 1 n (fun i j => c * u i j + t) i j + c * s.bY i j = c * (gradY 1 n u i j + s.bY i j) := fun i j => by
      unfold gradY
      split_ifs <;> ring
    simp only [hx, hy, hg, shrinkR_scale hg0, mul_sub]

theorem sumF_fin {g : ℕ → Dbl} {a : ℕ → ℝ} {N : ℕ} (h : ∀ k < N, g k = Dbl.fin (a k)) : sumF g N = Dbl.fin (∑ k ∈ Finset.range N, a k) := by
  induction N with
  | zero => unfold sumF; rw [Dbl.lit_eq, Rat.cast_zero, Finset.sum_range_zero]
  | succ N ih => unfold sumF; rw [ih fun k hk => h k (by omega), h N (by omega), Dbl.fin_add, Finset.sum_range_succ]

theorem fin_div_scale {a b d : ℝ} (hd : 0 < d) : (Dbl.fin (d * a) / Dbl.fin (d * b) : Dbl) = Dbl.fin a / Dbl.fin b := by
  by_cases hb : b = 0
  · subst hb
    rw [mul_zero, Dbl.fin_div', Dbl.fin_div', if_pos rfl, if_pos rfl]
    unfold Dbl.infMul
    rcases lt_trichotomy a 0 with h | h | h
    · have := mul_neg_of_pos_of_neg hd h
      simp [h.ne, h.not_gt, this.ne, this.not_gt]
    · subst h; simp
    · have := mul_pos hd h
      simp [h, h.ne', this, hd.ne']
  · rw [Dbl.fin_div hb, Dbl.fin_div (mul_ne_zero hd.ne' hb), mul_div_mul_left _ _ hd.ne']

theorem relErrF_fin {A B : FImg Dbl} {a b : Img} (hm : 0 < m) (hA : IsR n m A a) (hB : IsR n m B b) :
    relErrF n m A B = fsqrt (Dbl.fin (∑ k ∈ Finset.range (n * m), (a (k / m) (k % m) - b (k / m) (k % m)) * (a (k / m) (k % m) - b (k / m) (k % m)))
      / Dbl.fin (∑ k ∈ Finset.range (n * m), b (k / m) (k % m) * b (k / m) (k % m))) := by
  have hk : ∀ k < n * m, k / m < n ∧ k % m < m := fun k hk => ⟨(Nat.div_lt_iff_lt_mul hm).2 hk, Nat.mod_lt _ hm⟩
  unfold relErrF
  rw [sumF_fin (a := fun k => (a (k / m) (k % m) - b (k / m) (k % m)) * (a (k / m) (k % m) - b (k / m) (k % m)))
      (fun k h => by rw [hA _ (hk k h).1 _ (hk k h).2, hB _ (hk k h).1 _ (hk k h).2, Dbl.fin_sub, Dbl.fin_mul]),
    sumF_fin (a := fun k => b (k / m) (k % m) * b (k / m) (k % m)) (fun k h => by rw [hB _ (hk k h).1 _ (hk k h).2, Dbl.fin_mul])]

theorem relErrF_scale (hc : c ≠ 0) {A B A' B' : FImg Dbl} {a b : Img} (hm : 0 < m) (hA : IsR n m A a) (hB : IsR n m B b) (hA' : IsR n m A' fun i j => c * a i j)
    (hB' : IsR n m B' fun i j => c * b i j) : relErrF n m A' B' = relErrF n m A B := by
  have hd : 0 < c ^ 2 := by positivity
  rw [relErrF_fin hm hA hB, relErrF_fin hm hA' hB']
  conv_rhs => rw [← fin_div_scale hd, Finset.mul_sum, Finset.mul_sum]
  congr 4
  · funext k; ring
  · funext k; ring

/-- two runs of the loop that stop by the same tests stop at the same place -/
theorem stop_same {K K' N : ℕ} {i i' : Int} {p p' : ℕ → Bool} (h : ∀ l, p l = p' l)
    (hc : (K = N ∧ i = K + 1 ∧ ∀ l < K, p l = false) ∨ (0 < K ∧ i = K ∧ p (K - 1) = true ∧ ∀ l < K - 1, p l = false)) (hK : K ≤ N)
    (hc' : (K' = N ∧ i' = K' + 1 ∧ ∀ l < K', p' l = false) ∨ (0 < K' ∧ i' = K' ∧ p' (K' - 1) = true ∧ ∀ l < K' - 1, p' l = false)) (hK' : K' ≤ N) :
    K = K' ∧ i = i' := by
  obtain rfl : p = p' := funext h
  rcases hc with ⟨a1, a2, a3⟩ | ⟨a0, a2, a3, a4⟩ <;> rcases hc' with ⟨b1, b2, b3⟩ | ⟨b0, b2, b3, b4⟩
  · omega
  · have := a3 (K' - 1) (by omega)
    rw [b3] at this
    cases this
  · have := b3 (K - 1) (by omega)
    rw [a3] at this
    cases this
  · have : K = K' := by
      rcases Nat.lt_trichotomy K K' with h | h | h
      · have := b4 (K - 1) (by omega)
        rw [a3] at this
        cases this
      · exact h
      · have := a4 (K' - 1) (by omega)
        rw [b3] at this
        cases this
    omega

/-! ### a concrete image -/

/-- the 2×2 image with one bright pixel -/
noncomputable def spotImg : Img := fun i j => if i = 0 ∧ j = 0 then 1 else 0

/-- the values of a state of the iteration on a 2×2 image that matter -/
structure Vals2 (s : BStateR) (u00 u01 u10 u11 x0 x1 y0 y1 : ℝ) : Prop where
  u00 : s.u 0 0 = u00
  u01 : s.u 0 1 = u01
  u10 : s.u 1 0 = u10
  u11 : s.u 1 1 = u11
  bx0 : s.bx 0 0 = x0
  bx1 : s.bx 1 0 = x1
  by0 : s.bY 0 0 = y0
  by1 : s.bY 0 1 = y1
  dx0 : s.dx 0 0 = 0
  dx1 : s.dx 1 0 = 0
  dy0 : s.dy 0 0 = 0
  dy1 : s.dy 0 1 = 0

theorem shrinkR_small {g x : ℝ} (h : |x| ≤ g) : shrinkR g x = 0 := by
  unfold shrinkR
  rw [max_eq_right (by linarith), mul_zero]

theorem vals2_next {s : BStateR} {u00 u01 u10 u11 x0 x1 y0 y1 v00 v01 v10 v11 : ℝ} (h : Vals2 s u00 u01 u10 u11 x0 x1 y0 y1)
    (h00 : v00 = (1 + 2 * x0 + 2 * y0 + 2 * (u01 + u10)) / 5) (h01 : v01 = (-2 * x0 + 2 * y1 + 2 * (v00 + u11)) / 5)
    (h10 : v10 = (2 * x1 - 2 * y0 + 2 * (v00 + u11)) / 5) (h11 : v11 = (-2 * x1 - 2 * y1 + 2 * (v01 + v10)) / 5)
    (a0 : |v01 - v00 + x0| ≤ 1 / 2) (a1 : |v11 - v10 + x1| ≤ 1 / 2) (b0 : |v10 - v00 + y0| ≤ 1 / 2) (b1 : |v11 - v01 + y1| ≤ 1 / 2) :
    Vals2 (bregNextR 2 2 1 2 1 spotImg s) v00 v01 v10 v11 (v01 - v00 + x0) (v11 - v10 + x1) (v10 - v00 + y0) (v11 - v01 + y1) := by
  obtain ⟨e00, e01, e10, e11, ex0, ex1, ey0, ey1, edx0, edx1, edy0, edy1⟩ := h
  set r := rhsR 2 2 1 2 spotImg s with hr
  have r00 : r 0 0 = 1 + 2 * x0 + 2 * y0 := by
    rw [hr]; unfold rhsR gradXT gradYT adjRow spotImg; simp [ex0, ey0, edx0, edy0]; ring
  have r01 : r 0 1 = -2 * x0 + 2 * y1 := by
    rw [hr]; unfold rhsR gradXT gradYT adjRow spotImg; simp [ex0, ey1, edx0, edy1]
  have r10 : r 1 0 = 2 * x1 - 2 * y0 := by
    rw [hr]; unfold rhsR gradXT gradYT adjRow spotImg; simp [ex1, ey0, edx1, edy0]; ring
  have r11 : r 1 1 = -2 * x1 - 2 * y1 := by
    rw [hr]; unfold rhsR gradXT gradYT adjRow spotImg; simp [ex1, ey1, edx1, edy1]; ring
  have q1 : ∀ a b, gsStateR 2 2 1 2 r s.u 1 a b = if a = 0 ∧ b = 0 then v00 else s.u a b := fun a b => by
    simp only [gsStateR, gsPixR, nbCnt, nbSum]
    norm_num [r00, e01, e10, h00]
  have q2 : ∀ a b, gsStateR 2 2 1 2 r s.u 2 a b = if a = 0 ∧ b = 1 then v01 else gsStateR 2 2 1 2 r s.u 1 a b := fun a b => by
    rw [gsStateR]
    simp only [gsPixR, nbCnt, nbSum, q1]
    norm_num [r01, e11, h01]
  have q3 : ∀ a b, gsStateR 2 2 1 2 r s.u 3 a b = if a = 1 ∧ b = 0 then v10 else gsStateR 2 2 1 2 r s.u 2 a b := fun a b => by
    rw [gsStateR]
    simp only [gsPixR, nbCnt, nbSum, q2, q1]
    norm_num [r10, e11, h10]
    congr 1
    ring
  have q4 : ∀ a b, gsStateR 2 2 1 2 r s.u 4 a b = if a = 1 ∧ b = 1 then v11 else gsStateR 2 2 1 2 r s.u 3 a b := fun a b => by
    rw [gsStateR]
    simp only [gsPixR, nbCnt, nbSum, q3, q2, q1]
    norm_num [r11, h11]
    congr 1
    ring
  have hu : ∀ a b, (bregNextR 2 2 1 2 1 spotImg s).u a b = gsStateR 2 2 1 2 r s.u 4 a b := fun a b => rfl
  have t00 : (bregNextR 2 2 1 2 1 spotImg s).u 0 0 = v00 := by rw [hu]; simp [q4, q3, q2, q1]
  have t01 : (bregNextR 2 2 1 2 1 spotImg s).u 0 1 = v01 := by rw [hu]; simp [q4, q3, q2, q1]
  have t10 : (bregNextR 2 2 1 2 1 spotImg s).u 1 0 = v10 := by rw [hu]; simp [q4, q3, q2, q1]
  have t11 : (bregNextR 2 2 1 2 1 spotImg s).u 1 1 = v11 := by rw [hu]; simp [q4, q3, q2, q1]
  have gx0 : gradX 1 2 (bregNextR 2 2 1 2 1 spotImg s).u 0 0 + s.bx 0 0 = v01 - v00 + x0 := by unfold gradX; simp [t00, t01, ex0]
  have gx1 : gradX 1 2 (bregNextR 2 2 1 2 1 spotImg s).u 1 0 + s.bx 1 0 = v11 - v10 + x1 := by unfold gradX; simp [t10, t11, ex1]
  have gy0 : gradY 1 2 (bregNextR 2 2 1 2 1 spotImg s).u 0 0 + s.bY 0 0 = v10 - v00 + y0 := by unfold gradY; simp [t00, t10, ey0]
  have gy1 : gradY 1 2 (bregNextR 2 2 1 2 1 spotImg s).u 0 1 + s.bY 0 1 = v11 - v01 + y1 := by unfold gradY; simp [t01, t11, ey1]
  refine ⟨t00, t01, t10, t11, ?_, ?_, ?_, ?_, ?_, ?_, ?_, ?_⟩
  · show _ - shrinkR (1 / 2) _ = _
    exact (congrArg₂ (fun a b => a - shrinkR (1 / 2) b) gx0 gx0).trans (by rw [shrinkR_small a0, sub_zero])
  · exact (congrArg₂ (fun a b => a - shrinkR (1 / 2) b) gx1 gx1).trans (by rw [shrinkR_small a1, sub_zero])
  · exact (congrArg₂ (fun a b => a - shrinkR (1 / 2) b) gy0 gy0).trans (by rw [shrinkR_small b0, sub_zero])
  · exact (congrArg₂ (fun a b => a - shrinkR (1 / 2) b) gy1 gy1).trans (by rw [shrinkR_small b1, sub_zero])
  · exact (congrArg (shrinkR (1 / 2)) gx0).trans (shrinkR_small a0)
  · exact (congrArg (shrinkR (1 / 2)) gx1).trans (shrinkR_small a1)
  · exact (congrArg (shrinkR (1 / 2)) gy0).trans (shrinkR_small b0)
  · exact (congrArg (shrinkR (1 / 2)) gy1).trans (shrinkR_small b1)

theorem spot_one : Vals2 (bregIterR 2 2 1 2 1 spotImg 1) (1 / 5) (2 / 25) (2 / 25) (8 / 125) (-3 / 25) (-2 / 125) (-3 / 25) (-2 / 125) := by
  have h0 : Vals2 (bregIterR 2 2 1 2 1 spotImg 0) 1 0 0 0 0 0 0 0 := by
    constructor <;> simp [bregIterR, spotImg]
  have := vals2_next h0 (v00 := 1 / 5) (v01 := 2 / 25) (v10 := 2 / 25) (v11 := 8 / 125) (by norm_num) (by norm_num) (by norm_num) (by norm_num)
    (by norm_num [abs_le]) (by norm_num [abs_le]) (by norm_num [abs_le]) (by norm_num [abs_le])
  norm_num at this ⊢
  exact this

theorem spot_two : Vals2 (bregIterR 2 2 1 2 1 spotImg 2) (21 / 125) (84 / 625) (84 / 625) (376 / 3125) (-96 / 625) (-94 / 3125) (-96 / 625) (-94 / 3125) := by
  have := vals2_next spot_one (v00 := 21 / 125) (v01 := 84 / 625) (v10 := 84 / 625) (v11 := 376 / 3125) (by norm_num) (by norm_num) (by norm_num) (by norm_num)
    (by norm_num [abs_le]) (by norm_num [abs_le]) (by norm_num [abs_le]) (by norm_num [abs_le])
  norm_num at this ⊢
  exact this

theorem spot_three : (bregIterR 2 2 1 2 1 spotImg 3).u 0 0 = 577 / 3125 :=
  (vals2_next spot_two (v00 := 577 / 3125) (v01 := 2678 / 15625) (v10 := 2678 / 15625) (v11 := 12592 / 78125) (by norm_num) (by norm_num) (by norm_num) (by norm_num)
    (by norm_num [abs_le]) (by norm_num [abs_le]) (by norm_num [abs_le]) (by norm_num [abs_le])).u00

end L1c
