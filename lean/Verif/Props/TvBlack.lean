import Verif.Props.TvZero
import Verif.Props.Rounding
import Verif.Props.BregBindings

/-!
# C109: the exact range of weights for which TV denoising leaves a black image black

The sweep multiplies with reciprocals.  The largest is the one of the corners, `1 / (mu + 2 * lambda)` with `lambda = 2 * mu`; if it overflows, the first corner is zero times infinity, and the
sweep carries the NaN to every other pixel.
-/

namespace L1c
open Prog Scalar B64

variable {n m : ℕ} {max_iter jac : Int}

/-- small multiples of the smallest number are exact -/
theorem rnd_small {x : ℝ} (hg : Grid x) (h0 : 0 < x) (h : x < 2 ^ (-1021 : ℤ)) : rnd x = x := by
  obtain ⟨k, rfl⟩ := hg
  have hl : Int.log 2 ((k : ℝ) * 2 ^ (-1074 : ℤ)) < -1021 := (Int.lt_zpow_iff_log_lt (b := 2) (by norm_num) h0).1 (by exact_mod_cast h)
  refine rnd_of_int _ k h0.le ?_
  unfold ulp
  rw [max_eq_right (by omega), mul_div_cancel_right₀ _ (by positivity)]

theorem grid_mul {x : ℝ} (hg : Grid x) (k : ℤ) : Grid (k * x) := by
  obtain ⟨j, rfl⟩ := hg
  exact ⟨k * j, by push_cast; ring⟩

/-- the largest finite number -/
noncomputable def maxB : ℝ := (2 ^ 53 - 1) * 2 ^ (971 : ℤ)

theorem maxB_lt : maxB < 2 ^ (1024 : ℤ) := by
  unfold maxB
  rw [show (1024 : ℤ) = 53 + 971 by norm_num, zpow_add₀ (by norm_num)]
  exact mul_lt_mul_of_pos_right (by norm_num) (by positivity)

theorem rnd_maxB : rnd maxB = maxB := by
  have h0 : 0 < maxB := by
    unfold maxB
    exact mul_pos (by norm_num) (by positivity)
  have hl : Int.log 2 maxB = 1023 := by
    refine le_antisymm ?_ ?_
    · refine Int.lt_add_one_iff.1 ((Int.lt_zpow_iff_log_lt (b := 2) (by norm_num) h0).1 ?_)
      rw [show (1023 : ℤ) + 1 = 1024 by norm_num, Nat.cast_ofNat]
      exact maxB_lt
    · refine (Int.zpow_le_iff_le_log (b := 2) (by norm_num) h0).1 ?_
      unfold maxB
      push_cast
      rw [show (1023 : ℤ) = 52 + 971 by norm_num, zpow_add₀ (by norm_num)]
      exact mul_le_mul_of_nonneg_right (by norm_num) (by positivity)
  refine rnd_of_int _ (2 ^ 53 - 1) h0.le ?_
  unfold ulp
  rw [hl, max_eq_left (by norm_num), show (1023 : ℤ) - 52 = 971 by norm_num]
  unfold maxB
  rw [mul_div_cancel_right₀ _ (by positivity)]
  norm_num

theorem one_val : (lit 1 : B64).1 = .fin 1 := by
  have h := eq_fin lit_one.1
  rwa [lit_one.2] at h

theorem inv_of_ge {mu lam : B64} {c : ℝ} {k : ℚ} (hc : 0 < c) (hM : 1 / c ≤ maxB) (h : GeN c (mu + lit k * lam)) : (gsInv mu lam k).IsFin := by
  unfold gsInv
  rcases h with h | ⟨x, h, hx⟩
  · rw [over_inf one_val h]
    exact (val_fin zero_val).1
  · have hx0 : 0 < x := lt_of_lt_of_le hc hx
    refine (val_fin (x := rnd (1 / x)) ?_).1
    rw [div_val, one_val, h, Dbl.fin_div hx0.ne']
    simp only [Dbl.round]
    have h4 := rnd_mono ((one_div_le_one_div_of_le hc hx).trans hM)
    rw [rnd_maxB] at h4
    rw [if_pos]
    rw [abs_of_nonneg (rnd_nonneg (by positivity))]
    exact lt_of_le_of_lt h4 maxB_lt

theorem GeN.fin_add {c d r : ℝ} {a b : B64} (ha : a.1 = .fin r) (hb : GeN d b) (hc : rnd c = c) (h0 : 0 ≤ c) (h : c ≤ r + d) : GeN c (a + b) := by
  unfold GeN
  rw [add_val, ha]
  rcases hb with hb | ⟨t, hb, ht⟩ <;> rw [hb]
  · exact .inl rfl
  · rw [Dbl.fin_add]
    exact round_ge hc h0 (by linarith)

theorem GeN.lit_mul {c t : ℝ} {k : ℕ} (hk : k < 2 ^ 53) {b : B64} (hb : b.1 = .fin t) (hc : rnd c = c) (h0 : 0 ≤ c) (h : c ≤ k * t) : GeN c (lit (k : ℚ) * b) := by
  unfold GeN
  rw [mul_val, eq_fin (lit_nat hk).1, (lit_nat hk).2, hb, Dbl.fin_mul]
  exact round_ge hc h0 h

theorem pow_1024 : (2 : ℝ) ^ (-1021 : ℤ) = 8 * 2 ^ (-1024 : ℤ) := by
  rw [show (-1021 : ℤ) = 3 + -1024 by norm_num, zpow_add₀ (by norm_num)]
  norm_num

/-- in the range of the theorem all factors are finite -/
theorem inv_fin_exact {mu : B64} (m1 : mu.IsFin) (h : 2 ^ (-1024 : ℤ) < 5 * mu.toReal) (h1 : mu.toReal < 2 ^ (1023 : ℤ)) :
    (lit 2 * mu).IsFin ∧ ∀ k : ℕ, 2 ≤ k → k < 2 ^ 53 → (gsInv mu (lit 2 * mu) (k : ℚ)).IsFin := by
  have hp : (0 : ℝ) < 2 ^ (-1024 : ℤ) := by positivity
  have hm0 : 0 < mu.toReal := by linarith
  have e2 : (lit 2 : B64).1 = .fin 2 := by
    have := lit_nat (n := 2) (by norm_num)
    have h := eq_fin this.1
    rw [this.2] at h
    exact_mod_cast h
  have hr2 : rnd (2 * mu.toReal) = 2 * mu.toReal := by
    rcases lt_or_ge mu.toReal (2 ^ (-1022 : ℤ)) with hs | hs
    · refine rnd_small (by exact_mod_cast grid_mul (grid m1) 2) (by positivity) ?_
      rw [show (-1021 : ℤ) = -1022 + 1 by norm_num, zpow_add_one₀ (by norm_num)]
      linarith
    · rw [rnd_two_mul hs, rnd_toReal m1]
  have hl : (lit 2 * mu).1 = .fin (2 * mu.toReal) := by
    rw [mul_val, e2, eq_fin m1, Dbl.fin_mul]
    simp only [Dbl.round]
    rw [hr2, if_pos]
    rw [abs_of_nonneg (by positivity), show (1024 : ℤ) = 1023 + 1 by norm_num, zpow_add_one₀ (by norm_num)]
    linarith
  refine ⟨(val_fin hl).1, fun k hk hk1 => ?_⟩
  have hkr : (2 : ℝ) ≤ k := by exact_mod_cast hk
  have h4k : 4 * mu.toReal ≤ k * (2 * mu.toReal) := by nlinarith
  rcases lt_or_ge mu.toReal (2 ^ (-1024 : ℤ)) with hs | hs
  · have e5 : rnd (5 * mu.toReal) = 5 * mu.toReal := rnd_small (by exact_mod_cast grid_mul (grid m1) 5) (by positivity) (by rw [pow_1024]; linarith)
    have e4 : rnd (4 * mu.toReal) = 4 * mu.toReal := rnd_small (by exact_mod_cast grid_mul (grid m1) 4) (by positivity) (by rw [pow_1024]; linarith)
    refine inv_of_ge (c := 5 * mu.toReal) (by positivity) ?_ (GeN.fin_add (eq_fin m1) (GeN.lit_mul hk1 hl e4 (by positivity) h4k) e5 (by positivity) (by linarith))
    obtain ⟨j, hj⟩ := grid_mul (grid m1) 5
    push_cast at hj
    rw [hj] at h ⊢
    have hq : (0 : ℝ) < 2 ^ (-1074 : ℤ) := by positivity
    have hj1 : (2 ^ 50 : ℤ) < j := by
      have : (2 : ℝ) ^ 50 * 2 ^ (-1074 : ℤ) < j * 2 ^ (-1074 : ℤ) := by
        rw [← zpow_natCast, ← zpow_add₀ (by norm_num)]
        exact h
      exact_mod_cast lt_of_mul_lt_mul_right this hq.le
    have hj2 : (2 ^ 50 + 1 : ℝ) ≤ j := by exact_mod_cast hj1
    rw [div_le_iff₀ (by rw [← hj]; positivity)]
    unfold maxB
    have e : (2 : ℝ) ^ (971 : ℤ) * 2 ^ (-1074 : ℤ) = 1 / 2 ^ 103 := by
      rw [← zpow_add₀ (by norm_num)]
      norm_num
    calc (1 : ℝ) ≤ (2 ^ 53 - 1) * (2 ^ 50 + 1) * (1 / 2 ^ 103) := by norm_num
      _ ≤ (2 ^ 53 - 1) * j * (1 / 2 ^ 103) := by
        refine mul_le_mul_of_nonneg_right (mul_le_mul_of_nonneg_left hj2 (by norm_num)) (by norm_num)
      _ = _ := by
        rw [← e]
        ring
  · have e4 : (2 : ℝ) ^ (-1022 : ℤ) = 4 * 2 ^ (-1024 : ℤ) := by
      rw [show (-1022 : ℤ) = 2 + -1024 by norm_num, zpow_add₀ (by norm_num)]
      norm_num
    have hc : rnd ((2 : ℝ) ^ (-1022 : ℤ)) = 2 ^ (-1022 : ℤ) := rnd_pow (by norm_num)
    refine inv_of_ge (c := 2 ^ (-1022 : ℤ)) (by positivity) ?_ (GeN.fin_add (eq_fin m1) (GeN.lit_mul hk1 hl hc (by positivity) (by linarith)) hc (by positivity) (by linarith))
    rw [one_div, ← zpow_neg]
    unfold maxB
    rw [show -(-1022 : ℤ) = 51 + 971 by norm_num, zpow_add₀ (by norm_num)]
    exact mul_le_mul_of_nonneg_right (by norm_num) (by positivity)

/-- below the range the factor of the corners is infinite -/
theorem inv_inf_exact {mu : B64} (m1 : mu.IsFin) (hm0 : 0 < mu.toReal) (h : 5 * mu.toReal ≤ 2 ^ (-1024 : ℤ)) : (lit 2 * mu).IsFin ∧ (gsInv mu (lit 2 * mu) 2).1 = .pinf := by
  have e2 : (lit 2 : B64).1 = .fin 2 := by
    have := lit_nat (n := 2) (by norm_num)
    have h := eq_fin this.1
    rw [this.2] at h
    exact_mod_cast h
  have ex : ∀ k : ℕ, 1 ≤ k → k ≤ 5 → Dbl.round (.fin (k * mu.toReal)) = .fin (k * mu.toReal) := fun k hk hk1 => by
    have hk0 : (0 : ℝ) < k := by exact_mod_cast hk
    have hk5 : (k : ℝ) ≤ 5 := by exact_mod_cast hk1
    have hb : k * mu.toReal ≤ 2 ^ (-1024 : ℤ) := by nlinarith
    simp only [Dbl.round]
    rw [rnd_small (by exact_mod_cast grid_mul (grid m1) k) (by positivity) (lt_of_le_of_lt hb (zpow_lt_zpow_right₀ (by norm_num) (by norm_num))), if_pos]
    rw [abs_of_nonneg (by positivity)]
    exact lt_of_le_of_lt hb (zpow_lt_zpow_right₀ (by norm_num) (by norm_num))
  have x2 := ex 2 (by norm_num) (by norm_num)
  have x4 := ex 4 (by norm_num) (by norm_num)
  have x5 := ex 5 (by norm_num) (by norm_num)
  push_cast at x2 x4 x5
  have hl : (lit 2 * mu).1 = .fin (2 * mu.toReal) := by rw [mul_val, e2, eq_fin m1, Dbl.fin_mul, x2]
  refine ⟨(val_fin hl).1, ?_⟩
  unfold gsInv
  have h4 : (lit 2 * (lit 2 * mu) : B64).1 = .fin (4 * mu.toReal) := by
    rw [mul_val, e2, hl, Dbl.fin_mul, show 2 * (2 * mu.toReal) = 4 * mu.toReal by ring, x4]
  have h5 : (mu + lit 2 * (lit 2 * mu)).1 = .fin (5 * mu.toReal) := by
    rw [add_val, h4, eq_fin m1, Dbl.fin_add, show mu.toReal + 4 * mu.toReal = 5 * mu.toReal by ring, x5]
  have h5p : 0 < 5 * mu.toReal := by positivity
  rw [div_val, one_val, h5, Dbl.fin_div h5p.ne']
  have hb : (2 : ℝ) ^ (1024 : ℤ) ≤ 1 / (5 * mu.toReal) := by
    rw [le_div_iff₀ h5p]
    calc (2 : ℝ) ^ (1024 : ℤ) * (5 * mu.toReal) ≤ 2 ^ (1024 : ℤ) * 2 ^ (-1024 : ℤ) := mul_le_mul_of_nonneg_left h (by positivity)
      _ = 1 := by
        rw [← zpow_add₀ (by norm_num)]
        norm_num
  have h6 := rnd_mono hb
  rw [rnd_pow (by norm_num)] at h6
  simp only [Dbl.round]
  rw [if_neg, if_pos (by positivity)]
  rw [abs_of_nonneg (rnd_nonneg (by positivity))]
  exact not_lt.2 h6

/-- a NaN in the first corner fills the image in one sweep -/
theorem sweep_fill (hm : 2 ≤ m) {mu lam : B64} {rhs u : FImg B64} (h : (gsPix n m mu lam rhs u 0 0).1 = .nan) : ∀ i < n, ∀ j < m, (gsSweep n m mu lam rhs u i j).1 = .nan := by
  have key : ∀ k i j, i < n → j < m → i * m + j = k → (gsPix n m mu lam rhs (gsState n m mu lam rhs u (i * m + j)) i j).1 = .nan := fun k => by
    induction k using Nat.strong_induction_on with
    | _ k ih =>
      intro i j hi hj hk
      rcases Nat.eq_zero_or_pos j with rfl | hj0
      · rcases Nat.eq_zero_or_pos i with rfl | hi0
        · rw [Nat.zero_mul, Nat.zero_add]
          exact h
        · have hlt : (i - 1) * m + 0 < i * m + 0 := by
            have : (i - 1) * m + m = i * m := by rw [← Nat.succ_mul, Nat.succ_eq_add_one, Nat.sub_add_cancel hi0]
            omega
          refine gsPix_nan_nb nanLaws rhs (.inr (.inr (.inr ⟨hi0, ?_⟩)))
          rw [gsState_after rhs u hj hlt]
          exact ih _ (hk ▸ hlt) _ _ (by omega) hj rfl
      · have hlt : i * m + (j - 1) < i * m + j := by omega
        refine gsPix_nan_nb nanLaws rhs (.inr (.inl ⟨hj0, ?_⟩))
        rw [gsState_after rhs u (by omega) hlt]
        exact ih _ (hk ▸ hlt) _ _ hi (by omega) rfl
  intro i hi j hj
  unfold gsSweep
  rw [gsState_after _ _ hj (by nlinarith)]
  exact key _ i j hi hj rfl

theorem next_nan_corner (hn : 2 ≤ n) (hm : 2 ≤ m) {mu lam : B64} (hmu : mu.IsFin) (hlam : lam.IsFin) (hg : flt (lit 1 / lam) (lit 0) = false) (hinv : (gsInv mu lam 2).1 = .pinf) {s : BState B64}
    (hs : ZeroNanAux n m s) (hsu : ∀ i < n, ∀ j < m, ZeroNan (s.u i j)) {jac : ℕ} (hj : 1 ≤ jac) :
    ZeroNanAux n m (bregNext n m mu lam jac (fun _ _ => lit 0) s) ∧ ∀ i < n, ∀ j < m, ((bregNext n m mu lam jac (fun _ _ => lit 0) s).u i j).1 = .nan := by
  have h00 := hs 0 (by omega) 0 (by omega)
  have hr : ZeroNan (rhsF n m mu lam (fun _ _ => lit 0) s 0 0) := by
    have hx : ZeroNan (-s.bx 0 0 + s.dx 0 0) := h00.2.2.1.neg.add h00.1
    have hy : ZeroNan (-s.bY 0 0 + s.dy 0 0) := h00.2.2.2.neg.add h00.2.1
    unfold rhsF dRowT dColT
    rw [if_neg (by omega), if_pos rfl, if_pos rfl, if_pos (by omega)]
    exact (ZeroNan.mul (neg_isFin hlam) hx).1.add (ZeroNan.mul lit_one.1 ((ZeroNan.mul hlam (ZeroNan.zero.sub hy)).1.add (ZeroNan.mul hmu .zero).1)).1
  have hsw : ∀ u : FImg B64, (∀ i < n, ∀ j < m, ZeroNan (u i j)) → ∀ i < n, ∀ j < m, (gsSweep n m mu lam (rhsF n m mu lam (fun _ _ => lit 0) s) u i j).1 = .nan := fun u hu => by
    refine sweep_fill hm ?_
    unfold gsPix
    rw [if_pos rfl, if_pos rfl]
    exact ZeroNan.mul_inf hinv (hr.add (ZeroNan.mul hlam ((hu _ (by omega) _ (by omega)).add (hu _ (by omega) _ (by omega)))).2)
  have hn' : ∀ k, ∀ i < n, ∀ j < m, ((gsSweep n m mu lam (rhsF n m mu lam (fun _ _ => lit 0) s))^[k + 1] s.u i j).1 = .nan := fun k => by
    induction k with
    | zero => exact hsw _ hsu
    | succ k ih =>
      rw [Function.iterate_succ_apply']
      exact hsw _ fun i hi j hj => .inr (ih i hi j hj)
  have hN : ∀ i < n, ∀ j < m, ((gsSweep n m mu lam (rhsF n m mu lam (fun _ _ => lit 0) s))^[jac] s.u i j).1 = .nan := by
    obtain ⟨k, rfl⟩ : ∃ k, jac = k + 1 := ⟨jac - 1, by omega⟩
    exact hn' k
  refine ⟨fun i hi j hj => ?_, hN⟩
  have hgx : ZeroNan (gxF m ((gsSweep n m mu lam (rhsF n m mu lam (fun _ _ => lit 0) s))^[jac] s.u) s.bx i j) := by
    unfold gxF dRow
    refine ZeroNan.add ?_ (ZeroNan.mul lit_one.1 (hs i hi j hj).2.2.1).1
    split_ifs
    · exact .inr (nanLaws.mul (.inr (nanLaws.sub (.inr (hN i hi j hj)))))
    · exact .zero
  have hgy : ZeroNan (gyF n ((gsSweep n m mu lam (rhsF n m mu lam (fun _ _ => lit 0) s))^[jac] s.u) s.bY i j) := by
    unfold gyF
    refine ZeroNan.add ?_ (ZeroNan.mul lit_one.1 (hs i hi j hj).2.2.2).1
    split_ifs
    · exact .inr (nanLaws.mul (.inr (nanLaws.sub (.inr (hN i hi j hj)))))
    · exact .zero
  exact ⟨hgx.shrink hg, hgy.shrink hg, (hgx.shrink hg).neg.add hgx, (hgy.shrink hg).neg.add hgy⟩

/-- The exact range: a black image is returned black exactly if `5 * mu` is above 2^-1024 and `mu` is below 2^1023; for all other positive weights every returned pixel is NaN.  In both cases the status
is 0 and all `max_iter` iterations are carried out. -/
theorem C109_black_iff (hn : 2 ≤ n) (hm : 2 ≤ m) (hfit : FitsInt ((n : Int) * m)) {mu : B64} (hmu : mu.IsFin ∧ 0 < mu.toReal) (tol : B64)
    (hj : jac < INT_MAX) (hj1 : 1 ≤ jac) (hmax : max_iter < INT_MAX) (hmax1 : 1 ≤ max_iter) {s : PState B64} {uk f : Ptr} (hr : TVReadyB s n m uk f fun _ _ => lit 0) :
    ∃ s' : PState B64, CSpec (l1c_breg_anistropic_TV n m uk f mu tol max_iter jac) s (0, max_iter + 1) s' ∧
      ((2 ^ (-1024 : ℤ) < 5 * mu.toReal ∧ mu.toReal < 2 ^ (1023 : ℤ)) → HoldsF s'.mem uk n m fun _ _ => lit 0) ∧
      (¬ (2 ^ (-1024 : ℤ) < 5 * mu.toReal ∧ mu.toReal < 2 ^ (1023 : ℤ)) → ∀ a < n, ∀ b < m, (s'.mem.pix uk m a b).1 = .nan) := by
  obtain ⟨m1, m2⟩ := hmu
  rcases le_or_gt (2 ^ (1023 : ℤ)) mu.toReal with hb | hb
  · obtain ⟨s', h1, h2⟩ := C109_large_weight_false hn hm hfit (.inr ⟨m1, hb⟩) tol hj hj1 hmax hmax1 hr
    exact ⟨s', h1, fun h => absurd h.2 (not_lt.2 hb), fun _ => h2⟩
  rcases lt_or_ge (2 ^ (-1024 : ℤ)) (5 * mu.toReal) with ha | ha
  · obtain ⟨hl, hk⟩ := inv_fin_exact m1 ha hb
    obtain ⟨s', h1, h2⟩ := black_run hn hm hfit m1 m2 hl (fun k hk' => by
      rcases hk' with rfl | rfl | rfl
      · exact_mod_cast hk 2 (by norm_num) (by norm_num)
      · exact_mod_cast hk 3 (by norm_num) (by norm_num)
      · exact_mod_cast hk 4 (by norm_num) (by norm_num)) tol hj hmax hr
    rw [max_eq_left (by omega)] at h1
    exact ⟨s', h1, fun _ => h2, fun h => absurd ⟨ha, hb⟩ h⟩
  obtain ⟨hl, hinv⟩ := inv_inf_exact m1 m2 ha
  obtain ⟨hw, ⟨u0, hu⟩, hf, hsep, hor⟩ := hr
  obtain ⟨K, i, s', h1, -, -, h4, -, h6, h7⟩ := cspec_breg (mu := mu) (tol := tol) hw hn hm hfit hu hf hsep hmax hj hor
  have hg : flt (lit 1 / (lit 2 * mu)) (lit 0) = false := threshold (by
    show Scalar.flt (lit 0 : B64).1 mu.1 = true
    rw [zero_val, eq_fin m1, Dbl.flt_fin]
    exact m2)
  have hj' : 1 ≤ jac.toNat := by omega
  have hz : ∀ k, ZeroNanAux n m (bregIter n m mu (lit 2 * mu) jac.toNat (fun _ _ => lit 0) k) ∧
      ∀ i < n, ∀ j < m, ZeroNan ((bregIter n m mu (lit 2 * mu) jac.toNat (fun _ _ => lit 0) k).u i j) := fun k => by
    induction k with
    | zero => exact ⟨fun _ _ _ _ => ⟨.zero, .zero, .zero, .zero⟩, fun _ _ _ _ => .zero⟩
    | succ k ih =>
      have := next_nan_corner hn hm m1 hl hg hinv ih.1 ih.2 hj'
      exact ⟨this.1, fun i hi j hj => .inr (this.2 i hi j hj)⟩
  have hN : ∀ k, ∀ a < n, ∀ b < m, ((bregIter n m mu (lit 2 * mu) jac.toNat (fun _ _ => lit 0) (k + 1)).u a b).1 = .nan := fun k =>
    (next_nan_corner hn hm m1 hl hg hinv (hz k).1 (hz k).2 hj').2
  have hbk : ∀ k, bregBrk n m mu (lit 2 * mu) tol jac.toNat (fun _ _ => lit 0) k = false := fun k => by
    refine nanLaws.flt _ (nanLaws.sqrt (nanLaws.div (.inl (sumF_nan nanLaws (k := 0) (Nat.mul_pos (by omega) (by omega)) (nanLaws.mul (.inl (nanLaws.sub (.inl ?_))))))))
    exact hN k _ (by rw [Nat.zero_div]; omega) _ (Nat.mod_lt _ (by omega))
  have hK : K = max_iter.toNat ∧ i = K + 1 := by
    rcases h7 with ⟨a, b, -⟩ | ⟨-, -, c, -⟩
    · exact ⟨a, b⟩
    · rw [hbk] at c
      cases c
  obtain ⟨k, rfl⟩ : ∃ k, K = k + 1 := ⟨K - 1, by omega⟩
  have hi : i = max_iter + 1 := by omega
  subst hi
  refine ⟨s', h1, fun h => absurd h.1 (not_lt.2 ha), fun _ a ha b hb => ?_⟩
  rw [h4.2 a ha b hb]
  exact hN k a ha b hb

theorem pow_val {k : ℤ} (h : -1074 ≤ k) (h1 : k < 1024) : (of (.fin (2 ^ k))).IsFin ∧ (of (.fin (2 ^ k))).toReal = 2 ^ k := by
  refine val_fin ?_
  show Dbl.round (.fin (2 ^ k)) = _
  simp only [Dbl.round]
  rw [rnd_pow h, abs_of_nonneg (by positivity), if_pos (zpow_lt_zpow_right₀ (by norm_num) h1)]

/-- the weight 2^-1026 is just inside the range, 2^-1027 is outside -/
example (tol : B64) : (∃ s' : PState B64, CSpec (l1c_breg_anistropic_TV (3 : ℕ) (4 : ℕ) ⟨0, 0⟩ ⟨1, 0⟩ (of (.fin (2 ^ (-1026 : ℤ)))) tol 1 1) (imgB 3 4 fun _ _ => lit 0) (0, 2) s' ∧
      HoldsF s'.mem ⟨0, 0⟩ 3 4 fun _ _ => lit 0) ∧
    ∃ s' : PState B64, CSpec (l1c_breg_anistropic_TV (3 : ℕ) (4 : ℕ) ⟨0, 0⟩ ⟨1, 0⟩ (of (.fin (2 ^ (-1027 : ℤ)))) tol 1 1) (imgB 3 4 fun _ _ => lit 0) (0, 2) s' ∧
      ∀ a < 3, ∀ b < 4, (s'.mem.pix ⟨0, 0⟩ 4 a b).1 = .nan := by
  have hfit : FitsInt (((3 : ℕ) : Int) * (4 : ℕ)) := by unfold FitsInt INT_MAX INT_MIN; norm_num
  have hp : (0 : ℝ) < 2 ^ (-1027 : ℤ) := by positivity
  constructor
  · obtain ⟨f1, f2⟩ := pow_val (k := -1026) (by norm_num) (by norm_num)
    obtain ⟨s', h1, h2, -⟩ := C109_black_iff (n := 3) (m := 4) (max_iter := 1) (jac := 1) (by norm_num) (by norm_num) hfit ⟨f1, by rw [f2]; positivity⟩ tol (by unfold INT_MAX; norm_num) le_rfl
      (by unfold INT_MAX; norm_num) le_rfl (imgB_ready 3 4 _)
    refine ⟨s', h1, h2 ⟨?_, ?_⟩⟩
    · rw [f2, show (-1024 : ℤ) = 3 + -1027 by norm_num, show (-1026 : ℤ) = 1 + -1027 by norm_num, zpow_add₀ (by norm_num), zpow_add₀ (by norm_num), show (2 : ℝ) ^ (3 : ℤ) = 8 by norm_num, show (2 : ℝ) ^ (1 : ℤ) = 2 by norm_num]
      linarith
    · rw [f2]
      exact zpow_lt_zpow_right₀ (by norm_num) (by norm_num)
  · obtain ⟨f1, f2⟩ := pow_val (k := -1027) (by norm_num) (by norm_num)
    obtain ⟨s', h1, -, h2⟩ := C109_black_iff (n := 3) (m := 4) (max_iter := 1) (jac := 1) (by norm_num) (by norm_num) hfit ⟨f1, by rw [f2]; positivity⟩ tol (by unfold INT_MAX; norm_num) le_rfl
      (by unfold INT_MAX; norm_num) le_rfl (imgB_ready 3 4 _)
    refine ⟨s', h1, h2 fun h => absurd h.1 (not_lt.2 ?_)⟩
    rw [f2, show (-1024 : ℤ) = 3 + -1027 by norm_num, zpow_add₀ (by norm_num), show (2 : ℝ) ^ (3 : ℤ) = 8 by norm_num]
    linarith

/-! ## The same from Python and Matlab -/

theorem two_mul_inf {mu : B64} (m1 : mu.IsFin) (h : 2 ^ (1023 : ℤ) ≤ mu.toReal) : (lit 2 * mu).1 = .pinf := by
  have e2 : (lit 2 : B64).1 = .fin 2 := by
    have := lit_nat (n := 2) (by norm_num)
    have h := eq_fin this.1
    rw [this.2] at h
    exact_mod_cast h
  rw [mul_val, e2, eq_fin m1, Dbl.fin_mul]
  have h3 : (2 : ℝ) ^ (1024 : ℤ) ≤ 2 * mu.toReal := by
    rw [show (1024 : ℤ) = 1023 + 1 by norm_num, zpow_add_one₀ (by norm_num)]
    linarith
  have h4 := rnd_mono h3
  rw [rnd_pow (by norm_num)] at h4
  have h5 : (0 : ℝ) < 2 ^ (1024 : ℤ) := by positivity
  simp only [Dbl.round]
  rw [if_neg, if_pos (lt_of_lt_of_le h5 h3)]
  rw [abs_of_nonneg (h5.le.trans h4)]
  exact not_lt.2 h4

theorem black_iter (hn : 2 ≤ n) (hm : 2 ≤ m) {mu : B64} (m1 : mu.IsFin) (m2 : 0 < mu.toReal) {jac : ℕ} (hj : 1 ≤ jac) (k : ℕ) :
    ((2 ^ (-1024 : ℤ) < 5 * mu.toReal ∧ mu.toReal < 2 ^ (1023 : ℤ)) → ∀ a b, (bregIter n m mu (lit 2 * mu) jac (fun _ _ => lit 0) k).u a b = lit 0) ∧
    (¬ (2 ^ (-1024 : ℤ) < 5 * mu.toReal ∧ mu.toReal < 2 ^ (1023 : ℤ)) → 0 < k → ∀ a < n, ∀ b < m, ((bregIter n m mu (lit 2 * mu) jac (fun _ _ => lit 0) k).u a b).1 = .nan) := by
  have hg : flt (lit 1 / (lit 2 * mu)) (lit 0) = false := threshold (by
    show Scalar.flt (lit 0 : B64).1 mu.1 = true
    rw [zero_val, eq_fin m1, Dbl.flt_fin]
    exact m2)
  constructor
  · rintro ⟨ha, hb⟩ a b
    obtain ⟨hl, hk⟩ := inv_fin_exact m1 ha hb
    have hz : bregIter n m mu (lit 2 * mu) jac (fun _ _ => lit 0) k = zeroState := by
      induction k with
      | zero => rfl
      | succ k ih =>
        show bregNext _ _ _ _ _ _ _ = _
        rw [ih, next_zero m1 hl hg fun q hq => by
          rcases hq with rfl | rfl | rfl
          · exact_mod_cast hk 2 (by norm_num) (by norm_num)
          · exact_mod_cast hk 3 (by norm_num) (by norm_num)
          · exact_mod_cast hk 4 (by norm_num) (by norm_num)]
    rw [hz]
    rfl
  · intro h hk
    obtain ⟨k, rfl⟩ : ∃ l, k = l + 1 := ⟨k - 1, by omega⟩
    rcases le_or_gt (2 ^ (1023 : ℤ)) mu.toReal with hb | hb
    · have hl := two_mul_inf m1 hb
      have hz : ∀ k, ZeroNanAux n m (bregIter n m mu (lit 2 * mu) jac (fun _ _ => lit 0) k) := fun k => by
        induction k with
        | zero => exact fun _ _ _ _ => ⟨.zero, .zero, .zero, .zero⟩
        | succ k ih => exact (next_nan_large hl hg ih hj).1
      exact (next_nan_large hl hg (hz k) hj).2
    · obtain ⟨hl, hinv⟩ := inv_inf_exact m1 m2 (not_lt.1 fun ha => h ⟨ha, hb⟩)
      have hz : ∀ k, ZeroNanAux n m (bregIter n m mu (lit 2 * mu) jac (fun _ _ => lit 0) k) ∧
          ∀ i < n, ∀ j < m, ZeroNan ((bregIter n m mu (lit 2 * mu) jac (fun _ _ => lit 0) k).u i j) := fun k => by
        induction k with
        | zero => exact ⟨fun _ _ _ _ => ⟨.zero, .zero, .zero, .zero⟩, fun _ _ _ _ => .zero⟩
        | succ k ih =>
          have := next_nan_corner hn hm m1 hl hg hinv ih.1 ih.2 hj
          exact ⟨this.1, fun i hi j hj => .inr (this.2 i hi j hj)⟩
      exact (next_nan_corner hn hm m1 hl hg hinv (hz k).1 (hz k).2 hj).2

/-- Python gets a black array back for a black array exactly for the same weights, and an array of NaN for all other positive weights; no exception is raised. -/
theorem C109_python_black_iff {s : PState B64} (hw : s.WF) (hn : 3 ≤ n) (hm : 3 ≤ m) (hfit : FitsInt ((n : Int) * m)) {f : Ptr} (hf : HoldsBuf s.mem f (n * m) fun _ => lit 0) {mu : B64}
    (hmu : mu.IsFin ∧ 0 < mu.toReal) (tol : B64) (hj : jac < INT_MAX) (hj1 : 1 ≤ jac) (hmax : max_iter < INT_MAX) (hmax1 : 1 ≤ max_iter) (h : ∀ k < 10, s.oracle (s.calls + k) = true) :
    ∃ data s', CSpec (py_breg 2 n m f mu tol max_iter jac true) s (.ret n m data) s' ∧
      ((2 ^ (-1024 : ℤ) < 5 * mu.toReal ∧ mu.toReal < 2 ^ (1023 : ℤ)) → ∀ i < n, ∀ j < m, data[i * m + j]? = some (lit 0)) ∧
      (¬ (2 ^ (-1024 : ℤ) < 5 * mu.toReal ∧ mu.toReal < 2 ^ (1023 : ℤ)) → ∀ i < n, ∀ j < m, ∃ x : B64, data[i * m + j]? = some x ∧ x.1 = .nan) := by
  have h8 : ∀ k < 8, s.oracle (s.calls + 2 + k) = true := fun k hk => by rw [add_assoc]; exact h (2 + k) (by omega)
  obtain ⟨r, s', g1, -, -, -, ⟨-, ⟨k, hk, e⟩ | e⟩ | ⟨data, rfl, -, -, -, K, -, gK, g3⟩⟩ :=
    C63_outcome_partial hw hn hm hfit hf mu tol hmax hj true (h 0 (by norm_num)) (h 1 (by norm_num))
  · rw [h8 k hk] at e; cases e
  · cases e
  · obtain ⟨b1, b2⟩ := black_iter (n := n) (m := m) (by omega) (by omega) hmu.1 hmu.2 (jac := jac.toNat) (by omega) K
    refine ⟨data, s', g1, fun hin i hi j hj => ?_, fun hout i hi j hj => ⟨_, g3 i hi j hj, b2 hout (by omega) i hi j hj⟩⟩
    rw [g3 i hi j hj]
    exact congrArg some (b1 hin i j)

/-- The same for Matlab. -/
theorem C109_matlab_black_iff {s : PState B64} (hw : s.WF) {nlhs : ℕ} {img : MxHdr} {prhs : List (MxVal B64)} {mu tol : B64}
    (hp : (breg_mex_parse nlhs img prhs).run = some (.ok (mu, tol, max_iter))) (hfit : FitsInt ((img.M : Int) * img.N)) {f : Ptr} (hf : HoldsBuf s.mem f (img.M * img.N) fun _ => lit 0)
    (hmu : mu.IsFin ∧ 0 < mu.toReal) (hmax : max_iter < INT_MAX) (hmax1 : 1 ≤ max_iter) (h : ∀ k < 10, s.oracle (s.calls + k) = true) :
    ∃ data s', CSpec (breg_mex nlhs img f prhs) s (.ret img.N img.M data) s' ∧
      ((2 ^ (-1024 : ℤ) < 5 * mu.toReal ∧ mu.toReal < 2 ^ (1023 : ℤ)) → ∀ i < img.M, ∀ j < img.N, data[i * img.N + j]? = some (lit 0)) ∧
      (¬ (2 ^ (-1024 : ℤ) < 5 * mu.toReal ∧ mu.toReal < 2 ^ (1023 : ℤ)) → ∀ i < img.M, ∀ j < img.N, ∃ x : B64, data[i * img.N + j]? = some x ∧ x.1 = .nan) := by
  have h8 : ∀ k < 8, s.oracle (s.calls + 2 + k) = true := fun k hk => by rw [add_assoc]; exact h (2 + k) (by omega)
  obtain ⟨-, -, hn, hm, -⟩ := breg_parse_size hp
  obtain ⟨r, s', g1, -, -, -, ⟨-, k, hk, e⟩ | ⟨data, rfl, -, -, K, -, gK, g3⟩⟩ := C56_outcome_partial hw hp hfit hf hmax (h 0 (by norm_num)) (h 1 (by norm_num))
  · rw [h8 k hk] at e; cases e
  · obtain ⟨b1, b2⟩ := black_iter (n := img.M) (m := img.N) (by omega) (by omega) hmu.1 hmu.2 (jac := 1) le_rfl K
    refine ⟨data, s', g1, fun hin i hi j hj => ?_, fun hout i hi j hj => ⟨_, g3 i hi j hj, b2 hout (by omega) i hi j hj⟩⟩
    rw [g3 i hi j hj]
    exact congrArg some (b1 hin i j)

theorem large_iter {mu : B64} (m1 : mu.IsFin) (m2 : 2 ^ (1023 : ℤ) ≤ mu.toReal) {jac : ℕ} (hj : 1 ≤ jac) {k : ℕ} (hk : 0 < k) (f0 : FImg B64) :
    ∀ a < n, ∀ b < m, ((bregIter n m mu (lit 2 * mu) jac f0 k).u a b).1 = .nan := by
  have hg : flt (lit 1 / (lit 2 * mu)) (lit 0) = false := threshold (by
    show Scalar.flt (lit 0 : B64).1 mu.1 = true
    rw [zero_val, eq_fin m1, Dbl.flt_fin]
    exact lt_of_lt_of_le (by positivity) m2)
  have hl := two_mul_inf m1 m2
  obtain ⟨k, rfl⟩ : ∃ l, k = l + 1 := ⟨k - 1, by omega⟩
  have hz : ∀ k, ZeroNanAux n m (bregIter n m mu (lit 2 * mu) jac f0 k) := fun k => by
    induction k with
    | zero => exact fun _ _ _ _ => ⟨.zero, .zero, .zero, .zero⟩
    | succ k ih => exact (next_nan_large hl hg ih hj).1
  exact (next_nan_large hl hg (hz k) hj).2

/-- For weights from 2^1023 on Python gets an array of NaN back, without an exception, whatever array it passes. -/
theorem C109_python_large_false {s : PState B64} (hw : s.WF) (hn : 3 ≤ n) (hm : 3 ≤ m) (hfit : FitsInt ((n : Int) * m)) {f : Ptr} {v : ℕ → B64} (hf : HoldsBuf s.mem f (n * m) v) {mu : B64}
    (hmu : mu.IsFin ∧ 2 ^ (1023 : ℤ) ≤ mu.toReal) (tol : B64) (hj : jac < INT_MAX) (hj1 : 1 ≤ jac) (hmax : max_iter < INT_MAX) (hmax1 : 1 ≤ max_iter) (h : ∀ k < 10, s.oracle (s.calls + k) = true) :
    ∃ data s', CSpec (py_breg 2 n m f mu tol max_iter jac true) s (.ret n m data) s' ∧ ∀ i < n, ∀ j < m, ∃ x : B64, data[i * m + j]? = some x ∧ x.1 = .nan := by
  have h8 : ∀ k < 8, s.oracle (s.calls + 2 + k) = true := fun k hk => by rw [add_assoc]; exact h (2 + k) (by omega)
  obtain ⟨r, s', g1, -, -, -, ⟨-, ⟨k, hk, e⟩ | e⟩ | ⟨data, rfl, -, -, -, K, -, gK, g3⟩⟩ :=
    C63_outcome_partial hw hn hm hfit hf mu tol hmax hj true (h 0 (by norm_num)) (h 1 (by norm_num))
  · rw [h8 k hk] at e; cases e
  · cases e
  · exact ⟨data, s', g1, fun i hi j hj => ⟨_, g3 i hi j hj, large_iter hmu.1 hmu.2 (by omega) (by omega) _ i hi j hj⟩⟩

/-- The same for Matlab. -/
theorem C109_matlab_large_false {s : PState B64} (hw : s.WF) {nlhs : ℕ} {img : MxHdr} {prhs : List (MxVal B64)} {mu tol : B64}
    (hp : (breg_mex_parse nlhs img prhs).run = some (.ok (mu, tol, max_iter))) (hfit : FitsInt ((img.M : Int) * img.N)) {f : Ptr} {v : ℕ → B64} (hf : HoldsBuf s.mem f (img.M * img.N) v)
    (hmu : mu.IsFin ∧ 2 ^ (1023 : ℤ) ≤ mu.toReal) (hmax : max_iter < INT_MAX) (hmax1 : 1 ≤ max_iter) (h : ∀ k < 10, s.oracle (s.calls + k) = true) :
    ∃ data s', CSpec (breg_mex nlhs img f prhs) s (.ret img.N img.M data) s' ∧ ∀ i < img.M, ∀ j < img.N, ∃ x : B64, data[i * img.N + j]? = some x ∧ x.1 = .nan := by
  have h8 : ∀ k < 8, s.oracle (s.calls + 2 + k) = true := fun k hk => by rw [add_assoc]; exact h (2 + k) (by omega)
  obtain ⟨r, s', g1, -, -, -, ⟨-, k, hk, e⟩ | ⟨data, rfl, -, -, K, -, gK, g3⟩⟩ := C56_outcome_partial hw hp hfit hf hmax (h 0 (by norm_num)) (h 1 (by norm_num))
  · rw [h8 k hk] at e; cases e
  · exact ⟨data, s', g1, fun i hi j hj => ⟨_, g3 i hi j hj, large_iter hmu.1 hmu.2 le_rfl (by omega) _ i hi j hj⟩⟩

theorem imgB_buf (n m : ℕ) : (imgB n m fun _ _ => lit 0).WF ∧ HoldsBuf (imgB n m fun _ _ => lit 0).mem ⟨1, 0⟩ (n * m) fun _ => lit 0 :=
  let ⟨hw, _, hf, _, _⟩ := imgB_ready n m fun _ _ => lit 0
  ⟨hw, hf.1, fun _ _ => rfl⟩

/-- a black 3 by 4 array and the weight 2^-1027 from Python -/
example (tol : B64) : ∃ data s', CSpec (py_breg 2 (3 : ℕ) (4 : ℕ) ⟨1, 0⟩ (of (.fin (2 ^ (-1027 : ℤ)))) tol 1 1 true) (imgB 3 4 fun _ _ => lit 0) (.ret (3 : ℕ) (4 : ℕ) data) s' ∧
    ∀ i < 3, ∀ j < 4, ∃ x : B64, data[i * 4 + j]? = some x ∧ x.1 = .nan := by
  obtain ⟨f1, f2⟩ := pow_val (k := -1027) (by norm_num) (by norm_num)
  have hp : (0 : ℝ) < 2 ^ (-1027 : ℤ) := by positivity
  obtain ⟨data, s', h1, -, h2⟩ := C109_python_black_iff (n := 3) (m := 4) (max_iter := 1) (jac := 1) (imgB_buf 3 4).1 (by norm_num) (by norm_num) (by unfold FitsInt INT_MAX INT_MIN; norm_num)
    (imgB_buf 3 4).2 ⟨f1, by rw [f2]; positivity⟩ tol (by unfold INT_MAX; norm_num) le_rfl (by unfold INT_MAX; norm_num) le_rfl (fun _ _ => rfl)
  refine ⟨data, s', h1, h2 fun h => absurd h.1 (not_lt.2 ?_)⟩
  rw [f2, show (-1024 : ℤ) = 3 + -1027 by norm_num, zpow_add₀ (by norm_num), show (2 : ℝ) ^ (3 : ℤ) = 8 by norm_num]
  linarith

/-- a Matlab number -/
def mxB (x : B64) : MxVal B64 := .arr ⟨true, 1, 1, 2, fun _ => x⟩

theorem castInt_one : castInt (lit 1 : B64) = some 1 := by
  unfold castInt
  have h1 : flt (lit 1 : B64) (lit 0) = false := by
    rw [Bool.eq_false_iff]
    show ¬ Scalar.flt (lit 1 : B64).1 (lit 0 : B64).1 = true
    rw [one_val, zero_val, Dbl.flt_fin]
    norm_num
  have h2 : ceilInt (-(lit 1) : B64) = some (-1) := by
    show Scalar.ceilInt (-(lit 1) : B64).1 = _
    rw [neg_val, one_val]
    show Dbl.ceilInt (.fin (-1)) = _
    have e : ⌈(-1 : ℝ)⌉ = -1 := by
      rw [Int.ceil_eq_iff]
      norm_num
    unfold Dbl.ceilInt
    dsimp only
    rw [e, if_pos (by decide)]
  rw [h1, h2]
  decide

theorem mxB_parse (mu tol : B64) : (breg_mex_parse 1 ⟨true, 3, 4, 2⟩ [mxB mu, mxB tol, mxB (lit 1)]).run = some (.ok (mu, tol, 1)) := by
  unfold breg_mex_parse
  dsimp only
  have e : ∀ x : B64, mexScalar (mxB x) = (pure x : MexP B64) := fun _ => rfl
  have e3 : mexLift (castInt (lit 1 : B64)) = (pure 1 : MexP Int) := by rw [castInt_one]; rfl
  rw [if_neg (by omega), if_neg (by simp), if_neg (by omega), if_neg (by omega), if_neg (by omega), if_neg (by omega), e, e, e]
  simp only [pure_bind, e3]
  rfl

/-- a black 3 by 4 image and the weight 1 from Matlab -/
example (tol : B64) : ∃ data s', CSpec (breg_mex 1 ⟨true, 3, 4, 2⟩ ⟨1, 0⟩ [mxB (lit 1), mxB tol, mxB (lit 1)]) (imgB 3 4 fun _ _ => lit 0) (.ret (4 : ℕ) (3 : ℕ) data) s' ∧
    ∀ i < 3, ∀ j < 4, data[i * 4 + j]? = some (lit 0) := by
  have hp := mxB_parse (lit 1) tol
  obtain ⟨data, s', h1, h2, -⟩ := C109_matlab_black_iff (imgB_buf 3 4).1 hp (by unfold FitsInt INT_MAX INT_MIN; norm_num) (imgB_buf 3 4).2 ⟨lit_one.1, by rw [lit_one.2]; norm_num⟩
    (by unfold INT_MAX; norm_num) le_rfl (fun _ _ => rfl)
  refine ⟨data, s', h1, h2 ⟨?_, ?_⟩⟩
  · rw [lit_one.2]
    exact lt_of_le_of_lt (zpow_le_one_of_nonpos₀ (by norm_num) (by norm_num)) (by norm_num)
  · rw [lit_one.2]
    exact one_lt_zpow₀ (by norm_num) (by norm_num)

/-- an all-one 3 by 4 array and the weight 2^1023 from Python -/
example (tol : B64) : ∃ data s', CSpec (py_breg 2 (3 : ℕ) (4 : ℕ) ⟨1, 0⟩ (of (.fin (2 ^ (1023 : ℤ)))) tol 1 1 true) (imgB 3 4 fun _ _ => lit 1) (.ret (3 : ℕ) (4 : ℕ) data) s' ∧
    ∀ i < 3, ∀ j < 4, ∃ x : B64, data[i * 4 + j]? = some x ∧ x.1 = .nan := by
  obtain ⟨f1, f2⟩ := pow_val (k := 1023) (by norm_num) (by norm_num)
  obtain ⟨hw, -, hf, -, -⟩ := imgB_ready 3 4 fun _ _ => lit 1
  exact C109_python_large_false (n := 3) (m := 4) (max_iter := 1) (jac := 1) (v := fun _ => lit 1) hw (by norm_num) (by norm_num) (by unfold FitsInt INT_MAX INT_MIN; norm_num)
    ⟨hf.1, fun _ _ => rfl⟩ ⟨f1, f2.ge⟩ tol (by unfold INT_MAX; norm_num) le_rfl (by unfold INT_MAX; norm_num) le_rfl (fun _ _ => rfl)

/-- an all-one 3 by 4 image and the weight 2^1023 from Matlab -/
example (tol : B64) : ∃ data s', CSpec (breg_mex 1 ⟨true, 3, 4, 2⟩ ⟨1, 0⟩ [mxB (of (.fin (2 ^ (1023 : ℤ)))), mxB tol, mxB (lit 1)]) (imgB 3 4 fun _ _ => lit 1) (.ret (4 : ℕ) (3 : ℕ) data) s' ∧
    ∀ i < 3, ∀ j < 4, ∃ x : B64, data[i * 4 + j]? = some x ∧ x.1 = .nan := by
  obtain ⟨f1, f2⟩ := pow_val (k := 1023) (by norm_num) (by norm_num)
  obtain ⟨hw, -, hf, -, -⟩ := imgB_ready 3 4 fun _ _ => lit 1
  exact C109_matlab_large_false (v := fun _ => lit 1) hw (mxB_parse _ tol) (by unfold FitsInt INT_MAX INT_MIN; norm_num) ⟨hf.1, fun _ _ => rfl⟩ ⟨f1, f2.ge⟩ (by unfold INT_MAX; norm_num) le_rfl
    (fun _ _ => rfl)

/-! ## Weight zero -/

theorem ZeroNan.of_zero_mul (a : B64) : ZeroNan (lit 0 * a) ∧ ZeroNan (a * lit 0) := by
  have key : ∀ d : Dbl, d = a.1 → ZeroNan (lit 0 * a) ∧ ZeroNan (a * lit 0) := fun d hd => by
    cases d with
    | fin r => exact ⟨.inl (mul_zero_fin (val_fin hd.symm).1).2, .inl (mul_zero_fin (val_fin hd.symm).1).1⟩
    | pinf => exact ⟨.inr (ZeroNan.mul_inf hd.symm .zero), .inr (ZeroNan.inf_mul (.inl hd.symm) .zero)⟩
    | ninf =>
      refine ⟨.inr ?_, .inr (ZeroNan.inf_mul (.inr hd.symm) .zero)⟩
      rw [mul_val, zero_val, ← hd]
      show Dbl.round (Dbl.infMul (-0)) = _
      unfold Dbl.infMul
      rw [_root_.neg_zero, if_pos rfl]
      rfl
    | nan => exact ⟨.inr (nanLaws.mul (.inr hd.symm)), .inr (nanLaws.mul (.inl hd.symm))⟩
  exact key _ rfl

theorem inv_weight_zero : (gsInv (lit 0 : B64) (lit 0) 2).1 = .pinf ∧ flt (lit 1 / lit 0 : B64) (lit 0) = false := by
  have h : (lit 1 / lit 0 : B64).1 = .pinf := by
    rw [div_val, one_val, zero_val, Dbl.pos_div_zero one_pos]
    rfl
  refine ⟨?_, ?_⟩
  · unfold gsInv
    have e2 : (lit 2 : B64).IsFin := by exact_mod_cast (lit_nat (n := 2) (by norm_num)).1
    rw [(mul_zero_fin e2).1, zero_add_zero]
    exact h
  · rw [Bool.eq_false_iff]
    show ¬ Scalar.flt (lit 1 / lit 0 : B64).1 (lit 0 : B64).1 = true
    rw [h, zero_val]
    exact fun c => (Dbl.flt_iff _ _).1 c

theorem next_nan_weight_zero (hn : 2 ≤ n) (hm : 2 ≤ m) {s : BState B64} (hs : ZeroNanAux n m s) {f : FImg B64} {jac : ℕ} (hj : 1 ≤ jac) :
    ZeroNanAux n m (bregNext n m (lit 0) (lit 0) jac f s) ∧ ∀ i < n, ∀ j < m, ((bregNext n m (lit 0) (lit 0) jac f s).u i j).1 = .nan := by
  obtain ⟨hinv, hg⟩ := inv_weight_zero
  have h00 := hs 0 (by omega) 0 (by omega)
  have hlam : (lit 0 : B64).IsFin := (val_fin zero_val).1
  have hr : ZeroNan (rhsF n m (lit 0) (lit 0) f s 0 0) := by
    have hx : ZeroNan (-s.bx 0 0 + s.dx 0 0) := h00.2.2.1.neg.add h00.1
    have hy : ZeroNan (-s.bY 0 0 + s.dy 0 0) := h00.2.2.2.neg.add h00.2.1
    unfold rhsF dRowT dColT
    rw [if_neg (by omega), if_pos rfl, if_pos rfl, if_pos (by omega)]
    exact (ZeroNan.mul (neg_isFin hlam) hx).1.add (ZeroNan.mul lit_one.1 ((ZeroNan.mul hlam (ZeroNan.zero.sub hy)).1.add (ZeroNan.of_zero_mul _).1)).1
  have hsw : ∀ u : FImg B64, ∀ i < n, ∀ j < m, (gsSweep n m (lit 0) (lit 0) (rhsF n m (lit 0) (lit 0) f s) u i j).1 = .nan := fun u => by
    refine sweep_fill hm ?_
    unfold gsPix
    rw [if_pos rfl, if_pos rfl]
    exact ZeroNan.mul_inf hinv (hr.add (ZeroNan.of_zero_mul _).2)
  have hN : ∀ i < n, ∀ j < m, ((gsSweep n m (lit 0) (lit 0) (rhsF n m (lit 0) (lit 0) f s))^[jac] s.u i j).1 = .nan := by
    obtain ⟨k, rfl⟩ : ∃ k, jac = k + 1 := ⟨jac - 1, by omega⟩
    rw [Function.iterate_succ_apply']
    exact hsw _
  refine ⟨fun i hi j hj => ?_, hN⟩
  have hgx : ZeroNan (gxF m ((gsSweep n m (lit 0) (lit 0) (rhsF n m (lit 0) (lit 0) f s))^[jac] s.u) s.bx i j) := by
    unfold gxF dRow
    refine ZeroNan.add ?_ (ZeroNan.mul lit_one.1 (hs i hi j hj).2.2.1).1
    split_ifs
    · exact .inr (nanLaws.mul (.inr (nanLaws.sub (.inr (hN i hi j hj)))))
    · exact .zero
  have hgy : ZeroNan (gyF n ((gsSweep n m (lit 0) (lit 0) (rhsF n m (lit 0) (lit 0) f s))^[jac] s.u) s.bY i j) := by
    unfold gyF
    refine ZeroNan.add ?_ (ZeroNan.mul lit_one.1 (hs i hi j hj).2.2.2).1
    split_ifs
    · exact .inr (nanLaws.mul (.inr (nanLaws.sub (.inr (hN i hi j hj)))))
    · exact .zero
  exact ⟨hgx.shrink hg, hgy.shrink hg, (hgx.shrink hg).neg.add hgx, (hgy.shrink hg).neg.add hgy⟩

/-- With weight zero every returned pixel of every image is NaN, with status 0, after all `max_iter` iterations: the weight is not checked and the sweep divides by it.  (BLAS may leave out the addition
of `mu` times the image then; for finite images it adds zeros, and infinite ones are NaN after the sweep either way.) -/
theorem C109_zero_weight_false (hn : 2 ≤ n) (hm : 2 ≤ m) (hfit : FitsInt ((n : Int) * m)) (tol : B64) (hj : jac < INT_MAX) (hj1 : 1 ≤ jac) (hmax : max_iter < INT_MAX) (hmax1 : 1 ≤ max_iter)
    {f0 : ℕ → ℕ → B64} {s : PState B64} {uk f : Ptr} (hr : TVReadyB s n m uk f f0) :
    ∃ s' : PState B64, CSpec (l1c_breg_anistropic_TV n m uk f (lit 0) tol max_iter jac) s (0, max_iter + 1) s' ∧ ∀ a < n, ∀ b < m, (s'.mem.pix uk m a b).1 = .nan := by
  obtain ⟨hw, ⟨u0, hu⟩, hf, hsep, hor⟩ := hr
  obtain ⟨K, i, s', h1, -, -, h4, -, h6, h7⟩ := cspec_breg (mu := lit 0) (tol := tol) hw hn hm hfit hu hf hsep hmax hj hor
  have e2 : (lit 2 : B64).IsFin := by exact_mod_cast (lit_nat (n := 2) (by norm_num)).1
  rw [(mul_zero_fin e2).1] at h4 h7
  have hj' : 1 ≤ jac.toNat := by omega
  have hz : ∀ k, ZeroNanAux n m (bregIter n m (lit 0) (lit 0) jac.toNat f0 k) := fun k => by
    induction k with
    | zero => exact fun _ _ _ _ => ⟨.zero, .zero, .zero, .zero⟩
    | succ k ih => exact (next_nan_weight_zero hn hm ih hj').1
  have hN : ∀ k, ∀ a < n, ∀ b < m, ((bregIter n m (lit 0) (lit 0) jac.toNat f0 (k + 1)).u a b).1 = .nan := fun k => (next_nan_weight_zero hn hm (hz k) hj').2
  have hb : ∀ k, bregBrk n m (lit 0) (lit 0) tol jac.toNat f0 k = false := fun k => by
    refine nanLaws.flt _ (nanLaws.sqrt (nanLaws.div (.inl (sumF_nan nanLaws (k := 0) (Nat.mul_pos (by omega) (by omega)) (nanLaws.mul (.inl (nanLaws.sub (.inl ?_))))))))
    exact hN k _ (by rw [Nat.zero_div]; omega) _ (Nat.mod_lt _ (by omega))
  have hK : K = max_iter.toNat ∧ i = K + 1 := by
    rcases h7 with ⟨a, b, -⟩ | ⟨-, -, c, -⟩
    · exact ⟨a, b⟩
    · rw [hb] at c
      cases c
  obtain ⟨k, rfl⟩ : ∃ k, K = k + 1 := ⟨K - 1, by omega⟩
  have hi : i = max_iter + 1 := by omega
  subst hi
  refine ⟨s', h1, fun a ha b hb => ?_⟩
  rw [h4.2 a ha b hb]
  exact hN k a ha b hb

/-- an all-one image -/
example (tol : B64) : ∃ s' : PState B64, CSpec (l1c_breg_anistropic_TV (3 : ℕ) (4 : ℕ) ⟨0, 0⟩ ⟨1, 0⟩ (lit 0) tol 50 2) (imgB 3 4 fun _ _ => lit 1) (0, 51) s' ∧
    ∀ a < 3, ∀ b < 4, (s'.mem.pix ⟨0, 0⟩ 4 a b).1 = .nan :=
  C109_zero_weight_false (max_iter := 50) (by norm_num) (by norm_num) (by unfold FitsInt INT_MAX INT_MIN; norm_num) tol (by unfold INT_MAX; norm_num) (by norm_num) (by unfold INT_MAX; norm_num)
    (by norm_num) (imgB_ready 3 4 _)

end L1c
