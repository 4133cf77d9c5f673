import Verif.Proofs.Binary64

/-! # Rounding to binary64 keeps the order and leaves binary64 numbers alone -/

namespace L1c
open Scalar

theorem rne_le {y : ℝ} {n : ℤ} (h : y ≤ n) : rne y ≤ n := by
  have h1 := Int.lt_floor_add_one y
  have h2 := Int.floor_le y
  have h3 : ⌊y⌋ ≤ n := by exact_mod_cast h2.trans h
  unfold rne
  rcases h3.eq_or_lt with e | e
  · rw [if_pos (by rw [e] at h2 ⊢; linarith [le_antisymm h h2])]
    exact h3
  · split_ifs <;> omega

theorem le_rne {y : ℝ} {n : ℤ} (h : (n : ℝ) ≤ y) : n ≤ rne y := by
  have h3 : n ≤ ⌊y⌋ := Int.le_floor.2 h
  unfold rne
  split_ifs <;> omega

theorem rne_mono {x y : ℝ} (h : x ≤ y) : rne x ≤ rne y := by
  have hf := Int.floor_le_floor h
  rcases hf.eq_or_lt with e | e
  · have ex : (⌊x⌋ : ℝ) = ⌊y⌋ := by exact_mod_cast e
    unfold rne
    rw [e]
    split_ifs <;> first | omega | (exfalso; linarith)
  · have h1 : (⌊x⌋ : ℝ) + 1 ≤ ⌊y⌋ := by exact_mod_cast e
    have h2 := Int.lt_floor_add_one x
    have h3 : rne x ≤ ⌊x⌋ + 1 := rne_le (by push_cast; linarith)
    have h4 : ⌊y⌋ ≤ rne y := le_rne (Int.floor_le y)
    omega

/-- a number with at most 53 significant bits is its own rounding -/
theorem rndPos_of_bits {n e : ℤ} (h0 : 0 ≤ n) (h1 : n < 2 ^ 53) (he : -1074 ≤ e) : rndPos (n * 2 ^ e) = n * 2 ^ e := by
  rcases h0.eq_or_lt with rfl | hp
  · have := rnd_zero
    unfold rnd at this
    simpa using this
  obtain ⟨x, hx⟩ : ∃ x : ℝ, x = n * 2 ^ e := ⟨_, rfl⟩
  rw [← hx]
  have hp' : (0 : ℝ) < n := by exact_mod_cast hp
  have hx0 : 0 < x := by rw [hx]; positivity
  have hlog : Int.log 2 x ≤ e + 52 := by
    have h3 : x < 2 ^ (e + 53) := by
      rw [hx, zpow_add₀ (by norm_num), mul_comm]
      refine mul_lt_mul_of_pos_left ?_ (by positivity)
      have : (n : ℝ) < 2 ^ 53 := by exact_mod_cast h1
      exact_mod_cast this
    have h4 := (Int.lt_zpow_iff_log_lt (b := 2) (by norm_num) hx0).1 (by exact_mod_cast h3)
    omega
  have hk : 0 ≤ e - max (Int.log 2 x - 52) (-1074) := by
    have := max_le (show Int.log 2 x - 52 ≤ e by omega) he
    omega
  obtain ⟨k, hk⟩ := Int.eq_ofNat_of_zero_le hk
  have hd : x / ulp x = ((n * 2 ^ k : ℤ) : ℝ) := by
    unfold ulp
    rw [div_eq_iff (by positivity)]
    push_cast
    rw [← zpow_natCast, mul_assoc, ← zpow_add₀ (by norm_num), show ((k : ℕ) : ℤ) + max (Int.log 2 x - 52) (-1074) = e by omega]
    exact hx
  unfold rndPos
  rw [hd, rne_int, ← hd, div_mul_cancel₀ _ (ulp_pos x).ne']

theorem rndPos_bits {x : ℝ} (hx : 0 ≤ x) : ∃ n e : ℤ, 0 ≤ n ∧ n < 2 ^ 53 ∧ -1074 ≤ e ∧ rndPos x = n * 2 ^ e := by
  have hq := rne_nonneg (div_nonneg hx (ulp_pos x).le)
  have hle : rne (x / ulp x) ≤ 2 ^ 53 := by
    refine rne_le ?_
    rw [div_le_iff₀ (ulp_pos x)]
    have hu : x < (2 : ℝ) ^ (Int.log 2 x + 1) := by exact_mod_cast Int.lt_zpow_succ_log_self (b := 2) (by norm_num) x
    refine hu.le.trans ?_
    rw [show (((2 ^ 53 : ℤ)) : ℝ) = 2 ^ (53 : ℤ) by norm_num]
    unfold ulp
    rw [← zpow_add₀ (by norm_num)]
    refine zpow_le_zpow_right₀ (by norm_num) ?_
    have := le_max_left (Int.log 2 x - 52) (-1074)
    omega
  rcases hle.eq_or_lt with h | h
  · refine ⟨2 ^ 52, max (Int.log 2 x - 52) (-1074) + 1, by norm_num, by norm_num, by have := le_max_right (Int.log 2 x - 52) (-1074); omega, ?_⟩
    unfold rndPos ulp
    unfold ulp at h
    rw [h, zpow_add₀ (by norm_num)]
    push_cast
    ring
  · exact ⟨_, _, hq, h, le_max_right _ _, rfl⟩

theorem rndPos_idem {x : ℝ} (hx : 0 ≤ x) : rndPos (rndPos x) = rndPos x := by
  obtain ⟨n, e, h0, h1, he, h⟩ := rndPos_bits hx
  rw [h]
  exact rndPos_of_bits h0 h1 he

theorem rndPos_pow {x : ℝ} {k : ℤ} (hk : -1074 ≤ k) (hx : 0 < x) (h : (2 : ℝ) ^ k ≤ x) : 2 ^ k ≤ rndPos x := by
  have hl : k ≤ Int.log 2 x := (Int.zpow_le_iff_le_log (b := 2) (by norm_num) hx).1 (by exact_mod_cast h)
  by_cases hc : max (Int.log 2 x - 52) (-1074) ≤ k
  · obtain ⟨d, hd⟩ := Int.eq_ofNat_of_zero_le (sub_nonneg.2 hc)
    have e : (2 : ℝ) ^ k = ((2 ^ d : ℤ) : ℝ) * ulp x := by
      unfold ulp
      push_cast
      rw [← zpow_natCast, ← zpow_add₀ (by norm_num)]
      congr 1
      omega
    unfold rndPos
    rw [e]
    refine mul_le_mul_of_nonneg_right ?_ (ulp_pos x).le
    have := le_rne (y := x / ulp x) (n := 2 ^ d) (by rw [le_div_iff₀ (ulp_pos x), ← e]; exact h)
    exact_mod_cast this
  · have hL : (2 : ℝ) ^ Int.log 2 x ≤ x := by exact_mod_cast Int.zpow_log_le_self (b := 2) (by norm_num) hx
    have hk2 : -1074 ≤ Int.log 2 x - 52 := by
      by_contra hc'
      exact hc (max_le (by omega) hk)
    have e : (2 : ℝ) ^ Int.log 2 x = ((2 ^ 52 : ℤ) : ℝ) * ulp x := by
      unfold ulp
      rw [max_eq_left hk2, show (((2 ^ 52 : ℤ)) : ℝ) = 2 ^ (52 : ℤ) by norm_num, ← zpow_add₀ (by norm_num)]
      congr 1
      omega
    refine (zpow_le_zpow_right₀ (by norm_num) hl).trans ?_
    unfold rndPos
    rw [e]
    refine mul_le_mul_of_nonneg_right ?_ (ulp_pos x).le
    have := le_rne (y := x / ulp x) (n := 2 ^ 52) (by rw [le_div_iff₀ (ulp_pos x), ← e]; exact hL)
    exact_mod_cast this

theorem rndPos_mono {x y : ℝ} (hx : 0 ≤ x) (h : x ≤ y) : rndPos x ≤ rndPos y := by
  rcases hx.eq_or_lt with rfl | hx0
  · have : rndPos 0 = 0 := by
      have := rnd_zero
      unfold rnd at this
      simpa using this
    rw [this]
    exact rndPos_nonneg h
  have hy0 : 0 < y := hx0.trans_le h
  have hl : Int.log 2 x ≤ Int.log 2 y := Int.log_mono_right hx0 h
  by_cases he : max (Int.log 2 x - 52) (-1074) = max (Int.log 2 y - 52) (-1074)
  · have : ulp x = ulp y := by
      unfold ulp
      rw [he]
    unfold rndPos
    rw [this]
    exact mul_le_mul_of_nonneg_right (by exact_mod_cast rne_mono (div_le_div_of_nonneg_right h (ulp_pos y).le)) (ulp_pos y).le
  · have h1 : Int.log 2 x < Int.log 2 y := lt_of_le_of_ne hl (fun c => he (by rw [c]))
    have h2 : -1022 < Int.log 2 y := by
      by_contra hc
      exact he (by rw [max_eq_right (by omega), max_eq_right (by omega)])
    have hL : (2 : ℝ) ^ Int.log 2 y ≤ y := by exact_mod_cast Int.zpow_log_le_self (b := 2) (by norm_num) hy0
    refine le_trans ?_ (rndPos_pow (by omega) hy0 hL)
    have hu : x ≤ (2 : ℝ) ^ Int.log 2 y := by
      have : x < (2 : ℝ) ^ (Int.log 2 x + 1) := by exact_mod_cast Int.lt_zpow_succ_log_self (b := 2) (by norm_num) x
      exact this.le.trans (zpow_le_zpow_right₀ (by norm_num) (by omega))
    obtain ⟨d, hd⟩ := Int.eq_ofNat_of_zero_le (show 0 ≤ Int.log 2 y - max (Int.log 2 x - 52) (-1074) from
      sub_nonneg.2 (max_le (by omega) (by omega)))
    have e : (2 : ℝ) ^ Int.log 2 y = ((2 ^ d : ℤ) : ℝ) * ulp x := by
      unfold ulp
      push_cast
      rw [← zpow_natCast, ← zpow_add₀ (by norm_num)]
      congr 1
      omega
    rw [e] at hu ⊢
    unfold rndPos
    refine mul_le_mul_of_nonneg_right ?_ (ulp_pos x).le
    have := rne_le (y := x / ulp x) (n := 2 ^ d) (by rw [div_le_iff₀ (ulp_pos x)]; exact hu)
    exact_mod_cast this

theorem rnd_nonneg {x : ℝ} (h : 0 ≤ x) : 0 ≤ rnd x := by
  unfold rnd
  rw [if_neg (not_lt.2 h)]
  exact rndPos_nonneg h

/-- rounding keeps the order -/
theorem rnd_mono {x y : ℝ} (h : x ≤ y) : rnd x ≤ rnd y := by
  rcases le_or_gt 0 x with hx | hx
  · unfold rnd
    rw [if_neg (not_lt.2 hx), if_neg (not_lt.2 (hx.trans h))]
    exact rndPos_mono hx h
  · rcases le_or_gt 0 y with hy | hy
    · refine le_trans ?_ (rnd_nonneg hy)
      have := rnd_nonneg (x := -x) (by linarith)
      rw [rnd_neg] at this
      linarith
    · unfold rnd
      rw [if_pos hx, if_pos hy]
      exact neg_le_neg (rndPos_mono (by linarith) (by linarith))

/-- a binary64 number is its own rounding -/
theorem rnd_idem (x : ℝ) : rnd (rnd x) = rnd x := by
  have key : ∀ y, 0 ≤ y → rnd (rnd y) = rnd y := fun y hy => by
    have h := rnd_nonneg hy
    have e : rnd y = rndPos y := by
      unfold rnd
      rw [if_neg (not_lt.2 hy)]
    rw [e] at h ⊢
    unfold rnd
    rw [if_neg (not_lt.2 h)]
    exact rndPos_idem hy
  rcases le_total 0 x with h | h
  · exact key x h
  · have := key (-x) (by linarith)
    rw [rnd_neg, rnd_neg] at this
    linarith

/-- sums of binary64 numbers are zero only when exact -/
theorem rnd_grid_eq_zero {x : ℝ} (hg : Grid x) : rnd x = 0 ↔ x = 0 := by
  refine ⟨fun h => ?_, fun h => by rw [h, rnd_zero]⟩
  obtain ⟨δ, hd, he⟩ := rnd_grid_err hg
  rw [h] at he
  rcases mul_eq_zero.1 he.symm with h | h
  · exact h
  · have h1 : u64 < 1 := by
      unfold u64
      norm_num
    have := (abs_le.1 hd).1
    linarith

namespace B64

theorem rnd_toReal {a : B64} (h : a.IsFin) : rnd a.toReal = a.toReal := by
  obtain ⟨d, hd⟩ := a
  cases d with
  | fin r =>
    obtain ⟨⟨x, rfl⟩, -⟩ := hd r rfl
    exact rnd_idem x
  | _ => exact absurd h (by simp [IsFin, Dbl.IsFin])

theorem lt_max {a : B64} (h : a.IsFin) : |a.toReal| < 2 ^ (1024 : ℤ) := by
  obtain ⟨d, hd⟩ := a
  cases d with
  | fin r => exact (hd r rfl).2
  | _ => exact absurd h (by simp [IsFin, Dbl.IsFin])

theorem eq_fin {a : B64} (h : a.IsFin) : a.1 = Dbl.fin a.toReal := by
  obtain ⟨d, hd⟩ := a
  cases d with
  | fin r => rfl
  | _ => exact absurd h (by simp [IsFin, Dbl.IsFin])

/-- rounding a real that does not overflow -/
theorem of_real {d : Dbl} {r : ℝ} (hd : d = Dbl.fin r) (h : |rnd r| < 2 ^ (1024 : ℤ)) : (of d).IsFin ∧ (of d).toReal = rnd r := by
  subst hd
  have : (of (Dbl.fin r)).1 = Dbl.fin (rnd r) := by
    show Dbl.round (Dbl.fin r) = _
    simp only [Dbl.round]
    rw [if_pos h]
  exact val_fin this

end B64
end L1c
