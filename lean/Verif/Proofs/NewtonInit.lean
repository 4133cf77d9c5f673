import Verif.Proofs.NewtonFeas

/-! # Starting values of the log-barrier solver, over doubles without rounding -/

namespace L1c
open Scalar Matrix

variable {m : ℕ}

theorem xmax_fold (x : Fin m → ℝ) (l : List (Fin m)) : ∀ a : ℝ, ∃ r : ℝ,
    l.foldl (fun a i => cmax a (fabs (fvec x i))) (Dbl.fin a) = Dbl.fin r ∧ a ≤ r ∧ (∀ i ∈ l, |x i| ≤ r) ∧ (r = a ∨ ∃ i, r = |x i|) := by
  induction l with
  | nil => intro a; exact ⟨a, rfl, le_rfl, by simp, Or.inl rfl⟩
  | cons i l ih =>
    intro a
    obtain ⟨r, h1, h2, h3, h4⟩ := ih (max a |x i|)
    refine ⟨r, ?_, (le_max_left _ _).trans h2, ?_, ?_⟩
    · rw [List.foldl_cons, fvec_apply, show fabs (Dbl.fin (x i)) = Dbl.fin |x i| from rfl, Dbl.cmax_fin]; exact h1
    · intro j hj
      rcases List.mem_cons.1 hj with rfl | hj
      · exact (le_max_right _ _).trans h2
      · exact h3 j hj
    · rcases h4 with h4 | h4
      · rcases max_choice a |x i| with hm | hm
        · left; rw [h4, hm]
        · right; exact ⟨i, by rw [h4, hm]⟩
      · exact Or.inr h4

theorem cmax_ninf (a : ℝ) : cmax (-inf : Dbl) (Dbl.fin a) = Dbl.fin a := by
  show (if flt (Dbl.fin a) (-Dbl.pinf) then _ else _) = _
  rw [if_neg]
  rw [Dbl.flt_iff]
  exact id

theorem xmax_fin (hm : 0 < m) (x : Fin m → ℝ) : ∃ r : ℝ,
    (List.finRange m).foldl (fun a i => cmax a (fabs (fvec x i))) (-inf) = Dbl.fin r ∧ (∀ i, |x i| ≤ r) ∧ ∃ i, r = |x i| := by
  obtain ⟨k, rfl⟩ : ∃ k, m = k + 1 := ⟨m - 1, by omega⟩
  rw [List.finRange_succ, List.foldl_cons, fvec_apply, show fabs (Dbl.fin (x 0)) = Dbl.fin |x 0| from rfl, cmax_ninf]
  obtain ⟨r, h1, h2, h3, h4⟩ := xmax_fold x ((List.finRange k).map Fin.succ) |x 0|
  refine ⟨r, h1, fun i => ?_, ?_⟩
  · rcases Fin.eq_zero_or_eq_succ i with rfl | ⟨j, rfl⟩
    · exact h2
    · exact h3 _ (List.mem_map.2 ⟨j, List.mem_finRange j, rfl⟩)
  · rcases h4 with h4 | h4
    · exact ⟨0, h4⟩
    · exact h4

/-- the automatic weight -/
noncomputable def tau0R (x : Fin m → ℝ) : ℝ := max ((2 * m + 1) / ∑ i, |x i|) 1

theorem l1_pos {x : Fin m → ℝ} (hx : x ≠ 0) : 0 < ∑ i, |x i| := by
  obtain ⟨i, hi⟩ := Function.ne_iff.1 hx
  exact Finset.sum_pos' (fun j _ => abs_nonneg _) ⟨i, Finset.mem_univ i, abs_pos.2 hi⟩

theorem init_fin_u {x : Fin m → ℝ} (hx : x ≠ 0) (hm : 2 * (m : Int) + 1 ≤ INT_MAX) : ∃ u : Fin m → ℝ, (∀ i, |x i| < u i) ∧
    (∃ i0, (∀ i, |x i| ≤ |x i0|) ∧ ∀ i, u i = 95 / 100 * |x i| + 1 / 10 * |x i0|) ∧
    ∀ prm : QOpts Dbl, l1qc_newton_init (fvec x) prm =
      (if prm.lbiter = 0 then
        ceilInt ((flog (Dbl.fin (2 * m + 1)) - flog prm.lbtol - flog (Dbl.fin (tau0R x))) / flog prm.mu)
       else some prm.lbiter).map fun L => (fvec u, { prm with tau := Dbl.fin (tau0R x), lbiter := L }) := by
  have hm0 : 0 < m := by
    rcases Nat.eq_zero_or_pos m with rfl | h
    · exact absurd (funext fun i => i.elim0) hx
    · exact h
  obtain ⟨r, h1, h2, i0, h3⟩ := xmax_fin hm0 x
  have hr : 0 < r := by
    obtain ⟨i, hi⟩ := Function.ne_iff.1 hx
    exact (abs_pos.2 hi).trans_le (h2 i)
  refine ⟨fun i => 95 / 100 * |x i| + 1 / 10 * r, fun i => ?_, ⟨i0, fun i => h3 ▸ h2 i, fun i => by rw [h3]⟩, fun prm => ?_⟩
  · have := h2 i
    have := abs_nonneg (x i)
    dsimp only
    linarith
  · have htau : cmax (lit ((2 * (m : Int) + 1 : Int) : ℚ) / dasum (fvec x)) (lit 1) = Dbl.fin (tau0R x) := by
      rw [dasum_fvec, Dbl.lit_eq, Dbl.fin_div (l1_pos hx).ne', Dbl.lit_eq, Dbl.cmax_fin]
      unfold tau0R
      push_cast
      rfl
    have hu : (fun i => lit (95 / 100) * fabs (fvec x i) + lit (1 / 10) * Dbl.fin r : Vec Dbl m) = fvec (fun i => 95 / 100 * |x i| + 1 / 10 * r) := by
      funext i
      rw [fvec_apply, show fabs (Dbl.fin (x i)) = Dbl.fin |x i| from rfl]
      simp
    have hk : cint (2 * (m : Int) + 1) = some (2 * (m : Int) + 1) := cint_fit (by omega) hm
    have hl : (lit 2 * lit (m : ℚ) + lit 1 : Dbl) = Dbl.fin (2 * m + 1) := by simp
    unfold l1qc_newton_init
    dsimp only
    rw [h1, hk, hu]
    simp only [Option.bind_eq_bind, Option.bind_some, hl]
    rw [htau]
    by_cases h0 : prm.lbiter = 0
    · rw [if_pos h0, if_pos h0]
      generalize ceilInt (F := Dbl) _ = o
      cases o <;> rfl
    · rw [if_neg h0, if_neg h0]; rfl

theorem init_fin {x : Fin m → ℝ} (hx : x ≠ 0) (hm : 2 * (m : Int) + 1 ≤ INT_MAX) : ∃ u : Fin m → ℝ, (∀ i, |x i| < u i) ∧
    ∀ prm : QOpts Dbl, l1qc_newton_init (fvec x) prm =
      (if prm.lbiter = 0 then
        ceilInt ((flog (Dbl.fin (2 * m + 1)) - flog prm.lbtol - flog (Dbl.fin (tau0R x))) / flog prm.mu)
       else some prm.lbiter).map fun L => (fvec u, { prm with tau := Dbl.fin (tau0R x), lbiter := L }) := by
  obtain ⟨u, h1, -, h2⟩ := init_fin_u hx hm
  exact ⟨u, h1, h2⟩

/-- the argument of the rounding -/
noncomputable def lbR (x : Fin m → ℝ) (lbtol mu : ℝ) : ℝ :=
  (Real.log (2 * m + 1) - Real.log lbtol - Real.log (tau0R x)) / Real.log mu

theorem tau0R_ge (x : Fin m → ℝ) : 1 ≤ tau0R x := le_max_right _ _

theorem init_auto_arg (x : Fin m → ℝ) {lbtol mu : ℝ} (hl : 0 < lbtol) (hmu : 1 < mu) :
    ((flog (Dbl.fin (2 * m + 1)) - flog (Dbl.fin lbtol) - flog (Dbl.fin (tau0R x))) / flog (Dbl.fin mu)) = Dbl.fin (lbR x lbtol mu) := by
  have := tau0R_ge x
  rw [Dbl.flog_fin (by positivity), Dbl.flog_fin hl, Dbl.flog_fin (by linarith), Dbl.flog_fin (by linarith), Dbl.fin_sub, Dbl.fin_sub,
    Dbl.fin_div (Real.log_pos hmu).ne']
  rfl

theorem ceilInt_fin (a : ℝ) : (ceilInt (Dbl.fin a) : Option Int) = if FitsInt ⌈a⌉ then some ⌈a⌉ else none := by
  show (if FitsInt ⌈a⌉ then some ⌈a⌉ else none : Option Int) = _
  congr

/-- the final weight is large enough -/
theorem final_weight (x : Fin m → ℝ) {lbtol mu : ℝ} (hl : 0 < lbtol) (hmu : 1 < mu) :
    (2 * m + 1) / (tau0R x * mu ^ ⌈lbR x lbtol mu⌉.toNat) ≤ lbtol := by
  have ht : 0 < tau0R x := lt_of_lt_of_le one_pos (tau0R_ge x)
  have hlm := Real.log_pos hmu
  have hk : (0 : ℝ) < 2 * m + 1 := by positivity
  have hmu0 : 0 < mu := by linarith
  have hpow : 0 < mu ^ ⌈lbR x lbtol mu⌉.toNat := pow_pos hmu0 _
  rw [div_le_iff₀ (mul_pos ht hpow), ← Real.log_le_log_iff hk (by positivity), Real.log_mul hl.ne' (mul_pos ht hpow).ne',
    Real.log_mul ht.ne' hpow.ne', Real.log_pow]
  have h1 : lbR x lbtol mu ≤ (⌈lbR x lbtol mu⌉.toNat : ℝ) :=
    (Int.le_ceil _).trans (by exact_mod_cast Int.self_le_toNat _)
  have h2 : lbR x lbtol mu * Real.log mu = Real.log (2 * m + 1) - Real.log lbtol - Real.log (tau0R x) := by
    unfold lbR; field_simp
  nlinarith

/-- the weight of the last barrier problem is too small by less than a factor `mu` -/
theorem last_weight (x : Fin m → ℝ) {lbtol mu : ℝ} (hl : 0 < lbtol) (hmu : 1 < mu) {L : ℕ} (hL : ⌈lbR x lbtol mu⌉.toNat = L + 1) :
    lbtol < (2 * m + 1) / (tau0R x * mu ^ L) ∧ (2 * m + 1) / (tau0R x * mu ^ L) ≤ mu * lbtol := by
  have ht : 0 < tau0R x := lt_of_lt_of_le one_pos (tau0R_ge x)
  have hlm := Real.log_pos hmu
  have hk : (0 : ℝ) < 2 * m + 1 := by positivity
  have hmu0 : 0 < mu := by linarith
  have hpow : 0 < mu ^ L := pow_pos hmu0 _
  constructor
  · rw [lt_div_iff₀ (mul_pos ht hpow), ← Real.log_lt_log_iff (by positivity) hk, Real.log_mul hl.ne' (mul_pos ht hpow).ne',
      Real.log_mul ht.ne' hpow.ne', Real.log_pow]
    have h1 : (L : ℝ) < lbR x lbtol mu := by
      have : ⌈lbR x lbtol mu⌉ = (L : Int) + 1 := by omega
      have h := Int.ceil_lt_add_one (lbR x lbtol mu)
      rw [this] at h
      push_cast at h
      linarith
    have h2 : lbR x lbtol mu * Real.log mu = Real.log (2 * m + 1) - Real.log lbtol - Real.log (tau0R x) := by
      unfold lbR; field_simp
    nlinarith
  · have h := final_weight x hl hmu
    rw [hL, pow_succ, ← mul_assoc, div_mul_eq_div_div, div_le_iff₀ hmu0] at h
    linarith [mul_comm lbtol mu]

/-- the automatic iteration count is defined for every tolerance and start a `double` can hold, and `mu ≥ 2` -/
theorem lb_fits {x : Fin m → ℝ} (hx : (2 : ℝ) ^ (-1100 : ℤ) ≤ ∑ i, |x i|) (hm : 2 * (m : Int) + 1 ≤ INT_MAX) {lbtol mu : ℝ}
    (hl : (2 : ℝ) ^ (-1100 : ℤ) ≤ lbtol) (hl' : lbtol ≤ 2 ^ (1100 : ℤ)) (hmu : 2 ≤ mu) : FitsInt ⌈lbR x lbtol mu⌉ := by
  have l2 : 0 < Real.log 2 := Real.log_pos (by norm_num)
  have hp : (0 : ℝ) < (2 : ℝ) ^ (-1100 : ℤ) := by positivity
  have hl0 : 0 < lbtol := hp.trans_le hl
  have hx0 : 0 < ∑ i, |x i| := hp.trans_le hx
  have hlm : Real.log 2 ≤ Real.log mu := Real.log_le_log (by norm_num) hmu
  have a1 : -1100 * Real.log 2 ≤ Real.log lbtol := by
    have := Real.log_le_log hp hl
    rw [Real.log_zpow] at this
    push_cast at this
    linarith
  have a2 : Real.log lbtol ≤ 1100 * Real.log 2 := by
    have := Real.log_le_log hl0 hl'
    rw [Real.log_zpow] at this
    push_cast at this
    linarith
  have a3 : -1100 * Real.log 2 ≤ Real.log (∑ i, |x i|) := by
    have := Real.log_le_log hp hx
    rw [Real.log_zpow] at this
    push_cast at this
    linarith
  have hk : (0 : ℝ) < 2 * m + 1 := by positivity
  have hk1 : (1 : ℝ) ≤ 2 * m + 1 := by linarith [show (0 : ℝ) ≤ m from Nat.cast_nonneg m]
  have k0 : 0 ≤ Real.log (2 * m + 1) := Real.log_nonneg hk1
  have k1 : Real.log (2 * m + 1) ≤ 31 * Real.log 2 := by
    have h : (2 * m + 1 : ℝ) ≤ 2 ^ 31 := by
      have h1 : ((2 * (m : Int) + 1 : Int) : ℝ) ≤ ((INT_MAX : Int) : ℝ) := by exact_mod_cast hm
      have h2 : ((INT_MAX : Int) : ℝ) ≤ 2 ^ 31 := by norm_num [INT_MAX]
      push_cast at h1
      linarith
    have := Real.log_le_log hk h
    rw [Real.log_pow] at this
    exact_mod_cast this
  have ht : 0 ≤ Real.log (tau0R x) := Real.log_nonneg (tau0R_ge x)
  have ht' : Real.log (tau0R x) ≤ Real.log (2 * m + 1) + 1100 * Real.log 2 := by
    unfold tau0R
    rcases max_choice ((2 * m + 1) / ∑ i, |x i|) (1 : ℝ) with h | h
    · rw [h, Real.log_div hk.ne' hx0.ne']; linarith
    · rw [h, Real.log_one]; positivity
  have hbig : 0 < Real.log mu := by linarith
  have up : lbR x lbtol mu ≤ 1131 := by
    unfold lbR
    rw [div_le_iff₀ hbig]
    nlinarith
  have dn : -2200 ≤ lbR x lbtol mu := by
    unfold lbR
    rw [le_div_iff₀ hbig]
    nlinarith
  have c1 : ⌈lbR x lbtol mu⌉ ≤ 1131 := Int.ceil_le.2 (by exact_mod_cast up)
  have c2 : -2200 ≤ ⌈lbR x lbtol mu⌉ := by
    have := (Int.le_ceil (lbR x lbtol mu))
    have h : ((-2200 : Int) : ℝ) ≤ (⌈lbR x lbtol mu⌉ : ℝ) := by push_cast; linarith
    exact_mod_cast h
  refine ⟨?_, ?_⟩
  · have : INT_MIN ≤ -2200 := by decide
    omega
  · have : (1131 : Int) ≤ INT_MAX := by decide
    omega

/-- the all-zero start -/
theorem init_zero (hm0 : 0 < m) (hm : 2 * (m : Int) + 1 ≤ INT_MAX) (prm : QOpts Dbl) :
    l1qc_newton_init (fvec (0 : Fin m → ℝ)) prm =
      (if prm.lbiter = 0 then ceilInt ((flog (Dbl.fin (2 * m + 1)) - flog prm.lbtol - Dbl.pinf) / flog prm.mu)
       else some prm.lbiter).map fun L => (fvec 0, { prm with tau := Dbl.pinf, lbiter := L }) := by
  obtain ⟨r, h1, h2, i0, h3⟩ := xmax_fin hm0 (0 : Fin m → ℝ)
  have hr : r = 0 := by simpa using h3
  subst hr
  have htau : cmax (lit ((2 * (m : Int) + 1 : Int) : ℚ) / dasum (fvec (0 : Fin m → ℝ))) (lit 1) = Dbl.pinf := by
    rw [dasum_fvec, Dbl.lit_eq]
    have hs : ∑ i, |(0 : Fin m → ℝ) i| = 0 := by simp
    rw [hs]
    have : (Dbl.fin (((2 * (m : Int) + 1 : Int) : ℚ) : ℝ) / Dbl.fin 0 : Dbl) = Dbl.pinf := by
      show (if (0 : ℝ) = 0 then Dbl.infMul _ else _) = _
      rw [if_pos rfl]
      unfold Dbl.infMul
      have hpos : (0 : ℝ) < (((2 * (m : Int) + 1 : Int) : ℚ) : ℝ) := by push_cast; positivity
      rw [if_neg hpos.ne', if_pos hpos]
    rw [this]
    show (if flt (lit 1) Dbl.pinf then Dbl.pinf else lit 1) = _
    rw [if_pos]
    rw [Dbl.flt_iff]; trivial
  have hu : (fun i => lit (95 / 100) * fabs (fvec (0 : Fin m → ℝ) i) + lit (1 / 10) * Dbl.fin 0 : Vec Dbl m) = fvec 0 := by
    funext i
    rw [fvec_apply, show fabs (Dbl.fin ((0 : Fin m → ℝ) i)) = Dbl.fin |(0 : Fin m → ℝ) i| from rfl]
    simp
  have hk : cint (2 * (m : Int) + 1) = some (2 * (m : Int) + 1) := cint_fit (by omega) hm
  have hl : (lit 2 * lit (m : ℚ) + lit 1 : Dbl) = Dbl.fin (2 * m + 1) := by simp
  unfold l1qc_newton_init
  dsimp only
  rw [h1, hk, hu]
  simp only [Option.bind_eq_bind, Option.bind_some, hl]
  rw [htau]
  rw [show flog Dbl.pinf = Dbl.pinf from rfl]
  by_cases h0 : prm.lbiter = 0
  · rw [if_pos h0, if_pos h0]
    generalize ceilInt (F := Dbl) _ = o
    cases o <;> rfl
  · rw [if_neg h0, if_neg h0]; rfl

/-- with the all-zero start the automatic iteration count is an undefined conversion -/
theorem init_zero_undefined (hm0 : 0 < m) (hm : 2 * (m : Int) + 1 ≤ INT_MAX) {prm : QOpts Dbl} (h0 : prm.lbiter = 0) {lbtol mu : ℝ}
    (hl : prm.lbtol = Dbl.fin lbtol) (hl0 : 0 < lbtol) (hmu : prm.mu = Dbl.fin mu) (hmu1 : 1 < mu) :
    l1qc_newton_init (fvec (0 : Fin m → ℝ)) prm = none := by
  rw [init_zero hm0 hm, if_pos h0, hl, hmu, Dbl.flog_fin (by positivity), Dbl.flog_fin hl0, Dbl.flog_fin (by linarith), Dbl.fin_sub]
  have : ((Dbl.fin (Real.log (2 * m + 1) - Real.log lbtol) - Dbl.pinf) / Dbl.fin (Real.log mu) : Dbl) = Dbl.ninf := by
    show (if 0 ≤ Real.log mu then Dbl.ninf else Dbl.pinf) = _
    rw [if_pos (Real.log_pos hmu1).le]
  rw [this]
  rfl

end L1c
