import Verif.Base.Scalar
import Mathlib.Data.Int.Log
import Mathlib.Algebra.Order.Floor.Ring

/-!
# IEEE binary64 arithmetic

`B64` is the set of finite binary64 numbers (those obtained by rounding a real), the infinities and NaN.  Each operation is the
exact one of `Dbl` followed by rounding to nearest, ties to even, with gradual underflow and overflow to infinity (IEEE 754-2019
section 4.3.1).  Not modelled: the sign of zero and NaN payloads.  `log` and `exp` are taken as correctly rounded; no theorem on
`B64` uses that.
-/

namespace L1c

/-- nearest integer, ties to even -/
noncomputable def rne (y : ℝ) : ℤ :=
  if y - ⌊y⌋ < 1 / 2 then ⌊y⌋ else if 1 / 2 < y - ⌊y⌋ then ⌊y⌋ + 1 else if Even ⌊y⌋ then ⌊y⌋ else ⌊y⌋ + 1

theorem rne_err (y : ℝ) : |(rne y : ℝ) - y| ≤ 1 / 2 := by
  have h0 := Int.floor_le y
  have h1 := Int.lt_floor_add_one y
  unfold rne
  rw [abs_le]
  split_ifs <;> push_cast <;> constructor <;> linarith

theorem rne_int (n : ℤ) : rne n = n := by
  unfold rne
  simp

theorem rne_nonneg {y : ℝ} (h : 0 ≤ y) : 0 ≤ rne y := by
  have := Int.floor_nonneg.2 h
  unfold rne
  split_ifs <;> omega

/-- spacing of the binary64 numbers around `x`: 53 significant bits, smallest exponent -1074 -/
noncomputable def ulp (x : ℝ) : ℝ := 2 ^ max (Int.log 2 x - 52) (-1074)

theorem ulp_pos (x : ℝ) : 0 < ulp x := by
  unfold ulp
  positivity

/-- rounding of a nonnegative real, exponent unbounded above -/
noncomputable def rndPos (x : ℝ) : ℝ := rne (x / ulp x) * ulp x

/-- rounding to binary64, exponent unbounded above -/
noncomputable def rnd (x : ℝ) : ℝ := if x < 0 then -rndPos (-x) else rndPos x

theorem rndPos_nonneg {x : ℝ} (h : 0 ≤ x) : 0 ≤ rndPos x :=
  mul_nonneg (by exact_mod_cast rne_nonneg (div_nonneg h (ulp_pos x).le)) (ulp_pos x).le

theorem rndPos_err (x : ℝ) : |rndPos x - x| ≤ ulp x / 2 := by
  have hp := ulp_pos x
  have h := rne_err (x / ulp x)
  have e : rndPos x - x = (rne (x / ulp x) - x / ulp x) * ulp x := by
    unfold rndPos
    field_simp
  rw [e, abs_mul, abs_of_pos hp]
  nlinarith

theorem rnd_zero : rnd 0 = 0 := by
  unfold rnd rndPos
  have : rne ((0 : ℤ) : ℝ) = 0 := rne_int 0
  simpa using Or.inl this

theorem rnd_neg (x : ℝ) : rnd (-x) = -rnd x := by
  unfold rnd
  rcases lt_trichotomy x 0 with h | h | h
  · rw [if_neg (by linarith), if_pos h, neg_neg]
  · subst h
    have := rnd_zero
    unfold rnd at this
    simp only [lt_irrefl, if_false] at this
    simp [this]
  · rw [if_pos (by linarith), if_neg (by linarith), neg_neg]

theorem rnd_abs (x : ℝ) : |rnd x| = rnd |x| := by
  have key : ∀ y, 0 ≤ y → 0 ≤ rnd y := fun y h => by
    unfold rnd
    rw [if_neg (not_lt.2 h)]
    exact rndPos_nonneg h
  rcases le_total 0 x with h | h
  · rw [abs_of_nonneg h, abs_of_nonneg (key x h)]
  · rw [abs_of_nonpos h, rnd_neg, abs_of_nonpos]
    have := key (-x) (by linarith)
    rw [rnd_neg] at this
    linarith

/-- unit roundoff of binary64 -/
noncomputable def u64 : ℝ := 2 ^ (-53 : ℤ)
/-- half the smallest positive binary64 number -/
noncomputable def w64 : ℝ := 2 ^ (-1075 : ℤ)

/-- relative error `u64` in the normal range, absolute error `w64` below -/
theorem rndPos_cases {x : ℝ} (hx : 0 < x) : |rndPos x - x| ≤ u64 * x ∨ (x < 2 ^ (-1022 : ℤ) ∧ |rndPos x - x| ≤ w64) := by
  have h := rndPos_err x
  have hl : (2 : ℝ) ^ Int.log 2 x ≤ x := by exact_mod_cast Int.zpow_log_le_self (b := 2) (by norm_num) hx
  have hu : x < (2 : ℝ) ^ (Int.log 2 x + 1) := by exact_mod_cast Int.lt_zpow_succ_log_self (b := 2) (by norm_num) x
  rcases le_or_gt (-1074) (Int.log 2 x - 52) with hc | hc
  · refine Or.inl (h.trans ?_)
    have e : ulp x / 2 = u64 * 2 ^ Int.log 2 x := by
      unfold ulp u64
      rw [max_eq_left hc, ← zpow_add₀ (by norm_num), div_eq_mul_inv, ← zpow_neg_one, ← zpow_add₀ (by norm_num)]
      congr 1
      ring
    rw [e]
    exact mul_le_mul_of_nonneg_left hl (by unfold u64; positivity)
  · refine Or.inr ⟨hu.trans_le (zpow_le_zpow_right₀ (by norm_num) (by omega)), h.trans (le_of_eq ?_)⟩
    unfold ulp w64
    rw [max_eq_right hc.le, div_eq_mul_inv, ← zpow_neg_one, ← zpow_add₀ (by norm_num)]
    norm_num

/-- multiples of the smallest positive number -/
def Grid (x : ℝ) : Prop := ∃ n : ℤ, x = n * 2 ^ (-1074 : ℤ)

theorem Grid.neg {x : ℝ} (h : Grid x) : Grid (-x) := by
  obtain ⟨n, rfl⟩ := h
  exact ⟨-n, by push_cast; ring⟩

theorem Grid.add {x y : ℝ} (hx : Grid x) (hy : Grid y) : Grid (x + y) := by
  obtain ⟨n, rfl⟩ := hx
  obtain ⟨k, rfl⟩ := hy
  exact ⟨n + k, by push_cast; ring⟩

theorem rndPos_grid (x : ℝ) : Grid (rndPos x) := by
  have h : (0 : ℤ) ≤ max (Int.log 2 x - 52) (-1074) + 1074 := by omega
  obtain ⟨k, hk⟩ := Int.eq_ofNat_of_zero_le h
  refine ⟨rne (x / ulp x) * 2 ^ k, ?_⟩
  unfold rndPos
  have e : ulp x = 2 ^ k * 2 ^ (-1074 : ℤ) := by
    unfold ulp
    rw [← zpow_natCast, ← zpow_add₀ (by norm_num)]
    congr 1
    omega
  push_cast
  rw [mul_assoc, ← e]

theorem rnd_grid (x : ℝ) : Grid (rnd x) := by
  unfold rnd
  split_ifs
  · exact (rndPos_grid _).neg
  · exact rndPos_grid _

/-- sums of binary64 numbers do not underflow: below the normal range they are exact -/
theorem rndPos_rel_of_grid {x : ℝ} (hx : 0 < x) (hg : Grid x) : |rndPos x - x| ≤ u64 * x := by
  rcases le_or_gt (-1074) (Int.log 2 x - 52) with hc | hc
  · rcases rndPos_cases hx with h | ⟨h, -⟩
    · exact h
    · have hl : (2 : ℝ) ^ Int.log 2 x ≤ x := by exact_mod_cast Int.zpow_log_le_self (b := 2) (by norm_num) hx
      have : (2 : ℝ) ^ (-1022 : ℤ) ≤ 2 ^ Int.log 2 x := zpow_le_zpow_right₀ (by norm_num) (by omega)
      linarith
  · obtain ⟨n, hn⟩ := hg
    have e : ulp x = 2 ^ (-1074 : ℤ) := by
      unfold ulp
      rw [max_eq_right hc.le]
    have : rndPos x = x := by
      unfold rndPos
      rw [e]
      have hd : x / 2 ^ (-1074 : ℤ) = n := by
        rw [hn]
        field_simp
      rw [hd, rne_int, ← hn]
    rw [this, sub_self, abs_zero]
    exact mul_nonneg (by unfold u64; positivity) hx.le

/-- a bound for positive arguments carries over to all -/
theorem rnd_of_pos {x : ℝ} (P : ℝ → ℝ → Prop) (h0 : P 0 0) (hp : 0 < |x| → P |x| (rndPos |x| - |x|)) (hs : ∀ a b, P a b → P a (-b)) :
    P |x| (rnd x - x) := by
  rcases lt_trichotomy x 0 with h | h | h
  · have := hs _ _ (hp (abs_pos.2 h.ne))
    rw [abs_of_neg h] at this ⊢
    unfold rnd
    rw [if_pos h]
    convert this using 1
    ring
  · subst h
    rw [rnd_zero, abs_zero, sub_zero]
    exact h0
  · have := hp (abs_pos.2 h.ne')
    rw [abs_of_pos h] at this ⊢
    unfold rnd
    rwa [if_neg (by linarith)]

theorem u64_nonneg : 0 ≤ u64 := by unfold u64; positivity
theorem w64_nonneg : 0 ≤ w64 := by unfold w64; positivity

/-- relative error as a factor -/
theorem factor {x r : ℝ} (h : |r - x| ≤ u64 * |x|) : ∃ δ, |δ| ≤ u64 ∧ r = x * (1 + δ) := by
  by_cases hx : x = 0
  · subst hx
    refine ⟨0, by simpa using u64_nonneg, ?_⟩
    have : |r - 0| ≤ 0 := by simpa using h
    have := abs_nonpos_iff.1 this
    linarith
  · refine ⟨(r - x) / x, ?_, by field_simp; ring⟩
    rw [abs_div, div_le_iff₀ (abs_pos.2 hx)]
    exact h

/-- rounding of a sum -/
theorem rnd_grid_err {x : ℝ} (hg : Grid x) : ∃ δ, |δ| ≤ u64 ∧ rnd x = x * (1 + δ) := by
  refine factor (rnd_of_pos (fun a b => |b| ≤ u64 * a) (by simp) (fun hp => ?_) (fun a b h => by rwa [abs_neg]))
  have hg' : Grid |x| := by
    rcases abs_choice x with h | h <;> rw [h]
    · exact hg
    · exact hg.neg
  exact rndPos_rel_of_grid hp hg'

/-- rounding of anything in the normal range -/
theorem rnd_normal_err {x : ℝ} (hn : 2 ^ (-1022 : ℤ) ≤ |x|) : ∃ δ, |δ| ≤ u64 ∧ rnd x = x * (1 + δ) := by
  refine factor (rnd_of_pos (fun a b => 2 ^ (-1022 : ℤ) ≤ a → |b| ≤ u64 * a) (by simp) (fun hp hn => ?_) (fun a b h => by rwa [abs_neg]) hn)
  rcases rndPos_cases hp with h | ⟨h, -⟩
  · exact h
  · linarith

/-- rounding of any real -/
theorem rnd_err (x : ℝ) : ∃ δ η, |δ| ≤ u64 ∧ |η| ≤ w64 ∧ rnd x = x * (1 + δ) + η := by
  have := rnd_of_pos (x := x) (fun a b => |b| ≤ u64 * a ∨ |b| ≤ w64) (by simp) (fun hp => (rndPos_cases hp).imp_right And.right)
    (fun a b h => by rwa [abs_neg])
  rcases this with h | h
  · obtain ⟨δ, h1, h2⟩ := factor h
    exact ⟨δ, 0, h1, by simpa using w64_nonneg, by linarith⟩
  · exact ⟨0, rnd x - x, by simpa using u64_nonneg, h, by ring⟩

/-! ## The type -/

/-- rounding of an extended real: overflow gives an infinity -/
noncomputable def Dbl.round : Dbl → Dbl
  | Dbl.fin r => if |rnd r| < 2 ^ (1024 : ℤ) then Dbl.fin (rnd r) else if 0 < r then Dbl.pinf else Dbl.ninf
  | d => d

/-- binary64 values: a finite one is the rounding of a real and below `2^1024` -/
def B64 : Type := {d : Dbl // ∀ r, d = Dbl.fin r → (∃ x, r = rnd x) ∧ |r| < 2 ^ (1024 : ℤ)}

namespace B64

/-- round to binary64 -/
noncomputable def of (d : Dbl) : B64 := ⟨d.round, by
  intro r h
  cases d with
  | fin x =>
    simp only [Dbl.round] at h
    split_ifs at h with h1
    simp only [Dbl.fin.injEq] at h
    subst h
    exact ⟨⟨x, rfl⟩, h1⟩
  | _ => simp [Dbl.round] at h⟩

noncomputable instance : Scalar B64 where
  add a b := of (a.1 + b.1)
  sub a b := of (a.1 - b.1)
  mul a b := of (a.1 * b.1)
  div a b := of (a.1 / b.1)
  neg a := of (-a.1)
  lit q := of (Scalar.lit q)
  inf := of Dbl.pinf
  nan := of Dbl.nan
  fabs a := ⟨Scalar.fabs a.1, by
    obtain ⟨d, hd⟩ := a
    intro r h
    cases d with
    | fin x =>
      obtain ⟨⟨y, rfl⟩, h2⟩ := hd x rfl
      simp only [Dbl.fabs_fin, Dbl.fin.injEq] at h
      subst h
      exact ⟨⟨|y|, rnd_abs y⟩, by rwa [abs_abs]⟩
    | _ => cases h⟩
  fsqrt a := of (Scalar.fsqrt a.1)
  flog a := of (Scalar.flog a.1)
  fexp a := of (Scalar.fexp a.1)
  flt a b := Scalar.flt a.1 b.1
  fle a b := Scalar.fle a.1 b.1
  feq a b := Scalar.feq a.1 b.1
  isNaN a := Scalar.isNaN a.1
  ceilInt a := Scalar.ceilInt a.1

/-- neither infinite nor NaN -/
def IsFin (a : B64) : Prop := a.1.IsFin
/-- value of a finite number -/
noncomputable def toReal (a : B64) : ℝ := a.1.toReal

theorem grid {a : B64} (h : a.IsFin) : Grid a.toReal := by
  obtain ⟨d, hd⟩ := a
  cases d with
  | fin r =>
    obtain ⟨⟨x, rfl⟩, -⟩ := hd r rfl
    exact rnd_grid x
  | _ => exact absurd h (by simp [IsFin, Dbl.IsFin])

theorem of_fin {d : Dbl} (h : (of d).IsFin) : d.IsFin ∧ (of d).toReal = rnd d.toReal := by
  cases d with
  | fin x =>
    refine ⟨trivial, ?_⟩
    simp only [IsFin, of, Dbl.round] at h
    simp only [toReal, of, Dbl.round]
    split_ifs at h ⊢ with h1
    · rfl
    · simp [Dbl.IsFin] at h
    · simp [Dbl.IsFin] at h
  | _ => exact absurd h (by simp [IsFin, of, Dbl.round, Dbl.IsFin])

end B64
end L1c
