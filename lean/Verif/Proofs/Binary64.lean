import Verif.Base.Binary64
import Verif.Spec.Rounding

/-! # Binary64 and exact arithmetic satisfy the laws of rounded arithmetic -/

namespace L1c
open Scalar

namespace Dbl

theorem isFin_iff {d : Dbl} : d.IsFin ↔ ∃ r, d = fin r := by
  cases d <;> simp [IsFin]

theorem infMul_not (r : ℝ) : ¬ (infMul r).IsFin := by
  unfold infMul
  split_ifs <;> simp [IsFin]

theorem add_isFin {a b : Dbl} (h : (a + b).IsFin) : ∃ x y, a = fin x ∧ b = fin y := by
  cases a <;> cases b <;> first | exact ⟨_, _, rfl, rfl⟩ | exact absurd h (fun h => h)

theorem sub_isFin {a b : Dbl} (h : (a - b).IsFin) : ∃ x y, a = fin x ∧ b = fin y := by
  cases a <;> cases b <;> first | exact ⟨_, _, rfl, rfl⟩ | exact absurd h (fun h => h)

theorem mul_isFin {a b : Dbl} (h : (a * b).IsFin) : ∃ x y, a = fin x ∧ b = fin y := by
  cases a <;> cases b <;> first | exact ⟨_, _, rfl, rfl⟩ | exact absurd h (fun h => h) | exact absurd h (infMul_not _)

theorem abs_isFin {a : Dbl} (h : (fabs a).IsFin) : ∃ x, a = fin x := by
  cases a <;> first | exact ⟨_, rfl⟩ | exact absurd h (fun h => h)

theorem sqrt_isFin {a : Dbl} (h : (fsqrt a).IsFin) : ∃ x, 0 ≤ x ∧ a = fin x := by
  cases a with
  | fin x =>
    rw [fsqrt_fin'] at h
    split_ifs at h with hx
    · exact absurd h (fun h => h)
    · exact ⟨x, not_lt.1 hx, rfl⟩
  | _ => exact absurd h (fun h => h)

end Dbl

/-- exact arithmetic -/
noncomputable def exactModel : FpModel Dbl where
  val := Dbl.toReal
  fin := Dbl.IsFin
  u := 0
  w := 0
  u_nonneg := le_rfl
  w_nonneg := le_rfl
  zero := by simp [Dbl.toReal]
  add h := by
    obtain ⟨x, y, rfl, rfl⟩ := Dbl.add_isFin h
    exact ⟨trivial, trivial, 0, by simp, by simp [Dbl.toReal]⟩
  sub h := by
    obtain ⟨x, y, rfl, rfl⟩ := Dbl.sub_isFin h
    exact ⟨trivial, trivial, 0, by simp, by simp [Dbl.toReal]⟩
  mul h := by
    obtain ⟨x, y, rfl, rfl⟩ := Dbl.mul_isFin h
    exact ⟨trivial, trivial, 0, 0, by simp, by simp, by simp [Dbl.toReal]⟩
  fabs h := by
    obtain ⟨x, rfl⟩ := Dbl.abs_isFin h
    exact ⟨trivial, by simp [Dbl.toReal]⟩
  sqrt h := by
    obtain ⟨x, hx, rfl⟩ := Dbl.sqrt_isFin h
    exact ⟨trivial, hx, 0, by simp, by simp [Dbl.toReal, Dbl.fsqrt_fin hx]⟩

namespace B64

theorem val_fin {a : B64} {x : ℝ} (h : a.1 = Dbl.fin x) : a.IsFin ∧ a.toReal = x := by
  unfold IsFin toReal
  rw [h]
  exact ⟨trivial, rfl⟩

end B64

/-- the square root of a positive binary64 number is in the normal range -/
theorem sqrt_normal {x : ℝ} (hx : 0 < x) (hg : Grid x) : 2 ^ (-1022 : ℤ) ≤ |√x| := by
  obtain ⟨n, rfl⟩ := hg
  have h2 : (0 : ℝ) < 2 ^ (-1074 : ℤ) := by positivity
  have hn : (1 : ℝ) ≤ n := by
    have : (0 : ℝ) < n := (mul_pos_iff_of_pos_right h2).1 hx
    exact_mod_cast this
  rw [abs_of_nonneg (Real.sqrt_nonneg _)]
  refine Real.le_sqrt_of_sq_le ?_
  have e : ((2 : ℝ) ^ (-1022 : ℤ)) ^ 2 = 2 ^ (-2044 : ℤ) := by
    rw [← zpow_natCast, ← zpow_mul]
    norm_num
  have h3 : (2 : ℝ) ^ (-2044 : ℤ) ≤ 2 ^ (-1074 : ℤ) := zpow_le_zpow_right₀ (by norm_num) (by norm_num)
  rw [e]
  nlinarith

/-- IEEE binary64 has the laws with `u = 2^-53` and `w = 2^-1075` -/
noncomputable def b64Model : FpModel B64 where
  val := B64.toReal
  fin := B64.IsFin
  u := u64
  w := w64
  u_nonneg := u64_nonneg
  w_nonneg := w64_nonneg
  zero := by
    show (Dbl.round (Dbl.fin ((0 : ℚ) : ℝ))).toReal = 0
    simp [Dbl.round, rnd_zero, Dbl.toReal]
  add {a b} h := by
    obtain ⟨h1, h2⟩ := B64.of_fin (d := a.1 + b.1) h
    obtain ⟨x, y, ha, hb⟩ := Dbl.add_isFin h1
    obtain ⟨fa, va⟩ := B64.val_fin ha
    obtain ⟨fb, vb⟩ := B64.val_fin hb
    obtain ⟨δ, hd, he⟩ := rnd_grid_err ((B64.grid fa).add (B64.grid fb))
    refine ⟨fa, fb, δ, hd, ?_⟩
    rw [← he]
    refine h2.trans ?_
    rw [ha, hb, va, vb]
    rfl
  sub {a b} h := by
    obtain ⟨h1, h2⟩ := B64.of_fin (d := a.1 - b.1) h
    obtain ⟨x, y, ha, hb⟩ := Dbl.sub_isFin h1
    obtain ⟨fa, va⟩ := B64.val_fin ha
    obtain ⟨fb, vb⟩ := B64.val_fin hb
    obtain ⟨δ, hd, he⟩ := rnd_grid_err ((B64.grid fa).add (B64.grid fb).neg)
    refine ⟨fa, fb, δ, hd, ?_⟩
    rw [sub_eq_add_neg, ← he]
    refine h2.trans ?_
    rw [ha, hb, va, vb]
    rfl
  mul {a b} h := by
    obtain ⟨h1, h2⟩ := B64.of_fin (d := a.1 * b.1) h
    obtain ⟨x, y, ha, hb⟩ := Dbl.mul_isFin h1
    obtain ⟨fa, va⟩ := B64.val_fin ha
    obtain ⟨fb, vb⟩ := B64.val_fin hb
    obtain ⟨δ, η, hd, he, hr⟩ := rnd_err (a.toReal * b.toReal)
    refine ⟨fa, fb, δ, η, hd, he, ?_⟩
    rw [← hr]
    refine h2.trans ?_
    rw [ha, hb, va, vb]
    rfl
  fabs {a} h := by
    obtain ⟨x, ha⟩ := Dbl.abs_isFin (a := a.1) h
    obtain ⟨fa, va⟩ := B64.val_fin ha
    refine ⟨fa, ?_⟩
    show (Scalar.fabs a.1).toReal = _
    rw [va, ha]
    rfl
  sqrt {a} h := by
    obtain ⟨h1, h2⟩ := B64.of_fin (d := fsqrt a.1) h
    obtain ⟨x, hx, ha⟩ := Dbl.sqrt_isFin h1
    obtain ⟨fa, va⟩ := B64.val_fin ha
    refine ⟨fa, va ▸ hx, ?_⟩
    have e : B64.toReal (fsqrt a) = rnd √a.toReal := by
      refine h2.trans ?_
      rw [ha, va, Dbl.fsqrt_fin hx]
      rfl
    rw [e]
    rcases hx.eq_or_lt with h0 | hp
    · rw [va, ← h0, Real.sqrt_zero, rnd_zero]
      exact ⟨0, by simpa using u64_nonneg, by simp⟩
    · exact rnd_normal_err (sqrt_normal (va ▸ hp) (B64.grid fa))

end L1c
