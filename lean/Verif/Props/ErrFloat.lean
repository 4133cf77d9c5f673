import Verif.Proofs.ErrFloat

/-!
# C108: the two error norms in binary64

`l1c_dnrm2_err` and `l1c_dnrm2_rel_err` (the stopping test of TV denoising) square differences and entries without scaling, so what they can tell apart depends on the
range of the squares.  The arrays hold any binary64 numbers, infinities and NaN included, unless stated.
-/

namespace L1c
open Prog Scalar B64

variable {N : ℕ} {m : Mem B64} {x y : Ptr}

/-- The distance does not depend on the order of the arguments, bit for bit, for all contents. -/
theorem C108_symmetric (hx : m.Has x N) (hy : m.Has y N) : (l1c_dnrm2_err (N : Int) x y).run m = (l1c_dnrm2_err (N : Int) y x).run m := by
  rw [run_err hx hy, run_err hy hx]
  have : (fun k : ℕ => (m.val (x + (k : Int)) - m.val (y + (k : Int))) * (m.val (x + (k : Int)) - m.val (y + (k : Int)))) =
      fun k : ℕ => (m.val (y + (k : Int)) - m.val (x + (k : Int))) * (m.val (y + (k : Int)) - m.val (x + (k : Int))) := funext fun k => sqd_symm _ _
  rw [this]

/-- It is never negative. -/
theorem C108_nonneg (hx : m.Has x N) (hy : m.Has y N) :
    ∃ r : B64, (l1c_dnrm2_err (N : Int) x y).run m = some (r, m) ∧ (r.1 = .nan ∨ r.1 = .pinf ∨ ∃ v : ℝ, r.1 = .fin v ∧ 0 ≤ v) :=
  ⟨_, run_err hx hy, sqrt_nn (sumF_nn fun _ _ => sq_nn _)⟩

/-- The distance between equal arrays is exactly 0 if all entries are finite, also where their squares overflow; with an infinite entry it is NaN. -/
theorem C108_equal (hx : m.Has x N) (hy : m.Has y N) (h : ∀ k < N, m.val (x + (k : Int)) = m.val (y + (k : Int))) :
    ∃ r : B64, (l1c_dnrm2_err (N : Int) x y).run m = some (r, m) ∧ ((∀ k < N, (m.val (y + (k : Int))).IsFin) → r = lit 0) ∧
      ((∃ k < N, ¬ (m.val (y + (k : Int))).IsFin) → r.1 = .nan) := by
  refine ⟨_, run_err hx hy, fun hf => ?_, fun ⟨k, hk, hf⟩ => ?_⟩
  · rw [sumF_zero fun k hk => ?_, sqrt_zero]
    rw [h k hk, sub_self_fin (hf k hk), zero_mul_zero]
  · have h1 := sumF_nan nanLaws (g := fun k : ℕ => (m.val (x + (k : Int)) - m.val (y + (k : Int))) * (m.val (x + (k : Int)) - m.val (y + (k : Int)))) hk (by
      show (_ * _ : B64).1 = _
      rw [mul_val, h k hk, sub_self_nan hf]
      rfl)
    rw [sqrt_val, show (sumF _ N : B64).1 = _ from h1]
    rfl

/-- A distance of exactly 0 does not mean that the arrays are equal: it is 0 for any two arrays of finite numbers that differ by at most 2^-538 in each entry. -/
theorem C108_zero_false (hx : m.Has x N) (hy : m.Has y N)
    (h : ∀ k < N, (m.val (x + (k : Int))).IsFin ∧ (m.val (y + (k : Int))).IsFin ∧ |(m.val (x + (k : Int))).toReal - (m.val (y + (k : Int))).toReal| ≤ 2 ^ (-538 : ℤ)) :
    (l1c_dnrm2_err (N : Int) x y).run m = some (lit 0, m) := by
  rw [run_err hx hy, sumF_zero fun k hk => ?_, sqrt_zero]
  obtain ⟨h1, h2, h3⟩ := h k hk
  obtain ⟨r, h4, h5⟩ := sub_tiny h1 h2 (by norm_num) (by norm_num) h3
  exact sq_tiny h4 h5

/-- What remains: if it is 0, all entries are finite and differ by less than 2^-537, for every length. -/
theorem C108_zero_partial (hx : m.Has x N) (hy : m.Has y N) (h : (l1c_dnrm2_err (N : Int) x y).run m = some (lit 0, m)) {k : ℕ} (hk : k < N) :
    (m.val (x + (k : Int))).IsFin ∧ (m.val (y + (k : Int))).IsFin ∧ |(m.val (x + (k : Int))).toReal - (m.val (y + (k : Int))).toReal| < 2 ^ (-537 : ℤ) := by
  rw [run_err hx hy] at h
  have h := congrArg Prod.fst (Option.some.inj h)
  by_cases hd : ∃ r : ℝ, (m.val (x + (k : Int)) - m.val (y + (k : Int))).1 = .fin r ∧ |r| < 2 ^ (-537 : ℤ)
  · obtain ⟨r, h1, h2⟩ := hd
    exact sub_small h1 (by norm_num) h2
  · exact absurd h (sqrt_ne_zero (sumF_ge (rnd_pow le_rfl) (by positivity) (fun _ _ => sq_nn _) hk (sq_pos hd)))

/-- Exactly when the distance is 0: all computed differences are finite with a square of at most 2^-1075. -/
theorem C108_zero_iff (hx : m.Has x N) (hy : m.Has y N) : (l1c_dnrm2_err (N : Int) x y).run m = some (lit 0, m) ↔
    ∀ k < N, ∃ r : ℝ, (m.val (x + (k : Int)) - m.val (y + (k : Int))).1 = .fin r ∧ r ^ 2 ≤ 2 ^ (-1075 : ℤ) := by
  rw [run_err hx hy]
  constructor
  · intro h k hk
    have h := congrArg Prod.fst (Option.some.inj h)
    by_contra hd
    exact absurd h (sqrt_ne_zero (sumF_ge (rnd_pow le_rfl) (by positivity) (fun _ _ => sq_nn _) hk (sq_pos' hd)))
  · intro h
    rw [sumF_zero fun k hk => ?_, sqrt_zero]
    obtain ⟨r, h1, h2⟩ := h k hk
    exact sq_zero h1 h2

/-- The relative error between equal arrays is exactly 0 if all entries are finite and one has size 2^-537 or more. -/
theorem C108_rel_equal (hx : m.Has x N) (hy : m.Has y N) (h : ∀ k < N, m.val (x + (k : Int)) = m.val (y + (k : Int))) (hf : ∀ k < N, (m.val (y + (k : Int))).IsFin)
    (hl : ∃ k < N, 2 ^ (-537 : ℤ) ≤ |(m.val (y + (k : Int))).toReal|) : (l1c_dnrm2_rel_err (N : Int) x y).run m = some (lit 0, m) := by
  obtain ⟨k, hk, hl⟩ := hl
  rw [run_rel hx hy, sumF_zero fun k hk => by rw [h k hk, sub_self_fin (hf k hk), zero_mul_zero]]
  have g : GeN (2 ^ (-1074 : ℤ)) (sumF (fun k => m.val (y + (k : Int)) * m.val (y + (k : Int))) N) :=
    sumF_geN (rnd_pow le_rfl) (by positivity) (fun j hj => sq_fin (eq_fin (hf j hj))) hk (sq_fin_pos (eq_fin (hf k hk)) hl)
  rw [fin_over zero_val g, sqrt_zero]

/-- When the entries of `y` are at most 2^-538 in size, zero or not, the relative error is infinite or NaN whatever `x` is, so that no tolerance is ever met; and NaN if `x` is that close to
`y`, equal arrays included. -/
theorem C108_rel_small_false (hx : m.Has x N) (hy : m.Has y N) (h : ∀ k < N, (m.val (y + (k : Int))).IsFin ∧ |(m.val (y + (k : Int))).toReal| ≤ 2 ^ (-538 : ℤ)) :
    ∃ r : B64, (l1c_dnrm2_rel_err (N : Int) x y).run m = some (r, m) ∧ (∀ tol : B64, flt r tol = false) ∧
      ((∀ k < N, (m.val (x + (k : Int))).IsFin ∧ |(m.val (x + (k : Int))).toReal - (m.val (y + (k : Int))).toReal| ≤ 2 ^ (-538 : ℤ)) → r.1 = .nan) := by
  have e : sumF (fun k => m.val (y + (k : Int)) * m.val (y + (k : Int))) N = lit 0 := sumF_zero fun k hk => sq_tiny (eq_fin (h k hk).1) (h k hk).2
  refine ⟨_, run_rel hx hy, fun tol => ?_, fun hd => ?_⟩
  · rw [e]
    exact over_zero _ _
  · rw [e, sumF_zero fun k hk => ?_]
    · exact zero_over_zero
    · obtain ⟨r, h4, h5⟩ := sub_tiny (hd k hk).1 (h k hk).1 (by norm_num) (by norm_num) (hd k hk).2
      exact sq_tiny h4 h5

/-- When an entry of `y` is 2^512 or more in size, the relative error is exactly 0 for every `x` at a distance that is computed as finite, however far in proportion. -/
theorem C108_rel_large_false (hx : m.Has x N) (hy : m.Has y N) (hf : ∀ k < N, (m.val (y + (k : Int))).IsFin) (hl : ∃ k < N, 2 ^ (512 : ℤ) ≤ |(m.val (y + (k : Int))).toReal|)
    {d : B64} (hd : (l1c_dnrm2_err (N : Int) x y).run m = some (d, m)) (hfd : d.IsFin) : (l1c_dnrm2_rel_err (N : Int) x y).run m = some (lit 0, m) := by
  obtain ⟨k, hk, hl⟩ := hl
  rw [run_err hx hy] at hd
  have hd := congrArg Prod.fst (Option.some.inj hd)
  dsimp only at hd
  rw [run_rel hx hy]
  generalize sumF (fun k => (m.val (x + (k : Int)) - m.val (y + (k : Int))) * (m.val (x + (k : Int)) - m.val (y + (k : Int)))) N = a at hd
  have g1 : Big (sumF (fun k => m.val (y + (k : Int)) * m.val (y + (k : Int))) N) := sumF_big hk (sq_big fun ⟨r, h1, h2⟩ => by
    rw [(val_fin h1).2] at hl
    linarith)
  have g2 : GeN 0 (sumF (fun k => m.val (y + (k : Int)) * m.val (y + (k : Int))) N) := sumF_nnN fun j hj => sq_fin (eq_fin (hf j hj))
  have g3 : (sumF (fun k => m.val (y + (k : Int)) * m.val (y + (k : Int))) N).1 = .pinf := by
    rcases g1 with h | h
    · exact h
    · rcases g2 with g | ⟨r, g, -⟩ <;> rw [h] at g <;> cases g
  have h1 : (fsqrt a.1 : Dbl).IsFin := (of_fin (d := fsqrt a.1) (by rw [← hd] at hfd; exact hfd)).1
  obtain ⟨r, -, hr⟩ := Dbl.sqrt_isFin h1
  rw [over_inf hr g3, sqrt_zero]

/-- When both an entry of `y` and a computed difference are that large it is NaN. -/
theorem C108_rel_huge_false (hx : m.Has x N) (hy : m.Has y N) (hl : ∃ k < N, (m.val (y + (k : Int))).IsFin → 2 ^ (512 : ℤ) ≤ |(m.val (y + (k : Int))).toReal|)
    (hd : ∃ k < N, (m.val (x + (k : Int)) - m.val (y + (k : Int))).IsFin → 2 ^ (512 : ℤ) ≤ |(m.val (x + (k : Int)) - m.val (y + (k : Int))).toReal|) :
    ∃ r : B64, (l1c_dnrm2_rel_err (N : Int) x y).run m = some (r, m) ∧ r.1 = .nan := by
  obtain ⟨k, hk, hl⟩ := hl
  obtain ⟨j, hj, hd⟩ := hd
  have big : ∀ a : B64, (a.IsFin → 2 ^ (512 : ℤ) ≤ |a.toReal|) → Big (a * a) := fun a h => sq_big fun ⟨r, h1, h2⟩ => by
    obtain ⟨h3, rfl⟩ := val_fin h1
    exact absurd (h h3) (not_le.2 h2)
  refine ⟨_, run_rel hx hy, ?_⟩
  rw [sqrt_val, Big.div (sumF_big hj (big _ hd)) (sumF_big hk (big _ hl))]
  rfl

/-! ## Examples -/

/-- the binary64 number 2^k -/
noncomputable def pow2 (k : ℤ) : B64 := of (.fin (2 ^ k))

theorem pow2_val {k : ℤ} (h : -1074 ≤ k ∧ k < 1024) : (pow2 k).1 = .fin (2 ^ k) := by
  show Dbl.round (.fin (2 ^ k)) = .fin (2 ^ k)
  simp only [Dbl.round]
  rw [rnd_pow h.1, abs_of_nonneg (by positivity), if_pos (zpow_lt_zpow_right₀ (by norm_num) h.2)]

/-- two arrays: the number `a` three times in block 0, `b` three times in block 1 -/
def errMem (a b : B64) : Mem B64 := ⟨fun _ => 3, fun p => if p.blk = 0 then a else b⟩

theorem errMem_has (a b : B64) (k : ℕ) : (errMem a b).Has ⟨k, 0⟩ 3 := fun i h0 h1 => ⟨by simpa using h0, by simpa [errMem] using h1⟩

theorem errMem_val (a b : B64) (i : Int) : (errMem a b).val ((⟨0, 0⟩ : Ptr) + i) = a ∧ (errMem a b).val ((⟨1, 0⟩ : Ptr) + i) = b := ⟨rfl, rfl⟩

/-- 2^-540 and 0 are at distance 0 -/
example : (l1c_dnrm2_err 3 ⟨0, 0⟩ ⟨1, 0⟩).run (errMem (pow2 (-540)) (lit 0)) = some (lit 0, errMem (pow2 (-540)) (lit 0)) ∧ pow2 (-540) ≠ lit 0 := by
  obtain ⟨h1, h2⟩ := val_fin (pow2_val (k := -540) (by norm_num))
  obtain ⟨h3, h4⟩ := val_fin zero_val
  refine ⟨C108_zero_false (N := 3) (errMem_has _ _ 0) (errMem_has _ _ 1) fun k _ => ?_, fun h => ?_⟩
  · rw [(errMem_val _ _ _).1, (errMem_val _ _ _).2, h2, h4]
    refine ⟨h1, h3, ?_⟩
    rw [sub_zero, abs_of_nonneg (by positivity)]
    exact zpow_le_zpow_right₀ (by norm_num) (by norm_num)
  · rw [h, h4] at h2
    exact absurd h2.symm (by positivity)

/-- 1 and 0 are not at distance 0 -/
example : (l1c_dnrm2_err 3 ⟨0, 0⟩ ⟨1, 0⟩).run (errMem (pow2 0) (lit 0)) ≠ some (lit 0, errMem (pow2 0) (lit 0)) := fun h => by
  obtain ⟨-, -, h3⟩ := C108_zero_partial (N := 3) (errMem_has _ _ 0) (errMem_has _ _ 1) h (k := 0) (by norm_num)
  rw [(errMem_val _ _ _).1, (errMem_val _ _ _).2, (val_fin (pow2_val (k := 0) (by norm_num))).2, (val_fin zero_val).2, sub_zero, abs_of_nonneg (by positivity)] at h3
  exact absurd h3 (not_lt.2 (zpow_le_zpow_right₀ (by norm_num) (by norm_num)))

theorem round_pow2 {k : ℤ} (h : -1074 ≤ k ∧ k < 1024) : Dbl.round (.fin (2 ^ k)) = .fin (2 ^ k) := pow2_val h

/-- 2^511 has relative error 0 from 2^512 (it is one half), though their distance is computed correctly -/
example : (l1c_dnrm2_rel_err 1 ⟨0, 0⟩ ⟨1, 0⟩).run (errMem (pow2 511) (pow2 512)) = some (lit 0, errMem (pow2 511) (pow2 512)) ∧
    (l1c_dnrm2_err 1 ⟨0, 0⟩ ⟨1, 0⟩).run (errMem (pow2 511) (pow2 512)) = some (pow2 511, errMem (pow2 511) (pow2 512)) := by
  have hx : (errMem (pow2 511) (pow2 512)).Has ⟨0, 0⟩ ((1 : ℕ) : Int) := fun i h0 h1 => errMem_has _ _ 0 i h0 (by push_cast at h1; omega)
  have hy : (errMem (pow2 511) (pow2 512)).Has ⟨1, 0⟩ ((1 : ℕ) : Int) := fun i h0 h1 => errMem_has _ _ 1 i h0 (by push_cast at h1; omega)
  have e : (l1c_dnrm2_err ((1 : ℕ) : Int) ⟨0, 0⟩ ⟨1, 0⟩).run (errMem (pow2 511) (pow2 512)) = some (pow2 511, errMem (pow2 511) (pow2 512)) := by
    rw [run_err hx hy]
    have h : (pow2 512 - pow2 511).1 = .fin (2 ^ (511 : ℤ)) := by
      rw [sub_val, pow2_val (by norm_num), pow2_val (by norm_num), Dbl.fin_sub,
        show (2 : ℝ) ^ (512 : ℤ) - 2 ^ (511 : ℤ) = 2 ^ (511 : ℤ) by
          rw [show (512 : ℤ) = 511 + 1 by norm_num, zpow_add_one₀ (by norm_num)]; generalize (2 : ℝ) ^ (511 : ℤ) = t; ring]
      exact round_pow2 (by norm_num)
    have h2 : ((pow2 512 - pow2 511) * (pow2 512 - pow2 511)).1 = .fin (2 ^ (1022 : ℤ)) := by
      rw [mul_val, h, Dbl.fin_mul, ← zpow_add₀ (by norm_num)]
      exact round_pow2 (by norm_num)
    have h3 : sumF (fun k : ℕ => ((errMem (pow2 511) (pow2 512)).val ((⟨0, 0⟩ : Ptr) + (k : Int)) - (errMem (pow2 511) (pow2 512)).val ((⟨1, 0⟩ : Ptr) + (k : Int))) *
        ((errMem (pow2 511) (pow2 512)).val ((⟨0, 0⟩ : Ptr) + (k : Int)) - (errMem (pow2 511) (pow2 512)).val ((⟨1, 0⟩ : Ptr) + (k : Int)))) 1 = pow2 1022 := by
      show lit 0 + (pow2 511 - pow2 512) * (pow2 511 - pow2 512) = _
      refine Subtype.ext ?_
      rw [sqd_symm, add_val, zero_val, h2, Dbl.fin_add, zero_add, pow2_val (by norm_num)]
      exact round_pow2 (by norm_num)
    rw [h3]
    congr 2
    refine Subtype.ext ?_
    rw [sqrt_val, pow2_val (by norm_num), Dbl.fsqrt_fin (by positivity), pow2_val (by norm_num),
      show √((2 : ℝ) ^ (1022 : ℤ)) = 2 ^ (511 : ℤ) by
        rw [show (1022 : ℤ) = 511 + 511 by norm_num, zpow_add₀ (by norm_num)]; exact Real.sqrt_mul_self (by positivity)]
    exact round_pow2 (by norm_num)
  obtain ⟨f1, f2⟩ := val_fin (pow2_val (k := 512) (by norm_num))
  refine ⟨C108_rel_large_false (N := 1) hx hy (fun k _ => f1) ⟨0, one_pos, ?_⟩ e (val_fin (pow2_val (k := 511) (by norm_num))).1, e⟩
  rw [(errMem_val _ _ _).2, f2]
  exact le_abs_self _

/-- 2^-540 has relative error NaN from itself, and 1 has relative error 0 from itself -/
example : (∃ r : B64, (l1c_dnrm2_rel_err 3 ⟨0, 0⟩ ⟨1, 0⟩).run (errMem (pow2 (-540)) (pow2 (-540))) = some (r, errMem (pow2 (-540)) (pow2 (-540))) ∧ r.1 = .nan) ∧
    (l1c_dnrm2_rel_err 3 ⟨0, 0⟩ ⟨1, 0⟩).run (errMem (pow2 0) (pow2 0)) = some (lit 0, errMem (pow2 0) (pow2 0)) := by
  obtain ⟨f1, f2⟩ := val_fin (pow2_val (k := -540) (by norm_num))
  obtain ⟨g1, g2⟩ := val_fin (pow2_val (k := 0) (by norm_num))
  constructor
  · obtain ⟨r, h1, -, h3⟩ := C108_rel_small_false (N := 3) (errMem_has (pow2 (-540)) (pow2 (-540)) 0) (errMem_has _ _ 1) fun k _ => ⟨f1, by
      rw [(errMem_val _ _ _).2, f2, abs_of_nonneg (by positivity)]
      exact zpow_le_zpow_right₀ (by norm_num) (by norm_num)⟩
    exact ⟨r, h1, h3 fun k _ => ⟨f1, by
      rw [(errMem_val _ _ _).1, (errMem_val _ _ _).2, sub_self, abs_zero]
      positivity⟩⟩
  · refine C108_rel_equal (N := 3) (errMem_has _ _ 0) (errMem_has _ _ 1) (fun _ _ => rfl) (fun _ _ => g1) ⟨0, by norm_num, ?_⟩
    rw [(errMem_val _ _ _).2, g2, abs_of_nonneg (by positivity)]
    exact zpow_le_zpow_right₀ (by norm_num) (by norm_num)

end L1c
