import Verif.Proofs.CgFloat
import Verif.Proofs.BregmanRun

/-! Lemmas for the error norms in binary64 -/

namespace L1c
open Prog Scalar

namespace B64

theorem sub_val (a b : B64) : (a - b).1 = Dbl.round (a.1 - b.1) := rfl
theorem mul_val (a b : B64) : (a * b).1 = Dbl.round (a.1 * b.1) := rfl
theorem add_val (a b : B64) : (a + b).1 = Dbl.round (a.1 + b.1) := rfl
theorem div_val (a b : B64) : (a / b).1 = Dbl.round (a.1 / b.1) := rfl
theorem sqrt_val (a : B64) : (fsqrt a).1 = Dbl.round (fsqrt a.1) := rfl

/-- `c` or more, or infinite, or NaN -/
def Ge (c : ℝ) (a : B64) : Prop := a.1 = .nan ∨ a.1 = .pinf ∨ ∃ r : ℝ, a.1 = .fin r ∧ c ≤ r

/-- `c` or more, or infinite -/
def GeN (c : ℝ) (a : B64) : Prop := a.1 = .pinf ∨ ∃ r : ℝ, a.1 = .fin r ∧ c ≤ r

theorem GeN.ge {c : ℝ} {a : B64} (h : GeN c a) : Ge c a := .inr h

theorem Big.ge {a : B64} (h : Big a) (c : ℝ) : Ge c a := h.elim (fun h => .inr (.inl h)) .inl

theorem GeN.mono {c d : ℝ} {a : B64} (h : GeN c a) (hd : d ≤ c) : GeN d a := h.imp_right fun ⟨r, h1, h2⟩ => ⟨r, h1, hd.trans h2⟩

theorem Ge.mono {c d : ℝ} {a : B64} (h : Ge c a) (hd : d ≤ c) : Ge d a := h.imp_right fun h => GeN.mono h hd

theorem round_ge {c x : ℝ} (hc : rnd c = c) (h0 : 0 ≤ c) (h : c ≤ x) : Dbl.round (.fin x) = .pinf ∨ ∃ r : ℝ, Dbl.round (.fin x) = .fin r ∧ c ≤ r := by
  have h1 : c ≤ rnd x := hc ▸ rnd_mono h
  simp only [Dbl.round]
  split_ifs with h2 h3
  · exact .inr ⟨_, rfl, h1⟩
  · exact .inl rfl
  · have : x = 0 := le_antisymm (not_lt.1 h3) (h0.trans h)
    rw [this, rnd_zero, abs_zero] at h2
    exact absurd (by positivity) h2

theorem GeN.add {c : ℝ} (hc : rnd c = c) (h0 : 0 ≤ c) {a b : B64} (ha : GeN c a) (hb : GeN 0 b) : GeN c (a + b) := by
  unfold GeN
  rw [add_val]
  rcases ha with ha | ⟨r, ha, hr⟩ <;> rcases hb with hb | ⟨t, hb, ht⟩ <;> rw [ha, hb]
  · exact .inl rfl
  · exact .inl rfl
  · exact .inl rfl
  · rw [Dbl.fin_add]
    exact round_ge hc h0 (by linarith)

theorem GeN.add' {c : ℝ} (hc : rnd c = c) (h0 : 0 ≤ c) {a b : B64} (ha : GeN 0 a) (hb : GeN c b) : GeN c (a + b) := by
  unfold GeN
  rw [add_val]
  rcases ha with ha | ⟨r, ha, hr⟩ <;> rcases hb with hb | ⟨t, hb, ht⟩ <;> rw [ha, hb]
  · exact .inl rfl
  · exact .inl rfl
  · exact .inl rfl
  · rw [Dbl.fin_add]
    exact round_ge hc h0 (by linarith)

theorem Ge.add {c : ℝ} (hc : rnd c = c) (h0 : 0 ≤ c) {a b : B64} (ha : Ge c a) (hb : Ge 0 b) : Ge c (a + b) := by
  rcases ha with ha | ha
  · exact (Big.add_left (.inr ha) b).ge c
  rcases hb with hb | hb
  · exact (Big.add_right (.inr hb) a).ge c
  exact .inr (GeN.add hc h0 ha hb)

theorem Ge.add' {c : ℝ} (hc : rnd c = c) (h0 : 0 ≤ c) {a b : B64} (ha : Ge 0 a) (hb : Ge c b) : Ge c (a + b) := by
  rcases ha with ha | ha
  · exact (Big.add_left (.inr ha) b).ge c
  rcases hb with hb | hb
  · exact (Big.add_right (.inr hb) a).ge c
  exact .inr (GeN.add' hc h0 ha hb)

/-- the least positive number -/
theorem rnd_pow {k : ℤ} (hk : -1074 ≤ k) : rnd (2 ^ k) = 2 ^ k := by
  have h := rndPos_of_bits (n := 1) (e := k) (by norm_num) (by norm_num) hk
  unfold rnd
  rw [if_neg (not_lt.2 (by positivity))]
  simpa using h

theorem sq_fin {d : B64} {r : ℝ} (h : d.1 = .fin r) : GeN 0 (d * d) := by
  unfold GeN
  rw [mul_val, h, Dbl.fin_mul]
  exact round_ge rnd_zero le_rfl (mul_self_nonneg r)

theorem sq_nn (d : B64) : Ge 0 (d * d) := by
  by_cases h : ∃ r : ℝ, d.1 = .fin r ∧ |r| < 2 ^ (512 : ℤ)
  · obtain ⟨r, h, -⟩ := h
    exact (sq_fin h).ge
  · exact (sq_big h).ge 0

theorem sq_fin_pos {d : B64} {r : ℝ} (h : d.1 = .fin r) (hr : 2 ^ (-537 : ℤ) ≤ |r|) : GeN (2 ^ (-1074 : ℤ)) (d * d) := by
  unfold GeN
  rw [mul_val, h, Dbl.fin_mul]
  refine round_ge (rnd_pow le_rfl) (by positivity) ?_
  rw [← abs_mul_abs_self r, show (-1074 : ℤ) = -537 + -537 by norm_num, zpow_add₀ (by norm_num)]
  exact mul_le_mul hr hr (by positivity) (abs_nonneg _)

theorem sq_pos {d : B64} (h : ¬ ∃ r : ℝ, d.1 = .fin r ∧ |r| < 2 ^ (-537 : ℤ)) : Ge (2 ^ (-1074 : ℤ)) (d * d) := by
  by_cases h' : ∃ r : ℝ, d.1 = .fin r ∧ |r| < 2 ^ (512 : ℤ)
  · obtain ⟨r, h1, -⟩ := h'
    exact (sq_fin_pos h1 (not_lt.1 fun hc => h ⟨r, h1, hc⟩)).ge
  · exact (sq_big h').ge _

variable {g : ℕ → B64} {K k : ℕ}

theorem sumF_zero (h : ∀ k < K, g k = lit 0) : sumF g K = lit 0 := by
  induction K with
  | zero => rfl
  | succ K ih =>
    show sumF g K + g K = lit 0
    rw [ih fun k hk => h k (by omega), h K (by omega), add_zero]

theorem sumF_nn (h : ∀ k < K, Ge 0 (g k)) : Ge 0 (sumF g K) := by
  induction K with
  | zero => exact .inr (.inr ⟨0, zero_val, le_rfl⟩)
  | succ K ih => exact Ge.add rnd_zero le_rfl (ih fun k hk => h k (by omega)) (h K (by omega))

theorem sumF_nnN (h : ∀ k < K, GeN 0 (g k)) : GeN 0 (sumF g K) := by
  induction K with
  | zero => exact .inr ⟨0, zero_val, le_rfl⟩
  | succ K ih => exact GeN.add rnd_zero le_rfl (ih fun k hk => h k (by omega)) (h K (by omega))

theorem sumF_ge {c : ℝ} (hc : rnd c = c) (h0 : 0 ≤ c) (h : ∀ k < K, Ge 0 (g k)) (hk : k < K) (hg : Ge c (g k)) : Ge c (sumF g K) := by
  induction K with
  | zero => omega
  | succ K ih =>
    by_cases e : k = K
    · subst e
      exact Ge.add' hc h0 (sumF_nn fun j hj => h j (by omega)) hg
    · exact Ge.add hc h0 (ih (fun j hj => h j (by omega)) (by omega)) (h K (by omega))

theorem sumF_geN {c : ℝ} (hc : rnd c = c) (h0 : 0 ≤ c) (h : ∀ k < K, GeN 0 (g k)) (hk : k < K) (hg : GeN c (g k)) : GeN c (sumF g K) := by
  induction K with
  | zero => omega
  | succ K ih =>
    by_cases e : k = K
    · subst e
      exact GeN.add' hc h0 (sumF_nnN fun j hj => h j (by omega)) hg
    · exact GeN.add hc h0 (ih (fun j hj => h j (by omega)) (by omega)) (h K (by omega))

theorem sumF_big (hk : k < K) (hg : Big (g k)) : Big (sumF g K) := by
  induction K with
  | zero => omega
  | succ K ih =>
    by_cases e : k = K
    · subst e
      exact hg.add_right _
    · exact (ih (by omega)).add_left _

theorem sqrt_ne_zero {a : B64} (h : Ge (2 ^ (-1074 : ℤ)) a) : fsqrt a ≠ lit 0 := fun e => by
  have e := congrArg Subtype.val e
  rw [sqrt_val, zero_val] at e
  rcases h with h | h | ⟨r, h, hr⟩ <;> rw [h] at e
  · cases e
  · cases e
  · have h0 : 0 ≤ r := le_trans (by positivity) hr
    rw [Dbl.fsqrt_fin h0] at e
    have h1 : (2 : ℝ) ^ (-537 : ℤ) ≤ √r := by
      refine Real.le_sqrt_of_sq_le ?_
      rw [← zpow_natCast, ← zpow_mul]
      exact hr
    rcases round_ge (rnd_pow (by norm_num)) (by positivity) h1 with h2 | ⟨t, h2, h3⟩ <;> rw [h2] at e
    · cases e
    · have h4 : (0 : ℝ) < 2 ^ (-537 : ℤ) := by positivity
      simp only [Dbl.fin.injEq] at e
      linarith

theorem sqrt_zero : fsqrt (lit 0 : B64) = lit 0 := by
  refine zero_eq ?_
  rw [sqrt_val, zero_val, Dbl.fsqrt_fin le_rfl, Real.sqrt_zero]
  simp only [Dbl.round]
  rw [rnd_zero, abs_zero, if_pos (by positivity)]

theorem sqrt_nn {a : B64} (h : Ge 0 a) : Ge 0 (fsqrt a) := by
  unfold Ge
  rw [sqrt_val]
  rcases h with h | h | ⟨r, h, hr⟩ <;> rw [h]
  · exact .inl rfl
  · exact .inr (.inl rfl)
  · rw [Dbl.fsqrt_fin hr]
    exact .inr (round_ge rnd_zero le_rfl (Real.sqrt_nonneg r))

theorem sub_swap (a b : B64) : b - a = -(a - b) := by
  show of (b.1 - a.1) = -of (a.1 - b.1)
  rw [← of_neg]
  congr 1
  cases a.1 <;> cases b.1 <;> first | rfl | exact congrArg Dbl.fin (_root_.neg_sub _ _).symm

theorem sqd_symm (a b : B64) : (a - b) * (a - b) = (b - a) * (b - a) := by
  rw [sub_swap a b, mul_neg, neg_mul, neg_neg]

theorem sub_self_fin {a : B64} (h : a.IsFin) : a - a = lit 0 := by
  refine zero_eq ?_
  rw [sub_val, eq_fin h, Dbl.fin_sub, _root_.sub_self]
  simp only [Dbl.round]
  rw [rnd_zero, abs_zero, if_pos (by positivity)]

theorem sub_self_nan {a : B64} (h : ¬ a.IsFin) : (a - a).1 = .nan := by
  rw [sub_val]
  revert h
  unfold IsFin
  cases a.1 with
  | fin r => exact fun h => absurd trivial h
  | _ => exact fun _ => rfl

theorem zero_mul_zero : (lit 0 : B64) * lit 0 = lit 0 := sq_tiny zero_val (by rw [abs_zero]; positivity)

theorem sub_tiny {a b : B64} (ha : a.IsFin) (hb : b.IsFin) {k : ℤ} (hk : -1074 ≤ k) (hk' : k < 1024) (h : |a.toReal - b.toReal| ≤ 2 ^ k) : ∃ r : ℝ, (a - b).1 = .fin r ∧ |r| ≤ 2 ^ k := by
  have h1 : |rnd (a.toReal - b.toReal)| ≤ 2 ^ k := by
    rw [rnd_abs, ← rnd_pow hk]
    exact rnd_mono h
  refine ⟨rnd (a.toReal - b.toReal), ?_, h1⟩
  rw [sub_val, eq_fin ha, eq_fin hb, Dbl.fin_sub]
  simp only [Dbl.round]
  rw [if_pos (lt_of_le_of_lt h1 (zpow_lt_zpow_right₀ (by norm_num) hk'))]

/-- if a computed difference is small, so is the true one -/
theorem sub_small {a b : B64} {r : ℝ} (h : (a - b).1 = .fin r) {k : ℤ} (hk : -1074 ≤ k) (hr : |r| < 2 ^ k) : a.IsFin ∧ b.IsFin ∧ |a.toReal - b.toReal| < 2 ^ k := by
  have hf : (a.1 - b.1).IsFin := (of_fin (d := a.1 - b.1) (by show Dbl.IsFin (a - b).1; rw [h]; trivial)).1
  obtain ⟨x, y, hx, hy⟩ := Dbl.sub_isFin hf
  obtain ⟨ax, rfl⟩ := val_fin hx
  obtain ⟨by', rfl⟩ := val_fin hy
  refine ⟨ax, by', not_le.1 fun hc => ?_⟩
  have h2 : (a - b).toReal = rnd (a.toReal - b.toReal) := by
    have := (of_fin (d := a.1 - b.1) (by show Dbl.IsFin (a - b).1; rw [h]; trivial)).2
    rw [hx, hy, Dbl.fin_sub] at this
    have h3 : (a - b).toReal = (of (Dbl.fin (a.toReal - b.toReal))).toReal := by
      show (of (a.1 - b.1)).toReal = _
      rw [hx, hy, Dbl.fin_sub]
    rw [h3]
    exact this
  have h3 : r = rnd (a.toReal - b.toReal) := by
    rw [← h2]
    exact ((val_fin h).2).symm
  rw [h3, rnd_abs] at hr
  have := rnd_mono hc
  rw [rnd_pow hk] at this
  linarith

theorem over_inf {a b : B64} {r : ℝ} (ha : a.1 = .fin r) (hb : b.1 = .pinf) : a / b = lit 0 := by
  refine zero_eq ?_
  rw [div_val, ha, hb]
  have : (Dbl.fin r / Dbl.pinf : Dbl) = Dbl.fin 0 := rfl
  rw [this]
  simp only [Dbl.round]
  rw [rnd_zero, abs_zero, if_pos (by positivity)]

theorem fin_over {a b : B64} (ha : a.1 = .fin 0) (hb : GeN (2 ^ (-1074 : ℤ)) b) : a / b = lit 0 := by
  rcases hb with hb | ⟨r, hb, hr⟩
  · exact over_inf ha hb
  · refine zero_eq ?_
    have h0 : r ≠ 0 := (lt_of_lt_of_le (by positivity) hr).ne'
    rw [div_val, ha, hb, Dbl.fin_div', if_neg h0, zero_div]
    simp only [Dbl.round]
    rw [rnd_zero, abs_zero, if_pos (by positivity)]

/-- ties to even -/
theorem half : rne (1 / 2) = 0 := by
  unfold rne
  have : ⌊(1 / 2 : ℝ)⌋ = 0 := by norm_num
  rw [this]
  norm_num

/-- a nonnegative real rounds to zero exactly up to half the least positive number -/
theorem rnd_zero_iff {x : ℝ} (h0 : 0 ≤ x) :
    (x ≤ 2 ^ (-1075 : ℤ) → rnd x = 0) ∧ (2 ^ (-1075 : ℤ) < x → 2 ^ (-1074 : ℤ) ≤ rnd x) := by
  have hp : (0 : ℝ) < 2 ^ (-1074 : ℤ) := by positivity
  have e : (2 : ℝ) ^ (-1075 : ℤ) = 2 ^ (-1074 : ℤ) / 2 := by
    rw [show (-1075 : ℤ) = -1074 - 1 by norm_num, zpow_sub_one₀ (by norm_num)]
    rfl
  have val : 0 < x → x < 2 ^ (-1074 : ℤ) → rnd x = rne (x / 2 ^ (-1074 : ℤ)) * 2 ^ (-1074 : ℤ) := fun hx hl => by
    have hu : ulp x = 2 ^ (-1074 : ℤ) := by
      unfold ulp
      congr 1
      refine max_eq_right ?_
      have : Int.log 2 x ≤ -1074 := by
        by_contra hc
        have h1 : (2 : ℝ) ^ (-1073 : ℤ) ≤ x := by
          have := (Int.zpow_le_iff_le_log (b := 2) (x := -1073) (by norm_num) hx).2 (by omega)
          exact_mod_cast this
        have h2 : (2 : ℝ) ^ (-1074 : ℤ) < 2 ^ (-1073 : ℤ) := zpow_lt_zpow_right₀ (by norm_num) (by norm_num)
        linarith
      omega
    unfold rnd rndPos
    rw [if_neg (not_lt.2 h0), hu]
  constructor
  · intro h
    rcases h0.eq_or_lt with rfl | hx
    · exact rnd_zero
    rw [val hx (by linarith)]
    have h1 : x / 2 ^ (-1074 : ℤ) ≤ 1 / 2 := by
      rw [div_le_iff₀ hp]
      linarith
    have h2 := rne_mono h1
    have h3 : 0 ≤ rne (x / 2 ^ (-1074 : ℤ)) := rne_nonneg (div_nonneg h0 hp.le)
    rw [half] at h2
    rw [show rne (x / 2 ^ (-1074 : ℤ)) = 0 by omega]
    simp
  · intro h
    by_cases hl : x < 2 ^ (-1074 : ℤ)
    · have hx : 0 < x := lt_trans (by positivity) h
      rw [val hx hl]
      have h1 : 1 / 2 < x / 2 ^ (-1074 : ℤ) := by
        rw [lt_div_iff₀ hp]
        linarith
      have h2 := (abs_le.1 (rne_err (x / 2 ^ (-1074 : ℤ)))).1
      have h3 : (0 : ℝ) < rne (x / 2 ^ (-1074 : ℤ)) := by linarith
      have h4 : (1 : ℤ) ≤ rne (x / 2 ^ (-1074 : ℤ)) := by exact_mod_cast h3
      have h5 : (1 : ℝ) ≤ rne (x / 2 ^ (-1074 : ℤ)) := by exact_mod_cast h4
      nlinarith
    · have := rnd_mono (not_lt.1 hl)
      rwa [rnd_pow le_rfl] at this

/-- a square of at most 2^-1075 is computed as zero … -/
theorem sq_zero {d : B64} {r : ℝ} (h : d.1 = .fin r) (hr : r ^ 2 ≤ 2 ^ (-1075 : ℤ)) : d * d = lit 0 := by
  refine zero_eq ?_
  rw [mul_val, h, Dbl.fin_mul]
  simp only [Dbl.round]
  rw [(rnd_zero_iff (mul_self_nonneg r)).1 (by rwa [← sq]), abs_zero, if_pos (by positivity)]

/-- … and every other one as the least positive number or more -/
theorem sq_pos' {d : B64} (h : ¬ ∃ r : ℝ, d.1 = .fin r ∧ r ^ 2 ≤ 2 ^ (-1075 : ℤ)) : Ge (2 ^ (-1074 : ℤ)) (d * d) := by
  by_cases h' : ∃ r : ℝ, d.1 = .fin r ∧ |r| < 2 ^ (512 : ℤ)
  · obtain ⟨r, h1, -⟩ := h'
    have h2 : 2 ^ (-1074 : ℤ) ≤ rnd (r * r) := (rnd_zero_iff (mul_self_nonneg r)).2 (not_le.1 fun hc => h ⟨r, h1, by rwa [sq]⟩)
    unfold Ge
    rw [mul_val, h1, Dbl.fin_mul]
    simp only [Dbl.round]
    split_ifs with h3 h4
    · exact .inr (.inr ⟨_, rfl, h2⟩)
    · exact .inr (.inl rfl)
    · have : r * r = 0 := le_antisymm (not_lt.1 h4) (mul_self_nonneg r)
      rw [this, rnd_zero, abs_zero] at h3
      exact absurd (by positivity) h3
  · exact (sq_big h').ge _

end B64

open B64

variable {N : ℕ} {m : Mem B64} {x y : Ptr}

/-- value of `l1c_dnrm2_err` -/
theorem run_err {F : Type} [Scalar F] {m : Mem F} (hx : m.Has x N) (hy : m.Has y N) : (l1c_dnrm2_err (N : Int) x y).run m =
    some (fsqrt (sumF (fun k => (m.val (x + (k : Int)) - m.val (y + (k : Int))) * (m.val (x + (k : Int)) - m.val (y + (k : Int)))) N), m) := by
  have h : (sqDiffLoop (N : Int) x y).run m = some (sumF (fun k => (m.val (x + (k : Int)) - m.val (y + (k : Int))) * (m.val (x + (k : Int)) - m.val (y + (k : Int)))) N, m) := by
    refine run_sumF fun k hk s => ?_
    simp only [run_bind, run_load (hx k (by omega) (by omega)), run_load (hy k (by omega) (by omega)), Option.bind_some, run_pure]
  simp only [l1c_dnrm2_err, run_bind, h, Option.bind_some, run_pure]

/-- value of `l1c_dnrm2_rel_err` -/
theorem run_rel {F : Type} [Scalar F] {m : Mem F} (hx : m.Has x N) (hy : m.Has y N) : (l1c_dnrm2_rel_err (N : Int) x y).run m =
    some (fsqrt (sumF (fun k => (m.val (x + (k : Int)) - m.val (y + (k : Int))) * (m.val (x + (k : Int)) - m.val (y + (k : Int)))) N /
      sumF (fun k => m.val (y + (k : Int)) * m.val (y + (k : Int))) N), m) := by
  have h : (sqDiffLoop (N : Int) x y).run m = some (sumF (fun k => (m.val (x + (k : Int)) - m.val (y + (k : Int))) * (m.val (x + (k : Int)) - m.val (y + (k : Int)))) N, m) := by
    refine run_sumF fun k hk s => ?_
    simp only [run_bind, run_load (hx k (by omega) (by omega)), run_load (hy k (by omega) (by omega)), Option.bind_some, run_pure]
  have h' : (cblas_ddot (N : Int) y y).run m = some (sumF (fun k => m.val (y + (k : Int)) * m.val (y + (k : Int))) N, m) := by
    refine run_sumF fun k hk s => ?_
    simp only [run_bind, run_load (hy k (by omega) (by omega)), Option.bind_some, run_pure]
  simp only [l1c_dnrm2_rel_err, run_bind, h, h', Option.bind_some, run_pure]

end L1c
