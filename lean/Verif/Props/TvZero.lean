import Verif.Proofs.ErrFloat
import Verif.Proofs.BregmanMain
import Verif.Props.TvFloat

/-!
# C109: the stopping test of TV denoising in binary64, in the first iteration and for a black image

The change of the image is measured in proportion to the previous image, and that starts as zero.
-/

namespace L1c
open Prog Scalar B64

variable {n m : ℕ} {max_iter jac : Int}

namespace B64

theorem mul_zero_fin {a : B64} (h : a.IsFin) : a * lit 0 = lit 0 ∧ lit 0 * a = lit 0 := by
  constructor <;> refine zero_eq ?_ <;> rw [mul_val, zero_val, eq_fin h, Dbl.fin_mul] <;> simp only [Dbl.round, mul_zero, zero_mul] <;>
    rw [rnd_zero, abs_zero, if_pos (by positivity)]

theorem zero_add_zero : (lit 0 : B64) + lit 0 = lit 0 := add_zero _

theorem zero_sub_zero : (lit 0 : B64) - lit 0 = lit 0 := sub_self_fin (val_fin zero_val).1

theorem neg_isFin {a : B64} (h : a.IsFin) : (-a).IsFin := by
  refine (val_fin (x := -a.toReal) ?_).1
  rw [neg_val, eq_fin h, Dbl.fin_neg]

theorem shrink_zero {g : B64} (hg : flt g (lit 0) = false) : shrinkVal g (lit 0) = lit 0 := by
  unfold shrinkVal
  rw [shrunk_zero hg (.inl zero_val)]
  refine (mul_zero_fin ?_).1
  unfold dsign
  split
  · exact lit_one.1
  · exact lit_neg_one.1

end B64

/-- the black image and zero work arrays -/
noncomputable def zeroState : BState B64 := ⟨fun _ _ => lit 0, fun _ _ => lit 0, fun _ _ => lit 0, fun _ _ => lit 0, fun _ _ => lit 0⟩

section
variable {mu lam : B64} (hmu : mu.IsFin) (hlam : lam.IsFin)

include hmu hlam in
theorem rhs_zero : rhsF n m mu lam (fun _ _ => lit 0) zeroState = fun _ _ => lit 0 := by
  funext i j
  have h1 : ∀ j, dRowT lam m (fun _ => -(lit 0 : B64) + lit 0) j = lit 0 := fun j => by
    unfold dRowT
    simp only [neg_zero, zero_add_zero, zero_sub_zero, (mul_zero_fin hlam).1, (mul_zero_fin (neg_isFin hlam)).1, ite_self]
  have h2 : ∀ i j, dColT lam n (fun _ _ => -(lit 0 : B64) + lit 0) i j = lit 0 := fun i j => by
    unfold dColT
    simp only [neg_zero, zero_add_zero, ite_self, zero_sub_zero, (mul_zero_fin hlam).1]
  show dRowT lam m (fun _ => -(lit 0 : B64) + lit 0) j + lit 1 * (dColT lam n (fun _ _ => -(lit 0 : B64) + lit 0) i j + mu * lit 0) = lit 0
  rw [h1, h2, (mul_zero_fin hmu).1, zero_add_zero, (mul_zero_fin lit_one.1).1, zero_add_zero]

include hlam in
theorem sweep_zero (hinv : ∀ k : ℚ, k = 2 ∨ k = 3 ∨ k = 4 → (gsInv mu lam k).IsFin) : gsSweep n m mu lam (fun _ _ => lit 0) (fun _ _ => lit 0) = fun _ _ => lit 0 := by
  have hp : ∀ i j, gsPix n m mu lam (fun _ _ => lit 0) (fun _ _ => lit 0) i j = lit 0 := fun i j => by
    unfold gsPix
    simp only [zero_add_zero, (mul_zero_fin hlam).2, (mul_zero_fin (hinv 2 (.inl rfl))).2, (mul_zero_fin (hinv 3 (.inr (.inl rfl)))).2, (mul_zero_fin (hinv 4 (.inr (.inr rfl)))).2, ite_self]
  have : ∀ k, gsState n m mu lam (fun _ _ => lit 0) (fun _ _ => lit 0) k = fun _ _ => lit 0 := fun k => by
    induction k with
    | zero => rfl
    | succ k ih =>
      show upd2 _ _ _ _ = _
      rw [ih, hp]
      funext a b
      unfold upd2
      split <;> rfl
  exact this _

include hmu hlam in
theorem next_zero (hg : flt (lit 1 / lam) (lit 0) = false) (hinv : ∀ k : ℚ, k = 2 ∨ k = 3 ∨ k = 4 → (gsInv mu lam k).IsFin) (jac : ℕ) :
    bregNext n m mu lam jac (fun _ _ => lit 0) zeroState = zeroState := by
  have hu : (gsSweep n m mu lam (rhsF n m mu lam (fun _ _ => lit 0) zeroState))^[jac] zeroState.u = fun _ _ => lit 0 := by
    rw [rhs_zero hmu hlam]
    exact Function.iterate_fixed (sweep_zero hlam hinv) jac
  have hx : gxF m (fun _ _ => (lit 0 : B64)) (fun _ _ => lit 0) = fun _ _ => lit 0 := by
    funext i j
    unfold gxF dRow
    simp only [zero_sub_zero, (mul_zero_fin lit_one.1).1, ite_self, zero_add_zero]
  have hy : gyF n (fun _ _ => (lit 0 : B64)) (fun _ _ => lit 0) = fun _ _ => lit 0 := by
    funext i j
    unfold gyF
    simp only [zero_sub_zero, (mul_zero_fin lit_one.1).1, ite_self, zero_add_zero]
  unfold bregNext
  simp only [hu]
  rw [show zeroState.bx = fun _ _ => lit 0 from rfl, show zeroState.bY = fun _ _ => lit 0 from rfl, hx, hy]
  simp only [shrink_zero hg, neg_zero, zero_add_zero]
  rfl
end

theorem relErr_zero (A : FImg B64) (tol : B64) : flt (relErrF n m A fun _ _ => lit 0) tol = false := by
  unfold relErrF
  rw [sumF_zero (g := fun k => (lit 0 : B64) * lit 0) fun _ _ => zero_mul_zero]
  exact over_zero _ _

/-- The stopping test never ends the run in the first iteration: for all images (infinities and NaN included), all `mu`, all tolerances, infinite ones included, and all numbers of sweeps,
with a limit of at least two iterations at least two are carried out. -/
theorem C109_two_iterations (hn : 2 ≤ n) (hm : 2 ≤ m) (hfit : FitsInt ((n : Int) * m)) (mu tol : B64) (hj : jac < INT_MAX) (hmax : max_iter < INT_MAX) (h2 : 2 ≤ max_iter) {f0 : ℕ → ℕ → B64}
    {s : PState B64} {uk f : Ptr} (hr : TVReadyB s n m uk f f0) :
    ∃ (i : Int) (s' : PState B64), CSpec (l1c_breg_anistropic_TV n m uk f mu tol max_iter jac) s (0, i) s' ∧ 2 ≤ i ∧ i ≤ max_iter + 1 := by
  obtain ⟨hw, ⟨u0, hu⟩, hf, hsep, hor⟩ := hr
  obtain ⟨K, i, s', h1, -, -, -, -, h6, h7⟩ := cspec_breg (mu := mu) (tol := tol) hw hn hm hfit hu hf hsep hmax hj hor
  refine ⟨i, s', h1, ?_, ?_⟩
  · rcases h7 with ⟨a, b, -⟩ | ⟨a, b, c, -⟩
    · omega
    · have : K ≠ 1 := by
        rintro rfl
        rw [show bregBrk n m mu (lit 2 * mu) tol jac.toNat f0 (1 - 1) = false from relErr_zero _ _] at c
        cases c
      omega
  · rcases h7 with ⟨a, b, -⟩ | ⟨a, b, c, -⟩ <;> omega

theorem inv_fin {mu : B64} {r : ℝ} (hmu : mu.1 = .fin r) (h0 : 2 ^ (-1022 : ℤ) ≤ r) {lam : B64} {t : ℝ} (hl : lam.1 = .fin t) (ht : 0 ≤ t) {k : ℕ} (hk : k < 2 ^ 53) : (gsInv mu lam (k : ℚ)).IsFin := by
  have hp : (0 : ℝ) < 2 ^ (-1022 : ℤ) := by positivity
  have h1 : GeN 0 (lit (k : ℚ) * lam) := by
    unfold GeN
    rw [mul_val, eq_fin (lit_nat hk).1, (lit_nat hk).2, hl, Dbl.fin_mul]
    exact round_ge rnd_zero le_rfl (by positivity)
  have h2 : GeN (2 ^ (-1022 : ℤ)) (mu + lit (k : ℚ) * lam) := GeN.add (rnd_pow (by norm_num)) hp.le (.inr ⟨r, hmu, h0⟩) h1
  have e1 : (lit 1 : B64).1 = .fin 1 := by
    have h := eq_fin lit_one.1
    rwa [lit_one.2] at h
  unfold gsInv
  rcases h2 with h | ⟨x, h, hx⟩
  · rw [over_inf e1 h]
    exact (val_fin zero_val).1
  · have hx0 : 0 < x := lt_of_lt_of_le hp hx
    refine (val_fin (x := rnd (1 / x)) ?_).1
    rw [div_val, e1, h, Dbl.fin_div hx0.ne']
    simp only [Dbl.round]
    have h3 : 1 / x ≤ 2 ^ (1022 : ℤ) := by
      rw [div_le_iff₀ hx0]
      have : (2 : ℝ) ^ (1022 : ℤ) * 2 ^ (-1022 : ℤ) = 1 := by
        rw [← zpow_add₀ (by norm_num)]
        norm_num
      rw [← this]
      exact mul_le_mul_of_nonneg_left hx (by positivity)
    have h4 := rnd_mono h3
    rw [rnd_pow (by norm_num)] at h4
    rw [if_pos]
    rw [abs_of_nonneg (rnd_nonneg (by positivity))]
    exact lt_of_le_of_lt h4 (zpow_lt_zpow_right₀ (by norm_num) (by norm_num))

/-- doubling is exact -/
theorem rnd_two_mul {x : ℝ} (h : 2 ^ (-1022 : ℤ) ≤ x) : rnd (2 * x) = 2 * rnd x := by
  have h0 : 0 < x := lt_of_lt_of_le (by positivity) h
  have hl : -1022 ≤ Int.log 2 x := (Int.zpow_le_iff_le_log (by norm_num) h0).1 (by exact_mod_cast h)
  have h2 : Int.log 2 (2 * x) = Int.log 2 x + 1 := by
    refine le_antisymm ?_ ?_
    · refine Int.lt_add_one_iff.1 ((Int.lt_zpow_iff_log_lt (b := 2) (by norm_num) (by positivity)).1 ?_)
      have := Int.lt_zpow_succ_log_self (b := 2) (by norm_num) x
      push_cast at this ⊢
      rw [zpow_add_one₀ (by norm_num)]
      linarith
    · refine (Int.zpow_le_iff_le_log (by norm_num) (by positivity)).1 ?_
      have := Int.zpow_log_le_self (b := 2) (by norm_num) h0
      push_cast at this ⊢
      rw [zpow_add_one₀ (by norm_num)]
      linarith
  have hu : ulp (2 * x) = 2 * ulp x := by
    unfold ulp
    rw [h2, max_eq_left (by omega), max_eq_left (by omega), show Int.log 2 x + 1 - 52 = Int.log 2 x - 52 + 1 by ring, zpow_add_one₀ (by norm_num)]
    ring
  unfold rnd
  rw [if_neg (by linarith), if_neg (by linarith)]
  unfold rndPos
  rw [hu, mul_div_mul_left _ _ (by norm_num : (2 : ℝ) ≠ 0)]
  ring

theorem black_run (hn : 2 ≤ n) (hm : 2 ≤ m) (hfit : FitsInt ((n : Int) * m)) {mu : B64} (m1 : mu.IsFin) (hm0 : 0 < mu.toReal) (hl : (lit 2 * mu).IsFin)
    (hinv : ∀ k : ℚ, k = 2 ∨ k = 3 ∨ k = 4 → (gsInv mu (lit 2 * mu) k).IsFin) (tol : B64)
    (hj : jac < INT_MAX) (hmax : max_iter < INT_MAX) {s : PState B64} {uk f : Ptr} (hr : TVReadyB s n m uk f fun _ _ => lit 0) :
    ∃ s' : PState B64, CSpec (l1c_breg_anistropic_TV n m uk f mu tol max_iter jac) s (0, max max_iter 0 + 1) s' ∧ HoldsF s'.mem uk n m fun _ _ => lit 0 := by
  obtain ⟨hw, ⟨u0, hu⟩, hf, hsep, hor⟩ := hr
  obtain ⟨K, i, s', h1, -, -, h4, -, h6, h7⟩ := cspec_breg (mu := mu) (tol := tol) hw hn hm hfit hu hf hsep hmax hj hor
  have hg : flt (lit 1 / (lit 2 * mu)) (lit 0) = false := threshold (by
    show Scalar.flt (lit 0 : B64).1 mu.1 = true
    rw [zero_val, eq_fin m1, Dbl.flt_fin]
    exact hm0)
  have hz : ∀ k, bregIter n m mu (lit 2 * mu) jac.toNat (fun _ _ => lit 0) k = zeroState := fun k => by
    induction k with
    | zero => rfl
    | succ k ih =>
      show bregNext _ _ _ _ _ _ _ = _
      rw [ih, next_zero m1 hl hg hinv]
  have hb : ∀ k, bregBrk n m mu (lit 2 * mu) tol jac.toNat (fun _ _ => lit 0) k = false := fun k => by
    unfold bregBrk
    have : bregOld n m mu (lit 2 * mu) jac.toNat (fun _ _ => lit 0) k = fun _ _ => lit 0 := by
      cases k with
      | zero => rfl
      | succ k =>
        show (bregIter _ _ _ _ _ _ _).u = _
        rw [hz]
        rfl
    rw [this]
    exact relErr_zero _ _
  have hi : i = max max_iter 0 + 1 := by
    rcases h7 with ⟨a, b, -⟩ | ⟨-, -, c, -⟩
    · omega
    · rw [hb] at c
      cases c
  subst hi
  rw [hz] at h4
  exact ⟨s', h1, h4⟩

/-- A black image is never recognised as finished: for every weight from 2^-1022 up to, but not including, 2^1023 and every tolerance, infinite ones included, all `max_iter` iterations are carried out, although
the result is exact from the first one on and is the black image. -/
theorem C109_black_false (hn : 2 ≤ n) (hm : 2 ≤ m) (hfit : FitsInt ((n : Int) * m)) {mu : B64} (hmu : mu.IsFin ∧ 2 ^ (-1022 : ℤ) ≤ mu.toReal ∧ mu.toReal < 2 ^ (1023 : ℤ)) (tol : B64)
    (hj : jac < INT_MAX) (hmax : max_iter < INT_MAX) {s : PState B64} {uk f : Ptr} (hr : TVReadyB s n m uk f fun _ _ => lit 0) :
    ∃ s' : PState B64, CSpec (l1c_breg_anistropic_TV n m uk f mu tol max_iter jac) s (0, max max_iter 0 + 1) s' ∧ HoldsF s'.mem uk n m fun _ _ => lit 0 := by
  obtain ⟨m1, m2, m3⟩ := hmu
  have hp : (0 : ℝ) < 2 ^ (-1022 : ℤ) := by positivity
  have hm0 : 0 < mu.toReal := lt_of_lt_of_le hp m2
  have e2 : (lit 2 : B64).1 = .fin 2 := by
    have := lit_nat (n := 2) (by norm_num)
    have h := eq_fin this.1
    rw [this.2] at h
    exact_mod_cast h
  have hl : (lit 2 * mu).1 = .fin (rnd (2 * mu.toReal)) := by
    rw [mul_val, e2, eq_fin m1, Dbl.fin_mul]
    simp only [Dbl.round]
    rw [if_pos]
    rw [abs_of_nonneg (rnd_nonneg (by positivity)), rnd_two_mul m2, rnd_toReal m1, show (1024 : ℤ) = 1023 + 1 by norm_num, zpow_add_one₀ (by norm_num)]
    linarith
  have hinv : ∀ k : ℚ, k = 2 ∨ k = 3 ∨ k = 4 → (gsInv mu (lit 2 * mu) k).IsFin := fun k hk => by
    have key : ∀ q : ℕ, q < 2 ^ 53 → (gsInv mu (lit 2 * mu) (q : ℚ)).IsFin := fun q hq => inv_fin (eq_fin m1) m2 hl (rnd_nonneg (by positivity)) hq
    rcases hk with rfl | rfl | rfl
    · exact_mod_cast key 2 (by norm_num)
    · exact_mod_cast key 3 (by norm_num)
    · exact_mod_cast key 4 (by norm_num)
  exact black_run hn hm hfit m1 hm0 (val_fin hl).1 hinv tol hj hmax hr

/-- the image a run returns when its stopping test never holds is the one after `max_iter` iterations -/
theorem run_all (hn : 2 ≤ n) (hm : 2 ≤ m) (hfit : FitsInt ((n : Int) * m)) {mu tol : B64} (htol : ∀ a : B64, flt a tol = false) (hj : jac < INT_MAX) {K : ℕ} (hK : (K : Int) < INT_MAX)
    {f0 A : ℕ → ℕ → B64} {s s' : PState B64} {uk f : Ptr} (hr : TVReadyB s n m uk f f0) {r : Int × Int} (h : CSpec (l1c_breg_anistropic_TV n m uk f mu tol K jac) s r s')
    (hA : HoldsF s'.mem uk n m A) : ∀ a < n, ∀ b < m, (bregIter n m mu (lit 2 * mu) jac.toNat f0 K).u a b = A a b := by
  obtain ⟨hw, ⟨u0, hu⟩, hf, hsep, hor⟩ := hr
  obtain ⟨K', i, s2, h1, -, -, h4, -, -, h7⟩ := cspec_breg (mu := mu) (tol := tol) hw hn hm hfit hu hf hsep hK hj hor
  obtain ⟨-, rfl⟩ := CSpec.unique h h1
  have hK' : K' = K := by
    rcases h7 with ⟨a, -, -⟩ | ⟨-, -, c, -⟩
    · omega
    · rw [show bregBrk n m mu (lit 2 * mu) tol jac.toNat f0 (K' - 1) = false from htol _] at c
      cases c
  subst hK'
  intro a ha b hb
  rw [← h4.2 a ha b hb, hA.2 a ha b hb]

/-- What remains: if `K ≥ 1` and `K + 1` iterations (run with a tolerance that is never met, NaN for example) give the same image, all of it finite and one pixel of size 2^-537 or more, then with
any positive tolerance the run stops after at most `K + 1` iterations. -/
theorem C109_stop_partial (hn : 2 ≤ n) (hm : 2 ≤ m) (hfit : FitsInt ((n : Int) * m)) {mu tol tol0 : B64} (htol : flt (lit 0) tol = true) (htol0 : ∀ a : B64, flt a tol0 = false)
    (hj : jac < INT_MAX) (hmax : max_iter < INT_MAX) {K : ℕ} (hK : 1 ≤ K) (hlim : (K : Int) + 1 ≤ max_iter) {f0 A : ℕ → ℕ → B64} {s s1 s2 s1' s2' : PState B64} {uk f uk1 f1 uk2 f2 : Ptr}
    (hr : TVReadyB s n m uk f f0) (hr1 : TVReadyB s1 n m uk1 f1 f0) (hr2 : TVReadyB s2 n m uk2 f2 f0) {r1 r2 : Int × Int}
    (h1 : CSpec (l1c_breg_anistropic_TV n m uk1 f1 mu tol0 K jac) s1 r1 s1') (hA1 : HoldsF s1'.mem uk1 n m A)
    (h2 : CSpec (l1c_breg_anistropic_TV n m uk2 f2 mu tol0 ((K + 1 : ℕ) : Int) jac) s2 r2 s2') (hA2 : HoldsF s2'.mem uk2 n m A)
    (hfin : ∀ a < n, ∀ b < m, (A a b).IsFin) (hbig : ∃ a < n, ∃ b < m, 2 ^ (-537 : ℤ) ≤ |(A a b).toReal|) :
    ∃ (i : Int) (s' : PState B64), CSpec (l1c_breg_anistropic_TV n m uk f mu tol max_iter jac) s (0, i) s' ∧ i ≤ K + 1 := by
  have e1 := run_all hn hm hfit htol0 hj (by omega) hr1 h1 hA1
  have e2 := run_all hn hm hfit htol0 hj (by omega) hr2 h2 hA2
  obtain ⟨hw, ⟨u0, hu⟩, hf, hsep, hor⟩ := hr
  obtain ⟨K', i, s', g1, -, -, -, -, g6, g7⟩ := cspec_breg (mu := mu) (tol := tol) hw hn hm hfit hu hf hsep hmax hj hor
  have hb : bregBrk n m mu (lit 2 * mu) tol jac.toNat f0 K = true := by
    obtain ⟨k, rfl⟩ : ∃ k, K = k + 1 := ⟨K - 1, by omega⟩
    unfold bregBrk relErrF
    show flt (fsqrt (sumF (fun l => ((bregIter n m mu (lit 2 * mu) jac.toNat f0 (k + 1 + 1)).u (l / m) (l % m) - (bregIter n m mu (lit 2 * mu) jac.toNat f0 (k + 1)).u (l / m) (l % m)) *
      ((bregIter n m mu (lit 2 * mu) jac.toNat f0 (k + 1 + 1)).u (l / m) (l % m) - (bregIter n m mu (lit 2 * mu) jac.toNat f0 (k + 1)).u (l / m) (l % m))) (n * m) /
      sumF (fun l => (bregIter n m mu (lit 2 * mu) jac.toNat f0 (k + 1)).u (l / m) (l % m) * (bregIter n m mu (lit 2 * mu) jac.toNat f0 (k + 1)).u (l / m) (l % m)) (n * m))) tol = true
    have hd : ∀ l < n * m, l / m < n ∧ l % m < m := fun l hl => ⟨by rwa [Nat.div_lt_iff_lt_mul (by omega)], Nat.mod_lt _ (by omega)⟩
    rw [sumF_zero fun l hl => by
      rw [e1 _ (hd l hl).1 _ (hd l hl).2, e2 _ (hd l hl).1 _ (hd l hl).2, sub_self_fin (hfin _ (hd l hl).1 _ (hd l hl).2), zero_mul_zero]]
    obtain ⟨a, ha, b, hb, hab⟩ := hbig
    have hl : a * m + b < n * m := by nlinarith
    have d1 : (a * m + b) / m = a := by rw [mul_comm, Nat.mul_add_div (by omega), Nat.div_eq_of_lt hb, Nat.add_zero]
    have d2 : (a * m + b) % m = b := by rw [mul_comm, Nat.mul_add_mod, Nat.mod_eq_of_lt hb]
    have g : GeN (2 ^ (-1074 : ℤ)) (sumF (fun l => (bregIter n m mu (lit 2 * mu) jac.toNat f0 (k + 1)).u (l / m) (l % m) * (bregIter n m mu (lit 2 * mu) jac.toNat f0 (k + 1)).u (l / m) (l % m)) (n * m)) :=
      sumF_geN (rnd_pow le_rfl) (by positivity) (fun l hl => by
        rw [e1 _ (hd l hl).1 _ (hd l hl).2]
        exact sq_fin (eq_fin (hfin _ (hd l hl).1 _ (hd l hl).2))) hl (by
        rw [d1, d2, e1 a ha b hb]
        exact sq_fin_pos (eq_fin (hfin a ha b hb)) hab)
    rw [fin_over zero_val g, sqrt_zero]
    exact htol
  refine ⟨i, s', g1, ?_⟩
  rcases g7 with ⟨a, b, c⟩ | ⟨a, b, -, d⟩
  · by_cases hlt : K < K'
    · rw [c K hlt] at hb
      cases hb
    · omega
  · by_contra hc
    rw [d K (by omega)] at hb
    cases hb

/-! ## Examples -/

/-- a black 3×4 image with mu = 1 and an infinite tolerance: 50 iterations -/
example : ∃ s' : PState B64, CSpec (l1c_breg_anistropic_TV (3 : ℕ) (4 : ℕ) ⟨0, 0⟩ ⟨1, 0⟩ (lit 1) inf 50 2) (imgB 3 4 fun _ _ => lit 0) (0, 51) s' ∧
    HoldsF s'.mem ⟨0, 0⟩ 3 4 fun _ _ => lit 0 :=
  C109_black_false (max_iter := 50) (by norm_num) (by norm_num) (by unfold FitsInt INT_MAX INT_MIN; norm_num)
    ⟨lit_one.1, by rw [lit_one.2]; exact zpow_le_one_of_nonpos₀ (by norm_num) (by norm_num), by rw [lit_one.2]; exact one_lt_zpow₀ (by norm_num) (by norm_num)⟩ _
    (by unfold INT_MAX; norm_num) (by unfold INT_MAX; norm_num) (imgB_ready 3 4 _)

/-- any 3×4 image: at least two iterations -/
example (f0 : ℕ → ℕ → B64) : ∃ (i : Int) (s' : PState B64), CSpec (l1c_breg_anistropic_TV (3 : ℕ) (4 : ℕ) ⟨0, 0⟩ ⟨1, 0⟩ (lit 1) inf 50 2) (imgB 3 4 f0) (0, i) s' ∧ 2 ≤ i ∧ i ≤ 51 :=
  C109_two_iterations (by norm_num) (by norm_num) (by unfold FitsInt INT_MAX INT_MIN; norm_num) _ _
    (by unfold INT_MAX; norm_num) (by unfold INT_MAX; norm_num) (by norm_num) (imgB_ready 3 4 f0)

theorem iter_none (f0 : ℕ → ℕ → B64) (mu lam : B64) (k : ℕ) : (bregIter n m mu lam 0 f0 k).u = f0 := by
  induction k with
  | zero => rfl
  | succ k ih => exact ih

/-- a white 3×4 image without sweeps does not change, and the run stops after two iterations -/
example : ∃ (i : Int) (s' : PState B64), CSpec (l1c_breg_anistropic_TV (3 : ℕ) (4 : ℕ) ⟨0, 0⟩ ⟨1, 0⟩ (lit 1) (lit 1) 50 0) (imgB 3 4 fun _ _ => lit 1) (0, i) s' ∧ i ≤ 2 := by
  have run : ∀ K : ℕ, (K : Int) < INT_MAX → ∃ (r : Int × Int) (s' : PState B64),
      CSpec (l1c_breg_anistropic_TV (3 : ℕ) (4 : ℕ) ⟨0, 0⟩ ⟨1, 0⟩ (lit 1) Scalar.nan K 0) (imgB 3 4 fun _ _ => lit 1) r s' ∧ HoldsF s'.mem ⟨0, 0⟩ 3 4 fun _ _ => lit 1 := fun K hK => by
    obtain ⟨hw, ⟨u0, hu⟩, hf, hsep, hor⟩ := imgB_ready 3 4 fun _ _ => lit 1
    obtain ⟨K', i, s2, h1, -, -, h4, -⟩ := cspec_breg (mu := lit 1) (tol := Scalar.nan) (jac := 0) hw (by norm_num) (by norm_num) (by unfold FitsInt INT_MAX INT_MIN; norm_num) hu hf hsep hK
      (by unfold INT_MAX; norm_num) hor
    rw [show (0 : Int).toNat = 0 from rfl, iter_none] at h4
    exact ⟨_, s2, h1, h4⟩
  obtain ⟨r1, s1, a1, a2⟩ := run 1 (by unfold INT_MAX; norm_num)
  obtain ⟨r2, s2, b1, b2⟩ := run 2 (by unfold INT_MAX; norm_num)
  exact C109_stop_partial (K := 1) (by norm_num) (by norm_num) (by unfold FitsInt INT_MAX INT_MIN; norm_num)
    (by
      show Scalar.flt (lit 0 : B64).1 (lit 1 : B64).1 = true
      rw [zero_val, eq_fin lit_one.1, lit_one.2, Dbl.flt_fin]
      norm_num)
    (fun a => by
      show Scalar.flt a.1 Dbl.nan = false
      rw [Bool.eq_false_iff, Ne, Dbl.flt_iff]
      cases a.1 <;> exact fun h => h)
    (by unfold INT_MAX; norm_num) (by unfold INT_MAX; norm_num) le_rfl (by norm_num) (imgB_ready 3 4 _) (imgB_ready 3 4 _) (imgB_ready 3 4 _) a1 a2 b1 b2 (fun _ _ _ _ => lit_one.1)
    ⟨0, by norm_num, 0, by norm_num, by
      rw [lit_one.2, abs_one]
      exact zpow_le_one_of_nonpos₀ (by norm_num) (by norm_num)⟩

/-! ## Very small weights -/

/-- zero or NaN -/
def ZeroNan (a : B64) : Prop := a = lit 0 ∨ a.1 = .nan

namespace ZeroNan
variable {a b c : B64}
theorem add (ha : ZeroNan a) (hb : ZeroNan b) : ZeroNan (a + b) := by
  rcases ha with rfl | h
  · rcases hb with rfl | g
    · exact .inl zero_add_zero
    · exact .inr (nanLaws.add (.inr g))
  · exact .inr (nanLaws.add (.inl h))
theorem sub (ha : ZeroNan a) (hb : ZeroNan b) : ZeroNan (a - b) := by
  rcases ha with rfl | h
  · rcases hb with rfl | g
    · exact .inl zero_sub_zero
    · exact .inr (nanLaws.sub (.inr g))
  · exact .inr (nanLaws.sub (.inl h))
theorem neg (ha : ZeroNan a) : ZeroNan (-a) := by
  rcases ha with rfl | h
  · exact .inl neg_zero
  · refine .inr ?_
    rw [neg_val, h]
    rfl
theorem mul (hc : c.IsFin) (ha : ZeroNan a) : ZeroNan (c * a) ∧ ZeroNan (a * c) := by
  rcases ha with rfl | h
  · exact ⟨.inl (mul_zero_fin hc).1, .inl (mul_zero_fin hc).2⟩
  · exact ⟨.inr (nanLaws.mul (.inr h)), .inr (nanLaws.mul (.inl h))⟩
theorem mul_inf (hc : c.1 = .pinf) (ha : ZeroNan a) : (a * c).1 = .nan := by
  rcases ha with rfl | h
  · rw [mul_val, zero_val, hc]
    show Dbl.round (Dbl.infMul 0) = _
    unfold Dbl.infMul
    rw [if_pos rfl]
    rfl
  · exact nanLaws.mul (.inl h)
theorem shrink {g : B64} (hg : flt g (lit 0) = false) (ha : ZeroNan a) : ZeroNan (shrinkVal g a) := by
  unfold shrinkVal
  rw [shrunk_zero hg (ha.imp_left fun h => by rw [h, zero_val])]
  refine .inl (mul_zero_fin ?_).1
  unfold dsign
  split
  · exact lit_one.1
  · exact lit_neg_one.1
theorem ite {p : Prop} [Decidable p] (ha : ZeroNan a) (hb : ZeroNan b) : ZeroNan (if p then a else b) := by
  split
  · exact ha
  · exact hb
theorem zero : ZeroNan (lit 0) := .inl rfl
end ZeroNan

section
variable {mu lam : B64} (hmu : mu.IsFin) (hlam : lam.IsFin) (hg : flt (lit 1 / lam) (lit 0) = false) (hinv : ∀ k : ℚ, k = 2 ∨ k = 3 ∨ k = 4 → (gsInv mu lam k).1 = .pinf)

include hlam hinv in
theorem pix_nan {rhs u : FImg B64} (hr : ∀ i j, ZeroNan (rhs i j)) (hu : ∀ i j, ZeroNan (u i j)) (i j : ℕ) : (gsPix n m mu lam rhs u i j).1 = .nan := by
  have h2 := hinv 2 (.inl rfl)
  have h3 := hinv 3 (.inr (.inl rfl))
  have h4 := hinv 4 (.inr (.inr rfl))
  unfold gsPix
  split_ifs <;> refine ZeroNan.mul_inf (by first | exact h2 | exact h3 | exact h4) ((hr i j).add (ZeroNan.mul hlam ?_).2) <;>
    first
      | exact (hu _ _).add (hu _ _)
      | exact ((hu _ _).add (hu _ _)).add (hu _ _)
      | exact (((hu _ _).add (hu _ _)).add (hu _ _)).add (hu _ _)

include hlam hinv in
theorem sweep_nan {rhs u : FImg B64} (hr : ∀ i j, ZeroNan (rhs i j)) (hu : ∀ i j, ZeroNan (u i j)) :
    (∀ i j, ZeroNan (gsSweep n m mu lam rhs u i j)) ∧ ∀ i < n, ∀ j < m, (gsSweep n m mu lam rhs u i j).1 = .nan := by
  have hs : ∀ k i j, ZeroNan (gsState n m mu lam rhs u k i j) := fun k => by
    induction k with
    | zero => exact hu
    | succ k ih =>
      intro i j
      show ZeroNan (upd2 _ _ _ _ i j)
      unfold upd2
      exact ZeroNan.ite (.inr (pix_nan hlam hinv hr ih _ _)) (ih i j)
  refine ⟨hs _, fun i hi j hj => ?_⟩
  unfold gsSweep
  rw [gsState_after _ _ hj (by nlinarith)]
  exact pix_nan hlam hinv hr (hs _) i j

/-- all entries are zero or NaN -/
def ZeroNanState (s : BState B64) : Prop := ∀ i j, ZeroNan (s.u i j) ∧ ZeroNan (s.dx i j) ∧ ZeroNan (s.dy i j) ∧ ZeroNan (s.bx i j) ∧ ZeroNan (s.bY i j)

include hmu hlam hg hinv in
theorem next_nan {s : BState B64} (hs : ZeroNanState s) {jac : ℕ} (hj : 1 ≤ jac) :
    ZeroNanState (bregNext n m mu lam jac (fun _ _ => lit 0) s) ∧ ∀ i < n, ∀ j < m, ((bregNext n m mu lam jac (fun _ _ => lit 0) s).u i j).1 = .nan := by
  have hr : ∀ i j, ZeroNan (rhsF n m mu lam (fun _ _ => lit 0) s i j) := fun i j => by
    have hx : ∀ i j, ZeroNan (-s.bx i j + s.dx i j) := fun i j => (hs i j).2.2.2.1.neg.add (hs i j).2.1
    have hy : ∀ i j, ZeroNan (-s.bY i j + s.dy i j) := fun i j => (hs i j).2.2.2.2.neg.add (hs i j).2.2.1
    unfold rhsF dRowT dColT
    refine (ZeroNan.ite (ZeroNan.mul hlam (hx _ _)).1 (ZeroNan.ite (ZeroNan.mul (neg_isFin hlam) (hx _ _)).1 (ZeroNan.mul hlam ((hx _ _).sub (hx _ _))).1)).add
      (ZeroNan.mul lit_one.1 ((ZeroNan.mul hlam ((ZeroNan.ite .zero (hy _ _)).sub (ZeroNan.ite (hy _ _) .zero))).1.add (ZeroNan.mul hmu .zero).1)).1
  have hu : ∀ k i j, ZeroNan ((gsSweep n m mu lam (rhsF n m mu lam (fun _ _ => lit 0) s))^[k] s.u i j) := fun k => by
    induction k with
    | zero => exact fun i j => (hs i j).1
    | succ k ih =>
      rw [Function.iterate_succ_apply']
      exact (sweep_nan hlam hinv hr ih).1
  have hn : ∀ i < n, ∀ j < m, ((gsSweep n m mu lam (rhsF n m mu lam (fun _ _ => lit 0) s))^[jac] s.u i j).1 = .nan := by
    obtain ⟨k, rfl⟩ : ∃ k, jac = k + 1 := ⟨jac - 1, by omega⟩
    rw [Function.iterate_succ_apply']
    exact (sweep_nan hlam hinv hr (hu k)).2
  refine ⟨fun i j => ?_, hn⟩
  have hgx : ZeroNan (gxF m ((gsSweep n m mu lam (rhsF n m mu lam (fun _ _ => lit 0) s))^[jac] s.u) s.bx i j) := by
    unfold gxF dRow
    exact (ZeroNan.ite (ZeroNan.mul lit_one.1 ((hu _ _ _).sub (hu _ _ _))).1 .zero).add (ZeroNan.mul lit_one.1 (hs i j).2.2.2.1).1
  have hgy : ZeroNan (gyF n ((gsSweep n m mu lam (rhsF n m mu lam (fun _ _ => lit 0) s))^[jac] s.u) s.bY i j) := by
    unfold gyF
    exact (ZeroNan.ite (ZeroNan.mul lit_one.1 ((hu _ _ _).sub (hu _ _ _))).1 .zero).add (ZeroNan.mul lit_one.1 (hs i j).2.2.2.2).1
  exact ⟨hu _ _ _, hgx.shrink hg, hgy.shrink hg, (hgx.shrink hg).neg.add hgx, (hgy.shrink hg).neg.add hgy⟩
end

theorem inv_inf {mu lam : B64} {r t : ℝ} (hmu : mu.1 = .fin r) (h0 : 0 ≤ r) (h1 : r ≤ 2 ^ (-1028 : ℤ)) (hl : lam.1 = .fin t) (ht : 0 ≤ t) (ht1 : t ≤ 2 ^ (-1027 : ℤ)) {k : ℕ} (hk : k ≤ 4) :
    (gsInv mu lam (k : ℚ)).1 = .pinf := by
  have small : ∀ {x : ℝ} {e : ℤ}, 0 ≤ x → x ≤ 2 ^ e → -1074 ≤ e → e < 1024 → Dbl.round (.fin x) = .fin (rnd x) ∧ 0 ≤ rnd x ∧ rnd x ≤ 2 ^ e := fun {x e} hx hx1 he he1 => by
    have h4 := rnd_mono hx1
    rw [rnd_pow he] at h4
    refine ⟨?_, rnd_nonneg hx, h4⟩
    simp only [Dbl.round]
    rw [if_pos]
    rw [abs_of_nonneg (rnd_nonneg hx)]
    exact lt_of_le_of_lt h4 (zpow_lt_zpow_right₀ (by norm_num) he1)
  have p1 : (2 : ℝ) ^ (-1025 : ℤ) = 4 * 2 ^ (-1027 : ℤ) := by
    rw [show (-1025 : ℤ) = 2 + -1027 by norm_num, zpow_add₀ (by norm_num)]
    norm_num
  have p2 : (2 : ℝ) ^ (-1024 : ℤ) = 2 * 2 ^ (-1025 : ℤ) := by
    rw [show (-1024 : ℤ) = 1 + -1025 by norm_num, zpow_add₀ (by norm_num)]
    norm_num
  have p3 : (2 : ℝ) ^ (-1028 : ℤ) ≤ 2 ^ (-1025 : ℤ) := zpow_le_zpow_right₀ (by norm_num) (by norm_num)
  have hk4 : (k : ℝ) ≤ 4 := by exact_mod_cast hk
  obtain ⟨a1, a2, a3⟩ := small (x := k * t) (e := -1025) (by positivity) (by rw [p1]; exact mul_le_mul hk4 ht1 ht (by norm_num)) (by norm_num) (by norm_num)
  obtain ⟨b1, b2, b3⟩ := small (x := r + rnd (k * t)) (e := -1024) (by linarith) (by linarith) (by norm_num) (by norm_num)
  have e1 : (lit 1 : B64).1 = .fin 1 := by
    have h := eq_fin lit_one.1
    rwa [lit_one.2] at h
  have hk53 : k < 2 ^ 53 := lt_of_le_of_lt hk (by norm_num)
  unfold gsInv
  rw [div_val, e1, add_val, mul_val, eq_fin (lit_nat hk53).1, (lit_nat hk53).2, hl, Dbl.fin_mul, a1, hmu, Dbl.fin_add, b1]
  rcases b2.eq_or_lt with h | h
  · rw [← h, Dbl.pos_div_zero one_pos]
    rfl
  · rw [Dbl.fin_div h.ne']
    have h3 : (2 : ℝ) ^ (1024 : ℤ) ≤ 1 / rnd (r + rnd (k * t)) := by
      rw [le_div_iff₀ h]
      have e : (2 : ℝ) ^ (1024 : ℤ) * 2 ^ (-1024 : ℤ) = 1 := by
        rw [← zpow_add₀ (by norm_num)]
        norm_num
      rw [← e]
      exact mul_le_mul_of_nonneg_left b3 (by positivity)
    have h4 := rnd_mono h3
    rw [rnd_pow (by norm_num)] at h4
    have h5 : (2 : ℝ) ^ (1024 : ℤ) ≤ 2 ^ (1024 : ℤ) := le_rfl
    have h6 : (0 : ℝ) < 1 / rnd (r + rnd (k * t)) := by positivity
    simp only [Dbl.round]
    rw [if_neg, if_pos h6]
    rw [abs_of_nonneg (rnd_nonneg h6.le)]
    exact not_lt.2 (h5.trans h4)

/-- A black image does not stay black for very small weights: for every positive `mu` up to 2^-1028 the reciprocals of the sweep overflow, and with at least one sweep and one iteration every returned
pixel is NaN, with status 0, after all `max_iter` iterations. -/
theorem C109_small_weight_false (hn : 2 ≤ n) (hm : 2 ≤ m) (hfit : FitsInt ((n : Int) * m)) {mu : B64} (hmu : mu.IsFin ∧ 0 < mu.toReal ∧ mu.toReal ≤ 2 ^ (-1028 : ℤ)) (tol : B64)
    (hj : jac < INT_MAX) (hj1 : 1 ≤ jac) (hmax : max_iter < INT_MAX) (hmax1 : 1 ≤ max_iter) {s : PState B64} {uk f : Ptr} (hr : TVReadyB s n m uk f fun _ _ => lit 0) :
    ∃ s' : PState B64, CSpec (l1c_breg_anistropic_TV n m uk f mu tol max_iter jac) s (0, max_iter + 1) s' ∧ ∀ a < n, ∀ b < m, (s'.mem.pix uk m a b).1 = .nan := by
  obtain ⟨hw, ⟨u0, hu⟩, hf, hsep, hor⟩ := hr
  obtain ⟨K, i, s', h1, -, -, h4, -, h6, h7⟩ := cspec_breg (mu := mu) (tol := tol) hw hn hm hfit hu hf hsep hmax hj hor
  obtain ⟨m1, m2, m3⟩ := hmu
  have e2 : (lit 2 : B64).1 = .fin 2 := by
    have := lit_nat (n := 2) (by norm_num)
    have h := eq_fin this.1
    rw [this.2] at h
    exact_mod_cast h
  have hle : rnd (2 * mu.toReal) ≤ 2 ^ (-1027 : ℤ) := by
    have h3 : 2 * mu.toReal ≤ 2 ^ (-1027 : ℤ) := by
      rw [show (-1027 : ℤ) = -1028 + 1 by norm_num, zpow_add_one₀ (by norm_num)]
      linarith
    have h4 := rnd_mono h3
    rwa [rnd_pow (by norm_num)] at h4
  have hl : (lit 2 * mu).1 = .fin (rnd (2 * mu.toReal)) := by
    rw [mul_val, e2, eq_fin m1, Dbl.fin_mul]
    simp only [Dbl.round]
    rw [if_pos]
    rw [abs_of_nonneg (rnd_nonneg (by positivity))]
    exact lt_of_le_of_lt hle (zpow_lt_zpow_right₀ (by norm_num) (by norm_num))
  have hg : flt (lit 1 / (lit 2 * mu)) (lit 0) = false := threshold (by
    show Scalar.flt (lit 0 : B64).1 mu.1 = true
    rw [zero_val, eq_fin m1, Dbl.flt_fin]
    exact m2)
  have hinv : ∀ k : ℚ, k = 2 ∨ k = 3 ∨ k = 4 → (gsInv mu (lit 2 * mu) k).1 = .pinf := fun k hk => by
    have key : ∀ q : ℕ, q ≤ 4 → (gsInv mu (lit 2 * mu) (q : ℚ)).1 = .pinf := fun q hq => inv_inf (eq_fin m1) m2.le m3 hl (rnd_nonneg (by positivity)) hle hq
    rcases hk with rfl | rfl | rfl
    · exact_mod_cast key 2 (by norm_num)
    · exact_mod_cast key 3 (by norm_num)
    · exact_mod_cast key 4 (by norm_num)
  have hj' : 1 ≤ jac.toNat := by omega
  have hz : ∀ k, ZeroNanState (bregIter n m mu (lit 2 * mu) jac.toNat (fun _ _ => lit 0) k) := fun k => by
    induction k with
    | zero => exact fun _ _ => ⟨.zero, .zero, .zero, .zero, .zero⟩
    | succ k ih => exact (next_nan m1 (val_fin hl).1 hg hinv ih hj').1
  have hN : ∀ k, ∀ a < n, ∀ b < m, ((bregIter n m mu (lit 2 * mu) jac.toNat (fun _ _ => lit 0) (k + 1)).u a b).1 = .nan := fun k => (next_nan m1 (val_fin hl).1 hg hinv (hz k) hj').2
  have hb : ∀ k, bregBrk n m mu (lit 2 * mu) tol jac.toNat (fun _ _ => lit 0) k = false := fun k => by
    refine nanLaws.flt _ (nanLaws.sqrt (nanLaws.div (.inl (sumF_nan nanLaws (k := 0) (Nat.mul_pos (by omega) (by omega)) (nanLaws.mul (.inl (nanLaws.sub (.inl ?_))))))))
    exact hN k _ (by rw [Nat.zero_div]; omega) _ (Nat.mod_lt _ (by omega))
  have hK : K = max_iter.toNat ∧ i = K + 1 := by
    rcases h7 with ⟨a, b, -⟩ | ⟨-, -, c, -⟩
    · exact ⟨a, b⟩
    · rw [hb] at c
      cases c
  obtain ⟨k, rfl⟩ : ∃ k, K = k + 1 := ⟨K - 1, by omega⟩
  have hi : i = max_iter + 1 := by omega
  subst hi
  refine ⟨s', h1, fun a ha b hb => ?_⟩
  rw [h4.2 a ha b hb]
  exact hN k a ha b hb

/-- 2^-1040 is such a weight -/
example : ∃ s' : PState B64, CSpec (l1c_breg_anistropic_TV (3 : ℕ) (4 : ℕ) ⟨0, 0⟩ ⟨1, 0⟩ (of (.fin (2 ^ (-1040 : ℤ)))) inf 1 1) (imgB 3 4 fun _ _ => lit 0) (0, 2) s' ∧
    ∀ a < 3, ∀ b < 4, (s'.mem.pix ⟨0, 0⟩ 4 a b).1 = .nan := by
  have hv : (of (.fin (2 ^ (-1040 : ℤ)))).1 = .fin (2 ^ (-1040 : ℤ)) := by
    show Dbl.round (.fin (2 ^ (-1040 : ℤ))) = _
    simp only [Dbl.round]
    rw [rnd_pow (by norm_num), abs_of_nonneg (by positivity), if_pos (zpow_lt_zpow_right₀ (by norm_num) (by norm_num))]
  obtain ⟨f1, f2⟩ := val_fin hv
  exact C109_small_weight_false (max_iter := 1) (by norm_num) (by norm_num) (by unfold FitsInt INT_MAX INT_MIN; norm_num)
    ⟨f1, by rw [f2]; positivity, by rw [f2]; exact zpow_le_zpow_right₀ (by norm_num) (by norm_num)⟩ _ (by unfold INT_MAX; norm_num) le_rfl (by unfold INT_MAX; norm_num) le_rfl (imgB_ready 3 4 _)

/-! ## Very large weights -/

theorem ZeroNan.inf_mul {a c : B64} (hc : c.1 = .pinf ∨ c.1 = .ninf) (ha : ZeroNan a) : (c * a).1 = .nan := by
  rcases ha with rfl | h
  · rw [mul_val, zero_val]
    rcases hc with hc | hc <;> rw [hc]
    · show Dbl.round (Dbl.infMul 0) = _
      unfold Dbl.infMul
      rw [if_pos rfl]
      rfl
    · show Dbl.round (Dbl.infMul (-0)) = _
      unfold Dbl.infMul
      rw [_root_.neg_zero, if_pos rfl]
      rfl
  · exact nanLaws.mul (.inr h)

/-- the four auxiliary images are zero or NaN -/
def ZeroNanAux (n m : ℕ) (s : BState B64) : Prop :=
  ∀ i < n, ∀ j < m, ZeroNan (s.dx i j) ∧ ZeroNan (s.dy i j) ∧ ZeroNan (s.bx i j) ∧ ZeroNan (s.bY i j)

theorem next_nan_large {mu lam : B64} (hlam : lam.1 = .pinf) (hg : flt (lit 1 / lam) (lit 0) = false) {s : BState B64} (hs : ZeroNanAux n m s) {f : FImg B64} {jac : ℕ} (hj : 1 ≤ jac) :
    ZeroNanAux n m (bregNext n m mu lam jac f s) ∧ ∀ i < n, ∀ j < m, ((bregNext n m mu lam jac f s).u i j).1 = .nan := by
  have hr : ∀ i < n, ∀ j < m, (rhsF n m mu lam f s i j).1 = .nan := fun i hi j hj => by
    have hx : ∀ j < m, ZeroNan (-s.bx i j + s.dx i j) := fun j hj => (hs i hi j hj).2.2.1.neg.add (hs i hi j hj).1
    unfold rhsF
    refine nanLaws.add (.inl ?_)
    unfold dRowT
    split_ifs
    · exact (hx _ (by omega)).inf_mul (.inl hlam)
    · exact (hx _ (by omega)).inf_mul (.inr (by rw [neg_val, hlam]; rfl))
    · exact ((hx _ (by omega)).sub (hx _ (by omega))).inf_mul (.inl hlam)
  have hn : ∀ i < n, ∀ j < m, ((gsSweep n m mu lam (rhsF n m mu lam f s))^[jac] s.u i j).1 = .nan := by
    obtain ⟨k, rfl⟩ : ∃ k, jac = k + 1 := ⟨jac - 1, by omega⟩
    rw [Function.iterate_succ_apply']
    intro i hi j hj
    unfold gsSweep
    rw [gsState_after _ _ hj (by nlinarith)]
    exact gsPix_nan_rhs nanLaws _ (hr _ hi _ hj)
  refine ⟨fun i hi j hj => ?_, hn⟩
  have hgx : ZeroNan (gxF m ((gsSweep n m mu lam (rhsF n m mu lam f s))^[jac] s.u) s.bx i j) := by
    unfold gxF dRow
    refine ZeroNan.add ?_ (ZeroNan.mul lit_one.1 (hs i hi j hj).2.2.1).1
    split_ifs
    · exact .inr (nanLaws.mul (.inr (nanLaws.sub (.inr (hn i hi j hj)))))
    · exact .zero
  have hgy : ZeroNan (gyF n ((gsSweep n m mu lam (rhsF n m mu lam f s))^[jac] s.u) s.bY i j) := by
    unfold gyF
    refine ZeroNan.add ?_ (ZeroNan.mul lit_one.1 (hs i hi j hj).2.2.2).1
    split_ifs
    · exact .inr (nanLaws.mul (.inr (nanLaws.sub (.inr (hn i hi j hj)))))
    · exact .zero
  exact ⟨hgx.shrink hg, hgy.shrink hg, (hgx.shrink hg).neg.add hgx, (hgy.shrink hg).neg.add hgy⟩

/-- With a weight of 2^1023 or more (infinity included) twice the weight overflows: for every image, black ones and ones with infinities included, every returned pixel is NaN, with status 0, after all
`max_iter` iterations. -/
theorem C109_large_weight_false (hn : 2 ≤ n) (hm : 2 ≤ m) (hfit : FitsInt ((n : Int) * m)) {mu : B64} (hmu : mu.1 = .pinf ∨ mu.IsFin ∧ 2 ^ (1023 : ℤ) ≤ mu.toReal) (tol : B64)
    (hj : jac < INT_MAX) (hj1 : 1 ≤ jac) (hmax : max_iter < INT_MAX) (hmax1 : 1 ≤ max_iter) {f0 : ℕ → ℕ → B64} {s : PState B64} {uk f : Ptr} (hr : TVReadyB s n m uk f f0) :
    ∃ s' : PState B64, CSpec (l1c_breg_anistropic_TV n m uk f mu tol max_iter jac) s (0, max_iter + 1) s' ∧ ∀ a < n, ∀ b < m, (s'.mem.pix uk m a b).1 = .nan := by
  obtain ⟨hw, ⟨u0, hu⟩, hf, hsep, hor⟩ := hr
  obtain ⟨K, i, s', h1, -, -, h4, -, h6, h7⟩ := cspec_breg (mu := mu) (tol := tol) hw hn hm hfit hu hf hsep hmax hj hor
  have e2 : (lit 2 : B64).1 = .fin 2 := by
    have := lit_nat (n := 2) (by norm_num)
    have h := eq_fin this.1
    rw [this.2] at h
    exact_mod_cast h
  have hl : (lit 2 * mu).1 = .pinf := by
    rw [mul_val, e2]
    rcases hmu with h | ⟨m1, m2⟩
    · rw [h]
      show Dbl.round (Dbl.infMul 2) = _
      unfold Dbl.infMul
      rw [if_neg (by norm_num), if_pos (by norm_num)]
      rfl
    · rw [eq_fin m1, Dbl.fin_mul]
      have h3 : (2 : ℝ) ^ (1024 : ℤ) ≤ 2 * mu.toReal := by
        rw [show (1024 : ℤ) = 1023 + 1 by norm_num, zpow_add_one₀ (by norm_num)]
        linarith
      have h4 := rnd_mono h3
      rw [rnd_pow (by norm_num)] at h4
      have h5 : (0 : ℝ) < 2 ^ (1024 : ℤ) := by positivity
      simp only [Dbl.round]
      rw [if_neg, if_pos (lt_of_lt_of_le h5 h3)]
      rw [abs_of_nonneg (h5.le.trans h4)]
      exact not_lt.2 h4
  have hg : flt (lit 1 / (lit 2 * mu)) (lit 0) = false := threshold (by
    show Scalar.flt (lit 0 : B64).1 mu.1 = true
    rw [zero_val]
    rcases hmu with h | ⟨m1, m2⟩
    · rw [h]
      exact (Dbl.flt_iff _ _).2 trivial
    · rw [eq_fin m1, Dbl.flt_fin]
      exact lt_of_lt_of_le (by positivity) m2)
  have hj' : 1 ≤ jac.toNat := by omega
  have hz : ∀ k, ZeroNanAux n m (bregIter n m mu (lit 2 * mu) jac.toNat f0 k) := fun k => by
    induction k with
    | zero => exact fun _ _ _ _ => ⟨.zero, .zero, .zero, .zero⟩
    | succ k ih => exact (next_nan_large hl hg ih hj').1
  have hN : ∀ k, ∀ a < n, ∀ b < m, ((bregIter n m mu (lit 2 * mu) jac.toNat f0 (k + 1)).u a b).1 = .nan := fun k => (next_nan_large hl hg (hz k) hj').2
  have hb : ∀ k, bregBrk n m mu (lit 2 * mu) tol jac.toNat f0 k = false := fun k => by
    refine nanLaws.flt _ (nanLaws.sqrt (nanLaws.div (.inl (sumF_nan nanLaws (k := 0) (Nat.mul_pos (by omega) (by omega)) (nanLaws.mul (.inl (nanLaws.sub (.inl ?_))))))))
    exact hN k _ (by rw [Nat.zero_div]; omega) _ (Nat.mod_lt _ (by omega))
  have hK : K = max_iter.toNat ∧ i = K + 1 := by
    rcases h7 with ⟨a, b, -⟩ | ⟨-, -, c, -⟩
    · exact ⟨a, b⟩
    · rw [hb] at c
      cases c
  obtain ⟨k, rfl⟩ : ∃ k, K = k + 1 := ⟨K - 1, by omega⟩
  have hi : i = max_iter + 1 := by omega
  subst hi
  refine ⟨s', h1, fun a ha b hb => ?_⟩
  rw [h4.2 a ha b hb]
  exact hN k a ha b hb

/-- an all-one image with the weight 2^1023 -/
example : ∃ s' : PState B64, CSpec (l1c_breg_anistropic_TV (3 : ℕ) (4 : ℕ) ⟨0, 0⟩ ⟨1, 0⟩ (of (.fin (2 ^ (1023 : ℤ)))) inf 1 1) (imgB 3 4 fun _ _ => lit 1) (0, 2) s' ∧
    ∀ a < 3, ∀ b < 4, (s'.mem.pix ⟨0, 0⟩ 4 a b).1 = .nan := by
  have hv : (of (.fin (2 ^ (1023 : ℤ)))).1 = .fin (2 ^ (1023 : ℤ)) := by
    show Dbl.round (.fin (2 ^ (1023 : ℤ))) = _
    simp only [Dbl.round]
    rw [rnd_pow (by norm_num), abs_of_nonneg (by positivity), if_pos (zpow_lt_zpow_right₀ (by norm_num) (by norm_num))]
  obtain ⟨f1, f2⟩ := val_fin hv
  exact C109_large_weight_false (max_iter := 1) (by norm_num) (by norm_num) (by unfold FitsInt INT_MAX INT_MIN; norm_num)
    (.inr ⟨f1, f2.ge⟩) _ (by unfold INT_MAX; norm_num) le_rfl (by unfold INT_MAX; norm_num) le_rfl (imgB_ready 3 4 _)

end L1c
