import Verif.Proofs.TvFloat
import Verif.Proofs.TvSym

/-!
# TV denoising in binary64 arithmetic: the negative of an image (`C89`) and NaN pixels (`C90`)

Unlike the theorems over exact arithmetic, these hold for the computation as rounded, bit for bit (the model has one
zero, so up to the sign of zero): images may contain infinities and NaN, and any operation may overflow.
-/

namespace L1c
open Prog Scalar

variable {n m : ℕ} {max_iter jac : Int}

/-- A caller state from which `l1c_breg_anistropic_TV` may be called: `f` holds the image `f0`, whatever its values, `uk` is
a separate array of the same size, and the eight work arrays can be allocated. -/
structure TVReadyB (s : PState B64) (n m : ℕ) (uk f : Ptr) (f0 : ℕ → ℕ → B64) : Prop where
  wf : s.WF
  out : ∃ u0, HoldsF s.mem uk n m u0
  inp : HoldsF s.mem f n m f0
  sep : Sep ((n * m : ℕ) : Int) uk f
  mem : ∀ k < 8, s.oracle (s.calls + k) = true

theorem round_nonneg {r : ℝ} (h : 0 ≤ r) : Dbl.round (.fin r) = .pinf ∨ ∃ q : ℝ, 0 ≤ q ∧ Dbl.round (.fin r) = .fin q := by
  simp only [Dbl.round]
  split_ifs with h1 h2
  · exact Or.inr ⟨_, rnd_nonneg h, rfl⟩
  · exact Or.inl rfl
  · obtain rfl : r = 0 := by linarith
    rw [rnd_zero, abs_zero] at h1
    exact absurd (by positivity) h1

theorem B64.flt_zero_false {a : B64} (h : a.1 = .pinf ∨ ∃ q : ℝ, 0 ≤ q ∧ a.1 = .fin q) : flt a (lit 0) = false := by
  show Scalar.flt a.1 (lit 0 : B64).1 = false
  rw [B64.zero_val, Bool.eq_false_iff, Ne, Dbl.flt_iff]
  rcases h with h | ⟨q, h1, h⟩ <;> rw [h]
  · exact fun h => h
  · exact not_lt.2 h1

/-- the shrinkage threshold `1/(2 mu)` is not negative -/
theorem B64.threshold {mu : B64} (hmu : flt (lit 0) mu = true) : flt (lit 1 / (lit 2 * mu)) (lit 0) = false := by
  have h0 : Dbl.Lt (.fin 0) mu.1 := by
    rw [← Dbl.flt_iff, ← B64.zero_val]
    exact hmu
  have h2 : ∃ t : ℝ, 0 < t ∧ (lit 2 : B64).1 = .fin t := by
    have := B64.lit_nat (n := 2) (by norm_num)
    refine ⟨2, two_pos, ?_⟩
    have h := B64.eq_fin this.1
    rw [this.2] at h
    simpa using h
  obtain ⟨t, ht, h2⟩ := h2
  have h1 : (lit 1 : B64).1 = .fin 1 := by
    have h := B64.eq_fin B64.lit_one.1
    rwa [B64.lit_one.2] at h
  have hl : (lit 2 * mu).1 = .pinf ∨ ∃ q : ℝ, 0 ≤ q ∧ (lit 2 * mu).1 = .fin q := by
    show Dbl.round ((lit 2 : B64).1 * mu.1) = _ ∨ ∃ q : ℝ, 0 ≤ q ∧ Dbl.round ((lit 2 : B64).1 * mu.1) = _
    rw [h2]
    revert h0
    cases mu.1 with
    | fin r =>
      intro h0
      have : 0 < r := h0
      exact round_nonneg (by positivity)
    | pinf =>
      intro _
      left
      show Dbl.round (Dbl.infMul t) = _
      unfold Dbl.infMul
      rw [if_neg ht.ne', if_pos ht]
      rfl
    | ninf => exact fun h => h.elim
    | nan => exact fun h => h.elim
  refine B64.flt_zero_false ?_
  show Dbl.round ((lit 1 : B64).1 / (lit 2 * mu).1) = _ ∨ ∃ q : ℝ, 0 ≤ q ∧ Dbl.round ((lit 1 : B64).1 / (lit 2 * mu).1) = _
  rw [h1]
  rcases hl with h | ⟨q, hq, h⟩ <;> rw [h]
  · exact round_nonneg le_rfl
  · rw [Dbl.fin_div']
    split_ifs with hq0
    · left
      unfold Dbl.infMul
      rw [if_neg one_ne_zero, if_pos one_pos]
      rfl
    · exact round_nonneg (by positivity)

/-- With a positive `mu`, denoising the negative of an image returns exactly the negative of the denoised image, after
the same number of iterations: for any tolerance, iteration limit, number of sweeps and pixel values. -/
theorem C89_negative (hn : 2 ≤ n) (hm : 2 ≤ m) (hfit : FitsInt ((n : Int) * m)) {mu : B64} (hmu : flt (lit 0) mu = true) (hj : jac < INT_MAX) (hmax : max_iter < INT_MAX)
    (tol : B64) (f0 : ℕ → ℕ → B64) {s s2 : PState B64} {uk f uk2 f2 : Ptr} (hr : TVReadyB s n m uk f f0) (hr2 : TVReadyB s2 n m uk2 f2 fun i j => -f0 i j) :
    ∃ (u : ℕ → ℕ → B64) (i : Int) (s' s2' : PState B64),
      CSpec (l1c_breg_anistropic_TV n m uk f mu tol max_iter jac) s (0, i) s' ∧ HoldsF s'.mem uk n m u ∧
      CSpec (l1c_breg_anistropic_TV n m uk2 f2 mu tol max_iter jac) s2 (0, i) s2' ∧ HoldsF s2'.mem uk2 n m fun i j => -u i j := by
  obtain ⟨hw, ⟨u0, hu⟩, hf, hsep, hor⟩ := hr
  obtain ⟨hw2, ⟨u02, hu2⟩, hf2, hsep2, hor2⟩ := hr2
  obtain ⟨K, i, s', h1, -, -, h4, -, h6, h7⟩ := cspec_breg (mu := mu) (tol := tol) hw hn hm hfit hu hf hsep hmax hj hor
  obtain ⟨K2, i2, s2', g1, -, -, g4, -, g6, g7⟩ := cspec_breg (mu := mu) (tol := tol) hw2 hn hm hfit hu2 hf2 hsep2 hmax hj hor2
  have hg := B64.threshold hmu
  obtain ⟨rfl, rfl⟩ := stop_same (brk_neg B64.signLaws hg tol jac.toNat f0) h7 h6 g7 g6
  refine ⟨_, i, s', s2', h1, h4, g1, ?_⟩
  rw [iter_neg B64.signLaws hg] at g4
  exact g4

/-- What negation means: it is exact, and the negative of an infinity or NaN is the other infinity or NaN. -/
theorem C89_negation (a : B64) : (-a).1 = -a.1 ∧ - -a = a := ⟨B64.neg_val a, B64.neg_neg a⟩

/-- A NaN anywhere in the image: the call still succeeds, it always uses up `max_iter` iterations whatever the
tolerance, the returned image is NaN at that pixel, and — with at least one sweep — at every pixel whose distance to the
left plus distance upward from it is below the total number of sweeps; pixels to the right and below are always reached.  (`mu = 0`, where BLAS may leave out the
product `mu * f`, is excluded; the model always forms it.) -/
theorem C90_nan_pixel (hn : 2 ≤ n) (hm : 2 ≤ m) (hfit : FitsInt ((n : Int) * m)) {mu : B64} (_hmu : mu.1 ≠ .fin 0) (tol : B64) (hj : jac < INT_MAX) (hmax : max_iter < INT_MAX) {f0 : ℕ → ℕ → B64}
    {s : PState B64} {uk f : Ptr} (hr : TVReadyB s n m uk f f0) {p q : ℕ} (hp : p < n) (hq : q < m) (hnan : (f0 p q).1 = .nan) :
    ∃ (u : ℕ → ℕ → B64) (s' : PState B64), CSpec (l1c_breg_anistropic_TV n m uk f mu tol max_iter jac) s (0, max max_iter 0 + 1) s' ∧ HoldsF s'.mem uk n m u ∧
      (u p q).1 = .nan ∧ ∀ a < n, ∀ b < m, (p - a) + (q - b) < jac.toNat * max_iter.toNat → (u a b).1 = .nan := by
  obtain ⟨hw, ⟨u0, hu⟩, hf, hsep, hor⟩ := hr
  obtain ⟨K, i, s', h1, -, -, h4, -, h6, h7⟩ := cspec_breg (mu := mu) (tol := tol) hw hn hm hfit hu hf hsep hmax hj hor
  have hb := brk_nan (mu := mu) (lam := lit 2 * mu) B64.nanLaws hn hm hp hq hnan tol jac.toNat
  have hK : K = max_iter.toNat ∧ i = K + 1 := by
    rcases h7 with ⟨a, b, -⟩ | ⟨-, -, c, -⟩
    · exact ⟨a, b⟩
    · rw [hb] at c
      cases c
  have hi : i = max max_iter 0 + 1 := by omega
  subst hi
  refine ⟨_, s', h1, h4, iter_nan_pixel B64.nanLaws hn hm hp hq hnan _ _, fun a ha b hb hd => ?_⟩
  rw [hK.1]
  have hj1 : 1 ≤ jac.toNat := by
    rcases Nat.eq_zero_or_pos jac.toNat with h | h
    · rw [h, Nat.zero_mul] at hd
      omega
    · exact h
  obtain ⟨k, hk⟩ : ∃ k, max_iter.toNat = k + 1 := by
    rcases Nat.eq_zero_or_pos max_iter.toNat with h | h
    · rw [h, Nat.mul_zero] at hd
      omega
    · exact ⟨_, (Nat.succ_pred_eq_of_pos h).symm⟩
  rw [hk] at hd ⊢
  exact iter_nan B64.nanLaws hn hm hp hq hnan hj1 k ⟨ha, hb, by omega⟩

/-- With `n + m - 1` sweeps in total one NaN pixel wipes out the whole image. -/
theorem C90_whole_image (hn : 2 ≤ n) (hm : 2 ≤ m) (hfit : FitsInt ((n : Int) * m)) {mu : B64} (hmu : mu.1 ≠ .fin 0) (tol : B64) (hj : jac < INT_MAX) (hmax : max_iter < INT_MAX) {f0 : ℕ → ℕ → B64}
    {s : PState B64} {uk f : Ptr} (hr : TVReadyB s n m uk f f0) {p q : ℕ} (hp : p < n) (hq : q < m) (hnan : (f0 p q).1 = .nan)
    (hs : n + m - 1 ≤ jac.toNat * max_iter.toNat) :
    ∃ s' : PState B64, CSpec (l1c_breg_anistropic_TV n m uk f mu tol max_iter jac) s (0, max max_iter 0 + 1) s' ∧
      ∀ a < n, ∀ b < m, (s'.mem.pix uk m a b).1 = .nan := by
  obtain ⟨u, s', h1, h2, -, h3⟩ := C90_nan_pixel hn hm hfit hmu tol hj hmax hr hp hq hnan
  refine ⟨s', h1, fun a ha b hb => ?_⟩
  rw [h2.2 a ha b hb]
  exact h3 a ha b hb (by omega)

/-- a caller holding a binary64 image -/
def imgB (n m : ℕ) (f : ℕ → ℕ → B64) : PState B64 where
  mem := ⟨fun b => if b < 2 then n * m else 0, fun p => f (p.off.toNat / m) (p.off.toNat % m)⟩
  live := fun b => decide (b < 2)
  next := 2
  calls := 0
  oracle := fun _ => true

theorem imgB_ready (n m : ℕ) (f : ℕ → ℕ → B64) : TVReadyB (imgB n m f) n m ⟨0, 0⟩ ⟨1, 0⟩ f := by
  have key : ∀ b : ℕ, b < 2 → HoldsF (imgB n m f).mem ⟨b, 0⟩ n m f := fun b hb => by
    refine ⟨fun i h0 h1 => ⟨by simpa using h0, by simpa [imgB, Nat.le_of_lt_succ hb] using h1⟩, fun i hi j hj => ?_⟩
    have e : ((i : Int) * m + j).toNat = i * m + j := by
      have : ((i : Int) * m + j) = ((i * m + j : ℕ) : Int) := by push_cast; rfl
      rw [this, Int.toNat_natCast]
    have e1 : (i * m + j) / m = i := by rw [Nat.mul_comm, Nat.mul_add_div (by omega), Nat.div_eq_of_lt hj, add_zero]
    have e2 : (i * m + j) % m = j := by rw [Nat.mul_comm, Nat.mul_add_mod, Nat.mod_eq_of_lt hj]
    simp [Mem.pix, imgB, e, e1, e2]
  refine ⟨fun b hb => ?_, ⟨f, key 0 (by norm_num)⟩, key 1 (by norm_num), Sep.of_blk (by simp), fun _ _ => rfl⟩
  have : 2 ≤ b := hb
  simp [imgB]; omega

/-- `C89`: every 3×4 image and its negative, with `mu = 1` -/
example (f0 : ℕ → ℕ → B64) : ∃ (u : ℕ → ℕ → B64) (i : Int) (s' s2' : PState B64),
    CSpec (l1c_breg_anistropic_TV (3 : ℕ) (4 : ℕ) ⟨0, 0⟩ ⟨1, 0⟩ (lit 1) (lit (1 / 100)) 50 2) (imgB 3 4 f0) (0, i) s' ∧ HoldsF s'.mem ⟨0, 0⟩ 3 4 u ∧
    CSpec (l1c_breg_anistropic_TV (3 : ℕ) (4 : ℕ) ⟨0, 0⟩ ⟨1, 0⟩ (lit 1) (lit (1 / 100)) 50 2) (imgB 3 4 fun i j => -f0 i j) (0, i) s2' ∧
    HoldsF s2'.mem ⟨0, 0⟩ 3 4 fun i j => -u i j :=
  C89_negative (by norm_num) (by norm_num) (by unfold FitsInt INT_MAX INT_MIN; norm_num)
    (by
      show Scalar.flt (lit 0 : B64).1 (lit 1 : B64).1 = true
      rw [B64.zero_val, B64.eq_fin B64.lit_one.1, B64.lit_one.2, Dbl.flt_fin]
      norm_num)
    (by unfold INT_MAX; norm_num) (by unfold INT_MAX; norm_num) _ f0 (imgB_ready 3 4 f0) (imgB_ready 3 4 _)

/-- `C90`: a 3×4 image with a NaN in its last pixel; 3 iterations of 2 sweeps make all of it NaN -/
example : ∃ s' : PState B64,
    CSpec (l1c_breg_anistropic_TV (3 : ℕ) (4 : ℕ) ⟨0, 0⟩ ⟨1, 0⟩ (lit 1) (lit (1 / 100)) 3 2)
      (imgB 3 4 fun i j => if i = 2 ∧ j = 3 then Scalar.nan else lit 1) (0, 4) s' ∧
    ∀ a < 3, ∀ b < 4, (s'.mem.pix ⟨0, 0⟩ 4 a b).1 = .nan :=
  C90_whole_image (p := 2) (q := 3) (by norm_num) (by norm_num) (by unfold FitsInt INT_MAX INT_MIN; norm_num)
    (by
      rw [B64.eq_fin B64.lit_one.1, B64.lit_one.2]
      exact fun h => one_ne_zero (Dbl.fin.inj h)) _ (by unfold INT_MAX; norm_num) (by unfold INT_MAX; norm_num)
    (imgB_ready 3 4 _) (by norm_num) (by norm_num) (by simp; rfl) (by simp)

end L1c
