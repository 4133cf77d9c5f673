import Verif.Spec.TvRound
import Verif.Proofs.Rounding
import Verif.Proofs.Binary64Order
import Verif.Proofs.TVReal
import Verif.Proofs.BregmanOpt

/-! # Rounding in the image kernels -/

namespace L1c
open Scalar

section
variable {F : Type} [Scalar F] {M : FpModel F}

namespace FpModel

theorem two_roundings {ε δ : ℝ} (h1 : |ε| ≤ M.u) (h2 : |δ| ≤ M.u) : |(1 + ε) * (1 + δ) - 1| ≤ M.gam 2 := by
  have hu := M.u_nonneg
  have b : |ε * δ| ≤ M.u * M.u := by rw [abs_mul]; exact mul_le_mul h1 h2 (abs_nonneg _) hu
  have g : M.gam 2 = 2 * M.u + M.u * M.u := by unfold gam; ring
  rw [show (1 + ε) * (1 + δ) - 1 = ε + δ + ε * δ by ring, g, abs_le]
  rw [abs_le] at h1 h2 b
  constructor <;> linarith [h1.1, h1.2, h2.1, h2.2, b.1, b.2]

/-- a scaled difference -/
theorem scaled_diff {α a b : F} (hf : M.fin (α * (a - b))) :
    |M.val (α * (a - b)) - M.val α * (M.val a - M.val b)| ≤ M.gam 2 * |M.val α * (M.val a - M.val b)| + M.w := by
  obtain ⟨-, h2, δ, η, hd, he, hv⟩ := M.mul hf
  obtain ⟨-, -, ε, hε, hv'⟩ := M.sub h2
  rw [hv, hv', show M.val α * ((M.val a - M.val b) * (1 + ε)) * (1 + δ) + η - M.val α * (M.val a - M.val b) =
    M.val α * (M.val a - M.val b) * ((1 + ε) * (1 + δ) - 1) + η by ring]
  refine (abs_add_le _ _).trans (add_le_add ?_ he)
  rw [abs_mul, mul_comm]
  exact mul_le_mul_of_nonneg_right (two_roundings hε hd) (abs_nonneg _)

/-- a product -/
theorem scaled {α a : F} (hf : M.fin (α * a)) : |M.val (α * a) - M.val α * M.val a| ≤ M.gam 2 * |M.val α * M.val a| + M.w := by
  obtain ⟨-, -, δ, η, hd, he, hv⟩ := M.mul hf
  rw [hv, show M.val α * M.val a * (1 + δ) + η - M.val α * M.val a = M.val α * M.val a * ((1 + 0) * (1 + δ) - 1) + η by ring]
  refine (abs_add_le _ _).trans (add_le_add ?_ he)
  rw [abs_mul, mul_comm]
  exact mul_le_mul_of_nonneg_right (two_roundings (by simpa using M.u_nonneg) hd) (abs_nonneg _)

theorem Within.sub {k c d : ℕ} {a b : F} {S T A B : ℝ} (ha : M.Within k c a S A) (hb : M.Within k d b T B) (hf : M.fin (a - b)) :
    M.Within (k + 1) (c + d) (a - b) (S - T) (A + B) := by
  obtain ⟨-, -, δ, hd, hv⟩ := M.sub hf
  refine Within.round (t := M.val a - M.val b) ((abs_sub _ _).trans (add_le_add ha.1 hb.1)) ?_ hd hv
  rw [show M.val a - M.val b - (S - T) = (M.val a - S) - (M.val b - T) by ring]
  refine (abs_sub _ _).trans ((add_le_add ha.2 hb.2).trans (le_of_eq ?_))
  push_cast
  ring

theorem Within.neg (hS : FpSign M) {a : F} (hf : M.fin (-a)) : M.Within 0 0 (-a) (-M.val a) |M.val a| := by
  refine ⟨by rw [abs_neg], ?_⟩
  rw [(hS.neg hf).2]
  simp [gam]

/-- the square of a number times a sum of a few -/
theorem Within.sq_mul {α q : F} {S A : ℝ} (hq : M.fin q → M.Within 3 1 q S A) (hf : M.fin (α * α * q)) :
    |M.val (α * α * q) - M.val α ^ 2 * S| ≤
      M.gam 5 * (M.val α ^ 2 * A) + (1 + M.u) ^ 5 * M.w * (M.val α ^ 2 + A + M.w) + M.w := by
  obtain ⟨f1, f2, δ, η, hd, he, hv⟩ := M.mul hf
  obtain ⟨hS, hq⟩ := hq f2
  obtain ⟨-, -, ε, ζ, hε, hζ, hv'⟩ := M.mul f1
  have hu := M.u_nonneg
  have hw := M.w_nonneg
  set P := M.val α ^ 2 with hP
  set p := M.val (α * α) with hp
  set r := M.val q with hr
  set U := 1 + M.u with hU
  have hP0 : 0 ≤ P := sq_nonneg _
  have hA0 : 0 ≤ A := (abs_nonneg _).trans hS
  have hU1 : 1 ≤ U := by rw [hU]; linarith
  have g : ∀ k, M.gam k = U ^ k - 1 := fun k => rfl
  have p1 : |p - P| ≤ M.u * P + M.w := by
    rw [hv', show M.val α * M.val α * (1 + ε) + ζ - P = P * ε + ζ by rw [hP]; ring]
    refine (abs_add_le _ _).trans (add_le_add ?_ hζ)
    rw [abs_mul, abs_of_nonneg hP0, mul_comm]
    exact mul_le_mul_of_nonneg_right hε hP0
  have p2 : |p| ≤ U * P + M.w := by
    have := abs_sub_abs_le_abs_sub p P
    rw [abs_of_nonneg hP0] at this
    rw [hU]
    linarith
  have q1 : |r - S| ≤ (U ^ 3 - 1) * A + U ^ 3 * M.w := by
    have := hq
    rw [g] at this
    simpa using this
  have q2 : |r| ≤ U ^ 3 * (A + M.w) := by
    have := abs_sub_abs_le_abs_sub r S
    linarith
  have hU3 : 0 ≤ U ^ 3 := by positivity
  have k1 : |p * r - P * S| ≤ (M.u * P + M.w) * (U ^ 3 * (A + M.w)) + P * ((U ^ 3 - 1) * A + U ^ 3 * M.w) := by
    rw [show p * r - P * S = (p - P) * r + P * (r - S) by ring]
    refine (abs_add_le _ _).trans (add_le_add ?_ ?_)
    · rw [abs_mul]
      exact mul_le_mul p1 q2 (abs_nonneg _) (by positivity)
    · rw [abs_mul, abs_of_nonneg hP0]
      exact mul_le_mul_of_nonneg_left q1 hP0
  have k2 : |p * r| ≤ (U * P + M.w) * (U ^ 3 * (A + M.w)) := by
    rw [abs_mul]
    exact mul_le_mul p2 q2 (abs_nonneg _) (by positivity)
  have k3 : |M.val (α * α * q) - P * S| ≤ |p * r - P * S| + |p * r| * M.u + M.w := by
    rw [hv, show p * r * (1 + δ) + η - P * S = (p * r - P * S) + p * r * δ + η by ring]
    refine (abs_add_le _ _).trans (add_le_add ((abs_add_le _ _).trans (add_le_add le_rfl ?_)) he)
    rw [abs_mul]
    exact mul_le_mul_of_nonneg_left hd (abs_nonneg _)
  have k4 := mul_le_mul_of_nonneg_right k2 hu
  have hu' : M.u = U - 1 := by rw [hU]; ring
  have e : (M.u * P + M.w) * (U ^ 3 * (A + M.w)) + P * ((U ^ 3 - 1) * A + U ^ 3 * M.w) + (U * P + M.w) * (U ^ 3 * (A + M.w)) * M.u =
      (U ^ 5 - 1) * (P * A) + U ^ 5 * M.w * P + U ^ 4 * M.w * (A + M.w) := by
    rw [hu']
    ring
  have h5 : U ^ 4 * M.w * (A + M.w) ≤ U ^ 5 * M.w * (A + M.w) := by
    have : U ^ 4 ≤ U ^ 5 := pow_le_pow_right₀ hU1 (by norm_num)
    exact mul_le_mul_of_nonneg_right (mul_le_mul_of_nonneg_right this hw) (by positivity)
  rw [g]
  linarith

end FpModel

/-- three-point stencil -/
theorem within_three (hS : FpSign M) {a b c : F} (hf : M.fin (-a + lit 2 * b - c)) :
    M.Within 3 1 (-a + lit 2 * b - c) (-M.val a + 2 * M.val b - M.val c) (|M.val a| + 2 * |M.val b| + |M.val c|) := by
  obtain ⟨h1, h2, -⟩ := M.sub hf
  obtain ⟨h3, h4, -⟩ := M.add h1
  have w1 := FpModel.Within.neg hS h3
  have w2 := FpModel.Within.mul (lit 2) b h4
  rw [hS.two, abs_mul, abs_of_pos (show (0 : ℝ) < 2 by norm_num)] at w2
  have w3 := FpModel.Within.add (w1.mono (show 0 ≤ 1 by omega) le_rfl) w2 h1
  have w4 := FpModel.Within.sub w3 ((FpModel.Within.exact c).mono (show 0 ≤ 2 by omega) le_rfl) hf
  simpa using w4

/-- the same with nothing in the middle doubled (border pixels) -/
theorem within_border (hS : FpSign M) {a b c : F} (hf : M.fin (-a + b - c)) :
    M.Within 3 1 (-a + b - c) (-M.val a + M.val b - M.val c) (|M.val a| + |M.val b| + |M.val c|) := by
  obtain ⟨h1, h2, -⟩ := M.sub hf
  obtain ⟨h3, h4, -⟩ := M.add h1
  have w1 := FpModel.Within.neg hS h3
  have w3 := FpModel.Within.add w1 (FpModel.Within.exact b) h1
  have w4 := FpModel.Within.sub w3 ((FpModel.Within.exact c).mono (show 0 ≤ 1 by omega) le_rfl) hf
  exact w4.mono (by omega) (by omega)

theorem within_two {a b : F} (hf : M.fin (a - b)) : M.Within 3 1 (a - b) (M.val a - M.val b) (|M.val a| + |M.val b|) :=
  (FpModel.Within.sub (FpModel.Within.exact a) (FpModel.Within.exact b) hf).mono (by omega) (by omega)

end

/-! ## binary64 -/

theorem rnd_nat {n : ℕ} (h : n < 2 ^ 53) : rnd n = n := by
  have := rndPos_of_bits (n := n) (e := 0) (by omega) (by exact_mod_cast h) (by norm_num)
  unfold rnd
  rw [if_neg (not_lt.2 (Nat.cast_nonneg n))]
  simpa using this

namespace B64

theorem pow_big : (2 : ℝ) ^ (54 : ℤ) < 2 ^ (1024 : ℤ) := zpow_lt_zpow_right₀ (by norm_num) (by norm_num)

theorem lit_nat {n : ℕ} (h : n < 2 ^ 53) : (lit (n : ℚ) : B64).IsFin ∧ (lit (n : ℚ) : B64).toReal = n := by
  have := of_real (d := Scalar.lit (n : ℚ)) (r := n) (by rw [Dbl.lit_eq]; push_cast; rfl) (by
    rw [rnd_nat h, abs_of_nonneg (by positivity)]
    refine lt_trans ?_ pow_big
    have : (n : ℝ) < 2 ^ 53 := by exact_mod_cast h
    refine this.trans ?_
    norm_num)
  rw [rnd_nat h] at this
  exact this

theorem neg_fin {a : B64} (h : a.IsFin) : (-a).IsFin ∧ (-a).toReal = -a.toReal := by
  have e : rnd (-a.toReal) = -a.toReal := by rw [rnd_neg, rnd_toReal h]
  have := of_real (d := -a.1) (r := -a.toReal) (by rw [eq_fin h, Dbl.fin_neg]) (by rw [e, abs_neg]; exact lt_max h)
  rw [e] at this
  exact this

theorem fin_of_neg {a : B64} (h : (-a).IsFin) : a.IsFin := by
  have := (of_fin (d := -a.1) h).1
  unfold IsFin
  revert this
  cases a.1 <;> exact fun h => h

theorem lit_neg_one : (lit (-1) : B64).IsFin ∧ (lit (-1) : B64).toReal = -1 := by
  have e : rnd (-1) = -1 := by
    rw [rnd_neg]
    have := rnd_nat (n := 1) (by norm_num)
    push_cast at this
    rw [this]
  have := of_real (d := Scalar.lit (-1)) (r := -1) (by rw [Dbl.lit_eq]; norm_num) (by
    rw [e, abs_neg, abs_one]
    exact lt_trans (by norm_num) pow_big)
  rw [e] at this
  exact this

theorem lit_zero : (lit 0 : B64).IsFin ∧ (lit 0 : B64).toReal = 0 := by
  have := lit_nat (n := 0) (by norm_num)
  simpa using this

theorem lit_one : (lit 1 : B64).IsFin ∧ (lit 1 : B64).toReal = 1 := by
  have := lit_nat (n := 1) (by norm_num)
  simpa using this

/-- a difference is the rounded exact difference -/
theorem sub_fin {a b : B64} (ha : a.IsFin) (hb : b.IsFin) (h : |rnd (a.toReal - b.toReal)| < 2 ^ (1024 : ℤ)) :
    (a - b).IsFin ∧ (a - b).toReal = rnd (a.toReal - b.toReal) :=
  of_real (d := a.1 - b.1) (by rw [eq_fin ha, eq_fin hb, Dbl.fin_sub]) h

theorem add_fin {a b : B64} (ha : a.IsFin) (hb : b.IsFin) (h : |rnd (a.toReal + b.toReal)| < 2 ^ (1024 : ℤ)) :
    (a + b).IsFin ∧ (a + b).toReal = rnd (a.toReal + b.toReal) :=
  of_real (d := a.1 + b.1) (by rw [eq_fin ha, eq_fin hb, Dbl.fin_add]) h

theorem mul_fin {a b : B64} (ha : a.IsFin) (hb : b.IsFin) (h : |rnd (a.toReal * b.toReal)| < 2 ^ (1024 : ℤ)) :
    (a * b).IsFin ∧ (a * b).toReal = rnd (a.toReal * b.toReal) :=
  of_real (d := a.1 * b.1) (by rw [eq_fin ha, eq_fin hb, Dbl.fin_mul]) h

/-- multiplying by ±1 is exact -/
theorem sign_mul {s a : B64} (hs : s.IsFin) (hs1 : s.toReal = 1 ∨ s.toReal = -1) (ha : a.IsFin) :
    (s * a).IsFin ∧ (s * a).toReal = s.toReal * a.toReal := by
  have e : rnd (s.toReal * a.toReal) = s.toReal * a.toReal := by
    rcases hs1 with h | h <;> rw [h]
    · rw [one_mul, rnd_toReal ha]
    · rw [neg_one_mul, rnd_neg, rnd_toReal ha]
  have hb : |s.toReal * a.toReal| < 2 ^ (1024 : ℤ) := by
    rw [abs_mul, show |s.toReal| = 1 by rcases hs1 with h | h <;> rw [h] <;> simp, one_mul]
    exact lt_max ha
  have := of_real (d := s.1 * a.1) (r := s.toReal * a.toReal) (by rw [eq_fin hs, eq_fin ha, Dbl.fin_mul]) (by rw [e]; exact hb)
  rw [e] at this
  exact this

theorem flt_iff {a b : B64} (ha : a.IsFin) (hb : b.IsFin) : flt a b = true ↔ a.toReal < b.toReal := by
  show Scalar.flt a.1 b.1 = true ↔ _
  rw [eq_fin ha, eq_fin hb]
  exact Dbl.flt_fin _ _

theorem fle_iff {a b : B64} (ha : a.IsFin) (hb : b.IsFin) : fle a b = true ↔ a.toReal ≤ b.toReal := by
  show Scalar.fle a.1 b.1 = true ↔ _
  rw [eq_fin ha, eq_fin hb]
  exact Dbl.fle_fin _ _

theorem fabs_fin {a : B64} (h : a.IsFin) : (fabs a).IsFin ∧ (fabs a).toReal = |a.toReal| :=
  val_fin (a := fabs a) (by show Scalar.fabs a.1 = _; rw [eq_fin h]; rfl)

theorem fle_nonfin_zero {a : B64} (h : a.IsFin) : dsign a = lit 1 ∧ 0 ≤ a.toReal ∨ dsign a = lit (-1) ∧ a.toReal < 0 := by
  have h0 := lit_zero
  unfold dsign
  by_cases hc : fle (lit 0) a = true
  · rw [if_pos hc]
    have := (fle_iff h0.1 h).1 hc
    rw [h0.2] at this
    exact Or.inl ⟨rfl, this⟩
  · rw [if_neg hc]
    refine Or.inr ⟨rfl, ?_⟩
    by_contra hn
    exact hc ((fle_iff h0.1 h).2 (by rw [h0.2]; exact not_lt.1 hn))

/-- shrinkage in binary64 is the correctly rounded soft threshold -/
theorem shrink_val {g x : B64} (hg : g.IsFin) (hx : x.IsFin) (hg0 : 0 ≤ g.toReal) :
    (shrinkVal g x).IsFin ∧ (shrinkVal g x).toReal = rnd (softR g.toReal x.toReal) := by
  obtain ⟨fa, va⟩ := fabs_fin hx
  have hz := lit_zero
  have hxm := lt_max hx
  have hgm := lt_max hg
  have hb : |rnd (|x.toReal| - g.toReal)| < 2 ^ (1024 : ℤ) := by
    rw [abs_lt]
    constructor
    · have h1 : rnd (-g.toReal) ≤ rnd (|x.toReal| - g.toReal) := rnd_mono (by linarith [abs_nonneg x.toReal])
      rw [rnd_neg, rnd_toReal hg] at h1
      have := (abs_lt.1 hgm).2
      linarith
    · have h1 : rnd (|x.toReal| - g.toReal) ≤ rnd |x.toReal| := rnd_mono (by linarith)
      rw [← rnd_abs, rnd_toReal hx] at h1
      linarith
  obtain ⟨fs, vs⟩ := sub_fin fa hg (by rw [va]; exact hb)
  rw [va] at vs
  have hgr : Grid (|x.toReal| - g.toReal) := by
    rw [← va, sub_eq_add_neg]
    exact (grid fa).add (grid hg).neg
  have hm : (cmax (fabs x - g) (lit 0)).IsFin ∧ (cmax (fabs x - g) (lit 0)).toReal = rnd (max (|x.toReal| - g.toReal) 0) := by
    unfold cmax
    by_cases hc : flt (lit 0) (fabs x - g) = true
    · rw [if_pos hc]
      refine ⟨fs, ?_⟩
      have := (flt_iff hz.1 fs).1 hc
      rw [hz.2, vs] at this
      rw [vs, max_eq_left]
      by_contra hn
      have h1 := rnd_mono (le_of_not_ge hn)
      rw [rnd_zero] at h1
      linarith
    · rw [if_neg hc]
      refine ⟨hz.1, ?_⟩
      have : ¬ (0 < rnd (|x.toReal| - g.toReal)) := fun h => hc ((flt_iff hz.1 fs).2 (by rw [hz.2, vs]; exact h))
      rw [hz.2]
      rcases le_total (|x.toReal| - g.toReal) 0 with h | h
      · rw [max_eq_right h, rnd_zero]
      · rw [max_eq_left h]
        exact le_antisymm (rnd_nonneg h) (not_lt.1 this)
  have hsoft : 0 ≤ x.toReal → softR g.toReal x.toReal = max (|x.toReal| - g.toReal) 0 := fun h => by
    unfold softR
    rw [abs_of_nonneg h]
    split_ifs with h1 h2
    · rw [max_eq_right (by linarith)]
    · rw [max_eq_left (by linarith)]
    · exact absurd (show x.toReal ≤ g.toReal by linarith) h1
  have hsoft' : x.toReal < 0 → softR g.toReal x.toReal = -max (|x.toReal| - g.toReal) 0 := fun h => by
    unfold softR
    rw [abs_of_neg h]
    split_ifs with h1 h2
    · rw [max_eq_right (by linarith), neg_zero]
    · linarith
    · rw [max_eq_left (by linarith)]
      ring
  have h1 := lit_one
  have hn1 := lit_neg_one
  unfold shrinkVal
  rcases fle_nonfin_zero hx with ⟨hd, h0⟩ | ⟨hd, h0⟩ <;> rw [hd]
  · obtain ⟨f, v⟩ := sign_mul h1.1 (Or.inl h1.2) hm.1
    refine ⟨f, ?_⟩
    rw [v, h1.2, hm.2, one_mul, hsoft h0]
  · obtain ⟨f, v⟩ := sign_mul hn1.1 (Or.inr hn1.2) hm.1
    refine ⟨f, ?_⟩
    rw [v, hn1.2, hm.2, hsoft' h0, rnd_neg, neg_one_mul]

end B64

theorem b64Sign : FpSign b64Model where
  neg h := ⟨B64.fin_of_neg h, (B64.neg_fin (B64.fin_of_neg h)).2⟩
  two := by
    have := (B64.lit_nat (n := 2) (by norm_num)).2
    push_cast at this
    exact this

theorem softR_abs {γ : ℝ} (hγ : 0 ≤ γ) (x : ℝ) : |softR γ x| ≤ |x| := by
  unfold softR
  split_ifs with h1 h2
  · simp
  · rw [abs_of_pos h2] at h1 ⊢
    rw [abs_of_nonneg (by linarith)]
    linarith
  · have h0 : x ≤ 0 := not_lt.1 h2
    rw [abs_of_nonpos h0] at h1 ⊢
    rw [abs_of_nonpos (by linarith)]
    linarith

theorem softR_eq {γ : ℝ} (hγ : 0 ≤ γ) (x : ℝ) : softR γ x = max (x - γ) 0 + min (x + γ) 0 := by
  unfold softR
  split_ifs with h1 h2
  · rw [abs_le] at h1
    rw [max_eq_right (by linarith), min_eq_right (by linarith), add_zero]
  · rw [abs_of_pos h2] at h1
    rw [max_eq_left (by linarith), min_eq_right (by linarith), add_zero]
  · rw [abs_of_nonpos (not_lt.1 h2)] at h1
    rw [max_eq_right (by linarith), min_eq_left (by linarith), zero_add]

theorem softR_mono {γ x y : ℝ} (hγ : 0 ≤ γ) (h : x ≤ y) : softR γ x ≤ softR γ y := by
  rw [softR_eq hγ, softR_eq hγ]
  exact add_le_add (max_le_max (by linarith) le_rfl) (min_le_min (by linarith) le_rfl)

theorem softR_zero {γ x : ℝ} : softR γ x = 0 ↔ |x| ≤ γ := by
  unfold softR
  split_ifs with h1 h2
  · simp [h1]
  · simp only [h1, iff_false]
    rw [abs_of_pos h2] at h1
    intro h
    exact h1 (by linarith)
  · simp only [h1, iff_false]
    rw [abs_of_nonpos (not_lt.1 h2)] at h1
    intro h
    exact h1 (by linarith)

theorem softR_grid {γ x : ℝ} (h1 : Grid γ) (h2 : Grid x) : Grid (softR γ x) := by
  unfold softR
  split_ifs
  · exact ⟨0, by simp⟩
  · rw [sub_eq_add_neg]
    exact h2.add h1.neg
  · exact h2.add h1

end L1c
