import Verif.Proofs.NewtonDbl

/-! # The step bound, the line search and the loops of the log-barrier Newton solver on finite data -/

namespace L1c
open Scalar Matrix

variable {n m : ℕ} {σ : Type} {A : Matrix (Fin n) (Fin m) ℝ} {b : Fin n → ℝ} {eps tau : ℝ} {Inv : σ → Prop}
  {ax : QAx Dbl σ n m}

theorem cmin_inf_fin (r : ℝ) : cmin (inf : Dbl) (Dbl.fin r) = Dbl.fin r := by
  unfold cmin
  rw [if_neg]
  rw [Dbl.flt_iff]
  exact id

theorem cmin_fin_inf (r : ℝ) : cmin (Dbl.fin r) (inf : Dbl) = Dbl.fin r := by
  unfold cmin
  rw [if_pos]
  rw [Dbl.flt_iff]
  exact trivial

/-- a step bound: unbounded or a positive number below all ratios -/
def StepBound (P : ℝ → Prop) (v : Dbl) : Prop := (v = inf ∧ ∀ t, P t) ∨ ∃ r, 0 < r ∧ v = Dbl.fin r ∧ ∀ t, t < r → P t

theorem StepBound.min {P Q : ℝ → Prop} {v w : Dbl} (h1 : StepBound P v) (h2 : StepBound Q w) :
    StepBound (fun t => P t ∧ Q t) (cmin v w) := by
  rcases h1 with ⟨rfl, h1⟩ | ⟨r, hr, rfl, h1⟩ <;> rcases h2 with ⟨rfl, h2⟩ | ⟨q, hq, rfl, h2⟩
  · left
    refine ⟨?_, fun t => ⟨h1 t, h2 t⟩⟩
    unfold cmin; split <;> rfl
  · right; exact ⟨q, hq, cmin_inf_fin q, fun t ht => ⟨h1 t, h2 t ht⟩⟩
  · right; exact ⟨r, hr, cmin_fin_inf r, fun t ht => ⟨h1 t ht, h2 t⟩⟩
  · right
    exact ⟨_, lt_min hr hq, Dbl.cmin_fin r q, fun t ht => ⟨h1 t (lt_of_lt_of_le ht (min_le_left _ _)),
      h2 t (lt_of_lt_of_le ht (min_le_right _ _))⟩⟩

theorem minRatio_bound {k : ℕ} (fu d : Fin k → ℝ) (hfu : ∀ i, fu i < 0) :
    StepBound (fun t => 0 ≤ t → ∀ i, fu i + t * d i < 0) (minRatio (fvec fu) (fvec d)) := by
  have gen : ∀ (l : List (Fin k)) (P : ℝ → Prop) (v : Dbl), StepBound P v →
      StepBound (fun t => P t ∧ (0 ≤ t → ∀ i ∈ l, fu i + t * d i < 0))
        (l.foldl (fun acc i => if flt (lit 0) (fvec d i) then cmin acc (-fvec fu i / fvec d i) else acc) v) := by
    intro l
    induction l with
    | nil => intro P v h; simpa using h
    | cons i l ih =>
      intro P v h
      rw [List.foldl_cons]
      have h' : StepBound (fun t => P t ∧ (0 ≤ t → fu i + t * d i < 0))
          (if flt (lit 0) (fvec d i) then cmin v (-fvec fu i / fvec d i) else v) := by
        by_cases hd : 0 < d i
        · rw [if_pos (by rw [Dbl.lit_eq, fvec_apply, Dbl.flt_fin]; simpa using hd)]
          refine h.min (Or.inr ⟨-fu i / d i, div_pos (by linarith [hfu i]) hd, ?_, fun t ht _ => ?_⟩)
          · rw [fvec_apply, fvec_apply, Dbl.fin_neg, Dbl.fin_div hd.ne']
          · have := (lt_div_iff₀ hd).1 ht
            linarith
        · rw [if_neg (by rw [Dbl.lit_eq, fvec_apply, Dbl.flt_fin]; simpa using hd)]
          have hm : ∀ t, 0 ≤ t → fu i + t * d i < 0 := fun t ht => by
            have := hfu i
            nlinarith
          rcases h with ⟨e, h⟩ | ⟨r, hr, e, h⟩
          · exact Or.inl ⟨e, fun t => ⟨h t, hm t⟩⟩
          · exact Or.inr ⟨r, hr, e, fun t ht => ⟨h t ht, hm t⟩⟩
      have := ih _ _ h'
      have himp : ∀ {P Q : ℝ → Prop} {v : Dbl}, (∀ t, P t → Q t) → StepBound P v → StepBound Q v := by
        rintro P Q v hPQ (⟨e, h⟩ | ⟨r, hr, e, h⟩)
        · exact Or.inl ⟨e, fun t => hPQ t (h t)⟩
        · exact Or.inr ⟨r, hr, e, fun t ht => hPQ t (h t ht)⟩
      refine himp (fun t ht => ⟨ht.1.1, fun h0 j hj => ?_⟩) this
      rcases List.mem_cons.1 hj with rfl | hj
      · exact ht.1.2 h0
      · exact ht.2 h0 j hj
  have h := gen (List.finRange k) (fun _ => True) inf (Or.inl ⟨rfl, fun _ => trivial⟩)
  rcases h with ⟨e, h⟩ | ⟨r, hr, e, h⟩
  · exact Or.inl ⟨e, fun t h0 i => (h t).2 h0 i (List.mem_finRange i)⟩
  · exact Or.inr ⟨r, hr, e, fun t ht h0 i => (h t ht).2 h0 i (List.mem_finRange i)⟩

/-- before its positive root a convex quadratic with negative value at zero is negative -/
theorem quad_neg {a bq c rho t : ℝ} (ha : 0 ≤ a) (hc : c < 0) (hrho : a * rho ^ 2 + bq * rho + c = 0) (hr : 0 < rho)
    (h0 : 0 ≤ t) (ht : t < rho) : a * t ^ 2 + bq * t + c < 0 := by
  have h1 : (a * t ^ 2 + bq * t + c) * rho = (rho - t) * c - a * rho * t * (rho - t) := by linear_combination t * hrho
  have h2 : (rho - t) * c < 0 := mul_neg_of_pos_of_neg (by linarith) hc
  have h3 : 0 ≤ a * rho * t * (rho - t) := mul_nonneg (mul_nonneg (mul_nonneg ha hr.le) h0) (by linarith)
  by_contra hcon
  have : 0 ≤ (a * t ^ 2 + bq * t + c) * rho := mul_nonneg (not_lt.1 hcon) hr.le
  linarith

theorem root_bound {a bq c : ℝ} (ha : 0 ≤ a) (hc : c < 0) (hab : a = 0 → bq = 0) :
    StepBound (fun t => 0 ≤ t → a * t ^ 2 + bq * t + c < 0)
      (if isNaN ((-Dbl.fin bq + fsqrt (Dbl.fin bq * Dbl.fin bq - lit 4 * Dbl.fin a * Dbl.fin c)) / (lit 2 * Dbl.fin a)) then lit 1
        else (-Dbl.fin bq + fsqrt (Dbl.fin bq * Dbl.fin bq - lit 4 * Dbl.fin a * Dbl.fin c)) / (lit 2 * Dbl.fin a)) := by
  have hD : 0 ≤ bq * bq - 4 * a * c := by nlinarith [mul_self_nonneg bq, mul_nonneg ha (neg_nonneg.2 hc.le)]
  have e : (-Dbl.fin bq + fsqrt (Dbl.fin bq * Dbl.fin bq - lit 4 * Dbl.fin a * Dbl.fin c)) / (lit 2 * Dbl.fin a) =
      Dbl.fin (-bq + Real.sqrt (bq * bq - 4 * a * c)) / Dbl.fin (2 * a) := by
    simp only [Dbl.lit_eq, Dbl.fin_mul, Dbl.fin_sub, Dbl.fin_neg]
    push_cast
    rw [Dbl.fsqrt_fin hD, Dbl.fin_add]
  rw [e]
  rcases ha.eq_or_lt with rfl | ha
  · obtain rfl := hab rfl
    have : Dbl.fin (-(0 : ℝ) + Real.sqrt (0 * 0 - 4 * 0 * c)) / Dbl.fin (2 * 0) = Dbl.nan := by
      simp [Dbl.zero_div_zero]
    rw [this, if_pos Dbl.isNaN_nan]
    refine Or.inr ⟨1, one_pos, by simp, fun t _ _ => by simpa using hc⟩
  · rw [Dbl.fin_div (by linarith), if_neg (by simp)]
    set D := bq * bq - 4 * a * c with hDd
    have hDs := Real.mul_self_sqrt hD
    have hgt : |bq| < Real.sqrt D := by
      rw [← Real.sqrt_sq_eq_abs]
      exact Real.sqrt_lt_sqrt (sq_nonneg _) (by nlinarith [mul_pos ha (neg_pos.2 hc)])
    have hpos : 0 < -bq + Real.sqrt D := by have := le_abs_self bq; linarith
    refine Or.inr ⟨_, div_pos hpos (by linarith), rfl, fun t ht h0 => ?_⟩
    refine quad_neg ha.le hc ?_ (div_pos hpos (by linarith)) h0 ht
    field_simp
    nlinarith

theorem find_max_step_fin (hA : LOpIs ax.Ax Inv A) (hnm : n ≤ m) {P : QProb Dbl n m} {p d : XU m} (hE : EvalAt A b eps tau p P)
    (hp : StrictFeas A b eps p) (hdx : P.dx = fvec d.1) (hdu : P.du = fvec d.2) {s : σ} (hs : Inv s) :
    ∃ smax s', l1qc_find_max_step ax P s = some (Dbl.fin smax, s') ∧ Inv s' ∧ 0 < smax ∧ smax ≤ 99 / 100 ∧
      ∀ t, 0 ≤ t → t ≤ smax → StrictFeas A b eps (p + t • d) := by
  obtain ⟨s', h1, h2⟩ := hA.call d.1 hs
  have heps : 0 < eps := lt_of_le_of_lt (nrm_nonneg _) hp.2
  have B1 := minRatio_bound (fun i => p.1 i - p.2 i) (fun i => d.1 i - d.2 i) fun i => by have := (hp.1 i).2; linarith
  have B2 := minRatio_bound (fun i => -p.1 i - p.2 i) (fun i => -d.1 i - d.2 i) fun i => by have := (hp.1 i).1; linarith
  have hfe : (A *ᵥ p.1 - b) ⬝ᵥ (A *ᵥ p.1 - b) - eps * eps < 0 := by have := hp.fe; unfold feR at this; linarith
  have B3 := root_bound (a := (A *ᵥ d.1) ⬝ᵥ (A *ᵥ d.1)) (bq := 2 * ((A *ᵥ p.1 - b) ⬝ᵥ (A *ᵥ d.1)))
    (dot_self_nonneg _) hfe fun h0 => by rw [dot_self_eq_zero.1 h0]; simp
  have B4 : StepBound (fun t => t < 1) (lit 1) := Or.inr ⟨1, one_pos, by simp, fun t ht => ht⟩
  have B := B4.min ((B1.min B2).min B3)
  obtain ⟨r, hr, er, hB⟩ : ∃ r, 0 < r ∧ cmin (lit 1) (cmin (cmin (minRatio (fvec fun i => p.1 i - p.2 i) (fvec fun i => d.1 i - d.2 i))
      (minRatio (fvec fun i => -p.1 i - p.2 i) (fvec fun i => -d.1 i - d.2 i)))
      (if isNaN ((-Dbl.fin (2 * ((A *ᵥ p.1 - b) ⬝ᵥ (A *ᵥ d.1))) + fsqrt (Dbl.fin (2 * ((A *ᵥ p.1 - b) ⬝ᵥ (A *ᵥ d.1))) *
        Dbl.fin (2 * ((A *ᵥ p.1 - b) ⬝ᵥ (A *ᵥ d.1))) - lit 4 * Dbl.fin ((A *ᵥ d.1) ⬝ᵥ (A *ᵥ d.1)) *
        Dbl.fin ((A *ᵥ p.1 - b) ⬝ᵥ (A *ᵥ p.1 - b) - eps * eps))) / (lit 2 * Dbl.fin ((A *ᵥ d.1) ⬝ᵥ (A *ᵥ d.1)))) then lit 1
        else (-Dbl.fin (2 * ((A *ᵥ p.1 - b) ⬝ᵥ (A *ᵥ d.1))) + fsqrt (Dbl.fin (2 * ((A *ᵥ p.1 - b) ⬝ᵥ (A *ᵥ d.1))) *
        Dbl.fin (2 * ((A *ᵥ p.1 - b) ⬝ᵥ (A *ᵥ d.1))) - lit 4 * Dbl.fin ((A *ᵥ d.1) ⬝ᵥ (A *ᵥ d.1)) *
        Dbl.fin ((A *ᵥ p.1 - b) ⬝ᵥ (A *ᵥ p.1 - b) - eps * eps))) / (lit 2 * Dbl.fin ((A *ᵥ d.1) ⬝ᵥ (A *ᵥ d.1))))) = Dbl.fin r ∧
      ∀ t, t < r → t < 1 ∧ ((0 ≤ t → ∀ i, p.1 i - p.2 i + t * (d.1 i - d.2 i) < 0) ∧
        (0 ≤ t → ∀ i, -p.1 i - p.2 i + t * (-d.1 i - d.2 i) < 0)) ∧
        (0 ≤ t → (A *ᵥ d.1) ⬝ᵥ (A *ᵥ d.1) * t ^ 2 + 2 * ((A *ᵥ p.1 - b) ⬝ᵥ (A *ᵥ d.1)) * t +
          ((A *ᵥ p.1 - b) ⬝ᵥ (A *ᵥ p.1 - b) - eps * eps) < 0) := by
    rcases B with ⟨-, h⟩ | ⟨r, hr, e, h⟩
    · exact absurd (h 1).1 (lt_irrefl 1)
    · exact ⟨r, hr, e, h⟩
  have hr1 : r ≤ 1 := by
    by_contra hc
    exact absurd (hB 1 (not_le.1 hc)).1 (lt_irrefl 1)
  refine ⟨r * (99 / 100), s', ?_, h2, by positivity, by linarith, fun t h0 ht => ?_⟩
  · unfold l1qc_find_max_step
    rw [hdx, ombind h1, if_neg (by omega), ompure]
    have e1 : (fun i => fvec d.1 i - P.du i : Vec Dbl m) = fvec fun i => d.1 i - d.2 i := by rw [hdu]; rfl
    have e2 : (fun i => -fvec d.1 i - P.du i : Vec Dbl m) = fvec fun i => -d.1 i - d.2 i := by
      funext i; rw [hdu]; simp
    have e3 : lit 2 * ddot P.r (fvec (A *ᵥ d.1)) = Dbl.fin (2 * ((A *ᵥ p.1 - b) ⬝ᵥ (A *ᵥ d.1))) := by
      rw [hE.hr, ddot_fvec, Dbl.lit_eq, Dbl.fin_mul]; push_cast; rfl
    have e4 : ddot P.r P.r - P.epsilon * P.epsilon = Dbl.fin ((A *ᵥ p.1 - b) ⬝ᵥ (A *ᵥ p.1 - b) - eps * eps) := by
      rw [hE.hr, hE.heps, ddot_fvec, Dbl.fin_mul, Dbl.fin_sub]
    rw [e1, e2, e3, e4, hE.hfu1, hE.hfu2, ddot_fvec, er, Dbl.lit_eq, Dbl.fin_mul]
    push_cast
    rfl
  · obtain ⟨-, ⟨q1, q2⟩, q3⟩ := hB t (by nlinarith)
    refine ⟨fun i => ⟨?_, ?_⟩, ?_⟩
    · have := q2 h0 i
      simp only [Prod.fst_add, Prod.snd_add, Prod.smul_fst, Prod.smul_snd, Pi.add_apply, Pi.smul_apply, smul_eq_mul]
      linarith
    · have := q1 h0 i
      simp only [Prod.fst_add, Prod.snd_add, Prod.smul_fst, Prod.smul_snd, Pi.add_apply, Pi.smul_apply, smul_eq_mul]
      linarith
    · have := q3 h0
      have e : A *ᵥ (p + t • d).1 - b = (A *ᵥ p.1 - b) + t • (A *ᵥ d.1) := by
        rw [Prod.fst_add, Prod.smul_fst, mulVec_add, mulVec_smul]; abel
      rw [e]
      unfold nrm
      rw [Real.sqrt_lt' heps, add_dotProduct, dotProduct_add, dotProduct_add, smul_dotProduct, dotProduct_smul, smul_dotProduct,
        dotProduct_smul, dotProduct_comm (A *ᵥ d.1) (A *ᵥ p.1 - b)]
      simp only [smul_eq_mul]
      nlinarith

end L1c
