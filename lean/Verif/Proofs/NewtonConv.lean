import Verif.Proofs.NewtonRate

/-! # Every Newton step lowers the barrier objective by a definite amount -/

namespace L1c
open Scalar Matrix

variable {n m : ℕ} {σ : Type} {A : Matrix (Fin n) (Fin m) ℝ} {b : Fin n → ℝ} {eps tau : ℝ} {Inv : σ → Prop}
  {ax : QAx Dbl σ n m}

/-! ## The step bound is not too small -/

/-- `v` is at least `th` -/
def StepLow (th : ℝ) (v : Dbl) : Prop := v = inf ∨ ∃ r, v = Dbl.fin r ∧ th ≤ r

theorem StepLow.min {th : ℝ} {v w : Dbl} (h1 : StepLow th v) (h2 : StepLow th w) : StepLow th (cmin v w) := by
  rcases h1 with rfl | ⟨r, rfl, h1⟩ <;> rcases h2 with rfl | ⟨q, rfl, h2⟩
  · left; unfold cmin; split <;> rfl
  · right; exact ⟨q, cmin_inf_fin q, h2⟩
  · right; exact ⟨r, cmin_fin_inf r, h1⟩
  · right; exact ⟨_, Dbl.cmin_fin r q, le_min h1 h2⟩

theorem minRatio_low {k : ℕ} {fu d : Fin k → ℝ} {th : ℝ} (h0 : ∀ i, fu i < 0) (h : ∀ t, 0 ≤ t → t < th → ∀ i, fu i + t * d i < 0) :
    StepLow th (minRatio (fvec fu) (fvec d)) := by
  have gen : ∀ (l : List (Fin k)) (v : Dbl), StepLow th v →
      StepLow th (l.foldl (fun acc i => if flt (lit 0) (fvec d i) then cmin acc (-fvec fu i / fvec d i) else acc) v) := by
    intro l
    induction l with
    | nil => exact fun v hv => hv
    | cons i l ih =>
      intro v hv
      rw [List.foldl_cons]
      refine ih _ ?_
      by_cases hd : 0 < d i
      · rw [if_pos (by rw [Dbl.lit_eq, fvec_apply, Dbl.flt_fin]; simpa using hd)]
        refine hv.min (Or.inr ⟨-fu i / d i, ?_, ?_⟩)
        · rw [fvec_apply, fvec_apply, Dbl.fin_neg, Dbl.fin_div hd.ne']
        · by_contra hc
          have := h (-fu i / d i) (div_nonneg (by linarith [h0 i]) hd.le) (not_le.1 hc) i
          rw [div_mul_cancel₀ _ hd.ne'] at this
          linarith
      · rw [if_neg (by rw [Dbl.lit_eq, fvec_apply, Dbl.flt_fin]; simpa using hd)]
        exact hv
  exact gen _ _ (Or.inl rfl)

theorem root_low {a bq c th : ℝ} (ha : 0 ≤ a) (hc : c < 0) (hab : a = 0 → bq = 0) (hth : th ≤ 1)
    (h : ∀ t, 0 ≤ t → t < th → a * t ^ 2 + bq * t + c < 0) :
    StepLow th
      (if isNaN ((-Dbl.fin bq + fsqrt (Dbl.fin bq * Dbl.fin bq - lit 4 * Dbl.fin a * Dbl.fin c)) / (lit 2 * Dbl.fin a)) then lit 1
        else (-Dbl.fin bq + fsqrt (Dbl.fin bq * Dbl.fin bq - lit 4 * Dbl.fin a * Dbl.fin c)) / (lit 2 * Dbl.fin a)) := by
  have hD : 0 ≤ bq * bq - 4 * a * c := by nlinarith [mul_self_nonneg bq, mul_nonneg ha (neg_nonneg.2 hc.le)]
  have e : (-Dbl.fin bq + fsqrt (Dbl.fin bq * Dbl.fin bq - lit 4 * Dbl.fin a * Dbl.fin c)) / (lit 2 * Dbl.fin a) =
      Dbl.fin (-bq + Real.sqrt (bq * bq - 4 * a * c)) / Dbl.fin (2 * a) := by
    simp only [Dbl.lit_eq, Dbl.fin_mul, Dbl.fin_sub, Dbl.fin_neg]
    push_cast
    rw [Dbl.fsqrt_fin hD, Dbl.fin_add]
  rw [e]
  rcases ha.eq_or_lt with rfl | ha
  · obtain rfl := hab rfl
    have : Dbl.fin (-(0 : ℝ) + Real.sqrt (0 * 0 - 4 * 0 * c)) / Dbl.fin (2 * 0) = Dbl.nan := by
      simp [Dbl.zero_div_zero]
    rw [this, if_pos Dbl.isNaN_nan]
    exact Or.inr ⟨1, by simp, hth⟩
  · rw [Dbl.fin_div (by linarith), if_neg (by simp)]
    have hDs := Real.mul_self_sqrt hD
    have hgt : |bq| ≤ Real.sqrt (bq * bq - 4 * a * c) := by
      rw [← Real.sqrt_sq_eq_abs]
      exact Real.sqrt_le_sqrt (by nlinarith [mul_pos ha (neg_pos.2 hc)])
    generalize Real.sqrt (bq * bq - 4 * a * c) = D at *
    have hpos : 0 ≤ -bq + D := by have := le_abs_self bq; linarith
    refine Or.inr ⟨_, rfl, ?_⟩
    by_contra hcon
    have h1 := h _ (div_nonneg hpos (by linarith)) (not_le.1 hcon)
    have h2 : a * ((-bq + D) / (2 * a)) ^ 2 + bq * ((-bq + D) / (2 * a)) + c = 0 := by
      field_simp
      nlinarith
    linarith

theorem find_max_step_low (hA : LOpIs ax.Ax Inv A) (hnm : n ≤ m) {P : QProb Dbl n m} {p d : XU m} (hE : EvalAt A b eps tau p P)
    (hp : StrictFeas A b eps p) (hdx : P.dx = fvec d.1) (hdu : P.du = fvec d.2) {s : σ} (hs : Inv s) {smax : ℝ} {s' : σ}
    (hrun : l1qc_find_max_step ax P s = some (Dbl.fin smax, s')) {th : ℝ} (hth : th ≤ 1)
    (hf : ∀ t, 0 ≤ t → t < th → StrictFeas A b eps (p + t • d)) : th * (99 / 100) ≤ smax := by
  obtain ⟨s1, h1, h2⟩ := hA.call d.1 hs
  have hfe : (A *ᵥ p.1 - b) ⬝ᵥ (A *ᵥ p.1 - b) - eps * eps < 0 := by have := hp.fe; unfold feR at this; linarith
  have B1 := minRatio_low (fu := fun i => p.1 i - p.2 i) (d := fun i => d.1 i - d.2 i) (th := th)
    (fun i => by have := (hp.1 i).2; linarith) fun t h0 ht i => by
      have := ((hf t h0 ht).1 i).2
      simp only [Prod.fst_add, Prod.snd_add, Prod.smul_fst, Prod.smul_snd, Pi.add_apply, Pi.smul_apply, smul_eq_mul] at this
      linarith
  have B2 := minRatio_low (fu := fun i => -p.1 i - p.2 i) (d := fun i => -d.1 i - d.2 i) (th := th)
    (fun i => by have := (hp.1 i).1; linarith) fun t h0 ht i => by
      have := ((hf t h0 ht).1 i).1
      simp only [Prod.fst_add, Prod.snd_add, Prod.smul_fst, Prod.smul_snd, Pi.add_apply, Pi.smul_apply, smul_eq_mul] at this
      linarith
  have B3 := root_low (a := (A *ᵥ d.1) ⬝ᵥ (A *ᵥ d.1)) (bq := 2 * ((A *ᵥ p.1 - b) ⬝ᵥ (A *ᵥ d.1))) (th := th)
    (dot_self_nonneg _) hfe (fun h0 => by rw [dot_self_eq_zero.1 h0]; simp) hth fun t h0 ht => by
      have h3 := (hf t h0 ht).slack
      have e : A *ᵥ (p + t • d).1 - b = (A *ᵥ p.1 - b) + t • (A *ᵥ d.1) := by
        rw [Prod.fst_add, Prod.smul_fst, mulVec_add, mulVec_smul]; abel
      unfold slackR at h3
      rw [e, add_dotProduct, dotProduct_add, dotProduct_add, smul_dotProduct, dotProduct_smul, smul_dotProduct,
        dotProduct_smul, dotProduct_comm (A *ᵥ d.1) (A *ᵥ p.1 - b)] at h3
      simp only [smul_eq_mul] at h3
      nlinarith
  have B4 : StepLow th (lit 1) := Or.inr ⟨1, by simp, hth⟩
  have B := B4.min ((B1.min B2).min B3)
  unfold l1qc_find_max_step at hrun
  rw [hdx, ombind h1, if_neg (by omega)] at hrun
  have hv := (ompure_some hrun).1
  have e1 : (fun i => fvec d.1 i - P.du i : Vec Dbl m) = fvec fun i => d.1 i - d.2 i := by rw [hdu]; rfl
  have e2 : (fun i => -fvec d.1 i - P.du i : Vec Dbl m) = fvec fun i => -d.1 i - d.2 i := by
    funext i; rw [hdu]; simp
  have e3 : lit 2 * ddot P.r (fvec (A *ᵥ d.1)) = Dbl.fin (2 * ((A *ᵥ p.1 - b) ⬝ᵥ (A *ᵥ d.1))) := by
    rw [hE.hr, ddot_fvec, Dbl.lit_eq, Dbl.fin_mul]; push_cast; rfl
  have e4 : ddot P.r P.r - P.epsilon * P.epsilon = Dbl.fin ((A *ᵥ p.1 - b) ⬝ᵥ (A *ᵥ p.1 - b) - eps * eps) := by
    rw [hE.hr, hE.heps, ddot_fvec, Dbl.fin_mul, Dbl.fin_sub]
  rw [e1, e2, e3, e4, hE.hfu1, hE.hfu2, ddot_fvec] at hv
  rcases B with hB | ⟨r, hB, hr⟩
  · rw [hB] at hv
    exfalso
    have : (inf : Dbl) * lit (99 / 100) = Dbl.pinf := by
      rw [Dbl.lit_eq]
      show Dbl.mul Dbl.pinf (Dbl.fin _) = _
      simp [Dbl.mul, Dbl.infMul]
    rw [this] at hv
    cases hv
  · rw [hB, Dbl.lit_eq, Dbl.fin_mul] at hv
    have := Dbl.fin.inj hv
    rw [← this]
    push_cast
    linarith

/-! ## The line search accepts the first or the second trial -/

/-- one trial of the line search -/
theorem ls_step (hA : LOpIs ax.Ax Inv A) (ht : tau ≠ 0) {p d : XU m} {smax g : ℝ} (fuel iter : ℕ) (t : ℝ) (flin : Dbl)
    (Q : QProb Dbl n m) {s : σ} (hsf : StrictFeas A b eps (p + t • d)) (hQ : Kept b eps tau d Q) (hs : Inv s) :
    ∃ (Q' : QProb Dbl n m) (s' : σ), Inv s' ∧ Kept b eps tau d Q' ∧ EvalAt A b eps tau (p + t • d) Q' ∧
      lsRun ax p d (barrier A b eps tau p) g smax (fuel + 1) iter (Dbl.fin t) flin ⟨some (Q, s), Q.f_val⟩ =
        if fle Q'.f_val (Dbl.fin (barrier A b eps tau p + 1 / 100 * t * g)) = true then
          ⟨(fvec (p + t • d).1, fvec (p + t • d).2), ⟨some (Q', s'), Q'.f_val⟩,
            ⟨Dbl.fin (barrier A b eps tau p + 1 / 100 * t * g), Dbl.fin t, iter, 0⟩⟩
        else lsRun ax p d (barrier A b eps tau p) g smax fuel (iter + 1) (Dbl.fin (t / 2))
          (Dbl.fin (barrier A b eps tau p + 1 / 100 * t * g)) ⟨some (Q', s'), Q'.f_val⟩ := by
  obtain ⟨Q', s', hev, hs', hE, hdx', hdu'⟩ := f_eval_fin hA hQ.hb hQ.htau hQ.heps ht hsf hs
  have hK : Kept b eps tau d Q' := ⟨hE.hb, hE.htau, hE.heps, hdx'.trans hQ.hdx, hdu'.trans hQ.hdu⟩
  refine ⟨Q', s', hs', hK, hE, ?_⟩
  have e1 : vaxpy (Dbl.fin t) (fvec d.1) (fvec p.1) = fvec (p + t • d).1 := by
    rw [vaxpy_fvec, add_comm (t • d.1)]; rfl
  have e2 : vaxpy (Dbl.fin t) (fvec d.2) (fvec p.2) = fvec (p + t • d).2 := by
    rw [vaxpy_fvec, add_comm (t • d.2)]; rfl
  have hcb : l1qc_feval_cb ax (fvec (p + t • d).1) (fvec (p + t • d).2) ⟨some (Q, s), Q.f_val⟩ =
      (Q'.f_val, ⟨some (Q', s'), Q'.f_val⟩) := by
    unfold l1qc_feval_cb
    simp only [hev]
  have hnn : isNaN Q'.f_val = false := by rw [hE.hf]; exact Dbl.isNaN_fin _
  have hfl : Dbl.fin (barrier A b eps tau p) + lit (1 / 100) * Dbl.fin t * Dbl.fin g =
      Dbl.fin (barrier A b eps tau p + 1 / 100 * t * g) := by
    rw [Dbl.lit_eq, Dbl.fin_mul, Dbl.fin_mul, Dbl.fin_add]; push_cast; rfl
  have hnext : lit (1 / 2) * Dbl.fin t = Dbl.fin (t / 2) := by
    rw [Dbl.lit_eq, Dbl.fin_mul]; congr 1; push_cast; ring
  unfold lsRun
  conv_lhs => unfold lsLoop
  dsimp only
  rw [e1, e2, hcb]
  dsimp only
  rw [hnn, hfl, hnext]
  rfl

theorem linesearch_two (hA : LOpIs ax.Ax Inv A) (ht : tau ≠ 0) {p d : XU m} {smax g : ℝ} (h0 : 0 < smax)
    (hstep : ∀ t, 0 ≤ t → t ≤ smax → StrictFeas A b eps (p + t • d))
    (harm : barrier A b eps tau (p + (smax / 2) • d) ≤ barrier A b eps tau p + 1 / 100 * (smax / 2) * g)
    {P : QProb Dbl n m} (hE : EvalAt A b eps tau p P) (hdx : P.dx = fvec d.1) (hdu : P.du = fvec d.2) {s : σ} (hs : Inv s) :
    ∃ (t' : ℝ) (xu : Vec Dbl m × Vec Dbl m) (Q' : QProb Dbl n m) (stat : LSStat Dbl) (s' : σ),
      l1qc_linesearch ax (fvec p.1) (fvec p.2) P (Dbl.fin g) ⟨lit (1 / 100), lit (1 / 2), Dbl.fin smax⟩ s =
        some ((xu, Q', stat), s') ∧ Inv s' ∧ Kept b eps tau d Q' ∧ stat.step = Dbl.fin t' ∧ (t' = smax ∨ t' = smax / 2) ∧
        stat.status = 0 ∧ xu = (fvec (p + t' • d).1, fvec (p + t' • d).2) ∧ EvalAt A b eps tau (p + t' • d) Q' ∧
        barrier A b eps tau (p + t' • d) ≤ barrier A b eps tau p + 1 / 100 * t' * g := by
  have hK : Kept b eps tau d P := ⟨hE.hb, hE.htau, hE.heps, hdx, hdu⟩
  obtain ⟨Q1, s1, hs1, hK1, hE1, r1⟩ := ls_step (g := g) (smax := smax) hA ht 31 1 smax (lit 0) P (hstep smax h0.le le_rfl) hK hs
  obtain ⟨Q2, s2, hs2, hK2, hE2, r2⟩ := ls_step (g := g) (smax := smax) hA ht 30 2 (smax / 2)
    (Dbl.fin (barrier A b eps tau p + 1 / 100 * smax * g)) Q1 (hstep (smax / 2) (by linarith) (by linarith)) hK1 hs1
  have hrun : ∀ out, lsRun ax p d (barrier A b eps tau p) g smax (31 + 1) 1 (Dbl.fin smax) (lit 0) ⟨some (P, s), P.f_val⟩ = out →
      l1c_linesearch_xu (fvec p.1) (fvec p.2) P.dx P.du ⟨some (P, s), P.f_val⟩ (Dbl.fin g) (l1qc_feval_cb ax)
      ⟨lit (1 / 100), lit (1 / 2), Dbl.fin smax⟩ = out := by
    rintro out rfl
    unfold l1c_linesearch_xu lsRun
    rw [hdx, hdu, hE.hf]
    rfl
  by_cases hle : barrier A b eps tau (p + smax • d) ≤ barrier A b eps tau p + 1 / 100 * smax * g
  · have hfle : fle Q1.f_val (Dbl.fin (barrier A b eps tau p + 1 / 100 * smax * g)) = true := by
      rw [hE1.hf]; exact (Dbl.fle_fin _ _).2 hle
    rw [if_pos hfle] at r1
    have := hrun _ r1
    refine ⟨smax, _, Q1, ⟨Dbl.fin (barrier A b eps tau p + 1 / 100 * smax * g), Dbl.fin smax, 1, 0⟩, s1, ?_, hs1, hK1, rfl, Or.inl rfl, rfl, rfl, hE1, hle⟩
    unfold l1qc_linesearch
    dsimp only
    rw [this]
    rfl
  · have hfle : ¬ fle Q1.f_val (Dbl.fin (barrier A b eps tau p + 1 / 100 * smax * g)) = true := by
      rw [hE1.hf, Dbl.fle_fin]; exact hle
    have hfle2 : fle Q2.f_val (Dbl.fin (barrier A b eps tau p + 1 / 100 * (smax / 2) * g)) = true := by
      rw [hE2.hf]; exact (Dbl.fle_fin _ _).2 harm
    rw [if_pos hfle2] at r2
    rw [if_neg hfle, r2] at r1
    have := hrun _ r1
    refine ⟨smax / 2, _, Q2, ⟨Dbl.fin (barrier A b eps tau p + 1 / 100 * (smax / 2) * g), Dbl.fin (smax / 2), 2, 0⟩, s2, ?_, hs2, hK2, rfl, Or.inr rfl, rfl, rfl, hE2, harm⟩
    unfold l1qc_linesearch
    dsimp only
    rw [this]
    rfl

/-! ## One Newton step -/

/-- what a Newton step from `p` to `p'` achieves: `L` is the squared Newton decrement, `p' = p + t d` -/
structure GoodStep (A : Matrix (Fin n) (Fin m) ℝ) (b : Fin n → ℝ) (eps tau : ℝ) (p : XU m) (dx : Fin m → ℝ) (L t : ℝ) : Prop where
  energy : w1pR A b eps tau p ⬝ᵥ dx = dx ⬝ᵥ redR A b eps p dx
  dec : ∑ k, rate A b eps p (dx, duR tau p dx) k ^ 2 = L
  slope : gxR A b eps tau p ⬝ᵥ dx + guR tau p ⬝ᵥ duR tau p dx = -(1 / tau * L)
  t0 : 0 < t
  t1 : t ≤ 99 / 100
  low : 99 / 200 ≤ t ∨ 99 / 200 ≤ t * √L
  strict : StrictFeas A b eps (p + t • ((dx, duR tau p dx) : XU m))
  less : barrier A b eps tau (p + t • ((dx, duR tau p dx) : XU m)) ≤ barrier A b eps tau p - 1 / 100 * t * (1 / tau * L)

theorem abs_le_sqrt_sum {ι : Type} [Fintype ι] (f : ι → ℝ) (k : ι) : f k ≤ √(∑ k, f k ^ 2) := by
  refine Real.le_sqrt_of_sq_le ?_
  exact Finset.single_le_sum (f := fun k => f k ^ 2) (fun i _ => sq_nonneg _) (Finset.mem_univ k)

theorem not_lt_rate {tol v : Dbl} (htol : ¬ Dbl.Lt (.fin 0) tol) (hpos : ∀ r, v = Dbl.fin r → 0 ≤ r) (hn : v ≠ Dbl.ninf) : flt v tol = false := by
  rw [Bool.eq_false_iff, Ne, Dbl.flt_iff]
  intro h
  cases v with
  | fin r =>
    refine htol ?_
    rcases (hpos r rfl).lt_or_eq with h1 | h1
    · exact Dbl.Lt.fin_trans h1 h
    · rw [h1]; exact h
  | pinf => cases tol <;> exact h
  | ninf => exact hn rfl
  | nan => cases tol <;> exact h

theorem l1_rate_off {tol : Dbl} (htol : ¬ Dbl.Lt (.fin 0) tol) (v : Dbl) (x : Fin m → ℝ) :
    flt (fabs v / dasum (fvec x)) tol = false := by
  have hx : 0 ≤ ∑ i, |x i| := Finset.sum_nonneg fun i _ => abs_nonneg _
  refine not_lt_rate htol ?_ ?_
  · intro r hr
    rw [dasum_fvec] at hr
    change Dbl.div (Dbl.abs v) _ = _ at hr
    cases v with
    | fin a =>
      simp only [Dbl.abs, Dbl.div] at hr
      split at hr
      · unfold Dbl.infMul at hr
        split at hr
        · cases hr
        · split at hr <;> cases hr
      · rw [← Dbl.fin.inj hr]; positivity
    | pinf => simp [Dbl.abs, Dbl.div, hx] at hr
    | ninf => simp [Dbl.abs, Dbl.div, hx] at hr
    | nan => simp [Dbl.abs, Dbl.div] at hr
  · intro hr
    rw [dasum_fvec] at hr
    change Dbl.div (Dbl.abs v) _ = _ at hr
    cases v with
    | fin a =>
      simp only [Dbl.abs, Dbl.div] at hr
      split at hr
      · unfold Dbl.infMul at hr
        have := abs_nonneg a
        split at hr
        · cases hr
        · rename_i h1
          rw [if_pos (lt_of_le_of_ne this (Ne.symm h1))] at hr
          cases hr
      · cases hr
    | pinf => simp [Dbl.abs, Dbl.div, hx] at hr
    | ninf => simp [Dbl.abs, Dbl.div, hx] at hr
    | nan => simp [Dbl.abs, Dbl.div] at hr

theorem newton_body_conv (R : QReal ax Inv A) (hnm : n ≤ m) (ht : 0 < tau) {prm : QOpts Dbl} (hD : Downhill prm m)
    (hc1 : prm.cg_maxiter < INT_MAX) {p : XU m} {st : QLoop Dbl n m} (h : LoopOK A b eps tau p st) (hcg : 0 ≤ st.cg)
    (hcg' : st.cg + prm.cg_maxiter ≤ INT_MAX) {s : σ} (hs : Inv s) :
    ∃ (st' : QLoop Dbl n m) (stop : Bool) (s' : σ) (dx : Fin m → ℝ) (L t : ℝ),
      l1qc_newton_body ax prm st s = some ((st', stop), s') ∧ Inv s' ∧ GoodStep A b eps tau p dx L t ∧
      LoopOK A b eps tau (p + t • ((dx, duR tau p dx) : XU m)) st' ∧ 0 ≤ st'.cg ∧ st'.cg ≤ st.cg + prm.cg_maxiter ∧ st'.newton = st.newton ∧
      (stop = true → Dbl.Lt (.fin (L / tau / 2)) prm.newton_tol ∨
        flt (fabs (st.l1_prev - dasum (fvec (p + t • ((dx, duR tau p dx) : XU m)).1)) / dasum (fvec (p + t • ((dx, duR tau p dx) : XU m)).1)) prm.l1_tol = true) ∧
      (stop = false → ¬ Dbl.Lt (.fin (L / tau / 2)) prm.newton_tol ∧
        flt (fabs (st.l1_prev - dasum (fvec (p + t • ((dx, duR tau p dx) : XU m)).1)) / dasum (fvec (p + t • ((dx, duR tau p dx) : XU m)).1)) prm.l1_tol = false) ∧
      (∀ c, 0 ≤ c → ¬ Dbl.Lt (.fin c) prm.cg_tol → nrm (w1pR A b eps tau p - redR A b eps p dx) ≤ c * nrm (w1pR A b eps tau p)) := by
  have hc0 : 0 ≤ prm.cg_maxiter := le_trans (by positivity) hD.2.1
  obtain ⟨d0, hd0⟩ := h.hdx
  obtain ⟨u0, hu0⟩ := h.hdu
  obtain ⟨r0, hr0⟩ := h.hstep
  obtain ⟨x0, hx0, hcold⟩ := warmStart_fin prm.warm_start_cg r0 d0
  have hE0 : EvalAt A b eps tau p { st.P with dx := warmStart prm.warm_start_cg st.step st.P.dx } :=
    ⟨h.hE.hb, h.hE.htau, h.hE.heps, h.hE.hr, h.hE.hfu1, h.hE.hfu2, h.hE.hfe, h.hE.hf⟩
  obtain ⟨cst, P', res, s1, dx, du, h1, hs1, hG, hdx, hdu, hst0, hst1, hst, c1, c2, c3, c4, c5⟩ :=
    descent_fin R hE0 ht.ne' h.hp (x0 := x0) (u0 := u0) (by dsimp only; rw [hr0, hd0, hx0]) hu0 ⟨prm.cg_maxiter, prm.cg_tol⟩ hc1 hs
  obtain ⟨i0, i1⟩ := descent_iter h1 hc0
  have hcint : cint (st.cg + res.cgiter) = some (st.cg + res.cgiter) := by
    unfold cint
    rw [if_pos]
    refine ⟨?_, ?_⟩
    · have : INT_MIN ≤ 0 := by decide
      omega
    · simp only at i1; omega
  obtain ⟨hw, hm, htol⟩ := hD
  have hx00 := hcold hw
  have hen := c3 hx00
  have hst_0 : cst = 0 := by
    rw [hst]
    by_cases hw0 : w1pR A b eps tau p = 0
    · rw [(c2 hw0).2, hx00]; simp [Dbl.zero_div_zero]
    · have hc := c1 hw0
      rcases c5 hm hw0 with h5 | h5
      · rw [hc, h5, Bool.eq_false_iff, Ne, Dbl.lit_eq, Dbl.flt_fin]
        simp [nrm]
      · rw [Bool.eq_false_iff, Ne, Dbl.flt_iff, Dbl.lit_eq]
        intro hlt
        apply htol
        rw [hc] at h5 hlt
        exact Dbl.Lt.fin_trans (by simpa [Dbl.Lt] using hlt) h5
  obtain rfl := hst0 hst_0
  obtain ⟨smax, s2, h2, hs2, hs0, hs9, hfeas⟩ := find_max_step_fin (d := (dx, duR tau p dx)) R.Ax hnm hG.toEvalAt h.hp hdx hdu hs1
  have hg : ddot P'.gradf_x P'.dx + ddot P'.gradf_u P'.du = Dbl.fin (gxR A b eps tau p ⬝ᵥ dx + guR tau p ⬝ᵥ duR tau p dx) := by
    rw [hG.hgx, hG.hgu, hdx, hdu, ddot_fvec, ddot_fvec, Dbl.fin_add]
  have hsl := slope_energy ht.ne' h.hp hen
  obtain ⟨L, hL⟩ : ∃ L, ∑ k, rate A b eps p (dx, duR tau p dx) k ^ 2 = L := ⟨_, rfl⟩
  have hL0 : 0 ≤ L := by rw [← hL]; exact Finset.sum_nonneg fun k _ => sq_nonneg _
  rw [hL] at hsl
  have harm := armijo ht h.hp hL hsl (t := smax / 2) (by linarith) (by linarith) fun k => by
    have := rate_lt h.hp hs0.le (hfeas smax hs0.le le_rfl) k
    linarith
  obtain ⟨t', xu, Q', stat, s3, h3, hs3, hK, hstp, hcase, hs0', hxu, hE', hle⟩ :=
    linesearch_two (g := gxR A b eps tau p ⬝ᵥ dx + guR tau p ⬝ᵥ duR tau p dx) R.Ax ht.ne' hs0 hfeas harm hG.toEvalAt hdx hdu hs2
  have ht0 : 0 < t' := by rcases hcase with rfl | rfl <;> linarith
  have ht1 : t' ≤ smax := by rcases hcase with rfl | rfl <;> linarith
  have ht2 : smax / 2 ≤ t' := by rcases hcase with rfl | rfl <;> linarith
  have hf := hfeas t' ht0.le ht1
  have hlow : 99 / 200 ≤ t' ∨ 99 / 200 ≤ t' * √L := by
    have key : ∀ th, th ≤ 1 → (∀ t, 0 ≤ t → t < th → t * √L < 1) → th * (99 / 100) ≤ smax := by
      intro th hth hlt
      refine find_max_step_low R.Ax hnm hG.toEvalAt h.hp (d := (dx, duR tau p dx)) hdx hdu hs1 h2 hth fun t t0 t1 => ?_
      refine rate_feas h.hp fun k => ?_
      have h5 := abs_le_sqrt_sum (rate A b eps p (dx, duR tau p dx)) k
      rw [hL] at h5
      exact lt_of_le_of_lt (mul_le_mul_of_nonneg_left h5 t0) (hlt t t0 t1)
    rcases le_or_gt (√L) 1 with h1 | h1
    · left
      have := key 1 le_rfl fun t t0 t1 => by nlinarith [Real.sqrt_nonneg L]
      linarith
    · right
      have hpos : 0 < √L := by linarith
      have := key (1 / √L) ((div_le_one hpos).2 h1.le) fun t t0 t1 => (lt_div_iff₀ hpos).1 t1
      have h6 : 1 / √L * (99 / 200) ≤ t' := by linarith
      have h7 := mul_le_mul_of_nonneg_right h6 hpos.le
      have h8 : 1 / √L * (99 / 200) * √L = 99 / 200 := by field_simp
      linarith
  have hgood : GoodStep A b eps tau p dx L t' := ⟨hen, hL, hsl, ht0, by linarith, hlow, hf, by rw [hsl] at hle; linarith⟩
  have hrun : l1qc_newton_body ax prm st s = (if stat.status > 0 then
      (pure ({ st with x := xu.1, u := xu.2, P := Q', step := stat.step, cg := st.cg + res.cgiter }, true) : OM σ (QLoop Dbl n m × Bool))
    else if flt (-(Dbl.fin (gxR A b eps tau p ⬝ᵥ dx + guR tau p ⬝ᵥ duR tau p dx)) / lit 2) prm.newton_tol then
      pure ({ st with x := xu.1, u := xu.2, P := Q', step := stat.step, cg := st.cg + res.cgiter }, true)
    else
      pure ({ st with x := xu.1, u := xu.2, P := Q', step := stat.step, cg := st.cg + res.cgiter, l1_prev := dasum xu.1 },
        flt (fabs (st.l1_prev - dasum xu.1) / dasum xu.1) prm.l1_tol)) s3 := by
    unfold l1qc_newton_body
    rw [ombind h1]
    dsimp only
    rw [ombind (show (olift (cint (st.cg + res.cgiter)) : OM σ Int) s1 = some (st.cg + res.cgiter, s1) by rw [hcint]; rfl),
      ombind h2, hg, h.hx, h.hu, ombind h3]
  have hlam : -(Dbl.fin (gxR A b eps tau p ⬝ᵥ dx + guR tau p ⬝ᵥ duR tau p dx)) / lit 2 = Dbl.fin (L / tau / 2) := by
    rw [hsl, Dbl.fin_neg, Dbl.lit_eq, Dbl.fin_div (by norm_num)]
    congr 1; push_cast; ring
  have hcgb : 0 ≤ st.cg + res.cgiter ∧ st.cg + res.cgiter ≤ st.cg + prm.cg_maxiter := ⟨by omega, by simp only at i1; omega⟩
  have hend : ∀ l1p, LoopOK A b eps tau (p + t' • ((dx, duR tau p dx) : XU m))
      { st with x := xu.1, u := xu.2, P := Q', step := stat.step, cg := st.cg + res.cgiter, l1_prev := l1p } := fun l1p =>
    ⟨by rw [hxu], by rw [hxu], hf, hE', ⟨dx, hK.hdx⟩, ⟨_, hK.hdu⟩, ⟨t', hstp⟩⟩
  have hexact : ∀ c, 0 ≤ c → ¬ Dbl.Lt (.fin c) prm.cg_tol → nrm (w1pR A b eps tau p - redR A b eps p dx) ≤ c * nrm (w1pR A b eps tau p) := by
    intro c hc0 hc
    have hz : redR A b eps p dx = w1pR A b eps tau p → nrm (w1pR A b eps tau p - redR A b eps p dx) ≤ c * nrm (w1pR A b eps tau p) := fun he => by
      rw [he, sub_self]
      simpa [nrm] using mul_nonneg hc0 (nrm_nonneg (w1pR A b eps tau p))
    by_cases hw0 : w1pR A b eps tau p = 0
    · refine hz ?_
      rw [(c2 hw0).1, hx00, hw0]; simp
    · rcases c5 hm hw0 with h5 | h5
      · exact hz h5
      · rw [c1 hw0] at h5
        rw [← div_le_iff₀ (nrm_pos hw0)]
        by_contra hcon
        exact hc (Dbl.Lt.fin_trans (not_le.1 hcon) h5)
  rw [if_neg (by omega), hlam] at hrun
  split at hrun
  · rename_i hstop
    exact ⟨_, true, s3, dx, L, t', hrun, hs3, hgood, hend _, hcgb.1, hcgb.2, rfl, fun _ => Or.inl ((Dbl.flt_iff _ _).1 hstop),
      fun hc => absurd hc (by decide), hexact⟩
  · rename_i hstop
    refine ⟨_, _, s3, dx, L, t', hrun, hs3, hgood, hend _, hcgb.1, hcgb.2, rfl, fun hc => Or.inr ?_,
      fun hf => ⟨fun hc => hstop ((Dbl.flt_iff _ _).2 hc), ?_⟩, hexact⟩
    · rw [hxu] at hc
      exact hc
    · rw [hxu] at hf
      exact hf

end L1c
