import Verif.Proofs.NewtonCentre
import Verif.Proofs.NewtonInit

/-! # The Newton loop stops at its decrement test, and what follows for the whole solver -/

namespace L1c
open Scalar Matrix

variable {n m : ℕ} {σ : Type} {A : Matrix (Fin n) (Fin m) ℝ} {b : Fin n → ℝ} {eps tau : ℝ} {Inv : σ → Prop}
  {ax : QAx Dbl σ n m}

theorem GoodStep.gain (ht : 0 < tau) {p : XU m} {dx : Fin m → ℝ} {L t eta : ℝ} (hg : GoodStep A b eps tau p dx L t) (h0 : 0 ≤ eta)
    (hL : eta ≤ L) : tau * barrier A b eps tau (p + t • ((dx, duR tau p dx) : XU m)) ≤ tau * barrier A b eps tau p - stepGain eta := by
  have h1 := mul_le_mul_of_nonneg_left hg.less ht.le
  have e : tau * (barrier A b eps tau p - 1 / 100 * t * (1 / tau * L)) = tau * barrier A b eps tau p - 1 / 100 * (t * L) := by
    field_simp
  rw [e] at h1
  have h2 : stepGain eta ≤ 1 / 100 * (t * L) := by
    unfold stepGain
    have hL0 : 0 ≤ L := h0.trans hL
    have hs := Real.mul_self_sqrt hL0
    have hsn := Real.sqrt_nonneg L
    have hse := Real.sqrt_le_sqrt hL
    rcases hg.low with hl | hl
    · have a1 := min_le_left eta (√eta)
      nlinarith
    · have a1 := min_le_right eta (√eta)
      have a2 := mul_le_mul_of_nonneg_right hl hsn
      rw [mul_assoc, hs] at a2
      linarith
  linarith

theorem GoodStep.mono (ht : 0 < tau) {p : XU m} {dx : Fin m → ℝ} {L t : ℝ} (hg : GoodStep A b eps tau p dx L t) :
    barrier A b eps tau (p + t • ((dx, duR tau p dx) : XU m)) ≤ barrier A b eps tau p := by
  have hL0 : 0 ≤ L := by rw [← hg.dec]; exact Finset.sum_nonneg fun k _ => sq_nonneg _
  have : 0 ≤ 1 / 100 * t * (1 / tau * L) := by have := hg.t0; positivity
  linarith [hg.less]

/-- the Newton loop, given enough iterations, ends with a step that started at small decrement -/
theorem newton_loop_conv (R : QReal ax Inv A) (hnm : n ≤ m) (ht : 0 < tau) {prm : QOpts Dbl} (hD : Downhill prm m)
    (hc1 : prm.cg_maxiter < INT_MAX) {tol : ℝ} (htol : prm.newton_tol = Dbl.fin tol) (htol0 : 0 < tol) (hl1 : ¬ Dbl.Lt (.fin 0) prm.l1_tol) :
    ∀ (fuel : ℕ) (iter : Int) (p : XU m) (st : QLoop Dbl n m) (s : σ), LoopOK A b eps tau p st → 0 ≤ st.cg →
    st.cg + fuel * prm.cg_maxiter ≤ INT_MAX → Inv s →
    tau * barrier A b eps tau p < barrierLow m eps tau + fuel * stepGain (2 * tau * tol) →
    ∃ (st' : QLoop Dbl n m) (iter' : Int) (s' : σ) (q : XU m) (dx : Fin m → ℝ) (L t : ℝ),
      l1qc_newton_loop ax prm fuel iter st s = some ((st', iter'), s') ∧ Inv s' ∧
      LoopOK A b eps tau (q + t • ((dx, duR tau q dx) : XU m)) st' ∧ StrictFeas A b eps q ∧ GoodStep A b eps tau q dx L t ∧
      L < 2 * tau * tol ∧ (∀ c, 0 ≤ c → ¬ Dbl.Lt (.fin c) prm.cg_tol → nrm (w1pR A b eps tau q - redR A b eps q dx) ≤ c * nrm (w1pR A b eps tau q)) ∧
      barrier A b eps tau q ≤ barrier A b eps tau p ∧
      barrier A b eps tau (q + t • ((dx, duR tau q dx) : XU m)) ≤ barrier A b eps tau p ∧
      0 ≤ st'.cg ∧ st'.cg ≤ st.cg + fuel * prm.cg_maxiter ∧ st'.newton = st.newton ∧ iter ≤ iter' ∧ iter' < iter + fuel ∧
      (iter' - iter : ℝ) * stepGain (2 * tau * tol) ≤ tau * barrier A b eps tau p - barrierLow m eps tau := by
  have hc0 : 0 ≤ prm.cg_maxiter := le_trans (by positivity) hD.2.1
  intro fuel
  induction fuel with
  | zero =>
    intro iter p st s h hcg hcg' hs hlow
    have := low_le ht h.hp
    simp only [Nat.cast_zero, zero_mul, add_zero] at hlow
    linarith
  | succ fuel ih =>
    intro iter p st s h hcg hcg' hs hlow
    push_cast at hcg' hlow
    have hpos : 0 ≤ (fuel : Int) * prm.cg_maxiter := by positivity
    obtain ⟨st1, stop, s1, dx, L, t, h1, hs1, hg, hok, b1, b2, b3, b4, b5, b6⟩ :=
      newton_body_conv R hnm ht hD hc1 h hcg (by linarith) hs
    unfold l1qc_newton_loop
    rw [ombind h1]
    dsimp only
    cases stop with
    | true =>
      have hL : L < 2 * tau * tol := by
        rcases b4 rfl with h2 | h2
        · rw [htol] at h2
          have h3 : L / tau / 2 < tol := h2
          rw [div_div, div_lt_iff₀ (by linarith)] at h3
          linarith
        · rw [l1_rate_off hl1] at h2; cases h2
      refine ⟨st1, iter, s1, p, dx, L, t, rfl, hs1, hok, h.hp, hg, hL, b6, le_rfl, hg.mono ht, b1, by push_cast; linarith, b3, le_rfl,
        by push_cast; omega, ?_⟩
      have := low_le ht h.hp
      rw [sub_self, zero_mul]; linarith
    | false =>
      have hL : 2 * tau * tol ≤ L := by
        have h2 := (b5 rfl).1
        rw [htol] at h2
        have h3 : ¬ L / tau / 2 < tol := h2
        rw [not_lt, div_div, le_div_iff₀ (by linarith)] at h3
        linarith
      have hgain := hg.gain ht (by positivity) hL
      obtain ⟨st2, iter2, s2, q, dx2, L2, t2, h2, hs2, hok2, hq, hg2, hL2, hx2, hq2, hm2, e1, e2, e3, e4, e5, e6⟩ :=
        ih (iter + 1) _ st1 s1 hok b1 (by linarith) hs1 (by linarith)
      refine ⟨st2, iter2, s2, q, dx2, L2, t2, h2, hs2, hok2, hq, hg2, hL2, hx2, hq2.trans (hg.mono ht), hm2.trans (hg.mono ht), e1, by push_cast; linarith,
        e3.trans b3, by omega, by push_cast; omega, ?_⟩
      push_cast at e6
      linarith

/-- one barrier iteration -/
theorem lb_body_conv (R : QReal ax Inv A) (hnm : n ≤ m) (ht : 0 < tau) {prm : QOpts Dbl} {mu : ℝ} (hmu : prm.mu = Dbl.fin mu)
    (hD : Downhill prm m) (hc1 : prm.cg_maxiter < INT_MAX) {tol : ℝ} (htol : prm.newton_tol = Dbl.fin tol) (htol0 : 0 < tol)
    (hl1 : ¬ Dbl.Lt (.fin 0) prm.l1_tol) {p : XU m} {st : QLoop Dbl n m}
    (h : LoopEnd A b eps tau p st) (hcg : 0 ≤ st.cg)
    (hcg' : st.cg + (prm.newton_max_iter - 1).toNat * prm.cg_maxiter ≤ INT_MAX) (hnt : 0 ≤ st.newton)
    (hnt' : st.newton + ((prm.newton_max_iter - 1).toNat + 1) ≤ INT_MAX) {s : σ} (hs : Inv s)
    (hlow : tau * barrier A b eps tau p < barrierLow m eps tau + (prm.newton_max_iter - 1).toNat * stepGain (2 * tau * tol)) :
    ∃ (st' : QLoop Dbl n m) (s' : σ) (q : XU m) (dx : Fin m → ℝ) (L t : ℝ),
      l1qc_lb_body ax prm st s = some (st', s') ∧ Inv s' ∧ st'.x = fvec (q + t • ((dx, duR tau q dx) : XU m)).1 ∧
      st'.P.tau = Dbl.fin (tau * mu) ∧ StrictFeas A b eps q ∧ GoodStep A b eps tau q dx L t ∧ L < 2 * tau * tol ∧
      (∀ c, 0 ≤ c → ¬ Dbl.Lt (.fin c) prm.cg_tol → nrm (w1pR A b eps tau q - redR A b eps q dx) ≤ c * nrm (w1pR A b eps tau q)) ∧
      barrier A b eps tau q ≤ barrier A b eps tau p ∧
      st'.newton - st.newton < prm.newton_max_iter ∧
      (st'.newton - st.newton - 1 : ℝ) * stepGain (2 * tau * tol) ≤ tau * barrier A b eps tau p - barrierLow m eps tau := by
  obtain ⟨P1, s1, h1, hs1, hE, hdx, hdu⟩ := f_eval_fin (P := { st.P with dx := fun _ => lit 0 }) R.Ax h.hb h.htau h.heps ht.ne' h.hp hs
  have hok : LoopOK A b eps tau p { st with P := P1, l1_prev := inf } :=
    ⟨h.hx, h.hu, h.hp, hE, ⟨0, by rw [hdx]; funext i; simp⟩, by rw [hdu]; exact h.hdu, h.hstep⟩
  obtain ⟨st2, iter, s2, q, dx, L, t, h2, hs2, hok2, hq, hg, hL, hx, hqb, hm, b1, b2, b3, b4, b5, b6⟩ := newton_loop_conv R hnm ht hD hc1
    htol htol0 hl1 (prm.newton_max_iter - 1).toNat 1 p { st with P := P1, l1_prev := inf } s1 hok hcg hcg' hs1 hlow
  have b3' : st2.newton = st.newton := b3
  have hc : cint (st2.newton + iter) = some (st2.newton + iter) := by
    unfold cint
    rw [if_pos]
    have : INT_MIN ≤ 0 := by decide
    exact ⟨by omega, by omega⟩
  refine ⟨{ st2 with newton := st2.newton + iter, P := { st2.P with tau := st2.P.tau * prm.mu } }, s2, q, dx, L, t, ?_, hs2,
    hok2.hx, ?_, hq, hg, hL, hx, hqb, ?_, ?_⟩
  · unfold l1qc_lb_body
    dsimp only
    rw [h.hx, h.hu, ombind h1, ← h.hx, ← h.hu, ombind h2]
    dsimp only
    rw [ombind (show (olift (cint (st2.newton + iter)) : OM σ Int) s2 = some (st2.newton + iter, s2) by rw [hc]; rfl)]
    rfl
  · show st2.P.tau * prm.mu = _
    rw [hok2.stop.htau, hmu, Dbl.fin_mul]
  · show st2.newton + iter - st.newton < _
    omega
  · show (((st2.newton + iter : Int) : ℝ) - st.newton - 1) * _ ≤ _
    rw [b3']
    push_cast at b6 ⊢
    rw [show ((st.newton : ℝ) + iter - st.newton - 1) = (iter - 1 : ℝ) by ring]
    exact b6

theorem startBound_mono {mu : ℝ} (hmu : 1 ≤ mu) : ∀ (j : ℕ) (tau S S' : ℝ), S ≤ S' → startBound m eps mu j tau S ≤ startBound m eps mu j tau S' := by
  intro j
  induction j with
  | zero => exact fun _ _ _ h => h
  | succ j ih =>
    intro tau S S' h
    refine ih _ _ _ ?_
    have : 0 ≤ 2 * (mu - 1) := by linarith
    nlinarith

theorem lb_loop_start (R : QReal ax Inv A) (hnm : n ≤ m) {prm : QOpts Dbl} {mu : ℝ} (hmu : prm.mu = Dbl.fin mu) (hmu1 : 1 ≤ mu)
    (hD : Downhill prm m) (hc1 : prm.cg_maxiter < INT_MAX) :
    ∀ (fuel : ℕ) (lb : Int) (tau : ℝ) (p : XU m) (st : QLoop Dbl n m) (s : σ), 0 < tau → LoopEnd A b eps tau p st → 0 ≤ st.cg →
    st.cg + fuel * ((prm.newton_max_iter - 1).toNat * prm.cg_maxiter) ≤ INT_MAX → 0 ≤ st.newton →
    st.newton + fuel * ((prm.newton_max_iter - 1).toNat + 1) ≤ INT_MAX → lb + fuel ≤ INT_MAX → Inv s →
    ∃ (st' : QLoop Dbl n m) (s' : σ) (p' : XU m),
      l1qc_lb_loop ax prm fuel lb st s = some (st', s') ∧ Inv s' ∧ LoopEnd A b eps (tau * mu ^ fuel) p' st' ∧
      0 ≤ st'.cg ∧ st'.cg ≤ st.cg + fuel * ((prm.newton_max_iter - 1).toNat * prm.cg_maxiter) ∧
      st.newton + fuel ≤ st'.newton ∧ st'.newton ≤ st.newton + fuel * ((prm.newton_max_iter - 1).toNat + 1) ∧
      tau * mu ^ fuel * barrier A b eps (tau * mu ^ fuel) p' ≤ startBound m eps mu fuel tau (tau * barrier A b eps tau p) := by
  have hc0 : 0 ≤ prm.cg_maxiter := le_trans (by positivity) hD.2.1
  have hmu0 : 0 < mu := by linarith
  intro fuel
  induction fuel with
  | zero =>
    intro lb tau p st s ht h hcg _ hnt _ hlb hs
    refine ⟨st, s, p, ?_, hs, by simpa using h, hcg, by simp, by simp, by simp, by simp [startBound]⟩
    unfold l1qc_lb_loop
    rw [if_pos (by push_cast at hlb; omega)]; rfl
  | succ fuel ih =>
    intro lb tau p st s ht h hcg hcg' hnt hnt' hlb hs
    push_cast at hcg' hnt' hlb
    have p1 : 0 ≤ (fuel : Int) * ((prm.newton_max_iter - 1).toNat * prm.cg_maxiter) := by positivity
    have p2 : 0 ≤ (fuel : Int) * ((prm.newton_max_iter - 1).toNat + 1) := by positivity
    obtain ⟨st1, s1, q, h1, hs1, hend, b1, b2, b3, b4, b5⟩ := lb_body_fin R hnm ht hmu hc0 hc1 h hcg (by linarith) hnt (by linarith) hs
    obtain ⟨st2, s2, q2, h2, hs2, hend2, e1, e1', e2, e3, e4⟩ := ih (lb + 1) (tau * mu) q st1 s1 (mul_pos ht hmu0) hend b1 (by linarith)
      (by omega) (by linarith) (by omega) hs1
    have ep : tau * mu * mu ^ fuel = tau * mu ^ (fuel + 1) := by rw [pow_succ', ← mul_assoc]
    rw [ep] at hend2 e4
    refine ⟨st2, s2, q2, ?_, hs2, hend2, e1, by push_cast; linarith, by push_cast; omega, by push_cast; linarith, e4.trans ?_⟩
    · unfold l1qc_lb_loop
      rw [ombind h1]
      exact h2
    · show _ ≤ startBound m eps mu fuel (tau * mu) _
      refine startBound_mono hmu1 fuel _ _ _ ?_
      have c1 := b5 hD
      have c2 := sum_u_le ht hend.hp
      rw [barrier_weight (tau := tau) ht.ne' (mul_pos ht hmu0).ne']
      have c3 := mul_le_mul_of_nonneg_left c1 ht.le
      have c4 : (tau * mu - tau) * ∑ i, q.2 i = (mu - 1) * (tau * ∑ i, q.2 i) := by ring
      rw [c4]
      have c5 : 0 ≤ mu - 1 := by linarith
      nlinarith
/-- the starting point the solver constructs -/
theorem start_top {x u : Fin m → ℝ} {i0 : Fin m} (hx : x ≠ 0) (h0 : ∀ i, |x i| ≤ |x i0|) (hu : ∀ i, u i = 95 / 100 * |x i| + 1 / 10 * |x i0|) :
    startTau m (∑ i, |x i|) * barrier A b eps (startTau m (∑ i, |x i|)) (x, u) ≤
      startTop m ((eps ^ 2 - (A *ᵥ x - b) ⬝ᵥ (A *ᵥ x - b)) / 2) (∑ i, |x i|) := by
  have hX := l1_pos hx
  have hm0 : (0 : ℝ) < m := by exact_mod_cast i0.pos
  set X := ∑ i, |x i| with hXdef
  have ht : 1 ≤ startTau m X := le_max_right _ _
  have htX : startTau m X * X = max (2 * m + 1 : ℝ) X := by
    unfold startTau
    rw [max_mul_of_nonneg _ _ hX.le, div_mul_cancel₀ _ hX.ne', one_mul]
  have hr : |x i0| ≤ X := Finset.single_le_sum (f := fun i => |x i|) (fun i _ => abs_nonneg _) (Finset.mem_univ i0)
  have hr' : X ≤ m * |x i0| := by
    have h := Finset.sum_le_card_nsmul Finset.univ (fun i => |x i|) _ (fun i _ => h0 i)
    simpa using h
  have hsum : ∑ i, u i = 95 / 100 * X + m * (1 / 10 * |x i0|) := by
    simp only [hu, Finset.sum_add_distrib, ← Finset.mul_sum, Finset.sum_const, Finset.card_univ, Fintype.card_fin, nsmul_eq_mul]
    ring
  have hq : 0 < X / (20 * m) := by positivity
  have hlow : ∀ i, X / (20 * m) ≤ u i - |x i| := fun i => by
    rw [div_le_iff₀ (by positivity)]
    have h1 := h0 i
    have h2 : 1 / 20 * |x i0| ≤ u i - |x i| := by rw [hu i]; linarith
    nlinarith
  have hl1 : m * Real.log (X / (20 * m)) ≤ ∑ i, Real.log (u i - x i) := by
    have h := Finset.card_nsmul_le_sum Finset.univ (fun i => Real.log (u i - x i)) (Real.log (X / (20 * m)))
      (fun i _ => Real.log_le_log hq ((hlow i).trans (by linarith [le_abs_self (x i)])))
    simpa using h
  have hl2 : m * Real.log (X / (20 * m)) ≤ ∑ i, Real.log (u i + x i) := by
    have h := Finset.card_nsmul_le_sum Finset.univ (fun i => Real.log (u i + x i)) (Real.log (X / (20 * m)))
      (fun i _ => Real.log_le_log hq ((hlow i).trans (by linarith [neg_abs_le (x i)])))
    simpa using h
  have hb : startTau m X * barrier A b eps (startTau m X) (x, u) = startTau m X * ∑ i, u i - (∑ i, Real.log (u i - x i) + ∑ i, Real.log (u i + x i) +
      Real.log ((eps ^ 2 - (A *ᵥ x - b) ⬝ᵥ (A *ᵥ x - b)) / 2)) := by
    unfold barrier
    dsimp only
    have : startTau m X ≠ 0 := by linarith
    field_simp
  rw [hb, hsum]
  unfold startTop
  rw [← htX]
  have h3 : startTau m X * (m * (1 / 10 * |x i0|)) ≤ startTau m X * (m * (1 / 10 * X)) := by gcongr
  have h4 : startTau m X * (95 / 100 * X + m * (1 / 10 * |x i0|)) ≤ (19 / 20 + m / 10) * (startTau m X * X) := by
    linarith
  linarith

end L1c
