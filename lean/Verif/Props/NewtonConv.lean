import Verif.Proofs.NewtonTotal
import Verif.Proofs.NewtonInexact
import Verif.Props.Newton

/-!
# Convergence of the log-barrier Newton solver (`C68`, `C69`)

`Downhill prm m`: the linear solver starts at zero, may use at least `m` iterations, and `cg_tol ≤ 1/2`.
-/

namespace L1c
open Scalar Matrix

variable {n m : ℕ} {σ : Type}
variable {A : Matrix (Fin n) (Fin m) ℝ} {b : Fin n → ℝ} {eps tau : ℝ} {Inv : σ → Prop} {ax : QAx Dbl σ n m}

/-! ## C68 -/

/-- `barrierLow` is below the scaled barrier objective at every strictly feasible point. -/
theorem C68_bounded_below (ht : 0 < tau) {p : XU m} (h : StrictFeas A b eps p) : barrierLow m eps tau ≤ tau * barrier A b eps tau p :=
  low_le ht h

/-- One Newton iteration at a strictly feasible point `p`, where the problem record holds the objective at `p`: the step goes along a
direction `d` in which the objective has slope `-lam2 / tau`; the line search accepts a strictly feasible point; the scaled objective falls
by at least `stepGain lam2`; the iteration is the last one exactly when `lam2 / tau / 2 < newton_tol` or the relative change of the
1-norm is below `l1_tol`. -/
theorem C68_step (R : QReal ax Inv A) (hnm : n ≤ m) (ht : 0 < tau) {prm : QOpts Dbl} (hD : Downhill prm m) (hc1 : prm.cg_maxiter < INT_MAX)
    {p : XU m} {P0 P : QProb Dbl n m} (hb : P0.b = fvec b) (htau : P0.tau = Dbl.fin tau) (heps : P0.epsilon = Dbl.fin eps) {x0 u0 : Fin m → ℝ}
    (hdx : P0.dx = fvec x0) (hdu : P0.du = fvec u0) (hp : StrictFeas A b eps p) {s0 s : σ} (hs0 : Inv s0)
    (hev : l1qc_f_eval ax P0 (fvec p.1) (fvec p.2) s0 = some (P, s)) {step : ℝ} {l1p : Dbl} {cg newton : Int} (hcg : 0 ≤ cg)
    (hcg' : cg + prm.cg_maxiter ≤ INT_MAX) :
    ∃ (st' : QLoop Dbl n m) (stop : Bool) (s' : σ) (d g : XU m) (t lam2 : ℝ),
      l1qc_newton_body ax prm ⟨fvec p.1, fvec p.2, P, Dbl.fin step, l1p, cg, newton⟩ s = some ((st', stop), s') ∧ Inv s' ∧
      st'.x = fvec (p + t • d).1 ∧ st'.u = fvec (p + t • d).2 ∧ 0 < t ∧ t < 1 ∧ StrictFeas A b eps (p + t • d) ∧
      0 ≤ lam2 ∧ IsGrad (barrier A b eps tau) g p ∧ pairCLM g d = -(lam2 / tau) ∧
      tau * barrier A b eps tau (p + t • d) ≤ tau * barrier A b eps tau p - stepGain lam2 ∧
      (stop = true ↔ Dbl.Lt (.fin (lam2 / tau / 2)) prm.newton_tol ∨ flt (fabs (l1p - dasum st'.x) / dasum st'.x) prm.l1_tol = true) := by
  obtain ⟨P1, s1, h1, hs1, hE, e1, e2⟩ := f_eval_fin R.Ax hb htau heps ht.ne' hp hs0
  obtain ⟨rfl, rfl⟩ := Prod.mk.inj (Option.some.inj (hev.symm.trans h1))
  obtain ⟨st', stop, s', dx, L, t, r1, r2, hg, hok, -, -, -, r3, r4, -⟩ := newton_body_conv R hnm ht hD hc1
    (st := ⟨fvec p.1, fvec p.2, P, Dbl.fin step, l1p, cg, newton⟩)
    ⟨rfl, rfl, hp, hE, ⟨x0, e1.trans hdx⟩, ⟨u0, e2.trans hdu⟩, ⟨step, rfl⟩⟩ hcg hcg' hs1
  have hL0 : 0 ≤ L := by rw [← hg.dec]; exact Finset.sum_nonneg fun k _ => sq_nonneg _
  refine ⟨st', stop, s', (dx, duR tau p dx), (gxR A b eps tau p, guR tau p), t, L, r1, r2, hok.hx, hok.hu, hg.t0, by linarith [hg.t1],
    hg.strict, hL0, barrier_grad ht.ne' hp, ?_, hg.gain ht hL0 le_rfl, ?_⟩
  · rw [pairCLM_apply]
    dsimp only
    rw [hg.slope]; ring
  · dsimp only at r3
    rw [hok.hx]
    refine ⟨r3, fun hc => ?_⟩
    rcases hc with hc | hc
    · by_contra hstop
      exact (r4 (by simpa using hstop)).1 hc
    · by_contra hstop
      rw [(r4 (by simpa using hstop)).2] at hc
      cases hc

/-- On the small problem of C45, from its strictly feasible point. -/
example : ∃ P, l1qc_f_eval (denseQ exQ) exProb (fvec fun _ => 1 / 2) (fvec fun _ => 1) () = some (P, ()) ∧
    ∃ (st' : QLoop Dbl 1 2) (stop : Bool) (s' : Unit) (d : XU 2) (t : ℝ),
      l1qc_newton_body (denseQ exQ) exOpts ⟨fvec fun _ => 1 / 2, fvec fun _ => 1, P, Dbl.fin 0, inf, 0, 0⟩ () = some ((st', stop), s') ∧
      0 < t ∧ StrictFeas exQ (fun _ => 1) (1 / 2) (((fun _ => 1 / 2), (fun _ => 1)) + t • d) := by
  obtain ⟨P, s1, g, h, -⟩ := C45_objective_and_gradient (denseQ_real exQ) (P := exProb) rfl rfl rfl one_ne_zero exQ_strict (s := ()) trivial
  obtain ⟨st', stop, s', d, -, t, -, h', -, -, -, h0, -, hf, -⟩ := C68_step (denseQ_real exQ) (by decide) one_pos (prm := exOpts)
    ⟨rfl, by decide, by show ¬ (1 / 2 : ℝ) < 1 / 1000; norm_num⟩ (by decide) (P0 := exProb) rfl rfl rfl rfl rfl exQ_strict trivial h (step := 0) (l1p := inf)
    (cg := 0) (newton := 0) le_rfl (by decide)
  exact ⟨P, h, st', stop, s', d, t, h', h0, hf⟩

/-- One barrier iteration with weight `tau` from a strictly feasible point `p`, with the 1-norm test switched off: if `newton_max_iter` is
large enough for the guaranteed decrease to exhaust the objective, the Newton loop ends because the decrement is small, after at most
`(tau * barrier p - barrierLow) / stepGain (2 tau newton_tol)` further iterations. -/
theorem C68_loop (R : QReal ax Inv A) (hnm : n ≤ m) (ht : 0 < tau) {prm : QOpts Dbl} (hD : Downhill prm m) (hc1 : prm.cg_maxiter < INT_MAX)
    {tol : ℝ} (htol : prm.newton_tol = Dbl.fin tol) (htol0 : 0 < tol) (hl1 : ¬ Dbl.Lt (.fin 0) prm.l1_tol)
    {p : XU m} {P0 P : QProb Dbl n m} (hb : P0.b = fvec b) (htau : P0.tau = Dbl.fin tau) (heps : P0.epsilon = Dbl.fin eps) {x0 u0 : Fin m → ℝ}
    (hdx : P0.dx = fvec x0) (hdu : P0.du = fvec u0) (hp : StrictFeas A b eps p) {s0 s : σ} (hs0 : Inv s0)
    (hev : l1qc_f_eval ax P0 (fvec p.1) (fvec p.2) s0 = some (P, s)) (fuel : ℕ) (hcg : fuel * prm.cg_maxiter ≤ INT_MAX)
    (hK : tau * barrier A b eps tau p < barrierLow m eps tau + fuel * stepGain (2 * tau * tol)) :
    ∃ (st' : QLoop Dbl n m) (k : ℕ) (s' : σ) (q d g : XU m) (t lam2 : ℝ),
      l1qc_newton_loop ax prm fuel 1 ⟨fvec p.1, fvec p.2, P, lit 0, inf, 0, 0⟩ s = some ((st', 1 + (k : Int)), s') ∧
      k < fuel ∧ k * stepGain (2 * tau * tol) ≤ tau * barrier A b eps tau p - barrierLow m eps tau ∧
      st'.x = fvec (q + t • d).1 ∧ st'.u = fvec (q + t • d).2 ∧ StrictFeas A b eps q ∧ StrictFeas A b eps (q + t • d) ∧ 0 < t ∧ t < 1 ∧
      barrier A b eps tau (q + t • d) ≤ barrier A b eps tau p ∧
      IsGrad (barrier A b eps tau) g q ∧ pairCLM g d = -(lam2 / tau) ∧ lam2 / tau / 2 < tol := by
  obtain ⟨P1, s1, h1, hs1, hE, e1, e2⟩ := f_eval_fin R.Ax hb htau heps ht.ne' hp hs0
  obtain ⟨rfl, rfl⟩ := Prod.mk.inj (Option.some.inj (hev.symm.trans h1))
  obtain ⟨st', it, s', q, dx, L, t, r1, -, hok, hq, hg, hL, -, -, hmono, -, -, -, r2, r3, r4⟩ := newton_loop_conv R hnm ht hD hc1 htol htol0 hl1
    fuel 1 p ⟨fvec p.1, fvec p.2, P, lit 0, inf, 0, 0⟩ s ⟨rfl, rfl, hp, hE, ⟨x0, e1.trans hdx⟩, ⟨u0, e2.trans hdu⟩, ⟨0, by simp⟩⟩ le_rfl
    (by simpa using hcg) hs1 hK
  obtain ⟨k, rfl⟩ : ∃ k : ℕ, it = 1 + k := ⟨(it - 1).toNat, by omega⟩
  refine ⟨st', k, s', q, (dx, duR tau q dx), (gxR A b eps tau q, guR tau q), t, L, r1, by omega, ?_, hok.hx, hok.hu, hq, hg.strict, hg.t0,
    by linarith [hg.t1], hmono, barrier_grad ht.ne' hq, ?_, ?_⟩
  · push_cast at r4
    rwa [add_sub_cancel_left] at r4
  · rw [pairCLM_apply]
    dsimp only
    rw [hg.slope]; ring
  · rw [div_div, div_lt_iff₀ (by linarith)]
    linarith

/-- some number of iterations satisfies the hypothesis `hK` of `C68_loop`, for every start, weight and positive tolerance -/
example (A : Matrix (Fin n) (Fin m) ℝ) (p : XU m) {tol : ℝ} (ht : 0 < tau) (htol : 0 < tol) :
    ∃ fuel : ℕ, tau * barrier A b eps tau p < barrierLow m eps tau + fuel * stepGain (2 * tau * tol) := by
  have h0 : 0 < stepGain (2 * tau * tol) := by
    have h : 0 < 2 * tau * tol := by positivity
    exact mul_pos (by norm_num) (lt_min h (Real.sqrt_pos.2 h))
  obtain ⟨k, hk⟩ := exists_nat_gt ((tau * barrier A b eps tau p - barrierLow m eps tau) / stepGain (2 * tau * tol))
  rw [div_lt_iff₀ h0] at hk
  exact ⟨k, by linarith⟩

/-! ## C69 -/

/-- The solver proper, with given weight and number of barrier iterations: if the linear systems are solved accurately (`cgSharp`), the decrement test is
sharp enough for the last weight `T`, and `newton_max_iter` is large enough, the result is within `3 (2m+1) / T` of the optimum. -/
theorem C69_solve (R : QReal ax Inv A) (hnm : n ≤ m) {prm : QOpts Dbl} {mu : ℝ} (hmu : prm.mu = Dbl.fin mu) (hmu1 : 1 ≤ mu)
    (htau : prm.tau = Dbl.fin tau) (ht : 0 < tau) (heps : prm.epsilon = Dbl.fin eps) (hD : Downhill prm m)
    {a G : ℝ} (ha0 : 0 ≤ a) (ha : ∀ v, nrm (Aᵀ *ᵥ v) ≤ a * nrm v)
    (hl1 : ¬ Dbl.Lt (.fin 0) prm.l1_tol) {tol : ℝ} (htol : prm.newton_tol = Dbl.fin tol) (htol0 : 0 < tol) (hc1 : prm.cg_maxiter < INT_MAX)
    {k : ℕ} (hk : prm.lbiter.toNat = k + 1) (hlb : (prm.lbiter.toNat : Int) < INT_MAX)
    (hcg : prm.lbiter.toNat * ((prm.newton_max_iter - 1).toNat * prm.cg_maxiter) ≤ INT_MAX)
    (hnt : prm.lbiter.toNat * (((prm.newton_max_iter - 1).toNat : Int) + 1) ≤ INT_MAX) {p : XU m} (hp : StrictFeas A b eps p)
    (hsharp : 32 * (tau * mu ^ k) * tol ≤ 1) (hcgt : ¬ Dbl.Lt (.fin (cgSharp m a eps (tau * mu ^ k) G)) prm.cg_tol)
    (hG : startBound m eps mu k tau (tau * barrier A b eps tau p) ≤ barrierLow m eps (tau * mu ^ k) + G)
    (hK : startBound m eps mu k tau (tau * barrier A b eps tau p) < barrierLow m eps (tau * mu ^ k) +
      (prm.newton_max_iter - 1).toNat * stepGain (2 * (tau * mu ^ k) * tol)) {s : σ} (hs : Inv s) :
    ∃ (out : QOut Dbl n m) (s' : σ) (x : Fin m → ℝ), l1qc_solve ax prm (fvec b) (fvec p.1) (fvec p.2) s = some (out, s') ∧ Inv s' ∧
      out.res.status = 0 ∧ out.x = fvec x ∧ nrm (A *ᵥ x - b) < eps ∧
      ∀ z, nrm (A *ᵥ z - b) ≤ eps → ∑ i, |x i| ≤ ∑ i, |z i| + 3 * ((2 * m + 1) / (tau * mu ^ k)) := by
  have hmu0 : 0 < mu := by linarith
  have hT : 0 < tau * mu ^ k := mul_pos ht (pow_pos hmu0 k)
  have hc0 : 0 ≤ prm.cg_maxiter := le_trans (by positivity) hD.2.1
  obtain ⟨s1, h1, hs1⟩ := R.Ax.call p.1 hs
  have hck : l1qc_check_feasible_start ax (qprobZero (fvec b) prm) (fvec p.1) s = some (0, s1) := by
    unfold l1qc_check_feasible_start
    rw [ombind h1, if_neg (by omega)]
    show some ((if flt (lit 0) (dnrm2 (vaxpy (lit (-1)) (fvec b) (fvec (A *ᵥ p.1))) - prm.epsilon) = true then L1C_INFEASIBLE_START else 0), s1) = _
    rw [heps, if_neg]
    rw [start_check]
    exact not_lt.2 hp.2.le
  rw [hk] at hcg hnt hlb
  push_cast at hcg hnt hlb
  have p1 : 0 ≤ ((prm.newton_max_iter - 1).toNat : Int) * prm.cg_maxiter := by positivity
  obtain ⟨st, s2, q0, l1, l2, l3, l4, l4', l5, l6, l7⟩ := lb_loop_start (A := A) (b := b) (eps := eps) R hnm hmu hmu1 hD hc1 k 1 tau p
    ⟨fvec p.1, fvec p.2, qprobZero (fvec b) prm, lit 0, lit 0, 0, 0⟩ s1 ht
    ⟨rfl, rfl, hp, rfl, htau, heps, ⟨0, by funext i; simp [qprobZero]⟩, ⟨0, by simp⟩⟩ le_rfl (by dsimp only; linarith) le_rfl
    (by dsimp only; linarith) (by omega) hs1
  obtain ⟨st', s3, q, dx, L, t, m1, m2, m3, m4, m5, m6, m7, m8, m9, -⟩ := lb_body_conv R hnm hT hmu hD hc1 htol htol0 hl1 l3 l4
    (by dsimp only at l4'; linarith) (by dsimp only at l5; omega) (by dsimp only at l6; linarith) l2 (lt_of_le_of_lt l7 hK)
  have heps0 : 0 < eps := lt_of_le_of_lt (nrm_nonneg _) hp.2
  have hGq : tau * mu ^ k * barrier A b eps (tau * mu ^ k) q ≤ barrierLow m eps (tau * mu ^ k) + G :=
    (mul_le_mul_of_nonneg_left m9 hT.le).trans (l7.trans hG)
  have hG0 : 0 ≤ G := by linarith [low_le hT m5]
  have hres := resid_small hT m5 ha0 ha hGq (m8 _ (cgSharp_nonneg hT heps0 ha0 hG0) hcgt)
  refine ⟨⟨⟨dasum st'.x, st'.newton, st'.cg, 0⟩, st'.x, some st'⟩, s3, _, ?_, m2, rfl, m3, m6.strict.2, fun z hz =>
    gap_after_quarter hT m5 m6 hres (by linarith) hz⟩
  unfold l1qc_solve
  rw [ombind hck, if_neg (by decide), hk]
  have hloop : ∀ (k : ℕ) (lb : Int) (a : QLoop Dbl n m) (sa : σ), lb + (k + 1) ≤ INT_MAX → l1qc_lb_loop ax prm k lb a sa = some (st, s2) →
      l1qc_lb_loop ax prm (k + 1) lb a sa = some (st', s3) := by
    intro k
    induction k with
    | zero =>
      intro lb a sa hi h
      unfold l1qc_lb_loop at h
      split at h
      · obtain ⟨rfl, rfl⟩ := ompure_some h
        unfold l1qc_lb_loop
        rw [ombind m1]
        unfold l1qc_lb_loop
        rw [if_pos (by push_cast at hi; omega)]; rfl
      · cases h
    | succ k ih =>
      intro lb a sa hi h
      unfold l1qc_lb_loop at h
      obtain ⟨a1, sb, h1, h2⟩ := ombind_some h
      unfold l1qc_lb_loop
      rw [ombind h1]
      exact ih _ _ _ (by push_cast at hi; omega) h2
  rw [ombind (hloop k 1 _ s1 (by omega) l1)]
  rfl

/-- What `C69_near_optimal` and the image recovery have in common: the automatic options, then the solver proper. -/
theorem C69_auto (R : QReal ax Inv A) (hnm : n ≤ m) {prm : QOpts Dbl} {x : Fin m → ℝ} (hx : x ≠ 0) (hm : 2 * (m : Int) + 1 ≤ INT_MAX)
    {lbtol mu tol : ℝ} (hauto : prm.lbiter = 0) (hl : prm.lbtol = Dbl.fin lbtol) (hl0 : 0 < lbtol) (hlm : lbtol < 2 * m + 1)
    (hmu : prm.mu = Dbl.fin mu) (hmu1 : 1 < mu) (heps : prm.epsilon = Dbl.fin eps) (hfeas : nrm (A *ᵥ x - b) < eps)
    (htol : prm.newton_tol = Dbl.fin tol) (htol0 : 0 < tol) (hsharp : 32 * (2 * m + 1) * tol ≤ lbtol)
    (hD : Downhill prm m) {a : ℝ} (ha0 : 0 ≤ a) (ha : ∀ v, nrm (Aᵀ *ᵥ v) ≤ a * nrm v) (hl1 : ¬ Dbl.Lt (.fin 0) prm.l1_tol) (hc1 : prm.cg_maxiter < INT_MAX)
    {L : ℕ} (hL : (autoBarrier m lbtol mu (∑ i, |x i|)).toNat = L) (hlb : (L : Int) < INT_MAX)
    (hcg : L * ((prm.newton_max_iter - 1).toNat * prm.cg_maxiter) ≤ INT_MAX)
    (hnt : L * (((prm.newton_max_iter - 1).toNat : Int) + 1) ≤ INT_MAX) {s : σ} (hI : Inv s) {u : Vec Dbl m} {prm' : QOpts Dbl}
    (hi : l1qc_newton_init (fvec x) prm = some (u, prm'))
    (hcgt : ∀ k, L = k + 1 → ¬ Dbl.Lt (.fin (cgLimit m a eps mu ((eps ^ 2 - (A *ᵥ x - b) ⬝ᵥ (A *ᵥ x - b)) / 2) (∑ i, |x i|) k)) prm.cg_tol)
    (hK : ∀ k, L = k + 1 → EnoughNewton m eps mu tol ((eps ^ 2 - (A *ᵥ x - b) ⬝ᵥ (A *ᵥ x - b)) / 2) (∑ i, |x i|) k (prm.newton_max_iter - 1).toNat) :
    ∃ (out : QOut Dbl n m) (s' : σ) (x' : Fin m → ℝ),
      l1qc_solve ax prm' (fvec b) (fvec x) u s = some (out, s') ∧ out.res.status = 0 ∧ out.x = fvec x' ∧ nrm (A *ᵥ x' - b) < eps ∧
      ∀ z, nrm (A *ᵥ z - b) ≤ eps → ∑ i, |x' i| ≤ ∑ i, |z i| + 3 * (mu * lbtol) := by
  obtain ⟨ur, u1, ⟨i0, u3, u4⟩, u2⟩ := init_fin_u hx hm
  rw [u2 prm, if_pos hauto] at hi
  obtain ⟨Li, hLi, hi'⟩ := Option.map_eq_some_iff.1 hi
  rw [hl, hmu, init_auto_arg x hl0 hmu1, ceilInt_fin] at hLi
  obtain ⟨rfl, rfl⟩ := Prod.mk.inj hi'
  have hL' : ⌈lbR x lbtol mu⌉.toNat = L := hL
  split at hLi
  swap; · cases hLi
  have hLi' : ⌈lbR x lbtol mu⌉ = Li := Option.some.inj hLi
  have hLn : Li.toNat = L := by rw [← hLi', hL']
  have ht : 0 < tau0R x := lt_of_lt_of_le one_pos (tau0R_ge x)
  have hp : StrictFeas A b eps (x, ur) := ⟨fun i => abs_lt.1 (u1 i), hfeas⟩
  rcases Nat.eq_zero_or_pos L with h0 | h0
  · have hc0 : 0 ≤ prm.cg_maxiter := le_trans (by positivity) hD.2.1
    obtain ⟨out, sc, p', r1, r2, r3, r4, r5, -⟩ := C47_run_stays_strict (tau := tau0R x) R hnm
      (prm := { prm with tau := Dbl.fin (tau0R x), lbiter := Li }) hmu (by linarith) rfl ht heps hc0 hc1 (by dsimp only; rw [hLn]; exact hlb)
      (by dsimp only; rw [hLn]; exact hcg) (by dsimp only; rw [hLn]; exact hnt) hp hI
    have hxx : out.x = fvec x := by
      obtain ⟨-, y, sA, a1, ⟨-, -, h⟩ | ⟨-, st0, h, h'⟩⟩ := solve_inv r1
      · rw [h]
      · dsimp only at h
        rw [hLn, h0] at h
        unfold l1qc_lb_loop at h
        split at h
        · obtain ⟨rfl, -⟩ := ompure_some h
          rw [h']
        · cases h
    refine ⟨out, sc, x, r1, r3, hxx, hfeas, fun z _ => ?_⟩
    have hw := final_weight x hl0 hmu1
    rw [hL', h0, pow_zero, mul_one] at hw
    have hx1 : ∑ i, |x i| ≤ lbtol := by
      have hpos := l1_pos hx
      rcases le_total ((2 * m + 1) / ∑ i, |x i|) 1 with h1 | h1
      · have : tau0R x = 1 := max_eq_right h1
        rw [this, div_one] at hw
        linarith
      · have : tau0R x = (2 * m + 1) / ∑ i, |x i| := max_eq_left h1
        rw [this, div_div_cancel₀ (by positivity)] at hw
        exact hw
    have hz : 0 ≤ ∑ i, |z i| := Finset.sum_nonneg fun i _ => abs_nonneg _
    nlinarith
  · obtain ⟨k, rfl⟩ : ∃ k, L = k + 1 := ⟨L - 1, by omega⟩
    obtain ⟨w1, w2⟩ := last_weight x hl0 hmu1 (L := k) hL'
    have hT : 0 < tau0R x * mu ^ k := mul_pos ht (pow_pos (by linarith) k)
    obtain ⟨out, sc, x', r1, -, r2, r3, r4, r5⟩ := C69_solve (tau := tau0R x) (b := b) (eps := eps) (p := (x, ur)) R hnm
      (prm := { prm with tau := Dbl.fin (tau0R x), lbiter := Li }) hmu hmu1.le rfl ht heps hD ha0 ha hl1 htol htol0 hc1 hLn
      (by dsimp only; rw [hLn]; exact hlb) (by dsimp only; rw [hLn]; exact hcg) (by dsimp only; rw [hLn]; exact hnt) hp
      (by
        rw [lt_div_iff₀ hT] at w1
        have hmm : (0 : ℝ) < 2 * m + 1 := by positivity
        have h3 : lbtol * (32 * (tau0R x * mu ^ k) * tol) ≤ lbtol * 1 := by
          have h4 : (lbtol * (tau0R x * mu ^ k)) * (32 * tol) ≤ (2 * m + 1) * (32 * tol) :=
            mul_le_mul_of_nonneg_right w1.le (by positivity)
          linarith
        exact le_of_mul_le_mul_left h3 hl0)
      (hcgt k rfl)
      ((startBound_mono hmu1.le _ _ _ _ (start_top hx u3 u4)).trans (by
        have := le_max_left (startBound m eps mu k (startTau m (∑ i, |x i|)) (startTop m ((eps ^ 2 - (A *ᵥ x - b) ⬝ᵥ (A *ᵥ x - b)) / 2) (∑ i, |x i|)) -
          barrierLow m eps (startTau m (∑ i, |x i|) * mu ^ k)) 0
        exact sub_le_iff_le_add'.1 this))
      (lt_of_le_of_lt (startBound_mono hmu1.le _ _ _ _ (start_top hx u3 u4)) (hK k rfl)) hI
    exact ⟨out, sc, x', r1, r2, r3, r4, fun z hz => (r5 z hz).trans (by linarith)⟩

/-- `l1c_l1qc_newton` with automatic number of barrier iterations, from a strictly feasible nonzero start: if the linear systems are solved
accurately (`cg_tol` at most the positive number `cgLimit`, in particular if they are solved exactly), `32 (2m+1) newton_tol ≤ lbtol`, the 1-norm test is switched off and `newton_max_iter` is large enough, the returned vector satisfies
the constraint and its 1-norm exceeds that of no feasible vector by more than `3 mu lbtol`. -/
theorem C69_near_optimal (R : QReal ax Inv A) (hnm : n ≤ m) {prm : QOpts Dbl} {x : Fin m → ℝ} (hx : x ≠ 0) (hm : 2 * (m : Int) + 1 ≤ INT_MAX)
    {lbtol mu tol : ℝ} (hauto : prm.lbiter = 0) (hl : prm.lbtol = Dbl.fin lbtol) (hl0 : 0 < lbtol) (hlm : lbtol < 2 * m + 1)
    (hmu : prm.mu = Dbl.fin mu) (hmu1 : 1 < mu) (heps : prm.epsilon = Dbl.fin eps) (hfeas : nrm (A *ᵥ x - b) < eps)
    (htol : prm.newton_tol = Dbl.fin tol) (htol0 : 0 < tol) (hsharp : 32 * (2 * m + 1) * tol ≤ lbtol)
    (hD : Downhill prm m) {a : ℝ} (ha0 : 0 ≤ a) (ha : ∀ v, nrm (Aᵀ *ᵥ v) ≤ a * nrm v) (hl1 : ¬ Dbl.Lt (.fin 0) prm.l1_tol) (hc1 : prm.cg_maxiter < INT_MAX)
    {L : ℕ} (hL : (autoBarrier m lbtol mu (∑ i, |x i|)).toNat = L) (hLf : FitsInt (autoBarrier m lbtol mu (∑ i, |x i|)))
    (hlb : (L : Int) < INT_MAX) (hcg : L * ((prm.newton_max_iter - 1).toNat * prm.cg_maxiter) ≤ INT_MAX)
    (hnt : L * (((prm.newton_max_iter - 1).toNat : Int) + 1) ≤ INT_MAX)
    (hcgt : ∀ k, L = k + 1 → ¬ Dbl.Lt (.fin (cgLimit m a eps mu ((eps ^ 2 - (A *ᵥ x - b) ⬝ᵥ (A *ᵥ x - b)) / 2) (∑ i, |x i|) k)) prm.cg_tol)
    (hK : ∀ k, L = k + 1 → EnoughNewton m eps mu tol ((eps ^ 2 - (A *ᵥ x - b) ⬝ᵥ (A *ᵥ x - b)) / 2) (∑ i, |x i|) k (prm.newton_max_iter - 1).toNat)
    {s : NState σ} (hs : s.WF) (hI : Inv s.cb) (ho : ∀ i < 19, s.oracle (s.calls + i) = true) :
    ∃ (out : QOut Dbl n m) (s' : NState σ) (x' : Fin m → ℝ),
      l1c_l1qc_newton ax (fvec x) (fvec b) prm s = some (out, s') ∧ out.res.status = 0 ∧ out.x = fvec x' ∧ nrm (A *ᵥ x' - b) < eps ∧
      ∀ z, nrm (A *ᵥ z - b) ≤ eps → ∑ i, |x' i| ≤ ∑ i, |z i| + 3 * (mu * lbtol) := by
  obtain ⟨ur, -, u2⟩ := init_fin hx hm
  have hi := u2 prm
  rw [if_pos hauto, hl, hmu, init_auto_arg x hl0 hmu1, ceilInt_fin, if_pos (show FitsInt ⌈lbR x lbtol mu⌉ from hLf), Option.map_some] at hi
  obtain ⟨out, sc, x', r1, r2, r3, r4, r5⟩ := C69_auto R hnm hx hm hauto hl hl0 hlm hmu hmu1 heps hfeas htol htol0 hsharp hD ha0 ha hl1 hc1 hL hlb hcg
    hnt hI hi hcgt hK
  rcases (newton_mem ax (fvec x) (fvec b) prm s hs).2.2 _ _ (ho 0 (by decide)) hi with ⟨b1, -⟩ | ⟨-, s1, b2, b3, b4⟩
  · exact absurd ho b1
  rw [r1] at b4
  exact ⟨out, _, x', b4, r2, r3, r4, r5⟩

/-- options of the following instance -/
noncomputable def convOpts : QOpts Dbl where
  epsilon := Dbl.fin 1
  mu := Dbl.fin 10
  lbtol := Dbl.fin (1 / 100)
  tau := Dbl.fin 1
  lbiter := 0
  newton_tol := Dbl.fin (1 / 10000)
  newton_max_iter := 30000001
  l1_tol := Dbl.fin 0
  cg_tol := Dbl.fin 0
  cg_maxiter := 1
  warm_start_cg := 0

theorem conv_tau : startTau 1 (1 / 2) = 6 := by
  unfold startTau
  norm_num

theorem conv_barrier : autoBarrier 1 (1 / 100) 10 (1 / 2) = 2 := by
  have l10 : 0 < Real.log 10 := Real.log_pos (by norm_num)
  have hlb : (Real.log (2 * (1 : ℕ) + 1) - Real.log (1 / 100) - Real.log 6) / Real.log 10 = Real.log 50 / Real.log 10 := by
    congr 1
    rw [← Real.log_div (by norm_num) (by norm_num), ← Real.log_div (by norm_num) (by norm_num)]
    norm_num
  unfold autoBarrier
  rw [conv_tau, hlb, Int.ceil_eq_iff]
  constructor
  · rw [lt_div_iff₀ l10]
    have : Real.log 10 < Real.log 50 := Real.log_lt_log (by norm_num) (by norm_num)
    push_cast
    linarith
  · rw [div_le_iff₀ l10]
    have h1 : Real.log 50 ≤ Real.log (10 ^ 2) := Real.log_le_log (by norm_num) (by norm_num)
    rw [Real.log_pow] at h1
    exact_mod_cast h1

theorem conv_enough {s : ℝ} (hs : 3 / 8 ≤ s) : EnoughNewton 1 1 10 (1 / 10000) s (1 / 2) 1 (convOpts.newton_max_iter - 1).toNat := by
  have b2 : Real.log (1 / 40) ≥ -39 := by
    have := Real.one_sub_inv_le_log_of_pos (show (0 : ℝ) < 1 / 40 by norm_num)
    norm_num at this ⊢
    linarith
  have b3 : Real.log s ≥ -5 / 3 := by
    have := Real.one_sub_inv_le_log_of_pos (show (0 : ℝ) < 3 / 8 by norm_num)
    have h2 := Real.log_le_log (by norm_num) hs
    norm_num at this h2 ⊢
    linarith
  have b5 : (1 / 3 : ℝ) ≤ Real.log (3 / 2) := by
    have := Real.one_sub_inv_le_log_of_pos (show (0 : ℝ) < 3 / 2 by norm_num)
    norm_num at this ⊢
    linarith
  have b6 : Real.log (1 / 2) ≤ -1 / 2 := by
    have := Real.log_le_sub_one_of_pos (show (0 : ℝ) < 1 / 2 by norm_num)
    linarith
  have b7 : (0 : ℝ) ≤ Real.log 30 := Real.log_nonneg (by norm_num)
  have hS : startTop 1 s (1 / 2) ≤ 83 := by
    have e : startTop 1 s (1 / 2) = 63 / 20 - 2 * Real.log (1 / 40) - Real.log s := by
      unfold startTop
      rw [max_eq_left (by norm_num)]
      norm_num
    rw [e]
    linarith
  have hN : (((convOpts.newton_max_iter - 1).toNat : ℕ) : ℝ) = 30000000 := by
    have h : (convOpts.newton_max_iter - 1).toNat = 30000000 := by show ((30000001 : Int) - 1).toNat = _; decide
    rw [h]
    norm_num
  have hg : stepGain (2 * (6 * 10 ^ 1) * (1 / 10000)) = 99 / 20000 * (12 / 1000) := by
    unfold stepGain
    rw [min_eq_left (Real.le_sqrt_of_sq_le (by norm_num))]
    norm_num
  unfold EnoughNewton
  rw [hN, conv_tau, hg]
  simp only [startBound, barrierLow]
  generalize startTop _ _ _ = S at hS ⊢
  norm_num at b5 b6 b7 ⊢
  linarith

theorem conv_cg : ((2 : ℕ) : Int) * (((convOpts.newton_max_iter - 1).toNat : Int) * convOpts.cg_maxiter) ≤ INT_MAX := by
  show ((2 : ℕ) : Int) * ((((30000001 : Int) - 1).toNat : Int) * 1) ≤ INT_MAX; decide

theorem conv_nt : ((2 : ℕ) : Int) * (((convOpts.newton_max_iter - 1).toNat : Int) + 1) ≤ INT_MAX := by
  show ((2 : ℕ) : Int) * ((((30000001 : Int) - 1).toNat : Int) + 1) ≤ INT_MAX; decide

theorem conv_downhill : Downhill convOpts 1 :=
  ⟨rfl, by show ((1 : ℕ) : Int) ≤ 1; decide, by show ¬ ((1 : ℝ) / 2 < 0); norm_num⟩

/-- instance of `C69_near_optimal`: one unknown, one measurement `0`, started at `1/2` -/
theorem C69_instance {c : ℝ} (hc : c ≤ 1 / 2) (hc' : c ≤ cgLimit 1 1 1 10 (3 / 8) (1 / 2) 1) : ∃ (out : QOut Dbl 1 1) (s' : NState Unit) (x' : Fin 1 → ℝ),
    l1c_l1qc_newton (denseQ (1 : Matrix (Fin 1) (Fin 1) ℝ)) (fvec (fun _ => 1 / 2)) (fvec (fun _ => 0)) { convOpts with cg_tol := Dbl.fin c } exState =
      some (out, s') ∧ out.res.status = 0 ∧ out.x = fvec x' ∧ |x' 0| ≤ 3 / 10 := by
  have hx : (fun _ => 1 / 2 : Fin 1 → ℝ) ≠ 0 := fun hc => by simpa using congrFun hc 0
  have hX : ∑ i, |(fun _ => 1 / 2 : Fin 1 → ℝ) i| = 1 / 2 := by
    rw [Fin.sum_univ_one, abs_of_pos (by norm_num)]
  have hA : ∀ x : Fin 1 → ℝ, (1 : Matrix (Fin 1) (Fin 1) ℝ) *ᵥ x - (fun _ => 0) = x := fun x => by
    rw [Matrix.one_mulVec]; exact sub_zero x
  have hdot : (fun _ => 1 / 2 : Fin 1 → ℝ) ⬝ᵥ (fun _ => 1 / 2) = 1 / 4 := by
    simp only [dotProduct, Fin.sum_univ_one]
    norm_num
  obtain ⟨out, s', x', r1, r2, r3, -, r4⟩ := C69_near_optimal (denseQ_real (1 : Matrix (Fin 1) (Fin 1) ℝ)) le_rfl (b := fun _ => 0) (eps := 1)
    (prm := { convOpts with cg_tol := Dbl.fin c }) (x := fun _ => 1 / 2) hx (by decide) (lbtol := 1 / 100) (mu := 10) (tol := 1 / 10000) rfl rfl (by norm_num) (by norm_num)
    rfl (by norm_num) rfl (by rw [hA, nrm, Real.sqrt_lt' one_pos, hdot]; norm_num) rfl (by norm_num) (by norm_num)
    ⟨rfl, le_rfl, not_lt.2 hc⟩ (a := 1) zero_le_one (fun v => by rw [Matrix.transpose_one, Matrix.one_mulVec, one_mul])
    (by show ¬ ((0 : ℝ) < 0); norm_num) (by show (1 : Int) < INT_MAX; decide) (L := 2) (by rw [hX, conv_barrier]; rfl) (by rw [hX, conv_barrier]; decide)
    (by decide) conv_cg conv_nt
    (by
      intro k hk
      obtain rfl : k = 1 := by omega
      rw [hA, hX, hdot, show ((1 : ℝ) ^ 2 - 1 / 4) / 2 = 3 / 8 by norm_num]
      exact not_lt.2 hc')
    (by
      intro k hk
      obtain rfl : k = 1 := by omega
      rw [hA, hX, hdot]
      exact conv_enough (by norm_num)) exState_wf trivial (fun _ _ => rfl)
  refine ⟨out, s', x', r1, r2, r3, ?_⟩
  have h := r4 0 (by rw [hA]; simp [nrm])
  simp only [Fin.sum_univ_one, Pi.zero_apply, abs_zero] at h
  linarith

/-- the two bounds of the instance admit positive tolerances -/
example : ∃ c : ℝ, 0 < c ∧ c ≤ 1 / 2 ∧ c ≤ cgLimit 1 1 1 10 (3 / 8) (1 / 2) 1 :=
  ⟨min (1 / 2) (cgLimit 1 1 1 10 (3 / 8) (1 / 2) 1),
    lt_min (by norm_num) (cgLimit_pos one_pos zero_le_one (by norm_num) one_pos 1), min_le_left _ _, min_le_right _ _⟩

end L1c
