import Verif.Proofs.NewtonStall
import Verif.Proofs.NewtonInit
import Verif.Proofs.NewtonMem
import Verif.Props.Nesta
import Mathlib.LinearAlgebra.Matrix.Notation

/-!
# Properties of the log-barrier Newton solver (`C45`–`C52`)

`QReal ax Inv A` says that the operators are defined on every input and compute `A`, `Aᵀ`, `AᵀA` on finite data (exact
arithmetic), as long as their private state satisfies `Inv`.  `AxPart ax Inv A` only asks that `Ax` returns `A x` whenever it is
defined.
-/

namespace L1c
open Scalar Matrix

/-- example operators: multiplication with given matrices -/
noncomputable def denseOp {k l : ℕ} (M : Matrix (Fin k) (Fin l) ℝ) : LOp Dbl Unit l k :=
  fun x s => some (fvec (M *ᵥ fun i => (x i).toReal), s)

noncomputable def denseQ {n m : ℕ} (A : Matrix (Fin n) (Fin m) ℝ) : QAx Dbl Unit n m := ⟨denseOp A, denseOp Aᵀ, denseOp (Aᵀ * A)⟩

theorem denseOp_is {k l : ℕ} (M : Matrix (Fin k) (Fin l) ℝ) : LOpIs (denseOp M) (fun _ => True) M :=
  fun s _ v => ⟨_, s, rfl, trivial, by rintro x rfl; rfl⟩

theorem denseQ_real {n m : ℕ} (A : Matrix (Fin n) (Fin m) ℝ) : QReal (denseQ A) (fun _ => True) A :=
  ⟨denseOp_is A, denseOp_is _, denseOp_is _⟩

theorem denseQ_total {n m : ℕ} (A : Matrix (Fin n) (Fin m) ℝ) : OpsTotal (fun _ => True) (denseQ A) :=
  ⟨fun _ _ _ => ⟨_, _, rfl, trivial⟩, fun _ _ _ => ⟨_, _, rfl, trivial⟩, fun _ _ _ => ⟨_, _, rfl, trivial⟩⟩

variable {n m : ℕ} {σ : Type}
variable {A : Matrix (Fin n) (Fin m) ℝ} {b : Fin n → ℝ} {eps tau : ℝ} {Inv : σ → Prop} {ax : QAx Dbl σ n m}

theorem QReal.part (R : QReal ax Inv A) : AxPart ax Inv A :=
  ⟨fun _ _ _ _ hs h => R.Ax.some hs h, fun _ _ _ _ hs h => (R.Aty.some hs h).1, fun _ _ _ _ hs h => (R.AtAx.some hs h).1⟩

/-- example problem: one measurement of two unknowns -/
noncomputable def exQ : Matrix (Fin 1) (Fin 2) ℝ := !![3 / 5, 4 / 5]

/-- example: a strictly feasible point for `b = 1`, `eps = 1/2` -/
theorem exQ_strict : StrictFeas exQ (fun _ => 1) (1 / 2) ((fun _ => 1 / 2), (fun _ => 1)) := by
  refine ⟨fun i => by constructor <;> norm_num, ?_⟩
  have : exQ *ᵥ (fun _ => (1 : ℝ) / 2) - (fun _ => 1) = fun _ => -(3 / 10) := by
    funext i; fin_cases i
    simp [exQ, dotProduct, Fin.sum_univ_two]; norm_num
  unfold nrm
  rw [this]
  rw [show ((fun _ => -(3 / 10)) ⬝ᵥ (fun _ => -(3 / 10)) : ℝ) = (3 / 10) ^ 2 by simp [dotProduct]; norm_num, Real.sqrt_sq (by norm_num)]
  norm_num

/-! ## C45 -/

/-- The objective callback computes the barrier objective, and the arrays used as gradient are its derivative. -/
theorem C45_objective_and_gradient (R : QReal ax Inv A) {P : QProb Dbl n m} (hb : P.b = fvec b) (htau : P.tau = Dbl.fin tau)
    (heps : P.epsilon = Dbl.fin eps) (ht : tau ≠ 0) {p : XU m} (hp : StrictFeas A b eps p) {s : σ} (hs : Inv s) :
    ∃ (P1 : QProb Dbl n m) (s1 : σ) (g : XU m), l1qc_f_eval ax P (fvec p.1) (fvec p.2) s = some (P1, s1) ∧ Inv s1 ∧
      P1.f_val = Dbl.fin (barrier A b eps tau p) ∧ IsGrad (barrier A b eps tau) g p ∧
      ∃ atr s2, ax.Aty P1.r s1 = some (atr, s2) ∧ Inv s2 ∧ (l1qc_hess_grad P1 atr).1.gradf_x = fvec g.1 ∧
        (l1qc_hess_grad P1 atr).1.gradf_u = fvec g.2 := by
  obtain ⟨P1, s1, h1, hs1, hE, -, -⟩ := f_eval_fin R.Ax hb htau heps ht hp hs
  obtain ⟨s2, h2, hs2⟩ := R.Aty.call (A *ᵥ p.1 - b) hs1
  obtain ⟨hG, -⟩ := hess_grad_fin hE ht hp
  exact ⟨P1, s1, (gxR A b eps tau p, guR tau p), h1, hs1, hE.hf, barrier_grad ht hp, _, s2, by rw [hE.hr]; exact h2, hs2, hG.hgx, hG.hgu⟩

example : ∃ (P : QProb Dbl 1 2), P.b = fvec (fun _ => 1) ∧ P.tau = Dbl.fin 3 ∧ P.epsilon = Dbl.fin (1 / 2) ∧
    StrictFeas exQ (fun _ => 1) (1 / 2) ((fun _ => 1 / 2), (fun _ => 1)) ∧ QReal (denseQ exQ) (fun _ => True) exQ :=
  ⟨⟨fvec (fun _ => 1), Dbl.fin 3, Dbl.fin (1 / 2), fvec 0, fvec 0, fvec 0, .nan, .nan, fvec 0, fvec 0, fvec 0, fvec 0, fvec 0, fvec 0, fvec 0, fvec 0⟩,
    rfl, rfl, rfl, exQ_strict, denseQ_real _⟩

/-- The direction computation at a strictly feasible point: the linear solver is given a symmetric positive definite operator `H`
and a right-hand side `w`; whenever `H dx = w` the direction solves the full Newton system of the barrier objective. -/
theorem C45_newton_system (R : QReal ax Inv A) {P0 P : QProb Dbl n m} (hb : P0.b = fvec b) (htau : P0.tau = Dbl.fin tau)
    (heps : P0.epsilon = Dbl.fin eps) (ht : tau ≠ 0) {p : XU m} (hp : StrictFeas A b eps p) {s0 s : σ}
    (hev : l1qc_f_eval ax P0 (fvec p.1) (fvec p.2) s0 = some (P, s)) (hs0 : Inv s0)
    {x0 u0 : Fin m → ℝ} (hx0 : P.dx = fvec x0) (hu0 : P.du = fvec u0) (prm : CgParams Dbl) (hmax : prm.max_iter < INT_MAX) :
    ∃ (st : Int) (P' : QProb Dbl n m) (res : CgResults Dbl) (s' : σ) (dx du w : Fin m → ℝ) (H : (Fin m → ℝ) →ₗ[ℝ] (Fin m → ℝ)) (atr : Vec Dbl m),
      l1qc_descent_dir ax P prm s = some ((st, P', res), s') ∧ Inv s' ∧ P'.dx = fvec dx ∧ P'.du = fvec du ∧ P'.w1p = fvec w ∧
      (∃ s1, ax.Aty P.r s = some (atr, s1)) ∧ SPD H ∧
      (∀ z t, Inv t → ∃ t', l1qc_H11pfun ax ⟨lit 1 / P.fe_val, lit 1 / (P.fe_val * P.fe_val), atr, (l1qc_hess_grad P atr).2⟩ (fvec z) t =
        some (fvec (H z), t') ∧ Inv t') ∧
      (H dx = w → st = 0 ∧ IsNewtonDir A b eps tau p (dx, du)) ∧
      ((m : Int) ≤ prm.max_iter → ¬ Dbl.Lt (.fin 0) prm.tol → x0 = 0 → H dx = w) := by
  obtain ⟨P1, s1, h1, hs1, hE, -, -⟩ := f_eval_fin R.Ax hb htau heps ht hp hs0
  obtain ⟨rfl, rfl⟩ := Prod.mk.inj (Option.some.inj (hev.symm.trans h1))
  obtain ⟨s2, h2, hs2⟩ := R.Aty.call (A *ᵥ p.1 - b) hs1
  obtain ⟨-, hsx, -, -⟩ := hess_grad_fin hE ht hp
  obtain ⟨st, P', res, s', dx, du, d1, d2, d3, d4, d5, d6, d7, d8, c1, c2, c3, c4, c5⟩ := descent_fin R hE ht hp hx0 hu0 prm hmax hs1
  have n3 : feR A b eps p.1 ≠ 0 := hp.fe.ne
  have hH : (⟨lit 1 / P.fe_val, lit 1 / (P.fe_val * P.fe_val), fvec (Aᵀ *ᵥ (A *ᵥ p.1 - b)),
      (l1qc_hess_grad P (fvec (Aᵀ *ᵥ (A *ᵥ p.1 - b)))).2⟩ : HessData Dbl m) = hessD A b eps p := by
    rw [hsx, hE.hfe, Dbl.fin_mul, Dbl.lit_eq, Dbl.fin_div n3, Dbl.fin_div (mul_ne_zero n3 n3)]
    simp [hessD]
  have hspd := redR_spd hp
  refine ⟨st, P', res, s', dx, du, w1pR A b eps tau p, redR A b eps p, _, d1, d2, d4, d5, d3.hw, ⟨s2, by rw [hE.hr]; exact h2⟩, hspd,
    fun z t htI => ?_, fun hex => ?_, fun hm htol hx00 => ?_⟩
  · rw [hH]
    obtain ⟨y, t', e1, e2, e3⟩ := H11p_fin (b := b) (eps := eps) R.AtAx p htI (fvec z)
    exact ⟨t', by rw [e1, e3 z rfl], e2⟩
  · have hst : st = 0 := by
      rw [d8]
      by_cases hw : w1pR A b eps tau p = 0
      · obtain ⟨rfl, hc⟩ := c2 hw
        rw [hc, hex, hw, dotProduct_zero, Dbl.zero_div_zero]
        rw [Bool.eq_false_iff, Ne, Dbl.flt_iff]
        exact id
      · rw [c1 hw, hex, Bool.eq_false_iff, Ne, Dbl.lit_eq, Dbl.flt_fin]
        simp [nrm]
    refine ⟨hst, fun q => (gxR A b eps tau q, guR tau q), fun q hq => barrier_grad ht hq, ?_⟩
    obtain ⟨e1, e2⟩ := newton_system ht hp hex
    rw [d6 hst]
    have := (gx_line ht hp (dx, duR tau p dx)).prodMk (gu_line ht hp.1 (dx, duR tau p dx))
    rw [e1, e2] at this
    exact this
  · by_cases hw : w1pR A b eps tau p = 0
    · rw [(c2 hw).1, hx00, hw, map_zero]
    · exact c4 hm htol hw

example : (2 : Int) ≤ (⟨2, Dbl.fin 0⟩ : CgParams Dbl).max_iter ∧ (⟨2, Dbl.fin 0⟩ : CgParams Dbl).max_iter < INT_MAX ∧
    ¬ Dbl.Lt (.fin 0) (⟨2, Dbl.fin 0⟩ : CgParams Dbl).tol := ⟨le_rfl, by decide, lt_irrefl _⟩

/-! ## C46 -/

/-- The number handed to the line search as slope is the derivative of the barrier objective along the direction.  It is negative when
the linear system is solved exactly and the gradient is not zero, and also when the linear solver starts from zero and is successful. -/
theorem C46_descent_direction (R : QReal ax Inv A) {P0 P : QProb Dbl n m} (hb : P0.b = fvec b) (htau : P0.tau = Dbl.fin tau)
    (heps : P0.epsilon = Dbl.fin eps) (ht : 0 < tau) {p : XU m} (hp : StrictFeas A b eps p) {s0 s : σ}
    (hev : l1qc_f_eval ax P0 (fvec p.1) (fvec p.2) s0 = some (P, s)) (hs0 : Inv s0)
    {x0 u0 : Fin m → ℝ} (hx0 : P.dx = fvec x0) (hu0 : P.du = fvec u0) (prm : CgParams Dbl) (hmax : prm.max_iter < INT_MAX)
    {st : Int} {P' : QProb Dbl n m} {res : CgResults Dbl} {s' : σ} (hrun : l1qc_descent_dir ax P prm s = some ((st, P', res), s')) :
    ∃ (dx du : Fin m → ℝ) (g : XU m) (slope : ℝ), P'.dx = fvec dx ∧ P'.du = fvec du ∧ IsGrad (barrier A b eps tau) g p ∧
      ddot P'.gradf_x P'.dx + ddot P'.gradf_u P'.du = Dbl.fin slope ∧ slope = g.1 ⬝ᵥ dx + g.2 ⬝ᵥ du ∧
      (g ≠ 0 → IsNewtonDir A b eps tau p (dx, du) → slope < 0) ∧
      (g ≠ 0 → x0 = 0 → st = 0 → slope < 0) := by
  obtain ⟨P1, s1, h1, hs1, hE, -, -⟩ := f_eval_fin R.Ax hb htau heps ht.ne' hp hs0
  obtain ⟨rfl, rfl⟩ := Prod.mk.inj (Option.some.inj (hev.symm.trans h1))
  obtain ⟨st', P'', res', s'', dx, du, d1, d2, d3, d4, d5, d6, d7, d8, c1, c2, c3, c4, c5⟩ := descent_fin R hE ht.ne' hp hx0 hu0 prm hmax hs1
  obtain ⟨hq, -⟩ := Prod.mk.inj (Option.some.inj (hrun.symm.trans d1))
  obtain ⟨rfl, hq2⟩ := Prod.mk.inj hq
  obtain ⟨rfl, rfl⟩ := Prod.mk.inj hq2
  refine ⟨dx, du, (gxR A b eps tau p, guR tau p), _, d4, d5, barrier_grad ht.ne' hp, ?_, rfl, fun hg hN => ?_, fun hg hx00 hst => ?_⟩
  · rw [d3.hgx, d3.hgu, d4, d5, ddot_fvec, ddot_fvec, Dbl.fin_add]
  · obtain ⟨g, g1, g2⟩ := hN
    -- the derivative of the gradient along the direction is the Hessian product
    have hgp : ∀ q, StrictFeas A b eps q → g q = (gxR A b eps tau q, guR tau q) := fun q hq => by
      have h := (g1 q hq).unique (barrier_grad ht.ne' hq)
      have hd : ∀ d : XU m, (g q).1 ⬝ᵥ d.1 + (g q).2 ⬝ᵥ d.2 = gxR A b eps tau q ⬝ᵥ d.1 + guR tau q ⬝ᵥ d.2 := fun d =>
        congrArg (fun L : XU m →L[ℝ] ℝ => L d) h
      refine Prod.ext ?_ ?_
      · funext i
        have := hd (Pi.single i 1, 0)
        simpa using this
      · funext i
        have := hd (0, Pi.single i 1)
        simpa using this
    have hnear : ∀ᶠ t : ℝ in nhds 0, StrictFeas A b eps (p + t • (dx, du)) := by
      have hc : Continuous fun t : ℝ => p + t • ((dx, du) : XU m) := by fun_prop
      have hop : IsOpen {q : XU m | StrictFeas A b eps q} := by
        have : {q : XU m | StrictFeas A b eps q} = (⋂ i, {q : XU m | -q.2 i < q.1 i ∧ q.1 i < q.2 i}) ∩ {q : XU m | nrm (A *ᵥ q.1 - b) < eps} := by
          ext q; simp [StrictFeas]
        rw [this]
        refine (isOpen_iInter_of_finite fun i => ?_).inter (isOpen_lt ?_ continuous_const)
        · have c1 : Continuous fun q : XU m => q.1 i := by fun_prop
          have c2 : Continuous fun q : XU m => q.2 i := by fun_prop
          exact (isOpen_lt c2.neg c1).inter (isOpen_lt c1 c2)
        · unfold nrm
          refine Real.continuous_sqrt.comp ?_
          simp only [dotProduct, mulVec, Pi.sub_apply]
          fun_prop
      have := (hop.preimage hc).mem_nhds (show (0 : ℝ) ∈ (fun t : ℝ => p + t • ((dx, du) : XU m)) ⁻¹' {q | StrictFeas A b eps q} by
        show StrictFeas A b eps (p + (0 : ℝ) • ((dx, du) : XU m)); rwa [zero_smul, add_zero])
      exact this
    have hline := (gx_line ht.ne' hp (dx, du)).prodMk (gu_line ht.ne' hp.1 (dx, du))
    have hline' : HasDerivAt (fun t : ℝ => g (p + t • (dx, du))) (hxR A b eps tau p (dx, du), huR tau p (dx, du)) 0 :=
      hline.congr_of_eventuallyEq (hnear.mono fun t htf => hgp _ htf)
    have heq := hline'.unique g2
    rw [hgp p hp] at heq
    obtain ⟨e1, e2⟩ := Prod.mk.inj heq
    have e1' : gxR A b eps tau p = -hxR A b eps tau p (dx, du) := by rw [e1]; simp
    have e2' : guR tau p = -huR tau p (dx, du) := by rw [e2]; simp
    have hd : ((dx, du) : XU m) ≠ 0 := by
      intro hc
      apply hg
      obtain ⟨rfl, rfl⟩ := Prod.mk.inj hc
      rw [e1', e2']
      have z1 : hxR A b eps tau p (0, 0) = 0 := by funext i; simp [hxR, denseR, Matrix.mulVec_zero, dotProduct_zero]
      have z2 : huR tau p ((0, 0) : XU m) = 0 := by funext i; simp [huR]
      rw [z1, z2]; simp
    have hpos := hess_pos ht hp hd
    rw [e1', e2', neg_dotProduct, neg_dotProduct]
    linarith
  · have hdu := d6 hst
    rw [hdu, slope_eq ht.ne' hp]
    have hw := c3 hx00
    have hspd := redR_spd hp
    have h1t : 0 < 1 / tau := by positivity
    have hS : 0 ≤ ∑ i, ntguR tau p i ^ 2 / s11R p i := Finset.sum_nonneg fun i _ => div_nonneg (sq_nonneg _) (s11_pos hp.1 i).le
    rw [hw]
    by_cases hdx : dx = 0
    · -- then the right-hand side is zero, so the second half of the gradient is not
      have hw0 : w1pR A b eps tau p = 0 := by
        by_contra hwn
        have hc := c1 hwn
        rw [d8] at hst
        rw [hc, hdx, map_zero, sub_zero, div_self (by
          exact (nrm_pos hwn).ne'), Bool.eq_false_iff, Ne, Dbl.lit_eq, Dbl.flt_fin] at hst
        norm_num at hst
      have hn : ∃ i, ntguR tau p i ≠ 0 := by
        by_contra hc
        push Not at hc
        apply hg
        have e2 : guR tau p = 0 := by funext i; show -1 / tau * ntguR tau p i = 0; rw [hc i, mul_zero]
        have e1 : gxR A b eps tau p = 0 := by
          funext i
          have := congrFun hw0 i
          unfold w1pR at this
          rw [hc i, mul_zero, sub_zero] at this
          show -1 / tau * ntgzR A b eps p i = 0
          rw [this]; simp
        rw [e1, e2]; rfl
      obtain ⟨i, hi⟩ := hn
      have hpos : 0 < ∑ i, ntguR tau p i ^ 2 / s11R p i :=
        Finset.sum_pos' (fun j _ => div_nonneg (sq_nonneg _) (s11_pos hp.1 j).le) ⟨i, Finset.mem_univ i, div_pos (by positivity) (s11_pos hp.1 i)⟩
      rw [hdx]
      simp only [zero_dotProduct, zero_add]
      nlinarith
    · have := hspd.2 dx hdx
      nlinarith

/-- example: at the example point the gradient is not zero -/
example : ∃ g, IsGrad (barrier exQ (fun _ => 1) (1 / 2) 1) g ((fun _ => 1 / 2), (fun _ => 1)) ∧ g ≠ 0 := by
  refine ⟨_, barrier_grad one_ne_zero exQ_strict, fun hc => ?_⟩
  have := congrFun (Prod.mk.inj hc).2 0
  simp [guR] at this
  norm_num at this

/-! ## C47 -/

/-- Every step length up to the computed maximum keeps all constraints strict, and the maximum is in `(0, 0.99]`. -/
theorem C47_max_step (R : QReal ax Inv A) (hnm : n ≤ m) {P0 P : QProb Dbl n m} (hb : P0.b = fvec b) (htau : P0.tau = Dbl.fin tau)
    (heps : P0.epsilon = Dbl.fin eps) (ht : tau ≠ 0) {p d : XU m} (hp : StrictFeas A b eps p) {s0 s : σ}
    (hev : l1qc_f_eval ax P0 (fvec p.1) (fvec p.2) s0 = some (P, s)) (hs0 : Inv s0) :
    ∃ smax s', l1qc_find_max_step ax { P with dx := fvec d.1, du := fvec d.2 } s = some (Dbl.fin smax, s') ∧ Inv s' ∧
      0 < smax ∧ smax ≤ 99 / 100 ∧ ∀ t, 0 ≤ t → t ≤ smax → StrictFeas A b eps (p + t • d) := by
  obtain ⟨P1, s1, h1, hs1, hE, -, -⟩ := f_eval_fin R.Ax hb htau heps ht hp hs0
  obtain ⟨rfl, rfl⟩ := Prod.mk.inj (Option.some.inj (hev.symm.trans h1))
  exact find_max_step_fin (P := { P with dx := fvec d.1, du := fvec d.2 }) R.Ax hnm
    ⟨hE.hb, hE.htau, hE.heps, hE.hr, hE.hfu1, hE.hfu2, hE.hfe, hE.hf⟩ hp rfl rfl hs1

/-- A whole run from a strictly feasible start with finite data: it is defined, returns status 0, and ends strictly feasible, with the
weight multiplied by `mu` once per barrier iteration. -/
theorem C47_run_stays_strict (R : QReal ax Inv A) (hnm : n ≤ m) {prm : QOpts Dbl} {mu : ℝ} (hmu : prm.mu = Dbl.fin mu) (hmu0 : 0 < mu)
    (htau : prm.tau = Dbl.fin tau) (ht : 0 < tau) (heps : prm.epsilon = Dbl.fin eps)
    (hc0 : 0 ≤ prm.cg_maxiter) (hc1 : prm.cg_maxiter < INT_MAX) (hlb : (prm.lbiter.toNat : Int) < INT_MAX)
    (hcg : prm.lbiter.toNat * ((prm.newton_max_iter - 1).toNat * prm.cg_maxiter) ≤ INT_MAX)
    (hnt : prm.lbiter.toNat * (((prm.newton_max_iter - 1).toNat : Int) + 1) ≤ INT_MAX) {p : XU m} (hp : StrictFeas A b eps p) {s : σ} (hs : Inv s) :
    ∃ (out : QOut Dbl n m) (s' : σ) (p' : XU m), l1qc_solve ax prm (fvec b) (fvec p.1) (fvec p.2) s = some (out, s') ∧ Inv s' ∧
      out.res.status = 0 ∧ out.x = fvec p'.1 ∧ StrictFeas A b eps p' ∧
      ∃ st, out.st = some st ∧ st.u = fvec p'.2 ∧ st.P.tau = Dbl.fin (tau * mu ^ prm.lbiter.toNat) := by
  obtain ⟨s1, h1, hs1⟩ := R.Ax.call p.1 hs
  have hck : l1qc_check_feasible_start ax (qprobZero (fvec b) prm) (fvec p.1) s = some (0, s1) := by
    unfold l1qc_check_feasible_start
    rw [ombind h1, if_neg (by omega)]
    show some ((if flt (lit 0) (dnrm2 (vaxpy (lit (-1)) (fvec b) (fvec (A *ᵥ p.1))) - prm.epsilon) = true then L1C_INFEASIBLE_START else 0), s1) = _
    rw [heps, if_neg]
    rw [start_check]
    exact not_lt.2 hp.2.le
  obtain ⟨st, s2, p', l1, l2, l3, -, -, -⟩ := lb_loop_fin (A := A) (b := b) (eps := eps) R hnm hmu hmu0 hc0 hc1 prm.lbiter.toNat 1 tau p
    ⟨fvec p.1, fvec p.2, qprobZero (fvec b) prm, lit 0, lit 0, 0, 0⟩ s1 ht
    ⟨rfl, rfl, hp, rfl, htau, heps, ⟨0, by funext i; simp [qprobZero]⟩, ⟨0, by simp⟩⟩ le_rfl (by dsimp only; omega) le_rfl
    (by dsimp only; omega) (by omega) hs1
  refine ⟨⟨⟨dasum st.x, st.newton, st.cg, 0⟩, st.x, some st⟩, s2, p', ?_, l2, rfl, l3.hx, l3.hp, st, rfl, l3.hu, l3.htau⟩
  unfold l1qc_solve
  rw [ombind hck, if_neg (by decide), ombind l1]
  rfl

/-- Along a barrier iteration with cold-started, converging linear solves the barrier objective does not grow. -/
theorem C46_barrier_does_not_grow (R : QReal ax Inv A) (hnm : n ≤ m) {prm : QOpts Dbl} (ht : 0 < tau) (hc0 : 0 ≤ prm.cg_maxiter)
    (hc1 : prm.cg_maxiter < INT_MAX) (hw : prm.warm_start_cg = 0) (hit : (m : Int) ≤ prm.cg_maxiter) (htol : ¬ Dbl.Lt (.fin (1 / 2)) prm.cg_tol)
    (fuel : ℕ) (hcg : fuel * prm.cg_maxiter ≤ INT_MAX) {p : XU m} {P0 P : QProb Dbl n m} (hb : P0.b = fvec b) (htau : P0.tau = Dbl.fin tau)
    (heps : P0.epsilon = Dbl.fin eps) (hdx : P0.dx = fvec 0) {u0 : Fin m → ℝ} (hdu : P0.du = fvec u0) (hp : StrictFeas A b eps p) {s0 s : σ}
    (hev : l1qc_f_eval ax P0 (fvec p.1) (fvec p.2) s0 = some (P, s)) (hs0 : Inv s0) :
    ∃ (st' : QLoop Dbl n m) (k : Int) (s' : σ) (p' : XU m),
      l1qc_newton_loop ax prm fuel 1 ⟨fvec p.1, fvec p.2, P, lit 0, inf, 0, 0⟩ s = some ((st', k), s') ∧
      st'.x = fvec p'.1 ∧ st'.u = fvec p'.2 ∧ StrictFeas A b eps p' ∧ barrier A b eps tau p' ≤ barrier A b eps tau p := by
  obtain ⟨P1, s1, h1, hs1, hE, e1, e2⟩ := f_eval_fin R.Ax hb htau heps ht.ne' hp hs0
  obtain ⟨rfl, rfl⟩ := Prod.mk.inj (Option.some.inj (hev.symm.trans h1))
  obtain ⟨st', k, s', p', r1, r2, r3, -, -, -, -, -, r4⟩ := newton_loop_fin R hnm ht hc0 hc1 fuel 1 p ⟨fvec p.1, fvec p.2, P, lit 0, inf, 0, 0⟩ s
    ⟨rfl, rfl, hp, hE, ⟨0, e1.trans hdx⟩, ⟨u0, e2.trans hdu⟩, ⟨0, by simp⟩⟩ le_rfl (by dsimp only; omega) hs1
  exact ⟨st', k, s', p', r1, r3.hx, r3.hu, r3.hp, r4 ⟨hw, hit, htol⟩⟩


/-! ## C48 -/

section
variable {F : Type} [Scalar F]

/-- the options the solver works with: only the weight and the number of barrier iterations are replaced -/
theorem init_opts {x u : Vec F m} {prm prm' : QOpts F} (h : l1qc_newton_init x prm = some (u, prm')) :
    ∃ t L, prm' = { prm with tau := t, lbiter := L } ∧ (prm.lbiter ≠ 0 → L = prm.lbiter) := by
  unfold l1qc_newton_init at h
  dsimp only at h
  obtain ⟨k, -, h⟩ := Option.bind_eq_some_iff.1 h
  by_cases h0 : prm.lbiter = 0
  · rw [if_pos h0] at h
    obtain ⟨L, -, h⟩ := Option.bind_eq_some_iff.1 h
    exact ⟨_, L, (Prod.mk.inj (Option.some.inj h)).2.symm, fun hc => absurd h0 hc⟩
  · rw [if_neg h0] at h
    obtain ⟨L, hL, h⟩ := Option.bind_eq_some_iff.1 h
    exact ⟨_, L, (Prod.mk.inj (Option.some.inj h)).2.symm, fun _ => (Option.some.inj hL).symm⟩

/-- every defined run of the whole routine -/
theorem newton_run_inv {ax : QAx F σ n m} {x : Vec F m} {b : Vec F n} {prm : QOpts F} {s s' : NState σ} {out : QOut F n m} (hs : s.WF)
    (h : l1c_l1qc_newton ax x b prm s = some (out, s')) : s.oracle s.calls = true ∧ s'.live = s.live ∧
      ∃ u prm', l1qc_newton_init x prm = some (u, prm') ∧
        (((∃ i < 19, s.oracle (s.calls + i) = false) ∧ out = ⟨⟨dasum x, 0, 0, L1C_OUT_OF_MEMORY⟩, x, none⟩ ∧ s'.cb = s.cb) ∨
          ((∀ i < 19, s.oracle (s.calls + i) = true) ∧ l1qc_solve ax prm' b x u s.cb = some (out, s'.cb))) := by
  obtain ⟨a1, a2, a3⟩ := newton_mem ax x b prm s hs
  cases ho : s.oracle s.calls with
  | false => rw [a1 ho] at h; cases h
  | true =>
    cases hi : l1qc_newton_init x prm with
    | none => rw [a2 ho hi] at h; cases h
    | some r =>
      obtain ⟨u, prm'⟩ := r
      refine ⟨rfl, ?_⟩
      rcases a3 u prm' ho hi with ⟨b1, s1, b2, b3, b4⟩ | ⟨b1, s1, b2, b3, b4⟩
      · obtain ⟨hq, hss⟩ := Prod.mk.inj (Option.some.inj (h.symm.trans b2))
        subst hss
        push Not at b1
        obtain ⟨i, hi1, hi2⟩ := b1
        exact ⟨b3, u, prm', rfl, Or.inl ⟨⟨i, hi1, by simpa using hi2⟩, hq, b4⟩⟩
      · rw [b4] at h
        obtain ⟨r, h1, h2⟩ := Option.map_eq_some_iff.1 h
        obtain ⟨hq, hss⟩ := Prod.mk.inj h2
        subst hss; subst hq
        exact ⟨b3, u, prm', rfl, Or.inr ⟨b1, h1⟩⟩

end

/-- Whatever the linear solver and the line search do: status 0 means that the returned vector is finite and satisfies the
constraint; any other status means that `x` is unchanged; an infeasible start is reported as such unless memory runs out. -/
theorem C48_feasible_or_unchanged (H : AxPart ax Inv A) {prm : QOpts Dbl} (he : prm.epsilon = Dbl.fin eps) {x : Fin m → ℝ}
    {out : QOut Dbl n m} {s s' : NState σ} (hwf : s.WF) (hs : Inv s.cb) (h : l1c_l1qc_newton ax (fvec x) (fvec b) prm s = some (out, s')) :
    (out.res.status = 0 → nrm (A *ᵥ x - b) ≤ eps ∧ ∃ x', out.x = fvec x' ∧ nrm (A *ᵥ x' - b) ≤ eps ∧ out.res.l1 = Dbl.fin (∑ i, |x' i|)) ∧
    (out.res.status ≠ 0 → out.x = fvec x) ∧
    (eps < nrm (A *ᵥ x - b) → out.x = fvec x ∧ (out.res.status = L1C_INFEASIBLE_START ∨
      (out.res.status = L1C_OUT_OF_MEMORY ∧ ∃ i < 19, s.oracle (s.calls + i) = false))) ∧
    (nrm (A *ᵥ x - b) ≤ eps → (∀ i < 19, s.oracle (s.calls + i) = true) → out.res.status = 0) := by
  obtain ⟨-, -, u, prm', hi, hr⟩ := newton_run_inv hwf h
  obtain ⟨t, L, rfl, -⟩ := init_opts hi
  rcases hr with ⟨hf, rfl, -⟩ | ⟨ha, hsol⟩
  · exact ⟨fun h0 => absurd h0 (by show ¬ L1C_OUT_OF_MEMORY = 0; decide), fun _ => rfl, fun _ => ⟨rfl, Or.inr ⟨rfl, hf⟩⟩,
      fun _ hall => by obtain ⟨i, h1, h2⟩ := hf; rw [hall i h1] at h2; cases h2⟩
  · obtain ⟨-, h1 | h1⟩ := solve_feasible H (prm := { prm with tau := t, lbiter := L }) he hs hsol
    · obtain ⟨c1, c2, c3, -⟩ := h1
      exact ⟨fun h0 => absurd (c2.symm.trans h0) (by decide), fun _ => c3, fun _ => ⟨c3, Or.inl c2⟩, fun hc => absurd hc (not_le.2 c1)⟩
    · obtain ⟨c1, c2, c3, x', c4, c5⟩ := h1
      exact ⟨fun _ => ⟨c1, x', c4, c5, by rw [c3, c4, dasum_fvec]⟩, fun hc => absurd c2 hc, fun hc => absurd hc (not_lt.2 c1), fun _ _ => c2⟩

/-! ## C51 -/

section
variable {F : Type} [Scalar F]

/-- Every defined run leaves exactly the allocations it found, whatever the allocation failures and whatever the operators do. -/
theorem C51_no_leak_partial {ax : QAx F σ n m} {x : Vec F m} {b : Vec F n} {prm : QOpts F} {s s' : NState σ} {out : QOut F n m} (hs : s.WF)
    (h : l1c_l1qc_newton ax x b prm s = some (out, s')) : s'.live = s.live :=
  (newton_run_inv hs h).2.1

/-- The run is defined for every allocation pattern in which the first request succeeds, if the operators are
defined (in the states `Inv`, which they keep), `n ≤ m`, the
automatic choice of `tau` and `lbiter` is defined and the iteration counters fit in `int`. -/
theorem C51_defined_partial {Inv : σ → Prop} {ax : QAx F σ n m} (T : OpsTotal Inv ax) (hnm : n ≤ m) {x u : Vec F m} {b : Vec F n} {prm prm' : QOpts F}
    (hi : l1qc_newton_init x prm = some (u, prm')) (h0 : 0 ≤ prm.cg_maxiter) (h1 : prm.cg_maxiter < INT_MAX)
    (h2 : (prm'.lbiter.toNat : Int) < INT_MAX)
    (h3 : prm'.lbiter.toNat * ((prm.newton_max_iter - 1).toNat * prm.cg_maxiter) ≤ INT_MAX)
    (h4 : prm'.lbiter.toNat * (((prm.newton_max_iter - 1).toNat : Int) + 1) ≤ INT_MAX) {s : NState σ} (hs : s.WF)
    (hI : Inv s.cb) (ho : s.oracle s.calls = true) :
    ∃ out s', l1c_l1qc_newton ax x b prm s = some (out, s') ∧ s'.live = s.live ∧ Inv s'.cb ∧
      (out.res.status = L1C_OUT_OF_MEMORY ↔ ∃ i < 19, s.oracle (s.calls + i) = false) := by
  obtain ⟨-, -, a3⟩ := newton_mem ax x b prm s hs
  obtain ⟨t, L, rfl, -⟩ := init_opts hi
  rcases a3 u _ ho hi with ⟨b1, s1, b2, b3, b4⟩ | ⟨b1, s1, b2, b3, b4⟩
  · push Not at b1
    obtain ⟨i, hi1, hi2⟩ := b1
    exact ⟨_, s1, b2, b3, by rw [b4]; exact hI, iff_of_true rfl ⟨i, hi1, by simpa using hi2⟩⟩
  · obtain ⟨out, sc, hr, hI'⟩ := solve_total T hnm (prm := { prm with tau := t, lbiter := L }) h0 h1 h2 h3 h4 b x u s.cb hI
    rw [hr] at b4
    refine ⟨out, _, b4, b3, hI', iff_of_false ?_ ?_⟩
    · obtain ⟨-, y, s2, -, ⟨-, -, h⟩ | ⟨-, st, -, h⟩⟩ := solve_inv hr
      · rw [h]; show ¬ L1C_INFEASIBLE_START = L1C_OUT_OF_MEMORY; decide
      · rw [h]; show ¬ 0 = L1C_OUT_OF_MEMORY; decide
    · rintro ⟨i, h5, h6⟩
      rw [b1 i h5] at h6
      cases h6

/-- Where the full statement fails: if the very first allocation fails, the clean-up releases uninitialised pointers. -/
theorem C51_first_alloc_failure_false (ax : QAx F σ n m) (x : Vec F m) (b : Vec F n) (prm : QOpts F) {s : NState σ} (hs : s.WF)
    (ho : s.oracle s.calls = false) : l1c_l1qc_newton ax x b prm s = none :=
  (newton_mem ax x b prm s hs).1 ho

/-- Where the full statement fails: with more measurements than unknowns a work array of length `m` is overrun. -/
theorem C51_more_rows_false {ax : QAx F σ n m} (hnm : m < n) (x : Vec F m) (b : Vec F n) (prm : QOpts F) {s : NState σ} (hs : s.WF)
    (ho : ∀ i < 19, s.oracle (s.calls + i) = true) : l1c_l1qc_newton ax x b prm s = none := by
  cases h : l1c_l1qc_newton ax x b prm s with
  | none => rfl
  | some r =>
    obtain ⟨-, -, u, prm', -, ⟨⟨i, h1, h2⟩, -⟩ | ⟨-, hsol⟩⟩ := newton_run_inv hs (out := r.1) (s' := r.2) h
    · rw [ho i h1] at h2; cases h2
    · exact absurd (solve_inv hsol).1 (by omega)

example : l1c_l1qc_newton (denseQ exQ) (fvec fun _ => 1) (fvec fun _ => 1) ⟨Dbl.fin 1, Dbl.fin 10, Dbl.fin 1, Dbl.fin 1, 3, Dbl.fin 1, 50, Dbl.fin 0, Dbl.fin 1, 200, 0⟩
    (⟨∅, 0, 0, fun _ => false, ()⟩ : NState Unit) = none :=
  C51_first_alloc_failure_false _ _ _ _ (fun b hb => by cases hb) rfl

example (prm : QOpts Dbl) : l1c_l1qc_newton (denseQ (0 : Matrix (Fin 3) (Fin 2) ℝ)) (fvec fun _ => 1) (fvec fun _ => 1) prm
    (⟨∅, 0, 0, fun _ => true, ()⟩ : NState Unit) = none :=
  C51_more_rows_false (by decide) _ _ _ (fun b hb => by cases hb) (fun _ _ => rfl)

end

/-! ## C52 -/

/-- From every nonzero finite start the chosen `u` is strictly above `|x|` and the weight is finite and at least 1. -/
theorem C52_start_partial {x : Fin m → ℝ} (hx : x ≠ 0) (hm : 2 * (m : Int) + 1 ≤ INT_MAX) {prm : QOpts Dbl} {u : Vec Dbl m} {prm' : QOpts Dbl}
    (h : l1qc_newton_init (fvec x) prm = some (u, prm')) :
    ∃ (ur : Fin m → ℝ) (t : ℝ), u = fvec ur ∧ (∀ i, -ur i < x i ∧ x i < ur i) ∧ prm'.tau = Dbl.fin t ∧ 1 ≤ t ∧
      (prm.lbiter ≠ 0 → prm'.lbiter = prm.lbiter) := by
  obtain ⟨ur, h1, h2⟩ := init_fin hx hm
  rw [h2 prm] at h
  obtain ⟨L, hL, h⟩ := Option.map_eq_some_iff.1 h
  obtain ⟨hu, hp⟩ := Prod.mk.inj h
  subst hp
  refine ⟨ur, tau0R x, hu.symm, fun i => abs_lt.1 (h1 i), rfl, tau0R_ge x, fun h0 => ?_⟩
  rw [if_neg h0] at hL
  exact (Option.some.inj hL).symm

/-- The choice is defined: always if the number of barrier iterations is given, and if it is computed, for all magnitudes that
occur as doubles and `mu ≥ 2`. -/
theorem C52_defined_partial {x : Fin m → ℝ} (hx : x ≠ 0) (hm : 2 * (m : Int) + 1 ≤ INT_MAX) {prm : QOpts Dbl}
    (hauto : prm.lbiter = 0 → ∃ lbtol mu : ℝ, prm.lbtol = Dbl.fin lbtol ∧ prm.mu = Dbl.fin mu ∧ (2 : ℝ) ^ (-1100 : ℤ) ≤ ∑ i, |x i| ∧
      (2 : ℝ) ^ (-1100 : ℤ) ≤ lbtol ∧ lbtol ≤ 2 ^ (1100 : ℤ) ∧ 2 ≤ mu) :
    ∃ r, l1qc_newton_init (fvec x) prm = some r := by
  obtain ⟨ur, -, h2⟩ := init_fin hx hm
  rw [h2 prm]
  split
  · rename_i h0
    obtain ⟨lbtol, mu, e1, e2, e3, e4, e5, e6⟩ := hauto h0
    have hl : 0 < lbtol := lt_of_lt_of_le (by positivity) e4
    rw [e1, e2, init_auto_arg x hl (by linarith), ceilInt_fin, if_pos (lb_fits e3 hm e4 e5 e6)]
    exact ⟨_, rfl⟩
  · exact ⟨_, rfl⟩

example : (fun _ => 1 : Fin 2 → ℝ) ≠ 0 ∧ (2 : ℝ) ^ (-1100 : ℤ) ≤ ∑ i : Fin 2, |(fun _ => 1 : Fin 2 → ℝ) i| ∧
    (2 : ℝ) ^ (-1100 : ℤ) ≤ (1 / 1000 : ℝ) ∧ (1 / 1000 : ℝ) ≤ 2 ^ (1100 : ℤ) := by
  have h : (2 : ℝ) ^ (-1100 : ℤ) ≤ 2 ^ (-10 : ℤ) := zpow_le_zpow_right₀ (by norm_num) (by norm_num)
  have h2 : (1 : ℝ) ≤ 2 ^ (1100 : ℤ) := one_le_zpow₀ (by norm_num) (by norm_num)
  refine ⟨fun hc => by simpa using congrFun hc 0, ?_, ?_, ?_⟩
  · refine h.trans ?_; simp; norm_num
  · refine h.trans ?_; norm_num
  · exact le_trans (by norm_num) h2

/-- Where the full statement fails: from the zero start with automatic iteration count the conversion to `int` is undefined. -/
theorem C52_zero_start_false (hm0 : 0 < m) (hm : 2 * (m : Int) + 1 ≤ INT_MAX) {ax : QAx Dbl σ n m} {prm : QOpts Dbl} (h0 : prm.lbiter = 0)
    {lbtol mu : ℝ} (hl : prm.lbtol = Dbl.fin lbtol) (hl0 : 0 < lbtol) (hmu : prm.mu = Dbl.fin mu) (hmu1 : 1 < mu) (bv : Vec Dbl n)
    {s : NState σ} (hs : s.WF) (ho : s.oracle s.calls = true) : l1c_l1qc_newton ax (fvec 0) bv prm s = none :=
  (newton_mem ax (fvec 0) bv prm s hs).2.1 ho (init_zero_undefined hm0 hm h0 hl hl0 hmu hmu1)

/-- … and with a given iteration count the chosen `u` is zero, not strictly above `|x|`, and the weight is infinite. -/
theorem C52_zero_start_not_strict_false (hm0 : 0 < m) (hm : 2 * (m : Int) + 1 ≤ INT_MAX) {prm : QOpts Dbl} (h0 : prm.lbiter ≠ 0) :
    l1qc_newton_init (fvec (0 : Fin m → ℝ)) prm = some (fvec 0, { prm with tau := Dbl.pinf }) := by
  rw [init_zero hm0 hm, if_neg h0]; rfl

/-! ## C49 -/

/-- The value of the `u` part at a stationary point of the barrier objective is within `(2m+1)/tau` of the norm of every feasible point. -/
theorem C49_gap (ht : 0 < tau) {p : XU m} (hp : StrictFeas A b eps p) (hst : IsGrad (barrier A b eps tau) 0 p) {z : Fin m → ℝ}
    (hz : nrm (A *ᵥ z - b) ≤ eps) : ∑ i, |p.1 i| < ∑ i, p.2 i + (if m = 0 then 1 else 0) ∧ ∑ i, p.2 i - ∑ i, |z i| ≤ (2 * m + 1) / tau := by
  refine ⟨?_, barrier_gap ht hp hst hz⟩
  rcases Nat.eq_zero_or_pos m with rfl | hm
  · simp
  · rw [if_neg hm.ne', add_zero]
    exact Finset.sum_lt_sum_of_nonempty ⟨⟨0, hm⟩, Finset.mem_univ _⟩ fun i _ => abs_lt.2 (hp.1 i)

/-- `C49_gap` at the stationary point `x = 0`, `u = 1` of one unknown with weight 2. -/
example : (1 : ℝ) - |(1 / 4 : ℝ)| ≤ 3 / 2 := by
  have hp : StrictFeas (1 : Matrix (Fin 1) (Fin 1) ℝ) (fun _ => 0) 1 ((fun _ => 0), (fun _ => 1)) := by
    refine ⟨fun i => by constructor <;> norm_num, ?_⟩
    simp [nrm, dotProduct]
  have hg := barrier_grad (tau := 2) (by norm_num) hp
  have e : (gxR (1 : Matrix (Fin 1) (Fin 1) ℝ) (fun _ => 0) 1 2 ((fun _ => 0), (fun _ => 1)), guR 2 ((fun _ => 0 : Fin 1 → ℝ), (fun _ => 1 : Fin 1 → ℝ))) = 0 := by
    refine Prod.ext (funext fun i => ?_) (funext fun i => ?_)
    · simp [gxR, Matrix.mulVec, dotProduct]
    · simp [guR]
      norm_num
  rw [e] at hg
  have h := (C49_gap (z := fun _ => 1 / 4) (by norm_num) hp hg (by
    simp [nrm, dotProduct]
    norm_num)).2
  simpa using h.trans (by norm_num)

/-- the barrier loop, last iteration split off -/
theorem lb_loop_snoc {prm : QOpts Dbl} (L : ℕ) : ∀ (lb : Int) (st : QLoop Dbl n m) (s : σ) (st' : QLoop Dbl n m) (s' : σ),
    l1qc_lb_loop ax prm (L + 1) lb st s = some (st', s') →
    ∃ st1 s1, l1qc_lb_loop ax prm L lb st s = some (st1, s1) ∧ l1qc_lb_body ax prm st1 s1 = some (st', s') := by
  induction L with
  | zero =>
    intro lb st s st' s' h
    unfold l1qc_lb_loop at h
    obtain ⟨a, s1, h1, h⟩ := ombind_some h
    unfold l1qc_lb_loop at h
    split at h
    · rename_i hlb
      obtain ⟨rfl, rfl⟩ := ompure_some h
      refine ⟨st, s, ?_, h1⟩
      unfold l1qc_lb_loop
      rw [if_pos (by omega)]; rfl
    · cases h
  | succ L ih =>
    intro lb st s st' s' h
    unfold l1qc_lb_loop at h
    obtain ⟨a, s1, h1, h⟩ := ombind_some h
    obtain ⟨st1, s2, h2, h3⟩ := ih _ _ _ _ _ h
    refine ⟨st1, s2, ?_, h3⟩
    unfold l1qc_lb_loop
    rw [ombind h1]; exact h2

/-- A run from a strictly feasible nonzero start with automatic iteration count: the weight stored at the end satisfies
`(2m+1)/tau ≤ lbtol`.  Full statement: the last barrier problem worked on has such a weight.  That is false: its weight is `mu` times
smaller, so it always misses the tolerance, though by no more than the factor `mu`. -/
theorem C49_weights_partial (R : QReal ax Inv A) (hnm : n ≤ m) {prm prm' : QOpts Dbl} {x : Fin m → ℝ} (hx : x ≠ 0) (hm : 2 * (m : Int) + 1 ≤ INT_MAX)
    {lbtol mu : ℝ} (hauto : prm.lbiter = 0) (hl : prm.lbtol = Dbl.fin lbtol) (hl0 : 0 < lbtol) (hmu : prm.mu = Dbl.fin mu) (hmu1 : 1 < mu)
    (heps : prm.epsilon = Dbl.fin eps) (hfeas : nrm (A *ᵥ x - b) < eps) {u : Vec Dbl m} (hi : l1qc_newton_init (fvec x) prm = some (u, prm'))
    (hc0 : 0 ≤ prm.cg_maxiter) (hc1 : prm.cg_maxiter < INT_MAX) (hlb : (prm'.lbiter.toNat : Int) < INT_MAX)
    (hcg : prm'.lbiter.toNat * ((prm.newton_max_iter - 1).toNat * prm.cg_maxiter) ≤ INT_MAX)
    (hnt : prm'.lbiter.toNat * (((prm.newton_max_iter - 1).toNat : Int) + 1) ≤ INT_MAX) {s : NState σ} (hs : s.WF) (hI : Inv s.cb)
    (ho : ∀ i < 19, s.oracle (s.calls + i) = true) :
    ∃ (out : QOut Dbl n m) (s' : NState σ) (st : QLoop Dbl n m) (T : ℝ),
      l1c_l1qc_newton ax (fvec x) (fvec b) prm s = some (out, s') ∧ out.res.status = 0 ∧ out.st = some st ∧ st.P.tau = Dbl.fin T ∧
      (2 * m + 1) / T ≤ lbtol ∧
      (0 < prm'.lbiter → ∃ (st1 : QLoop Dbl n m) (s1 : σ) (t : ℝ), l1qc_lb_body ax prm' st1 s1 = some (st, s'.cb) ∧
        st1.P.tau = Dbl.fin t ∧ T = t * mu ∧ lbtol < (2 * m + 1) / t ∧ (2 * m + 1) / t ≤ mu * lbtol) := by
  obtain ⟨ur, u1, u2⟩ := init_fin hx hm
  have hi' := hi
  rw [u2 prm, if_pos hauto] at hi'
  obtain ⟨L, hL, hi'⟩ := Option.map_eq_some_iff.1 hi'
  rw [hl, hmu, init_auto_arg x hl0 hmu1, ceilInt_fin] at hL
  obtain ⟨hu, hp⟩ := Prod.mk.inj hi'
  split at hL
  swap; · cases hL
  have hL' := Option.some.inj hL
  subst hp hu
  dsimp only at hlb hcg hnt
  have ht : 0 < tau0R x := lt_of_lt_of_le one_pos (tau0R_ge x)
  have hp : StrictFeas A b eps (x, ur) := ⟨fun i => abs_lt.1 (u1 i), hfeas⟩
  obtain ⟨out, sc, p', r1, r2, r3, r4, r5, st, r6, r7, r8⟩ := C47_run_stays_strict (tau := tau0R x) R hnm
    (prm := { prm with tau := Dbl.fin (tau0R x), lbiter := L }) hmu (by linarith) rfl ht heps hc0 hc1 hlb hcg hnt hp hI
  rcases (newton_mem ax (fvec x) (fvec b) prm s hs).2.2 _ _ (ho 0 (by decide)) hi with ⟨b1, -⟩ | ⟨-, s1, b2, b3, b4⟩
  · exact absurd ho b1
  rw [r1] at b4
  refine ⟨out, _, st, _, b4, r3, r6, r8, ?_, fun hpos => ?_⟩
  · dsimp only
    rw [← hL']
    exact final_weight x hl0 hmu1
  · dsimp only at hpos
    obtain ⟨k, hk⟩ : ∃ k, L.toNat = k + 1 := ⟨L.toNat - 1, by omega⟩
    obtain ⟨-, y, sA, a1, ⟨-, -, h⟩ | ⟨-, st0, h0, h⟩⟩ := solve_inv r1
    · rw [h] at r6; cases r6
    rw [h] at r6
    cases Option.some.inj r6
    dsimp only at h0
    rw [hk] at h0
    obtain ⟨st1, s2, h1, h2⟩ := lb_loop_snoc k _ _ _ _ _ h0
    have hsA : Inv sA := (R.Ax.some hI a1).1
    have p1 : 0 ≤ ((prm.newton_max_iter - 1).toNat : Int) * prm.cg_maxiter := by positivity
    rw [hk] at hcg hnt hlb
    push_cast at hcg hnt hlb
    obtain ⟨st2, s3, p2, l1, l2, l3, -⟩ := lb_loop_fin (A := A) (b := b) (eps := eps) R hnm
      (prm := { prm with tau := Dbl.fin (tau0R x), lbiter := L }) hmu (by linarith) hc0 hc1 k 1 (tau0R x) (x, ur)
      ⟨fvec x, fvec ur, qprobZero (fvec b) { prm with tau := Dbl.fin (tau0R x), lbiter := L }, lit 0, lit 0, 0, 0⟩ sA ht
      ⟨rfl, rfl, hp, rfl, rfl, heps, ⟨0, by funext i; simp [qprobZero]⟩, ⟨0, by simp⟩⟩ le_rfl (by dsimp only; linarith) le_rfl
      (by dsimp only; linarith) (by omega) hsA
    obtain ⟨rfl, rfl⟩ := Prod.mk.inj (Option.some.inj (h1.symm.trans l1))
    obtain ⟨w1, w2⟩ := last_weight x hl0 hmu1 (L := k) (by rw [hL', hk])
    exact ⟨st1, s2, _, h2, l3.htau, by dsimp only; rw [hk, pow_succ]; ring, w1, w2⟩

/-- example: one unknown, `x = 3`, `mu = 3`, `lbtol = 1`: one barrier iteration, with weight 1 although weight 3 is required -/
example : tau0R (fun _ : Fin 1 => (3 : ℝ)) = 1 ∧ lbR (fun _ : Fin 1 => (3 : ℝ)) 1 3 = 1 ∧ ¬ ((2 * (1 : ℕ) + 1 : ℝ) / (1 * 3 ^ 0) ≤ 1) := by
  have h1 : tau0R (fun _ : Fin 1 => (3 : ℝ)) = 1 := by simp [tau0R]; norm_num
  refine ⟨h1, ?_, by norm_num⟩
  unfold lbR
  rw [h1]
  norm_num

/-! ## C50 -/

section
variable {F : Type} [Scalar F]

/-- operators instrumented with a counter of `Aᵀ`-products; the solver computes exactly one per Newton iteration -/
def countAty (ax : QAx F σ n m) : QAx F (σ × ℕ) n m where
  Ax v s := (ax.Ax v s.1).map fun r => (r.1, (r.2, s.2))
  Aty v s := (ax.Aty v s.1).map fun r => (r.1, (r.2, s.2 + 1))
  AtAx v s := (ax.AtAx v s.1).map fun r => (r.1, (r.2, s.2))

omit [Scalar F] in
theorem countAty_keep (ax : QAx F σ n m) : OpsKeep (fun s s' : σ × ℕ => s'.2 = s.2) (countAty ax) := by
  constructor <;>
  · intro v s a s' h
    obtain ⟨r, -, hr⟩ := Option.map_eq_some_iff.1 h
    obtain ⟨-, rfl⟩ := Prod.mk.inj hr
    rfl

omit [Scalar F] in
theorem countAty_incr (ax : QAx F σ n m) (v s a s') (h : (countAty ax).Aty v s = some (a, s')) : s'.2 = s.2 + 1 := by
  obtain ⟨r, -, hr⟩ := Option.map_eq_some_iff.1 h
  obtain ⟨-, rfl⟩ := Prod.mk.inj hr
  rfl

/-- The possible status codes, and the reported number of Newton iterations compared with the number `c` of iterations performed: it
may be too large by one per barrier iteration; it never exceeds `newton_max_iter` per barrier iteration if `newton_max_iter ≥ 1`. -/
theorem C50_status_and_count_partial {ax : QAx F σ n m} {x : Vec F m} {b : Vec F n} {prm : QOpts F} {s s' : NState (σ × ℕ)}
    {out : QOut F n m} (hs : s.WF) (h : l1c_l1qc_newton (countAty ax) x b prm s = some (out, s')) :
    (out.res.status = 0 ∨ out.res.status = L1C_INFEASIBLE_START ∨ out.res.status = L1C_OUT_OF_MEMORY) ∧
    (out.res.status ≠ 0 → s'.cb.2 = s.cb.2 ∧ out.res.total_newton_iter = 0 ∧ out.res.total_cg_iter = 0) ∧
    ∃ (u : Vec F m) (prm' : QOpts F), l1qc_newton_init x prm = some (u, prm') ∧
      (out.res.status = 0 → ∃ c e : ℕ, s'.cb.2 = s.cb.2 + c ∧ out.res.total_newton_iter = c + e ∧ e ≤ prm'.lbiter.toNat ∧
        out.res.total_newton_iter ≤ prm'.lbiter.toNat * max prm.newton_max_iter 1) := by
  obtain ⟨-, -, u, prm', hi, hr⟩ := newton_run_inv hs h
  obtain ⟨t, L, rfl, -⟩ := init_opts hi
  rcases hr with ⟨-, rfl, hc⟩ | ⟨-, hsol⟩
  · exact ⟨Or.inr (Or.inr rfl), fun _ => ⟨by rw [hc], rfl, rfl⟩, u, _, hi, fun h0 => absurd h0 (by show ¬ L1C_OUT_OF_MEMORY = 0; decide)⟩
  · obtain ⟨-, y, s1, a1, ⟨-, e1, rfl⟩ | ⟨-, st, hl, rfl⟩⟩ := solve_inv hsol
    · refine ⟨Or.inr (Or.inl rfl), fun _ => ⟨?_, rfl, rfl⟩, u, _, hi, fun h0 => absurd h0 (by show ¬ L1C_INFEASIBLE_START = 0; decide)⟩
      rw [e1]
      exact (countAty_keep ax).Ax _ _ _ _ a1
    · refine ⟨Or.inl rfl, fun hc => absurd rfl hc, u, _, hi, fun _ => ?_⟩
      obtain ⟨c, e, c1, c2, c3, c4, c5, -⟩ := lb_loop_count (countAty_keep ax) (countAty_incr ax) _ _ _ _ _ _ hl
      have hA := (countAty_keep ax).Ax _ _ _ _ a1
      dsimp only at c1 c2 c3 c4 c5 hA ⊢
      refine ⟨c, e, by rw [c1, hA], by omega, c4, ?_⟩
      have hmx : max prm.newton_max_iter 1 = ((prm.newton_max_iter - 1).toNat : Int) + 1 := by omega
      rw [hmx]
      have c2' : (c : Int) ≤ L.toNat * ((prm.newton_max_iter - 1).toNat : Int) := by exact_mod_cast c2
      have c4' : (e : Int) ≤ L.toNat := by exact_mod_cast c4
      rw [c3, mul_add]; omega

/-- Where the full statement fails: with `newton_max_iter ≤ 1` no Newton iteration is performed, but one per barrier iteration is
reported. -/
theorem C50_overcount_false {ax : QAx F σ n m} {x : Vec F m} {b : Vec F n} {prm : QOpts F} {s s' : NState (σ × ℕ)}
    {out : QOut F n m} (hs : s.WF) (h : l1c_l1qc_newton (countAty ax) x b prm s = some (out, s')) (h1 : prm.newton_max_iter ≤ 1)
    (h0 : prm.lbiter ≠ 0) (hst : out.res.status = 0) : s'.cb.2 = s.cb.2 ∧ out.res.total_newton_iter = prm.lbiter.toNat := by
  obtain ⟨-, -, u, prm', hi, hr⟩ := newton_run_inv hs h
  obtain ⟨t, L, rfl, hL⟩ := init_opts hi
  obtain rfl := hL h0
  rcases hr with ⟨-, rfl, hc⟩ | ⟨-, hsol⟩
  · exact absurd hst (by show ¬ L1C_OUT_OF_MEMORY = 0; decide)
  · obtain ⟨-, y, s1, a1, ⟨-, e1, rfl⟩ | ⟨-, st, hl, rfl⟩⟩ := solve_inv hsol
    · exact absurd hst (by show ¬ L1C_INFEASIBLE_START = 0; decide)
    · obtain ⟨c, e, c1, c2, c3, c4, c5, c6⟩ := lb_loop_count (countAty_keep ax) (countAty_incr ax) _ _ _ _ _ _ hl
      have hA := (countAty_keep ax).Ax _ _ _ _ a1
      dsimp only at c1 c2 c3 c4 c5 c6 hA ⊢
      have h2 : (prm.newton_max_iter - 1).toNat = 0 := by omega
      rw [h2, Nat.mul_zero] at c2
      have := c6 h1
      exact ⟨by omega, by omega⟩

end

/-- Where the full statement fails: from a start on the boundary of the constraint (`‖A x - b‖ = eps`, not reported as infeasible) the
linear solver and the line search fail in every iteration, `x` never changes, and the status is 0. -/
theorem C50_failure_not_reported_false (hm : 0 < m) (H : AxPart ax Inv A) {prm : QOpts Dbl} (he : prm.epsilon = Dbl.fin eps) {x : Fin m → ℝ}
    (hx : nrm (A *ᵥ x - b) = eps) {out : QOut Dbl n m} {s s' : NState σ} (hwf : s.WF) (hs : Inv s.cb)
    (ho : ∀ i < 19, s.oracle (s.calls + i) = true) (h : l1c_l1qc_newton ax (fvec x) (fvec b) prm s = some (out, s')) :
    out.res.status = 0 ∧ out.x = fvec x := by
  refine ⟨(C48_feasible_or_unchanged H he hwf hs h).2.2.2 hx.le ho, ?_⟩
  obtain ⟨-, -, u, prm', hi, ⟨⟨i, h1, h2⟩, -⟩ | ⟨-, hsol⟩⟩ := newton_run_inv hwf h
  · rw [ho i h1] at h2; cases h2
  · obtain ⟨t, L, rfl, -⟩ := init_opts hi
    obtain ⟨-, y, s1, a1, ⟨-, -, rfl⟩ | ⟨-, st, hl, rfl⟩⟩ := solve_inv hsol
    · rfl
    · exact lb_loop_stall hm H hx _ _ _ _ _ _ (H.Ax _ _ _ _ hs a1).1 rfl he rfl hl

/-- example options -/
noncomputable def exOpts : QOpts Dbl where
  epsilon := Dbl.fin 1
  mu := Dbl.fin 10
  lbtol := Dbl.fin (1 / 1000)
  tau := Dbl.fin 1
  lbiter := 3
  newton_tol := Dbl.fin (1 / 1000)
  newton_max_iter := 50
  l1_tol := Dbl.fin 0
  cg_tol := Dbl.fin (1 / 1000)
  cg_maxiter := 200
  warm_start_cg := 0

/-- A concrete run: `A = 1`, `b = 0`, `eps = 1`, start `x = 1`.  The run is defined, reports success and returns the start, although
`0` is feasible and has a smaller norm. -/
theorem C50_witness_false : ∃ out s', l1c_l1qc_newton (denseQ (1 : Matrix (Fin 1) (Fin 1) ℝ)) (fvec (fun _ => 1)) (fvec (fun _ => 0)) exOpts exState
      = some (out, s') ∧ out.res.status = 0 ∧ out.x = fvec (fun _ => 1) ∧
      nrm ((1 : Matrix (Fin 1) (Fin 1) ℝ) *ᵥ (fun _ => 0) - fun _ => 0) ≤ 1 ∧ ∑ i : Fin 1, |(fun _ => 0 : Fin 1 → ℝ) i| < ∑ i : Fin 1, |(fun _ => 1 : Fin 1 → ℝ) i| := by
  have hx : (fun _ => 1 : Fin 1 → ℝ) ≠ 0 := fun hc => by simpa using congrFun hc 0
  obtain ⟨⟨u, prm'⟩, hi⟩ := C52_defined_partial hx (by decide) (prm := exOpts) (fun h0 => absurd h0 (by show ¬ (3 : Int) = 0; decide))
  have hL : prm'.lbiter = 3 := by
    obtain ⟨t, L, rfl, h⟩ := init_opts hi
    exact h (by show ¬ (3 : Int) = 0; decide)
  obtain ⟨out, s', h1, -, -, -⟩ := C51_defined_partial (denseQ_total (1 : Matrix (Fin 1) (Fin 1) ℝ)) le_rfl (b := fvec (fun _ => 0)) hi
    (by show (0 : Int) ≤ 200; decide) (by show (200 : Int) < INT_MAX; decide) (by rw [hL]; decide)
    (by rw [hL]; show (3 : Int).toNat * (((50 : Int) - 1).toNat * (200 : Int)) ≤ INT_MAX; decide)
    (by rw [hL]; show (3 : Int).toNat * ((((50 : Int) - 1).toNat : Int) + 1) ≤ INT_MAX; decide) exState_wf trivial rfl
  have hb : nrm ((1 : Matrix (Fin 1) (Fin 1) ℝ) *ᵥ (fun _ => 1) - fun _ => 0) = 1 := by simp [nrm, dotProduct]
  obtain ⟨h2, h3⟩ := C50_failure_not_reported_false one_pos (denseQ_real (1 : Matrix (Fin 1) (Fin 1) ℝ)).part (prm := exOpts) rfl hb exState_wf trivial
    (fun _ _ => rfl) h1
  exact ⟨out, s', h1, h2, h3, by simp [nrm, dotProduct], by simp⟩

/-- `exOpts` with the number of barrier steps left to the solver. -/
noncomputable def exAuto : QOpts Dbl := { exOpts with lbiter := 0 }

/-- `C52_zero_start_false` and `C52_zero_start_not_strict_false` on the small problem. -/
example : l1c_l1qc_newton (denseQ exQ) (fvec 0) (fvec fun _ => 1) exAuto exState = none :=
  C52_zero_start_false (by decide) (by decide) rfl rfl (by norm_num) rfl (by norm_num) _ exState_wf rfl

example : l1qc_newton_init (fvec (0 : Fin 2 → ℝ)) exOpts = some (fvec 0, { exOpts with tau := Dbl.pinf }) :=
  C52_zero_start_not_strict_false (by decide) (by decide) (by decide)

/-- `C47_run_stays_strict` on the small problem, so a run it speaks about exists. -/
example : ∃ (out : QOut Dbl 1 2) (s' : Unit) (p' : XU 2), l1qc_solve (denseQ exQ) { exOpts with epsilon := Dbl.fin (1 / 2) } (fvec fun _ => 1) (fvec fun _ => 1 / 2)
      (fvec fun _ => 1) () = some (out, s') ∧ out.res.status = 0 ∧ out.x = fvec p'.1 ∧ StrictFeas exQ (fun _ => 1) (1 / 2) p' :=
  let ⟨out, s', p', h, _, h1, h2, h3, _⟩ := C47_run_stays_strict (denseQ_real exQ) (by decide) (prm := { exOpts with epsilon := Dbl.fin (1 / 2) }) rfl (by norm_num)
    rfl one_pos rfl (by decide) (by decide) (by decide) (by decide) (by decide) exQ_strict (s := ()) trivial
  ⟨out, s', p', h, h1, h2, h3⟩

/-- the working data of the solver on the small problem before the first evaluation -/
noncomputable def exProb : QProb Dbl 1 2 :=
  ⟨fvec (fun _ => 1), Dbl.fin 1, Dbl.fin (1 / 2), fvec 0, fvec 0, fvec 0, .nan, .nan, fvec 0, fvec 0, fvec 0, fvec 0, fvec 0, fvec 0, fvec 0, fvec 0⟩

/-- `C47_max_step` for the direction that decreases the first unknown. -/
example : ∃ P, l1qc_f_eval (denseQ exQ) exProb (fvec fun _ => 1 / 2) (fvec fun _ => 1) () = some (P, ()) ∧
    ∃ smax s', l1qc_find_max_step (denseQ exQ) { P with dx := fvec ![-1, 0], du := fvec 0 } () = some (Dbl.fin smax, s') ∧
      0 < smax ∧ StrictFeas exQ (fun _ => 1) (1 / 2) (((fun _ => 1 / 2), (fun _ => 1)) + smax • (![-1, 0], 0)) := by
  obtain ⟨P, s1, g, h, -⟩ := C45_objective_and_gradient (denseQ_real exQ) (P := exProb) rfl rfl rfl one_ne_zero exQ_strict (s := ()) trivial
  obtain ⟨smax, s', h', -, h0, -, h2⟩ := C47_max_step (denseQ_real exQ) (by decide) (P0 := exProb) rfl rfl rfl one_ne_zero (d := (![-1, 0], 0)) exQ_strict h trivial
  exact ⟨P, h, smax, s', h', h0, h2 smax h0.le le_rfl⟩

/-- `C46_barrier_does_not_grow` on the same problem. -/
example : ∃ P, l1qc_f_eval (denseQ exQ) exProb (fvec fun _ => 1 / 2) (fvec fun _ => 1) () = some (P, ()) ∧
    ∃ (st' : QLoop Dbl 1 2) (k : Int) (s' : Unit) (p' : XU 2),
      l1qc_newton_loop (denseQ exQ) exOpts 49 1 ⟨fvec fun _ => 1 / 2, fvec fun _ => 1, P, lit 0, inf, 0, 0⟩ () = some ((st', k), s') ∧
      barrier exQ (fun _ => 1) (1 / 2) 1 p' ≤ barrier exQ (fun _ => 1) (1 / 2) 1 ((fun _ => 1 / 2), (fun _ => 1)) := by
  obtain ⟨P, s1, g, h, -⟩ := C45_objective_and_gradient (denseQ_real exQ) (P := exProb) rfl rfl rfl one_ne_zero exQ_strict (s := ()) trivial
  obtain ⟨st', k, s', p', h', -, -, -, hb⟩ := C46_barrier_does_not_grow (denseQ_real exQ) (by decide) (prm := exOpts) one_pos (by decide) (by decide) rfl
    (by decide) (by show ¬ (1 / 2 : ℝ) < 1 / 1000; norm_num) 49 (by decide) (P0 := exProb) rfl rfl rfl rfl rfl exQ_strict h trivial
  exact ⟨P, h, st', k, s', p', h', hb⟩

/-- `C48_feasible_or_unchanged` and the counters of C50 read off the run of `C50_witness_false`. -/
example : ∃ out s', l1c_l1qc_newton (denseQ (1 : Matrix (Fin 1) (Fin 1) ℝ)) (fvec (fun _ => 1)) (fvec (fun _ => 0)) exOpts exState = some (out, s') ∧
    ∃ x', out.x = fvec x' ∧ nrm ((1 : Matrix (Fin 1) (Fin 1) ℝ) *ᵥ x' - fun _ => 0) ≤ 1 ∧ s'.live = ∅ := by
  obtain ⟨out, s', h, h0, -⟩ := C50_witness_false
  obtain ⟨-, x', hx, hf, -⟩ := (C48_feasible_or_unchanged (denseQ_real (1 : Matrix (Fin 1) (Fin 1) ℝ)).part (prm := exOpts) rfl exState_wf trivial h).1 h0
  exact ⟨out, s', h, x', hx, hf, C51_no_leak_partial exState_wf h⟩

/-- `C49_weights_partial`: with a tolerance of 1/1000 the solver chooses at most three barrier steps for this problem. -/
example : ∃ (out : QOut Dbl 1 1) (s' : NState Unit) (st : QLoop Dbl 1 1) (T : ℝ),
    l1c_l1qc_newton (denseQ (1 : Matrix (Fin 1) (Fin 1) ℝ)) (fvec fun _ => 1 / 2) (fvec fun _ => 0) exAuto exState = some (out, s') ∧
      out.res.status = 0 ∧ out.st = some st ∧ st.P.tau = Dbl.fin T ∧ 3 / T ≤ 1 / 1000 := by
  have hx : (fun _ => 1 / 2 : Fin 1 → ℝ) ≠ 0 := fun hc => by simpa using congrFun hc 0
  have hm : 2 * ((1 : ℕ) : Int) + 1 ≤ INT_MAX := by decide
  obtain ⟨ur, -, h2⟩ := init_fin hx hm
  have ht : tau0R (fun _ => 1 / 2 : Fin 1 → ℝ) = 6 := by
    unfold tau0R
    simp
    norm_num
  have hlb : lbR (fun _ => 1 / 2 : Fin 1 → ℝ) (1 / 1000) 10 ≤ 3 := by
    unfold lbR
    rw [ht, div_le_iff₀ (Real.log_pos (by norm_num)), ← Real.log_div (by norm_num) (by norm_num), ← Real.log_div (by norm_num) (by norm_num),
      show (3 : ℝ) * Real.log 10 = Real.log (10 ^ 3) by rw [Real.log_pow]; norm_num]
    exact Real.log_le_log (by norm_num) (by norm_num)
  obtain ⟨⟨u, prm'⟩, hi⟩ := C52_defined_partial hx hm (prm := exAuto) fun _ => by
    have h : (2 : ℝ) ^ (-1100 : ℤ) ≤ 2 ^ (-10 : ℤ) := zpow_le_zpow_right₀ (by norm_num) (by norm_num)
    have h2 : (1 : ℝ) ≤ 2 ^ (1100 : ℤ) := one_le_zpow₀ (by norm_num) (by norm_num)
    exact ⟨1 / 1000, 10, rfl, rfl, h.trans (by simp; norm_num), h.trans (by norm_num), le_trans (by norm_num) h2, by norm_num⟩
  have hL : prm'.lbiter.toNat ≤ 3 := by
    have hi' := hi
    rw [h2 exAuto, if_pos (show exAuto.lbiter = 0 from rfl)] at hi'
    obtain ⟨L, hL, hi'⟩ := Option.map_eq_some_iff.1 hi'
    rw [show exAuto.lbtol = Dbl.fin (1 / 1000) from rfl, show exAuto.mu = Dbl.fin 10 from rfl, init_auto_arg _ (by norm_num) (by norm_num), ceilInt_fin] at hL
    obtain ⟨-, hp⟩ := Prod.mk.inj hi'
    split at hL
    swap; · cases hL
    have hL' := Option.some.inj hL
    subst hp hL'
    have : ⌈lbR (fun _ => 1 / 2 : Fin 1 → ℝ) (1 / 1000) 10⌉ ≤ 3 := Int.ceil_le.2 (by exact_mod_cast hlb)
    show (⌈lbR (fun _ => 1 / 2 : Fin 1 → ℝ) (1 / 1000) 10⌉).toNat ≤ 3
    omega
  have hfeas : nrm ((1 : Matrix (Fin 1) (Fin 1) ℝ) *ᵥ (fun _ => 1 / 2) - fun _ => 0) < 1 := by
    simp [nrm, dotProduct]
    norm_num
  have hL' : (prm'.lbiter.toNat : Int) ≤ 3 := by exact_mod_cast hL
  obtain ⟨out, s', st, T, h1, h3, h4, h5, h6, -⟩ := C49_weights_partial (b := fun _ => 0) (denseQ_real (1 : Matrix (Fin 1) (Fin 1) ℝ)) le_rfl hx hm (prm := exAuto) rfl rfl (by norm_num) rfl
    (by norm_num) rfl hfeas hi (by decide) (by decide) (lt_of_le_of_lt hL' (by decide))
    (le_trans (mul_le_mul_of_nonneg_right hL' (by decide)) (by decide)) (le_trans (mul_le_mul_of_nonneg_right hL' (by decide)) (by decide))
    exState_wf trivial (fun _ _ => rfl)
  exact ⟨out, s', st, T, h1, h3, h4, h5, by simpa using le_trans (le_of_eq (by norm_num)) h6⟩

/-- `C50_overcount_false`: with a limit of one Newton iteration no gradient is computed, yet three iterations are reported. -/
example : ∃ out s', l1c_l1qc_newton (countAty (denseQ (1 : Matrix (Fin 1) (Fin 1) ℝ))) (fvec fun _ => 1 / 2) (fvec fun _ => 0) { exOpts with newton_max_iter := 1 }
    ⟨∅, 0, 0, fun _ => true, ((), 0)⟩ = some (out, s') ∧ s'.cb.2 = 0 ∧ out.res.total_newton_iter = 3 := by
  have hx : (fun _ => 1 / 2 : Fin 1 → ℝ) ≠ 0 := fun hc => by simpa using congrFun hc 0
  obtain ⟨⟨u, prm'⟩, hi⟩ := C52_defined_partial hx (by decide) (prm := { exOpts with newton_max_iter := 1 }) (fun h0 => absurd h0 (by show ¬ (3 : Int) = 0; decide))
  have hL : prm'.lbiter = 3 := by
    obtain ⟨t, L, rfl, h⟩ := init_opts hi
    exact h (by show ¬ (3 : Int) = 0; decide)
  obtain ⟨out, s', h1, -, -, h2⟩ := C51_defined_partial (Inv := fun _ => True) (ax := countAty (denseQ (1 : Matrix (Fin 1) (Fin 1) ℝ)))
    ⟨fun _ _ _ => ⟨_, _, rfl, trivial⟩, fun _ _ _ => ⟨_, _, rfl, trivial⟩, fun _ _ _ => ⟨_, _, rfl, trivial⟩⟩ le_rfl (b := fvec (fun _ => 0)) hi
    (by show (0 : Int) ≤ 200; decide) (by show (200 : Int) < INT_MAX; decide) (by rw [hL]; decide)
    (by rw [hL]; show (3 : Int).toNat * (((1 : Int) - 1).toNat * (200 : Int)) ≤ INT_MAX; decide)
    (by rw [hL]; show (3 : Int).toNat * ((((1 : Int) - 1).toNat : Int) + 1) ≤ INT_MAX; decide) (s := ⟨∅, 0, 0, fun _ => true, ((), 0)⟩) (fun _ h => by cases h) trivial rfl
  have hst : out.res.status = 0 := (C48_feasible_or_unchanged (A := (1 : Matrix (Fin 1) (Fin 1) ℝ)) (Inv := fun _ => True) (ax := countAty (denseQ (1 : Matrix (Fin 1) (Fin 1) ℝ)))
    (b := fun _ => 0) (eps := 1) (prm := { exOpts with newton_max_iter := 1 }) ⟨fun s v y s' _ h => ⟨trivial, fun x hv => by cases h; subst hv; rfl⟩, fun _ _ _ _ _ _ => trivial, fun _ _ _ _ _ _ => trivial⟩ rfl (fun _ h => by cases h) trivial h1).2.2.2 (by
      simp [nrm, dotProduct]
      norm_num) (fun _ _ => rfl)
  obtain ⟨h3, h4⟩ := C50_overcount_false (s := ⟨∅, 0, 0, fun _ => true, ((), 0)⟩) (fun _ h => by cases h) h1 le_rfl (by show ¬ (3 : Int) = 0; decide) hst
  exact ⟨out, s', h1, h3, h4⟩

end L1c
