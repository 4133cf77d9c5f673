import Verif.Proofs.NewtonStep

/-! # Line search and loops of the log-barrier Newton solver on finite data -/

namespace L1c
open Scalar Matrix

variable {n m : ℕ} {σ : Type} {A : Matrix (Fin n) (Fin m) ℝ} {b : Fin n → ℝ} {eps tau : ℝ} {Inv : σ → Prop}
  {ax : QAx Dbl σ n m}

/-- the parts of the problem record that trial evaluations keep -/
structure Kept (b : Fin n → ℝ) (eps tau : ℝ) (d : XU m) (P : QProb Dbl n m) : Prop where
  hb : P.b = fvec b
  htau : P.tau = Dbl.fin tau
  heps : P.epsilon = Dbl.fin eps
  hdx : P.dx = fvec d.1
  hdu : P.du = fvec d.2

/-- the line search of the solver, at a given point of its loop -/
noncomputable def lsRun (ax : QAx Dbl σ n m) (p d : XU m) (f0 g smax : ℝ) (fuel iter : ℕ) (step flin : Dbl)
    (cb : CbMem (Option (QProb Dbl n m × σ)) Dbl) : LSOut (Option (QProb Dbl n m × σ)) Dbl (Vec Dbl m × Vec Dbl m) :=
  lsLoop (fun step => (vaxpy step (fvec d.1) (fvec p.1), vaxpy step (fvec d.2) (fvec p.2)))
    (fun q => l1qc_feval_cb ax q.1 q.2) (fun _ => Dbl.fin f0) (Dbl.fin g)
    ⟨lit (1 / 100), lit (1 / 2), Dbl.fin smax⟩ (fvec p.1, fvec p.2) fuel iter step flin cb

theorem ls_fin (hA : LOpIs ax.Ax Inv A) (ht : tau ≠ 0) {p d : XU m} {smax g : ℝ}
    (hstep : ∀ t, 0 ≤ t → t ≤ smax → StrictFeas A b eps (p + t • d)) :
    ∀ (fuel iter : ℕ) (t : ℝ) (flin : Dbl) (Q : QProb Dbl n m) (s : σ), 0 < t → t ≤ smax → Kept b eps tau d Q → Inv s →
    ∃ (out : LSOut (Option (QProb Dbl n m × σ)) Dbl (Vec Dbl m × Vec Dbl m)) (t' : ℝ) (Q' : QProb Dbl n m) (s' : σ),
      lsRun ax p d (barrier A b eps tau p) g smax fuel iter (Dbl.fin t) flin ⟨some (Q, s), Q.f_val⟩ = out ∧
      out.cb = ⟨some (Q', s'), Q'.f_val⟩ ∧ Inv s' ∧ Kept b eps tau d Q' ∧ out.stat.step = Dbl.fin t' ∧
      ((0 < t' ∧ t' ≤ smax ∧ out.stat.status = 0 ∧ out.x = (fvec (p + t' • d).1, fvec (p + t' • d).2) ∧
        EvalAt A b eps tau (p + t' • d) Q' ∧
        barrier A b eps tau (p + t' • d) ≤ barrier A b eps tau p + 1 / 100 * t' * g) ∨
       (out.stat.status = 1 ∧ out.x = (fvec p.1, fvec p.2))) := by
  intro fuel
  induction fuel with
  | zero =>
    intro iter t flin Q s h0 h1 hQ hs
    exact ⟨_, t, Q, s, rfl, rfl, hs, hQ, rfl, Or.inr ⟨rfl, rfl⟩⟩
  | succ fuel ih =>
    intro iter t flin Q s h0 h1 hQ hs
    have hsf := hstep t h0.le h1
    obtain ⟨Q', s', hev, hs', hE, hdx', hdu'⟩ := f_eval_fin hA hQ.hb hQ.htau hQ.heps ht hsf hs
    have hK : Kept b eps tau d Q' := ⟨hE.hb, hE.htau, hE.heps, hdx'.trans hQ.hdx, hdu'.trans hQ.hdu⟩
    have e1 : vaxpy (Dbl.fin t) (fvec d.1) (fvec p.1) = fvec (p + t • d).1 := by
      rw [vaxpy_fvec, add_comm (t • d.1)]; rfl
    have e2 : vaxpy (Dbl.fin t) (fvec d.2) (fvec p.2) = fvec (p + t • d).2 := by
      rw [vaxpy_fvec, add_comm (t • d.2)]; rfl
    have hcb : l1qc_feval_cb ax (fvec (p + t • d).1) (fvec (p + t • d).2) ⟨some (Q, s), Q.f_val⟩ =
        (Q'.f_val, ⟨some (Q', s'), Q'.f_val⟩) := by
      unfold l1qc_feval_cb
      simp only [hev]
    have hnn : isNaN Q'.f_val = false := by rw [hE.hf]; exact Dbl.isNaN_fin _
    have hfl : Dbl.fin (barrier A b eps tau p) + lit (1 / 100) * Dbl.fin t * Dbl.fin g =
        Dbl.fin (barrier A b eps tau p + 1 / 100 * t * g) := by
      rw [Dbl.lit_eq, Dbl.fin_mul, Dbl.fin_mul, Dbl.fin_add]; push_cast; rfl
    have hnext : lit (1 / 2) * Dbl.fin t = Dbl.fin (t / 2) := by
      rw [Dbl.lit_eq, Dbl.fin_mul]; congr 1; push_cast; ring
    have hunf : lsRun ax p d (barrier A b eps tau p) g smax (fuel + 1) iter (Dbl.fin t) flin ⟨some (Q, s), Q.f_val⟩ =
        if fle Q'.f_val (Dbl.fin (barrier A b eps tau p + 1 / 100 * t * g)) = true then
          ⟨(fvec (p + t • d).1, fvec (p + t • d).2), ⟨some (Q', s'), Q'.f_val⟩,
            ⟨Dbl.fin (barrier A b eps tau p + 1 / 100 * t * g), Dbl.fin t, iter, 0⟩⟩
        else lsRun ax p d (barrier A b eps tau p) g smax fuel (iter + 1) (Dbl.fin (t / 2))
          (Dbl.fin (barrier A b eps tau p + 1 / 100 * t * g)) ⟨some (Q', s'), Q'.f_val⟩ := by
      unfold lsRun
      conv_lhs => unfold lsLoop
      dsimp only
      rw [e1, e2, hcb]
      dsimp only
      rw [hnn, hfl, hnext]
      rfl
    by_cases hle : barrier A b eps tau (p + t • d) ≤ barrier A b eps tau p + 1 / 100 * t * g
    · have hfle : fle Q'.f_val (Dbl.fin (barrier A b eps tau p + 1 / 100 * t * g)) = true := by
        rw [hE.hf]; exact (Dbl.fle_fin _ _).2 hle
      rw [if_pos hfle] at hunf
      exact ⟨_, t, Q', s', hunf, rfl, hs', hK, rfl, Or.inl ⟨h0, h1, rfl, rfl, hE, hle⟩⟩
    · have hfle : ¬ fle Q'.f_val (Dbl.fin (barrier A b eps tau p + 1 / 100 * t * g)) = true := by
        rw [hE.hf, Dbl.fle_fin]; exact hle
      rw [if_neg hfle] at hunf
      rw [hunf]
      exact ih (iter + 1) (t / 2) _ Q' s' (by linarith) (by linarith) hK hs'

theorem linesearch_fin (hA : LOpIs ax.Ax Inv A) (ht : tau ≠ 0) {p d : XU m} {smax g : ℝ} (h0 : 0 < smax)
    (hstep : ∀ t, 0 ≤ t → t ≤ smax → StrictFeas A b eps (p + t • d)) {P : QProb Dbl n m} (hE : EvalAt A b eps tau p P)
    (hdx : P.dx = fvec d.1) (hdu : P.du = fvec d.2) {s : σ} (hs : Inv s) :
    ∃ (t' : ℝ) (xu : Vec Dbl m × Vec Dbl m) (Q' : QProb Dbl n m) (stat : LSStat Dbl) (s' : σ),
      l1qc_linesearch ax (fvec p.1) (fvec p.2) P (Dbl.fin g) ⟨lit (1 / 100), lit (1 / 2), Dbl.fin smax⟩ s =
        some ((xu, Q', stat), s') ∧ Inv s' ∧ Kept b eps tau d Q' ∧ stat.step = Dbl.fin t' ∧
      ((0 < t' ∧ t' ≤ smax ∧ stat.status = 0 ∧ xu = (fvec (p + t' • d).1, fvec (p + t' • d).2) ∧
        EvalAt A b eps tau (p + t' • d) Q' ∧
        barrier A b eps tau (p + t' • d) ≤ barrier A b eps tau p + 1 / 100 * t' * g) ∨
       (stat.status = 1 ∧ xu = (fvec p.1, fvec p.2))) := by
  obtain ⟨out, t', Q', s', h0', h1, h2, h3, h4, h5⟩ := ls_fin (g := g) hA ht hstep MAX_LINESEARCH_ITER 1 smax (lit 0) P s h0 le_rfl
    ⟨hE.hb, hE.htau, hE.heps, hdx, hdu⟩ hs
  refine ⟨t', out.x, Q', out.stat, s', ?_, h2, h3, h4, h5⟩
  have hrun : l1c_linesearch_xu (fvec p.1) (fvec p.2) P.dx P.du ⟨some (P, s), P.f_val⟩ (Dbl.fin g) (l1qc_feval_cb ax)
      ⟨lit (1 / 100), lit (1 / 2), Dbl.fin smax⟩ = out := by
    rw [← h0']
    unfold l1c_linesearch_xu lsRun
    rw [hdx, hdu, hE.hf]
  unfold l1qc_linesearch
  dsimp only
  rw [hrun, h1]
  rfl

/-! ## The slope of the Newton direction -/

theorem slope_eq (ht : tau ≠ 0) {p : XU m} (h : StrictFeas A b eps p) (dx : Fin m → ℝ) :
    gxR A b eps tau p ⬝ᵥ dx + guR tau p ⬝ᵥ duR tau p dx =
      -(1 / tau) * (w1pR A b eps tau p ⬝ᵥ dx + ∑ i, ntguR tau p i ^ 2 / s11R p i) := by
  have h0 := fun i => (s11_pos h.1 i).ne'
  simp only [dotProduct, ← Finset.sum_add_distrib, Finset.mul_sum]
  refine Finset.sum_congr rfl fun i _ => ?_
  have e1 : gxR A b eps tau p i = -1 / tau * ntgzR A b eps p i := rfl
  have e2 : guR tau p i = -1 / tau * ntguR tau p i := rfl
  rw [e1, e2]
  unfold w1pR duR
  have := h0 i
  field_simp
  ring

/-! ## Iteration bounds of the linear solver -/

section iter
variable {F : Type} [Scalar F] {N : ℕ} {τ : Type}

theorem cgLoop_iter_pos {step : CgState F N → τ → (CgState F N × F) × τ} {tol : F} (fuel : ℕ) :
    ∀ (iter : Int) (st : CgState F N) (s : τ) (r : CgState F N × Int × τ), 1 ≤ iter → cgLoop step tol fuel iter st s = some r → 1 ≤ r.2.1 := by
  induction fuel with
  | zero =>
    intro iter st s r h1 h
    unfold cgLoop at h
    split at h
    · obtain rfl := Option.some.inj h; exact h1
    · cases h
  | succ fuel ih =>
    intro iter st s r h1 h
    unfold cgLoop at h
    dsimp only at h
    split at h
    · obtain rfl := Option.some.inj h; exact h1
    · exact ih _ _ _ r (by omega) h

theorem cgsolve_iter {x b : Vec F N} {op : Vec F N → τ → Vec F N × τ} {s : τ} {prm : CgParams F} {out : CgOut F τ N}
    (h : l1c_cgsolve x b op s prm = some out) (h0 : 0 ≤ prm.max_iter) : 0 ≤ out.res.cgiter ∧ out.res.cgiter ≤ prm.max_iter := by
  unfold l1c_cgsolve at h
  obtain ⟨r, hr, rfl⟩ := Option.map_eq_some_iff.1 h
  have := cgLoop_iter_pos _ _ _ _ _ le_rfl hr
  simp only [cgFinish]
  omega

theorem descent_iter {n m : ℕ} {σ : Type} {ax : QAx F σ n m} {P P' : QProb F n m} {prm : CgParams F} {s s' : σ} {st : Int}
    {res : CgResults F} (h : l1qc_descent_dir ax P prm s = some ((st, P', res), s')) (h0 : 0 ≤ prm.max_iter) :
    0 ≤ res.cgiter ∧ res.cgiter ≤ prm.max_iter := by
  unfold l1qc_descent_dir at h
  obtain ⟨atr, s1, -, h⟩ := ombind_some h
  dsimp only at h
  obtain ⟨⟨dx, res'⟩, s2, h2, h⟩ := ombind_some h
  have hr : res' = res := by
    dsimp only at h
    split at h <;> exact (Prod.mk.inj (Prod.mk.inj (ompure_some h).1).2).2
  subst hr
  unfold l1qc_cg at h2
  split at h2
  · cases h2
  · rename_i out ho
    obtain ⟨t, -, ht⟩ := Option.map_eq_some_iff.1 h2
    have : out.res = res' := (Prod.mk.inj (Prod.mk.inj ht).1).2
    rw [← this]
    exact cgsolve_iter ho h0

end iter

/-! ## Newton iterations -/

/-- the state at the top of a Newton iteration -/
structure LoopOK (A : Matrix (Fin n) (Fin m) ℝ) (b : Fin n → ℝ) (eps tau : ℝ) (p : XU m) (st : QLoop Dbl n m) : Prop where
  hx : st.x = fvec p.1
  hu : st.u = fvec p.2
  hp : StrictFeas A b eps p
  hE : EvalAt A b eps tau p st.P
  hdx : ∃ d, st.P.dx = fvec d
  hdu : ∃ d, st.P.du = fvec d
  hstep : ∃ r, st.step = Dbl.fin r

/-- the state when the Newton loop has stopped -/
structure LoopEnd (A : Matrix (Fin n) (Fin m) ℝ) (b : Fin n → ℝ) (eps tau : ℝ) (p : XU m) (st : QLoop Dbl n m) : Prop where
  hx : st.x = fvec p.1
  hu : st.u = fvec p.2
  hp : StrictFeas A b eps p
  hb : st.P.b = fvec b
  htau : st.P.tau = Dbl.fin tau
  heps : st.P.epsilon = Dbl.fin eps
  hdu : ∃ d, st.P.du = fvec d
  hstep : ∃ r, st.step = Dbl.fin r

theorem LoopOK.stop {p : XU m} {st : QLoop Dbl n m} (h : LoopOK A b eps tau p st) : LoopEnd A b eps tau p st :=
  ⟨h.hx, h.hu, h.hp, h.hE.hb, h.hE.htau, h.hE.heps, h.hdu, h.hstep⟩

theorem warmStart_fin (w : Int) (r : ℝ) (d : Fin m → ℝ) :
    ∃ d', warmStart w (Dbl.fin r) (fvec d) = fvec d' ∧ (w = 0 → d' = 0) := by
  unfold warmStart
  split
  · exact ⟨0, by funext i; simp, fun _ => rfl⟩
  · rename_i h
    split
    · exact ⟨fun i => r * d i, by funext i; simp, fun h' => absurd h' h⟩
    · exact ⟨d, rfl, fun h' => absurd h' h⟩

theorem Dbl.Lt.fin_trans {a c : ℝ} {t : Dbl} (h1 : a < c) (h2 : Dbl.Lt (.fin c) t) : Dbl.Lt (.fin a) t := by
  cases t with
  | fin r => exact h1.trans h2
  | pinf => trivial
  | ninf => exact h2
  | nan => exact h2

/-- the settings under which every Newton step goes downhill: cold start and a linear solver that is allowed to finish -/
def Downhill (prm : QOpts Dbl) (m : ℕ) : Prop :=
  prm.warm_start_cg = 0 ∧ (m : Int) ≤ prm.cg_maxiter ∧ ¬ Dbl.Lt (.fin (1 / 2)) prm.cg_tol

theorem newton_body_fin (R : QReal ax Inv A) (hnm : n ≤ m) (ht : 0 < tau) {prm : QOpts Dbl} (hc0 : 0 ≤ prm.cg_maxiter)
    (hc1 : prm.cg_maxiter < INT_MAX) {p : XU m} {st : QLoop Dbl n m} (h : LoopOK A b eps tau p st) (hcg : 0 ≤ st.cg)
    (hcg' : st.cg + prm.cg_maxiter ≤ INT_MAX) {s : σ} (hs : Inv s) :
    ∃ (st' : QLoop Dbl n m) (stop : Bool) (s' : σ) (p' : XU m),
      l1qc_newton_body ax prm st s = some ((st', stop), s') ∧ Inv s' ∧ LoopEnd A b eps tau p' st' ∧
      (stop = false → LoopOK A b eps tau p' st') ∧ 0 ≤ st'.cg ∧ st'.cg ≤ st.cg + prm.cg_maxiter ∧ st'.newton = st.newton ∧
      (Downhill prm m → barrier A b eps tau p' ≤ barrier A b eps tau p) := by
  obtain ⟨d0, hd0⟩ := h.hdx
  obtain ⟨u0, hu0⟩ := h.hdu
  obtain ⟨r0, hr0⟩ := h.hstep
  obtain ⟨x0, hx0, hcold⟩ := warmStart_fin prm.warm_start_cg r0 d0
  have hE0 : EvalAt A b eps tau p { st.P with dx := warmStart prm.warm_start_cg st.step st.P.dx } :=
    ⟨h.hE.hb, h.hE.htau, h.hE.heps, h.hE.hr, h.hE.hfu1, h.hE.hfu2, h.hE.hfe, h.hE.hf⟩
  obtain ⟨cst, P', res, s1, dx, du, h1, hs1, hG, hdx, hdu, hst0, hst1, hst, c1, c2, c3, c4, c5⟩ :=
    descent_fin R hE0 ht.ne' h.hp (x0 := x0) (u0 := u0) (by dsimp only; rw [hr0, hd0, hx0]) hu0 ⟨prm.cg_maxiter, prm.cg_tol⟩ hc1 hs
  obtain ⟨i0, i1⟩ := descent_iter h1 hc0
  have hcint : cint (st.cg + res.cgiter) = some (st.cg + res.cgiter) := by
    unfold cint
    rw [if_pos]
    refine ⟨?_, ?_⟩
    · have : INT_MIN ≤ 0 := by decide
      omega
    · simp only at i1; omega
  obtain ⟨smax, s2, h2, hs2, hs0, -, hfeas⟩ := find_max_step_fin (d := (dx, du)) R.Ax hnm hG.toEvalAt h.hp hdx hdu hs1
  have hg : ddot P'.gradf_x P'.dx + ddot P'.gradf_u P'.du = Dbl.fin (gxR A b eps tau p ⬝ᵥ dx + guR tau p ⬝ᵥ du) := by
    rw [hG.hgx, hG.hgu, hdx, hdu, ddot_fvec, ddot_fvec, Dbl.fin_add]
  obtain ⟨t', xu, Q', stat, s3, h3, hs3, hK, hstp, hcase⟩ := linesearch_fin (g := gxR A b eps tau p ⬝ᵥ dx + guR tau p ⬝ᵥ du)
    R.Ax ht.ne' hs0 hfeas hG.toEvalAt hdx hdu hs2
  have hslope : Downhill prm m → gxR A b eps tau p ⬝ᵥ dx + guR tau p ⬝ᵥ du ≤ 0 := by
    rintro ⟨hw, hm, htol⟩
    have hx00 := hcold hw
    have hen := c3 hx00
    have hspd := redR_spd h.hp
    have hst_0 : cst = 0 := by
      rw [hst]
      by_cases hw0 : w1pR A b eps tau p = 0
      · rw [(c2 hw0).2, hx00]; simp [Dbl.zero_div_zero]
      · have hc := c1 hw0
        rcases c5 hm hw0 with h5 | h5
        · rw [hc, h5, Bool.eq_false_iff, Ne, Dbl.lit_eq, Dbl.flt_fin]
          simp [nrm]
        · rw [Bool.eq_false_iff, Ne, Dbl.flt_iff, Dbl.lit_eq]
          intro hlt
          apply htol
          rw [hc] at h5 hlt
          exact Dbl.Lt.fin_trans (by simpa [Dbl.Lt] using hlt) h5
    rw [hst0 hst_0, slope_eq ht.ne' h.hp, hen]
    have e1 : 0 ≤ dx ⬝ᵥ redR A b eps p dx := by
      by_cases hz : dx = 0
      · rw [hz]; simp
      · exact (hspd.2 dx hz).le
    have e2 : 0 ≤ ∑ i, ntguR tau p i ^ 2 / s11R p i := Finset.sum_nonneg fun i _ => div_nonneg (sq_nonneg _) (s11_pos h.hp.1 i).le
    have e3 : 0 < 1 / tau := one_div_pos.2 ht
    nlinarith
  have hrun : l1qc_newton_body ax prm st s = (if stat.status > 0 then
      (pure ({ st with x := xu.1, u := xu.2, P := Q', step := stat.step, cg := st.cg + res.cgiter }, true) : OM σ (QLoop Dbl n m × Bool))
    else if flt (-(Dbl.fin (gxR A b eps tau p ⬝ᵥ dx + guR tau p ⬝ᵥ du)) / lit 2) prm.newton_tol then
      pure ({ st with x := xu.1, u := xu.2, P := Q', step := stat.step, cg := st.cg + res.cgiter }, true)
    else
      pure ({ st with x := xu.1, u := xu.2, P := Q', step := stat.step, cg := st.cg + res.cgiter, l1_prev := dasum xu.1 },
        flt (fabs (st.l1_prev - dasum xu.1) / dasum xu.1) prm.l1_tol)) s3 := by
    unfold l1qc_newton_body
    rw [ombind h1]
    dsimp only
    rw [ombind (show (olift (cint (st.cg + res.cgiter)) : OM σ Int) s1 = some (st.cg + res.cgiter, s1) by rw [hcint]; rfl),
      ombind h2, hg, h.hx, h.hu, ombind h3]
  have hdec : Downhill prm m → 0 ≤ t' → barrier A b eps tau (p + t' • ((dx, du) : XU m)) ≤ barrier A b eps tau p + 1 / 100 * t' *
      (gxR A b eps tau p ⬝ᵥ dx + guR tau p ⬝ᵥ du) → barrier A b eps tau (p + t' • ((dx, du) : XU m)) ≤ barrier A b eps tau p := by
    intro hD h0 hle
    have := hslope hD
    nlinarith
  have hcgb : 0 ≤ st.cg + res.cgiter ∧ st.cg + res.cgiter ≤ st.cg + prm.cg_maxiter := ⟨by omega, by simp only at i1; omega⟩
  rcases hcase with ⟨ht0, ht1, hs0', hxu, hE', hle⟩ | ⟨hs1', hxu⟩
  · have hf := hfeas t' ht0.le ht1
    have hend : ∀ l1p, LoopOK A b eps tau (p + t' • ((dx, du) : XU m))
        { st with x := xu.1, u := xu.2, P := Q', step := stat.step, cg := st.cg + res.cgiter, l1_prev := l1p } := fun l1p =>
      ⟨by rw [hxu], by rw [hxu], hf, hE', ⟨dx, hK.hdx⟩, ⟨du, hK.hdu⟩, ⟨t', hstp⟩⟩
    rw [if_neg (by omega)] at hrun
    split at hrun
    · exact ⟨_, true, s3, p + t' • ((dx, du) : XU m), hrun, hs3, (hend _).stop, fun hc => absurd hc (by decide), hcgb.1, hcgb.2, rfl,
        fun hD => hdec hD ht0.le hle⟩
    · exact ⟨_, _, s3, p + t' • ((dx, du) : XU m), hrun, hs3, (hend _).stop, fun _ => hend _, hcgb.1, hcgb.2, rfl,
        fun hD => hdec hD ht0.le hle⟩
  · rw [if_pos (by omega)] at hrun
    exact ⟨_, true, s3, p, hrun, hs3, ⟨by rw [hxu], by rw [hxu], h.hp, hK.hb, hK.htau, hK.heps, ⟨du, hK.hdu⟩, ⟨t', hstp⟩⟩,
      fun hc => absurd hc (by decide), hcgb.1, hcgb.2, rfl, fun _ => le_rfl⟩

theorem newton_loop_fin (R : QReal ax Inv A) (hnm : n ≤ m) (ht : 0 < tau) {prm : QOpts Dbl} (hc0 : 0 ≤ prm.cg_maxiter)
    (hc1 : prm.cg_maxiter < INT_MAX) : ∀ (fuel : ℕ) (iter : Int) (p : XU m) (st : QLoop Dbl n m) (s : σ), LoopOK A b eps tau p st →
    0 ≤ st.cg → st.cg + fuel * prm.cg_maxiter ≤ INT_MAX → Inv s →
    ∃ (st' : QLoop Dbl n m) (iter' : Int) (s' : σ) (p' : XU m),
      l1qc_newton_loop ax prm fuel iter st s = some ((st', iter'), s') ∧ Inv s' ∧ LoopEnd A b eps tau p' st' ∧
      0 ≤ st'.cg ∧ st'.cg ≤ st.cg + fuel * prm.cg_maxiter ∧ st'.newton = st.newton ∧ iter ≤ iter' ∧ iter' ≤ iter + fuel ∧
      (Downhill prm m → barrier A b eps tau p' ≤ barrier A b eps tau p) := by
  intro fuel
  induction fuel with
  | zero =>
    intro iter p st s h hcg hcg' hs
    exact ⟨st, iter, s, p, rfl, hs, h.stop, hcg, by simp, rfl, le_rfl, by simp, fun _ => le_rfl⟩
  | succ fuel ih =>
    intro iter p st s h hcg hcg' hs
    push_cast at hcg'
    have hpos : 0 ≤ (fuel : Int) * prm.cg_maxiter := by positivity
    obtain ⟨st1, stop, s1, p1, h1, hs1, hend, hok, b1, b2, b3, b4⟩ := newton_body_fin R hnm ht hc0 hc1 h hcg (by linarith) hs
    unfold l1qc_newton_loop
    rw [ombind h1]
    dsimp only
    cases stop with
    | true =>
      exact ⟨st1, iter, s1, p1, rfl, hs1, hend, b1, by push_cast; linarith, b3, le_rfl, by push_cast; omega, b4⟩
    | false =>
      obtain ⟨st2, iter2, s2, p2, h2, hs2, hend2, e1, e2, e3, e4, e5, e6⟩ := ih (iter + 1) p1 st1 s1 (hok rfl) b1 (by linarith) hs1
      refine ⟨st2, iter2, s2, p2, h2, hs2, hend2, e1, by push_cast; linarith, e3.trans b3, by omega, by push_cast; omega,
        fun hD => (e6 hD).trans (b4 hD)⟩

theorem lb_body_fin (R : QReal ax Inv A) (hnm : n ≤ m) (ht : 0 < tau) {prm : QOpts Dbl} {mu : ℝ} (hmu : prm.mu = Dbl.fin mu)
    (hc0 : 0 ≤ prm.cg_maxiter) (hc1 : prm.cg_maxiter < INT_MAX) {p : XU m} {st : QLoop Dbl n m}
    (h : LoopEnd A b eps tau p st) (hcg : 0 ≤ st.cg)
    (hcg' : st.cg + (prm.newton_max_iter - 1).toNat * prm.cg_maxiter ≤ INT_MAX) (hnt : 0 ≤ st.newton)
    (hnt' : st.newton + ((prm.newton_max_iter - 1).toNat + 1) ≤ INT_MAX) {s : σ} (hs : Inv s) :
    ∃ (st' : QLoop Dbl n m) (s' : σ) (p' : XU m),
      l1qc_lb_body ax prm st s = some (st', s') ∧ Inv s' ∧ LoopEnd A b eps (tau * mu) p' st' ∧
      0 ≤ st'.cg ∧ st'.cg ≤ st.cg + (prm.newton_max_iter - 1).toNat * prm.cg_maxiter ∧ st.newton + 1 ≤ st'.newton ∧
      st'.newton ≤ st.newton + ((prm.newton_max_iter - 1).toNat + 1) ∧
      (Downhill prm m → barrier A b eps tau p' ≤ barrier A b eps tau p) := by
  obtain ⟨P1, s1, h1, hs1, hE, hdx, hdu⟩ := f_eval_fin (P := { st.P with dx := fun _ => lit 0 }) R.Ax h.hb h.htau h.heps ht.ne' h.hp hs
  have hok : LoopOK A b eps tau p { st with P := P1, l1_prev := inf } :=
    ⟨h.hx, h.hu, h.hp, hE, ⟨0, by rw [hdx]; funext i; simp⟩, by rw [hdu]; exact h.hdu, h.hstep⟩
  obtain ⟨st2, iter, s2, p2, h2, hs2, hend, b1, b2, b3, b4, b5, b6⟩ := newton_loop_fin R hnm ht hc0 hc1
    (prm.newton_max_iter - 1).toNat 1 p { st with P := P1, l1_prev := inf } s1 hok hcg hcg' hs1
  have b3' : st2.newton = st.newton := b3
  have hc : cint (st2.newton + iter) = some (st2.newton + iter) := by
    unfold cint
    rw [if_pos]
    have : INT_MIN ≤ 0 := by decide
    exact ⟨by omega, by omega⟩
  refine ⟨{ st2 with newton := st2.newton + iter, P := { st2.P with tau := st2.P.tau * prm.mu } }, s2, p2, ?_, hs2,
    ⟨hend.hx, hend.hu, hend.hp, hend.hb, ?_, hend.heps, hend.hdu, hend.hstep⟩, b1, b2, ?_, ?_, b6⟩
  · unfold l1qc_lb_body
    dsimp only
    rw [h.hx, h.hu, ombind h1, ← h.hx, ← h.hu, ombind h2]
    dsimp only
    rw [ombind (show (olift (cint (st2.newton + iter)) : OM σ Int) s2 = some (st2.newton + iter, s2) by rw [hc]; rfl)]
    rfl
  · show st2.P.tau * prm.mu = _
    rw [hend.htau, hmu, Dbl.fin_mul]
  · show st.newton + 1 ≤ st2.newton + iter
    omega
  · show st2.newton + iter ≤ _
    omega

theorem lb_loop_fin (R : QReal ax Inv A) (hnm : n ≤ m) {prm : QOpts Dbl} {mu : ℝ} (hmu : prm.mu = Dbl.fin mu) (hmu0 : 0 < mu)
    (hc0 : 0 ≤ prm.cg_maxiter) (hc1 : prm.cg_maxiter < INT_MAX) :
    ∀ (fuel : ℕ) (lb : Int) (tau : ℝ) (p : XU m) (st : QLoop Dbl n m) (s : σ), 0 < tau → LoopEnd A b eps tau p st → 0 ≤ st.cg →
    st.cg + fuel * ((prm.newton_max_iter - 1).toNat * prm.cg_maxiter) ≤ INT_MAX → 0 ≤ st.newton →
    st.newton + fuel * ((prm.newton_max_iter - 1).toNat + 1) ≤ INT_MAX → lb + fuel ≤ INT_MAX → Inv s →
    ∃ (st' : QLoop Dbl n m) (s' : σ) (p' : XU m),
      l1qc_lb_loop ax prm fuel lb st s = some (st', s') ∧ Inv s' ∧ LoopEnd A b eps (tau * mu ^ fuel) p' st' ∧
      0 ≤ st'.cg ∧ st.newton + fuel ≤ st'.newton ∧ st'.newton ≤ st.newton + fuel * ((prm.newton_max_iter - 1).toNat + 1) := by
  intro fuel
  induction fuel with
  | zero =>
    intro lb tau p st s ht h hcg _ hnt _ hlb hs
    refine ⟨st, s, p, ?_, hs, by simpa using h, hcg, by simp, by simp⟩
    unfold l1qc_lb_loop
    rw [if_pos (by push_cast at hlb; omega)]; rfl
  | succ fuel ih =>
    intro lb tau p st s ht h hcg hcg' hnt hnt' hlb hs
    push_cast at hcg' hnt' hlb
    have p1 : 0 ≤ (fuel : Int) * ((prm.newton_max_iter - 1).toNat * prm.cg_maxiter) := by positivity
    have p2 : 0 ≤ (fuel : Int) * ((prm.newton_max_iter - 1).toNat + 1) := by positivity
    obtain ⟨st1, s1, q, h1, hs1, hend, b1, b2, b3, b4, -⟩ := lb_body_fin R hnm ht hmu hc0 hc1 h hcg (by linarith) hnt (by linarith) hs
    obtain ⟨st2, s2, q2, h2, hs2, hend2, e1, e2, e3⟩ := ih (lb + 1) (tau * mu) q st1 s1 (mul_pos ht hmu0) hend b1 (by linarith)
      (by omega) (by linarith) (by omega) hs1
    refine ⟨st2, s2, q2, ?_, hs2, by rw [pow_succ', ← mul_assoc]; exact hend2, e1, by push_cast; omega, by push_cast; linarith⟩
    unfold l1qc_lb_loop
    rw [ombind h1]
    exact h2

end L1c
