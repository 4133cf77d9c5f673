import Verif.Proofs.NewtonFeas

/-! # A start on the boundary makes the log-barrier solver stand still, over doubles without rounding -/

namespace L1c
open Scalar Matrix

variable {σ : Type} {n m : ℕ} {ax : QAx Dbl σ n m}

/-- zero or NaN -/
def ZN (d : Dbl) : Prop := d = Dbl.fin 0 ∨ d = Dbl.nan

/-- not finite -/
def NF (d : Dbl) : Prop := ∀ a, d ≠ Dbl.fin a

theorem ZN.mul_left {d : Dbl} (h : ZN d) (a : Dbl) : NF a → a * d = Dbl.nan := by
  intro ha
  rcases h with rfl | rfl
  · cases a with
    | fin r => exact absurd rfl (ha r)
    | pinf => show Dbl.infMul 0 = _; unfold Dbl.infMul; rw [if_pos rfl]
    | ninf => show Dbl.infMul (-0) = _; unfold Dbl.infMul; rw [if_pos (by simp)]
    | nan => rfl
  · exact Dbl.mul_nan _

theorem ZN.smul {d : Dbl} (h : ZN d) (c : Dbl) : ZN (c * d) := by
  rcases h with rfl | rfl
  · cases c with
    | fin r => left; simp
    | pinf => right; show Dbl.infMul 0 = _; unfold Dbl.infMul; rw [if_pos rfl]
    | ninf => right; show Dbl.infMul (-0) = _; unfold Dbl.infMul; rw [if_pos (by simp)]
    | nan => right; rfl
  · right; exact Dbl.mul_nan _

theorem ZN.sum {k : ℕ} {f : Fin k → Dbl} (h : ∀ i, ZN (f i)) : ZN (∑ i, f i) := by
  classical
  refine Finset.sum_induction f ZN (fun a c ha hc => ?_) (Or.inl Dbl.zero_eq) fun i _ => h i
  rcases ha with rfl | rfl
  · rcases hc with rfl | rfl
    · left; simp
    · right; exact Dbl.add_nan _
  · right; exact Dbl.nan_add _

theorem warmStart_ZN (w : Int) (step : Dbl) {dx : Vec Dbl m} (h : ∀ i, ZN (dx i)) : ∀ i, ZN (warmStart w step dx i) := by
  intro i
  unfold warmStart
  split
  · exact (h i).smul _
  · split
    · exact (h i).smul _
    · exact h i

/-- a CG run whose first residual is NaN returns its start -/
theorem cgLoop_nan {N : ℕ} {τ : Type} {op : Vec Dbl N → τ → Vec Dbl N × τ} {d tol : Dbl} (fuel : ℕ) :
    ∀ (iter : Int) (st : CgState Dbl N) (s : τ) (r : CgState Dbl N × Int × τ), st.best = Dbl.nan →
      cgLoop (cgStep op d) tol fuel iter st s = some r → r.1.bestx = st.bestx := by
  induction fuel with
  | zero =>
    intro iter st s r hb h
    unfold cgLoop at h
    split at h
    · obtain rfl := Option.some.inj h; rfl
    · cases h
  | succ fuel ih =>
    intro iter st s r hb h
    have hstep : (cgStep op d st s).1.1.bestx = st.bestx ∧ (cgStep op d st s).1.1.best = Dbl.nan := by
      unfold cgStep
      dsimp only
      rw [if_neg]
      · exact ⟨rfl, hb⟩
      · rw [hb, Dbl.flt_iff]
        intro hc
        generalize (fsqrt _ : Dbl) = z at hc
        cases z <;> exact hc
    unfold cgLoop at h
    dsimp only at h
    split at h
    · obtain rfl := Option.some.inj h; exact hstep.1
    · rw [ih _ _ _ _ hstep.2 h, hstep.1]

theorem nan_vec_ddot (hm : 0 < m) {r : Vec Dbl m} (h : ∀ i, r i = Dbl.nan) (v : Vec Dbl m) : ddot r v = Dbl.nan := by
  by_contra hc
  unfold ddot at hc
  rw [foldl_add_eq_sum] at hc
  exact sum_ne_nan hc ⟨0, hm⟩ (by rw [h]; rfl)

theorem NF.mul {a c : Dbl} (h : NF c) : NF (a * c) := by
  intro r
  cases c with
  | fin z => exact absurd rfl (h z)
  | pinf =>
    cases a with
    | fin z => show Dbl.infMul z ≠ _; unfold Dbl.infMul; split <;> [exact nofun; (split <;> exact nofun)]
    | pinf => exact nofun
    | ninf => exact nofun
    | nan => exact nofun
  | ninf =>
    cases a with
    | fin z => show Dbl.infMul (-z) ≠ _; unfold Dbl.infMul; split <;> [exact nofun; (split <;> exact nofun)]
    | pinf => exact nofun
    | ninf => exact nofun
    | nan => exact nofun
  | nan => rw [Dbl.mul_nan]; exact nofun

theorem NF.pinf_mul (c : Dbl) : NF (Dbl.pinf * c) := by
  intro r
  cases c with
  | fin z => show Dbl.infMul z ≠ _; unfold Dbl.infMul; split <;> [exact nofun; (split <;> exact nofun)]
  | pinf => exact nofun
  | ninf => exact nofun
  | nan => exact nofun

theorem NF.add {a c : Dbl} (h : NF c) : NF (a + c) := by
  intro r
  cases c with
  | fin z => exact absurd rfl (h z)
  | pinf => cases a <;> exact nofun
  | ninf => cases a <;> exact nofun
  | nan => rw [Dbl.add_nan]; exact nofun

theorem one_div_zero : (lit 1 / Dbl.fin 0 : Dbl) = Dbl.pinf := by
  show (if (0 : ℝ) = 0 then Dbl.infMul ((1 : ℚ) : ℝ) else _) = _
  rw [if_pos rfl, Rat.cast_one, infMul_one]

theorem pinf_mul_ZN {d : Dbl} (h : ZN d) : d * Dbl.pinf = Dbl.nan := by
  rcases h with rfl | rfl
  · show Dbl.infMul 0 = _; unfold Dbl.infMul; rw [if_pos rfl]
  · rfl

theorem ddot_ZN (a : Vec Dbl m) {v : Vec Dbl m} (h : ∀ i, ZN (v i)) : ZN (ddot a v) := by
  unfold ddot
  rw [foldl_add_eq_sum]
  exact ZN.sum fun i => (h i).smul _

theorem ddot_NF_ZN (hm : 0 < m) {a v : Vec Dbl m} (ha : ∀ i, NF (a i)) (h : ∀ i, ZN (v i)) : ddot a v = Dbl.nan := by
  by_contra hc
  unfold ddot at hc
  rw [foldl_add_eq_sum] at hc
  exact sum_ne_nan hc ⟨0, hm⟩ ((h _).mul_left _ (ha _))

theorem H11p_stall {h : HessData Dbl m} (hfe : h.one_by_fe_sqrd = Dbl.pinf) {v y : Vec Dbl m} (hv : ∀ i, ZN (v i)) {s s' : σ}
    (hr : l1qc_H11pfun ax h v s = some (y, s')) (i : Fin m) : y i = Dbl.nan := by
  unfold l1qc_H11pfun at hr
  dsimp only at hr
  obtain ⟨w, s1, h1, hr⟩ := ombind_some hr
  obtain ⟨rfl, -⟩ := ompure_some hr
  dsimp only
  unfold vaxpby
  rw [hfe, pinf_mul_ZN (ddot_ZN _ hv), Dbl.nan_mul, Dbl.nan_add, Dbl.add_nan]

/-- CG started from zeros with the poisoned operator returns its start -/
theorem cg_stall (hm : 0 < m) {h : HessData Dbl m} (hfe : h.one_by_fe_sqrd = Dbl.pinf) {dx w : Vec Dbl m} (hdx : ∀ i, ZN (dx i))
    {prm : CgParams Dbl} {s s' : σ} {x : Vec Dbl m} {res : CgResults Dbl} (hr : l1qc_cg ax h dx w prm s = some ((x, res), s')) : x = dx := by
  unfold l1qc_cg at hr
  split at hr
  · cases hr
  rename_i out ho
  obtain ⟨s1, h1, h2⟩ := Option.map_eq_some_iff.1 hr
  obtain ⟨h3, -⟩ := Prod.mk.inj h2
  obtain ⟨rfl, -⟩ := Prod.mk.inj h3
  unfold l1c_cgsolve at ho
  obtain ⟨r, hr', rfl⟩ := Option.map_eq_some_iff.1 ho
  cases hop : l1qc_H11pfun ax h dx s with
  | none =>
    exfalso
    have hp : (poison (l1qc_H11pfun ax h) id dx (some s)).2 = none := by unfold poison; dsimp only; rw [hop]
    have : r.2.2 = none := cgLoop_inv (J := fun o : Option σ => o = none)
      (fun st o ho => cgStep_inv (J := fun o : Option σ => o = none) (fun v o ho => by subst ho; rfl) _ st o ho) _ _ _ _ _ hp hr'
    have h1' : r.2.2 = some s1 := h1
    rw [this] at h1'; cases h1'
  | some q =>
    obtain ⟨y, s2⟩ := q
    have hy := H11p_stall hfe hdx hop
    have hp : (poison (l1qc_H11pfun ax h) id dx (some s)).1 = y := by unfold poison; dsimp only; rw [hop]
    refine cgLoop_nan _ _ _ _ _ ?_ hr'
    show fsqrt (ddot (vaxpby (lit 1) w (-lit 1) (poison (l1qc_H11pfun ax h) id dx (some s)).1)
      (vaxpby (lit 1) w (-lit 1) (poison (l1qc_H11pfun ax h) id dx (some s)).1) / ddot w w) = Dbl.nan
    rw [hp, nan_vec_ddot hm (r := vaxpby (lit 1) w (-lit 1) y) (fun i => by unfold vaxpby; rw [hy i, Dbl.mul_nan, Dbl.add_nan])]
    rfl

theorem ls_nan {τ X : Type} {trial : Dbl → X} {feval : X → CbMem τ Dbl → Dbl × CbMem τ Dbl} {f0 : CbMem τ Dbl → Dbl} {prm : LSParams Dbl} {x : X}
    (fuel : ℕ) : ∀ (iter : ℕ) (step flin : Dbl) (cb : CbMem τ Dbl),
      (lsLoop trial feval f0 Dbl.nan prm x fuel iter step flin cb).x = x ∧
      (lsLoop trial feval f0 Dbl.nan prm x fuel iter step flin cb).stat.status = 1 := by
  induction fuel with
  | zero => intro iter step flin cb; exact ⟨rfl, rfl⟩
  | succ fuel ih =>
    intro iter step flin cb
    unfold lsLoop
    dsimp only
    split
    · exact ih _ _ _ _
    · rw [if_neg]
      · exact ih _ _ _ _
      · rw [Dbl.mul_nan, Dbl.add_nan, Dbl.fle_iff]
        generalize (feval _ _).1 = z
        cases z <;> exact id

/-- one Newton iteration at a point with `fe = 0`: nothing moves, the line search fails, and the loop stops -/
theorem newton_body_stall (hm : 0 < m) {prm : QOpts Dbl} {st st' : QLoop Dbl n m} {stop : Bool} {s s' : σ} (hfe : st.P.fe_val = Dbl.fin 0)
    (hdx : ∀ i, ZN (st.P.dx i)) (h : l1qc_newton_body ax prm st s = some ((st', stop), s')) :
    st'.x = st.x ∧ stop = true := by
  unfold l1qc_newton_body at h
  dsimp only at h
  obtain ⟨⟨cst, P1, res⟩, s1, h1, h⟩ := ombind_some h
  dsimp only at h
  obtain ⟨cg, s2, h2, h⟩ := ombind_some h
  obtain ⟨smax, s3, h3, h⟩ := ombind_some h
  obtain ⟨⟨xu, P2, stat⟩, s4, h4, h⟩ := ombind_some h
  have hg : ddot P1.gradf_x P1.dx = Dbl.nan := by
    unfold l1qc_descent_dir at h1
    obtain ⟨atr, t1, -, h1⟩ := ombind_some h1
    dsimp only at h1
    obtain ⟨⟨dx, res'⟩, t2, hc, h1⟩ := ombind_some h1
    have hcg := cg_stall hm (by
      dsimp only
      rw [hfe, Dbl.fin_mul, mul_zero, one_div_zero]) (warmStart_ZN prm.warm_start_cg st.step hdx) hc
    have hP : P1.dx = dx ∧ P1.gradf_x = (l1qc_hess_grad { st.P with dx := warmStart prm.warm_start_cg st.step st.P.dx } atr).1.gradf_x := by
      dsimp only at h1
      split at h1
      · obtain ⟨hq, -⟩ := ompure_some h1
        obtain ⟨-, hq2⟩ := Prod.mk.inj hq
        obtain ⟨rfl, -⟩ := Prod.mk.inj hq2
        exact ⟨rfl, rfl⟩
      · obtain ⟨hq, -⟩ := ompure_some h1
        obtain ⟨-, hq2⟩ := Prod.mk.inj hq
        obtain ⟨rfl, -⟩ := Prod.mk.inj hq2
        exact ⟨rfl, rfl⟩
    rw [hP.1, hP.2]
    refine ddot_NF_ZN hm (fun i => ?_) (fun i => by rw [hcg]; exact warmStart_ZN prm.warm_start_cg st.step hdx i)
    unfold l1qc_hess_grad
    dsimp only
    rw [hfe, one_div_zero]
    exact NF.mul (NF.add (NF.pinf_mul _))
  rw [hg, Dbl.nan_add] at h4
  unfold l1qc_linesearch at h4
  dsimp only at h4
  obtain ⟨t, -, h5⟩ := Option.map_eq_some_iff.1 h4
  obtain ⟨hq, -⟩ := Prod.mk.inj h5
  obtain ⟨hq1, hq2⟩ := Prod.mk.inj hq
  obtain ⟨-, hq3⟩ := Prod.mk.inj hq2
  have hls := ls_nan (trial := fun step => (vaxpy step P1.dx st.x, vaxpy step P1.du st.u)) (feval := fun p => l1qc_feval_cb ax p.1 p.2)
    (f0 := fun _ => P1.f_val) (prm := ⟨lit (1 / 100), lit (1 / 2), smax⟩) (x := (st.x, st.u)) MAX_LINESEARCH_ITER 1 smax (lit 0)
    (⟨some (P1, s3), P1.f_val⟩ : CbMem (Option (QProb Dbl n m × σ)) Dbl)
  unfold l1c_linesearch_xu at hq1 hq3
  dsimp only at hq1 hq3
  have hst : stat.status = 1 := by rw [← hq3]; exact hls.2
  have hx : xu = (st.x, st.u) := by rw [← hq1]; exact hls.1
  rw [if_pos (by rw [hst]; exact one_pos)] at h
  obtain ⟨hf, -⟩ := ompure_some h
  obtain ⟨rfl, rfl⟩ := Prod.mk.inj hf
  exact ⟨by dsimp only; rw [hx], rfl⟩

theorem lb_loop_stall {Inv : σ → Prop} {A : Matrix (Fin n) (Fin m) ℝ} {b : Fin n → ℝ} {eps : ℝ} (hm : 0 < m) (H : AxPart ax Inv A) {prm : QOpts Dbl}
    {x : Fin m → ℝ} (hx : nrm (A *ᵥ x - b) = eps) (fuel : ℕ) : ∀ (iter : Int) (st : QLoop Dbl n m) (s : σ) (st' : QLoop Dbl n m) (s' : σ), Inv s →
      st.P.b = fvec b → st.P.epsilon = Dbl.fin eps → st.x = fvec x → l1qc_lb_loop ax prm fuel iter st s = some (st', s') → st'.x = fvec x := by
  have HP : Preord (fun s s' : σ => Inv s → Inv s') := ⟨fun _ h => h, fun h1 h2 h => h2 (h1 h)⟩
  have K : OpsKeep (fun s s' : σ => Inv s → Inv s') ax := ⟨fun v s a s' h hs => (H.Ax s v a s' hs h).1, fun v s a s' h hs => H.AtAx s v a s' hs h⟩
  have KT : ∀ v, Keeps (fun s s' : σ => Inv s → Inv s') (ax.Aty v) := fun v s a s' h hs => H.Aty s v a s' hs h
  induction fuel with
  | zero =>
    intro iter st s st' s' hs hb he hsx h
    unfold l1qc_lb_loop at h
    split at h
    · obtain ⟨rfl, -⟩ := ompure_some h; exact hsx
    · cases h
  | succ fuel ih =>
    intro iter st s st' s' hs hb he hsx h
    unfold l1qc_lb_loop at h
    obtain ⟨st1, s1, h1, h⟩ := ombind_some h
    have hI := lb_body_inv HP K KT h1
    refine ih _ _ _ _ _ (hI.rel hs) (hI.hb.trans hb) (hI.heps.trans he) ?_ h
    unfold l1qc_lb_body at h1
    dsimp only at h1
    obtain ⟨P1, t1, e1, h1⟩ := ombind_some h1
    obtain ⟨⟨st2, k⟩, t2, h2, h1⟩ := ombind_some h1
    dsimp only at h1
    obtain ⟨nw, t3, h3, h1⟩ := ombind_some h1
    obtain ⟨rfl, -⟩ := ompure_some h1
    dsimp only
    obtain ⟨y, hy, rfl⟩ := f_eval_inv e1
    have hyy := (H.Ax _ _ _ _ hs hy).2 x hsx
    have hfe : (evalOf { st.P with dx := fun _ => lit 0 } st.x st.u y).fe_val = Dbl.fin 0 := by
      unfold evalOf
      dsimp only
      rw [hb, he, hyy, resid_fvec, fe_fin]
      congr 1
      have : (A *ᵥ x - b) ⬝ᵥ (A *ᵥ x - b) = eps ^ 2 := by
        rw [← hx]; unfold nrm
        rw [Real.sq_sqrt]
        exact dotProduct_self_nonneg' _
      rw [this]; ring
    cases hfu : (prm.newton_max_iter - 1).toNat with
    | zero =>
      rw [hfu] at h2
      obtain ⟨hq, -⟩ := ompure_some h2
      obtain ⟨rfl, -⟩ := Prod.mk.inj hq
      exact hsx
    | succ fu =>
      rw [hfu] at h2
      unfold l1qc_newton_loop at h2
      obtain ⟨⟨st3, stop⟩, t4, h4, h2⟩ := ombind_some h2
      obtain ⟨hx3, rfl⟩ := newton_body_stall hm hfe (fun i => Or.inl (by unfold evalOf; simp)) h4
      dsimp only at h2
      rw [if_pos rfl] at h2
      obtain ⟨hq, -⟩ := ompure_some h2
      obtain ⟨rfl, -⟩ := Prod.mk.inj hq
      rw [hx3]; exact hsx
where
  dotProduct_self_nonneg' {k : ℕ} (v : Fin k → ℝ) : 0 ≤ v ⬝ᵥ v := Finset.sum_nonneg fun i _ => mul_self_nonneg _

end L1c
