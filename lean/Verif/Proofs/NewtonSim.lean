import Verif.Proofs.NewtonRuns

/-! # The solver only sees the values its operators return, not their private state -/

namespace L1c
open Scalar

variable {F : Type} [Scalar F] {σ σ' α β : Type} {n m : ℕ} {E : σ → σ' → Prop}

/-- from related states both computations are undefined, or both give the same value and related states -/
def OSim (E : σ → σ' → Prop) (x : OM σ α) (x' : OM σ' α) : Prop :=
  ∀ s s', E s s' → (x s = none ∧ x' s' = none) ∨ ∃ a t t', x s = some (a, t) ∧ x' s' = some (a, t') ∧ E t t'

theorem OSim.pure (a : α) : OSim E (Pure.pure a : OM σ α) (Pure.pure a : OM σ' α) := fun s s' h =>
  Or.inr ⟨a, s, s', rfl, rfl, h⟩

theorem OSim.lift (o : Option α) : OSim E (olift o) (olift o) := fun s s' h => by
  cases o with
  | none => exact Or.inl ⟨rfl, rfl⟩
  | some a => exact Or.inr ⟨a, s, s', rfl, rfl, h⟩

theorem OSim.oub : OSim E (oub : OM σ α) (L1c.oub : OM σ' α) := fun _ _ _ => Or.inl ⟨rfl, rfl⟩

theorem OSim.bind {x : OM σ α} {x' : OM σ' α} {k : α → OM σ β} {k' : α → OM σ' β} (hx : OSim E x x')
    (hk : ∀ a, OSim E (k a) (k' a)) : OSim E (x >>= k) (x' >>= k') := fun s s' h => by
  rcases hx s s' h with ⟨h1, h2⟩ | ⟨a, t, t', h1, h2, h3⟩
  · left
    constructor
    · show (x s).bind _ = none
      rw [h1]; rfl
    · show (x' s').bind _ = none
      rw [h2]; rfl
  · rw [ombind h1, ombind h2]
    exact hk a t t' h3

structure QSim (E : σ → σ' → Prop) (ax : QAx F σ n m) (ax' : QAx F σ' n m) : Prop where
  Ax : ∀ v, OSim E (ax.Ax v) (ax'.Ax v)
  Aty : ∀ v, OSim E (ax.Aty v) (ax'.Aty v)
  AtAx : ∀ v, OSim E (ax.AtAx v) (ax'.AtAx v)

section inner
variable {τ τ' : Type} {D : τ → τ' → Prop} {N : ℕ}

theorem cgLoop_osim {step : CgState F N → τ → (CgState F N × F) × τ} {step' : CgState F N → τ' → (CgState F N × F) × τ'} {tol : F}
    (hst : ∀ st s s', D s s' → (step st s).1 = (step' st s').1 ∧ D (step st s).2 (step' st s').2) (fuel : ℕ) :
    ∀ (iter : Int) (st : CgState F N) (s : τ) (s' : τ'), D s s' →
      (cgLoop step tol fuel iter st s = none ∧ cgLoop step' tol fuel iter st s' = none) ∨
      ∃ (a : CgState F N) (i : Int) (t : τ) (t' : τ'), cgLoop step tol fuel iter st s = some (a, i, t) ∧
        cgLoop step' tol fuel iter st s' = some (a, i, t') ∧ D t t' := by
  induction fuel with
  | zero =>
    intro iter st s s' h
    unfold cgLoop
    split
    · exact Or.inr ⟨_, _, _, _, rfl, rfl, h⟩
    · exact Or.inl ⟨rfl, rfl⟩
  | succ fuel ih =>
    intro iter st s s' h
    obtain ⟨h1, h2⟩ := hst st s s' h
    unfold cgLoop
    generalize step st s = p at *
    generalize step' st s' = p' at *
    obtain ⟨⟨a, e⟩, t⟩ := p
    obtain ⟨⟨a', e'⟩, t'⟩ := p'
    obtain ⟨rfl, rfl⟩ := Prod.mk.inj h1
    dsimp only
    split
    · exact Or.inr ⟨_, _, _, _, rfl, rfl, h2⟩
    · exact ih _ _ _ _ h2

theorem cgsolve_osim {op : Vec F N → τ → Vec F N × τ} {op' : Vec F N → τ' → Vec F N × τ'}
    (hop : ∀ v s s', D s s' → (op v s).1 = (op' v s').1 ∧ D (op v s).2 (op' v s').2) (x b : Vec F N) {s : τ} {s' : τ'} (h : D s s')
    (prm : CgParams F) :
    (l1c_cgsolve x b op s prm = none ∧ l1c_cgsolve x b op' s' prm = none) ∨
    ∃ (y : Vec F N) (r : CgResults F) (t : τ) (t' : τ'), l1c_cgsolve x b op s prm = some ⟨y, r, t⟩ ∧
      l1c_cgsolve x b op' s' prm = some ⟨y, r, t'⟩ ∧ D t t' := by
  obtain ⟨h1, h2⟩ := hop x s s' h
  have hi : (cgInit op x b s).1 = (cgInit op' x b s').1 ∧ D (cgInit op x b s).2 (cgInit op' x b s').2 := by
    unfold cgInit
    dsimp only
    exact ⟨by rw [h1], h2⟩
  have hs := cgLoop_osim (step := cgStep op (ddot b b)) (step' := cgStep op' (ddot b b)) (tol := prm.tol) (D := D) (fun st s s' h => by
    obtain ⟨g1, g2⟩ := hop st.p s s' h
    unfold cgStep
    dsimp only
    rw [g1]
    split
    · exact ⟨rfl, g2⟩
    · exact ⟨rfl, g2⟩) prm.max_iter.toNat 1 (cgInit op x b s).1 _ _ hi.2
  unfold l1c_cgsolve
  dsimp only
  rw [hi.1] at hs ⊢
  rcases hs with ⟨a1, a2⟩ | ⟨a, i, t, t', a1, a2, a3⟩
  · exact Or.inl ⟨by rw [a1]; rfl, by rw [a2]; rfl⟩
  · exact Or.inr ⟨_, _, t, t', by rw [a1]; rfl, by rw [a2]; rfl, a3⟩

/-- outcomes of a line search that differ only in the callback's memory -/
theorem lsLoop_sim {X : Type} {C : CbMem τ F → CbMem τ' F → Prop} {trial : F → X} {feval : X → CbMem τ F → F × CbMem τ F}
    {feval' : X → CbMem τ' F → F × CbMem τ' F} {f0 : F} {g : F} {prm : LSParams F} {x : X}
    (hf : ∀ p c c', C c c' → (feval p c).1 = (feval' p c').1 ∧ C (feval p c).2 (feval' p c').2)
    (hfx : ∀ c c' f, C c c' → C { c with fx0 := f } { c' with fx0 := f }) (fuel : ℕ) :
    ∀ (iter : ℕ) (step flin : F) (c : CbMem τ F) (c' : CbMem τ' F), C c c' →
      ∃ (y : X) (st : LSStat F) (d : CbMem τ F) (d' : CbMem τ' F),
        lsLoop trial feval (fun _ => f0) g prm x fuel iter step flin c = ⟨y, d, st⟩ ∧
        lsLoop trial feval' (fun _ => f0) g prm x fuel iter step flin c' = ⟨y, d', st⟩ ∧ C d d' := by
  induction fuel with
  | zero => exact fun iter step flin c c' h => ⟨_, _, _, _, rfl, rfl, h⟩
  | succ fuel ih =>
    intro iter step flin c c' h
    obtain ⟨h1, h2⟩ := hf (trial step) c c' h
    unfold lsLoop
    dsimp only
    rw [h1]
    split
    · exact ih _ _ _ _ _ h2
    · split
      · exact ⟨_, _, _, _, rfl, rfl, hfx _ _ _ h2⟩
      · exact ih _ _ _ _ _ h2

end inner

/-- related poisoned states -/
def PSim (E : σ → σ' → Prop) : Option σ → Option σ' → Prop
  | none, none => True
  | some s, some s' => E s s'
  | _, _ => False

theorem poison_sim {f : α → OM σ β} {f' : α → OM σ' β} (hf : ∀ a, OSim E (f a) (f' a)) (d : α → β) (a : α) (o : Option σ) (o' : Option σ')
    (h : PSim E o o') : (poison f d a o).1 = (poison f' d a o').1 ∧ PSim E (poison f d a o).2 (poison f' d a o').2 := by
  unfold poison
  cases o with
  | none =>
    cases o' with
    | none => exact ⟨rfl, trivial⟩
    | some _ => exact h.elim
  | some s =>
    cases o' with
    | none => exact h.elim
    | some s' =>
      dsimp only
      rcases hf a s s' h with ⟨h1, h2⟩ | ⟨b, t, t', h1, h2, h3⟩
      · rw [h1, h2]; exact ⟨rfl, trivial⟩
      · rw [h1, h2]; exact ⟨rfl, h3⟩

variable {ax : QAx F σ n m} {ax' : QAx F σ' n m}

theorem H11p_sim (S : QSim E ax ax') (d : HessData F m) (v : Vec F m) : OSim E (l1qc_H11pfun ax d v) (l1qc_H11pfun ax' d v) := by
  unfold l1qc_H11pfun
  exact (S.AtAx v).bind fun _ => .pure _

theorem cg_sim (S : QSim E ax ax') (d : HessData F m) (dx w : Vec F m) (prm : CgParams F) :
    OSim E (l1qc_cg ax d dx w prm) (l1qc_cg ax' d dx w prm) := by
  intro s s' h
  unfold l1qc_cg
  rcases cgsolve_osim (D := PSim E) (fun v o o' ho => poison_sim (H11p_sim S d) id v o o' ho) dx w (s := some s) (s' := some s') h prm with
    ⟨h1, h2⟩ | ⟨y, r, t, t', h1, h2, h3⟩
  · rw [h1, h2]; exact Or.inl ⟨rfl, rfl⟩
  · rw [h1, h2]
    dsimp only
    cases t with
    | none =>
      cases t' with
      | none => exact Or.inl ⟨rfl, rfl⟩
      | some _ => exact h3.elim
    | some t =>
      cases t' with
      | none => exact h3.elim
      | some t' => exact Or.inr ⟨_, _, _, rfl, rfl, h3⟩

theorem descent_sim (S : QSim E ax ax') (P : QProb F n m) (prm : CgParams F) : OSim E (l1qc_descent_dir ax P prm) (l1qc_descent_dir ax' P prm) := by
  unfold l1qc_descent_dir
  refine (S.Aty _).bind fun atr => ?_
  dsimp only
  refine (cg_sim S _ _ _ _).bind fun r => ?_
  split
  · exact .pure _
  · exact .pure _

theorem max_step_sim (S : QSim E ax ax') (P : QProb F n m) : OSim E (l1qc_find_max_step ax P) (l1qc_find_max_step ax' P) := by
  unfold l1qc_find_max_step
  refine (S.Ax _).bind fun y => ?_
  split
  · exact .oub
  · exact .pure _

theorem f_eval_sim (S : QSim E ax ax') (P : QProb F n m) (x u : Vec F m) : OSim E (l1qc_f_eval ax P x u) (l1qc_f_eval ax' P x u) := by
  unfold l1qc_f_eval
  exact (S.Ax _).bind fun y => .pure _

/-- related memories of the objective callback -/
def CbSim (E : σ → σ' → Prop) (c : CbMem (Option (QProb F n m × σ)) F) (c' : CbMem (Option (QProb F n m × σ')) F) : Prop :=
  c.fx0 = c'.fx0 ∧ ((c.st = none ∧ c'.st = none) ∨ ∃ P s s', c.st = some (P, s) ∧ c'.st = some (P, s') ∧ E s s')

theorem feval_cb_sim (S : QSim E ax ax') (x u : Vec F m) {c : CbMem (Option (QProb F n m × σ)) F} {c' : CbMem (Option (QProb F n m × σ')) F}
    (h : CbSim E c c') : (l1qc_feval_cb ax x u c).1 = (l1qc_feval_cb ax' x u c').1 ∧
      CbSim E (l1qc_feval_cb ax x u c).2 (l1qc_feval_cb ax' x u c').2 := by
  obtain ⟨h0, ⟨h1, h2⟩ | ⟨P, s, s', h1, h2, h3⟩⟩ := h
  · unfold l1qc_feval_cb
    rw [h1, h2]
    exact ⟨h0, h0, Or.inl ⟨h1, h2⟩⟩
  · unfold l1qc_feval_cb
    rw [h1, h2]
    dsimp only
    rcases f_eval_sim S P x u s s' h3 with ⟨g1, g2⟩ | ⟨Q, t, t', g1, g2, g3⟩
    · rw [g1, g2]
      exact ⟨h0, h0, Or.inl ⟨rfl, rfl⟩⟩
    · rw [g1, g2]
      exact ⟨rfl, rfl, Or.inr ⟨Q, t, t', rfl, rfl, g3⟩⟩

theorem linesearch_sim (S : QSim E ax ax') (x u : Vec F m) (P : QProb F n m) (g : F) (prm : LSParams F) :
    OSim E (l1qc_linesearch ax x u P g prm) (l1qc_linesearch ax' x u P g prm) := by
  intro s s' h
  unfold l1qc_linesearch l1c_linesearch_xu
  dsimp only
  obtain ⟨y, st, d, d', h1, h2, h3, h4⟩ := lsLoop_sim (C := CbSim E) (trial := fun step => (vaxpy step P.dx x, vaxpy step P.du u))
    (feval := fun p => l1qc_feval_cb ax p.1 p.2) (feval' := fun p => l1qc_feval_cb ax' p.1 p.2) (f0 := P.f_val) (g := g) (prm := prm) (x := (x, u))
    (fun p c c' hc => feval_cb_sim S p.1 p.2 hc) (fun c c' f hc => ⟨rfl, hc.2⟩) MAX_LINESEARCH_ITER 1 prm.s (lit 0)
    ⟨some (P, s), P.f_val⟩ ⟨some (P, s'), P.f_val⟩ ⟨rfl, Or.inr ⟨P, s, s', rfl, rfl, h⟩⟩
  rw [h1, h2]
  dsimp only
  rcases h4 with ⟨k1, k2⟩ | ⟨Q, t, t', k1, k2, k3⟩
  · rw [k1, k2]; exact Or.inl ⟨rfl, rfl⟩
  · rw [k1, k2, h3]; exact Or.inr ⟨_, _, _, rfl, rfl, k3⟩

theorem newton_body_sim (S : QSim E ax ax') (prm : QOpts F) (st : QLoop F n m) :
    OSim E (l1qc_newton_body ax prm st) (l1qc_newton_body ax' prm st) := by
  unfold l1qc_newton_body
  dsimp only
  refine (descent_sim S _ _).bind fun r => ?_
  refine (OSim.lift _).bind fun cg => (max_step_sim S _).bind fun s => (linesearch_sim S _ _ _ _ _).bind fun r => ?_
  split
  · exact .pure _
  · split
    · exact .pure _
    · exact .pure _

theorem newton_loop_sim (S : QSim E ax ax') (prm : QOpts F) (fuel : ℕ) : ∀ (iter : Int) (st : QLoop F n m),
    OSim E (l1qc_newton_loop ax prm fuel iter st) (l1qc_newton_loop ax' prm fuel iter st) := by
  induction fuel with
  | zero => exact fun iter st => .pure _
  | succ fuel ih =>
    intro iter st
    unfold l1qc_newton_loop
    refine (newton_body_sim S _ _).bind fun r => ?_
    dsimp only
    split
    · exact .pure _
    · exact ih _ _

theorem lb_body_sim (S : QSim E ax ax') (prm : QOpts F) (st : QLoop F n m) : OSim E (l1qc_lb_body ax prm st) (l1qc_lb_body ax' prm st) := by
  unfold l1qc_lb_body
  dsimp only
  refine (f_eval_sim S _ _ _).bind fun P => (newton_loop_sim S _ _ _ _).bind fun r => ?_
  exact (OSim.lift _).bind fun k => .pure _

theorem lb_loop_sim (S : QSim E ax ax') (prm : QOpts F) (fuel : ℕ) : ∀ (iter : Int) (st : QLoop F n m),
    OSim E (l1qc_lb_loop ax prm fuel iter st) (l1qc_lb_loop ax' prm fuel iter st) := by
  induction fuel with
  | zero =>
    intro iter st
    unfold l1qc_lb_loop
    split
    · exact .pure _
    · exact .oub
  | succ fuel ih =>
    intro iter st
    unfold l1qc_lb_loop
    exact (lb_body_sim S _ _).bind fun r => ih _ _

theorem solve_sim (S : QSim E ax ax') (prm : QOpts F) (b : Vec F n) (x u : Vec F m) : OSim E (l1qc_solve ax prm b x u) (l1qc_solve ax' prm b x u) := by
  unfold l1qc_solve
  dsimp only
  refine OSim.bind ?_ fun bad => ?_
  · unfold l1qc_check_feasible_start
    refine (S.Ax _).bind fun y => ?_
    split
    · exact .oub
    · exact .pure _
  · split
    · exact .pure _
    · exact (lb_loop_sim S _ _ _ _).bind fun st => .pure _

end L1c
