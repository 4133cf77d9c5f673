import Verif.Model.Newton
import Verif.Proofs.NewtonLoop
import Verif.Proofs.NewtonMem

/-! # Runs of the log-barrier solver, for every scalar type and every set of operators -/

namespace L1c
open Scalar

variable {F : Type} [Scalar F] {σ α β : Type} {n m : ℕ}

/-- a reflexive and transitive relation between operator states -/
structure Preord (R : σ → σ → Prop) : Prop where
  refl : ∀ s, R s s
  trans : ∀ {a b c}, R a b → R b c → R a c

/-- every run of `f` that is defined goes from a state to a related one -/
def Keeps (R : σ → σ → Prop) (f : OM σ α) : Prop := ∀ s a s', f s = some (a, s') → R s s'

/-! ## The inner solvers -/

section inner
variable {τ : Type} {N : ℕ}

theorem cgLoop_inv {J : τ → Prop} {step : CgState F N → τ → (CgState F N × F) × τ} {tol : F} (hstep : ∀ st s, J s → J (step st s).2)
    (fuel : ℕ) : ∀ (iter : Int) (st : CgState F N) (s : τ) (r : CgState F N × Int × τ), J s → cgLoop step tol fuel iter st s = some r → J r.2.2 := by
  induction fuel with
  | zero =>
    intro iter st s r h1 h
    unfold cgLoop at h
    split at h
    · obtain rfl := Option.some.inj h; exact h1
    · cases h
  | succ fuel ih =>
    intro iter st s r h1 h
    unfold cgLoop at h
    dsimp only at h
    split at h
    · obtain rfl := Option.some.inj h; exact hstep _ _ h1
    · exact ih _ _ _ _ (hstep _ _ h1) h

theorem cgStep_inv {J : τ → Prop} {op : Vec F N → τ → Vec F N × τ} (hop : ∀ v s, J s → J (op v s).2) (d : F) (st : CgState F N) (s : τ)
    (hs : J s) : J (cgStep op d st s).2 := by
  unfold cgStep
  dsimp only
  split <;> exact hop _ _ hs

theorem cgsolve_inv {J : τ → Prop} {op : Vec F N → τ → Vec F N × τ} (hop : ∀ v s, J s → J (op v s).2) {x b : Vec F N} {s : τ}
    {prm : CgParams F} {out : CgOut F τ N} (hs : J s) (h : l1c_cgsolve x b op s prm = some out) : J out.cb := by
  unfold l1c_cgsolve at h
  obtain ⟨r, hr, rfl⟩ := Option.map_eq_some_iff.1 h
  refine cgLoop_inv (J := J) (fun st s hs => cgStep_inv hop _ st s hs) _ _ _ _ _ ?_ hr
  exact hop _ _ hs

theorem cgLoop_total {step : CgState F N → τ → (CgState F N × F) × τ} {tol : F} (fuel : ℕ) : ∀ (iter : Int) (st : CgState F N) (s : τ),
    iter + fuel ≤ INT_MAX → ∃ r, cgLoop step tol fuel iter st s = some r := by
  induction fuel with
  | zero =>
    intro iter st s h
    unfold cgLoop
    rw [if_pos (by simpa using h)]
    exact ⟨_, rfl⟩
  | succ fuel ih =>
    intro iter st s h
    unfold cgLoop
    dsimp only
    split
    · exact ⟨_, rfl⟩
    · exact ih _ _ _ (by push_cast at h; omega)

theorem cgsolve_total {op : Vec F N → τ → Vec F N × τ} (x b : Vec F N) (s : τ) (prm : CgParams F) (h0 : 0 ≤ prm.max_iter)
    (h1 : prm.max_iter < INT_MAX) : ∃ out, l1c_cgsolve x b op s prm = some out := by
  unfold l1c_cgsolve
  dsimp only
  obtain ⟨r, hr⟩ := cgLoop_total (step := cgStep op (ddot b b)) (tol := prm.tol) prm.max_iter.toNat 1 (cgInit op x b s).1 (cgInit op x b s).2 (by omega)
  exact ⟨_, by rw [hr]; rfl⟩

/-- the line search only changes the callback's memory by calling it and by storing the accepted value; it returns the start or
an accepted trial point, whose value is not NaN -/
theorem lsLoop_inv {X : Type} {J : CbMem τ F → Prop} {trial : F → X} {feval : X → CbMem τ F → F × CbMem τ F} {f0 : CbMem τ F → F} {g : F}
    {prm : LSParams F} {x : X} (hJ : ∀ p c, J c → J (feval p c).2) (hfx : ∀ c f, J c → J { c with fx0 := f }) (fuel : ℕ) :
    ∀ (iter : ℕ) (step flin : F) (cb : CbMem τ F), J cb → ∀ out, lsLoop trial feval f0 g prm x fuel iter step flin cb = out → J out.cb ∧
      ((out.stat.status = 1 ∧ out.x = x) ∨
        (out.stat.status = 0 ∧ ∃ c, J c ∧ isNaN (feval out.x c).1 = false ∧ out.cb = { (feval out.x c).2 with fx0 := (feval out.x c).1 })) := by
  induction fuel with
  | zero =>
    rintro iter step flin cb hcb out rfl
    exact ⟨hcb, Or.inl ⟨rfl, rfl⟩⟩
  | succ fuel ih =>
    intro iter step flin cb hcb out h
    unfold lsLoop at h
    dsimp only at h
    have h1 := hJ (trial step) cb hcb
    split at h
    · exact ih _ _ _ _ h1 _ h
    · rename_i hn
      split at h
      · subst h
        exact ⟨hfx _ _ h1, Or.inr ⟨rfl, cb, hcb, by simpa using hn, rfl⟩⟩
      · exact ih _ _ _ _ h1 _ h

end inner

/-! ## The operators -/

/-- `Ax` and `AtAx` go to related states -/
structure OpsKeep (R : σ → σ → Prop) (ax : QAx F σ n m) : Prop where
  Ax : ∀ v, Keeps R (ax.Ax v)
  AtAx : ∀ v, Keeps R (ax.AtAx v)

/-- no operator has undefined behaviour in the states `Inv`, and these are kept -/
structure OpsTotal (Inv : σ → Prop) (ax : QAx F σ n m) : Prop where
  Ax : ∀ v s, Inv s → ∃ y s', ax.Ax v s = some (y, s') ∧ Inv s'
  Aty : ∀ v s, Inv s → ∃ y s', ax.Aty v s = some (y, s') ∧ Inv s'
  AtAx : ∀ v s, Inv s → ∃ y s', ax.AtAx v s = some (y, s') ∧ Inv s'

variable {R : σ → σ → Prop} {Inv : σ → Prop} {ax : QAx F σ n m}

/-- the new values of an evaluation -/
def evalOf (P : QProb F n m) (x u : Vec F m) (y : Vec F n) : QProb F n m :=
  let r := vaxpy (lit (-1)) P.b y
  let fu1 := vaxpy (lit (-1)) u x
  let fu2 := vaxpby (lit (-1)) x (lit (-1)) u
  let fe := lit (1 / 2) * (ddot r r - P.epsilon * P.epsilon)
  { P with r := r, fu1 := fu1, fu2 := fu2, fe_val := fe,
           f_val := dsum u - (lit 1 / P.tau) * (dlogsum (lit (-1)) fu1 + dlogsum (lit (-1)) fu2 + flog (-fe)) }

theorem f_eval_inv {P P' : QProb F n m} {x u : Vec F m} {s s' : σ} (h : l1qc_f_eval ax P x u s = some (P', s')) :
    ∃ y, ax.Ax x s = some (y, s') ∧ P' = evalOf P x u y := by
  unfold l1qc_f_eval at h
  obtain ⟨y, s1, h1, h⟩ := ombind_some h
  obtain ⟨rfl, rfl⟩ := ompure_some h
  exact ⟨y, h1, rfl⟩

theorem f_eval_total (T : OpsTotal Inv ax) (P : QProb F n m) (x u : Vec F m) (s : σ) (hs : Inv s) :
    ∃ P' s', l1qc_f_eval ax P x u s = some (P', s') ∧ Inv s' := by
  obtain ⟨y, s1, h, hi⟩ := T.Ax x s hs
  unfold l1qc_f_eval
  rw [ombind h]
  exact ⟨_, _, rfl, hi⟩

theorem H11p_keeps (K : OpsKeep R ax) (d : HessData F m) (v : Vec F m) : Keeps R (l1qc_H11pfun ax d v) := by
  intro s a s' h
  unfold l1qc_H11pfun at h
  dsimp only at h
  obtain ⟨y, s1, h1, h⟩ := ombind_some h
  obtain ⟨rfl, rfl⟩ := ompure_some h
  exact K.AtAx v _ _ _ h1

/-- the poisoned state is undefined or related to the start -/
def PoisonOK (R : σ → σ → Prop) (s0 : σ) (o : Option σ) : Prop := ∀ s, o = some s → R s0 s

theorem poison_keeps (H : Preord R) {f : α → OM σ β} (hf : ∀ a, Keeps R (f a)) (dflt : α → β) {s0 : σ} (a : α) (o : Option σ)
    (ho : PoisonOK R s0 o) : PoisonOK R s0 (poison f dflt a o).2 := by
  intro s hs
  unfold poison at hs
  cases o with
  | none => cases hs
  | some s1 =>
    dsimp only at hs
    cases hfa : f a s1 with
    | none => rw [hfa] at hs; cases hs
    | some r =>
      rw [hfa] at hs
      obtain rfl := Option.some.inj hs
      exact H.trans (ho s1 rfl) (hf a s1 _ _ hfa)

theorem cg_keeps (H : Preord R) (K : OpsKeep R ax) (d : HessData F m) (dx w : Vec F m) (prm : CgParams F) : Keeps R (l1qc_cg ax d dx w prm) := by
  intro s a s' h
  unfold l1qc_cg at h
  split at h
  · cases h
  · rename_i out ho
    obtain ⟨s1, h1, h⟩ := Option.map_eq_some_iff.1 h
    obtain ⟨-, rfl⟩ := Prod.mk.inj h
    exact cgsolve_inv (J := PoisonOK R s) (fun v o ho => poison_keeps H (H11p_keeps K d) id v o ho)
      (by rintro _ ⟨⟩; exact H.refl s) ho _ h1

theorem descent_inv (H : Preord R) (K : OpsKeep R ax) {P P' : QProb F n m} {prm : CgParams F} {s s' : σ} {st : Int} {res : CgResults F}
    (h : l1qc_descent_dir ax P prm s = some ((st, P', res), s')) :
    ∃ atr s1, ax.Aty P.r s = some (atr, s1) ∧ R s1 s' ∧ P'.b = P.b ∧ P'.epsilon = P.epsilon ∧ P'.tau = P.tau ∧ P'.f_val = P.f_val := by
  unfold l1qc_descent_dir at h
  obtain ⟨atr, s1, h1, h⟩ := ombind_some h
  dsimp only at h
  obtain ⟨⟨dx, res'⟩, s2, h2, h⟩ := ombind_some h
  refine ⟨atr, s1, h1, ?_⟩
  have hk := cg_keeps H K _ _ _ _ _ _ _ h2
  dsimp only at h
  split at h
  · obtain ⟨hq, hss⟩ := ompure_some h; subst hss
    obtain ⟨-, hq⟩ := Prod.mk.inj hq
    obtain ⟨rfl, -⟩ := Prod.mk.inj hq
    exact ⟨hk, rfl, rfl, rfl, rfl⟩
  · obtain ⟨hq, hss⟩ := ompure_some h; subst hss
    obtain ⟨-, hq⟩ := Prod.mk.inj hq
    obtain ⟨rfl, -⟩ := Prod.mk.inj hq
    exact ⟨hk, rfl, rfl, rfl, rfl⟩

theorem cg_total (T : OpsTotal Inv ax) (d : HessData F m) (dx w : Vec F m) (prm : CgParams F) (h0 : 0 ≤ prm.max_iter) (h1 : prm.max_iter < INT_MAX)
    (s : σ) (hs : Inv s) : ∃ r s', l1qc_cg ax d dx w prm s = some (r, s') ∧ Inv s' := by
  obtain ⟨out, ho⟩ := cgsolve_total (op := poison (l1qc_H11pfun ax d) id) dx w (some s) prm h0 h1
  have hJ := cgsolve_inv (J := fun o : Option σ => ∃ s, o = some s ∧ Inv s) (fun v o ho => by
    obtain ⟨s1, rfl, hs1⟩ := ho
    obtain ⟨y, s2, h2, hi⟩ := T.AtAx v s1 hs1
    refine ⟨s2, ?_, hi⟩
    unfold poison l1qc_H11pfun
    dsimp only
    rw [ombind h2]; rfl) ⟨s, rfl, hs⟩ ho
  obtain ⟨s1, h1, hi⟩ := hJ
  unfold l1qc_cg
  rw [ho]
  dsimp only
  rw [h1]
  exact ⟨_, _, rfl, hi⟩

theorem descent_total (T : OpsTotal Inv ax) (P : QProb F n m) (prm : CgParams F) (h0 : 0 ≤ prm.max_iter) (h1 : prm.max_iter < INT_MAX)
    (s : σ) (hs : Inv s) : ∃ r s', l1qc_descent_dir ax P prm s = some (r, s') ∧ Inv s' := by
  unfold l1qc_descent_dir
  obtain ⟨atr, s1, ha, hi1⟩ := T.Aty P.r s hs
  rw [ombind ha]
  dsimp only
  obtain ⟨⟨dx, res⟩, s2, hc, hi2⟩ := cg_total T ⟨lit 1 / P.fe_val, lit 1 / (P.fe_val * P.fe_val), atr, (l1qc_hess_grad P atr).2⟩
    (l1qc_hess_grad P atr).1.dx (l1qc_hess_grad P atr).1.w1p prm h0 h1 s1 hi1
  rw [ombind hc]
  dsimp only
  split <;> exact ⟨_, _, rfl, hi2⟩

theorem max_step_keeps (K : OpsKeep R ax) (P : QProb F n m) : Keeps R (l1qc_find_max_step ax P) := by
  intro s a s' h
  unfold l1qc_find_max_step at h
  obtain ⟨y, s1, h1, h⟩ := ombind_some h
  split at h
  · cases h
  · obtain ⟨-, rfl⟩ := ompure_some h
    exact K.Ax _ _ _ _ h1

theorem max_step_total (T : OpsTotal Inv ax) (hnm : n ≤ m) (P : QProb F n m) (s : σ) (hs : Inv s) :
    ∃ r s', l1qc_find_max_step ax P s = some (r, s') ∧ Inv s' := by
  unfold l1qc_find_max_step
  obtain ⟨y, s1, h1, hi⟩ := T.Ax P.dx s hs
  rw [ombind h1, if_neg (by omega)]
  exact ⟨_, _, rfl, hi⟩

/-! ## Line search -/

/-- `x` is accepted: an evaluation at it, with the data of the problem, did not give NaN -/
def Accepted (R : σ → σ → Prop) (ax : QAx F σ n m) (b : Vec F n) (eps : F) (s : σ) (x : Vec F m) : Prop :=
  ∃ (P : QProb F n m) (u : Vec F m) (s0 s1 : σ) (y : Vec F n), P.b = b ∧ P.epsilon = eps ∧ R s s0 ∧ ax.Ax x s0 = some (y, s1) ∧
    isNaN (evalOf P x u y).f_val = false

/-- what the line search keeps of its callback's memory -/
def CbOK (R : σ → σ → Prop) (b : Vec F n) (eps tau : F) (s0 : σ) (c : CbMem (Option (QProb F n m × σ)) F) : Prop :=
  ∀ P s, c.st = some (P, s) → P.b = b ∧ P.epsilon = eps ∧ P.tau = tau ∧ R s0 s

theorem linesearch_inv (H : Preord R) (K : OpsKeep R ax) {x u : Vec F m} {P P' : QProb F n m} {g : F} {prm : LSParams F} {s s' : σ}
    {xu : Vec F m × Vec F m} {stat : LSStat F} (h : l1qc_linesearch ax x u P g prm s = some ((xu, P', stat), s')) :
    R s s' ∧ P'.b = P.b ∧ P'.epsilon = P.epsilon ∧ P'.tau = P.tau ∧ (xu = (x, u) ∨ Accepted R ax P.b P.epsilon s xu.1) := by
  unfold l1qc_linesearch at h
  dsimp only at h
  obtain ⟨⟨P1, s1⟩, hst, h⟩ := Option.map_eq_some_iff.1 h
  obtain ⟨hq, hss⟩ := Prod.mk.inj h
  subst hss
  obtain ⟨hq1, hq2⟩ := Prod.mk.inj hq
  obtain ⟨hq3, -⟩ := Prod.mk.inj hq2
  subst hq1 hq3
  generalize ho : l1c_linesearch_xu x u P.dx P.du ⟨some (P, s), P.f_val⟩ g (l1qc_feval_cb ax) prm = out at *
  unfold l1c_linesearch_xu at ho
  dsimp only at ho
  have hcall : ∀ (p : Vec F m × Vec F m) c, CbOK R P.b P.epsilon P.tau s c → CbOK R P.b P.epsilon P.tau s (l1qc_feval_cb ax p.1 p.2 c).2 := by
    intro p c hc P0 s0 h0
    unfold l1qc_feval_cb at h0
    cases hcs : c.st with
    | none => rw [hcs] at h0; dsimp only at h0; rw [hcs] at h0; cases h0
    | some t =>
      obtain ⟨P2, s2⟩ := t
      rw [hcs] at h0
      dsimp only at h0
      obtain ⟨k1, k2, k3, k4⟩ := hc _ _ hcs
      cases hfe : l1qc_f_eval ax P2 p.1 p.2 s2 with
      | none => rw [hfe] at h0; cases h0
      | some r =>
        rw [hfe] at h0
        obtain ⟨P3, s3⟩ := r
        obtain ⟨rfl, rfl⟩ := Prod.mk.inj (Option.some.inj h0)
        obtain ⟨y, hy, rfl⟩ := f_eval_inv hfe
        exact ⟨k1, k2, k3, H.trans k4 (K.Ax _ _ _ _ hy)⟩
  obtain ⟨hJ, hc⟩ := lsLoop_inv (J := CbOK R P.b P.epsilon P.tau s) hcall (fun c f hc => hc) MAX_LINESEARCH_ITER _ _ _ _
    (by rintro P0 s0 h0; obtain ⟨rfl, rfl⟩ := Prod.mk.inj (Option.some.inj h0); exact ⟨rfl, rfl, rfl, H.refl _⟩) out ho
  · obtain ⟨j1, j2, j3, j4⟩ := hJ _ _ hst
    refine ⟨j4, j1, j2, j3, ?_⟩
    rcases hc with ⟨-, hc⟩ | ⟨-, c, hc, hn, ho'⟩
    · exact Or.inl hc
    · refine Or.inr ?_
      unfold l1qc_feval_cb at hn ho'
      cases hcs : c.st with
      | none => rw [hcs] at ho'; rw [ho'] at hst; dsimp only at hst; rw [hcs] at hst; cases hst
      | some t =>
        obtain ⟨P0, s0⟩ := t
        rw [hcs] at hn ho'
        dsimp only at hn ho'
        cases hfe : l1qc_f_eval ax P0 out.x.1 out.x.2 s0 with
        | none => rw [hfe] at ho'; rw [ho'] at hst; cases hst
        | some r =>
          obtain ⟨P2, s2⟩ := r
          rw [hfe] at hn
          obtain ⟨y, hy, rfl⟩ := f_eval_inv hfe
          obtain ⟨k1, k2, k3, k4⟩ := hc _ _ hcs
          exact ⟨P0, out.x.2, s0, s2, y, k1, k2, k4, hy, hn⟩

theorem linesearch_total (T : OpsTotal Inv ax) (x u : Vec F m) (P : QProb F n m) (g : F) (prm : LSParams F) (s : σ) (hs : Inv s) :
    ∃ r s', l1qc_linesearch ax x u P g prm s = some (r, s') ∧ Inv s' := by
  unfold l1qc_linesearch
  dsimp only
  generalize ho : l1c_linesearch_xu x u P.dx P.du ⟨some (P, s), P.f_val⟩ g (l1qc_feval_cb ax) prm = out
  unfold l1c_linesearch_xu at ho
  obtain ⟨⟨t, ht, hi⟩, -⟩ := lsLoop_inv (J := fun c : CbMem (Option (QProb F n m × σ)) F => ∃ t, c.st = some t ∧ Inv t.2) (fun p c hc => by
    obtain ⟨⟨P0, s0⟩, ht, hs0⟩ := hc
    obtain ⟨P2, s2, hr, hi⟩ := f_eval_total T P0 p.1 p.2 s0 hs0
    refine ⟨(P2, s2), ?_, hi⟩
    unfold l1qc_feval_cb
    rw [ht]
    dsimp only
    rw [hr]) (fun c f hc => hc) MAX_LINESEARCH_ITER _ _ _ _ ⟨(P, s), rfl, hs⟩ out ho
  rw [ht]
  exact ⟨_, _, rfl, hi⟩

/-! ## Newton iterations and barrier iterations -/

theorem newton_body_inv (H : Preord R) (K : OpsKeep R ax) {prm : QOpts F} {st st' : QLoop F n m} {stop : Bool} {s s' : σ}
    (h : l1qc_newton_body ax prm st s = some ((st', stop), s')) :
    ∃ atr s1, ax.Aty st.P.r s = some (atr, s1) ∧ R s1 s' ∧ st'.P.b = st.P.b ∧ st'.P.epsilon = st.P.epsilon ∧ st'.newton = st.newton ∧
      ((st'.x = st.x ∧ st'.u = st.u) ∨ Accepted R ax st.P.b st.P.epsilon s1 st'.x) := by
  unfold l1qc_newton_body at h
  dsimp only at h
  obtain ⟨⟨cst, P1, res⟩, s1, h1, h⟩ := ombind_some h
  dsimp only at h
  obtain ⟨cg, s2, h2, h⟩ := ombind_some h
  obtain ⟨-, rfl⟩ := olift_some' h2
  obtain ⟨smax, s3, h3, h⟩ := ombind_some h
  obtain ⟨⟨xu, P2, stat⟩, s4, h4, h⟩ := ombind_some h
  obtain ⟨atr, s0, a1, a2, a3, a4, -, -⟩ := descent_inv H K h1
  have hm := max_step_keeps K _ _ _ _ h3
  obtain ⟨l1, l2, l3, l4, l5⟩ := linesearch_inv H K h4
  rw [a3] at l2 l5
  rw [a4] at l3 l5
  dsimp only at h a1 l2 l3 l5
  refine ⟨atr, s0, a1, ?_⟩
  have hfin : st'.x = xu.1 ∧ st'.u = xu.2 ∧ st'.P = P2 ∧ st'.newton = st.newton ∧ s' = s4 := by
    split at h
    · obtain ⟨hq, hss⟩ := ompure_some h; subst hss
      obtain ⟨rfl, -⟩ := Prod.mk.inj hq
      exact ⟨rfl, rfl, rfl, rfl, rfl⟩
    · split at h
      · obtain ⟨hq, hss⟩ := ompure_some h; subst hss
        obtain ⟨rfl, -⟩ := Prod.mk.inj hq
        exact ⟨rfl, rfl, rfl, rfl, rfl⟩
      · obtain ⟨hq, hss⟩ := ompure_some h; subst hss
        obtain ⟨rfl, -⟩ := Prod.mk.inj hq
        exact ⟨rfl, rfl, rfl, rfl, rfl⟩
  obtain ⟨f1, f2, f3, f4, rfl⟩ := hfin
  have hR : R s0 s' := H.trans a2 (H.trans hm l1)
  refine ⟨hR, by rw [f3]; exact l2, by rw [f3]; exact l3, f4, ?_⟩
  rcases l5 with rfl | l5
  · exact Or.inl ⟨f1, f2⟩
  · rw [f1]
    obtain ⟨Q, v, t0, t1, y, q1, q2, q3, q4, q5⟩ := l5
    exact Or.inr ⟨Q, v, t0, t1, y, q1, q2, H.trans a2 (H.trans hm q3), q4, q5⟩

theorem Accepted.mono (H : Preord R) {b : Vec F n} {eps : F} {s s0 : σ} {x : Vec F m} (h : Accepted R ax b eps s0 x) (hs : R s s0) :
    Accepted R ax b eps s x := by
  obtain ⟨Q, v, t0, t1, y, q1, q2, q3, q4, q5⟩ := h
  exact ⟨Q, v, t0, t1, y, q1, q2, H.trans hs q3, q4, q5⟩

/-- outcome of iterations when `Aty` keeps the relation too -/
structure IterOut (R : σ → σ → Prop) (ax : QAx F σ n m) (st : QLoop F n m) (s : σ) (st' : QLoop F n m) (s' : σ) : Prop where
  rel : R s s'
  hb : st'.P.b = st.P.b
  heps : st'.P.epsilon = st.P.epsilon
  hx : st'.x = st.x ∨ Accepted R ax st.P.b st.P.epsilon s st'.x

theorem IterOut.trans (H : Preord R) {a b c : QLoop F n m} {s1 s2 s3 : σ} (h1 : IterOut R ax a s1 b s2) (h2 : IterOut R ax b s2 c s3) :
    IterOut R ax a s1 c s3 := by
  refine ⟨H.trans h1.rel h2.rel, h2.hb.trans h1.hb, h2.heps.trans h1.heps, ?_⟩
  rcases h2.hx with h | h
  · rw [h]; exact h1.hx
  · rw [h1.hb, h1.heps] at h
    exact Or.inr (h.mono H h1.rel)

theorem newton_loop_inv (H : Preord R) (K : OpsKeep R ax) (KT : ∀ v, Keeps R (ax.Aty v)) {prm : QOpts F} (fuel : ℕ) :
    ∀ (iter : Int) (st : QLoop F n m) (s : σ) (st' : QLoop F n m) (k : Int) (s' : σ),
      l1qc_newton_loop ax prm fuel iter st s = some ((st', k), s') → IterOut R ax st s st' s' := by
  induction fuel with
  | zero =>
    intro iter st s st' k s' h
    obtain ⟨hq, hss⟩ := ompure_some h; subst hss
    obtain ⟨rfl, -⟩ := Prod.mk.inj hq
    exact ⟨H.refl _, rfl, rfl, Or.inl rfl⟩
  | succ fuel ih =>
    intro iter st s st' k s' h
    unfold l1qc_newton_loop at h
    obtain ⟨⟨st1, stop⟩, s1, h1, h⟩ := ombind_some h
    obtain ⟨atr, s0, a1, a2, a3, a4, -, a5⟩ := newton_body_inv H K h1
    have ha := KT _ _ _ _ a1
    have hI : IterOut R ax st s st1 s1 := ⟨H.trans ha a2, a3, a4, a5.imp (fun h => h.1) fun h => h.mono H ha⟩
    dsimp only at h
    split at h
    · obtain ⟨hq, hss⟩ := ompure_some h; subst hss
      obtain ⟨rfl, -⟩ := Prod.mk.inj hq
      exact hI
    · exact hI.trans H (ih _ _ _ _ _ _ h)

theorem lb_body_inv (H : Preord R) (K : OpsKeep R ax) (KT : ∀ v, Keeps R (ax.Aty v)) {prm : QOpts F} {st st' : QLoop F n m} {s s' : σ}
    (h : l1qc_lb_body ax prm st s = some (st', s')) : IterOut R ax st s st' s' := by
  unfold l1qc_lb_body at h
  dsimp only at h
  obtain ⟨P1, s1, h1, h⟩ := ombind_some h
  obtain ⟨⟨st2, k⟩, s2, h2, h⟩ := ombind_some h
  dsimp only at h
  obtain ⟨nw, s3, h3, h⟩ := ombind_some h
  obtain ⟨-, rfl⟩ := olift_some' h3
  obtain ⟨rfl, rfl⟩ := ompure_some h
  obtain ⟨y, hy, rfl⟩ := f_eval_inv h1
  have hI := newton_loop_inv H K KT _ _ _ _ _ _ _ h2
  have hs1 := K.Ax _ _ _ _ hy
  exact ⟨H.trans hs1 hI.rel, hI.hb, hI.heps, hI.hx.imp id fun h => h.mono H hs1⟩

theorem lb_loop_inv (H : Preord R) (K : OpsKeep R ax) (KT : ∀ v, Keeps R (ax.Aty v)) {prm : QOpts F} (fuel : ℕ) :
    ∀ (iter : Int) (st : QLoop F n m) (s : σ) (st' : QLoop F n m) (s' : σ),
      l1qc_lb_loop ax prm fuel iter st s = some (st', s') → IterOut R ax st s st' s' := by
  induction fuel with
  | zero =>
    intro iter st s st' s' h
    unfold l1qc_lb_loop at h
    split at h
    · obtain ⟨rfl, rfl⟩ := ompure_some h
      exact ⟨H.refl _, rfl, rfl, Or.inl rfl⟩
    · cases h
  | succ fuel ih =>
    intro iter st s st' s' h
    unfold l1qc_lb_loop at h
    obtain ⟨st1, s1, h1, h⟩ := ombind_some h
    exact (lb_body_inv H K KT h1).trans H (ih _ _ _ _ _ h)

/-! ## Counting -/

theorem newton_loop_count {ax : QAx F (σ × ℕ) n m} (K : OpsKeep (fun s s' => s'.2 = s.2) ax)
    (KT : ∀ v s a s', ax.Aty v s = some (a, s') → s'.2 = s.2 + 1) {prm : QOpts F} (fuel : ℕ) :
    ∀ (iter : Int) (st : QLoop F n m) (s : σ × ℕ) (st' : QLoop F n m) (k : Int) (s' : σ × ℕ),
      l1qc_newton_loop ax prm fuel iter st s = some ((st', k), s') → st'.newton = st.newton ∧ s.2 ≤ s'.2 ∧ s'.2 - s.2 ≤ fuel ∧
      ((s'.2 - s.2 = fuel ∧ k = iter + (s'.2 - s.2 : ℕ)) ∨ (0 < s'.2 - s.2 ∧ k = iter + (s'.2 - s.2 : ℕ) - 1)) := by
  have H : Preord (fun s s' : σ × ℕ => s'.2 = s.2) := ⟨fun _ => rfl, fun h1 h2 => h2.trans h1⟩
  induction fuel with
  | zero =>
    intro iter st s st' k s' h
    obtain ⟨hq, hss⟩ := ompure_some h; subst hss
    obtain ⟨rfl, rfl⟩ := Prod.mk.inj hq
    simp
  | succ fuel ih =>
    intro iter st s st' k s' h
    unfold l1qc_newton_loop at h
    obtain ⟨⟨st1, stop⟩, s1, h1, h⟩ := ombind_some h
    obtain ⟨atr, s0, a1, a2, -, -, a5, -⟩ := newton_body_inv H K h1
    have ha := KT _ _ _ _ a1
    dsimp only at h a2
    split at h
    · obtain ⟨hq, hss⟩ := ompure_some h; subst hss
      obtain ⟨rfl, rfl⟩ := Prod.mk.inj hq
      refine ⟨a5, ?_⟩
      omega
    · obtain ⟨b1, b2, b3, b4⟩ := ih _ _ _ _ _ _ h
      refine ⟨b1.trans a5, ?_⟩
      omega

theorem lb_body_count {ax : QAx F (σ × ℕ) n m} (K : OpsKeep (fun s s' => s'.2 = s.2) ax)
    (KT : ∀ v s a s', ax.Aty v s = some (a, s') → s'.2 = s.2 + 1) {prm : QOpts F} {st st' : QLoop F n m} {s s' : σ × ℕ}
    (h : l1qc_lb_body ax prm st s = some (st', s')) :
    ∃ c : ℕ, s'.2 = s.2 + c ∧ c ≤ (prm.newton_max_iter - 1).toNat ∧
      ((c = (prm.newton_max_iter - 1).toNat ∧ st'.newton = st.newton + c + 1) ∨ (0 < c ∧ st'.newton = st.newton + c)) := by
  unfold l1qc_lb_body at h
  dsimp only at h
  obtain ⟨P1, s1, h1, h⟩ := ombind_some h
  obtain ⟨⟨st2, k⟩, s2, h2, h⟩ := ombind_some h
  dsimp only at h
  obtain ⟨nw, s3, h3, h⟩ := ombind_some h
  obtain ⟨hn, rfl⟩ := olift_some' h3
  obtain ⟨rfl, rfl⟩ := ompure_some h
  obtain ⟨y, hy, rfl⟩ := f_eval_inv h1
  have hs1 := K.Ax _ _ _ _ hy
  have hnw : nw = st2.newton + k := by
    unfold cint at hn
    split at hn
    · exact (Option.some.inj hn).symm
    · cases hn
  obtain ⟨b1, b2, b3, b4⟩ := newton_loop_count K KT _ _ _ _ _ _ _ h2
  dsimp only at b1 hs1 ⊢
  refine ⟨s2.2 - s1.2, by omega, b3, ?_⟩
  omega

theorem lb_loop_count {ax : QAx F (σ × ℕ) n m} (K : OpsKeep (fun s s' => s'.2 = s.2) ax)
    (KT : ∀ v s a s', ax.Aty v s = some (a, s') → s'.2 = s.2 + 1) {prm : QOpts F} (fuel : ℕ) :
    ∀ (iter : Int) (st : QLoop F n m) (s : σ × ℕ) (st' : QLoop F n m) (s' : σ × ℕ),
      l1qc_lb_loop ax prm fuel iter st s = some (st', s') →
      ∃ c e : ℕ, s'.2 = s.2 + c ∧ c ≤ fuel * (prm.newton_max_iter - 1).toNat ∧ st'.newton = st.newton + c + e ∧ e ≤ fuel ∧
        e * (prm.newton_max_iter - 1).toNat ≤ c ∧ (prm.newton_max_iter ≤ 1 → e = fuel) := by
  induction fuel with
  | zero =>
    intro iter st s st' s' h
    unfold l1qc_lb_loop at h
    split at h
    · obtain ⟨rfl, rfl⟩ := ompure_some h
      exact ⟨0, 0, by simp⟩
    · cases h
  | succ fuel ih =>
    intro iter st s st' s' h
    unfold l1qc_lb_loop at h
    obtain ⟨st1, s1, h1, h⟩ := ombind_some h
    obtain ⟨c, c1, c2, c3⟩ := lb_body_count K KT h1
    obtain ⟨d, e, d1, d2, d3, d4, d5, d6⟩ := ih _ _ _ _ _ h
    rcases c3 with ⟨c3, c4⟩ | ⟨c3, c4⟩
    · exact ⟨c + d, e + 1, by omega, by rw [Nat.succ_mul]; omega, by omega, by omega, by rw [Nat.succ_mul]; omega,
        fun hk => by rw [d6 hk]⟩
    · exact ⟨c + d, e, by omega, by rw [Nat.succ_mul]; omega, by omega, by omega, by omega, fun hk => absurd hk (by omega)⟩

/-! ## Runs without undefined behaviour -/

theorem cint_fit {z : Int} (h0 : 0 ≤ z) (h1 : z ≤ INT_MAX) : cint z = some z := by
  unfold cint
  rw [if_pos ⟨by have : INT_MIN ≤ 0 := by decide
                 omega, h1⟩]

theorem cint_eq {z y : Int} (h : cint z = some y) : y = z := by
  unfold cint at h
  split at h
  · exact (Option.some.inj h).symm
  · cases h

theorem newton_body_total (T : OpsTotal Inv ax) (hnm : n ≤ m) {prm : QOpts F} (h0 : 0 ≤ prm.cg_maxiter) (h1 : prm.cg_maxiter < INT_MAX)
    (st : QLoop F n m) (hcg : 0 ≤ st.cg) (hcg' : st.cg + prm.cg_maxiter ≤ INT_MAX) (s : σ) (hs : Inv s) :
    ∃ (st' : QLoop F n m) (stop : Bool) (s' : σ), l1qc_newton_body ax prm st s = some ((st', stop), s') ∧ Inv s' ∧ 0 ≤ st'.cg ∧
      st'.cg ≤ st.cg + prm.cg_maxiter ∧ st'.newton = st.newton := by
  unfold l1qc_newton_body
  dsimp only
  obtain ⟨⟨cst, P1, res⟩, s1, hd, hi1⟩ := descent_total T { st.P with dx := warmStart prm.warm_start_cg st.step st.P.dx }
    ⟨prm.cg_maxiter, prm.cg_tol⟩ h0 h1 s hs
  obtain ⟨i0, i1⟩ := descent_iter hd h0
  dsimp only at i1
  rw [ombind hd]
  dsimp only
  rw [ombind (show olift (cint (st.cg + res.cgiter)) s1 = some (st.cg + res.cgiter, s1) by
    rw [cint_fit (by omega) (by omega)]; rfl)]
  obtain ⟨smax, s2, hm, hi2⟩ := max_step_total T hnm P1 s1 hi1
  rw [ombind hm]
  obtain ⟨⟨xu, P2, stat⟩, s3, hl, hi3⟩ := linesearch_total T st.x st.u P1 (ddot P1.gradf_x P1.dx + ddot P1.gradf_u P1.du)
    ⟨lit (1 / 100), lit (1 / 2), smax⟩ s2 hi2
  rw [ombind hl]
  dsimp only
  split
  · exact ⟨_, _, _, rfl, hi3, by dsimp only; omega, by dsimp only; omega, rfl⟩
  · split
    · exact ⟨_, _, _, rfl, hi3, by dsimp only; omega, by dsimp only; omega, rfl⟩
    · exact ⟨_, _, _, rfl, hi3, by dsimp only; omega, by dsimp only; omega, rfl⟩

theorem newton_loop_total (T : OpsTotal Inv ax) (hnm : n ≤ m) {prm : QOpts F} (h0 : 0 ≤ prm.cg_maxiter) (h1 : prm.cg_maxiter < INT_MAX)
    (fuel : ℕ) : ∀ (iter : Int) (st : QLoop F n m) (s : σ), Inv s → 0 ≤ st.cg → st.cg + fuel * prm.cg_maxiter ≤ INT_MAX →
    ∃ (st' : QLoop F n m) (k : Int) (s' : σ), l1qc_newton_loop ax prm fuel iter st s = some ((st', k), s') ∧ Inv s' ∧ 0 ≤ st'.cg ∧
      st'.cg ≤ st.cg + fuel * prm.cg_maxiter ∧ st'.newton = st.newton ∧ iter ≤ k ∧ k ≤ iter + fuel := by
  induction fuel with
  | zero =>
    intro iter st s hs hc hc'
    exact ⟨st, iter, s, rfl, hs, hc, by simp, rfl, le_rfl, by simp⟩
  | succ fuel ih =>
    intro iter st s hs hc hc'
    have hmul : ((fuel + 1 : ℕ) : Int) * prm.cg_maxiter = fuel * prm.cg_maxiter + prm.cg_maxiter := by push_cast; ring
    have hpos : 0 ≤ (fuel : Int) * prm.cg_maxiter := mul_nonneg (by omega) h0
    rw [hmul] at hc' ⊢
    obtain ⟨st1, stop, s1, b1, hi1, b2, b3, b4⟩ := newton_body_total T hnm h0 h1 st hc (by omega) s hs
    unfold l1qc_newton_loop
    rw [ombind b1]
    dsimp only
    cases stop with
    | true =>
      rw [if_pos rfl]
      exact ⟨st1, iter, s1, rfl, hi1, b2, by omega, b4, le_rfl, by push_cast; omega⟩
    | false =>
      rw [if_neg (by decide)]
      obtain ⟨st2, k, s2, d1, hi2, d2, d3, d4, d5, d6⟩ := ih (iter + 1) st1 s1 hi1 b2 (by omega)
      exact ⟨st2, k, s2, d1, hi2, d2, by omega, d4.trans b4, by omega, by push_cast; omega⟩

theorem lb_body_total (T : OpsTotal Inv ax) (hnm : n ≤ m) {prm : QOpts F} (h0 : 0 ≤ prm.cg_maxiter) (h1 : prm.cg_maxiter < INT_MAX)
    (st : QLoop F n m) (s : σ) (hs : Inv s) (hc : 0 ≤ st.cg) (hc' : st.cg + (prm.newton_max_iter - 1).toNat * prm.cg_maxiter ≤ INT_MAX)
    (hn : 0 ≤ st.newton) (hn' : st.newton + ((prm.newton_max_iter - 1).toNat + 1) ≤ INT_MAX) :
    ∃ (st' : QLoop F n m) (s' : σ), l1qc_lb_body ax prm st s = some (st', s') ∧ Inv s' ∧ 0 ≤ st'.cg ∧
      st'.cg ≤ st.cg + (prm.newton_max_iter - 1).toNat * prm.cg_maxiter ∧ 0 ≤ st'.newton ∧
      st'.newton ≤ st.newton + ((prm.newton_max_iter - 1).toNat + 1) := by
  unfold l1qc_lb_body
  dsimp only
  obtain ⟨P1, s1, e1, hi1⟩ := f_eval_total T { st.P with dx := fun _ => lit 0 } st.x st.u s hs
  rw [ombind e1]
  obtain ⟨st2, k, s2, d1, hi2, d2, d3, d4, d5, d6⟩ := newton_loop_total T hnm h0 h1 (prm.newton_max_iter - 1).toNat 1
    { st with P := P1, l1_prev := inf } s1 hi1 hc hc'
  rw [ombind d1]
  dsimp only at d3 d4 ⊢
  rw [ombind (show olift (cint (st2.newton + k)) s2 = some (st2.newton + k, s2) by
    rw [cint_fit (by omega) (by omega)]; rfl)]
  exact ⟨_, _, rfl, hi2, d2, d3, by dsimp only; omega, by dsimp only; omega⟩

theorem lb_loop_total (T : OpsTotal Inv ax) (hnm : n ≤ m) {prm : QOpts F} (h0 : 0 ≤ prm.cg_maxiter) (h1 : prm.cg_maxiter < INT_MAX)
    (fuel : ℕ) : ∀ (iter : Int) (st : QLoop F n m) (s : σ), Inv s → iter + fuel ≤ INT_MAX → 0 ≤ st.cg →
    st.cg + fuel * ((prm.newton_max_iter - 1).toNat * prm.cg_maxiter) ≤ INT_MAX → 0 ≤ st.newton →
    st.newton + fuel * (((prm.newton_max_iter - 1).toNat : Int) + 1) ≤ INT_MAX →
    ∃ r s', l1qc_lb_loop ax prm fuel iter st s = some (r, s') ∧ Inv s' := by
  induction fuel with
  | zero =>
    intro iter st s hs hi hc hc' hn hn'
    unfold l1qc_lb_loop
    rw [if_pos (by simpa using hi)]
    exact ⟨_, _, rfl, hs⟩
  | succ fuel ih =>
    intro iter st s hs hi hc hc' hn hn'
    have e1 : ((fuel + 1 : ℕ) : Int) * ((prm.newton_max_iter - 1).toNat * prm.cg_maxiter) =
      fuel * ((prm.newton_max_iter - 1).toNat * prm.cg_maxiter) + (prm.newton_max_iter - 1).toNat * prm.cg_maxiter := by push_cast; ring
    have e2 : ((fuel + 1 : ℕ) : Int) * (((prm.newton_max_iter - 1).toNat : Int) + 1) =
      fuel * (((prm.newton_max_iter - 1).toNat : Int) + 1) + (((prm.newton_max_iter - 1).toNat : Int) + 1) := by push_cast; ring
    have p1 : 0 ≤ (fuel : Int) * ((prm.newton_max_iter - 1).toNat * prm.cg_maxiter) := mul_nonneg (by omega) (mul_nonneg (by omega) h0)
    have p2 : 0 ≤ (fuel : Int) * (((prm.newton_max_iter - 1).toNat : Int) + 1) := mul_nonneg (by omega) (by omega)
    rw [e1] at hc'
    rw [e2] at hn'
    obtain ⟨st1, s1, b1, hi1, b2, b3, b4, b5⟩ := lb_body_total T hnm h0 h1 st s hs hc (by omega) hn (by omega)
    unfold l1qc_lb_loop
    rw [ombind b1]
    exact ih _ _ _ hi1 (by push_cast at hi; omega) b2 (by omega) b4 (by omega)

theorem solve_total (T : OpsTotal Inv ax) (hnm : n ≤ m) {prm : QOpts F} (h0 : 0 ≤ prm.cg_maxiter) (h1 : prm.cg_maxiter < INT_MAX)
    (h2 : (prm.lbiter.toNat : Int) < INT_MAX) (h3 : prm.lbiter.toNat * ((prm.newton_max_iter - 1).toNat * prm.cg_maxiter) ≤ INT_MAX)
    (h4 : prm.lbiter.toNat * (((prm.newton_max_iter - 1).toNat : Int) + 1) ≤ INT_MAX) (b : Vec F n) (x u : Vec F m) (s : σ)
    (hs : Inv s) : ∃ r s', l1qc_solve ax prm b x u s = some (r, s') ∧ Inv s' := by
  unfold l1qc_solve
  obtain ⟨y, s1, a1, hi1⟩ := T.Ax x s hs
  have hck : l1qc_check_feasible_start ax (qprobZero b prm) x s =
      some (if flt (lit 0) (dnrm2 (vaxpy (lit (-1)) b y) - prm.epsilon) then L1C_INFEASIBLE_START else 0, s1) := by
    unfold l1qc_check_feasible_start
    rw [ombind a1, if_neg (by omega)]; rfl
  rw [ombind hck]
  generalize (if flt (lit 0) (dnrm2 (vaxpy (lit (-1)) b y) - prm.epsilon) = true then L1C_INFEASIBLE_START else 0) = bad
  split
  · exact ⟨_, _, rfl, hi1⟩
  · obtain ⟨st, s2, hl, hi2⟩ := lb_loop_total T hnm h0 h1 prm.lbiter.toNat 1 ⟨x, u, qprobZero b prm, lit 0, lit 0, 0, 0⟩ s1 hi1 (by omega) le_rfl
      (by dsimp only; omega) le_rfl (by dsimp only; omega)
    rw [ombind hl]
    exact ⟨_, _, rfl, hi2⟩

/-! ## The whole computation -/

/-- how a defined run of the solver ends -/
theorem solve_inv {prm : QOpts F} {b : Vec F n} {x u : Vec F m} {out : QOut F n m} {s s' : σ}
    (h : l1qc_solve ax prm b x u s = some (out, s')) : n ≤ m ∧ ∃ y s1, ax.Ax x s = some (y, s1) ∧
      ((flt (lit 0) (dnrm2 (vaxpy (lit (-1)) b y) - prm.epsilon) = true ∧ s' = s1 ∧ out = ⟨⟨dasum x, 0, 0, L1C_INFEASIBLE_START⟩, x, none⟩) ∨
       (flt (lit 0) (dnrm2 (vaxpy (lit (-1)) b y) - prm.epsilon) = false ∧ ∃ st,
        l1qc_lb_loop ax prm prm.lbiter.toNat 1 ⟨x, u, qprobZero b prm, lit 0, lit 0, 0, 0⟩ s1 = some (st, s') ∧
        out = ⟨⟨dasum st.x, st.newton, st.cg, 0⟩, st.x, some st⟩)) := by
  unfold l1qc_solve at h
  obtain ⟨bad, s1, h1, h⟩ := ombind_some h
  unfold l1qc_check_feasible_start at h1
  obtain ⟨y, s2, h2, h1⟩ := ombind_some h1
  split at h1
  · cases h1
  rename_i hnm
  refine ⟨by omega, y, s2, h2, ?_⟩
  obtain ⟨hb, hss⟩ := ompure_some h1
  subst hss
  cases hf : flt (lit 0) (dnrm2 (vaxpy (lit (-1)) b y) - prm.epsilon) with
  | true =>
    rw [if_pos (by rw [← hb]; show (if flt (lit 0) (dnrm2 (vaxpy (lit (-1)) b y) - prm.epsilon) = true then L1C_INFEASIBLE_START else 0) ≠ 0; rw [if_pos hf]; decide)] at h
    obtain ⟨rfl, rfl⟩ := ompure_some h
    exact Or.inl ⟨rfl, rfl, rfl⟩
  | false =>
    rw [if_neg (by rw [← hb]; show ¬ (if flt (lit 0) (dnrm2 (vaxpy (lit (-1)) b y) - prm.epsilon) = true then L1C_INFEASIBLE_START else 0) ≠ 0; rw [if_neg (by rw [hf]; decide)]; decide)] at h
    obtain ⟨st, s3, h3, h⟩ := ombind_some h
    obtain ⟨rfl, rfl⟩ := ompure_some h
    exact Or.inr ⟨rfl, st, h3, rfl⟩

end L1c
