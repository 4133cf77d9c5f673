import Verif.Model.Newton
import Verif.Proofs.NewtonReal
import Verif.Props.CG
import Verif.Props.LineSearch

/-! # The log-barrier Newton solver on finite data -/

namespace L1c
open Scalar Matrix

variable {n m : ℕ} {σ : Type}

/-! ## Running the monad -/

theorem ombind {σ α β : Type} {x : OM σ α} {f : α → OM σ β} {s s' : σ} {a : α} (h : x s = some (a, s')) :
    (x >>= f) s = f a s' := by
  show (x s).bind _ = _
  rw [h]; rfl

theorem ombind_some {σ α β : Type} {x : OM σ α} {f : α → OM σ β} {s s' : σ} {c : β} (h : (x >>= f) s = some (c, s')) :
    ∃ a s1, x s = some (a, s1) ∧ f a s1 = some (c, s') := by
  obtain ⟨⟨a, s1⟩, h1, h2⟩ := Option.bind_eq_some_iff.1 h
  exact ⟨a, s1, h1, h2⟩

theorem ompure {σ α : Type} (a : α) (s : σ) : (pure a : OM σ α) s = some (a, s) := rfl

theorem ompure_some {σ α : Type} {a a' : α} {s s' : σ} (h : (pure a : OM σ α) s = some (a', s')) : a = a' ∧ s = s' :=
  Prod.mk.inj (Option.some.inj h)

theorem olift_some' {σ α : Type} {o : Option α} {a : α} {s s' : σ} (h : (olift o : OM σ α) s = some (a, s')) :
    o = some a ∧ s = s' := by
  obtain ⟨a', h1, h2⟩ := Option.map_eq_some_iff.1 h
  obtain ⟨rfl, rfl⟩ := Prod.mk.inj h2
  exact ⟨h1, rfl⟩

/-! ## Operators that compute real matrices -/

/-- `f` is defined on every input and computes the matrix `M` on finite ones, as long as its private state satisfies `Inv`,
and it keeps `Inv` -/
def LOpIs {k l : ℕ} (f : LOp Dbl σ l k) (Inv : σ → Prop) (M : Matrix (Fin k) (Fin l) ℝ) : Prop :=
  ∀ s, Inv s → ∀ v, ∃ y s', f v s = some (y, s') ∧ Inv s' ∧ ∀ x, v = fvec x → y = fvec (M *ᵥ x)

theorem LOpIs.call {k l : ℕ} {f : LOp Dbl σ l k} {Inv : σ → Prop} {M : Matrix (Fin k) (Fin l) ℝ} (h : LOpIs f Inv M)
    (x : Fin l → ℝ) {s : σ} (hs : Inv s) : ∃ s', f (fvec x) s = some (fvec (M *ᵥ x), s') ∧ Inv s' := by
  obtain ⟨y, s', h1, h2, h3⟩ := h s hs (fvec x)
  exact ⟨s', by rw [h1, h3 x rfl], h2⟩

theorem LOpIs.some {k l : ℕ} {f : LOp Dbl σ l k} {Inv : σ → Prop} {M : Matrix (Fin k) (Fin l) ℝ} (h : LOpIs f Inv M)
    {v : Vec Dbl l} {y : Vec Dbl k} {s s' : σ} (hs : Inv s) (hr : f v s = some (y, s')) :
    Inv s' ∧ ∀ x, v = fvec x → y = fvec (M *ᵥ x) := by
  obtain ⟨y', s'', h1, h2, h3⟩ := h s hs v
  obtain ⟨rfl, rfl⟩ := Prod.mk.inj (Option.some.inj (hr.symm.trans h1))
  exact ⟨h2, h3⟩

/-- the operators compute `A`, `Aᵀ` and `AᵀA` -/
structure QReal (ax : QAx Dbl σ n m) (Inv : σ → Prop) (A : Matrix (Fin n) (Fin m) ℝ) : Prop where
  Ax : LOpIs ax.Ax Inv A
  Aty : LOpIs ax.Aty Inv Aᵀ
  AtAx : LOpIs ax.AtAx Inv (Aᵀ * A)

variable {A : Matrix (Fin n) (Fin m) ℝ} {b : Fin n → ℝ} {eps tau : ℝ} {Inv : σ → Prop} {ax : QAx Dbl σ n m}

/-! ## Objective -/

theorem dlogsum_eq_sum {k : ℕ} (a : Dbl) (x : Vec Dbl k) : dlogsum a x = ∑ i, flog (x i * a) := foldl_add_eq_sum _

theorem dlogsum_fvec {k : ℕ} {x : Fin k → ℝ} (h : ∀ i, x i < 0) :
    dlogsum (lit (-1)) (fvec x) = Dbl.fin (∑ i, Real.log (-x i)) := by
  rw [dlogsum_eq_sum, ← Dbl.fin_sum]
  refine Finset.sum_congr rfl fun i _ => ?_
  rw [fvec_apply, Dbl.lit_eq, Dbl.fin_mul]
  have e : x i * ((-1 : ℚ) : ℝ) = -x i := by push_cast; ring
  rw [e, Dbl.flog_fin (by linarith [h i])]

/-- the problem record holds the data of the point `p` -/
structure EvalAt (A : Matrix (Fin n) (Fin m) ℝ) (b : Fin n → ℝ) (eps tau : ℝ) (p : XU m) (P : QProb Dbl n m) : Prop where
  hb : P.b = fvec b
  htau : P.tau = Dbl.fin tau
  heps : P.epsilon = Dbl.fin eps
  hr : P.r = fvec (A *ᵥ p.1 - b)
  hfu1 : P.fu1 = fvec (fun i => p.1 i - p.2 i)
  hfu2 : P.fu2 = fvec (fun i => -p.1 i - p.2 i)
  hfe : P.fe_val = Dbl.fin (feR A b eps p.1)
  hf : P.f_val = Dbl.fin (barrier A b eps tau p)

theorem fu1_fvec (x u : Fin m → ℝ) : vaxpy (lit (-1)) (fvec u) (fvec x) = fvec (fun i => x i - u i) := by
  rw [Dbl.lit_eq, vaxpy_fvec]; congr 1; funext i; simp; ring

theorem fu2_fvec (x u : Fin m → ℝ) : vaxpby (lit (-1)) (fvec x) (lit (-1)) (fvec u) = fvec (fun i => -x i - u i) := by
  rw [Dbl.lit_eq, vaxpby_fvec]; congr 1; funext i; simp; ring

theorem resid_fvec (b y : Fin n → ℝ) : vaxpy (lit (-1)) (fvec b) (fvec y) = fvec (y - b) := by
  rw [Dbl.lit_eq, vaxpy_fvec]; congr 1; funext i; simp; ring

theorem fe_fin (r : Fin n → ℝ) (eps : ℝ) :
    lit (1 / 2) * (ddot (fvec r) (fvec r) - Dbl.fin eps * Dbl.fin eps) = Dbl.fin ((r ⬝ᵥ r - eps * eps) / 2) := by
  rw [ddot_fvec, Dbl.fin_mul, Dbl.fin_sub, Dbl.lit_eq, Dbl.fin_mul]; congr 1; push_cast; ring

theorem f_eval_fin (hA : LOpIs ax.Ax Inv A) {P : QProb Dbl n m} (hb : P.b = fvec b) (htau : P.tau = Dbl.fin tau)
    (heps : P.epsilon = Dbl.fin eps) (ht : tau ≠ 0) {p : XU m} (hp : StrictFeas A b eps p) {s : σ} (hs : Inv s) :
    ∃ P' s', l1qc_f_eval ax P (fvec p.1) (fvec p.2) s = some (P', s') ∧ Inv s' ∧ EvalAt A b eps tau p P' ∧
      P'.dx = P.dx ∧ P'.du = P.du := by
  obtain ⟨s', h1, h2⟩ := hA.call p.1 hs
  unfold l1qc_f_eval
  rw [ombind h1, ompure]
  refine ⟨_, s', rfl, h2, ⟨hb, htau, heps, ?_, ?_, ?_, ?_, ?_⟩, rfl, rfl⟩
  · simp only [hb, resid_fvec]
  · simp only [fu1_fvec]
  · simp only [fu2_fvec]
  · simp only [hb, resid_fvec, heps, fe_fin]; rfl
  · simp only [hb, resid_fvec, heps, fe_fin, fu2_fvec, htau]
    have hfe : (((A *ᵥ p.1 - b) ⬝ᵥ (A *ᵥ p.1 - b) - eps * eps) / 2 : ℝ) < 0 := hp.fe
    rw [dlogsum_fvec (x := p.1 - p.2) (fun i => by have := (hp.1 i).2; rw [Pi.sub_apply]; linarith), dlogsum_fvec (fun i => by have := (hp.1 i).1; linarith),
      Dbl.fin_neg, Dbl.flog_fin (by linarith), dsum_fvec, Dbl.lit_eq, Dbl.fin_div ht, Dbl.fin_add, Dbl.fin_add, Dbl.fin_mul,
      Dbl.fin_sub]
    congr 1
    unfold barrier
    push_cast
    congr 3
    · congr 1
      · exact Finset.sum_congr rfl fun i _ => by rw [Pi.sub_apply]; congr 1; ring
      · exact Finset.sum_congr rfl fun i _ => by congr 1; ring
    · congr 1; ring

/-! ## Gradient and Newton direction -/

/-- gradient data of a point -/
structure GradAt (A : Matrix (Fin n) (Fin m) ℝ) (b : Fin n → ℝ) (eps tau : ℝ) (p : XU m) (P : QProb Dbl n m) : Prop
    extends EvalAt A b eps tau p P where
  hgx : P.gradf_x = fvec (gxR A b eps tau p)
  hgu : P.gradf_u = fvec (guR tau p)
  hw : P.w1p = fvec (w1pR A b eps tau p)
  h11 : P.sig11 = fvec (s11R p)
  h12 : P.sig12 = fvec (s12R p)
  hn : P.ntgu = fvec (ntguR tau p)

theorem hess_grad_fin {P : QProb Dbl n m} {p : XU m} (hE : EvalAt A b eps tau p P) (ht : tau ≠ 0) (hp : StrictFeas A b eps p) :
    GradAt A b eps tau p (l1qc_hess_grad P (fvec (Aᵀ *ᵥ (A *ᵥ p.1 - b)))).1 ∧
    (l1qc_hess_grad P (fvec (Aᵀ *ᵥ (A *ᵥ p.1 - b)))).2 = fvec (fun i => s11R p i - s12R p i * s12R p i / s11R p i) ∧
    (l1qc_hess_grad P (fvec (Aᵀ *ᵥ (A *ᵥ p.1 - b)))).1.dx = P.dx ∧
    (l1qc_hess_grad P (fvec (Aᵀ *ᵥ (A *ᵥ p.1 - b)))).1.du = P.du := by
  have n1 : ∀ i, p.1 i - p.2 i ≠ 0 := fun i => by have := (hp.1 i).2; intro hc; linarith
  have n2 : ∀ i, -p.1 i - p.2 i ≠ 0 := fun i => by have := (hp.1 i).1; intro hc; linarith
  have n3 : feR A b eps p.1 ≠ 0 := hp.fe.ne
  have n4 : ∀ i, s11R p i ≠ 0 := fun i => (s11_pos hp.1 i).ne'
  have o1 : ∀ i, (lit 1 / P.fu1 i : Dbl) = Dbl.fin (1 / (p.1 i - p.2 i)) := fun i => by
    rw [hE.hfu1, fvec_apply, Dbl.lit_eq, Dbl.fin_div (n1 i)]; norm_num
  have o2 : ∀ i, (lit 1 / P.fu2 i : Dbl) = Dbl.fin (1 / (-p.1 i - p.2 i)) := fun i => by
    rw [hE.hfu2, fvec_apply, Dbl.lit_eq, Dbl.fin_div (n2 i)]; norm_num
  have o3 : (lit 1 / P.fe_val : Dbl) = Dbl.fin (1 / feR A b eps p.1) := by
    rw [hE.hfe, Dbl.lit_eq, Dbl.fin_div n3]; norm_num
  have o4 : (lit (-1) / P.tau : Dbl) = Dbl.fin (-1 / tau) := by
    rw [hE.htau, Dbl.lit_eq, Dbl.fin_div ht]; norm_num
  have a1 : ∀ i, (lit 1 / P.fu1 i * (lit 1 / P.fu1 i) + lit 1 / P.fu2 i * (lit 1 / P.fu2 i) : Dbl) = Dbl.fin (s11R p i) := by
    intro i; rw [o1, o2]; simp [s11R]
  have a2 : ∀ i, (-(lit 1 / P.fu1 i) * (lit 1 / P.fu1 i) + lit 1 / P.fu2 i * (lit 1 / P.fu2 i) : Dbl) = Dbl.fin (s12R p i) := by
    intro i; rw [o1, o2]; simp [s12R]
  have a3 : ∀ i, (lit 1 / P.fu1 i - lit 1 / P.fu2 i + lit 1 / P.fe_val * fvec (Aᵀ *ᵥ (A *ᵥ p.1 - b)) i : Dbl) =
      Dbl.fin (ntgzR A b eps p i) := by
    intro i; rw [o1, o2, o3, fvec_apply, Dbl.fin_sub, Dbl.fin_mul, Dbl.fin_add]; rfl
  have a4 : ∀ i, (-P.tau - lit 1 / P.fu1 i - lit 1 / P.fu2 i : Dbl) = Dbl.fin (ntguR tau p i) := by
    intro i; rw [o1, o2, hE.htau, Dbl.fin_neg, Dbl.fin_sub, Dbl.fin_sub]; rfl
  refine ⟨⟨⟨hE.hb, hE.htau, hE.heps, hE.hr, hE.hfu1, hE.hfu2, hE.hfe, hE.hf⟩, ?_, ?_, ?_, ?_, ?_, ?_⟩, ?_, rfl, rfl⟩
  · funext i; simp only [l1qc_hess_grad, a3, o4, Dbl.fin_mul]; rfl
  · funext i; simp only [l1qc_hess_grad, a4, o4, Dbl.fin_mul]; rfl
  · funext i; simp only [l1qc_hess_grad, a1, a2, a3, a4, Dbl.fin_div (n4 i), Dbl.fin_mul, Dbl.fin_sub]; rfl
  · funext i; simp only [l1qc_hess_grad, a1]; rfl
  · funext i; simp only [l1qc_hess_grad, a2]; rfl
  · funext i; simp only [l1qc_hess_grad, a4]; rfl
  · funext i; simp only [l1qc_hess_grad, a1, a2, Dbl.fin_mul, Dbl.fin_div (n4 i), Dbl.fin_sub]; rfl

/-- the Hessian data handed to the linear solver -/
noncomputable def hessD (A : Matrix (Fin n) (Fin m) ℝ) (b : Fin n → ℝ) (eps : ℝ) (p : XU m) : HessData Dbl m :=
  ⟨Dbl.fin (1 / feR A b eps p.1), Dbl.fin (1 / (feR A b eps p.1 * feR A b eps p.1)), fvec (Aᵀ *ᵥ (A *ᵥ p.1 - b)),
    fvec (fun i => s11R p i - s12R p i * s12R p i / s11R p i)⟩

theorem H11p_fin (h : LOpIs ax.AtAx Inv (Aᵀ * A)) (p : XU m) {s : σ} (hs : Inv s) (v : Vec Dbl m) :
    ∃ y s', l1qc_H11pfun ax (hessD A b eps p) v s = some (y, s') ∧ Inv s' ∧ ∀ z, v = fvec z → y = fvec (redR A b eps p z) := by
  obtain ⟨y, s', h1, h2, h3⟩ := h s hs v
  unfold l1qc_H11pfun
  rw [ombind h1, ompure]
  refine ⟨_, s', rfl, h2, ?_⟩
  rintro z rfl
  rw [h3 z rfl]
  have e : (Aᵀ * A) *ᵥ z = Aᵀ *ᵥ (A *ᵥ z) := by rw [mulVec_mulVec]
  simp only [hessD, ddot_fvec, Dbl.fin_mul, Dbl.fin_neg, vaxpby_fvec, e]
  funext i
  simp only [fvec_apply, Dbl.fin_mul, Dbl.fin_add]
  rfl

/-! ## The linear solver with a callback that keeps an invariant -/

section sim
variable {F : Type} [Scalar F] {N : ℕ} {σ1 σ2 : Type}

theorem cgLoop_sim {R : σ1 → σ2 → Prop} {op1 : Vec F N → σ1 → Vec F N × σ1} {op2 : Vec F N → σ2 → Vec F N × σ2}
    (h : ∀ v s1 s2, R s1 s2 → (op1 v s1).1 = (op2 v s2).1 ∧ R (op1 v s1).2 (op2 v s2).2) (d0 tol : F) (fuel : ℕ) (iter : Int)
    (st : CgState F N) {s1 : σ1} {s2 : σ2} (hR : R s1 s2) {st' : CgState F N} {k : Int} {s2' : σ2}
    (hrun : cgLoop (cgStep op2 d0) tol fuel iter st s2 = some (st', k, s2')) :
    ∃ s1', cgLoop (cgStep op1 d0) tol fuel iter st s1 = some (st', k, s1') ∧ R s1' s2' := by
  induction fuel generalizing iter st s1 s2 with
  | zero =>
    unfold cgLoop at hrun ⊢
    split at hrun
    · obtain ⟨rfl, h2⟩ := Prod.mk.inj (Option.some.inj hrun)
      obtain ⟨rfl, rfl⟩ := Prod.mk.inj h2
      rename_i hle
      exact ⟨s1, by rw [if_pos hle], hR⟩
    · cases hrun
  | succ fuel ih =>
    obtain ⟨h1, h2⟩ := h st.p s1 s2 hR
    have hstep : (cgStep op1 d0 st s1).1 = (cgStep op2 d0 st s2).1 ∧ R (cgStep op1 d0 st s1).2 (cgStep op2 d0 st s2).2 := by
      unfold cgStep
      simp only [h1]
      split <;> exact ⟨rfl, h2⟩
    unfold cgLoop at hrun ⊢
    simp only [hstep.1]
    dsimp only at hrun
    split at hrun
    · rename_i hlt
      obtain ⟨rfl, h2⟩ := Prod.mk.inj (Option.some.inj hrun)
      obtain ⟨rfl, rfl⟩ := Prod.mk.inj h2
      exact ⟨_, by rw [if_pos hlt], hstep.2⟩
    · rename_i hlt
      rw [if_neg hlt]
      exact ih _ _ hstep.2 hrun

theorem cgsolve_sim {R : σ1 → σ2 → Prop} {op1 : Vec F N → σ1 → Vec F N × σ1} {op2 : Vec F N → σ2 → Vec F N × σ2}
    (h : ∀ v s1 s2, R s1 s2 → (op1 v s1).1 = (op2 v s2).1 ∧ R (op1 v s1).2 (op2 v s2).2) (x b : Vec F N) (prm : CgParams F)
    {s1 : σ1} {s2 : σ2} (hR : R s1 s2) {out : CgOut F σ2 N} (hrun : l1c_cgsolve x b op2 s2 prm = some out) :
    ∃ out', l1c_cgsolve x b op1 s1 prm = some out' ∧ out'.x = out.x ∧ out'.res = out.res ∧ R out'.cb out.cb := by
  obtain ⟨h1, h2⟩ := h x s1 s2 hR
  unfold l1c_cgsolve at hrun ⊢
  simp only at hrun ⊢
  have hi : (cgInit op1 x b s1).1 = (cgInit op2 x b s2).1 := by
    unfold cgInit; simp only [h1]
  obtain ⟨⟨st', k, s2'⟩, hl, rfl⟩ := Option.map_eq_some_iff.1 hrun
  obtain ⟨s1', hl', hR'⟩ := cgLoop_sim h (ddot b b) prm.tol prm.max_iter.toNat 1 _ (s1 := (cgInit op1 x b s1).2)
    (s2 := (cgInit op2 x b s2).2) h2 hl
  refine ⟨cgFinish prm (st', k, s1'), ?_, rfl, rfl, hR'⟩
  rw [hi, hl']; rfl

end sim

/-- CG started at zero returns a vector whose product with the right-hand side is its own energy -/
theorem cg_energy {N : ℕ} {H : (Fin N → ℝ) →ₗ[ℝ] (Fin N → ℝ)} (hH : SPD H) {w : Fin N → ℝ} {k : ℕ} (hok : CGOk H 1 w 0 k) :
    w ⬝ᵥ (cgSeq H 1 w 0 k).x = (cgSeq H 1 w 0 k).x ⬝ᵥ H (cgSeq H 1 w 0 k).x := by
  have hI := cgInv (w := 1) hH.1 (fun _ => one_pos) k hok k le_rfl
  have span : ∀ (j : ℕ) (v : Fin N → ℝ), (∀ i < j, v ⬝ᵥ (cgSeq H 1 w 0 i).p = 0) → v ⬝ᵥ (cgSeq H 1 w 0 j).x = 0 := by
    intro j
    induction j with
    | zero => intro v _; show v ⬝ᵥ 0 = 0; simp
    | succ j ih =>
      intro v hv
      show v ⬝ᵥ ((cgSeq H 1 w 0 j).x + _ • (cgSeq H 1 w 0 j).p) = 0
      rw [dotProduct_add, dotProduct_smul, hv j (by omega), ih v fun i hi => hv i (by omega)]; simp
  have h0 := span k _ hI.rp
  rw [cgSeq_r, sub_dotProduct] at h0
  rw [dotProduct_comm (cgSeq H 1 w 0 k).x]
  linarith

/-- the call of the linear solver -/
theorem cg_fin (h : LOpIs ax.AtAx Inv (Aᵀ * A)) (p : XU m) {s : σ} (hs : Inv s) (x0 w : Fin m → ℝ) (prm : CgParams Dbl)
    (hmax : prm.max_iter < INT_MAX) :
    ∃ dx res s', l1qc_cg ax (hessD A b eps p) (fvec x0) (fvec w) prm s = some ((fvec dx, res), s') ∧ Inv s' ∧
      (w ≠ 0 → res.cgres = Dbl.fin (nrm (w - redR A b eps p dx) / nrm w)) ∧
      (w = 0 → dx = x0 ∧ res.cgres = fsqrt (Dbl.fin (redR A b eps p x0 ⬝ᵥ redR A b eps p x0) / Dbl.fin 0)) ∧
      (SPD (redR A b eps p) → x0 = 0 → w ⬝ᵥ dx = dx ⬝ᵥ redR A b eps p dx) ∧
      (SPD (redR A b eps p) → (m : Int) ≤ prm.max_iter → ¬ Dbl.Lt (.fin 0) prm.tol → w ≠ 0 → redR A b eps p dx = w) ∧
      (SPD (redR A b eps p) → (m : Int) ≤ prm.max_iter → w ≠ 0 → redR A b eps p dx = w ∨ Dbl.Lt res.cgres prm.tol) := by
  classical
  choose y s1 h1 h2 h3 using fun (t : {t // Inv t}) => H11p_fin (A := A) (b := b) (eps := eps) h p t.2
  let op2 : Vec Dbl m → {t // Inv t} → Vec Dbl m × {t // Inv t} := fun v t => (y t v, ⟨s1 t v, h2 t v⟩)
  have hop : ∀ v t, (op2 (fvec v) t).1 = fvec (redR A b eps p v) := fun v t => h3 t _ v rfl
  have hR : ∀ v (t1 : Option σ) (t2 : {t // Inv t}), t1 = some t2.1 →
      (poison (l1qc_H11pfun ax (hessD A b eps p)) id v t1).1 = (op2 v t2).1 ∧
      (poison (l1qc_H11pfun ax (hessD A b eps p)) id v t1).2 = some (op2 v t2).2.1 := by
    rintro v _ t rfl
    unfold poison
    simp only [h1 t v]
    exact ⟨rfl, rfl⟩
  have fin : ∀ (out : CgOut Dbl {t // Inv t} m) (dx : Fin m → ℝ), l1c_cgsolve (fvec x0) (fvec w) op2 ⟨s, hs⟩ prm = some out →
      out.x = fvec dx → l1qc_cg ax (hessD A b eps p) (fvec x0) (fvec w) prm s = some ((fvec dx, out.res), out.cb.1) := by
    intro out dx hrun hx
    obtain ⟨out', g1, g2, g3, g4⟩ := cgsolve_sim hR (fvec x0) (fvec w) prm (s1 := some s) rfl hrun
    unfold l1qc_cg
    rw [g1]
    dsimp only
    rw [g4, g2, g3, hx]; rfl
  by_cases hw : w = 0
  · subst hw
    obtain ⟨out, g1, g2, g3⟩ := cg_zero_rhs x0 (redR A b eps p x0) op2 ⟨s, hs⟩ (hop x0 _) prm hmax
    exact ⟨x0, out.res, out.cb.1, fin out x0 g1 g2, out.cb.2, fun hc => absurd rfl hc, fun _ => ⟨rfl, g3⟩,
      fun _ h0 => by subst h0; simp, fun _ _ _ hc => absurd rfl hc, fun _ _ hc => absurd rfl hc⟩
  · obtain ⟨out, g1, dx, g2, g3, -, ⟨k, -, hok, hk⟩, -⟩ := C12_cgsolve (redR A b eps p) w x0 hw op2 hop ⟨s, hs⟩ prm hmax
    refine ⟨dx, out.res, out.cb.1, fin out dx g1 g2, out.cb.2, fun _ => g3, fun hc => absurd hc hw, fun hspd h0 => ?_,
      fun hspd hm htol _ => ?_, fun hspd hm _ => ?_⟩
    · subst h0; rw [hk]; exact cg_energy hspd hok
    all_goals obtain ⟨out', g1', dx', g2', g3', g4'⟩ := C14_solves (redR A b eps p) hspd w x0 hw op2 hop ⟨s, hs⟩ prm hmax hm
    all_goals obtain rfl := Option.some.inj (g1.symm.trans g1')
    all_goals rw [fvec_injective (g2.symm.trans g2')]
    · exact g4' htol
    · exact g3'

/-- the whole direction computation at a strictly feasible point -/
theorem descent_fin (R : QReal ax Inv A) {P : QProb Dbl n m} {p : XU m} (hE : EvalAt A b eps tau p P) (ht : tau ≠ 0)
    (hp : StrictFeas A b eps p) {x0 u0 : Fin m → ℝ} (hx0 : P.dx = fvec x0) (hu0 : P.du = fvec u0) (prm : CgParams Dbl)
    (hmax : prm.max_iter < INT_MAX) {s : σ} (hs : Inv s) :
    ∃ (st : Int) (P' : QProb Dbl n m) (res : CgResults Dbl) (s' : σ) (dx du : Fin m → ℝ),
      l1qc_descent_dir ax P prm s = some ((st, P', res), s') ∧ Inv s' ∧ GradAt A b eps tau p P' ∧
      P'.dx = fvec dx ∧ P'.du = fvec du ∧ (st = 0 → du = duR tau p dx) ∧ (st ≠ 0 → du = u0) ∧
      (st = 0 ↔ flt (lit (1 / 2)) res.cgres = false) ∧
      (w1pR A b eps tau p ≠ 0 → res.cgres = Dbl.fin (nrm (w1pR A b eps tau p - redR A b eps p dx) / nrm (w1pR A b eps tau p))) ∧
      (w1pR A b eps tau p = 0 → dx = x0 ∧
        res.cgres = fsqrt (Dbl.fin (redR A b eps p x0 ⬝ᵥ redR A b eps p x0) / Dbl.fin 0)) ∧
      (x0 = 0 → w1pR A b eps tau p ⬝ᵥ dx = dx ⬝ᵥ redR A b eps p dx) ∧
      ((m : Int) ≤ prm.max_iter → ¬ Dbl.Lt (.fin 0) prm.tol → w1pR A b eps tau p ≠ 0 → redR A b eps p dx = w1pR A b eps tau p) ∧
      ((m : Int) ≤ prm.max_iter → w1pR A b eps tau p ≠ 0 → redR A b eps p dx = w1pR A b eps tau p ∨ Dbl.Lt res.cgres prm.tol) := by
  obtain ⟨s1, h1, hs1⟩ := R.Aty.call (A *ᵥ p.1 - b) hs
  obtain ⟨hG, hsx, hdx, hdu⟩ := hess_grad_fin hE ht hp
  obtain ⟨dx, res, s2, h2, hs2, c1, c2, c3, c4, c5⟩ := cg_fin (b := b) (eps := eps) R.AtAx p hs1 x0 (w1pR A b eps tau p) prm hmax
  have n3 : feR A b eps p.1 ≠ 0 := hp.fe.ne
  have n4 : ∀ i, s11R p i ≠ 0 := fun i => (s11_pos hp.1 i).ne'
  have hH : (⟨lit 1 / P.fe_val, lit 1 / (P.fe_val * P.fe_val), fvec (Aᵀ *ᵥ (A *ᵥ p.1 - b)),
      (l1qc_hess_grad P (fvec (Aᵀ *ᵥ (A *ᵥ p.1 - b)))).2⟩ : HessData Dbl m) = hessD A b eps p := by
    rw [hsx, hE.hfe, Dbl.fin_mul, Dbl.lit_eq, Dbl.fin_div n3, Dbl.fin_div (mul_ne_zero n3 n3)]
    simp [hessD]
  have hrun : l1qc_descent_dir ax P prm s = (if flt (lit (1 / 2)) res.cgres = true then
      (pure (L1C_CGSOLVE_FAILURE, { (l1qc_hess_grad P (fvec (Aᵀ *ᵥ (A *ᵥ p.1 - b)))).1 with dx := fvec dx }, res) : OM σ _)
      else pure (0, { (l1qc_hess_grad P (fvec (Aᵀ *ᵥ (A *ᵥ p.1 - b)))).1 with dx := fvec dx, du := fvec (duR tau p dx) }, res)) s2 := by
    unfold l1qc_descent_dir
    rw [hE.hr, ombind h1]
    dsimp only
    rw [hH, hdx, hx0, hG.hw, ombind h2]
    dsimp only
    have e : (fun i => lit 1 / (l1qc_hess_grad P (fvec (Aᵀ *ᵥ (A *ᵥ p.1 - b)))).1.sig11 i *
        (l1qc_hess_grad P (fvec (Aᵀ *ᵥ (A *ᵥ p.1 - b)))).1.ntgu i -
        (l1qc_hess_grad P (fvec (Aᵀ *ᵥ (A *ᵥ p.1 - b)))).1.sig12 i / (l1qc_hess_grad P (fvec (Aᵀ *ᵥ (A *ᵥ p.1 - b)))).1.sig11 i *
        fvec dx i : Vec Dbl m) = fvec (duR tau p dx) := by
      funext i
      rw [hG.h11, hG.h12, hG.hn]
      simp only [fvec_apply, Dbl.lit_eq, Dbl.fin_div (n4 i), Dbl.fin_mul, Dbl.fin_sub]
      congr 1
      unfold duR; push_cast; ring
    rw [e]
  cases hlt : flt (lit (1 / 2)) res.cgres with
  | true =>
    refine ⟨L1C_CGSOLVE_FAILURE, { (l1qc_hess_grad P (fvec (Aᵀ *ᵥ (A *ᵥ p.1 - b)))).1 with dx := fvec dx }, res, s2, dx, u0, ?_,
      hs2, ⟨⟨hG.hb, hG.htau, hG.heps, hG.hr, hG.hfu1, hG.hfu2, hG.hfe, hG.hf⟩, hG.hgx, hG.hgu, hG.hw, hG.h11, hG.h12, hG.hn⟩,
      rfl, hdu.trans hu0, fun hc => absurd hc (by decide), fun _ => rfl, by rw [hlt]; simp [L1C_CGSOLVE_FAILURE], c1, c2, c3 (redR_spd hp), c4 (redR_spd hp), c5 (redR_spd hp)⟩
    rw [hrun, if_pos hlt]; rfl
  | false =>
    refine ⟨0, { (l1qc_hess_grad P (fvec (Aᵀ *ᵥ (A *ᵥ p.1 - b)))).1 with dx := fvec dx, du := fvec (duR tau p dx) }, res, s2, dx,
      duR tau p dx, ?_, hs2,
      ⟨⟨hG.hb, hG.htau, hG.heps, hG.hr, hG.hfu1, hG.hfu2, hG.hfe, hG.hf⟩, hG.hgx, hG.hgu, hG.hw, hG.h11, hG.h12, hG.hn⟩,
      rfl, rfl, fun _ => rfl, fun hc => absurd rfl hc, by rw [hlt]; exact ⟨fun _ => rfl, fun _ => rfl⟩, c1, c2, c3 (redR_spd hp), c4 (redR_spd hp), c5 (redR_spd hp)⟩
    rw [hrun, if_neg (by rw [hlt]; exact Bool.false_ne_true)]; rfl

end L1c
