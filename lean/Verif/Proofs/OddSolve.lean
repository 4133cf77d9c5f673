import Verif.Model.CG
import Verif.Model.Nesta
import Verif.Proofs.TvFloat

/-! # Negated data in the solvers, for arithmetic symmetric under change of sign -/

namespace L1c
open Scalar

/-- all that the solvers need of a change of sign -/
structure OddLaws (F : Type) [Scalar F] : Prop extends SignLaws F where
  div : ∀ a b : F, -a / b = -(a / b)
  abs : ∀ a : F, fabs (-a) = fabs a

section
variable {F : Type} [Scalar F] {N : ℕ}

/-- entrywise negative -/
def vneg (x : Vec F N) : Vec F N := fun i => -x i

theorem vneg_vneg (L : OddLaws F) (x : Vec F N) : vneg (vneg x) = x := funext fun _ => L.neg_neg _

theorem ddot_neg (L : OddLaws F) (x y : Vec F N) : ddot (vneg x) (vneg y) = ddot x y := by
  unfold ddot vneg
  simp only [L.neg_mul, L.mul_neg, L.neg_neg]

theorem vaxpy_neg (L : OddLaws F) (a : F) (x y : Vec F N) : vaxpy a (vneg x) (vneg y) = vneg (vaxpy a x y) := by
  unfold vaxpy vneg
  simp only [L.mul_neg, L.add]

theorem vaxpby_neg (L : OddLaws F) (a b : F) (x y : Vec F N) : vaxpby a (vneg x) b (vneg y) = vneg (vaxpby a x b y) := by
  unfold vaxpby vneg
  simp only [L.mul_neg, L.add]

theorem vmul_neg (L : OddLaws F) (x y : Vec F N) : vmul (vneg x) y = vneg (vmul x y) := by
  unfold vmul vneg
  simp only [L.neg_mul]

theorem dnrm2_neg (L : OddLaws F) (x : Vec F N) : dnrm2 (vneg x) = dnrm2 x := by
  unfold dnrm2
  rw [ddot_neg L]

theorem vnrm2err_neg (L : OddLaws F) (x y : Vec F N) : vnrm2err (vneg x) (vneg y) = vnrm2err x y := by
  unfold vnrm2err
  rw [← dnrm2_neg L fun i => x i - y i]
  unfold vneg
  simp only [L.sub]

/-! ## conjugate gradients -/
variable {σ : Type}

/-- negated vectors, same scalars -/
def CgState.neg (st : CgState F N) : CgState F N := ⟨vneg st.x, vneg st.r, vneg st.p, vneg st.bestx, st.delta, st.best⟩

/-- an operator that commutes with change of sign and whose private state does not see it -/
def OpOdd (op : Vec F N → σ → Vec F N × σ) : Prop := ∀ x s, op (vneg x) s = (vneg (op x s).1, (op x s).2)

theorem cgInit_neg (L : OddLaws F) {op : Vec F N → σ → Vec F N × σ} (ho : OpOdd op) (x b : Vec F N) (s : σ) :
    cgInit op (vneg x) (vneg b) s = ((cgInit op x b s).1.neg, (cgInit op x b s).2) := by
  unfold cgInit CgState.neg
  simp only [ho x s, vaxpby_neg L, ddot_neg L]

theorem cgStep_neg (L : OddLaws F) {op : Vec F N → σ → Vec F N × σ} (ho : OpOdd op) (d : F) (st : CgState F N) (s : σ) :
    cgStep op d st.neg s = (((cgStep op d st s).1.1.neg, (cgStep op d st s).1.2), (cgStep op d st s).2) := by
  unfold cgStep CgState.neg
  simp only [ho st.p s, vaxpby_neg L, vaxpy_neg L, ddot_neg L]
  split_ifs <;> rfl

theorem pcgInit_neg (L : OddLaws F) {op : Vec F N → σ → Vec F N × σ} (ho : OpOdd op) (x b Minv : Vec F N) (s : σ) :
    pcgInit op (vneg x) (vneg b) Minv s = ((pcgInit op x b Minv s).1.neg, (pcgInit op x b Minv s).2) := by
  unfold pcgInit CgState.neg
  simp only [ho x s, vaxpby_neg L, vmul_neg L, ddot_neg L]

theorem pcgStep_neg (L : OddLaws F) {op : Vec F N → σ → Vec F N × σ} (ho : OpOdd op) (Minv : Vec F N) (d : F) (st : CgState F N) (s : σ) :
    pcgStep op Minv d st.neg s = (((pcgStep op Minv d st s).1.1.neg, (pcgStep op Minv d st s).1.2), (pcgStep op Minv d st s).2) := by
  unfold pcgStep CgState.neg
  simp only [ho st.p s, vaxpby_neg L, vaxpy_neg L, vmul_neg L, ddot_neg L]
  split_ifs <;> rfl

theorem cgLoop_neg {step : CgState F N → σ → (CgState F N × F) × σ} (hs : ∀ st s, step st.neg s = (((step st s).1.1.neg, (step st s).1.2), (step st s).2)) (tol : F)
    (fuel : ℕ) (iter : Int) (st : CgState F N) (s : σ) :
    cgLoop step tol fuel iter st.neg s = (cgLoop step tol fuel iter st s).map fun t => (t.1.neg, t.2) := by
  induction fuel generalizing iter st s with
  | zero =>
    unfold cgLoop
    split_ifs <;> rfl
  | succ k ih =>
    unfold cgLoop
    simp only [hs]
    split_ifs
    · rfl
    · exact ih _ _ _

theorem cgsolve_neg (L : OddLaws F) {op : Vec F N → σ → Vec F N × σ} (ho : OpOdd op) (x b : Vec F N) (s : σ) (prm : CgParams F) :
    l1c_cgsolve (vneg x) (vneg b) op s prm = (l1c_cgsolve x b op s prm).map fun o => ⟨vneg o.x, o.res, o.cb⟩ := by
  unfold l1c_cgsolve
  simp only [cgInit_neg L ho, ddot_neg L, cgLoop_neg (cgStep_neg L ho _), Option.map_map]
  rfl

theorem pcgsolve_neg (L : OddLaws F) {op : Vec F N → σ → Vec F N × σ} (ho : OpOdd op) (x b Minv : Vec F N) (s : σ) (prm : CgParams F) :
    l1c_cgsolve_diag_precond (vneg x) (vneg b) Minv op s prm = (l1c_cgsolve_diag_precond x b Minv op s prm).map fun o => ⟨vneg o.x, o.res, o.cb⟩ := by
  unfold l1c_cgsolve_diag_precond
  simp only [pcgInit_neg L ho, ddot_neg L, cgLoop_neg (pcgStep_neg L ho _ _), Option.map_map]
  rfl

/-! ## NESTA -/

/-- two runs are both undefined, or end in the same state with related results -/
def RelO {α β S : Type} (R : α → β → Prop) : Option (α × S) → Option (β × S) → Prop
  | none, none => True
  | some a, some b => R a.1 b.1 ∧ a.2 = b.2
  | _, _ => False

section
variable {α β γ δ : Type} {R : α → β → Prop} {Q : γ → δ → Prop}

/-- related in every state -/
def RelN (R : α → β → Prop) (x : NM σ α) (y : NM σ β) : Prop := ∀ s, RelO R (x s) (y s)

theorem RelN.pure {a : α} {b : β} (h : R a b) : RelN (σ := σ) R (Pure.pure a) (Pure.pure b) := fun _ => ⟨h, rfl⟩

theorem RelN.bind {x : NM σ α} {y : NM σ β} {f : α → NM σ γ} {g : β → NM σ δ} (h : RelN R x y) (k : ∀ a b, R a b → RelN Q (f a) (g b)) :
    RelN Q (x >>= f) (y >>= g) := fun s => by
  have hs := h s
  show RelO Q ((x s).bind fun r => f r.1 r.2) ((y s).bind fun r => g r.1 r.2)
  match hx : x s, hy : y s with
  | none, none => trivial
  | some a, some b =>
    rw [hx, hy] at hs
    obtain ⟨h1, h2⟩ := hs
    show RelO Q (f a.1 a.2) (g b.1 b.2)
    rw [← h2]
    exact k _ _ h1 _
  | none, some b => rw [hx, hy] at hs; exact hs.elim
  | some a, none => rw [hx, hy] at hs; exact hs.elim

theorem RelN.same (x : NM σ α) : RelN Eq x x := fun s => by
  cases h : x s with
  | none => trivial
  | some a => exact ⟨rfl, rfl⟩

theorem RelN.lift {o : Option α} {o' : Option β} (h : (o = none ∧ o' = none) ∨ ∃ a b, o = some a ∧ o' = some b ∧ R a b) : RelN (σ := σ) R (nlift o) (nlift o') := fun s => by
  rcases h with ⟨rfl, rfl⟩ | ⟨a, b, rfl, rfl, h⟩
  · trivial
  · exact ⟨h, rfl⟩
end

/-- the first `k` entries are negated -/
def NegPre (k : ℕ) (v w : Vec F N) : Prop := ∀ i : Fin N, i.val < k → w i = -v i

omit [Scalar F] in
theorem slice_any (k : ℕ) (v w : Vec F N) : RelN (σ := σ) (fun _ _ => True) (nlift (slice k 0 v)) (nlift (slice k 0 w)) := by
  refine RelN.lift ?_
  unfold slice
  split_ifs
  · exact Or.inr ⟨_, _, rfl, rfl, trivial⟩
  · exact Or.inl ⟨rfl, rfl⟩

theorem slice_pre {k : ℕ} {v w : Vec F N} (h : NegPre k v w) : RelN (σ := σ) (fun a b => b = vneg a) (nlift (slice k 0 v)) (nlift (slice k 0 w)) := by
  refine RelN.lift ?_
  unfold slice
  split_ifs
  · exact Or.inr ⟨_, _, rfl, rfl, funext fun i => h _ (by simp)⟩
  · exact Or.inl ⟨rfl, rfl⟩

theorem write_pre {k : ℕ} (x : Vec F k) (v w : Vec F N) : RelN (σ := σ) (NegPre k) (nlift (writeAt 0 x v)) (nlift (writeAt 0 (vneg x) w)) := by
  refine RelN.lift ?_
  unfold writeAt
  split_ifs
  · refine Or.inr ⟨_, _, rfl, rfl, fun i hi => ?_⟩
    have hk : 0 ≤ i.val ∧ i.val - 0 < k := ⟨Nat.zero_le _, by omega⟩
    show (if h : 0 ≤ i.val ∧ i.val - 0 < k then vneg x ⟨i.val - 0, h.2⟩ else w i) = -(if h : 0 ≤ i.val ∧ i.val - 0 < k then x ⟨i.val - 0, h.2⟩ else v i)
    rw [dif_pos hk, dif_pos hk]
    rfl
  · exact Or.inl ⟨rfl, rfl⟩

theorem write_pre_all {k : ℕ} (x : Vec F k) {v w : Vec F N} (h : ∀ i, w i = -v i) :
    RelN (σ := σ) (fun a b => ∀ i, b i = -a i) (nlift (writeAt 0 x v)) (nlift (writeAt 0 (vneg x) w)) := by
  refine RelN.lift ?_
  unfold writeAt
  split_ifs
  · refine Or.inr ⟨_, _, rfl, rfl, fun i => ?_⟩
    show (if h : 0 ≤ i.val ∧ i.val - 0 < k then vneg x ⟨i.val - 0, h.2⟩ else w i) = -(if h : 0 ≤ i.val ∧ i.val - 0 < k then x ⟨i.val - 0, h.2⟩ else v i)
    split_ifs
    · rfl
    · exact h i
  · exact Or.inl ⟨rfl, rfl⟩

omit [Scalar F] in
/-- the same vector written in both runs -/
theorem write_same {k l : ℕ} (hl : l ≤ k) (x : Vec F k) (v w : Vec F N) :
    RelN (σ := σ) (fun a b => slice l 0 a = slice l 0 b) (nlift (writeAt 0 x v)) (nlift (writeAt 0 x w)) := by
  refine RelN.lift ?_
  unfold writeAt
  split_ifs
  · refine Or.inr ⟨_, _, rfl, rfl, ?_⟩
    unfold slice
    split_ifs
    · congr 1
      funext i
      have hk : 0 ≤ 0 + i.val ∧ 0 + i.val - 0 < k := ⟨Nat.zero_le _, by omega⟩
      show (if h : 0 ≤ 0 + i.val ∧ 0 + i.val - 0 < k then x ⟨0 + i.val - 0, h.2⟩ else _) = (if h : 0 ≤ 0 + i.val ∧ 0 + i.val - 0 < k then x ⟨0 + i.val - 0, h.2⟩ else _)
      rw [dif_pos hk, dif_pos hk]
    · rfl
  · exact Or.inl ⟨rfl, rfl⟩

/-- an operator that overwrites its output whatever was there, commutes with change of sign, and whose private state
does not see the sign (nor its definedness) -/
def NOp.Odd {l k : ℕ} (f : Option (NOp F σ l k)) : Prop :=
  ∀ g, f = some g → ∀ x old old' s, g (vneg x) old' s = (g x old s).map fun r => ((vneg r.1.1, vneg r.1.2), r.2)

theorem ncall_neg {l k : ℕ} {f : Option (NOp F σ l k)} (hf : NOp.Odd f) (x : Vec F l) (old old' : Vec F k) :
    RelN (fun a b => b = (vneg a.1, vneg a.2)) (ncall f x old) (ncall f (vneg x) old') := fun s => by
  unfold ncall
  cases f with
  | none => trivial
  | some g =>
    dsimp only
    rw [hf g rfl x old old' s.cb]
    cases g x old s.cb with
    | none => trivial
    | some r => exact ⟨rfl, rfl⟩

variable {n m p : ℕ}

/-- the operators of a set are odd -/
structure NAx.Odd (ax : NAx F σ n m p) : Prop where
  Ax : NOp.Odd ax.Ax
  Aty : NOp.Odd ax.Aty
  Wz : NOp.Odd ax.Wz
  Wtx : NOp.Odd ax.Wtx

/-- everything but the work arrays is negated or, for scalars, the same -/
structure PNeg (P Q : NestaProb F n m p) : Prop where
  fx : Q.fx = P.fx
  xo : Q.xo = vneg P.xo
  xk : Q.xk = vneg P.xk
  yk : Q.yk = vneg P.yk
  Atb : Q.Atb = vneg P.Atb
  gradf : Q.gradf = vneg P.gradf
  gradf_sum : Q.gradf_sum = vneg P.gradf_sum
  b : Q.b = vneg P.b
  sigma : Q.sigma = P.sigma
  mu_j : Q.mu_j = P.mu_j
  tol_j : Q.tol_j = P.tol_j
  L : Q.L = P.L

theorem project_neg (L : OddLaws F) {ax : NAx F σ n m p} (ho : ax.Odd) {P Q : NestaProb F n m p} (h : PNeg P Q) (xx g : Vec F m) :
    RelN (fun a b => b.1 = vneg a.1 ∧ PNeg a.2 b.2) (l1c_nesta_project ax P xx g) (l1c_nesta_project ax Q (vneg xx) (vneg g)) := by
  unfold l1c_nesta_project
  dsimp only
  rw [vaxpy_neg L, h.L, h.mu_j]
  refine (slice_any _ _ _).bind fun _ _ _ => ?_
  refine (ncall_neg ho.Ax _ _ _).bind ?_
  rintro ⟨vk, Aq⟩ _ rfl
  dsimp only
  refine (write_pre _ _ _).bind fun d2 e2 hd => ?_
  refine (slice_pre hd).bind ?_
  rintro Aq _ rfl
  refine (slice_any _ _ _).bind fun _ _ _ => ?_
  refine (ncall_neg ho.Aty _ _ _).bind ?_
  rintro ⟨Aq, AtAq⟩ _ rfl
  dsimp only
  refine (write_pre _ _ _).bind fun d2 e2 _ => ?_
  refine (write_pre _ _ _).bind fun d1 e1 hd1 => ?_
  refine (slice_pre hd1).bind ?_
  rintro AtAq _ rfl
  rw [h.b, h.sigma, h.Atb, vnrm2err_neg L, vaxpy_neg L, vaxpy_neg L]
  exact RelN.pure ⟨rfl, ⟨h.fx, h.xo, h.xk, h.yk, rfl, h.gradf, h.gradf_sum, rfl, rfl, rfl, h.tol_j, rfl⟩⟩

theorem feval_neg (L : OddLaws F) {ax : NAx F σ n m p} (ho : ax.Odd) {P Q : NestaProb F n m p} (h : PNeg P Q) :
    RelN PNeg (l1c_nesta_feval ax P) (l1c_nesta_feval ax Q) := by
  unfold l1c_nesta_feval
  refine (slice_any _ _ _).bind fun _ _ _ => ?_
  rw [h.xk]
  refine (ncall_neg ho.Wtx _ _ _).bind ?_
  rintro ⟨xk, r⟩ _ rfl
  dsimp only
  refine (write_pre _ _ _).bind fun d1 e1 hd => ?_
  refine (slice_pre hd).bind ?_
  rintro w _ rfl
  have e : (fun i => vneg w i / cmax Q.mu_j (fabs (vneg w i))) = vneg fun i => w i / cmax P.mu_j (fabs (w i)) := by
    funext i
    unfold vneg
    rw [L.abs, L.div, h.mu_j]
  rw [e]
  refine (write_pre _ _ _).bind fun d2 e2 hd => ?_
  refine (slice_pre hd).bind ?_
  rintro u _ rfl
  refine (ncall_neg ho.Wz _ _ _).bind ?_
  rintro ⟨u', gradf⟩ _ rfl
  dsimp only
  refine (write_pre _ _ _).bind fun d2 e2 _ => ?_
  refine RelN.pure ⟨?_, h.xo, rfl, h.yk, h.Atb, rfl, h.gradf_sum, h.b, h.sigma, h.mu_j, h.tol_j, h.L⟩
  simp only [ddot_neg L, dnrm2_neg L, h.mu_j]

theorem setup_neg (L : OddLaws F) {ax : NAx F σ n m p} (ho : ax.Odd) (hp : p ≤ m) (b b' : Vec F n) (hb : b' = vneg b) (opts : NestaOpts F) :
    RelN (fun a b => b.1 = a.1 ∧ (a.1 = 0 → PNeg a.2.1 b.2.1) ∧ b.2.2 = a.2.2) (l1c_nesta_setup ax (nestaZero b) b opts) (l1c_nesta_setup ax (nestaZero b') b' opts) := by
  subst hb
  unfold l1c_nesta_setup
  split_ifs with hc
  · exact RelN.pure ⟨rfl, fun h => absurd h (by decide : ¬ L1C_INCONSISTENT_ARGUMENTS = 0), rfl⟩
  dsimp only
  refine (ncall_neg ho.Aty _ _ _).bind ?_
  rintro ⟨b2, Atb⟩ _ rfl
  dsimp only
  refine (slice_any _ _ _).bind fun _ _ _ => ?_
  refine (ncall_neg ho.Wtx _ _ _).bind ?_
  rintro ⟨xo, r⟩ _ rfl
  dsimp only
  refine (write_pre_all _ fun i => by unfold nestaZero; exact L.zero.symm).bind fun d1 e1 hd => ?_
  refine (slice_pre (k := m) fun i _ => hd i).bind ?_
  rintro head _ rfl
  have e : (fun i => fabs (vneg head i)) = fun i => fabs (head i) := funext fun i => L.abs _
  rw [e]
  refine (write_same hp _ _ _).bind fun d2 e2 hs => ?_
  rw [← hs]
  refine (RelN.same _).bind ?_
  rintro ref _ rfl
  refine RelN.pure ⟨rfl, fun _ => ⟨rfl, rfl, ?_, ?_, rfl, ?_, ?_, rfl, rfl, rfl, rfl, rfl⟩, rfl⟩ <;>
    exact funext fun i => L.zero.symm

theorem project_neg' (L : OddLaws F) {ax : NAx F σ n m p} (ho : ax.Odd) {P Q : NestaProb F n m p} {xx xx' g g' : Vec F m} (h : PNeg P Q) (hx : xx' = vneg xx) (hg : g' = vneg g) :
    RelN (fun a b => b.1 = vneg a.1 ∧ PNeg a.2 b.2) (l1c_nesta_project ax P xx g) (l1c_nesta_project ax Q xx' g') := by
  subst hx hg
  exact project_neg L ho h _ _

theorem body_neg (L : OddLaws F) {ax : NAx F σ n m p} (ho : ax.Odd) (k : ℕ) {st st' : NLoop F n m p} (h : PNeg st.P st'.P) (hf : st'.fifo = st.fifo) :
    RelN (fun a b => PNeg a.1.P b.1.P ∧ b.1.fifo = a.1.fifo ∧ b.2 = a.2) (nestaBody ax k st) (nestaBody ax k st') := by
  unfold nestaBody
  refine RelN.bind (feval_neg L ho h) fun P Q h => ?_
  refine RelN.bind (project_neg' L ho h h.xk h.gradf) fun y y' hy => ?_
  obtain ⟨yk, P1⟩ := y
  obtain ⟨yk', Q1⟩ := y'
  obtain ⟨hy, h1⟩ := hy
  dsimp only at hy h1 ⊢
  refine RelN.bind (project_neg' L ho ?_ h1.xo ?_) fun z z' hz => ?_
  · exact ⟨h1.fx, h1.xo, h1.xk, hy, h1.Atb, h1.gradf, by rw [h1.gradf, h1.gradf_sum, vaxpy_neg L], h1.b, h1.sigma, h1.mu_j, h1.tol_j, h1.L⟩
  · rw [h1.gradf, h1.gradf_sum, vaxpy_neg L]
  obtain ⟨zk, P2⟩ := z
  obtain ⟨zk', Q2⟩ := z'
  obtain ⟨hz, h2⟩ := hz
  dsimp only at hz h2 ⊢
  refine RelN.pure ⟨⟨h2.fx, h2.xo, ?_, h2.yk, h2.Atb, h2.gradf, h2.gradf_sum, h2.b, h2.sigma, h2.mu_j, h2.tol_j, h2.L⟩, ?_, ?_⟩
  · show vaxpby _ zk' _ Q2.yk = _
    rw [hz, h2.yk, vaxpby_neg L]
  · show fifoPush st'.fifo Q2.fx = fifoPush st.fifo P2.fx
    rw [hf, h2.fx]
  · show flt (fabs (Q2.fx - fifoMean st'.fifo) / fifoMean st'.fifo) Q2.tol_j = flt (fabs (P2.fx - fifoMean st.fifo) / fifoMean st.fifo) P2.tol_j
    rw [hf, h2.fx, h2.tol_j]

theorem inner_neg (L : OddLaws F) {ax : NAx F σ n m p} (ho : ax.Odd) (fuel : ℕ) (k : ℕ) {st st' : NLoop F n m p} (h : PNeg st.P st'.P) (hf : st'.fifo = st.fifo) :
    RelN (fun a b => PNeg a.1.P b.1.P ∧ b.2 = a.2) (nestaInner ax fuel k st) (nestaInner ax fuel k st') := by
  induction fuel generalizing k st st' with
  | zero => exact RelN.pure ⟨h, rfl⟩
  | succ fuel ih =>
    unfold nestaInner
    refine RelN.bind (body_neg L ho k h hf) fun a b hab => ?_
    obtain ⟨s1, stop⟩ := a
    obtain ⟨s2, stop'⟩ := b
    obtain ⟨h1, h2, h3⟩ := hab
    dsimp only at h1 h2 h3 ⊢
    subst h3
    split_ifs
    · exact RelN.pure ⟨h1, rfl⟩
    · exact ih _ h1 h2

theorem continue_neg (L : OddLaws F) {ax : NAx F σ n m p} (ho : ax.Odd) (bm bt : F) {P Q : NestaProb F n m p} (h : PNeg P Q) :
    RelN (fun a b => PNeg a.1 b.1 ∧ b.2 = a.2) (nestaContinue ax bm bt P) (nestaContinue ax bm bt Q) := by
  unfold nestaContinue
  refine RelN.bind (inner_neg L ho _ 0 (st := nestaReset bm bt P) (st' := nestaReset bm bt Q) ?_ rfl) fun a b hab => ?_
  · refine ⟨h.fx, h.xo, h.xk, h.yk, h.Atb, h.gradf, ?_, h.b, h.sigma, ?_, ?_, h.L⟩
    · exact funext fun i => L.zero.symm
    · show Q.mu_j * bm = P.mu_j * bm
      rw [h.mu_j]
    · show Q.tol_j * bt = P.tol_j * bt
      rw [h.tol_j]
  · obtain ⟨h1, h2⟩ := hab
    exact RelN.pure ⟨⟨h1.fx, h1.xk, h1.xk, h1.yk, h1.Atb, h1.gradf, h1.gradf_sum, h1.b, h1.sigma, h1.mu_j, h1.tol_j, h1.L⟩, h2⟩

theorem outer_neg (L : OddLaws F) {ax : NAx F σ n m p} (ho : ax.Odd) (bm bt : F) (fuel : ℕ) (iter : Int) (total : ℕ) {P Q : NestaProb F n m p} (h : PNeg P Q) :
    RelN (fun a b => PNeg a.1 b.1 ∧ b.2 = a.2) (nestaOuter ax bm bt fuel iter total P) (nestaOuter ax bm bt fuel iter total Q) := by
  induction fuel generalizing iter total P Q with
  | zero =>
    unfold nestaOuter
    split_ifs
    · exact RelN.pure ⟨h, rfl⟩
    · exact fun _ => trivial
  | succ fuel ih =>
    unfold nestaOuter
    refine RelN.bind (continue_neg L ho bm bt h) fun a b hab => ?_
    obtain ⟨P1, k⟩ := a
    obtain ⟨Q1, k'⟩ := b
    obtain ⟨h1, h2⟩ := hab
    dsimp only at h1 h2 ⊢
    subst h2
    exact ih _ _ h1

theorem main_neg (L : OddLaws F) {ax : NAx F σ n m p} (ho : ax.Odd) (np : ℕ) (arrs : List (Option ℕ)) (opts : NestaOpts F) (bm bt : F) {P Q : NestaProb F n m p} (h : PNeg P Q) :
    RelN (fun a b => b.status = a.status ∧ b.inner = a.inner ∧ b.xk = vneg a.xk) (nestaMain ax np arrs opts P bm bt) (nestaMain ax np arrs opts Q bm bt) := by
  unfold nestaMain
  refine RelN.bind (RelN.same _) fun fv fv' e => ?_
  subst e
  cases fv with
  | none => exact fun _ => trivial
  | some fv =>
    dsimp only
    refine RelN.bind (outer_neg L ho bm bt _ _ _ ?_) fun a b hab => ?_
    · exact ⟨h.fx, h.xo, h.xo, h.yk, h.Atb, h.gradf, h.gradf_sum, h.b, h.sigma, h.mu_j, h.tol_j, h.L⟩
    obtain ⟨P1, k⟩ := a
    obtain ⟨Q1, k'⟩ := b
    obtain ⟨h1, h2⟩ := hab
    dsimp only at h1 h2 ⊢
    refine RelN.bind (RelN.same _) fun _ _ _ => ?_
    refine RelN.bind (RelN.same _) fun _ _ _ => ?_
    exact RelN.pure ⟨rfl, h2, h1.xk⟩

theorem nesta_neg (L : OddLaws F) {ax : NAx F σ n m p} (ho : ax.Odd) (hp : p ≤ m) (m_arg n_arg : Int) (xk : Vec F m) (b : Vec F n) (opts : NestaOpts F) :
    RelN (fun a b => b.status = a.status ∧ b.inner = a.inner ∧ b.xk = vneg a.xk) (l1c_nesta m_arg n_arg xk b ax opts) (l1c_nesta m_arg n_arg (vneg xk) (vneg b) ax opts) := by
  unfold l1c_nesta
  split_ifs
  · exact RelN.pure ⟨rfl, rfl, rfl⟩
  refine RelN.bind (RelN.same _) fun np np' e => ?_
  subst e
  cases np with
  | none => exact RelN.pure ⟨rfl, rfl, rfl⟩
  | some np =>
    obtain ⟨np, arrs⟩ := np
    dsimp only
    refine RelN.bind (setup_neg L ho hp b _ rfl opts) fun a c hac => ?_
    obtain ⟨st, P, bm, bt⟩ := a
    obtain ⟨st', Q, bm', bt'⟩ := c
    obtain ⟨h1, h2, h3⟩ := hac
    dsimp only at h1 h2 h3 ⊢
    obtain ⟨rfl, rfl⟩ := Prod.mk.inj h3
    subst h1
    split_ifs with hst
    · exact RelN.pure ⟨rfl, rfl, rfl⟩
    · exact main_neg L ho np arrs opts _ _ (h2 (not_not.1 hst))

end

/-! ## binary64 -/

theorem Dbl.neg_div (a b : Dbl) : -a / b = -(a / b) := by
  cases a <;> cases b
  case fin.fin x y =>
    rw [Dbl.fin_neg, Dbl.fin_div', Dbl.fin_div']
    split_ifs
    · exact Dbl.infMul_neg x
    · rw [Dbl.fin_neg, _root_.neg_div]
  case fin.pinf => show Dbl.fin 0 = -Dbl.fin 0; rw [Dbl.fin_neg, neg_zero]
  case fin.ninf => show Dbl.fin 0 = -Dbl.fin 0; rw [Dbl.fin_neg, neg_zero]
  case pinf.fin y =>
    show Dbl.div .ninf (.fin y) = -Dbl.div .pinf (.fin y)
    simp only [Dbl.div]
    split_ifs <;> rfl
  case ninf.fin y =>
    show Dbl.div .pinf (.fin y) = -Dbl.div .ninf (.fin y)
    simp only [Dbl.div]
    split_ifs <;> rfl
  all_goals rfl

theorem B64.neg_div (a b : B64) : -a / b = -(a / b) := by
  show of ((-a).1 / b.1) = -of (a.1 / b.1)
  rw [neg_val, Dbl.neg_div, of_neg]

theorem B64.oddLaws : OddLaws B64 := { B64.signLaws with div := B64.neg_div, abs := B64.fabs_neg }

end L1c
