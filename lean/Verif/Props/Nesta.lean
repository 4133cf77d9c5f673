import Verif.Proofs.NestaFin
import Mathlib.LinearAlgebra.Matrix.Notation

/-!
# Properties of NESTA (`C38`–`C44`)

`Realises ax Inv D A W` says that the operators of the transform set compute the matrices `A`, `Aᵀ`, `W`, `Wᵀ` on finite
data (exact arithmetic), as long as their private state satisfies `Inv`.  The operator `Aty` may also depend on what its
output array held before, as long as it does not when every entry satisfied `D`; finite numbers satisfy `D`.
-/

namespace L1c
open Scalar Matrix

/-- example transform set: operators that multiply with given matrices -/
noncomputable def realOp {k l : ℕ} (M : Matrix (Fin k) (Fin l) ℝ) : Option (NOp Dbl Unit l k) :=
  some fun x _ s => some ((x, fvec (M *ᵥ fun i => (x i).toReal)), s)

noncomputable def realAx {n m p : ℕ} (A : Matrix (Fin n) (Fin m) ℝ) (W : Matrix (Fin m) (Fin p) ℝ) (norm_W : Dbl) :
    NAx Dbl Unit n m p := ⟨realOp A, realOp Aᵀ, realOp W, realOp Wᵀ, true, true, norm_W⟩

theorem realOp_is {k l : ℕ} (M : Matrix (Fin k) (Fin l) ℝ) : OpIs (realOp M) (fun _ => True) (fun _ => True) M :=
  ⟨_, rfl, fun _ _ s _ _ => ⟨s, rfl, trivial⟩⟩

theorem realAx_realises {n m p : ℕ} (A : Matrix (Fin n) (Fin m) ℝ) (W : Matrix (Fin m) (Fin p) ℝ) (K : Dbl) :
    Realises (realAx A W K) (fun _ => True) (fun _ => True) A W :=
  ⟨realOp_is A, realOp_is _, realOp_is W, realOp_is _, fun _ => trivial, fun _ _ => trivial, rfl, rfl⟩

theorem realAx_total {n m p : ℕ} (A : Matrix (Fin n) (Fin m) ℝ) (W : Matrix (Fin m) (Fin p) ℝ) (K : Dbl) : (realAx A W K).Total (fun _ => True) :=
  ⟨⟨_, rfl, fun _ _ s h => ⟨_, s, rfl, h⟩⟩, ⟨_, rfl, fun _ _ s h => ⟨_, s, rfl, h⟩⟩, ⟨_, rfl, fun _ _ s h => ⟨_, s, rfl, h⟩⟩,
    ⟨_, rfl, fun _ _ s h => ⟨_, s, rfl, h⟩⟩⟩

/-- example measurement: one normalised average of two unknowns -/
noncomputable def exA : Matrix (Fin 1) (Fin 2) ℝ := !![3 / 5, 4 / 5]

theorem exA_orth : exA * exAᵀ = 1 := by
  ext i j; fin_cases i; fin_cases j
  simp [exA, Matrix.mul_apply, Fin.sum_univ_two]; norm_num

/-- example state: nothing allocated, every request succeeds -/
def exState : NState Unit := ⟨∅, 0, 0, fun _ => true, ()⟩

theorem exState_wf : exState.WF := by intro b hb; simp [exState] at hb

variable {n m p : ℕ} {σ : Type}
variable {A : Matrix (Fin n) (Fin m) ℝ} {W : Matrix (Fin m) (Fin p) ℝ} {Inv : σ → Prop} {D : Dbl → Prop} {ax : NAx Dbl σ n m p}

/-! ## C38 -/

/-- The projection step returns the unique minimiser of `(L/(2 mu))||x - xx||^2 + <g, x>` over the feasible set. -/
theorem C38_projection (R : Realises ax Inv D A W) (hA : A * Aᵀ = 1) {P : NestaProb Dbl n m p} {b : Fin n → ℝ}
    {sigma mu L : ℝ} (hb : P.b = fvec b) (hAtb : P.Atb = fvec (Aᵀ *ᵥ b)) (hsig : P.sigma = Dbl.fin sigma)
    (hmu : P.mu_j = Dbl.fin mu) (hL : P.L = Dbl.fin L) (hs : 0 < sigma) (hm : 0 < mu) (hL0 : 0 < L)
    (hd : ∀ i, D (P.dwork1 i)) (xx g : Fin m → ℝ) (s : NState σ) (hI : Inv s.cb) :
    ∃ (v : Fin m → ℝ) (P' : NestaProb Dbl n m p) (s' : NState σ),
      l1c_nesta_project ax P (fvec xx) (fvec g) s = some ((fvec v, P'), s') ∧ Inv s'.cb ∧ Feas A b sigma v ∧
      (∀ x, Feas A b sigma x → proxObj (L / mu) xx g v ≤ proxObj (L / mu) xx g x) ∧
      (∀ x, Feas A b sigma x → proxObj (L / mu) xx g x ≤ proxObj (L / mu) xx g v → x = v) := by
  obtain ⟨d1, d2, c', h1, h2, -⟩ := project_fin R ((rows_le hA).trans (le_max_left m p)) hb hAtb hsig hmu hL hs hm hL0 hd xx g s hI
  have hc := div_pos hL0 hm
  refine ⟨_, _, _, h1, h2, projR_feas hA hs hc xx g, fun x hx => ?_, fun x hx hle => ?_⟩
  · have h3 := projR_opt hA hs hc xx g x hx
    have h4 := dot_self_nonneg (x - projR A b sigma (L / mu) xx g)
    nlinarith
  · have h3 := projR_opt hA hs hc xx g x hx
    have h4 : (x - projR A b sigma (L / mu) xx g) ⬝ᵥ (x - projR A b sigma (L / mu) xx g) = 0 := by
      have h5 := dot_self_nonneg (x - projR A b sigma (L / mu) xx g)
      nlinarith
    by_contra hne
    exact (dot_self_pos (sub_ne_zero.2 hne)).ne' h4

example : ∃ (P : NestaProb Dbl 1 2 2), P.b = fvec ![(3 : ℝ)] ∧ P.Atb = fvec (exAᵀ *ᵥ ![3]) ∧ P.sigma = Dbl.fin (1 / 2) ∧
    P.mu_j = Dbl.fin 1 ∧ P.L = Dbl.fin 4 ∧ Realises (realAx exA 1 (Dbl.fin 2)) (fun _ => True) (fun _ => True) exA (1 : Matrix (Fin 2) (Fin 2) ℝ) :=
  ⟨{ nestaZero (fvec ![3]) with Atb := fvec (exAᵀ *ᵥ ![3]), sigma := Dbl.fin (1 / 2), mu_j := Dbl.fin 1, L := Dbl.fin 4 },
    rfl, rfl, rfl, rfl, rfl, realAx_realises _ _ _⟩

/-! ## C39 -/

/-- With orthonormal rows, a nonzero `norm_W`, and some nonzero entry among the first `m` or some positive entry of
`Wᵀ Aᵀ b`, a run on finite data returns success and a finite point that satisfies the constraint, whatever the
stopping tests decide (the tolerance is arbitrary).  Missing: data without such an entry, and `norm_W = 0`; there the
claim is false, see below. -/
theorem C39_feasible_partial (R : Realises ax Inv D A W) (hA : A * Aᵀ = 1) {b : Fin n → ℝ} {sigma mu K : ℝ} {opts : NestaOpts Dbl}
    (hsig : opts.sigma = Dbl.fin sigma) (hs : 0 < sigma) (hmu : opts.mu = Dbl.fin mu) (hm : 0 < mu)
    (hK : ax.norm_W = Dbl.fin K) (hK0 : K ≠ 0)
    (hdata : ∃ i : Fin p, (i.val < m ∧ (Wᵀ *ᵥ (Aᵀ *ᵥ b)) i ≠ 0) ∨ 0 < (Wᵀ *ᵥ (Aᵀ *ᵥ b)) i)
    (hN : 1 ≤ opts.n_continue) (hN' : opts.n_continue < INT_MAX) (xk : Vec Dbl m) (s : NState σ) (hI : Inv s.cb) (hwf : s.WF)
    (hal : ∀ i < 11, s.oracle (s.calls + i) = true) :
    ∃ (x : Fin m → ℝ) (out : NestaOut Dbl n m p) (s' : NState σ), l1c_nesta m n xk (fvec b) ax opts s = some (out, s') ∧
      out.status = L1C_SUCCESS ∧ out.xk = fvec x ∧ nrm (b - A *ᵥ x) ≤ sigma := by
  obtain ⟨i, hi⟩ := hdata
  obtain ⟨M, h1, h2, -⟩ := vmax_fvec (Nat.pos_of_ne_zero fun h => by subst h; exact i.elim0) (absHead m (Wᵀ *ᵥ (Aᵀ *ᵥ b)))
  have hM : 0 < M := by
    refine lt_of_lt_of_le ?_ (h2 i)
    unfold absHead
    rcases hi with ⟨h3, h4⟩ | h3
    · rw [if_pos h3]; exact abs_pos.2 h4
    · split
      · exact abs_pos.2 h3.ne'
      · exact h3
  obtain ⟨x, P', T, s', h3, h4, -⟩ := nesta_fin R hA hsig hs hmu hm hK hK0 h1 hM hN hN' xk s hI hwf hal
  exact ⟨x, _, s', h3, rfl, rfl, h4⟩

example : ∃ i : Fin 2, (i.val < 2 ∧ ((1 : Matrix (Fin 2) (Fin 2) ℝ)ᵀ *ᵥ (exAᵀ *ᵥ ![(3 : ℝ)])) i ≠ 0) ∨
    0 < ((1 : Matrix (Fin 2) (Fin 2) ℝ)ᵀ *ᵥ (exAᵀ *ᵥ ![(3 : ℝ)])) i :=
  ⟨0, Or.inl ⟨by decide, by simp [exA, mulVec, dotProduct]⟩⟩

/-- Without continuation steps the answer is `Aᵀ b`, whose residual is zero. -/
theorem C39_no_steps_partial (R : Realises ax Inv D A W) (hA : A * Aᵀ = 1) (hp : 0 < p) {b : Fin n → ℝ} {sigma K : ℝ} {opts : NestaOpts Dbl}
    (hs : 0 < sigma) (hK : ax.norm_W = Dbl.fin K) (hN : opts.n_continue ≤ 0) (xk : Vec Dbl m) (s : NState σ) (hI : Inv s.cb) (hwf : s.WF)
    (hal : ∀ i < 11, s.oracle (s.calls + i) = true) :
    ∃ (out : NestaOut Dbl n m p) (s' : NState σ), l1c_nesta m n xk (fvec b) ax opts s = some (out, s') ∧
      out.status = L1C_SUCCESS ∧ out.xk = fvec (Aᵀ *ᵥ b) ∧ nrm (b - A *ᵥ (Aᵀ *ᵥ b)) ≤ sigma := by
  obtain ⟨M, hM, -⟩ := vmax_fvec hp (absHead m (Wᵀ *ᵥ (Aᵀ *ᵥ b)))
  obtain ⟨s1, e1, -, -, hrun⟩ := nesta_after_setup xk (fvec b) ax opts s hwf (fun i hi => hal i (by omega)) R.notMissing
  obtain ⟨P1, c1, h1, -, -, -, -, -, -, -, f7, -⟩ := setup_fin R (P := nestaZero (fvec b)) R.zero hK b opts hM s1 (e1 ▸ hI)
  refine ⟨⟨L1C_SUCCESS, fvec (Aᵀ *ᵥ b), 0, some { P1 with xk := P1.xo }⟩, { s1 with live := s.live, next := s1.next + 1, calls := s1.calls + 1, cb := c1 },
    ?_, rfl, rfl, proj_init_feas hA hs b⟩
  · rw [hrun, h1, Option.bind_some, if_pos (hal 10 (by omega)), Int.toNat_of_nonpos hN]
    unfold nestaOuter
    rw [if_pos (by decide)]
    dsimp only
    rw [npure, Option.map_some]
    dsimp only
    rw [f7]

example : ∃ (out : NestaOut Dbl 1 2 2) (s' : NState Unit), l1c_nesta 2 1 (fun _ => .nan) (fvec ![3]) (realAx exA 1 (Dbl.fin 2))
      ⟨Dbl.fin (1 / 2), Dbl.fin 1, Dbl.fin 1, 0⟩ exState = some (out, s') ∧ out.status = L1C_SUCCESS ∧ out.xk = fvec (exAᵀ *ᵥ ![3]) :=
  let ⟨out, s', h, h1, h2, _⟩ := C39_no_steps_partial (sigma := 1 / 2) (realAx_realises exA 1 (Dbl.fin 2)) exA_orth (by decide) (b := ![3])
    (opts := ⟨Dbl.fin (1 / 2), Dbl.fin 1, Dbl.fin 1, 0⟩) (by norm_num) rfl le_rfl (fun _ => .nan) exState trivial exState_wf (fun _ _ => rfl)
  ⟨out, s', h, h1, h2⟩

/-- False in general (1): for a transform set with `norm_W = 0` (all transform sets made from a matrix, see C30) and at least
one continuation step, a successful run returns no finite entry at all, whatever the operators compute. -/
theorem C39_norm_zero_not_finite {ax : NAx Dbl σ n m p} (hm : ¬ ax.Missing) (hK : ax.norm_W = Dbl.fin 0) (opts : NestaOpts Dbl)
    (hN : 1 ≤ opts.n_continue) (xk : Vec Dbl m) (b : Vec Dbl n) (s s' : NState σ) (hwf : s.WF)
    (hal : ∀ i < 10, s.oracle (s.calls + i) = true) (out : NestaOut Dbl n m p)
    (hrun : l1c_nesta m n xk b ax opts s = some (out, s')) : out.status = L1C_SUCCESS ∧ ∀ i, ¬ (out.xk i).IsFin := by
  obtain ⟨s1, -, -, -, h⟩ := nesta_after_setup xk b ax opts s hwf hal hm
  rw [h] at hrun
  obtain ⟨⟨⟨st, P, bm, bt⟩, s2⟩, h1, h2⟩ := Option.bind_eq_some_iff.1 hrun
  split at h2
  · obtain ⟨⟨⟨P', T⟩, s3⟩, h3, h4⟩ := Option.map_eq_some_iff.1 h2
    obtain ⟨rfl, -⟩ := Prod.mk.inj h4
    refine ⟨rfl, ?_⟩
    obtain ⟨k, hk⟩ : ∃ k, opts.n_continue.toNat = k + 1 := ⟨opts.n_continue.toNat - 1, by omega⟩
    rw [hk] at h3
    refine outer_nonfin (Or.inl ?_) h3
    show P.L = _
    rw [setup_L hm h1, hK, Dbl.fin_mul, mul_zero]
  · cases h2

/-- False in general (2): if `Wᵀ Aᵀ b` has no positive entry (absolute values counting for the first `m` entries), for
instance if `b = 0`, then a successful run with at least one continuation step returns no finite entry at all. -/
theorem C39_zero_data_not_finite (R : Realises ax Inv D A W) (hp : 0 < p) {b : Fin n → ℝ} {mu K : ℝ} {opts : NestaOpts Dbl}
    (hmu : opts.mu = Dbl.fin mu) (hm : 0 < mu) (hK : ax.norm_W = Dbl.fin K)
    (hdata : ∀ i : Fin p, (Wᵀ *ᵥ (Aᵀ *ᵥ b)) i ≤ 0 ∧ (i.val < m → (Wᵀ *ᵥ (Aᵀ *ᵥ b)) i = 0))
    (hN : 1 ≤ opts.n_continue) (xk : Vec Dbl m) (s s' : NState σ) (hI : Inv s.cb) (hwf : s.WF)
    (hal : ∀ i < 10, s.oracle (s.calls + i) = true) (out : NestaOut Dbl n m p)
    (hrun : l1c_nesta m n xk (fvec b) ax opts s = some (out, s')) : out.status = L1C_SUCCESS ∧ ∀ i, ¬ (out.xk i).IsFin := by
  obtain ⟨M, hM, -, i, hi⟩ := vmax_fvec hp (absHead m (Wᵀ *ᵥ (Aᵀ *ᵥ b)))
  have hM0 : M ≤ 0 := by
    rw [hi, absHead]
    split
    · rename_i h; rw [(hdata i).2 h, abs_zero]
    · exact (hdata i).1
  obtain ⟨s1, e1, -, -, h⟩ := nesta_after_setup xk (fvec b) ax opts s hwf hal R.notMissing
  obtain ⟨P1, c1, h1, -, -, -, -, -, f5, -, -, -⟩ := setup_fin R (P := nestaZero (fvec b)) R.zero hK b opts hM s1 (e1 ▸ hI)
  rw [h, h1, Option.bind_some] at hrun
  split at hrun
  · obtain ⟨⟨⟨P', T⟩, s3⟩, h3, h4⟩ := Option.map_eq_some_iff.1 hrun
    obtain ⟨rfl, -⟩ := Prod.mk.inj h4
    refine ⟨rfl, ?_⟩
    obtain ⟨k, hk⟩ : ∃ k, opts.n_continue.toNat = k + 1 := ⟨opts.n_continue.toNat - 1, by omega⟩
    rw [hk] at h3
    refine outer_nonfin (Or.inr ?_) h3
    show P1.mu_j * _ = _
    rw [f5, hmu]
    have hNr : (0 : ℝ) < opts.n_continue := by exact_mod_cast (by omega : (0 : Int) < opts.n_continue)
    have hlit : (lit (opts.n_continue : ℚ) : Dbl) = Dbl.fin (opts.n_continue : ℝ) := by rw [Dbl.lit_eq, Rat.cast_intCast]
    rcases hM0.lt_or_eq with hM1 | rfl
    · rw [Dbl.fin_div (by linarith), Dbl.flog_fin', if_pos (div_neg_of_pos_of_neg hm (by linarith))]
      rfl
    · rw [mul_zero, Dbl.pos_div_zero hm, hlit]
      rw [show (flog Dbl.pinf : Dbl) = Dbl.pinf from rfl,
        show (Dbl.pinf / Dbl.fin (opts.n_continue : ℝ) : Dbl) = Dbl.pinf by
          show (if (0 : ℝ) ≤ (opts.n_continue : ℝ) then Dbl.pinf else Dbl.ninf) = _
          rw [if_pos hNr.le]]
      show Dbl.infMul 0 = _
      simp [Dbl.infMul]
  · cases hrun

/-- Such runs exist: zero measurements give success and a non-finite answer, which does not satisfy the constraint. -/
theorem C39_false : ∃ (ax : NAx Dbl Unit 1 2 2) (opts : NestaOpts Dbl) (out : NestaOut Dbl 1 2 2) (s' : NState Unit),
    Realises ax (fun _ => True) (fun _ => True) exA (1 : Matrix (Fin 2) (Fin 2) ℝ) ∧ ax.norm_W = Dbl.fin 1 ∧ opts.sigma = Dbl.fin 1 ∧ opts.mu = Dbl.fin 1 ∧
    opts.tol = Dbl.fin 1 ∧ opts.n_continue = 1 ∧
    l1c_nesta 2 1 (fun _ => lit 0) (fvec 0) ax opts exState = some (out, s') ∧ out.status = L1C_SUCCESS ∧
    ∀ i, ¬ (out.xk i).IsFin := by
  have R := realAx_realises exA (1 : Matrix (Fin 2) (Fin 2) ℝ) (Dbl.fin 1)
  obtain ⟨s1, -, e2, e3, h⟩ := nesta_after_setup (fun _ => lit 0) (fvec (0 : Fin 1 → ℝ)) (realAx exA (1 : Matrix (Fin 2) (Fin 2) ℝ) (Dbl.fin 1))
    ⟨Dbl.fin 1, Dbl.fin 1, Dbl.fin 1, 1⟩ exState exState_wf (fun _ _ => rfl) R.notMissing
  obtain ⟨r, s2, h1, -⟩ := setup_tot (realAx_total exA (1 : Matrix (Fin 2) (Fin 2) ℝ) (Dbl.fin 1)) (nestaZero (fvec 0)) (fvec (0 : Fin 1 → ℝ))
    ⟨Dbl.fin 1, Dbl.fin 1, Dbl.fin 1, 1⟩ s1 trivial
  obtain ⟨q, s3, h2, -⟩ := outer_tot (realAx_total exA (1 : Matrix (Fin 2) (Fin 2) ℝ) (Dbl.fin 1)) (by decide) r.2.2.1 r.2.2.2
    1 1 0 { r.2.1 with xk := r.2.1.xo } (by decide) { s2 with live := insert s2.next s2.live, next := s2.next + 1, calls := s2.calls + 1 } trivial
  rw [h1, Option.bind_some, if_pos (show exState.oracle (exState.calls + 10) = true from rfl)] at h
  have h' := h.trans (congrArg _ h2)
  refine ⟨_, _, _, _, R, rfl, rfl, rfl, rfl, rfl, h', ?_⟩
  exact C39_zero_data_not_finite R (by decide) rfl one_pos rfl (by simp) le_rfl _ _ _ trivial exState_wf (fun _ _ => rfl) _ h'

/-! ## C40 -/

/-- Value and gradient of the smoothed objective. -/
theorem C40_objective (R : Realises ax Inv D A W) {P : NestaProb Dbl n m p} {mu : ℝ} (hmu : P.mu_j = Dbl.fin mu) (hm : 0 < mu)
    {x : Fin m → ℝ} (hx : P.xk = fvec x) (s : NState σ) (hI : Inv s.cb) :
    ∃ (P' : NestaProb Dbl n m p) (s' : NState σ) (f : ℝ) (g : Fin m → ℝ), l1c_nesta_feval ax P s = some (P', s') ∧ Inv s'.cb ∧
      P'.fx = Dbl.fin f ∧ P'.gradf = fvec g ∧ P'.xk = fvec x ∧ IsSmoothL1 mu (Wᵀ *ᵥ x) f ∧ 0 ≤ f ∧
      f ≤ ∑ i, |(Wᵀ *ᵥ x) i| ∧ ∑ i, |(Wᵀ *ᵥ x) i| ≤ f + p * mu / 2 ∧
      ∀ Φ : (Fin m → ℝ) → ℝ, (∀ y, IsSmoothL1 mu (Wᵀ *ᵥ y) (Φ y)) →
        ∃ D : (Fin m → ℝ) →L[ℝ] ℝ, HasFDerivAt Φ D x ∧ ∀ d, D d = g ⬝ᵥ d := by
  obtain ⟨d1, d2, c', h1, h2, -⟩ := feval_fin R hmu hm hx s hI
  refine ⟨_, _, _, _, h1, h2, rfl, rfl, hx, smF_isSmooth hm _, smF_nonneg hm _, smF_le_l1 hm _, l1_le_smF hm _, fun Φ hΦ => ?_⟩
  obtain ⟨K, hK0, hK⟩ := exists_bound W
  have hΦe : Φ = fun y => smF mu (Wᵀ *ᵥ y) := funext fun y => (hΦ y).unique (smF_isSmooth hm _)
  refine ⟨dotCLM (gradR mu W x), ?_, fun d => rfl⟩
  rw [hΦe]
  exact hasFDerivAt_of_bounds (c := K * K / mu / 2) (by positivity) (fun y => comp_lower hm x y) (fun y => comp_upper hm hK x y)

/-- Gradients reported at two points: Lipschitz with constant `norm_W²/mu`. -/
theorem C40_lipschitz (R : Realises ax Inv D A W) {P Q : NestaProb Dbl n m p} {mu K : ℝ} (hmuP : P.mu_j = Dbl.fin mu)
    (hmuQ : Q.mu_j = Dbl.fin mu) (hm : 0 < mu) (hK0 : 0 ≤ K) (hK : ∀ x, nrm (Wᵀ *ᵥ x) ≤ K * nrm x)
    {x y : Fin m → ℝ} (hx : P.xk = fvec x) (hy : Q.xk = fvec y) (s t : NState σ) (hIs : Inv s.cb) (hIt : Inv t.cb) :
    ∃ (P' Q' : NestaProb Dbl n m p) (s' t' : NState σ) (g h : Fin m → ℝ), l1c_nesta_feval ax P s = some (P', s') ∧
      l1c_nesta_feval ax Q t = some (Q', t') ∧ P'.gradf = fvec g ∧ Q'.gradf = fvec h ∧
      nrm (h - g) ≤ K ^ 2 / mu * nrm (y - x) := by
  obtain ⟨_, _, _, h1, -⟩ := feval_fin R hmuP hm hx s hIs
  obtain ⟨_, _, _, h2, -⟩ := feval_fin R hmuQ hm hy t hIt
  exact ⟨_, _, _, _, _, _, h1, h2, rfl, rfl, by rw [pow_two]; exact gradR_lip hm hK0 hK x y⟩

example : ∃ (P : NestaProb Dbl 1 2 2), P.mu_j = Dbl.fin (1 / 4) ∧ P.xk = fvec ![1, -2] ∧
    ∀ x, nrm ((1 : Matrix (Fin 2) (Fin 2) ℝ)ᵀ *ᵥ x) ≤ 1 * nrm x :=
  ⟨{ nestaZero (fvec ![3]) with mu_j := Dbl.fin (1 / 4), xk := fvec ![1, -2] }, rfl, rfl, fun x => by simp⟩

/-! ## C41 -/

/-- Start of the continuation when the dictionary is not overcomplete (`p ≤ m`): smoothing value 0.9 times the largest
absolute entry of `Wᵀ Aᵀ b`, tolerance 0.1.  Missing: `p > m`, where it is false. -/
theorem C41_start_partial (R : Realises ax Inv D A W) (hp : 0 < p) (hpm : p ≤ m) {b : Fin n → ℝ} {K : ℝ} {opts : NestaOpts Dbl}
    (hK : ax.norm_W = Dbl.fin K) (P : NestaProb Dbl n m p) (hd : ∀ i, D (P.Atb i)) (s : NState σ) (hI : Inv s.cb) :
    ∃ (M : ℝ) (P' : NestaProb Dbl n m p) (bm bt : Dbl) (s' : NState σ),
      l1c_nesta_setup ax P (fvec b) opts s = some ((L1C_SUCCESS, P', bm, bt), s') ∧
      IsGreatest (Set.range fun i => |(Wᵀ *ᵥ (Aᵀ *ᵥ b)) i|) M ∧ P'.mu_j = Dbl.fin (9 / 10 * M) ∧ P'.tol_j = Dbl.fin (1 / 10) := by
  obtain ⟨M, hM, h1, i, h2⟩ := vmax_fvec hp (absHead m (Wᵀ *ᵥ (Aᵀ *ᵥ b)))
  obtain ⟨P1, c1, h3, -, -, -, -, -, f5, f6, -, -⟩ := setup_fin R (P := P) hd hK b opts hM s hI
  have e : ∀ i : Fin p, absHead m (Wᵀ *ᵥ (Aᵀ *ᵥ b)) i = |(Wᵀ *ᵥ (Aᵀ *ᵥ b)) i| := fun i => if_pos (by omega)
  refine ⟨M, P1, _, _, _, h3, ⟨⟨i, by rw [h2, e]⟩, ?_⟩, f5, f6⟩
  rintro _ ⟨j, rfl⟩
  dsimp only
  rw [← e]; exact h1 j

/-- False for overcomplete dictionaries: negative entries beyond the first `m` are not made positive. -/
theorem C41_start_false : ∃ (W : Matrix (Fin 1) (Fin 2) ℝ) (P' : NestaProb Dbl 1 1 2) (bm bt : Dbl) (s' : NState Unit),
    l1c_nesta_setup (realAx (1 : Matrix (Fin 1) (Fin 1) ℝ) W (Dbl.fin 3)) (nestaZero (fvec ![1])) (fvec ![1])
      ⟨Dbl.fin 1, Dbl.fin 1, Dbl.fin 1, 1⟩ exState = some ((L1C_SUCCESS, P', bm, bt), s') ∧
    IsGreatest (Set.range fun i => |(Wᵀ *ᵥ ((1 : Matrix (Fin 1) (Fin 1) ℝ)ᵀ *ᵥ ![1])) i|) 2 ∧ P'.mu_j = Dbl.fin (9 / 10 * 1) := by
  have R := realAx_realises (1 : Matrix (Fin 1) (Fin 1) ℝ) !![1, -2] (Dbl.fin 3)
  have w0 : ((!![1, -2] : Matrix (Fin 1) (Fin 2) ℝ)ᵀ *ᵥ ((1 : Matrix (Fin 1) (Fin 1) ℝ)ᵀ *ᵥ ![1])) = ![1, -2] := by
    funext i; fin_cases i <;> simp [mulVec, dotProduct]
  obtain ⟨M, hM, h1, i, h2⟩ := vmax_fvec (k := 2) (by decide) (absHead 1 ((!![1, -2] : Matrix (Fin 1) (Fin 2) ℝ)ᵀ *ᵥ ((1 : Matrix (Fin 1) (Fin 1) ℝ)ᵀ *ᵥ ![1])))
  have hM1 : M = 1 := by
    have a := h1 0
    rw [w0] at a h2
    fin_cases i
    · simpa [absHead] using h2
    · simp [absHead] at a h2
      linarith
  subst hM1
  obtain ⟨P1, c1, h3, -, -, -, -, -, f5, -, -, -⟩ := setup_fin R (P := nestaZero (fvec ![1])) R.zero rfl ![1] ⟨Dbl.fin 1, Dbl.fin 1, Dbl.fin 1, 1⟩ hM exState trivial
  refine ⟨!![1, -2], P1, _, _, _, h3, ?_, f5⟩
  rw [w0]
  refine ⟨⟨1, by norm_num⟩, ?_⟩
  rintro _ ⟨j, rfl⟩
  fin_cases j <;> norm_num

/-- The schedule is geometric: after `j` of the `n_continue` steps the smoothing parameter and the tolerance are
`start * (target/start)^(j/n_continue)`.  Missing: data for which the start value is not positive (there the parameter
becomes NaN, see `C39_zero_data_not_finite`). -/
theorem C41_schedule_partial (R : Realises ax Inv D A W) (hA : A * Aᵀ = 1) {b : Fin n → ℝ} {sigma mu K t : ℝ} {opts : NestaOpts Dbl}
    (hsig : opts.sigma = Dbl.fin sigma) (hs : 0 < sigma) (hmu : opts.mu = Dbl.fin mu) (hm : 0 < mu)
    (htol : opts.tol = Dbl.fin t) (ht : 0 < t) (hK : ax.norm_W = Dbl.fin K) (hK0 : K ≠ 0)
    (hdata : ∃ i : Fin p, (i.val < m ∧ (Wᵀ *ᵥ (Aᵀ *ᵥ b)) i ≠ 0) ∨ 0 < (Wᵀ *ᵥ (Aᵀ *ᵥ b)) i)
    (hN : 1 ≤ opts.n_continue) (P0 : NestaProb Dbl n m p) (hdA : ∀ i, D (P0.Atb i)) (hd1 : ∀ i, D (P0.dwork1 i))
    (s : NState σ) (hI : Inv s.cb) :
    ∃ (P1 : NestaProb Dbl n m p) (bm bt : Dbl) (s1 : NState σ) (mu0 : ℝ),
      l1c_nesta_setup ax P0 (fvec b) opts s = some ((L1C_SUCCESS, P1, bm, bt), s1) ∧ 0 < mu0 ∧ P1.mu_j = Dbl.fin mu0 ∧
      ∀ j : ℕ, (j : Int) < INT_MAX → ∃ (P2 : NestaProb Dbl n m p) (T : ℕ) (s2 : NState σ),
        nestaOuter ax bm bt j 1 0 { P1 with xk := P1.xo } s1 = some ((P2, T), s2) ∧
        P2.mu_j = Dbl.fin (mu0 * (mu / mu0) ^ ((j : ℝ) / opts.n_continue)) ∧
        P2.tol_j = Dbl.fin (1 / 10 * (t / (1 / 10)) ^ ((j : ℝ) / opts.n_continue)) := by
  obtain ⟨i, hi⟩ := hdata
  obtain ⟨M, h1, h2, -⟩ := vmax_fvec (Nat.pos_of_ne_zero fun h => by subst h; exact i.elim0) (absHead m (Wᵀ *ᵥ (Aᵀ *ᵥ b)))
  have hM : 0 < M := by
    refine lt_of_lt_of_le ?_ (h2 i)
    unfold absHead
    rcases hi with ⟨h3, h4⟩ | h3
    · rw [if_pos h3]; exact abs_pos.2 h4
    · split
      · exact abs_pos.2 h3.ne'
      · exact h3
  obtain ⟨P1, bm, bt, c1, g1, g2, g3, -, g5⟩ := loop_fin R hA hsig hs hmu hm hK hK0 h1 hM hN (P0 := P0) hdA hd1 s hI
  refine ⟨P1, bm, bt, _, _, g1, by positivity, g3, fun j hj => ?_⟩
  obtain ⟨P2, T, c2, x, k1, -, -, -, k5, k6⟩ := g5 j { s with cb := c1 } hj g2
  exact ⟨P2, T, _, k1, k5, k6 t htol ht⟩

/-- At the end of a whole run the smoothing parameter and the tolerance are the requested ones, exactly. -/
theorem C41_final_partial (R : Realises ax Inv D A W) (hA : A * Aᵀ = 1) {b : Fin n → ℝ} {sigma mu K t : ℝ} {opts : NestaOpts Dbl}
    (hsig : opts.sigma = Dbl.fin sigma) (hs : 0 < sigma) (hmu : opts.mu = Dbl.fin mu) (hm : 0 < mu)
    (htol : opts.tol = Dbl.fin t) (ht : 0 < t) (hK : ax.norm_W = Dbl.fin K) (hK0 : K ≠ 0)
    (hdata : ∃ i : Fin p, (i.val < m ∧ (Wᵀ *ᵥ (Aᵀ *ᵥ b)) i ≠ 0) ∨ 0 < (Wᵀ *ᵥ (Aᵀ *ᵥ b)) i)
    (hN : 1 ≤ opts.n_continue) (hN' : opts.n_continue < INT_MAX) (xk : Vec Dbl m) (s : NState σ) (hI : Inv s.cb) (hwf : s.WF)
    (hal : ∀ i < 11, s.oracle (s.calls + i) = true) :
    ∃ (out : NestaOut Dbl n m p) (P' : NestaProb Dbl n m p) (s' : NState σ),
      l1c_nesta m n xk (fvec b) ax opts s = some (out, s') ∧ out.prob = some P' ∧ P'.mu_j = Dbl.fin mu ∧ P'.tol_j = Dbl.fin t := by
  obtain ⟨i, hi⟩ := hdata
  obtain ⟨M, h1, h2, -⟩ := vmax_fvec (Nat.pos_of_ne_zero fun h => by subst h; exact i.elim0) (absHead m (Wᵀ *ᵥ (Aᵀ *ᵥ b)))
  have hM : 0 < M := by
    refine lt_of_lt_of_le ?_ (h2 i)
    unfold absHead
    rcases hi with ⟨h3, h4⟩ | h3
    · rw [if_pos h3]; exact abs_pos.2 h4
    · split
      · exact abs_pos.2 h3.ne'
      · exact h3
  obtain ⟨x, P', T, s', h3, -, -, -, h5, h6⟩ := nesta_fin R hA hsig hs hmu hm hK hK0 h1 hM hN hN' xk s hI hwf hal
  exact ⟨_, P', s', h3, rfl, h5, h6 t htol ht⟩

/-- Both on the small problem, with three continuation steps. -/
example : ∃ (out : NestaOut Dbl 1 2 2) (P' : NestaProb Dbl 1 2 2) (s' : NState Unit), l1c_nesta 2 1 (fun _ => .fin 0) (fvec ![3]) (realAx exA 1 (Dbl.fin 1))
      ⟨Dbl.fin (1 / 2), Dbl.fin (1 / 100), Dbl.fin (1 / 1000), 3⟩ exState = some (out, s') ∧ out.prob = some P' ∧ P'.mu_j = Dbl.fin (1 / 100) ∧
      P'.tol_j = Dbl.fin (1 / 1000) :=
  C41_final_partial (b := ![3]) (realAx_realises exA (1 : Matrix (Fin 2) (Fin 2) ℝ) (Dbl.fin 1)) exA_orth (opts := ⟨Dbl.fin (1 / 2), Dbl.fin (1 / 100), Dbl.fin (1 / 1000), 3⟩) rfl (by norm_num) rfl
    (by norm_num) rfl (by norm_num) rfl one_ne_zero ⟨(0 : Fin 2), Or.inl ⟨by decide, by simp [exA, mulVec, dotProduct]⟩⟩ (by decide) (by decide) _ exState trivial
    exState_wf (fun _ _ => rfl)

/-! ## C42 -/

/-- After any sequence of recordings the reference value is the mean of the last `min k 10` of them. -/
theorem C42_window (l : List Dbl) : fifoMean (l.foldl fifoPush fifoNew) = windowMean l.reverse := by
  have h : ∀ (l : List Dbl) (q : Fifo Dbl) (r : List Dbl), FifoHolds q r → FifoHolds (l.foldl fifoPush q) (l.reverse ++ r) := by
    intro l
    induction l with
    | nil => intro q r h; exact h
    | cons a l ih =>
      intro q r h
      have := ih _ _ (fifoHolds_push h a)
      rwa [List.reverse_cons, List.append_assoc, List.singleton_append]
  have := fifoMean_eq (h l _ _ fifoHolds_new)
  rwa [List.append_nil] at this

/-- Without recordings it is NaN. -/
theorem C42_empty : fifoMean (fifoNew : Fifo Dbl) = Dbl.nan := by
  have := C42_window []
  simp only [List.foldl_nil] at this
  rw [this]
  simp [windowMean, Dbl.zero_eq]
  exact Dbl.zero_div_zero

/-- This is the value the stopping test uses: if the window holds the objective values recorded so far in the
continuation step, the iteration compares with their window mean and then records its own value. -/
theorem C42_stopping (ax : NAx Dbl σ n m p) (k : ℕ) (st st' : NLoop Dbl n m p) (stop : Bool) (s s' : NState σ) (l : List Dbl)
    (hl : st.fifo = l.foldl fifoPush fifoNew) (h : nestaBody ax k st s = some ((st', stop), s')) :
    stop = flt (fabs (st'.P.fx - windowMean l.reverse) / windowMean l.reverse) st'.P.tol_j ∧
      st'.fifo = (l ++ [st'.P.fx]).foldl fifoPush fifoNew := by
  unfold nestaBody at h
  obtain ⟨⟨P1, s1⟩, h1, h⟩ := Option.bind_eq_some_iff.1 h
  obtain ⟨⟨⟨y, P2⟩, s2⟩, h2, h⟩ := Option.bind_eq_some_iff.1 h
  obtain ⟨⟨⟨z, P3⟩, s3⟩, h3, h⟩ := Option.bind_eq_some_iff.1 h
  obtain ⟨h, -⟩ := Prod.mk.inj (Option.some.inj h)
  obtain ⟨rfl, rfl⟩ := Prod.mk.inj h
  refine ⟨?_, ?_⟩
  · dsimp only
    rw [hl, C42_window]
  · dsimp only
    rw [hl, List.foldl_append]; rfl

example (beta_mu beta_tol : Dbl) (P : NestaProb Dbl n m p) : (nestaReset beta_mu beta_tol P).fifo = [].foldl fifoPush fifoNew := rfl

/-! ## C43

These hold for every scalar type (in particular for IEEE doubles) and for arbitrary operators.  The allocation decisions
are `s.oracle`; the routine makes eleven requests. -/

section
variable {F : Type} [Scalar F] {ax : NAx F σ n m p}

/-- Mismatching sizes: `L1C_INVALID_ARGUMENT`, nothing else happens. -/
theorem C43_invalid {m_arg n_arg : Int} (h : n_arg ≠ n ∨ m_arg ≠ m) (xk : Vec F m) (b : Vec F n) (opts : NestaOpts F)
    (s : NState σ) : ∃ out, l1c_nesta m_arg n_arg xk b ax opts s = some (out, s) ∧ out.status = L1C_INVALID_ARGUMENT ∧ out.xk = xk :=
  ⟨_, nesta_invalid h xk b ax opts s, rfl, rfl⟩

/-- If one of the first ten requests fails: `L1C_OUT_OF_MEMORY`, the output untouched, nothing leaked, no operator called. -/
theorem C43_out_of_memory (xk : Vec F m) (b : Vec F n) (opts : NestaOpts F) (s : NState σ) (hs : s.WF)
    (h : ∃ i < 10, s.oracle (s.calls + i) = false) :
    ∃ out s', l1c_nesta m n xk b ax opts s = some (out, s') ∧ out.status = L1C_OUT_OF_MEMORY ∧ out.xk = xk ∧ s'.live = s.live ∧ s'.cb = s.cb := by
  obtain ⟨i, hi, h⟩ := h
  obtain ⟨s', h1, h2⟩ := nesta_oom xk b ax opts s hs fun hc => by rw [hc i hi] at h; cases h
  exact ⟨_, s', h1, rfl, rfl, h2⟩

/-- A missing operator: `L1C_INCONSISTENT_ARGUMENTS` and the output untouched, but the ten blocks allocated before are not
released: the claim that every path releases its memory is false. -/
theorem C43_inconsistent_leaks (xk : Vec F m) (b : Vec F n) (opts : NestaOpts F) (s : NState σ) (hs : s.WF)
    (h : ∀ i < 10, s.oracle (s.calls + i) = true) (hm : ax.Missing) :
    ∃ out s', l1c_nesta m n xk b ax opts s = some (out, s') ∧ out.status = L1C_INCONSISTENT_ARGUMENTS ∧ out.xk = xk ∧
      s.live ⊆ s'.live ∧ (s'.live \ s.live).card = 10 := by
  obtain ⟨s', h1, h2, h3⟩ := nesta_inconsistent xk b ax opts s hs h hm
  exact ⟨_, s', h1, rfl, rfl, h2, h3⟩

example : (⟨none, none, none, none, true, true, Dbl.fin 1⟩ : NAx Dbl Unit 1 2 2).Missing := Or.inl rfl

/-- The request for the stopping window (the eleventh) is not checked: if it fails, undefined behaviour instead of
`L1C_OUT_OF_MEMORY`. -/
theorem C43_window_unchecked (xk : Vec F m) (b : Vec F n) (opts : NestaOpts F) (s : NState σ) (hs : s.WF)
    (h : ∀ i < 10, s.oracle (s.calls + i) = true) (h' : s.oracle (s.calls + 10) = false) (hm : ¬ ax.Missing) :
    l1c_nesta m n xk b ax opts s = none := by
  obtain ⟨s1, -, -, -, e⟩ := nesta_after_setup xk b ax opts s hs h hm
  rw [e]
  cases l1c_nesta_setup ax (nestaZero b) b opts s1 with
  | none => rfl
  | some r => rw [Option.bind_some, if_neg (by rw [h']; decide)]

/-- In every other case a run without undefined behaviour returns 0, releases everything it allocated and makes at most
`10000 * n_continue` inner iterations.  Missing from the full claim: the two paths above, where it is false. -/
theorem C43_success_partial (xk : Vec F m) (b : Vec F n) (opts : NestaOpts F) (s s' : NState σ) (hs : s.WF)
    (h : ∀ i < 10, s.oracle (s.calls + i) = true) (hm : ¬ ax.Missing) (out : NestaOut F n m p)
    (hrun : l1c_nesta m n xk b ax opts s = some (out, s')) :
    out.status = 0 ∧ s'.live = s.live ∧ out.inner ≤ opts.n_continue.toNat * 10000 ∧ (1 ≤ opts.n_continue → n ≤ max m p) := by
  obtain ⟨s1, -, -, -, e⟩ := nesta_after_setup xk b ax opts s hs h hm
  rw [e] at hrun
  obtain ⟨⟨⟨st, P, bm, bt⟩, s2⟩, h1, h2⟩ := Option.bind_eq_some_iff.1 hrun
  split at h2
  · obtain ⟨⟨⟨P', T⟩, s3⟩, h3, h4⟩ := Option.map_eq_some_iff.1 h2
    obtain ⟨rfl, rfl⟩ := Prod.mk.inj h4
    refine ⟨rfl, rfl, by simpa using outer_count h3, fun hN => ?_⟩
    obtain ⟨k, hk⟩ : ∃ k, opts.n_continue.toNat = k + 1 := ⟨opts.n_continue.toNat - 1, by omega⟩
    rw [hk] at h3
    exact outer_need h3
  · cases h2

/-- Such runs have no undefined behaviour if the operators have none (in the states `Inv`, which they keep), `n ≤ max m p` and `n_continue < INT_MAX`. -/
theorem C43_no_ub_partial {Inv : σ → Prop} (ha : ax.Total Inv) (hR : ax.hasRx = true ∧ ax.hasRty = true) (hn : n ≤ max m p) (xk : Vec F m)
    (b : Vec F n) (opts : NestaOpts F) (hN : opts.n_continue < INT_MAX) (s : NState σ) (hs : s.WF) (hi : Inv s.cb)
    (h : ∀ i < 11, s.oracle (s.calls + i) = true) : ∃ out s', l1c_nesta m n xk b ax opts s = some (out, s') ∧ Inv s'.cb := by
  have hm : ¬ ax.Missing := by
    obtain ⟨g, hg, -⟩ := ha.Wz
    obtain ⟨g', hg', -⟩ := ha.Wtx
    simp [NAx.Missing, hg, hg', hR.1, hR.2]
  obtain ⟨s1, e1, -, -, e⟩ := nesta_after_setup xk b ax opts s hs (fun i hi => h i (by omega)) hm
  obtain ⟨r, s2, h1, i1⟩ := setup_tot ha (nestaZero b) b opts s1 (by rw [e1]; exact hi)
  obtain ⟨q, s3, h2, i2⟩ := outer_tot ha hn r.2.2.1 r.2.2.2 opts.n_continue.toNat 1 0 { r.2.1 with xk := r.2.1.xo }
    (by unfold INT_MAX at *; omega) { s2 with live := insert s2.next s2.live, next := s2.next + 1, calls := s2.calls + 1 } i1
  rw [h1, Option.bind_some, if_pos (h 10 (by omega))] at e
  exact ⟨_, _, e.trans (congrArg _ h2), i2⟩

/-- More measurements than `max m p` overrun a work array in the first inner iteration. -/
theorem C43_work_array_overrun (xk : Vec F m) (b : Vec F n) (opts : NestaOpts F) (s : NState σ) (hs : s.WF)
    (h : ∀ i < 10, s.oracle (s.calls + i) = true) (hm : ¬ ax.Missing) (hN : 1 ≤ opts.n_continue) (hn : max m p < n) :
    l1c_nesta m n xk b ax opts s = none := by
  cases hrun : l1c_nesta m n xk b ax opts s with
  | none => rfl
  | some r =>
    have := (C43_success_partial xk b opts s r.2 hs h hm r.1 hrun).2.2.2 hN
    omega
/-- The error paths above on the small problem: a wrong size, a refused request, a refused window, and three measurements
of one unknown. -/
example : ∃ out, l1c_nesta 7 1 (fun _ => .fin 0) (fvec ![3]) (realAx exA (1 : Matrix (Fin 2) (Fin 2) ℝ) (Dbl.fin 1)) ⟨Dbl.fin 1, Dbl.fin 1, Dbl.fin 1, 1⟩ exState =
    some (out, exState) ∧ out.status = L1C_INVALID_ARGUMENT :=
  let ⟨out, h, h', _⟩ := C43_invalid (m_arg := 7) (n_arg := 1) (Or.inr (by decide)) (fun _ => .fin 0) (fvec ![3]) ⟨Dbl.fin 1, Dbl.fin 1, Dbl.fin 1, 1⟩ exState
  ⟨out, h, h'⟩

example : ∃ out s', l1c_nesta 2 1 (fun _ => .fin 0) (fvec ![3]) (realAx exA (1 : Matrix (Fin 2) (Fin 2) ℝ) (Dbl.fin 1)) ⟨Dbl.fin 1, Dbl.fin 1, Dbl.fin 1, 1⟩
      { exState with oracle := fun k => k != 4 } = some (out, s') ∧ out.status = L1C_OUT_OF_MEMORY ∧ s'.live = ∅ :=
  let ⟨out, s', h, h', _, hl, _⟩ := C43_out_of_memory (ax := realAx exA (1 : Matrix (Fin 2) (Fin 2) ℝ) (Dbl.fin 1)) (fun _ => .fin 0) (fvec ![3]) ⟨Dbl.fin 1, Dbl.fin 1, Dbl.fin 1, 1⟩
    { exState with oracle := fun k => k != 4 } exState_wf ⟨4, by decide, rfl⟩
  ⟨out, s', h, h', hl⟩

example : l1c_nesta 2 1 (fun _ => .fin 0) (fvec ![3]) (realAx exA (1 : Matrix (Fin 2) (Fin 2) ℝ) (Dbl.fin 1)) ⟨Dbl.fin 1, Dbl.fin 1, Dbl.fin 1, 1⟩
    { exState with oracle := fun k => k != 10 } = none :=
  C43_window_unchecked _ _ _ { exState with oracle := fun k => k != 10 } exState_wf (by decide) rfl (by rintro (h | h | h | h) <;> cases h)

example : l1c_nesta 1 3 (fun _ => .fin 0) (fvec ![3, 1, 2]) (realAx (0 : Matrix (Fin 3) (Fin 1) ℝ) (1 : Matrix (Fin 1) (Fin 1) ℝ) (Dbl.fin 1))
    ⟨Dbl.fin 1, Dbl.fin 1, Dbl.fin 1, 1⟩ exState = none :=
  C43_work_array_overrun _ _ _ exState exState_wf (fun _ _ => rfl) (by rintro (h | h | h | h) <;> cases h) (by decide) (by decide)

/-- `C39_norm_zero_not_finite`: the declared norm `0` on a problem with data.  The call ends and no entry of its result is finite. -/
example : ∃ (out : NestaOut Dbl 1 2 2) (s' : NState Unit), l1c_nesta 2 1 (fun _ => .fin 0) (fvec ![3]) (realAx exA 1 (Dbl.fin 0))
      ⟨Dbl.fin 1, Dbl.fin 1, Dbl.fin 1, 1⟩ exState = some (out, s') ∧ out.status = L1C_SUCCESS ∧ ∀ i, ¬ (out.xk i).IsFin := by
  obtain ⟨out, s', h, -⟩ := C43_no_ub_partial (realAx_total exA (1 : Matrix (Fin 2) (Fin 2) ℝ) (Dbl.fin 0)) ⟨rfl, rfl⟩ (by decide) (fun _ => .fin 0) (fvec ![3])
    ⟨Dbl.fin 1, Dbl.fin 1, Dbl.fin 1, 1⟩ (by decide) exState exState_wf trivial (fun _ _ => rfl)
  exact ⟨out, s', h, C39_norm_zero_not_finite (by rintro (h | h | h | h) <;> cases h) rfl _ (by decide) _ _ exState s' exState_wf (fun _ _ => rfl) out h⟩

end

example : ((realAx exA (1 : Matrix (Fin 2) (Fin 2) ℝ) (Dbl.fin 1)).Total (fun _ => True)) ∧ exState.WF ∧ ∀ i < 11, exState.oracle (exState.calls + i) = true :=
  ⟨realAx_total _ _ _, exState_wf, fun _ _ => rfl⟩

/-! ## C44 -/

/-- The accelerated rate: in a continuation step started at `xo` with smoothing parameter `mu`, for every bound `fuel` on the
number of inner iterations (the code uses 10000), after the `k ≥ 1` iterations made, `y` is feasible and its smoothed
objective exceeds that of every feasible point `w` by at most `2 (L/mu) ||w - xo||² / (k (k+1))`.  (`y` is the point of
iteration number `k - 1` counted from 0.) -/
theorem C44_rate (R : Realises ax Inv D A W) (hA : A * Aᵀ = 1) {P : NestaProb Dbl n m p} {b : Fin n → ℝ} {sigma mu mu' beta K : ℝ}
    (hb : P.b = fvec b) (hAtb : P.Atb = fvec (Aᵀ *ᵥ b)) (hsig : P.sigma = Dbl.fin sigma) (hs : 0 < sigma)
    (hmu' : P.mu_j = Dbl.fin mu') (hmu : mu = mu' * beta) (hm : 0 < mu)
    (hL : P.L = Dbl.fin (K * K)) (hK0 : 0 < K) (hK : ∀ x, nrm (Wᵀ *ᵥ x) ≤ K * nrm x)
    {xo : Fin m → ℝ} (hxo : P.xo = fvec xo) (hxk : P.xk = fvec xo) (hd : ∀ i, D (P.dwork1 i)) (beta_tol : Dbl) (fuel : ℕ) (hfuel : 0 < fuel)
    (s : NState σ) (hI : Inv s.cb) :
    ∃ (st' : NLoop Dbl n m p) (k : ℕ) (s' : NState σ) (y : Fin m → ℝ),
      nestaInner ax fuel 0 (nestaReset (Dbl.fin beta) beta_tol P) s = some ((st', k), s') ∧ Inv s'.cb ∧ 1 ≤ k ∧ k ≤ fuel ∧
      st'.P.yk = fvec y ∧ Feas A b sigma y ∧
      ∀ w fy fw, Feas A b sigma w → IsSmoothL1 mu (Wᵀ *ᵥ y) fy → IsSmoothL1 mu (Wᵀ *ᵥ w) fw →
        fy ≤ fw + 2 * (K ^ 2 / mu) * nrm (w - xo) ^ 2 / (k * (k + 1)) := by
  subst hmu
  obtain ⟨st', k, c', h1, h2, h3, -, h5, h6⟩ := inner_fin R ((rows_le hA).trans (le_max_left m p)) hs hm (mul_self_pos.2 hK0.ne')
    (P.tol_j * beta_tol) fuel 0 _ s (reset_at (W := W) ⟨⟨hb, hAtb, hsig, hmu', hL, hd⟩, hxo, hxk⟩ beta_tol) hI
  obtain ⟨k, rfl⟩ : ∃ j, k = j + 1 := ⟨k - 1, by have := h6 hfuel; omega⟩
  have hc : 0 < K * K / (mu' * beta) := div_pos (mul_self_pos.2 hK0.ne') hm
  refine ⟨st', k + 1, _, seqY A W b sigma (mu' * beta) (K * K) xo k, h1, h2, by omega, by omega, h3.hyk k rfl, projR_feas hA hs hc _ _, ?_⟩
  intro w fy fw hw hfy hfw
  rw [hfy.unique (smF_isSmooth hm _), hfw.unique (smF_isSmooth hm _)]
  have := accel_rate hA hs hc (seqR_accel (A := A) (W := W) (b := b) (sigma := sigma) (mu := mu' * beta) (L := K * K) (xo := xo))
    (f := fun x => smF (mu' * beta) (Wᵀ *ᵥ x)) (fun x y => comp_lower hm x y) (fun x y => comp_upper hm hK x y) k w hw
  rw [pow_two (nrm _), nrm_sq, pow_two]
  push_cast
  rw [show ((k : ℝ) + 1 + 1) = k + 2 by ring]
  exact this

example : ∃ (P : NestaProb Dbl 1 2 2), P.b = fvec ![(3 : ℝ)] ∧ P.Atb = fvec (exAᵀ *ᵥ ![3]) ∧ P.sigma = Dbl.fin (1 / 2) ∧
    P.mu_j = Dbl.fin 1 ∧ P.L = Dbl.fin (1 * 1) ∧ P.xo = fvec (exAᵀ *ᵥ ![3]) ∧ P.xk = fvec (exAᵀ *ᵥ ![3]) ∧
    Realises (realAx exA 1 (Dbl.fin 1)) (fun _ => True) (fun _ => True) exA (1 : Matrix (Fin 2) (Fin 2) ℝ) ∧
    ∀ x, nrm ((1 : Matrix (Fin 2) (Fin 2) ℝ)ᵀ *ᵥ x) ≤ 1 * nrm x :=
  ⟨{ nestaZero (fvec ![3]) with Atb := fvec (exAᵀ *ᵥ ![3]), sigma := Dbl.fin (1 / 2), mu_j := Dbl.fin 1, L := Dbl.fin (1 * 1), xo := fvec (exAᵀ *ᵥ ![3]), xk := fvec (exAᵀ *ᵥ ![3]) },
    rfl, rfl, rfl, rfl, rfl, rfl, rfl, realAx_realises _ _ _, fun x => by simp⟩

end L1c
