import Verif.Proofs.CGDbl

/-!
# C12–C16: conjugate gradients
-/

namespace L1c
open Scalar

variable {N : ℕ} {σ : Type}

/-! ## Traces (any arithmetic)

`cgTrace step st s k` is the solver state after `k` executions of the loop body, `relAt … k` the
relative residual computed by execution number `k` (counted from 0). -/

section trace
variable {F : Type} [Scalar F]

/-- state after `k` loop bodies -/
def cgTrace (step : CgState F N → σ → (CgState F N × F) × σ) (st : CgState F N) (s : σ) : ℕ → CgState F N × σ
  | 0 => (st, s)
  | k + 1 => ((step (cgTrace step st s k).1 (cgTrace step st s k).2).1.1,
              (step (cgTrace step st s k).1 (cgTrace step st s k).2).2)

/-- `rel_res` of loop body number `k` -/
def relAt (step : CgState F N → σ → (CgState F N × F) × σ) (st : CgState F N) (s : σ) (k : ℕ) : F :=
  (step (cgTrace step st s k).1 (cgTrace step st s k).2).1.2

/-- an operator that also counts how often it is applied -/
def countOp (op : Vec F N → σ → Vec F N × σ) : Vec F N → σ × ℕ → Vec F N × (σ × ℕ) :=
  fun v s => ((op v s.1).1, ((op v s.1).2, s.2 + 1))

theorem cgLoop_trace (step : CgState F N → σ → (CgState F N × F) × σ) (tol : F) (st0 : CgState F N) (s0 : σ) :
    ∀ (fuel k : ℕ), ((k + fuel : ℕ) : Int) < INT_MAX → (∀ i < k, flt (relAt step st0 s0 i) tol = false) →
    ∃ j iter, cgLoop step tol fuel (k + 1 : ℕ) (cgTrace step st0 s0 k).1 (cgTrace step st0 s0 k).2 =
        some ((cgTrace step st0 s0 j).1, iter, (cgTrace step st0 s0 j).2) ∧
      ((k < j ∧ j ≤ k + fuel ∧ iter = j ∧ flt (relAt step st0 s0 (j - 1)) tol = true ∧
          ∀ i < j - 1, flt (relAt step st0 s0 i) tol = false) ∨
       (j = k + fuel ∧ iter = j + 1 ∧ ∀ i < j, flt (relAt step st0 s0 i) tol = false)) := by
  intro fuel
  induction fuel with
  | zero =>
    intro k hk hno
    refine ⟨k, ((k + 1 : ℕ) : Int), ?_, Or.inr ⟨rfl, by push_cast; rfl, hno⟩⟩
    unfold cgLoop
    rw [if_pos]; push_cast at *; omega
  | succ fuel ih =>
    intro k hk hno
    by_cases hstop : flt (relAt step st0 s0 k) tol = true
    · refine ⟨k + 1, ((k + 1 : ℕ) : Int), ?_, Or.inl ⟨by omega, by omega, rfl, hstop, hno⟩⟩
      unfold cgLoop
      unfold relAt at hstop
      simp only [hstop, if_true]; rfl
    · obtain ⟨j, iter, hrun, hcase⟩ := ih (k + 1) (by push_cast at *; omega) fun i hi => by
        rcases Nat.lt_succ_iff_lt_or_eq.1 hi with h | rfl
        · exact hno i h
        · simpa using hstop
      refine ⟨j, iter, ?_, ?_⟩
      · unfold relAt at hstop
        rw [← hrun]
        conv_lhs => unfold cgLoop
        simp only [hstop, Bool.false_eq_true, if_false]
        push_cast; rfl
      · rcases hcase with ⟨h1, h2, h3, h4⟩ | ⟨h1, h2, h3⟩
        · exact Or.inl ⟨by omega, by omega, h3, h4⟩
        · exact Or.inr ⟨by omega, h2, h3⟩

theorem toNat_lt_max {z : Int} (h : z < INT_MAX) : ((0 + z.toNat : ℕ) : Int) < INT_MAX := by
  rw [zero_add, Int.toNat_eq_max]; exact max_lt h (by decide)

/-- the bookkeeping promise: `trace` is the sequence of solver states, `calls` counts operator applications -/
def CgBook (prm : CgParams F) (trace : ℕ → CgState F N × (σ × ℕ)) (rel : ℕ → F)
    (out : CgOut F (σ × ℕ) N) : Prop :=
  (1 ≤ prm.max_iter →
    1 ≤ out.res.cgiter ∧ out.res.cgiter ≤ prm.max_iter ∧ (out.cb.2 : Int) = out.res.cgiter + 1 ∧
    out.x = (trace out.res.cgiter.toNat).1.bestx ∧ out.res.cgres = (trace out.res.cgiter.toNat).1.best ∧
    (∀ i : ℕ, (i : Int) + 1 < out.res.cgiter → flt (rel i) prm.tol = false) ∧
    (out.res.cgiter < prm.max_iter → flt (rel (out.res.cgiter.toNat - 1)) prm.tol = true)) ∧
  (prm.max_iter ≤ 0 → out.res.cgiter = prm.max_iter ∧ out.cb.2 = 1 ∧ out.x = (trace 0).1.bestx ∧
    out.res.cgres = (trace 0).1.best)

theorem cg_book (step : CgState F N → σ × ℕ → (CgState F N × F) × (σ × ℕ)) (st : CgState F N) (s : σ × ℕ)
    (hs : s.2 = 1) (hstep : ∀ st s, (step st s).2.2 = s.2 + 1) (prm : CgParams F) (hmax : prm.max_iter < INT_MAX) :
    ∃ out, (cgLoop step prm.tol prm.max_iter.toNat 1 st s).map (cgFinish prm) = some out ∧
      CgBook prm (cgTrace step st s) (relAt step st s) out := by
  obtain ⟨j, iter, hrun, hcase⟩ := cgLoop_trace step prm.tol st s prm.max_iter.toNat 0 (toNat_lt_max hmax) (by simp)
  have hcount : ∀ k, (cgTrace step st s k).2.2 = k + 1 := by
    intro k
    induction k with
    | zero => simpa [cgTrace] using hs
    | succ k ih => simp only [cgTrace, hstep, ih]
  rw [show ((0 + 1 : ℕ) : Int) = 1 from rfl] at hrun
  refine ⟨cgFinish prm ((cgTrace step st s j).1, iter, (cgTrace step st s j).2), ?_, ?_, ?_⟩
  · rw [show cgLoop step prm.tol prm.max_iter.toNat 1 st s = _ from hrun]; rfl
  · intro h1
    have hj : (j : Int) = min iter prm.max_iter := by
      rcases hcase with ⟨h1, h2, h3, -⟩ | ⟨h1, h2, -⟩ <;> omega
    have hjn : (min iter prm.max_iter).toNat = j := by omega
    simp only [cgFinish, hjn, hcount]
    refine ⟨?_, by omega, by push_cast; omega, trivial, trivial, ?_, ?_⟩
    · rcases hcase with ⟨h1, h2, h3, -⟩ | ⟨h1, h2, -⟩ <;> omega
    · intro i hi
      rcases hcase with ⟨-, -, -, -, h⟩ | ⟨-, -, h⟩
      · exact h i (by omega)
      · exact h i (by omega)
    · intro hlt
      rcases hcase with ⟨-, -, -, h, -⟩ | ⟨h1, h2, h⟩
      · exact h
      · omega
  · intro h0
    have hj : j = 0 := by rcases hcase with ⟨h1, h2, -⟩ | ⟨h1, -⟩ <;> omega
    have hi : iter = 1 := by rcases hcase with ⟨h1, h2, -⟩ | ⟨h1, h2, -⟩ <;> omega
    subst hj hi
    simp only [cgFinish, hcount]
    exact ⟨by omega, trivial, trivial, trivial⟩

/-! ## C13 -/

/-- `C13` for `l1c_cgsolve`: for every operator, data and arithmetic. -/
theorem C13_cgsolve (x b : Vec F N) (op : Vec F N → σ → Vec F N × σ) (s : σ) (prm : CgParams F)
    (hmax : prm.max_iter < INT_MAX) :
    ∃ out, l1c_cgsolve x b (countOp op) (s, 0) prm = some out ∧
      CgBook prm (cgTrace (cgStep (countOp op) (ddot b b)) (cgInit (countOp op) x b (s, 0)).1
          (cgInit (countOp op) x b (s, 0)).2)
        (relAt (cgStep (countOp op) (ddot b b)) (cgInit (countOp op) x b (s, 0)).1
          (cgInit (countOp op) x b (s, 0)).2) out :=
  cg_book _ _ _ rfl (by intro st s; unfold cgStep countOp; simp only; split <;> rfl) prm hmax

/-- `C13` for `l1c_cgsolve_diag_precond`. -/
theorem C13_precond (x b M : Vec F N) (op : Vec F N → σ → Vec F N × σ) (s : σ) (prm : CgParams F)
    (hmax : prm.max_iter < INT_MAX) :
    ∃ out, l1c_cgsolve_diag_precond x b M (countOp op) (s, 0) prm = some out ∧
      CgBook prm (cgTrace (pcgStep (countOp op) M (ddot b b)) (pcgInit (countOp op) x b M (s, 0)).1
          (pcgInit (countOp op) x b M (s, 0)).2)
        (relAt (pcgStep (countOp op) M (ddot b b)) (pcgInit (countOp op) x b M (s, 0)).1
          (pcgInit (countOp op) x b M (s, 0)).2) out :=
  cg_book _ _ _ rfl (by intro st s; unfold pcgStep countOp; simp only; split <;> rfl) prm hmax

example : ∃ out, l1c_cgsolve_diag_precond (F := Dbl) (N := 2) ![.fin 0, .nan] ![.fin 1, .pinf] ![.fin 1, .fin 2]
      (countOp fun v s => (v, s)) ((), 0) ⟨7, .fin (1 / 2)⟩ = some out ∧
    1 ≤ out.res.cgiter ∧ out.res.cgiter ≤ 7 ∧ (out.cb.2 : Int) = out.res.cgiter + 1 := by
  obtain ⟨out, h, hb, -⟩ := C13_precond (F := Dbl) (N := 2) ![.fin 0, .nan] ![.fin 1, .pinf] ![.fin 1, .fin 2]
    (fun v s => (v, s)) () ⟨7, .fin (1 / 2)⟩ (by decide)
  obtain ⟨h1, h2, h3, -⟩ := hb (by decide)
  exact ⟨out, h, h1, h2, h3⟩

end trace

/-! ## C12 -/

theorem repRes_one (A : (Fin N → ℝ) →ₗ[ℝ] (Fin N → ℝ)) (b x0 : Fin N → ℝ) (k : ℕ) :
    repRes A 1 b x0 k = nrm (b - A (cgSeq A 1 b x0 k).x) / nrm b := by
  cases k with
  | zero =>
    simp only [repRes, one_mul, cgSeq, nrm]
    rw [Real.sqrt_div (dot_self_nonneg _)]
  | succ k =>
    simp only [repRes, nrm]
    rw [Real.sqrt_div (dot_self_nonneg _)]

/-- `C12`: for every linear operator (symmetric or not), `b ≠ 0`, start, budget and tolerance, the reported
`cgres` is the relative residual of the returned vector, which is one of the textbook CG iterates, and no
visited iterate (start included) has a smaller residual. -/
theorem C12_cgsolve (A : (Fin N → ℝ) →ₗ[ℝ] (Fin N → ℝ)) (b x0 : Fin N → ℝ) (hb : b ≠ 0)
    (op : Vec Dbl N → σ → Vec Dbl N × σ) (hop : ∀ v s, (op (fvec v) s).1 = fvec (A v)) (s : σ)
    (prm : CgParams Dbl) (hmax : prm.max_iter < INT_MAX) :
    ∃ out, l1c_cgsolve (fvec x0) (fvec b) op s prm = some out ∧ ∃ xr, out.x = fvec xr ∧
      out.res.cgres = .fin (nrm (b - A xr) / nrm b) ∧
      nrm (b - A xr) ≤ nrm (b - A x0) ∧
      (∃ k : ℕ, (k : Int) ≤ max 0 out.res.cgiter ∧ CGOk A 1 b x0 k ∧ xr = (cgSeq A 1 b x0 k).x) ∧
      ∀ k : ℕ, (k : Int) ≤ out.res.cgiter → CGOk A 1 b x0 k →
        nrm (b - A xr) ≤ nrm (b - A (cgSeq A 1 b x0 k).x) := by
  obtain ⟨out, hrun, k, hok, hk, hx, hres, hmin, -⟩ :=
    pcg_main (x0 := x0) hop hb (w := 1) (fun _ => one_pos) s prm hmax
  rw [← cgsolve_eq_pcg] at hrun
  have hnb := nrm_pos hb
  have hle : ∀ i : ℕ, (i : Int) ≤ max 0 out.res.cgiter → CGOk A 1 b x0 i →
      nrm (b - A (cgSeq A 1 b x0 k).x) ≤ nrm (b - A (cgSeq A 1 b x0 i).x) := by
    intro i hi hio
    have := hmin i hi hio
    rw [repRes_one, repRes_one] at this
    exact (div_le_div_iff_of_pos_right hnb).1 this
  refine ⟨out, hrun, (cgSeq A 1 b x0 k).x, hx, by rw [hres, repRes_one], ?_, ⟨k, hk, hok, rfl⟩, ?_⟩
  · exact hle 0 (by simp) fun j hj => by omega
  · intro i hi hio; exact hle i (hi.trans (le_max_right _ _)) hio

/-- the hypotheses hold e.g. for a non-symmetric operator -/
example : ∃ (A : (Fin 2 → ℝ) →ₗ[ℝ] (Fin 2 → ℝ)) (b : Fin 2 → ℝ) (op : Vec Dbl 2 → Unit → Vec Dbl 2 × Unit),
    b ≠ 0 ∧ (∀ v s, (op (fvec v) s).1 = fvec (A v)) ∧ A ≠ 0 := by
  refine ⟨{ toFun := fun v => ![v 0 + v 1, v 1], map_add' := ?_, map_smul' := ?_ }, 1,
    fun v _ => (![v 0 + v 1, v 1], ()), one_ne_zero, ?_, ?_⟩
  · intro x y; funext i; fin_cases i <;> simp; ring
  · intro c x; funext i; fin_cases i <;> simp; ring
  · intro v _; funext i; fin_cases i <;> simp [fvec]
  · intro h
    have h1 := congrFun (LinearMap.congr_fun h ![0, 1]) 1
    exact absurd h1 (by simp)

/-- The stopping rule in exact arithmetic: leaving the loop early means the *returned* residual is below the
tolerance. -/
theorem C13_early_stop (A : (Fin N → ℝ) →ₗ[ℝ] (Fin N → ℝ)) (b x0 : Fin N → ℝ) (hb : b ≠ 0)
    (op : Vec Dbl N → σ → Vec Dbl N × σ) (hop : ∀ v s, (op (fvec v) s).1 = fvec (A v)) (s : σ)
    (prm : CgParams Dbl) (hmax : prm.max_iter < INT_MAX) :
    ∃ out, l1c_cgsolve (fvec x0) (fvec b) op s prm = some out ∧
      (out.res.cgiter < prm.max_iter → Dbl.Lt out.res.cgres prm.tol) := by
  obtain ⟨out, hrun, k, -, -, -, -, -, h⟩ :=
    pcg_main (x0 := x0) hop hb (w := 1) (fun _ => one_pos) s prm hmax
  rw [← cgsolve_eq_pcg] at hrun
  exact ⟨out, hrun, fun hl => (Dbl.flt_iff _ _).1 (h hl)⟩

/-! ## C14 -/

/-- residuals are pairwise orthogonal, directions pairwise conjugate, for as long as iterates exist -/
theorem C14_orthogonal (A : (Fin N → ℝ) →ₗ[ℝ] (Fin N → ℝ)) (hA : SPD A) (b x0 : Fin N → ℝ) (k : ℕ)
    (hok : CGOk A 1 b x0 k) : ∀ i ≤ k, ∀ j < i,
      (b - A (cgSeq A 1 b x0 i).x) ⬝ᵥ (b - A (cgSeq A 1 b x0 j).x) = 0 ∧
      (cgSeq A 1 b x0 i).p ⬝ᵥ A (cgSeq A 1 b x0 j).p = 0 := by
  intro i hi j hj
  have h := cgInv (w := 1) hA.1 (fun _ => one_pos) k hok i hi
  refine ⟨?_, h.pp j hj⟩
  have := h.rr j hj
  rw [one_mul] at this
  rwa [← cgSeq_r, ← cgSeq_r]

/-- `C14`: with a budget of at least `N` iterations, for every SPD operator the returned vector solves the
system exactly, unless the caller's positive tolerance was met earlier. -/
theorem C14_solves (A : (Fin N → ℝ) →ₗ[ℝ] (Fin N → ℝ)) (hA : SPD A) (b x0 : Fin N → ℝ) (hb : b ≠ 0)
    (op : Vec Dbl N → σ → Vec Dbl N × σ) (hop : ∀ v s, (op (fvec v) s).1 = fvec (A v)) (s : σ)
    (prm : CgParams Dbl) (hmax : prm.max_iter < INT_MAX) (hN : (N : Int) ≤ prm.max_iter) :
    ∃ out, l1c_cgsolve (fvec x0) (fvec b) op s prm = some out ∧ ∃ xr, out.x = fvec xr ∧
      (A xr = b ∨ Dbl.Lt out.res.cgres prm.tol) ∧ (¬ Dbl.Lt (.fin 0) prm.tol → A xr = b) := by
  obtain ⟨out, hrun, xr, hx, hres, -, -, hmin⟩ := C12_cgsolve A b x0 hb op hop s prm hmax
  obtain ⟨out', hrun', hstop⟩ := C13_early_stop A b x0 hb op hop s prm hmax
  obtain rfl : out = out' := Option.some.inj (hrun.symm.trans hrun')
  have key : A xr = b ∨ Dbl.Lt out.res.cgres prm.tol := by
    by_cases hlt : out.res.cgiter < prm.max_iter
    · exact Or.inr (hstop hlt)
    · left
      obtain ⟨k, hk, hok, hr⟩ := cg_finite (b := b) (x0 := x0) hA (w := 1) fun _ => one_pos
      have := hmin k (by omega) hok
      rw [← cgSeq_r, hr] at this
      have h0 : nrm (b - A xr) = 0 := le_antisymm (by simpa [nrm] using this) (nrm_nonneg _)
      by_contra hne
      have hp := nrm_pos (x := b - A xr) (sub_ne_zero.2 (Ne.symm hne))
      linarith
  refine ⟨out, hrun, xr, hx, key, fun htol => key.resolve_right fun h => htol ?_⟩
  rw [hres] at h
  have hnn : 0 ≤ nrm (b - A xr) / nrm b := div_nonneg (nrm_nonneg _) (nrm_nonneg _)
  revert h
  cases prm.tol <;> simp only [Dbl.Lt, imp_self]
  exact fun h => lt_of_le_of_lt hnn h

/-- an SPD operator that is not a multiple of the identity -/
example : ∃ A : (Fin 2 → ℝ) →ₗ[ℝ] (Fin 2 → ℝ), SPD A ∧ A ![1, 0] = ![2, 1] := by
  refine ⟨{ toFun := fun v => ![2 * v 0 + v 1, v 0 + 2 * v 1], map_add' := ?_, map_smul' := ?_ }, ⟨?_, ?_⟩, ?_⟩
  · intro x y; funext i; fin_cases i <;> simp <;> ring
  · intro c x; funext i; fin_cases i <;> simp <;> ring
  · intro u v; simp [dotProduct, Fin.sum_univ_two]; ring
  · intro v hv
    have : v 0 ≠ 0 ∨ v 1 ≠ 0 := by
      by_contra hcon
      push Not at hcon
      exact hv (by funext i; fin_cases i <;> simp [hcon])
    simp [dotProduct, Fin.sum_univ_two]
    rcases this with h | h
    · nlinarith [mul_self_pos.2 h, sq_nonneg (v 0 + 2 * v 1), sq_nonneg (v 0 + v 1)]
    · nlinarith [mul_self_pos.2 h, sq_nonneg (2 * v 0 + v 1), sq_nonneg (v 0 + v 1)]
  · funext i; fin_cases i <;> simp

/-! ## C15 -/

/-- `C15` with the gap spelled out.  The preconditioned solver compares the true relative residual of later
iterates with the *preconditioned* residual of the initial guess.  So the report is honest and minimal over the
iterates `k ≥ 1`, and for the initial guess it is `sqrt(r₀ᵀ M⁻¹ r₀)/‖b‖`.  Missing: an honest report when the
initial guess is returned (false, see `C15_precond_false`).  Also shown: an SPD system is still solved. -/
theorem C15_precond_partial (A : (Fin N → ℝ) →ₗ[ℝ] (Fin N → ℝ)) (w b x0 : Fin N → ℝ) (hw : ∀ i, 0 < w i)
    (hb : b ≠ 0) (op : Vec Dbl N → σ → Vec Dbl N × σ) (hop : ∀ v s, (op (fvec v) s).1 = fvec (A v)) (s : σ)
    (prm : CgParams Dbl) (hmax : prm.max_iter < INT_MAX) :
    ∃ out, l1c_cgsolve_diag_precond (fvec x0) (fvec b) (fvec w) op s prm = some out ∧ ∃ xr, out.x = fvec xr ∧
      ((∃ k : ℕ, 0 < k ∧ (k : Int) ≤ out.res.cgiter ∧ CGOk A w b x0 k ∧ xr = (cgSeq A w b x0 k).x ∧
          out.res.cgres = .fin (nrm (b - A xr) / nrm b)) ∨
        (xr = x0 ∧ out.res.cgres = .fin (Real.sqrt ((b - A x0) ⬝ᵥ (w * (b - A x0)) / (b ⬝ᵥ b))))) ∧
      (∀ k : ℕ, 0 < k → (k : Int) ≤ out.res.cgiter → CGOk A w b x0 k →
        Dbl.Le out.res.cgres (.fin (nrm (b - A (cgSeq A w b x0 k).x) / nrm b))) ∧
      (SPD A → (N : Int) ≤ prm.max_iter → A xr = b ∨ Dbl.Lt out.res.cgres prm.tol) := by
  obtain ⟨out, hrun, k, hok, hk, hx, hres, hmin, hstop⟩ := pcg_main (x0 := x0) hop hb hw s prm hmax
  have hrep : ∀ k, 0 < k → repRes A w b x0 k = nrm (b - A (cgSeq A w b x0 k).x) / nrm b := by
    intro k hk
    cases k with
    | zero => omega
    | succ k => simp only [repRes, nrm]; rw [Real.sqrt_div (dot_self_nonneg _)]
  refine ⟨out, hrun, _, hx, ?_, ?_, ?_⟩
  · rcases Nat.eq_zero_or_pos k with rfl | hpos
    · exact Or.inr ⟨rfl, hres⟩
    · exact Or.inl ⟨k, hpos, by omega, hok, rfl, by rw [hres, hrep k hpos]⟩
  · intro i hi hic hio
    rw [hres, ← hrep i hi]
    exact hmin i (by omega) hio
  · intro hA hN
    by_cases hlt : out.res.cgiter < prm.max_iter
    · exact Or.inr ((Dbl.flt_iff _ _).1 (hstop hlt))
    · left
      obtain ⟨k', hk', hok', hr'⟩ := cg_finite (b := b) (x0 := x0) hA hw
      have h1 := hmin k' (by omega) hok'
      have hnb := dot_self_pos hb
      have h2 : repRes A w b x0 k' = 0 := by
        cases k' with
        | zero =>
          have : b - A x0 = 0 := hr'
          simp [repRes, this]
        | succ k' => simp only [repRes, ← cgSeq_r, hr']; simp
      rw [h2] at h1
      cases k with
      | zero =>
        by_contra hne
        have hr0 : b - A x0 ≠ 0 := sub_ne_zero.2 (Ne.symm hne)
        have := Real.sqrt_pos.2 (div_pos (wdot_pos hw hr0) hnb)
        exact absurd h1 (not_le.2 this)
      | succ k =>
        by_contra hne
        have hr0 : b - A (cgSeq A w b x0 (k+1)).x ≠ 0 := sub_ne_zero.2 (Ne.symm hne)
        have := Real.sqrt_pos.2 (div_pos (dot_self_pos hr0) hnb)
        exact absurd h1 (not_le.2 this)

/-- the operator `diag(1, 2)` -/
def diag12 : (Fin 2 → ℝ) →ₗ[ℝ] (Fin 2 → ℝ) where
  toFun v := ![v 0, 2 * v 1]
  map_add' x y := by funext i; fin_cases i <;> simp; ring
  map_smul' c x := by funext i; fin_cases i <;> simp; ring

theorem diag12_spd : SPD diag12 := by
  constructor
  · intro u v; simp [diag12, dotProduct, Fin.sum_univ_two]; ring
  · intro v hv
    have : v 0 ≠ 0 ∨ v 1 ≠ 0 := by
      by_contra hcon
      push Not at hcon
      exact hv (by funext i; fin_cases i <;> simp [hcon])
    simp [diag12, dotProduct, Fin.sum_univ_two]
    rcases this with h | h
    · nlinarith [mul_self_pos.2 h, mul_self_nonneg (v 1)]
    · nlinarith [mul_self_pos.2 h, mul_self_nonneg (v 0)]

/-- `C15` is false: for `A = diag(1,2)`, `b = (1,1)`, `M⁻¹ = 1/100`, start 0 and one iteration, the solver
returns the start (relative residual 1) with `cgres = 1/10`, discarding an iterate of residual 1/3. -/
theorem C15_precond_false :
    ∃ (A : (Fin 2 → ℝ) →ₗ[ℝ] (Fin 2 → ℝ)) (w b x0 : Fin 2 → ℝ) (op : Vec Dbl 2 → Unit → Vec Dbl 2 × Unit)
      (prm : CgParams Dbl) (out : CgOut Dbl Unit 2),
      SPD A ∧ (∀ i, 0 < w i) ∧ b ≠ 0 ∧ (∀ v s, (op (fvec v) s).1 = fvec (A v)) ∧
      l1c_cgsolve_diag_precond (fvec x0) (fvec b) (fvec w) op () prm = some out ∧
      out.x = fvec x0 ∧ out.res.cgres = .fin (1 / 10) ∧ nrm (b - A x0) / nrm b = 1 ∧
      out.res.cgiter = 1 ∧ nrm (b - A (cgSeq A w b x0 1).x) / nrm b = 1 / 3 := by
  have hb : (1 : Fin 2 → ℝ) ≠ 0 := one_ne_zero
  obtain ⟨op, hope⟩ : ∃ op : Vec Dbl 2 → Unit → Vec Dbl 2 × Unit,
    op = fun v _ => (![v 0, .fin 2 * v 1], ()) := ⟨_, rfl⟩
  have hop : ∀ (v : Fin 2 → ℝ) (s : Unit), (op (fvec v) s).1 = fvec (diag12 v) := by
    subst hope
    intro v _; funext i; fin_cases i <;> simp [fvec, diag12]
  have hw : ∀ i : Fin 2, 0 < (fun _ => 1 / 100 : Fin 2 → ℝ) i := fun _ => by norm_num
  have hmax : (⟨1, .fin 0⟩ : CgParams Dbl).max_iter < INT_MAX := by decide
  have hx1 : (cgSeq diag12 (fun _ => 1 / 100) 1 0 1).x = ![2/3, 2/3] := by
    have h1 : (1 : Fin 2 → ℝ) = ![1, 1] := by funext i; fin_cases i <;> rfl
    rw [h1]
    simp only [cgSeq, CGIt.next, diag12, dotProduct, Fin.sum_univ_two]
    funext i; fin_cases i <;> norm_num
  have hr1 : (1 : Fin 2 → ℝ) - diag12 ![2/3, 2/3] = ![1/3, -1/3] := by
    funext i; fin_cases i <;> norm_num [diag12]
  have hnb : nrm (1 : Fin 2 → ℝ) = Real.sqrt 2 := by
    simp [nrm, dotProduct]
  have hs2 : Real.sqrt 2 ≠ 0 := by positivity
  have hn1 : nrm ((1 : Fin 2 → ℝ) - diag12 (cgSeq diag12 (fun _ => 1 / 100) 1 0 1).x) / nrm (1 : Fin 2 → ℝ) = 1 / 3 := by
    rw [hx1, hr1, hnb]
    have : nrm (![1/3, -1/3] : Fin 2 → ℝ) = Real.sqrt 2 / 3 := by
      rw [nrm, show (![1/3, -1/3] : Fin 2 → ℝ) ⬝ᵥ ![1/3, -1/3] = 2 / 3 ^ 2 by
        simp [dotProduct, Fin.sum_univ_two]; norm_num]
      rw [Real.sqrt_div (by norm_num), Real.sqrt_sq (by norm_num)]
    rw [this]; field_simp
  have hn0 : nrm ((1 : Fin 2 → ℝ) - diag12 0) / nrm (1 : Fin 2 → ℝ) = 1 := by
    rw [map_zero, sub_zero, hnb, div_self hs2]
  have hrep0 : repRes diag12 (fun _ => 1 / 100) 1 0 0 = 1 / 10 := by
    simp only [repRes, map_zero, sub_zero, dotProduct, Fin.sum_univ_two, Pi.one_apply, Pi.mul_apply]
    rw [show ((1 : ℝ) * (1 / 100 * 1) + 1 * (1 / 100 * 1)) / (1 * 1 + 1 * 1) = (1 / 10) ^ 2 by norm_num]
    exact Real.sqrt_sq (by norm_num)
  have hrep1 : repRes diag12 (fun _ => 1 / 100) 1 0 1 = 1 / 3 := by
    rw [← hn1]
    simp only [repRes, nrm]
    rw [Real.sqrt_div (dot_self_nonneg _)]
  obtain ⟨out, hrun, k, hok, hk, hx, hres, hmin, hstop⟩ :=
    pcg_main (x0 := 0) hop hb hw () ⟨1, .fin 0⟩ hmax
  have hk0 : k = 0 := by
    by_contra hne
    have hle : (k : Int) ≤ 1 := by
      have hc : out.res.cgiter ≤ 1 := by
        unfold l1c_cgsolve_diag_precond at hrun
        simp only [Option.map_eq_some_iff] at hrun
        obtain ⟨t, -, ht⟩ := hrun
        rw [← ht]; exact min_le_right _ _
      omega
    obtain rfl : k = 1 := by omega
    have := hmin 0 (by simp) fun j hj => by omega
    rw [hrep0, hrep1] at this
    norm_num at this
  subst hk0
  refine ⟨diag12, fun _ => 1 / 100, 1, 0, op, ⟨1, .fin 0⟩, out, diag12_spd, hw, hb, hop, hrun, hx,
    by rw [hres, hrep0], hn0, ?_, hn1⟩
  by_contra hne
  have hc : out.res.cgiter ≤ 1 := by
    unfold l1c_cgsolve_diag_precond at hrun
    simp only [Option.map_eq_some_iff] at hrun
    obtain ⟨t, -, ht⟩ := hrun
    rw [← ht]; exact min_le_right _ _
  have := hstop (show out.res.cgiter < 1 by omega)
  rw [hres, hrep0] at this
  simp at this
  norm_num at this

/-! ## C16 -/

theorem rel_zero_rhs (d : Dbl) (hd : ∀ r, d = .fin r → 0 ≤ r) : flt (fsqrt (d / .fin 0)) Dbl.pinf = false := by
  cases d with
  | fin r =>
    rcases (hd r rfl).lt_or_eq with h | h
    · rw [Dbl.pos_div_zero h, Bool.eq_false_iff, Ne, Dbl.flt_iff]; exact id
    · rw [← h, Dbl.zero_div_zero, Dbl.fsqrt_nan]; exact Dbl.flt_nan_left _
  | nan => rw [Dbl.nan_div, Dbl.fsqrt_nan]; exact Dbl.flt_nan_left _
  | pinf => exact Dbl.sqrt_not_lt (Dbl.div_not_fin id) _
  | ninf => exact Dbl.sqrt_not_lt (Dbl.div_not_fin id) _

theorem ddot_self_fin_nonneg {r : Vec Dbl N} {d : ℝ} (h : ddot r r = .fin d) : 0 ≤ d := by
  have hf : ∀ i, (r i).IsFin := by
    intro i
    by_contra hi
    exact ddot_self_not_fin ⟨i, hi⟩ (h ▸ trivial)
  obtain ⟨v, rfl⟩ := fvec_of_isFin hf
  rw [ddot_fvec] at h
  rw [← Dbl.fin_injective h]; exact dot_self_nonneg v

theorem cg_zero_rhs (x0 y : Fin N → ℝ) (op : Vec Dbl N → σ → Vec Dbl N × σ) (s : σ)
    (hop : (op (fvec x0) s).1 = fvec y) (prm : CgParams Dbl) (hmax : prm.max_iter < INT_MAX) :
    ∃ out, l1c_cgsolve (fvec x0) (fvec 0) op s prm = some out ∧ out.x = fvec x0 ∧
      out.res.cgres = fsqrt (.fin (y ⬝ᵥ y) / .fin 0) := by
  have h00 : ddot (fvec (0 : Fin N → ℝ)) (fvec 0) = .fin 0 := by simp
  have hr : vaxpby (lit 1) (fvec 0) (-(lit 1)) (op (fvec x0) s).1 = fvec (-y) := by
    rw [hop, Dbl.lit_eq, Dbl.fin_neg, vaxpby_fvec]; congr 1; simp
  have hinit : (cgInit op (fvec x0) (fvec 0) s).1.bestx = fvec x0 ∧
      (cgInit op (fvec x0) (fvec 0) s).1.best = fsqrt (.fin (y ⬝ᵥ y) / .fin 0) := by
    refine ⟨rfl, ?_⟩
    show fsqrt (ddot (vaxpby (lit 1) (fvec 0) (-(lit 1)) (op (fvec x0) s).1)
      (vaxpby (lit 1) (fvec 0) (-(lit 1)) (op (fvec x0) s).1) / ddot (fvec 0) (fvec 0)) = _
    rw [hr, ddot_fvec, h00]; simp
  have hlt : ∀ r : Vec Dbl N, flt (fsqrt (ddot r r / .fin 0)) (fsqrt (.fin (y ⬝ᵥ y) / .fin 0)) = false := by
    intro r
    rcases (dot_self_nonneg y).lt_or_eq with h | h
    · rw [Dbl.pos_div_zero h]
      exact rel_zero_rhs _ fun d hd => ddot_self_fin_nonneg hd
    · rw [← h, Dbl.zero_div_zero, Dbl.fsqrt_nan]; exact Dbl.flt_nan_right _
  have htr : ∀ k, (cgTrace (cgStep op (.fin 0)) (cgInit op (fvec x0) (fvec 0) s).1
        (cgInit op (fvec x0) (fvec 0) s).2 k).1.bestx = fvec x0 ∧
      (cgTrace (cgStep op (.fin 0)) (cgInit op (fvec x0) (fvec 0) s).1
        (cgInit op (fvec x0) (fvec 0) s).2 k).1.best = fsqrt (.fin (y ⬝ᵥ y) / .fin 0) := by
    intro k
    induction k with
    | zero => exact hinit
    | succ k ih =>
      obtain ⟨ih1, ih2⟩ := ih
      simp only [cgTrace]
      generalize hst : cgTrace (cgStep op (.fin 0)) (cgInit op (fvec x0) (fvec 0) s).1
        (cgInit op (fvec x0) (fvec 0) s).2 k = t at *
      unfold cgStep
      simp only [ih2, hlt, Bool.false_eq_true, if_false]
      exact ⟨ih1, trivial⟩
  obtain ⟨j, iter, hrun, -⟩ := cgLoop_trace (cgStep op (.fin 0)) prm.tol (cgInit op (fvec x0) (fvec 0) s).1
    (cgInit op (fvec x0) (fvec 0) s).2 prm.max_iter.toNat 0 (toNat_lt_max hmax) (by simp)
  refine ⟨cgFinish prm (_, iter, (cgTrace (cgStep op (.fin 0)) (cgInit op (fvec x0) (fvec 0) s).1
    (cgInit op (fvec x0) (fvec 0) s).2 j).2), ?_, (htr j).1, (htr j).2⟩
  unfold l1c_cgsolve
  simp only [h00]
  rw [show ((0 + 1 : ℕ) : Int) = 1 from rfl] at hrun
  erw [hrun]; rfl

/-- `C16` is false: with `b = 0` and *every* operator, if `A x₀ ≠ 0` the solver hands back `x₀` itself, whatever
the iteration budget, and reports `cgres = +inf`. -/
theorem C16_zero_rhs_false (x0 y : Fin N → ℝ) (hy : y ≠ 0) (op : Vec Dbl N → σ → Vec Dbl N × σ) (s : σ)
    (hop : (op (fvec x0) s).1 = fvec y) (prm : CgParams Dbl) (hmax : prm.max_iter < INT_MAX) :
    ∃ out, l1c_cgsolve (fvec x0) (fvec 0) op s prm = some out ∧ out.x = fvec x0 ∧ out.res.cgres = .pinf := by
  obtain ⟨out, h1, h2, h3⟩ := cg_zero_rhs x0 y op s hop prm hmax
  refine ⟨out, h1, h2, h3.trans ?_⟩
  rw [Dbl.pos_div_zero (dot_self_pos hy)]; rfl

/-- the hypothesis of `C16_zero_rhs_false` holds e.g. for the identity, which makes `x = 0` the only solution -/
example : ∃ out, l1c_cgsolve (fvec fun _ : Fin 3 => (1 : ℝ)) (fvec 0) (fun v s => (v, s)) () ⟨50, .fin 0⟩ = some out ∧
    out.x = fvec (fun _ => 1) ∧ out.res.cgres = .pinf :=
  C16_zero_rhs_false _ (fun _ => 1) (fun h => by simpa using congrFun h 0) _ () rfl _ (by decide)

/-- The part of `C16` that holds: if the initial guess already solves `A x = 0`, it is returned.  Missing: all
other initial guesses (false, `C16_zero_rhs_false`). -/
theorem C16_zero_rhs_partial (A : (Fin N → ℝ) →ₗ[ℝ] (Fin N → ℝ)) (x0 : Fin N → ℝ)
    (op : Vec Dbl N → σ → Vec Dbl N × σ) (s : σ) (hop : ∀ v s, (op (fvec v) s).1 = fvec (A v)) (h0 : A x0 = 0)
    (prm : CgParams Dbl) (hmax : prm.max_iter < INT_MAX) :
    ∃ out, l1c_cgsolve (fvec x0) (fvec 0) op s prm = some out ∧ ∃ xr, out.x = fvec xr ∧ A xr = 0 := by
  obtain ⟨out, h1, h2, -⟩ := cg_zero_rhs x0 (A x0) op s (hop x0 s) prm hmax
  exact ⟨out, h1, x0, h2, h0⟩

/-- `diag12` as the callback the solvers call. -/
noncomputable def diag12Op : Vec Dbl 2 → Unit → Vec Dbl 2 × Unit := fun v s => (![v 0, .fin 2 * v 1], s)

theorem diag12Op_eq (v : Fin 2 → ℝ) (s : Unit) : (diag12Op (fvec v) s).1 = fvec (diag12 v) := by
  funext i
  fin_cases i
  · rfl
  · show Dbl.fin 2 * .fin (v 1) = .fin (2 * v 1)
    simp

/-- `C14_solves` on a `2 × 2` system whose solution needs two steps. -/
example : ∃ out, l1c_cgsolve (fvec 0) (fvec ![1, 1]) diag12Op () ⟨2, .fin 0⟩ = some out ∧ out.x = fvec ![1, 1 / 2] := by
  obtain ⟨out, h, xr, hx, -, hs⟩ := C14_solves diag12 diag12_spd ![1, 1] 0 (fun h => by simpa using congrFun h 0) diag12Op
    diag12Op_eq () ⟨2, .fin 0⟩ (by decide) (by decide)
  refine ⟨out, h, ?_⟩
  have he := hs (fun h => lt_irrefl _ h)
  rw [hx]
  congr 1
  have h0 : xr 0 = 1 := congrFun he 0
  have h1 : 2 * xr 1 = 1 := congrFun he 1
  funext i
  fin_cases i
  · exact h0
  · show xr 1 = 1 / 2
    linarith

/-- `C14_orthogonal` after the first step of the same system: the start is not the solution, so the step is regular. -/
example : CGOk diag12 1 ![1, 1] 0 1 ∧
    (![1, 1] - diag12 (cgSeq diag12 1 ![1, 1] 0 1).x) ⬝ᵥ (![1, 1] - diag12 (cgSeq diag12 1 ![1, 1] 0 0).x) = 0 := by
  have hok : CGOk diag12 1 ![1, 1] 0 1 := by
    intro j hj
    obtain rfl : j = 0 := by omega
    have hr : (cgSeq diag12 1 ![1, 1] 0 0).r = ![1, 1] := by simp [cgSeq]
    have hp : (cgSeq diag12 1 ![1, 1] 0 0).p = ![1, 1] := by simp [cgSeq]
    rw [hr, hp]
    exact ⟨fun h => by simpa using congrFun h 0, (diag12_spd.2 _ fun h => by simpa using congrFun h 0).ne'⟩
  exact ⟨hok, (C14_orthogonal diag12 diag12_spd ![1, 1] 0 1 hok 1 le_rfl 0 one_pos).1⟩

/-- `C15_precond_partial` with the inverse diagonal as the preconditioner. -/
example : ∃ out, l1c_cgsolve_diag_precond (fvec 0) (fvec ![1, 1]) (fvec ![1, 1 / 2]) diag12Op () ⟨2, .fin 0⟩ = some out ∧
    ∃ xr, out.x = fvec xr ∧ diag12 xr = ![1, 1] := by
  obtain ⟨out, h, xr, hx, hd, -, h3⟩ := C15_precond_partial diag12 ![1, 1 / 2] ![1, 1] 0
    (by intro i; fin_cases i <;> norm_num) (fun h => by simpa using congrFun h 0) diag12Op diag12Op_eq () ⟨2, .fin 0⟩ (by decide)
  refine ⟨out, h, xr, hx, (h3 diag12_spd le_rfl).resolve_right fun hlt => ?_⟩
  rcases hd with ⟨k, -, -, -, -, he⟩ | ⟨-, he⟩
  · rw [he] at hlt
    exact absurd hlt (not_lt.2 (div_nonneg (Real.sqrt_nonneg _) (Real.sqrt_nonneg _)))
  · rw [he] at hlt
    exact absurd hlt (not_lt.2 (Real.sqrt_nonneg _))

/-- `C16_zero_rhs_partial` from the start `0`. -/
example : ∃ out, l1c_cgsolve (fvec (0 : Fin 2 → ℝ)) (fvec 0) diag12Op () ⟨50, .fin 0⟩ = some out ∧
    ∃ xr, out.x = fvec xr ∧ diag12 xr = 0 :=
  C16_zero_rhs_partial diag12 0 diag12Op () diag12Op_eq (map_zero _) _ (by decide)

end L1c
