import Verif.Spec.LineSearch

/-!
# C17, C18: backtracking line search
-/

namespace L1c
open Scalar

variable {F : Type} [Scalar F] {σ X : Type} {m : ℕ}

theorem stepAt_succ (prm : LSParams F) (k : ℕ) : stepAt prm (k + 1) = prm.beta * stepAt prm k := by
  unfold stepAt; rw [Function.iterate_succ_apply']

theorem lsLoop_good (trial : F → X) (feval : X → CbMem σ F → F × CbMem σ F) (f0fun : CbMem σ F → F)
    (f0 g : F) (prm : LSParams F) (x : X) (cb : CbMem σ F)
    (hf0 : ∀ k < 32, f0fun (cbAt trial feval prm cb (k + 1)) = f0) :
    ∀ (fuel k : ℕ) (flin : F), k + fuel = 32 → (∀ j < k, ¬ Accept trial feval prm cb g f0 j) →
      LSGood trial feval prm cb g f0 x
        (lsLoop trial feval f0fun g prm x fuel (k + 1) (stepAt prm k) flin (cbAt trial feval prm cb k)) := by
  intro fuel
  induction fuel with
  | zero =>
    intro k flin hk hrej
    obtain rfl : k = 32 := by omega
    exact Or.inr ⟨hrej, rfl, rfl, rfl, rfl⟩
  | succ fuel ih =>
    intro k flin hk hrej
    have hcb : (feval (trial (stepAt prm k)) (cbAt trial feval prm cb k)).2 = cbAt trial feval prm cb (k + 1) := rfl
    have hf : (feval (trial (stepAt prm k)) (cbAt trial feval prm cb k)).1 = fAt trial feval prm cb k := rfl
    unfold lsLoop
    simp only [hcb, hf, hf0 k (by omega), ← stepAt_succ]
    by_cases hnan : isNaN (fAt trial feval prm cb k) = true
    · rw [if_pos hnan]
      refine ih (k + 1) flin (by omega) fun j hj => ?_
      rcases Nat.lt_succ_iff_lt_or_eq.1 hj with h | rfl
      · exact hrej j h
      · rintro ⟨h1, _⟩; rw [hnan] at h1; simp at h1
    · rw [if_neg hnan]
      by_cases hle : fle (fAt trial feval prm cb k) (f0 + prm.alpha * stepAt prm k * g) = true
      · rw [if_pos hle]
        exact Or.inl ⟨k, by omega, ⟨by simpa using hnan, hle⟩, hrej, rfl, rfl, rfl, rfl, rfl, rfl, rfl⟩
      · rw [if_neg hle]
        refine ih (k + 1) _ (by omega) fun j hj => ?_
        rcases Nat.lt_succ_iff_lt_or_eq.1 hj with h | rfl
        · exact hrej j h
        · rintro ⟨_, h2⟩; exact hle h2

/-! ## C17 -/

/-- `C17`: for every callback (NaN, inf, side effects, overwriting `*fx0`), all vectors, parameters and
arithmetic, `l1c_linesearch_xu` takes the first of 32 trials meeting the decrease test against the value
of `*fx0` **on entry**, or reports failure and leaves `x` and `u` unchanged. -/
theorem C17_linesearch_xu (x u dx du : Vec F m) (cb : CbMem σ F) (g : F)
    (feval : Vec F m → Vec F m → CbMem σ F → F × CbMem σ F) (prm : LSParams F) :
    LSGood (fun step => ((fun i => step * dx i + x i, fun i => step * du i + u i) : Vec F m × Vec F m))
      (fun p => feval p.1 p.2) prm cb g cb.fx0 (x, u) (l1c_linesearch_xu x u dx du cb g feval prm) :=
  lsLoop_good _ _ (fun _ => cb.fx0) cb.fx0 g prm (x, u) cb (fun _ _ => rfl) 32 0 (lit 0) rfl (by simp)

/-- at most 32 objective evaluations: with a callback that counts its calls, the counter grows by the
reported `iter`, which is at most 32 -/
theorem C17_evaluations (x u dx du : Vec F m) (n : ℕ) (f0 g : F) (f : Vec F m → Vec F m → F) (prm : LSParams F) :
    let out := l1c_linesearch_xu x u dx du (⟨n, f0⟩ : CbMem ℕ F) g
      (fun x u c => (f x u, ⟨c.st + 1, c.fx0⟩)) prm
    out.cb.st = n + out.stat.iter ∧ out.stat.iter ≤ 32 := by
  intro out
  set fe : Vec F m → Vec F m → CbMem ℕ F → F × CbMem ℕ F := fun x u c => (f x u, ⟨c.st + 1, c.fx0⟩) with hfe
  set tr : F → Vec F m × Vec F m := fun step => (fun i => step * dx i + x i, fun i => step * du i + u i) with htr
  have hcount : ∀ k, (cbAt tr (fun p => fe p.1 p.2) prm ⟨n, f0⟩ k).st = n + k := by
    intro k
    induction k with
    | zero => rfl
    | succ k ih => show (cbAt tr (fun p => fe p.1 p.2) prm ⟨n, f0⟩ k).st + 1 = _; rw [ih]; rfl
  have hgood : LSGood tr (fun p => fe p.1 p.2) prm ⟨n, f0⟩ g f0 (x, u) out :=
    C17_linesearch_xu x u dx du (⟨n, f0⟩ : CbMem ℕ F) g fe prm
  rcases hgood with ⟨k, hk, -, -, -, hi, -, -, -, -, hst⟩ | ⟨-, -, hi, -, hcb⟩
  · exact ⟨by rw [hst, hi, hcount], by omega⟩
  · exact ⟨by rw [hcb, hi, hcount], by omega⟩

/-- In exact arithmetic, for a non-ascent direction (`g ≤ 0`), `α, β, s ≥ 0` and a finite start value, an
accepted point has an objective value that is no larger than the one on entry. -/
theorem C17_decrease (x u dx du : Vec Dbl m) (st : σ) (f0 g a b s : ℝ) (hg : g ≤ 0) (ha : 0 ≤ a) (hb : 0 ≤ b)
    (hs : 0 ≤ s) (feval : Vec Dbl m → Vec Dbl m → CbMem σ Dbl → Dbl × CbMem σ Dbl) :
    let out := l1c_linesearch_xu x u dx du ⟨st, .fin f0⟩ (.fin g) feval ⟨.fin a, .fin b, .fin s⟩
    out.stat.status = 0 → Dbl.Le out.cb.fx0 (.fin f0) := by
  intro out hstat
  rcases C17_linesearch_xu x u dx du (⟨st, .fin f0⟩ : CbMem σ Dbl) (.fin g) feval ⟨.fin a, .fin b, .fin s⟩ with
    ⟨k, -, ⟨hnan, hle⟩, -, -, -, -, -, -, hf, -⟩ | ⟨-, h1, -⟩
  · show Dbl.Le (l1c_linesearch_xu x u dx du (⟨st, .fin f0⟩ : CbMem σ Dbl) (.fin g) feval ⟨.fin a, .fin b, .fin s⟩).cb.fx0 _
    rw [hf]
    have hstep : stepAt (⟨.fin a, .fin b, .fin s⟩ : LSParams Dbl) k = .fin (b ^ k * s) := by
      clear hnan hle hf
      induction k with
      | zero => simp [stepAt]
      | succ k ih => rw [stepAt_succ, ih]; simp [pow_succ]; ring
    rw [hstep] at hle
    simp only [Dbl.fin_mul, Dbl.fin_add, Dbl.fle_iff] at hle
    revert hle
    have : a * (b ^ k * s) * g ≤ 0 := mul_nonpos_of_nonneg_of_nonpos (by positivity) hg
    generalize fAt (F := Dbl) _ _ _ _ k = v
    cases v <;> simp only [Dbl.Le, imp_self]
    intro h; linarith
  · exact absurd (show out.stat.status = 1 from h1) (by omega)

/-- a case where the first trial is rejected and a later one accepted: `f(x) = x²`-like callback -/
example : ∃ out : LSOut Unit Dbl (Vec Dbl 1 × Vec Dbl 1),
    out = l1c_linesearch_xu (fvec fun _ => (1 : ℝ)) (fvec fun _ => 0) (fvec fun _ => -4) (fvec fun _ => 0)
      ⟨(), .fin 1⟩ (.fin (-8)) (fun x _ c => (x 0 * x 0, c)) ⟨.fin (1/10), .fin (1/2), .fin 1⟩ ∧
    out.stat.status = 0 ∧ out.stat.iter = 3 := by
  refine ⟨_, rfl, ?_⟩
  have h1 : ¬ ((9 : ℝ) ≤ 1 - 8 / 10) := by norm_num
  have h2 : ¬ ((1 : ℝ) ≤ 1 - 4 / 10) := by norm_num
  have h3 : ((0 : ℝ) ≤ 1 - 2 / 10) := by norm_num
  simp only [l1c_linesearch_xu, MAX_LINESEARCH_ITER, lsLoop, vaxpy, fvec]
  norm_num [Dbl.fle_iff, Dbl.Le]

/-! ## C18 -/

/-- `C18`: a callback that stores each value it computes in `*fx0` (as `l1c_l1qc_newton` arranges) does not
disturb the decrease test of `l1c_linesearch_xu`. -/
theorem C18_linesearch_xu (x u dx du : Vec F m) (st : σ) (f0 g : F)
    (feval : Vec F m → Vec F m → σ → F × σ) (prm : LSParams F) :
    LSGood (fun step => ((fun i => step * dx i + x i, fun i => step * du i + u i) : Vec F m × Vec F m))
      (fun p c => ((feval p.1 p.2 c.st).1, ⟨(feval p.1 p.2 c.st).2, (feval p.1 p.2 c.st).1⟩))
      prm ⟨st, f0⟩ g f0 (x, u)
      (l1c_linesearch_xu x u dx du ⟨st, f0⟩ g
        (fun x u c => ((feval x u c.st).1, ⟨(feval x u c.st).2, (feval x u c.st).1⟩)) prm) :=
  C17_linesearch_xu x u dx du ⟨st, f0⟩ g
    (fun x u c => ((feval x u c.st).1, ⟨(feval x u c.st).2, (feval x u c.st).1⟩)) prm

/-- `C18` for `l1c_linesearch`, only for callbacks that leave `*fx0` alone.  Missing: callbacks that write
`*fx0`, for which it is false (`C18_linesearch_false`). -/
theorem C18_linesearch_partial (x dx : Vec F m) (cb : CbMem σ F) (g : F)
    (f : Vec F m → CbMem σ F → F × CbMem σ F) (hf : ∀ v c, (f v c).2.fx0 = c.fx0) (prm : LSParams F) :
    LSGood (fun step => ((fun i => step * dx i + x i) : Vec F m)) f prm cb g cb.fx0 x
      (l1c_linesearch x dx cb g f prm) := by
  refine lsLoop_good _ _ (fun cb => cb.fx0) cb.fx0 g prm x cb (fun k _ => ?_) 32 0 (lit 0) rfl (by simp)
  have : ∀ k, (cbAt (fun step => ((fun i => step * dx i + x i) : Vec F m)) f prm cb k).fx0 = cb.fx0 := by
    intro k
    induction k with
    | zero => rfl
    | succ k ih => simp only [cbAt]; rw [hf]; exact ih
  exact this (k + 1)

/-- With a callback that stores its value in `*fx0`, `l1c_linesearch` compares each value with itself: for a
true descent direction (`g < 0`) and positive parameters it rejects **every** finite objective, however large
the decrease. -/
theorem C18_linesearch_false (x dx : Vec Dbl m) (st : σ) (f0 : Dbl) (g a b s : ℝ) (hg : g < 0) (ha : 0 < a)
    (hb : 0 < b) (hs : 0 < s) (f : Vec Dbl m → σ → ℝ × σ) (prm : LSParams Dbl)
    (hprm : prm = ⟨.fin a, .fin b, .fin s⟩) :
    (l1c_linesearch x dx ⟨st, f0⟩ (.fin g)
      (fun v c => (.fin (f v c.st).1, ⟨(f v c.st).2, .fin (f v c.st).1⟩)) prm).stat.status = 1 := by
  subst hprm
  have key : ∀ (fuel iter : ℕ) (step : ℝ) (flin : Dbl) (cb : CbMem σ Dbl), 0 < step →
      (lsLoop (fun step => vaxpy step dx x)
        (fun v (c : CbMem σ Dbl) => (Dbl.fin (f v c.st).1, (⟨(f v c.st).2, .fin (f v c.st).1⟩ : CbMem σ Dbl)))
        (fun cb => cb.fx0) (.fin g) ⟨.fin a, .fin b, .fin s⟩ x fuel iter (.fin step) flin cb).stat.status = 1 := by
    intro fuel
    induction fuel with
    | zero => intros; rfl
    | succ fuel ih =>
      intro iter step flin cb hstep
      have hneg : a * step * g < 0 := mul_neg_of_pos_of_neg (by positivity) hg
      unfold lsLoop
      simp only [Dbl.isNaN_fin, Bool.false_eq_true, if_false, Dbl.fin_mul, Dbl.fin_add, Dbl.fle_fin]
      rw [if_neg (by linarith)]
      exact ih _ _ _ _ (by positivity)
  exact key _ _ _ _ _ hs

/-- concrete instance: an objective dropping from 1 to -100 is rejected -/
example : (l1c_linesearch (fvec fun _ : Fin 1 => (0 : ℝ)) (fvec fun _ => 1) ⟨(), .fin 1⟩ (.fin (-1))
      (fun _ _ => (.fin (-100), ⟨(), .fin (-100)⟩)) ⟨.fin (1/10), .fin (1/2), .fin 1⟩).stat.status = 1 :=
  C18_linesearch_false _ _ () _ (-1) (1/10) (1/2) 1 (by norm_num) (by norm_num) (by norm_num) (by norm_num)
    (fun _ _ => (-100, ())) _ rfl

end L1c
