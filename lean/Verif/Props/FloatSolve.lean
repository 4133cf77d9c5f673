import Verif.Proofs.CgFloat

/-!
# The solvers in binary64: negated data (`C91`) and extreme right-hand sides of conjugate gradients (`C92`)

The operators are arbitrary functions with private states.  All statements hold for the computation as rounded, with
infinities and NaN among the data (one zero and one NaN).
-/

namespace L1c
open Scalar

variable {N n m p : ℕ} {σ : Type}

/-- Conjugate gradients: negating right-hand side and start vector negates the solution exactly; residual, iteration
count, calls of the operator and definedness are the same. -/
theorem C91_cg (op : Vec B64 N → σ → Vec B64 N × σ) (hodd : ∀ x s, op (fun i => -x i) s = ((fun i => -(op x s).1 i), (op x s).2)) (x b : Vec B64 N) (s : σ) (prm : CgParams B64) :
    l1c_cgsolve (fun i => -x i) (fun i => -b i) op s prm = (l1c_cgsolve x b op s prm).map fun o => { o with x := fun i => -o.x i } :=
  cgsolve_neg B64.oddLaws hodd x b s prm

/-- The same with a diagonal preconditioner. -/
theorem C91_pcg (op : Vec B64 N → σ → Vec B64 N × σ) (hodd : ∀ x s, op (fun i => -x i) s = ((fun i => -(op x s).1 i), (op x s).2)) (x b Minv : Vec B64 N) (s : σ) (prm : CgParams B64) :
    l1c_cgsolve_diag_precond (fun i => -x i) (fun i => -b i) Minv op s prm = (l1c_cgsolve_diag_precond x b Minv op s prm).map fun o => { o with x := fun i => -o.x i } :=
  pcgsolve_neg B64.oddLaws hodd x b Minv s prm

/-- an operator overwrites its output whatever it held, and maps negated input to negated output -/
def OddOp {l k : ℕ} (f : NOp B64 σ l k) : Prop :=
  ∀ x old old' s, f (fun i => -x i) old' s = (f x old s).map fun r => (((fun i => -r.1.1 i), fun i => -r.1.2 i), r.2)

/-- NESTA with at most as many dictionary coefficients as pixels (no TV terms): negating the samples negates the
returned image exactly; status, number of iterations, memory and definedness are the same, for every pattern of failing
allocations and missing operators. -/
theorem C91_nesta {ax : NAx B64 σ n m p} (hp : p ≤ m) (hA : ∀ f, ax.Ax = some f → OddOp f) (hAt : ∀ f, ax.Aty = some f → OddOp f) (hW : ∀ f, ax.Wz = some f → OddOp f)
    (hWt : ∀ f, ax.Wtx = some f → OddOp f) (m_arg n_arg : Int) (xk : Vec B64 m) (b : Vec B64 n) (opts : NestaOpts B64) (s : NState σ) :
    (l1c_nesta m_arg n_arg (fun i => -xk i) (fun i => -b i) ax opts s).map (fun r => (r.1.status, r.1.xk, r.1.inner, r.2)) =
      (l1c_nesta m_arg n_arg xk b ax opts s).map fun r => (r.1.status, (fun i => -r.1.xk i), r.1.inner, r.2) := by
  have h := nesta_neg B64.oddLaws (ax := ax) ⟨hA, hAt, hW, hWt⟩ hp m_arg n_arg xk b opts s
  show (l1c_nesta m_arg n_arg (vneg xk) (vneg b) ax opts s).map _ = _
  match h1 : l1c_nesta m_arg n_arg xk b ax opts s, h2 : l1c_nesta m_arg n_arg (vneg xk) (vneg b) ax opts s with
  | none, none => rfl
  | some a, some c =>
    rw [h1, h2] at h
    obtain ⟨⟨e1, e2, e3⟩, e4⟩ := h
    show some _ = some _
    dsimp only
    rw [e1, e2, e3, e4]
    rfl
  | none, some _ => rw [h1, h2] at h; exact h.elim
  | some _, none => rw [h1, h2] at h; exact h.elim

/-! ## `C92` -/

/-- A NaN in the right-hand side: whatever the operator, the tolerance and the start vector, conjugate gradients (with and
without preconditioner) uses all its iterations and returns the start vector with residual NaN. -/
theorem C92_nan (op : Vec B64 N → σ → Vec B64 N × σ) (x b Minv : Vec B64 N) (s : σ) {prm : CgParams B64} (hmax : prm.max_iter < INT_MAX) {i : Fin N} (hb : (b i).1 = .nan) :
    (∃ o, l1c_cgsolve x b op s prm = some o ∧ o.x = x ∧ o.res.cgres.1 = .nan ∧ o.res.cgiter = prm.max_iter) ∧
      ∃ o, l1c_cgsolve_diag_precond x b Minv op s prm = some o ∧ o.x = x ∧ o.res.cgres.1 = .nan ∧ o.res.cgiter = prm.max_iter := by
  have hd := B64.ddot_nan hb
  have hr : ∀ a : B64, (fsqrt (a / ddot b b)).1 = .nan := fun a => B64.nanLaws.sqrt (B64.nanLaws.div (Or.inr hd))
  have ht : ∀ a : B64, flt (fsqrt (a / ddot b b)) prm.tol = false := fun a => B64.nanLaws.flt _ (hr a)
  constructor
  · obtain ⟨o, h1, h2⟩ := cgsolve_all (x := x) op s hmax ht
    have hbest : (cgInit op x b s).1.best.1 = .nan := hr _
    obtain ⟨h3, h4⟩ := cgsolve_keep (B64.flt_nan hbest) h1
    exact ⟨o, h1, h3, by rw [h4]; exact hbest, h2⟩
  · obtain ⟨o, h1, h2⟩ := pcgsolve_all (x := x) (Minv := Minv) op s hmax ht
    have hbest : (pcgInit op x b Minv s).1.best.1 = .nan := hr _
    obtain ⟨h3, h4⟩ := pcgsolve_keep (B64.flt_nan hbest) h1
    exact ⟨o, h1, h3, by rw [h4]; exact hbest, h2⟩

/-- A right-hand side whose squares underflow (all entries at most `2^-538` in size): from the zero vector, conjugate
gradients never gets anywhere, whatever the operator — it uses all its iterations and returns zero with residual NaN. -/
theorem C92_tiny {op : Vec B64 N → σ → Vec B64 N × σ} {s : σ} (hop : (op (fun _ => lit 0) s).1 = fun _ => lit 0) {b : Vec B64 N}
    (hb : ∀ i, ∃ r : ℝ, (b i).1 = .fin r ∧ |r| ≤ 2 ^ (-538 : ℤ)) {prm : CgParams B64} (hmax : prm.max_iter < INT_MAX) :
    ∃ o, l1c_cgsolve (fun _ => lit 0) b op s prm = some o ∧ o.x = (fun _ => lit 0) ∧ o.res.cgres.1 = .nan ∧ o.res.cgiter = prm.max_iter := by
  have hd := B64.ddot_tiny hb
  obtain ⟨o, h1, h2⟩ := cgsolve_all (x := fun _ => lit 0) (b := b) op s (prm := prm) hmax (fun a => by rw [hd]; exact B64.over_zero a _)
  have hbest : (cgInit op (fun _ => lit 0) b s).1.best.1 = .nan := by
    show (fsqrt (ddot (vaxpby (lit 1) b (-(lit 1)) (op _ s).1) (vaxpby (lit 1) b (-(lit 1)) (op _ s).1) / ddot b b)).1 = _
    rw [hop, B64.first_res, hd]
    exact B64.zero_over_zero
  obtain ⟨h3, h4⟩ := cgsolve_keep (B64.flt_nan hbest) h1
  exact ⟨o, h1, h3, by rw [h4]; exact hbest, h2⟩

/-- A right-hand side with a square that overflows (an entry of size `2^512` or more, infinite or NaN): from the zero
vector, conjugate gradients returns zero with residual NaN, whatever the operator. -/
theorem C92_huge {op : Vec B64 N → σ → Vec B64 N × σ} {s : σ} (hop : (op (fun _ => lit 0) s).1 = fun _ => lit 0) {b : Vec B64 N} {i : Fin N}
    (hb : ¬ ∃ r : ℝ, (b i).1 = .fin r ∧ |r| < 2 ^ (512 : ℤ)) {prm : CgParams B64} (hmax : prm.max_iter < INT_MAX) :
    ∃ o, l1c_cgsolve (fun _ => lit 0) b op s prm = some o ∧ o.x = (fun _ => lit 0) ∧ o.res.cgres.1 = .nan := by
  obtain ⟨o, ho⟩ := cgsolve_some (fun _ => lit 0) b op s hmax
  have hd := B64.ddot_big hb
  have hbest : (cgInit op (fun _ => lit 0) b s).1.best.1 = .nan := by
    show (fsqrt (ddot (vaxpby (lit 1) b (-(lit 1)) (op _ s).1) (vaxpby (lit 1) b (-(lit 1)) (op _ s).1) / ddot b b)).1 = _
    rw [hop, B64.first_res]
    exact B64.nanLaws.sqrt (hd.div hd)
  obtain ⟨h3, h4⟩ := cgsolve_keep (B64.flt_nan hbest) ho
  exact ⟨o, ho, h3, by rw [h4]; exact hbest⟩

/-! ## Examples -/

/-- `C91_cg` applies to a stateful operator: twice the argument, counting its calls -/
example (x b : Vec B64 3) (prm : CgParams B64) :
    l1c_cgsolve (fun i => -x i) (fun i => -b i) (fun v (c : ℕ) => ((fun i => lit 2 * v i), c + 1)) 0 prm =
      (l1c_cgsolve x b (fun v (c : ℕ) => ((fun i => lit 2 * v i), c + 1)) 0 prm).map fun o => { o with x := fun i => -o.x i } :=
  C91_cg _ (fun v c => by simp only [B64.mul_neg]) x b 0 prm

/-- operators that copy; `W` is the identity -/
noncomputable def copyAx (n : ℕ) : NAx B64 Unit n n n where
  Ax := some fun x _ s => some ((x, x), s)
  Aty := some fun x _ s => some ((x, x), s)
  Wz := some fun x _ s => some ((x, x), s)
  Wtx := some fun x _ s => some ((x, x), s)
  hasRx := true
  hasRty := true
  norm_W := lit 1

/-- `C91_nesta` applies -/
example (k : ℕ) (xk b : Vec B64 k) (opts : NestaOpts B64) (s : NState Unit) :
    (l1c_nesta k k (fun i => -xk i) (fun i => -b i) (copyAx k) opts s).map (fun r => (r.1.status, r.1.xk, r.1.inner, r.2)) =
      (l1c_nesta k k xk b (copyAx k) opts s).map fun r => (r.1.status, (fun i => -r.1.xk i), r.1.inner, r.2) := by
  have h : OddOp (σ := Unit) (l := k) (k := k) fun x _ s => some ((x, x), s) := fun _ _ _ _ => rfl
  exact C91_nesta le_rfl (fun f e => Option.some.inj e ▸ h) (fun f e => Option.some.inj e ▸ h) (fun f e => Option.some.inj e ▸ h) (fun f e => Option.some.inj e ▸ h) _ _ _ _ _ _

/-- `C92_nan`: one NaN among three -/
example (x : Vec B64 3) : ∃ o, l1c_cgsolve x (fun i => if i = 1 then Scalar.nan else lit 1) (fun v (_ : Unit) => (v, ())) () ⟨100, lit (1 / 1000)⟩ = some o ∧
    o.x = x ∧ o.res.cgres.1 = .nan ∧ o.res.cgiter = 100 :=
  (C92_nan _ x _ x () (prm := ⟨100, lit (1 / 1000)⟩) (by unfold INT_MAX; norm_num) (i := 1) rfl).1

/-- `C92_tiny`: the identity operator, whose system has the solution `b`; `2^-540` is a binary64 number, so `b` is not zero -/
example : ∃ b : Vec B64 3, (∀ i, (b i).1 = .fin (2 ^ (-540 : ℤ))) ∧
    ∃ o, l1c_cgsolve (fun _ => lit 0) b (fun v (_ : Unit) => (v, ())) () ⟨100, lit (1 / 1000)⟩ = some o ∧ o.x ≠ b ∧ o.x = fun _ => lit 0 := by
  have hv : rnd (2 ^ (-540 : ℤ)) = 2 ^ (-540 : ℤ) := by
    have e : (0 : ℝ) < 2 ^ (-540 : ℤ) := by positivity
    unfold rnd rndPos
    rw [if_neg (not_lt.2 e.le)]
    have hl : Int.log 2 ((2 : ℝ) ^ (-540 : ℤ)) = -540 := by
      have := Int.log_zpow (R := ℝ) (b := 2) (by norm_num) (-540)
      exact_mod_cast this
    have hu : ulp (2 ^ (-540 : ℤ)) = 2 ^ (-592 : ℤ) := by
      unfold ulp
      rw [hl]
      norm_num
    have hq : (2 : ℝ) ^ (-540 : ℤ) / ulp (2 ^ (-540 : ℤ)) = ((2 ^ 52 : ℤ) : ℝ) := by
      rw [hu, ← zpow_sub₀ (by norm_num)]
      norm_num
    rw [hq, rne_int, ← hq, div_mul_cancel₀ _ (ulp_pos _).ne']
  refine ⟨fun _ => ⟨.fin (2 ^ (-540 : ℤ)), fun r hr => ?_⟩, fun _ => rfl, ?_⟩
  · obtain rfl := Dbl.fin.inj hr
    refine ⟨⟨_, hv.symm⟩, ?_⟩
    rw [abs_of_pos (by positivity)]
    exact zpow_lt_zpow_right₀ (by norm_num) (by norm_num)
  · obtain ⟨o, h1, h2, -, -⟩ := C92_tiny (op := fun v (_ : Unit) => (v, ())) (s := ()) rfl
      (b := fun _ : Fin 3 => (⟨.fin (2 ^ (-540 : ℤ)), fun r hr => by
        obtain rfl := Dbl.fin.inj hr
        refine ⟨⟨_, hv.symm⟩, ?_⟩
        rw [abs_of_pos (by positivity)]
        exact zpow_lt_zpow_right₀ (by norm_num) (by norm_num)⟩ : B64))
      (fun i => ⟨_, rfl, by rw [abs_of_pos (by positivity)]; exact zpow_le_zpow_right₀ (by norm_num) (by norm_num)⟩) (prm := ⟨100, lit (1 / 1000)⟩) (by unfold INT_MAX; norm_num)
    refine ⟨o, h1, fun h => ?_, h2⟩
    have h3 := congrArg (fun v => (v 0).1) (h2.symm.trans h)
    dsimp only at h3
    rw [B64.zero_val] at h3
    have h4 : (0 : ℝ) < 2 ^ (-540 : ℤ) := by positivity
    exact h4.ne (Dbl.fin.inj h3)

/-- `C92_huge`: an infinite entry -/
example : ∃ o, l1c_cgsolve (fun _ => (lit 0 : B64)) (fun i : Fin 3 => if i = 1 then Scalar.inf else lit 1) (fun v (_ : Unit) => (v, ())) () ⟨7, lit (1 / 1000)⟩ = some o ∧
    o.x = (fun _ => lit 0) ∧ o.res.cgres.1 = .nan :=
  C92_huge rfl (i := 1) (fun ⟨r, h, _⟩ => by cases h) (by unfold INT_MAX; norm_num)

end L1c
