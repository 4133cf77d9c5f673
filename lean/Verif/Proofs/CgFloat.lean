import Verif.Proofs.OddSolve

/-! # Conjugate gradients when the first relative residual is NaN; extreme right-hand sides in binary64 -/

namespace L1c
open Scalar

section
variable {F : Type} [Scalar F] {N : ℕ} {σ : Type}

/-- if nothing counts as smaller than the best residual, the best vector stays -/
theorem cgLoop_keep {step : CgState F N → σ → (CgState F N × F) × σ} {best : F} {x0 : Vec F N}
    (hs : ∀ st s, st.best = best → st.bestx = x0 → (step st s).1.1.best = best ∧ (step st s).1.1.bestx = x0) (tol : F) (fuel : ℕ) (iter : Int)
    {st : CgState F N} (s : σ) (h1 : st.best = best) (h2 : st.bestx = x0) {t : CgState F N × Int × σ} (ht : cgLoop step tol fuel iter st s = some t) :
    t.1.best = best ∧ t.1.bestx = x0 := by
  induction fuel generalizing iter st s with
  | zero =>
    unfold cgLoop at ht
    split_ifs at ht
    obtain rfl := Option.some.inj ht
    exact ⟨h1, h2⟩
  | succ k ih =>
    have h := hs st s h1 h2
    unfold cgLoop at ht
    dsimp only at ht
    split_ifs at ht
    · obtain rfl := Option.some.inj ht
      exact h
    · exact ih _ _ h.1 h.2 ht

/-- if no relative residual passes the test, all iterations run -/
theorem cgLoop_all {step : CgState F N → σ → (CgState F N × F) × σ} {tol : F} (hs : ∀ st s, flt (step st s).1.2 tol = false) (fuel : ℕ) (iter : Int)
    (hi : iter + fuel ≤ INT_MAX) (st : CgState F N) (s : σ) : ∃ t, cgLoop step tol fuel iter st s = some t ∧ t.2.1 = iter + fuel := by
  induction fuel generalizing iter st s with
  | zero => exact ⟨_, by unfold cgLoop; rw [if_pos (by simpa using hi)], by simp⟩
  | succ k ih =>
    unfold cgLoop
    dsimp only
    rw [if_neg (by rw [hs]; simp)]
    obtain ⟨t, h1, h2⟩ := ih (iter + 1) (by push_cast at hi; omega) (step st s).1.1 (step st s).2
    exact ⟨t, h1, by rw [h2]; push_cast; omega⟩

/-- the loop is defined when the counter cannot overflow -/
theorem cgLoop_some (step : CgState F N → σ → (CgState F N × F) × σ) (tol : F) (fuel : ℕ) (iter : Int) (hi : iter + fuel ≤ INT_MAX) (st : CgState F N) (s : σ) :
    ∃ t, cgLoop step tol fuel iter st s = some t := by
  induction fuel generalizing iter st s with
  | zero => exact ⟨_, by unfold cgLoop; rw [if_pos (by simpa using hi)]⟩
  | succ k ih =>
    unfold cgLoop
    dsimp only
    split_ifs
    · exact ⟨_, rfl⟩
    · exact ih (iter + 1) (by push_cast at hi; omega) _ _

theorem cgsolve_some (x b : Vec F N) (op : Vec F N → σ → Vec F N × σ) (s : σ) {prm : CgParams F} (hmax : prm.max_iter < INT_MAX) : ∃ o, l1c_cgsolve x b op s prm = some o := by
  obtain ⟨t, h⟩ := cgLoop_some (cgStep op (ddot b b)) prm.tol prm.max_iter.toNat 1 (by unfold INT_MAX at *; omega) (cgInit op x b s).1 (cgInit op x b s).2
  exact ⟨cgFinish prm t, by unfold l1c_cgsolve; dsimp only; rw [h]; rfl⟩

theorem pcgsolve_some (x b Minv : Vec F N) (op : Vec F N → σ → Vec F N × σ) (s : σ) {prm : CgParams F} (hmax : prm.max_iter < INT_MAX) :
    ∃ o, l1c_cgsolve_diag_precond x b Minv op s prm = some o := by
  obtain ⟨t, h⟩ := cgLoop_some (pcgStep op Minv (ddot b b)) prm.tol prm.max_iter.toNat 1 (by unfold INT_MAX at *; omega) (pcgInit op x b Minv s).1 (pcgInit op x b Minv s).2
  exact ⟨cgFinish prm t, by unfold l1c_cgsolve_diag_precond; dsimp only; rw [h]; rfl⟩

theorem cgStep_keep (op : Vec F N → σ → Vec F N × σ) (d : F) {best : F} {x0 : Vec F N} (hb : ∀ r, flt r best = false) (st : CgState F N) (s : σ)
    (h1 : st.best = best) (h2 : st.bestx = x0) : (cgStep op d st s).1.1.best = best ∧ (cgStep op d st s).1.1.bestx = x0 := by
  unfold cgStep
  dsimp only
  rw [if_neg (by rw [h1, hb]; simp)]
  exact ⟨h1, h2⟩

theorem pcgStep_keep (op : Vec F N → σ → Vec F N × σ) (Minv : Vec F N) (d : F) {best : F} {x0 : Vec F N} (hb : ∀ r, flt r best = false) (st : CgState F N) (s : σ)
    (h1 : st.best = best) (h2 : st.bestx = x0) : (pcgStep op Minv d st s).1.1.best = best ∧ (pcgStep op Minv d st s).1.1.bestx = x0 := by
  unfold pcgStep
  dsimp only
  rw [if_neg (by rw [h1, hb]; simp)]
  exact ⟨h1, h2⟩

theorem cgStep_res (op : Vec F N → σ → Vec F N × σ) (d : F) (st : CgState F N) (s : σ) : ∃ a, (cgStep op d st s).1.2 = fsqrt (a / d) := by
  unfold cgStep
  dsimp only
  split_ifs <;> exact ⟨_, rfl⟩

theorem pcgStep_res (op : Vec F N → σ → Vec F N × σ) (Minv : Vec F N) (d : F) (st : CgState F N) (s : σ) : ∃ a, (pcgStep op Minv d st s).1.2 = fsqrt (a / d) := by
  unfold pcgStep
  dsimp only
  split_ifs <;> exact ⟨_, rfl⟩

/-- any run whose first relative residual is not above anything returns the start vector -/
theorem cgsolve_keep {x b : Vec F N} {op : Vec F N → σ → Vec F N × σ} {s : σ} {prm : CgParams F} (hb : ∀ r, flt r (cgInit op x b s).1.best = false)
    {o : CgOut F σ N} (ho : l1c_cgsolve x b op s prm = some o) : o.x = x ∧ o.res.cgres = (cgInit op x b s).1.best := by
  unfold l1c_cgsolve at ho
  dsimp only at ho
  obtain ⟨t, h1, rfl⟩ := Option.map_eq_some_iff.1 ho
  have := cgLoop_keep (fun st s => cgStep_keep op (ddot b b) (x0 := x) hb st s) prm.tol _ _ (cgInit op x b s).2 rfl rfl h1
  exact ⟨this.2, this.1⟩

theorem pcgsolve_keep {x b Minv : Vec F N} {op : Vec F N → σ → Vec F N × σ} {s : σ} {prm : CgParams F} (hb : ∀ r, flt r (pcgInit op x b Minv s).1.best = false)
    {o : CgOut F σ N} (ho : l1c_cgsolve_diag_precond x b Minv op s prm = some o) : o.x = x ∧ o.res.cgres = (pcgInit op x b Minv s).1.best := by
  unfold l1c_cgsolve_diag_precond at ho
  dsimp only at ho
  obtain ⟨t, h1, rfl⟩ := Option.map_eq_some_iff.1 ho
  have := cgLoop_keep (fun st s => pcgStep_keep op Minv (ddot b b) (x0 := x) hb st s) prm.tol _ _ (pcgInit op x b Minv s).2 rfl rfl h1
  exact ⟨this.2, this.1⟩

theorem cgsolve_all {x b : Vec F N} (op : Vec F N → σ → Vec F N × σ) (s : σ) {prm : CgParams F} (hmax : prm.max_iter < INT_MAX) (hd : ∀ a, flt (fsqrt (a / ddot b b)) prm.tol = false) :
    ∃ o, l1c_cgsolve x b op s prm = some o ∧ o.res.cgiter = prm.max_iter := by
  obtain ⟨t, h1, h2⟩ := cgLoop_all (step := cgStep op (ddot b b)) (tol := prm.tol) (fun st s => by obtain ⟨a, e⟩ := cgStep_res op (ddot b b) st s; rw [e]; exact hd a)
    prm.max_iter.toNat 1 (by unfold INT_MAX at *; omega) (cgInit op x b s).1 (cgInit op x b s).2
  refine ⟨cgFinish prm t, ?_, ?_⟩
  · unfold l1c_cgsolve
    dsimp only
    rw [h1]
    rfl
  · show min t.2.1 prm.max_iter = prm.max_iter
    rw [h2]
    omega

theorem pcgsolve_all {x b Minv : Vec F N} (op : Vec F N → σ → Vec F N × σ) (s : σ) {prm : CgParams F} (hmax : prm.max_iter < INT_MAX)
    (hd : ∀ a, flt (fsqrt (a / ddot b b)) prm.tol = false) : ∃ o, l1c_cgsolve_diag_precond x b Minv op s prm = some o ∧ o.res.cgiter = prm.max_iter := by
  obtain ⟨t, h1, h2⟩ := cgLoop_all (step := pcgStep op Minv (ddot b b)) (tol := prm.tol) (fun st s => by obtain ⟨a, e⟩ := pcgStep_res op Minv (ddot b b) st s; rw [e]; exact hd a)
    prm.max_iter.toNat 1 (by unfold INT_MAX at *; omega) (pcgInit op x b Minv s).1 (pcgInit op x b Minv s).2
  refine ⟨cgFinish prm t, ?_, ?_⟩
  · unfold l1c_cgsolve_diag_precond
    dsimp only
    rw [h1]
    rfl
  · show min t.2.1 prm.max_iter = prm.max_iter
    rw [h2]
    omega

end

/-! ## binary64 -/

namespace B64
variable {N : ℕ}

theorem flt_nan {a : B64} (h : a.1 = .nan) (r : B64) : flt r a = false := by
  show Scalar.flt r.1 a.1 = false
  rw [h, Bool.eq_false_iff, Ne, Dbl.flt_iff]
  cases r.1 <;> exact fun h => h

/-- a property that sums inherit from any of their terms passes to the inner product -/
theorem ddot_absorb {P : B64 → Prop} (hl : ∀ a b : B64, P a → P (a + b)) (hr : ∀ a b : B64, P b → P (a + b)) {x y : Vec B64 N} {i : Fin N} (h : P (x i * y i)) :
    P (ddot x y) := by
  unfold ddot
  have key : ∀ (l : List (Fin N)) (s : B64), (P s ∨ i ∈ l) → P (l.foldl (fun s i => s + x i * y i) s) := by
    intro l
    induction l with
    | nil => intro s hs; exact hs.elim id fun h => by cases h
    | cons j l ih =>
      intro s hs
      refine ih _ ?_
      rcases hs with hs | hs
      · exact Or.inl (hl _ _ hs)
      · rcases List.mem_cons.1 hs with rfl | hs
        · exact Or.inl (hr _ _ h)
        · exact Or.inr hs
  exact key _ _ (Or.inr (List.mem_finRange i))

theorem ddot_nan {b : Vec B64 N} {i : Fin N} (h : (b i).1 = .nan) : (ddot b b).1 = .nan :=
  ddot_absorb (P := fun a => a.1 = .nan) (fun _ _ h => nanLaws.add (Or.inl h)) (fun _ _ h => nanLaws.add (Or.inr h)) (nanLaws.mul (Or.inl h))

/-- infinite or NaN -/
def Big (a : B64) : Prop := a.1 = .pinf ∨ a.1 = .nan

theorem Big.add_left {a : B64} (h : Big a) (b : B64) : Big (a + b) := by
  show Dbl.round (a.1 + b.1) = _ ∨ Dbl.round (a.1 + b.1) = _
  rcases h with h | h <;> rw [h]
  · cases b.1 <;> first | exact Or.inl rfl | exact Or.inr rfl
  · exact Or.inr rfl

theorem Big.add_right {b : B64} (h : Big b) (a : B64) : Big (a + b) := by
  show Dbl.round (a.1 + b.1) = _ ∨ Dbl.round (a.1 + b.1) = _
  rcases h with h | h <;> rw [h]
  · cases a.1 <;> first | exact Or.inl rfl | exact Or.inr rfl
  · cases a.1 <;> exact Or.inr rfl

theorem Big.div {a b : B64} (ha : Big a) (hb : Big b) : (a / b).1 = .nan := by
  show Dbl.round (a.1 / b.1) = _
  rcases ha with ha | ha <;> rcases hb with hb | hb <;> rw [ha, hb] <;> rfl

theorem sq_big {a : B64} (h : ¬ ∃ r : ℝ, a.1 = .fin r ∧ |r| < 2 ^ (512 : ℤ)) : Big (a * a) := by
  show Dbl.round (a.1 * a.1) = _ ∨ Dbl.round (a.1 * a.1) = _
  revert h
  cases a.1 with
  | fin r =>
    intro h
    have hr : 2 ^ (512 : ℤ) ≤ |r| := by
      by_contra hc
      exact h ⟨r, rfl, not_le.1 hc⟩
    left
    have h2 : (2 : ℝ) ^ (1024 : ℤ) ≤ r * r := by
      rw [← abs_mul_abs_self r, show (1024 : ℤ) = 512 + 512 by norm_num, zpow_add₀ (by norm_num)]
      exact mul_le_mul hr hr (by positivity) (abs_nonneg _)
    have hpos : 0 < r * r := lt_of_lt_of_le (by positivity) h2
    have h3 : (2 : ℝ) ^ (1024 : ℤ) ≤ rnd (r * r) := by
      unfold rnd
      rw [if_neg (not_lt.2 hpos.le)]
      exact rndPos_pow (by norm_num) hpos h2
    rw [Dbl.fin_mul]
    simp only [Dbl.round]
    rw [if_neg, if_pos hpos]
    rw [abs_of_nonneg (le_trans (by positivity) h3)]
    exact not_lt.2 h3
  | pinf => intro _; exact Or.inl rfl
  | ninf => intro _; exact Or.inl rfl
  | nan => intro _; exact Or.inr rfl

theorem ddot_big {b : Vec B64 N} {i : Fin N} (h : ¬ ∃ r : ℝ, (b i).1 = .fin r ∧ |r| < 2 ^ (512 : ℤ)) : Big (ddot b b) :=
  ddot_absorb (fun _ _ h => h.add_left _) (fun _ _ h => h.add_right _) (sq_big h)

theorem rnd_tiny {x : ℝ} (h0 : 0 ≤ x) (h : x ≤ 2 ^ (-1076 : ℤ)) : rnd x = 0 := by
  rcases h0.eq_or_lt with rfl | hx
  · exact rnd_zero
  unfold rnd rndPos
  rw [if_neg (not_lt.2 h0)]
  have hu : ulp x = 2 ^ (-1074 : ℤ) := by
    unfold ulp
    congr 1
    refine max_eq_right ?_
    have : Int.log 2 x ≤ -1076 := by
      by_contra hc
      have h1 : (2 : ℝ) ^ (-1075 : ℤ) ≤ x := by
        have := (Int.zpow_le_iff_le_log (b := 2) (x := -1075) (by norm_num) hx).2 (by omega)
        exact_mod_cast this
      have h2 : (2 : ℝ) ^ (-1076 : ℤ) < 2 ^ (-1075 : ℤ) := zpow_lt_zpow_right₀ (by norm_num) (by norm_num)
      linarith
    omega
  have hp : (0 : ℝ) < 2 ^ (-1074 : ℤ) := by positivity
  have hq : x / ulp x ≤ 1 / 4 := by
    rw [hu, div_le_iff₀ hp]
    refine h.trans (le_of_eq ?_)
    rw [show (-1074 : ℤ) = -1076 + 2 by norm_num, zpow_add₀ (by norm_num), show (2 : ℝ) ^ (2 : ℤ) = 4 by norm_num]
    generalize (2 : ℝ) ^ (-1076 : ℤ) = t
    ring
  have h1 := rne_err (x / ulp x)
  have h2 : 0 ≤ rne (x / ulp x) := rne_nonneg (div_nonneg h0 (ulp_pos x).le)
  have h3 : (rne (x / ulp x) : ℝ) < 1 := by
    have := (abs_le.1 h1).2
    linarith
  have h4 : rne (x / ulp x) < 1 := by exact_mod_cast h3
  have h5 : rne (x / ulp x) = 0 := by omega
  rw [h5]
  simp

theorem zero_eq {a : B64} (h : a.1 = .fin 0) : a = lit 0 := Subtype.ext (h.trans zero_val.symm)

theorem sq_tiny {a : B64} {r : ℝ} (ha : a.1 = .fin r) (h : |r| ≤ 2 ^ (-538 : ℤ)) : a * a = lit 0 := by
  refine zero_eq ?_
  show Dbl.round (a.1 * a.1) = _
  rw [ha, Dbl.fin_mul]
  have h2 : r * r ≤ 2 ^ (-1076 : ℤ) := by
    rw [← abs_mul_abs_self r, show (-1076 : ℤ) = -538 + -538 by norm_num, zpow_add₀ (by norm_num)]
    exact mul_le_mul h h (abs_nonneg _) (by positivity)
  simp only [Dbl.round]
  rw [rnd_tiny (mul_self_nonneg r) h2, abs_zero, if_pos (by positivity)]

theorem of_val (a : B64) : of a.1 = a := by
  refine Subtype.ext ?_
  show Dbl.round a.1 = a.1
  obtain ⟨d, hd⟩ := a
  cases d with
  | fin r =>
    obtain ⟨⟨x, rfl⟩, h2⟩ := hd r rfl
    simp only [Dbl.round]
    rw [rnd_idem, if_pos h2]
  | _ => rfl

theorem add_zero (a : B64) : a + lit 0 = a := by
  show of (a.1 + (lit 0 : B64).1) = a
  rw [zero_val]
  have : a.1 + Dbl.fin 0 = a.1 := by
    cases a.1 with
    | fin r => rw [Dbl.fin_add, _root_.add_zero]
    | _ => rfl
  rw [this, of_val]

theorem one_mul (a : B64) : lit 1 * a = a := by
  show of ((lit 1 : B64).1 * a.1) = a
  have h1 : (lit 1 : B64).1 = .fin 1 := by
    have h := eq_fin lit_one.1
    rwa [lit_one.2] at h
  rw [h1]
  have : Dbl.fin 1 * a.1 = a.1 := by
    cases a.1 with
    | fin r => rw [Dbl.fin_mul, _root_.one_mul]
    | pinf => show Dbl.infMul 1 = _; unfold Dbl.infMul; rw [if_neg one_ne_zero, if_pos one_pos]
    | ninf => show Dbl.infMul (-1) = _; unfold Dbl.infMul; rw [if_neg (by norm_num), if_neg (by norm_num)]
    | nan => rfl
  rw [this, of_val]

theorem ddot_tiny {b : Vec B64 N} (h : ∀ i, ∃ r : ℝ, (b i).1 = .fin r ∧ |r| ≤ 2 ^ (-538 : ℤ)) : ddot b b = lit 0 := by
  unfold ddot
  have key : ∀ l : List (Fin N), l.foldl (fun s i => s + b i * b i) (lit 0) = lit 0 := by
    intro l
    induction l with
    | nil => rfl
    | cons j l ih =>
      obtain ⟨r, h1, h2⟩ := h j
      rw [List.foldl_cons, sq_tiny h1 h2, add_zero]
      exact ih
  exact key _

/-- the first residual from a start vector the operator maps to zero -/
theorem first_res (b : Vec B64 N) : vaxpby (lit 1) b (-(lit 1)) (fun _ => (lit 0 : B64)) = b := by
  funext i
  show lit 1 * b i + -(lit 1 : B64) * lit 0 = b i
  rw [one_mul, neg_mul, one_mul, neg_zero, add_zero]

/-- nothing over zero, whatever its size, passes a test -/
theorem over_zero (a tol : B64) : flt (fsqrt (a / lit 0)) tol = false := by
  have h : (fsqrt (a / lit 0)).1 = .pinf ∨ (fsqrt (a / lit 0)).1 = .nan := by
    show Dbl.round (fsqrt (Dbl.round (a.1 / (lit 0 : B64).1))) = _ ∨ Dbl.round (fsqrt (Dbl.round (a.1 / (lit 0 : B64).1))) = _
    rw [zero_val]
    cases a.1 with
    | fin r =>
      rw [Dbl.fin_div', if_pos rfl]
      unfold Dbl.infMul
      split_ifs
      · exact Or.inr rfl
      · exact Or.inl rfl
      · exact Or.inr rfl
    | pinf =>
      have : (Dbl.pinf / Dbl.fin 0 : Dbl) = .pinf := by
        show Dbl.div _ _ = _
        simp only [Dbl.div]
        rw [if_pos le_rfl]
      rw [this]
      exact Or.inl rfl
    | ninf =>
      have : (Dbl.ninf / Dbl.fin 0 : Dbl) = .ninf := by
        show Dbl.div _ _ = _
        simp only [Dbl.div]
        rw [if_pos le_rfl]
      rw [this]
      exact Or.inr rfl
    | nan => exact Or.inr rfl
  show Scalar.flt (fsqrt (a / lit 0)).1 tol.1 = false
  rw [Bool.eq_false_iff, Ne, Dbl.flt_iff]
  rcases h with h | h <;> rw [h] <;> cases tol.1 <;> exact fun h => h

theorem zero_over_zero : (fsqrt ((lit 0 : B64) / lit 0)).1 = .nan := by
  show Dbl.round (fsqrt (Dbl.round ((lit 0 : B64).1 / (lit 0 : B64).1))) = _
  rw [zero_val, Dbl.zero_div_zero]
  rfl

end B64
end L1c
