import Verif.Proofs.NewtonSym

/-! # Directions, steps and loops of the two runs -/

namespace L1c
open Scalar Matrix

variable {n m : ℕ}

/-! ## The linear solver -/

theorem rel_zero_never (d : Dbl) (hd : ∀ r, d = .fin r → 0 ≤ r) (t : Dbl) : flt (fsqrt (d / .fin 0)) t = false := by
  cases d with
  | fin r =>
    rcases (hd r rfl).lt_or_eq with h | h
    · rw [Dbl.pos_div_zero h]; exact Dbl.sqrt_not_lt id t
    · rw [← h, Dbl.zero_div_zero, Dbl.fsqrt_nan]; exact Dbl.flt_nan_left _
  | nan => rw [Dbl.nan_div, Dbl.fsqrt_nan]; exact Dbl.flt_nan_left _
  | pinf => exact Dbl.sqrt_not_lt (Dbl.div_not_fin id) _
  | ninf => exact Dbl.sqrt_not_lt (Dbl.div_not_fin id) _

theorem cgLoop_never {N : ℕ} {τ : Type} {step : CgState Dbl N → τ → (CgState Dbl N × Dbl) × τ} {tol : Dbl} (h : ∀ st s, flt (step st s).1.2 tol = false) :
    ∀ (fuel : ℕ) (iter : Int) (st : CgState Dbl N) (s : τ) r, cgLoop step tol fuel iter st s = some r → r.2.1 = iter + fuel := by
  intro fuel
  induction fuel with
  | zero =>
    intro iter st s r hr
    unfold cgLoop at hr
    split at hr
    · obtain rfl := Option.some.inj hr; simp
    · cases hr
  | succ fuel ih =>
    intro iter st s r hr
    unfold cgLoop at hr
    dsimp only at hr
    rw [h, if_neg Bool.false_ne_true] at hr
    rw [ih _ _ _ r hr]; push_cast; ring

theorem cg_zero_iter {N : ℕ} {τ : Type} {op : Vec Dbl N → τ → Vec Dbl N × τ} {x : Vec Dbl N} {s : τ} {prm : CgParams Dbl} {out : CgOut Dbl τ N}
    (h : l1c_cgsolve x (fvec 0) op s prm = some out) : out.res.cgiter = min (1 + (prm.max_iter.toNat : Int)) prm.max_iter := by
  unfold l1c_cgsolve at h
  obtain ⟨r, hr, rfl⟩ := Option.map_eq_some_iff.1 h
  have h00 : ddot (fvec (0 : Fin N → ℝ)) (fvec 0) = .fin 0 := by simp
  have hrel : ∀ st s, (cgStep op (.fin 0) st s).1.2 = fsqrt (ddot (cgStep op (.fin 0) st s).1.1.r (cgStep op (.fin 0) st s).1.1.r / .fin 0) := fun st s => by
    unfold cgStep; simp only; split <;> rfl
  rw [h00] at hr
  have := cgLoop_never (fun st s => by rw [hrel]; exact rel_zero_never _ (fun d hd => ddot_self_fin_nonneg hd) _) _ _ _ _ r hr
  show min r.2.1 prm.max_iter = _
  rw [this]

variable {σ σ' : Type} {Inv : σ → Prop} {Inv' : σ' → Prop} {ax : QAx Dbl σ n m} {ax' : QAx Dbl σ' n m}
  {A A' : Matrix (Fin n) (Fin m) ℝ} {e : Fin m → ℝ} {T : (Fin n → ℝ) → Fin n → ℝ} {b : Fin n → ℝ} {eps tau : ℝ}

/-- the solver's call as a call with a total callback -/
theorem l1qc_cg_total (h : LOpIs ax.AtAx Inv (Aᵀ * A)) (b : Fin n → ℝ) (eps : ℝ) (p : XU m) :
    ∃ op2 : Vec Dbl m → {t // Inv t} → Vec Dbl m × {t // Inv t}, (∀ v t, (op2 (fvec v) t).1 = fvec (redR A b eps p v)) ∧
      ∀ x w prm (s : {t // Inv t}) out, l1c_cgsolve x w op2 s prm = some out →
        l1qc_cg ax (hessD A b eps p) x w prm s.1 = some ((out.x, out.res), out.cb.1) := by
  classical
  choose y s1 h1 h2 h3 using fun (t : {t // Inv t}) => H11p_fin (A := A) (b := b) (eps := eps) h p t.2
  let op2 : Vec Dbl m → {t // Inv t} → Vec Dbl m × {t // Inv t} := fun v t => (y t v, ⟨s1 t v, h2 t v⟩)
  have hR : ∀ v (t1 : Option σ) (t2 : {t // Inv t}), t1 = some t2.1 →
      (poison (l1qc_H11pfun ax (hessD A b eps p)) id v t1).1 = (op2 v t2).1 ∧
      (poison (l1qc_H11pfun ax (hessD A b eps p)) id v t1).2 = some (op2 v t2).2.1 := by
    rintro v _ t rfl
    unfold poison
    simp only [h1 t v]
    exact ⟨rfl, rfl⟩
  refine ⟨op2, fun v t => h3 t _ v rfl, fun x w prm s out hrun => ?_⟩
  obtain ⟨out', g1, g2, g3, g4⟩ := cgsolve_sim hR x w prm (s1 := some s.1) rfl hrun
  unfold l1qc_cg
  rw [g1]
  dsimp only
  rw [g4, g2, g3]; rfl

theorem cg_pair (S : QSym A A' e T) (h : LOpIs ax.AtAx Inv (Aᵀ * A)) (h' : LOpIs ax'.AtAx Inv' (A'ᵀ * A')) (p : XU m) {s : σ} (hs : Inv s) {s' : σ'}
    (hs' : Inv' s') (x0 w : Fin m → ℝ) (prm : CgParams Dbl) (hmax : prm.max_iter < INT_MAX) :
    ∃ dx res t t', l1qc_cg ax (hessD A b eps p) (fvec x0) (fvec w) prm s = some ((fvec dx, res), t) ∧ Inv t ∧
      l1qc_cg ax' (hessD A' (T b) eps (flipX e p)) (fvec (e * x0)) (fvec (e * w)) prm s' = some ((fvec (e * dx), res), t') ∧ Inv' t' := by
  obtain ⟨op, hop, hrun⟩ := l1qc_cg_total h b eps p
  obtain ⟨op', hop', hrun'⟩ := l1qc_cg_total h' (T b) eps (flipX e p)
  by_cases hw : w = 0
  · subst hw
    rw [mul_zero]
    obtain ⟨out, g1, g2, g3⟩ := cg_zero_rhs x0 (redR A b eps p x0) op ⟨s, hs⟩ (hop x0 _) prm hmax
    obtain ⟨out', g1', g2', g3'⟩ := cg_zero_rhs (e * x0) (redR A' (T b) eps (flipX e p) (e * x0)) op' ⟨s', hs'⟩ (hop' _ _) prm hmax
    have r1 := hrun _ _ _ _ _ g1
    have r1' := hrun' _ _ _ _ _ g1'
    have hres : out'.res = out.res := by
      have i1 := cg_zero_iter g1
      have i2 := cg_zero_iter g1'
      rw [S.red, sgn_dot S.he] at g3'
      cases ho : out.res; cases ho' : out'.res
      rw [ho] at i1 g3; rw [ho'] at i2 g3'
      simp only at i1 i2 g3 g3'
      rw [i1, i2, g3, g3']
    rw [g2] at r1
    rw [g2', hres] at r1'
    exact ⟨x0, out.res, _, _, r1, out.cb.2, r1', out'.cb.2⟩
  · have hw' : e * w ≠ 0 := fun hc => hw (by rw [← dot_self_eq_zero, ← sgn_dot S.he, hc, zero_dotProduct])
    obtain ⟨out, g1, -⟩ := C12_cgsolve (redR A b eps p) w x0 hw op hop ⟨s, hs⟩ prm hmax
    obtain ⟨out', g1', -⟩ := C12_cgsolve (redR A' (T b) eps (flipX e p)) (e * w) (e * x0) hw' op' hop' ⟨s', hs'⟩ prm hmax
    obtain ⟨hres, z, hz, hz'⟩ := cgsolve_pair S.he (S.red p) hop hop' hw g1 g1'
    have r1 := hrun _ _ _ _ _ g1
    have r1' := hrun' _ _ _ _ _ g1'
    rw [hz] at r1
    rw [hz', hres] at r1'
    exact ⟨z, out.res, _, _, r1, out.cb.2, r1', out'.cb.2⟩

/-! ## The direction -/

theorem descent_of_cg (R : QReal ax Inv A) {P : QProb Dbl n m} {p : XU m} (hE : EvalAt A b eps tau p P) (ht : tau ≠ 0)
    (hp : StrictFeas A b eps p) {x0 u0 : Fin m → ℝ} (hx0 : P.dx = fvec x0) (hu0 : P.du = fvec u0) (prm : CgParams Dbl) {s : σ} (hs : Inv s) :
    ∃ s1, Inv s1 ∧ ∀ dx res s2, l1qc_cg ax (hessD A b eps p) (fvec x0) (fvec (w1pR A b eps tau p)) prm s1 = some ((fvec dx, res), s2) →
      ∃ st P', l1qc_descent_dir ax P prm s = some ((st, P', res), s2) ∧ GradAt A b eps tau p P' ∧ P'.dx = fvec dx ∧
        P'.du = fvec (if flt (lit (1 / 2)) res.cgres = true then u0 else duR tau p dx) := by
  obtain ⟨s1, h1, hs1⟩ := R.Aty.call (A *ᵥ p.1 - b) hs
  obtain ⟨hG, hsx, hdx, hdu⟩ := hess_grad_fin hE ht hp
  refine ⟨s1, hs1, fun dx res s2 h2 => ?_⟩
  have n3 : feR A b eps p.1 ≠ 0 := hp.fe.ne
  have n4 : ∀ i, s11R p i ≠ 0 := fun i => (s11_pos hp.1 i).ne'
  have hH : (⟨lit 1 / P.fe_val, lit 1 / (P.fe_val * P.fe_val), fvec (Aᵀ *ᵥ (A *ᵥ p.1 - b)),
      (l1qc_hess_grad P (fvec (Aᵀ *ᵥ (A *ᵥ p.1 - b)))).2⟩ : HessData Dbl m) = hessD A b eps p := by
    rw [hsx, hE.hfe, Dbl.fin_mul, Dbl.lit_eq, Dbl.fin_div n3, Dbl.fin_div (mul_ne_zero n3 n3)]
    simp [hessD]
  have hrun : l1qc_descent_dir ax P prm s = (if flt (lit (1 / 2)) res.cgres = true then
      (pure (L1C_CGSOLVE_FAILURE, { (l1qc_hess_grad P (fvec (Aᵀ *ᵥ (A *ᵥ p.1 - b)))).1 with dx := fvec dx }, res) : OM σ _)
      else pure (0, { (l1qc_hess_grad P (fvec (Aᵀ *ᵥ (A *ᵥ p.1 - b)))).1 with dx := fvec dx, du := fvec (duR tau p dx) }, res)) s2 := by
    unfold l1qc_descent_dir
    rw [hE.hr, ombind h1]
    dsimp only
    rw [hH, hdx, hx0, hG.hw, ombind h2]
    dsimp only
    have e : (fun i => lit 1 / (l1qc_hess_grad P (fvec (Aᵀ *ᵥ (A *ᵥ p.1 - b)))).1.sig11 i *
        (l1qc_hess_grad P (fvec (Aᵀ *ᵥ (A *ᵥ p.1 - b)))).1.ntgu i -
        (l1qc_hess_grad P (fvec (Aᵀ *ᵥ (A *ᵥ p.1 - b)))).1.sig12 i / (l1qc_hess_grad P (fvec (Aᵀ *ᵥ (A *ᵥ p.1 - b)))).1.sig11 i *
        fvec dx i : Vec Dbl m) = fvec (duR tau p dx) := by
      funext i
      rw [hG.h11, hG.h12, hG.hn]
      simp only [fvec_apply, Dbl.lit_eq, Dbl.fin_div (n4 i), Dbl.fin_mul, Dbl.fin_sub]
      congr 1
      unfold duR; push_cast; ring
    rw [e]
  cases hlt : flt (lit (1 / 2)) res.cgres with
  | true =>
    refine ⟨L1C_CGSOLVE_FAILURE, { (l1qc_hess_grad P (fvec (Aᵀ *ᵥ (A *ᵥ p.1 - b)))).1 with dx := fvec dx }, ?_,
      ⟨⟨hG.hb, hG.htau, hG.heps, hG.hr, hG.hfu1, hG.hfu2, hG.hfe, hG.hf⟩, hG.hgx, hG.hgu, hG.hw, hG.h11, hG.h12, hG.hn⟩, rfl, ?_⟩
    · rw [hrun, if_pos hlt]; rfl
    · rw [if_pos rfl]; exact hdu.trans hu0
  | false =>
    refine ⟨0, { (l1qc_hess_grad P (fvec (Aᵀ *ᵥ (A *ᵥ p.1 - b)))).1 with dx := fvec dx, du := fvec (duR tau p dx) }, ?_,
      ⟨⟨hG.hb, hG.htau, hG.heps, hG.hr, hG.hfu1, hG.hfu2, hG.hfe, hG.hf⟩, hG.hgx, hG.hgu, hG.hw, hG.h11, hG.h12, hG.hn⟩, rfl, ?_⟩
    · rw [hrun, if_neg (by rw [hlt]; exact Bool.false_ne_true)]; rfl
    · rw [if_neg Bool.false_ne_true]

/-! ## The step bound -/

/-- extended real value of a number; not-a-number is not used -/
noncomputable def Dbl.toE : Dbl → EReal
  | .fin r => (r : EReal)
  | .pinf => ⊤
  | .ninf => ⊥
  | .nan => 0

theorem Dbl.toE_inj {a c : Dbl} (ha : a ≠ .nan) (hc : c ≠ .nan) (h : a.toE = c.toE) : a = c := by
  cases a <;> cases c <;> simp_all [Dbl.toE]

theorem Dbl.cmin_toE {a c : Dbl} (ha : a ≠ .nan) (hc : c ≠ .nan) : cmin a c ≠ .nan ∧ (cmin a c).toE = min a.toE c.toE := by
  have hlt : flt a c = true ↔ a.toE < c.toE := by
    rw [Dbl.flt_iff]
    cases a <;> cases c <;> simp_all [Dbl.toE, Dbl.Lt]
  unfold cmin
  by_cases h : flt a c = true
  · rw [if_pos h]; exact ⟨ha, (min_eq_left (hlt.1 h).le).symm⟩
  · rw [if_neg h]; exact ⟨hc, (min_eq_right (not_lt.1 fun h' => h (hlt.2 h'))).symm⟩

theorem minRatio_toE {k : ℕ} (fu d : Fin k → ℝ) : minRatio (fvec fu) (fvec d) ≠ .nan ∧
    ∀ y : EReal, y ≤ (minRatio (fvec fu) (fvec d)).toE ↔ ∀ i, 0 < d i → y ≤ ((-fu i / d i : ℝ) : EReal) := by
  have gen : ∀ (l : List (Fin k)) (v : Dbl), v ≠ .nan →
      l.foldl (fun acc i => if flt (lit 0) (fvec d i) then cmin acc (-fvec fu i / fvec d i) else acc) v ≠ .nan ∧
      ∀ y : EReal, y ≤ (l.foldl (fun acc i => if flt (lit 0) (fvec d i) then cmin acc (-fvec fu i / fvec d i) else acc) v).toE ↔
        y ≤ v.toE ∧ ∀ i ∈ l, 0 < d i → y ≤ ((-fu i / d i : ℝ) : EReal) := by
    intro l
    induction l with
    | nil => intro v hv; exact ⟨hv, fun y => by simp⟩
    | cons i l ih =>
      intro v hv
      rw [List.foldl_cons]
      by_cases hd : 0 < d i
      · rw [if_pos (by rw [Dbl.lit_eq, fvec_apply, Dbl.flt_fin]; simpa using hd), fvec_apply, fvec_apply, Dbl.fin_neg, Dbl.fin_div hd.ne']
        obtain ⟨h1, h2⟩ := Dbl.cmin_toE hv (c := .fin (-fu i / d i)) (by simp)
        obtain ⟨h3, h4⟩ := ih _ h1
        refine ⟨h3, fun y => ?_⟩
        rw [h4, h2, le_min_iff, List.forall_mem_cons, and_assoc]
        exact and_congr_right fun _ => and_congr_left fun _ => ⟨fun h _ => h, fun h => h hd⟩
      · rw [if_neg (by rw [Dbl.lit_eq, fvec_apply, Dbl.flt_fin]; simpa using hd)]
        obtain ⟨h3, h4⟩ := ih _ hv
        refine ⟨h3, fun y => ?_⟩
        rw [h4, List.forall_mem_cons]
        exact and_congr_right fun _ => ⟨fun h => ⟨fun hc => absurd hc hd, h⟩, fun h => h.2⟩
  obtain ⟨h1, h2⟩ := gen (List.finRange k) inf (by intro hc; cases hc)
  refine ⟨h1, fun y => ?_⟩
  refine (h2 y).trans ⟨fun h i hi => h.2 i (List.mem_finRange i) hi, fun h => ⟨?_, fun i _ hi => h i hi⟩⟩
  exact le_top

/-- exchanging the two bounds of some entries does not change the smaller of the two step bounds -/
theorem minRatio_flip (he : ∀ i, e i = 1 ∨ e i = -1) (p d : XU m) :
    cmin (minRatio (fvec fun i => (e * p.1) i - p.2 i) (fvec fun i => (e * d.1) i - d.2 i))
      (minRatio (fvec fun i => -(e * p.1) i - p.2 i) (fvec fun i => -(e * d.1) i - d.2 i)) =
    cmin (minRatio (fvec fun i => p.1 i - p.2 i) (fvec fun i => d.1 i - d.2 i))
      (minRatio (fvec fun i => -p.1 i - p.2 i) (fvec fun i => -d.1 i - d.2 i)) := by
  obtain ⟨a1, a2⟩ := minRatio_toE (fun i => (e * p.1) i - p.2 i) (fun i => (e * d.1) i - d.2 i)
  obtain ⟨b1, b2⟩ := minRatio_toE (fun i => -(e * p.1) i - p.2 i) (fun i => -(e * d.1) i - d.2 i)
  obtain ⟨c1, c2⟩ := minRatio_toE (fun i => p.1 i - p.2 i) (fun i => d.1 i - d.2 i)
  obtain ⟨d1, d2⟩ := minRatio_toE (fun i => -p.1 i - p.2 i) (fun i => -d.1 i - d.2 i)
  obtain ⟨x1, x2⟩ := Dbl.cmin_toE a1 b1
  obtain ⟨y1, y2⟩ := Dbl.cmin_toE c1 d1
  refine Dbl.toE_inj x1 y1 ?_
  rw [x2, y2]
  refine eq_of_forall_le_iff fun z => ?_
  rw [le_min_iff, le_min_iff, a2, b2, c2, d2, ← forall_and, ← forall_and]
  refine forall_congr' fun i => ?_
  simp only [Pi.mul_apply]
  rcases he i with h | h <;> rw [h]
  · rw [one_mul, one_mul]
  · rw [neg_one_mul, neg_one_mul, neg_neg, neg_neg, and_comm]

theorem max_step_pair (S : QSym A A' e T) (hA : LOpIs ax.Ax Inv A) (hA' : LOpIs ax'.Ax Inv' A') {P P' : QProb Dbl n m} {p d : XU m}
    (hE : EvalAt A b eps tau p P) (hE' : EvalAt A' (T b) eps tau (flipX e p) P') (hdx : P.dx = fvec d.1) (hdu : P.du = fvec d.2)
    (hdx' : P'.dx = fvec (e * d.1)) (hdu' : P'.du = fvec d.2) {s : σ} (hs : Inv s) {s' : σ'} (hs' : Inv' s') {v v' : Dbl} {t : σ} {t' : σ'}
    (h : l1qc_find_max_step ax P s = some (v, t)) (h' : l1qc_find_max_step ax' P' s' = some (v', t')) : v' = v := by
  obtain ⟨s1, g1, -⟩ := hA.call d.1 hs
  obtain ⟨s1', g1', -⟩ := hA'.call (e * d.1) hs'
  unfold l1qc_find_max_step at h h'
  rw [hdx, ombind g1] at h
  rw [hdx', ombind g1'] at h'
  split at h
  · cases h
  rename_i hnm
  rw [if_neg hnm] at h'
  have hv := (ompure_some h).1
  have hv' := (ompure_some h').1
  rw [← hv, ← hv']
  have e1 : (fun i => fvec d.1 i - P.du i : Vec Dbl m) = fvec fun i => d.1 i - d.2 i := by rw [hdu]; rfl
  have e2 : (fun i => -fvec d.1 i - P.du i : Vec Dbl m) = fvec fun i => -d.1 i - d.2 i := by funext i; rw [hdu]; simp
  have e1' : (fun i => fvec (e * d.1) i - P'.du i : Vec Dbl m) = fvec fun i => (e * d.1) i - d.2 i := by rw [hdu']; rfl
  have e2' : (fun i => -fvec (e * d.1) i - P'.du i : Vec Dbl m) = fvec fun i => -(e * d.1) i - d.2 i := by funext i; rw [hdu']; simp
  have hr' : P'.r = fvec (T (A *ᵥ p.1 - b)) := by rw [hE'.hr]; exact congrArg fvec (S.resid p.1)
  have hmr := minRatio_flip S.he p d
  rw [e1, e2, e1', e2', hE.hr, hr', S.hA, hE.heps, hE'.heps, hE.hfu1, hE.hfu2, hE'.hfu1, hE'.hfu2]
  simp only [ddot_fvec, S.dot]
  unfold flipX
  rw [hmr]

/-! ## The line search -/

theorem ls_pair (S : QSym A A' e T) (hA : LOpIs ax.Ax Inv A) (hA' : LOpIs ax'.Ax Inv' A') (ht : tau ≠ 0) {p d : XU m} {smax g : ℝ}
    (hstep : ∀ t, 0 ≤ t → t ≤ smax → StrictFeas A b eps (p + t • d)) :
    ∀ (fuel iter : ℕ) (t : ℝ) (flin : Dbl) (Q : QProb Dbl n m) (s : σ) (Q1 : QProb Dbl n m) (s1 : σ'), 0 < t → t ≤ smax →
    Kept b eps tau d Q → Inv s → Kept (T b) eps tau (flipX e d) Q1 → Inv' s1 →
    ∃ (t' : ℝ) (Q' Q1' : QProb Dbl n m) (s' : σ) (s1' : σ') (stat : LSStat Dbl) (p' : XU m),
      lsRun ax p d (barrier A b eps tau p) g smax fuel iter (Dbl.fin t) flin ⟨some (Q, s), Q.f_val⟩ =
        ⟨(fvec p'.1, fvec p'.2), ⟨some (Q', s'), Q'.f_val⟩, stat⟩ ∧
      lsRun ax' (flipX e p) (flipX e d) (barrier A b eps tau p) g smax fuel iter (Dbl.fin t) flin ⟨some (Q1, s1), Q1.f_val⟩ =
        ⟨(fvec (flipX e p').1, fvec (flipX e p').2), ⟨some (Q1', s1'), Q1'.f_val⟩, stat⟩ ∧
      Inv s' ∧ Inv' s1' ∧ Kept b eps tau d Q' ∧ Kept (T b) eps tau (flipX e d) Q1' ∧ stat.step = Dbl.fin t' ∧ StrictFeas A b eps p' ∧
      (stat.status ≤ 0 → EvalAt A b eps tau p' Q' ∧ EvalAt A' (T b) eps tau (flipX e p') Q1') := by
  intro fuel
  induction fuel with
  | zero =>
    intro iter t flin Q s Q1 s1 h0 h1 hQ hs hQ1 hs1
    refine ⟨t, Q, Q1, s, s1, _, p, rfl, rfl, hs, hs1, hQ, hQ1, rfl, ?_, fun hc => absurd hc (by show ¬ 1 ≤ 0; omega)⟩
    simpa using hstep 0 le_rfl (h0.le.trans h1)
  | succ fuel ih =>
    intro iter t flin Q s Q1 s1 h0 h1 hQ hs hQ1 hs1
    have hsf := hstep t h0.le h1
    have hsf1 : StrictFeas A' (T b) eps (flipX e (p + t • d)) := S.feas.2 hsf
    obtain ⟨Q', s', hev, hs', hE, hdx', hdu'⟩ := f_eval_fin hA hQ.hb hQ.htau hQ.heps ht hsf hs
    obtain ⟨Q1', s1', hev1, hs1', hE1, hdx1', hdu1'⟩ := f_eval_fin hA' hQ1.hb hQ1.htau hQ1.heps ht hsf1 hs1
    have hK : Kept b eps tau d Q' := ⟨hE.hb, hE.htau, hE.heps, hdx'.trans hQ.hdx, hdu'.trans hQ.hdu⟩
    have hK1 : Kept (T b) eps tau (flipX e d) Q1' := ⟨hE1.hb, hE1.htau, hE1.heps, hdx1'.trans hQ1.hdx, hdu1'.trans hQ1.hdu⟩
    have e1 : ∀ p d : XU m, vaxpy (Dbl.fin t) (fvec d.1) (fvec p.1) = fvec (p + t • d).1 := fun p d => by
      rw [vaxpy_fvec, add_comm (t • d.1)]; rfl
    have e2 : ∀ p d : XU m, vaxpy (Dbl.fin t) (fvec d.2) (fvec p.2) = fvec (p + t • d).2 := fun p d => by
      rw [vaxpy_fvec, add_comm (t • d.2)]; rfl
    have hcb : l1qc_feval_cb ax (fvec (p + t • d).1) (fvec (p + t • d).2) ⟨some (Q, s), Q.f_val⟩ =
        (Q'.f_val, ⟨some (Q', s'), Q'.f_val⟩) := by
      unfold l1qc_feval_cb
      simp only [hev]
    have hcb1 : l1qc_feval_cb ax' (fvec (flipX e p + t • flipX e d).1) (fvec (flipX e p + t • flipX e d).2) ⟨some (Q1, s1), Q1.f_val⟩ =
        (Q1'.f_val, ⟨some (Q1', s1'), Q1'.f_val⟩) := by
      rw [flipX_step]
      unfold l1qc_feval_cb
      simp only [hev1]
    have hff : Q1'.f_val = Q'.f_val := by rw [hE.hf, hE1.hf, S.barrier_eq]
    have hnn : isNaN Q'.f_val = false := by rw [hE.hf]; exact Dbl.isNaN_fin _
    have hfl : Dbl.fin (barrier A b eps tau p) + lit (1 / 100) * Dbl.fin t * Dbl.fin g =
        Dbl.fin (barrier A b eps tau p + 1 / 100 * t * g) := by
      rw [Dbl.lit_eq, Dbl.fin_mul, Dbl.fin_mul, Dbl.fin_add]; push_cast; rfl
    have hnext : lit (1 / 2) * Dbl.fin t = Dbl.fin (t / 2) := by
      rw [Dbl.lit_eq, Dbl.fin_mul]; congr 1; push_cast; ring
    have hunf : lsRun ax p d (barrier A b eps tau p) g smax (fuel + 1) iter (Dbl.fin t) flin ⟨some (Q, s), Q.f_val⟩ =
        if fle Q'.f_val (Dbl.fin (barrier A b eps tau p + 1 / 100 * t * g)) = true then
          ⟨(fvec (p + t • d).1, fvec (p + t • d).2), ⟨some (Q', s'), Q'.f_val⟩,
            ⟨Dbl.fin (barrier A b eps tau p + 1 / 100 * t * g), Dbl.fin t, iter, 0⟩⟩
        else lsRun ax p d (barrier A b eps tau p) g smax fuel (iter + 1) (Dbl.fin (t / 2))
          (Dbl.fin (barrier A b eps tau p + 1 / 100 * t * g)) ⟨some (Q', s'), Q'.f_val⟩ := by
      unfold lsRun
      conv_lhs => unfold lsLoop
      dsimp only
      rw [e1, e2, hcb]
      dsimp only
      rw [hnn, hfl, hnext]
      rfl
    have hunf1 : lsRun ax' (flipX e p) (flipX e d) (barrier A b eps tau p) g smax (fuel + 1) iter (Dbl.fin t) flin ⟨some (Q1, s1), Q1.f_val⟩ =
        if fle Q'.f_val (Dbl.fin (barrier A b eps tau p + 1 / 100 * t * g)) = true then
          ⟨(fvec (flipX e (p + t • d)).1, fvec (flipX e (p + t • d)).2), ⟨some (Q1', s1'), Q1'.f_val⟩,
            ⟨Dbl.fin (barrier A b eps tau p + 1 / 100 * t * g), Dbl.fin t, iter, 0⟩⟩
        else lsRun ax' (flipX e p) (flipX e d) (barrier A b eps tau p) g smax fuel (iter + 1) (Dbl.fin (t / 2))
          (Dbl.fin (barrier A b eps tau p + 1 / 100 * t * g)) ⟨some (Q1', s1'), Q1'.f_val⟩ := by
      unfold lsRun
      conv_lhs => unfold lsLoop
      dsimp only
      rw [e1, e2, hcb1]
      dsimp only
      rw [flipX_step, hff, hnn, hfl, hnext]
      rfl
    by_cases hfle : fle Q'.f_val (Dbl.fin (barrier A b eps tau p + 1 / 100 * t * g)) = true
    · rw [if_pos hfle] at hunf hunf1
      exact ⟨t, Q', Q1', s', s1', _, p + t • d, hunf, hunf1, hs', hs1', hK, hK1, rfl, hsf, fun _ => ⟨hE, hE1⟩⟩
    · rw [if_neg hfle] at hunf hunf1
      rw [hunf, hunf1]
      exact ih (iter + 1) (t / 2) _ Q' s' Q1' s1' (by linarith) (by linarith) hK hs' hK1 hs1'

theorem linesearch_pair (S : QSym A A' e T) (hA : LOpIs ax.Ax Inv A) (hA' : LOpIs ax'.Ax Inv' A') (ht : tau ≠ 0) {p d : XU m} {smax g : ℝ}
    (h0 : 0 < smax) (hstep : ∀ t, 0 ≤ t → t ≤ smax → StrictFeas A b eps (p + t • d)) {P P1 : QProb Dbl n m} (hE : EvalAt A b eps tau p P)
    (hE1 : EvalAt A' (T b) eps tau (flipX e p) P1) (hdx : P.dx = fvec d.1) (hdu : P.du = fvec d.2) (hdx1 : P1.dx = fvec (flipX e d).1)
    (hdu1 : P1.du = fvec (flipX e d).2) {s : σ} (hs : Inv s) {s1 : σ'} (hs1 : Inv' s1) :
    ∃ (t' : ℝ) (Q' Q1' : QProb Dbl n m) (s' : σ) (s1' : σ') (stat : LSStat Dbl) (p' : XU m),
      l1qc_linesearch ax (fvec p.1) (fvec p.2) P (Dbl.fin g) ⟨lit (1 / 100), lit (1 / 2), Dbl.fin smax⟩ s =
        some (((fvec p'.1, fvec p'.2), Q', stat), s') ∧
      l1qc_linesearch ax' (fvec (flipX e p).1) (fvec (flipX e p).2) P1 (Dbl.fin g) ⟨lit (1 / 100), lit (1 / 2), Dbl.fin smax⟩ s1 =
        some (((fvec (flipX e p').1, fvec (flipX e p').2), Q1', stat), s1') ∧
      Inv s' ∧ Inv' s1' ∧ Kept b eps tau d Q' ∧ Kept (T b) eps tau (flipX e d) Q1' ∧ stat.step = Dbl.fin t' ∧ StrictFeas A b eps p' ∧
      (stat.status ≤ 0 → EvalAt A b eps tau p' Q' ∧ EvalAt A' (T b) eps tau (flipX e p') Q1') := by
  obtain ⟨t', Q', Q1', s', s1', stat, p', h1, h2, hs', hs1', h3, h4, h5, h6, h7⟩ := ls_pair (g := g) S hA hA' ht hstep MAX_LINESEARCH_ITER 1 smax (lit 0)
    P s P1 s1 h0 le_rfl ⟨hE.hb, hE.htau, hE.heps, hdx, hdu⟩ hs ⟨hE1.hb, hE1.htau, hE1.heps, hdx1, hdu1⟩ hs1
  refine ⟨t', Q', Q1', s', s1', stat, p', ?_, ?_, hs', hs1', h3, h4, h5, h6, h7⟩
  · have hrun : l1c_linesearch_xu (fvec p.1) (fvec p.2) P.dx P.du ⟨some (P, s), P.f_val⟩ (Dbl.fin g) (l1qc_feval_cb ax)
        ⟨lit (1 / 100), lit (1 / 2), Dbl.fin smax⟩ = ⟨(fvec p'.1, fvec p'.2), ⟨some (Q', s'), Q'.f_val⟩, stat⟩ := by
      rw [← h1]
      unfold l1c_linesearch_xu lsRun
      rw [hdx, hdu, hE.hf]
    unfold l1qc_linesearch
    dsimp only
    rw [hrun]
    rfl
  · have hrun : l1c_linesearch_xu (fvec (flipX e p).1) (fvec (flipX e p).2) P1.dx P1.du ⟨some (P1, s1), P1.f_val⟩ (Dbl.fin g) (l1qc_feval_cb ax')
        ⟨lit (1 / 100), lit (1 / 2), Dbl.fin smax⟩ = ⟨(fvec (flipX e p').1, fvec (flipX e p').2), ⟨some (Q1', s1'), Q1'.f_val⟩, stat⟩ := by
      rw [← h2]
      unfold l1c_linesearch_xu lsRun
      rw [hdx1, hdu1, hE1.hf, S.barrier_eq]
    unfold l1qc_linesearch
    dsimp only
    rw [hrun]
    rfl

/-! ## The loops -/

/-- the loop variables of the two runs after a Newton loop -/
structure PairEnd (A A' : Matrix (Fin n) (Fin m) ℝ) (T : (Fin n → ℝ) → Fin n → ℝ) (e : Fin m → ℝ) (b : Fin n → ℝ) (eps tau : ℝ) (p : XU m)
    (st st' : QLoop Dbl n m) : Prop where
  fst : LoopEnd A b eps tau p st
  snd : LoopEnd A' (T b) eps tau (flipX e p) st'
  du : st'.P.du = st.P.du
  step : st'.step = st.step
  cg : st'.cg = st.cg
  newton : st'.newton = st.newton

/-- the loop variables of the two runs at the top of a Newton iteration -/
structure PairOK (A A' : Matrix (Fin n) (Fin m) ℝ) (T : (Fin n → ℝ) → Fin n → ℝ) (e : Fin m → ℝ) (b : Fin n → ℝ) (eps tau : ℝ) (p : XU m)
    (st st' : QLoop Dbl n m) : Prop where
  fst : LoopOK A b eps tau p st
  snd : LoopOK A' (T b) eps tau (flipX e p) st'
  dx : ∃ d, st.P.dx = fvec d ∧ st'.P.dx = fvec (e * d)
  du : st'.P.du = st.P.du
  step : st'.step = st.step
  l1 : st'.l1_prev = st.l1_prev
  cg : st'.cg = st.cg
  newton : st'.newton = st.newton

theorem warmStart_pair (w : Int) (r : ℝ) (d : Fin m → ℝ) :
    ∃ d', warmStart w (Dbl.fin r) (fvec d) = fvec d' ∧ warmStart w (Dbl.fin r) (fvec (e * d)) = fvec (e * d') := by
  unfold warmStart
  split
  · exact ⟨0, by funext i; simp, by funext i; simp⟩
  · split
    · exact ⟨fun i => r * d i, by funext i; simp, by funext i; simp only [fvec_apply, Dbl.fin_mul, Pi.mul_apply]; congr 1; ring⟩
    · exact ⟨d, rfl, rfl⟩

theorem dasum_flip (he : ∀ i, e i = 1 ∨ e i = -1) (x : Fin m → ℝ) : dasum (fvec (e * x)) = dasum (fvec x) := by
  simp only [dasum_fvec]
  congr 1
  exact Finset.sum_congr rfl fun i _ => sgn_abs (he i) _

theorem newton_body_pair (S : QSym A A' e T) (R : QReal ax Inv A) (R' : QReal ax' Inv' A') (hnm : n ≤ m) (ht : 0 < tau) {prm : QOpts Dbl}
    (hc1 : prm.cg_maxiter < INT_MAX) {p : XU m} {st st' : QLoop Dbl n m} (h : PairOK A A' T e b eps tau p st st') {s s2 : σ} (hs : Inv s)
    {s' s2' : σ'} (hs' : Inv' s') {st1 st1' : QLoop Dbl n m} {stop stop' : Bool} (hr : l1qc_newton_body ax prm st s = some ((st1, stop), s2))
    (hr' : l1qc_newton_body ax' prm st' s' = some ((st1', stop'), s2')) :
    Inv s2 ∧ Inv' s2' ∧ stop' = stop ∧ ∃ p1, PairEnd A A' T e b eps tau p1 st1 st1' ∧ (stop = false → PairOK A A' T e b eps tau p1 st1 st1') := by
  obtain ⟨d0, hd0, hd0'⟩ := h.dx
  obtain ⟨u0, hu0⟩ := h.fst.hdu
  obtain ⟨r0, hr0⟩ := h.fst.hstep
  obtain ⟨x0, hx0, hx0'⟩ := warmStart_pair (e := e) prm.warm_start_cg r0 d0
  have hE0 : EvalAt A b eps tau p { st.P with dx := warmStart prm.warm_start_cg st.step st.P.dx } :=
    ⟨h.fst.hE.hb, h.fst.hE.htau, h.fst.hE.heps, h.fst.hE.hr, h.fst.hE.hfu1, h.fst.hE.hfu2, h.fst.hE.hfe, h.fst.hE.hf⟩
  have hE0' : EvalAt A' (T b) eps tau (flipX e p) { st'.P with dx := warmStart prm.warm_start_cg st'.step st'.P.dx } :=
    ⟨h.snd.hE.hb, h.snd.hE.htau, h.snd.hE.heps, h.snd.hE.hr, h.snd.hE.hfu1, h.snd.hE.hfu2, h.snd.hE.hfe, h.snd.hE.hf⟩
  obtain ⟨sa, hsa, hdir⟩ := descent_of_cg R hE0 ht.ne' h.fst.hp (x0 := x0) (u0 := u0) (by dsimp only; rw [hr0, hd0, hx0]) hu0
    ⟨prm.cg_maxiter, prm.cg_tol⟩ hs
  obtain ⟨sa', hsa', hdir'⟩ := descent_of_cg R' hE0' ht.ne' h.snd.hp (x0 := e * x0) (u0 := u0) (by dsimp only; rw [h.step, hr0, hd0', hx0'])
    (h.du.trans hu0) ⟨prm.cg_maxiter, prm.cg_tol⟩ hs'
  obtain ⟨dx, res, sb, sb', c1, hsb, c1', hsb'⟩ := cg_pair (b := b) (eps := eps) S R.AtAx R'.AtAx p hsa hsa' x0 (w1pR A b eps tau p)
    ⟨prm.cg_maxiter, prm.cg_tol⟩ hc1
  rw [← S.w1p] at c1'
  obtain ⟨k, P, h1, hG, hdx, hdu⟩ := hdir _ _ _ c1
  obtain ⟨k', P', h1', hG', hdx', hdu'⟩ := hdir' _ _ _ c1'
  rw [S.du] at hdu'
  set du := (if flt (lit (1 / 2)) res.cgres = true then u0 else duR tau p dx) with hdud
  obtain ⟨smax, sc, h2, hsc, hs0, -, hfeas⟩ := find_max_step_fin (d := (dx, du)) R.Ax hnm hG.toEvalAt h.fst.hp hdx hdu hsb
  obtain ⟨smax', sc', h2', hsc', -⟩ := find_max_step_fin (d := (e * dx, du)) R'.Ax hnm hG'.toEvalAt h.snd.hp hdx' hdu' hsb'
  have hsm := max_step_pair (d := (dx, du)) S R.Ax R'.Ax hG.toEvalAt hG'.toEvalAt hdx hdu hdx' hdu' hsb hsb' h2 h2'
  rw [hsm] at h2'
  have hg : ddot P.gradf_x P.dx + ddot P.gradf_u P.du = Dbl.fin (gxR A b eps tau p ⬝ᵥ dx + guR tau p ⬝ᵥ du) := by
    rw [hG.hgx, hG.hgu, hdx, hdu, ddot_fvec, ddot_fvec, Dbl.fin_add]
  have hg' : ddot P'.gradf_x P'.dx + ddot P'.gradf_u P'.du = Dbl.fin (gxR A b eps tau p ⬝ᵥ dx + guR tau p ⬝ᵥ du) := by
    rw [hG'.hgx, hG'.hgu, hdx', hdu', ddot_fvec, ddot_fvec, Dbl.fin_add, S.slope]
  obtain ⟨t', Q, Q', sd, sd', stat, p1, h3, h3', hsd, hsd', hK, hK', hstp, hf1, hev⟩ := linesearch_pair (d := (dx, du))
    (g := gxR A b eps tau p ⬝ᵥ dx + guR tau p ⬝ᵥ du) S R.Ax R'.Ax ht.ne' hs0 hfeas hG.toEvalAt hG'.toEvalAt hdx hdu hdx' hdu' hsc hsc'
  unfold l1qc_newton_body at hr hr'
  rw [ombind h1] at hr
  rw [ombind h1'] at hr'
  dsimp only at hr hr'
  obtain ⟨cg, se, q1, hr⟩ := ombind_some hr
  obtain ⟨cg', se', q1', hr'⟩ := ombind_some hr'
  obtain ⟨c2, rfl⟩ := olift_some' q1
  obtain ⟨c2', rfl⟩ := olift_some' q1'
  rw [h.cg, c2] at c2'
  obtain rfl := Option.some.inj c2'
  rw [ombind h2, hg, h.fst.hx, h.fst.hu, ombind h3] at hr
  rw [ombind h2', hg', h.snd.hx, h.snd.hu, ombind h3'] at hr'
  dsimp only at hr hr'
  have hd1 : dasum (fvec (flipX e p1).1) = dasum (fvec p1.1) := dasum_flip S.he p1.1
  have hend : PairEnd A A' T e b eps tau p1 { st with x := fvec p1.1, u := fvec p1.2, P := Q, step := stat.step, cg := cg }
      { st' with x := fvec (flipX e p1).1, u := fvec (flipX e p1).2, P := Q', step := stat.step, cg := cg } :=
    ⟨⟨rfl, rfl, hf1, hK.hb, hK.htau, hK.heps, ⟨_, hK.hdu⟩, ⟨t', hstp⟩⟩,
     ⟨rfl, rfl, S.feas.2 hf1, hK'.hb, hK'.htau, hK'.heps, ⟨_, hK'.hdu⟩, ⟨t', hstp⟩⟩, hK'.hdu.trans hK.hdu.symm, rfl, rfl, h.newton⟩
  split at hr
  · rename_i hpos
    rw [if_pos hpos] at hr'
    obtain ⟨a1, rfl⟩ := ompure_some hr
    obtain ⟨a1', rfl⟩ := ompure_some hr'
    obtain ⟨rfl, rfl⟩ := Prod.mk.inj a1
    obtain ⟨rfl, rfl⟩ := Prod.mk.inj a1'
    exact ⟨hsd, hsd', rfl, p1, hend, fun hc => absurd hc (by decide)⟩
  · rename_i hpos
    rw [if_neg hpos] at hr'
    obtain ⟨v1, v2⟩ := hev (by omega)
    split at hr
    · rename_i hnt
      rw [if_pos hnt] at hr'
      obtain ⟨a1, rfl⟩ := ompure_some hr
      obtain ⟨a1', rfl⟩ := ompure_some hr'
      obtain ⟨rfl, rfl⟩ := Prod.mk.inj a1
      obtain ⟨rfl, rfl⟩ := Prod.mk.inj a1'
      exact ⟨hsd, hsd', rfl, p1, hend, fun hc => absurd hc (by decide)⟩
    · rename_i hnt
      rw [if_neg hnt] at hr'
      obtain ⟨a1, rfl⟩ := ompure_some hr
      obtain ⟨a1', rfl⟩ := ompure_some hr'
      obtain ⟨rfl, hst⟩ := Prod.mk.inj a1
      obtain ⟨rfl, hst'⟩ := Prod.mk.inj a1'
      refine ⟨hsd, hsd', ?_, p1, ?_, fun _ => ?_⟩
      · rw [← hst, ← hst', hd1, h.l1]
      · exact ⟨⟨rfl, rfl, hf1, hK.hb, hK.htau, hK.heps, ⟨_, hK.hdu⟩, ⟨t', hstp⟩⟩,
          ⟨rfl, rfl, S.feas.2 hf1, hK'.hb, hK'.htau, hK'.heps, ⟨_, hK'.hdu⟩, ⟨t', hstp⟩⟩, hK'.hdu.trans hK.hdu.symm, rfl, rfl, h.newton⟩
      · exact ⟨⟨rfl, rfl, hf1, v1, ⟨_, hK.hdx⟩, ⟨_, hK.hdu⟩, ⟨t', hstp⟩⟩,
          ⟨rfl, rfl, S.feas.2 hf1, v2, ⟨_, hK'.hdx⟩, ⟨_, hK'.hdu⟩, ⟨t', hstp⟩⟩, ⟨dx, hK.hdx, hK'.hdx⟩, hK'.hdu.trans hK.hdu.symm, rfl, hd1, rfl,
          h.newton⟩

theorem PairOK.stop {p : XU m} {st st' : QLoop Dbl n m} (h : PairOK A A' T e b eps tau p st st') : PairEnd A A' T e b eps tau p st st' :=
  ⟨h.fst.stop, h.snd.stop, h.du, h.step, h.cg, h.newton⟩

theorem newton_loop_pair (S : QSym A A' e T) (R : QReal ax Inv A) (R' : QReal ax' Inv' A') (hnm : n ≤ m) (ht : 0 < tau) {prm : QOpts Dbl}
    (hc1 : prm.cg_maxiter < INT_MAX) : ∀ (fuel : ℕ) (iter : Int) (p : XU m) (st st' : QLoop Dbl n m) (s s2 : σ) (s' s2' : σ')
    (st1 st1' : QLoop Dbl n m) (k k' : Int), PairOK A A' T e b eps tau p st st' → Inv s → Inv' s' →
    l1qc_newton_loop ax prm fuel iter st s = some ((st1, k), s2) → l1qc_newton_loop ax' prm fuel iter st' s' = some ((st1', k'), s2') →
    Inv s2 ∧ Inv' s2' ∧ k' = k ∧ ∃ p1, PairEnd A A' T e b eps tau p1 st1 st1' := by
  intro fuel
  induction fuel with
  | zero =>
    intro iter p st st' s s2 s' s2' st1 st1' k k' h hs hs' hr hr'
    obtain ⟨a1, rfl⟩ := ompure_some hr
    obtain ⟨a1', rfl⟩ := ompure_some hr'
    obtain ⟨rfl, rfl⟩ := Prod.mk.inj a1
    obtain ⟨rfl, rfl⟩ := Prod.mk.inj a1'
    exact ⟨hs, hs', rfl, p, h.stop⟩
  | succ fuel ih =>
    intro iter p st st' s s2 s' s2' st1 st1' k k' h hs hs' hr hr'
    unfold l1qc_newton_loop at hr hr'
    obtain ⟨⟨st2, stop⟩, s3, q1, hr⟩ := ombind_some hr
    obtain ⟨⟨st2', stop'⟩, s3', q1', hr'⟩ := ombind_some hr'
    obtain ⟨hs3, hs3', rfl, p1, he, ho⟩ := newton_body_pair S R R' hnm ht hc1 h hs hs' q1 q1'
    dsimp only at hr hr'
    cases stop' with
    | true =>
      rw [if_pos rfl] at hr hr'
      obtain ⟨a1, rfl⟩ := ompure_some hr
      obtain ⟨a1', rfl⟩ := ompure_some hr'
      obtain ⟨rfl, rfl⟩ := Prod.mk.inj a1
      obtain ⟨rfl, rfl⟩ := Prod.mk.inj a1'
      exact ⟨hs3, hs3', rfl, p1, he⟩
    | false =>
      rw [if_neg Bool.false_ne_true] at hr hr'
      exact ih _ p1 _ _ _ _ _ _ _ _ _ _ (ho rfl) hs3 hs3' hr hr'

theorem lb_body_pair (S : QSym A A' e T) (R : QReal ax Inv A) (R' : QReal ax' Inv' A') (hnm : n ≤ m) (ht : 0 < tau) {prm : QOpts Dbl} {mu : ℝ}
    (hmu : prm.mu = Dbl.fin mu) (hc1 : prm.cg_maxiter < INT_MAX) {p : XU m} {st st' : QLoop Dbl n m} (h : PairEnd A A' T e b eps tau p st st')
    {s s2 : σ} (hs : Inv s) {s' s2' : σ'} (hs' : Inv' s') {st1 st1' : QLoop Dbl n m} (hr : l1qc_lb_body ax prm st s = some (st1, s2))
    (hr' : l1qc_lb_body ax' prm st' s' = some (st1', s2')) :
    Inv s2 ∧ Inv' s2' ∧ ∃ p1, PairEnd A A' T e b eps (tau * mu) p1 st1 st1' := by
  obtain ⟨P1, s1, h1, hs1, hE, hdx, hdu⟩ := f_eval_fin (P := { st.P with dx := fun _ => lit 0 }) R.Ax h.fst.hb h.fst.htau h.fst.heps ht.ne' h.fst.hp hs
  obtain ⟨P1', s1', h1', hs1', hE', hdx', hdu'⟩ := f_eval_fin (P := { st'.P with dx := fun _ => lit 0 }) R'.Ax h.snd.hb h.snd.htau h.snd.heps ht.ne'
    h.snd.hp hs'
  have z : (fun _ => lit 0 : Vec Dbl m) = fvec 0 := by funext i; simp
  have z' : (fun _ => lit 0 : Vec Dbl m) = fvec (e * 0) := by rw [mul_zero]; exact z
  have hok : PairOK A A' T e b eps tau p { st with P := P1, l1_prev := inf } { st' with P := P1', l1_prev := inf } :=
    ⟨⟨h.fst.hx, h.fst.hu, h.fst.hp, hE, ⟨0, by rw [hdx]; exact z⟩, by rw [hdu]; exact h.fst.hdu, h.fst.hstep⟩,
     ⟨h.snd.hx, h.snd.hu, h.snd.hp, hE', ⟨_, by rw [hdx']; exact z'⟩, by rw [hdu']; exact h.snd.hdu, h.snd.hstep⟩,
     ⟨0, by rw [hdx]; exact z, by rw [hdx']; exact z'⟩, by dsimp only; rw [hdu, hdu']; exact h.du, h.step, rfl, h.cg, h.newton⟩
  unfold l1qc_lb_body at hr hr'
  dsimp only at hr hr'
  rw [h.fst.hx, h.fst.hu, ombind h1, ← h.fst.hx, ← h.fst.hu] at hr
  rw [h.snd.hx, h.snd.hu, ombind h1', ← h.snd.hx, ← h.snd.hu] at hr'
  obtain ⟨⟨st2, k⟩, s3, q2, hr⟩ := ombind_some hr
  obtain ⟨⟨st2', k'⟩, s3', q2', hr'⟩ := ombind_some hr'
  obtain ⟨hs3, hs3', rfl, p1, he⟩ := newton_loop_pair S R R' hnm ht hc1 _ _ p _ _ _ _ _ _ _ _ _ _ hok hs1 hs1' q2 q2'
  dsimp only at hr hr'
  obtain ⟨nn, s4, q3, hr⟩ := ombind_some hr
  obtain ⟨nn', s4', q3', hr'⟩ := ombind_some hr'
  obtain ⟨c3, rfl⟩ := olift_some' q3
  obtain ⟨c3', rfl⟩ := olift_some' q3'
  rw [he.newton, c3] at c3'
  obtain rfl := Option.some.inj c3'
  obtain ⟨rfl, rfl⟩ := ompure_some hr
  obtain ⟨rfl, rfl⟩ := ompure_some hr'
  refine ⟨hs3, hs3', p1, ⟨⟨he.fst.hx, he.fst.hu, he.fst.hp, he.fst.hb, ?_, he.fst.heps, he.fst.hdu, he.fst.hstep⟩,
    ⟨he.snd.hx, he.snd.hu, he.snd.hp, he.snd.hb, ?_, he.snd.heps, he.snd.hdu, he.snd.hstep⟩, he.du, he.step, he.cg, rfl⟩⟩
  · show st2.P.tau * prm.mu = _
    rw [he.fst.htau, hmu, Dbl.fin_mul]
  · show st2'.P.tau * prm.mu = _
    rw [he.snd.htau, hmu, Dbl.fin_mul]

theorem lb_loop_pair (S : QSym A A' e T) (R : QReal ax Inv A) (R' : QReal ax' Inv' A') (hnm : n ≤ m) {prm : QOpts Dbl} {mu : ℝ}
    (hmu : prm.mu = Dbl.fin mu) (hmu0 : 0 < mu) (hc1 : prm.cg_maxiter < INT_MAX) : ∀ (fuel : ℕ) (lb : Int) (tau : ℝ) (p : XU m)
    (st st' : QLoop Dbl n m) (s s2 : σ) (s' s2' : σ') (st1 st1' : QLoop Dbl n m), 0 < tau → PairEnd A A' T e b eps tau p st st' → Inv s → Inv' s' →
    l1qc_lb_loop ax prm fuel lb st s = some (st1, s2) → l1qc_lb_loop ax' prm fuel lb st' s' = some (st1', s2') →
    ∃ p1 tau1, PairEnd A A' T e b eps tau1 p1 st1 st1' := by
  intro fuel
  induction fuel with
  | zero =>
    intro lb tau p st st' s s2 s' s2' st1 st1' ht h hs hs' hr hr'
    unfold l1qc_lb_loop at hr hr'
    split at hr
    · rename_i hle
      rw [if_pos hle] at hr'
      obtain ⟨rfl, rfl⟩ := ompure_some hr
      obtain ⟨rfl, rfl⟩ := ompure_some hr'
      exact ⟨p, tau, h⟩
    · cases hr
  | succ fuel ih =>
    intro lb tau p st st' s s2 s' s2' st1 st1' ht h hs hs' hr hr'
    unfold l1qc_lb_loop at hr hr'
    obtain ⟨st2, s3, q1, hr⟩ := ombind_some hr
    obtain ⟨st2', s3', q1', hr'⟩ := ombind_some hr'
    obtain ⟨hs3, hs3', p1, he⟩ := lb_body_pair S R R' hnm ht hmu hc1 h hs hs' q1 q1'
    exact ih _ (tau * mu) p1 _ _ _ _ _ _ _ _ (mul_pos ht hmu0) he hs3 hs3' hr hr'

/-- both runs of the whole solver from strictly feasible corresponding points: same record, corresponding coefficients -/
theorem solve_pair (S : QSym A A' e T) (R : QReal ax Inv A) (R' : QReal ax' Inv' A') (hnm : n ≤ m) {prm : QOpts Dbl} {mu : ℝ}
    (hmu : prm.mu = Dbl.fin mu) (hmu0 : 0 < mu) (hc1 : prm.cg_maxiter < INT_MAX) (he : prm.epsilon = Dbl.fin eps) (htau : prm.tau = Dbl.fin tau)
    (ht : 0 < tau) {p : XU m} (hp : StrictFeas A b eps p) {s s2 : σ} (hs : Inv s) {s' s2' : σ'} (hs' : Inv' s') {out out' : QOut Dbl n m}
    (hr : l1qc_solve ax prm (fvec b) (fvec p.1) (fvec p.2) s = some (out, s2))
    (hr' : l1qc_solve ax' prm (fvec (T b)) (fvec (e * p.1)) (fvec p.2) s' = some (out', s2')) :
    out'.res = out.res ∧ out.res.status = 0 ∧ ∃ x1, out.x = fvec x1 ∧ out'.x = fvec (e * x1) := by
  have z : (fun _ => lit 0 : Vec Dbl m) = fvec 0 := by funext i; simp
  have chk : ∀ {τ : Type} {J : τ → Prop} {bx : QAx Dbl τ n m} {B : Matrix (Fin n) (Fin m) ℝ} {c : Fin n → ℝ} {q : XU m} {t : τ},
      LOpIs bx.Ax J B → J t → StrictFeas B c eps q → ∃ t1, J t1 ∧
      l1qc_check_feasible_start bx (qprobZero (m := m) (fvec c) prm) (fvec q.1) t = some (0, t1) := by
    intro τ J bx B c q t hB ht hq
    obtain ⟨t1, g1, g2⟩ := hB.call q.1 ht
    refine ⟨t1, g2, ?_⟩
    unfold l1qc_check_feasible_start
    rw [ombind g1, if_neg (by omega)]
    have e1 : vaxpy (lit (-1)) (qprobZero (m := m) (fvec c) prm).b (fvec (B *ᵥ q.1)) = fvec (B *ᵥ q.1 - c) := resid_fvec c _
    have e2 : (qprobZero (m := m) (fvec c) prm).epsilon = Dbl.fin eps := he
    rw [e1, e2, dnrm2_fvec, Dbl.fin_sub, Dbl.lit_eq, if_neg, ompure]
    rw [Dbl.flt_fin]
    have := hq.2
    push_cast
    linarith
  obtain ⟨s3, hs3, c1⟩ := chk R.Ax hs hp
  obtain ⟨s3', hs3', c1'⟩ := chk R'.Ax hs' (S.feas.2 hp)
  unfold l1qc_solve at hr hr'
  rw [ombind c1, if_neg (by simp)] at hr
  rw [show (e * p.1) = (flipX e p).1 from rfl, ombind c1', if_neg (by simp)] at hr'
  obtain ⟨st1, s4, q1, hr⟩ := ombind_some hr
  obtain ⟨st1', s4', q1', hr'⟩ := ombind_some hr'
  obtain ⟨p1, tau1, hend⟩ := lb_loop_pair S R R' hnm hmu hmu0 hc1 _ _ tau p ⟨fvec p.1, fvec p.2, qprobZero (fvec b) prm, lit 0, lit 0, 0, 0⟩
    ⟨fvec (flipX e p).1, fvec p.2, qprobZero (fvec (T b)) prm, lit 0, lit 0, 0, 0⟩ _ _ _ _ _ _ ht
    ⟨⟨rfl, rfl, hp, rfl, htau, he, ⟨0, z⟩, ⟨0, by simp⟩⟩, ⟨rfl, rfl, S.feas.2 hp, rfl, htau, he, ⟨0, z⟩, ⟨0, by simp⟩⟩, rfl, rfl, rfl, rfl⟩ hs3 hs3' q1 q1'
  obtain ⟨rfl, -⟩ := ompure_some hr
  obtain ⟨rfl, -⟩ := ompure_some hr'
  refine ⟨?_, rfl, p1.1, hend.fst.hx, hend.snd.hx⟩
  dsimp only
  rw [hend.cg, hend.newton, hend.fst.hx, hend.snd.hx]
  rw [show dasum (fvec (flipX e p1).1) = dasum (fvec p1.1) from dasum_flip S.he p1.1]

end L1c
