import Verif.Model.CG
import Verif.Proofs.CGReal

/-! # The CG models follow the textbook iteration until it breaks down, and stay harmless afterwards -/

namespace L1c
open Scalar

/-! ## Non-finite values -/

theorem Dbl.mul_self_not_fin {a : Dbl} (h : ¬ a.IsFin) : ¬ (a * a).IsFin := by
  cases a <;> first | exact absurd trivial h | exact id

theorem Dbl.div_not_fin {a : Dbl} (h : ¬ a.IsFin) {c : ℝ} : ¬ (a / Dbl.fin c).IsFin := by
  cases a with
  | fin r => exact absurd trivial h
  | nan => exact id
  | pinf => show ¬ (if 0 ≤ c then Dbl.pinf else Dbl.ninf).IsFin; split <;> exact id
  | ninf => show ¬ (if 0 ≤ c then Dbl.ninf else Dbl.pinf).IsFin; split <;> exact id

theorem Dbl.infMul_not_fin (r : ℝ) : ¬ (Dbl.infMul r).IsFin := by
  unfold Dbl.infMul; split_ifs <;> exact id

theorem Dbl.infMul_neg_mul_not_fin (a c : ℝ) : ¬ (-(Dbl.infMul a) * Dbl.fin c).IsFin := by
  have h : ∀ d, d = Dbl.infMul a → ¬ (-d * Dbl.fin c).IsFin := by
    intro d hd
    cases d with
    | fin r => exact absurd (show (Dbl.infMul a).IsFin from hd ▸ trivial) (Dbl.infMul_not_fin a)
    | nan => exact id
    | pinf => exact Dbl.infMul_not_fin (-c)
    | ninf => exact Dbl.infMul_not_fin c
  exact h _ rfl

/-- a non-finite squared norm never looks like an improvement -/
theorem Dbl.sqrt_not_lt {a : Dbl} (h : ¬ a.IsFin) (t : Dbl) : flt (fsqrt a) t = false := by
  cases a with
  | fin r => exact absurd trivial h
  | nan => exact Dbl.flt_nan_left _
  | ninf => exact Dbl.flt_nan_left _
  | pinf => rw [Bool.eq_false_iff, Ne, Dbl.flt_iff]; show ¬ Dbl.Lt Dbl.pinf t; cases t <;> exact id

theorem Dbl.lt_of_not_lt {rel tol : Dbl} {c : ℝ} (h1 : flt rel tol = true) (h2 : ¬ flt rel (.fin c) = true) :
    flt (.fin c) tol = true := by
  rw [Dbl.flt_iff] at *
  cases rel <;> cases tol <;> simp only [Dbl.Lt, not_lt, not_true_eq_false] at *
  exact lt_of_le_of_lt h2 h1

variable {N : ℕ} {σ : Type}

theorem ddot_self_not_fin {r : Vec Dbl N} (h : ∃ i, ¬ (r i).IsFin) : ¬ (ddot r r).IsFin := by
  obtain ⟨i, hi⟩ := h
  rw [ddot_eq_sum, Dbl.isFin_sum]
  exact fun hall => Dbl.mul_self_not_fin hi (hall i (Finset.mem_univ i))

/-! ## The preconditioned solver -/

section
variable {A : (Fin N → ℝ) →ₗ[ℝ] (Fin N → ℝ)} {w b x0 : Fin N → ℝ}
  {op : Vec Dbl N → σ → Vec Dbl N × σ}

/-- the residual figure the solver attaches to iterate `k`: the preconditioned one at the start -/
noncomputable def repRes (A : (Fin N → ℝ) →ₗ[ℝ] (Fin N → ℝ)) (w b x0 : Fin N → ℝ) : ℕ → ℝ
  | 0 => Real.sqrt ((b - A x0) ⬝ᵥ (w * (b - A x0)) / (b ⬝ᵥ b))
  | k + 1 => Real.sqrt ((b - A (cgSeq A w b x0 (k + 1)).x) ⬝ᵥ (b - A (cgSeq A w b x0 (k + 1)).x) / (b ⬝ᵥ b))

/-- the solver holds iterate `k` of the textbook sequence -/
structure OnTrack (A : (Fin N → ℝ) →ₗ[ℝ] (Fin N → ℝ)) (w b x0 : Fin N → ℝ) (k : ℕ) (st : CgState Dbl N) :
    Prop where
  ok : CGOk A w b x0 k
  x : st.x = fvec (cgSeq A w b x0 k).x
  r : st.r = fvec (cgSeq A w b x0 k).r
  p : st.p = fvec (cgSeq A w b x0 k).p
  delta : st.delta = .fin ((cgSeq A w b x0 k).r ⬝ᵥ (w * (cgSeq A w b x0 k).r))

/-- the solver has broken down -/
structure OffTrack (A : (Fin N → ℝ) →ₗ[ℝ] (Fin N → ℝ)) (w b x0 : Fin N → ℝ) (k : ℕ) (st : CgState Dbl N) :
    Prop where
  bad : ¬ CGOk A w b x0 k
  r : ∃ i, ¬ (st.r i).IsFin

/-- the best iterate so far is remembered correctly -/
def BestInv (A : (Fin N → ℝ) →ₗ[ℝ] (Fin N → ℝ)) (w b x0 : Fin N → ℝ) (j : ℕ) (st : CgState Dbl N) : Prop :=
  ∃ k ≤ j, CGOk A w b x0 k ∧ st.bestx = fvec (cgSeq A w b x0 k).x ∧ st.best = .fin (repRes A w b x0 k) ∧
    ∀ i ≤ j, CGOk A w b x0 i → repRes A w b x0 k ≤ repRes A w b x0 i

theorem fvec_mul_w (r w : Fin N → ℝ) : vmul (fvec r) (fvec w) = fvec (w * r) := by
  rw [vmul_fvec]; congr 1; funext i; simp [mul_comm]

theorem cgSeq_p_zero {k : ℕ} (h : (cgSeq A w b x0 k).r = 0) : (cgSeq A w b x0 k).p = 0 := by
  cases k with
  | zero =>
    show w * (b - A x0) = 0
    rw [show b - A x0 = 0 from h, mul_zero]
  | succ k =>
    have h' : (CGIt.next A w (cgSeq A w b x0 k)).r = 0 := h
    show w * (CGIt.next A w (cgSeq A w b x0 k)).r +
      ((CGIt.next A w (cgSeq A w b x0 k)).r ⬝ᵥ (w * (CGIt.next A w (cgSeq A w b x0 k)).r) /
        ((cgSeq A w b x0 k).r ⬝ᵥ (w * (cgSeq A w b x0 k).r))) • (cgSeq A w b x0 k).p = 0
    rw [h']; simp

theorem pcg_offTrack_r {p q r : Fin N → ℝ} {d : ℝ} (hN : Nonempty (Fin N)) (h : p ⬝ᵥ q = 0) :
    ∃ i, ¬ (vaxpy (-(Dbl.fin d / ddot (fvec p) (fvec q))) (fvec q) (fvec r) i).IsFin := by
  refine ⟨hN.some, ?_⟩
  rw [ddot_fvec, h, Dbl.fin_div', if_pos rfl]
  simp only [vaxpy, fvec_apply, Dbl.isFin_add]
  exact fun hh => Dbl.infMul_neg_mul_not_fin _ _ hh.1

theorem pcgStep_r (op : Vec Dbl N → σ → Vec Dbl N × σ) (M : Vec Dbl N) (d0 : Dbl) (st : CgState Dbl N) (s : σ) :
    (pcgStep op M d0 st s).1.1.r = vaxpy (-(st.delta / ddot st.p (op st.p s).1)) (op st.p s).1 st.r := by
  unfold pcgStep; simp only; split <;> rfl

theorem pcgStep_rel (op : Vec Dbl N → σ → Vec Dbl N × σ) (M : Vec Dbl N) (d0 : Dbl) (st : CgState Dbl N) (s : σ) :
    (pcgStep op M d0 st s).1.2 =
      fsqrt (ddot (pcgStep op M d0 st s).1.1.r (pcgStep op M d0 st s).1.1.r / d0) := by
  rw [pcgStep_r]; unfold pcgStep; simp only; split <;> rfl

theorem pcgStep_best (op : Vec Dbl N → σ → Vec Dbl N × σ) (M : Vec Dbl N) (d0 : Dbl) (st : CgState Dbl N) (s : σ) :
    (pcgStep op M d0 st s).1.1.best =
      (if flt (pcgStep op M d0 st s).1.2 st.best then (pcgStep op M d0 st s).1.2 else st.best) ∧
    (pcgStep op M d0 st s).1.1.bestx =
      (if flt (pcgStep op M d0 st s).1.2 st.best then (pcgStep op M d0 st s).1.1.x else st.bestx) := by
  unfold pcgStep; simp only; split <;> rename_i h <;> simp

variable (hop : ∀ v s, (op (fvec v) s).1 = fvec (A v)) (hb : b ≠ 0) (hw : ∀ i, 0 < w i)
include hop hb hw

theorem pcg_step_track {k : ℕ} {st : CgState Dbl N} {s : σ}
    (h : OnTrack A w b x0 k st) :
    (OnTrack A w b x0 (k + 1) (pcgStep op (fvec w) (.fin (b ⬝ᵥ b)) st s).1.1 ∧
      (pcgStep op (fvec w) (.fin (b ⬝ᵥ b)) st s).1.2 = .fin (repRes A w b x0 (k + 1))) ∨
    OffTrack A w b x0 (k + 1) (pcgStep op (fvec w) (.fin (b ⬝ᵥ b)) st s).1.1 := by
  have hN : Nonempty (Fin N) := by
    obtain ⟨i, _⟩ := Function.ne_iff.1 hb; exact ⟨i⟩
  have hbb : 0 < b ⬝ᵥ b := dot_self_pos hb
  by_cases hok : CGOk A w b x0 (k + 1)
  · left
    obtain ⟨hr, hpq⟩ := hok k (by omega)
    have hd : 0 < (cgSeq A w b x0 k).r ⬝ᵥ (w * (cgSeq A w b x0 k).r) := wdot_pos hw hr
    set t := cgSeq A w b x0 k with ht
    have hq : (op st.p s).1 = fvec (A t.p) := by rw [h.p, hop]
    have ha : st.delta / ddot st.p (op st.p s).1 = .fin ((t.r ⬝ᵥ (w * t.r)) / (t.p ⬝ᵥ A t.p)) := by
      rw [hq, h.delta, h.p, ddot_fvec, Dbl.fin_div hpq]
    have hx : vaxpy (st.delta / ddot st.p (op st.p s).1) st.p st.x = fvec (t.next A w).x := by
      rw [ha, h.p, h.x, vaxpy_fvec, add_comm]; rfl
    have hr' : vaxpy (-(st.delta / ddot st.p (op st.p s).1)) (op st.p s).1 st.r = fvec (t.next A w).r := by
      rw [ha, hq, h.r, Dbl.fin_neg, vaxpy_fvec]
      congr 1
      show _ = t.r - _
      rw [neg_smul, sub_eq_add_neg, add_comm]
    have hdel : ddot (fvec (t.next A w).r) (vmul (fvec (t.next A w).r) (fvec w)) =
        .fin ((t.next A w).r ⬝ᵥ (w * (t.next A w).r)) := by rw [fvec_mul_w, ddot_fvec]
    have hp' : vaxpby (lit 1) (vmul (fvec (t.next A w).r) (fvec w))
        (ddot (fvec (t.next A w).r) (vmul (fvec (t.next A w).r) (fvec w)) / st.delta) st.p =
        fvec (t.next A w).p := by
      rw [hdel, h.delta, Dbl.fin_div hd.ne', h.p, fvec_mul_w, Dbl.lit_eq, vaxpby_fvec]
      congr 1
      show _ = w * _ + _
      simp [CGIt.next]; rfl
    constructor
    · refine ⟨hok, ?_, ?_, ?_, ?_⟩ <;> (unfold pcgStep; simp only [hx, hr']; split)
      · rfl
      · rfl
      · rfl
      · rfl
      · exact hp'
      · exact hp'
      · exact hdel
      · exact hdel
    · rw [pcgStep_rel, pcgStep_r, hr', ddot_fvec, Dbl.fin_div hbb.ne']
      rw [Dbl.fsqrt_fin (div_nonneg (dot_self_nonneg _) hbb.le)]
      show _ = Dbl.fin (Real.sqrt _)
      rw [← cgSeq_r]; rfl
  · right
    refine ⟨hok, ?_⟩
    have hbad : (cgSeq A w b x0 k).p ⬝ᵥ A (cgSeq A w b x0 k).p = 0 := by
      by_contra hne
      apply hok
      intro j hj
      rcases Nat.lt_succ_iff_lt_or_eq.1 hj with h' | rfl
      · exact h.ok j h'
      · refine ⟨fun hr => hne ?_, hne⟩
        rw [cgSeq_p_zero hr]; simp
    rw [pcgStep_r, h.delta, h.p, hop, h.r]
    exact pcg_offTrack_r hN hbad

omit hop hb hw in
theorem pcg_step_off {k : ℕ} {st : CgState Dbl N} {s : σ} {M : Vec Dbl N} {d0 : Dbl}
    (h : OffTrack A w b x0 k st) : OffTrack A w b x0 (k + 1) (pcgStep op M d0 st s).1.1 := by
  refine ⟨fun hk => h.bad (hk.mono (by omega)), ?_⟩
  obtain ⟨i, hi⟩ := h.r
  refine ⟨i, ?_⟩
  rw [pcgStep_r]
  simp only [vaxpy, Dbl.isFin_add]
  exact fun hh => hi hh.2

omit hop hb hw in
theorem pcg_rel_off {k : ℕ} {st : CgState Dbl N} {s : σ} {M : Vec Dbl N} {d0 : ℝ} (t : Dbl)
    (h : OffTrack A w b x0 k (pcgStep op M (.fin d0) st s).1.1) :
    flt (pcgStep op M (.fin d0) st s).1.2 t = false := by
  rw [pcgStep_rel]
  exact Dbl.sqrt_not_lt (Dbl.div_not_fin (ddot_self_not_fin h.r)) t

/-- full invariant after `k` iterations -/
def PcgInv (A : (Fin N → ℝ) →ₗ[ℝ] (Fin N → ℝ)) (w b x0 : Fin N → ℝ) (k : ℕ) (st : CgState Dbl N) : Prop :=
  (OnTrack A w b x0 k st ∨ OffTrack A w b x0 k st) ∧ BestInv A w b x0 k st

theorem pcg_step_inv {k : ℕ} {st : CgState Dbl N} {s : σ} (h : PcgInv A w b x0 k st) :
    PcgInv A w b x0 (k + 1) (pcgStep op (fvec w) (.fin (b ⬝ᵥ b)) st s).1.1 := by
  obtain ⟨htr, k0, hk0, hok0, hbx, hbest, hmin⟩ := h
  have hstep : (OnTrack A w b x0 (k + 1) (pcgStep op (fvec w) (.fin (b ⬝ᵥ b)) st s).1.1 ∧
      (pcgStep op (fvec w) (.fin (b ⬝ᵥ b)) st s).1.2 = .fin (repRes A w b x0 (k + 1))) ∨
    OffTrack A w b x0 (k + 1) (pcgStep op (fvec w) (.fin (b ⬝ᵥ b)) st s).1.1 := by
    rcases htr with h | h
    · exact pcg_step_track hop hb hw h
    · exact Or.inr (pcg_step_off h)
  obtain ⟨hb1, hb2⟩ := pcgStep_best op (fvec w) (.fin (b ⬝ᵥ b)) st s
  rcases hstep with ⟨hon, hrel⟩ | hoff
  · refine ⟨Or.inl hon, ?_⟩
    by_cases hlt : repRes A w b x0 (k + 1) < repRes A w b x0 k0
    · have hf : flt (pcgStep op (fvec w) (.fin (b ⬝ᵥ b)) st s).1.2 st.best = true := by
        rw [hrel, hbest]; simpa using hlt
      rw [hf, if_pos rfl] at hb1 hb2
      refine ⟨k + 1, le_rfl, hon.ok, hb2.trans hon.x, hb1.trans hrel, fun i hi hiok => ?_⟩
      rcases Nat.lt_or_ge i (k + 1) with h' | h'
      · exact hlt.le.trans (hmin i (by omega) hiok)
      · obtain rfl : i = k + 1 := by omega
        exact le_rfl
    · have hf : ¬ flt (pcgStep op (fvec w) (.fin (b ⬝ᵥ b)) st s).1.2 st.best = true := by
        rw [hrel, hbest]; simpa using hlt
      rw [if_neg hf] at hb1 hb2
      refine ⟨k0, by omega, hok0, hb2.trans hbx, hb1.trans hbest, fun i hi hiok => ?_⟩
      rcases Nat.lt_or_ge i (k + 1) with h' | h'
      · exact hmin i (by omega) hiok
      · obtain rfl : i = k + 1 := by omega
        exact not_lt.1 hlt
  · refine ⟨Or.inr hoff, ?_⟩
    have hf := pcg_rel_off st.best hoff
    simp only [hf, Bool.false_eq_true, if_false] at hb1 hb2
    refine ⟨k0, by omega, hok0, hb2.trans hbx, hb1.trans hbest, fun i hi hiok => ?_⟩
    rcases Nat.lt_or_ge i (k + 1) with h' | h'
    · exact hmin i (by omega) hiok
    · obtain rfl : i = k + 1 := by omega
      exact absurd hiok hoff.bad

omit hb hw in
theorem pcg_init_inv (hb : b ≠ 0) (hw : ∀ i, 0 < w i) (s : σ) :
    PcgInv A w b x0 0 (pcgInit op (fvec x0) (fvec b) (fvec w) s).1 := by
  have hr : vaxpby (lit 1) (fvec b) (-(lit 1)) (op (fvec x0) s).1 = fvec (b - A x0) := by
    rw [hop, Dbl.lit_eq, Dbl.fin_neg, vaxpby_fvec]; congr 1; simp [sub_eq_add_neg]
  have h0 : CGOk A w b x0 0 := fun j hj => by omega
  have hbb : 0 < b ⬝ᵥ b := dot_self_pos hb
  have hd : 0 ≤ (b - A x0) ⬝ᵥ (w * (b - A x0)) := by
    by_cases h : b - A x0 = 0
    · rw [h]; simp
    · exact (wdot_pos hw h).le
  refine ⟨Or.inl ⟨h0, rfl, hr, ?_, ?_⟩, 0, le_rfl, h0, rfl, ?_, ?_⟩
  · show vmul (vaxpby (lit 1) (fvec b) (-(lit 1)) (op (fvec x0) s).1) (fvec w) = _
    rw [hr, fvec_mul_w]; rfl
  · show ddot (vaxpby (lit 1) (fvec b) (-(lit 1)) (op (fvec x0) s).1)
      (vmul (vaxpby (lit 1) (fvec b) (-(lit 1)) (op (fvec x0) s).1) (fvec w)) = _
    rw [hr, fvec_mul_w, ddot_fvec]; rfl
  · show fsqrt (ddot (vaxpby (lit 1) (fvec b) (-(lit 1)) (op (fvec x0) s).1)
      (vmul (vaxpby (lit 1) (fvec b) (-(lit 1)) (op (fvec x0) s).1) (fvec w)) / ddot (fvec b) (fvec b)) = _
    rw [hr, fvec_mul_w, ddot_fvec, ddot_fvec, Dbl.fin_div hbb.ne', Dbl.fsqrt_fin (div_nonneg hd hbb.le)]; rfl
  · intro i hi _
    obtain rfl : i = 0 := by omega
    exact le_rfl

/-- the loop from iteration `k + 1` on; `j` is the number of iterations performed in total -/
theorem pcg_loop_inv (tol : Dbl) : ∀ (fuel k : ℕ) (st : CgState Dbl N) (s : σ), PcgInv A w b x0 k st →
    ((k + fuel : ℕ) : Int) < INT_MAX →
    ∃ st' iter s', cgLoop (pcgStep op (fvec w) (.fin (b ⬝ᵥ b))) tol fuel (k + 1 : ℕ) st s = some (st', iter, s') ∧
      ∃ j : ℕ, PcgInv A w b x0 j st' ∧ k ≤ j ∧
        ((iter = j ∧ k < j ∧ j ≤ k + fuel ∧ flt st'.best tol = true) ∨ (iter = j + 1 ∧ j = k + fuel)) := by
  intro fuel
  induction fuel with
  | zero =>
    intro k st s h hk
    refine ⟨st, ((k + 1 : ℕ) : Int), s, ?_, k, h, le_rfl, Or.inr ⟨by push_cast; rfl, rfl⟩⟩
    unfold cgLoop
    rw [if_pos]; push_cast at *; omega
  | succ fuel ih =>
    intro k st s h hk
    have hinv := pcg_step_inv hop hb hw (s := s) h
    unfold cgLoop
    by_cases hstop : flt (pcgStep op (fvec w) (.fin (b ⬝ᵥ b)) st s).1.2 tol = true
    · simp only [hstop, if_true]
      refine ⟨_, _, _, rfl, k + 1, hinv, by omega, Or.inl ⟨rfl, by omega, by omega, ?_⟩⟩
      -- the best value is at most the value that passed the test
      obtain ⟨hb1, -⟩ := pcgStep_best op (fvec w) (.fin (b ⬝ᵥ b)) st s
      rw [hb1]
      split
      · exact hstop
      · rename_i hnot
        obtain ⟨_, k0, _, _, _, hbest, _⟩ := h
        rw [hbest] at hnot ⊢
        exact Dbl.lt_of_not_lt hstop hnot
    · simp only [hstop, Bool.false_eq_true, if_false]
      obtain ⟨st', iter, s', hrun, j, hj, hkj, hcase⟩ :=
        ih (k + 1) (pcgStep op (fvec w) (.fin (b ⬝ᵥ b)) st s).1.1 (pcgStep op (fvec w) (.fin (b ⬝ᵥ b)) st s).2 hinv
          (by push_cast at *; omega)
      refine ⟨st', iter, s', ?_, j, hj, by omega, ?_⟩
      · rw [← hrun]; push_cast; rfl
      · rcases hcase with ⟨h1, h2, h3, h4⟩ | ⟨h1, h2⟩
        · exact Or.inl ⟨h1, by omega, by omega, h4⟩
        · exact Or.inr ⟨h1, by omega⟩

theorem pcg_main (s : σ) (prm : CgParams Dbl) (hmax : prm.max_iter < INT_MAX) :
    ∃ out, l1c_cgsolve_diag_precond (fvec x0) (fvec b) (fvec w) op s prm = some out ∧
      ∃ k : ℕ, CGOk A w b x0 k ∧ (k : Int) ≤ max 0 out.res.cgiter ∧ out.x = fvec (cgSeq A w b x0 k).x ∧
        out.res.cgres = .fin (repRes A w b x0 k) ∧
        (∀ i : ℕ, (i : Int) ≤ max 0 out.res.cgiter → CGOk A w b x0 i → repRes A w b x0 k ≤ repRes A w b x0 i) ∧
        (out.res.cgiter < prm.max_iter → flt out.res.cgres prm.tol = true) := by
  have hfit : ((0 + prm.max_iter.toNat : ℕ) : Int) < INT_MAX := by
    rw [zero_add, Int.toNat_eq_max]; exact max_lt hmax (by decide)
  obtain ⟨st', iter, s', hrun, j, hinv, -, hcase⟩ :=
    pcg_loop_inv hop hb hw prm.tol prm.max_iter.toNat 0 _ (pcgInit op (fvec x0) (fvec b) (fvec w) s).2
      (pcg_init_inv (x0 := x0) hop hb hw s) hfit
  refine ⟨cgFinish prm (st', iter, s'), ?_, ?_⟩
  · unfold l1c_cgsolve_diag_precond
    simp only [ddot_fvec]
    rw [show ((0 + 1 : ℕ) : Int) = 1 from rfl] at hrun
    rw [hrun]; rfl
  · obtain ⟨-, k, hk, hok, hbx, hbest, hmin⟩ := hinv
    have hj : (j : Int) = max 0 (min iter prm.max_iter) := by
      rcases hcase with ⟨h1, h2, h3, -⟩ | ⟨h1, h2⟩ <;> omega
    refine ⟨k, hok, ?_, hbx, hbest, ?_, ?_⟩
    · show (k : Int) ≤ max 0 (min iter prm.max_iter); omega
    · intro i hi
      have : (i : Int) ≤ max 0 (min iter prm.max_iter) := hi
      exact hmin i (by omega)
    · intro hlt
      have : min iter prm.max_iter < prm.max_iter := hlt
      rcases hcase with ⟨h1, h2, h3, h4⟩ | ⟨h1, h2⟩
      · exact h4
      · omega

end

/-! ## Plain CG is PCG with the identity preconditioner -/

theorem Dbl.mul_one' (a : Dbl) : a * Dbl.fin 1 = a := by
  cases a with
  | fin r => simp
  | nan => rfl
  | pinf => show Dbl.infMul 1 = _; simp [Dbl.infMul]
  | ninf => show Dbl.infMul (-1) = _; norm_num [Dbl.infMul]

theorem vmul_one (r : Vec Dbl N) : vmul r (fvec 1) = r := by
  funext i; simp only [vmul, fvec_apply, Pi.one_apply, Dbl.mul_one']

theorem cgsolve_eq_pcg (x b : Vec Dbl N) (op : Vec Dbl N → σ → Vec Dbl N × σ) (s : σ) (prm : CgParams Dbl) :
    l1c_cgsolve x b op s prm = l1c_cgsolve_diag_precond x b (fvec 1) op s prm := by
  have h1 : cgStep op (ddot b b) = pcgStep op (fvec 1) (ddot b b) := by
    funext st s; simp only [cgStep, pcgStep, vmul_one]
  have h2 : cgInit op x b s = pcgInit op x b (fvec 1) s := by simp only [cgInit, pcgInit, vmul_one]
  simp only [l1c_cgsolve, l1c_cgsolve_diag_precond, h1, h2]

end L1c
