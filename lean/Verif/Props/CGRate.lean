import Verif.Proofs.CGRate
import Verif.Props.CG
import Mathlib.Analysis.SpecialFunctions.Log.Basic

/-!
# C74: rate of convergence of conjugate gradients
-/

namespace L1c
open Scalar

variable {N : ℕ} {σ : Type} {A : (Fin N → ℝ) →ₗ[ℝ] (Fin N → ℝ)} {w b x0 : Fin N → ℝ}

/-- the reduction of the residual guaranteed after `k` iterations, when all eigenvalues lie between `lo` and `hi` -/
noncomputable def cgFactor (lo hi : ℝ) (k : ℕ) : ℝ := 2 * √(hi / lo) * ((√hi - √lo) / (√hi + √lo)) ^ k

/-- `A` is symmetric and its eigenvalues, relative to the weights `1 / w`, lie between `lo` and `hi` -/
def Spectrum (A : (Fin N → ℝ) →ₗ[ℝ] (Fin N → ℝ)) (w : Fin N → ℝ) (lo hi : ℝ) : Prop :=
  0 < lo ∧ lo < hi ∧ (∀ u v, A u ⬝ᵥ v = u ⬝ᵥ A v) ∧
    ∀ v, lo * ∑ i, v i ^ 2 / w i ≤ v ⬝ᵥ A v ∧ v ⬝ᵥ A v ≤ hi * ∑ i, v i ^ 2 / w i

theorem wsum_eq (w v : Fin N → ℝ) : ∑ i, v i ^ 2 / w i = v ⬝ᵥ (w⁻¹ * v) := by
  simp only [dotProduct, Pi.mul_apply, Pi.inv_apply]
  exact Finset.sum_congr rfl fun i _ => by rw [div_eq_mul_inv]; ring

theorem Spectrum.spd {lo hi : ℝ} (h : Spectrum A w lo hi) (hw : ∀ i, 0 < w i) : SPD A := by
  refine ⟨h.2.2.1, fun v hv => lt_of_lt_of_le (mul_pos h.1 ?_) (h.2.2.2 v).1⟩
  rw [wsum_eq]
  exact wdot_pos (w := w⁻¹) (fun i => inv_pos.2 (hw i)) hv

theorem Spectrum.solution {lo hi : ℝ} (h : Spectrum A w lo hi) (hw : ∀ i, 0 < w i) (b : Fin N → ℝ) : ∃ xs, A xs = b := by
  obtain ⟨k, -, -, hr⟩ := cg_finite (b := b) (x0 := 0) (h.spd hw) hw
  rw [cgSeq_r] at hr
  exact ⟨_, (sub_eq_zero.1 hr).symm⟩

/-- weighted residual of iterate `k` -/
theorem cg_res_rate {lo hi : ℝ} (h : Spectrum A w lo hi) (hw : ∀ i, 0 < w i) {k : ℕ} (hok : CGOk A w b x0 k) :
    (b - A (cgSeq A w b x0 k).x) ⬝ᵥ (w * (b - A (cgSeq A w b x0 k).x)) ≤ cgFactor lo hi k ^ 2 * ((b - A x0) ⬝ᵥ (w * (b - A x0))) := by
  obtain ⟨hlo, hlh, hA, hb⟩ := id h
  have hhi : 0 < hi := hlo.trans hlh
  have hl : ∀ v, lo * (v ⬝ᵥ (w⁻¹ * v)) ≤ v ⬝ᵥ A v := fun v => by rw [← wsum_eq]; exact (hb v).1
  have hh : ∀ v, v ⬝ᵥ A v ≤ hi * (v ⬝ᵥ (w⁻¹ * v)) := fun v => by rw [← wsum_eq]; exact (hb v).2
  obtain ⟨xs, rfl⟩ := h.solution hw b
  set a := √lo with ha
  set c := √hi with hc
  have ha0 : 0 < a := Real.sqrt_pos.2 hlo
  have hac : a < c := Real.sqrt_lt_sqrt hlo.le hlh
  have hc0 : 0 < c := ha0.trans hac
  have hd : 0 < c - a := by linarith
  have hlo' : lo = a ^ 2 := (Real.sq_sqrt hlo.le).symm
  have hhi' : hi = c ^ 2 := (Real.sq_sqrt hhi.le).symm
  have hs1 : 1 ≤ (c + a) / (c - a) := by rw [le_div_iff₀ hd]; linarith
  have hst : (hi - lo) * (((c + a) / (c - a)) ^ 2 + 1) = 2 * (hi + lo) * ((c + a) / (c - a)) := by
    rw [hlo', hhi']; field_simp; ring
  have key := cg_energy_rate (h.spd hw) hw hlo hlh hl hh hok rfl hs1 hst
  have hbd := band_energy hA hw hlo hl hh
  rw [← map_sub, ← map_sub]
  have h1 := (hbd (xs - (cgSeq A w (A xs) x0 k).x)).2
  have h2 := (hbd (xs - x0)).1
  set E := (xs - (cgSeq A w (A xs) x0 k).x) ⬝ᵥ A (xs - (cgSeq A w (A xs) x0 k).x)
  set E0 := (xs - x0) ⬝ᵥ A (xs - x0)
  refine h1.trans ?_
  have hf : cgFactor lo hi k ^ 2 = 4 * (hi / lo) * (((c - a) / (c + a)) ^ k) ^ 2 := by
    unfold cgFactor
    rw [mul_pow, mul_pow, Real.sq_sqrt (by positivity)]
    norm_num
    exact Or.inl rfl
  have hinv : ((c - a) / (c + a)) ^ k = (((c + a) / (c - a)) ^ k)⁻¹ := by rw [← inv_pow, inv_div]
  rw [hf, hinv]
  set S := ((c + a) / (c - a)) ^ k with hS
  have hS0 : 0 < S := by positivity
  have h3 : E ≤ 4 * S⁻¹ ^ 2 * E0 := by
    have : 4 * S⁻¹ ^ 2 * ((S / 2) ^ 2 * E) = E := by field_simp; norm_num
    rw [← this]
    exact mul_le_mul_of_nonneg_left key (by positivity)
  calc hi * E ≤ hi * (4 * S⁻¹ ^ 2 * E0) := mul_le_mul_of_nonneg_left h3 hhi.le
    _ = 4 * (hi / lo) * S⁻¹ ^ 2 * (lo * E0) := by field_simp
    _ ≤ _ := mul_le_mul_of_nonneg_left h2 (by positivity)

theorem cgFactor_nonneg {lo hi : ℝ} (hlh : lo ≤ hi) (k : ℕ) : 0 ≤ cgFactor lo hi k := by
  have : √lo ≤ √hi := Real.sqrt_le_sqrt hlh
  have h1 : 0 ≤ (√hi - √lo) / (√hi + √lo) := div_nonneg (by linarith) (by positivity)
  unfold cgFactor; positivity

/-- residual of iterate `k` when the weights lie between `wlo` and `whi` -/
theorem cg_nrm_rate {lo hi wlo whi : ℝ} (h : Spectrum A w lo hi) (hwlo : 0 < wlo) (hw : ∀ i, wlo ≤ w i ∧ w i ≤ whi) {k : ℕ}
    (hok : CGOk A w b x0 k) :
    nrm (b - A (cgSeq A w b x0 k).x) ≤ √(whi / wlo) * cgFactor lo hi k * nrm (b - A x0) := by
  have hw0 : ∀ i, 0 < w i := fun i => hwlo.trans_le (hw i).1
  have hb := cg_res_rate h hw0 hok
  have lo' : ∀ r : Fin N → ℝ, wlo * (r ⬝ᵥ r) ≤ r ⬝ᵥ (w * r) := fun r => by
    simp only [dotProduct, Finset.mul_sum, Pi.mul_apply]
    refine Finset.sum_le_sum fun i _ => ?_
    have := mul_le_mul_of_nonneg_right (hw i).1 (mul_self_nonneg (r i))
    linarith [mul_left_comm (r i) (w i) (r i)]
  have hi' : ∀ r : Fin N → ℝ, r ⬝ᵥ (w * r) ≤ whi * (r ⬝ᵥ r) := fun r => by
    simp only [dotProduct, Finset.mul_sum, Pi.mul_apply]
    refine Finset.sum_le_sum fun i _ => ?_
    have := mul_le_mul_of_nonneg_right (hw i).2 (mul_self_nonneg (r i))
    linarith [mul_left_comm (r i) (w i) (r i)]
  have hf := cgFactor_nonneg h.2.1.le k
  unfold nrm
  rw [Real.sqrt_le_left (mul_nonneg (mul_nonneg (Real.sqrt_nonneg _) hf) (Real.sqrt_nonneg _))]
  set r := b - A (cgSeq A w b x0 k).x
  set r0 := b - A x0
  by_cases hr0 : r0 = 0
  · rw [hr0] at hb ⊢
    have := (lo' r).trans hb
    simp only [mul_zero, dotProduct_zero, Real.sqrt_zero] at this ⊢
    have h0 : r ⬝ᵥ r ≤ 0 := by
      by_contra hn
      exact absurd this (not_le.2 (mul_pos hwlo (not_le.1 hn)))
    simpa using h0
  have hN : 0 ≤ whi := by
    obtain ⟨i, _⟩ := Function.ne_iff.1 hr0
    exact (hw0 i).le.trans (hw i).2
  rw [mul_pow, mul_pow, Real.sq_sqrt (by positivity), Real.sq_sqrt (dot_self_nonneg _)]
  have h1 := (lo' r).trans (hb.trans (mul_le_mul_of_nonneg_left (hi' r0) (sq_nonneg _)))
  rw [div_mul_eq_mul_div, div_mul_eq_mul_div, le_div_iff₀ hwlo]
  linarith

/-! ## The test in the loop -/

section
variable {op : Vec Dbl N → σ → Vec Dbl N × σ}

theorem pcg_trace_on (hop : ∀ v s, (op (fvec v) s).1 = fvec (A v)) (hb : b ≠ 0) (hw : ∀ i, 0 < w i) (s : σ) :
    ∀ k, CGOk A w b x0 k → OnTrack A w b x0 k (cgTrace (pcgStep op (fvec w) (.fin (b ⬝ᵥ b)))
      (pcgInit op (fvec x0) (fvec b) (fvec w) s).1 (pcgInit op (fvec x0) (fvec b) (fvec w) s).2 k).1 := by
  intro k
  induction k with
  | zero =>
    intro h0
    rcases (pcg_init_inv (x0 := x0) hop hb hw s).1 with h | h
    · exact h
    · exact absurd h0 h.bad
  | succ k ih =>
    intro hok
    rcases pcg_step_track hop hb hw (s := (cgTrace (pcgStep op (fvec w) (.fin (b ⬝ᵥ b)))
      (pcgInit op (fvec x0) (fvec b) (fvec w) s).1 (pcgInit op (fvec x0) (fvec b) (fvec w) s).2 k).2) (ih (hok.mono (by omega))) with ⟨h, -⟩ | h
    · exact h
    · exact absurd hok h.bad

theorem pcg_trace_rel (hop : ∀ v s, (op (fvec v) s).1 = fvec (A v)) (hb : b ≠ 0) (hw : ∀ i, 0 < w i) (s : σ) {k : ℕ} (hok : CGOk A w b x0 (k + 1)) :
    relAt (pcgStep op (fvec w) (.fin (b ⬝ᵥ b))) (pcgInit op (fvec x0) (fvec b) (fvec w) s).1 (pcgInit op (fvec x0) (fvec b) (fvec w) s).2 k =
      .fin (nrm (b - A (cgSeq A w b x0 (k + 1)).x) / nrm b) := by
  rcases pcg_step_track hop hb hw (s := (cgTrace (pcgStep op (fvec w) (.fin (b ⬝ᵥ b)))
      (pcgInit op (fvec x0) (fvec b) (fvec w) s).1 (pcgInit op (fvec x0) (fvec b) (fvec w) s).2 k).2)
      (pcg_trace_on hop hb hw s k (hok.mono (by omega))) with ⟨-, h⟩ | h
  · refine h.trans ?_
    simp only [repRes, nrm]
    rw [Real.sqrt_div (dot_self_nonneg _)]
  · exact absurd hok h.bad

theorem pcg_stops (hop : ∀ v s, (op (fvec v) s).1 = fvec (A v)) (hb : b ≠ 0) (hw : ∀ i, 0 < w i) (s : σ) (prm : CgParams Dbl)
    (hmax : prm.max_iter < INT_MAX) {out : CgOut Dbl σ N}
    (hrun : l1c_cgsolve_diag_precond (fvec x0) (fvec b) (fvec w) op s prm = some out) {k : ℕ}
    (hok : CGOk A w b x0 (k + 1)) (ht : Dbl.Lt (.fin (nrm (b - A (cgSeq A w b x0 (k + 1)).x) / nrm b)) prm.tol) : out.res.cgiter ≤ (k + 1 : ℕ) := by
  obtain ⟨j, iter, hl, hcase⟩ := cgLoop_trace (pcgStep op (fvec w) (.fin (b ⬝ᵥ b))) prm.tol (pcgInit op (fvec x0) (fvec b) (fvec w) s).1
    (pcgInit op (fvec x0) (fvec b) (fvec w) s).2 prm.max_iter.toNat 0 (toNat_lt_max hmax) (by simp)
  rw [show ((0 + 1 : ℕ) : Int) = 1 from rfl] at hl
  unfold l1c_cgsolve_diag_precond at hrun
  simp only [ddot_fvec] at hrun
  rw [show cgLoop (pcgStep op (fvec w) (.fin (b ⬝ᵥ b))) prm.tol prm.max_iter.toNat 1 (pcgInit op (fvec x0) (fvec b) (fvec w) s).1
    (pcgInit op (fvec x0) (fvec b) (fvec w) s).2 = _ from hl] at hrun
  obtain rfl := Option.some.inj hrun
  have hp : flt (relAt (pcgStep op (fvec w) (.fin (b ⬝ᵥ b))) (pcgInit op (fvec x0) (fvec b) (fvec w) s).1
      (pcgInit op (fvec x0) (fvec b) (fvec w) s).2 k) prm.tol = true := by
    rw [pcg_trace_rel hop hb hw s hok]
    exact (Dbl.flt_iff _ _).2 ht
  show min iter prm.max_iter ≤ _
  rcases hcase with ⟨h1, h2, h3, -, h5⟩ | ⟨h1, h2, h3⟩
  · by_cases hlt : k < j - 1
    · rw [h5 k hlt] at hp; cases hp
    · push_cast; omega
  · by_cases hlt : k < j
    · rw [h3 k hlt] at hp; cases hp
    · push_cast; omega
end

/-- an iterate that no longer exists comes after one that solves the system -/
theorem solved_before (hA : SPD A) (hw : ∀ i, 0 < w i) {k : ℕ} (h : ¬ CGOk A w b x0 k) :
    ∃ j < k, CGOk A w b x0 j ∧ b - A (cgSeq A w b x0 j).x = 0 := by
  classical
  by_contra hcon
  push Not at hcon
  apply h
  refine cgOk_of_ne hA hw k fun j hj => ?_
  induction j using Nat.strong_induction_on with
  | _ j ih =>
    rw [cgSeq_r]
    exact hcon j hj (cgOk_of_ne hA hw j fun i hi => ih i hi (by omega))

/-! ## The property -/

/-- `C74`, plain solver, quality: if the eigenvalues of the symmetric operator lie between `lo` and `hi`, the residual of the returned
vector is at most `cgFactor lo hi k` times the initial one, for every `k` up to the reported number of iterations. -/
theorem C74_rate {lo hi : ℝ} (h : Spectrum A (fun _ => 1) lo hi) (hb : b ≠ 0)
    (op : Vec Dbl N → σ → Vec Dbl N × σ) (hop : ∀ v s, (op (fvec v) s).1 = fvec (A v)) (s : σ) (prm : CgParams Dbl) (hmax : prm.max_iter < INT_MAX) :
    ∃ out, l1c_cgsolve (fvec x0) (fvec b) op s prm = some out ∧ ∃ xr, out.x = fvec xr ∧
      ∀ k : ℕ, (k : Int) ≤ out.res.cgiter → nrm (b - A xr) ≤ cgFactor lo hi k * nrm (b - A x0) := by
  have h1 : Spectrum A 1 lo hi := h
  have hw : ∀ i, 0 < (1 : Fin N → ℝ) i := fun _ => one_pos
  obtain ⟨out, hrun, xr, hx, -, -, -, hmin⟩ := C12_cgsolve A b x0 hb op hop s prm hmax
  refine ⟨out, hrun, xr, hx, fun k hk => ?_⟩
  by_cases hok : CGOk A 1 b x0 k
  · refine (hmin k hk hok).trans ?_
    have := cg_nrm_rate h1 one_pos (w := 1) (whi := 1) (fun i => ⟨le_rfl, le_rfl⟩) hok
    rwa [div_one, Real.sqrt_one, one_mul] at this
  · obtain ⟨j, hj, hokj, hr⟩ := solved_before (h1.spd hw) hw hok
    have := hmin j (by omega) hokj
    rw [hr] at this
    have h0 : nrm (0 : Fin N → ℝ) = 0 := by simp [nrm]
    rw [h0] at this
    exact this.trans (mul_nonneg (cgFactor_nonneg h.2.1.le k) (nrm_nonneg _))

/-- `C74`, plain solver, effort: unless the start already solves the system, the solver performs at most `k` iterations and reports a
residual below `tol` as soon as `cgFactor lo hi k * ‖b - A x0‖ < tol * ‖b‖` for some `1 ≤ k ≤ max_iter`. -/
theorem C74_iterations {lo hi tol : ℝ} (h : Spectrum A (fun _ => 1) lo hi) (hb : b ≠ 0) (hx0 : A x0 ≠ b)
    (op : Vec Dbl N → σ → Vec Dbl N × σ) (hop : ∀ v s, (op (fvec v) s).1 = fvec (A v)) (s : σ) (prm : CgParams Dbl) (hmax : prm.max_iter < INT_MAX)
    (htol : prm.tol = Dbl.fin tol) {k : ℕ} (hk1 : 1 ≤ k) (hk : (k : Int) ≤ prm.max_iter) (hfac : cgFactor lo hi k * nrm (b - A x0) < tol * nrm b) :
    ∃ out, l1c_cgsolve (fvec x0) (fvec b) op s prm = some out ∧ out.res.cgiter ≤ k ∧ Dbl.Lt out.res.cgres prm.tol := by
  have h1 : Spectrum A 1 lo hi := h
  have hw : ∀ i, 0 < (1 : Fin N → ℝ) i := fun _ => one_pos
  have hnb := nrm_pos hb
  have htol0 : 0 < tol := by
    have : 0 ≤ cgFactor lo hi k * nrm (b - A x0) := mul_nonneg (cgFactor_nonneg h.2.1.le k) (nrm_nonneg _)
    by_contra hn
    have := mul_nonpos_of_nonpos_of_nonneg (not_lt.1 hn) hnb.le
    linarith
  obtain ⟨out, hrun, xr, hx, hres, -, -, hmin⟩ := C12_cgsolve A b x0 hb op hop s prm hmax
  obtain ⟨out', hrun', hstop⟩ := C13_early_stop A b x0 hb op hop s prm hmax
  obtain rfl : out = out' := Option.some.inj (hrun.symm.trans hrun')
  have hrp := hrun
  rw [cgsolve_eq_pcg] at hrp
  -- some iterate `j ≤ k`, not the start, is below the tolerance
  obtain ⟨j, hj1, hjk, hjok, hjt⟩ : ∃ j, 1 ≤ j ∧ j ≤ k ∧ CGOk A 1 b x0 j ∧ nrm (b - A (cgSeq A 1 b x0 j).x) < tol * nrm b := by
    by_cases hok : CGOk A 1 b x0 k
    · refine ⟨k, hk1, le_rfl, hok, lt_of_le_of_lt ?_ hfac⟩
      have := cg_nrm_rate h1 one_pos (w := 1) (whi := 1) (fun i => ⟨le_rfl, le_rfl⟩) hok
      rwa [div_one, Real.sqrt_one, one_mul] at this
    · obtain ⟨j, hj, hokj, hr⟩ := solved_before (h1.spd hw) hw hok
      refine ⟨j, ?_, hj.le, hokj, ?_⟩
      · rcases Nat.eq_zero_or_pos j with rfl | hpos
        · exact absurd (sub_eq_zero.1 hr).symm hx0
        · exact hpos
      · rw [hr, show nrm (0 : Fin N → ℝ) = 0 by simp [nrm]]; positivity
  obtain ⟨i, rfl⟩ : ∃ i, j = i + 1 := ⟨j - 1, by omega⟩
  have hle : out.res.cgiter ≤ (i + 1 : ℕ) := pcg_stops hop hb hw s prm hmax hrp hjok (by
    rw [htol]; exact (div_lt_iff₀ hnb).2 hjt)
  refine ⟨out, hrun, by omega, ?_⟩
  by_cases hlt : out.res.cgiter < prm.max_iter
  · exact hstop hlt
  · rw [hres, htol]
    have := hmin (i + 1) (by omega) hjok
    exact (div_lt_iff₀ hnb).2 (lt_of_le_of_lt this hjt)

/-- `C74`, preconditioned solver: with positive weights between `wlo` and `whi` and eigenvalues relative to the preconditioner between `lo`
and `hi`, the reported figure is at most `√(whi/wlo) * cgFactor lo hi k` times the initial relative residual for every `1 ≤ k ≤ cgiter`, and
the loop ends within `k` iterations as soon as this bound is below the tolerance. -/
theorem C74_precond {lo hi wlo whi : ℝ} (h : Spectrum A w lo hi) (hwlo : 0 < wlo) (hw : ∀ i, wlo ≤ w i ∧ w i ≤ whi) (hb : b ≠ 0) (hx0 : A x0 ≠ b)
    (op : Vec Dbl N → σ → Vec Dbl N × σ) (hop : ∀ v s, (op (fvec v) s).1 = fvec (A v)) (s : σ) (prm : CgParams Dbl) (hmax : prm.max_iter < INT_MAX) :
    ∃ out, l1c_cgsolve_diag_precond (fvec x0) (fvec b) (fvec w) op s prm = some out ∧
      (∀ k : ℕ, 1 ≤ k → (k : Int) ≤ out.res.cgiter →
        Dbl.Le out.res.cgres (.fin (√(whi / wlo) * cgFactor lo hi k * (nrm (b - A x0) / nrm b)))) ∧
      ∀ (tol : ℝ) (k : ℕ), prm.tol = Dbl.fin tol → 1 ≤ k →
        √(whi / wlo) * cgFactor lo hi k * nrm (b - A x0) < tol * nrm b → out.res.cgiter ≤ k := by
  have hw0 : ∀ i, 0 < w i := fun i => hwlo.trans_le (hw i).1
  have hnb := nrm_pos hb
  have hf : ∀ k, 0 ≤ √(whi / wlo) * cgFactor lo hi k := fun k => mul_nonneg (Real.sqrt_nonneg _) (cgFactor_nonneg h.2.1.le k)
  obtain ⟨out, hrun, xr, -, -, hmin, -⟩ := C15_precond_partial A w b x0 hw0 hb op hop s prm hmax
  have hearly : ∀ k, ¬ CGOk A w b x0 k → ∃ j, 1 ≤ j ∧ j < k ∧ CGOk A w b x0 j ∧ nrm (b - A (cgSeq A w b x0 j).x) = 0 := by
    intro k hok
    obtain ⟨j, hj, hokj, hr⟩ := solved_before (h.spd hw0) hw0 hok
    refine ⟨j, ?_, hj, hokj, by rw [hr]; simp [nrm]⟩
    rcases Nat.eq_zero_or_pos j with rfl | hpos
    · exact absurd (sub_eq_zero.1 hr).symm hx0
    · exact hpos
  refine ⟨out, hrun, fun k hk1 hk => ?_, fun tol k htol hk1 hfac => ?_⟩
  · obtain ⟨j, hj1, hjk, hjok, hjt⟩ : ∃ j, 1 ≤ j ∧ j ≤ k ∧ CGOk A w b x0 j ∧
        nrm (b - A (cgSeq A w b x0 j).x) ≤ √(whi / wlo) * cgFactor lo hi k * nrm (b - A x0) := by
      by_cases hok : CGOk A w b x0 k
      · exact ⟨k, hk1, le_rfl, hok, cg_nrm_rate h hwlo hw hok⟩
      · obtain ⟨j, h1, h2, h3, h4⟩ := hearly k hok
        exact ⟨j, h1, h2.le, h3, by rw [h4]; exact mul_nonneg (hf k) (nrm_nonneg _)⟩
    have h1 := hmin j (by omega) (by omega) hjok
    have h2 : nrm (b - A (cgSeq A w b x0 j).x) / nrm b ≤ √(whi / wlo) * cgFactor lo hi k * (nrm (b - A x0) / nrm b) := by
      rw [← mul_div_assoc]; exact (div_le_div_iff_of_pos_right hnb).2 hjt
    revert h1
    cases out.res.cgres <;> simp only [Dbl.Le, imp_self]
    exact fun h1 => h1.trans h2
  · have htol0 : 0 < tol := by
      have := mul_nonneg (hf k) (nrm_nonneg (b - A x0))
      by_contra hn
      have := mul_nonpos_of_nonpos_of_nonneg (not_lt.1 hn) hnb.le
      linarith
    obtain ⟨j, hj1, hjk, hjok, hjt⟩ : ∃ j, 1 ≤ j ∧ j ≤ k ∧ CGOk A w b x0 j ∧ nrm (b - A (cgSeq A w b x0 j).x) < tol * nrm b := by
      by_cases hok : CGOk A w b x0 k
      · exact ⟨k, hk1, le_rfl, hok, lt_of_le_of_lt (cg_nrm_rate h hwlo hw hok) hfac⟩
      · obtain ⟨j, h1, h2, h3, h4⟩ := hearly k hok
        exact ⟨j, h1, h2.le, h3, by rw [h4]; positivity⟩
    obtain ⟨i, rfl⟩ : ∃ i, j = i + 1 := ⟨j - 1, by omega⟩
    have := pcg_stops hop hb hw0 s prm hmax hrun hjok (by rw [htol]; exact (div_lt_iff₀ hnb).2 hjt)
    omega

/-- The exception in `C74_iterations` is real: started at a solution, the solver spends the whole budget (every test compares with a NaN),
whatever the tolerance; the start is returned with residual 0. -/
theorem C74_solved_start (hb : b ≠ 0) (hx0 : A x0 = b) (op : Vec Dbl N → σ → Vec Dbl N × σ) (hop : ∀ v s, (op (fvec v) s).1 = fvec (A v)) (s : σ)
    (prm : CgParams Dbl) (hmax : prm.max_iter < INT_MAX) (h0 : 0 ≤ prm.max_iter) :
    ∃ out, l1c_cgsolve (fvec x0) (fvec b) op s prm = some out ∧ out.x = fvec x0 ∧ out.res.cgres = .fin 0 ∧ out.res.cgiter = prm.max_iter := by
  have hw : ∀ i, 0 < (1 : Fin N → ℝ) i := fun _ => one_pos
  have hbad : ¬ CGOk A 1 b x0 1 := fun h => (h 0 (by omega)).1 (sub_eq_zero.2 hx0.symm)
  obtain ⟨out, hrun, xr, hx, hres, -, ⟨k, hk, hok, hxk⟩, -⟩ := C12_cgsolve A b x0 hb op hop s prm hmax
  have hk0 : k = 0 := by
    by_contra hne
    exact hbad (hok.mono (by omega))
  subst hk0
  have hxr : xr = x0 := hxk
  subst hxr
  refine ⟨out, hrun, hx, ?_, ?_⟩
  · rw [hres, hx0, sub_self]; simp [nrm]
  rw [cgsolve_eq_pcg] at hrun
  obtain ⟨j, iter, hl, hcase⟩ := cgLoop_trace (pcgStep op (fvec 1) (.fin (b ⬝ᵥ b))) prm.tol (pcgInit op (fvec xr) (fvec b) (fvec 1) s).1
    (pcgInit op (fvec xr) (fvec b) (fvec 1) s).2 prm.max_iter.toNat 0 (toNat_lt_max hmax) (by simp)
  rw [show ((0 + 1 : ℕ) : Int) = 1 from rfl] at hl
  unfold l1c_cgsolve_diag_precond at hrun
  simp only [ddot_fvec] at hrun
  rw [show cgLoop (pcgStep op (fvec 1) (.fin (b ⬝ᵥ b))) prm.tol prm.max_iter.toNat 1 (pcgInit op (fvec xr) (fvec b) (fvec 1) s).1
    (pcgInit op (fvec xr) (fvec b) (fvec 1) s).2 = _ from hl] at hrun
  obtain rfl := Option.some.inj hrun
  have hoff : ∀ i, OffTrack A 1 b xr (i + 1) (cgTrace (pcgStep op (fvec 1) (.fin (b ⬝ᵥ b)))
      (pcgInit op (fvec xr) (fvec b) (fvec 1) s).1 (pcgInit op (fvec xr) (fvec b) (fvec 1) s).2 (i + 1)).1 := by
    intro i
    induction i with
    | zero =>
      rcases pcg_step_track hop hb hw (pcg_trace_on hop hb hw s 0 fun j hj => by omega) with ⟨h, -⟩ | h
      · exact absurd h.ok hbad
      · exact h
    | succ i ih => exact pcg_step_off ih
  show min iter prm.max_iter = _
  rcases hcase with ⟨h1, h2, h3, h4, -⟩ | ⟨h1, h2, h3⟩
  · obtain ⟨i, rfl⟩ : ∃ i, j = i + 1 := ⟨j - 1, by omega⟩
    have := pcg_rel_off prm.tol (hoff i)
    exact absurd (this.symm.trans h4) (by decide)
  · omega

/-- how many iterations make the factor as small as `θ`: about `√(hi/lo)/2 * log (2 √(hi/lo) / θ)` -/
theorem C74_enough {lo hi θ : ℝ} (hlo : 0 < lo) (hlh : lo < hi) (hθ : 0 < θ) (k : ℕ)
    (hk : (√(hi / lo) + 1) / 2 * Real.log (2 * √(hi / lo) / θ) ≤ k) : cgFactor lo hi k ≤ θ := by
  have hhi : 0 < hi := hlo.trans hlh
  set q := √(hi / lo) with hq
  have hq1 : 1 < q := by
    rw [hq, Real.lt_sqrt (by norm_num), one_pow, lt_div_iff₀ hlo]; linarith
  have hl0 : 0 < √lo := Real.sqrt_pos.2 hlo
  have hqe : q * √lo = √hi := by rw [hq, Real.sqrt_div hhi.le, div_mul_cancel₀ _ hl0.ne']
  have hr : (√hi - √lo) / (√hi + √lo) = (q - 1) / (q + 1) := by
    rw [← hqe, show q * √lo - √lo = (q - 1) * √lo by ring, show q * √lo + √lo = (q + 1) * √lo by ring]
    exact mul_div_mul_right _ _ hl0.ne'
  have h1 : (q - 1) / (q + 1) ≤ Real.exp (-(2 / (q + 1))) := by
    have := Real.add_one_le_exp (-(2 / (q + 1)))
    refine le_trans (le_of_eq ?_) this
    field_simp; ring
  have h0 : 0 ≤ (q - 1) / (q + 1) := div_nonneg (by linarith) (by linarith)
  have h2 : ((q - 1) / (q + 1)) ^ k ≤ Real.exp (-(Real.log (2 * q / θ))) := by
    refine (pow_le_pow_left₀ h0 h1 k).trans ?_
    rw [← Real.exp_nat_mul, Real.exp_le_exp]
    have h3 : (q + 1) / 2 * Real.log (2 * q / θ) ≤ k := hk
    have h4 : Real.log (2 * q / θ) ≤ k * (2 / (q + 1)) := by
      rw [mul_div_assoc', le_div_iff₀ (by linarith)]; linarith
    linarith
  rw [Real.exp_neg, Real.exp_log (by positivity)] at h2
  unfold cgFactor
  rw [hr, ← hq]
  calc 2 * q * ((q - 1) / (q + 1)) ^ k ≤ 2 * q * (2 * q / θ)⁻¹ := mul_le_mul_of_nonneg_left h2 (by positivity)
    _ = θ := by field_simp

/-- an operator with eigenvalues 1 and 2, and an instance: after two iterations the guaranteed factor is below `1/10` -/
example : Spectrum diag12 (fun _ => 1) 1 2 ∧ diag12 0 ≠ 1 ∧ cgFactor 1 2 2 < 1 / 10 := by
  refine ⟨⟨one_pos, by norm_num, diag12_spd.1, fun v => ?_⟩, fun h => by simpa using congrFun h 0, ?_⟩
  · simp only [diag12, dotProduct, Fin.sum_univ_two]
    constructor
    · simp; nlinarith [sq_nonneg (v 0), sq_nonneg (v 1)]
    · simp; nlinarith [sq_nonneg (v 0), sq_nonneg (v 1)]
  · unfold cgFactor
    rw [div_one, Real.sqrt_one]
    have h2 : √2 ^ 2 = 2 := Real.sq_sqrt (by norm_num)
    have hlt : √2 < 1.4143 := by rw [Real.sqrt_lt' (by norm_num)]; norm_num
    have hp : 0 < √2 := by positivity
    rw [div_pow, mul_div_assoc', div_lt_iff₀ (by positivity)]
    nlinarith

theorem diag12_spectrum : Spectrum diag12 (fun _ => 1) 1 2 := by
  refine ⟨one_pos, by norm_num, diag12_spd.1, fun v => ?_⟩
  simp only [diag12, dotProduct, Fin.sum_univ_two]
  constructor
  · simp; nlinarith [sq_nonneg (v 0), sq_nonneg (v 1)]
  · simp; nlinarith [sq_nonneg (v 0), sq_nonneg (v 1)]

/-- `C74_iterations` on that matrix: a tolerance of one tenth is met within two steps. -/
example : ∃ out, l1c_cgsolve (fvec 0) (fvec 1) diag12Op () ⟨50, .fin (1 / 10)⟩ = some out ∧ out.res.cgiter ≤ 2 ∧
    Dbl.Lt out.res.cgres (.fin (1 / 10)) := by
  refine C74_iterations (A := diag12) (k := 2) diag12_spectrum one_ne_zero (fun h => by simpa using congrFun h 0) diag12Op
    diag12Op_eq () ⟨50, .fin (1 / 10)⟩ (by decide) rfl (by norm_num) (by decide) ?_
  rw [map_zero, sub_zero]
  have hb : 0 < nrm (1 : Fin 2 → ℝ) := by
    unfold nrm
    simp [dotProduct]
  refine mul_lt_mul_of_pos_right ?_ hb
  unfold cgFactor
  rw [div_one, Real.sqrt_one]
  have h2 : √2 ^ 2 = 2 := Real.sq_sqrt (by norm_num)
  have hlt : √2 < 1.4143 := by rw [Real.sqrt_lt' (by norm_num)]; norm_num
  have hp : 0 < √2 := by positivity
  rw [div_pow, mul_div_assoc', div_lt_iff₀ (by positivity)]
  nlinarith

/-- `C74_precond` with the weights `1` and `C74_solved_start` from the solution. -/
example : ∃ out, l1c_cgsolve_diag_precond (fvec 0) (fvec 1) (fvec fun _ => 1) diag12Op () ⟨50, .fin (1 / 10)⟩ = some out ∧
    ∀ k : ℕ, 1 ≤ k → (k : Int) ≤ out.res.cgiter →
      Dbl.Le out.res.cgres (.fin (√(1 / 1) * cgFactor 1 2 k * (nrm (1 - diag12 0) / nrm (1 : Fin 2 → ℝ)))) :=
  let ⟨out, h, h', _⟩ := C74_precond (wlo := 1) (whi := 1) diag12_spectrum one_pos (fun _ => ⟨le_rfl, le_rfl⟩) one_ne_zero
    (fun h => by simpa using congrFun h 0) diag12Op diag12Op_eq () ⟨50, .fin (1 / 10)⟩ (by decide)
  ⟨out, h, h'⟩

example : ∃ out, l1c_cgsolve (fvec ![1, 1]) (fvec ![1, 2]) diag12Op () ⟨50, .fin (1 / 10)⟩ = some out ∧ out.res.cgiter = 50 :=
  let ⟨out, h, _, _, h'⟩ := C74_solved_start (A := diag12) (b := ![1, 2]) (x0 := ![1, 1]) (fun h => by simpa using congrFun h 0)
    (by funext i; fin_cases i <;> simp [diag12]) diag12Op diag12Op_eq () ⟨50, .fin (1 / 10)⟩ (by decide) (by decide)
  ⟨out, h, h'⟩

/-- `C74_enough`: with condition number four, six steps reduce the residual to a quarter. -/
example : cgFactor 1 4 6 ≤ 1 / 4 := by
  refine C74_enough one_pos (by norm_num) (by norm_num) 6 ?_
  have h4 : √(4 / 1 : ℝ) = 2 := by
    rw [div_one, Real.sqrt_eq_iff_mul_self_eq (by norm_num) (by norm_num)]
    norm_num
  have he : (16 : ℝ) ≤ Real.exp 4 := by
    have h1 : (2 : ℝ) ≤ Real.exp 1 := by linarith [Real.add_one_le_exp (1 : ℝ)]
    have h5 : Real.exp 4 = Real.exp 1 ^ 4 := by rw [← Real.exp_nat_mul]; norm_num
    rw [h5]
    exact le_trans (by norm_num) (pow_le_pow_left₀ (by norm_num) h1 4)
  have hl : Real.log 16 ≤ 4 := by
    rw [Real.log_le_iff_le_exp (by norm_num)]
    exact he
  rw [h4, show (2 * 2 / (1 / 4) : ℝ) = 16 by norm_num]
  push_cast
  linarith

end L1c
