import Verif.Proofs.NestaRun
import Verif.Proofs.NestaRes
import Verif.Proofs.NestaFifo
import Mathlib.Analysis.SpecialFunctions.Pow.Real

/-! # Whole runs of NESTA on finite data -/

namespace L1c
open Scalar Matrix

variable {n m p : ℕ} {σ : Type}
variable {A : Matrix (Fin n) (Fin m) ℝ} {W : Matrix (Fin m) (Fin p) ℝ} {Inv : σ → Prop} {D : Dbl → Prop} {ax : NAx Dbl σ n m p}

theorem Realises.notMissing (R : Realises ax Inv D A W) : ¬ ax.Missing := by
  obtain ⟨g, hg, -⟩ := R.Wz
  obtain ⟨g', hg', -⟩ := R.Wtx
  simp [NAx.Missing, hg, hg', R.hasRx, R.hasRty]

theorem Realises.zero {k : ℕ} (R : Realises ax Inv D A W) (i : Fin k) : D ((fun _ => lit 0 : Vec Dbl k) i) := by
  show D (lit 0)
  rw [Dbl.lit_eq]; exact R.fin _

/-- the continuation factor on finite data -/
theorem beta_fin {mu mu0 : ℝ} (hmu : 0 < mu) (hmu0 : 0 < mu0) {N : Int} (hN : 1 ≤ N) :
    ∃ beta : ℝ, fexp (flog (Dbl.fin mu / Dbl.fin mu0) / lit N) = Dbl.fin beta ∧ 0 < beta ∧ mu0 * beta ^ N.toNat = mu ∧
      ∀ j : ℕ, beta ^ j = (mu / mu0) ^ ((j : ℝ) / N) := by
  have hq : 0 < mu / mu0 := div_pos hmu hmu0
  have hNr : (0 : ℝ) < N := by exact_mod_cast (by omega : (0 : Int) < N)
  have hpow : ∀ j : ℕ, Real.exp (Real.log (mu / mu0) / N) ^ j = (mu / mu0) ^ ((j : ℝ) / N) := by
    intro j
    rw [← Real.exp_nat_mul, Real.rpow_def_of_pos hq]
    congr 1; ring
  refine ⟨Real.exp (Real.log (mu / mu0) / N), ?_, Real.exp_pos _, ?_, hpow⟩
  · rw [Dbl.fin_div hmu0.ne', Dbl.flog_fin hq, Dbl.lit_eq, Rat.cast_intCast, Dbl.fin_div hNr.ne', Dbl.fexp_fin]
  · rw [hpow]
    have : ((N.toNat : ℕ) : ℝ) = N := by
      have := Int.toNat_of_nonneg (by omega : 0 ≤ N)
      exact_mod_cast this
    rw [this, div_self hNr.ne', Real.rpow_one, mul_div_cancel₀ _ hmu0.ne']

theorem proj_init_feas (hA : A * Aᵀ = 1) {sigma : ℝ} (hs : 0 < sigma) (b : Fin n → ℝ) : Feas A b sigma (Aᵀ *ᵥ b) := by
  unfold Feas
  rw [mul_transpose_mulVec hA, sub_self]
  simpa [nrm] using hs.le

/-- the loop as started by `l1c_nesta` on finite data, stopped after `j` continuation steps -/
theorem loop_fin (R : Realises ax Inv D A W) (hA : A * Aᵀ = 1) {b : Fin n → ℝ} {sigma mu K M : ℝ} {opts : NestaOpts Dbl}
    (hsig : opts.sigma = Dbl.fin sigma) (hs : 0 < sigma) (hmu : opts.mu = Dbl.fin mu) (hm : 0 < mu)
    (hK : ax.norm_W = Dbl.fin K) (hK0 : K ≠ 0) (hM : vmax (fvec (absHead m (Wᵀ *ᵥ (Aᵀ *ᵥ b)))) = Dbl.fin M) (hM0 : 0 < M)
    (hN : 1 ≤ opts.n_continue) {P0 : NestaProb Dbl n m p} (hdA : ∀ i, D (P0.Atb i)) (hd1 : ∀ i, D (P0.dwork1 i)) (s : NState σ) (hI : Inv s.cb) :
    ∃ (P1 : NestaProb Dbl n m p) (bm bt : Dbl) (c1 : σ),
      l1c_nesta_setup ax P0 (fvec b) opts s = some ((L1C_SUCCESS, P1, bm, bt), { s with cb := c1 }) ∧ Inv c1 ∧
      P1.mu_j = Dbl.fin (9 / 10 * M) ∧ P1.tol_j = Dbl.fin (1 / 10) ∧
      ∀ (j : ℕ) (s2 : NState σ), (j : Int) < INT_MAX → Inv s2.cb →
        ∃ (P2 : NestaProb Dbl n m p) (T : ℕ) (c2 : σ) (x : Fin m → ℝ),
          nestaOuter ax bm bt j 1 0 { P1 with xk := P1.xo } s2 = some ((P2, T), { s2 with cb := c2 }) ∧ Inv c2 ∧
          P2.xk = fvec x ∧ Feas A b sigma x ∧
          P2.mu_j = Dbl.fin (9 / 10 * M * (mu / (9 / 10 * M)) ^ ((j : ℝ) / opts.n_continue)) ∧
          (∀ t : ℝ, opts.tol = Dbl.fin t → 0 < t →
            P2.tol_j = Dbl.fin (1 / 10 * (t / (1 / 10)) ^ ((j : ℝ) / opts.n_continue))) := by
  obtain ⟨P1, c1, h1, hI1, f1, f2, f3, f4, f5, f6, f7, f8⟩ := setup_fin R (P := P0) hdA hK b opts hM s hI
  have hmu0 : 0 < 9 / 10 * M := by positivity
  obtain ⟨beta, hbeta, hb0, -, hbp⟩ := beta_fin hm hmu0 hN
  rw [hmu, hbeta] at h1
  refine ⟨P1, _, _, c1, h1, hI1, f5, f6, fun j s2 hj hI2 => ?_⟩
  have hat : OuterAt A D b sigma (9 / 10 * M) (K * K) (Aᵀ *ᵥ b) { P1 with xk := P1.xo } :=
    ⟨⟨f1, f2, f3.trans hsig, f5, f4, f8 hd1⟩, f7, f7⟩
  obtain ⟨P2, T, c2, x, g1, g2, g3, g4, g5⟩ := outer_fin R hA ((rows_le hA).trans (le_max_left m p)) hs hb0
    (mul_self_pos.2 hK0) (fexp (flog (opts.tol / Dbl.fin (1 / 10)) / lit opts.n_continue)) j 1 0 _ _ _ s2 hmu0 hat
    (proj_init_feas hA hs b) (by omega) hI2
  refine ⟨P2, T, c2, x, g1, g2, g3.hxk, g4, ?_, ?_⟩
  · rw [g3.fix.hmu, hbp]
  · intro t ht ht0
    obtain ⟨bt, hbt, -, -, hbtp⟩ := beta_fin ht0 (by norm_num : (0 : ℝ) < 1 / 10) hN
    rw [← hbtp]
    exact g5 _ bt f6 (by rw [ht, hbt])

/-- a whole run on finite data -/
theorem nesta_fin (R : Realises ax Inv D A W) (hA : A * Aᵀ = 1) {b : Fin n → ℝ} {sigma mu K M : ℝ} {opts : NestaOpts Dbl}
    (hsig : opts.sigma = Dbl.fin sigma) (hs : 0 < sigma) (hmu : opts.mu = Dbl.fin mu) (hm : 0 < mu)
    (hK : ax.norm_W = Dbl.fin K) (hK0 : K ≠ 0) (hM : vmax (fvec (absHead m (Wᵀ *ᵥ (Aᵀ *ᵥ b)))) = Dbl.fin M) (hM0 : 0 < M)
    (hN : 1 ≤ opts.n_continue) (hN' : opts.n_continue < INT_MAX) (xk : Vec Dbl m) (s : NState σ) (hI : Inv s.cb) (hwf : s.WF)
    (hal : ∀ i < 11, s.oracle (s.calls + i) = true) :
    ∃ (x : Fin m → ℝ) (P' : NestaProb Dbl n m p) (T : ℕ) (s' : NState σ),
      l1c_nesta m n xk (fvec b) ax opts s = some (⟨L1C_SUCCESS, fvec x, T, some P'⟩, s') ∧ Feas A b sigma x ∧
      s'.live = s.live ∧ Inv s'.cb ∧ P'.mu_j = Dbl.fin mu ∧ (∀ t : ℝ, opts.tol = Dbl.fin t → 0 < t → P'.tol_j = Dbl.fin t) := by
  obtain ⟨s1, e1, -, -, hrun⟩ := nesta_after_setup xk (fvec b) ax opts s hwf (fun i hi => hal i (by omega)) R.notMissing
  obtain ⟨P1, bm, bt, c1, h1, hI1, -, -, hloop⟩ := loop_fin R hA hsig hs hmu hm hK hK0 hM hM0 hN (P0 := nestaZero (fvec b)) R.zero R.zero s1 (e1 ▸ hI)
  have hNn := Int.toNat_of_nonneg (by omega : 0 ≤ opts.n_continue)
  obtain ⟨P2, T, c2, x, g1, g2, g3, g4, g5, g6⟩ := hloop opts.n_continue.toNat
    { s1 with live := insert s1.next s1.live, next := s1.next + 1, calls := s1.calls + 1, cb := c1 } (by omega) hI1
  have hNr : ((opts.n_continue.toNat : ℕ) : ℝ) / opts.n_continue = 1 := by
    rw [show ((opts.n_continue.toNat : ℕ) : ℝ) = (opts.n_continue : ℝ) by exact_mod_cast hNn]
    exact div_self (by exact_mod_cast (by omega : opts.n_continue ≠ 0))
  rw [hNr] at g5 g6
  refine ⟨x, P2, T, { s1 with live := s.live, next := s1.next + 1, calls := s1.calls + 1, cb := c2 }, ?_, g4, rfl, g2, ?_, ?_⟩
  · rw [hrun, h1, Option.bind_some, if_pos (hal 10 (by omega))]
    dsimp only
    rw [g1, Option.map_some]
    dsimp only
    rw [g3]
  · rw [g5, Real.rpow_one]; congr 1; field_simp
  · intro t ht ht0
    rw [g6 t ht ht0, Real.rpow_one]; congr 1; field_simp

/-- every matrix has a finite norm -/
theorem exists_bound (W : Matrix (Fin m) (Fin p) ℝ) : ∃ K : ℝ, 0 ≤ K ∧ ∀ x, nrm (Wᵀ *ᵥ x) ≤ K * nrm x := by
  refine ⟨Real.sqrt (∑ i, nrm (Wᵀ i) * nrm (Wᵀ i)), Real.sqrt_nonneg _, fun x => ?_⟩
  refine nrm_le_of_sq (mul_nonneg (Real.sqrt_nonneg _) (nrm_nonneg _)) ?_
  have h0 : 0 ≤ ∑ i, nrm (Wᵀ i) * nrm (Wᵀ i) := Finset.sum_nonneg fun i _ => mul_self_nonneg _
  have e : ∀ a b : ℝ, a * b * (a * b) = (a * a) * (b * b) := fun a b => by ring
  rw [e, Real.mul_self_sqrt h0, Finset.sum_mul]
  refine Finset.sum_le_sum fun i _ => ?_
  rw [← e]
  have h1 : (Wᵀ *ᵥ x) i ≤ nrm (Wᵀ i) * nrm x := dot_le_nrm _ _
  have h2 : -(nrm (Wᵀ i) * nrm x) ≤ (Wᵀ *ᵥ x) i := neg_nrm_le_dot _ _
  nlinarith

end L1c
