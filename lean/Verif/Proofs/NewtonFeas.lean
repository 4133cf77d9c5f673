import Verif.Proofs.NewtonRuns

/-! # Accepted points of the log-barrier solver are feasible, over doubles without rounding -/

namespace L1c
open Scalar Matrix

variable {σ : Type} {n m : ℕ} {Inv : σ → Prop} {ax : QAx Dbl σ n m} {A : Matrix (Fin n) (Fin m) ℝ} {b : Fin n → ℝ} {eps : ℝ}

/-- partial correctness of the operators: whenever `Ax` is defined it returns `A x`; the others may return anything -/
structure AxPart (ax : QAx Dbl σ n m) (Inv : σ → Prop) (A : Matrix (Fin n) (Fin m) ℝ) : Prop where
  Ax : ∀ s v y s', Inv s → ax.Ax v s = some (y, s') → Inv s' ∧ ∀ x, v = fvec x → y = fvec (A *ᵥ x)
  Aty : ∀ s v y s', Inv s → ax.Aty v s = some (y, s') → Inv s'
  AtAx : ∀ s v y s', Inv s → ax.AtAx v s = some (y, s') → Inv s'

theorem sum_ne_nan {k : ℕ} {f : Fin k → Dbl} (h : ∑ i, f i ≠ Dbl.nan) (i : Fin k) : f i ≠ Dbl.nan := by
  intro hi
  apply h
  rw [← Finset.add_sum_erase _ _ (Finset.mem_univ i), hi, Dbl.nan_add]

theorem infMul_neg_one : Dbl.infMul (-1) = Dbl.ninf := by
  unfold Dbl.infMul
  rw [if_neg (by norm_num), if_neg (by norm_num)]

theorem infMul_one : Dbl.infMul 1 = Dbl.pinf := by
  unfold Dbl.infMul
  rw [if_neg (by norm_num), if_pos (by norm_num)]

theorem mone_mul (d : Dbl) : lit (-1) * d = -d := by
  cases d with
  | fin a => simp
  | pinf => show Dbl.infMul (((-1 : ℚ) : ℝ)) = Dbl.ninf; rw [Rat.cast_neg, Rat.cast_one]; exact infMul_neg_one
  | ninf => show Dbl.infMul (-((-1 : ℚ) : ℝ)) = Dbl.pinf; rw [Rat.cast_neg, Rat.cast_one, neg_neg]; exact infMul_one
  | nan => rfl

theorem mul_mone (d : Dbl) : d * lit (-1) = -d := by
  cases d with
  | fin a => simp
  | pinf => show Dbl.infMul (((-1 : ℚ) : ℝ)) = Dbl.ninf; rw [Rat.cast_neg, Rat.cast_one]; exact infMul_neg_one
  | ninf => show Dbl.infMul (-((-1 : ℚ) : ℝ)) = Dbl.pinf; rw [Rat.cast_neg, Rat.cast_one, neg_neg]; exact infMul_one
  | nan => rfl

/-- the two barrier terms of a coordinate rule out that it is not finite -/
theorem fin_of_logs {x u : Dbl} (h1 : flog ((lit (-1) * u + x) * lit (-1)) ≠ Dbl.nan)
    (h2 : flog ((lit (-1) * x + lit (-1) * u) * lit (-1)) ≠ Dbl.nan) : ∃ a, x = Dbl.fin a := by
  rw [mone_mul, mul_mone] at h1
  rw [mone_mul, mone_mul, mul_mone] at h2
  cases x with
  | fin a => exact ⟨a, rfl⟩
  | pinf => exfalso; apply h1; cases u <;> rfl
  | ninf => exfalso; apply h2; cases u <;> rfl
  | nan => exfalso; apply h1; cases u <;> rfl

theorem neg_ne_nan {a : Dbl} (h : -a ≠ Dbl.nan) : a ≠ Dbl.nan := by
  rintro rfl; exact h rfl

theorem sub_ne_nan {a c : Dbl} (h : a - c ≠ Dbl.nan) : a ≠ Dbl.nan ∧ c ≠ Dbl.nan := by
  constructor
  · rintro rfl; exact h rfl
  · rintro rfl; cases a <;> exact h rfl

theorem add_ne_nan {a c : Dbl} (h : a + c ≠ Dbl.nan) : a ≠ Dbl.nan ∧ c ≠ Dbl.nan := by
  constructor
  · rintro rfl; exact h (Dbl.nan_add _)
  · rintro rfl; exact h (Dbl.add_nan _)

theorem mul_ne_nan {a c : Dbl} (h : a * c ≠ Dbl.nan) : c ≠ Dbl.nan := by
  rintro rfl; exact h (Dbl.mul_nan _)

/-- a value that is not NaN belongs to a finite, feasible point -/
theorem eval_feasible {P : QProb Dbl n m} {x u : Vec Dbl m} {y : Vec Dbl n} (hb : P.b = fvec b) (he : P.epsilon = Dbl.fin eps) (heps : 0 ≤ eps)
    (hy : ∀ x', x = fvec x' → y = fvec (A *ᵥ x')) (h : (evalOf P x u y).f_val ≠ Dbl.nan) :
    ∃ x', x = fvec x' ∧ nrm (A *ᵥ x' - b) ≤ eps := by
  unfold evalOf at h
  dsimp only at h
  obtain ⟨-, h⟩ := sub_ne_nan h
  obtain ⟨h12, h3⟩ := add_ne_nan (mul_ne_nan h)
  obtain ⟨h1, h2⟩ := add_ne_nan h12
  rw [dlogsum_eq_sum] at h1 h2
  have hfin : ∀ i, ∃ a, x i = Dbl.fin a := fun i => fin_of_logs (sum_ne_nan h1 i) (sum_ne_nan h2 i)
  choose x' hx' using hfin
  have hx : x = fvec x' := funext hx'
  refine ⟨x', hx, ?_⟩
  rw [hb, he, hy x' hx, resid_fvec, fe_fin, Dbl.fin_neg] at h3
  have hle : (A *ᵥ x' - b) ⬝ᵥ (A *ᵥ x' - b) ≤ eps ^ 2 := by
    by_contra hc
    apply h3
    rw [Dbl.flog_fin', if_pos]
    linarith
  unfold nrm
  exact (Real.sqrt_le_left heps).2 hle

theorem start_check (x : Fin m → ℝ) :
    flt (lit 0) (dnrm2 (vaxpy (lit (-1)) (fvec b) (fvec (A *ᵥ x))) - Dbl.fin eps) = true ↔ eps < nrm (A *ᵥ x - b) := by
  rw [resid_fvec, dnrm2_fvec, Dbl.fin_sub, Dbl.lit_eq, Dbl.flt_fin, Rat.cast_zero]
  simp

/-- every defined run of the solver: feasible answer, or the start is infeasible -/
theorem solve_feasible (H : AxPart ax Inv A) {prm : QOpts Dbl} (he : prm.epsilon = Dbl.fin eps) {x : Fin m → ℝ} {u : Vec Dbl m}
    {out : QOut Dbl n m} {s s' : σ} (hs : Inv s) (h : l1qc_solve ax prm (fvec b) (fvec x) u s = some (out, s')) :
    Inv s' ∧ ((eps < nrm (A *ᵥ x - b) ∧ out.res.status = L1C_INFEASIBLE_START ∧ out.x = fvec x ∧ out.res.total_newton_iter = 0 ∧ out.res.total_cg_iter = 0) ∨
    (nrm (A *ᵥ x - b) ≤ eps ∧ out.res.status = 0 ∧ out.res.l1 = dasum out.x ∧ ∃ x', out.x = fvec x' ∧ nrm (A *ᵥ x' - b) ≤ eps)) := by
  have HP : Preord (fun s s' : σ => Inv s → Inv s') := ⟨fun _ h => h, fun h1 h2 h => h2 (h1 h)⟩
  have K : OpsKeep (fun s s' : σ => Inv s → Inv s') ax := ⟨fun v s a s' h hs => (H.Ax s v a s' hs h).1, fun v s a s' h hs => H.AtAx s v a s' hs h⟩
  have KT : ∀ v, Keeps (fun s s' : σ => Inv s → Inv s') (ax.Aty v) := fun v s a s' h hs => H.Aty s v a s' hs h
  obtain ⟨-, y, s1, a1, a2⟩ := solve_inv h
  obtain ⟨hs1, hy⟩ := H.Ax _ _ _ _ hs a1
  rw [hy x rfl, he] at a2
  rcases a2 with ⟨a2, rfl, rfl⟩ | ⟨a2, st, a3, rfl⟩
  · exact ⟨hs1, Or.inl ⟨(start_check x).1 a2, rfl, rfl, rfl, rfl⟩⟩
  · have hle : nrm (A *ᵥ x - b) ≤ eps := by
      by_contra hc
      rw [(start_check x).2 (not_le.1 hc)] at a2
      cases a2
    have hI := lb_loop_inv HP K KT _ _ _ _ _ _ a3
    refine ⟨hI.rel hs1, Or.inr ⟨hle, rfl, rfl, ?_⟩⟩
    rcases hI.hx with hx | ⟨P, v, t0, t1, z, p1, p2, p3, p4, p5⟩
    · exact ⟨x, hx, hle⟩
    · have hfin := (H.Ax _ _ _ _ (p3 hs1) p4).2
      refine eval_feasible (P := P) (u := v) p1 (p2.trans he) (le_trans ?_ hle) hfin ?_
      · exact Real.sqrt_nonneg _
      · intro hc
        rw [hc] at p5
        simp at p5

end L1c
