import Verif.Proofs.CGMem
import Verif.Props.CG

/-!
# C93: conjugate gradients on the caller's arrays

The solvers are run on memory.  The operator is any command on memory that computes `op` (`OpImpl`).
-/

namespace L1c
open Scalar

variable {F : Type} [Scalar F] {N : ℕ} {σ : Type} {ax : Ptr → Ptr → Cmd F Unit} {op : Vec F N → σ → Vec F N × σ} {R : σ → PState F → Prop}
  {Own : Set Ptr} {x b Minv : Ptr} {Dwork : ℕ → Ptr} {s : PState F} {u w M : Vec F N} {t : σ} {prm : CgParams F}

/-- The array `x`, four work arrays and the operator's data do not overlap; `b` does not overlap the first three work arrays nor the
operator's data (it may overlap `x` and the fourth).  Then under every interleaving the call returns exactly what the solver on values
returns, leaves the solution in `x`, and writes to nothing but `x`, the work arrays and the operator's data. -/
theorem C93_cgsolve (H : OpImpl ax op R Own) (D : Apart N x Dwork 4 Own) (hbw : ∀ i < 3, Disjoint (Rng b N) (Rng (Dwork i) N)) (hbo : Disjoint (Rng b N) Own)
    (hx : HoldsV s x u) (hb : HoldsV s b w) (hD : ∀ i < 4, s.mem.Has (Dwork i) N) (hR : R t s) (hmax : prm.max_iter < INT_MAX) :
    ∃ o s', l1c_cgsolve u w op t prm = some o ∧ CSpec (l1c_cgsolveM N x b Dwork ax prm) s o.res s' ∧ HoldsV s' x o.x ∧ R o.cb s' ∧
      Only (Writes N x Dwork 4 Own) s s' := by
  rcases cgsolveM_spec H D.cg (hbw 0 (by decide)) (hbw 1 (by decide)) (hbw 2 (by decide)) hbo hx hb hD hR hmax.le with ⟨o, s', h1, h2, h3, h4, h5⟩ | ⟨h, -⟩
  · exact ⟨o, s', h1, h2, h3, h4, h5.mono cgW_writes⟩
  · obtain ⟨o, ho⟩ := cgsolve_some u w op t hmax
    rw [h] at ho
    cases ho

/-- The same for the preconditioned solver with five work arrays; the preconditioner overlaps nothing that is written and stays as it is. -/
theorem C93_precond (H : OpImpl ax op R Own) (D : Apart N x Dwork 5 Own) (hMx : Disjoint (Rng Minv N) (Rng x N)) (hMw : ∀ i < 5, Disjoint (Rng Minv N) (Rng (Dwork i) N))
    (hMo : Disjoint (Rng Minv N) Own) (hbw : ∀ i < 5, i ≠ 3 → Disjoint (Rng b N) (Rng (Dwork i) N)) (hbo : Disjoint (Rng b N) Own)
    (hx : HoldsV s x u) (hb : HoldsV s b w) (hM : HoldsV s Minv M) (hD : ∀ i < 5, s.mem.Has (Dwork i) N) (hR : R t s) (hmax : prm.max_iter < INT_MAX) :
    ∃ o s', l1c_cgsolve_diag_precond u w M op t prm = some o ∧ CSpec (l1c_cgsolve_diag_precondM N x b Minv Dwork ax prm) s o.res s' ∧ HoldsV s' x o.x ∧
      R o.cb s' ∧ HoldsV s' Minv M ∧ Only (Writes N x Dwork 5 Own) s s' := by
  rcases pcgsolveM_spec H (D.pcg hMx hMw hMo) (hbw 0 (by decide) (by decide)) (hbw 1 (by decide) (by decide)) (hbw 2 (by decide) (by decide)) (hbw 4 (by decide) (by decide))
    hbo hx hb hM hD hR hmax.le with ⟨o, s', h1, h2, h3, h4, h5, h6⟩ | ⟨h, -⟩
  · exact ⟨o, s', h1, h2, h3, h4, h5, h6.mono cgW_writes5⟩
  · obtain ⟨o, ho⟩ := pcgsolve_some u w M op t hmax
    rw [h] at ho
    cases ho

/-- In exact arithmetic, for a symmetric positive definite operator, a nonzero `b` and a budget of at least `N` iterations with a tolerance
that is not positive: after the call the array `x` holds the solution of `A x = b`.  An array `b` apart from everything written is unchanged. -/
theorem C93_solves {op : Vec Dbl N → σ → Vec Dbl N × σ} {ax : Ptr → Ptr → Cmd Dbl Unit} {R : σ → PState Dbl → Prop} {s : PState Dbl} {prm : CgParams Dbl}
    (A : (Fin N → ℝ) →ₗ[ℝ] (Fin N → ℝ)) (hA : SPD A) (hop : ∀ v t, (op (fvec v) t).1 = fvec (A v)) (H : OpImpl ax op R Own) (D : Apart N x Dwork 4 Own)
    (hbw : ∀ i < 3, Disjoint (Rng b N) (Rng (Dwork i) N)) (hbo : Disjoint (Rng b N) Own) {x0 bv : Fin N → ℝ} (hb0 : bv ≠ 0)
    (hx : HoldsV s x (fvec x0)) (hb : HoldsV s b (fvec bv)) (hD : ∀ i < 4, s.mem.Has (Dwork i) N) (hR : R t s) (hmax : prm.max_iter < INT_MAX)
    (hN : (N : Int) ≤ prm.max_iter) (htol : ¬ Dbl.Lt (.fin 0) prm.tol) :
    ∃ res s' xr, CSpec (l1c_cgsolveM N x b Dwork ax prm) s res s' ∧ HoldsV s' x (fvec xr) ∧ A xr = bv ∧
      (Disjoint (Rng b N) (Writes N x Dwork 4 Own) → HoldsV s' b (fvec bv)) := by
  obtain ⟨o, s', h1, h2, h3, -, h5⟩ := C93_cgsolve H D hbw hbo hx hb hD hR hmax
  obtain ⟨o', g1, xr, g2, -, g4⟩ := C14_solves A hA bv x0 hb0 op hop t prm hmax hN
  obtain rfl := Option.some.inj (h1.symm.trans g1)
  exact ⟨_, s', xr, h2, g2 ▸ h3, g4 htol, fun hd => hb.keep h5 hd⟩

/-- The call may be made in place: with `b = x`, the start vector is also the right-hand side. -/
theorem C93_in_place (H : OpImpl ax op R Own) (D : Apart N x Dwork 4 Own) (hx : HoldsV s x u) (hD : ∀ i < 4, s.mem.Has (Dwork i) N) (hR : R t s)
    (hmax : prm.max_iter < INT_MAX) :
    ∃ o s', l1c_cgsolve u u op t prm = some o ∧ CSpec (l1c_cgsolveM N x x Dwork ax prm) s o.res s' ∧ HoldsV s' x o.x := by
  obtain ⟨o, s', h1, h2, h3, -, -⟩ := C93_cgsolve H D (fun i hi => D.xw i (by omega)) D.xo hx hx hD hR hmax
  exact ⟨o, s', h1, h2, h3⟩

/-- The condition on `b` is needed: when the first work array is also passed as `b`, then for every operator, every start and every
right-hand side the call returns the start vector and reports NaN. -/
theorem C93_overlap_false {op : Vec Dbl N → σ → Vec Dbl N × σ} {ax : Ptr → Ptr → Cmd Dbl Unit} {R : σ → PState Dbl → Prop} {s : PState Dbl} {prm : CgParams Dbl}
    (A : (Fin N → ℝ) → (Fin N → ℝ)) (hop : ∀ v t, (op (fvec v) t).1 = fvec (A v)) (H : OpImpl ax op R Own) (D : Apart N x Dwork 4 Own) {x0 bv : Fin N → ℝ}
    (hx : HoldsV s x (fvec x0)) (_hb : HoldsV s (Dwork 0) (fvec bv)) (hD : ∀ i < 4, s.mem.Has (Dwork i) N) (hR : R t s) (hmax : prm.max_iter < INT_MAX) :
    ∃ res s', CSpec (l1c_cgsolveM N x (Dwork 0) Dwork ax prm) s res s' ∧ HoldsV s' x (fvec x0) ∧ res.cgres = .nan := by
  have e : (fun i => lit 1 * (op (fvec x0) t).1 i + -(lit 1) * (op (fvec x0) t).1 i) = fvec (0 : Fin N → ℝ) := by
    funext i
    rw [hop]
    show (lit 1 : Dbl) * .fin _ + -(lit 1) * .fin _ = .fin 0
    rw [Dbl.lit_eq]
    simp
  have hn : fsqrt ((.fin 0 : Dbl) / .fin 0) = .nan := by
    rw [Dbl.fin_div', if_pos rfl]
    simp [Dbl.infMul]
  obtain ⟨res, s', h1, h2, h3⟩ := cgsolveM_alias H D.cg hx hD hR hmax (d := .fin 0) (by rw [e, ddot_fvec]; simp) (fun a => by rw [hn]; exact Dbl.flt_nan_right a)
  exact ⟨res, s', h1, h2, h3.trans hn⟩

/-! ## Examples -/

/-- eight arrays of two doubles: the start `(0,0)`, the right-hand side `(3,4)`, five work arrays of `9`s and the diagonal `(1,2)` -/
def exCgState : PState Dbl where
  mem := ⟨fun k => if k < 8 then 2 else 0, fun a => if a.blk = 0 then .fin 0 else if a.blk = 1 then (if a.off = 0 then .fin 3 else .fin 4) else
    if a.blk = 7 then (if a.off = 0 then .fin 1 else .fin 2) else .fin 9⟩
  live := fun k => decide (k < 8)
  next := 8
  calls := 8
  oracle := fun _ => true

theorem exCg_disj {i j : ℕ} (h : i ≠ j) : Disjoint (Rng ⟨i, 0⟩ 2) (Rng ⟨j, 0⟩ 2) := Set.disjoint_left.2 fun _ h1 h2 => h (h1.1.symm.trans h2.1)

theorem exCg_has {i : ℕ} (h : i < 8) : exCgState.mem.Has ⟨i, 0⟩ (2 : ℕ) := fun k h0 h1 => by
  refine ⟨by simpa using h0, ?_⟩
  show (0 : Int) + k < ((if i < 8 then 2 else 0 : ℕ) : Int)
  rw [if_pos h]
  push_cast at *
  omega

theorem exCg_x : HoldsV exCgState ⟨0, 0⟩ (fvec ![0, 0]) := ⟨exCg_has (by decide), fun i => by fin_cases i <;> rfl⟩
theorem exCg_b : HoldsV exCgState ⟨1, 0⟩ (fvec ![3, 4]) := ⟨exCg_has (by decide), fun i => by fin_cases i <;> simp [exCgState, fvec]⟩
theorem exCg_d : HoldsV exCgState ⟨7, 0⟩ (fvec ![1, 2]) := ⟨exCg_has (by decide), fun i => by fin_cases i <;> simp [exCgState, fvec]⟩

theorem exCg_apart {n : ℕ} (hn : n ≤ 5) : Apart 2 ⟨0, 0⟩ (fun i => ⟨i + 2, 0⟩) n (Rng ⟨7, 0⟩ 2) :=
  ⟨fun i _ => exCg_disj (by omega), fun i _ j _ h => exCg_disj (by omega), exCg_disj (by decide), fun i _ => exCg_disj (by omega)⟩

theorem exCg_op (v : Fin 2 → ℝ) (_ : Unit) : ((vmul (fvec v) (fvec ![1, 2]), ()) : Vec Dbl 2 × Unit).1 = fvec (diag12 v) := by
  show vmul _ _ = _
  rw [vmul_fvec]
  congr 1
  funext i
  fin_cases i <;> simp [diag12, mul_comm]

/-- a system with the stored diagonal `(1,2)` is solved in memory; `b` stays -/
example : ∃ res s' xr, CSpec (l1c_cgsolveM 2 ⟨0, 0⟩ ⟨1, 0⟩ (fun i => ⟨i + 2, 0⟩) (fun x y => Cmd.exec (l1c_dxmuly_z 2 x ⟨7, 0⟩ y)) ⟨5, .fin 0⟩) exCgState res s' ∧
    HoldsV s' ⟨0, 0⟩ (fvec xr) ∧ diag12 xr = ![3, 4] ∧ HoldsV s' ⟨1, 0⟩ (fvec ![3, 4]) := by
  obtain ⟨res, s', xr, h1, h2, h3, h4⟩ := C93_solves (N := 2) (prm := ⟨5, .fin 0⟩) (t := ()) diag12 diag12_spd exCg_op (diag_opImpl ⟨7, 0⟩ (fvec ![1, 2])) (exCg_apart (n := 4) (by decide))
    (b := ⟨1, 0⟩) (fun i hi => exCg_disj (by omega)) (exCg_disj (by decide)) (bv := ![3, 4]) (fun h => by simpa using congrFun h 0) exCg_x exCg_b
    (fun i hi => exCg_has (by omega)) exCg_d (by decide) (by decide) (fun h => lt_irrefl (0 : ℝ) h)
  refine ⟨res, s', xr, h1, h2, h3, h4 ?_⟩
  refine Set.disjoint_left.2 fun a h1 h2 => ?_
  rcases h2 with (h2 | ⟨i, hi, h2⟩) | h2
  · exact Set.disjoint_left.1 (exCg_disj (by decide)) h1 h2
  · exact Set.disjoint_left.1 (exCg_disj (show 1 ≠ i + 2 by omega)) h1 h2
  · exact Set.disjoint_left.1 (exCg_disj (by decide)) h1 h2

/-- the same memory with the first work array as right-hand side: the start comes back -/
example : ∃ res s', CSpec (l1c_cgsolveM 2 ⟨0, 0⟩ ⟨2, 0⟩ (fun i => ⟨i + 2, 0⟩) (fun x y => Cmd.exec (l1c_dxmuly_z 2 x ⟨7, 0⟩ y)) ⟨5, .fin 0⟩) exCgState res s' ∧
    HoldsV s' ⟨0, 0⟩ (fvec ![0, 0]) ∧ res.cgres = .nan :=
  C93_overlap_false (N := 2) (prm := ⟨5, .fin 0⟩) (t := ()) (bv := ![9, 9]) diag12 exCg_op (diag_opImpl ⟨7, 0⟩ (fvec ![1, 2])) (exCg_apart (n := 4) (by decide)) exCg_x
    ⟨exCg_has (by decide), fun i => by fin_cases i <;> rfl⟩ (fun i hi => exCg_has (by omega)) exCg_d (by decide)

/-- the identity as operator (a copy), the stored diagonal as preconditioner -/
example : ∃ o s', l1c_cgsolve_diag_precond (fvec ![0, 0]) (fvec ![3, 4]) (fvec ![1, 2]) (fun v (_ : Unit) => (v, ())) () ⟨5, .fin 0⟩ = some o ∧
    CSpec (l1c_cgsolve_diag_precondM 2 ⟨0, 0⟩ ⟨1, 0⟩ ⟨7, 0⟩ (fun i => ⟨i + 2, 0⟩) (fun x y => Cmd.exec (cblas_dcopy 2 x y)) ⟨5, .fin 0⟩) exCgState o.res s' ∧
    HoldsV s' ⟨0, 0⟩ o.x := by
  have H : OpImpl (K := 2) (L := 2) (fun x y => Cmd.exec (cblas_dcopy (F := Dbl) 2 x y)) (fun v (_ : Unit) => (v, ())) (fun _ _ => True) ∅ :=
    ⟨fun t s x y v _ hx hy hxy _ _ => by
      obtain ⟨s', c, h, o⟩ := cmd_map1 (N := 2) (fun a => a) (k := cblas_dcopy 2 x y) rfl hx hy (NoCross.of_disj hxy.symm)
      exact ⟨s', c, trivial, h, o.mono Set.subset_union_left⟩, fun _ _ _ _ _ => trivial⟩
  obtain ⟨o, s', h1, h2, h3, -⟩ := C93_precond (N := 2) (b := ⟨1, 0⟩) (Minv := ⟨7, 0⟩) (prm := ⟨5, .fin 0⟩) (t := ()) H
    ⟨(exCg_apart (n := 5) le_rfl).xw, (exCg_apart le_rfl).ww, Set.disjoint_empty _, fun _ _ => Set.disjoint_empty _⟩ (exCg_disj (by decide)) (fun i hi => exCg_disj (by omega))
    (Set.disjoint_empty _) (fun i hi _ => exCg_disj (by omega)) (Set.disjoint_empty _) exCg_x exCg_b exCg_d (fun i hi => exCg_has (by omega)) trivial (by decide)
  exact ⟨o, s', h1, h2, h3⟩

/-- in place -/
example : ∃ o s', l1c_cgsolve (fvec ![3, 4]) (fvec ![3, 4]) (fun v (_ : Unit) => (vmul v (fvec ![1, 2]), ())) () ⟨5, .fin 0⟩ = some o ∧
    CSpec (l1c_cgsolveM 2 ⟨1, 0⟩ ⟨1, 0⟩ (fun i => ⟨i + 2, 0⟩) (fun x y => Cmd.exec (l1c_dxmuly_z 2 x ⟨7, 0⟩ y)) ⟨5, .fin 0⟩) exCgState o.res s' ∧
    HoldsV s' ⟨1, 0⟩ o.x :=
  C93_in_place (N := 2) (x := ⟨1, 0⟩) (Dwork := fun i => ⟨i + 2, 0⟩) (u := fvec ![3, 4]) (prm := ⟨5, .fin 0⟩) (t := ()) (diag_opImpl ⟨7, 0⟩ (fvec ![1, 2]))
    ⟨fun i _ => exCg_disj (by omega), fun i _ j _ h => exCg_disj (by omega), exCg_disj (by decide), fun i _ => exCg_disj (by omega)⟩ exCg_b
    (fun i hi => exCg_has (by omega)) exCg_d (by decide)

end L1c
