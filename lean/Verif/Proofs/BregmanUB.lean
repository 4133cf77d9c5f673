import Verif.Proofs.BregmanMain
import Verif.Props.TV

/-! Helper lemmas: runs of `l1c_breg_anistropic_TV` that reach undefined behaviour. -/

namespace L1c
open Prog Scalar

variable {F : Type} [Scalar F] {n m : ℕ} {P : Fin 10 → Ptr} {A A' : Fin 10 → FImg F} {mu lam tol : F}

omit [Scalar F] in
theorem KUB.append {k k' : Kernel F} {mem : Mem F} (h : KUB k mem) : KUB (k ++ k') mem := by
  induction h with
  | here c s u => exact .here c s u
  | there c s d e _ ih => exact .there c s d e ih

omit [Scalar F] in
theorem KSpec.append_ub {k k' : Kernel F} {m m₁ : Mem F} (h : KSpec k m m₁) (h' : KUB k' m₁) : KUB (k ++ k') m := by
  induction h with
  | nil => exact h'
  | cons h _ ih =>
    obtain ⟨c, s, d, e⟩ := (h _ .refl).2.2
    exact .there c s d e (ih h')

theorem cub_exec {k : Kernel F} {s : PState F} (h : KUB k s.mem) : CUB (Cmd.exec k) s := .kern h

/-- one column: the right-hand side reads before the start of a work array -/
theorem kub_rhs_one_col (hn : 1 ≤ n) (hfit : FitsInt ((n : Int) * (1 : ℕ))) (hS : SepAll n 1 P) {mem : Mem F}
    (hA : HoldsAll mem P n 1 A) (h7 : (P 7).off = 0) (h7' : mem.len (P 7).blk = n) :
    KUB (breg_anis_rhs n (1 : ℕ) (P 1) (P 3) (P 5) (P 4) (P 6) (P 9) mu lam (P 7) (P 8)) mem := by
  have t0 : Tr P n 1 (seqK (assert (FitsInt ((n : Int) * (1 : ℕ)))) : Kernel F) A A :=
    fun mem h => ⟨mem, kspec_seq (run_assert hfit mem), h, FrameB.refl _ _⟩
  have t1 := tr_mxpy (A := A) hS 6 4 7 (by decide) (by decide) rfl rfl rfl
  have t2 := tr_DyT (A := Function.update A 7 fun i j => -A 6 i j + A 4 i j) hfit hS lam 7 8 (by decide) rfl rfl
  have t := (t0.append t1).append t2
  obtain ⟨m1, h1, h2, h3⟩ := t mem hA
  obtain ⟨m2, g1, -, g3⟩ := tr_mxpy hS 5 3 7 (by decide) (by decide) rfl rfl rfl m1 h2
  unfold breg_anis_rhs
  refine KUB.append (KUB.append (KSpec.append_ub (h1.append g1) ?_))
  refine (C11_one_column_ub hn _ _ _ _ h7 ?_).1
  rw [g3.1, h3.1, h7']

/-- one row: the first pixel of the smoother reads beyond the image -/
theorem run_gs_one_row {U R : Ptr} {mem : Mem F} (hm : 2 ≤ m) (hU : mem.Has U m) (hR : mem.Has R m)
    (hend : ¬ mem.Ok (U + (m : Int))) (n : Int) : (breg_anis_guass_seidel n m U R mu lam).run mem = none := by
  unfold breg_anis_guass_seidel gs2
  rw [run_bind, run_bind, run_load (by simpa using hR 0 le_rfl (by omega)), Option.bind_some, run_bind,
    run_load (by simpa using hU 1 (by omega) (by omega)), Option.bind_some, run_bind, run_load_ub (by simpa using hend)]
  rfl

/-- a loop up to `INT_MAX` that never breaks overflows its counter -/
theorem cub_loopLe {hi : Int} {body : Int → Cmd F Bool} (T : ℕ → (Fin 10 → FImg F) → Prop)
    (hb : ∀ (k : ℕ) A (i : Int), T k A → ∃ A', T (k + 1) A' ∧ CTr P n m (body i) A false A')
    (hmax : hi = INT_MAX) (k : ℕ) (d : ℕ) (hd : hi - (k + 1) = d) (hA : T k A) (s : PState F)
    (hs : HoldsAll s.mem P n m A) : CUB (Cmd.loopLe hi body (k + 1)) s := by
  induction d generalizing k A s with
  | zero =>
    rw [Cmd.loopLe, if_pos (by omega)]
    obtain ⟨A', -, hb'⟩ := hb k A (k + 1) hA
    obtain ⟨m1, h1, -, -⟩ := hb' s hs
    refine h1.bind_ub ?_
    rw [if_neg (by simp)]
    exact CUB.bind (cub_need (by unfold FitsInt; omega) _)
  | succ d ih =>
    rw [Cmd.loopLe, if_pos (by omega)]
    obtain ⟨A', hA', hb'⟩ := hb k A (k + 1) hA
    obtain ⟨m1, h1, h2, -⟩ := hb' s hs
    refine h1.bind_ub ?_
    rw [if_neg (by simp)]
    refine (cspec_need (by unfold FitsInt INT_MIN; constructor <;> omega) _).bind_ub ?_
    exact_mod_cast ih (k + 1) (by push_cast; omega) hA' _ h2

/-- `max_iter = INT_MAX` without convergence -/
theorem cub_loop (hn : 2 ≤ n) (hm : 2 ≤ m) (hfit : FitsInt ((n : Int) * m)) (hS : SepAll n m P) {jac : Int}
    (hj : jac < INT_MAX) {u0 f : FImg F} (hbrk : ∀ l, bregBrk n m mu lam tol jac.toNat f l = false) (s : PState F)
    (hs : HoldsAll s.mem P n m ![u0, f, fun _ _ => lit 0, fun _ _ => lit 0, fun _ _ => lit 0, fun _ _ => lit 0, fun _ _ => lit 0,
          fun _ _ => lit 0, fun _ _ => lit 0, fun _ _ => lit 0]) :
    CUB (bregLoop n m (toBuf P) mu lam tol INT_MAX jac) s := by
  have t0 : Tr P n m (cblas_dcopy ((n : Int) * m) (P 1) (P 0)) ![u0, f, fun _ _ => lit 0, fun _ _ => lit 0, fun _ _ => lit 0, fun _ _ => lit 0, fun _ _ => lit 0,
          fun _ _ => lit 0, fun _ _ => lit 0, fun _ _ => lit 0]
      ![f, f, fun _ _ => lit 0, fun _ _ => lit 0, fun _ _ => lit 0, fun _ _ => lit 0, fun _ _ => lit 0,
          fun _ _ => lit 0, fun _ _ => lit 0, fun _ _ => lit 0] :=
    tr_copy hS 1 0 (by decide) rfl (by funext a; fin_cases a <;> rfl)
  obtain ⟨m1, h1, h2, -⟩ := t0.exec s hs
  unfold bregLoop
  refine h1.bind_ub ?_
  have := cub_loopLe (P := P) (n := n) (m := m) (hi := INT_MAX)
      (A := ![f, f, fun _ _ => lit 0, fun _ _ => lit 0, fun _ _ => lit 0, fun _ _ => lit 0, fun _ _ => lit 0,
          fun _ _ => lit 0, fun _ _ => lit 0, fun _ _ => lit 0])
      (body := fun _ => bregBody n m (toBuf P) mu lam tol jac)
      (fun k A => ∃ w1 w2 r, A = ![(bregIter n m mu lam jac.toNat f k).u, f, bregOld n m mu lam jac.toNat f k,
        (bregIter n m mu lam jac.toNat f k).dx, (bregIter n m mu lam jac.toNat f k).dy, (bregIter n m mu lam jac.toNat f k).bx,
        (bregIter n m mu lam jac.toNat f k).bY, w1, w2, r])
      (by
        rintro k A i ⟨w1, w2, r, rfl⟩
        obtain ⟨w1', w2', r', h⟩ := ctr_body (P := P) (mu := mu) (lam := lam) (tol := tol) (f := f) (w1 := w1) (w2 := w2) (r := r)
          (u1 := bregOld n m mu lam jac.toNat f k) hn hm hfit hS hj (bregIter n m mu lam jac.toNat f k)
        refine ⟨_, ⟨w1', w2', r', rfl⟩, ?_⟩
        rw [← hbrk k]
        exact h) rfl 0 (INT_MAX - 1).toNat (by unfold INT_MAX; omega) ⟨_, _, _, rfl⟩ { s with mem := m1 } h2
  simpa using this

/-- undefined behaviour in the first pass through the body reaches the whole loop -/
theorem cub_bregLoop_first {u0 f : FImg F} (hS : SepAll n m P) {max_iter jac : Int} (hmax : 1 ≤ max_iter) (s : PState F)
    (hs : HoldsAll s.mem P n m ![u0, f, fun _ _ => lit 0, fun _ _ => lit 0, fun _ _ => lit 0, fun _ _ => lit 0, fun _ _ => lit 0,
          fun _ _ => lit 0, fun _ _ => lit 0, fun _ _ => lit 0])
    (h : ∀ mem', HoldsAll mem' P n m ![f, f, fun _ _ => lit 0, fun _ _ => lit 0, fun _ _ => lit 0, fun _ _ => lit 0, fun _ _ => lit 0,
          fun _ _ => lit 0, fun _ _ => lit 0, fun _ _ => lit 0] → mem'.len = s.mem.len →
        CUB (bregBody n m (toBuf P) mu lam tol jac) { s with mem := mem' }) :
    CUB (bregLoop n m (toBuf P) mu lam tol max_iter jac) s := by
  have t0 : Tr P n m (cblas_dcopy ((n : Int) * m) (P 1) (P 0)) ![u0, f, fun _ _ => lit 0, fun _ _ => lit 0, fun _ _ => lit 0, fun _ _ => lit 0, fun _ _ => lit 0,
          fun _ _ => lit 0, fun _ _ => lit 0, fun _ _ => lit 0]
      ![f, f, fun _ _ => lit 0, fun _ _ => lit 0, fun _ _ => lit 0, fun _ _ => lit 0, fun _ _ => lit 0,
          fun _ _ => lit 0, fun _ _ => lit 0, fun _ _ => lit 0] :=
    tr_copy hS 1 0 (by decide) rfl (by funext a; fin_cases a <;> rfl)
  obtain ⟨m1, h1, h2, h3⟩ := t0.exec s hs
  unfold bregLoop
  refine h1.bind_ub ?_
  rw [Cmd.loopLe, if_pos (by omega)]
  exact CUB.bind (h m1 h2 h3.1)

end L1c
