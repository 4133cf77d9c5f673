import Verif.Proofs.NewtonFull
import Verif.Props.NewtonConv

/-!
# C94: the l1qc solver on the caller's arrays

`l1c_l1qc_newton` is run on memory, with its allocations and releases.  The operators are any commands on memory that compute `f` (`QImpl`);
`QCall` lists what the caller provides.
-/

namespace L1c
open Scalar Matrix

variable {n m : ℕ} {σ : Type} {axM : QAxM Dbl} {f : QOps Dbl σ n m} {R : σ → PState Dbl → Prop} {Own : Set Ptr} {x b : Ptr} {t : σ} {s : PState Dbl}
  {xv : Vec Dbl m} {bv : Vec Dbl n} {prm : QOpts Dbl}

/-- Whenever the solver on values is defined for the same allocator answers, then under every interleaving the call on memory returns
exactly its result and leaves exactly its vector in `x`; every block it allocated is released; apart from `x` and the operators' data the
caller's memory, in particular `b`, is as before. -/
theorem C94_refines (C : QCall axM f R Own x b xv bv t s) (hnm : n ≤ m) (hmax : prm.cg_maxiter ≤ INT_MAX) {o : QOut Dbl n m} {ns : NState σ}
    (h : l1c_l1qc_newton f.ax xv bv prm (s.asN t) = some (o, ns)) :
    ∃ s', CSpec (l1c_l1qc_newtonM n m axM x b prm) s o.res s' ∧ HoldsV s' x o.x ∧ HoldsV s' b bv ∧ R ns.cb s' ∧ s'.live = s.live ∧ s'.mem.len = s.mem.len ∧
      ∀ a, s.live a.blk = true → a ∉ Rng x m → a ∉ Own → s'.mem.val a = s.mem.val a := by
  have keep : ∀ {s' : PState Dbl}, s'.mem.len = s.mem.len → (∀ a, s.live a.blk = true → a ∉ Rng x m → a ∉ Own → s'.mem.val a = s.mem.val a) → HoldsV s' b bv := by
    intro s' hl hv
    refine ⟨fun k h0 h1 => ⟨(C.hb.1 k h0 h1).1, ?_⟩, fun i => ?_⟩
    · rw [hl]; exact (C.hb.1 k h0 h1).2
    · have hm : b + ((i : ℕ) : Int) ∈ Rng b n := mem_rng_add (by omega) (by omega)
      rw [hv (b + ((i : ℕ) : Int)) C.blive (Set.disjoint_left.1 C.xb hm) (Set.disjoint_left.1 C.bo hm)]
      exact C.hb.2 i
  obtain ⟨h0, -, u, prm', hi, hr⟩ := newton_run_inv (s := s.asN t) (fun k hk => by cases hk) h
  obtain ⟨tau, L, rfl, -⟩ := init_opts hi
  obtain ⟨k1, k2⟩ := newtonM_run C hnm (prm := prm) (prm' := { prm with tau := tau, lbiter := L }) hmax h0 hi
  rcases hr with ⟨⟨i, hi1, hi2⟩, rfl, hcb⟩ | ⟨ha, hsol⟩
  · obtain ⟨s', c1, c2, c3, c4⟩ := k1 fun hc => by
      have := hc i hi1
      rw [show s.oracle (s.calls + i) = false from hi2] at this
      cases this
    refine ⟨s', c1, ⟨fun k h0 h1 => ⟨(C.hx.1 k h0 h1).1, by rw [c3]; exact (C.hx.1 k h0 h1).2⟩, fun i => (c4 (x + ((i : ℕ) : Int)) C.xlive).trans (C.hx.2 i)⟩,
      keep c3 fun a ha _ _ => c4 a ha, ?_, c2, c3, fun a ha _ _ => c4 a ha⟩
    rw [hcb]
    exact C.own t s s' C.hR fun a ha => ⟨c4 a (C.olive a ha), by rw [c3]⟩
  · have hsol' : l1qc_solve f.ax { prm with tau := tau, lbiter := L } bv xv u t = some (o, ns.cb) := hsol
    obtain ⟨o', t', s', c0, c1, c2, c3, c4, c5, c6⟩ := k2 ha (by rw [hsol']; exact Option.some_ne_none _)
    obtain ⟨rfl, rfl⟩ := Prod.mk.inj (Option.some.inj (hsol'.symm.trans c0))
    exact ⟨s', c1, c2, keep c5 c6, c3, c4, c5, c6⟩

/-- If the first allocation succeeds and one of the other eighteen fails, the call reports it, with all of the caller's memory and the set
of allocated blocks as before. -/
theorem C94_out_of_memory (C : QCall axM f R Own x b xv bv t s) (hnm : n ≤ m) (hmax : prm.cg_maxiter ≤ INT_MAX) {r : Vec Dbl m × QOpts Dbl}
    (hi : l1qc_newton_init xv prm = some r) (h0 : s.oracle s.calls = true) {i : ℕ} (hi19 : i < 19) (hf : s.oracle (s.calls + i) = false) :
    ∃ s', CSpec (l1c_l1qc_newtonM n m axM x b prm) s ⟨dasum xv, 0, 0, L1C_OUT_OF_MEMORY⟩ s' ∧ s'.live = s.live ∧ s'.mem.len = s.mem.len ∧
      ∀ a, s.live a.blk = true → s'.mem.val a = s.mem.val a := by
  obtain ⟨u, prm'⟩ := r
  obtain ⟨tau, L, rfl, -⟩ := init_opts hi
  exact (newtonM_run C hnm (prm := prm) (prm' := { prm with tau := tau, lbiter := L }) hmax h0 hi).1 fun hc => by
    have := hc i hi19
    rw [hf] at this
    cases this

/-- If the first allocation fails the behaviour is undefined. -/
theorem C94_first_alloc_failure_false (n m : ℕ) (axM : QAxM Dbl) (x b : Ptr) (prm : QOpts Dbl) (h0 : s.oracle s.calls = false) :
    CUB (l1c_l1qc_newtonM n m axM x b prm) s := newtonM_first_fails h0

/-- With a nonzero finite start, a given number of barrier iterations and counters that fit in `int`: for all operators and all allocator
answers with a first success, the call on memory is defined under every interleaving, and releases what it allocated. -/
theorem C94_defined {xr : Fin m → ℝ} (C : QCall axM f R Own x b (fvec xr) bv t s) (hnm : n ≤ m) (hx : xr ≠ 0) (hm : 2 * (m : Int) + 1 ≤ INT_MAX)
    (hl : prm.lbiter ≠ 0) (h0 : 0 ≤ prm.cg_maxiter) (h1 : prm.cg_maxiter < INT_MAX) (h2 : (prm.lbiter.toNat : Int) < INT_MAX)
    (h3 : prm.lbiter.toNat * ((prm.newton_max_iter - 1).toNat * prm.cg_maxiter) ≤ INT_MAX)
    (h4 : prm.lbiter.toNat * (((prm.newton_max_iter - 1).toNat : Int) + 1) ≤ INT_MAX) (ho : s.oracle s.calls = true) :
    ∃ res s', CSpec (l1c_l1qc_newtonM n m axM x b prm) s res s' ∧ s'.live = s.live ∧ s'.mem.len = s.mem.len ∧
      (res.status = L1C_OUT_OF_MEMORY ↔ ∃ i < 19, s.oracle (s.calls + i) = false) := by
  obtain ⟨⟨u, prm'⟩, hi⟩ := C52_defined_partial hx hm (prm := prm) fun h => absurd h hl
  have hL : prm'.lbiter = prm.lbiter := by
    obtain ⟨t, L, rfl, h⟩ := init_opts hi
    exact h hl
  have T : OpsTotal (fun _ => True) f.ax := ⟨fun v t _ => ⟨_, _, rfl, trivial⟩, fun v t _ => ⟨_, _, rfl, trivial⟩, fun v t _ => ⟨_, _, rfl, trivial⟩⟩
  obtain ⟨o, ns, e1, -, -, e4⟩ := C51_defined_partial T hnm (b := bv) hi h0 h1 (hL.symm ▸ h2) (hL.symm ▸ h3) (hL.symm ▸ h4) (s := s.asN t)
    (fun k hk => by cases hk) trivial ho
  obtain ⟨s', c1, -, -, -, c2, c3, -⟩ := C94_refines C hnm h1.le e1
  exact ⟨_, s', c1, c2, c3, e4⟩

/-- In exact arithmetic, when the forward operator computes the matrix `A` on finite vectors (the other two may compute anything): after
every defined call with status 0 the array `x` holds a finite vector that satisfies the constraint, and the reported norm is its 1-norm;
after any other status `x` holds the start.  The data `b` stay. -/
theorem C94_feasible_or_unchanged {A : Matrix (Fin n) (Fin m) ℝ} {xr : Fin m → ℝ} {br : Fin n → ℝ} {eps : ℝ} (C : QCall axM f R Own x b (fvec xr) (fvec br) t s)
    (hA : ∀ v t, (f.A (fvec v) t).1 = fvec (A *ᵥ v)) (he : prm.epsilon = Dbl.fin eps) (hnm : n ≤ m) (hmax : prm.cg_maxiter ≤ INT_MAX) {o : QOut Dbl n m} {ns : NState σ}
    (h : l1c_l1qc_newton f.ax (fvec xr) (fvec br) prm (s.asN t) = some (o, ns)) :
    ∃ res s', CSpec (l1c_l1qc_newtonM n m axM x b prm) s res s' ∧ HoldsV s' b (fvec br) ∧
      ((res.status = 0 ∧ ∃ x', HoldsV s' x (fvec x') ∧ nrm (A *ᵥ x' - br) ≤ eps ∧ res.l1 = Dbl.fin (∑ i, |x' i|)) ∨ (res.status ≠ 0 ∧ HoldsV s' x (fvec xr))) ∧
      (eps < nrm (A *ᵥ xr - br) → (∀ i < 19, s.oracle (s.calls + i) = true) → res.status = L1C_INFEASIBLE_START) := by
  have P : AxPart f.ax (fun _ => True) A := ⟨fun t v y t' _ hy => ⟨trivial, fun z hz => by
      subst hz
      have := (Prod.mk.inj (Option.some.inj hy)).1
      rw [← this]
      exact hA z t⟩, fun _ _ _ _ _ _ => trivial, fun _ _ _ _ _ _ => trivial⟩
  obtain ⟨g1, g2, g3, -⟩ := C48_feasible_or_unchanged P he (s := s.asN t) (fun k hk => by cases hk) trivial h
  obtain ⟨s', c1, c2, c3, -⟩ := C94_refines C hnm hmax h
  refine ⟨_, s', c1, c3, ?_, fun hlt hall => ?_⟩
  · by_cases hs : o.res.status = 0
    · obtain ⟨-, x', e1, e2, e3⟩ := g1 hs
      exact Or.inl ⟨hs, x', e1 ▸ c2, e2, e3⟩
    · exact Or.inr ⟨hs, g2 hs ▸ c2⟩
  · rcases (g3 hlt).2 with h | ⟨-, i, hi, hf⟩
    · exact h
    · rw [show (s.asN t).oracle ((s.asN t).calls + i) = true from hall i hi] at hf; cases hf

/-! ## Examples -/

/-- the operators "take the first of two entries", its transpose and their product -/
noncomputable def exPick : QOps Dbl Unit 1 2 where
  A v _ := (fun _ => v 0, ())
  At v _ := (![v 0, lit 0], ())
  AtA v _ := (![v 0, lit 0], ())

/-- as commands -/
noncomputable def exPickM : QAxM Dbl where
  Ax x y := Cmd.exec (seqK do
    let v ← Prog.load x
    Prog.store y v)
  Aty x y := Cmd.exec (seqK do
    let v ← Prog.load x
    Prog.store y v
    Prog.store (y + (1 : Int)) (lit 0))
  AtAx x y := Cmd.exec (seqK do
    let v ← Prog.load x
    Prog.store y v
    Prog.store (y + (1 : Int)) (lit 0))

theorem exPtr_zero (p : Ptr) : p + (((0 : ℕ) : Int)) = p := by ext <;> simp

theorem exPick_two {K : ℕ} (hK : 0 < K) (s : PState Dbl) (x y : Ptr) (v : Vec Dbl K) (hx : HoldsV s x v) (hy : s.mem.Has y (2 : ℕ)) :
    ∃ s', CSpec (Cmd.exec (seqK do
      let v ← Prog.load x
      Prog.store y v
      Prog.store (y + (1 : Int)) (lit 0)) : Cmd Dbl Unit) s () s' ∧ True ∧ HoldsV s' y ![v ⟨0, hK⟩, lit 0] ∧ Only (Rng y 2 ∪ ∅) s s' := by
  have ex : s.mem.Ok x := by simpa [exPtr_zero] using hx.1 ((0 : ℕ) : Int) (by simp) (by exact_mod_cast hK)
  have ey : s.mem.Ok y := by simpa [exPtr_zero] using hy ((0 : ℕ) : Int) (by simp) (by simp)
  have ey1 : s.mem.Ok (y + (1 : Int)) := hy 1 (by simp) (by simp)
  have e0 : s.mem.val x = v ⟨0, hK⟩ := by simpa [exPtr_zero] using hx.2 ⟨0, hK⟩
  have hne : y ≠ y + (1 : Int) := fun h => by have := congrArg Ptr.off h; simp at this
  refine ⟨_, cspec_exec (kspec_seq (m' := (s.mem.write y (s.mem.val x)).write (y + (1 : Int)) (lit 0)) ?_), trivial, ⟨hy, fun i => ?_⟩, rfl, fun a ha => ?_, rfl, rfl, rfl, rfl⟩
  · simp [Prog.run_load ex, Prog.run_store, ey, ey1]
  · fin_cases i
    · show ((s.mem.write y (s.mem.val x)).write (y + (1 : Int)) (lit 0)).val (y + ((0 : ℕ) : Int)) = _
      rw [exPtr_zero, Mem.write_val, if_neg hne, Mem.write_val, if_pos rfl, e0]
      rfl
    · show ((s.mem.write y (s.mem.val x)).write (y + (1 : Int)) (lit 0)).val (y + ((1 : ℕ) : Int)) = _
      rw [Mem.write_val]
      exact if_pos rfl
  · have ha' : a ∉ Rng y 2 := fun h => ha (Or.inl h)
    rw [Mem.write_val, if_neg, Mem.write_val, if_neg]
    · rintro rfl; exact ha' ⟨rfl, le_rfl, by simp⟩
    · rintro rfl; exact ha' ⟨rfl, by simp, by simp⟩

theorem exPick_impl : QImpl exPickM exPick (fun _ _ => True) ∅ where
  A := ⟨fun t s x y v _ hx hy _ _ _ => by
    have ex : s.mem.Ok x := by simpa [exPtr_zero] using hx.1 ((0 : ℕ) : Int) (by simp) (by simp)
    have ey : s.mem.Ok y := by simpa [exPtr_zero] using hy ((0 : ℕ) : Int) (by simp) (by simp)
    have e0 : s.mem.val x = v 0 := by simpa [exPtr_zero] using hx.2 0
    refine ⟨_, cspec_exec (kspec_seq (m' := s.mem.write y (s.mem.val x)) ?_), trivial, ⟨hy, fun i => ?_⟩, rfl, fun a ha => ?_, rfl, rfl, rfl, rfl⟩
    · simp [Prog.run_load ex, Prog.run_store, ey]
    · fin_cases i
      show (s.mem.write y (s.mem.val x)).val (y + ((0 : ℕ) : Int)) = v 0
      rw [exPtr_zero, Mem.write_val, if_pos rfl, e0]
    · show (s.mem.write y (s.mem.val x)).val a = _
      rw [Mem.write_val, if_neg]
      rintro rfl
      exact ha (Or.inl ⟨rfl, le_rfl, by simp⟩), fun _ _ _ _ _ => trivial⟩
  At := ⟨fun t s x y v _ hx hy _ _ _ => exPick_two (by decide) s x y v hx hy, fun _ _ _ _ _ => trivial⟩
  AtA := ⟨fun t s x y v _ hx hy _ _ _ => exPick_two (by decide) s x y v hx hy, fun _ _ _ _ _ => trivial⟩

/-- the start `(1/2, 1)` in block 0, the datum `1/3` in block 1, some other data in block 2 -/
noncomputable def exRam (orc : ℕ → Bool) : PState Dbl where
  mem := ⟨fun k => if k = 0 then 2 else if k < 3 then 1 else 0, fun a => if a.blk = 0 then (if a.off = 0 then .fin (1 / 2) else .fin 1) else if a.blk = 1 then .fin (1 / 3) else .fin 7⟩
  live := fun k => decide (k < 3)
  next := 3
  calls := 3
  oracle := orc

theorem exRam_call (orc : ℕ → Bool) : QCall exPickM exPick (fun _ _ => True) ∅ ⟨0, 0⟩ ⟨1, 0⟩ (fvec ![1 / 2, 1]) (fvec ![1 / 3]) () (exRam orc) where
  wf k hk := ⟨by simp [exRam] at hk ⊢; omega, by
    show (if k = 0 then 2 else if k < 3 then 1 else 0 : ℕ) = 0
    have : (3 : ℕ) ≤ k := hk
    rw [if_neg (by omega), if_neg (by omega)]⟩
  impl := exPick_impl
  own _ _ _ _ _ := trivial
  hx := ⟨fun k h0 h1 => ⟨by simpa using h0, by
      show (0 : Int) + k < ((if (0 : ℕ) = 0 then 2 else if 0 < 3 then 1 else 0 : ℕ) : Int)
      rw [if_pos rfl]; push_cast at *; omega⟩, fun i => by fin_cases i <;> simp [exRam, fvec]⟩
  hb := ⟨fun k h0 h1 => ⟨by simpa using h0, by
      show (0 : Int) + k < ((if (1 : ℕ) = 0 then 2 else if 1 < 3 then 1 else 0 : ℕ) : Int)
      rw [if_neg (by decide), if_pos (by decide)]; push_cast at *; omega⟩, fun i => by fin_cases i; simp [exRam, fvec]⟩
  hR := trivial
  xlive := rfl
  blive := rfl
  olive _ h := h.elim
  xb := rng_disj (by decide)
  xo := Set.disjoint_empty _
  bo := Set.disjoint_empty _

theorem exHalf_ne : (![1 / 2, 1] : Fin 2 → ℝ) ≠ 0 := fun hc => by simpa using congrFun hc 1

/-- for every pattern of allocator answers with a first success the call is defined -/
example (orc : ℕ → Bool) (h : orc 3 = true) : ∃ res s', CSpec (l1c_l1qc_newtonM 1 2 exPickM ⟨0, 0⟩ ⟨1, 0⟩ exOpts) (exRam orc) res s' ∧ s'.live = (exRam orc).live ∧
    s'.mem.len = (exRam orc).mem.len ∧ (res.status = L1C_OUT_OF_MEMORY ↔ ∃ i < 19, orc (3 + i) = false) :=
  C94_defined (exRam_call orc) (by decide) exHalf_ne (by decide) (by decide) (by decide) (by decide) (by decide) (by decide) (by decide) h

/-- with enough memory the start is feasible, and so is the result, which is in block 0 -/
example : ∃ res s', ∃ x' : Fin 2 → ℝ, CSpec (l1c_l1qc_newtonM 1 2 exPickM ⟨0, 0⟩ ⟨1, 0⟩ exOpts) (exRam fun _ => true) res s' ∧ res.status = 0 ∧ HoldsV s' ⟨0, 0⟩ (fvec x') ∧
    HoldsV s' ⟨1, 0⟩ (fvec ![1 / 3]) ∧ |x' 0 - 1 / 3| ≤ 1 := by
  obtain ⟨⟨u, prm'⟩, hi⟩ := C52_defined_partial exHalf_ne (by decide) (prm := exOpts) fun h => absurd h (by decide)
  have hL : prm'.lbiter = 3 := by
    obtain ⟨t, L, rfl, h⟩ := init_opts hi
    exact h (by decide)
  have T : OpsTotal (fun _ => True) exPick.ax := ⟨fun v t _ => ⟨_, _, rfl, trivial⟩, fun v t _ => ⟨_, _, rfl, trivial⟩, fun v t _ => ⟨_, _, rfl, trivial⟩⟩
  obtain ⟨o, ns, e1, -, -, e4⟩ := C51_defined_partial T (by decide) (b := fvec ![1 / 3]) hi (by decide) (by decide) (by rw [hL]; decide) (by rw [hL]; decide) (by rw [hL]; decide)
    (s := (exRam fun _ => true).asN ()) (fun k hk => by cases hk) trivial rfl
  have hA : ∀ v (t : Unit), (exPick.A (fvec v) t).1 = fvec ((!![1, 0] : Matrix (Fin 1) (Fin 2) ℝ) *ᵥ v) := fun v t => by
    funext i
    fin_cases i
    simp [exPick, fvec, Matrix.mulVec, dotProduct]
  have P : AxPart exPick.ax (fun _ => True) (!![1, 0] : Matrix (Fin 1) (Fin 2) ℝ) := ⟨fun t v y t' _ hy => ⟨trivial, fun z hz => by
      subst hz
      rw [← (Prod.mk.inj (Option.some.inj hy)).1]
      exact hA z t⟩, fun _ _ _ _ _ _ => trivial, fun _ _ _ _ _ _ => trivial⟩
  have h0 : o.res.status = 0 := (C48_feasible_or_unchanged P (prm := exOpts) rfl (fun k hk => by cases hk) trivial e1).2.2.2
    (by simp [nrm, dotProduct]; norm_num) (fun _ _ => rfl)
  obtain ⟨s', c1, c2, c3, -⟩ := C94_refines (exRam_call fun _ => true) (by decide) (by decide) e1
  obtain ⟨-, x', d1, d2, -⟩ := (C48_feasible_or_unchanged P (prm := exOpts) rfl (fun k hk => by cases hk) trivial e1).1 h0
  refine ⟨_, s', x', c1, h0, d1 ▸ c2, c3, ?_⟩
  have : nrm ((!![1, 0] : Matrix (Fin 1) (Fin 2) ℝ) *ᵥ x' - ![1 / 3]) = |x' 0 - 1 / 3| := by
    simp [nrm, dotProduct, Real.sqrt_mul_self_eq_abs]
  rw [← this]
  exact d2

/-- the fifth request fails -/
example (prm : QOpts Dbl) (hl : prm.lbiter ≠ 0) (hmax : prm.cg_maxiter ≤ INT_MAX) :
    ∃ s', CSpec (l1c_l1qc_newtonM 1 2 exPickM ⟨0, 0⟩ ⟨1, 0⟩ prm) (exRam fun i => decide (i ≠ 7)) ⟨dasum (fvec ![1 / 2, 1]), 0, 0, L1C_OUT_OF_MEMORY⟩ s' ∧ s'.mem.val ⟨2, 0⟩ = .fin 7 := by
  obtain ⟨r, hi⟩ := C52_defined_partial exHalf_ne (by decide) (prm := prm) fun h => absurd h hl
  obtain ⟨s', h1, -, -, h2⟩ := C94_out_of_memory (exRam_call fun i => decide (i ≠ 7)) (by decide) hmax hi rfl (i := 4) (by decide) rfl
  exact ⟨s', h1, (h2 ⟨2, 0⟩ rfl).trans (by simp [exRam])⟩

/-- the first request fails -/
example (prm : QOpts Dbl) : CUB (l1c_l1qc_newtonM 1 2 exPickM ⟨0, 0⟩ ⟨1, 0⟩ prm) (exRam fun _ => false) := C94_first_alloc_failure_false _ _ _ _ _ _ rfl

end L1c
