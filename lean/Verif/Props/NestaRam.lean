import Verif.Proofs.NestaFull
import Verif.Props.Nesta
import Verif.Props.NewtonRam

/-!
# C95: NESTA on the caller's arrays

`l1c_nesta` is run on memory, with its allocations and releases, for every scalar type.  The operators are any commands on memory that
compute `ax` (`NImpl`); `NCall` lists what the caller provides.
-/

namespace L1c
open Scalar Matrix

section
variable {F : Type} [Scalar F] {n m p : ℕ} {σ : Type} {axM : NAxM F} {ax : NAx F σ n m p} {R : σ → PState F → Prop} {Own : Set Ptr} {x b : Ptr} {t : σ}
  {s : PState F} {xv : Vec F m} {bv : Vec F n} {opts : NestaOpts F}

/-- Whenever NESTA on values is defined for the same allocator answers, then under every interleaving the call on memory returns exactly its
status and leaves exactly its vector in `x` (which may overlap `b`).  Except on the path with missing operators every block it allocated is
released.  On failure all of the caller's memory is as before; on success everything but `x`, `b` and the operators' data is, and `b` is too
if it is apart from `x` and the adjoint operator does not change its input. -/
theorem C95_refines (C : NCall axM ax R Own x b xv bv t s) {m_arg n_arg : Int} {o : NestaOut F n m p} {ns : NState σ}
    (h : l1c_nesta m_arg n_arg xv bv ax opts (s.asN t) = some (o, ns)) :
    ∃ s', CSpec (l1c_nestaM m_arg x n_arg b axM opts) s o.status s' ∧ HoldsV s' x o.xk ∧
      (Disjoint (Rng x m) Own → R ns.cb s') ∧
      (Disjoint (Rng x m) (Rng b n) → (∀ g, ax.Aty = some g → ∀ old t r, g bv old t = some r → r.1.1 = bv) → HoldsV s' b bv) ∧
      (o.status ≠ L1C_INCONSISTENT_ARGUMENTS → s'.live = s.live ∧ s'.mem.len = s.mem.len) ∧
      (o.status ≠ L1C_SUCCESS → o.xk = xv ∧ ∀ a, s.live a.blk = true → s'.mem.val a = s.mem.val a) ∧
      ∀ a, s.live a.blk = true → a ∉ Rng x m → a ∉ Rng b n → a ∉ Own → s'.mem.val a = s.mem.val a := by
  have hwf : (s.asN t).WF := fun k hk => by cases hk
  have same : ∀ {s' : PState F}, (∀ k, s.live k = true → s'.mem.len k = s.mem.len k) → (∀ a, s.live a.blk = true → s'.mem.val a = s.mem.val a) →
      HoldsV s' x xv ∧ R t s' ∧ HoldsV s' b bv := fun {s'} hl hv =>
    ⟨C.hx.grow (hl _ C.xlive) fun q hq => hv q (hq ▸ C.xlive), C.own t s s' C.hR fun a ha => ⟨hv a (C.olive a ha), hl _ (C.olive a ha)⟩,
      C.hb.grow (hl _ C.blive) fun q hq => hv q (hq ▸ C.blive)⟩
  by_cases harg : n_arg ≠ n ∨ m_arg ≠ m
  · rw [nesta_invalid harg] at h
    obtain ⟨rfl, rfl⟩ := Prod.mk.inj (Option.some.inj h)
    refine ⟨s, ?_, C.hx, fun _ => C.hR, fun _ _ => C.hb, fun _ => ⟨rfl, rfl⟩, fun _ => ⟨rfl, fun _ _ => rfl⟩, fun _ _ _ _ _ => rfl⟩
    unfold l1c_nestaM
    rw [C.impl.n, C.impl.m, if_pos harg]
    exact .done _ _
  push Not at harg
  obtain ⟨rfl, rfl⟩ := harg
  by_cases hal : ∀ i < 10, s.oracle (s.calls + i) = true
  · by_cases hm : ax.Missing
    · obtain ⟨ns', e, -, -⟩ := nesta_inconsistent xv bv ax opts (s.asN t) hwf hal hm
      have hcb : ns'.cb = t := nesta_missing_cb hwf hal hm e
      rw [e] at h
      obtain ⟨rfl, rfl⟩ := Prod.mk.inj (Option.some.inj h)
      obtain ⟨s', L, c1, E, -, -, v⟩ := nestaM_missing (opts := opts) C hal hm
      obtain ⟨k1, k2, k3⟩ := same (fun k hk => E.old_len k (C.wf.lt hk)) fun a ha => v a (C.wf.lt ha)
      exact ⟨s', c1, k1, fun _ => hcb.symm ▸ k2, fun _ _ => k3, fun hc => absurd rfl hc, fun _ => ⟨rfl, fun a ha => v a (C.wf.lt ha)⟩, fun a ha _ _ _ => v a (C.wf.lt ha)⟩
    · obtain ⟨n1, e1, e2, e3, e⟩ := nesta_after_setup xv bv ax opts (s.asN t) hwf hal hm
      rw [e] at h
      obtain ⟨⟨⟨st, P, bm, bt⟩, n2⟩, h1, h2⟩ := Option.bind_eq_some_iff.1 h
      split at h2
      · rename_i h11
        obtain ⟨⟨q, n4⟩, h3, h4⟩ := Option.map_eq_some_iff.1 h2
        obtain ⟨rfl, rfl⟩ := Prod.mk.inj h4
        obtain ⟨s', c1, c2, c3, c4, c5, c6, c7⟩ := (nestaM_run C hal hm h1 e1).2 h11 (n3 := { n2 with live := insert n2.next n2.live, next := n2.next + 1, calls := n2.calls + 1 }) rfl h3
        refine ⟨s', c1, c2, c4, fun hd hk => ?_, fun _ => ⟨c5, c6⟩, fun hc => absurd rfl hc, c7⟩
        have := c3 hd
        rwa [outer_b h3, show ({ P with xk := P.xo } : NestaProb F n m p).b = P.b from rfl, setup_b (r := (st, bm, bt)) hk hm h1] at this
      · cases h2
  · obtain ⟨ns', e, e1, e2⟩ := nesta_oom xv bv ax opts (s.asN t) hwf hal
    rw [e] at h
    obtain ⟨rfl, rfl⟩ := Prod.mk.inj (Option.some.inj h)
    obtain ⟨s', c1, c2, c3, c4⟩ := nestaM_oom (opts := opts) C hal
    obtain ⟨k1, k2, k3⟩ := same (fun k _ => by rw [c3]) c4
    exact ⟨s', c1, k1, fun _ => e2.symm ▸ k2, fun _ _ => k3, fun _ => ⟨c2, c3⟩, fun _ => ⟨rfl, c4⟩, fun a ha _ _ _ => c4 a ha⟩

/-- If one of the first ten requests fails, the call reports it, with all of the caller's memory and the set of allocated blocks as before. -/
theorem C95_out_of_memory (C : NCall axM ax R Own x b xv bv t s) {i : ℕ} (hi : i < 10) (hf : s.oracle (s.calls + i) = false) :
    ∃ s', CSpec (l1c_nestaM m x n b axM opts) s L1C_OUT_OF_MEMORY s' ∧ s'.live = s.live ∧ s'.mem.len = s.mem.len ∧
      ∀ a, s.live a.blk = true → s'.mem.val a = s.mem.val a :=
  nestaM_oom C fun hc => by
    rw [hc i hi] at hf
    cases hf

/-- With a missing operator and enough memory the call reports it, but exactly ten blocks stay allocated. -/
theorem C95_inconsistent_leaks (C : NCall axM ax R Own x b xv bv t s) (h : ∀ i < 10, s.oracle (s.calls + i) = true) (hm : ax.Missing) :
    ∃ s', CSpec (l1c_nestaM m x n b axM opts) s L1C_INCONSISTENT_ARGUMENTS s' ∧ (∀ k, s.live k = true → s'.live k = true) ∧
      {k | s'.live k = true ∧ s.live k = false}.ncard = 10 ∧ ∀ a, s.live a.blk = true → s'.mem.val a = s.mem.val a := by
  obtain ⟨s', L, c1, E, hlen, hsome, v⟩ := nestaM_missing (opts := opts) C h hm
  refine ⟨s', c1, fun k hk => by rw [E.old_live k (C.wf.lt hk)]; exact hk, ?_, fun a ha => v a (C.wf.lt ha)⟩
  rw [← hlen]
  exact ext_leak C.wf E hsome

/-- The eleventh request (the stopping window) is not checked: if it fails the behaviour is undefined. -/
theorem C95_window_alloc_false (C : NCall axM ax R Own x b xv bv t s) {Inv : σ → Prop} (ha : ax.Total Inv) (hR : ax.hasRx = true ∧ ax.hasRty = true) (hi : Inv t)
    (h : ∀ i < 10, s.oracle (s.calls + i) = true) (h' : s.oracle (s.calls + 10) = false) : CUB (l1c_nestaM m x n b axM opts) s := by
  obtain ⟨⟨st, P, bm, bt⟩, n2, h1, -⟩ := setup_tot ha (nestaZero bv) bv opts (s.asN t) hi
  exact (nestaM_run C h (ha.notMissing hR) h1 rfl).1 h'

/-- With operators that are defined everywhere, no more data than the work arrays hold and an iteration count below `INT_MAX`: for all
allocator answers in which the eleventh succeeds if the first ten do, the call on memory is defined under every interleaving, reports exactly
the failed allocations, and releases what it allocated. -/
theorem C95_defined (C : NCall axM ax R Own x b xv bv t s) {Inv : σ → Prop} (ha : ax.Total Inv) (hR : ax.hasRx = true ∧ ax.hasRty = true) (hi : Inv t)
    (hn : n ≤ max m p) (hN : opts.n_continue < INT_MAX) (h : (∀ i < 10, s.oracle (s.calls + i) = true) → s.oracle (s.calls + 10) = true) :
    ∃ st s', CSpec (l1c_nestaM m x n b axM opts) s st s' ∧ s'.live = s.live ∧ s'.mem.len = s.mem.len ∧ (st = L1C_SUCCESS ∨ st = L1C_OUT_OF_MEMORY) ∧
      (st = L1C_OUT_OF_MEMORY ↔ ∃ i < 10, s.oracle (s.calls + i) = false) := by
  by_cases hal : ∀ i < 10, s.oracle (s.calls + i) = true
  · have hwf : (s.asN t).WF := fun k hk => by cases hk
    obtain ⟨out, ns, e, -⟩ := C43_no_ub_partial ha hR hn xv bv opts hN (s.asN t) hwf hi fun i hi => by
      rcases Nat.lt_or_ge i 10 with hc | hc
      · exact hal i hc
      · obtain rfl : i = 10 := by omega
        exact h hal
    have h0 : out.status = 0 := (C43_success_partial xv bv opts (s.asN t) ns hwf hal (ha.notMissing hR) out e).1
    obtain ⟨s', c1, -, -, -, c2, -⟩ := C95_refines C e
    rw [h0] at c1 c2
    refine ⟨_, s', c1, (c2 (by decide)).1, (c2 (by decide)).2, Or.inl rfl, iff_of_false (by decide) ?_⟩
    rintro ⟨i, hi, hf⟩
    rw [hal i hi] at hf
    cases hf
  · obtain ⟨s', c1, c2, c3, -⟩ := nestaM_oom (opts := opts) C hal
    push Not at hal
    exact ⟨_, s', c1, c2, c3, Or.inr rfl, iff_of_true rfl (by simpa using hal)⟩
end

section
variable {n m p : ℕ} {σ : Type} {axM : NAxM Dbl} {ax : NAx Dbl σ n m p} {R : σ → PState Dbl → Prop} {Own : Set Ptr} {x b : Ptr} {t : σ} {s : PState Dbl}
  {xv : Vec Dbl m} {opts : NestaOpts Dbl} {A : Matrix (Fin n) (Fin m) ℝ} {W : Matrix (Fin m) (Fin p) ℝ} {Inv : σ → Prop} {D : Dbl → Prop}

/-- In exact arithmetic, with orthonormal rows, a nonzero `norm_W` and data for which the continuation can start: under every interleaving the
call returns 0, the array `x` holds a finite vector within distance `sigma` of the data, and everything allocated is released. -/
theorem C95_feasible {br : Fin n → ℝ} (C : NCall axM ax R Own x b xv (fvec br) t s) (hop : Realises ax Inv D A W) (hA : A * Aᵀ = 1) {sigma mu K : ℝ}
    (hsig : opts.sigma = Dbl.fin sigma) (hs : 0 < sigma) (hmu : opts.mu = Dbl.fin mu) (hm : 0 < mu) (hK : ax.norm_W = Dbl.fin K) (hK0 : K ≠ 0)
    (hdata : ∃ i : Fin p, (i.val < m ∧ (Wᵀ *ᵥ (Aᵀ *ᵥ br)) i ≠ 0) ∨ 0 < (Wᵀ *ᵥ (Aᵀ *ᵥ br)) i) (hN : 1 ≤ opts.n_continue) (hN' : opts.n_continue < INT_MAX)
    (hI : Inv t) (hal : ∀ i < 11, s.oracle (s.calls + i) = true) :
    ∃ (x' : Fin m → ℝ) (s' : PState Dbl), CSpec (l1c_nestaM m x n b axM opts) s L1C_SUCCESS s' ∧ HoldsV s' x (fvec x') ∧ nrm (br - A *ᵥ x') ≤ sigma ∧
      s'.live = s.live ∧ s'.mem.len = s.mem.len := by
  obtain ⟨x', out, ns, e1, e2, e3, e4⟩ := C39_feasible_partial hop hA hsig hs hmu hm hK hK0 hdata hN hN' xv (s.asN t) hI (fun k hk => by cases hk) hal
  obtain ⟨s', c1, c2, -, -, c3, -⟩ := C95_refines C e1
  rw [e2] at c1 c3
  rw [e3] at c2
  exact ⟨x', s', c1, c2, e4, c3 (by decide)⟩
end

/-! ## Examples -/

/-- the operators "take the first of two entries" and its transpose, with the identity as dictionary -/
noncomputable def exNest : NAx Dbl Unit 1 2 2 where
  Ax := some fun v _ s => some ((v, fun _ => v 0), s)
  Aty := some fun v _ s => some ((v, ![v 0, lit 0]), s)
  Wz := some fun v _ s => some ((v, v), s)
  Wtx := some fun v _ s => some ((v, v), s)
  hasRx := true
  hasRty := true
  norm_W := Dbl.fin 1

/-- as commands -/
noncomputable def exNestM : NAxM Dbl where
  n := 1
  m := 2
  p := 2
  Ax := some fun x y => Cmd.exec (cblas_dcopy 1 x y)
  Aty := some exPickM.Aty
  Wz := some fun x y => Cmd.exec (cblas_dcopy 2 x y)
  Wtx := some fun x y => Cmd.exec (cblas_dcopy 2 x y)
  hasRx := true
  hasRty := true
  norm_W := Dbl.fin 1

theorem exNest_copy {l : ℕ} (k : ℕ) (hk : k ≤ l) : NOpImpl (F := Dbl) (σ := Unit) (fun x y => Cmd.exec (cblas_dcopy (k : Int) x y))
    (fun v _ s => some ((v, vhead hk v), s)) (fun _ _ => True) ∅ := fun t s x y v old r _ hx hy hd _ _ e => by
  obtain rfl := Option.some.inj e
  obtain ⟨s', c1, c2, c3⟩ := cmd_map1 (fun u => u) rfl (hx.head hk) hy.1 (NoCross.of_disj (hd.mono_left (Rng.le hk _)).symm)
  exact ⟨s', c1, trivial, hx.keep c3 hd, c2, c3.mono fun a ha => Or.inl (Or.inr ha)⟩

theorem exNest_impl : NImpl exNestM exNest (fun _ _ => True) ∅ where
  n := rfl
  m := rfl
  p := rfl
  Ax := by
    have h := exNest_copy (l := 2) 1 (by decide)
    have e : (fun (v : Vec Dbl 2) (_ : Vec Dbl 1) (s : Unit) => some ((v, vhead (by decide : 1 ≤ 2) v), s)) = fun v _ s => some ((v, fun _ => v 0), s) := by
      funext v _ s
      refine congrArg some (Prod.ext (Prod.ext rfl (funext fun i => ?_)) rfl)
      fin_cases i
      rfl
    rw [e] at h
    exact h
  Aty := fun t s x y v old r _ hx hy hd _ _ e => by
    obtain rfl := Option.some.inj e
    obtain ⟨s', c1, -, c2, c3⟩ := exPick_two (by decide) s x y v hx hy.1
    rw [Set.union_empty] at c3
    exact ⟨s', c1, trivial, hx.keep c3 hd, c2, c3.mono fun a ha => Or.inl (Or.inr ha)⟩
  Wz := exNest_copy 2 le_rfl
  Wtx := exNest_copy 2 le_rfl
  hasRx := rfl
  hasRty := rfl
  norm_W := rfl

theorem exNest_call (orc : ℕ → Bool) : NCall exNestM exNest (fun _ _ => True) ∅ ⟨0, 0⟩ ⟨1, 0⟩ (fvec ![1 / 2, 1]) (fvec ![1 / 3]) () (exRam orc) :=
  have h := exRam_call orc
  ⟨h.wf, exNest_impl, fun _ _ _ _ _ => trivial, h.hx, h.hb, trivial, rfl, rfl, fun _ h => h.elim, Set.disjoint_empty _⟩

theorem exNest_total : exNest.Total fun _ => True :=
  ⟨⟨_, rfl, fun _ _ s h => ⟨_, s, rfl, h⟩⟩, ⟨_, rfl, fun _ _ s h => ⟨_, s, rfl, h⟩⟩, ⟨_, rfl, fun _ _ s h => ⟨_, s, rfl, h⟩⟩, ⟨_, rfl, fun _ _ s h => ⟨_, s, rfl, h⟩⟩⟩

theorem exNest_realises : Realises exNest (fun _ => True) (fun _ => True) (!![1, 0] : Matrix (Fin 1) (Fin 2) ℝ) (1 : Matrix (Fin 2) (Fin 2) ℝ) where
  Ax := ⟨_, rfl, fun v _ s _ _ => ⟨s, by
    refine congrArg some (Prod.ext (Prod.ext rfl (funext fun i => ?_)) rfl)
    fin_cases i
    simp [fvec, mulVec, dotProduct], trivial⟩⟩
  Aty := ⟨_, rfl, fun v _ s _ _ => ⟨s, by
    refine congrArg some (Prod.ext (Prod.ext rfl (funext fun i => ?_)) rfl)
    fin_cases i <;> simp [fvec, mulVec, dotProduct], trivial⟩⟩
  Wz := ⟨_, rfl, fun v _ s _ _ => ⟨s, by rw [one_mulVec], trivial⟩⟩
  Wtx := ⟨_, rfl, fun v _ s _ _ => ⟨s, by rw [transpose_one, one_mulVec], trivial⟩⟩
  fin _ := trivial
  abs _ _ := trivial
  hasRx := rfl
  hasRty := rfl

/-- with enough memory the result, in block 0, is within 1/4 of the datum 1/3 -/
example : ∃ (x' : Fin 2 → ℝ) (s' : PState Dbl), CSpec (l1c_nestaM 2 ⟨0, 0⟩ 1 ⟨1, 0⟩ exNestM ⟨Dbl.fin (1 / 4), Dbl.fin (1 / 100), Dbl.fin (1 / 10), 3⟩) (exRam fun _ => true) L1C_SUCCESS s' ∧
    HoldsV s' ⟨0, 0⟩ (fvec x') ∧ |1 / 3 - x' 0| ≤ 1 / 4 := by
  obtain ⟨x', s', c1, c2, c3, -⟩ := C95_feasible (opts := ⟨Dbl.fin (1 / 4), Dbl.fin (1 / 100), Dbl.fin (1 / 10), 3⟩) (exNest_call fun _ => true) exNest_realises
    (by ext i j; fin_cases i; fin_cases j; simp [Matrix.mul_apply]) rfl (by norm_num) rfl (by norm_num) rfl one_ne_zero
    ⟨(0 : Fin 2), Or.inl ⟨by decide, by simp [mulVec, dotProduct]⟩⟩ (by decide) (by decide) trivial (fun _ _ => rfl)
  refine ⟨x', s', c1, c2, ?_⟩
  have : nrm (![1 / 3] - (!![1, 0] : Matrix (Fin 1) (Fin 2) ℝ) *ᵥ x') = |1 / 3 - x' 0| := by simp [nrm, dotProduct, Real.sqrt_mul_self_eq_abs]
  rw [← this]
  exact c3

/-- the data array may be the output array's neighbour in the same block, or its first entry -/
example (orc : ℕ → Bool) : NCall exNestM exNest (fun _ _ => True) ∅ ⟨0, 0⟩ ⟨0, 0⟩ (fvec ![1 / 2, 1]) (fvec ![1 / 2]) () (exRam orc) :=
  have h := exRam_call orc
  ⟨h.wf, exNest_impl, fun _ _ _ _ _ => trivial, h.hx, ⟨fun k h0 h1 => h.hx.1 k h0 (by push_cast at *; omega), fun i => by
    fin_cases i
    exact h.hx.2 0⟩, trivial, rfl, rfl, fun _ h => h.elim, Set.disjoint_empty _⟩

/-- the fifth request fails -/
example (opts : NestaOpts Dbl) : ∃ s', CSpec (l1c_nestaM 2 ⟨0, 0⟩ 1 ⟨1, 0⟩ exNestM opts) (exRam fun i => decide (i ≠ 7)) L1C_OUT_OF_MEMORY s' ∧ s'.mem.val ⟨2, 0⟩ = .fin 7 :=
  let ⟨s', h1, _, _, h2⟩ := C95_out_of_memory (opts := opts) (exNest_call fun i => decide (i ≠ 7)) (i := 4) (by decide) rfl
  ⟨s', h1, (h2 ⟨2, 0⟩ rfl).trans (by simp [exRam])⟩

/-- the eleventh fails -/
example (opts : NestaOpts Dbl) : CUB (l1c_nestaM 2 ⟨0, 0⟩ 1 ⟨1, 0⟩ exNestM opts) (exRam fun i => decide (i ≠ 13)) :=
  C95_window_alloc_false (exNest_call fun i => decide (i ≠ 13)) exNest_total ⟨rfl, rfl⟩ trivial
    (fun i hi => by simp only [exRam]; rw [decide_eq_true_iff]; omega) rfl

/-- without the operator `Rx`, ten blocks stay -/
example (opts : NestaOpts Dbl) : ∃ s', CSpec (l1c_nestaM 2 ⟨0, 0⟩ 1 ⟨1, 0⟩ { exNestM with hasRx := false } opts) (exRam fun _ => true) L1C_INCONSISTENT_ARGUMENTS s' ∧
    {k | s'.live k = true ∧ (exRam fun _ => true).live k = false}.ncard = 10 := by
  have h := exNest_call fun _ => true
  have h' : NCall { exNestM with hasRx := false } { exNest with hasRx := false } (fun _ _ => True) ∅ ⟨0, 0⟩ ⟨1, 0⟩ (fvec ![1 / 2, 1]) (fvec ![1 / 3]) () (exRam fun _ => true) :=
    { h with impl := { exNest_impl with hasRx := rfl } }
  obtain ⟨s', h1, -, h2, -⟩ := C95_inconsistent_leaks (opts := opts) h' (fun _ _ => rfl) (Or.inr (Or.inr (Or.inl rfl)))
  exact ⟨s', h1, h2⟩

end L1c
