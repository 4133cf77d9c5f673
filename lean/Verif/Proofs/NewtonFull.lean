import Verif.Proofs.AllocList
import Verif.Proofs.NewtonRam

/-! Helper lemmas: `l1c_l1qc_newton` on memory, with its allocations. -/

namespace L1c
open Prog Scalar Cmd

variable {σ : Type} {n m : ℕ}

section init
variable {F : Type} [Scalar F] {s : PState F} {x z : Ptr} {N : ℕ}

/-- a sequential loop that fills one array from another -/
theorem cmd_seqMap1 (f : F → F) {u : Vec F N} (hx : HoldsV s x u) (hz : s.mem.Has z N) (hd : Disjoint (Rng x N) (Rng z N)) :
    ∃ s', CSpec (exec (seqK (forUp 0 (N : Int) fun i => do let a ← load (x + i); store (z + i) (f a)))) s () s' ∧ HoldsV s' z (fun i => f (u i)) ∧ Only (Rng z N) s s' := by
  have hrun : (forUp 0 (N : Int) fun i => do let a ← load (x + i); store (z + i) (f a)).run s.mem =
      some ((), s.mem.setRange z N fun i => f (s.mem.val (x + i))) := by
    have := run_forUp 0 (N : Int) (fun i => (do let a ← load (x + i); store (z + i) (f a) : Prog F Unit))
      (fun k => s.mem.setRange z k fun i => f (s.mem.val (x + i))) (fun i h0 h1 => by
        have e : (s.mem.setRange z i fun i => f (s.mem.val (x + i))).val (x + i) = s.mem.val (x + i) := by
          refine Mem.setRange_val_out _ _ _ _ _ fun hc => ?_
          exact Set.disjoint_left.1 hd (mem_rng_add h0 h1) ⟨hc.1, hc.2.1, by have := hc.2.2; omega⟩
        have hx' : (s.mem.setRange z i fun i => f (s.mem.val (x + i))).Has x N := hx.1
        have hz' : (s.mem.setRange z i fun i => f (s.mem.val (x + i))).Has z N := hz
        simp only [run_bind, run_load (hx' i h0 h1), Option.bind_some, run_store (hz' i h0 h1), e]
        rw [Mem.setRange_write _ _ _ (fun i => f (s.mem.val (x + i))) h0]) (by omega)
    rwa [Mem.setRange_zero _ _ _ le_rfl] at this
  have h := setRange_holds (s := s) hz (fun i => f (s.mem.val (x + i))) (fun i => f (u i)) (fun i => by rw [hx.2])
  exact ⟨_, cspec_exec (kspec_seq hrun), h.1, h.2⟩

theorem initM_spec {xv uv : Vec F N} {prm prm' : QOpts F} (hx : HoldsV s x xv) (hz : s.mem.Has z N) (hd : Disjoint (Rng x N) (Rng z N))
    (hi : l1qc_newton_init xv prm = some (uv, prm')) :
    FitsInt (2 * N + 1) ∧ ∃ s', CSpec (l1qc_newton_initM N x z prm) s prm' s' ∧ HoldsV s' z uv ∧ Only (Rng z N) s s' := by
  unfold l1qc_newton_init at hi
  simp only [bind, pure] at hi
  obtain ⟨k, hk, hi⟩ := Option.bind_eq_some_iff.1 hi
  have hf : FitsInt (2 * N + 1) := by
    by_contra hc
    simp [cint, hc] at hk
  have hk' : k = 2 * (N : Int) + 1 := by
    simp only [cint, if_pos hf, Option.some.injEq] at hk
    exact hk.symm
  subst hk'
  refine ⟨hf, ?_⟩
  have hmax : CSpec (eval (foldUp 0 (N : Int) (-inf) fun i a => do let v ← load (x + i); pure (cmax a (fabs v)))) s
      ((List.finRange N).foldl (fun a i => cmax a (fabs (xv i))) (-inf)) s := by
    refine cspec_eval (m := s.mem) (run_foldV (fun a i => cmax a (fabs (xv i))) (-inf) fun i c => ?_)
    simp only [run_bind, run_load (hx.1 ((i : ℕ) : Int) (by omega) (by omega)), Option.bind_some, run_pure, hx.2]
  obtain ⟨s1, c1, h1, o1⟩ := cmd_seqMap1 (fun v => lit (95 / 100) * fabs v + lit (1 / 10) * (List.finRange N).foldl (fun a i => cmax a (fabs (xv i))) (-inf)) hx hz hd
  have hx1 := hx.keep o1 hd
  by_cases h0 : prm.lbiter = 0
  · rw [if_pos h0] at hi
    obtain ⟨lb, hlb, hi⟩ := Option.bind_eq_some_iff.1 hi
    have e : (ceilInt ((flog (lit 2 * lit ((N : Int) : ℚ) + lit 1) - flog prm.lbtol - flog (cmax (lit ((2 * N + 1 : Int) : ℚ) / dasum xv) (lit 1))) / flog prm.mu) : Option Int) = some lb := by
      rw [← hlb]
      push_cast
      rfl
    simp only [Option.some.injEq, Prod.mk.injEq] at hi
    obtain ⟨rfl, rfl⟩ := hi
    refine ⟨s1, hmax.bind (c1.bind ((cmd_dasum hx1).bind ((cspec_need hf s1).bind ?_))), h1, o1⟩
    simp only [if_pos h0]
    refine CSpec.bind (cspec_need (by rw [e]; rfl) s1) ?_
    rw [e]
    exact .done _ _
  · rw [if_neg h0] at hi
    simp only [Option.bind_some, Option.some.injEq, Prod.mk.injEq] at hi
    obtain ⟨rfl, rfl⟩ := hi
    refine ⟨s1, hmax.bind (c1.bind ((cmd_dasum hx1).bind ((cspec_need hf s1).bind ?_))), h1, o1⟩
    simp only [if_neg h0]
    exact .done _ _
end init

section
variable {axM : QAxM Dbl} {f : QOps Dbl σ n m} {R : σ → PState Dbl → Prop} {Own : Set Ptr} {x b : Ptr} {t : σ} {s : PState Dbl}
  {xv uv : Vec Dbl m} {bv : Vec Dbl n} {prm prm' : QOpts Dbl}

theorem PState.WF.lt {F : Type} {s : PState F} (hw : s.WF) {k : ℕ} (h : s.live k = true) : k < s.next := by
  by_contra hc
  rw [(hw k (by omega)).1] at h
  cases h

theorem HoldsV.grow {F : Type} {s s' : PState F} {p : Ptr} {N : ℕ} {v : Vec F N} (h : HoldsV s p v) (hl : s'.mem.len p.blk = s.mem.len p.blk)
    (hv : ∀ q : Ptr, q.blk = p.blk → s'.mem.val q = s.mem.val q) : HoldsV s' p v := by
  refine ⟨fun k h0 h1 => ?_, fun i => (hv (p + ((i : ℕ) : Int)) rfl).trans (h.2 i)⟩
  have := h.1 k h0 h1
  refine ⟨this.1, ?_⟩
  have h2 := this.2
  rw [show (p + k).blk = p.blk from rfl] at h2 ⊢
  rw [hl]
  exact h2

theorem Ext.only {F : Type} {s s' s'' : PState F} {L : List (Option Ptr)} {S : Set Ptr} (h : Ext s s' L) (o : Only S s' s'') : Ext s s'' L := by
  obtain ⟨o1, o2, o3, o4⟩ := o.rest
  have e : s'' = { s' with mem := s''.mem } := by cases s'; cases s''; simp_all
  rw [e]
  exact h.setMem o.len

theorem Only.keepVals {F : Type} {s s' : PState F} {S : Set Ptr} (o : Only S s s') {k : ℕ} (h : ∀ a ∈ S, k ≤ a.blk) (p : Ptr) (hp : p.blk < k) :
    s'.mem.val p = s.mem.val p := o.val p fun hc => by have := h p hc; omega

theorem FreshBlk.holds {F : Type} [Scalar F] {lo N M : ℕ} {s : PState F} {p : Ptr} (h : FreshBlk lo s p N) (k : ℕ) (hk : k + M ≤ N) :
    HoldsV s (p + (k : Int)) (fun _ : Fin M => (lit 0 : F)) := by
  refine ⟨fun i h0 h1 => ⟨?_, ?_⟩, fun i => h.zero _ rfl⟩
  · show 0 ≤ p.off + k + i
    rw [h.off]; omega
  · show p.off + k + i < (s.mem.len p.blk : Int)
    rw [h.off, h.len]; omega

theorem FreshBlk.holds0 {F : Type} [Scalar F] {lo N : ℕ} {s : PState F} {p : Ptr} (h : FreshBlk lo s p N) : HoldsV s p (fun _ : Fin N => (lit 0 : F)) := by
  have := h.holds (M := N) 0 (by omega)
  simpa using this

theorem rng_disj {p q : Ptr} {N M : ℕ} (h : p.blk ≠ q.blk) : Disjoint (Rng p N) (Rng q M) := Set.disjoint_left.2 fun _ h1 h2 => h (h1.1.symm.trans h2.1)

theorem newtonM_first_fails (h0 : s.oracle s.calls = false) : CUB (l1c_l1qc_newtonM n m axM x b prm) s := by
  have e : (s.calloc m).1 = none := by simp [PState.calloc, h0]
  have hc := cspec_calloc (m : Int) s
  rw [e] at hc
  exact hc.bind_ub (CUB.bind (cub_need id _))

theorem mkQPtr_some {arrs : List (Option Ptr)} {d : Option (Ptr × List Ptr)} {q : QPtr} (h : mkQPtr b arrs d = some q) :
    (∀ o ∈ arrs, o.isSome = true) ∧ d.isSome = true := by
  unfold mkQPtr at h
  split at h
  · simp
  · cases h

/-- the blocks of a two-dimensional array -/
def dList : Option (Ptr × List Ptr) → List (Option Ptr)
  | none => []
  | some (t, rows) => rows.map some ++ [some t]

theorem cleanupM {u : Ptr} {arrs : List (Option Ptr)} {d : Option (Ptr × List Ptr)} {s5 : PState Dbl} {xw : Vec Dbl m} (r : Int × Int × Int) (hw : s.WF)
    (hE : Ext s s5 (some u :: (arrs ++ dList d))) (hx : HoldsV s5 x xw) (hl : x.blk < s.next) :
    ∃ s', CSpec (do
      freeC (some u)
      freesC arrs
      free2DC d
      let l1 ← eval (l1c_dnorm1 m x)
      pure (⟨l1, r.2.1, r.2.2, r.1⟩ : LBResult Dbl)) s5 ⟨dasum xw, r.2.1, r.2.2, r.1⟩ s' ∧ s'.live = s.live ∧ s'.mem.len = s.mem.len ∧ s'.mem.val = s5.mem.val := by
  obtain ⟨s6, a1, a2, a3, -⟩ := hE.free
  obtain ⟨s7, b1, b2, b3, -⟩ := frees_spec arrs a2
  obtain ⟨s8, c1, c2, c3⟩ := free2D_spec d (L := []) (by cases d <;> simpa [dList] using b2)
  have hv : s8.mem.val = s5.mem.val := c3.trans (b3.trans a3)
  have hx8 : HoldsV s8 x xw := hx.grow ((c2.old_len _ hl).trans (hE.old_len _ hl).symm) fun q _ => by rw [hv]
  exact ⟨s8, (cspec_free a1).bind (b1.bind (c1.bind ((cmd_dasum hx8).bind (.done _ _)))), (c2.final hw).1, (c2.final hw).2, hv⟩

/-- position in the list of blocks -/
def qIdx : QM → ℕ
  | .d i => i
  | .u => 8
  | .fu1 => 10
  | .fu2 => 11
  | .w1p => 12
  | .dx => 13
  | .du => 14
  | .sig11 => 15
  | .sig12 => 16
  | .ntgu => 17
  | .gx => 18
  | .gu => 18
  | .x => 19

theorem qIdx_inj {a c : QM} (h : a ≠ c) (h1 : ¬ (a = .gx ∧ c = .gu)) (h2 : ¬ (a = .gu ∧ c = .gx)) : qIdx a ≠ qIdx c := by
  cases a <;> cases c <;> simp_all [qIdx] <;> omega

/-- contents when the solver starts -/
noncomputable def qEnv0 (bv : Vec Dbl n) (xv uv : Vec Dbl m) : QEnv n m where
  vn := fun a => match a with | .b => bv | .r => fun _ => lit 0
  vm := fun a => match a with | .x => xv | .u => uv | _ => fun _ => lit 0

theorem qIdx_lt {a : QM} (h : a ≠ .x) : qIdx a < 19 := by
  cases a
  case x => exact absurd rfl h
  case d i => exact lt_of_lt_of_le i.2 (by decide)
  all_goals decide

theorem qIdx_r (a : QM) : qIdx a ≠ 9 := by
  cases a
  case d i => exact ne_of_lt (lt_of_lt_of_le i.2 (by decide))
  all_goals decide

theorem qLay_sep {k : ℕ} {q : QPtr} {u : Ptr} {l : List ℕ} (hnd : l.Nodup) (hlen : l.length = 19) (hge : ∀ i < 19, k ≤ l.getD i 0)
    (hat : ∀ a : QM, a ≠ .x → (q.pm m x u a).blk = l.getD (qIdx a) 0) (hr : q.r.blk = l.getD 9 0)
    (hx : x.blk < k) (hb : q.b.blk < k) (ho : ∀ a ∈ Own, a.blk < k) (xb : Disjoint (Rng q.b n) (Rng x m)) (xo : Disjoint (Rng x m) Own) (bo : Disjoint (Rng q.b n) Own) :
    (qLay q m x u).Sep n m Own := by
  have hge' : ∀ a : QM, a ≠ .x → k ≤ (q.pm m x u a).blk := fun a ha => hat a ha ▸ hge _ (qIdx_lt ha)
  have hger : k ≤ q.r.blk := hr ▸ hge 9 (by decide)
  have inj : ∀ i < 19, ∀ j < 19, i ≠ j → l.getD i 0 ≠ l.getD j 0 := fun i hi j hj h e => by
    have g : ∀ (i : ℕ) (hi : i < 19), l.getD i 0 = l[i] := fun i hi => by
      rw [List.getD_eq_getElem?_getD, List.getElem?_eq_getElem (by omega), Option.getD_some]
    rw [g i hi, g j hj] at e
    exact h (hnd.getElem_inj_iff.1 e)
  have own : ∀ {p : Ptr} {N : ℕ}, k ≤ p.blk → Disjoint (Rng p N) Own := fun {p N} hp => Set.disjoint_left.2 fun a h1 h2 => by
    have := ho a h2
    have := h1.1
    omega
  refine ⟨fun a c hac => ?_, fun a c hac => ?_, fun a c => ?_, fun a => ?_, fun a => ?_⟩
  · cases a <;> cases c
    · exact absurd rfl hac
    · exact rng_disj (show q.b.blk ≠ q.r.blk by omega)
    · exact rng_disj (show q.r.blk ≠ q.b.blk by omega)
    · exact absurd rfl hac
  · by_cases ha : a = .x
    · subst ha
      have := hge' c (Ne.symm hac)
      exact rng_disj (show x.blk ≠ (q.pm m x u c).blk by omega)
    by_cases hc : c = .x
    · subst hc
      have := hge' a ha
      exact rng_disj (show (q.pm m x u a).blk ≠ x.blk by omega)
    by_cases h1 : a = .gx ∧ c = .gu
    · obtain ⟨rfl, rfl⟩ := h1
      refine Set.disjoint_left.2 fun p e1 e2 => ?_
      have h3 := e1.2.2
      have h4 : q.gradf.off + (m : Int) ≤ p.off := e2.2.1
      have h5 : p.off < q.gradf.off + (m : Int) := h3
      omega
    by_cases h2 : a = .gu ∧ c = .gx
    · obtain ⟨rfl, rfl⟩ := h2
      refine Set.disjoint_left.2 fun p e1 e2 => ?_
      have h4 : q.gradf.off + (m : Int) ≤ p.off := e1.2.1
      have h5 : p.off < q.gradf.off + (m : Int) := e2.2.2
      omega
    refine rng_disj (p := q.pm m x u a) (q := q.pm m x u c) ?_
    rw [hat a ha, hat c hc]
    exact inj _ (qIdx_lt ha) _ (qIdx_lt hc) (qIdx_inj hac h1 h2)
  · cases a
    · by_cases hc : c = .x
      · subst hc; exact xb
      · have := hge' c hc
        exact rng_disj (show q.b.blk ≠ (q.pm m x u c).blk by omega)
    · by_cases hc : c = .x
      · subst hc; exact rng_disj (show q.r.blk ≠ x.blk by omega)
      · refine rng_disj (p := q.r) (q := q.pm m x u c) ?_
        rw [hr, hat c hc]
        exact inj _ (by decide) _ (qIdx_lt hc) (qIdx_r c).symm
  · cases a
    · exact bo
    · exact own hger
  · by_cases ha : a = .x
    · subst ha; exact xo
    · exact own (hge' a ha)

theorem newtonM_run (C : QCall axM f R Own x b xv bv t s) (hnm : n ≤ m) (hmax : prm'.cg_maxiter ≤ INT_MAX) (h0 : s.oracle s.calls = true)
    (hi : l1qc_newton_init xv prm = some (uv, prm')) :
    ((¬ ∀ i < 19, s.oracle (s.calls + i) = true) → ∃ s', CSpec (l1c_l1qc_newtonM n m axM x b prm) s ⟨dasum xv, 0, 0, L1C_OUT_OF_MEMORY⟩ s' ∧
      s'.live = s.live ∧ s'.mem.len = s.mem.len ∧ ∀ a, s.live a.blk = true → s'.mem.val a = s.mem.val a) ∧
    ((∀ i < 19, s.oracle (s.calls + i) = true) → l1qc_solve f.ax prm' bv xv uv t ≠ none → ∃ o t' s', l1qc_solve f.ax prm' bv xv uv t = some (o, t') ∧
      CSpec (l1c_l1qc_newtonM n m axM x b prm) s o.res s' ∧ HoldsV s' x o.x ∧ R t' s' ∧
      s'.live = s.live ∧ s'.mem.len = s.mem.len ∧ ∀ a, s.live a.blk = true → a ∉ Rng x m → a ∉ Own → s'.mem.val a = s.mem.val a) := by
  have hxl := C.wf.lt C.xlive
  have hbl := C.wf.lt C.blive
  have hol : ∀ a ∈ Own, a.blk < s.next := fun a ha => C.wf.lt (C.olive a ha)
  -- the array u
  obtain ⟨a1, a2, a3, a4, a5⟩ := (Ext.init C.wf).alloc m
  have hc := cspec_calloc (m : Int) s
  obtain ⟨u, hu⟩ := Option.isSome_iff_exists.1 (a5.2 h0)
  have fu := a4 u hu
  rw [hu] at a1 hc
  set s1 := (s.calloc m).2 with hs1
  -- initialisation
  have hx1 : HoldsV s1 x xv := C.hx.grow (a2.len _ hxl) fun q hq => a2.val q (hq ▸ hxl)
  have hxu : x.blk ≠ u.blk := by have := fu.ge; omega
  obtain ⟨hfit, s2, i1, i2, i3⟩ := initM_spec hx1 fu.holds0.1 (rng_disj hxu) hi
  have e2 : Ext s s2 [some u] := a1.only i3
  have v2 : OldVals s s2 := fun q hq => (i3.keepVals (k := s.next) (fun a ha => by rw [ha.1]; exact fu.ge) q hq).trans (a2.val q hq)
  have l2 : ∀ k < s.next, s2.mem.len k = s.mem.len k := fun k hk => by rw [i3.len]; exact a2.len k hk
  have n2 : s.next ≤ s2.next := e2.next_le
  -- the arrays
  obtain ⟨arrs, s3, b1, b2, b3, b4, b5, b6⟩ := callocs_spec [n, m, m, m, m, m, m, m, m, 2 * m] e2
  -- the work arrays
  obtain ⟨d, s4, c1, c2, c3⟩ := calloc2D_spec 7 m b2
  have v4 : OldVals s s4 := fun q hq => (c2 q (lt_of_lt_of_le hq (n2.trans b3.next_le))).trans ((b3.val q (hq.trans_le n2)).trans (v2 q hq))
  have hcalls2 : s2.calls = s.calls + 1 := by rw [i3.rest.2.2.1, a3]
  have hcalls3 : s3.calls = s.calls + 11 := by rw [b4, hcalls2]; rfl
  have E4 : Ext s s4 (some u :: (arrs ++ dList d)) := by
    rcases c3 with ⟨-, tb, rows, rfl, -, -, e, -⟩ | ⟨-, rfl, e⟩
    · refine e.perm ?_
      show (rows.map some ++ (some tb :: ([some u] ++ arrs))).Perm _
      have : (some u :: (arrs ++ dList (some (tb, rows)))) = [some u] ++ arrs ++ (rows.map some ++ [some tb]) := by simp [dList]
      rw [this]
      refine List.Perm.trans ?_ List.perm_append_comm
      simp
    · simpa [dList] using e
  have hall : (∀ i < 19, s.oracle (s.calls + i) = true) ↔ (∀ o ∈ arrs, o.isSome = true) ∧ d.isSome = true := by
    have hd : d.isSome = true ↔ ∀ i < 8, s.oracle (s3.calls + i) = true := by
      rcases c3 with ⟨e, tb, rows, rfl, -⟩ | ⟨e, rfl, -⟩
      · exact iff_of_true rfl e
      · exact iff_of_false (by simp) e
    rw [b6, hd, hcalls2, hcalls3]
    constructor
    · intro h
      refine ⟨fun i hi => ?_, fun i hi => ?_⟩
      · rw [Nat.add_assoc]; exact h _ (by simp at hi; omega)
      · rw [Nat.add_assoc]; exact h _ (by omega)
    · rintro ⟨g1, g2⟩ i hi
      rcases Nat.lt_or_ge i 1 with h1 | h1
      · obtain rfl : i = 0 := by omega
        exact h0
      rcases Nat.lt_or_ge i 11 with h2 | h2
      · have := g1 (i - 1) (by simp; omega)
        rwa [show s.calls + 1 + (i - 1) = s.calls + i by omega] at this
      · have := g2 (i - 11) (by omega)
        rwa [show s.calls + 11 + (i - 11) = s.calls + i by omega] at this
  refine ⟨fun hno => ?_, fun hyes hsome => ?_⟩
  · -- some allocation failed
    have hq : mkQPtr b arrs d = none := by
      cases hq : mkQPtr b arrs d with
      | none => rfl
      | some q => exact absurd (hall.2 (mkQPtr_some hq)) hno
    have hx4 : HoldsV s4 x xv := C.hx.grow (E4.old_len _ hxl) fun q hq => v4 q (hq ▸ hxl)
    obtain ⟨s', k1, k2, k3, k4⟩ := cleanupM (L1C_OUT_OF_MEMORY, 0, 0) C.wf E4 hx4 hxl
    refine ⟨s', hc.bind (i1.bind (b1.bind (c1.bind ?_))), k2, k3, fun a ha => by rw [k4]; exact v4 a (C.wf.lt ha)⟩
    rw [hq]
    exact CSpec.bind (.done _ _) k1
  · -- the solver runs
    obtain ⟨g1, g2⟩ := hall.1 hyes
    obtain ⟨⟨tb, rows⟩, rfl⟩ := Option.isSome_iff_exists.1 g2
    obtain ⟨hrl, hrf, EE, G4⟩ : rows.length = 7 ∧ (∀ p ∈ rows, FreshBlk s3.next s4 p m) ∧ Ext s s4 (rows.map some ++ (some tb :: ([some u] ++ arrs))) ∧ Grow s3 s4 := by
      rcases c3 with ⟨-, tb', rows', e, r1, r2, r3, r4⟩ | ⟨-, e, -⟩
      · cases e; exact ⟨r1, r2, r3, r4⟩
      · cases e
    obtain ⟨d0, d1, d2, d3, d4, d5, d6, rfl⟩ : ∃ d0 d1 d2 d3 d4 d5 d6, rows = [d0, d1, d2, d3, d4, d5, d6] := by
      rcases rows with _ | ⟨d0, _ | ⟨d1, _ | ⟨d2, _ | ⟨d3, _ | ⟨d4, _ | ⟨d5, _ | ⟨d6, _ | ⟨d7, rows⟩⟩⟩⟩⟩⟩⟩⟩ <;> simp at hrl
      exact ⟨d0, d1, d2, d3, d4, d5, d6, rfl⟩
    rcases b5 with _ | ⟨f0, b5⟩
    rcases b5 with _ | ⟨f1, b5⟩
    rcases b5 with _ | ⟨f2, b5⟩
    rcases b5 with _ | ⟨f3, b5⟩
    rcases b5 with _ | ⟨f4, b5⟩
    rcases b5 with _ | ⟨f5, b5⟩
    rcases b5 with _ | ⟨f6, b5⟩
    rcases b5 with _ | ⟨f7, b5⟩
    rcases b5 with _ | ⟨f8, b5⟩
    rcases b5 with _ | ⟨f9, b5⟩
    cases b5
    simp only [List.forall_mem_cons, Option.isSome_iff_exists] at g1
    obtain ⟨⟨r, rfl⟩, ⟨p1, rfl⟩, ⟨p2, rfl⟩, ⟨p3, rfl⟩, ⟨p4, rfl⟩, ⟨p5, rfl⟩, ⟨p6, rfl⟩, ⟨p7, rfl⟩, ⟨p8, rfl⟩, ⟨p9, rfl⟩, -⟩ := g1
    set q : QPtr := ⟨b, r, p1, p2, p3, p4, p5, p6, p7, p8, p9, fun i => [d0, d1, d2, d3, d4, d5, d6].getD i ⟨0, 0⟩⟩ with hq
    set l : List Ptr := [d0, d1, d2, d3, d4, d5, d6, tb, u, r, p1, p2, p3, p4, p5, p6, p7, p8, p9] with hl
    have hnd : (l.map Ptr.blk).Nodup := by
      have h := EE.nd
      have h' : (l.map some).Pairwise fun o o' => ∀ p p', o = some p → o' = some p' → p.blk ≠ p'.blk := h
      rw [List.pairwise_map] at h'
      exact List.pairwise_map.2 (h'.imp fun hh => hh _ _ rfl rfl)
    have hge : ∀ i < 19, s.next ≤ (l.map Ptr.blk).getD i 0 := fun i hi => by
      have hm : (l.map Ptr.blk).getD i 0 ∈ l.map Ptr.blk := by
        rw [List.getD_eq_getElem?_getD, List.getElem?_eq_getElem (by simpa [hl] using hi), Option.getD_some]
        exact List.getElem_mem _
      obtain ⟨p, e1, e2⟩ := List.mem_map.1 hm
      rw [← e2]
      exact (EE.ptrs p (show some p ∈ l.map some from List.mem_map_of_mem e1)).1
    have hat : ∀ a : QM, a ≠ .x → (q.pm m x u a).blk = (l.map Ptr.blk).getD (qIdx a) 0 := fun a ha => by
      cases a
      case x => exact absurd rfl ha
      case d i => fin_cases i <;> rfl
      all_goals rfl
    have S : (qLay q m x u).Sep n m Own := qLay_sep hnd rfl hge hat rfl hxl hbl hol C.xb C.xo C.bo
    have G : ∀ {p : Ptr} {N : ℕ}, FreshBlk s2.next s3 p N → HoldsV s4 p (fun _ : Fin N => (lit 0 : Dbl)) := fun h => (h.grow G4).holds0
    have hu2 : u.blk < s2.next := (e2.ptrs u (by simp)).2.1
    have hu4 : HoldsV s4 u uv := (i2.grow (b3.len _ hu2) fun q hq => b3.val q (hq ▸ hu2)).grow (G4.len _ (hu2.trans_le b3.next_le)) fun q hq => G4.val q (hq ▸ hu2.trans_le b3.next_le)
    have hgr : FreshBlk s2.next s4 p9 (2 * m) := (f9 p9 rfl).grow G4
    have hH : (qLay q m x u).Holds s4 (qEnv0 bv xv uv) := by
      refine ⟨fun a => ?_, fun a => ?_⟩
      · cases a
        · exact C.hb.grow (E4.old_len _ hbl) fun q hq => v4 q (hq ▸ hbl)
        · exact G (f0 r rfl)
      · cases a
        case x => exact C.hx.grow (E4.old_len _ hxl) fun q hq => v4 q (hq ▸ hxl)
        case u => exact hu4
        case fu1 => exact G (f1 _ rfl)
        case fu2 => exact G (f2 _ rfl)
        case w1p => exact G (f3 _ rfl)
        case dx => exact G (f4 _ rfl)
        case du => exact G (f5 _ rfl)
        case sig11 => exact G (f6 _ rfl)
        case sig12 => exact G (f7 _ rfl)
        case ntgu => exact G (f8 _ rfl)
        case gx =>
          have e : p9 + ((0 : ℕ) : Int) = p9 := by ext <;> simp
          have h := hgr.holds (M := m) 0 (by omega)
          rw [e] at h
          exact h
        case gu => exact hgr.holds (M := m) m (by omega)
        case d i =>
          have hmem : q.DWORK7 i ∈ [d0, d1, d2, d3, d4, d5, d6] := by fin_cases i <;> simp [hq]
          exact (hrf _ hmem).holds0
    have hR4 : R t s4 := C.own t s s4 C.hR fun a ha => ⟨v4 a (hol a ha), E4.old_len _ (hol a ha)⟩
    have hm : FitsInt m := by
      unfold FitsInt INT_MIN INT_MAX at *
      omega
    obtain ⟨rr, V', t', s5, k1, k2, k3, k4, o, k5, k6, k7, k8⟩ := solveM_spec C.impl S hm hnm hmax (V := qEnv0 bv xv uv) (t := t) rfl hsome s4 hH hR4
    have hx5 : HoldsV s5 x o.x := k7 ▸ k2.hm .x
    obtain ⟨s', j1, j2, j3, j4⟩ := cleanupM rr C.wf (E4.only k4) hx5 hxl
    refine ⟨o, t', s', k5, ?_, hx5.grow (by rw [j3, k4.len]; exact (E4.old_len _ hxl).symm) fun q _ => by rw [j4], ?_, j2, j3, fun a ha ha1 ha2 => ?_⟩
    · rw [k6]
      refine hc.bind (i1.bind (b1.bind (c1.bind ?_)))
      exact CSpec.bind k1 j1
    · refine C.own t' s5 s' k3 fun a ha => ⟨by rw [j4], ?_⟩
      rw [j3, k4.len]
      exact (E4.old_len _ (hol a ha)).symm
    · rw [j4]
      by_cases hb' : a ∈ Rng b n
      · have h5 := k2.hn .b
        rw [k8] at h5
        have h4 := hH.hn .b
        obtain ⟨z1, z2, z3⟩ := hb'
        have ea : a = b + (((⟨(a.off - b.off).toNat, by omega⟩ : Fin n) : ℕ) : Int) := by
          ext
          · exact z1
          · show a.off = b.off + _
            simp only [Int.toNat_of_nonneg (sub_nonneg.2 z2)]
            omega
        rw [← v4 a (C.wf.lt ha), ea]
        exact (h5.2 _).trans (h4.2 _).symm
      · rw [k4.val a ?_]
        · exact v4 a (C.wf.lt ha)
        · rintro ((⟨c, hc'⟩ | ⟨c, hc'⟩) | hc')
          · cases c
            · exact hb' hc'
            · have := (EE.ptrs r (by simp)).1
              have := C.wf.lt ha
              have h3 : a.blk = r.blk := hc'.1
              omega
          · by_cases hcx : c = .x
            · subst hcx; exact ha1 hc'
            · have h1 := hge _ (qIdx_lt hcx)
              have h2 := C.wf.lt ha
              have h3 : a.blk = (q.pm m x u c).blk := hc'.1
              rw [hat c hcx] at h3
              omega
          · exact ha2 hc'
end
end L1c
