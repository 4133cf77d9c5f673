import Verif.Proofs.BregmanRun
import Verif.Proofs.CmdAlloc

/-! Helper lemmas: the function `l1c_breg_anistropic_TV` from entry to return. -/

namespace L1c
open Prog Scalar

variable {F : Type} [Scalar F]

theorem holdsF_zero {mem : Mem F} {p : Ptr} {n m : ℕ} (h0 : p.off = 0) (hl : mem.len p.blk = n * m)
    (hv : ∀ q : Ptr, q.blk = p.blk → mem.val q = lit 0) : HoldsF mem p n m fun _ _ => lit 0 := by
  refine ⟨fun i hi hi' => ?_, fun i _ j _ => hv _ (by simp)⟩
  constructor
  · simp only [Ptr.add_off]; omega
  · simp only [Ptr.add_off, Ptr.add_blk, hl]; omega

/-- entry: allocations -/
theorem breg_allocs {s : PState F} (hw : s.WF) (n m : Int) (uk f : Ptr) (mu tol : F) (max_iter jac : Int)
    (hfit : FitsInt (n * m)) :
    ∃ o1 o2 o3 o4 o5 o6 o7 o8 s8, Alloc s s8 (n * m) [o1, o2, o3, o4, o5, o6, o7, o8] ∧
      (∀ a s', CSpec (bregGuarded n m uk f mu (lit 2 * mu) tol max_iter jac o1 o2 o3 o4 o5 o6 o7 o8 >>= fun r =>
          freeAll r [o1, o2, o3, o4, o5, o6, o7, o8]) s8 a s' →
        CSpec (l1c_breg_anistropic_TV n m uk f mu tol max_iter jac) s a s') ∧
      (CUB (bregGuarded n m uk f mu (lit 2 * mu) tol max_iter jac o1 o2 o3 o4 o5 o6 o7 o8 >>= fun r =>
          freeAll r [o1, o2, o3, o4, o5, o6, o7, o8]) s8 →
        CUB (l1c_breg_anistropic_TV n m uk f mu tol max_iter jac) s) := by
  have a8 := (((((((((Alloc.init hw (n * m)).step).step).step).step).step).step).step).step)
  refine ⟨_, _, _, _, _, _, _, _, _, a8, ?_, ?_⟩
  · intro a s' h
    unfold l1c_breg_anistropic_TV
    exact (cspec_need hfit s).bind ((cspec_calloc _ _).bind ((cspec_calloc _ _).bind ((cspec_calloc _ _).bind
      ((cspec_calloc _ _).bind ((cspec_calloc _ _).bind ((cspec_calloc _ _).bind ((cspec_calloc _ _).bind
        ((cspec_calloc _ _).bind h))))))))
  · intro h
    unfold l1c_breg_anistropic_TV
    exact (cspec_need hfit s).bind_ub ((cspec_calloc _ _).bind_ub ((cspec_calloc _ _).bind_ub ((cspec_calloc _ _).bind_ub
      ((cspec_calloc _ _).bind_ub ((cspec_calloc _ _).bind_ub ((cspec_calloc _ _).bind_ub ((cspec_calloc _ _).bind_ub
        ((cspec_calloc _ _).bind_ub h))))))))

/-- a refused allocation: status `L1C_OUT_OF_MEMORY`, nothing else happens -/
theorem cspec_breg_oom {s : PState F} (hw : s.WF) {n m : Int} {uk f : Ptr} {mu tol : F} {max_iter jac : Int}
    (hfit : FitsInt (n * m)) (hno : ¬ ((∀ k < 8, s.oracle (s.calls + k) = true) ∧ 0 ≤ n * m)) :
    ∃ s', CSpec (l1c_breg_anistropic_TV n m uk f mu tol max_iter jac) s (L1C_OUT_OF_MEMORY, 0) s' ∧
      s'.live = s.live ∧ s'.mem.len = s.mem.len ∧ OldVals s s' := by
  obtain ⟨o1, o2, o3, o4, o5, o6, o7, o8, s8, ha, hc, -⟩ := breg_allocs hw n m uk f mu tol max_iter jac hfit
  obtain ⟨s', h1, h2, h3, h4⟩ := cspec_freeAll (L1C_OUT_OF_MEMORY, (0 : Int)) hw ha.ext
  refine ⟨s', hc _ _ ?_, h2, h3, fun p hp => by rw [h4]; exact ha.old p hp⟩
  refine CSpec.bind (a := (L1C_OUT_OF_MEMORY, (0 : Int))) (s₁ := s8) ?_ h1
  unfold bregGuarded
  split
  · rename_i x1 x2 x3 x4 x5 x6 x7 x8
    exfalso
    apply hno
    have hs : ∀ k (hk : k < 8), s.oracle (s.calls + k) = true ∧ 0 ≤ n * m := fun k hk => by
      refine (ha.some_iff k hk).1 ?_
      match k, hk with
      | 0, _ | 1, _ | 2, _ | 3, _ | 4, _ | 5, _ | 6, _ | 7, _ => rfl
    exact ⟨fun k hk => (hs k hk).1, (hs 0 (by omega)).2⟩
  · exact .done _ _

omit [Scalar F] in
theorem blk_old {s : PState F} (hw : s.WF) {n m : ℕ} (hpos : 0 < n * m) {p : Ptr}
    (hp : s.mem.Has p ((n * m : ℕ) : Int)) : p.blk < s.next := by
  by_contra hc
  have := (hp 0 le_rfl (by exact_mod_cast hpos)).2
  rw [Ptr.add_blk, (hw p.blk (by omega)).2, Ptr.add_off] at this
  have h2 := (hp 0 le_rfl (by exact_mod_cast hpos)).1
  rw [Ptr.add_off] at h2
  omega

/-- everything up to the loop, when all allocations succeed -/
theorem breg_setup {s : PState F} (hw : s.WF) {n m : ℕ} {uk f : Ptr} (mu tol : F) (max_iter jac : Int) {u0 f0 : FImg F}
    (hpos : 0 < n * m) (hfit : FitsInt ((n : Int) * m)) (hu : HoldsF s.mem uk n m u0) (hf : HoldsF s.mem f n m f0)
    (hsep : Sep ((n * m : ℕ) : Int) uk f) (hor : ∀ k < 8, s.oracle (s.calls + k) = true) :
    ∃ (P : Fin 10 → Ptr) (s8 : PState F), P 0 = uk ∧ P 1 = f ∧
      (∀ a : Fin 10, 2 ≤ a → s.next ≤ (P a).blk ∧ (P a).off = 0 ∧ s8.mem.len (P a).blk = n * m) ∧
      SepAll n m P ∧
      HoldsAll s8.mem P n m ![u0, f0, fun _ _ => lit 0, fun _ _ => lit 0, fun _ _ => lit 0, fun _ _ => lit 0, fun _ _ => lit 0,
          fun _ _ => lit 0, fun _ _ => lit 0, fun _ _ => lit 0] ∧
      (∀ b < s.next, s8.mem.len b = s.mem.len b) ∧ OldVals s s8 ∧
      (∀ i mem', CSpec (bregLoop n m (toBuf P) mu (lit 2 * mu) tol max_iter jac) s8 i { s8 with mem := mem' } →
        mem'.len = s8.mem.len → ∃ s', CSpec (l1c_breg_anistropic_TV n m uk f mu tol max_iter jac) s (0, i) s' ∧
          s'.live = s.live ∧ s'.mem.len = s.mem.len ∧ s'.mem.val = mem'.val) ∧
      (CUB (bregLoop n m (toBuf P) mu (lit 2 * mu) tol max_iter jac) s8 →
        CUB (l1c_breg_anistropic_TV n m uk f mu tol max_iter jac) s) := by
  have hold : ∀ {p : Ptr}, s.mem.Has p ((n * m : ℕ) : Int) → p.blk < s.next := blk_old hw hpos
  have bu := hold hu.1
  have bf := hold hf.1
  obtain ⟨o1, o2, o3, o4, o5, o6, o7, o8, s8, ha, hc, hub⟩ := breg_allocs hw n m uk f mu tol max_iter jac hfit
  have hs : ∀ k (hk : k < 8), ([o1, o2, o3, o4, o5, o6, o7, o8][k]'hk).isSome = true := fun k hk =>
    (ha.some_iff k hk).2 ⟨hor k hk, by positivity⟩
  obtain ⟨p1, rfl⟩ := Option.isSome_iff_exists.1 (hs 0 (by omega))
  obtain ⟨p2, rfl⟩ := Option.isSome_iff_exists.1 (hs 1 (by omega))
  obtain ⟨p3, rfl⟩ := Option.isSome_iff_exists.1 (hs 2 (by omega))
  obtain ⟨p4, rfl⟩ := Option.isSome_iff_exists.1 (hs 3 (by omega))
  obtain ⟨p5, rfl⟩ := Option.isSome_iff_exists.1 (hs 4 (by omega))
  obtain ⟨p6, rfl⟩ := Option.isSome_iff_exists.1 (hs 5 (by omega))
  obtain ⟨p7, rfl⟩ := Option.isSome_iff_exists.1 (hs 6 (by omega))
  obtain ⟨p8, rfl⟩ := Option.isSome_iff_exists.1 (hs 7 (by omega))
  have nd : ([p1, p2, p3, p4, p5, p6, p7, p8].map Ptr.blk).Nodup := by
    have := ha.ext.nd
    rw [List.Nodup, List.pairwise_map]
    rw [show [some p1, some p2, some p3, some p4, some p5, some p6, some p7, some p8]
      = [p1, p2, p3, p4, p5, p6, p7, p8].map some from rfl, List.pairwise_map] at this
    exact this.imp fun h => h _ _ rfl rfl
  have hge : ∀ q ∈ [p1, p2, p3, p4, p5, p6, p7, p8], s.next ≤ q.blk ∧ (q.off = 0 ∧ s8.mem.len q.blk = n * m) ∧
      HoldsF s8.mem q n m fun _ _ => lit 0 := by
    intro q hq
    have hq' : some q ∈ [some p1, some p2, some p3, some p4, some p5, some p6, some p7, some p8] :=
      List.mem_map_of_mem (f := some) hq
    obtain ⟨a, b, c⟩ := ha.ext.ptrs q hq'
    obtain ⟨d, e⟩ := ha.zeros q hq'
    have d' : s8.mem.len q.blk = n * m := by rw [d]; exact_mod_cast Int.toNat_natCast (n * m)
    exact ⟨a, ⟨c, d'⟩, holdsF_zero c d' e⟩
  have oldH : ∀ {p : Ptr} {A : FImg F}, HoldsF s.mem p n m A → HoldsF s8.mem p n m A := by
    intro p A hp
    have hb := hold hp.1
    refine ⟨fun i h0 h1 => ?_, fun i hi j hj => ?_⟩
    · have := hp.1 i h0 h1
      unfold Mem.Ok at this ⊢
      rw [Ptr.add_blk] at this ⊢
      rwa [ha.ext.old_len _ hb]
    · rw [← hp.2 i hi j hj]
      exact ha.old _ (by simpa using hb)
  let P : Fin 10 → Ptr := ![uk, f, p1, p2, p3, p4, p5, p6, p7, p8]
  have hS : SepAll n m P := by
    have pw : ([uk, f, p1, p2, p3, p4, p5, p6, p7, p8] : List Ptr).Pairwise (Sep ((n * m : ℕ) : Int)) := by
      refine List.Pairwise.cons ?_ (List.Pairwise.cons ?_ ?_)
      · intro q hq
        rcases List.mem_cons.1 hq with rfl | hq
        · exact hsep
        · exact Sep.of_blk (ne_of_lt (lt_of_lt_of_le bu (hge q hq).1))
      · intro q hq
        exact Sep.of_blk (ne_of_lt (lt_of_lt_of_le bf (hge q hq).1))
      · rw [List.Nodup, List.pairwise_map] at nd
        exact nd.imp fun h => Sep.of_blk h
    have key : ∀ a b : Fin 10, a < b → Sep ((n * m : ℕ) : Int) (P a) (P b) := by
      have eP : ∀ a : Fin 10, P a = [uk, f, p1, p2, p3, p4, p5, p6, p7, p8][a.1]'a.2 := by
        intro a; fin_cases a <;> rfl
      intro a b hab
      rw [eP, eP]
      exact List.pairwise_iff_getElem.1 pw a.1 b.1 a.2 b.2 hab
    intro a b hab
    rcases lt_or_gt_of_ne hab with h | h
    · exact key a b h
    · exact (key b a h).symm
  simp only [List.mem_cons, List.not_mem_nil, or_false, forall_eq_or_imp, forall_eq] at hge
  refine ⟨P, s8, rfl, rfl, ?_, hS, ?_, ha.ext.old_len, ha.old, ?_, ?_⟩
  · intro a ha2
    fin_cases a
    · exact absurd ha2 (by decide)
    · exact absurd ha2 (by decide)
    · exact ⟨hge.1.1, hge.1.2.1⟩
    · exact ⟨hge.2.1.1, hge.2.1.2.1⟩
    · exact ⟨hge.2.2.1.1, hge.2.2.1.2.1⟩
    · exact ⟨hge.2.2.2.1.1, hge.2.2.2.1.2.1⟩
    · exact ⟨hge.2.2.2.2.1.1, hge.2.2.2.2.1.2.1⟩
    · exact ⟨hge.2.2.2.2.2.1.1, hge.2.2.2.2.2.1.2.1⟩
    · exact ⟨hge.2.2.2.2.2.2.1.1, hge.2.2.2.2.2.2.1.2.1⟩
    · exact ⟨hge.2.2.2.2.2.2.2.1, hge.2.2.2.2.2.2.2.2.1⟩
  · intro a
    fin_cases a
    · exact oldH hu
    · exact oldH hf
    · exact hge.1.2.2
    · exact hge.2.1.2.2
    · exact hge.2.2.1.2.2
    · exact hge.2.2.2.1.2.2
    · exact hge.2.2.2.2.1.2.2
    · exact hge.2.2.2.2.2.1.2.2
    · exact hge.2.2.2.2.2.2.1.2.2
    · exact hge.2.2.2.2.2.2.2.2.2
  · intro i mem' h1 h2
    obtain ⟨s', g1, g2, g3, g4⟩ := cspec_freeAll ((0 : Int), i) hw (ha.ext.setMem h2)
    refine ⟨s', hc _ _ (CSpec.bind ?_ g1), g2, g3, g4⟩
    exact h1.bind (.done _ _)
  · intro h
    exact hub (CUB.bind (CUB.bind h))

/-- the normal run -/
theorem cspec_breg {s : PState F} (hw : s.WF) {n m : ℕ} {uk f : Ptr} {mu tol : F} {max_iter jac : Int} {u0 f0 : FImg F}
    (hn : 2 ≤ n) (hm : 2 ≤ m) (hfit : FitsInt ((n : Int) * m)) (hu : HoldsF s.mem uk n m u0) (hf : HoldsF s.mem f n m f0)
    (hsep : Sep ((n * m : ℕ) : Int) uk f) (hmax : max_iter < INT_MAX) (hj : jac < INT_MAX)
    (hor : ∀ k < 8, s.oracle (s.calls + k) = true) :
    ∃ K i s', CSpec (l1c_breg_anistropic_TV n m uk f mu tol max_iter jac) s (0, i) s' ∧
      s'.live = s.live ∧ s'.mem.len = s.mem.len ∧
      HoldsF s'.mem uk n m (bregIter n m mu (lit 2 * mu) jac.toNat f0 K).u ∧
      (∀ p : Ptr, p.blk < s.next → (∀ k < n * m, p ≠ uk + ((k : ℕ) : Int)) → s'.mem.val p = s.mem.val p) ∧
      K ≤ max_iter.toNat ∧
      ((K = max_iter.toNat ∧ i = K + 1 ∧ ∀ l < K, bregBrk n m mu (lit 2 * mu) tol jac.toNat f0 l = false) ∨
       (0 < K ∧ i = K ∧ bregBrk n m mu (lit 2 * mu) tol jac.toNat f0 (K - 1) = true ∧
        ∀ l < K - 1, bregBrk n m mu (lit 2 * mu) tol jac.toNat f0 l = false)) := by
  have hpos : 0 < n * m := Nat.mul_pos (by omega) (by omega)
  obtain ⟨P, s8, e0, e1, hnew, hS, hold, hlen, hval, hrun, -⟩ := breg_setup hw mu tol max_iter jac hpos hfit hu hf hsep hor
  obtain ⟨K, i, A', hloop, hA0, hA1, hK, hcase⟩ := ctr_loop (P := P) (mu := mu) (lam := lit 2 * mu) (tol := tol) (f := f0)
    hn hm hfit hS hmax hj u0
  obtain ⟨mem', hl1, hl2, hl3⟩ := hloop s8 hold
  obtain ⟨s', h1, h2, h3, h4⟩ := hrun i mem' hl1 hl3.1
  refine ⟨K, i, s', h1, h2, h3, ?_, ?_, hK, hcase⟩
  · have := hl2 0
    rw [hA0, e0] at this
    have hl : s'.mem.len uk.blk = mem'.len uk.blk := by rw [h3, hl3.1, hlen _ (blk_old hw hpos hu.1)]
    refine ⟨fun i h0 h1 => ?_, fun i hi j hj => ?_⟩
    · have := this.1 i h0 h1
      unfold Mem.Ok at this ⊢
      rw [Ptr.add_blk] at this ⊢
      rwa [hl]
    · rw [← this.2 i hi j hj]
      exact congrFun h4 _
  · intro p hp hpu
    rw [h4, ← hval p hp]
    by_cases hpf : ∃ k < n * m, p = f + ((k : ℕ) : Int)
    · obtain ⟨k, hk, rfl⟩ := hpf
      have g1 := (hl2 1).flat hk
      have g2 := (hold 1).flat hk
      rw [hA1] at g1
      rw [e1] at g1 g2
      exact g1.2.trans g2.2.symm
    · apply hl3.2
      intro a k hk e
      by_cases ha : 2 ≤ a
      · have := congrArg Ptr.blk e
        rw [Ptr.add_blk] at this
        have := (hnew a ha).1
        omega
      · have : a = 0 ∨ a = 1 := by omega
        rcases this with rfl | rfl
        · exact hpu k hk (by rw [e, e0])
        · exact hpf ⟨k, hk, by rw [e, e1]⟩

end L1c
