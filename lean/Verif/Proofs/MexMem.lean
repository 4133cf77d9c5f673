import Verif.Spec.MexMem
import Verif.Proofs.PyMem
import Verif.Proofs.Bindings

/-! Helper lemmas: `l1qc_dct` called from Matlab, on memory. -/

namespace L1c
open Prog Scalar Cmd

variable {F : Type} [Scalar F] {s s1 : PState F}

theorem mexIndicesM_spec {mtot : Int} {pix : Ptr} {xs : List F} : ∀ {i : ℕ},
    (∀ j (hj : j < xs.length), s.mem.Ok (pix + ((i + j : ℕ) : Int)) ∧ s.mem.val (pix + ((i + j : ℕ) : Int)) = xs[j]) →
    (∀ r, mexIndices mtot xs = some r → CSpec (mexIndicesM mtot pix xs.length i) s r s) ∧ (mexIndices mtot xs = none → CUB (mexIndicesM mtot pix xs.length i) s) := by
  induction xs with
  | nil =>
    intro i _
    refine ⟨fun r hr => ?_, fun hr => by cases hr⟩
    cases Option.some.inj hr
    exact .done _ _
  | cons x xs ih =>
    intro i h
    obtain ⟨h1, h2⟩ := h 0 (by simp)
    rw [Nat.add_zero] at h1 h2
    have hl : CSpec (eval (load (pix + ((i : ℕ) : Int)))) s x s := by
      have := cspec_eval (s := s) (run_load h1)
      rw [h2] at this
      exact this
    obtain ⟨g1, g2⟩ := ih (i := i + 1) fun j hj => by
      have := h (j + 1) (by simpa using hj)
      rw [show i + (j + 1) = i + 1 + j by omega] at this
      simpa using this
    unfold mexIndices
    rcases e : castInt x with _ | v
    · refine ⟨fun r hr => (by cases hr), fun _ => hl.bind_ub ?_⟩
      rw [e]
      exact CUB.bind (cub_need not_false _)
    · rw [Option.bind_some]
      by_cases hf : FitsInt (v - 1)
      · rw [if_neg (not_not.2 hf)]
        by_cases hb : v - 1 < 0 ∨ v - 1 > mtot - 1
        · rw [if_pos hb]
          refine ⟨fun r hr => hl.bind ?_, fun hr => by cases hr⟩
          rw [e]
          refine (cspec_need hf s).bind ?_
          rw [if_pos hb]
          cases Option.some.inj hr
          exact .done _ _
        · rw [if_neg hb]
          refine ⟨fun r hr => hl.bind ?_, fun hr => hl.bind_ub ?_⟩
          · obtain ⟨r', e1, rfl⟩ := Option.map_eq_some_iff.1 hr
            rw [e]
            refine (cspec_need hf s).bind ?_
            rw [if_neg hb]
            exact (g1 _ e1).bind (.done _ _)
          · rw [e]
            refine (cspec_need hf s).bind_ub ?_
            rw [if_neg hb]
            exact CUB.bind (g2 (Option.map_eq_none_iff.1 hr))
      · rw [if_pos hf]
        refine ⟨fun r hr => (by cases hr), fun _ => hl.bind_ub ?_⟩
        rw [e]
        exact CUB.bind (cub_need hf _)

/-- the positions are where the caller put them -/
theorem mexIndicesM_at {mtot : Int} {pix : Ptr} {n : ℕ} {pv : Vec F n} (h : HoldsV s pix pv) :
    (∀ r, mexIndices mtot (List.ofFn pv) = some r → CSpec (mexIndicesM mtot pix n 0) s r s) ∧ (mexIndices mtot (List.ofFn pv) = none → CUB (mexIndicesM mtot pix n 0) s) := by
  have := mexIndicesM_spec (s := s) (mtot := mtot) (pix := pix) (xs := List.ofFn pv) (i := 0) fun j hj => by
    rw [List.length_ofFn] at hj
    rw [Nat.zero_add, List.getElem_ofFn]
    exact ⟨h.1 _ (by omega) (by omega), h.2 ⟨j, hj⟩⟩
  rwa [List.length_ofFn] at this

/-- the two arrays of the routine -/
theorem mexL1qcArrays (hw : s.WF) (m n : ℕ) (junk : ℕ → F) : ∃ x0 p0 s1 s2, CSpec (mallocC m junk) s x0 s1 ∧ CSpec (callocC (n : Int)) s1 p0 s2 ∧ Ext s s2 [x0, p0] ∧ OldVals s s2 ∧
    s2.calls = s.calls + 2 ∧ (x0.isSome = true ↔ s.oracle s.calls = true) ∧ (p0.isSome = true ↔ s.oracle (s.calls + 1) = true) ∧
    ∀ x, x0 = some x → HoldsV s2 x (fun i : Fin m => junk i) := by
  obtain ⟨x0, s1, a1, a2, a3, a4, a5, a6⟩ := malloc_spec (Ext.init hw) m junk
  rw [List.nil_append] at a2
  obtain ⟨b1, b2, b3, b4, b5⟩ := a2.alloc n
  refine ⟨x0, _, s1, _, a1, cspec_calloc _ _, b1, (a3.trans b2).val, by rw [b3, a4], a5, by rw [b5, a4], fun x hx => ?_⟩
  subst hx
  have h := (a2.ptrs x (by simp)).2.1
  exact (a6 x rfl).1.grow (b2.len _ h) fun q hq => b2.val q (hq ▸ h)

/-- the result structure -/
def mexResult (r : Int × Option (LBResult F)) : LBResult F := if r.1 ≠ 0 then { r.2.getD ⟨inf, 0, 0, 0⟩ with status := r.1 } else r.2.getD ⟨inf, 0, 0, 0⟩

theorem mexL1qcEnd_spec (hw : s.WF) {mtot : ℕ} {x p : Ptr} {r : Int × Option (LBResult F)} (E : Ext s s1 [some x, some p]) (hold : ∀ a : Ptr, s.live a.blk = true → s1.mem.val a = s.mem.val a)
    {v : Vec F mtot} (hx : HoldsV s1 x v) :
    ∃ out s', CSpec (mexL1qcEndM mtot x p r) s1 out s' ∧ CallerKept s s' ∧
      ((s.oracle s1.calls = false ∧ out = .exc "MATLAB:nomem" ∧ NewBlocks s s' 2) ∨
        (s.oracle s1.calls = true ∧ ∃ z, out = .ret z (mexResult r) ∧ NewArray s s' z v ∧ NewBlocks s s' 1)) := by
  obtain ⟨o, s2, a1, a2, a3, a4, a5⟩ := copyOut_spec E (by simp) hx
  have hv : ∀ {s3 : PState F}, s3.mem.val = s2.mem.val → ∀ a : Ptr, s.live a.blk = true → s3.mem.val a = s.mem.val a := fun e a ha => by
    rw [e, a3 a (lt_of_lt_of_le (hw.lt ha) E.next_le), hold a ha]
  rcases o with _ | z
  · have E3 : Ext s s2 [some x, some p] := by
      have hp : ([some x, some p] ++ [none]).Perm (none :: [some x, some p]) := List.perm_append_comm
      obtain ⟨s3, e1, e2, -⟩ := (a2.perm hp).free
      cases Option.some.inj e1
      exact e2
    exact ⟨_, s2, a1.bind (.done _ _), E3.kept hw (hv rfl), .inl ⟨Bool.eq_false_iff.2 (fun hc => by cases a4.2 hc), rfl, newBlocks_of hw E3 (by simp)⟩⟩
  · obtain ⟨c1, c2⟩ := a5 z rfl
    have hp : ([some x, some p] ++ [some z]).Perm ([some p, some x] ++ [some z]) := List.Perm.append_right _ (List.Perm.swap _ _ _)
    obtain ⟨s3, b1, b2, b3, -⟩ := frees_spec [some p, some x] (a2.perm hp)
    have nd := (List.pairwise_append.1 (a2.perm hp).nd).2.2
    have hl : s3.mem.len z.blk = s2.mem.len z.blk := freesC_len b1 fun q hq => nd (some q) hq (some z) (by simp) _ _ rfl rfl
    exact ⟨_, s3, a1.bind (b1.bind (.done _ _)), b2.kept hw (hv b3), .inr ⟨a4.1 rfl, z, rfl,
      b2.newArray hw (by simp) (c1.grow hl fun q _ => by rw [b3]) (hl.trans c2), newBlocks_of hw b2 (by simp)⟩⟩

/-- one-based positions inside the image are valid indices -/
theorem OneBased.valid {mtot : Int} {n : ℕ} {pv : Vec F n} {idx : List Int} (h : OneBased mtot (List.ofFn pv) idx) : idx.length = n ∧ ∀ i ∈ idx, 0 ≤ i ∧ i < mtot := by
  refine ⟨?_, fun i hi => ?_⟩
  · have := List.Forall₂.length_eq h
    rw [List.length_ofFn] at this
    exact this.symm
  · obtain ⟨j, hj, rfl⟩ := List.mem_iff_getElem.1 hi
    have hl := List.Forall₂.length_eq h
    exact (List.Forall₂.get h (i := j) (by omega) hj).2

end L1c
