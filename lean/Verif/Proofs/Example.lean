import Verif.Model.Example
import Verif.Proofs.Json
import Verif.Props.Json
import Verif.Props.L1qcDct

/-! # Helper lemmas: the example program -/

namespace L1c
open Scalar

variable {F : Type} [Scalar F] {α : Type}

/-- a set with an optional further element -/
def ins (p : Option ℕ) (A : Finset ℕ) : Finset ℕ := match p with
  | none => A
  | some b => insert b A

/-- one request: at most one new block, everything else unchanged -/
structure Grab {σ : Type} (s s' : NState σ) (p : Option ℕ) : Prop where
  wf : s'.WF
  cb : s'.cb = s.cb
  next : s.next ≤ s'.next
  live : s'.live = ins p s.live
  new : ∀ b, p = some b → s.next ≤ b

theorem Grab.none {σ : Type} {s s' : NState σ} (hs : s.WF) (h1 : s'.live = s.live) (h2 : s'.next = s.next) (h3 : s'.cb = s.cb) :
    Grab s s' none := by
  refine ⟨fun b hb => ?_, h3, h2.ge, h1, fun b h => by cases h⟩
  rw [h2]
  exact hs b (h1 ▸ hb)

theorem Grab.some {σ : Type} {s s' : NState σ} (hs : s.WF) (h1 : s'.live = insert s.next s.live) (h2 : s'.next = s.next + 1) (h3 : s'.cb = s.cb) :
    Grab s s' (some s.next) := by
  refine ⟨fun b hb => ?_, h3, by omega, h1, fun b h => by cases h; exact le_rfl⟩
  rw [h1] at hb
  rw [h2]
  rcases Finset.mem_insert.1 hb with rfl | hb
  · exact Nat.lt_succ_self _
  · exact (hs b hb).trans (Nat.lt_succ_self _)

theorem nalloc_grab {σ : Type} {s s' : NState σ} {p : Option ℕ} (hs : s.WF) (h : nalloc s = Option.some (p, s')) :
    Grab s s' p ∧ (p.isNone → s.oracle s.calls = false) := by
  cases ho : s.oracle s.calls with
  | true =>
    rw [nalloc_ok ho] at h
    cases h
    exact ⟨Grab.some hs rfl rfl rfl, fun h => by cases h⟩
  | false =>
    rw [nalloc_fail ho] at h
    cases h
    exact ⟨Grab.none hs rfl rfl rfl, fun _ => rfl⟩

theorem ncalloc_grab {s s' : NState ℕ} {k : Int} {p : Option ℕ} (hs : s.WF) (h : ncalloc k s = Option.some (p, s')) :
    Grab s s' p ∧ (p.isSome → 0 ≤ k) := by
  unfold ncalloc at h
  split_ifs at h with hk
  · cases h
    exact ⟨Grab.none hs rfl rfl rfl, fun h => by cases h⟩
  · exact ⟨(nalloc_grab hs h).1, fun _ => by omega⟩

omit [Scalar F] in
theorem nfiles_some {x : NM ℕ α} {s s' : NState (ℕ × World F)} {a : α} (h : nfiles x s = some (a, s')) :
    ∃ t, x ⟨s.live, s.next, s.calls, s.oracle, s.cb.1⟩ = some (a, t) ∧ s' = ⟨t.live, t.next, t.calls, t.oracle, (t.cb, s.cb.2)⟩ := by
  unfold nfiles at h
  obtain ⟨⟨a', t⟩, h1, h2⟩ := Option.map_eq_some_iff.1 h
  cases h2
  exact ⟨t, h1, rfl⟩

omit [Scalar F] in
theorem nworld_some {x : NM (World F) α} {s s' : NState (ℕ × World F)} {a : α} (h : nworld x s = some (a, s')) :
    ∃ t, x ⟨s.live, s.next, s.calls, s.oracle, s.cb.2⟩ = some (a, t) ∧ s' = ⟨t.live, t.next, t.calls, t.oracle, (s.cb.1, t.cb)⟩ := by
  unfold nworld at h
  obtain ⟨⟨a', t⟩, h1, h2⟩ := Option.map_eq_some_iff.1 h
  cases h2
  exact ⟨t, h1, rfl⟩

omit [Scalar F] in
theorem Grab.files {s : NState (ℕ × World F)} {t : NState ℕ} {p : Option ℕ} (h : Grab ⟨s.live, s.next, s.calls, s.oracle, s.cb.1⟩ t p) :
    Grab s ⟨t.live, t.next, t.calls, t.oracle, (t.cb, s.cb.2)⟩ p :=
  ⟨h.wf, by rw [h.cb], h.next, h.live, h.new⟩

/-- loading: the only thing that can stay allocated is the text buffer, and only on failure -/
theorem load_grab {parse : List UInt8 → Option α} {e : FileEnv} {s s' : NState ℕ} {st : Int} {doc : Option (Option α)} (hs : s.WF)
    (h : load_file_to_json parse e s = some ((st, doc), s')) :
    ∃ p, Grab s s' p ∧ (st = 0 → p = none ∧ doc = some (parse (cstring (e.stream.take (toCInt e.ftell).toNat)))) := by
  have hn : s.next ≤ s'.next ∧ (s'.live = insert s.next s.live → s'.next = s.next + 1) ∧ s'.next ≤ s.next + 1 := by
    have n0 : s.next ∉ s.live := fun hc => absurd (hs _ hc) (lt_irrefl _)
    unfold load_file_to_json at h
    obtain ⟨r, s1, h1, h2⟩ := nbind_some h
    have k1 : (s1.next = s.next ∧ s1.live = s.live) ∨ (s1.next = s.next + 1) := by
      obtain ⟨a1, a2, a3, a4, a5⟩ := text_run (e := e) hs
      cases ho : e.opens with
      | false => rw [a1 ho] at h1; cases h1; exact Or.inl ⟨rfl, rfl⟩
      | true =>
        have hlen := toCInt_fits e.ftell
        by_cases hmax : toCInt e.ftell = INT_MAX
        · rw [a2 ho hmax] at h1; cases h1
        have hlt : toCInt e.ftell < INT_MAX := by have := hlen.2; omega
        by_cases hbad : toCInt e.ftell < -1 ∨ s.oracle s.calls = false
        · rw [a3 ho hlt hbad] at h1; cases h1; exact Or.inl ⟨rfl, rfl⟩
        rw [not_or, Bool.not_eq_false] at hbad
        by_cases hneg : toCInt e.ftell = -1 ∧ 0 < e.stream.length
        · rw [a5 ho hneg.1 hbad.2 hneg.2] at h1; cases h1
        obtain ⟨text, h3, -⟩ := a4 ho hlt (by omega) hbad.2 hneg
        rw [h3] at h1; cases h1; exact Or.inr rfl
    have k2 : s'.next = s1.next ∧ (s1.live = s.live → s'.live ⊆ s.live) := by
      split_ifs at h2 with hr
      · cases h2; exact ⟨rfl, fun e => e.subset⟩
      · obtain ⟨⟨⟩, s2, h3, h4⟩ := nbind_some h2
        cases h4
        cases hq : r.2.map (·.1) with
        | none => rw [hq] at h3; cases h3; exact ⟨rfl, fun e => e.subset⟩
        | some b =>
          rw [hq] at h3
          unfold nfree at h3
          simp only at h3
          split_ifs at h3
          cases h3
          exact ⟨rfl, fun e => e ▸ Finset.erase_subset _ _⟩
    rcases k1 with ⟨k1, k3⟩ | k1
    · refine ⟨by omega, fun hl => ?_, by omega⟩
      have := k2.2 k3 (hl ▸ Finset.mem_insert_self _ _)
      exact absurd this n0
    · exact ⟨by omega, fun _ => by omega, by omega⟩
  obtain ⟨hcb, h0 | h1⟩ := C57_outcome_partial hs h
  · refine ⟨none, ⟨fun b hb => ?_, hcb, hn.1, h0.2.2.1, fun b h => by cases h⟩, fun _ => ⟨rfl, h0.2.1⟩⟩
    rw [h0.2.2.1] at hb
    exact (hs b hb).trans_le hn.1
  · obtain ⟨rfl, -, ⟨hl, -⟩ | ⟨hl, -⟩⟩ := h1
    · refine ⟨none, ⟨fun b hb => ?_, hcb, hn.1, hl, fun b h => by cases h⟩, fun h => by cases h⟩
      rw [hl] at hb
      exact (hs b hb).trans_le hn.1
    · exact ⟨some s.next, Grab.some hs hl (hn.2.1 hl) hcb, fun h => by cases h⟩

theorem darray_grab {doc : Option (CJ F)} {name : String} {s s' : NState ℕ} {o : ArrOut F} (hs : s.WF)
    (h : extract_json_double_array doc name s = some (o, s')) :
    Grab s s' ((o.x.getD none).map (·.1)) ∧ 0 ≤ o.status ∧
      (o.status = 0 → ∃ d l b, doc = some d ∧ d.get name = some (.arr l) ∧ o = ⟨0, some l.length, some (some (b, l.map CJ.valuedouble))⟩) := by
  cases doc with
  | none => cases h; exact ⟨Grab.none hs rfl rfl rfl, zero_le_one, fun h => by cases h⟩
  | some d =>
    unfold extract_json_double_array at h
    cases hg : d.get name with
    | none => simp only [hg] at h; cases h; exact ⟨Grab.none hs rfl rfl rfl, zero_le_one, fun h => by cases h⟩
    | some c =>
    cases c with
    | arr l =>
      simp only [hg] at h
      obtain ⟨p, s1, h1, h2⟩ := nbind_some h
      have g := (ncalloc_grab hs h1).1
      cases p with
      | none => cases h2; exact ⟨g, zero_le_one, fun h => by cases h⟩
      | some b =>
        dsimp only at h2
        split_ifs at h2 with hl
        · cases h2
        · cases h2
          refine ⟨g, le_rfl, fun _ => ⟨d, l, b, rfl, hg, ?_⟩⟩
          have hN : toCInt (l.length : Int) = l.length := by
            have := toCInt_fits (l.length : Int)
            unfold FitsInt INT_MAX at this
            exact toCInt_of_fits ⟨by unfold INT_MIN; omega, by unfold INT_MAX; omega⟩
          rw [hN]
    | _ => simp only [hg] at h; cases h; exact ⟨Grab.none hs rfl rfl rfl, zero_le_one, fun h => by cases h⟩

omit [Scalar F] in
theorem iarray_grab {doc : Option (CJ F)} {name : String} {s s' : NState ℕ} {o : ArrOut Int} (hs : s.WF)
    (h : extract_json_int_array doc name s = some (o, s')) :
    Grab s s' ((o.x.getD none).map (·.1)) ∧ 0 ≤ o.status ∧
      (o.status = 0 → ∃ d l, doc = some d ∧ d.get name = some (.arr l) ∧ o.N = some (l.length : Int) ∧
        ((o.x.getD none).map (·.2)).getD [] = l.map CJ.valueint) := by
  cases doc with
  | none => cases h; exact ⟨Grab.none hs rfl rfl rfl, zero_le_one, fun h => by cases h⟩
  | some d =>
    unfold extract_json_int_array at h
    cases hg : d.get name with
    | none => simp only [hg] at h; cases h; exact ⟨Grab.none hs rfl rfl rfl, zero_le_one, fun h => by cases h⟩
    | some c =>
    cases c with
    | arr l =>
      simp only [hg] at h
      obtain ⟨p, s1, h1, h2⟩ := nbind_some h
      have g := (ncalloc_grab hs h1).1
      cases p with
      | none =>
        dsimp only at h2
        split_ifs at h2 with hl
        · cases h2
        · cases h2
          have : l = [] := List.eq_nil_of_length_eq_zero (by omega)
          subst this
          exact ⟨g, le_rfl, fun _ => ⟨d, [], rfl, hg, congrArg Option.some (toCInt_of_fits (by unfold FitsInt INT_MAX INT_MIN; simp)), rfl⟩⟩
      | some b =>
        dsimp only at h2
        split_ifs at h2 with hl
        · cases h2
        · cases h2
          have hN : toCInt (l.length : Int) = l.length := by
            have := toCInt_fits (l.length : Int)
            unfold FitsInt INT_MAX at this
            exact toCInt_of_fits ⟨by unfold INT_MIN; omega, by unfold INT_MAX; omega⟩
          exact ⟨g, le_rfl, fun _ => ⟨d, l, rfl, hg, by rw [hN], rfl⟩⟩
    | _ => simp only [hg] at h; cases h; exact ⟨Grab.none hs rfl rfl rfl, zero_le_one, fun h => by cases h⟩

/-- a release -/
theorem nfree_ins {σ : Type} {s s' : NState σ} {p : Option ℕ} {A : Finset ℕ} (hl : s.live = ins p A) (hp : ∀ b, p = some b → b ∉ A)
    (h : nfree p s = some ((), s')) : s'.live = A ∧ s'.cb = s.cb := by
  cases p with
  | none => cases h; exact ⟨hl, rfl⟩
  | some b =>
    unfold nfree at h
    simp only at h
    split_ifs at h
    cases h
    exact ⟨by rw [hl]; exact Finset.erase_insert (hp b rfl), rfl⟩

theorem ins_comm (p q : Option ℕ) (A : Finset ℕ) : ins p (ins q A) = ins q (ins p A) := by
  cases p <;> cases q <;> simp [ins, Finset.insert_comm]

theorem not_ins {p : Option ℕ} {A : Finset ℕ} {b : ℕ} (h1 : b ∉ A) (h2 : p ≠ some b) : b ∉ ins p A := by
  cases p with
  | none => exact h1
  | some c =>
    simp only [ins, Finset.mem_insert, not_or]
    exact ⟨fun e => h2 (by rw [e]), h1⟩

theorem Grab.fresh {σ : Type} {s s' : NState σ} {p : Option ℕ} (hs : s.WF) (g : Grab s s' p) {b : ℕ} (h : p = Option.some b) :
    b ∉ s.live ∧ s.next ≤ b ∧ b < s'.next := by
  refine ⟨fun hc => ?_, g.new b h, ?_⟩
  · have := hs b hc
    have := g.new b h
    omega
  · apply g.wf
    rw [g.live, h]
    exact Finset.mem_insert_self _ _

omit [Scalar F] in
theorem extract_int_inv (doc : Option (CJ F)) (name : String) :
    0 ≤ (extract_json_int doc name).1 ∧ ((extract_json_int doc name).1 = 0 → ∃ d v m, doc = some d ∧ d.get name = some (.num v m) ∧
      (extract_json_int doc name).2 = some m) := by
  cases doc with
  | none => exact ⟨zero_le_one, fun h => by cases h⟩
  | some d =>
    cases hg : d.get name with
    | none => simp only [extract_json_int, hg]; exact ⟨zero_le_one, fun h => by cases h⟩
    | some c =>
      cases c with
      | num v m => simp only [extract_json_int, hg]; exact ⟨le_rfl, fun _ => ⟨d, v, m, rfl, hg, rfl⟩⟩
      | _ => simp only [extract_json_int, hg]; exact ⟨zero_le_one, fun h => by cases h⟩

/-- releasing four blocks in the order of the program -/
theorem free_four {σ : Type} {s s1 s2 s3 s4 : NState σ} {f x p b : Option ℕ} {A : Finset ℕ} (hl : s.live = ins x (ins p (ins b (ins f A))))
    (hf : ∀ k, f = some k → k ∉ ins x (ins p (ins b A))) (hx : ∀ k, x = some k → k ∉ ins p (ins b A)) (hp : ∀ k, p = some k → k ∉ ins b A)
    (hb : ∀ k, b = some k → k ∉ A) (h1 : nfree f s = some ((), s1)) (h2 : nfree x s1 = some ((), s2)) (h3 : nfree p s2 = some ((), s3))
    (h4 : nfree b s3 = some ((), s4)) : s4.live = A ∧ s4.cb = s.cb := by
  have e1 := nfree_ins (by rw [hl, ins_comm b f, ins_comm p f, ins_comm x f]) hf h1
  have e2 := nfree_ins e1.1 hx h2
  have e3 := nfree_ins e2.1 hp h3
  have e4 := nfree_ins e3.1 hb h4
  exact ⟨e4.1, by rw [e4.2, e3.2, e2.2, e1.2]⟩

end L1c
