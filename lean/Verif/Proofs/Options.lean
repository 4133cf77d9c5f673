import Verif.Proofs.NestaBindings
import Verif.Spec.Options

/-!
# Facts about option parsing
-/

namespace L1c
open Scalar

section gen
variable {F : Type} [Scalar F] {resolve : String → Option String} {d args : List (String × MxFld F)} {st st' : String → Option (MxFld F)} {name : String}

omit [Scalar F] in
theorem inputParse_value (h : inputParse resolve st args = some st') (name : String) (v : MxFld F) : st' name = some v ↔
    (∃ pre n suf, args = pre ++ (n, v) :: suf ∧ resolve n = some name ∧ ∀ x ∈ suf, resolve x.1 ≠ some name) ∨
    ((∀ x ∈ args, resolve x.1 ≠ some name) ∧ st name = some v) := by
  induction args generalizing st with
  | nil =>
    obtain rfl := Option.some.inj h
    constructor
    · exact fun h => Or.inr ⟨by simp, h⟩
    · rintro (⟨pre, n, suf, h, -⟩ | ⟨-, h⟩)
      · cases pre <;> cases h
      · exact h
  | cons p rest ih =>
    obtain ⟨n, w⟩ := p
    unfold inputParse at h
    cases hr : resolve n with
    | none => rw [hr] at h; cases h
    | some q =>
      rw [hr] at h
      dsimp only at h
      split at h
      · cases h
      rw [ih h]
      constructor
      · rintro (⟨pre, n', suf, rfl, h1, h2⟩ | ⟨h1, h2⟩)
        · exact Or.inl ⟨(n, w) :: pre, n', suf, rfl, h1, h2⟩
        · by_cases hq : name = q
          · subst hq
            rw [Function.update_self] at h2
            obtain rfl := Option.some.inj h2
            exact Or.inl ⟨[], n, rest, rfl, hr, h1⟩
          · rw [Function.update_of_ne hq] at h2
            refine Or.inr ⟨fun x hx => ?_, h2⟩
            rcases List.mem_cons.1 hx with rfl | hx
            · rw [hr]; exact fun e => hq (Option.some.inj e).symm
            · exact h1 x hx
      · rintro (⟨pre, n', suf, he, h1, h2⟩ | ⟨h1, h2⟩)
        · cases pre with
          | nil =>
            rw [List.nil_append, List.cons.injEq, Prod.mk.injEq] at he
            obtain ⟨⟨rfl, rfl⟩, rfl⟩ := he
            rw [hr] at h1
            obtain rfl := Option.some.inj h1
            exact Or.inr ⟨h2, Function.update_self ..⟩
          | cons p pre =>
            rw [List.cons_append, List.cons.injEq] at he
            obtain ⟨rfl, rfl⟩ := he
            exact Or.inl ⟨pre, n', suf, rfl, h1, h2⟩
        · refine Or.inr ⟨fun x hx => h1 x (List.mem_cons_of_mem _ hx), ?_⟩
          have : name ≠ q := by
            rintro rfl
            exact h1 (n, w) (by simp) hr
          rw [Function.update_of_ne this]
          exact h2

omit [Scalar F] in
theorem inputParse_isSome (h : inputParse resolve st args = some st') (name : String) : (st' name).isSome ↔ (st name).isSome := by
  induction args generalizing st with
  | nil => obtain rfl := Option.some.inj h; rfl
  | cons p rest ih =>
    obtain ⟨n, w⟩ := p
    unfold inputParse at h
    cases hr : resolve n with
    | none => rw [hr] at h; cases h
    | some q =>
      rw [hr] at h
      dsimp only at h
      split at h
      · cases h
      rename_i hq
      rw [ih h]
      by_cases e : name = q
      · subst e
        rw [Function.update_self]
        cases hs : st name <;> simp_all
      · rw [Function.update_of_ne e]

omit [Scalar F] in
theorem inputParse_ok : (∃ st', inputParse resolve st args = some st') ↔ ∀ x ∈ args, ∃ p, resolve x.1 = some p ∧ (st p).isSome := by
  induction args generalizing st with
  | nil => simp [inputParse]
  | cons p rest ih =>
    obtain ⟨n, w⟩ := p
    unfold inputParse
    cases hr : resolve n with
    | none =>
      simp only [List.forall_mem_cons, hr]
      simp
    | some q =>
      dsimp only
      split
      · rename_i hq
        simp only [List.forall_mem_cons, hr]
        constructor
        · rintro ⟨_, h⟩; cases h
        · rintro ⟨⟨p, h1, h2⟩, -⟩
          obtain rfl := Option.some.inj h1
          cases hs : st q <;> simp_all
      · rename_i hq
        have hsome : ∀ p, ((Function.update st q (some w)) p).isSome ↔ (st p).isSome := by
          intro p
          by_cases e : p = q
          · subst e; rw [Function.update_self]; cases hs : st p <;> simp_all
          · rw [Function.update_of_ne e]
        rw [ih, List.forall_mem_cons]
        constructor
        · intro h
          refine ⟨⟨q, hr, by cases hs : st q <;> simp_all⟩, fun x hx => ?_⟩
          obtain ⟨p, h1, h2⟩ := h x hx
          exact ⟨p, h1, (hsome p).1 h2⟩
        · rintro ⟨-, h⟩ x hx
          obtain ⟨p, h1, h2⟩ := h x hx
          exact ⟨p, h1, (hsome p).2 h2⟩

omit [Scalar F] in
theorem addParameters_iff (hd : (d.map (·.1)).Nodup) (name : String) (v : MxFld F) : addParameters d name = some v ↔ (name, v) ∈ d := by
  unfold addParameters
  induction d with
  | nil => simp
  | cons p d ih =>
    obtain ⟨n, w⟩ := p
    rw [List.map_cons, List.nodup_cons] at hd
    rw [List.find?_cons]
    by_cases e : n = name
    · subst e
      simp only [decide_true, Option.map_some, Option.some.injEq, List.mem_cons, Prod.mk.injEq, true_and]
      constructor
      · rintro rfl; exact Or.inl rfl
      · rintro (rfl | h)
        · rfl
        · exact absurd (List.mem_map.2 ⟨_, h, rfl⟩) hd.1
    · simp only [e, decide_false]
      rw [ih hd.2, List.mem_cons]
      constructor
      · exact Or.inr
      · rintro (h | h)
        · cases h; exact absurd rfl e
        · exact h

theorem l1qcDefaults_nodup : ((l1qcDefaults : List (String × MxFld F)).map (·.1)).Nodup := by
  simp [l1qcDefaults]

theorem nestaDefaults_nodup : ((nestaDefaults : List (String × MxFld F)).map (·.1)).Nodup := by
  simp [nestaDefaults]

omit [Scalar F] in
theorem parse_chosen (hd : (d.map (·.1)).Nodup) (h : inputParse resolve (addParameters d) args = some st) (name : String) (v : MxFld F) :
    st name = some v ↔ Chosen d resolve args name v := by
  rw [inputParse_value h, addParameters_iff hd]; rfl

theorem chosenNum_iff (hd : (d.map (·.1)).Nodup) (h : inputParse resolve (addParameters d) args = some st) (name : String) (x : F) :
    IsMxField (numField st) name x ↔ ChosenNum d resolve args name x := by
  unfold IsMxField ChosenNum numField
  refine exists_congr fun k => ?_
  rw [← parse_chosen hd h]
  cases hs : st name with
  | none => simp
  | some v =>
    cases v with
    | num a => simp
    | str s =>
      simp only [Option.map_some, Option.some.injEq, reduceCtorEq, iff_false]
      intro e
      have := congrArg MxArr.isDouble e
      cases this

omit [Scalar F] in
theorem mode_iff (hd : (d.map (·.1)).Nodup) (h : inputParse resolve (addParameters d) args = some st) (s : String) :
    modeField st = some (some s) ↔ Chosen d resolve args "bp_mode" (.str s) := by
  rw [← parse_chosen hd h]
  unfold modeField
  cases hs : st "bp_mode" with
  | none => simp
  | some v => cases v <;> simp

/-! ### Python -/

variable {pa : List (PyVal F)} {kw : List (String × PyVal F)} {i : ℕ}

omit [Scalar F] in
theorem find_kw (hk : (kw.map (·.1)).Nodup) (name : String) (v : PyVal F) : (kw.find? fun x => x.1 = name).map (·.2) = some v ↔ (name, v) ∈ kw := by
  induction kw with
  | nil => simp
  | cons p d ih =>
    obtain ⟨n, w⟩ := p
    rw [List.map_cons, List.nodup_cons] at hk
    rw [List.find?_cons]
    by_cases e : n = name
    · subst e
      simp only [decide_true, Option.map_some, Option.some.injEq, List.mem_cons, Prod.mk.injEq, true_and]
      constructor
      · rintro rfl; exact Or.inl rfl
      · rintro (rfl | h)
        · rfl
        · exact absurd (List.mem_map.2 ⟨_, h, rfl⟩) hk.1
    · simp only [e, decide_false]
      rw [ih hk.2, List.mem_cons]
      constructor
      · exact Or.inr
      · rintro (h | h)
        · cases h; exact absurd rfl e
        · exact h

omit [Scalar F] in
theorem pySlot_iff (hk : (kw.map (·.1)).Nodup) (hn : name ≠ "") (v : PyVal F) : pySlot pa kw i name = some v ↔ PyGiven pa kw i name v := by
  unfold pySlot PyGiven
  split
  · rename_i h
    constructor
    · exact Or.inl
    · rintro (h1 | ⟨h1, -⟩)
      · exact h1
      · omega
  · rename_i h
    rw [find_kw hk]
    constructor
    · exact fun h1 => Or.inr ⟨by omega, h1⟩
    · rintro (h1 | ⟨-, h1⟩)
      · rw [List.getElem?_eq_none (by omega)] at h1; cases h1
      · exact h1

omit [Scalar F] in
theorem pySlot_pos : pySlot pa kw i "" = pa[i]? := by
  unfold pySlot
  split
  · rfl
  · rw [if_pos rfl, List.getElem?_eq_none (by omega)]

theorem pyD_iff (hk : (kw.map (·.1)).Nodup) (hn : name ≠ "") {dflt x : F} : pyD dflt (pySlot pa kw i name) = some x ↔ PyNum pa kw i name dflt x := by
  unfold PyNum
  simp only [← pySlot_iff hk hn]
  cases hs : pySlot pa kw i name with
  | none => simp [pyD, eq_comm]
  | some v =>
    simp only [pyD, Option.some.injEq, exists_eq_left', forall_eq', false_and, or_false]
    cases hv : v.num with
    | none => simp
    | some n => cases n <;> simp [eq_comm]

omit [Scalar F] in
theorem pyI_iff (hk : (kw.map (·.1)).Nodup) (hn : name ≠ "") {dflt z : Int} : pyI dflt (pySlot pa kw i name) = some z ↔ PyInteger pa kw i name dflt z := by
  unfold PyInteger
  simp only [← pySlot_iff hk hn]
  cases hs : pySlot pa kw i name with
  | none => simp [pyI, eq_comm]
  | some v =>
    simp only [pyI, Option.some.injEq, exists_eq_left', forall_eq', false_and, or_false]
    cases hv : v.num with
    | none => simp
    | some n =>
      cases n with
      | inr x => simp
      | inl k =>
        simp only [Option.some.injEq, Sum.inl.injEq]
        constructor
        · intro h
          split at h
          · cases h; exact ⟨rfl, by assumption⟩
          · cases h
        · rintro ⟨rfl, h⟩
          rw [if_pos h]

omit [Scalar F] in
theorem pyI_pos {v : PyVal F} {dflt z : Int} : pyI dflt (some v) = some z ↔ v.num = some (.inl z) ∧ FitsInt z := by
  simp only [pyI]
  cases hv : v.num with
  | none => simp
  | some n =>
    cases n with
    | inr x => simp
    | inl k =>
      simp only [Option.some.injEq, Sum.inl.injEq]
      constructor
      · intro h
        split at h
        · cases h; exact ⟨rfl, by assumption⟩
        · cases h
      · rintro ⟨rfl, h⟩
        rw [if_pos h]

omit [Scalar F] in
theorem pyNames_iff {n : ℕ} {names : List String} : pyNamesOk n n names pa kw = true ↔ PyNames n names pa kw := by
  unfold pyNamesOk PyNames
  simp only [Bool.and_eq_true, decide_eq_true_eq, List.all_eq_true, and_assoc]
  refine and_congr_right fun h1 => and_congr_right fun h2 => forall₂_congr fun p hp => ?_
  rw [List.mem_iff_getElem?]
  simp only [List.getElem?_drop]
  constructor
  · rintro ⟨j, hj⟩
    exact ⟨_, hj, by omega⟩
  · rintro ⟨j, hj, hl⟩
    exact ⟨j - (pa.length - n), by rw [← hj]; congr 1; omega⟩

end gen

end L1c
