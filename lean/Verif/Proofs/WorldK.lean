import Verif.Model.World
import Verif.Proofs.DctTVK
import Mathlib.Tactic.IntervalCases

/-! # Lemmas on the setup and destroy functions -/

namespace L1c
open Scalar

set_option linter.unusedSectionVars false
set_option linter.unusedSimpArgs false

variable {F : Type} [Scalar F]

theorem wbind {α β : Type} (c : WM F α) (f : α → WM F β) (w : World F) :
    (c >>= f) w = match c w with | none => none | some (a, w') => f a w' := by
  show (c w >>= fun x => f x.1 x.2) = _
  cases h : c w with
  | none => rfl
  | some x => rfl

@[simp] theorem wbind_some {α β : Type} {c : WM F α} {f : α → WM F β} {w : World F} {a : α} {w' : World F}
    (h : c w = some (a, w')) : (c >>= f) w = f a w' := by rw [wbind, h]

theorem wbind_none {α β : Type} {c : WM F α} {f : α → WM F β} {w : World F} (h : c w = none) : (c >>= f) w = none := by
  rw [wbind, h]

theorem wpure {α : Type} (a : α) (w : World F) : (pure a : WM F α) w = some (a, w) := rfl

theorem wmodify (f : World F → World F) (w : World F) : (modify f : WM F PUnit) w = some (⟨⟩, f w) := rfl

/-- ids at or above `next` were never handed out -/
def World.WF (w : World F) : Prop := ∀ b, w.next ≤ b → w.obj b = none

def World.push (w : World F) (o : Obj F) : World F :=
  { w with obj := Function.update w.obj w.next (some o), next := w.next + 1, calls := w.calls + 1 }

def World.skip (w : World F) : World F := { w with calls := w.calls + 1 }

theorem wnew_eq (o : ℕ → Obj F) (w : World F) :
    wnew o w = some (if w.oracle w.calls then (some w.next, w.push (o w.next)) else (none, w.skip)) := by
  unfold wnew
  split
  · rename_i h; rfl
  · rename_i h; rfl

theorem wcalloc_eq (len : ℕ) (w : World F) : wcalloc len w =
    some (if w.oracle w.calls then (some w.next, w.push (.arr ⟨len, fun _ => lit 0⟩)) else (none, w.skip)) := wnew_eq _ w

theorem wmalloc_eq (len : ℕ) (w : World F) : wmalloc len w =
    some (if w.oracle w.calls then (some w.next, w.push (.arr ⟨len, fun i => w.junk w.next i⟩)) else (none, w.skip)) := wnew_eq _ w

/-- 1-D setup with all requests granted -/
theorem dct1_setup_ok (n m : ℕ) (idx : List Int) (w : World F) (h : ∀ i < 5, w.oracle (w.calls + i) = true) :
    ∃ w', l1c_dct1_setup n m idx w = some ((L1C_SUCCESS, some ⟨n, m, m, m, lit 1, .d1⟩), w') ∧
      w' = { w with
        obj := Function.update (Function.update (Function.update (Function.update (Function.update w.obj
          w.next (some (.arr ⟨m, fun _ => lit 0⟩))) (w.next + 1) (some (.arr ⟨m, fun _ => lit 0⟩)))
          (w.next + 2) (some (.arr ⟨m, fun _ => lit 0⟩))) (w.next + 3) (some (.plan (.fwd1 m) w.next (w.next + 1))))
          (w.next + 4) (some (.plan (.inv1 m) (w.next + 1) (w.next + 2)))
        next := w.next + 5
        calls := w.calls + 5
        g1 := ⟨some w.next, some (w.next + 1), some (w.next + 2), some (w.next + 3), some (w.next + 4), m, n, idx⟩ } := by
  have h0 : w.oracle w.calls = true := h 0 (by omega)
  have h1 := h 1 (by omega)
  have h2 := h 2 (by omega)
  have h3 := h 3 (by omega)
  have h4 := h 4 (by omega)
  refine ⟨_, ?_, rfl⟩
  simp [l1c_dct1_setup, wbind, wcalloc_eq, wnew_eq, wmodify, wpure, World.push, h0, h1, h2, h3, h4, add_assoc]


theorem wfree_arr {w : World F} {b : ℕ} {a : Arr F} (h : w.obj b = some (.arr a)) :
    wfree (some b) w = some ((), { w with obj := Function.update w.obj b none }) := by
  simp only [wfree, h]

theorem wfree_dead {w : World F} {b : ℕ} (h : w.obj b = none) : wfree (some b) w = none := by
  simp only [wfree, h]

theorem wfree_none (w : World F) : wfree none w = some ((), w) := rfl

theorem wdestroyPlan_plan {w : World F} {b : ℕ} {k : PlanKind} {i o : ℕ} (h : w.obj b = some (.plan k i o)) :
    wdestroyPlan (some b) w = some ((), { w with obj := Function.update w.obj b none }) := by
  simp only [wdestroyPlan, h]

theorem wdestroyPlan_dead {w : World F} {b : ℕ} (h : w.obj b = none) : wdestroyPlan (some b) w = none := by
  simp only [wdestroyPlan, h]

theorem wdestroyPlan_none (w : World F) : wdestroyPlan none w = some ((), w) := rfl

theorem wcleanup_false {w : World F} (h : w.threads = false) : wcleanup w = some ((), w) := by
  simp [wcleanup, h]

theorem dct_destroy_eq (w : World F) : dct_destroy w = (do
    wfree w.g1.Ety
    wfree w.g1.x
    wfree w.g1.y
    wdestroyPlan w.g1.pE
    wdestroyPlan w.g1.pM
    wcleanup : WM F Unit) w := rfl

theorem dct2_destroy_eq (w : World F) : dct2_destroy w = (do
    wfree w.g2.Ety
    wfree w.g2.x
    wfree w.g2.y
    wdestroyPlan w.g2.pE
    wdestroyPlan w.g2.pM
    wcleanup : WM F Unit) w := rfl

/-- what a failed setup leaves behind: the same live objects, the same variables of the other modules -/
structure Same1 (w w' : World F) : Prop where
  obj : w'.obj = w.obj
  next : w.next ≤ w'.next
  oracle : w'.oracle = w.oracle
  junk : w'.junk = w.junk
  threads : w'.threads = w.threads
  g2 : w'.g2 = w.g2
  gt : w'.gt = w.gt
  gm : w'.gm = w.gm

theorem dct1_setup_fail (n m : ℕ) (idx : List Int) (w : World F) (hw : w.WF) (ht : w.threads = false)
    (h : ¬ ∀ i < 5, w.oracle (w.calls + i) = true)
    (h' : (∀ i < 3, w.oracle (w.calls + i) = true) ∨ (w.g1.pM = none ∧ w.g1.pE = none)) :
    ∃ st w', l1c_dct1_setup n m idx w = some ((st, none), w') ∧ Same1 w w' ∧
      ((∀ i < 3, w.oracle (w.calls + i) = true) → st = L1C_DCT_INIT_FAILURE) ∧
      ((¬ ∀ i < 3, w.oracle (w.calls + i) = true) → st = L1C_OUT_OF_MEMORY) ∧
      ((¬ ∀ i < 3, w.oracle (w.calls + i) = true) → w'.g1.pM = none ∧ w'.g1.pE = none) ∧
      ((∀ i < 3, w.oracle (w.calls + i) = true) → ∀ b, (w'.g1.pM = some b ∨ w'.g1.pE = some b) → w.next ≤ b ∧ b < w'.next) := by
  have a3 : (∀ i < 3, w.oracle (w.calls + i) = true) ↔
      w.oracle w.calls = true ∧ w.oracle (w.calls + 1) = true ∧ w.oracle (w.calls + 2) = true :=
    ⟨fun h => ⟨h 0 (by omega), h 1 (by omega), h 2 (by omega)⟩, fun ⟨h0, h1, h2⟩ i hi => by
      interval_cases i <;> assumption⟩
  have a5 : (∀ i < 5, w.oracle (w.calls + i) = true) ↔
      (w.oracle w.calls = true ∧ w.oracle (w.calls + 1) = true ∧ w.oracle (w.calls + 2) = true) ∧
        w.oracle (w.calls + 3) = true ∧ w.oracle (w.calls + 4) = true :=
    ⟨fun h => ⟨⟨h 0 (by omega), h 1 (by omega), h 2 (by omega)⟩, h 3 (by omega), h 4 (by omega)⟩,
      fun ⟨⟨h0, h1, h2⟩, h3, h4⟩ i hi => by interval_cases i <;> assumption⟩
  rw [a5] at h
  rw [a3] at h'
  simp only [a3]
  have d0 := hw w.next le_rfl
  have d1 := hw (w.next + 1) (by omega)
  have d2 := hw (w.next + 2) (by omega)
  have d3 := hw (w.next + 3) (by omega)
  cases e0 : w.oracle w.calls <;> cases e1 : w.oracle (w.calls + 1) <;> cases e2 : w.oracle (w.calls + 2) <;>
    simp only [e0, e1, e2, Bool.false_eq_true, and_false, false_and, and_self, false_or, true_and, not_and, not_false_eq_true, true_or, not_true] at h h' ⊢
  case true.true.true =>
    cases e3 : w.oracle (w.calls + 3) <;> cases e4 : w.oracle (w.calls + 4)
    case true.true => simp [e3, e4] at h
    all_goals
      generalize hr : l1c_dct1_setup n m idx w = r
      simp [l1c_dct1_setup, dct_destroy_eq, wbind, wcalloc_eq, wnew_eq, wmodify, wpure, World.push, World.skip, e0, e1, e2, e3, e4, add_assoc,
        wfree, wdestroyPlan, wcleanup, ht, -bind_pure_comp] at hr
      subst hr
      refine ⟨_, _, rfl, ⟨?_, by simp, rfl, rfl, by simp [ht], rfl, rfl, rfl⟩, by simp, by simp, by simp, ?_⟩
      · funext b
        simp only [Function.update_apply]
        split_ifs <;> simp_all
      · intro _ b hb
        simp at hb ⊢
        first | done | omega
  all_goals
    generalize hr : l1c_dct1_setup n m idx w = r
    simp [l1c_dct1_setup, dct_destroy_eq, wbind, wcalloc_eq, wnew_eq, wmodify, wpure, World.push, World.skip, e0, e1, e2, h', add_assoc,
      wfree, wdestroyPlan, wcleanup, ht, -bind_pure_comp] at hr
    subst hr
    refine ⟨_, _, rfl, ⟨?_, by simp, rfl, rfl, by simp [ht], rfl, rfl, rfl⟩, by simp, by simp, by simp, ?_⟩
    · first | rfl | (funext b; simp only [Function.update_apply]; split_ifs <;> simp_all)
    · intro hc; simp at hc

theorem wdestroyPlan_some {w w' : World F} {p : Option ℕ} (h : wdestroyPlan p w = some ((), w')) :
    w' = { w with obj := fun b => if p = some b then none else w.obj b } := by
  unfold wdestroyPlan at h
  cases p with
  | none => cases h; simp
  | some c =>
    dsimp only at h
    split at h
    · cases h
      congr 1
      funext b
      simp only [Function.update_apply, Option.some.injEq]
      by_cases hb : b = c
      · rw [if_pos hb, if_pos hb.symm]
      · rw [if_neg hb, if_neg (Ne.symm hb)]
    · cases h

/-- a 1-D setup that runs out of memory, if it is defined: the plans the variables point to are gone, nothing else changes -/
theorem dct1_setup_oom {n m : ℕ} {idx : List Int} {w w' : World F} (hw : w.WF) (ht : w.threads = false)
    (h : ¬ ∀ i < 3, w.oracle (w.calls + i) = true) {r : Int × Option (AxFuns F)} (hs : l1c_dct1_setup n m idx w = some (r, w')) :
    r = (L1C_OUT_OF_MEMORY, none) ∧ w.next ≤ w'.next ∧ w'.threads = w.threads ∧ w'.g2 = w.g2 ∧ w'.gt = w.gt ∧ w'.gm = w.gm ∧
      w'.g1.pM = w.g1.pM ∧ w'.g1.pE = w.g1.pE ∧ (∀ b, w'.obj b = none ∨ w'.obj b = w.obj b) ∧
      ∀ b, ¬ (w.g1.pM = some b ∨ w.g1.pE = some b) → w'.obj b = w.obj b := by
  have a3 : (∀ i < 3, w.oracle (w.calls + i) = true) ↔
      w.oracle w.calls = true ∧ w.oracle (w.calls + 1) = true ∧ w.oracle (w.calls + 2) = true :=
    ⟨fun h => ⟨h 0 (by omega), h 1 (by omega), h 2 (by omega)⟩, fun ⟨h0, h1, h2⟩ i hi => by
      interval_cases i <;> assumption⟩
  rw [a3] at h
  have d0 := hw w.next le_rfl
  have d1 := hw (w.next + 1) (by omega)
  have d2 := hw (w.next + 2) (by omega)
  have key : ∃ v : World F, v.obj = w.obj ∧ w.next ≤ v.next ∧ v.threads = w.threads ∧ v.g2 = w.g2 ∧ v.gt = w.gt ∧ v.gm = w.gm ∧
      v.g1.pM = w.g1.pM ∧ v.g1.pE = w.g1.pE ∧ l1c_dct1_setup n m idx w = (((do
        wdestroyPlan w.g1.pE
        wdestroyPlan w.g1.pM
        wcleanup) : WM F Unit) >>= fun _ => (pure (L1C_OUT_OF_MEMORY, none) : WM F (Int × Option (AxFuns F)))) v := by
    cases e0 : w.oracle w.calls <;> cases e1 : w.oracle (w.calls + 1) <;> cases e2 : w.oracle (w.calls + 2)
    case true.true.true => simp [e0, e1, e2] at h
    all_goals
      simp [l1c_dct1_setup, dct_destroy_eq, wbind, wcalloc_eq, wmodify, World.push, World.skip, e0, e1, e2, add_assoc,
        wfree, -bind_pure_comp]
      refine ⟨_, ?_, ?_, ?_, ?_, ?_, ?_, ?_, ?_, rfl⟩
      rotate_left
      · simp
      all_goals first | rfl | (funext b; simp only [Function.update_apply]; split_ifs <;> simp_all)
  obtain ⟨v, k1, k2, k3, k4, k5, k6, k7, k8, e⟩ := key
  rw [e] at hs
  rw [wbind, wbind] at hs
  cases h1 : wdestroyPlan w.g1.pE v with
  | none => rw [h1] at hs; cases hs
  | some x =>
    obtain ⟨⟨⟩, v1⟩ := x
    rw [h1] at hs
    dsimp only at hs
    rw [wbind] at hs
    cases h2 : wdestroyPlan w.g1.pM v1 with
    | none => rw [h2] at hs; cases hs
    | some x =>
      obtain ⟨⟨⟩, v2⟩ := x
      rw [h2] at hs
      have g1 := wdestroyPlan_some h1
      have g2 := wdestroyPlan_some h2
      have ht2 : v2.threads = false := by rw [g2, g1]; exact k3.trans ht
      dsimp only at hs
      rw [wcleanup_false ht2] at hs
      cases hs
      subst g1
      subst g2
      refine ⟨rfl, k2, k3, k4, k5, k6, k7, k8, fun b => ?_, fun b hb => ?_⟩
      · dsimp only
        rw [k1]
        split_ifs <;> simp
      · dsimp only
        rw [k1, if_neg fun hc => hb (Or.inl hc), if_neg fun hc => hb (Or.inr hc)]

/-- running out of memory with a plan pointer left from an earlier set destroys a dead plan -/
theorem dct1_setup_ub (n m : ℕ) (idx : List Int) (w : World F) {c : ℕ}
    (h : ¬ ∀ i < 3, w.oracle (w.calls + i) = true) (hc : w.g1.pE = some c) (hcn : c < w.next) (hd : w.obj c = none) :
    l1c_dct1_setup n m idx w = none := by
  have a3 : (∀ i < 3, w.oracle (w.calls + i) = true) ↔
      w.oracle w.calls = true ∧ w.oracle (w.calls + 1) = true ∧ w.oracle (w.calls + 2) = true :=
    ⟨fun h => ⟨h 0 (by omega), h 1 (by omega), h 2 (by omega)⟩, fun ⟨h0, h1, h2⟩ i hi => by
      interval_cases i <;> assumption⟩
  rw [a3] at h
  have n0 : c ≠ w.next := by omega
  have n1 : c ≠ w.next + 1 := by omega
  have n2 : c ≠ w.next + 2 := by omega
  cases e0 : w.oracle w.calls <;> cases e1 : w.oracle (w.calls + 1) <;> cases e2 : w.oracle (w.calls + 2)
  case true.true.true => simp [e0, e1, e2] at h
  all_goals
    simp [l1c_dct1_setup, dct_destroy_eq, wbind, wcalloc_eq, wmodify, World.push, World.skip, e0, e1, e2, add_assoc,
      wfree, wdestroyPlan, hc, hd, n0, n1, n2, -bind_pure_comp]

theorem writeAt_full {m : ℕ} (x v : Vec F m) : writeAt 0 x v = some x := by
  rw [writeAt_eq 0 (by omega)]
  congr 1
  funext k
  rw [dif_pos ⟨Nat.zero_le _, by simp⟩]
  rfl

/-- 2-D setup with all requests granted -/
theorem dct2_setup_ok (n mrow mcol : ℕ) (idx : List Int) (w : World F) (h : ∀ i < 5, w.oracle (w.calls + i) = true) :
    ∃ w', l1c_dct2_setup n mrow mcol idx w = some ((L1C_SUCCESS,
        some ⟨n, (mrow * mcol : ℕ), (mrow * mcol : ℕ), (mrow * mcol : ℕ), lit 1, .d2⟩), w') ∧
      w' = { w with
        obj := Function.update (Function.update (Function.update (Function.update (Function.update w.obj
          w.next (some (.arr ⟨mrow * mcol, fun _ => lit 0⟩))) (w.next + 1) (some (.arr ⟨mrow * mcol, fun _ => lit 0⟩)))
          (w.next + 2) (some (.arr ⟨mrow * mcol, fun _ => lit 0⟩))) (w.next + 3) (some (.plan (.fwd2 mrow mcol) w.next (w.next + 1))))
          (w.next + 4) (some (.plan (.inv2 mrow mcol) (w.next + 1) (w.next + 2)))
        next := w.next + 5
        calls := w.calls + 5
        g2 := ⟨some w.next, some (w.next + 1), some (w.next + 2), some (w.next + 3), some (w.next + 4), mrow, mcol, n, idx⟩ } := by
  have h0 : w.oracle w.calls = true := h 0 (by omega)
  have h1 := h 1 (by omega)
  have h2 := h 2 (by omega)
  have h3 := h 3 (by omega)
  have h4 := h 4 (by omega)
  generalize hr : l1c_dct2_setup n mrow mcol idx w = r
  simp [l1c_dct2_setup, wbind, wmalloc_eq, wnew_eq, wmodify, wpure, World.push, h0, h1, h2, h3, h4, add_assoc, wzero, writeAt_full,
    -Nat.cast_mul] at hr
  subst hr
  refine ⟨_, rfl, ?_⟩
  congr 1
  funext b
  simp only [Function.update_apply]
  split_ifs <;> first | rfl | omega

/-- a 2-D setup that fails: never undefined behaviour, and it releases nothing -/
theorem dct2_setup_fail (n mrow mcol : ℕ) (idx : List Int) (w : World F)
    (h : ¬ ∀ i < 5, w.oracle (w.calls + i) = true) :
    ∃ st w' k, l1c_dct2_setup n mrow mcol idx w = some ((st, none), w') ∧
      (st = L1C_DCT_INIT_FAILURE ∨ st = L1C_OUT_OF_MEMORY) ∧ w'.next = w.next + k ∧ w'.threads = w.threads ∧ w'.g1 = w.g1 ∧ w'.gt = w.gt ∧
      w'.gm = w.gm ∧ (∀ b < w.next, w'.obj b = w.obj b) ∧ ∀ b, w.next + k ≤ b → w'.obj b = w.obj b := by
  have a5 : (∀ i < 5, w.oracle (w.calls + i) = true) ↔
      (w.oracle w.calls = true ∧ w.oracle (w.calls + 1) = true ∧ w.oracle (w.calls + 2) = true) ∧
        w.oracle (w.calls + 3) = true ∧ w.oracle (w.calls + 4) = true :=
    ⟨fun h => ⟨⟨h 0 (by omega), h 1 (by omega), h 2 (by omega)⟩, h 3 (by omega), h 4 (by omega)⟩,
      fun ⟨⟨h0, h1, h2⟩, h3, h4⟩ i hi => by interval_cases i <;> assumption⟩
  rw [a5] at h
  cases e0 : w.oracle w.calls <;> cases e1 : w.oracle (w.calls + 1) <;> cases e2 : w.oracle (w.calls + 2)
  case true.true.true =>
    cases e3 : w.oracle (w.calls + 3) <;> cases e4 : w.oracle (w.calls + 4)
    case true.true => simp [e0, e1, e2, e3, e4] at h
    all_goals
      generalize hr : l1c_dct2_setup n mrow mcol idx w = r
      simp [l1c_dct2_setup, wbind, wmalloc_eq, wnew_eq, wmodify, wpure, World.push, World.skip, e0, e1, e2, e3, e4, add_assoc, wzero, writeAt_full] at hr
      subst hr
      refine ⟨_, _, _, rfl, Or.inl rfl, rfl, rfl, rfl, rfl, rfl, fun b hb => ?_, fun b hb => ?_⟩
      all_goals
        simp only [Function.update_apply]
        split_ifs <;> first | rfl | omega
  all_goals
    generalize hr : l1c_dct2_setup n mrow mcol idx w = r
    simp [l1c_dct2_setup, wbind, wmalloc_eq, wmodify, wpure, World.push, World.skip, e0, e1, e2, add_assoc] at hr
    subst hr
    first
    | exact ⟨_, _, 0, rfl, Or.inr rfl, rfl, rfl, rfl, rfl, rfl, fun b hb => rfl, fun b hb => rfl⟩
    | refine ⟨_, _, _, rfl, Or.inr rfl, rfl, rfl, rfl, rfl, rfl, fun b hb => ?_, fun b hb => ?_⟩
      all_goals
        simp only [Function.update_apply]
        split_ifs <;> first | rfl | omega

end L1c
