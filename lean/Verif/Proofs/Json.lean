import Verif.Model.Json
import Verif.Proofs.NestaRes
import Verif.Proofs.L1qcDct

/-!
# Helper lemmas: loading JSON files

`e.stream` is what the file contains.  For an ordinary file `e.ftell` is its length.
-/

namespace L1c
open Scalar

variable {J : Type} {parse : List UInt8 → Option J} {e : FileEnv} {s s' : NState ℕ} {st : Int} {doc : Option (Option J)}

/-! ## Helpers -/

theorem toCInt_of_fits {z : Int} (h : FitsInt z) : toCInt z = z := by
  unfold FitsInt INT_MAX INT_MIN at h
  unfold toCInt
  omega

theorem toCInt_fits (z : Int) : FitsInt (toCInt z) := by
  unfold FitsInt INT_MAX INT_MIN toCInt
  omega

theorem freadSize_nonneg {z : Int} (h : FitsInt z) (h0 : 0 ≤ z) : freadSize z = z.toNat := by
  unfold FitsInt INT_MAX INT_MIN at h
  unfold freadSize
  omega

theorem freadSize_neg {z : Int} (h : FitsInt z) (h0 : z < 0) : 4294967296 ≤ freadSize z := by
  unfold FitsInt INT_MAX INT_MIN at h
  unfold freadSize
  omega

theorem cstring_append_zero {a : List UInt8} {k : ℕ} : cstring (a ++ List.replicate k 0) = cstring a := by
  unfold cstring
  induction a with
  | nil => cases k <;> simp [List.replicate_succ]
  | cons x a ih =>
    by_cases hx : x = 0
    · simp [hx]
    · simp only [List.cons_append, List.takeWhile_cons, hx, ne_eq, not_false_eq_true, decide_true, if_true, ih]

/-- the loader, by cases on what the environment does -/
theorem text_run (_hs : s.WF) : let len := toCInt e.ftell
    (e.opens = false → load_file_as_text e s = some ((1, none), s)) ∧
    (e.opens = true → len = INT_MAX → load_file_as_text e s = none) ∧
    (e.opens = true → len < INT_MAX → (len < -1 ∨ s.oracle s.calls = false) →
      load_file_as_text e s = some ((1, none), { s with calls := s.calls + 1 })) ∧
    (e.opens = true → len < INT_MAX → -1 ≤ len → s.oracle s.calls = true → ¬ (len = -1 ∧ 0 < e.stream.length) →
      ∃ text, load_file_as_text e s = some ((if 0 < len ∧ len ≤ e.stream.length then 0 else 1, some (s.next, text)),
        { s with live := insert s.next s.live, next := s.next + 1, calls := s.calls + 1 }) ∧
        cstring text = cstring (e.stream.take len.toNat)) ∧
    (e.opens = true → len = -1 → s.oracle s.calls = true → 0 < e.stream.length → load_file_as_text e s = none) := by
  intro len
  have hlen : FitsInt len := toCInt_fits _
  have hlen' := hlen
  unfold FitsInt INT_MAX INT_MIN at hlen'
  have hopen : e.opens = true → load_file_as_text e s = (if ¬ FitsInt (len + 1) then nub
    else do
      let p ← ncalloc (len + 1)
      match p with
      | none => do
        fclose
        pure (1, none)
      | some b => do
        let got := e.stream.take (freadSize len)
        if (got.length : Int) > len + 1 then nub
        else do
          fclose
          let text := got ++ List.replicate ((len + 1).toNat - got.length) 0
          if freadSize len ≠ 0 ∧ freadSize len ≤ e.stream.length then pure (0, some (b, text))
          else pure (1, some (b, text)) : NM ℕ (Int × Option (ℕ × List UInt8))) { s with cb := s.cb + 1 } := by
    intro ho
    unfold load_file_as_text
    rw [if_neg (by simp [ho]), nbind (show fopened s = some ((), { s with cb := s.cb + 1 }) from rfl)]
    rfl
  refine ⟨fun ho => ?_, fun ho h => ?_, fun ho h h1 => ?_, fun ho h h1 h2 h3 => ?_, fun ho h h1 h2 => ?_⟩
  · unfold load_file_as_text
    rw [if_pos (by simp [ho])]
    rfl
  · rw [hopen ho, if_pos (by unfold FitsInt; omega)]
    rfl
  · rw [hopen ho, if_neg (by unfold FitsInt INT_MAX INT_MIN; unfold INT_MAX at h; omega)]
    have hc : ncalloc (len + 1) { s with cb := s.cb + 1 } = some (none, { s with cb := s.cb + 1, calls := s.calls + 1 }) := by
      unfold ncalloc
      split
      · rfl
      · rcases h1 with h1 | h1
        · omega
        · exact nalloc_fail (s := { s with cb := s.cb + 1 }) h1
    rw [nbind hc]
    dsimp only
    rw [nbind (show fclose { s with cb := s.cb + 1, calls := s.calls + 1 } = some ((), { s with cb := s.cb + 1 - 1, calls := s.calls + 1 }) from rfl)]
    simp only [Nat.add_sub_cancel]
    rfl
  · rw [hopen ho, if_neg (by unfold FitsInt INT_MAX INT_MIN; unfold INT_MAX at h; omega)]
    have hc : ncalloc (len + 1) { s with cb := s.cb + 1 } =
        some (some s.next, { s with cb := s.cb + 1, live := insert s.next s.live, next := s.next + 1, calls := s.calls + 1 }) := by
      unfold ncalloc
      rw [if_neg (by omega)]
      exact nalloc_ok (s := { s with cb := s.cb + 1 }) h2
    rw [nbind hc]
    dsimp only
    by_cases h0 : 0 ≤ len
    · rw [freadSize_nonneg hlen h0]
      rw [if_neg (by rw [List.length_take]; omega)]
      rw [nbind (show fclose { s with cb := s.cb + 1, live := insert s.next s.live, next := s.next + 1, calls := s.calls + 1 } =
        some ((), { s with cb := s.cb + 1 - 1, live := insert s.next s.live, next := s.next + 1, calls := s.calls + 1 }) from rfl)]
      simp only [Nat.add_sub_cancel]
      refine ⟨List.take len.toNat e.stream ++ List.replicate ((len + 1).toNat - (List.take len.toNat e.stream).length) 0, ?_, cstring_append_zero⟩
      by_cases hr : 0 < len ∧ len ≤ e.stream.length
      · rw [if_pos hr, if_pos (by omega)]
        rfl
      · rw [if_neg hr, if_neg (by omega)]
        rfl
    · have hm1 : len = -1 := by omega
      have hst : e.stream = [] := by
        by_contra hc
        exact h3 ⟨hm1, List.length_pos_iff.2 hc⟩
      have hb := freadSize_neg hlen (by omega)
      rw [hst]
      rw [if_neg (by simp; omega)]
      rw [nbind (show fclose { s with cb := s.cb + 1, live := insert s.next s.live, next := s.next + 1, calls := s.calls + 1 } =
        some ((), { s with cb := s.cb + 1 - 1, live := insert s.next s.live, next := s.next + 1, calls := s.calls + 1 }) from rfl)]
      simp only [Nat.add_sub_cancel]
      refine ⟨List.take (freadSize len) [] ++ List.replicate ((len + 1).toNat - (List.take (freadSize len) ([] : List UInt8)).length) 0, ?_,
        by rw [cstring_append_zero]; simp⟩
      rw [if_neg (by rw [List.length_nil]; omega), if_neg (by omega)]
      rfl
  · rw [hopen ho, if_neg (by unfold FitsInt INT_MAX INT_MIN; omega)]
    have hc : ncalloc (len + 1) { s with cb := s.cb + 1 } =
        some (some s.next, { s with cb := s.cb + 1, live := insert s.next s.live, next := s.next + 1, calls := s.calls + 1 }) := by
      unfold ncalloc
      rw [if_neg (by omega)]
      exact nalloc_ok (s := { s with cb := s.cb + 1 }) h1
    rw [nbind hc]
    dsimp only
    have hb := freadSize_neg hlen (by omega)
    rw [if_pos (by rw [List.length_take]; omega)]
    rfl

end L1c
