import Verif.Proofs.Json

/-!
# C57, C60: loading JSON files and reading their fields

`e.stream` is what the file contains.  For an ordinary file `e.ftell` is its length.
-/

namespace L1c
open Scalar

section load
variable {J : Type} {parse : List UInt8 → Option J} {e : FileEnv} {s s' : NState ℕ} {st : Int} {doc : Option (Option J)}

/-- Every defined call, whatever the C library does.  It returns 0 exactly when the file opened, memory was there and the
(positive, modulo 2^32) length was read completely; then the document of that much text is stored, the buffer is
released.  Otherwise it returns 1 and stores nothing; the buffer stays allocated exactly when the file was opened and the
memory granted.  The file is closed in any case. -/
theorem C57_outcome_partial (hs : s.WF) (h : load_file_to_json parse e s = some ((st, doc), s')) :
    s'.cb = s.cb ∧
    ((st = 0 ∧ doc = some (parse (cstring (e.stream.take (toCInt e.ftell).toNat))) ∧ s'.live = s.live ∧
        e.opens = true ∧ s.oracle s.calls = true ∧ 0 < toCInt e.ftell ∧ toCInt e.ftell ≤ e.stream.length) ∨
     (st = 1 ∧ doc = none ∧
        ((s'.live = s.live ∧ (e.opens = false ∨ toCInt e.ftell < -1 ∨ s.oracle s.calls = false)) ∨
         (s'.live = insert s.next s.live ∧ s.next ∉ s.live ∧ e.opens = true ∧ s.oracle s.calls = true ∧
            ¬ (0 < toCInt e.ftell ∧ toCInt e.ftell ≤ e.stream.length))))) := by
  have n0 : s.next ∉ s.live := fun hc => absurd (hs _ hc) (lt_irrefl _)
  obtain ⟨a1, a2, a3, a4, a5⟩ := text_run (e := e) hs
  have hlen := toCInt_fits e.ftell
  unfold load_file_to_json at h
  cases ho : e.opens with
  | false =>
    rw [nbind (a1 ho), if_pos (by decide)] at h
    cases h
    exact ⟨rfl, Or.inr ⟨rfl, rfl, Or.inl ⟨rfl, Or.inl rfl⟩⟩⟩
  | true =>
    by_cases hmax : toCInt e.ftell = INT_MAX
    · obtain ⟨r, s1, h1, -⟩ := nbind_some h
      rw [a2 ho hmax] at h1; cases h1
    have hlt : toCInt e.ftell < INT_MAX := by have := hlen.2; omega
    by_cases hbad : toCInt e.ftell < -1 ∨ s.oracle s.calls = false
    · rw [nbind (a3 ho hlt hbad), if_pos (by decide)] at h
      cases h
      exact ⟨rfl, Or.inr ⟨rfl, rfl, Or.inl ⟨rfl, Or.inr hbad⟩⟩⟩
    rw [not_or, Bool.not_eq_false] at hbad
    by_cases hneg : toCInt e.ftell = -1 ∧ 0 < e.stream.length
    · obtain ⟨r, s1, h1, -⟩ := nbind_some h
      rw [a5 ho hneg.1 hbad.2 hneg.2] at h1; cases h1
    obtain ⟨text, h1, h2⟩ := a4 ho hlt (by omega) hbad.2 hneg
    by_cases hr : 0 < toCInt e.ftell ∧ toCInt e.ftell ≤ e.stream.length
    · rw [if_pos hr] at h1
      rw [nbind h1, if_neg (fun hc => hc rfl)] at h
      dsimp only [Option.map_some, Option.getD_some] at h
      rw [nbind (nfree_some (Finset.mem_insert_self _ _))] at h
      cases h
      rw [h2]
      exact ⟨rfl, Or.inl ⟨rfl, rfl, Finset.erase_insert n0, rfl, hbad.2, hr⟩⟩
    · rw [if_neg hr] at h1
      rw [nbind h1, if_pos (by show (1 : Int) ≠ 0; decide)] at h
      cases h
      exact ⟨rfl, Or.inr ⟨rfl, rfl, Or.inr ⟨rfl, n0, rfl, hbad.2, hr⟩⟩⟩

/-- The part of C57 that holds: for a text file of less than 2 GiB that parses, success means that the document of the whole
file was delivered and nothing stays allocated. -/
theorem C57_document_partial (hs : s.WF) (hlen : (e.stream.length : Int) < INT_MAX) (ht : e.ftell = e.stream.length) {d : J}
    (hp : parse (cstring e.stream) = some d) (h : load_file_to_json parse e s = some ((st, doc), s')) (h0 : st = 0) :
    doc = some (some d) ∧ s'.live = s.live := by
  have hc : toCInt e.ftell = e.stream.length := by
    rw [ht]
    exact toCInt_of_fits ⟨by unfold INT_MIN; omega, hlen.le⟩
  obtain ⟨-, ⟨-, h1, h2, -⟩ | ⟨h1, -⟩⟩ := C57_outcome_partial hs h
  · rw [hc, Int.toNat_natCast, List.take_length, hp] at h1
    exact ⟨h1, h2⟩
  · rw [h0] at h1; cases h1

example {st : Int} {doc : Option (Option (List UInt8))} {s' : NState ℕ}
    (h : load_file_to_json (fun l => some l) ⟨true, 3, [91, 49, 93]⟩ ⟨∅, 0, 0, fun _ => true, 0⟩ = some ((st, doc), s')) (h0 : st = 0) :
    doc = some (some [91, 49, 93]) :=
  (C57_document_partial (parse := fun l => some l) (fun a h => by cases h) (by decide) rfl rfl h h0).1

/-- … and such a file of at least one byte is loaded, if it opens and memory is there. -/
theorem C57_loads_partial (hs : s.WF) (ho : e.opens = true) (hm : s.oracle s.calls = true) (h0 : 0 < e.stream.length)
    (hlen : (e.stream.length : Int) < INT_MAX) (ht : e.ftell = e.stream.length) :
    ∃ s', load_file_to_json parse e s = some ((0, some (parse (cstring e.stream))), s') ∧ s'.live = s.live := by
  have hc : toCInt e.ftell = e.stream.length := by
    rw [ht]
    exact toCInt_of_fits ⟨by unfold INT_MIN; omega, hlen.le⟩
  have n0 : s.next ∉ s.live := fun hc => absurd (hs _ hc) (lt_irrefl _)
  obtain ⟨-, -, -, a4, -⟩ := text_run (e := e) hs
  obtain ⟨text, h1, h2⟩ := a4 ho (by rw [hc]; exact hlen) (by omega) hm (by omega)
  rw [if_pos (by omega)] at h1
  unfold load_file_to_json
  rw [nbind h1, if_neg (fun hc => hc rfl)]
  dsimp only [Option.map_some, Option.getD_some]
  rw [nbind (nfree_some (Finset.mem_insert_self _ _)), h2, hc, Int.toNat_natCast, List.take_length]
  exact ⟨_, rfl, Finset.erase_insert n0⟩

/-- **C57 is false**: a file that does not parse is reported as loaded, with a NULL document. -/
theorem C57_parse_failure_reported_false (hs : s.WF) (ho : e.opens = true) (hm : s.oracle s.calls = true) (h0 : 0 < e.stream.length)
    (hlen : (e.stream.length : Int) < INT_MAX) (ht : e.ftell = e.stream.length) (hp : parse (cstring e.stream) = none) :
    ∃ s', load_file_to_json parse e s = some ((0, some none), s') := by
  obtain ⟨s', h, -⟩ := C57_loads_partial (parse := parse) hs ho hm h0 hlen ht
  rw [hp] at h
  exact ⟨s', h⟩

/-- **C57 is false**: loading an empty file fails and leaves the buffer allocated. -/
theorem C57_buffer_released_false (hs : s.WF) (ho : e.opens = true) (hm : s.oracle s.calls = true) (ht : e.ftell = 0) :
    ∃ s', load_file_to_json parse e s = some ((1, none), s') ∧ s.next ∉ s.live ∧ s.next ∈ s'.live := by
  have hc : toCInt e.ftell = 0 := by rw [ht]; decide
  have n0 : s.next ∉ s.live := fun hc => absurd (hs _ hc) (lt_irrefl _)
  obtain ⟨-, -, -, a4, -⟩ := text_run (e := e) hs
  obtain ⟨text, h1, -⟩ := a4 ho (by rw [hc]; decide) (by omega) hm (by omega)
  rw [if_neg (by omega)] at h1
  unfold load_file_to_json
  rw [nbind h1, if_pos (by show (1 : Int) ≠ 0; decide)]
  exact ⟨_, rfl, n0, Finset.mem_insert_self _ _⟩

/-- A file of `2^31-1` bytes: the buffer size overflows. -/
theorem C57_two_gib_false (hs : s.WF) (ho : e.opens = true) (ht : e.ftell = INT_MAX) : load_file_to_json parse e s = none := by
  obtain ⟨-, a2, -⟩ := text_run (e := e) hs
  unfold load_file_to_json
  show (load_file_as_text e s).bind _ = none
  rw [a2 ho (by rw [ht]; decide)]
  rfl

/-- A stream that cannot be positioned (a pipe): anything it delivers is written past the end of an empty buffer. -/
theorem C57_pipe_false (hs : s.WF) (ho : e.opens = true) (hm : s.oracle s.calls = true) (ht : e.ftell = -1) (h0 : 0 < e.stream.length) :
    load_file_to_json parse e s = none := by
  obtain ⟨-, -, -, -, a5⟩ := text_run (e := e) hs
  unfold load_file_to_json
  show (load_file_as_text e s).bind _ = none
  rw [a5 ho (by rw [ht]; decide) hm h0]
  rfl

/-- A file longer than 4 GiB: success, with the document of a piece of it. -/
theorem C57_four_gib_false (hs : s.WF) (ho : e.opens = true) (hm : s.oracle s.calls = true) {k : ℕ} (hk : 0 < k) (hk' : (k : Int) < INT_MAX)
    (ht : e.ftell = 4294967296 + k) (hst : (e.stream.length : Int) = e.ftell) :
    ∃ s', load_file_to_json parse e s = some ((0, some (parse (cstring (e.stream.take k)))), s') := by
  have hc : toCInt e.ftell = k := by
    unfold INT_MAX at hk'
    rw [ht]; unfold toCInt; omega
  obtain ⟨-, -, -, a4, -⟩ := text_run (e := e) hs
  obtain ⟨text, h1, h2⟩ := a4 ho (by omega) (by omega) hm (by omega)
  rw [if_pos (by omega)] at h1
  unfold load_file_to_json
  rw [nbind h1, if_neg (fun hc => hc rfl)]
  dsimp only [Option.map_some, Option.getD_some]
  rw [nbind (nfree_some (Finset.mem_insert_self _ _)), h2, hc]
  exact ⟨_, rfl⟩

/-- Each of the failures above on a file system that shows it: an unparsable file, an empty file, a file of 2 GiB, a pipe
and a file of 4 GiB and three bytes. -/
example : ∃ s', load_file_to_json (fun _ => (none : Option Unit)) ⟨true, 1, [91]⟩ ⟨∅, 0, 0, fun _ => true, 0⟩ = some ((0, some none), s') :=
  C57_parse_failure_reported_false (fun a h => by cases h) rfl rfl (by decide) (by decide) rfl rfl

example : ∃ s', load_file_to_json (fun _ => (none : Option Unit)) ⟨true, 0, []⟩ ⟨∅, 0, 0, fun _ => true, 0⟩ = some ((1, none), s') ∧ 0 ∈ s'.live :=
  let ⟨s', h, _, h'⟩ := C57_buffer_released_false (parse := fun _ => (none : Option Unit)) (e := ⟨true, 0, []⟩)
    (s := ⟨∅, 0, 0, fun _ => true, 0⟩) (fun a h => by cases h) rfl rfl rfl
  ⟨s', h, h'⟩

example : load_file_to_json (fun l => some l) ⟨true, INT_MAX, [91]⟩ ⟨∅, 0, 0, fun _ => true, 0⟩ = none :=
  C57_two_gib_false (fun a h => by cases h) rfl rfl

example : load_file_to_json (fun l => some l) ⟨true, -1, [91]⟩ ⟨∅, 0, 0, fun _ => true, 0⟩ = none :=
  C57_pipe_false (fun a h => by cases h) rfl rfl rfl (by decide)

example : ∃ s', load_file_to_json (fun l => some l) ⟨true, 4294967299, List.replicate 4294967299 91⟩ ⟨∅, 0, 0, fun _ => true, 0⟩ =
    some ((0, some (some (cstring ((List.replicate 4294967299 91).take 3)))), s') :=
  C57_four_gib_false (k := 3) (fun a h => by cases h) rfl rfl (by decide) (by decide) rfl (by simp only [List.length_replicate]; rfl)

/-- the hypotheses are met: a three-byte file -/
example : ∃ s', load_file_to_json (fun l => some l) ⟨true, 3, [91, 49, 93]⟩ ⟨∅, 0, 0, fun _ => true, 0⟩ = some ((0, some (some [91, 49, 93])), s') ∧
    s'.live = ∅ :=
  C57_loads_partial (parse := fun l => some l) (e := ⟨true, 3, [91, 49, 93]⟩) (s := ⟨∅, 0, 0, fun _ => true, 0⟩) (fun a h => by cases h) rfl rfl
    (by decide) (by decide) rfl

end load

/-! ## C60 -/

section fields
variable {F : Type} [Scalar F] {d : CJ F} {name : String} {s s' : NState ℕ}

/-- **C60**, numbers: success exactly when the field is there and is a number; the value is the field's. -/
theorem C60_number (data : Option (CJ F)) :
    (∀ v, extract_json_double data name = (0, some v) ↔ ∃ i, data.bind (CJ.get name) = some (.num v i)) ∧
    (∀ i, extract_json_int data name = (0, some i) ↔ ∃ v, data.bind (CJ.get name) = some (.num v i)) ∧
    ((¬ ∃ v i, data.bind (CJ.get name) = some (.num v i)) → extract_json_double data name = (1, none) ∧ extract_json_int data name = (1, none)) := by
  cases data with
  | none => simp [extract_json_double, extract_json_int]
  | some d =>
    simp only [extract_json_double, extract_json_int, Option.bind_some]
    cases hg : d.get name with
    | none => simp
    | some c =>
      cases c <;> simp [CJ.valuedouble, CJ.valueint]

/-- **C60**, arrays of numbers.  For every array whose length fits in `int`, every pattern of allocation failures: status 0
with the values in order in a new block of that many entries, or status 1 with NULL when memory is refused. -/
theorem C60_array_partial {l : List (CJ F)} (hg : d.get name = some (.arr l)) (hl : (l.length : Int) ≤ INT_MAX)
    {vals : List F} (hv : l.map (fun c => match c with | .num v _ => some v | _ => none) = vals.map some) :
    (s.oracle s.calls = true → ∃ s', extract_json_double_array (some d) name s = some (⟨0, some l.length, some (some (s.next, vals))⟩, s') ∧
      s'.live = insert s.next s.live) ∧
    (s.oracle s.calls = false → ∃ s', extract_json_double_array (some d) name s = some (⟨1, some l.length, some none⟩, s') ∧ s'.live = s.live) := by
  have hN : toCInt (l.length : Int) = l.length := toCInt_of_fits ⟨by unfold INT_MIN; omega, hl⟩
  have hvals : l.map CJ.valuedouble = vals := by
    have h2 := congrArg (List.map (fun o : Option F => o.getD (lit 0))) hv
    rw [List.map_map, List.map_map] at h2
    have e1 : (fun o : Option F => o.getD (lit 0)) ∘ (fun c : CJ F => match c with | .num v _ => some v | _ => none) = CJ.valuedouble := by
      funext c; cases c <;> rfl
    have e2 : (fun o : Option F => o.getD (lit 0)) ∘ some = id := by funext c; rfl
    rw [e1, e2, List.map_id] at h2
    exact h2
  constructor
  · intro ho
    unfold extract_json_double_array
    simp only [hg, hN]
    have hc : ncalloc (l.length : Int) s = some (some s.next, { s with live := insert s.next s.live, next := s.next + 1, calls := s.calls + 1 }) := by
      unfold ncalloc
      rw [if_neg (by omega)]
      exact nalloc_ok ho
    rw [nbind hc]
    dsimp only
    rw [if_neg (by omega), hvals]
    exact ⟨_, rfl, rfl⟩
  · intro ho
    unfold extract_json_double_array
    simp only [hg, hN]
    have hc : ncalloc (l.length : Int) s = some (none, { s with calls := s.calls + 1 }) := by
      unfold ncalloc
      rw [if_neg (by omega)]
      exact nalloc_fail ho
    rw [nbind hc]
    exact ⟨_, rfl, rfl⟩

/-- **C60**, a missing field or one that is no array is refused with status 1, nothing allocated. -/
theorem C60_array_refused (data : Option (CJ F)) (h : ¬ ∃ l, data.bind (CJ.get name) = some (.arr l)) :
    (∃ N, extract_json_double_array data name s = some (⟨1, N, none⟩, s)) ∧ (∃ N, extract_json_int_array data name s = some (⟨1, N, none⟩, s)) := by
  cases data with
  | none => exact ⟨⟨_, rfl⟩, ⟨_, rfl⟩⟩
  | some d =>
    simp only [Option.bind_some] at h
    simp only [extract_json_double_array, extract_json_int_array]
    cases hg : d.get name with
    | none => exact ⟨⟨_, rfl⟩, ⟨_, rfl⟩⟩
    | some c =>
      cases c with
      | arr l => exact absurd ⟨l, hg⟩ h
      | _ => exact ⟨⟨_, rfl⟩, ⟨_, rfl⟩⟩

omit [Scalar F] in
/-- **C60**, arrays of integers, when memory is there. -/
theorem C60_int_array_partial {l : List (CJ F)} (hg : d.get name = some (.arr l)) (hl : (l.length : Int) ≤ INT_MAX)
    {vals : List Int} (hv : l.map (fun c => match c with | .num _ i => some i | _ => none) = vals.map some) (ho : s.oracle s.calls = true) :
    ∃ s', extract_json_int_array (some d) name s = some (⟨0, some l.length, some (some (s.next, vals))⟩, s') ∧ s'.live = insert s.next s.live := by
  have hN : toCInt (l.length : Int) = l.length := toCInt_of_fits ⟨by unfold INT_MIN; omega, hl⟩
  have hvals : l.map CJ.valueint = vals := by
    have hall : ∀ (l : List (CJ F)) (vals : List Int), l.map (fun c => match c with | .num _ i => some i | _ => none) = vals.map some → l.map CJ.valueint = vals := by
      intro l
      induction l with
      | nil => intro vals h; cases vals with
        | nil => rfl
        | cons => cases h
      | cons c l ih => intro vals h; cases vals with
        | nil => cases h
        | cons v vals =>
          simp only [List.map_cons, List.cons.injEq] at h
          obtain ⟨h1, h2⟩ := h
          rw [List.map_cons, ih vals h2]
          cases c <;> simp at h1
          rw [← h1]; rfl
    exact hall l vals hv
  unfold extract_json_int_array
  simp only [hg, hN]
  have hc : ncalloc (l.length : Int) s = some (some s.next, { s with live := insert s.next s.live, next := s.next + 1, calls := s.calls + 1 }) := by
    unfold ncalloc
    rw [if_neg (by omega)]
    exact nalloc_ok ho
  rw [nbind hc]
  dsimp only
  rw [if_neg (by omega), hvals]
  exact ⟨_, rfl, rfl⟩

omit [Scalar F] in
/-- **C60 is false** for the integer array when memory is refused: the NULL pointer is written through. -/
theorem C60_int_array_oom_false {l : List (CJ F)} (hg : d.get name = some (.arr l)) (hl : (l.length : Int) ≤ INT_MAX) (h0 : 0 < l.length)
    (ho : s.oracle s.calls = false) : extract_json_int_array (some d) name s = none := by
  have hN : toCInt (l.length : Int) = l.length := toCInt_of_fits ⟨by unfold INT_MIN; omega, hl⟩
  unfold extract_json_int_array
  simp only [hg, hN]
  have hc : ncalloc (l.length : Int) s = some (none, { s with calls := s.calls + 1 }) := by
    unfold ncalloc
    rw [if_neg (by omega)]
    exact nalloc_fail ho
  rw [nbind hc]
  dsimp only
  rw [if_pos h0]
  rfl

/-- **C60 is false** for arrays with entries that are no numbers: they are delivered as 0 with status 0. -/
theorem C60_mixed_array_false (ho : s.oracle s.calls = true) (v : F) :
    ∃ s', extract_json_double_array (some (.obj [("x", .arr [.num v 0, .str "1.5"])])) "x" s = some (⟨0, some 2, some (some (s.next, [v, lit 0]))⟩, s') := by
  have hc : ncalloc 2 s = some (some s.next, { s with live := insert s.next s.live, next := s.next + 1, calls := s.calls + 1 }) := nalloc_ok ho
  have hg : (CJ.obj [("x", .arr [.num v 0, .str "1.5"])]).get "x" = some (.arr [.num v 0, .str "1.5"]) := by simp [CJ.get]
  have hN : toCInt ((([CJ.num v 0, .str "1.5"] : List (CJ F)).length : ℕ) : Int) = 2 := by rw [List.length_cons, List.length_cons, List.length_nil]; decide
  unfold extract_json_double_array
  simp only [hg]
  rw [hN, nbind hc]
  dsimp only
  rw [if_neg (by rw [List.length_cons, List.length_cons, List.length_nil]; decide)]
  exact ⟨_, rfl⟩

/-- the hypotheses are met -/
example : (CJ.obj [("n", .num (Dbl.fin 2) 2), ("x", .arr [.num (Dbl.fin 1) 1, .num (Dbl.fin 5) 5])]).get "x" = some (.arr [.num (Dbl.fin 1) 1, .num (Dbl.fin 5) 5]) := by
  simp [CJ.get]

end fields

/-- The document of the example above: two numbers under `x`, a number under `n`. -/
def exArr : CJ Dbl := .obj [("n", .num (Dbl.fin 2) 2), ("x", .arr [.num (Dbl.fin 1) 1, .num (Dbl.fin 5) 5])]

theorem exArr_x : exArr.get "x" = some (.arr [.num (Dbl.fin 1) 1, .num (Dbl.fin 5) 5]) := by simp [exArr, CJ.get]

example : ∃ s', extract_json_double_array (some exArr) "x" ⟨∅, 0, 0, fun _ => true, 0⟩ =
    some (⟨0, some 2, some (some (0, [Dbl.fin 1, Dbl.fin 5]))⟩, s') ∧ s'.live = {0} :=
  let ⟨s', h, h'⟩ := (C60_array_partial (s := ⟨∅, 0, 0, fun _ => true, 0⟩) exArr_x (by decide) (vals := [Dbl.fin 1, Dbl.fin 5]) rfl).1 rfl
  ⟨s', h, by rw [h']; rfl⟩

example : ∃ s', extract_json_int_array (some exArr) "x" ⟨∅, 0, 0, fun _ => true, 0⟩ = some (⟨0, some 2, some (some (0, [1, 5]))⟩, s') :=
  let ⟨s', h, _⟩ := C60_int_array_partial (s := ⟨∅, 0, 0, fun _ => true, 0⟩) exArr_x (by decide) (vals := [1, 5]) rfl rfl
  ⟨s', h⟩

example : extract_json_int_array (some exArr) "x" ⟨∅, 0, 0, fun _ => false, 0⟩ = none :=
  C60_int_array_oom_false exArr_x (by decide) (by decide) rfl

example (s : NState ℕ) : ∃ N, extract_json_double_array (some exArr) "n" s = some (⟨1, N, none⟩, s) :=
  (C60_array_refused (some exArr) (by rintro ⟨l, h⟩; simp [exArr, CJ.get] at h)).1

end L1c
