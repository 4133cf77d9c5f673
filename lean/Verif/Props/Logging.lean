import Verif.Spec.Logging

/-! # C54: replacing the print handler -/

namespace L1c
variable {H : Type}

/-- **C54.**  Every client whose replacements are undone in nested order leaves the handler it found, and every message
reaches the handler of the innermost enclosing replacement. -/
theorem C54_nested (c : LogClient H) (s : LogState H) :
    (c.run s).l1c_printf = s.l1c_printf ∧ (c.run s).sent = s.sent ++ c.lexical s.l1c_printf := by
  induction c generalizing s with
  | skip => simp [LogClient.run, LogClient.lexical]
  | print => simp [LogClient.run, LogClient.lexical, logPrint]
  | seq a b iha ihb =>
    obtain ⟨a1, a2⟩ := iha s
    obtain ⟨b1, b2⟩ := ihb (a.run s)
    simp only [LogClient.run, LogClient.lexical]
    rw [b1, b2, a1, a2, List.append_assoc]
    exact ⟨rfl, rfl⟩
  | scope h c ih =>
    obtain ⟨c1, c2⟩ := ih (l1c_replace_printf h s).2
    simp only [LogClient.run, LogClient.lexical, l1c_replace_printf] at c1 c2 ⊢
    exact ⟨trivial, c2⟩

/-- **C54**, any sequence of replacements: the first call returns the handler in force, each later call the handler
installed by the one before, and the last one installed is in force afterwards. -/
theorem C54_sequence (l : List H) (s : LogState H) :
    (replaceAll l s).1 = (s.l1c_printf :: l).dropLast ∧ (replaceAll l s).2.l1c_printf = (s.l1c_printf :: l).getLast (by simp) ∧
      (replaceAll l s).2.sent = s.sent := by
  induction l generalizing s with
  | nil => exact ⟨rfl, rfl, rfl⟩
  | cons h l ih =>
    obtain ⟨h1, h2, h3⟩ := ih (l1c_replace_printf h s).2
    refine ⟨?_, ?_, h3⟩
    · simp only [replaceAll, h1]
      rfl
    · simp only [replaceAll, h2]
      rw [List.getLast_cons (List.cons_ne_nil _ _)]
      rfl

/-- a client with two nested replacements: three different receivers, the original handler at the end -/
example : ((LogClient.seq (.scope 1 (.seq .print (.seq (.scope 2 .print) .print))) .print).run (LogState.init 0)).sent = [1, 2, 1, 0] := rfl

end L1c
