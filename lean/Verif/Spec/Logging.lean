import Verif.Model.Logging

/-!
# Clients of the logger

`LogClient` programs print and temporarily replace the handler; `scope h c` is `old = l1c_replace_printf(h); c;
l1c_replace_printf(old);`.  `lexical` says who should receive each message, by the textual nesting alone.
-/

namespace L1c
variable {H : Type}

inductive LogClient (H : Type) where
  | skip
  | print
  | seq (a b : LogClient H)
  | scope (h : H) (c : LogClient H)

/-- run a client on the library -/
def LogClient.run : LogClient H → LogState H → LogState H
  | skip, s => s
  | print, s => logPrint s
  | seq a b, s => b.run (a.run s)
  | scope h c, s =>
    let r := l1c_replace_printf h s
    (l1c_replace_printf r.1 (c.run r.2)).2

/-- receivers of the messages of a client when `cur` is in force around it -/
def LogClient.lexical : LogClient H → H → List H
  | skip, _ => []
  | print, cur => [cur]
  | seq a b, cur => a.lexical cur ++ b.lexical cur
  | scope h c, _ => c.lexical h

/-- a plain sequence of replacements: the values returned, and the final state -/
def replaceAll : List H → LogState H → List H × LogState H
  | [], s => ([], s)
  | h :: l, s =>
    let r := l1c_replace_printf h s
    let q := replaceAll l r.2
    (r.1 :: q.1, q.2)

end L1c
