/-!
# Model of `src/l1c_logging.c`

The library prints through the global function pointer `l1c_printf`.  `H` is the type of print functions.
-/

namespace L1c

/-- the global of src/l1c_logging.c:4 (initially the C library's `printf`) and, for the specification, which handler
received each message so far -/
structure LogState (H : Type) where
  l1c_printf : H
  sent : List H

/-- program start, src/l1c_logging.c:4 -/
def LogState.init {H : Type} (printf : H) : LogState H := ⟨printf, []⟩

/-- src/l1c_logging.c:6-12: returns the old handler -/
def l1c_replace_printf {H : Type} (new_printf : H) (s : LogState H) : H × LogState H :=
  (s.l1c_printf, { s with l1c_printf := new_printf })

/-- any `l1c_printf(...)` statement of the library -/
def logPrint {H : Type} (s : LogState H) : LogState H := { s with sent := s.sent ++ [s.l1c_printf] }

end L1c
