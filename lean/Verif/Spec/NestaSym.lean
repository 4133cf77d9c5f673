import Verif.Spec.Dct

/-! # Mirror images -/

namespace L1c

variable {mrow mcol : ℕ}

/-- the pixel opposite to a pixel: rows counted from the bottom if `v`, columns from the right if `h` -/
def mirror (v h : Bool) (t : Fin (mrow * mcol)) : Fin (mrow * mcol) :=
  px (if v then (finProdFinEquiv.symm t).1.rev else (finProdFinEquiv.symm t).1) (if h then (finProdFinEquiv.symm t).2.rev else (finProdFinEquiv.symm t).2)

end L1c
