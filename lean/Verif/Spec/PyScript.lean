import Verif.Model.PyScript

/-! # Arguments of the Python script `L1c.py` -/

namespace L1c

/-- the array passed to the library has the type, dimension and layout that `ndpointer` asks for -/
def NdArr.Fits (x : NdArr) : Prop := x.dbl = true ∧ x.ndim = 1 ∧ x.contig = true

end L1c
