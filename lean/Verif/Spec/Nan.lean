import Verif.Spec.L1qcDct

/-! # FFTW on data that is not finite -/

namespace L1c

/-- Transforms of data that is not finite have no finite entry.  (Every entry of a DCT is a sum over all entries of the data.) -/
def NanStrict (lib : FftwLib Dbl) : Prop :=
  (∀ k (v : Vec Dbl k), (∃ i, ¬ (v i).IsFin) → ∀ j, ¬ ((lib.f1 k).fwd v j).IsFin ∧ ¬ ((lib.f1 k).inv v j).IsFin) ∧
  ∀ k l (v : Vec Dbl (k * l)), (∃ i, ¬ (v i).IsFin) → ∀ j, ¬ ((lib.f2 k l).fwd v j).IsFin ∧ ¬ ((lib.f2 k l).inv v j).IsFin

end L1c
