import Verif.Spec.PyScript

/-! Helper lemma: `BRAnsTV` up to the call of the library. -/

namespace L1c
open Prog Scalar Cmd

variable {F : Type} [Scalar F] {s : PState F} {names : List String} {x : NdArr} {lam : F}

theorem script_start (hx : "breg_anistropic_TV" ∈ names) (hf : x.Fits) {n m max_iter jac : Int} (h0 : s.oracle s.calls = true) (hnm : 0 ≤ n * m)
    {out : ScriptOut} {s' : PState F}
    (h : CSpec (do
        let stat ← l1c_breg_anistropic_TV (toCInt n) (toCInt m) ⟨s.next, 0⟩ x.data lam (lit (1 / 1000)) (toCInt max_iter) (toCInt jac)
        if stat.1 > 0 then do
          freeC (some ⟨s.next, 0⟩)
          pure (.raised "Exception")
        else pure (.array ⟨s.next, 0⟩)) (s.calloc (n * m)).2 out s') :
    CSpec (brAnsTV names true x n m lam max_iter jac) s out s' := by
  unfold brAnsTV
  rw [if_neg (by simp), if_neg (by simpa using hx), if_neg (by omega)]
  refine CSpec.bind (cspec_calloc _ s) ?_
  have e : (s.calloc (n * m)).1 = some ⟨s.next, 0⟩ := by unfold PState.calloc; rw [if_pos ⟨h0, hnm⟩]
  rw [e]
  dsimp only
  rw [if_neg (not_not.2 (show x.dbl = true ∧ x.ndim = 1 ∧ x.contig = true from hf))]
  exact h

end L1c
