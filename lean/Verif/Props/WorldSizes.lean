import Verif.Props.World
import Verif.Props.DctTV

/-!
# C26, C30: sizes reported by setup, products by matrix sets after any history
-/

namespace L1c
open Scalar Matrix

section
variable {F : Type} [Scalar F] {w w' : World F} {L : Sets F} {lib : FftwLib F}
variable {n mrow mcol dct_mode : Int} {idx : List Int} {alp_v alp_h : F} {analysis : Bool}

/-- how many parts a dictionary has: the DCT and one for every positive weight -/
def parts (alp_v alp_h : F) : Int := 1 + (if flt (lit 0) alp_v then 1 else 0) + (if flt (lit 0) alp_h then 1 else 0)

/-- **C26**, sizes: a successful setup reports `n` measurements; for analysis a signal of `mrow*mcol` pixels and coefficients
for every part, for synthesis a signal that is made of the coefficients of every part and images of `mrow*mcol` pixels; and
the functions are those of the mode asked for. -/
theorem C26_reported_sizes {r : Int × Option (AxFuns F)} {ax : AxFuns F}
    (hs : l1c_setup_dctTV_transforms n mrow mcol alp_v alp_h dct_mode analysis idx w = some (r, w')) (hr : r.2 = some ax) :
    r.1 = L1C_SUCCESS ∧ ax.n = n ∧ ax.q = mrow * mcol ∧
    (analysis = true → ax.m = mrow * mcol ∧ ax.p = parts alp_v alp_h * (mrow * mcol) ∧ ax.kind = .tvAna) ∧
    (analysis = false → ax.m = parts alp_v alp_h * (mrow * mcol) ∧ ax.p = mrow * mcol ∧ ax.kind = .tvSyn) := by
  by_cases hf : FitsInt (mrow * mcol)
  swap
  · rw [setup_tv_overflow hf] at hs; cases hs
  by_cases hv : ValidTv n mrow mcol alp_v alp_h idx
  swap
  · rw [setup_tv_invalid hf hv] at hs; cases hs; cases hr
  by_cases hp : FitsInt (tvP (mrow * mcol).toNat alp_v alp_h)
  swap
  · rw [setup_tv_toobig hf hv hp] at hs; cases hs
  cases ho : w.oracle w.calls
  · rw [setup_tv_refused hf hv hp ho] at hs; cases hs; cases hr
  obtain ⟨a, -, e⟩ := setup_tv_granted (dct_mode := dct_mode) (analysis := analysis) hf hv hp ho
  rw [e] at hs
  have hpos : 0 < mrow * mcol := mul_pos hv.1.2.1 hv.1.2.2.1
  have hm : ((mrow * mcol).toNat : Int) = mrow * mcol := by omega
  have ep : (tvP (mrow * mcol).toNat alp_v alp_h : Int) = parts alp_v alp_h * (mrow * mcol) := by
    unfold tvP parts job
    generalize mrow * mcol = k at hm
    cases flt (lit 0) alp_v <;> cases flt (lit 0) alp_h <;> simp only [Bool.false_eq_true, if_true, if_false] <;> omega
  generalize hq : l1c_setup_dct_transforms n mrow mcol dct_mode idx ((w.push (.arr a)).tvReady mrow mcol alp_v alp_h (some w.next)) = q at hs
  match q, hs with
  | some ((_, some ax'), v), hs =>
    cases hs
    cases hr
    cases analysis
    · exact ⟨rfl, rfl, hm, (fun h => Bool.noConfusion h), fun _ => ⟨ep, hm, rfl⟩⟩
    · exact ⟨rfl, rfl, hm, fun _ => ⟨hm, ep, rfl⟩, fun h => by cases h⟩
  | some ((st, none), v), hs =>
    dsimp only at hs
    generalize wfree (some w.next) v = z at hs
    match z, hs with
    | some (_, v'), hs => cases hs; cases hr

/-- **C30**, calls: after any history, every product with a live matrix set on arrays that are long enough is defined, gives the
product of `C30_products` and leaves the argument and the rest of the output array alone; in particular `AtAx` stays inside
its work array. -/
theorem C30_calls (h : Hist lib w L) {c : SetMat F} (hc : L.mat = some c) (hA : c.A.1 = c.N * c.M) {la lo : ℕ} (a : Vec F la) (out : Vec F lo) :
    (c.M ≤ la → c.N ≤ lo → ∃ x y o w', slice c.M 0 a = some x ∧ writeAt 0 y out = some o ∧ y = matAx (fun i => c.A.2 (Fin.cast hA.symm i)) x ∧
      wcall lib .mat .Ax ⟨la, a⟩ ⟨lo, out⟩ w = some ((⟨la, a⟩, ⟨lo, o⟩), w')) ∧
    (c.N ≤ la → c.M ≤ lo → ∃ x y o w', slice c.N 0 a = some x ∧ writeAt 0 y out = some o ∧ y = matAty (fun i => c.A.2 (Fin.cast hA.symm i)) x ∧
      wcall lib .mat .Aty ⟨la, a⟩ ⟨lo, out⟩ w = some ((⟨la, a⟩, ⟨lo, o⟩), w')) ∧
    (c.M ≤ la → c.M ≤ lo → ∃ x y o w', slice c.M 0 a = some x ∧ writeAt 0 y out = some o ∧
      y = matAty (fun i => c.A.2 (Fin.cast hA.symm i)) (matAx (fun i => c.A.2 (Fin.cast hA.symm i)) x) ∧
      wcall lib .mat .AtAx ⟨la, a⟩ ⟨lo, out⟩ w = some ((⟨la, a⟩, ⟨lo, o⟩), w')) := by
  obtain ⟨d, hd⟩ := (C31_independent_partial h).2.2.2 c hc
  obtain ⟨N, M, A⟩ := c
  obtain ⟨l, A⟩ := A
  dsimp only at hA
  subst hA
  have eA : slice (N * M) 0 A = some A := by
    rw [slice_eq 0 (by omega)]
    congr 1; funext i; congr 1; exact Fin.ext (by simp)
  have lift : ∀ {op : Op} {r}, (matOp N M ⟨N * M, A⟩ op ⟨la, a⟩ ⟨lo, out⟩ d).map (·.1) = some r →
      ∃ w', wcall lib .mat op ⟨la, a⟩ ⟨lo, out⟩ w = some (r, w') := by
    intro op r hr
    have := (hd op ⟨la, a⟩ ⟨lo, out⟩).trans hr
    obtain ⟨⟨r', w'⟩, e, rfl⟩ := Option.map_eq_some_iff.1 this
    exact ⟨w', e⟩
  have sl : ∀ {k : ℕ}, k ≤ la → ∃ x : Vec F k, slice k 0 a = some x := fun h => by rw [slice_eq 0 (by omega)]; exact ⟨_, rfl⟩
  refine ⟨fun h1 h2 => ?_, fun h1 h2 => ?_, fun h1 h2 => ?_⟩
  · obtain ⟨x, hx⟩ := sl h1
    obtain ⟨o, ho⟩ := writeAt_some 0 (by dsimp only at h2; omega : 0 + N ≤ lo) (matAx A x) out
    obtain ⟨w', hw'⟩ := lift (op := .Ax) (r := (⟨la, a⟩, ⟨lo, o⟩)) (by
      unfold matOp
      rw [eA]; dsimp only [Option.bind_eq_bind, Option.bind_some]
      rw [hx]; dsimp only [Option.bind_eq_bind, Option.bind_some]
      rw [ho]; rfl)
    exact ⟨x, _, o, w', hx, ho, rfl, hw'⟩
  · obtain ⟨x, hx⟩ := sl h1
    obtain ⟨o, ho⟩ := writeAt_some 0 (by dsimp only at h2; omega : 0 + M ≤ lo) (matAty A x) out
    obtain ⟨w', hw'⟩ := lift (op := .Aty) (r := (⟨la, a⟩, ⟨lo, o⟩)) (by
      unfold matOp
      rw [eA]; dsimp only [Option.bind_eq_bind, Option.bind_some]
      rw [hx]; dsimp only [Option.bind_eq_bind, Option.bind_some]
      rw [ho]; rfl)
    exact ⟨x, _, o, w', hx, ho, rfl, hw'⟩
  · obtain ⟨x, hx⟩ := sl h1
    obtain ⟨d', hd'⟩ := C23_matrix A x d
    obtain ⟨o, ho⟩ := writeAt_some 0 (by dsimp only at h2; omega : 0 + M ≤ lo) (matAty A (matAx A x)) out
    obtain ⟨w', hw'⟩ := lift (op := .AtAx) (r := (⟨la, a⟩, ⟨lo, o⟩)) (by
      unfold matOp
      rw [eA]; dsimp only [Option.bind_eq_bind, Option.bind_some]
      rw [hx]; dsimp only [Option.bind_eq_bind, Option.bind_some]
      rw [hd']; dsimp only [Option.bind_eq_bind, Option.bind_some]
      rw [ho]; rfl)
    exact ⟨x, _, o, w', hx, ho, rfl, hw'⟩

end

/-! ### the hypotheses can be met -/

/-- a 2 by 3 matrix set is set up in a fresh program and called -/
example (lib : FftwLib Dbl) : ∃ (w : World Dbl) (L : Sets Dbl) (c : SetMat Dbl), Hist lib w L ∧ L.mat = some c ∧ c.A.1 = c.N * c.M ∧ c.N = 2 ∧ c.M = 3 := by
  obtain ⟨ax, w', e, -⟩ := (C30_setup 2 3 ⟨6, fun i => Dbl.fin i.val⟩ (World.init (fun _ => true) (fun _ _ => Dbl.nan) false)).2.1 (by norm_num) (by norm_num) rfl
  have := Hist.mat (lib := lib) 2 3 _ (.start (fun _ => true) (fun _ _ => Dbl.nan)) rfl e
  rw [if_pos rfl] at this
  exact ⟨_, _, ⟨2, 3, _⟩, this, rfl, rfl, rfl, rfl⟩

end L1c
