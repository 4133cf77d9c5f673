import Verif.Proofs.Planner
import Verif.Props.Dct
import Mathlib.Logic.Relation

/-!
# C97: what FFTW's planner may leave in the scratch buffers

`l1c_dct1_setup` and `l1c_dct2_setup` zero the scratch buffers, then make two FFTW plans on them with `FFTW_PATIENT`, and no function writes the
unsampled positions of the first buffer later (src/dct1.c:103-131, src/dct2.c:128-161).  FFTW documents that such planning overwrites both arrays.
`Aty` and `AtAx` rely on zeros at the unsampled positions.  Below `t` is whatever the buffers hold after planning.
-/

namespace L1c
open Scalar Matrix

variable {m n : ℕ}

/-- with the buffers `t`, `Ax` and `Aty` return finite vectors on finite data and are adjoint -/
def AdjointAt (f : DctFuns Dbl m n) (t : DctBuf Dbl m) : Prop :=
  ∀ x y, ∃ u v bu bv, f.Ax (fvec x) t = some ⟨fvec u, fvec x, bu⟩ ∧ f.Aty (fvec y) t = some ⟨fvec v, fvec y, bv⟩ ∧ u ⬝ᵥ y = x ⬝ᵥ v

/-- the buffers `t'` arise from `t` by calls of functions of the set with any data -/
def After {F : Type} (f : DctFuns F m n) (t t' : DctBuf F m) : Prop := Relation.ReflTransGen (fun a b => ∃ c : DctCall F m n, c.run f a = some b) t t'

/-- What the planner left at unsampled positions stays there, through any sequence of calls, for every scalar type. -/
theorem C97_persists {F : Type} [Scalar F] {f : DctFuns F m n} {idx : Fin n → Int} (S : DctSet f idx) {t t' : DctBuf F m} (ha : After f t t') (p : Fin m)
    (hp : ∀ i, idx i ≠ (p : ℕ)) : t'.Ety p = t.Ety p := by
  obtain ⟨ix, hix⟩ : ∃ ix : Fin n → Fin m, ∀ i, ((ix i : ℕ) : Int) = idx i := by
    cases S with
    | d1 fw idx hidx => obtain ⟨ix, -, h⟩ := resolve_eq hidx; exact ⟨ix, h⟩
    | d2 fw idx hidx => obtain ⟨ix, -, h⟩ := resolve_eq hidx; exact ⟨ix, h⟩
  obtain ⟨p1, p2, p3, p4, p5, p6, p7⟩ := set_parts S hix
  have ho : ∀ (y : Vec F n) (x : Vec F m), scatter ix y x p = x p := fun y x => scatter_out ix y x p fun i hi => hp i (by rw [← hix, hi])
  unfold After at ha
  induction ha with
  | refl => rfl
  | tail _ hc ih =>
    obtain ⟨c, hc⟩ := hc
    rw [← ih]
    cases c with
    | Ax x =>
      obtain ⟨o, h1, rfl⟩ := Option.map_eq_some_iff.1 hc
      obtain ⟨o1, -, e1, -, -, -, e2⟩ := p3 x _
      cases h1.symm.trans e1
      rw [e2]
    | Aty y =>
      obtain ⟨o, h1, rfl⟩ := Option.map_eq_some_iff.1 hc
      obtain ⟨o1, -, e1, -, -, -, e2⟩ := p1 y _
      cases h1.symm.trans e1
      rw [e2, ho]
    | AtAx x =>
      obtain ⟨o, h1, rfl⟩ := Option.map_eq_some_iff.1 hc
      obtain ⟨o1, y, e1, e2⟩ := p2 x _
      cases h1.symm.trans e1
      rw [e2, ho]
    | Mx x =>
      obtain ⟨o, h1, rfl⟩ := Option.map_eq_some_iff.1 hc
      rw [p4 _ _ _ h1]
    | Mty x =>
      obtain ⟨o, h1, rfl⟩ := Option.map_eq_some_iff.1 hc
      rw [p5 _ _ _ h1]
    | Rx x =>
      obtain ⟨o, h1, rfl⟩ := Option.map_eq_some_iff.1 hc
      rw [p6 _ _ _ h1]
    | Rty y old =>
      obtain ⟨o, h1, rfl⟩ := Option.map_eq_some_iff.1 hc
      rw [p7 _ _ _ _ h1]

/-- The other five functions do not depend on the buffers at all, for every scalar type. -/
theorem C97_independent_partial {F : Type} [Scalar F] {f : DctFuns F m n} {idx : Fin n → Int} (S : DctSet f idx) (t t' : DctBuf F m) :
    (∀ x, (f.Ax x t).map (·.res) = (f.Ax x t').map (·.res)) ∧ (∀ x, (f.Mx x t).map (·.res) = (f.Mx x t').map (·.res)) ∧
    (∀ y, (f.Mty y t).map (·.res) = (f.Mty y t').map (·.res)) ∧ (∀ x, (f.Rx x t).map (·.res) = (f.Rx x t').map (·.res)) ∧
    (∀ y old, (f.Rty y old t).map (·.res) = (f.Rty y old t').map (·.res)) := by
  obtain ⟨ix, hix⟩ : ∃ ix : Fin n → Fin m, ∀ i, ((ix i : ℕ) : Int) = idx i := by
    cases S with
    | d1 fw idx hidx => obtain ⟨ix, -, h⟩ := resolve_eq hidx; exact ⟨ix, h⟩
    | d2 fw idx hidx => obtain ⟨ix, -, h⟩ := resolve_eq hidx; exact ⟨ix, h⟩
  have hA : ∀ x, (f.Ax x t).map (·.res) = (f.Ax x t').map (·.res) := by
    obtain ⟨-, -, p3, -⟩ := set_parts S hix
    intro x
    obtain ⟨o, o', h1, h2, h3, -⟩ := p3 x t
    obtain ⟨o1, o1', k1, k2, k3, -⟩ := p3 x t'
    rw [h1, k1]
    cases h2.symm.trans k2
    simp [h3, k3]
  refine ⟨hA, ?_⟩
  cases S with
  | d1 fw idx hidx =>
    obtain ⟨ix', hr, -⟩ := resolve_eq hidx
    have hres : resolve m (dct1Cfg fw idx).idx = some ix' := hr
    refine ⟨fun x => rfl, fun y => rfl, fun x => ?_, fun y old => ?_⟩
    · show (dct_Ex (dct1Cfg fw idx) x t).map _ = (dct_Ex (dct1Cfg fw idx) x t').map _
      unfold dct_Ex; rw [hres]; rfl
    · show (dct_Ety (dct1Cfg fw idx) y old t).map _ = (dct_Ety (dct1Cfg fw idx) y old t').map _
      unfold dct_Ety; rw [hres]; rfl
  | @d2 mrow mcol _ _ _ fw idx hidx =>
    obtain ⟨ix', hr, -⟩ := resolve_eq hidx
    have hres : resolve (mrow * mcol) (dct2Cfg fw idx).idx = some ix' := hr
    refine ⟨fun x => rfl, fun y => rfl, fun x => ?_, fun y old => ?_⟩
    · show (dct_Ex (dct2Cfg fw idx) x t).map _ = (dct_Ex (dct2Cfg fw idx) x t').map _
      unfold dct_Ex; rw [hres]; rfl
    · show (dct_Ety (dct2Cfg fw idx) y old t).map _ = (dct_Ety (dct2Cfg fw idx) y old t').map _
      unfold dct_Ety; rw [hres]; rfl

section real
variable {f : DctFuns Dbl m n} {idx : Fin n → Int} {t : DctBuf Dbl m} {e : Fin m → ℝ}

/-- what `Ax` and `Aty` return with any finite contents of the first buffer -/
theorem planner_ops (h : DctSetR f idx) (ht : t.Ety = fvec e) : ∃ (ix : Fin n → Fin m) (Q : Matrix (Fin m) (Fin m) ℝ), FunsOk f idx ix Q ∧
    (∀ x, ∃ bu, f.Ax (fvec x) t = some ⟨fvec (gather ix (Q *ᵥ x)), fvec x, bu⟩) ∧
    (∀ y, ∃ bv, f.Aty (fvec y) t = some ⟨fvec (Qᵀ *ᵥ (scat ix y + offSample ix e)), fvec y, bv⟩) := by
  obtain ⟨ix, Q, ok⟩ := funsOk h
  obtain ⟨p1, -, p3, -⟩ := set_parts h.toSet ok.hix
  refine ⟨ix, Q, ok, fun x => ?_, fun y => ?_⟩
  · obtain ⟨o, o', h1, h2, h3, h4, -⟩ := p3 (fvec x) t
    obtain ⟨s', g, -⟩ := ok.Ax x DctBuf.fresh (bufInv_fresh idx)
    rw [g] at h2
    cases h2
    have h3 : o.res = fvec (gather ix (Q *ᵥ x)) := h3
    have h4 : o.arg = fvec x := h4
    exact ⟨o.buf, by rw [h1, ← h3, ← h4]⟩
  · obtain ⟨o, o', h1, h2, h3, h4, -⟩ := p1 (fvec y) t
    rw [ht, scatter_fvec, scatter_split] at h2
    obtain ⟨s', g, -⟩ := ok.Mty (scat ix y + offSample ix e) DctBuf.fresh (bufInv_fresh idx)
    rw [g] at h2
    cases h2
    have h3 : o.res = fvec (Qᵀ *ᵥ (scat ix y + offSample ix e)) := h3
    exact ⟨o.buf, by rw [h1, ← h4, ← h3]⟩

/-- With distinct sample positions and any finite contents of the first buffer, `Aty` is the adjoint of `Ax` exactly when the planner has left zeros
at every position that is not sampled. -/
theorem C97_adjoint_iff_partial (h : DctSetR f idx) (hi : Function.Injective idx) (ht : t.Ety = fvec e) :
    AdjointAt f t ↔ ∀ p : Fin m, (∀ i, idx i ≠ (p : ℕ)) → e p = 0 := by
  obtain ⟨ix, Q, ok, hA, hAt⟩ := planner_ops h ht
  have hinj : Function.Injective ix := (injective_iff ok.hix).1 hi
  have hQ' : Q * Qᵀ = 1 := mul_eq_one_comm.1 ok.orth
  have key : ∀ x y, gather ix (Q *ᵥ x) ⬝ᵥ y = x ⬝ᵥ (Qᵀ *ᵥ (scat ix y + offSample ix e)) ↔ (Q *ᵥ x) ⬝ᵥ offSample ix e = 0 := by
    intro x y
    rw [← mulVec_adj, dotProduct_add, gather_adj ix hinj]
    constructor
    · intro h; linarith
    · intro h; linarith
  have off : (∀ p : Fin m, (∀ i, idx i ≠ (p : ℕ)) → e p = 0) ↔ offSample ix e = 0 := by
    constructor
    · intro hz
      funext p
      unfold offSample
      split
      · rfl
      · rename_i hn
        exact hz p fun i hc => hn ⟨i, Fin.ext (by have := ok.hix i; omega)⟩
    · intro hz p hp
      have := congrFun hz p
      unfold offSample at this
      rwa [if_neg] at this
      rintro ⟨i, rfl⟩
      exact hp i (ok.hix i).symm
  rw [off]
  constructor
  · intro ha
    obtain ⟨u, v, bu, bv, h1, h2, h3⟩ := ha (Qᵀ *ᵥ offSample ix e) 0
    obtain ⟨bu', e1⟩ := hA (Qᵀ *ᵥ offSample ix e)
    obtain ⟨bv', e2⟩ := hAt 0
    rw [e1] at h1
    rw [e2] at h2
    rw [fvec_injective (congrArg XOut.res (Option.some.inj h1)) |>.symm, (fvec_injective (congrArg XOut.res (Option.some.inj h2))).symm, key, mulVec_mulVec, hQ', one_mulVec] at h3
    funext p
    have := (Finset.sum_eq_zero_iff_of_nonneg fun i _ => mul_self_nonneg (offSample ix e i)).1 h3 p (Finset.mem_univ p)
    exact mul_self_eq_zero.1 this
  · intro hz x y
    obtain ⟨bu, e1⟩ := hA x
    obtain ⟨bv, e2⟩ := hAt y
    exact ⟨_, _, bu, bv, e1, e2, (key x y).2 (by rw [hz, dotProduct_zero])⟩

open Classical in
/-- Even for data zero `Aty` returns a vector as long as what was left at the unsampled positions. -/
theorem C97_zero_data_false (h : DctSetR f idx) (ht : t.Ety = fvec e) :
    ∃ v bv, f.Aty (fvec 0) t = some ⟨fvec v, fvec 0, bv⟩ ∧ v ⬝ᵥ v = ∑ p : Fin m, if ∃ i, idx i = ((p : ℕ) : Int) then 0 else e p ^ 2 := by
  obtain ⟨ix, Q, ok, -, hAt⟩ := planner_ops h ht
  have hQ' : Q * Qᵀ = 1 := mul_eq_one_comm.1 ok.orth
  obtain ⟨bv, e2⟩ := hAt 0
  refine ⟨_, bv, e2, ?_⟩
  have h0 : scat ix (0 : Fin n → ℝ) = 0 := by
    funext p
    by_cases hp : ∃ i, ix i = p
    · obtain ⟨i, rfl⟩ := hp
      exact scatter_const ix 0 0 i fun _ _ => rfl
    · exact scat_out ix 0 p fun i hi => hp ⟨i, hi⟩
  rw [← mulVec_adj, mulVec_mulVec, hQ', one_mulVec, h0, zero_add]
  refine Finset.sum_congr rfl fun p _ => ?_
  unfold offSample
  have : (∃ i, ix i = p) ↔ ∃ i, idx i = ((p : ℕ) : Int) := exists_congr fun i => by
    rw [← ok.hix i]
    exact ⟨fun h => by rw [h], fun h => Fin.ext (by omega)⟩
  by_cases hp : ∃ i, ix i = p
  · rw [if_pos hp, if_pos (this.1 hp), mul_zero]
  · rw [if_neg hp, if_neg fun hc => hp (this.2 hc), sq]

/-- No sequence of calls repairs it: with one nonzero number left at an unsampled position, `Ax` and `Aty` are never adjoint, whatever the client has
called before, as long as the buffers hold finite numbers. -/
theorem C97_never_adjoint_false (h : DctSetR f idx) (hi : Function.Injective idx) {p : Fin m} (hp : ∀ i, idx i ≠ (p : ℕ)) {r : ℝ} (hr : r ≠ 0) (ht : t.Ety p = .fin r)
    {t' : DctBuf Dbl m} (ha : After f t t') (he : t'.Ety = fvec e) : ¬ AdjointAt f t' := by
  rw [C97_adjoint_iff_partial h hi he]
  intro hc
  obtain ⟨ix, Q, ok⟩ := funsOk h
  have hk := C97_persists h.toSet ha p hp
  rw [he, ht] at hk
  exact hr ((Dbl.fin.inj hk).symm.trans (hc p hp))

end real

/-! ## Examples -/

/-- length 3, sampled at 0 and 2, the planner having left 5 at position 1 -/
example : ¬ AdjointAt (dct1Funs (refFftw1 : Fftw Dbl 3) ![0, 2]) ⟨fvec ![0, 5, 0], fvec 0, fvec 0⟩ :=
  have S : DctSetR (dct1Funs (refFftw1 : Fftw Dbl 3) ![0, 2]) ![0, 2] := .d1 _ _ refFftw1_ok (by intro i; fin_cases i <;> simp)
  C97_never_adjoint_false S (by decide) (p := 1) (by intro i; fin_cases i <;> simp) (r := 5) (by norm_num) rfl Relation.ReflTransGen.refl rfl

/-- and with zeros there -/
example : AdjointAt (dct1Funs (refFftw1 : Fftw Dbl 3) ![0, 2]) ⟨fvec ![7, 0, 8], fvec 0, fvec 0⟩ :=
  have S : DctSetR (dct1Funs (refFftw1 : Fftw Dbl 3) ![0, 2]) ![0, 2] := .d1 _ _ refFftw1_ok (by intro i; fin_cases i <;> simp)
  (C97_adjoint_iff_partial S (by decide) rfl).2 fun p hp => by
    fin_cases p
    · exact absurd rfl (hp 0)
    · rfl
    · exact absurd rfl (hp 1)

end L1c
