import Verif.Proofs.WorldHist
import Verif.Props.Dct

/-!
# Properties of setup and destruction of transform sets

C19, C20, C28, C30 (setup), C31, C32.
-/

namespace L1c
open Scalar

set_option linter.unusedSectionVars false

variable {F : Type} [Scalar F] {w w' : World F} {L : Sets F} {lib : FftwLib F}
variable {n mrow mcol dct_mode : Int} {idx : List Int}

/-! ## C19 -/

/-- **C19.**  In any state, whatever the allocator and the planner do: a call that returns reports
`L1C_INVALID_ARGUMENT` exactly for invalid arguments, otherwise success, out of memory or failed initialisation (never
`L1C_INCONSISTENT_ARGUMENTS`); it hands out functions exactly on success, and then for `n` measurements of a signal of
length `mrow*mcol`. -/
theorem C19_dct_setup (hf : FitsInt (mrow * mcol)) {r : Int × Option (AxFuns F)}
    (hs : l1c_setup_dct_transforms n mrow mcol dct_mode idx w = some (r, w')) :
    (r.1 = L1C_INVALID_ARGUMENT ↔ ¬ ValidDct n mrow mcol idx) ∧
    (r.1 = L1C_SUCCESS ∨ r.1 = L1C_INVALID_ARGUMENT ∨ r.1 = L1C_OUT_OF_MEMORY ∨ r.1 = L1C_DCT_INIT_FAILURE) ∧
    (r.1 = L1C_SUCCESS ↔ r.2.isSome) ∧
    r.1 ≠ L1C_INCONSISTENT_ARGUMENTS ∧
    ∀ ax, r.2 = some ax → ax.n = n ∧ ax.m = mrow * mcol ∧ ax.p = mrow * mcol ∧ ax.q = mrow * mcol := by
  by_cases h0 : n ≤ 0 ∨ mrow ≤ 0 ∨ mcol ≤ 0
  · rw [setup_dct_nonpos h0] at hs
    cases hs
    refine ⟨iff_of_true rfl fun h => ?_, Or.inr (Or.inl rfl), ?_, ?_, fun ax h => by cases h⟩
    · have := h.1; have := h.2.1; have := h.2.2.1; omega
    · simp [L1C_INVALID_ARGUMENT, L1C_SUCCESS]
    · simp [L1C_INVALID_ARGUMENT, L1C_INCONSISTENT_ARGUMENTS]
  by_cases hi : ∀ i ∈ idx, 0 ≤ i ∧ i < mrow * mcol
  swap
  · rw [setup_dct_badidx h0 hf hi] at hs
    cases hs
    refine ⟨iff_of_true rfl fun h => hi h.2.2.2, Or.inr (Or.inl rfl), ?_, ?_, fun ax h => by cases h⟩
    · simp [L1C_INVALID_ARGUMENT, L1C_SUCCESS]
    · simp [L1C_INVALID_ARGUMENT, L1C_INCONSISTENT_ARGUMENTS]
  have hv : ValidDct n mrow mcol idx := ⟨by omega, by omega, by omega, hi⟩
  have hpos : 0 < mrow * mcol := mul_pos hv.2.1 hv.2.2.1
  cases ht : twoDim mrow mcol dct_mode
  · rw [setup_dct_one hv hf ht] at hs
    rcases dct1_setup_result hs with ⟨-, rfl⟩ | ⟨-, -, rfl⟩ | ⟨-, -, rfl⟩
    · refine ⟨iff_of_false (by simp [L1C_SUCCESS, L1C_INVALID_ARGUMENT]) (not_not.2 hv), Or.inl rfl, by simp, by simp [L1C_SUCCESS, L1C_INCONSISTENT_ARGUMENTS], ?_⟩
      intro ax h
      cases h
      have := hv.1
      simp only
      omega
    · refine ⟨iff_of_false (by simp [L1C_DCT_INIT_FAILURE, L1C_INVALID_ARGUMENT]) (not_not.2 hv), Or.inr (Or.inr (Or.inr rfl)), by simp [L1C_DCT_INIT_FAILURE, L1C_SUCCESS], by simp [L1C_DCT_INIT_FAILURE, L1C_INCONSISTENT_ARGUMENTS], fun ax h => by cases h⟩
    · refine ⟨iff_of_false (by simp [L1C_OUT_OF_MEMORY, L1C_INVALID_ARGUMENT]) (not_not.2 hv), Or.inr (Or.inr (Or.inl rfl)), by simp [L1C_OUT_OF_MEMORY, L1C_SUCCESS], by simp [L1C_OUT_OF_MEMORY, L1C_INCONSISTENT_ARGUMENTS], fun ax h => by cases h⟩
  · rw [setup_dct_two hv hf ht] at hs
    by_cases h5 : ∀ i < 5, w.oracle (w.calls + i) = true
    · obtain ⟨v, e, -⟩ := dct2_setup_ok n.toNat mrow.toNat mcol.toNat idx w h5
      rw [e] at hs
      cases hs
      refine ⟨iff_of_false (by simp [L1C_SUCCESS, L1C_INVALID_ARGUMENT]) (not_not.2 hv), Or.inl rfl, by simp, by simp [L1C_SUCCESS, L1C_INCONSISTENT_ARGUMENTS], ?_⟩
      intro ax h
      cases h
      have := hv.1
      simp only
      rw [← toNat_mul hv.2.1 hv.2.2.1]
      omega
    · obtain ⟨st, v, k, e, hst, -⟩ := dct2_setup_fail n.toNat mrow.toNat mcol.toNat idx w h5
      rw [e] at hs
      cases hs
      rcases hst with rfl | rfl
      · refine ⟨iff_of_false (by simp [L1C_DCT_INIT_FAILURE, L1C_INVALID_ARGUMENT]) (not_not.2 hv), Or.inr (Or.inr (Or.inr rfl)), by simp [L1C_DCT_INIT_FAILURE, L1C_SUCCESS], by simp [L1C_DCT_INIT_FAILURE, L1C_INCONSISTENT_ARGUMENTS], fun ax h => by cases h⟩
      · refine ⟨iff_of_false (by simp [L1C_OUT_OF_MEMORY, L1C_INVALID_ARGUMENT]) (not_not.2 hv), Or.inr (Or.inr (Or.inl rfl)), by simp [L1C_OUT_OF_MEMORY, L1C_SUCCESS], by simp [L1C_OUT_OF_MEMORY, L1C_INCONSISTENT_ARGUMENTS], fun ax h => by cases h⟩

/-- **C19**, acceptance: valid arguments succeed, in any state, if the five requests (three arrays, two plans) are granted. -/
theorem C19_accepts (hf : FitsInt (mrow * mcol)) (hv : ValidDct n mrow mcol idx)
    (ho : ∀ i < 5, w.oracle (w.calls + i) = true) :
    ∃ ax w', l1c_setup_dct_transforms n mrow mcol dct_mode idx w = some ((L1C_SUCCESS, some ax), w') ∧
      ax.kind = if twoDim mrow mcol dct_mode then .d2 else .d1 := by
  cases ht : twoDim mrow mcol dct_mode
  · obtain ⟨v, e, -⟩ := dct1_setup_ok n.toNat (mrow * mcol).toNat idx w ho
    exact ⟨_, v, (setup_dct_one hv hf ht).trans e, rfl⟩
  · obtain ⟨v, e, -⟩ := dct2_setup_ok n.toNat mrow.toNat mcol.toNat idx w ho
    exact ⟨_, v, (setup_dct_two hv hf ht).trans e, rfl⟩

/-- **C19**, rejection: invalid arguments are rejected in any state, with nothing changed. -/
theorem C19_rejects (hf : FitsInt (mrow * mcol)) (hv : ¬ ValidDct n mrow mcol idx) :
    l1c_setup_dct_transforms n mrow mcol dct_mode idx w = some ((L1C_INVALID_ARGUMENT, none), w) := by
  by_cases h0 : n ≤ 0 ∨ mrow ≤ 0 ∨ mcol ≤ 0
  · exact setup_dct_nonpos h0
  · exact setup_dct_badidx h0 hf fun hi => hv ⟨by omega, by omega, by omega, hi⟩

/-- the hypotheses are met: 2 samples of a 3 by 4 image; an index too large -/
example : FitsInt (3 * 4) ∧ ValidDct 2 3 4 [0, 11] ∧ ¬ ValidDct 2 3 4 [0, 12] := by
  unfold FitsInt INT_MAX INT_MIN ValidDct
  refine ⟨by omega, by simp, by simp⟩

/-- a program start with all requests granted -/
def freshWorld (F : Type) [Scalar F] : World F := World.init (fun _ => true) (fun _ _ => lit 0) false

example : ∃ ax w', l1c_setup_dct_transforms 2 3 4 DCT2 [0, 11] (freshWorld F) = some ((L1C_SUCCESS, some ax), w') :=
  let ⟨ax, w', h, _⟩ := C19_accepts (w := freshWorld F) (dct_mode := DCT2) (idx := [0, 11]) (n := 2) (mrow := 3) (mcol := 4)
    (by unfold FitsInt INT_MAX INT_MIN; omega) (by unfold ValidDct; simp) (fun _ _ => rfl)
  ⟨ax, w', h⟩

/-! ## C20 -/

/-- **C20 is false.**  Every positive size pair whose product does not fit makes the setup overflow a signed product. -/
theorem C20_no_overflow_false (hn : 0 < n) (hr : 0 < mrow) (hc : 0 < mcol) (hf : ¬ FitsInt (mrow * mcol)) :
    l1c_setup_dct_transforms n mrow mcol dct_mode idx w = none :=
  setup_dct_overflow (by omega) hf

example : (0 : Int) < 65536 ∧ FitsInt 65536 ∧ ¬ FitsInt (65536 * 65536) := by
  unfold FitsInt INT_MAX INT_MIN; omega

/-- The same holds for the DCT-TV setup, which multiplies before checking anything. -/
theorem C20_tv_no_overflow_false {alp_v alp_h : F} {analysis : Bool} (hf : ¬ FitsInt (mrow * mcol)) :
    l1c_setup_dctTV_transforms n mrow mcol alp_v alp_h dct_mode analysis idx w = none := setup_tv_overflow hf

example : l1c_setup_dctTV_transforms 1 65536 65536 (lit 1) (lit 1) DCT1 true [0] (freshWorld F) = none :=
  C20_tv_no_overflow_false (by unfold FitsInt INT_MAX INT_MIN; omega)

/-- **C20**, what holds: at program start a DCT setup never has undefined behaviour if the product fits or some size is not
positive (the product is then not formed).  *Missing from the full property:* positive sizes whose product does not fit. -/
theorem C20_no_overflow_partial (oracle : ℕ → Bool) (junk : ℕ → ℕ → F) (h : FitsInt (mrow * mcol) ∨ n ≤ 0 ∨ mrow ≤ 0 ∨ mcol ≤ 0) :
    l1c_setup_dct_transforms n mrow mcol dct_mode idx (World.init oracle junk false) ≠ none := by
  by_cases h0 : n ≤ 0 ∨ mrow ≤ 0 ∨ mcol ≤ 0
  · rw [setup_dct_nonpos h0]; simp
  have hf : FitsInt (mrow * mcol) := by
    rcases h with h | h
    · exact h
    · exact absurd h h0
  by_cases hv : ValidDct n mrow mcol idx
  swap
  · rw [C19_rejects hf hv]; simp
  have hI := inv_init oracle junk
  cases ht : twoDim mrow mcol dct_mode
  · rw [setup_dct_one hv hf ht]
    by_cases h5 : ∀ i < 5, (World.init oracle junk false).oracle ((World.init oracle junk false).calls + i) = true
    · obtain ⟨v, e, -⟩ := dct1_setup_ok n.toNat (mrow * mcol).toNat idx _ h5
      rw [e]; simp
    · obtain ⟨st, v, e, -⟩ := inv_setup1_fail hI rfl n.toNat (mrow * mcol).toNat idx h5 (Or.inr rfl)
      rw [e]; simp
  · rw [setup_dct_two hv hf ht]
    by_cases h5 : ∀ i < 5, (World.init oracle junk false).oracle ((World.init oracle junk false).calls + i) = true
    · obtain ⟨v, e, -⟩ := dct2_setup_ok n.toNat mrow.toNat mcol.toNat idx _ h5
      rw [e]; simp
    · obtain ⟨st, v, k, e, -⟩ := dct2_setup_fail n.toNat mrow.toNat mcol.toNat idx _ h5
      rw [e]; simp

example : l1c_setup_dct_transforms 1 (-65536) 65536 DCT1 [0] (World.init (fun k => k % 2 == 0) (fun _ _ => lit 0) false : World F) ≠ none :=
  C20_no_overflow_partial _ _ (Or.inr (Or.inr (Or.inl (by omega))))

/-! ## C28 -/

section C28
variable {alp_v alp_h : F} {analysis : Bool}

/-- **C28**, acceptance: success is reported only for valid arguments, in any state. -/
theorem C28_accepts_only_valid {r : Int × Option (AxFuns F)}
    (hs : l1c_setup_dctTV_transforms n mrow mcol alp_v alp_h dct_mode analysis idx w = some (r, w'))
    (hr : r.1 = L1C_SUCCESS) : ValidTv n mrow mcol alp_v alp_h idx := by
  by_contra hv
  by_cases hf : FitsInt (mrow * mcol)
  · rw [setup_tv_invalid hf hv] at hs
    cases hs
    simp [L1C_SUCCESS, L1C_INVALID_ARGUMENT] at hr
  · rw [setup_tv_overflow hf] at hs
    cases hs

/-- **C28**, rejection: invalid arguments give `L1C_INVALID_ARGUMENT`; no memory, plan, or variable of the DCT and matrix
modules is touched, so that live DCT and matrix sets compute what they did before.  *Missing from the full property:* the
variables of the DCT-TV module itself are overwritten, see `C28_live_set_unchanged_false`. -/
theorem C28_rejects_partial (hf : FitsInt (mrow * mcol)) (hv : ¬ ValidTv n mrow mcol alp_v alp_h idx) :
    ∃ w', l1c_setup_dctTV_transforms n mrow mcol alp_v alp_h dct_mode analysis idx w = some ((L1C_INVALID_ARGUMENT, none), w') ∧
      w'.obj = w.obj ∧ w'.g1 = w.g1 ∧ w'.g2 = w.g2 ∧ w'.gm = w.gm ∧ w'.gt.u = w.gt.u ∧ w'.gt.loc = w.gt.loc ∧
      ∀ K, K = .d1 ∨ K = .d2 ∨ K = .mat → ∀ op a out,
        (wcall lib K op a out w').map (·.1) = (wcall lib K op a out w).map (·.1) := by
  refine ⟨_, setup_tv_invalid hf hv, rfl, rfl, rfl, rfl, rfl, rfl, ?_⟩
  rintro K (rfl | rfl | rfl) op a out
  · show (wcall1 lib op a out (w.reset mrow mcol alp_v alp_h)).map _ = (wcall1 lib op a out w).map _
    have e : ∀ k, buf1 (w.reset mrow mcol alp_v alp_h) k = buf1 w k := fun _ => rfl
    have eg : (w.reset mrow mcol alp_v alp_h).g1 = w.g1 := rfl
    simp only [wcall1, e, eg, apply_ite (Option.map (fun x : (Arr F × Arr F) × World F => x.1)), apply_dite (Option.map (fun x : (Arr F × Arr F) × World F => x.1)), Option.bind_eq_bind, Option.map_bind,
      Option.pure_def, Option.map_some, Option.map_map, Function.comp_def]
    rfl
  · show (wcall2 lib op a out (w.reset mrow mcol alp_v alp_h)).map _ = (wcall2 lib op a out w).map _
    have e : ∀ k l, buf2 (w.reset mrow mcol alp_v alp_h) k l = buf2 w k l := fun _ _ => rfl
    have eg : (w.reset mrow mcol alp_v alp_h).g2 = w.g2 := rfl
    simp only [wcall2, e, eg, apply_ite (Option.map (fun x : (Arr F × Arr F) × World F => x.1)), apply_dite (Option.map (fun x : (Arr F × Arr F) × World F => x.1)), Option.bind_eq_bind, Option.map_bind,
      Option.pure_def, Option.map_some, Option.map_map, Function.comp_def]
    rfl
  · show (wcallM op a out (w.reset mrow mcol alp_v alp_h)).map _ = (wcallM op a out w).map _
    have e : ∀ k b, getArr (w.reset mrow mcol alp_v alp_h) k b = getArr w k b := fun _ _ => rfl
    have eg : (w.reset mrow mcol alp_v alp_h).gm = w.gm := rfl
    cases op <;> simp only [wcallM, e, eg, Option.bind_eq_bind, Option.map_bind,
      Option.pure_def, Option.map_some, Option.map_map, Function.comp_def] <;> rfl

/-- one column is too few for the horizontal differences -/
example : FitsInt (3 * 1) ∧ ¬ ValidTv (F := Dbl) 1 3 1 (.fin 1) (.fin 1) [2] := by
  refine ⟨by unfold FitsInt INT_MAX INT_MIN; omega, fun h => ?_⟩
  have := (h.2.2.2 (Or.inl (by simp [Dbl.lit_eq]))).2
  omega

/-- **C28's second half is false.**  With an analysis set live, a rejected call (`n = 0`) for a 1 by 1 image makes the live
set's `Mx` copy one entry instead of `mrow*mcol`. -/
theorem C28_live_set_unchanged_false (h : Hist lib w L) {t : SetTv F} (ht : L.tv = some t) (_hana : t.syn = false) :
    ∃ w', l1c_setup_dctTV_transforms 0 1 1 alp_v alp_h dct_mode analysis [] w = some ((L1C_INVALID_ARGUMENT, none), w') ∧
      ∀ a out, (wcall lib .tvAna .Mx a out w).map (·.1) = copyArr (t.mrow * t.mcol) a out ∧
        (wcall lib .tvAna .Mx a out w').map (·.1) = copyArr 1 a out := by
  have hf : FitsInt (1 * 1) := by unfold FitsInt INT_MAX INT_MIN; omega
  refine ⟨_, setup_tv_invalid hf (fun hv => absurd hv.1.1 (by simp)), fun a out => ?_⟩
  obtain ⟨R, own, hI, hR⟩ := hist_inv h
  obtain ⟨hm, s, hr, hv, -⟩ := hR.tv t ht
  constructor
  · show (wcallT lib false .Mx a out w).map _ = _
    unfold wcallT
    rw [if_pos (by simp), hv.mrow, hv.mcol, ← Int.natCast_mul, Int.toNat_natCast]
    cases copyArr (t.mrow * t.mcol) a out <;> rfl
  · show (wcallT lib false .Mx a out (w.reset 1 1 alp_v alp_h)).map _ = _
    unfold wcallT
    rw [if_pos (by simp)]
    show ((copyArr (1 * 1 : Int).toNat a out).map _).map _ = _
    cases hc : copyArr 1 a out <;> simp [hc]

end C28

/-- arguments accepted in exact arithmetic: one sample of a 3 by 3 image, weights 1 -/
theorem validTv_example : ValidTv (F := Dbl) 1 3 3 (.fin 1) (.fin 1) [4] := by
  refine ⟨by unfold ValidDct; simp, ?_, ?_, fun _ => by omega⟩ <;>
  · rw [Dbl.lit_eq, Dbl.flt_fin]; simp

/-- a history with a live analysis set, in exact arithmetic -/
theorem hist_tv_example (lib : FftwLib Dbl) : ∃ w L t, Hist lib w L ∧ L.tv = some t ∧ t.syn = false ∧ t.mrow = 3 ∧ t.mcol = 3 ∧
    L.d1 = none ∧ L.d2 = none ∧ L.mat = none ∧ L.lost = false := by
  have hf : FitsInt (3 * 3) := by unfold FitsInt INT_MAX INT_MIN; omega
  have hp : FitsInt (tvP (3 * 3 : Int).toNat (Dbl.fin 1) (Dbl.fin 1)) := by
    have : tvP (3 * 3 : Int).toNat (Dbl.fin 1) (Dbl.fin 1) ≤ 27 := by
      unfold tvP
      simp only [show (3 * 3 : Int).toNat = 9 from rfl]
      split <;> omega
    unfold FitsInt INT_MAX INT_MIN
    omega
  obtain ⟨a, -, e⟩ := setup_tv_granted (w := freshWorld Dbl) (dct_mode := DCT2) (analysis := true) hf validTv_example hp rfl
  obtain ⟨ax, v, e', -⟩ := C19_accepts (dct_mode := DCT2) (w := ((freshWorld Dbl).push (.arr a)).tvReady 3 3 (.fin 1) (.fin 1) (some (freshWorld Dbl).next))
    hf validTv_example.1 (fun _ _ => rfl)
  rw [e'] at e
  dsimp only at e
  refine ⟨_, _, _, Hist.tv 1 3 3 (.fin 1) (.fin 1) DCT2 true [4] (Hist.start (fun _ => true) (fun _ _ => lit 0)) rfl rfl ?_ e, rfl, rfl, rfl, rfl, rfl, rfl, rfl, rfl⟩
  · rintro (h | ⟨t, h, -⟩)
    · have : twoDim 3 3 DCT2 = true := by decide
      rw [this] at h
      simp [Sets.empty] at h
    · cases h

/-- the two results of `C28_live_set_unchanged_false` differ already on this input -/
example : copyArr (3 * 3) (⟨9, fvec fun _ => 1⟩ : Arr Dbl) ⟨9, fvec fun _ => 0⟩ ≠
    copyArr 1 (⟨9, fvec fun _ => 1⟩ : Arr Dbl) ⟨9, fvec fun _ => 0⟩ := by
  unfold copyArr dcopy
  intro h
  simp [slice_eq, writeAt_eq] at h
  have := congrFun h 1
  simp at this

/-! ## C30 -/

/-- **C30**, setup: invalid sizes are rejected and change nothing; valid sizes succeed if the work array can be had, and
otherwise report that memory ran out. -/
theorem C30_setup (n m : Int) (A : Arr F) (w : World F) :
    ((n ≤ 0 ∨ m ≤ 0) → l1c_setup_matrix_transforms n m A w = some ((L1C_INVALID_ARGUMENT, none), w)) ∧
    (0 < n → 0 < m → w.oracle w.calls = true → ∃ ax w', l1c_setup_matrix_transforms n m A w = some ((L1C_SUCCESS, some ax), w') ∧
      ax.n = n ∧ ax.m = m ∧ ax.kind = .mat ∧ w'.gm.A = A ∧ (w'.gm.N : Int) = n ∧ (w'.gm.M : Int) = m) ∧
    (0 < n → 0 < m → w.oracle w.calls = false → ∃ w', l1c_setup_matrix_transforms n m A w = some ((L1C_OUT_OF_MEMORY, none), w') ∧
      w'.obj = w.obj) := by
  refine ⟨setup_mat_invalid, fun hn hm ho => ?_, fun hn hm ho => ?_⟩
  · have h0 : ¬ (n ≤ 0 ∨ m ≤ 0) := by omega
    generalize hr : l1c_setup_matrix_transforms n m A w = r
    unfold l1c_setup_matrix_transforms at hr
    rw [if_neg h0] at hr
    simp [wbind, wmalloc_eq, wmodify, wpure, ho, World.push, wzero, writeAt_full, -bind_pure_comp] at hr
    subst hr
    exact ⟨_, _, rfl, rfl, rfl, rfl, rfl, by simp only; omega, by simp only; omega⟩
  · have h0 : ¬ (n ≤ 0 ∨ m ≤ 0) := by omega
    generalize hr : l1c_setup_matrix_transforms n m A w = r
    unfold l1c_setup_matrix_transforms at hr
    rw [if_neg h0] at hr
    simp [wbind, wmalloc_eq, wmodify, wpure, ho, World.skip, -bind_pure_comp] at hr
    subst hr
    exact ⟨_, rfl, rfl⟩

/-! ## C31 -/

/-- the result of an operator call does not depend on what happened to the buffers since setup -/
theorem dctOp_fresh {m k : ℕ} {f : DctFuns F m k} {ix : Fin k → Int} (h : DctSet f ix) {s : DctBuf F m} (hs : Reach f s)
    (op : Op) (a out : Arr F) : (dctOp f op a out s).map (·.1) = (dctOp f op a out DctBuf.fresh).map (·.1) := by
  have key : ∀ {k' l : ℕ} (g : Vec F l → DctBuf F m → Option (XOut F k' l m)), SameAsFirst g s →
      (onArrays g a out s).map (·.1) = (onArrays g a out DctBuf.fresh).map (·.1) := by
    intro k' l g hg
    unfold onArrays
    cases slice l 0 a.2 with
    | none => rfl
    | some x =>
      obtain ⟨o, o', e, e', e1, e2⟩ := hg x
      simp only [Option.bind_eq_bind, Option.bind_some, e, e', e1, e2, Option.map_bind, Option.pure_def, Option.map_some, Function.comp_def]
  obtain ⟨h1, h2, h3, h4, h5, h6, h7⟩ := C25_history h hs
  cases op
  case Ax => exact key _ h1
  case Aty => exact key _ h2
  case AtAx => exact key _ h3
  case Mx => exact key _ h4
  case Mty => exact key _ h5
  case Rx => exact key _ h6
  case Rty =>
    show (slice m 0 out.2 >>= _).map _ = (slice m 0 out.2 >>= _).map _
    cases slice m 0 out.2 with
    | none => rfl
    | some old => exact key _ (h7 old)
  all_goals
    show ((copyArr m a out).map _).map _ = ((copyArr m a out).map _).map _
    cases copyArr m a out <;> rfl

/-- **C31**, what holds: for a client that keeps at most one live set per module (a DCT-TV set uses the DCT-TV module and one
DCT module), in a build without FFTW threads.  After any history of setups, failed setups, calls and destroys, every
operator of every live set computes what the set was set up for; for DCT sets exactly what it would compute right after
its own setup from a fresh program.
*Missing from the full property:* several live sets of one module, and threads; see the two negations below. -/
theorem C31_independent_partial (h : Hist lib w L) :
    (∀ c, L.d1 = some c → ∃ hm : 0 < c.m, ∀ op a out,
      (wcall lib .d1 op a out w).map (·.1) = (dctOp (fun1 lib c.m c.n c.idx hm) op a out DctBuf.fresh).map (·.1)) ∧
    (∀ c, L.d2 = some c → ∃ hm : 0 < c.mrow ∧ 0 < c.mcol, ∀ op a out,
      (wcall lib .d2 op a out w).map (·.1) = (dctOp (fun2 lib c.mrow c.mcol c.n c.idx hm) op a out DctBuf.fresh).map (·.1)) ∧
    (∀ t, L.tv = some t → ∃ (hm : 0 < t.mrow ∧ 0 < t.mcol) (s : _), TvReach (cfgT lib t hm) s ∧ ∀ op a out,
      (wcall lib (if t.syn then .tvSyn else .tvAna) op a out w).map (·.1) = (tvAll (cfgT lib t hm) t.syn op a out s).map (·.1)) ∧
    (∀ c, L.mat = some c → ∃ d, ∀ op a out,
      (wcall lib .mat op a out w).map (·.1) = (matOp c.N c.M c.A op a out d).map (·.1)) := by
  obtain ⟨R, own, hI, hR⟩ := hist_inv h
  refine ⟨fun c hc => ?_, fun c hc => ?_, fun t ht => ?_, fun c hc => ?_⟩
  · obtain ⟨hm, s, hr, hre, hi⟩ := hR.d1 c hc
    refine ⟨hm, fun op a out => ?_⟩
    have h1 := hI.s1
    rw [hr] at h1
    have hset : DctSet (fun1 lib c.m c.n c.idx hm) (idxFun c.n c.idx) := by
      have : NeZero c.m := ⟨hm.ne'⟩
      exact .d1 _ _ hi
    show (wcall1 lib op a out w).map _ = _
    rw [wcall1_eq h1 hm, Option.map_map, ← dctOp_fresh hset hre]
    rfl
  · obtain ⟨hm, s, hr, hre, hi⟩ := hR.d2 c hc
    refine ⟨hm, fun op a out => ?_⟩
    have h1 := hI.s2
    rw [hr] at h1
    have hset : DctSet (fun2 lib c.mrow c.mcol c.n c.idx hm) (idxFun c.n c.idx) := by
      have : NeZero c.mrow := ⟨hm.1.ne'⟩
      have : NeZero c.mcol := ⟨hm.2.ne'⟩
      exact .d2 _ _ hi
    show (wcall2 lib op a out w).map _ = _
    rw [wcall2_eq h1 hm, Option.map_map, ← dctOp_fresh hset hre]
    rfl
  · obtain ⟨hm, s, hr, hv, hre, hi⟩ := hR.tv t ht
    refine ⟨hm, s, hre, fun op a out => ?_⟩
    obtain ⟨put, e, -⟩ := wcallT_eq hI hv hr hm lib op a out
    have e' : wcall lib (if t.syn then .tvSyn else .tvAna) op a out w = wcallT lib t.syn op a out w := by cases t.syn <;> rfl
    rw [e', e, Option.map_map]
    rfl
  · obtain ⟨d, hr⟩ := hR.mat c hc
    refine ⟨d, fun op a out => ?_⟩
    have h1 := hI.sm
    rw [hr] at h1
    obtain ⟨b, -, e⟩ := wcallM_eq h1 op a out
    show (wcallM op a out w).map _ = _
    rw [e, Option.map_map]
    rfl

/-- **C31 is false** for two sets of one module.  In any state, once a further 1-D set has been set up successfully, *every*
1-D set computes the new operator: `wcall lib .d1` is what the older set's function pointers run, too. -/
theorem C31_independent_false (hf : FitsInt (mrow * mcol)) (hv : ValidDct n mrow mcol idx)
    (ht : twoDim mrow mcol dct_mode = false) (ho : ∀ i < 5, w.oracle (w.calls + i) = true) :
    ∃ (ax : AxFuns F) (w' : World F) (hm : 0 < (mrow * mcol).toNat),
      l1c_setup_dct_transforms n mrow mcol dct_mode idx w = some ((L1C_SUCCESS, some ax), w') ∧
      ∀ op a out, (wcall lib .d1 op a out w').map (·.1) =
        (dctOp (fun1 lib (mrow * mcol).toNat n.toNat idx hm) op a out DctBuf.fresh).map (·.1) := by
  obtain ⟨v, e, ev⟩ := dct1_setup_ok n.toNat (mrow * mcol).toNat idx w ho
  have hpos : 0 < mrow * mcol := mul_pos hv.2.1 hv.2.2.1
  have hm : 0 < (mrow * mcol).toNat := by omega
  refine ⟨_, v, hm, (setup_dct_one hv hf ht).trans e, fun op a out => ?_⟩
  have h1 : Has1 v (fun b => if w.next ≤ b ∧ b ≤ w.next + 4 then some .d1 else none)
      (some ⟨(mrow * mcol).toNat, n.toNat, idx, DctBuf.fresh⟩) := by
    refine ⟨w.next, by rw [ev], ?_, ?_, ?_, ?_, ?_, fun b => ?_⟩
    · rw [ev]; simp [DctBuf.fresh]
    · rw [ev]; simp [DctBuf.fresh]
    · rw [ev]; simp [DctBuf.fresh]
    · rw [ev]; simp
    · rw [ev]; simp
    · simp only
      split <;> simp_all
  show (wcall1 lib op a out v).map _ = _
  rw [wcall1_eq h1 hm, Option.map_map]
  rfl

example : ∃ (ax : AxFuns F) (w' : World F), l1c_setup_dct_transforms 1 2 1 DCT1 [1] (freshWorld F) = some ((L1C_SUCCESS, some ax), w') ∧
    ∀ op a out, (wcall lib .d1 op a out w').map (·.1) = (dctOp (fun1 lib 2 1 [1] (by omega)) op a out DctBuf.fresh).map (·.1) :=
  let ⟨ax, w', _, h, h'⟩ := C31_independent_false (lib := lib) (w := freshWorld F) (dct_mode := DCT1) (idx := [1]) (n := 1) (mrow := 2) (mcol := 1)
    (by unfold FitsInt INT_MAX INT_MIN; omega) (by simp [ValidDct]) (by decide) (fun _ _ => rfl)
  ⟨ax, w', h, h'⟩

/-- the operators of the sets differ: sampling entry 0 and sampling entry 1 of a signal of length 2 -/
example (lib : FftwLib Dbl) : (dctOp (fun1 lib 2 1 [0] (by omega)) .Rx ⟨2, fvec ![5, 7]⟩ ⟨1, fvec ![0]⟩ DctBuf.fresh).map (·.1.2) = some ⟨1, fvec ![5]⟩ ∧
    (dctOp (fun1 lib 2 1 [1] (by omega)) .Rx ⟨2, fvec ![5, 7]⟩ ⟨1, fvec ![0]⟩ DctBuf.fresh).map (·.1.2) = some ⟨1, fvec ![7]⟩ := by
  have key : ∀ i : Fin 2, (dctOp (fun1 lib 2 1 [(i.val : Int)] (by omega)) .Rx ⟨2, fvec ![5, 7]⟩ ⟨1, fvec ![0]⟩ DctBuf.fresh).map (·.1.2) =
      some ⟨1, fvec ![(![5, 7] : Fin 2 → ℝ) i]⟩ := by
    intro i
    have hr : resolve 2 (idxFun 1 [(i.val : Int)]) = some fun _ => i := by
      unfold resolve
      rw [dif_pos (by intro j; fin_cases j; simp [idxFun]; omega)]
      congr 1
      funext j
      fin_cases j
      apply Fin.ext
      simp [idxFun]
    show ((onArrays (dct_Ex (dct1Cfg (lib.f1 2) (idxFun 1 [(i.val : Int)]))) ⟨2, fvec ![5, 7]⟩ ⟨1, fvec ![0]⟩ DctBuf.fresh).map _) = _
    have hx : ∀ (x : Vec Dbl 2) s, dct_Ex (dct1Cfg (lib.f1 2) (idxFun 1 [(i.val : Int)])) x s = some ⟨gather (fun _ => i) x, x, s⟩ := by
      intro x s
      show (resolve 2 (idxFun 1 [(i.val : Int)]) >>= _) = _
      rw [hr]; rfl
    unfold onArrays
    simp only [hx, slice_eq 0 (show 0 + 2 ≤ 2 by omega), obind, writeAt_full, Option.pure_def, Option.map_some]
    congr 2
    funext j
    fin_cases j
    simp [gather, fvec]
  exact ⟨key 0, key 1⟩

/-- **C31 is false** in a build with FFTW threads, even for sets of different modules: set up a 1-D set, then a 2-D set,
destroy the 2-D set; every operator of the 1-D set that needs a plan now has undefined behaviour. -/
theorem C31_threads_false (junk : ℕ → ℕ → F) {n₂ mrow₂ mcol₂ dct_mode₂ : Int} {idx₂ : List Int}
    (hf : FitsInt (mrow * mcol)) (hv : ValidDct n mrow mcol idx) (ht : twoDim mrow mcol dct_mode = false)
    (hf₂ : FitsInt (mrow₂ * mcol₂)) (hv₂ : ValidDct n₂ mrow₂ mcol₂ idx₂) (ht₂ : twoDim mrow₂ mcol₂ dct_mode₂ = true) :
    ∃ ax₁ w₁ ax₂ w₂ w₃,
      l1c_setup_dct_transforms n mrow mcol dct_mode idx (World.init (fun _ => true) junk true) = some ((L1C_SUCCESS, some ax₁), w₁) ∧
      l1c_setup_dct_transforms n₂ mrow₂ mcol₂ dct_mode₂ idx₂ w₁ = some ((L1C_SUCCESS, some ax₂), w₂) ∧
      wdestroy ax₂.kind w₂ = some ((), w₃) ∧
      ∀ op a out, op ≠ .Wz → op ≠ .Wtx → wcall lib ax₁.kind op a out w₃ = none := by
  obtain ⟨w₁, e₁, hw₁⟩ := dct1_setup_ok n.toNat (mrow * mcol).toNat idx (World.init (fun _ => true) junk true) (fun _ _ => rfl)
  obtain ⟨w₂, e₂, hw₂⟩ := dct2_setup_ok n₂.toNat mrow₂.toNat mcol₂.toNat idx₂ w₁ (fun _ _ => by rw [hw₁]; rfl)
  have hd : ∃ w₃, wdestroy .d2 w₂ = some ((), w₃) ∧ (∀ b k i o, w₃.obj b ≠ some (.plan k i o)) ∧ w₃.g1 = w₁.g1 := by
    generalize hr : wdestroy .d2 w₂ = r
    have hr' : dct2_destroy w₂ = r := hr
    rw [dct2_destroy_eq, hw₂, hw₁] at hr'
    simp [wbind, World.init, wfree, wdestroyPlan, wcleanup, Function.update_apply, -bind_pure_comp] at hr'
    subst hr'
    refine ⟨_, rfl, ?_, by rw [hw₁]; rfl⟩
    intro b k i o h
    simp only at h
    split at h
    · cases h
    · rename_i hne
      exact hne _ _ _ h
  obtain ⟨w₃, e₃, hno, hg⟩ := hd
  refine ⟨_, w₁, _, w₂, w₃, (setup_dct_one hv hf ht).trans e₁, (setup_dct_two hv₂ hf₂ ht₂).trans e₂, e₃, ?_⟩
  intro op a out h1 h2
  show wcall1 lib op a out w₃ = none
  unfold wcall1
  rw [if_neg (by tauto)]
  split
  · have hb : buf1 w₃ w₃.g1.m = none := by
      unfold buf1
      rw [if_pos rfl]
      rw [hg, hw₁]
      unfold loadBuf
      simp only [Option.bind_eq_bind, Option.bind_some]
      rw [if_neg]
      intro hc
      exact hno _ _ _ _ hc.1
    rw [hb]
    rfl
  · rfl

/-- sets that meet the hypotheses of `C31_threads_false` -/
example : FitsInt (5 * 1) ∧ ValidDct 1 5 1 [2] ∧ twoDim 5 1 DCT2 = false ∧
    FitsInt (2 * 2) ∧ ValidDct 1 2 2 [3] ∧ twoDim 2 2 DCT2 = true := by
  unfold FitsInt INT_MAX INT_MIN ValidDct
  refine ⟨by omega, by simp, by decide, by omega, by simp, by decide⟩

/-! ## C32 -/

/-- **C32 is false**: a 2-D setup that fails after its first array was granted keeps that array for ever (no functions are
handed out that could release it). -/
theorem C32_no_leak_false (hw : w.WF) (hf : FitsInt (mrow * mcol)) (hv : ValidDct n mrow mcol idx)
    (ht : twoDim mrow mcol dct_mode = true) (h0 : w.oracle w.calls = true) (h5 : ¬ ∀ i < 5, w.oracle (w.calls + i) = true) :
    ∃ st w' b, l1c_setup_dct_transforms n mrow mcol dct_mode idx w = some ((st, none), w') ∧ w.obj b = none ∧ w'.obj b ≠ none := by
  have a5 : (∀ i < 5, w.oracle (w.calls + i) = true) ↔
      (w.oracle w.calls = true ∧ w.oracle (w.calls + 1) = true ∧ w.oracle (w.calls + 2) = true) ∧
        w.oracle (w.calls + 3) = true ∧ w.oracle (w.calls + 4) = true :=
    ⟨fun h => ⟨⟨h 0 (by omega), h 1 (by omega), h 2 (by omega)⟩, h 3 (by omega), h 4 (by omega)⟩,
      fun ⟨⟨h0, h1, h2⟩, h3, h4⟩ i hi => by interval_cases i <;> assumption⟩
  rw [a5] at h5
  suffices h : ∃ st w', l1c_dct2_setup n.toNat mrow.toNat mcol.toNat idx w = some ((st, none), w') ∧ w'.obj w.next ≠ none by
    obtain ⟨st, w', e, hb⟩ := h
    exact ⟨st, w', w.next, (setup_dct_two hv hf ht).trans e, hw _ le_rfl, hb⟩
  cases e1 : w.oracle (w.calls + 1) <;> cases e2 : w.oracle (w.calls + 2)
  case true.true =>
    cases e3 : w.oracle (w.calls + 3) <;> cases e4 : w.oracle (w.calls + 4)
    case true.true => exact absurd ⟨⟨h0, e1, e2⟩, e3, e4⟩ h5
    all_goals
      generalize hr : l1c_dct2_setup n.toNat mrow.toNat mcol.toNat idx w = r
      simp [l1c_dct2_setup, wbind, wmalloc_eq, wnew_eq, wmodify, wpure, World.push, World.skip, wzero, writeAt_full,
        h0, e1, e2, e3, e4, add_assoc, -bind_pure_comp] at hr
      subst hr
      exact ⟨_, _, rfl, by simp⟩
  all_goals
    generalize hr : l1c_dct2_setup n.toNat mrow.toNat mcol.toNat idx w = r
    simp [l1c_dct2_setup, wbind, wmalloc_eq, wmodify, wpure, World.push, World.skip, h0, e1, e2, add_assoc, -bind_pure_comp] at hr
    subst hr
    exact ⟨_, _, rfl, by simp⟩

/-- program start, second plan refused: meets the hypotheses of `C32_no_leak_false` -/
example : let w : World F := World.init (fun i => i != 4) (fun _ _ => lit 0) false
    w.WF ∧ w.oracle w.calls = true ∧ ¬ ∀ i < 5, w.oracle (w.calls + i) = true :=
  ⟨fun _ _ => rfl, rfl, fun h => by have := h 4 (by omega); simp [World.init] at this⟩

/-- **C32 is false**: set up a 1-D set, destroy it, set up another one while the allocator refuses: the failure path
destroys the plans of the first set a second time. -/
theorem C32_no_double_free_false (junk : ℕ → ℕ → F) {n₂ mrow₂ mcol₂ dct_mode₂ : Int} {idx₂ : List Int}
    (hf : FitsInt (mrow * mcol)) (hv : ValidDct n mrow mcol idx) (ht : twoDim mrow mcol dct_mode = false)
    (hf₂ : FitsInt (mrow₂ * mcol₂)) (hv₂ : ValidDct n₂ mrow₂ mcol₂ idx₂) (ht₂ : twoDim mrow₂ mcol₂ dct_mode₂ = false) :
    ∃ ax w₁ w₂,
      l1c_setup_dct_transforms n mrow mcol dct_mode idx (World.init (fun i => decide (i < 5)) junk false) = some ((L1C_SUCCESS, some ax), w₁) ∧
      wdestroy ax.kind w₁ = some ((), w₂) ∧
      l1c_setup_dct_transforms n₂ mrow₂ mcol₂ dct_mode₂ idx₂ w₂ = none := by
  obtain ⟨w₁, e₁, hI₁, -⟩ := inv_setup1 (inv_init (fun i => decide (i < 5)) junk) rfl n.toNat (mrow * mcol).toNat idx
    (fun i hi => by simp [World.init]; omega)
  obtain ⟨v, e, hv₁⟩ := dct1_setup_ok n.toNat (mrow * mcol).toNat idx (World.init (fun i => decide (i < 5)) junk false)
    (fun i hi => by simp [World.init]; omega)
  rw [e] at e₁
  cases e₁
  have hd : ∃ w₂, dct_destroy w₁ = some ((), w₂) ∧ w₂.g1.pE = some 4 ∧ w₂.next = 5 ∧ w₂.calls = 5 ∧ w₂.obj 4 = none ∧
      w₂.oracle = fun i => decide (i < 5) := by
    generalize hr : dct_destroy w₁ = r
    rw [dct_destroy_eq, hv₁] at hr
    simp [wbind, World.init, wfree, wdestroyPlan, wcleanup, -bind_pure_comp] at hr
    subst hr
    exact ⟨_, rfl, rfl, rfl, rfl, by simp, rfl⟩
  obtain ⟨w₂, e₂, h1, h2, h3, h4, h5⟩ := hd
  refine ⟨_, w₁, w₂, (setup_dct_one hv hf ht).trans e, e₂, ?_⟩
  rw [setup_dct_one hv₂ hf₂ ht₂]
  refine dct1_setup_ub _ _ _ _ (fun h => ?_) h1 (by rw [h2]; omega) h4
  have := h 0 (by omega)
  rw [h5, h3] at this
  simp at this

/-- **C32 is false**: two live 1-D sets, each destroyed once as documented; the second destroy frees the same arrays. -/
theorem C32_two_sets_false (junk : ℕ → ℕ → F) {n₂ mrow₂ mcol₂ dct_mode₂ : Int} {idx₂ : List Int}
    (hf : FitsInt (mrow * mcol)) (hv : ValidDct n mrow mcol idx) (ht : twoDim mrow mcol dct_mode = false)
    (hf₂ : FitsInt (mrow₂ * mcol₂)) (hv₂ : ValidDct n₂ mrow₂ mcol₂ idx₂) (ht₂ : twoDim mrow₂ mcol₂ dct_mode₂ = false) :
    ∃ ax₁ w₁ ax₂ w₂ w₃,
      l1c_setup_dct_transforms n mrow mcol dct_mode idx (World.init (fun _ => true) junk false) = some ((L1C_SUCCESS, some ax₁), w₁) ∧
      l1c_setup_dct_transforms n₂ mrow₂ mcol₂ dct_mode₂ idx₂ w₁ = some ((L1C_SUCCESS, some ax₂), w₂) ∧
      wdestroy ax₁.kind w₂ = some ((), w₃) ∧ wdestroy ax₂.kind w₃ = none := by
  obtain ⟨w₁, e₁, hw₁⟩ := dct1_setup_ok n.toNat (mrow * mcol).toNat idx (World.init (fun _ => true) junk false) (fun _ _ => rfl)
  obtain ⟨w₂, e₂, hw₂⟩ := dct1_setup_ok n₂.toNat (mrow₂ * mcol₂).toNat idx₂ w₁ (fun _ _ => by rw [hw₁]; rfl)
  have hd : ∃ w₃, dct_destroy w₂ = some ((), w₃) ∧ w₃.g1.Ety = some 5 ∧ w₃.obj 5 = none := by
    generalize hr : dct_destroy w₂ = r
    rw [dct_destroy_eq, hw₂, hw₁] at hr
    simp [wbind, World.init, wfree, wdestroyPlan, wcleanup, -bind_pure_comp] at hr
    subst hr
    exact ⟨_, rfl, rfl, by simp⟩
  obtain ⟨w₃, e₃, h1, h2⟩ := hd
  refine ⟨_, w₁, _, w₂, w₃, (setup_dct_one hv hf ht).trans e₁, (setup_dct_one hv₂ hf₂ ht₂).trans e₂, e₃, ?_⟩
  show dct_destroy w₃ = none
  rw [dct_destroy_eq]
  refine wbind_none ?_
  rw [h1]
  exact wfree_dead h2

example (junk : ℕ → ℕ → F) : ∃ ax w₁ w₂, l1c_setup_dct_transforms 1 5 1 DCT1 [2] (World.init (fun i => decide (i < 5)) junk false) = some ((L1C_SUCCESS, some ax), w₁) ∧
    wdestroy ax.kind w₁ = some ((), w₂) ∧ l1c_setup_dct_transforms 1 2 1 DCT1 [1] w₂ = none :=
  C32_no_double_free_false junk (by unfold FitsInt INT_MAX INT_MIN; omega) (by simp [ValidDct]) (by decide) (by unfold FitsInt INT_MAX INT_MIN; omega)
    (by simp [ValidDct]) (by decide)

example (junk : ℕ → ℕ → F) : ∃ ax₁ w₁ ax₂ w₂ w₃, l1c_setup_dct_transforms 1 5 1 DCT1 [2] (World.init (fun _ => true) junk false) = some ((L1C_SUCCESS, some ax₁), w₁) ∧
    l1c_setup_dct_transforms 1 2 1 DCT1 [1] w₁ = some ((L1C_SUCCESS, some ax₂), w₂) ∧ wdestroy ax₁.kind w₂ = some ((), w₃) ∧ wdestroy ax₂.kind w₃ = none :=
  C32_two_sets_false junk (by unfold FitsInt INT_MAX INT_MIN; omega) (by simp [ValidDct]) (by decide) (by unfold FitsInt INT_MAX INT_MIN; omega)
    (by simp [ValidDct]) (by decide)

/-- **C32**, no leak, for the histories of `Hist` (see `C31_independent_partial`): when no set is live, none was
forgotten and no 2-D setup failed, nothing is allocated and no plan exists. -/
theorem C32_no_leak_partial (h : Hist lib w L) (hi : L.idle) (b : ℕ) : w.obj b = none := by
  obtain ⟨R, own, hI, hR⟩ := hist_inv h
  obtain ⟨i1, i2, i3, i4, i5⟩ := hi
  have nb : ∀ two, ¬ L.busy two := by
    rintro two (hb | ⟨t, hb, -⟩)
    · cases two
      · rw [i1] at hb; simp at hb
      · rw [i2] at hb; simp at hb
    · rw [i3] at hb; cases hb
  have s1 := hI.s1
  have s2 := hI.s2
  have su := hI.su
  have sm := hI.sm
  rw [hR.n1 (nb _)] at s1
  rw [hR.n2 (nb _)] at s2
  rw [hR.nu i3] at su
  rw [hR.nm i4] at sm
  refine hI.leak b ?_
  cases ho : own b with
  | none => rfl
  | some M =>
    exfalso
    cases M
    · exact s1 b ho
    · exact s2 b ho
    · exact su b ho
    · exact sm b ho
    · exact hI.left.lost (hR.lost i5) b ho

/-- **C32**, destroying a live set never frees anything twice (or touches anything dead), for the same histories. -/
theorem C32_destroy_partial (h : Hist lib w L) {K : Kind} (hK : L.has K) :
    ∃ w', wdestroy K w = some ((), w') ∧ Hist lib w' (L.drop K) := by
  obtain ⟨R, own, hI, hR⟩ := hist_inv h
  obtain ⟨w', e, -⟩ := hist_destroy hI hR hK
  exact ⟨w', e, .destroy K h hK e⟩

/-- **C32**, setups have no undefined behaviour in these histories either, if the product fits, except when a 1-D setup runs
out of memory after 1-D plans have been requested before. -/
theorem C32_setup_partial (h : Hist lib w L) (hf : FitsInt (mrow * mcol)) (hb : ¬ L.busy (twoDim mrow mcol dct_mode))
    (hx : twoDim mrow mcol dct_mode = true ∨ L.ever1 = false ∨ ∀ i < 3, w.oracle (w.calls + i) = true) :
    l1c_setup_dct_transforms n mrow mcol dct_mode idx w ≠ none := by
  by_cases hv : ValidDct n mrow mcol idx
  swap
  · rw [C19_rejects hf hv]; simp
  obtain ⟨R, own, hI, hR⟩ := hist_inv h
  by_cases h5 : ∀ i < 5, w.oracle (w.calls + i) = true
  · obtain ⟨ax, w', e, -⟩ := C19_accepts (dct_mode := dct_mode) hf hv h5
    rw [e]; simp
  cases ht : twoDim mrow mcol dct_mode
  · rw [ht] at hx hb
    rw [setup_dct_one hv hf ht]
    obtain ⟨st, v, e, -⟩ := inv_setup1_fail hI (hR.n1 hb) n.toNat (mrow * mcol).toNat idx h5 (by
      rcases hx with hx | hx | hx
      · cases hx
      · exact Or.inr (hR.ever hx)
      · exact Or.inl hx)
    rw [e]; simp
  · rw [setup_dct_two hv hf ht]
    obtain ⟨st, v, k, e, -⟩ := dct2_setup_fail n.toNat mrow.toNat mcol.toNat idx w h5
    rw [e]; simp

/-- `Hist` covers complete lifecycles: setting up an analysis set and destroying it leads to an idle state -/
example (lib : FftwLib Dbl) : ∃ w L w' L', Hist lib w L ∧ L.has .tvAna ∧ wdestroy .tvAna w = some ((), w') ∧
    Hist lib w' L' ∧ L'.idle := by
  obtain ⟨w, L, t, h, ht, hs, -, -, h1, h2, h3⟩ := hist_tv_example lib
  obtain ⟨w', e, h'⟩ := C32_destroy_partial h (K := .tvAna) ⟨t, ht, hs⟩
  exact ⟨w, L, w', _, h, ⟨t, ht, hs⟩, e, h', h1, h2, rfl, h3⟩

end L1c
