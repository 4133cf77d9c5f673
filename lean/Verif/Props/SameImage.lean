import Verif.Props.MexRam
import Verif.Proofs.NestaSim

/-!
# C107: the recovered image depends on the samples, not on the language or the process

`l1qc_dct` called from C, from Python and from Matlab and `nesta_dctTV` from Python and Matlab, each in a process of its own: memory, addresses, other blocks, contents of fresh memory and FFTW's way of
computing the same transforms may all differ, and so may the interleavings, which `CSpec` covers.
-/

namespace L1c
open Scalar Cmd

section dbl
variable {lib : FftwLib Dbl} {opts : QOpts Dbl} {mrow mcol n : ℕ} {bv : Vec Dbl n} {idx : List Int} {mode mode' : Int}
  {sC sP sM : PState Dbl} {f1C f1P f1M : ℕ → FftwM Dbl} {f2C f2P f2M : ℕ → ℕ → FftwM Dbl} {x bC bP bM pix : Ptr} {pv : Vec Dbl n} {junk : ℕ → Dbl}

/-- The same samples in two processes, with modes that stand for the same transform: the calls return the same status and the same record, and on status 0 the two output
arrays hold the same numbers.  (The recovery of these data is defined, and no request is refused.) -/
theorem C107_repeated (C : ImageCall lib f1C f2C mrow mcol n idx x bC bv sC) {x' : Ptr} (C' : ImageCall lib f1P f2P mrow mcol n idx x' bP bv sP) (hp : 0 < mrow ∧ 0 < mcol)
    (hnm : n ≤ mrow * mcol) (hmax : opts.cg_maxiter ≤ INT_MAX) (hm : twoDim mrow mcol mode = twoDim mrow mcol mode')
    (hr : recover (imageFuns lib mrow mcol n idx (twoDim mrow mcol mode) hp) bv opts ≠ none) (hC : ∀ i, sC.oracle i = true) (hP : ∀ i, sP.oracle i = true) :
    ∃ res sC' sP', CSpec (l1qc_dctM f1C f2C mrow mcol x n bC idx mode opts) sC (res.status, some res) sC' ∧
      CSpec (l1qc_dctM f1P f2P mrow mcol x' n bP idx mode' opts) sP (res.status, some res) sP' ∧
      (res.status = 0 → ∀ i : Fin (mrow * mcol), sC'.mem.val (x + ((i : ℕ) : Int)) = sP'.mem.val (x' + ((i : ℕ) : Int))) := by
  obtain ⟨⟨res, image⟩, hr⟩ := Option.ne_none_iff_exists'.1 hr
  obtain ⟨sC', c1, -, -, c4, -⟩ := C98_recovered C hp hnm hmax hr fun i _ => hC _
  obtain ⟨sP', d1, -, -, d4, -⟩ := C98_recovered (mode := mode') C' hp hnm hmax (hm ▸ hr) fun i _ => hP _
  exact ⟨res, sC', sP', c1, d1, fun h i => ((c4 h).2 i).trans ((d4 h).2 i).symm⟩

/-- C, Python and Matlab with the one-dimensional transform, the same samples (positions from 0 in C and Python, from 1 in Matlab) and the same options.  (The recovery of these data is
defined, and no request is refused.)  C and Matlab get the same record.  If its status is 0 Python gets it too, and the array of the C caller, the new array of Python and the
new array of Matlab hold the same numbers.  Otherwise Python raises an exception, and Matlab gets an array with what was in fresh memory. -/
theorem C107_interfaces (CC : ImageCall lib f1C f2C mrow mcol n idx x bC bv sC) (CP : PyImageCall lib f1P f2P mrow mcol n idx DCT1 bP bv sP)
    (CM : MexImageCall lib f1M f2M mrow mcol n bM pix bv pv sM) (hi : OneBased ((mrow : Int) * mcol) (List.ofFn pv) idx) (hmax : opts.cg_maxiter ≤ INT_MAX)
    (hp : 0 < mrow ∧ 0 < mcol) (hr : recover (imageFuns lib mrow mcol n idx false hp) bv opts ≠ none)
    (hC : ∀ i, sC.oracle i = true) (hP : ∀ i, sP.oracle i = true) (hM : ∀ i, sM.oracle i = true) :
    ∃ res sC' rP sP' zM sM', CSpec (l1qc_dctM f1C f2C mrow mcol x n bC idx DCT1 opts) sC (res.status, some res) sC' ∧
      CSpec (pyL1qcM f1P f2P mrow mcol n bP idx DCT1 opts) sP rP sP' ∧ CSpec (mexL1qcM f1M f2M junk mrow mcol n n bM pix opts) sM (.ret zM res) sM' ∧
      (res.status = 0 → ∃ (image : Vec Dbl (mrow * mcol)) (zP : Ptr), rP = .ret zP (some res) ∧ HoldsV sC' x image ∧ NewArray sP sP' zP image ∧ NewArray sM sM' zM image) ∧
      (res.status ≠ 0 → rP = .exc "RuntimeError" ∧ NewArray sM sM' zM (fun i : Fin (mrow * mcol) => junk i)) := by
  obtain ⟨⟨res, image⟩, hr⟩ := Option.ne_none_iff_exists'.1 hr
  have e : twoDim mrow mcol DCT1 = false := by unfold twoDim; simp
  obtain ⟨sC', c1, -, -, c4, -⟩ := C98_recovered (mode := DCT1) CC hp CP.le hmax (by rw [e]; exact hr) fun i _ => hC _
  obtain ⟨rP, sP', d1, -, d3⟩ := C103_l1qc CP hp hmax (by rw [e]; exact hr) fun i _ => hP _
  obtain ⟨rM, sM', e1, -, ⟨⟨i, h⟩, -⟩ | ⟨zM, rfl, e3, -⟩⟩ := C105_result (junk := junk) CM hi hp hmax hr fun i _ => hM _
  · rw [hM] at h
    cases h
  refine ⟨res, sC', rP, sP', zM, sM', c1, d1, e1, fun h => ?_, fun h => ?_⟩
  · rcases d3 with ⟨g, -⟩ | ⟨-, ⟨i, g⟩, -⟩ | ⟨-, zP, rfl, d4, -⟩
    · exact absurd h g
    · rw [hP] at g
      cases g
    · rw [if_pos h] at e3
      exact ⟨image, zP, rfl, c4 h, d4, e3⟩
  · rcases d3 with ⟨-, rfl, -⟩ | ⟨g, -⟩ | ⟨g, -⟩
    · rw [if_neg h] at e3
      exact ⟨rfl, e3⟩
    · exact absurd g h
    · exact absurd g h

/-- In exact arithmetic, for samples that are not all zero at distinct pixels `ix`, `epsilon` at least 0 and a given number of barrier steps, all three calls succeed and deliver
the same image, which is within `epsilon` of the samples. -/
theorem C107_exact (hlib : LibOk lib) {br : Fin n → ℝ} {ix : Fin n → Fin (mrow * mcol)} (hinj : Function.Injective ix)
    (CC : ImageCall lib f1C f2C mrow mcol n (posList ix) x bC (fvec br) sC) (CP : PyImageCall lib f1P f2P mrow mcol n (posList ix) DCT1 bP (fvec br) sP)
    (CM : MexImageCall lib f1M f2M mrow mcol n bM pix (fvec br) (fvec fun i => ((ix i : ℕ) : ℝ) + 1) sM) (hb : br ≠ 0)
    {eps : ℝ} (he : opts.epsilon = Dbl.fin eps) (heps : 0 ≤ eps) (hm : 2 * ((mrow * mcol : ℕ) : Int) + 1 ≤ INT_MAX) (hl : opts.lbiter ≠ 0) (hc : CountersFit opts)
    (hC : ∀ i, sC.oracle i = true) (hP : ∀ i, sP.oracle i = true) (hM : ∀ i, sM.oracle i = true) :
    ∃ res sC' zP sP' zM sM', CSpec (l1qc_dctM f1C f2C mrow mcol x n bC (posList ix) DCT1 opts) sC (0, some res) sC' ∧
      CSpec (pyL1qcM f1P f2P mrow mcol n bP (posList ix) DCT1 opts) sP (.ret zP (some res)) sP' ∧ CSpec (mexL1qcM f1M f2M junk mrow mcol n n bM pix opts) sM (.ret zM res) sM' ∧
      res.status = 0 ∧ ∃ image : Fin (mrow * mcol) → ℝ, HoldsV sC' x (fvec image) ∧ NewArray sP sP' zP (fvec image) ∧ NewArray sM sM' zM (fvec image) ∧
        √(∑ i, (image (ix i) - br i) ^ 2) ≤ eps := by
  obtain ⟨hp, hi⟩ := validIdx CC.valid CC.len
  have hd : (posList ix).Nodup := List.nodup_ofFn.2 fun i j h => hinj (Fin.ext (by exact_mod_cast h))
  have hr := recover_some (opts := opts) hlib false hp hi (fun i j h => by
    rw [posList_at, posList_at] at h
    exact hinj (Fin.ext (by exact_mod_cast h))) CP.le hb hm hl hc
  obtain ⟨zM, res, sM', a1, a2, -, -, image, a3, a4⟩ := C105_recovers (junk := junk) hlib hinj CM hb he heps hm hl hc hM
  have ho : OneBased ((mrow : Int) * mcol) (List.ofFn (fvec fun i => ((ix i : ℕ) : ℝ) + 1)) (posList ix) := by
    have := oneBased_ints CM.fits (ks := List.ofFn fun i => ((ix i : ℕ) : Int) + 1) fun k hk => by
      obtain ⟨i, rfl⟩ := (List.mem_ofFn' _ _).1 hk
      have h1 : ((ix i : ℕ) : Int) < ((mrow * mcol : ℕ) : Int) := by exact_mod_cast (ix i).2
      push_cast at h1
      show (1 : Int) ≤ ((ix i : ℕ) : Int) + 1 ∧ ((ix i : ℕ) : Int) + 1 ≤ (mrow : Int) * mcol
      omega
    rw [List.map_ofFn, List.map_ofFn] at this
    have e1 : (fun k : Int => Dbl.fin (k : ℝ)) ∘ (fun i => ((ix i : ℕ) : Int) + 1) = fvec fun i => ((ix i : ℕ) : ℝ) + 1 := by
      funext i
      simp [fvec]
    have e2 : (fun k : Int => k - 1) ∘ (fun i => ((ix i : ℕ) : Int) + 1) = fun i => ((ix i : ℕ) : Int) := by
      funext i
      simp
    rw [e1, e2] at this
    exact this
  obtain ⟨res', sC', rP, sP', zM', sM'', b1, b2, b3, b4, -⟩ := C107_interfaces (junk := junk) CC CP CM ho (le_of_lt hc.cg1) hp hr hC hP hM
  obtain ⟨h1, rfl⟩ := a1.unique b3
  obtain ⟨rfl, rfl⟩ : zM = zM' ∧ res = res' := by injection h1 with h1 h2; exact ⟨h1, h2⟩
  obtain ⟨im, zP, rfl, g1, g2, g3⟩ := b4 a2
  obtain rfl : im = fvec image := funext fun i => (g3.1.2 i).symm.trans (a3.1.2 i)
  exact ⟨res, sC', zP, sP', zM, sM', a2 ▸ b1, b2, b3, a2, image, g1, g2, a3, a4⟩

/-- As many samples as pixels: Python returns an image, Matlab refuses the same call. -/
theorem C107_all_pixels_false (hlib : LibOk lib) {br : Fin n → ℝ} (CP : PyImageCall lib f1P f2P mrow mcol n idx mode bP (fvec br) sP) (hn : n = mrow * mcol) (hd : idx.Nodup) (hb : br ≠ 0)
    {eps : ℝ} (he : opts.epsilon = Dbl.fin eps) (heps : 0 ≤ eps) (hm : 2 * ((mrow * mcol : ℕ) : Int) + 1 ≤ INT_MAX) (hl : opts.lbiter ≠ 0) (hc : CountersFit opts)
    (hP : ∀ i, sP.oracle i = true) :
    (∃ z res s', CSpec (pyL1qcM f1P f2P mrow mcol n bP idx mode opts) sP (.ret z (some res)) s' ∧ res.status = 0) ∧
      CSpec (mexL1qcM f1M f2M junk mrow mcol n n bM pix opts) sM (.exc "l1c:l1qc_dct:incompatible_dimensions") sM := by
  obtain ⟨z, res, s', h1, h2, -⟩ := C103_l1qc_recovers hlib CP hd hb he heps hm hl hc hP
  exact ⟨⟨z, res, s', h1, h2⟩, C105_rejects CP.fits (.inl (by rw [hn]; push_cast; exact le_rfl))⟩

end dbl

section nesta
variable {F : Type} [Scalar F] {mrow mcol n : ℕ}

/-- buffers do not show in what the functions of a set deliver in analysis mode -/
theorem tvAna_agree {c : TvCfg F mrow mcol n} {idx : Fin n → Int} (h : DctSet c.loc idx) : NAgree (fun s s' => TvReach c s ∧ TvReach c s') (tvAna c) where
  Ax f hf x old s s' a b t t' hE ha hb := by
    cases hf
    obtain ⟨o, e, hr⟩ := Option.map_eq_some_iff.1 ha
    obtain ⟨o', e', hr'⟩ := Option.map_eq_some_iff.1 hb
    cases hr
    cases hr'
    refine ⟨?_, hE.1.call (.Rx x) (congrArg (Option.map _) e), hE.2.call (.Rx x) (congrArg (Option.map _) e')⟩
    unfold tvRx at e e'
    obtain ⟨q, g, e⟩ := bind_some_iff.1 e
    obtain ⟨q', g', e'⟩ := bind_some_iff.1 e'
    cases e
    cases e'
    rw [(setOk h).Rx.agree (tvReach_inv h hE.1) (tvReach_inv h hE.2) g g']
  Aty f hf y old s s' a b t t' hE ha hb := by
    cases hf
    obtain ⟨o, e, hr⟩ := Option.map_eq_some_iff.1 ha
    obtain ⟨o', e', hr'⟩ := Option.map_eq_some_iff.1 hb
    cases hr
    cases hr'
    refine ⟨?_, hE.1.call (.Rty y old) (congrArg (Option.map _) e), hE.2.call (.Rty y old) (congrArg (Option.map _) e')⟩
    unfold tvRty at e e'
    obtain ⟨q, g, e⟩ := bind_some_iff.1 e
    obtain ⟨q', g', e'⟩ := bind_some_iff.1 e'
    cases e
    cases e'
    rw [((setOk h).Rty old).agree (tvReach_inv h hE.1) (tvReach_inv h hE.2) g g']
  Wz f hf v old s s' a b t t' hE ha hb := by
    cases hf
    obtain ⟨o, e, hr⟩ := Option.map_eq_some_iff.1 ha
    obtain ⟨o', e', hr'⟩ := Option.map_eq_some_iff.1 hb
    cases hr
    cases hr'
    refine ⟨?_, hE.1.call (.Wv v) (congrArg (Option.map _) e), hE.2.call (.Wv v) (congrArg (Option.map _) e')⟩
    rw [tvWvArg_agree h e e', tvWv_agree (setOk h) (tvReach_inv h hE.1) (tvReach_inv h hE.2) e e']
  Wtx f hf x old s s' a b t t' hE ha hb := by
    cases hf
    obtain ⟨o, e, hr⟩ := Option.map_eq_some_iff.1 ha
    obtain ⟨o', e', hr'⟩ := Option.map_eq_some_iff.1 hb
    cases hr
    cases hr'
    refine ⟨?_, hE.1.call (.Wtx x old) (congrArg (Option.map _) e), hE.2.call (.Wtx x old) (congrArg (Option.map _) e')⟩
    rw [tvWtx_agree (setOk h) (tvReach_inv h hE.1) (tvReach_inv h hE.2) e e']

variable {lib : FftwLib F} {opts : NestaOpts F} {bv : Vec F n} {idx : List Int} {mode mode' : Int} {av ah : F} {sP sM : PState F} {f1P f1M : ℕ → FftwM F} {f2P f2M : ℕ → ℕ → FftwM F}
  {bP bM z : Ptr} {junkU junkU' junkX : ℕ → F}

/-- NESTA with DCT and TV (analysis), in every arithmetic: the same samples, weights and options from Python and from Matlab, with modes that stand for the same transform,
and no request refused.  Both calls succeed, whatever fresh memory contains, and the new array of Python and the output array of Matlab hold the same image. -/
theorem C107_nesta (CM : TvMexCall lib f1M f2M mrow mcol n av ah idx bM z bv sM) (CP : TvPyCall lib f1P f2P mrow mcol n av ah idx bP bv sP) (hle : n ≤ mrow * mcol)
    (hm : mode = DCT1 ∨ mode = DCT2) (hmm : twoDim mrow mcol mode' = twoDim mrow mcol mode) (hN : opts.n_continue < INT_MAX)
    (hM : ∀ i, sM.oracle i = true) (hP : ∀ i, sP.oracle i = true) :
    ∃ (image : Vec F (mrow * mcol)) (sM' : PState F) (zP : Ptr) (sP' : PState F),
      CSpec (nestaMexM f1M f2M junkU junkX mrow mcol n av ah mode' true idx bM z opts) sM L1C_SUCCESS sM' ∧ HoldsV sM' z image ∧
      CSpec (pyNestaM f1P f2P junkU' mrow mcol n av ah mode BP_ANALYSIS idx bP opts) sP (.ret zP L1C_SUCCESS) sP' ∧ NewArray sP sP' zP image := by
  obtain ⟨h, hi⟩ := validIdx CP.valid.1 CP.len
  have S : DctSet (mexCfg lib mrow mcol n av ah (twoDim mrow mcol mode) idx h).loc (idxFun n idx) := imageFuns_set (lib := lib) (two := twoDim mrow mcol mode) h hi
  have hT := tvAna_total S
  have hms : ¬ (tvAna (mexCfg lib mrow mcol n av ah (twoDim mrow mcol mode) idx h)).Missing := by simp [NAx.Missing, tvAna]
  obtain ⟨o, ns, r1, -⟩ := C43_no_ub_partial hT ⟨rfl, rfl⟩ (hle.trans (le_max_left _ _)) (fun i => junkX i) bv opts hN ⟨∅, 0, sM.calls + 8, sM.oracle, ⟨DctBuf.fresh, fun i => junkU i⟩⟩
    (fun k hk => by cases hk) (bufInv_fresh _) fun i _ => hM _
  obtain ⟨o', ns', r2, -⟩ := C43_no_ub_partial hT ⟨rfl, rfl⟩ (hle.trans (le_max_left _ _)) (fun _ => lit 0) bv opts hN ⟨∅, 0, sP.calls + 8, sP.oracle, ⟨DctBuf.fresh, fun i => junkU' i⟩⟩
    (fun k hk => by cases hk) (bufInv_fresh _) fun i _ => hP _
  obtain ⟨rfl, -⟩ := nesta_sim (tvAna_agree S) hms _ _ bv opts (fun k hk => by cases hk) (fun k hk => by cases hk) (fun i _ => hM _) (fun i _ => hP _)
    ⟨TvReach.fresh _, TvReach.fresh _⟩ r1 r2
  obtain ⟨hst, -⟩ := C43_success_partial _ bv opts _ ns (fun k hk => by cases hk) (fun i _ => hM _) hms o r1
  obtain ⟨sM', a1, -, -, a2, -⟩ := C100_result (mode := mode') CM h (fun i _ => hM _) (by rw [hmm]; exact r1)
  obtain ⟨rP, sP', b1, -, ⟨⟨i, g⟩, -⟩ | ⟨zP, rfl, b2, -⟩⟩ := C103_nesta CP hle hm h (fun i _ => hP _) r2
  · rw [hP] at g
    cases g
  · rw [hst] at a1 b1
    exact ⟨o.xk, sM', zP, sP', a1, a2, b1, b2⟩

end nesta

/-! ## Examples -/

/-- a 3 by 3 image: Python finds zeros in fresh memory, Matlab NaN -/
example : ∃ sM' zP sP', CSpec (nestaMexM exF1 exF2 (fun _ => .nan) (fun _ => .nan) ((3 : ℕ) : Int) ((3 : ℕ) : Int) ((2 : ℕ) : Int) (.fin 1) (.fin 1) DCT2 true
      (posList (mrow := 3) (mcol := 3) ![4, 0]) ⟨0, 0⟩ ⟨0, 0⟩ ⟨.fin (1 / 2), .fin (1 / 100), .fin 0, 3⟩) (exMexRam fun _ => true) L1C_SUCCESS sM' ∧
    CSpec (pyNestaM exF1 exF2 (fun _ => .fin 0) ((3 : ℕ) : Int) ((3 : ℕ) : Int) ((2 : ℕ) : Int) (.fin 1) (.fin 1) DCT2 BP_ANALYSIS
      (posList (mrow := 3) (mcol := 3) ![4, 0]) ⟨0, 0⟩ ⟨.fin (1 / 2), .fin (1 / 100), .fin 0, 3⟩) (exMexRam fun _ => true) (.ret zP L1C_SUCCESS) sP' ∧
    ∀ i : Fin 9, sM'.mem.val ((⟨0, 0⟩ : Ptr) + ((i : ℕ) : Int)) = sP'.mem.val (zP + ((i : ℕ) : Int)) := by
  obtain ⟨image, sM', zP, sP', h1, h2, h3, h4⟩ := C107_nesta (opts := ⟨.fin (1 / 2), .fin (1 / 100), .fin 0, 3⟩) (mode := DCT2) (mode' := DCT2) (junkU := fun _ => .nan) (junkX := fun _ => .nan)
    (junkU' := fun _ => .fin 0) (exMex_call fun _ => true) (exMex_call fun _ => true).toTvPyCall (by norm_num) (.inr rfl) rfl (by unfold INT_MAX; norm_num) (fun _ => rfl) fun _ => rfl
  exact ⟨sM', zP, sP', h1, h3, fun i => (h2.2 i).trans (h4.1.2 i).symm⟩


/-- the options of the examples have counters that fit -/
theorem exOpts_fit : CountersFit exOpts :=
  ⟨by show (0 : Int) ≤ 200; decide, by show (200 : Int) < INT_MAX; decide, by show ((3 : Int).toNat : Int) < INT_MAX; decide,
    by show (3 : Int).toNat * (((50 : Int) - 1).toNat * (200 : Int)) ≤ INT_MAX; decide,
    by show (3 : Int).toNat * ((((50 : Int) - 1).toNat : Int) + 1) ≤ INT_MAX; decide⟩

/-- C writes the image over its samples, Python and Matlab make new arrays, and fresh memory in Matlab is full of NaN: one image -/
example : ∃ res sC' zP sP' zM sM', CSpec (l1qc_dctM exF1 exF2 ((2 : ℕ) : Int) ((3 : ℕ) : Int) ⟨0, 0⟩ ((2 : ℕ) : Int) ⟨0, 0⟩ [5, 1] DCT1 exOpts) exImageRam (0, some res) sC' ∧
    CSpec (pyL1qcM exF1 exF2 ((2 : ℕ) : Int) ((3 : ℕ) : Int) ((2 : ℕ) : Int) ⟨0, 0⟩ [5, 1] DCT1 exOpts) exImageRam (.ret zP (some res)) sP' ∧
    CSpec (mexL1qcM exF1 exF2 (fun _ => .nan) ((2 : ℕ) : Int) ((3 : ℕ) : Int) ((2 : ℕ) : Int) ((2 : ℕ) : Int) ⟨0, 0⟩ ⟨1, 0⟩ exOpts) (exMexImageRam fun _ => true) (.ret zM res) sM' ∧
    ∀ i : Fin 6, sC'.mem.val ⟨0, (i : ℕ)⟩ = sP'.mem.val (zP + ((i : ℕ) : Int)) ∧ sP'.mem.val (zP + ((i : ℕ) : Int)) = sM'.mem.val (zM + ((i : ℕ) : Int)) := by
  have hP : posList (mrow := 2) (mcol := 3) (![5, 1] : Fin 2 → Fin (2 * 3)) = [5, 1] := by
    simp [posList]
  obtain ⟨res, sC', zP, sP', zM, sM', h1, h2, h3, -, image, h4, h5, h6, -⟩ := C107_exact (opts := exOpts) (junk := fun _ => .nan) refLib_ok (ix := (![5, 1] : Fin 2 → Fin (2 * 3))) (by decide)
    (sC := exImageRam) (sP := exImageRam) (f1C := exF1) (f2C := exF2) (f1P := exF1) (f2P := exF2) (x := ⟨0, 0⟩) (bC := ⟨0, 0⟩) (bP := ⟨0, 0⟩) (br := ![7, 8])
    (by rw [hP]; exact exImage_call)
    (by rw [hP]; exact ⟨exImage_call.wf, exImage_call.f1, exImage_call.f2, exImage_call.valid, exImage_call.len, by norm_num, .inl rfl, exImage_call.fits, exImage_call.hb, exImage_call.blive⟩)
    (exMexImage_call fun _ => true) (fun hc => by simpa using congrFun hc 0) rfl zero_le_one (by unfold INT_MAX; omega) (by show ¬ (3 : Int) = 0; decide) exOpts_fit (fun _ => rfl) (fun _ => rfl)
    fun _ => rfl
  rw [hP] at h1 h2
  refine ⟨res, sC', zP, sP', zM, sM', h1, h2, h3, fun i => ⟨?_, (h5.1.2 i).trans (h6.1.2 i).symm⟩⟩
  have := h4.2 i
  rw [show (⟨0, 0⟩ : Ptr) + ((i : ℕ) : Int) = ⟨0, (i : ℕ)⟩ from Ptr.ext rfl (Int.zero_add _)] at this
  exact this.trans (h5.1.2 i).symm

/-- two samples of a 1 by 2 image -/
theorem exAllPixels_call : PyImageCall refLib exF1 exF2 1 2 2 [1, 0] DCT1 ⟨0, 0⟩ (fvec ![7, 8]) exImageRam :=
  ⟨exImage_call.wf, exImage_call.f1, exImage_call.f2, ⟨by decide, by decide, by decide, by decide⟩, rfl, by norm_num, .inl rfl, by unfold FitsInt INT_MAX INT_MIN; omega, exImage_call.hb, exImage_call.blive⟩

example : (∃ z res s', CSpec (pyL1qcM exF1 exF2 ((1 : ℕ) : Int) ((2 : ℕ) : Int) ((2 : ℕ) : Int) ⟨0, 0⟩ [1, 0] DCT1 exOpts) exImageRam (.ret z (some res)) s' ∧ res.status = 0) ∧
    CSpec (mexL1qcM exF1 exF2 (fun _ => .nan) ((1 : ℕ) : Int) ((2 : ℕ) : Int) ((2 : ℕ) : Int) ((2 : ℕ) : Int) ⟨0, 0⟩ ⟨1, 0⟩ exOpts) (exMexImageRam fun _ => true)
      (.exc "l1c:l1qc_dct:incompatible_dimensions") (exMexImageRam fun _ => true) :=
  C107_all_pixels_false refLib_ok exAllPixels_call (by decide) (by decide) (fun hc => by simpa using congrFun hc 0) rfl zero_le_one (by unfold INT_MAX; omega) (by show ¬ (3 : Int) = 0; decide)
    exOpts_fit fun _ => rfl

end L1c
