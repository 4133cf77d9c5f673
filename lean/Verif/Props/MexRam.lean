import Verif.Proofs.MexMem
import Verif.Props.PyRam

/-!
# C105: image recovery from Matlab on memory

From the data of the Matlab arrays to the data of the returned array, with everything that is allocated on the way.
-/

namespace L1c
open Scalar Matrix Cmd

section generic
variable {F : Type} [Scalar F] {s : PState F} {lib : FftwLib F} {fw1 : ℕ → FftwM F} {fw2 : ℕ → ℕ → FftwM F} {b pix : Ptr} {opts : QOpts F} {junk : ℕ → F}

/-- Not fewer samples than pixels, not one position per sample, or no pixels at all: an error, and the process is exactly as before. -/
theorem C105_rejects {mrow mcol n npix : Int} (hf : FitsInt (mrow * mcol)) (h : mrow * mcol ≤ n ∨ n ≠ npix ∨ mrow ≤ 0 ∨ mcol ≤ 0) :
    CSpec (mexL1qcM fw1 fw2 junk mrow mcol n npix b pix opts) s (.exc "l1c:l1qc_dct:incompatible_dimensions") s := by
  refine (cspec_need hf s).bind ?_
  rw [if_pos (by omega)]
  exact .done _ _

/-- A number of pixels that does not fit in `int` is undefined behaviour. -/
theorem C105_overflow_false {mrow mcol n npix : Int} (hf : ¬ FitsInt (mrow * mcol)) : CUB (mexL1qcM fw1 fw2 junk mrow mcol n npix b pix opts) s :=
  CUB.bind (cub_need hf _)

variable {mrow mcol n : ℕ} {bv pv : Vec F n}

/-- past the checks -/
theorem MexImageCall.front (C : MexImageCall lib fw1 fw2 mrow mcol n b pix bv pv s) :
    ∃ x0 p0 s1, Ext s s1 [x0, p0] ∧ OldVals s s1 ∧ s1.calls = s.calls + 2 ∧ (x0.isSome = true ↔ s.oracle s.calls = true) ∧ (p0.isSome = true ↔ s.oracle (s.calls + 1) = true) ∧
      (∀ x, x0 = some x → HoldsV s1 x (fun i : Fin (mrow * mcol) => junk i)) ∧ HoldsV s1 b bv ∧ HoldsV s1 pix pv ∧
      (∀ out s', (x0 = none ∨ p0 = none) → CSpec (do freesC [p0, x0]; pure out : Cmd F (PyRes (LBResult F))) s1 out s' → out = .exc "l1c:l1qc_dct:outofmemory" →
        CSpec (mexL1qcM fw1 fw2 junk mrow mcol n n b pix opts) s out s') ∧
      (∀ x p, x0 = some x → p0 = some p →
        (∀ out s', mexIndices ((mrow : Int) * mcol) (List.ofFn pv) = some none → CSpec (do freesC [some p, some x]; pure out : Cmd F (PyRes (LBResult F))) s1 out s' →
          out = .exc "l1c:l1qc_dct:bad_index" → CSpec (mexL1qcM fw1 fw2 junk mrow mcol n n b pix opts) s out s') ∧
        (∀ idx, mexIndices ((mrow : Int) * mcol) (List.ofFn pv) = some (some idx) →
          (∀ out s', CSpec (l1qc_dctM fw1 fw2 mrow mcol x n b idx DCT1 opts >>= mexL1qcEndM (mrow * mcol) x p) s1 out s' → CSpec (mexL1qcM fw1 fw2 junk mrow mcol n n b pix opts) s out s') ∧
          (CUB (l1qc_dctM fw1 fw2 mrow mcol x n b idx DCT1 opts) s1 → CUB (mexL1qcM fw1 fw2 junk mrow mcol n n b pix opts) s)) ∧
        (mexIndices ((mrow : Int) * mcol) (List.ofFn pv) = none → CUB (mexL1qcM fw1 fw2 junk mrow mcol n n b pix opts) s)) := by
  obtain ⟨x0, p0, s0, s1, a1, a2, a3, a4, a5, a6, a7, a8⟩ := mexL1qcArrays C.wf (mrow * mcol) n junk
  have hb := C.wf.lt C.blive
  have hp := C.wf.lt C.plive
  have hb1 : HoldsV s1 b bv := C.hb.grow (a3.old_len _ hb) fun q hq => a4 q (hq ▸ hb)
  have hp1 : HoldsV s1 pix pv := C.hpix.grow (a3.old_len _ hp) fun q hq => a4 q (hq ▸ hp)
  have hc : ¬ (¬ ((mrow : Int) * mcol > n) ∨ (n : Int) ≠ n ∨ (mrow : Int) ≤ 0 ∨ (mcol : Int) ≤ 0) := by
    obtain ⟨h1, h2, -⟩ := C.pos
    have h3 : (n : Int) < (mrow : Int) * mcol := by exact_mod_cast C.lt
    omega
  obtain ⟨i1, i2⟩ := mexIndicesM_at (mtot := (mrow : Int) * mcol) hp1
  refine ⟨x0, p0, s1, a3, a4, a5, a6, a7, a8, hb1, hp1, fun out s' h1 h2 h3 => ?_, fun x p hx hp => ?_⟩
  · refine (cspec_need C.fits s).bind ?_
    rw [if_neg hc]
    refine a1.bind (a2.bind ?_)
    subst h3
    rcases x0 with _ | x
    · exact h2
    rcases p0 with _ | p
    · exact h2
    · simp at h1
  · subst hx
    subst hp
    refine ⟨fun out s' h1 h2 h3 => ?_, fun idx h1 => ⟨fun out s' h2 => ?_, fun h2 => ?_⟩, fun h1 => ?_⟩
    · refine (cspec_need C.fits s).bind ?_
      rw [if_neg hc]
      subst h3
      exact a1.bind (a2.bind ((i1 _ h1).bind h2))
    · refine (cspec_need C.fits s).bind ?_
      rw [if_neg hc]
      exact a1.bind (a2.bind ((i1 _ h1).bind h2))
    · refine (cspec_need C.fits s).bind_ub ?_
      rw [if_neg hc]
      exact a1.bind_ub (a2.bind_ub ((i1 _ h1).bind_ub (CUB.bind h2)))
    · refine (cspec_need C.fits s).bind_ub ?_
      rw [if_neg hc]
      exact a1.bind_ub (a2.bind_ub (CUB.bind (i2 h1)))

/-- One of the two arrays of the routine is refused: an error, and nothing is left. -/
theorem C105_no_array (C : MexImageCall lib fw1 fw2 mrow mcol n b pix bv pv s) (h : s.oracle s.calls = false ∨ s.oracle (s.calls + 1) = false) :
    ∃ s', CSpec (mexL1qcM fw1 fw2 junk mrow mcol n n b pix opts) s (.exc "l1c:l1qc_dct:outofmemory") s' ∧ CallerKept s s' ∧ NewBlocks s s' 0 := by
  obtain ⟨x0, p0, s1, a3, a4, -, a6, a7, -, -, -, a8, -⟩ := C.front (opts := opts) (junk := junk)
  obtain ⟨s2, b1, b2, b3, -⟩ := frees_spec [p0, x0] (L := []) (by simpa using a3.perm (List.Perm.swap _ _ _))
  refine ⟨s2, a8 _ s2 ?_ (b1.bind (.done _ _)) rfl, b2.kept C.wf fun a ha => by rw [b3]; exact a4 a (C.wf.lt ha), newBlocks_of C.wf b2 (by simp)⟩
  by_contra hn
  push Not at hn
  rcases h with h | h
  · rw [a6.1 (Option.isSome_iff_ne_none.2 hn.1)] at h
    cases h
  · rw [a7.1 (Option.isSome_iff_ne_none.2 hn.2)] at h
    cases h

end generic

section dbl
variable {s : PState Dbl} {lib : FftwLib Dbl} {fw1 : ℕ → FftwM Dbl} {fw2 : ℕ → ℕ → FftwM Dbl} {b pix : Ptr} {opts : QOpts Dbl} {junk : ℕ → Dbl} {mrow mcol n : ℕ} {bv pv : Vec Dbl n}

/-- Some positions inside the image and then one that is not, all integers: an error before anything is computed, and nothing is left. -/
theorem C105_bad_position (C : MexImageCall lib fw1 fw2 mrow mcol n b pix bv pv s) (h0 : s.oracle s.calls = true) (h1 : s.oracle (s.calls + 1) = true)
    {ks : List Int} {k : Int} {tl : List Dbl} (hk : List.ofFn pv = ks.map (fun k : Int => Dbl.fin (k : ℝ)) ++ Dbl.fin (k : ℝ) :: tl)
    (hin : ∀ j ∈ ks, 1 ≤ j ∧ j ≤ (mrow : Int) * mcol) (hout : k < 1 ∨ (mrow : Int) * mcol < k) (hfit : INT_MIN < k ∧ k ≤ INT_MAX) :
    ∃ s', CSpec (mexL1qcM fw1 fw2 junk mrow mcol n n b pix opts) s (.exc "l1c:l1qc_dct:bad_index") s' ∧ CallerKept s s' ∧ NewBlocks s s' 0 := by
  obtain ⟨x0, p0, s1, a3, a4, -, a6, a7, -, -, -, -, a8⟩ := C.front (opts := opts) (junk := junk)
  obtain ⟨x, rfl⟩ := Option.isSome_iff_exists.1 (a6.2 h0)
  obtain ⟨p, rfl⟩ := Option.isSome_iff_exists.1 (a7.2 h1)
  obtain ⟨s2, b1, b2, b3, -⟩ := frees_spec [some p, some x] (L := []) (by simpa using a3.perm (List.Perm.swap _ _ _))
  exact ⟨s2, (a8 x p rfl rfl).1 _ s2 (by rw [hk]; exact mexIndices_bad C.fits hin hout hfit) (b1.bind (.done _ _)) rfl,
    b2.kept C.wf fun a ha => by rw [b3]; exact a4 a (C.wf.lt ha), newBlocks_of C.wf b2 (by simp)⟩

/-- A position that is NaN (after valid ones) is converted to `int` before it is checked: undefined behaviour. -/
theorem C105_nan_position_false (C : MexImageCall lib fw1 fw2 mrow mcol n b pix bv pv s) (h0 : s.oracle s.calls = true) (h1 : s.oracle (s.calls + 1) = true)
    {ks : List Int} {tl : List Dbl} (hk : List.ofFn pv = ks.map (fun k : Int => Dbl.fin (k : ℝ)) ++ Dbl.nan :: tl) (hin : ∀ j ∈ ks, 1 ≤ j ∧ j ≤ (mrow : Int) * mcol) :
    CUB (mexL1qcM fw1 fw2 junk mrow mcol n n b pix opts) s := by
  obtain ⟨x0, p0, s1, a3, a4, -, a6, a7, -, -, -, -, a8⟩ := C.front (opts := opts) (junk := junk)
  obtain ⟨x, rfl⟩ := Option.isSome_iff_exists.1 (a6.2 h0)
  obtain ⟨p, rfl⟩ := Option.isSome_iff_exists.1 (a7.2 h1)
  refine (a8 x p rfl rfl).2.2 ?_
  rw [hk]
  have hm := C.fits
  clear hk a8
  induction ks with
  | nil =>
    show mexIndices _ (Dbl.nan :: tl) = none
    unfold mexIndices
    rw [castInt_nan]
    rfl
  | cons j ks ih =>
    have hj := hin j (by simp)
    rw [List.map_cons, List.cons_append]
    unfold mexIndices
    rw [castInt_int, if_pos (by unfold FitsInt INT_MIN at *; omega), Option.bind_some, if_neg (by unfold FitsInt INT_MIN at *; omega), if_neg (by omega),
      ih fun j hj => hin j (by simp [hj])]
    rfl

variable {idx : List Int}

/-- the solver is called with the new array -/
theorem MexImageCall.finish (C : MexImageCall lib fw1 fw2 mrow mcol n b pix bv pv s) (hi : OneBased ((mrow : Int) * mcol) (List.ofFn pv) idx) (h0 : s.oracle s.calls = true)
    (h1 : s.oracle (s.calls + 1) = true) :
    ∃ x s1, ImageCall lib fw1 fw2 mrow mcol n idx x b bv s1 ∧ s1.calls = s.calls + 2 ∧ s1.oracle = s.oracle ∧ HoldsV s1 x (fun i : Fin (mrow * mcol) => junk i) ∧ s1.live x.blk = true ∧
      (CUB (l1qc_dctM fw1 fw2 mrow mcol x n b idx DCT1 opts) s1 → CUB (mexL1qcM fw1 fw2 junk mrow mcol n n b pix opts) s) ∧
      ∀ st res s2 (v : Vec Dbl (mrow * mcol)), CSpec (l1qc_dctM fw1 fw2 mrow mcol x n b idx DCT1 opts) s1 (st, res) s2 → s2.live = s1.live → s2.mem.len = s1.mem.len →
        HoldsV s2 x v → (∀ a : Ptr, s1.live a.blk = true → (a ∉ Rng x (mrow * mcol)) → s2.mem.val a = s1.mem.val a) →
        ∃ out s', CSpec (mexL1qcM fw1 fw2 junk mrow mcol n n b pix opts) s out s' ∧ CallerKept s s' ∧
          ((s.oracle s2.calls = false ∧ out = .exc "MATLAB:nomem" ∧ NewBlocks s s' 2) ∨
            (s.oracle s2.calls = true ∧ ∃ z, out = .ret z (mexResult (st, res)) ∧ NewArray s s' z v ∧ NewBlocks s s' 1)) := by
  obtain ⟨x0, p0, s1, a3, a4, a5, a6, a7, a9, a10, -, -, a8⟩ := C.front (opts := opts) (junk := junk)
  obtain ⟨x, rfl⟩ := Option.isSome_iff_exists.1 (a6.2 h0)
  obtain ⟨p, rfl⟩ := Option.isSome_iff_exists.1 (a7.2 h1)
  obtain ⟨-, g, -⟩ := a8 x p rfl rfl
  obtain ⟨g1, g2⟩ := g idx (mexIndices_iff.2 hi)
  obtain ⟨v1, v2⟩ := hi.valid
  have xl := a3.liveAt (p := x) (by simp)
  refine ⟨x, s1, ⟨a3.wf, C.f1, C.f2, ⟨by exact_mod_cast C.pos.2.2, by exact_mod_cast C.pos.1, by exact_mod_cast C.pos.2.1, v2⟩, v1, C.fits, a10, ?_, (a9 x rfl).1, xl⟩,
    a5, a3.orc, a9 x rfl, xl, g2, fun st res s2 v e1 e2 e3 e4 e5 => ?_⟩
  · rw [a3.old_live _ (C.wf.lt C.blive)]
    exact C.blive
  · obtain ⟨n5, o5⟩ := cspec_next e1
    obtain ⟨out, s', b1, b2⟩ := mexL1qcEnd_spec C.wf (r := (st, res)) (a3.balanced e2 e3 n5 o5) (fun a ha => by
      have hl := C.wf.lt ha
      rw [e5 a (by rw [a3.old_live _ hl]; exact ha) fun hr => by
        have := (a3.ptrs x (by simp)).1
        have := hr.1
        omega]
      exact a4 a hl) e4
    exact ⟨out, s', g1 out s' (e1.bind b1), b2⟩

/-- The solver on vectors (`recover`: no memory, transforms as functions) with the one-dimensional transform gives `res` and `image`, the positions are inside the
image, and the first 28 requests are granted.  Under every interleaving the call returns `res` and a new array.  If `res.status` is 0 the array is exactly `image`,
otherwise it is what the allocator left in memory.  The caller's memory is as before, and nothing stays allocated but that array.  If Matlab cannot get memory for
it the call ends with an error and two blocks stay allocated. -/
theorem C105_result (C : MexImageCall lib fw1 fw2 mrow mcol n b pix bv pv s) (hi : OneBased ((mrow : Int) * mcol) (List.ofFn pv) idx) (hp : 0 < mrow ∧ 0 < mcol)
    (hmax : opts.cg_maxiter ≤ INT_MAX) {res : LBResult Dbl} {image : Vec Dbl (mrow * mcol)}
    (hr : recover (imageFuns lib mrow mcol n idx false hp) bv opts = some (res, image)) (ho : ∀ i < 28, s.oracle (s.calls + i) = true) :
    ∃ out s', CSpec (mexL1qcM fw1 fw2 junk mrow mcol n n b pix opts) s out s' ∧ CallerKept s s' ∧
      (((∃ i, s.oracle i = false) ∧ out = .exc "MATLAB:nomem" ∧ NewBlocks s s' 2) ∨
        ∃ z, out = .ret z res ∧ NewArray s s' z (if res.status = 0 then image else fun i => junk i) ∧ NewBlocks s s' 1) := by
  obtain ⟨x, s1, I, c1, o1, hj, xl, -, fin⟩ := C.finish (opts := opts) (junk := junk) hi (ho 0 (by omega)) (ho 1 (by omega))
  have e : twoDim mrow mcol DCT1 = false := by unfold twoDim; simp
  obtain ⟨s2, d1, d2, d3, d4, d5⟩ := C98_recovered (mode := DCT1) I hp C.lt.le hmax (by rw [e]; exact hr) fun i hi => by
    rw [c1, o1, Nat.add_assoc]
    exact ho _ (by omega)
  obtain ⟨out, s', e1, e2, e3⟩ := fin _ _ s2 (if res.status = 0 then image else fun i => junk i) d1 d2 d3 (by
    by_cases h : res.status = 0
    · rw [if_pos h]
      exact d4 h
    · rw [if_neg h]
      exact hj.grow (by rw [d3]) fun q hq => d5 q (hq ▸ xl) (.inr h)) fun a h1 h2 => d5 a h1 (.inl h2)
  refine ⟨out, s', e1, e2, ?_⟩
  rcases e3 with ⟨h1, h2⟩ | ⟨-, z, h2, h3⟩
  · exact .inl ⟨⟨_, h1⟩, h2⟩
  · refine .inr ⟨z, h2.trans ?_, h3⟩
    unfold mexResult
    by_cases h : res.status = 0
    · rw [if_neg (not_not.2 h)]
      rfl
    · rw [if_pos h]
      rfl

/-- Some of the 26 requests of the solver is refused, though not its eighth.  The call does not end with an error: it returns an array with what the allocator left in
memory, and only the status in the optional second result tells that there is no image.  (With everything else granted and the caller's memory unchanged.) -/
theorem C105_failure_not_reported_false (C : MexImageCall lib fw1 fw2 mrow mcol n b pix bv pv s) (hi : OneBased ((mrow : Int) * mcol) (List.ofFn pv) idx) (hp : 0 < mrow ∧ 0 < mcol)
    (hmax : opts.cg_maxiter ≤ INT_MAX) (hr : recover (imageFuns lib mrow mcol n idx false hp) bv opts ≠ none) (h0 : s.oracle s.calls = true) (h1 : s.oracle (s.calls + 1) = true)
    (ho : ¬ ∀ i < 26, s.oracle (s.calls + 2 + i) = true) (h9 : s.oracle (s.calls + 9) = true) :
    ∃ out s', CSpec (mexL1qcM fw1 fw2 junk mrow mcol n n b pix opts) s out s' ∧ CallerKept s s' ∧
      ((out = .exc "MATLAB:nomem" ∧ NewBlocks s s' 2) ∨
        ∃ z res, out = .ret z res ∧ (res.status = L1C_OUT_OF_MEMORY ∨ res.status = L1C_DCT_INIT_FAILURE) ∧ NewArray s s' z (fun i : Fin (mrow * mcol) => junk i) ∧ NewBlocks s s' 1) := by
  obtain ⟨x, s1, I, c1, o1, hj, xl, -, fin⟩ := C.finish (opts := opts) (junk := junk) hi h0 h1
  have e : twoDim mrow mcol DCT1 = false := by unfold twoDim; simp
  obtain ⟨st, r, s2, d1, d2, d3, d4⟩ := C98_out_of_memory_partial (mode := DCT1) I hp C.lt.le hmax (by rw [e]; exact hr) (by rw [c1, o1]; exact ho) (by rw [c1, o1, Nat.add_assoc]; exact h9)
  obtain ⟨d5, d6⟩ := d4 (.inl e)
  obtain ⟨out, s', e1, e2, e3⟩ := fin st r s2 (fun i => junk i) d1 d5 d6 (hj.grow (by rw [d6]) fun q hq => d2 q (hq ▸ xl)) fun a h1 _ => d2 a h1
  refine ⟨out, s', e1, e2, ?_⟩
  rcases e3 with ⟨-, h2⟩ | ⟨-, z, h2, h3⟩
  · exact .inl h2
  · refine .inr ⟨z, _, h2, ?_, h3⟩
    have hst : st = L1C_OUT_OF_MEMORY ∨ st = L1C_DCT_INIT_FAILURE := by
      rcases d3 with ⟨-, e⟩ | ⟨-, e, -⟩
      · exact .inl e
      · exact .inr e
    have h0 : st ≠ 0 := by rcases hst with e | e <;> rw [e] <;> decide
    unfold mexResult
    rw [if_pos h0]
    exact hst

/-- If the solver's first request (the tenth of the call) is refused the call is undefined. -/
theorem C105_first_request_false (C : MexImageCall lib fw1 fw2 mrow mcol n b pix bv pv s) (hi : OneBased ((mrow : Int) * mcol) (List.ofFn pv) idx)
    (ho : ∀ i < 9, s.oracle (s.calls + i) = true) (h9 : s.oracle (s.calls + 9) = false) : CUB (mexL1qcM fw1 fw2 junk mrow mcol n n b pix opts) s := by
  obtain ⟨x, s1, I, c1, o1, -, -, ub, -⟩ := C.finish (opts := opts) (junk := junk) hi (ho 0 (by omega)) (ho 1 (by omega))
  exact ub (C98_first_alloc_failure_false I (fun i hi => by rw [c1, o1, Nat.add_assoc]; exact ho _ (by omega)) (by rw [c1, o1, Nat.add_assoc]; exact h9))

/-- In exact arithmetic, with samples that are not all zero at the pixels `ix`, which are distinct and given by their one-based positions, `epsilon` at least 0, a given number
of barrier steps and all requests granted: whatever fresh memory contains, the call returns status 0 and a new array, the only thing that stays allocated, with an
image whose values at the pixels `ix` are within `epsilon` of the samples. -/
theorem C105_recovers (hlib : LibOk lib) {br : Fin n → ℝ} {ix : Fin n → Fin (mrow * mcol)} (hinj : Function.Injective ix)
    (C : MexImageCall lib fw1 fw2 mrow mcol n b pix (fvec br) (fvec fun i => ((ix i : ℕ) : ℝ) + 1) s) (hb : br ≠ 0)
    {eps : ℝ} (he : opts.epsilon = Dbl.fin eps) (heps : 0 ≤ eps) (hm : 2 * ((mrow * mcol : ℕ) : Int) + 1 ≤ INT_MAX) (hl : opts.lbiter ≠ 0) (hc : CountersFit opts)
    (ho : ∀ i, s.oracle i = true) :
    ∃ z res s', CSpec (mexL1qcM fw1 fw2 junk mrow mcol n n b pix opts) s (.ret z res) s' ∧ res.status = 0 ∧ CallerKept s s' ∧ NewBlocks s s' 1 ∧
      ∃ image : Fin (mrow * mcol) → ℝ, NewArray s s' z (fvec image) ∧ √(∑ i, (image (ix i) - br i) ^ 2) ≤ eps := by
  have hi : OneBased ((mrow : Int) * mcol) (List.ofFn (fvec fun i => ((ix i : ℕ) : ℝ) + 1)) (posList ix) := by
    have := oneBased_ints C.fits (ks := List.ofFn fun i => ((ix i : ℕ) : Int) + 1) fun k hk => by
      obtain ⟨i, rfl⟩ := (List.mem_ofFn' _ _).1 hk
      have h1 : ((ix i : ℕ) : Int) < ((mrow * mcol : ℕ) : Int) := by exact_mod_cast (ix i).2
      push_cast at h1
      show (1 : Int) ≤ ((ix i : ℕ) : Int) + 1 ∧ ((ix i : ℕ) : Int) + 1 ≤ (mrow : Int) * mcol
      omega
    rw [List.map_ofFn, List.map_ofFn] at this
    have e1 : (fun k : Int => Dbl.fin (k : ℝ)) ∘ (fun i => ((ix i : ℕ) : Int) + 1) = fvec fun i => ((ix i : ℕ) : ℝ) + 1 := by
      funext i
      simp [fvec]
    have e2 : (fun k : Int => k - 1) ∘ (fun i => ((ix i : ℕ) : Int) + 1) = fun i => ((ix i : ℕ) : Int) := by
      funext i
      simp
    rw [e1, e2] at this
    exact this
  obtain ⟨x, s1, I, c1, o1, -, -, -, fin⟩ := C.finish (opts := opts) (junk := junk) hi (ho _) (ho _)
  have hd : (posList ix).Nodup := List.nodup_ofFn.2 fun i j h => hinj (Fin.ext (by exact_mod_cast h))
  obtain ⟨res, s2, d1, d2, d3, d4, d5, image, d6, ix', d7, d8⟩ := C98_recovers (mode := DCT1) hlib I hd hb C.lt.le he heps hm hl hc fun i _ => by rw [o1]; exact ho _
  have e : ix' = ix := funext fun i => Fin.ext (by
    have := (d7 i).trans (posList_at ix i)
    exact_mod_cast this)
  subst e
  obtain ⟨out, s', e1, e2, ⟨h, -⟩ | ⟨-, z, rfl, e3, e4⟩⟩ := fin 0 _ s2 (fvec image) d1 d3 d4 d6 d5
  · rw [ho] at h
    cases h
  · exact ⟨z, _, s', e1, d2, e2, e4, image, e3, d8⟩

/-- the specification is defined for such data -/
theorem recover_some (hlib : LibOk lib) (two : Bool) (hp : 0 < mrow ∧ 0 < mcol) (hv : ∀ i, 0 ≤ idxFun n idx i ∧ idxFun n idx i < ((mrow * mcol : ℕ) : Int)) (hinj : Function.Injective (idxFun n idx))
    (hnm : n ≤ mrow * mcol) {br : Fin n → ℝ} (hb : br ≠ 0) (hm : 2 * ((mrow * mcol : ℕ) : Int) + 1 ≤ INT_MAX) (hl : opts.lbiter ≠ 0) (hc : CountersFit opts) :
    recover (imageFuns lib mrow mcol n idx two hp) (fvec br) opts ≠ none := by
  have hR := imageFuns_setR hlib (two := two) hp hv
  obtain ⟨ix, Q, ok⟩ := funsOk hR
  obtain ⟨s1, e1⟩ := ok.Aty.gives hR _ Reach.fresh br
  have hne : Qᵀ *ᵥ scat ix br ≠ 0 := by
    intro hz
    have h1 : Q *ᵥ (Qᵀ *ᵥ scat ix br) = 0 := by rw [hz, mulVec_zero]
    rw [mulVec_mulVec, mul_eq_one_comm.1 ok.orth, one_mulVec] at h1
    have h2 := gather_scat ix ((injective_iff ok.hix).1 hinj) br
    rw [h1] at h2
    exact hb (by rw [← h2]; rfl)
  obtain ⟨⟨u, prm⟩, h1⟩ := C52_defined_partial hne hm (prm := opts) (fun h0 => absurd h0 hl)
  have hL : prm.lbiter = opts.lbiter := by
    obtain ⟨t, L, rfl, h⟩ := init_opts h1
    exact h hl
  obtain ⟨o, y, hr⟩ := recover_defined (imageFuns_set (lib := lib) (two := two) hp hv) hnm e1 h1 hc.cg0 hc.cg1 (hL.symm ▸ hc.lb) (hL.symm ▸ hc.tot_cg) (hL.symm ▸ hc.tot_nw)
  rw [hr]
  simp

end dbl

/-! ## Examples -/

/-- the samples 7 and 8 in one block, their positions 6 and 2 in another -/
noncomputable def exMexImageRam (orc : ℕ → Bool) : PState Dbl where
  mem := ⟨fun k => if k < 2 then 2 else 0, fun a => if a.blk = 0 then (if a.off = 0 then .fin 7 else .fin 8) else (if a.off = 0 then .fin 6 else .fin 2)⟩
  live := fun k => decide (k < 2)
  next := 2
  calls := 0
  oracle := orc

theorem exMexImage_has {k : ℕ} (hk : k < 2) (orc : ℕ → Bool) : (exMexImageRam orc).mem.Has ⟨k, 0⟩ ((2 : ℕ) : Int) := fun i h0 h1 => ⟨by simpa using h0, by
  show (0 : Int) + i < ((if k < 2 then 2 else 0 : ℕ) : Int)
  rw [if_pos hk]
  push_cast at *
  omega⟩

/-- a 2 by 3 image from these -/
theorem exMexImage_call (orc : ℕ → Bool) : MexImageCall refLib exF1 exF2 2 3 2 ⟨0, 0⟩ ⟨1, 0⟩ (fvec ![7, 8])
    (fvec fun i => (((![5, 1] : Fin 2 → Fin (2 * 3)) i : ℕ) : ℝ) + 1) (exMexImageRam orc) where
  wf := fun k hk => by
    have hk : 2 ≤ k := hk
    exact ⟨by simp [exMexImageRam]; omega, by
      show (if k < 2 then 2 else 0) = 0
      rw [if_neg (by omega)]⟩
  f1 := fun _ => copyThrough_impl _
  f2 := fun _ _ => copyThrough_impl _
  pos := by decide
  lt := by decide
  fits := by unfold FitsInt INT_MAX INT_MIN; omega
  hb := ⟨exMexImage_has (by decide) orc, fun i => by fin_cases i <;> simp [exMexImageRam, fvec]⟩
  blive := rfl
  hpix := ⟨exMexImage_has (by decide) orc, fun i => by
    fin_cases i
    · simp [exMexImageRam, fvec]; norm_num
    · simp [exMexImageRam, fvec]; norm_num⟩
  plive := rfl

/-- fresh memory full of NaN: the call returns an array of six numbers with 7 and 8, within 1, at positions 5 and 1 counted from 0 -/
example : ∃ z res s', CSpec (mexL1qcM exF1 exF2 (fun _ => .nan) ((2 : ℕ) : Int) ((3 : ℕ) : Int) ((2 : ℕ) : Int) ((2 : ℕ) : Int) ⟨0, 0⟩ ⟨1, 0⟩ exOpts) (exMexImageRam fun _ => true) (.ret z res) s' ∧
    res.status = 0 ∧ ∃ image : Fin 6 → ℝ, NewArray (exMexImageRam fun _ => true) s' z (fvec image) ∧ √((image 5 - 7) ^ 2 + (image 1 - 8) ^ 2) ≤ 1 := by
  obtain ⟨z, res, s', h1, h2, -, -, image, h6, h8⟩ := C105_recovers (opts := exOpts) (junk := fun _ => .nan) refLib_ok (ix := (![5, 1] : Fin 2 → Fin (2 * 3))) (by decide)
    (exMexImage_call fun _ => true) (fun hc => by simpa using congrFun hc 0) rfl zero_le_one (by unfold INT_MAX; omega) (by show ¬ (3 : Int) = 0; decide)
    ⟨by show (0 : Int) ≤ 200; decide, by show (200 : Int) < INT_MAX; decide, by show ((3 : Int).toNat : Int) < INT_MAX; decide,
      by show (3 : Int).toNat * (((50 : Int) - 1).toNat * (200 : Int)) ≤ INT_MAX; decide,
      by show (3 : Int).toNat * ((((50 : Int) - 1).toNat : Int) + 1) ≤ INT_MAX; decide⟩ (fun _ => rfl)
  refine ⟨z, res, s', h1, h2, image, h6, ?_⟩
  simpa [Fin.sum_univ_two] using h8

/-- the index array is refused -/
example : ∃ s', CSpec (mexL1qcM exF1 exF2 (fun _ => .nan) ((2 : ℕ) : Int) ((3 : ℕ) : Int) ((2 : ℕ) : Int) ((2 : ℕ) : Int) ⟨0, 0⟩ ⟨1, 0⟩ exOpts) (exMexImageRam fun i => i != 1)
    (.exc "l1c:l1qc_dct:outofmemory") s' := by
  obtain ⟨s', h, -⟩ := C105_no_array (junk := fun _ => .nan) (opts := exOpts) (exMexImage_call fun i => i != 1) (.inr rfl)
  exact ⟨s', h⟩

/-- the twentieth request is refused: the call returns NaNs without an error from the library -/
example : ∃ out s', CSpec (mexL1qcM exF1 exF2 (fun _ => .nan) ((2 : ℕ) : Int) ((3 : ℕ) : Int) ((2 : ℕ) : Int) ((2 : ℕ) : Int) ⟨0, 0⟩ ⟨1, 0⟩ exOpts) (exMexImageRam fun i => i != 19) out s' ∧
    (out = .exc "MATLAB:nomem" ∨ ∃ z res, out = .ret z res ∧ res.status ≠ 0 ∧ ∀ i : Fin 6, s'.mem.val (z + ((i : ℕ) : Int)) = .nan) := by
  have hi : OneBased (((2 : ℕ) : Int) * ((3 : ℕ) : Int)) (List.ofFn (fvec fun i => (((![5, 1] : Fin 2 → Fin (2 * 3)) i : ℕ) : ℝ) + 1)) [5, 1] := by
    have := oneBased_ints (mtot := 6) (by decide) (ks := [6, 2]) (by simp)
    have e : List.ofFn (fvec fun i => (((![5, 1] : Fin 2 → Fin (2 * 3)) i : ℕ) : ℝ) + 1) = [6, 2].map (fun k : Int => Dbl.fin (k : ℝ)) := by
      simp [fvec]
      norm_num
    rw [e]
    exact this
  have hr : recover (imageFuns refLib 2 3 2 [5, 1] false ⟨by decide, by decide⟩) (fvec ![7, 8]) exOpts ≠ none :=
    recover_some refLib_ok false _ (fun i => by fin_cases i <;> simp [idxFun]) (by decide) (by decide) (fun hc => by simpa using congrFun hc 0) (by unfold INT_MAX; omega) (by show ¬ (3 : Int) = 0; decide)
      ⟨by show (0 : Int) ≤ 200; decide, by show (200 : Int) < INT_MAX; decide, by show ((3 : Int).toNat : Int) < INT_MAX; decide,
        by show (3 : Int).toNat * (((50 : Int) - 1).toNat * (200 : Int)) ≤ INT_MAX; decide,
        by show (3 : Int).toNat * ((((50 : Int) - 1).toNat : Int) + 1) ≤ INT_MAX; decide⟩
  obtain ⟨out, s', h1, -, h2⟩ := C105_failure_not_reported_false (junk := fun _ => .nan) (exMexImage_call fun i => i != 19) hi _ (by show (200 : Int) ≤ INT_MAX; decide) hr rfl rfl
    (fun h => by have := h 17 (by omega); simp [exMexImageRam] at this) rfl
  refine ⟨out, s', h1, ?_⟩
  rcases h2 with ⟨h, -⟩ | ⟨z, res, h3, h4, h5, -⟩
  · exact .inl h
  · exact .inr ⟨z, res, h3, by rcases h4 with e | e <;> rw [e] <;> decide, fun i => h5.1.2 i⟩

/-- the positions are the samples: 7 is outside of the image -/
example : ∃ s', CSpec (mexL1qcM exF1 exF2 (fun _ => .nan) ((2 : ℕ) : Int) ((3 : ℕ) : Int) ((2 : ℕ) : Int) ((2 : ℕ) : Int) ⟨1, 0⟩ ⟨0, 0⟩ exOpts) (exMexImageRam fun _ => true)
    (.exc "l1c:l1qc_dct:bad_index") s' := by
  have C := exMexImage_call fun _ => true
  obtain ⟨s', h, -⟩ := C105_bad_position (junk := fun _ => .nan) (opts := exOpts) (ks := []) (k := 7) (tl := [.fin 8])
    ⟨C.wf, C.f1, C.f2, C.pos, C.lt, C.fits, C.hpix, C.plive, C.hb, C.blive⟩ rfl rfl (by simp [fvec]) (by simp) (.inr (by norm_num)) (by decide)
  exact ⟨s', h⟩

end L1c
