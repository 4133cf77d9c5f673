import Verif.Proofs.PyMem
import Verif.Props.L1qcDctRam
import Verif.Props.NestaMexRam

/-!
# C103: image recovery from Python on memory

From the converted arguments to the data of the returned array, with everything that is allocated on the way.
-/

namespace L1c
open Scalar Matrix Cmd

/-! ## `_l1qc_dct` -/

section l1qc
variable {F : Type} [Scalar F] {s : PState F} {lib : FftwLib F} {fw1 : ℕ → FftwM F} {fw2 : ℕ → ℕ → FftwM F} {idx : List Int} {mode : Int} {b : Ptr} {opts : QOpts F}

/-- An unknown transform, more samples than pixels, or not one index per sample: `ValueError`, and the process is exactly as before. -/
theorem C103_l1qc_rejects {mrow mcol n : Int} (h : (mode ≠ DCT1 ∧ mode ≠ DCT2) ∨ (FitsInt (mrow * mcol) ∧ (mrow * mcol < n ∨ n ≠ idx.length))) :
    CSpec (pyL1qcM fw1 fw2 mrow mcol n b idx mode opts) s (.exc "ValueError") s := by
  unfold pyL1qcM
  by_cases h0 : mode ≠ DCT1 ∧ mode ≠ DCT2
  · rw [if_pos h0]
    exact .done _ _
  · rw [if_neg h0]
    obtain ⟨h1, h2⟩ := h.resolve_left h0
    refine (cspec_need h1 s).bind ?_
    rw [if_pos h2]
    exact .done _ _

/-- A number of pixels that does not fit in `int` is undefined behaviour. -/
theorem C103_l1qc_overflow_false {mrow mcol n : Int} (h0 : mode = DCT1 ∨ mode = DCT2) (h : ¬ FitsInt (mrow * mcol)) :
    CUB (pyL1qcM fw1 fw2 mrow mcol n b idx mode opts) s := by
  unfold pyL1qcM
  rw [if_neg (by tauto)]
  exact CUB.bind (cub_need h _)

variable {mrow mcol n : ℕ} {bv : Vec F n}

/-- past the checks -/
theorem PyImageCall.front (C : PyImageCall lib fw1 fw2 mrow mcol n idx mode b bv s) {out : PyRes (Option (LBResult F))} {s' : PState F}
    (h : CSpec (do
      let x_ours ← callocC ((mrow * mcol : ℕ) : Int)
      match x_ours with
      | none => pure (.exc "MemoryError")
      | some x => do
        let r ← l1qc_dctM fw1 fw2 mrow mcol x n b idx mode opts
        pyL1qcEndM (mrow * mcol) x r) s out s') : CSpec (pyL1qcM fw1 fw2 mrow mcol n b idx mode opts) s out s' := by
  unfold pyL1qcM
  rw [if_neg (by have := C.dct; tauto)]
  refine (cspec_need C.fits s).bind ?_
  rw [if_neg (by
    have h1 := C.le
    have h2 := C.len
    have h3 : ((mrow * mcol : ℕ) : Int) = (mrow : Int) * mcol := by push_cast; rfl
    omega)]
  rw [show (mrow : Int) * mcol = ((mrow * mcol : ℕ) : Int) by push_cast; rfl]
  exact h

/-- the solver is called with the new array -/
theorem PyImageCall.inner (C : PyImageCall lib fw1 fw2 mrow mcol n idx mode b bv s) {x : Ptr} (hx : (s.calloc ((mrow * mcol : ℕ) : Int)).1 = some x) :
    ImageCall lib fw1 fw2 mrow mcol n idx x b bv (s.calloc ((mrow * mcol : ℕ) : Int)).2 ∧ Ext s (s.calloc ((mrow * mcol : ℕ) : Int)).2 [some x] ∧ OldVals s (s.calloc ((mrow * mcol : ℕ) : Int)).2 := by
  obtain ⟨a1, a2, -, a4, -⟩ := (Ext.init C.wf).alloc (mrow * mcol)
  rw [hx, List.nil_append] at a1
  have f := a4 x hx
  have hb := C.wf.lt C.blive
  exact ⟨⟨a1.wf, C.f1, C.f2, C.valid, C.len, C.fits, C.hb.grow (a2.len _ hb) fun q hq => a2.val q (hq ▸ hb), by rw [a1.old_live _ hb]; exact C.blive, f.holds0.1, a1.liveAt (by simp)⟩, a1, a2.val⟩

/-- If the array for the image is refused: `MemoryError`, and nothing is left. -/
theorem C103_l1qc_no_array (C : PyImageCall lib fw1 fw2 mrow mcol n idx mode b bv s) (h : s.oracle s.calls = false) :
    ∃ s', CSpec (pyL1qcM fw1 fw2 mrow mcol n b idx mode opts) s (.exc "MemoryError") s' ∧ CallerKept s s' ∧ NewBlocks s s' 0 := by
  obtain ⟨a1, a2, -, a4, a5⟩ := (Ext.init C.wf).alloc (mrow * mcol)
  have e : (s.calloc ((mrow * mcol : ℕ) : Int)).1 = none := by
    rcases e : (s.calloc ((mrow * mcol : ℕ) : Int)).1 with _ | x
    · rfl
    · rw [e] at a5
      rw [a5.1 rfl] at h
      cases h
  rw [e] at a1
  refine ⟨_, C.front ((cspec_calloc _ s).bind ?_), a1.kept C.wf fun a ha => a2.val a (C.wf.lt ha), newBlocks_none a1⟩
  rw [e]
  exact .done _ _

end l1qc

section l1qcDbl
variable {s : PState Dbl} {lib : FftwLib Dbl} {fw1 : ℕ → FftwM Dbl} {fw2 : ℕ → ℕ → FftwM Dbl} {mrow mcol n : ℕ} {idx : List Int} {mode : Int} {b : Ptr} {bv : Vec Dbl n} {opts : QOpts Dbl}

theorem PyImageCall.finish (C : PyImageCall lib fw1 fw2 mrow mcol n idx mode b bv s) (h0 : s.oracle s.calls = true) :
    ∃ x s1, ImageCall lib fw1 fw2 mrow mcol n idx x b bv s1 ∧ s1.calls = s.calls + 1 ∧ s1.oracle = s.oracle ∧
      ∀ st res s2 (image : Vec Dbl (mrow * mcol)), CSpec (l1qc_dctM fw1 fw2 mrow mcol x n b idx mode opts) s1 (st, res) s2 → s2.live = s1.live → s2.mem.len = s1.mem.len →
        (st = 0 → HoldsV s2 x image) → (∀ a : Ptr, s1.live a.blk = true → (a ∉ Rng x (mrow * mcol)) → s2.mem.val a = s1.mem.val a) →
        ∃ out s', CSpec (pyL1qcM fw1 fw2 mrow mcol n b idx mode opts) s out s' ∧ CallerKept s s' ∧
          ((st ≠ 0 ∧ out = .exc "RuntimeError" ∧ NewBlocks s s' 0) ∨ (st = 0 ∧ s.oracle s2.calls = false ∧ out = .exc "MemoryError" ∧ NewBlocks s s' 0) ∨
            (st = 0 ∧ s.oracle s2.calls = true ∧ ∃ z, out = .ret z res ∧ NewArray s s' z image ∧ NewBlocks s s' 1)) := by
  obtain ⟨-, -, a3, -, a5⟩ := (Ext.init C.wf).alloc (mrow * mcol)
  obtain ⟨x, e⟩ := Option.isSome_iff_exists.1 (a5.2 h0)
  obtain ⟨I, E, v⟩ := C.inner e
  refine ⟨x, _, I, a3, E.orc, fun st res s2 image h1 h2 h3 h4 h5 => ?_⟩
  obtain ⟨n5, o5⟩ := cspec_next h1
  obtain ⟨out, s', b1, b2⟩ := pyL1qcEnd_spec C.wf (E.balanced h2 h3 n5 o5) (fun a ha => by
    have hl := C.wf.lt ha
    rw [h5 a (by rw [E.old_live _ hl]; exact ha) fun hr => by
      have := (E.ptrs x (by simp)).1
      have := hr.1
      omega]
    exact v a hl) (res := res) h4
  refine ⟨out, s', C.front ((cspec_calloc _ s).bind ?_), b2⟩
  rw [e]
  exact h1.bind b1

/-- The solver on vectors (`recover`: no memory, transforms as functions) gives `res` and `image`, and the first 27 requests are granted.  Under every
interleaving, if `res.status` is not 0 the call raises `RuntimeError`; otherwise it returns a new array with exactly `image`, unless numpy cannot get memory for it.
The caller's memory is as before, and nothing stays allocated but that array. -/
theorem C103_l1qc (C : PyImageCall lib fw1 fw2 mrow mcol n idx mode b bv s) (hp : 0 < mrow ∧ 0 < mcol) (hmax : opts.cg_maxiter ≤ INT_MAX)
    {res : LBResult Dbl} {image : Vec Dbl (mrow * mcol)}
    (hr : recover (imageFuns lib mrow mcol n idx (twoDim mrow mcol mode) hp) bv opts = some (res, image)) (ho : ∀ i < 27, s.oracle (s.calls + i) = true) :
    ∃ out s', CSpec (pyL1qcM fw1 fw2 mrow mcol n b idx mode opts) s out s' ∧ CallerKept s s' ∧
      ((res.status ≠ 0 ∧ out = .exc "RuntimeError" ∧ NewBlocks s s' 0) ∨ (res.status = 0 ∧ (∃ i, s.oracle i = false) ∧ out = .exc "MemoryError" ∧ NewBlocks s s' 0) ∨
        (res.status = 0 ∧ ∃ z, out = .ret z (some res) ∧ NewArray s s' z image ∧ NewBlocks s s' 1)) := by
  obtain ⟨x, s1, I, c1, o1, fin⟩ := C.finish (opts := opts) (ho 0 (by omega))
  obtain ⟨s2, d1, d2, d3, d4, d5⟩ := C98_recovered (mode := mode) I hp C.le hmax hr fun i hi => by
    rw [c1, o1, Nat.add_assoc]
    exact ho _ (by omega)
  obtain ⟨out, s', e1, e2, e3⟩ := fin _ _ s2 image d1 d2 d3 d4 fun a h1 h2 => d5 a h1 (.inl h2)
  refine ⟨out, s', e1, e2, ?_⟩
  rcases e3 with e3 | ⟨h1, h2, h3⟩ | ⟨h1, -, h3⟩
  · exact .inl e3
  · exact .inr (.inl ⟨h1, ⟨_, h2⟩, h3⟩)
  · exact .inr (.inr ⟨h1, h3⟩)

/-- Some of the 26 requests of the solver is refused, though not its eighth: `RuntimeError`, the caller's memory is as before, and nothing stays allocated unless a two-dimensional setup
failed.  Missing: the cases of `C98_leak_false` and `C98_first_alloc_failure_false`. -/
theorem C103_l1qc_out_of_memory_partial (C : PyImageCall lib fw1 fw2 mrow mcol n idx mode b bv s) (hp : 0 < mrow ∧ 0 < mcol) (hmax : opts.cg_maxiter ≤ INT_MAX)
    (hr : recover (imageFuns lib mrow mcol n idx (twoDim mrow mcol mode) hp) bv opts ≠ none) (h0 : s.oracle s.calls = true)
    (ho : ¬ ∀ i < 26, s.oracle (s.calls + 1 + i) = true) (h8 : s.oracle (s.calls + 8) = true) (ht : twoDim mrow mcol mode = false ∨ ∀ i < 5, s.oracle (s.calls + 1 + i) = true) :
    ∃ s', CSpec (pyL1qcM fw1 fw2 mrow mcol n b idx mode opts) s (.exc "RuntimeError") s' ∧ CallerKept s s' ∧ NewBlocks s s' 0 := by
  obtain ⟨x, s1, I, c1, o1, fin⟩ := C.finish (opts := opts) h0
  obtain ⟨st, r, s2, d1, d2, d3, d4⟩ := C98_out_of_memory_partial (mode := mode) I hp C.le hmax hr (by rw [c1, o1]; exact ho) (by rw [c1, o1, Nat.add_assoc]; exact h8)
  obtain ⟨d5, d6⟩ := d4 (by rw [c1, o1]; exact ht)
  have hst : st ≠ 0 := by
    rcases d3 with ⟨-, e⟩ | ⟨-, e, -⟩ <;> rw [e] <;> decide
  obtain ⟨out, s', e1, e2, ⟨-, rfl, e3⟩ | ⟨h, -⟩ | ⟨h, -⟩⟩ := fin st r s2 (fun _ => lit 0) d1 d5 d6 (fun h => absurd h hst) fun a h1 _ => d2 a h1
  · exact ⟨s', e1, e2, e3⟩
  · exact absurd h hst
  · exact absurd h hst

/-- In exact arithmetic, with samples at distinct pixels that are not all zero, `epsilon` at least 0, a given number of barrier steps and all requests granted: the
call returns a new array, the only thing that stays allocated, with an image whose values at the sampled pixels are within `epsilon` of the data. -/
theorem C103_l1qc_recovers (hlib : LibOk lib) {br : Fin n → ℝ} (C : PyImageCall lib fw1 fw2 mrow mcol n idx mode b (fvec br) s) (hd : idx.Nodup) (hb : br ≠ 0)
    {eps : ℝ} (he : opts.epsilon = Dbl.fin eps) (heps : 0 ≤ eps) (hm : 2 * ((mrow * mcol : ℕ) : Int) + 1 ≤ INT_MAX) (hl : opts.lbiter ≠ 0) (hc : CountersFit opts)
    (ho : ∀ i, s.oracle i = true) :
    ∃ z res s', CSpec (pyL1qcM fw1 fw2 mrow mcol n b idx mode opts) s (.ret z (some res)) s' ∧ res.status = 0 ∧ CallerKept s s' ∧ NewBlocks s s' 1 ∧
      ∃ image : Fin (mrow * mcol) → ℝ, NewArray s s' z (fvec image) ∧ ∃ ix : Fin n → Fin (mrow * mcol), (∀ i : Fin n, ((ix i : ℕ) : Int) = idxFun n idx i) ∧
        √(∑ i, (image (ix i) - br i) ^ 2) ≤ eps := by
  obtain ⟨x, s1, I, c1, o1, fin⟩ := C.finish (opts := opts) (ho _)
  obtain ⟨res, s2, d1, d2, d3, d4, d5, image, d6, ix, d7, d8⟩ := C98_recovers (mode := mode) hlib I hd hb C.le he heps hm hl hc fun i _ => by rw [o1]; exact ho _
  obtain ⟨out, s', e1, e2, ⟨h, -⟩ | ⟨-, h, -⟩ | ⟨-, -, z, rfl, e3, e4⟩⟩ := fin 0 _ s2 (fvec image) d1 d3 d4 (fun _ => d6) d5
  · exact absurd rfl h
  · rw [ho] at h
    cases h
  · exact ⟨z, res, s', e1, d2, e2, e4, image, e3, ix, d7, d8⟩

end l1qcDbl

/-! ## `_nesta_dctTV` -/

section nesta
variable {F : Type} [Scalar F] {s : PState F} {lib : FftwLib F} {fw1 : ℕ → FftwM F} {fw2 : ℕ → ℕ → FftwM F} {av ah : F} {idx : List Int} {mode bp : Int} {b : Ptr}
  {junkU : ℕ → F} {opts : NestaOpts F}

/-- An unknown mode or transform, more samples than pixels, or not one index per sample: `ValueError`, and the process is exactly as before. -/
theorem C103_nesta_rejects {mrow mcol n : Int} (h : (bp ≠ BP_ANALYSIS ∧ bp ≠ BP_SYNTHESIS) ∨ (mode ≠ DCT1 ∧ mode ≠ DCT2) ∨ (FitsInt (mrow * mcol) ∧ (mrow * mcol < n ∨ n ≠ idx.length))) :
    CSpec (pyNestaM fw1 fw2 junkU mrow mcol n av ah mode bp idx b opts) s (.exc "ValueError") s := by
  unfold pyNestaM
  by_cases h0 : bp ≠ BP_ANALYSIS ∧ bp ≠ BP_SYNTHESIS
  · rw [if_pos h0]
    exact .done _ _
  rw [if_neg h0]
  by_cases h1 : mode ≠ DCT1 ∧ mode ≠ DCT2
  · rw [if_pos h1]
    exact .done _ _
  rw [if_neg h1]
  obtain ⟨h2, h3⟩ := (h.resolve_left h0).resolve_left h1
  refine (cspec_need h2 s).bind ?_
  rw [if_pos h3]
  exact .done _ _

variable {mrow mcol n : ℕ} {bv : Vec F n}

/-- past the checks -/
theorem TvPyCall.front (C : TvPyCall lib fw1 fw2 mrow mcol n av ah idx b bv s) (hle : n ≤ mrow * mcol) (hm : mode = DCT1 ∨ mode = DCT2) (hbp : bp = BP_ANALYSIS ∨ bp = BP_SYNTHESIS)
    {out : PyRes Int} {s' : PState F}
    (h : CSpec (do
      let x_ours ← callocC ((mrow * mcol : ℕ) : Int)
      let b_ours ← callocC (n : Int)
      match x_ours, b_ours with
      | some x, some b' => do
        exec (cblas_dcopy (n : Int) b b')
        pyNestaSetM fw1 fw2 junkU mrow mcol n av ah mode (decide (bp = BP_ANALYSIS)) idx x b' opts
      | x, b' => do
        freesC [x, b']
        pure (.exc "MemoryError")) s out s') : CSpec (pyNestaM fw1 fw2 junkU mrow mcol n av ah mode bp idx b opts) s out s' := by
  unfold pyNestaM
  rw [if_neg (by tauto), if_neg (by tauto)]
  refine (cspec_need C.fits s).bind ?_
  rw [if_neg (by
    have h2 := C.len
    have h3 : ((mrow * mcol : ℕ) : Int) = (mrow : Int) * mcol := by push_cast; rfl
    omega)]
  rw [show (mrow : Int) * mcol = ((mrow * mcol : ℕ) : Int) by push_cast; rfl]
  exact h

/-- One of the two arrays of the routine is refused: `MemoryError`, and nothing is left. -/
theorem C103_nesta_no_array (C : TvPyCall lib fw1 fw2 mrow mcol n av ah idx b bv s) (hle : n ≤ mrow * mcol) (hm : mode = DCT1 ∨ mode = DCT2) (hbp : bp = BP_ANALYSIS ∨ bp = BP_SYNTHESIS)
    (h : s.oracle s.calls = false ∨ s.oracle (s.calls + 1) = false) :
    ∃ s', CSpec (pyNestaM fw1 fw2 junkU mrow mcol n av ah mode bp idx b opts) s (.exc "MemoryError") s' ∧ CallerKept s s' ∧ NewBlocks s s' 0 := by
  obtain ⟨x0, bo, s1, s2, a1, a2, a3, a4, a5, a6, -⟩ := pyArrays C.wf (mrow * mcol) n
  obtain ⟨s3, b1, b2, b3, -⟩ := frees_spec [x0, bo] (L := []) (by simpa using a3)
  refine ⟨s3, C.front hle hm hbp (a1.bind (a2.bind ?_)), b2.kept C.wf fun a ha => by rw [b3]; exact a4 a (C.wf.lt ha), newBlocks_of C.wf b2 (by simp)⟩
  rcases x0 with _ | x
  · exact b1.bind (.done _ _)
  rcases bo with _ | b'
  · exact b1.bind (.done _ _)
  · exfalso
    rcases h with h | h
    · rw [a5.1 rfl] at h
      cases h
    · rw [a6.1 rfl] at h
      cases h

/-- One of the six requests of a one-dimensional setup is refused: `RuntimeError`, and nothing is left.  (A two-dimensional setup leaks, `C100_setup_leak_false`.) -/
theorem C103_nesta_no_set (C : TvPyCall lib fw1 fw2 mrow mcol n av ah idx b bv s) (hle : n ≤ mrow * mcol) (hm : mode = DCT1 ∨ mode = DCT2) (hbp : bp = BP_ANALYSIS ∨ bp = BP_SYNTHESIS)
    (ht : twoDim mrow mcol mode = false) (h0 : s.oracle s.calls = true) (h1 : s.oracle (s.calls + 1) = true) (h : ¬ ∀ i < 6, s.oracle (s.calls + 2 + i) = true) :
    ∃ s', CSpec (pyNestaM fw1 fw2 junkU mrow mcol n av ah mode bp idx b opts) s (.exc "RuntimeError") s' ∧ CallerKept s s' ∧ NewBlocks s s' 0 := by
  obtain ⟨x0, bo, s1, s2, a1, a2, a3, a4, a5, a6, a7⟩ := pyArrays C.wf (mrow * mcol) n
  obtain ⟨x, rfl⟩ := Option.isSome_iff_exists.1 (a5.2 h0)
  obtain ⟨b', rfl⟩ := Option.isSome_iff_exists.1 (a6.2 h1)
  obtain ⟨s3, b1, E, v, c, -, -⟩ := a7 x b' rfl rfl b bv C.hb (C.wf.lt C.blive)
  obtain ⟨r, s4, d1, ⟨d2, -⟩ | ⟨-, d3, -, d5, ⟨-, d6⟩ | ⟨d6, -⟩⟩⟩ := tvAllocM_spec E.wf (twoDim mrow mcol mode) (mrow * mcol) (tvP (mrow * mcol) av ah) junkU
  · exact absurd (by rw [c, E.orc] at d2; exact d2) h
  · obtain ⟨s5, e1, e2, e3, -⟩ := frees_spec [some x, some b'] (L := []) (by simpa using E.trans d6)
    refine ⟨s5, C.front hle hm hbp (a1.bind (a2.bind (b1.bind ((mex_setup C d1).bind ?_)))), e2.kept C.wf fun a ha => ?_, newBlocks_of C.wf e2 (by simp)⟩
    · rw [d3]
      exact e1.bind (.done _ _)
    · have hl := C.wf.lt ha
      rw [e3, d5 a (lt_of_lt_of_le hl E.next_le), v a hl]
  · rw [ht] at d6
    cases d6

/-- In analysis mode, when the first eight requests are granted and NESTA on vectors, started at zero, is defined for what the allocator answers from then on: under every
interleaving the call returns NESTA's status and a new array with exactly NESTA's vector, unless numpy cannot get memory for it.  The caller's memory is as before.
Six blocks more than the returned array stay allocated in both cases: the transform set is never destroyed. -/
theorem C103_nesta (C : TvPyCall lib fw1 fw2 mrow mcol n av ah idx b bv s) (hle : n ≤ mrow * mcol) (hm : mode = DCT1 ∨ mode = DCT2) (h : 0 < mrow ∧ 0 < mcol)
    (ho : ∀ i < 8, s.oracle (s.calls + i) = true) {out : NestaOut F n (mrow * mcol) (tvP (mrow * mcol) av ah)} {ns : NState (TvBuf F (mrow * mcol) (tvP (mrow * mcol) av ah))}
    (hr : l1c_nesta ((mrow * mcol : ℕ) : Int) n (fun _ => lit 0) bv (tvAna (mexCfg lib mrow mcol n av ah (twoDim mrow mcol mode) idx h)) opts
      ⟨∅, 0, s.calls + 8, s.oracle, ⟨DctBuf.fresh, fun i => junkU i⟩⟩ = some (out, ns)) :
    ∃ r s', CSpec (pyNestaM fw1 fw2 junkU mrow mcol n av ah mode BP_ANALYSIS idx b opts) s r s' ∧ CallerKept s s' ∧
      (((∃ i, s.oracle i = false) ∧ r = .exc "MemoryError" ∧ NewBlocks s s' 6) ∨ ∃ z, r = .ret z out.status ∧ NewArray s s' z out.xk ∧ NewBlocks s s' 7) := by
  obtain ⟨-, hi⟩ := validIdx C.valid.1 C.len
  obtain ⟨x0, bo, s1, s2, a1, a2, a3, a4, a5, a6, a7⟩ := pyArrays C.wf (mrow * mcol) n
  obtain ⟨x, rfl⟩ := Option.isSome_iff_exists.1 (a5.2 (ho 0 (by omega)))
  obtain ⟨b', rfl⟩ := Option.isSome_iff_exists.1 (a6.2 (ho 1 (by omega)))
  obtain ⟨s3, b1, E, v, c, hx, hb⟩ := a7 x b' rfl rfl b bv C.hb (C.wf.lt C.blive)
  obtain ⟨r, s4, d1, ⟨-, o, rfl, U⟩ | ⟨d2, -⟩⟩ := tvAllocM_spec E.wf (twoDim mrow mcol mode) (mrow * mcol) (tvP (mrow * mcol) av ah) junkU
  · have M := pyMexAt E v c hx hb U
    have K := mex_call (fw1 := fw1) (fw2 := fw2) (mode := mode) C h hi M
    have e : s4.asN (⟨DctBuf.fresh, fun i => junkU i⟩ : TvBuf F (mrow * mcol) (tvP (mrow * mcol) av ah)) = ⟨∅, 0, s.calls + 8, s.oracle, ⟨DctBuf.fresh, fun i => junkU i⟩⟩ := by
      unfold PState.asN
      rw [M.calls, M.ext.orc]
    have hst : out.status ≠ L1C_INCONSISTENT_ARGUMENTS := by
      have hT := tvAna_total (c := mexCfg lib mrow mcol n av ah (twoDim mrow mcol mode) idx h) (imageFuns_set (lib := lib) (two := twoDim mrow mcol mode) h hi)
      by_cases hal : ∀ i < 10, s.oracle (s.calls + 8 + i) = true
      · have := (C43_success_partial _ bv opts _ ns (fun k hk => by cases hk) hal (hT.notMissing ⟨rfl, rfl⟩) out hr).1
        rw [this]
        decide
      · obtain ⟨ns', e', -, -⟩ := nesta_oom (fun _ : Fin (mrow * mcol) => (lit 0 : F)) bv (tvAna (mexCfg lib mrow mcol n av ah (twoDim mrow mcol mode) idx h)) opts
          ⟨∅, 0, s.calls + 8, s.oracle, ⟨DctBuf.fresh, fun i => junkU i⟩⟩ (fun k hk => by cases hk) hal
        obtain ⟨rfl, -⟩ := Prod.mk.inj (Option.some.inj (e'.symm.trans hr))
        show L1C_OUT_OF_MEMORY ≠ L1C_INCONSISTENT_ARGUMENTS
        decide
    obtain ⟨s5, k1, k2, -, -, k3, -, k4⟩ := C95_refines K (m_arg := ((mrow * mcol : ℕ) : Int)) (n_arg := n) (opts := opts) (o := out) (ns := ns)
      ((congrArg (l1c_nesta ((mrow * mcol : ℕ) : Int) n (fun _ => lit 0) bv (tvAna (mexCfg lib mrow mcol n av ah (twoDim mrow mcol mode) idx h)) opts) e).trans hr)
    obtain ⟨n5, o5⟩ := cspec_next k1
    obtain ⟨q, s', f1, f2, f3⟩ := pyNestaUse_spec C.wf (M.ext.balanced (k3 hst).1 (k3 hst).2 n5 o5) k1 k2 fun a ha => by
      obtain ⟨g1, g2, g3, g4⟩ := M.caller C.wf ha
      exact (k4 a g1 g2 g3 g4).trans (M.old a (C.wf.lt ha))
    refine ⟨q, s', C.front hle hm (.inl rfl) (a1.bind (a2.bind (b1.bind ((mex_setup C d1).bind ?_)))), f2, ?_⟩
    · show CSpec (if decide (BP_ANALYSIS = BP_ANALYSIS) = true then _ else _) _ _ _
      rw [if_pos (by decide), mode_eq]
      exact f1
    · rcases f3 with ⟨g1, g2⟩ | ⟨-, g2⟩
      · exact .inl ⟨⟨_, g1⟩, g2⟩
      · exact .inr g2
  · exact absurd (fun i hi => by rw [c, E.orc, Nat.add_assoc]; exact ho (2 + i) (by omega)) d2

/-- In synthesis mode with a positive weight NESTA always refuses, though all arguments are as documented: the call returns a black image and `L1C_INVALID_ARGUMENT`. -/
theorem C103_nesta_synthesis_false (C : TvPyCall lib fw1 fw2 mrow mcol n av ah idx b bv s) (hle : n ≤ mrow * mcol) (hm : mode = DCT1 ∨ mode = DCT2) (hw : job av = true ∨ job ah = true)
    (ho : ∀ i < 9, s.oracle (s.calls + i) = true) :
    ∃ z s', CSpec (pyNestaM fw1 fw2 junkU mrow mcol n av ah mode BP_SYNTHESIS idx b opts) s (.ret z L1C_INVALID_ARGUMENT) s' ∧ CallerKept s s' ∧
      NewArray s s' z (fun _ : Fin (mrow * mcol) => lit 0) ∧ NewBlocks s s' 7 := by
  obtain ⟨h, -⟩ := validIdx C.valid.1 C.len
  obtain ⟨x0, bo, s1, s2, a1, a2, a3, a4, a5, a6, a7⟩ := pyArrays C.wf (mrow * mcol) n
  obtain ⟨x, rfl⟩ := Option.isSome_iff_exists.1 (a5.2 (ho 0 (by omega)))
  obtain ⟨b', rfl⟩ := Option.isSome_iff_exists.1 (a6.2 (ho 1 (by omega)))
  obtain ⟨s3, b1, E, v, c, hx, hb⟩ := a7 x b' rfl rfl b bv C.hb (C.wf.lt C.blive)
  obtain ⟨r, s4, d1, ⟨-, o, rfl, U⟩ | ⟨d2, -⟩⟩ := tvAllocM_spec E.wf (twoDim mrow mcol mode) (mrow * mcol) (tvP (mrow * mcol) av ah) junkU
  · have M := pyMexAt E v c hx hb U
    have k1 : CSpec (l1c_nestaM ((mrow * mcol : ℕ) : Int) x n b' (tvSynM n (mexVar fw1 fw2 mrow mcol n av ah mode idx o)) opts) s4 L1C_INVALID_ARGUMENT s4 := by
      unfold l1c_nestaM
      rw [if_pos]
      · exact .done _ _
      · right
        have hm : 0 < mrow * mcol := Nat.mul_pos h.1 h.2
        show ((mrow * mcol : ℕ) : Int) ≠ ((tvP (mrow * mcol) av ah : ℕ) : Int)
        unfold tvP
        rcases hw with hw | hw
        · rw [if_pos hw]
          push_cast
          split <;> omega
        · rw [if_pos hw]
          push_cast
          split <;> omega
    obtain ⟨q, s', f1, f2, f3⟩ := pyNestaUse_spec C.wf M.ext k1 M.hx fun a ha => M.old a (C.wf.lt ha)
    have run : CSpec (pyNestaM fw1 fw2 junkU mrow mcol n av ah mode BP_SYNTHESIS idx b opts) s q s' := by
      refine C.front hle hm (.inr rfl) (a1.bind (a2.bind (b1.bind ((mex_setup C d1).bind ?_))))
      show CSpec (if decide (BP_SYNTHESIS = BP_ANALYSIS) = true then _ else _) _ _ _
      rw [if_neg (by decide), mode_eq]
      exact f1
    rcases f3 with ⟨g1, -⟩ | ⟨-, z, rfl, g2, g3⟩
    · rw [M.calls, ho 8 (by omega)] at g1
      cases g1
    · exact ⟨z, s', run, f2, g2, g3⟩
  · exact absurd (fun i hi => by rw [c, E.orc, Nat.add_assoc]; exact ho (2 + i) (by omega)) d2

end nesta

section exact
variable {lib : FftwLib Dbl} {fw1 : ℕ → FftwM Dbl} {fw2 : ℕ → ℕ → FftwM Dbl} {mrow mcol n q : ℕ} {mode : Int} {ix : Fin n → Fin (mrow * mcol)} {av ah sigma mu : ℝ}
  {b : Ptr} {tol : Dbl} {N : Int} {br : Fin n → ℝ} {s : PState Dbl} {junkU : ℕ → Dbl}

/-- In exact arithmetic, with samples at distinct pixels, not all zero, documented weights and sizes, `sigma` and `mu` positive and all requests granted: whatever fresh
memory contains and for every schedule, analysis mode returns success and a new array with an image that fits the samples within `sigma`; no image that fits costs less
by more than `anaGap`.  The caller's memory is as before.  Missing from the full claim: besides the array six blocks stay allocated. -/
theorem C103_nesta_near_best_partial (hlib : LibOk lib) (hinj : Function.Injective ix)
    (C : TvPyCall lib fw1 fw2 mrow mcol n (.fin av) (.fin ah) (posList ix) b (fvec br) s) (hm : mode = DCT1 ∨ mode = DCT2) (hsig : 0 < sigma) (hmu : 0 < mu) (hb0 : br ≠ 0)
    (hN1 : 1 ≤ N) (hN : N < INT_MAX) (hq : q = 1 ∨ (q = 10000 ∧ ∃ t ≤ 0, tol = Dbl.fin t)) (hal : ∀ i, s.oracle i = true) :
    ∃ (z : Ptr) (y : Fin (mrow * mcol) → ℝ) (s' : PState Dbl),
      CSpec (pyNestaM fw1 fw2 junkU mrow mcol n (.fin av) (.fin ah) mode BP_ANALYSIS (posList ix) b ⟨.fin sigma, .fin mu, tol, N⟩) s (.ret z L1C_SUCCESS) s' ∧
      CallerKept s s' ∧ NewArray s s' z (fvec y) ∧ NewBlocks s s' 7 ∧
      NearlyBest (twoDim mrow mcol mode) av ah ix br sigma (anaGap q (mrow * mcol) av ah mu (anaCost (twoDim mrow mcol mode) av ah (onBlack ix br)) √(∑ i, br i ^ 2) N.toNat) y := by
  obtain ⟨h, hI⟩ := validIdx C.valid.1 C.len
  have T := tvReal_of_valid (syn := false) (two := twoDim mrow mcol mode) C.valid
  have hset : TvSetR (tvCfgOf lib (twoDim mrow mcol mode) ix av ah h) (idxFun n (posList ix)) av ah :=
    ⟨tvCfgOf_set hlib ix h, rfl, rfl, T.av0, T.ah0, T.dims⟩
  obtain ⟨ix', Q, ok, hQ⟩ := funT_ok (t := ⟨mrow, mcol, n, posList ix, .fin av, .fin ah, false, twoDim mrow mcol mode⟩) hlib h hI
  have e : ix' = ix := funext fun i => Fin.ext (by
    have := (ok.hix i).trans (posList_at ix i)
    exact_mod_cast this)
  rw [e] at ok
  obtain ⟨y, out, ns, g1, g2, g3, g4⟩ := tvAna_near hset ok (Nat.mul_pos h.1 h.2) hQ hinj (s := (⟨∅, 0, s.calls + 8, s.oracle, ⟨DctBuf.fresh, fun i => junkU i⟩⟩ : NState _))
    (b := br) (sigma := sigma) (mu := mu) (tol := tol) (N := N) (fun k hk => by cases hk) (bufInv_fresh _) (fun _ => lit 0) hN (fun i _ => hal _) hsig hN1 hmu hb0 hq
  have hle : n ≤ mrow * mcol := by simpa using Fintype.card_le_of_injective ix hinj
  obtain ⟨r, s', c1, c2, ⟨⟨i, c3⟩, -⟩ | ⟨z, rfl, c3, c4⟩⟩ := C103_nesta (junkU := junkU) (mode := mode) C hle hm h (fun i _ => hal _) g1
  · rw [hal] at c3
    cases c3
  · rw [g2] at c1
    rw [g3] at c3
    exact ⟨z, y, s', c1, c2, c3, c4, g4⟩

end exact

/-! ## Examples -/

/-- the same data as in `exImage_call`: two samples, at pixels 5 and 1 of a 2 by 3 image; fresh memory is always available -/
theorem exPyImage_call : PyImageCall refLib exF1 exF2 2 3 2 [5, 1] DCT2 ⟨0, 0⟩ (fvec ![7, 8]) exImageRam :=
  ⟨exImage_call.wf, exImage_call.f1, exImage_call.f2, exImage_call.valid, exImage_call.len, by norm_num, .inr rfl, exImage_call.fits, exImage_call.hb, exImage_call.blive⟩

/-- the call returns an array of six numbers with 7 and 8, within 1, at positions 5 and 1; the guard value stays -/
example : ∃ z res s', CSpec (pyL1qcM exF1 exF2 2 3 2 ⟨0, 0⟩ [5, 1] DCT2 exOpts) exImageRam (.ret z (some res)) s' ∧ s'.mem.val ⟨1, 0⟩ = .fin 5 ∧ s'.mem.val ⟨0, 0⟩ = .fin 7 ∧
    ∃ image : Fin 6 → ℝ, NewArray exImageRam s' z (fvec image) ∧ √((image 5 - 7) ^ 2 + (image 1 - 8) ^ 2) ≤ 1 := by
  obtain ⟨z, res, s', h1, -, h3, -, image, h6, ix, h7, h8⟩ := C103_l1qc_recovers (opts := exOpts) refLib_ok exPyImage_call (by simp) (fun hc => by simpa using congrFun hc 0) rfl zero_le_one
    (by unfold INT_MAX; omega) (by show ¬ (3 : Int) = 0; decide)
    ⟨by show (0 : Int) ≤ 200; decide, by show (200 : Int) < INT_MAX; decide, by show ((3 : Int).toNat : Int) < INT_MAX; decide,
      by show (3 : Int).toNat * (((50 : Int) - 1).toNat * (200 : Int)) ≤ INT_MAX; decide,
      by show (3 : Int).toNat * ((((50 : Int) - 1).toNat : Int) + 1) ≤ INT_MAX; decide⟩ (fun _ => rfl)
  have e0 : ix 0 = 5 := Fin.ext (by have := h7 0; simp [idxFun] at this; show ((ix 0 : Fin 6) : ℕ) = 5; omega)
  have e1 : ix 1 = 1 := Fin.ext (by have := h7 1; simp [idxFun] at this; show ((ix 1 : Fin 6) : ℕ) = 1; omega)
  refine ⟨z, res, s', h1, ?_, ?_, image, h6, ?_⟩
  · rw [h3.2 ⟨1, 0⟩ rfl]
    simp [exImageRam, Ptr.ext_iff]
  · rw [h3.2 ⟨0, 0⟩ rfl]
    simp [exImageRam]
  · rw [Fin.sum_univ_two, e0, e1] at h8
    simpa using h8

/-- NESTA on two samples of a 3 by 3 image with both weights 1: an image with the samples within 1/2, and six blocks too many -/
example : ∃ (z : Ptr) (y : Fin (3 * 3) → ℝ) (s' : PState Dbl), CSpec (pyNestaM exF1 exF2 (fun _ => .nan) ((3 : ℕ) : Int) ((3 : ℕ) : Int) ((2 : ℕ) : Int) (.fin 1) (.fin 1) DCT2 BP_ANALYSIS
      (posList (mrow := 3) (mcol := 3) ![4, 0]) ⟨0, 0⟩ ⟨.fin (1 / 2), .fin (1 / 100), .fin 0, 3⟩) (exMexRam fun _ => true) (.ret z L1C_SUCCESS) s' ∧
    NewArray (exMexRam fun _ => true) s' z (fvec y) ∧ NewBlocks (exMexRam fun _ => true) s' 7 := by
  obtain ⟨z, y, s', h1, -, h2, h3, -⟩ := C103_nesta_near_best_partial (junkU := fun _ => .nan) (q := 10000) (mode := DCT2) (tol := .fin 0) (N := 3) (sigma := 1 / 2) (mu := 1 / 100) refLib_ok
    (by intro i j; fin_cases i <;> fin_cases j <;> simp) (exMex_call fun _ => true).toTvPyCall (.inr rfl) (by norm_num) (by norm_num) (fun hc => by simpa using congrFun hc 0) (by norm_num)
    (by unfold INT_MAX; norm_num) (.inr ⟨rfl, 0, le_rfl, rfl⟩) fun _ => rfl
  exact ⟨z, y, s', h1, h2, h3⟩

/-- the same in synthesis mode: a black image -/
example : ∃ z s', CSpec (pyNestaM exF1 exF2 (fun _ => .nan) ((3 : ℕ) : Int) ((3 : ℕ) : Int) ((2 : ℕ) : Int) (.fin 1) (.fin 1) DCT2 BP_SYNTHESIS
      (posList (mrow := 3) (mcol := 3) ![4, 0]) ⟨0, 0⟩ ⟨.fin (1 / 2), .fin (1 / 100), .fin 0, 3⟩) (exMexRam fun _ => true) (.ret z L1C_INVALID_ARGUMENT) s' ∧
    NewArray (exMexRam fun _ => true) s' z (fun _ : Fin (3 * 3) => lit 0) := by
  obtain ⟨z, s', h1, -, h2, -⟩ := C103_nesta_synthesis_false (junkU := fun _ => .nan) (mode := DCT2) (opts := ⟨.fin (1 / 2), .fin (1 / 100), .fin 0, 3⟩) (exMex_call fun _ => true).toTvPyCall (by norm_num) (.inr rfl)
    (.inl exTvm_job) fun _ _ => rfl
  exact ⟨z, s', h1, h2⟩

end L1c
