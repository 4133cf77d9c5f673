import Verif.Props.Align
import Verif.Model.MexMem
import Verif.Model.BregBindings

/-!
# C106, continued: image recovery from Python and Matlab

The bindings let the library write into arrays of its own and copy the image afterwards, so the caller's arrays may lie anywhere.
-/

namespace L1c
open Cmd

variable {F : Type} [Scalar F] {base : ℕ → ℕ} {s s' : PState F}

omit [Scalar F] in
theorem keeps_copyOut (N : ℕ) (x : Ptr) : (simpleDoubleCopyM (F := F) N x).KeepsAlign base fun _ => True := by
  refine Cmd.KeepsAlign.calloc fun r _ => ?_
  cases r with
  | none => trivial
  | some z => exact Cmd.KeepsAlign.exec (by simp) trivial

omit [Scalar F] in
theorem keeps_malloc (N : ℕ) (junk : ℕ → F) : (mallocC N junk).KeepsAlign base fun r => ∀ p, r = some p → p.Aligned base := by
  refine Cmd.KeepsAlign.calloc fun r hr => ?_
  cases r with
  | none => exact fun p hp => by cases hp
  | some z => exact Cmd.KeepsAlign.exec (by simp) fun p hp => by cases hp; exact hr z rfl

theorem keeps_mexIndices (mtot : Int) (pix : Ptr) (k i : ℕ) : (mexIndicesM (F := F) mtot pix k i).KeepsAlign base fun _ => True := by
  induction k generalizing i with
  | zero => trivial
  | succ k ih =>
    refine Cmd.KeepsAlign.eval fun v => ?_
    split
    · exact Cmd.KeepsAlign.need trivial
    · refine Cmd.KeepsAlign.need ?_
      split
      · trivial
      · exact Cmd.KeepsAlign.bind (ih _) fun _ _ => trivial

variable {fw1 : ℕ → FftwM F} {fw2 : ℕ → ℕ → FftwM F}

/-- Image recovery from Python, for all arguments and all places of the NumPy arrays: if new blocks are aligned and FFTW is content with aligned arrays, every promise
is kept.  (That the block of the returned array is among the aligned ones is more than is needed.) -/
theorem C106_python (h1 : ∀ m, FftwAl base (Ptr.Aligned base) (fw1 m)) (h2 : ∀ r c, FftwAl base (Ptr.Aligned base) (fw2 r c)) (mrow mcol n : Int) (b : Ptr) (idx : List Int)
    (mode : Int) (opts : QOpts F) (hs : FreshAligned base s) : ¬ CMis base (pyL1qcM fw1 fw2 mrow mcol n b idx mode opts) s := by
  refine Cmd.KeepsAlign.safe (Q := fun _ => True) ?_ hs
  unfold pyL1qcM
  split
  · trivial
  refine Cmd.KeepsAlign.need ?_
  split
  · trivial
  refine Cmd.KeepsAlign.calloc fun r hr => ?_
  cases r with
  | none => trivial
  | some x =>
    refine Cmd.KeepsAlign.bind (keeps_l1qc_dct h1 h2 _ _ _ _ _ _ _ (hr x rfl)) fun r _ => ?_
    unfold pyL1qcEndM
    split
    · exact Cmd.KeepsAlign.bind (keeps_frees _) fun _ _ => trivial
    · refine Cmd.KeepsAlign.bind (keeps_copyOut _ _) fun z _ => Cmd.KeepsAlign.bind (keeps_frees _) fun _ _ => ?_
      cases z <;> trivial

/-- the same from Matlab -/
theorem C106_matlab (h1 : ∀ m, FftwAl base (Ptr.Aligned base) (fw1 m)) (h2 : ∀ r c, FftwAl base (Ptr.Aligned base) (fw2 r c)) (junk : ℕ → F) (mrow mcol n npix : Int) (b pix : Ptr)
    (opts : QOpts F) (hs : FreshAligned base s) : ¬ CMis base (mexL1qcM fw1 fw2 junk mrow mcol n npix b pix opts) s := by
  refine Cmd.KeepsAlign.safe (Q := fun _ => True) ?_ hs
  unfold mexL1qcM
  refine Cmd.KeepsAlign.need ?_
  split
  · trivial
  refine Cmd.KeepsAlign.bind (keeps_malloc _ _) fun x hx => Cmd.KeepsAlign.calloc fun p hp => ?_
  have out : (do freesC [p, x]; pure (.exc "l1c:l1qc_dct:outofmemory") : Cmd F (PyRes (LBResult F))).KeepsAlign base fun _ => True :=
    Cmd.KeepsAlign.bind (keeps_frees _) fun _ _ => trivial
  cases x with
  | none => exact out
  | some x =>
    cases p with
    | none => exact out
    | some p =>
      refine Cmd.KeepsAlign.bind (keeps_mexIndices _ _ _ _) fun i _ => ?_
      cases i with
      | none => exact Cmd.KeepsAlign.bind (keeps_frees _) fun _ _ => trivial
      | some i =>
        refine Cmd.KeepsAlign.bind (keeps_l1qc_dct h1 h2 _ _ _ _ _ _ _ (hx x rfl)) fun r _ => ?_
        unfold mexL1qcEndM
        refine Cmd.KeepsAlign.bind (keeps_copyOut _ _) fun z _ => ?_
        cases z with
        | none => trivial
        | some z => exact Cmd.KeepsAlign.bind (keeps_frees _) fun _ _ => trivial

omit [Scalar F] in
theorem keeps_readBuf (p : Ptr) (N : ℕ) : (readBuf (F := F) p N).KeepsAlign base fun _ => True := by
  induction N with
  | zero => trivial
  | succ N ih => exact Cmd.KeepsAlign.bind ih fun _ _ => Cmd.KeepsAlign.eval fun _ => trivial

/-- TV denoising from Matlab keeps every promise, for every image anywhere in memory and all arguments, also those that are refused. -/
theorem C106_matlab_tv (nlhs : ℕ) (img : MxHdr) (f : Ptr) (prhs : List (MxVal F)) (hs : FreshAligned base s) : ¬ CMis base (breg_mex nlhs img f prhs) s := by
  refine Cmd.KeepsAlign.safe (Q := fun _ => True) ?_ hs
  unfold breg_mex
  split
  · exact Cmd.KeepsAlign.need trivial
  · trivial
  unfold breg_mex_main
  generalize toCInt img.N = M, toCInt img.M = N
  refine Cmd.KeepsAlign.need (Cmd.KeepsAlign.calloc fun x _ => Cmd.KeepsAlign.calloc fun u hu => ?_)
  split
  · refine Cmd.KeepsAlign.exec (by simp) (Cmd.KeepsAlign.bind (keeps_breg _ _ _ _ _ _ (hu _ rfl)) fun st _ => ?_)
    split
    · exact Cmd.KeepsAlign.free (Cmd.KeepsAlign.free trivial)
    · exact Cmd.KeepsAlign.bind (keeps_readBuf _ _) fun _ _ => Cmd.KeepsAlign.free (Cmd.KeepsAlign.free trivial)
  · trivial

/-- The same from Python. -/
theorem C106_python_tv (ndim dim0 dim1 : ℕ) (f : Ptr) (mu tol : F) (max_iter jac : Int) (copied : Bool) (hs : FreshAligned base s) :
    ¬ CMis base (py_breg ndim dim0 dim1 f mu tol max_iter jac copied) s := by
  refine Cmd.KeepsAlign.safe (Q := fun _ => True) ?_ hs
  unfold py_breg
  split
  · trivial
  generalize toCInt dim0 = n, toCInt dim1 = m
  dsimp only
  split
  · trivial
  refine Cmd.KeepsAlign.need (Cmd.KeepsAlign.calloc fun x _ => Cmd.KeepsAlign.calloc fun u hu => ?_)
  split
  · refine Cmd.KeepsAlign.exec (by simp) (Cmd.KeepsAlign.bind (keeps_breg _ _ _ _ _ _ (hu _ rfl)) fun st _ => ?_)
    split
    · exact Cmd.KeepsAlign.free (Cmd.KeepsAlign.free trivial)
    split
    · exact Cmd.KeepsAlign.free (Cmd.KeepsAlign.free trivial)
    · exact Cmd.KeepsAlign.bind (keeps_readBuf _ _) fun _ _ => Cmd.KeepsAlign.free (Cmd.KeepsAlign.free trivial)
  · trivial

/-- NESTA from Python inherits the broken promise: whenever the library's call in it succeeds with a continuation step, there is a block of the library's own
such that the binding's call breaks a promise if that block is not at a multiple of 64, wherever all other blocks are. -/
theorem C106_python_nesta_false {ax : NAxM F} {mtot n : ℕ} {x b : Ptr} {opts : NestaOpts F} (hc : 1 ≤ opts.n_continue)
    (h : CSpec (l1c_nestaM mtot x n b ax opts) s L1C_SUCCESS s') :
    ∃ w, s.next + 10 ≤ w ∧ ∀ base : ℕ → ℕ, ¬ DALIGN ∣ base w → CMis base (pyNestaUseM ax mtot n x b opts) s := by
  obtain ⟨w, h1, h2⟩ := C106_nesta_window_false hc h
  exact ⟨w, h1, fun base hb => (h2 base hb).bind_left⟩

omit [Scalar F] in
theorem keeps_dctSetup (two : Bool) (m : ℕ) : (dctSetupM (F := F) two m).KeepsAlign base fun r => ∀ o, r.2 = some o → BufAl base o.buf := by
  unfold dctSetupM
  refine Cmd.KeepsAlign.bind (keeps_callocs _) fun l hl => ?_
  split
  · refine Cmd.KeepsAlign.bind (keeps_callocs _) fun l' _ => ?_
    split
    · refine Cmd.KeepsAlign.pure fun o ho => ?_
      cases ho
      exact ⟨hl _ (by simp), hl _ (by simp), hl _ (by simp)⟩
    · split
      · exact fun o ho => by cases ho
      · exact Cmd.KeepsAlign.bind (keeps_frees _) fun _ _ => fun o ho => by cases ho
  · split
    · exact fun o ho => by cases ho
    · exact Cmd.KeepsAlign.bind (keeps_frees _) fun _ _ => fun o ho => by cases ho

theorem keeps_tvSetup (junk : ℕ → F) (n mrow mcol : Int) (alp_v alp_h : F) (mode : Int) (idx : List Int) :
    (tvSetupM junk n mrow mcol alp_v alp_h mode idx).KeepsAlign base fun r => ∀ o, r.2 = some o → o.u.Aligned base ∧ BufAl base o.dct.buf := by
  unfold tvSetupM
  refine Cmd.KeepsAlign.need ?_
  split
  · exact fun o ho => by cases ho
  refine Cmd.KeepsAlign.need ?_
  unfold tvAllocM
  refine Cmd.KeepsAlign.bind (keeps_malloc _ _) fun u hu => ?_
  cases u with
  | none => exact fun o ho => by cases ho
  | some u =>
    refine Cmd.KeepsAlign.bind (keeps_dctSetup _ _) fun r hr => ?_
    split
    · rename_i o ho
      exact fun o' e => by cases e; exact ⟨hu u rfl, hr o ho⟩
    · exact Cmd.KeepsAlign.bind (keeps_frees _) fun _ _ => fun o ho => by cases ho

/-- the operators of the set that the bindings make -/
theorem keeps_tvVar (h1 : ∀ m, FftwAl base (Ptr.Aligned base) (fw1 m)) (h2 : ∀ r c, FftwAl base (Ptr.Aligned base) (fw2 r c)) (mrow mcol n : ℕ) (alp_v alp_h : F) (two : Bool)
    (idx : List Int) {o : TvObj} (ho : o.u.Aligned base ∧ BufAl base o.dct.buf) :
    NAxAl base (tvAnaM n (tvVarOf fw1 fw2 mrow mcol n alp_v alp_h two idx o)) ∧ NAxAl base (tvSynM n (tvVarOf fw1 fw2 mrow mcol n alp_v alp_h two idx o)) ∧
      ∀ x y, x.Aligned base → (tvWvM (tvVarOf fw1 fw2 mrow mcol n alp_v alp_h two idx o) x y).KeepsAlign base fun _ => True := by
  have hc : DctAl base (Ptr.Aligned base) (tvVarOf fw1 fw2 mrow mcol n alp_v alp_h two idx o).loc := by
    unfold tvVarOf imageFunsM
    dsimp only
    split
    · exact keeps_dct2 (h2 _ _) ho.2 _ _
    · exact keeps_dct1 (h1 _) ho.2 _
  obtain ⟨a1, a2⟩ := nax_tv (c := tvVarOf fw1 fw2 mrow mcol n alp_v alp_h two idx o) (fun _ h => h) hc ho.1 n
  refine ⟨a1, a2, fun x y hx => ?_⟩
  unfold tvWvM
  have t1 := keeps_term (base := base) (c := tvVarOf fw1 fw2 mrow mcol n alp_v alp_h two idx o) l1c_Dy (fun _ _ _ _ _ => kal_Dy) alp_v (incV (mrow * mcol) alp_v) x y
  have t2 := keeps_term (base := base) (c := tvVarOf fw1 fw2 mrow mcol n alp_v alp_h two idx o) l1c_Dx (fun _ _ _ _ _ => kal_Dx) alp_h (incH (mrow * mcol) alp_v alp_h) x y
  refine Cmd.KeepsAlign.bind (hc.Mx _ _ hx ho.1) fun _ _ => Cmd.KeepsAlign.exec (by simp) ?_
  change Cmd.KeepsAlign base (fun _ => True) (do
    if job alp_v then tvTermM _ l1c_Dy alp_v (incV (mrow * mcol) alp_v) x y
    if job alp_h then tvTermM _ l1c_Dx alp_h (incH (mrow * mcol) alp_v alp_h) x y : Cmd F Unit)
  cases job alp_v <;> cases job alp_h
  · trivial
  · exact t2
  · exact Cmd.KeepsAlign.bind t1 fun _ _ => trivial
  · exact Cmd.KeepsAlign.bind t1 fun _ _ => t2

/-- What remains true of NESTA from Matlab, for all arguments: with every new block aligned, also the one from plain `malloc` (this is what is missing), every promise is kept.
The samples and the array that Matlab returns may be anywhere, in both modes. -/
theorem C106_matlab_nesta_partial (h1 : ∀ m, FftwAl base (Ptr.Aligned base) (fw1 m)) (h2 : ∀ r c, FftwAl base (Ptr.Aligned base) (fw2 r c)) (junkU junkX : ℕ → F)
    (mrow mcol n : Int) (alp_v alp_h : F) (mode : Int) (analysis : Bool) (idx : List Int) (b z : Ptr) (opts : NestaOpts F) (hs : FreshAligned base s) :
    ¬ CMis base (nestaMexM fw1 fw2 junkU junkX mrow mcol n alp_v alp_h mode analysis idx b z opts) s := by
  refine Cmd.KeepsAlign.safe (Q := fun _ => True) ?_ hs
  have use : ∀ (ax : NAxM F) (Mx : Ptr → Ptr → Cmd F Unit) (o : TvObj) (mt nn : ℕ), NAxAl base ax → (∀ x, x.Aligned base → (Mx x z).KeepsAlign base fun _ => True) →
      (nestaMexUseM ax Mx o junkX mt nn b z opts).KeepsAlign base fun _ => True := fun ax Mx o mt nn ha hM => by
    unfold nestaMexUseM
    refine Cmd.KeepsAlign.bind (keeps_malloc _ _) fun x hx => Cmd.KeepsAlign.calloc fun b' hb => ?_
    split
    · refine Cmd.KeepsAlign.exec (by simp) (Cmd.KeepsAlign.bind (keeps_nesta _ _ ha (hb _ rfl)) fun st _ => Cmd.KeepsAlign.bind (hM _ (hx _ rfl)) fun _ _ => ?_)
      exact Cmd.KeepsAlign.bind (keeps_frees _) fun _ _ => Cmd.KeepsAlign.bind (keeps_frees _) fun _ _ => trivial
    · exact Cmd.KeepsAlign.bind (keeps_frees _) fun _ _ => trivial
  unfold nestaMexM
  refine Cmd.KeepsAlign.bind (keeps_tvSetup _ _ _ _ _ _ _ _) fun r hr => ?_
  split
  · trivial
  rename_i o ho
  obtain ⟨k1, k2, k3⟩ := keeps_tvVar h1 h2 mrow.toNat mcol.toNat n.toNat alp_v alp_h (decide (¬ (mcol = 1 ∨ mrow = 1 ∨ mode = DCT1))) idx (hr o ho)
  dsimp only
  split
  · exact use _ _ _ _ _ k1 fun _ _ => keeps_identity ..
  · exact use _ _ _ _ _ k2 fun x hx => k3 x z hx

/-- the same from Python -/
theorem C106_python_nesta_partial (h1 : ∀ m, FftwAl base (Ptr.Aligned base) (fw1 m)) (h2 : ∀ r c, FftwAl base (Ptr.Aligned base) (fw2 r c)) (junkU : ℕ → F)
    (mrow mcol n : Int) (alp_v alp_h : F) (mode bp : Int) (idx : List Int) (b : Ptr) (opts : NestaOpts F) (hs : FreshAligned base s) :
    ¬ CMis base (pyNestaM fw1 fw2 junkU mrow mcol n alp_v alp_h mode bp idx b opts) s := by
  refine Cmd.KeepsAlign.safe (Q := fun _ => True) ?_ hs
  unfold pyNestaM
  split
  · trivial
  split
  · trivial
  refine Cmd.KeepsAlign.need ?_
  split
  · trivial
  have out : ∀ x b' : Option Ptr, (do freesC [x, b']; pure (.exc "MemoryError") : Cmd F (PyRes Int)).KeepsAlign base fun _ => True := fun x b' =>
    Cmd.KeepsAlign.bind (keeps_frees _) fun _ _ => trivial
  refine Cmd.KeepsAlign.calloc fun x _ => Cmd.KeepsAlign.calloc fun b' hb => ?_
  rcases x with _ | x
  · exact out _ _
  rcases b' with _ | b'
  · exact out _ _
  have use : ∀ (ax : NAxM F) (mt nn : ℕ), NAxAl base ax → (pyNestaUseM ax mt nn x b' opts).KeepsAlign base fun _ => True := fun ax mt nn ha => by
    unfold pyNestaUseM
    refine Cmd.KeepsAlign.bind (keeps_nesta _ _ ha (hb _ rfl)) fun st _ => Cmd.KeepsAlign.bind (keeps_copyOut _ _) fun z _ => ?_
    split
    · exact Cmd.KeepsAlign.bind (keeps_frees _) fun _ _ => trivial
    · exact Cmd.KeepsAlign.bind (keeps_frees _) fun _ _ => trivial
  refine Cmd.KeepsAlign.exec (by simp) ?_
  unfold pyNestaSetM
  refine Cmd.KeepsAlign.bind (keeps_tvSetup _ _ _ _ _ _ _ _) fun r hr => ?_
  split
  · exact Cmd.KeepsAlign.bind (keeps_frees _) fun _ _ => trivial
  rename_i o ho
  obtain ⟨k1, k2, -⟩ := keeps_tvVar h1 h2 mrow.toNat mcol.toNat n.toNat alp_v alp_h (decide (¬ (mcol = 1 ∨ mrow = 1 ∨ mode = DCT1))) idx (hr o ho)
  dsimp only
  split
  · exact use _ _ _ k1
  · exact use _ _ _ k2

/-! ## The hypotheses can be met -/

/-- a Python and a Matlab call with an FFTW that wants aligned arrays; the caller's samples are 8 bytes off -/
example : ¬ CMis (fun b => 64 * b) (pyL1qcM (fun m => strictFftw m (refLib.f1 m)) (fun r c => strictFftw (r * c) (refLib.f2 r c)) 2 3 2 ⟨0, 1⟩ [5, 1] DCT2 exOpts) exImageRam ∧
    ¬ CMis (fun b => 64 * b) (mexL1qcM (fun m => strictFftw m (refLib.f1 m)) (fun r c => strictFftw (r * c) (refLib.f2 r c)) (fun _ => Dbl.nan) 2 3 2 2 ⟨0, 1⟩ ⟨0, 1⟩ exOpts) exImageRam :=
  ⟨C106_python (fun _ => strict_al ..) (fun _ _ => strict_al ..) _ _ _ _ _ _ _ fresh64, C106_matlab (fun _ => strict_al ..) (fun _ _ => strict_al ..) _ _ _ _ _ _ _ _ fresh64⟩

/-- NESTA from both, with all arrays of the caller 8 bytes off -/
example : ¬ CMis (fun b => 64 * b) (pyNestaM (fun m => strictFftw m (refLib.f1 m)) (fun r c => strictFftw (r * c) (refLib.f2 r c)) (fun _ => Dbl.nan) 2 3 2 (Dbl.fin 1) (Dbl.fin 1) DCT2
      BP_ANALYSIS [5, 1] ⟨0, 1⟩ ⟨Dbl.fin (1 / 4), Dbl.fin (1 / 100), Dbl.fin (1 / 10), 3⟩) exImageRam ∧
    ¬ CMis (fun b => 64 * b) (nestaMexM (fun m => strictFftw m (refLib.f1 m)) (fun r c => strictFftw (r * c) (refLib.f2 r c)) (fun _ => Dbl.nan) (fun _ => Dbl.nan) 2 3 2 (Dbl.fin 1)
      (Dbl.fin 1) DCT2 false [5, 1] ⟨0, 1⟩ ⟨0, 1⟩ ⟨Dbl.fin (1 / 4), Dbl.fin (1 / 100), Dbl.fin (1 / 10), 3⟩) exImageRam :=
  ⟨C106_python_nesta_partial (fun _ => strict_al ..) (fun _ _ => strict_al ..) _ _ _ _ _ _ _ _ _ _ _ fresh64,
    C106_matlab_nesta_partial (fun _ => strict_al ..) (fun _ _ => strict_al ..) _ _ _ _ _ _ _ _ _ _ _ _ _ fresh64⟩

/-- TV denoising of a 3 by 3 image in an array that is 8 bytes off -/
example : ¬ CMis (fun b => 64 * b) (py_breg 2 3 3 ⟨0, 1⟩ (Dbl.fin 1) (Dbl.fin (1 / 10)) 3 1 true) exImageRam ∧ ¬ (⟨0, 1⟩ : Ptr).Aligned fun b => 64 * b := by
  refine ⟨C106_python_tv _ _ _ _ _ _ _ _ _ fresh64, ?_⟩
  unfold Ptr.Aligned DALIGN
  norm_num

/-- a NESTA call to which the negative theorem applies -/
example : ∃ w, 13 ≤ w ∧ CMis (fun b => if b = w then 64 * b + 16 else 64 * b)
    (pyNestaUseM exNestM 2 1 ⟨0, 0⟩ ⟨1, 0⟩ ⟨Dbl.fin (1 / 4), Dbl.fin (1 / 100), Dbl.fin (1 / 10), 3⟩) (exRam fun _ => true) := by
  obtain ⟨x', s', c1, -⟩ := C95_feasible (opts := ⟨Dbl.fin (1 / 4), Dbl.fin (1 / 100), Dbl.fin (1 / 10), 3⟩) (exNest_call fun _ => true) exNest_realises
    (by ext i j; fin_cases i; fin_cases j; simp [Matrix.mul_apply]) rfl (by norm_num) rfl (by norm_num) rfl one_ne_zero
    ⟨(0 : Fin 2), Or.inl ⟨by decide, by simp [Matrix.mulVec, dotProduct]⟩⟩ (by decide) (by decide) trivial (fun _ _ => rfl)
  obtain ⟨w, h1, h2⟩ := C106_python_nesta_false (mtot := 2) (n := 1) (by decide) c1
  refine ⟨w, h1, h2 _ ?_⟩
  rw [if_pos rfl]
  unfold DALIGN
  omega

end L1c
