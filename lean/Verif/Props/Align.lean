import Verif.Proofs.Align
import Verif.Props.TvSym
import Verif.Props.NestaRam
import Verif.Props.L1qcDctRam

/-!
# C106: promises of alignment

Many loops of the library begin with `__builtin_assume_aligned(p, DALIGN)`: the address is a multiple of 64, or the behaviour is undefined.  The arrays from
`l1c_malloc_double` are; the caller's arrays and blocks from plain `malloc` need not be.  Here each public routine either keeps all its promises, for every
memory, every schedule and every answer of the allocator, or cannot succeed without breaking one.

`base b` is the address of block `b` in bytes.
-/

namespace L1c
open Prog Scalar Cmd

variable {F : Type} [Scalar F] {base : ℕ → ℕ} {s s' : PState F}

/-! ## TV denoising -/

/-- If the output array is aligned, TV denoising keeps every promise, whatever the sizes, the image (anywhere in memory) and the parameters. -/
theorem C106_tv (n m : Int) {uk : Ptr} (f : Ptr) (mu tol : F) (max_iter jac : Int) (hu : uk.Aligned base) (hs : FreshAligned base s) :
    ¬ CMis base (l1c_breg_anistropic_TV n m uk f mu tol max_iter jac) s := (keeps_breg n m mu tol max_iter jac hu).safe hs

/-- If it is not, every call with at least one iteration that returns 0 has broken one (the bindings for Python and Matlab copy into arrays of the library, src/l1c_memory.c:10-36; a C caller need not). -/
theorem C106_tv_unaligned_false {n m : Int} {uk f : Ptr} {mu tol : F} {max_iter jac i : Int} (hu : ¬ uk.Aligned base) (hi : 1 ≤ max_iter)
    (h : CSpec (l1c_breg_anistropic_TV n m uk f mu tol max_iter jac) s (0, i) s') : CMis base (l1c_breg_anistropic_TV n m uk f mu tol max_iter jac) s :=
  (must_breg n m mu tol jac hu hi).mis h (by simp)

/-! ## l1qc -/

/-- The solver keeps every promise if the start array is aligned and the operators keep theirs on aligned arrays; the data may be anywhere. -/
theorem C106_l1qc_newton (n m : ℕ) {ax : QAxM F} {x : Ptr} (b : Ptr) (prm : QOpts F) (ha : QAxAl base ax) (hx : x.Aligned base) (hs : FreshAligned base s) :
    ¬ CMis base (l1c_l1qc_newtonM n m ax x b prm) s := (keeps_newton n m b prm ha hx).safe hs

/-- With an unaligned start array and a given number of barrier steps a call with status 0 has broken a promise, whatever the operators do. -/
theorem C106_l1qc_start_unaligned_false {n m : ℕ} {ax : QAxM F} {x b : Ptr} {prm : QOpts F} (hx : ¬ x.Aligned base) (hl : 1 ≤ prm.lbiter) {r : LBResult F} (hr : r.status = 0)
    (h : CSpec (l1c_l1qc_newtonM n m ax x b prm) s r s') : CMis base (l1c_l1qc_newtonM n m ax x b prm) s :=
  (must_newton n m ax b prm hx hl).mis h (by simp [hr])

/-- Image recovery copies the samples, so their place does not matter.  The image is written by FFTW straight into the caller's array: `P` says which arrays FFTW accepts
as output.  If the array is one of them, every promise is kept, for all sizes, sample positions, modes and options. -/
theorem C106_image_recovery {P : Ptr → Prop} {fw1 : ℕ → FftwM F} {fw2 : ℕ → ℕ → FftwM F} (h1 : ∀ m, FftwAl base P (fw1 m)) (h2 : ∀ r c, FftwAl base P (fw2 r c))
    (mrow mcol : Int) {x_out : Ptr} (n : Int) (b : Ptr) (idx : List Int) (mode : Int) (opts : QOpts F) (hx : P x_out) (hs : FreshAligned base s) :
    ¬ CMis base (l1qc_dctM fw1 fw2 mrow mcol x_out n b idx mode opts) s := (keeps_l1qc_dct h1 h2 mrow mcol n b idx mode opts hx).safe hs

/-- If FFTW cannot accept an output outside `P` (its plans are made for the library's own aligned arrays, without `FFTW_UNALIGNED`), a successful call with such an array has
broken a promise: the routine does not copy the image. -/
theorem C106_image_output_false {P : Ptr → Prop} {fw1 : ℕ → FftwM F} {fw2 : ℕ → ℕ → FftwM F} (h1 : ∀ m x y, ¬ P y → ((fw1 m).inv x y).MustMis base fun _ => False)
    (h2 : ∀ r c x y, ¬ P y → ((fw2 r c).inv x y).MustMis base fun _ => False) {mrow mcol : Int} {x_out : Ptr} {n : Int} {b : Ptr} {idx : List Int} {mode : Int}
    {opts : QOpts F} (hx : ¬ P x_out) {res : Option (LBResult F)} (h : CSpec (l1qc_dctM fw1 fw2 mrow mcol x_out n b idx mode opts) s (0, res) s') :
    CMis base (l1qc_dctM fw1 fw2 mrow mcol x_out n b idx mode opts) s := (must_l1qc_dct h1 h2 mrow mcol n b idx mode opts hx).mis h (by simp)

/-! ## NESTA -/

/-- NESTA takes its window of recent objective values from plain `malloc` and promises that it is aligned.  Every successful call with a continuation step has a block of its
own, after the ten that it gets from the library's allocator, such that the call breaks a promise whenever that block is not at a multiple of 64, however all others are
placed and whatever the operators do. -/
theorem C106_nesta_window_false {m n : Int} {xk b : Ptr} {ax : NAxM F} {opts : NestaOpts F} (hc : 1 ≤ opts.n_continue) (h : CSpec (l1c_nestaM m xk n b ax opts) s L1C_SUCCESS s') :
    ∃ blk, s.next + 10 ≤ blk ∧ ∀ base : ℕ → ℕ, ¬ DALIGN ∣ base blk → CMis base (l1c_nestaM m xk n b ax opts) s := nesta_window hc h

/-- The caller's data array must be aligned as well: otherwise a successful call has broken a promise. -/
theorem C106_nesta_data_unaligned_false {m n : Int} {xk b : Ptr} {ax : NAxM F} {opts : NestaOpts F} (hb : ¬ b.Aligned base) (hc : 1 ≤ opts.n_continue)
    (h : CSpec (l1c_nestaM m xk n b ax opts) s L1C_SUCCESS s') : CMis base (l1c_nestaM m xk n b ax opts) s :=
  (must_nesta xk ax opts hb hc).mis h (by simp)

/-- What remains true: if the data array is aligned, the operators keep their promises on aligned arrays and all new blocks are aligned, also the one from plain `malloc`
(this is what is missing), NESTA keeps every promise.  The output array may be anywhere. -/
theorem C106_nesta_partial {m n : Int} (xk : Ptr) {b : Ptr} {ax : NAxM F} (opts : NestaOpts F) (ha : NAxAl base ax) (hb : b.Aligned base) (hs : FreshAligned base s) :
    ¬ CMis base (l1c_nestaM m xk n b ax opts) s := (keeps_nesta xk opts ha hb).safe hs

/-- The operators of every set of the library keep their promises on aligned arrays if the set's buffers are aligned: 1-D and 2-D DCT, matrix, and the two TV sets on top of
either DCT. -/
theorem C106_operators {P : Ptr → Prop} {v : DctVarM F} (hf : FftwAl base P v.fw) (hb : BufAl base v.buf) (n m mrow mcol : ℕ) (A : Ptr) (alp_v alp_h : F) {u : Ptr}
    (hu : u.Aligned base) :
    NAxAl base (matNestaM (F := F) n m A) ∧ QAxAl base (matFunsM (F := F) n m A u) ∧ ∀ S ∈ [dct1FunsM m v, dct2FunsM mrow mcol v], QAxAl base S.q ∧
      NAxAl base (S.nesta n m) ∧ NAxAl base (tvAnaM n ⟨S, mrow, mcol, alp_v, alp_h, u⟩) ∧ NAxAl base (tvSynM n ⟨S, mrow, mcol, alp_v, alp_h, u⟩) := by
  refine ⟨nax_mat n m A, ⟨fun _ _ _ _ => keeps_matAx .., fun _ _ _ _ => keeps_matAty .., fun _ _ _ _ => keeps_matAtAx ..⟩, fun S hS => ?_⟩
  have h : DctAl base P S := by
    simp only [List.mem_cons, List.not_mem_nil, or_false] at hS
    rcases hS with rfl | rfl
    · exact keeps_dct1 hf hb m
    · exact keeps_dct2 hf hb mrow mcol
  obtain ⟨h1, h2⟩ := nax_tv (c := ⟨S, mrow, mcol, alp_v, alp_h, u⟩) hf.sub h hu n
  exact ⟨⟨h.Ax, h.Aty, h.AtAx⟩, nax_dct n m h, h1, h2⟩

/-! ## Examples -/

/-- blocks at multiples of 64 -/
theorem fresh64 : FreshAligned (fun b => 64 * b) s := fun b _ => Dvd.intro b rfl

theorem aligned64 (b : ℕ) : (⟨b, 0⟩ : Ptr).Aligned fun b => 64 * b := Ptr.aligned_zero (Dvd.intro b rfl)

theorem not_aligned8 : ¬ (⟨0, 0⟩ : Ptr).Aligned fun b => 64 * b + 8 := by
  unfold Ptr.Aligned DALIGN
  decide

theorem not_aligned1 : ¬ (⟨1, 0⟩ : Ptr).Aligned fun b => 64 * b + 8 := by
  unfold Ptr.Aligned DALIGN
  decide

/-- a 2 by 2 image: with blocks at multiples of 64 all is well … -/
example : ¬ CMis (fun b => 64 * b) (l1c_breg_anistropic_TV (2 : ℕ) (2 : ℕ) ⟨0, 0⟩ ⟨1, 0⟩ (Dbl.fin 1) (Dbl.fin (1 / 10)) 3 1) (imgP 2 2 spotImg) :=
  C106_tv _ _ _ _ _ _ _ (aligned64 0) fresh64

/-- … 8 bytes further it is not -/
example : CMis (fun b => 64 * b + 8) (l1c_breg_anistropic_TV (2 : ℕ) (2 : ℕ) ⟨0, 0⟩ ⟨1, 0⟩ (Dbl.fin 1) (Dbl.fin (1 / 10)) 3 1) (imgP 2 2 spotImg) := by
  obtain ⟨K, i, s', h, -⟩ := run_real (n := 2) (m := 2) (mu := 1) (jac := 1) le_rfl le_rfl (by unfold FitsInt INT_MAX INT_MIN; norm_num) one_pos (by unfold INT_MAX; norm_num) (max_iter := 3)
    (by unfold INT_MAX; norm_num) (Dbl.fin (1 / 10)) (imgP_ready 2 2 spotImg)
  exact C106_tv_unaligned_false not_aligned8 (by norm_num) h

/-- a NESTA call that succeeds although its data array is 8 bytes off has broken a promise, and so has the same call when only its window is 16 bytes off -/
example : CMis (fun b => 64 * b + 8) (l1c_nestaM 2 ⟨0, 0⟩ 1 ⟨1, 0⟩ exNestM ⟨Dbl.fin (1 / 4), Dbl.fin (1 / 100), Dbl.fin (1 / 10), 3⟩) (exRam fun _ => true) ∧
    ∃ w, 13 ≤ w ∧ CMis (fun b => if b = w then 64 * b + 16 else 64 * b) (l1c_nestaM 2 ⟨0, 0⟩ 1 ⟨1, 0⟩ exNestM ⟨Dbl.fin (1 / 4), Dbl.fin (1 / 100), Dbl.fin (1 / 10), 3⟩)
      (exRam fun _ => true) := by
  obtain ⟨x', s', c1, -⟩ := C95_feasible (opts := ⟨Dbl.fin (1 / 4), Dbl.fin (1 / 100), Dbl.fin (1 / 10), 3⟩) (exNest_call fun _ => true) exNest_realises
    (by ext i j; fin_cases i; fin_cases j; simp [Matrix.mul_apply]) rfl (by norm_num) rfl (by norm_num) rfl one_ne_zero
    ⟨(0 : Fin 2), Or.inl ⟨by decide, by simp [Matrix.mulVec, dotProduct]⟩⟩ (by decide) (by decide) trivial (fun _ _ => rfl)
  refine ⟨C106_nesta_data_unaligned_false not_aligned1 (by decide) c1, ?_⟩
  obtain ⟨w, h1, h2⟩ := C106_nesta_window_false (by decide) c1
  refine ⟨w, h1, h2 _ ?_⟩
  rw [if_pos rfl]
  unfold DALIGN
  omega

/-- an FFTW that wants both arrays aligned -/
def strictFftw (N : ℕ) (fw : Fftw F N) : FftwM F where
  fwd x y := do
    Cmd.assume [x, y]
    copyThrough N fw.fwd x y
  inv x y := do
    Cmd.assume [x, y]
    copyThrough N fw.inv x y

theorem strict_impl (N : ℕ) (fw : Fftw F N) : FftwImpl (strictFftw N fw) fw where
  fwd s x y v hx hy hd := by
    obtain ⟨s', c, h⟩ := (copyThrough_impl fw).fwd s x y v hx hy hd
    exact ⟨s', (cspec_assume _ s).bind c, h⟩
  inv s x y v hx hy hd := by
    obtain ⟨s', c, h⟩ := (copyThrough_impl fw).inv s x y v hx hy hd
    exact ⟨s', (cspec_assume _ s).bind c, h⟩

theorem strict_al (N : ℕ) (fw : Fftw F N) : FftwAl base (Ptr.Aligned base) (strictFftw N fw) where
  fwd _ _ hx hy := Cmd.KeepsAlign.assume (by simp [hx, hy]) (Cmd.KeepsAlign.exec1 (by simp))
  inv _ _ hx hy := Cmd.KeepsAlign.assume (by simp [hx, hy]) (Cmd.KeepsAlign.exec1 (by simp))
  sub _ h := h

/-- recovery of a 2 by 3 image with it: fine with blocks at multiples of 64, not 8 bytes further -/
example : ¬ CMis (fun b => 64 * b) (l1qc_dctM (fun m => strictFftw m (refLib.f1 m)) (fun r c => strictFftw (r * c) (refLib.f2 r c)) 2 3 ⟨0, 0⟩ 2 ⟨0, 0⟩ [5, 1] DCT2 exOpts) exImageRam ∧
    CMis (fun b => 64 * b + 8) (l1qc_dctM (fun m => strictFftw m (refLib.f1 m)) (fun r c => strictFftw (r * c) (refLib.f2 r c)) 2 3 ⟨0, 0⟩ 2 ⟨0, 0⟩ [5, 1] DCT2 exOpts) exImageRam := by
  refine ⟨C106_image_recovery (fun _ => strict_al ..) (fun _ _ => strict_al ..) _ _ _ _ _ _ _ (aligned64 0) fresh64, ?_⟩
  have C : ImageCall refLib (fun m => strictFftw m (refLib.f1 m)) (fun r c => strictFftw (r * c) (refLib.f2 r c)) 2 3 2 [5, 1] ⟨0, 0⟩ ⟨0, 0⟩ (fvec ![7, 8]) exImageRam :=
    { exImage_call with f1 := fun _ => strict_impl .., f2 := fun _ _ => strict_impl .. }
  obtain ⟨res, s', h1, -⟩ := C98_recovers (mode := DCT2) (opts := exOpts) refLib_ok C (by simp) (fun hc => by simpa using congrFun hc 0) (by norm_num) rfl zero_le_one
    (by unfold INT_MAX; omega) (by show ¬ (3 : Int) = 0; decide)
    ⟨by show (0 : Int) ≤ 200; decide, by show (200 : Int) < INT_MAX; decide, by show ((3 : Int).toNat : Int) < INT_MAX; decide,
      by show (3 : Int).toNat * (((50 : Int) - 1).toNat * (200 : Int)) ≤ INT_MAX; decide,
      by show (3 : Int).toNat * ((((50 : Int) - 1).toNat : Int) + 1) ≤ INT_MAX; decide⟩ (fun _ _ => rfl)
  refine C106_image_output_false (P := Ptr.Aligned fun b => 64 * b + 8) (fun m x y hy => ?_) (fun r c x y hy => ?_) not_aligned8 h1
  · exact .hit ⟨_, List.mem_singleton_self _, y, by simp, hy⟩
  · exact .hit ⟨_, List.mem_singleton_self _, y, by simp, hy⟩

end L1c
