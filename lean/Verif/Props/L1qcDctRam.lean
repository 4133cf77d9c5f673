import Verif.Spec.L1qcDctMem
import Verif.Proofs.L1qcDctMem

/-!
# C98: image recovery on memory

`l1qc_dct` with everything it calls is run on memory: the scratch buffers of the DCT set, the arrays of the routine and the nineteen blocks of the solver are
allocated, used and released, and every load and store is checked.
-/

namespace L1c
open Scalar Matrix Cmd

section generic
variable {F : Type} [Scalar F] {s : PState F} {fw1 : ℕ → FftwM F} {fw2 : ℕ → ℕ → FftwM F} {lib : FftwLib F} {idx : List Int} {mode : Int} {x_out b : Ptr} {opts : QOpts F}

/-- Sizes or indices that are not as documented are refused; the process is exactly as before. -/
theorem C98_rejects {mrow mcol n : Int} (hf : FitsInt (mrow * mcol)) (hv : ¬ ValidDct n mrow mcol idx) :
    CSpec (l1qc_dctM fw1 fw2 mrow mcol x_out n b idx mode opts) s (L1C_DCT_INIT_FAILURE, none) s := by
  refine (cspec_need hf s).bind ?_
  by_cases h1 : n ≤ 0 ∨ mrow ≤ 0 ∨ mcol ≤ 0
  · rw [if_pos h1]
    exact .done _ _
  · rw [if_neg h1]
    have h2 : check_pix_idx idx (mrow * mcol - 1) = true := by
      by_contra hc
      refine hv ⟨by omega, by omega, by omega, fun i hi => ?_⟩
      unfold check_pix_idx at hc
      rw [Bool.not_eq_true, List.any_eq_false] at hc
      have := hc i hi
      simp only [decide_eq_true_eq] at this
      omega
    rw [if_pos h2]
    exact .done _ _

/-- The product of the sizes is formed before anything is checked: if it does not fit in `int` the call is undefined, whatever the other arguments. -/
theorem C98_overflow_false {mrow mcol n : Int} (hf : ¬ FitsInt (mrow * mcol)) : CUB (l1qc_dctM fw1 fw2 mrow mcol x_out n b idx mode opts) s :=
  CUB.bind (cub_need hf _)

/-- A two-dimensional setup that is refused a request after the first one leaks: a block nobody knows of stays allocated. -/
theorem C98_leak_false {mrow mcol n : ℕ} {bv : Vec F n} (C : ImageCall lib fw1 fw2 mrow mcol n idx x_out b bv s) (ht : twoDim mrow mcol mode = true)
    (h0 : s.oracle s.calls = true) (h5 : ¬ ∀ i < 5, s.oracle (s.calls + i) = true) :
    ∃ s' k, CSpec (l1qc_dctM fw1 fw2 mrow mcol x_out n b idx mode opts) s (L1C_DCT_INIT_FAILURE, none) s' ∧ s.live k = false ∧ s'.live k = true := by
  rw [front_eq C.valid, ht]
  obtain ⟨res, s1, a1, ⟨a2, -⟩ | ⟨-, a2, -, -, ⟨a3, -⟩ | ⟨-, L, a4, a5⟩⟩⟩ := dctSetupM_spec C.wf true (mrow * mcol)
  · exact absurd a2 h5
  · cases a3
  · obtain ⟨p, hp⟩ := a5 h0
    refine ⟨s1, p.blk, (cspec_need C.fits s).bind (a1.bind ?_), (C.wf _ (a4.ptrs p hp).1).1, a4.liveAt hp⟩
    rw [a2]
    exact .done _ _

end generic

/-- distance between the sampled pixels and the data -/
theorem sampled_err {m n : ℕ} (image : Fin m → ℝ) (ix : Fin n → Fin m) (br : Fin n → ℝ) : √(∑ i, (image (ix i) - br i) ^ 2) = nrm (gather ix image - br) := by
  unfold nrm
  congr 1
  unfold dotProduct
  refine Finset.sum_congr rfl fun i _ => ?_
  simp only [Pi.sub_apply, gather]
  ring

/-- the recovery specification is defined once the options are -/
theorem recover_defined {m n : ℕ} {f : DctFuns Dbl m n} {ix : Fin n → Int} (S : DctSet f ix) (hnm : n ≤ m) {bv : Vec Dbl n} {a : XOut Dbl m n m} (ha : f.Aty bv DctBuf.fresh = some a)
    {opts prm : QOpts Dbl} {u : Vec Dbl m} (h1 : l1qc_newton_init a.res opts = some (u, prm)) (h0 : 0 ≤ opts.cg_maxiter) (h2 : opts.cg_maxiter < INT_MAX)
    (h3 : (prm.lbiter.toNat : Int) < INT_MAX) (h4 : prm.lbiter.toNat * ((opts.newton_max_iter - 1).toNat * opts.cg_maxiter) ≤ INT_MAX)
    (h5 : prm.lbiter.toNat * (((opts.newton_max_iter - 1).toNat : Int) + 1) ≤ INT_MAX) : ∃ res image, recover f bv opts = some (res, image) := by
  obtain ⟨t1, t2, t3, t4⟩ := dctSet_total S
  have T : OpsTotal (fun _ => True) (pureAx f) := by
    refine ⟨fun v t _ => ?_, fun v t _ => ?_, fun v t _ => ?_⟩
    · obtain ⟨o, e⟩ := t1 v
      exact ⟨o.res, (), by simp [pureAx, e], trivial⟩
    · obtain ⟨o, e⟩ := t2 v
      exact ⟨o.res, (), by simp [pureAx, e], trivial⟩
    · obtain ⟨o, e⟩ := t3 v
      exact ⟨o.res, (), by simp [pureAx, e], trivial⟩
  obtain ⟨o, ns, k1, -, -, -⟩ := C51_defined_partial T hnm (b := bv) h1 h0 h2 h3 h4 h5
    (s := (⟨∅, 0, 0, fun _ => true, ()⟩ : NState Unit)) (fun k hk => by cases hk) trivial rfl
  obtain ⟨-, -, u', prm', k2, ⟨⟨i, -, k3⟩, -⟩ | ⟨-, k3⟩⟩ := newton_run_inv (s := (⟨∅, 0, 0, fun _ => true, ()⟩ : NState Unit)) (fun k hk => by cases hk) k1
  · cases k3
  obtain ⟨y, k4⟩ := t4 o.x
  refine ⟨o.res, y.res, ?_⟩
  unfold recover
  exact Option.bind_eq_some_iff.2 ⟨a, ha, Option.bind_eq_some_iff.2 ⟨(u', prm'), k2, Option.bind_eq_some_iff.2 ⟨(o, ns.cb), k3, Option.bind_eq_some_iff.2 ⟨y, k4, rfl⟩⟩⟩⟩

section dbl
variable {s : PState Dbl} {fw1 : ℕ → FftwM Dbl} {fw2 : ℕ → ℕ → FftwM Dbl} {lib : FftwLib Dbl} {idx : List Int} {mode : Int} {x_out b : Ptr} {opts : QOpts Dbl}
  {mrow mcol n : ℕ} {bv : Vec Dbl n}

/-- When the recovery specification (transforms as pure functions, no memory) is defined and all 26 requests are granted: under every interleaving the call is
defined and returns its status and its result record; on status 0 `x_out` holds its image; nothing else of the caller's memory has changed, on any other status not
even `x_out`; everything allocated is released.  `x_out` may overlap `b`. -/
theorem C98_recovered (C : ImageCall lib fw1 fw2 mrow mcol n idx x_out b bv s) (hp : 0 < mrow ∧ 0 < mcol) (hnm : n ≤ mrow * mcol) (hmax : opts.cg_maxiter ≤ INT_MAX)
    {res : LBResult Dbl} {image : Vec Dbl (mrow * mcol)}
    (hr : recover (imageFuns lib mrow mcol n idx (twoDim mrow mcol mode) hp) bv opts = some (res, image)) (ho : ∀ i < 26, s.oracle (s.calls + i) = true) :
    ∃ s', CSpec (l1qc_dctM fw1 fw2 mrow mcol x_out n b idx mode opts) s (res.status, some res) s' ∧ s'.live = s.live ∧ s'.mem.len = s.mem.len ∧
      (res.status = 0 → HoldsV s' x_out image) ∧
      ∀ a : Ptr, s.live a.blk = true → (a ∉ Rng x_out (mrow * mcol) ∨ res.status ≠ 0) → s'.mem.val a = s.mem.val a := by
  rw [front_eq C.valid]
  obtain ⟨-, hi⟩ := validIdx C.valid C.len
  obtain ⟨r, s1, a1, ⟨-, o, rfl, U⟩ | ⟨a2, -⟩⟩ := dctSetupM_spec C.wf (twoDim mrow mcol mode) (mrow * mcol)
  · obtain ⟨s', c1, c2⟩ := with_run C.wf U (imageFuns_set (lib := lib) (two := twoDim mrow mcol mode) hp hi) (imageFunsM_impl C.f1 C.f2 hp idx _ U.sep) C.hb C.blive C.hx C.xlive hnm hmax hr ho
    exact ⟨s', (cspec_need C.fits s).bind (a1.bind c1), c2⟩
  · exact absurd (fun i hi => ho i (by omega)) a2

/-- When some request is refused, though not the solver's first: the call is still defined and reports `L1C_DCT_INIT_FAILURE` (one of the first five) or
`L1C_OUT_OF_MEMORY`; all of the caller's memory, `x_out` included, is as before, and everything is released.  Missing: failed two-dimensional setups leak, see
`C98_leak_false`. -/
theorem C98_out_of_memory_partial (C : ImageCall lib fw1 fw2 mrow mcol n idx x_out b bv s) (hp : 0 < mrow ∧ 0 < mcol) (hnm : n ≤ mrow * mcol) (hmax : opts.cg_maxiter ≤ INT_MAX)
    (hr : recover (imageFuns lib mrow mcol n idx (twoDim mrow mcol mode) hp) bv opts ≠ none) (ho : ¬ ∀ i < 26, s.oracle (s.calls + i) = true)
    (h7 : s.oracle (s.calls + 7) = true) :
    ∃ st r s', CSpec (l1qc_dctM fw1 fw2 mrow mcol x_out n b idx mode opts) s (st, r) s' ∧ (∀ a : Ptr, s.live a.blk = true → s'.mem.val a = s.mem.val a) ∧
      (((∀ i < 5, s.oracle (s.calls + i) = true) ∧ st = L1C_OUT_OF_MEMORY) ∨ ((¬ ∀ i < 5, s.oracle (s.calls + i) = true) ∧ st = L1C_DCT_INIT_FAILURE ∧ r = none)) ∧
      (twoDim mrow mcol mode = false ∨ (∀ i < 5, s.oracle (s.calls + i) = true) → s'.live = s.live ∧ s'.mem.len = s.mem.len) := by
  rw [front_eq C.valid]
  obtain ⟨-, hi⟩ := validIdx C.valid C.len
  obtain ⟨⟨res, image⟩, hr⟩ := Option.ne_none_iff_exists'.1 hr
  obtain ⟨a, u, prm, -, -, -, h1, h2, -⟩ := recover_inv hr
  obtain ⟨r, s1, a1, ⟨h5, o, rfl, U⟩ | ⟨a2, a3, -, a4, a5⟩⟩ := dctSetupM_spec C.wf (twoDim mrow mcol mode) (mrow * mcol)
  · obtain ⟨r, s', c1, c2, c3, c4⟩ := with_oom (x_out := x_out) C.wf U (imageFuns_set (lib := lib) (two := twoDim mrow mcol mode) hp hi) (imageFunsM_impl C.f1 C.f2 hp idx _ U.sep) C.hb C.blive
      hnm hmax h1 h2 h7 h5 ho
    exact ⟨_, r, s', (cspec_need C.fits s).bind (a1.bind c1), c4, Or.inl ⟨h5, rfl⟩, fun _ => ⟨c2, c3⟩⟩
  · refine ⟨L1C_DCT_INIT_FAILURE, none, s1, (cspec_need C.fits s).bind (a1.bind ?_), fun a ha => a4.val a (C.wf.lt ha), Or.inr ⟨a2, rfl, rfl⟩, fun h => ?_⟩
    · rw [a3]
      exact .done _ _
    · rcases a5 with ⟨-, e⟩ | ⟨e, -⟩
      · exact e.final C.wf
      · rcases h with h | h
        · rw [h] at e; cases e
        · exact absurd h a2

/-- When the first seven requests are granted and the eighth, the solver's first, is refused, the call is undefined. -/
theorem C98_first_alloc_failure_false (C : ImageCall lib fw1 fw2 mrow mcol n idx x_out b bv s) (ho : ∀ i < 7, s.oracle (s.calls + i) = true)
    (h7 : s.oracle (s.calls + 7) = false) : CUB (l1qc_dctM fw1 fw2 mrow mcol x_out n b idx mode opts) s := by
  rw [front_eq C.valid]
  obtain ⟨hp, hi⟩ := validIdx C.valid C.len
  obtain ⟨r, s1, a1, ⟨-, o, rfl, U⟩ | ⟨a2, -⟩⟩ := dctSetupM_spec C.wf (twoDim mrow mcol mode) (mrow * mcol)
  · exact (cspec_need C.fits s).bind_ub (a1.bind_ub (with_ub C.wf U (imageFuns_set (lib := lib) (two := twoDim mrow mcol mode) hp hi) (imageFunsM_impl C.f1 C.f2 hp idx _ U.sep) C.hb C.blive ho h7))
  · exact absurd (fun i hi => ho i (by omega)) a2

/-- In exact arithmetic with the DCTs of FFTW: finite data that is not all zero, distinct positions, `epsilon` at least 0, a given number of barrier steps and
counters that fit in `int`.  If every request is granted the call returns 0 under every interleaving, and `x_out` holds a finite image whose values at the sampled positions are
within `epsilon` of the data. -/
theorem C98_recovers (hlib : LibOk lib) {br : Fin n → ℝ} (C : ImageCall lib fw1 fw2 mrow mcol n idx x_out b (fvec br) s) (hd : idx.Nodup) (hb : br ≠ 0) (hnm : n ≤ mrow * mcol)
    {eps : ℝ} (he : opts.epsilon = Dbl.fin eps) (heps : 0 ≤ eps) (hm : 2 * ((mrow * mcol : ℕ) : Int) + 1 ≤ INT_MAX) (hl : opts.lbiter ≠ 0) (hc : CountersFit opts)
    (ho : ∀ i < 26, s.oracle (s.calls + i) = true) :
    ∃ res s', CSpec (l1qc_dctM fw1 fw2 mrow mcol x_out n b idx mode opts) s (0, some res) s' ∧ res.status = 0 ∧ s'.live = s.live ∧ s'.mem.len = s.mem.len ∧
      (∀ a : Ptr, s.live a.blk = true → a ∉ Rng x_out (mrow * mcol) → s'.mem.val a = s.mem.val a) ∧
      ∃ image : Fin (mrow * mcol) → ℝ, HoldsV s' x_out (fvec image) ∧ ∃ ix : Fin n → Fin (mrow * mcol), (∀ i : Fin n, ((ix i : ℕ) : Int) = idxFun n idx i) ∧
        √(∑ i, (image (ix i) - br i) ^ 2) ≤ eps := by
  obtain ⟨hp, hi⟩ := validIdx C.valid C.len
  have hR := imageFuns_setR hlib (two := twoDim mrow mcol mode) hp hi
  have S := imageFuns_set (lib := lib) (two := twoDim mrow mcol mode) hp hi
  obtain ⟨ix, Q, ok⟩ := funsOk hR
  obtain ⟨s1, e1⟩ := ok.Aty.gives hR _ Reach.fresh br
  have hinj : Function.Injective ix := (injective_iff ok.hix).1 (by
    intro i j hij
    have h3 : ∀ k : Fin n, idxFun n idx k = idx[k.val]'(by have := C.len; omega) := fun k => by
      unfold idxFun
      simp [C.len]
    rw [h3, h3] at hij
    exact Fin.ext ((List.Nodup.getElem_inj_iff hd).1 hij))
  have hQ' : Q * Qᵀ = 1 := mul_eq_one_comm.1 ok.orth
  have hne : Qᵀ *ᵥ scat ix br ≠ 0 := by
    intro hz
    have h1 : Q *ᵥ (Qᵀ *ᵥ scat ix br) = 0 := by rw [hz, mulVec_zero]
    rw [mulVec_mulVec, hQ', one_mulVec] at h1
    have h2 := gather_scat ix hinj br
    rw [h1] at h2
    exact hb (by rw [← h2]; rfl)
  obtain ⟨⟨u, prm⟩, h1⟩ := C52_defined_partial hne hm (prm := opts) (fun h0 => absurd h0 hl)
  have hL : prm.lbiter = opts.lbiter := by
    obtain ⟨t, L, rfl, h⟩ := init_opts h1
    exact h hl
  obtain ⟨o, y, hr⟩ := recover_defined S hnm e1 h1 hc.cg0 hc.cg1 (hL.symm ▸ hc.lb) (hL.symm ▸ hc.tot_cg) (hL.symm ▸ hc.tot_nw)
  obtain ⟨s', c1, c2, c3, c4, c5⟩ := C98_recovered C hp hnm hc.cg1.le hr ho
  rcases recover_real hR ok he hr with ⟨g, -⟩ | ⟨g1, eta, g2, g3, g4⟩
  · exfalso
    rw [gather_scat ix hinj] at g
    have : nrm (br - br) = 0 := by simp [nrm]
    rw [this] at g
    linarith
  · rw [g1] at c1
    have c4' := c4 g1
    rw [g2] at c4'
    have hm' : CSpec (l1qc_dctM fw1 fw2 mrow mcol x_out n b idx mode opts) s (0, some o) s' := c1
    refine ⟨o, s', hm', g1, c2, c3, fun a h h' => c5 a h (Or.inl h'), Q *ᵥ eta, c4', ix, ok.hix, (sampled_err (Q *ᵥ eta) ix br).trans_le g4⟩

/-! ## Examples -/

/-- the caller's memory: one block of six doubles, samples 7 and 8 in front, and a guard value in another block -/
noncomputable def exImageRam : PState Dbl where
  mem := ⟨fun k => if k = 0 then 6 else if k = 1 then 1 else 0, fun a => if a = ⟨0, 0⟩ then .fin 7 else if a = ⟨0, 1⟩ then .fin 8 else .fin 5⟩
  live := fun k => decide (k < 2)
  next := 2
  calls := 2
  oracle := fun _ => true

/-- a 2 by 3 image from two samples, written over the samples themselves -/
theorem exImage_call : ImageCall refLib (fun m => ⟨copyThrough m (refLib.f1 m).fwd, copyThrough m (refLib.f1 m).inv⟩)
    (fun r c => ⟨copyThrough (r * c) (refLib.f2 r c).fwd, copyThrough (r * c) (refLib.f2 r c).inv⟩) 2 3 2 [5, 1] ⟨0, 0⟩ ⟨0, 0⟩ (fvec ![7, 8]) exImageRam where
  wf := fun k hk => by
    have hk : 2 ≤ k := hk
    exact ⟨by simp [exImageRam]; omega, by
      show (if k = 0 then 6 else if k = 1 then 1 else 0) = 0
      rw [if_neg (by omega), if_neg (by omega)]⟩
  f1 := fun _ => copyThrough_impl _
  f2 := fun _ _ => copyThrough_impl _
  valid := by simp [ValidDct]
  len := rfl
  fits := by unfold FitsInt INT_MAX INT_MIN; omega
  hb := ⟨fun k h0 h1 => ⟨by simpa using h0, by
      show (0 : Int) + k < ((if (0 : ℕ) = 0 then 6 else if (0 : ℕ) = 1 then 1 else 0 : ℕ) : Int)
      push_cast at *; simp; omega⟩, fun i => by fin_cases i <;> simp [exImageRam, fvec, Ptr.ext_iff]⟩
  blive := rfl
  hx := fun k h0 h1 => ⟨by simpa using h0, by
      show (0 : Int) + k < ((if (0 : ℕ) = 0 then 6 else if (0 : ℕ) = 1 then 1 else 0 : ℕ) : Int)
      push_cast at *; simp; omega⟩
  xlive := rfl

/-- the samples are overwritten by an image that has them, within 1, at positions 5 and 1; the guard value stays and nothing is left allocated -/
example : ∃ res s', CSpec (l1qc_dctM (fun m => ⟨copyThrough m (refLib.f1 m).fwd, copyThrough m (refLib.f1 m).inv⟩)
      (fun r c => ⟨copyThrough (r * c) (refLib.f2 r c).fwd, copyThrough (r * c) (refLib.f2 r c).inv⟩) 2 3 ⟨0, 0⟩ 2 ⟨0, 0⟩ [5, 1] DCT2 exOpts) exImageRam (0, some res) s' ∧
    s'.live = exImageRam.live ∧ s'.mem.val ⟨1, 0⟩ = .fin 5 ∧ ∃ image : Fin 6 → ℝ, HoldsV s' ⟨0, 0⟩ (fvec image) ∧ √((image 5 - 7) ^ 2 + (image 1 - 8) ^ 2) ≤ 1 := by
  obtain ⟨res, s', h1, -, h3, -, h5, image, h6, ix, h7, h8⟩ := C98_recovers (mode := DCT2) (opts := exOpts) refLib_ok exImage_call (by simp) (fun hc => by simpa using congrFun hc 0) (by norm_num) rfl zero_le_one
    (by unfold INT_MAX; omega) (by show ¬ (3 : Int) = 0; decide)
    ⟨by show (0 : Int) ≤ 200; decide, by show (200 : Int) < INT_MAX; decide, by show ((3 : Int).toNat : Int) < INT_MAX; decide,
      by show (3 : Int).toNat * (((50 : Int) - 1).toNat * (200 : Int)) ≤ INT_MAX; decide,
      by show (3 : Int).toNat * ((((50 : Int) - 1).toNat : Int) + 1) ≤ INT_MAX; decide⟩ (fun _ _ => rfl)
  have e0 : ix 0 = (5 : Fin 6) := Fin.ext (by have := h7 0; simp [idxFun] at this; exact_mod_cast this)
  have e1 : ix 1 = (1 : Fin 6) := Fin.ext (by have := h7 1; simp [idxFun] at this; exact_mod_cast this)
  refine ⟨res, s', h1, h3, (h5 ⟨1, 0⟩ rfl fun hc => by have := hc.1; cases this).trans (by simp [exImageRam]), image, h6, ?_⟩
  simpa [Fin.sum_univ_two, e0, e1] using h8

/-- the same call when the fourth request is refused leaks -/
example : ∃ s' k, CSpec (l1qc_dctM (fun m => ⟨copyThrough m (refLib.f1 m).fwd, copyThrough m (refLib.f1 m).inv⟩)
      (fun r c => ⟨copyThrough (r * c) (refLib.f2 r c).fwd, copyThrough (r * c) (refLib.f2 r c).inv⟩) 2 3 ⟨0, 0⟩ 2 ⟨0, 0⟩ [5, 1] DCT2 exOpts)
      { exImageRam with oracle := fun i => i != 5 } (L1C_DCT_INIT_FAILURE, none) s' ∧ exImageRam.live k = false ∧ s'.live k = true :=
  C98_leak_false (bv := fvec ![7, 8]) ⟨exImage_call.wf, exImage_call.f1, exImage_call.f2, exImage_call.valid, rfl, exImage_call.fits, exImage_call.hb, rfl, exImage_call.hx, rfl⟩ (by decide) rfl
    fun h => by have := h 3 (by omega); simp [exImageRam] at this

/-- and is undefined when the eighth is refused -/
example : CUB (l1qc_dctM (fun m => ⟨copyThrough m (refLib.f1 m).fwd, copyThrough m (refLib.f1 m).inv⟩)
      (fun r c => ⟨copyThrough (r * c) (refLib.f2 r c).fwd, copyThrough (r * c) (refLib.f2 r c).inv⟩) 2 3 ⟨0, 0⟩ 2 ⟨0, 0⟩ [5, 1] DCT2 exOpts)
      { exImageRam with oracle := fun i => i != 9 } :=
  C98_first_alloc_failure_false (bv := fvec ![7, 8]) ⟨exImage_call.wf, exImage_call.f1, exImage_call.f2, exImage_call.valid, rfl, exImage_call.fits, exImage_call.hb, rfl, exImage_call.hx, rfl⟩
    (fun i hi => by simp [exImageRam]; omega) rfl

end dbl
end L1c
