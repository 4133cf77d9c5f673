import Verif.Proofs.DctTvNear
import Verif.Proofs.L1qcDctMem
import Verif.Props.TransRam

/-!
# C99: the DCT + total-variation transforms and NESTA on memory

The functions of an analysis or synthesis set are run on memory, with the scratch buffers of the DCT set, the work array shared by the functions, the
arguments and the results at addresses.  `Wv`, `Wtx` and the copies work on parts of arrays; the synthesis functions use the work array both as the
result of one step and as the argument of the next.
-/

namespace L1c
open Scalar Matrix

section generic
variable {F : Type} [Scalar F] {mrow mcol n : ℕ} {c : TvCfg F mrow mcol n} {loc : DctFunsM F} {b : DctPtr} {u x d : Ptr} {idx : Fin n → Int} {s : PState F}
  {t : TvBuf F (mrow * mcol) c.p} {dv : Vec F n} {opts : NestaOpts F}

/-- Every function of the set computes on memory what it computes on vectors, for all weights, image sizes and buffer contents: whenever the function on
vectors is defined, the command is defined under every schedule, the argument, the result, the DCT buffers and the work array hold the values computed
on vectors, and nothing else has changed. -/
theorem C99_functions (S : DctSet c.loc idx) (dim : TvDims c) (H : DctImpl loc c.loc (BufAt b) (b.Own (mrow * mcol))) (hs : TvSep b u (mrow * mcol) c.p) :
    TvImpl (c.varM loc u) c (TvAt b u) (tvOwn b u (mrow * mcol) c.p) := tv_impl S dim H hs

/-- A caller that passes arrays in allocated blocks, away from the buffers of the set, meets the preconditions of NESTA in analysis mode. -/
theorem C99_analysis_call (S : DctSet c.loc idx) (dim : TvDims c) (H : DctImpl loc c.loc (BufAt b) (b.Own (mrow * mcol))) (hs : TvSep b u (mrow * mcol) c.p)
    {xv : Vec F (mrow * mcol)} (wf : s.WF) (hx : HoldsV s x xv) (hd : HoldsV s d dv) (hR : TvAt b u t s) (xl : s.live x.blk = true) (dl : s.live d.blk = true)
    (ol : ∀ a ∈ tvOwn b u (mrow * mcol) c.p, s.live a.blk = true) (bo : Disjoint (Rng d n) (tvOwn b u (mrow * mcol) c.p)) :
    NCall (tvAnaM n (c.varM loc u)) (tvAna c) (TvAt b u) (tvOwn b u (mrow * mcol) c.p) x d xv dv t s :=
  ⟨wf, tvAna_impl (tv_impl S dim H hs), tv_own, hx, hd, hR, xl, dl, ol, bo⟩

/-- And in synthesis mode, where the unknowns are the coefficients. -/
theorem C99_synthesis_call (S : DctSet c.loc idx) (dim : TvDims c) (H : DctImpl loc c.loc (BufAt b) (b.Own (mrow * mcol))) (hs : TvSep b u (mrow * mcol) c.p)
    {xv : Vec F c.p} (wf : s.WF) (hx : HoldsV s x xv) (hd : HoldsV s d dv) (hR : TvAt b u t s) (xl : s.live x.blk = true) (dl : s.live d.blk = true)
    (ol : ∀ a ∈ tvOwn b u (mrow * mcol) c.p, s.live a.blk = true) (bo : Disjoint (Rng d n) (tvOwn b u (mrow * mcol) c.p)) :
    NCall (tvSynM n (c.varM loc u)) (tvSyn c) (TvAt b u) (tvOwn b u (mrow * mcol) c.p) x d xv dv t s :=
  ⟨wf, tvSyn_impl (tv_impl S dim H hs), tv_own, hx, hd, hR, xl, dl, ol, bo⟩

/-- For any arithmetic, any data, any contents of the work array and all allocator answers in which the eleventh succeeds if the first ten do: NESTA in
analysis mode is defined under every schedule, reports exactly the failed allocations and releases what it allocated. -/
theorem C99_analysis_defined_partial (S : DctSet c.loc idx) {xv : Vec F (mrow * mcol)}
    (C : NCall (tvAnaM n (c.varM loc u)) (tvAna c) (TvAt b u) (tvOwn b u (mrow * mcol) c.p) x d xv dv t s) (hi : BufInv idx t.dct)
    (hn : n ≤ c.p) (hN : opts.n_continue < INT_MAX) (h : (∀ i < 10, s.oracle (s.calls + i) = true) → s.oracle (s.calls + 10) = true) :
    ∃ st s', CSpec (l1c_nestaM ((mrow * mcol : ℕ) : Int) x n d (tvAnaM n (c.varM loc u)) opts) s st s' ∧ s'.live = s.live ∧ s'.mem.len = s.mem.len ∧
      (st = L1C_SUCCESS ∨ st = L1C_OUT_OF_MEMORY) ∧ (st = L1C_OUT_OF_MEMORY ↔ ∃ i < 10, s.oracle (s.calls + i) = false) :=
  C95_defined C (tvAna_total S) ⟨rfl, rfl⟩ hi (hn.trans (le_max_right _ _)) hN h

/-- The same in synthesis mode. -/
theorem C99_synthesis_defined_partial (S : DctSet c.loc idx) {xv : Vec F c.p}
    (C : NCall (tvSynM n (c.varM loc u)) (tvSyn c) (TvAt b u) (tvOwn b u (mrow * mcol) c.p) x d xv dv t s) (hi : BufInv idx t.dct)
    (hn : n ≤ c.p) (hN : opts.n_continue < INT_MAX) (h : (∀ i < 10, s.oracle (s.calls + i) = true) → s.oracle (s.calls + 10) = true) :
    ∃ st s', CSpec (l1c_nestaM (c.p : Int) x n d (tvSynM n (c.varM loc u)) opts) s st s' ∧ s'.live = s.live ∧ s'.mem.len = s.mem.len ∧
      (st = L1C_SUCCESS ∨ st = L1C_OUT_OF_MEMORY) ∧ (st = L1C_OUT_OF_MEMORY ↔ ∃ i < 10, s.oracle (s.calls + i) = false) :=
  C95_defined C (tvSyn_total S) ⟨rfl, rfl⟩ hi (hn.trans (le_max_left _ _)) hN h

/-- When the eleventh request is the first to fail, the behaviour is undefined, in both modes. -/
theorem C99_defined_false (S : DctSet c.loc idx) {xv : Vec F (mrow * mcol)} {vv : Vec F c.p} (hi : BufInv idx t.dct) (h : ∀ i < 10, s.oracle (s.calls + i) = true)
    (h' : s.oracle (s.calls + 10) = false) :
    (NCall (tvAnaM n (c.varM loc u)) (tvAna c) (TvAt b u) (tvOwn b u (mrow * mcol) c.p) x d xv dv t s →
      CUB (l1c_nestaM ((mrow * mcol : ℕ) : Int) x n d (tvAnaM n (c.varM loc u)) opts) s) ∧
    (NCall (tvSynM n (c.varM loc u)) (tvSyn c) (TvAt b u) (tvOwn b u (mrow * mcol) c.p) x d vv dv t s →
      CUB (l1c_nestaM (c.p : Int) x n d (tvSynM n (c.varM loc u)) opts) s) :=
  ⟨fun C => C95_window_alloc_false C (tvAna_total S) ⟨rfl, rfl⟩ hi h h', fun C => C95_window_alloc_false C (tvSyn_total S) ⟨rfl, rfl⟩ hi h h'⟩

end generic

section exact
variable {lib : FftwLib Dbl} {fw1 : ℕ → FftwM Dbl} {fw2 : ℕ → ℕ → FftwM Dbl} {mrow mcol n q : ℕ} {two : Bool} {ix : Fin n → Fin (mrow * mcol)} {av ah sigma mu : ℝ}
  {b : DctPtr} {u x d : Ptr} {tol : Dbl} {N : Int} {br : Fin n → ℝ} {s : PState Dbl} {xv : Vec Dbl (mrow * mcol)}

/-- the indices as the C code holds them -/
def posList (ix : Fin n → Fin (mrow * mcol)) : List Int := List.ofFn fun i => ((ix i : ℕ) : Int)

theorem posList_at (ix : Fin n → Fin (mrow * mcol)) (i : Fin n) : idxFun n (posList ix) i = (ix i : ℕ) := by
  unfold idxFun posList
  rw [List.getD_eq_getElem?_getD, List.getElem?_eq_getElem (by rw [List.length_ofFn]; exact i.2), List.getElem_ofFn]
  rfl

/-- the set with the library's DCT -/
noncomputable def tvCfgOf (lib : FftwLib Dbl) (two : Bool) (ix : Fin n → Fin (mrow * mcol)) (av ah : ℝ) (h : 0 < mrow ∧ 0 < mcol) : TvCfg Dbl mrow mcol n :=
  ⟨imageFuns lib mrow mcol n (posList ix) two h, .fin av, .fin ah⟩

theorem tvCfgOf_set (hlib : LibOk lib) (ix : Fin n → Fin (mrow * mcol)) (h : 0 < mrow ∧ 0 < mcol) : DctSetR (imageFuns lib mrow mcol n (posList ix) two h) (idxFun n (posList ix)) :=
  imageFuns_setR hlib h fun i => by
    rw [posList_at]
    exact ⟨Int.natCast_nonneg _, by exact_mod_cast (ix i).2⟩

/-- In exact arithmetic, on memory: samples at distinct pixels, not all zero, weights and image sizes as setup admits, `sigma` and `mu` positive.  Whatever
the output array and the work array contain, for every schedule, and if the allocator grants the eleven requests, NESTA in analysis mode succeeds.  The
output array then holds an image that fits the samples within `sigma`, and no image that fits costs less by more than `anaGap`. -/
theorem C99_near_best (hlib : LibOk lib) (h : 0 < mrow ∧ 0 < mcol) (hinj : Function.Injective ix) (hav : 0 ≤ av) (hah : 0 ≤ ah) (hdim : 0 < av ∨ 0 < ah → 2 ≤ mrow ∧ 2 ≤ mcol)
    {t : TvBuf Dbl (mrow * mcol) (tvCfgOf lib two ix av ah h).p}
    (C : NCall (tvAnaM n ((tvCfgOf lib two ix av ah h).varM (imageFunsM fw1 fw2 mrow mcol n (posList ix) two b) u)) (tvAna (tvCfgOf lib two ix av ah h)) (TvAt b u)
      (tvOwn b u (mrow * mcol) (tvCfgOf lib two ix av ah h).p) x d xv (fvec br) t s)
    (hi : BufInv (idxFun n (posList ix)) t.dct) (hsig : 0 < sigma) (hmu : 0 < mu) (hb0 : br ≠ 0) (hN1 : 1 ≤ N) (hN : N < INT_MAX)
    (hq : q = 1 ∨ (q = 10000 ∧ ∃ t ≤ 0, tol = Dbl.fin t)) (hal : ∀ i < 11, s.oracle (s.calls + i) = true) :
    ∃ (y : Fin (mrow * mcol) → ℝ) (s' : PState Dbl),
      CSpec (l1c_nestaM ((mrow * mcol : ℕ) : Int) x n d (tvAnaM n ((tvCfgOf lib two ix av ah h).varM (imageFunsM fw1 fw2 mrow mcol n (posList ix) two b) u))
        ⟨.fin sigma, .fin mu, tol, N⟩) s L1C_SUCCESS s' ∧
      HoldsV s' x (fvec y) ∧ s'.live = s.live ∧ s'.mem.len = s.mem.len ∧
      NearlyBest two av ah ix br sigma (anaGap q (mrow * mcol) av ah mu (anaCost two av ah (onBlack ix br)) √(∑ i, br i ^ 2) N.toNat) y := by
  have hset : TvSetR (tvCfgOf lib two ix av ah h) (idxFun n (posList ix)) av ah := ⟨tvCfgOf_set hlib ix h, rfl, rfl, hav, hah, hdim⟩
  have hI : IdxOk (mrow * mcol) (idxFun n (posList ix)) := fun i => by
    rw [posList_at]
    exact ⟨Int.natCast_nonneg _, by exact_mod_cast (ix i).2⟩
  obtain ⟨ix', Q, ok, hQ⟩ := funT_ok (t := ⟨mrow, mcol, n, posList ix, .fin av, .fin ah, false, two⟩) hlib h hI
  have e : ix' = ix := funext fun i => Fin.ext (by
    have := (ok.hix i).trans (posList_at ix i)
    exact_mod_cast this)
  rw [e] at ok
  obtain ⟨y, out, ns, g1, g2, g3, g4⟩ := tvAna_near hset ok (Nat.mul_pos h.1 h.2) hQ hinj (s := s.asN t) (b := br) (sigma := sigma) (mu := mu) (tol := tol) (N := N)
    (fun k hk => by cases hk) hi xv hN hal hsig hN1 hmu hb0 hq
  obtain ⟨s', c1, c2, -, -, c3, -⟩ := C95_refines C g1
  rw [g2] at c1 c3
  rw [g3] at c2
  exact ⟨y, s', c1, c2, (c3 (by decide)).1, (c3 (by decide)).2, g4⟩

end exact

/-! ## Examples -/

/-- DCT buffers of length 9 in blocks 0-2, a work array of length 27 full of NaN in block 3, the output array in block 4, two samples of value 1 in block 5, a
guard value in block 6 -/
noncomputable def exTvRam (orc : ℕ → Bool) : PState Dbl where
  mem := ⟨fun k => if k < 3 then 9 else if k = 3 then 27 else if k = 4 then 9 else if k < 7 then 2 else 0,
    fun a => if a.blk < 3 then .fin 0 else if a.blk = 3 then .nan else if a.blk < 6 then .fin 1 else .fin 7⟩
  live := fun k => decide (k < 7)
  next := 7
  calls := 7
  oracle := orc

theorem exTvm_has (orc : ℕ → Bool) {k N : ℕ} (h : N = if k < 3 then 9 else if k = 3 then 27 else if k = 4 then 9 else if k < 7 then 2 else 0) :
    (exTvRam orc).mem.Has ⟨k, 0⟩ (N : Int) := fun i h0 h1 => ⟨by simpa using h0, by
  show (0 : Int) + i < ((if k < 3 then 9 else if k = 3 then 27 else if k = 4 then 9 else if k < 7 then 2 else 0 : ℕ) : Int)
  rw [← h]
  omega⟩

/-- a 3 by 3 image sampled at pixels 4 and 0, both weights 1 -/
noncomputable def exTvCfg : TvCfg Dbl 3 3 2 := tvCfgOf refLib true ![4, 0] 1 1 ⟨by decide, by decide⟩

noncomputable def exTvLoc : DctFunsM Dbl := imageFunsM (fun m => ⟨copyThrough m (refLib.f1 m).fwd, copyThrough m (refLib.f1 m).inv⟩)
  (fun r c => ⟨copyThrough (r * c) (refLib.f2 r c).fwd, copyThrough (r * c) (refLib.f2 r c).inv⟩) 3 3 2 (posList (mrow := 3) (mcol := 3) ![4, 0]) true exBufs

theorem exTvm_job : job (Dbl.fin 1) = true := by
  unfold job
  rw [Dbl.lit_eq, Dbl.flt_fin]
  norm_num

theorem exTvm_p : exTvCfg.p = 27 := by
  show tvP (3 * 3) (Dbl.fin 1) (Dbl.fin 1) = 27
  unfold tvP
  rw [if_pos exTvm_job]

theorem exTvm_dims : TvDims exTvCfg := ⟨by unfold FitsInt INT_MAX INT_MIN; norm_num, by decide, fun _ => by decide⟩

theorem exTvm_sep (p : ℕ) : TvSep exBufs ⟨3, 0⟩ 9 p := ⟨exBufs_sep 9, Set.disjoint_union_left.2 ⟨Set.disjoint_union_left.2 ⟨rng_disj (by decide), rng_disj (by decide)⟩, rng_disj (by decide)⟩⟩

theorem exTvm_set : DctSetR exTvCfg.loc (idxFun 2 (posList (mrow := 3) (mcol := 3) ![4, 0])) :=
  tvCfgOf_set (two := true) (mrow := 3) (mcol := 3) refLib_ok ![4, 0] ⟨by decide, by decide⟩

theorem exTvm_impl : DctImpl exTvLoc exTvCfg.loc (BufAt exBufs) (exBufs.Own 9) :=
  imageFunsM_impl (fun _ => copyThrough_impl _) (fun _ _ => copyThrough_impl _) ⟨by decide, by decide⟩ _ true (exBufs_sep 9)

/-- the buffers as setup leaves them, the work array full of NaN -/
noncomputable def exTvBuf : TvBuf Dbl (3 * 3) exTvCfg.p := ⟨DctBuf.fresh, fun _ => .nan⟩

theorem exTvm_at (orc : ℕ → Bool) : TvAt exBufs ⟨3, 0⟩ exTvBuf (exTvRam orc) :=
  ⟨⟨⟨exTvm_has orc (by decide), fun i => by simp [exTvRam, exBufs, exTvBuf, DctBuf.fresh, lit]⟩, ⟨exTvm_has orc (by decide), fun i => by simp [exTvRam, exBufs, exTvBuf, DctBuf.fresh, lit]⟩,
    ⟨exTvm_has orc (by decide), fun i => by simp [exTvRam, exBufs, exTvBuf, DctBuf.fresh, lit]⟩⟩, ⟨exTvm_has orc (by rw [exTvm_p]; decide), fun i => by simp [exTvRam, exTvBuf]⟩⟩

theorem exTvm_call (orc : ℕ → Bool) : NCall (tvAnaM 2 (exTvCfg.varM exTvLoc ⟨3, 0⟩)) (tvAna exTvCfg) (TvAt exBufs ⟨3, 0⟩) (tvOwn exBufs ⟨3, 0⟩ 9 exTvCfg.p) ⟨4, 0⟩ ⟨5, 0⟩
    (fvec fun _ => 1) (fvec fun _ => 1) exTvBuf (exTvRam orc) :=
  C99_analysis_call exTvm_set.toSet exTvm_dims exTvm_impl (exTvm_sep _)
    (fun k hk => by
      have hk : 7 ≤ k := hk
      exact ⟨by simp [exTvRam]; omega, by
        show (if k < 3 then 9 else if k = 3 then 27 else if k = 4 then 9 else if k < 7 then 2 else 0) = 0
        rw [if_neg (by omega), if_neg (by omega), if_neg (by omega), if_neg (by omega)]⟩)
    ⟨exTvm_has orc (by decide), fun i => by simp [exTvRam, fvec]⟩ ⟨exTvm_has orc (by decide), fun i => by simp [exTvRam, fvec]⟩ (exTvm_at orc) rfl rfl
    (fun a ha => by
      rcases ha with ((ha | ha) | ha) | ha <;> · rw [ha.1]; rfl)
    (Set.disjoint_union_right.2 ⟨Set.disjoint_union_right.2 ⟨Set.disjoint_union_right.2 ⟨rng_disj (by decide), rng_disj (by decide)⟩, rng_disj (by decide)⟩, rng_disj (by decide)⟩)

/-- with enough memory the call returns an image with the samples within 1/2; the guard value stays -/
example : ∃ (y : Fin (3 * 3) → ℝ) (s' : PState Dbl), CSpec (l1c_nestaM ((3 * 3 : ℕ) : Int) ⟨4, 0⟩ ((2 : ℕ) : Int) ⟨5, 0⟩ (tvAnaM 2 (exTvCfg.varM exTvLoc ⟨3, 0⟩))
      ⟨.fin (1 / 2), .fin (1 / 100), .fin 0, 3⟩) (exTvRam fun _ => true) L1C_SUCCESS s' ∧ HoldsV s' ⟨4, 0⟩ (fvec y) ∧ s'.live = (exTvRam fun _ => true).live ∧
      √((y 4 - 1) ^ 2 + (y 0 - 1) ^ 2) ≤ 1 / 2 := by
  obtain ⟨y, s', h1, h2, h3, -, h4, -⟩ := C99_near_best (q := 1) (sigma := 1 / 2) (mu := 1 / 100) (tol := .fin 0) (N := 3) refLib_ok (two := true) (ix := (![4, 0] : Fin 2 → Fin (3 * 3)))
    (av := 1) (ah := 1) ⟨by decide, by decide⟩ (by decide) zero_le_one zero_le_one (fun _ => by decide) (exTvm_call fun _ => true) (bufInv_fresh _) (by norm_num) (by norm_num)
    (fun h => by simpa using congrFun h 0) (by decide) (by decide) (Or.inl rfl) (fun _ _ => rfl)
  refine ⟨y, s', h1, h2, h3, ?_⟩
  simpa [Fin.sum_univ_two] using h4

/-- the fifth request fails: reported, nothing leaked -/
example : ∃ st s', CSpec (l1c_nestaM ((3 * 3 : ℕ) : Int) ⟨4, 0⟩ ((2 : ℕ) : Int) ⟨5, 0⟩ (tvAnaM 2 (exTvCfg.varM exTvLoc ⟨3, 0⟩)) ⟨.fin (1 / 2), .fin (1 / 100), .fin 0, 3⟩)
      (exTvRam fun i => decide (i ≠ 11)) st s' ∧ st = L1C_OUT_OF_MEMORY ∧ s'.live = (exTvRam fun i => decide (i ≠ 11)).live := by
  obtain ⟨st, s', h1, h2, -, -, h3⟩ := C99_analysis_defined_partial (opts := ⟨.fin (1 / 2), .fin (1 / 100), .fin 0, 3⟩) exTvm_set.toSet (exTvm_call fun i => decide (i ≠ 11)) (bufInv_fresh _)
    (by rw [exTvm_p]; decide) (by decide) (fun h => by have := h 4 (by decide); simp [exTvRam] at this)
  exact ⟨st, s', h1, h3.2 ⟨4, by decide, rfl⟩, h2⟩

end L1c
