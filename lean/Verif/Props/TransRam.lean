import Verif.Proofs.MatRam
import Verif.Props.NewtonRam
import Verif.Props.L1qcDct
import Verif.Props.DctTV

/-!
# C96: the library's transforms on memory

The functions of the DCT sets and of matrix sets are run on memory: scratch buffers, arguments and results are addresses, and the loops load
and store one double at a time.  The FFTW calls are any commands that fill their output with the transform of their input.
-/

namespace L1c
open Scalar Matrix

section generic
variable {F : Type} [Scalar F] {n m mrow mcol : ℕ} {s : PState F}

/-- Every function of a 1-D DCT set computes on memory what it computes on vectors: whenever the function on vectors is defined, the command is
defined under every schedule, the argument and result arrays and the buffers hold the same values, and nothing else has changed. -/
theorem C96_dct1 [NeZero m] {fwM : FftwM F} {fw : Fftw F m} (H : FftwImpl fwM fw) {b : DctPtr} (hb : b.Sep m) (idx : Int → Int) :
    DctImpl (dct1FunsM m (dct1Var m fwM b n idx)) (dct1Funs fw fun i : Fin n => idx ((i : ℕ) : Int)) (BufAt b) (b.Own m) := dct1_impl H hb n idx

/-- The same for a 2-D set. -/
theorem C96_dct2 [NeZero mrow] [NeZero mcol] {fwM : FftwM F} {fw : Fftw F (mrow * mcol)} (H : FftwImpl fwM fw) {b : DctPtr} (hb : b.Sep (mrow * mcol)) (idx : Int → Int) :
    DctImpl (dct2FunsM mrow mcol (dct2Var mrow mcol fwM b n idx)) (dct2Funs fw fun i : Fin n => idx ((i : ℕ) : Int)) (BufAt b) (b.Own (mrow * mcol)) := dct2_impl H hb n idx

/-- `Ax`, `Aty` and `AtAx` of a matrix set compute the products of the row-major matrix in memory; besides the result they change the work array
at most, and neither the matrix nor the argument. -/
theorem C96_matrix {A dwork : Ptr} (Av : Vec F (n * m)) (hd : Disjoint (Rng A (n * m)) (Rng dwork (max n m))) :
    QImpl (matFunsM n m A dwork) (matOps Av) (fun _ s => MatAt A dwork Av s) (matOwn A dwork n m) ∧
      OwnData (σ := Unit) (fun _ s => MatAt A dwork Av s) (matOwn A dwork n m) := ⟨mat_impl Av hd, mat_own Av⟩

/-- The functions of a DCT set that l1qc uses, seen from outside: they compute fixed functions (those on vectors right after setup), whatever earlier
calls left in the buffers, and leave their arguments as they are. -/
theorem C96_dct_stateless {f : DctFuns F m n} {c : DctFunsM F} {idx : Fin n → Int} {b : DctPtr} (S : DctSet f idx) (H : DctImpl c f (BufAt b) (b.Own m)) :
    QImpl c.q (dctOps f) (fun _ s => BufsAt b m idx s) (b.Own m) ∧ OwnData (σ := Unit) (fun _ s => BufsAt (F := F) b m idx s) (b.Own m) ∧
      (dctOps f).ax = pureAx f := by
  refine ⟨dct_qimpl S H, bufs_own, ?_⟩
  have key : ∀ {k l : ℕ} {op : Vec F l → DctBuf F m → Option (XOut F k l m)}, OpOk idx op →
      (fun v (_ : Unit) => some (((((op v DctBuf.fresh).map (·.res)).getD fun _ => lit 0, ()) : Vec F k × Unit))) = fun v _ => (op v DctBuf.fresh).map fun o => (o.res, ()) := by
    intro k l op ok
    funext v _
    obtain ⟨-, o', -, h2, -⟩ := ok.same v DctBuf.fresh (bufInv_fresh idx)
    rw [h2]
    rfl
  exact congr (congr (congrArg QAx.mk (key (setOk S).Ax)) (key (setOk S).Aty)) (key (setOk S).AtAx)

/-- With a sample index whose position is outside the block of the scratch buffer, `Aty` is undefined for every argument and in both dimensions (the
setup functions check the indices; the operators do not). -/
theorem C96_index_out_of_range_false (c : DctVarM F) {i : ℕ} (hi : i < c.n) (hbad : ¬ s.mem.Ok (c.buf.Ety + c.idx i)) (y x : Ptr) :
    CUB ((dct1FunsM m c).Aty y x) s ∧ CUB ((dct2FunsM mrow mcol c).Aty y x) s :=
  ⟨(cspec_assume _ s).bind_ub (CUB.bind (scatter_ub hi hbad)), CUB.bind (scatter_ub hi hbad)⟩

end generic

/-! ## The solver on a matrix in memory -/

/-- In exact arithmetic: a matrix, its work array, a nonzero start and the data anywhere in memory, in allocated blocks without overlap.  For every
allocator that grants the first request, the solver with the matrix set is defined under every schedule, releases what it allocated, and leaves
matrix and data as they were.  Status 0: `x` now holds a finite point of the constraint set of the matrix.  Otherwise `x` holds the start.
With a feasible start and enough memory the status is 0. -/
theorem C96_matrix_solved {n m : ℕ} {s : PState Dbl} {A dwork x b : Ptr} {Ar : Fin (n * m) → ℝ} (B : Matrix (Fin n) (Fin m) ℝ)
    (hB : ∀ (i : Fin n) (j : Fin m) (h : i.val * m + j.val < n * m), B i j = Ar ⟨i.val * m + j.val, h⟩) {xr : Fin m → ℝ} {br : Fin n → ℝ} {prm : QOpts Dbl} {eps : ℝ}
    (C : QCall (matFunsM n m A dwork) (matOps (fvec Ar)) (fun _ s => MatAt A dwork (fvec Ar) s) (matOwn A dwork n m) x b (fvec xr) (fvec br) () s)
    (he : prm.epsilon = Dbl.fin eps) (hnm : n ≤ m) (hx : xr ≠ 0) (hm : 2 * (m : Int) + 1 ≤ INT_MAX)
    (hl : prm.lbiter ≠ 0) (h0 : 0 ≤ prm.cg_maxiter) (h1 : prm.cg_maxiter < INT_MAX) (h2 : (prm.lbiter.toNat : Int) < INT_MAX)
    (h3 : prm.lbiter.toNat * ((prm.newton_max_iter - 1).toNat * prm.cg_maxiter) ≤ INT_MAX)
    (h4 : prm.lbiter.toNat * (((prm.newton_max_iter - 1).toNat : Int) + 1) ≤ INT_MAX) (ho : s.oracle s.calls = true) :
    ∃ res s', CSpec (l1c_l1qc_newtonM n m (matFunsM n m A dwork) x b prm) s res s' ∧ s'.live = s.live ∧ s'.mem.len = s.mem.len ∧
      HoldsV s' A (fvec Ar) ∧ HoldsV s' b (fvec br) ∧
      ((res.status = 0 ∧ ∃ x', HoldsV s' x (fvec x') ∧ nrm (B *ᵥ x' - br) ≤ eps ∧ res.l1 = Dbl.fin (∑ i, |x' i|)) ∨ (res.status ≠ 0 ∧ HoldsV s' x (fvec xr))) ∧
      (nrm (B *ᵥ xr - br) ≤ eps → (∀ i < 19, s.oracle (s.calls + i) = true) → res.status = 0) := by
  obtain ⟨⟨u, prm'⟩, hi⟩ := C52_defined_partial hx hm (prm := prm) fun h => absurd h hl
  have hL : prm'.lbiter = prm.lbiter := by
    obtain ⟨t, L, rfl, h⟩ := init_opts hi
    exact h hl
  have T : OpsTotal (fun _ => True) (matOps (fvec Ar)).ax := ⟨fun v t _ => ⟨_, _, rfl, trivial⟩, fun v t _ => ⟨_, _, rfl, trivial⟩, fun v t _ => ⟨_, _, rfl, trivial⟩⟩
  obtain ⟨o, ns, e1, -, -, -⟩ := C51_defined_partial T hnm (b := fvec br) hi h0 h1 (hL.symm ▸ h2) (hL.symm ▸ h3) (hL.symm ▸ h4) (s := s.asN ())
    (fun k hk => by cases hk) trivial ho
  have P : AxPart (matOps (fvec Ar)).ax (fun _ => True) B := ⟨fun t v y t' _ hy => ⟨trivial, fun z hz => by
      subst hz
      rw [← (Prod.mk.inj (Option.some.inj hy)).1]
      exact (C30_products Ar B hB).1 z⟩, fun _ _ _ _ _ _ => trivial, fun _ _ _ _ _ _ => trivial⟩
  obtain ⟨g1, g2, -, g4⟩ := C48_feasible_or_unchanged P he (s := s.asN ()) (fun k hk => by cases hk) trivial e1
  obtain ⟨s', c1, c2, c3, c4, c5, c6, -⟩ := C94_refines C hnm h1.le e1
  refine ⟨_, s', c1, c5, c6, c4.1, c3, ?_, g4⟩
  by_cases hs : o.res.status = 0
  · obtain ⟨-, x', d1, d2, d3⟩ := g1 hs
    exact Or.inl ⟨hs, x', d1 ▸ c2, d2, d3⟩
  · exact Or.inr ⟨hs, g2 hs ▸ c2⟩

/-! ## Examples -/

/-- every transform is computed by some command, so the contract of FFTW can be met; here the reference DCTs at all sizes -/
example {m : ℕ} [NeZero m] : ∃ fwM : FftwM Dbl, FftwImpl fwM (refFftw1 : Fftw Dbl m) := ⟨_, copyThrough_impl _⟩

/-- three buffers of length `m` in blocks 0, 1, 2 -/
def exBufs : DctPtr := ⟨⟨0, 0⟩, ⟨1, 0⟩, ⟨2, 0⟩⟩

theorem exBufs_sep (m : ℕ) : exBufs.Sep m := ⟨rng_disj (by decide), rng_disj (by decide), rng_disj (by decide)⟩

/-- buffers in blocks 0-2, a vector of ones in block 3, room for two samples in block 4, a guard value in block 5 -/
noncomputable def exBufRam : PState Dbl where
  mem := ⟨fun k => if k < 4 then 4 else if k < 6 then 2 else 0, fun a => if a.blk < 3 then .fin 0 else if a.blk = 3 then .fin 1 else .fin 7⟩
  live := fun k => decide (k < 6)
  next := 6
  calls := 6
  oracle := fun _ => true

theorem exBufRam_has {k : ℕ} (hk : k < 4) : exBufRam.mem.Has ⟨k, 0⟩ ((4 : ℕ) : Int) := fun i h0 h1 => ⟨by simpa using h0, by
  show (0 : Int) + i < ((if k < 4 then 4 else if k < 6 then 2 else 0 : ℕ) : Int)
  rw [if_pos hk]; push_cast at *; omega⟩

theorem exBufRam_has' {k : ℕ} (hk : ¬ k < 4) (hk' : k < 6) : exBufRam.mem.Has ⟨k, 0⟩ ((2 : ℕ) : Int) := fun i h0 h1 => ⟨by simpa using h0, by
  show (0 : Int) + i < ((if k < 4 then 4 else if k < 6 then 2 else 0 : ℕ) : Int)
  rw [if_neg hk, if_pos hk']; push_cast at *; omega⟩

/-- sampling a 4-point DCT at positions 2 and 0: the call is defined, the vector of ones and the guard stay -/
example : ∃ s', CSpec ((dct1FunsM 4 (dct1Var 4 ⟨copyThrough 4 refFftw1.fwd, copyThrough 4 refFftw1.inv⟩ exBufs 2 fun i => if i = 0 then 2 else 0)).Ax ⟨3, 0⟩ ⟨4, 0⟩) exBufRam () s' ∧
    HoldsV s' ⟨3, 0⟩ (fvec fun _ : Fin 4 => 1) ∧ s'.mem.val ⟨5, 0⟩ = .fin 7 ∧
    HoldsV s' ⟨4, 0⟩ ((dctOps (dct1Funs (refFftw1 : Fftw Dbl 4) fun i : Fin 2 => if ((i : ℕ) : Int) = 0 then 2 else 0)).A (fvec fun _ => 1) ()).1 := by
  have S : DctSet (dct1Funs (refFftw1 : Fftw Dbl 4) fun i : Fin 2 => if ((i : ℕ) : Int) = 0 then (2 : Int) else 0) fun i : Fin 2 => if ((i : ℕ) : Int) = 0 then 2 else 0 :=
    .d1 _ _ fun i => by fin_cases i <;> simp
  have Q := (C96_dct_stateless S (C96_dct1 (n := 2) (copyThrough_impl refFftw1) (exBufs_sep 4) fun i => if i = 0 then 2 else 0)).1
  obtain ⟨s', c1, -, c3, c4⟩ := Q.A.call () exBufRam ⟨3, 0⟩ ⟨4, 0⟩ (fvec fun _ : Fin 4 => 1)
    ⟨DctBuf.fresh, bufInv_fresh _, ⟨exBufRam_has (by decide), fun i => by simp [exBufRam, exBufs, DctBuf.fresh, lit]⟩, ⟨exBufRam_has (by decide), fun i => by simp [exBufRam, exBufs, DctBuf.fresh, lit]⟩,
      ⟨exBufRam_has (by decide), fun i => by simp [exBufRam, exBufs, DctBuf.fresh, lit]⟩⟩
    ⟨exBufRam_has (by decide), fun i => by simp [exBufRam, fvec]⟩ (exBufRam_has' (by decide) (by decide)) (rng_disj (by decide))
    (Set.disjoint_union_right.2 ⟨Set.disjoint_union_right.2 ⟨rng_disj (by decide), rng_disj (by decide)⟩, rng_disj (by decide)⟩)
    (Set.disjoint_union_right.2 ⟨Set.disjoint_union_right.2 ⟨rng_disj (by decide), rng_disj (by decide)⟩, rng_disj (by decide)⟩)
  have hv : ∀ k : ℕ, k ≠ 0 → k ≠ 1 → k ≠ 2 → k ≠ 4 → ∀ o, s'.mem.val ⟨k, o⟩ = exBufRam.mem.val ⟨k, o⟩ := fun k a b c d o => c4.val _ fun hc => by
    rcases hc with hc | (hc | hc) | hc
    · exact d hc.1
    · exact a hc.1
    · exact b hc.1
    · exact c hc.1
  refine ⟨s', c1, ⟨has_stay (exBufRam_has (by decide)) c4, fun i => ?_⟩, ?_, c3⟩
  · exact (hv 3 (by decide) (by decide) (by decide) (by decide) _).trans (by simp [exBufRam, fvec])
  · exact (hv 5 (by decide) (by decide) (by decide) (by decide) _).trans (by simp [exBufRam])

/-- the same set with an index 4 in a buffer of length 4 -/
example (y x : Ptr) : CUB ((dct1FunsM 4 (dct1Var 4 ⟨copyThrough 4 refFftw1.fwd, copyThrough 4 refFftw1.inv⟩ exBufs 2 fun i => 4 * i)).Aty y x) exBufRam :=
  (C96_index_out_of_range_false (mrow := 2) (mcol := 2) (dct1Var 4 ⟨copyThrough 4 refFftw1.fwd, copyThrough 4 refFftw1.inv⟩ exBufs 2 fun i => 4 * i) (i := 1) (by decide)
    (fun hc => by
      have := hc.2
      revert this
      show ¬ ((0 : Int) + 4 * ((1 : ℕ) : Int) < ((if 0 < 4 then 4 else if 0 < 6 then 2 else 0 : ℕ) : Int))
      decide) y x).1

/-- block 0: start (1/2, 1); block 1: data 1/3; block 2: the row (1, 0); block 3: work array; block 4: a guard -/
noncomputable def exMatRam (orc : ℕ → Bool) : PState Dbl where
  mem := ⟨fun k => if k = 1 then 1 else if k < 4 then 2 else if k = 4 then 1 else 0, fun a =>
    if a.blk = 0 then (if a.off = 0 then .fin (1 / 2) else .fin 1) else if a.blk = 1 then .fin (1 / 3) else
    if a.blk = 2 then (if a.off = 0 then .fin 1 else .fin 0) else .fin 7⟩
  live := fun k => decide (k < 5)
  next := 5
  calls := 5
  oracle := orc

theorem exMatRam_has (orc : ℕ → Bool) {k : ℕ} (hk : k ≠ 1) (hk' : k < 4) : (exMatRam orc).mem.Has ⟨k, 0⟩ ((2 : ℕ) : Int) := fun i h0 h1 => ⟨by simpa using h0, by
  show (0 : Int) + i < ((if k = 1 then 1 else if k < 4 then 2 else if k = 4 then 1 else 0 : ℕ) : Int)
  rw [if_neg hk, if_pos hk']; push_cast at *; omega⟩

theorem exMat_call (orc : ℕ → Bool) : QCall (matFunsM 1 2 ⟨2, 0⟩ ⟨3, 0⟩) (matOps (fvec ![1, 0] : Vec Dbl (1 * 2))) (fun _ s => MatAt ⟨2, 0⟩ ⟨3, 0⟩ (fvec ![1, 0] : Vec Dbl (1 * 2)) s)
    (matOwn ⟨2, 0⟩ ⟨3, 0⟩ 1 2) ⟨0, 0⟩ ⟨1, 0⟩ (fvec ![1 / 2, 1]) (fvec ![1 / 3]) () (exMatRam orc) where
  wf k hk := ⟨by simp [exMatRam] at hk ⊢; omega, by
    show (if k = 1 then 1 else if k < 4 then 2 else if k = 4 then 1 else 0 : ℕ) = 0
    have : (5 : ℕ) ≤ k := hk
    rw [if_neg (by omega), if_neg (by omega), if_neg (by omega)]⟩
  impl := (C96_matrix _ (rng_disj (by decide))).1
  own := (C96_matrix _ (rng_disj (by decide))).2
  hx := ⟨exMatRam_has orc (by decide) (by decide), fun i => by fin_cases i <;> simp [exMatRam, fvec]⟩
  hb := ⟨fun k h0 h1 => ⟨by simpa using h0, by
      show (0 : Int) + k < ((if (1 : ℕ) = 1 then 1 else if 1 < 4 then 2 else if 1 = 4 then 1 else 0 : ℕ) : Int)
      rw [if_pos rfl]; push_cast at *; omega⟩, fun i => by fin_cases i; simp [exMatRam, fvec]⟩
  hR := ⟨⟨exMatRam_has orc (by decide) (by decide), fun i => by
    have h : ∀ i : Fin 2, (exMatRam orc).mem.val ((⟨2, 0⟩ : Ptr) + ((i : ℕ) : Int)) = fvec ![1, 0] i := fun i => by fin_cases i <;> simp [exMatRam, fvec]
    exact h i⟩, exMatRam_has orc (by decide) (by decide)⟩
  xlive := rfl
  blive := rfl
  olive a h := by
    rcases h with h | h
    · rw [h.1]; rfl
    · rw [h.1]; rfl
  xb := rng_disj (by decide)
  xo := Set.disjoint_union_right.2 ⟨rng_disj (by decide), rng_disj (by decide)⟩
  bo := Set.disjoint_union_right.2 ⟨rng_disj (by decide), rng_disj (by decide)⟩

/-- with enough memory the solver returns a point with `|x'₀ - 1/3| ≤ 1` in block 0 -/
example : ∃ res s', ∃ x' : Fin 2 → ℝ, CSpec (l1c_l1qc_newtonM 1 2 (matFunsM 1 2 ⟨2, 0⟩ ⟨3, 0⟩) ⟨0, 0⟩ ⟨1, 0⟩ exOpts) (exMatRam fun _ => true) res s' ∧ res.status = 0 ∧
    HoldsV s' ⟨0, 0⟩ (fvec x') ∧ |x' 0 - 1 / 3| ≤ 1 := by
  obtain ⟨res, s', c1, -, -, -, -, c2, c3⟩ := C96_matrix_solved (!![1, 0] : Matrix (Fin 1) (Fin 2) ℝ) (Ar := ![1, 0]) (fun i j h => by fin_cases i; fin_cases j <;> rfl)
    (exMat_call fun _ => true) (prm := exOpts) (eps := 1) rfl (by decide) exHalf_ne (by decide) (by decide) (by decide) (by decide) (by decide) (by decide) (by decide) rfl
  have hst := c3 (by simp [nrm, dotProduct]; norm_num) (fun _ _ => rfl)
  rcases c2 with ⟨-, x', d1, d2, -⟩ | ⟨hc, -⟩
  · refine ⟨res, s', x', c1, hst, d1, ?_⟩
    have : nrm ((!![1, 0] : Matrix (Fin 1) (Fin 2) ℝ) *ᵥ x' - ![1 / 3]) = |x' 0 - 1 / 3| := by
      simp [nrm, dotProduct, Real.sqrt_mul_self_eq_abs]
    rw [← this]
    exact d2
  · exact absurd hst hc

end L1c
