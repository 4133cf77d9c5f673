import Verif.Proofs.Bindings
import Verif.Props.L1qcDct

/-!
# Properties of the l1qc_dct functions of the Matlab and Python interfaces

C55, C61 and C62.
-/

namespace L1c
open Scalar Matrix

/-! ## Matlab -/

section matlab
variable {F : Type} [Scalar F] {lib : FftwLib F} {junk : ℕ → F} {nlhs : ℕ} {prhs : List (MxVal F)} {s s' : NState (World F)} {out : MexOut F}
  {c : MexCall F} {idx : List Int} {L : Sets F}

/-- a call with acceptable arguments, when the solver run is defined -/
theorem mex_eval (hs : s.WF) (hp : (l1qc_mex_parse nlhs prhs).run = some (.ok c)) (h0 : s.oracle s.calls = true) (h1 : s.oracle (s.calls + 1) = true)
    (hi : OneBased (c.mrow * c.mcol) (List.ofFn c.pix_idx.2) idx) {o : DctOut F} {s1 : NState (World F)}
    (h : l1qc_dct lib c.mrow c.mcol ⟨(c.mrow * c.mcol).toNat, fun i => junk i⟩ c.b.1 c.b idx DCT1 c.opts (mexCallState s) = some (o, s1))
    (hl : s1.live = (mexCallState s).live) :
    ∃ s', l1qc_dct_mex lib junk nlhs prhs s = some (.ret o.x_out (if nlhs = 2 then some (mexRes o) else none), s') ∧ s'.live = s.live ∧ s'.cb = s1.cb := by
  have n0 : s.next ∉ s.live := fun hc => absurd (hs _ hc) (lt_irrefl _)
  have n1 : s.next + 1 ∉ s.live := fun hc => absurd (hs _ hc) (by omega)
  have m1 : s.next + 1 ∈ s1.live := by rw [hl]; exact Finset.mem_insert_self _ _
  have m0 : s.next ∈ s1.live.erase (s.next + 1) := by
    rw [hl]; exact Finset.mem_erase.2 ⟨by omega, Finset.mem_insert_of_mem (Finset.mem_insert_self _ _)⟩
  refine ⟨{ s1 with live := (s1.live.erase (s.next + 1)).erase s.next }, ?_, ?_, rfl⟩
  · unfold l1qc_dct_mex
    rw [hp]
    dsimp only
    rw [nbind (nalloc_ok h0), nbind (nalloc_ok (s := ⟨insert s.next s.live, s.next + 1, s.calls + 1, s.oracle, s.cb⟩) h1), if_neg (by simp),
      show c.mcol * c.mrow = c.mrow * c.mcol from mul_comm _ _, nbind (nlift_some (mexIndices_iff.2 hi) _)]
    dsimp only
    rw [nbind (s := ⟨insert (s.next + 1) (insert s.next s.live), s.next + 1 + 1, s.calls + 1 + 1, s.oracle, s.cb⟩) h]
    rw [nbind (nfree_some m1), nbind (nfree_some (s := { s1 with live := s1.live.erase (s.next + 1) }) m0)]
    rfl
  · show (s1.live.erase (s.next + 1)).erase s.next = s.live
    rw [hl]
    exact erase_two n0 n1 (by omega)

/-- what the solver gets satisfies its preconditions -/
theorem mex_valid (hg : MexGood prhs c) (hi : OneBased (c.mrow * c.mcol) (List.ofFn c.pix_idx.2) idx) :
    idx.length = c.b.1 ∧ ValidDct c.b.1 c.mrow c.mcol idx := by
  refine ⟨(oneBased_length hi).trans (by rw [List.length_ofFn, hg.len]), ?_, hg.pos.1, hg.pos.2, fun i hm => ?_⟩
  · obtain ⟨a0, a1, a2, a3, f, rest, r0, r1, -, -, -, -, -, ⟨M, N, d, data, -, h, -, h2⟩, -⟩ := hg.args
    rw [h]
    show (0 : Int) < ((M * N : ℕ) : Int)
    exact_mod_cast (show 0 < M * N by omega)
  · obtain ⟨k, hk, rfl⟩ := List.mem_iff_getElem.1 hm
    have h2 := (List.forall₂_iff_get.1 hi).2 k (by rw [← oneBased_length hi]; exact hk) hk
    exact h2.2

/-- **C55**, Matlab: whatever the arguments, a defined call either ends with a Matlab error before the library is called,
nothing changed and all memory returned, or it calls the solver with arguments that satisfy its preconditions: a positive image
size, as many samples as indices, fewer than pixels, and indices `idx` inside the image, each one less than the whole part of
the number passed; the caller gets the image the solver leaves.  Missing: numbers that do not fit an `int` make the call
undefined (`C55_nan_false`, `C55_overflow_false`), and a fraction is cut off instead of refused (`C55_fraction_false`). -/
theorem C55_matlab_partial (hs : s.WF) (h : l1qc_dct_mex lib junk nlhs prhs s = some (out, s')) :
    (∃ id, out = .error id ∧ s'.live = s.live ∧ s'.cb = s.cb) ∨
    ∃ c idx o s1, MexGood prhs c ∧ OneBased (c.mrow * c.mcol) (List.ofFn c.pix_idx.2) idx ∧ idx.length = c.b.1 ∧ ValidDct c.b.1 c.mrow c.mcol idx ∧
      l1qc_dct lib c.mrow c.mcol ⟨(c.mrow * c.mcol).toNat, fun i => junk i⟩ c.b.1 c.b idx DCT1 c.opts (mexCallState s) = some (o, s1) ∧
      out = .ret o.x_out (if nlhs = 2 then some (mexRes o) else none) ∧ s'.cb = s1.cb := by
  rcases mex_inv hs h with ⟨id, h1, h2, h3, -⟩ | ⟨c, idx, o, s1, h1, h2, h3, h4, h5, -⟩
  · exact Or.inl ⟨id, h1, h2, h3⟩
  · have hg := parse_ok h1
    obtain ⟨v1, v2⟩ := mex_valid hg h2
    exact Or.inr ⟨c, idx, o, s1, hg, h2, v1, v2, h3, h4, h5⟩

/-- **C55**, Matlab: with at least one output, the argument lists that pass the checks are exactly the good ones, and what the
solver is given is determined by them: each option has the value of the field of its name. -/
theorem C55_arguments (hn : 1 ≤ nlhs) : (l1qc_mex_parse nlhs prhs).run = some (.ok c) ↔ MexGood prhs c :=
  ⟨parse_ok, fun h => parse_eq h hn⟩

/-- **C61**, Matlab, false: with one output argument requested, any failure of the solver or of its setup reaches the caller as
an ordinary result, the uninitialised buffer. -/
theorem C61_matlab_false (hs : s.WF) (hw : Hist lib s.cb L) (hb : ¬ L.busy false) (he : L.ever1 = false)
    (hp : (l1qc_mex_parse 1 prhs).run = some (.ok c)) (hi : OneBased (c.mrow * c.mcol) (List.ofFn c.pix_idx.2) idx)
    (h0 : s.oracle s.calls = true) (h1 : s.oracle (s.calls + 1) = true) (hx : ¬ ∀ i < 5, s.cb.oracle (s.cb.calls + i) = true) :
    ∃ s', l1qc_dct_mex lib junk 1 prhs s = some (.ret ⟨(c.mrow * c.mcol).toNat, fun i => junk i⟩ none, s') := by
  have hg := parse_ok hp
  obtain ⟨v1, v2⟩ := mex_valid hg hi
  have ht : twoDim c.mrow c.mcol DCT1 = false := by unfold twoDim; simp
  cases hset : l1c_setup_dct_transforms c.b.1 c.mrow c.mcol DCT1 idx s.cb with
  | none => exact absurd hset (C32_setup_partial hw hg.fits (by rw [ht]; exact hb) (Or.inr (Or.inl he)))
  | some r =>
    obtain ⟨⟨st, ax⟩, w1⟩ := r
    have hax : ax = none := by
      rw [setup_dct_one v2 hg.fits ht] at hset
      rcases dct1_setup_result hset with ⟨h, -⟩ | ⟨-, -, h⟩ | ⟨-, -, h⟩
      · exact absurd h hx
      · exact (Prod.mk.inj h).2
      · exact (Prod.mk.inj h).2
    subst hax
    have hrun : l1qc_dct lib c.mrow c.mcol ⟨(c.mrow * c.mcol).toNat, fun i => junk i⟩ c.b.1 c.b idx DCT1 c.opts (mexCallState s) =
        some (⟨L1C_DCT_INIT_FAILURE, none, ⟨(c.mrow * c.mcol).toNat, fun i => junk i⟩⟩, { mexCallState s with cb := w1 }) := by
      unfold l1qc_dct
      have e0 : wmul (F := F) c.mrow c.mcol (mexCallState s).cb = some (c.mrow * c.mcol, s.cb) := by
        unfold wmul; rw [if_pos hg.fits]; rfl
      rw [nbind (nrun_eq e0), nbind (nrun_eq (s := { mexCallState s with cb := s.cb }) hset)]
      rfl
    obtain ⟨s', h, -⟩ := mex_eval (nlhs := 1) hs hp h0 h1 hi hrun rfl
    exact ⟨s', h⟩

end matlab

section matlabDbl
variable {lib : FftwLib Dbl} {junk : ℕ → Dbl} {nlhs : ℕ} {prhs : List (MxVal Dbl)} {s s' : NState (World Dbl)} {c : MexCall Dbl} {L : Sets Dbl} {ks : List Int}

/-- **C55**, Matlab: if the index array holds the integers `ks` of 1..mrow*mcol and memory is granted, a defined call is no
error: the solver is called with the indices `ks - 1` and its image is returned. -/
theorem C55_accepts (hs : s.WF) (hp : (l1qc_mex_parse nlhs prhs).run = some (.ok c))
    (hk : List.ofFn c.pix_idx.2 = ks.map fun k : Int => Dbl.fin (k : ℝ)) (hr : ∀ k ∈ ks, 1 ≤ k ∧ k ≤ c.mrow * c.mcol)
    (h0 : s.oracle s.calls = true) (h1 : s.oracle (s.calls + 1) = true) {out : MexOut Dbl}
    (h : l1qc_dct_mex lib junk nlhs prhs s = some (out, s')) :
    ∃ o s1, l1qc_dct lib c.mrow c.mcol ⟨(c.mrow * c.mcol).toNat, fun i => junk i⟩ c.b.1 c.b (ks.map fun k => k - 1) DCT1 c.opts (mexCallState s) = some (o, s1) ∧
      out = .ret o.x_out (if nlhs = 2 then some (mexRes o) else none) := by
  have hg := parse_ok hp
  have hi : OneBased (c.mrow * c.mcol) (List.ofFn c.pix_idx.2) (ks.map fun k => k - 1) := by
    rw [hk]; exact oneBased_ints hg.fits hr
  rcases mex_inv hs h with ⟨id, -, -, -, k⟩ | ⟨c', idx, o, s1, h1', h2, h3, h4, -, -⟩
  · rcases k c hp with ⟨k | k, -⟩ | ⟨k, -⟩
    · rw [h0] at k; cases k
    · rw [h1] at k; cases k
    · rw [mexIndices_iff.2 hi] at k; cases k
  · rw [hp] at h1'
    cases h1'
    have e : idx = ks.map fun k => k - 1 := by
      have := (mexIndices_iff.2 h2).symm.trans (mexIndices_iff.2 hi)
      exact Option.some.inj (Option.some.inj this)
    subst e
    exact ⟨o, s1, h3, h4⟩

/-- **C55**, Matlab: if the first number of the index array outside 1..mrow*mcol is an integer (of type `int`), the call always
ends with an error, memory returned and the library untouched. -/
theorem C55_rejects (hs : s.WF) (hp : (l1qc_mex_parse nlhs prhs).run = some (.ok c)) {k : Int} {tl : List Dbl}
    (hk : List.ofFn c.pix_idx.2 = ks.map (fun k : Int => Dbl.fin (k : ℝ)) ++ Dbl.fin (k : ℝ) :: tl)
    (hr : ∀ k ∈ ks, 1 ≤ k ∧ k ≤ c.mrow * c.mcol) (hbad : k < 1 ∨ c.mrow * c.mcol < k) (hfit : INT_MIN < k ∧ k ≤ INT_MAX) :
    ∃ id s', l1qc_dct_mex lib junk nlhs prhs s = some (.error id, s') ∧ s'.live = s.live ∧ s'.cb = s.cb := by
  have hg := parse_ok hp
  have hi : mexIndices (c.mrow * c.mcol) (List.ofFn c.pix_idx.2) = some none := by
    rw [hk]; exact mexIndices_bad hg.fits hr hbad hfit
  suffices hd : ∃ out s', l1qc_dct_mex lib junk nlhs prhs s = some (out, s') by
    obtain ⟨out, s', h⟩ := hd
    rcases mex_inv hs h with ⟨id, rfl, h2, h3, -⟩ | ⟨c', idx, o, s1, h1', h2, -⟩
    · exact ⟨id, s', h, h2, h3⟩
    · rw [hp] at h1'
      cases h1'
      rw [mexIndices_iff.2 h2] at hi
      cases hi
  have n0 : s.next ∉ s.live := fun hc => absurd (hs _ hc) (lt_irrefl _)
  unfold l1qc_dct_mex
  rw [hp]
  dsimp only
  rw [show c.mcol * c.mrow = c.mrow * c.mcol from mul_comm _ _]
  cases ho : s.oracle s.calls with
  | false =>
    rw [nbind (nalloc_fail ho)]
    cases ho1 : s.oracle (s.calls + 1) with
    | false =>
      rw [nbind (nalloc_fail (s := ⟨s.live, s.next, s.calls + 1, s.oracle, s.cb⟩) ho1), if_pos (by simp)]
      exact ⟨_, _, rfl⟩
    | true =>
      rw [nbind (nalloc_ok (s := ⟨s.live, s.next, s.calls + 1, s.oracle, s.cb⟩) ho1), if_pos (by simp),
        nbind (nfree_some (Finset.mem_insert_self _ _))]
      exact ⟨_, _, rfl⟩
  | true =>
    rw [nbind (nalloc_ok ho)]
    cases ho1 : s.oracle (s.calls + 1) with
    | false =>
      rw [nbind (nalloc_fail (s := ⟨insert s.next s.live, s.next + 1, s.calls + 1, s.oracle, s.cb⟩) ho1), if_pos (by simp),
        nbind (show nfree none _ = some ((), _) from rfl), nbind (nfree_some (Finset.mem_insert_self _ _))]
      exact ⟨_, _, rfl⟩
    | true =>
      rw [nbind (nalloc_ok (s := ⟨insert s.next s.live, s.next + 1, s.calls + 1, s.oracle, s.cb⟩) ho1), if_neg (by simp), nbind (nlift_some hi _)]
      dsimp only
      rw [nbind (nfree_some (Finset.mem_insert_self _ _)),
        nbind (nfree_some (by show s.next ∈ (insert (s.next + 1) (insert s.next s.live)).erase (s.next + 1); simp))]
      exact ⟨_, _, rfl⟩

/-- **C55**, false for fractions: mrow*mcol + ½ is outside 1..mrow*mcol, yet it is taken for mrow*mcol. -/
theorem C55_fraction_false {mtot : Int} (h1 : 1 ≤ mtot) (hm : mtot ≤ INT_MAX) :
    ((mtot : ℝ) < mtot + 1 / 2) ∧ mexIndices mtot [Dbl.fin (mtot + 1 / 2)] = some (some [mtot - 1]) := by
  refine ⟨by linarith, ?_⟩
  rw [mexIndices_iff]
  refine List.Forall₂.cons ⟨?_, by omega, by omega⟩ List.Forall₂.nil
  rw [castInt_frac (by omega) hm (by norm_num) (by norm_num)]
  congr 1
  omega

/-- **C55**, false for NaN: the conversion to `int` is undefined. -/
theorem C55_nan_false (hp : (l1qc_mex_parse nlhs prhs).run = some (.ok c)) {tl : List Dbl} (hk : List.ofFn c.pix_idx.2 = Dbl.nan :: tl)
    (h0 : s.oracle s.calls = true) (h1 : s.oracle (s.calls + 1) = true) : l1qc_dct_mex lib junk nlhs prhs s = none := by
  unfold l1qc_dct_mex
  rw [hp]
  dsimp only
  rw [nbind (nalloc_ok h0), nbind (nalloc_ok (s := ⟨insert s.next s.live, s.next + 1, s.calls + 1, s.oracle, s.cb⟩) h1), if_neg (by simp), hk]
  have e : mexIndices (c.mcol * c.mrow) (Dbl.nan :: tl) = none := by
    unfold mexIndices; rw [castInt_nan]; rfl
  rw [e]
  rfl

/-- **C55**, false for sizes whose product does not fit: the product is computed before anything is checked. -/
theorem C55_overflow_false {r0 r1 : Int} (hr0 : FitsInt r0) (hr1 : FitsInt r1) (hf : ¬ FitsInt (r0 * r1)) {a2 a3 a4 : MxVal Dbl} {d0 d1 : ℕ} (hn : 1 ≤ nlhs) :
    l1qc_dct_mex lib junk nlhs [.arr ⟨true, 1, 1, d0, fun _ => .fin r0⟩, .arr ⟨true, 1, 1, d1, fun _ => .fin r1⟩, a2, a3, a4] s = none := by
  have e : (l1qc_mex_parse nlhs [.arr ⟨true, 1, 1, d0, fun _ => .fin r0⟩, .arr ⟨true, 1, 1, d1, fun _ => .fin r1⟩, a2, a3, a4]).run = none := by
    unfold l1qc_mex_parse
    dsimp only
    rw [if_neg (by omega)]
    have e0 : mexScalar (.arr ⟨true, 1, 1, d0, fun _ => Dbl.fin r0⟩ : MxVal Dbl) = pure (Dbl.fin r0) := rfl
    have e1 : mexScalar (.arr ⟨true, 1, 1, d1, fun _ => Dbl.fin r1⟩ : MxVal Dbl) = pure (Dbl.fin r1) := rfl
    rw [e0, e1, pure_bind, castInt_int, if_pos hr0]
    show ((pure r0 : MexP Int) >>= _).run = none
    rw [pure_bind, pure_bind, castInt_int, if_pos hr1]
    show ((pure r1 : MexP Int) >>= _).run = none
    rw [pure_bind, if_pos (by rw [mul_comm]; exact hf)]
    rfl
  unfold l1qc_dct_mex
  rw [e]
  rfl

example : FitsInt 50000 ∧ ¬ FitsInt (50000 * 50000) := by unfold FitsInt INT_MAX INT_MIN; omega

end matlabDbl

/-! ### A concrete call from Matlab: `l1qc_dct(2, 3, [7 8], [6 2], opts)` with every option 1 -/

section example_matlab

noncomputable def mxNum (x : ℝ) : MxArr Dbl := ⟨true, 1, 1, 2, fun _ => .fin x⟩
noncomputable def mxPair (x y : ℝ) : MxVal Dbl := .arr ⟨true, 1, 2, 2, fvec ![x, y]⟩
noncomputable def exPrhs (i j : ℝ) : List (MxVal Dbl) := [.arr (mxNum 2), .arr (mxNum 3), mxPair 7 8, mxPair i j, .struct 1 1 fun _ => some (mxNum 1)]
noncomputable def oneOpts : QOpts Dbl := ⟨.fin 1, .fin 1, .fin 1, .fin 1, 1, .fin 1, 1, .fin 1, .fin 1, 1, 1⟩
noncomputable def exCall (i j : ℝ) : MexCall Dbl := ⟨2, 3, ⟨2, fvec ![7, 8]⟩, ⟨2, fvec ![i, j]⟩, oneOpts⟩

theorem castInt_nat {k : ℕ} (h : (k : Int) ≤ INT_MAX) : castInt (Dbl.fin (k : ℝ)) = some (k : Int) := by
  have := castInt_int (k : Int)
  rw [if_pos ⟨by unfold INT_MIN; omega, h⟩] at this
  rw [← this]
  norm_cast

theorem exOpts_ok : l1qc_mex_opts (fun _ => some (mxNum 1)) = pure oneOpts := by
  have e : ∀ name, mexField (fun _ => some (mxNum 1)) name = (pure (Dbl.fin 1) : MexP Dbl) := fun _ => rfl
  have e1 : mexLift (castInt (Dbl.fin 1)) = (pure 1 : MexP Int) := by
    have := castInt_nat (k := 1) (by decide)
    rw [Nat.cast_one] at this
    rw [this]; rfl
  unfold l1qc_mex_opts
  simp only [e, e1, pure_bind]
  rfl

theorem exParse (nlhs : ℕ) (hn : 1 ≤ nlhs) (i j : ℝ) : (l1qc_mex_parse nlhs (exPrhs i j)).run = some (.ok (exCall i j)) := by
  unfold l1qc_mex_parse exPrhs
  dsimp only
  rw [if_neg (by omega)]
  have e0 : mexScalar (.arr (mxNum 2)) = (pure (Dbl.fin 2) : MexP Dbl) := rfl
  have e1 : mexScalar (.arr (mxNum 3)) = (pure (Dbl.fin 3) : MexP Dbl) := rfl
  have e2 : mexLift (castInt (Dbl.fin 2)) = (pure 2 : MexP Int) := by
    have := castInt_nat (k := 2) (by decide)
    rw [Nat.cast_ofNat] at this
    rw [this]; rfl
  have e3 : mexLift (castInt (Dbl.fin 3)) = (pure 3 : MexP Int) := by
    have := castInt_nat (k := 3) (by decide)
    rw [Nat.cast_ofNat] at this
    rw [this]; rfl
  have e4 : ∀ x y, mexArray (mxPair x y) = (pure ⟨2, fvec ![x, y]⟩ : MexP (Arr Dbl)) := fun _ _ => rfl
  rw [e0, e1, pure_bind, e2, pure_bind, pure_bind, e3, pure_bind, if_neg (by unfold FitsInt INT_MAX INT_MIN; omega), e4, e4, pure_bind, pure_bind,
    if_neg (by show ¬ (¬ (2 * 3 : Int) > (2 : ℕ) ∨ (2 : ℕ) ≠ 2 ∨ (2 : Int) ≤ 0 ∨ (3 : Int) ≤ 0); omega)]
  rw [if_neg (by simp), exOpts_ok]
  rfl

theorem exIdx (i j : Int) : List.ofFn (exCall i j).pix_idx.2 = [i, j].map fun k : Int => Dbl.fin (k : ℝ) := by
  show List.ofFn (fvec ![(i : ℝ), (j : ℝ)]) = _
  rw [List.ofFn_succ, List.ofFn_succ]
  rfl

/-- an index too large, or the zero of a caller who counts from 0, is an error -/
example (junk : ℕ → Dbl) : ∃ id s', l1qc_dct_mex refLib junk 1 (exPrhs (6 : Int) (7 : Int)) exWorld = some (.error id, s') ∧ s'.live = ∅ ∧ s'.cb = exWorld.cb :=
  C55_rejects (ks := [6]) (k := 7) (tl := []) (fun a h => by cases h) (exParse 1 (le_refl _) _ _) (exIdx 6 7)
    (fun k hk => by rw [List.mem_singleton.1 hk]; exact ⟨by norm_num, by show (6 : Int) ≤ 2 * 3; norm_num⟩)
    (Or.inr (by show (2 * 3 : Int) < 7; norm_num)) ⟨by decide, by decide⟩

example (junk : ℕ → Dbl) : ∃ id s', l1qc_dct_mex refLib junk 1 (exPrhs (0 : Int) (1 : Int)) exWorld = some (.error id, s') ∧ s'.live = ∅ ∧ s'.cb = exWorld.cb :=
  C55_rejects (ks := []) (k := 0) (tl := [.fin (1 : Int)]) (fun a h => by cases h) (exParse 1 (le_refl _) _ _) (exIdx 0 1)
    (fun k hk => by cases hk) (Or.inl (by norm_num)) ⟨by decide, by decide⟩

/-- the solver run of the calls below is defined and succeeds -/
theorem exSolve {s : NState (World Dbl)} (hs : s.WF) (hw : s.cb = exWorld.cb) (ho : ∀ k, s.oracle k = true) (x_out : Vec Dbl 6) :
    ∃ out s', l1qc_dct refLib 2 3 ⟨6, x_out⟩ 2 ⟨2, fvec ![7, 8]⟩ [5, 1] DCT1 oneOpts s = some (out, s') ∧ s'.live = s.live ∧ out.status = 0 := by
  have hf : FitsInt ((2 : ℕ) * (3 : ℕ)) := by unfold FitsInt INT_MAX INT_MIN; norm_num
  have hi : IdxOk (2 * 3) (idxFun 2 [5, 1]) := by intro i; fin_cases i <;> simp [idxFun]
  have hR := imageFuns_setR refLib_ok (two := twoDim (2 : ℕ) (3 : ℕ) DCT1) (mrow := 2) (mcol := 3) ⟨by norm_num, by norm_num⟩ hi
  obtain ⟨ix, Q, ok⟩ := funsOk hR
  have hinj : Function.Injective ix := (injective_iff ok.hix).1 (by
    intro i j hij
    fin_cases i <;> fin_cases j <;> simp [idxFun] at hij ⊢)
  have hne : Qᵀ *ᵥ scat ix ![7, 8] ≠ 0 := by
    intro hc
    have h1 : Q *ᵥ (Qᵀ *ᵥ scat ix ![7, 8]) = 0 := by rw [hc, mulVec_zero]
    rw [mulVec_mulVec, mul_eq_one_comm.1 ok.orth, one_mulVec] at h1
    have h2 := gather_scat ix hinj ![7, 8]
    rw [h1] at h2
    have := congrFun h2 0
    simp [gather] at this
  have hH : Hist refLib s.cb Sets.empty := by rw [hw]; exact exWorld_hist
  have hd : ∃ out s', l1qc_dct refLib (2 : ℕ) (3 : ℕ) ⟨6, x_out⟩ (2 : ℕ) ⟨2, fvec ![7, 8]⟩ [5, 1] DCT1 oneOpts s = some (out, s') ∧ s'.live = s.live := by
    refine C53_defined_partial (n := 2) (mrow := 2) (mcol := 3) (L := Sets.empty) hs (by rw [hw]; exact exWorld_hist) (not_busy_empty _) hf rfl
      ⟨by norm_num, by norm_num⟩ (Or.inr (Or.inl rfl)) (le_refl 6) (by norm_num) (slice_full _) ?_ (ho _)
    intro a ha
    obtain ⟨s1, e1⟩ := ok.Aty.gives hR _ Reach.fresh ![7, 8]
    rw [e1] at ha
    cases ha
    obtain ⟨⟨u, prm⟩, h1⟩ := C52_defined_partial hne (by decide) (prm := oneOpts) (fun h0 => absurd h0 (by show ¬ (1 : Int) = 0; decide))
    refine ⟨u, prm, h1, ?_⟩
    obtain ⟨t, Lb, rfl, h⟩ := init_opts h1
    have hL : Lb = 1 := h (by show ¬ (1 : Int) = 0; decide)
    subst hL
    exact ⟨by show (0 : Int) ≤ 1; decide, by show (1 : Int) < INT_MAX; decide, by show ((1 : Int).toNat : Int) < INT_MAX; decide,
      by show (1 : Int).toNat * (((1 : Int) - 1).toNat * (1 : Int)) ≤ INT_MAX; decide,
      by show (1 : Int).toNat * ((((1 : Int) - 1).toNat : Int) + 1) ≤ INT_MAX; decide⟩
  obtain ⟨out, s', h, hlive⟩ := hd
  have hset : ∃ ax w', l1c_setup_dct_transforms (2 : ℕ) (2 : ℕ) (3 : ℕ) DCT1 [5, 1] s.cb = some ((L1C_SUCCESS, some ax), w') := by
    obtain ⟨ax, w', e, -⟩ := C19_accepts (w := s.cb) (n := (2 : ℕ)) (mrow := (2 : ℕ)) (mcol := (3 : ℕ)) (dct_mode := DCT1) (idx := [5, 1]) hf
      (by unfold ValidDct; simp) (fun _ _ => by rw [hw]; rfl)
    exact ⟨ax, w', e⟩
  obtain ⟨ax, w', hset⟩ := hset
  refine ⟨out, s', h, hlive, ?_⟩
  obtain ⟨-, ⟨-, st, w', hst, e⟩ | ⟨hp, hi', ⟨-, -, i, -, h1⟩ | ⟨b', res, y, hb', hr, h1, h2, -⟩⟩⟩ :=
    C53_outcome_partial (n := 2) (mrow := 2) (mcol := 3) hs hH rfl (not_busy_empty _) h
  · rw [hset] at e; cases e
  · rw [ho] at h1; cases h1
  · dsimp only at hb'
    rw [slice_full] at hb'
    cases hb'
    rcases recover_real hR ok (opts := oneOpts) rfl hr with ⟨g, -⟩ | ⟨g, -⟩
    · exfalso
      rw [gather_scat ix hinj] at g
      simp [nrm] at g
      linarith
    · exact h2.trans g

/-- the indices 6 and 2 reach the solver as 5 and 1 -/
theorem C55_example (junk : ℕ → Dbl) : ∃ o s1 s', l1qc_dct_mex refLib junk 1 (exPrhs (6 : Int) (2 : Int)) exWorld = some (.ret o.x_out none, s') ∧
    l1qc_dct refLib 2 3 ⟨6, fun i => junk i⟩ 2 ⟨2, fvec ![7, 8]⟩ [5, 1] DCT1 oneOpts (mexCallState exWorld) = some (o, s1) ∧ s'.live = ∅ := by
  obtain ⟨o, s1, h, hl, -⟩ := exSolve (s := mexCallState exWorld) (mexCallState_wf (fun a h => by cases h)) rfl (fun _ => rfl) (fun i => junk i)
  have hi : OneBased (2 * 3) (List.ofFn (exCall (6 : Int) (2 : Int)).pix_idx.2) [5, 1] := by
    rw [exIdx]
    exact oneBased_ints (ks := [6, 2]) (by unfold FitsInt INT_MAX INT_MIN; omega) (fun k hk => by
      rcases List.mem_cons.1 hk with rfl | hk
      · norm_num
      · rw [List.mem_singleton.1 hk]; norm_num)
  obtain ⟨s', h1, h2, -⟩ := mex_eval (s := exWorld) (c := exCall (6 : Int) (2 : Int)) (nlhs := 1) (fun a h => by cases h) (exParse 1 (le_refl _) _ _) rfl rfl hi h hl
  exact ⟨o, s1, s', h1, h, h2⟩

/-- the hypotheses of `C61_matlab_false` are met: the transform library has no memory -/
example (junk : ℕ → Dbl) : ∃ s', l1qc_dct_mex refLib junk 1 (exPrhs (6 : Int) (2 : Int))
    ⟨∅, 0, 0, fun _ => true, World.init (fun _ => false) (fun _ _ => lit 0) false⟩ = some (.ret ⟨6, fun i => junk i⟩ none, s') :=
  C61_matlab_false (idx := [5, 1]) (L := Sets.empty) (fun a h => by cases h) (.start _ _) (not_busy_empty _) rfl (exParse 1 (le_refl _) _ _)
    (by
      rw [exIdx]
      exact oneBased_ints (ks := [6, 2]) (by show FitsInt (2 * 3); unfold FitsInt INT_MAX INT_MIN; omega) (fun k hk => by
        show 1 ≤ k ∧ k ≤ 2 * 3
        rcases List.mem_cons.1 hk with rfl | hk
        · norm_num
        · rw [List.mem_singleton.1 hk]; norm_num)) rfl rfl (fun h => by have := h 0 (by omega); cases this)

end example_matlab

/-! ## Python -/

section python
variable {F : Type} [Scalar F] {lib : FftwLib F} {a : PyL1qcArgs F} {s s' : NState (PyState F)} {out : PyOut F} {L : Sets F}

omit [Scalar F] in
theorem pyCallState_wf (hs : s.WF) : (pyCallState s).WF := by
  intro c hc
  rcases Finset.mem_insert.1 hc with rfl | hc
  · exact Nat.lt_succ_self _
  · have := hs c hc; show c < s.next + 1; omega

theorem toCInt_small {n : ℕ} (h : (n : Int) ≤ INT_MAX) : toCInt n = n := by
  unfold toCInt INT_MAX at *; omega

/-- **C55**, Python: whatever the arguments, a defined call either ends with an exception before the library is called, nothing
changed, or it calls the library with a valid transform mode, one-dimensional arrays of equal length, no more samples than
pixels, a size that fits an `int` and a zeroed image of that size.  What the interface does not check itself, the signs of the two
sizes, the number of samples being positive and the range of the indices, the library does: such calls end with an exception, the
library unchanged.  Missing: arrays with more than 2^31-1 entries (`C55_python_length_false`), and products that do not fit
(`C55_python_overflow_false`). -/
theorem C55_python_partial (hr : s.cb.WF) (hs : s.WF) (hsz : ∀ b, a.b = some b → (b.dim0 : Int) ≤ INT_MAX) (hsz' : ∀ p, a.pix_idx = some p → (p.dim0 : Int) ≤ INT_MAX)
    (h : py_l1qc_dct lib a s = some (out, s')) :
    (∃ kind, out = .exc kind ∧ s'.live = s.live ∧ s'.cb.w = s.cb.w ∧ s'.cb.refs = s.cb.refs) ∨
    ∃ b p, (a.dct_mode = DCT1 ∨ a.dct_mode = DCT2) ∧ a.b = some b ∧ a.pix_idx = some p ∧ b.ndim = 1 ∧ p.ndim = 1 ∧ b.dim0 = p.dim0 ∧
      FitsInt (a.mrow * a.mcol) ∧ b.dim0 ≤ a.mrow * a.mcol ∧
      (∃ o s1, l1qc_dct lib a.mrow a.mcol ⟨(a.mrow * a.mcol).toNat, fun _ => lit 0⟩ b.dim0 ⟨b.dim0, b.data⟩ (List.ofFn p.data) a.dct_mode a.opts (pyCallState s) =
        some (o, s1) ∧ s'.cb.w = s1.cb) ∧
      (¬ ValidDct b.dim0 a.mrow a.mcol (List.ofFn p.data) → out = .exc "RuntimeError" ∧ s'.cb.w = s.cb.w ∧ s'.live = s.live ∧ s'.cb.refs = s.cb.refs) := by
  rcases py_inv hr h with h | ⟨b, p, h1, h2, h3, h4, h5, h6, h7, h8, h9, h10, o, s1, h11, h12, h13, h14⟩
  · exact Or.inl h
  rw [toCInt_small (hsz b h2)] at h7 h8 h11
  rw [toCInt_small (hsz' p h3)] at h8
  have hlen : b.dim0 = p.dim0 := by exact_mod_cast h8
  rw [List.take_of_length_le (by rw [List.length_ofFn, Int.toNat_natCast, hlen])] at h11
  refine Or.inr ⟨b, p, h1, h2, h3, h4, h5, hlen, h6, h7, ⟨o, s1, h11, h12⟩, fun hv => ?_⟩
  rw [C53_rejects_partial h6 hv] at h11
  cases h11
  have n0 : s.next ∉ s.live := fun hc => absurd (hs _ hc) (lt_irrefl _)
  rcases h14 with ⟨-, k1, k2⟩ | ⟨k, -⟩ | ⟨k, -⟩
  · exact ⟨k1, h12, h13.trans (Finset.erase_insert n0), k2⟩
  · exact absurd k (by show ¬ L1C_DCT_INIT_FAILURE = 0; decide)
  · exact absurd k (by show ¬ L1C_DCT_INIT_FAILURE = 0; decide)

/-- **C55**, Python, false for very long arrays: the lengths are cut to `int` before they are compared, so 2^32 + 2 values and 2
indices agree. -/
theorem C55_python_length_false : toCInt (4294967298 : ℕ) = toCInt (2 : ℕ) ∧ toCInt (4294967298 : ℕ) = 2 := by unfold toCInt; omega

/-- **C55**, Python, false for sizes whose product does not fit: the call is undefined. -/
theorem C55_python_overflow_false {b : NpArr F} {p : NpArr Int} (hm : a.dct_mode = DCT1 ∨ a.dct_mode = DCT2) (hb : a.b = some b) (hp : a.pix_idx = some p)
    (h1 : b.ndim = 1) (h2 : p.ndim = 1) (hf : ¬ FitsInt (a.mrow * a.mcol)) (ho : s.cb.oracle s.cb.calls = true) (ho' : s.cb.oracle (s.cb.calls + 1) = true) :
    py_l1qc_dct lib a s = none := by
  unfold py_l1qc_dct
  rw [if_neg (by rintro ⟨k1, k2⟩; exact hm.elim k1 k2), hb, hp]
  have e1 : pyFromOTF (some b) s = some (some (s.cb.next, b),
      { s with cb := { s.cb with refs := Function.update s.cb.refs s.cb.next 1, next := s.cb.next + 1, calls := s.cb.calls + 1 } }) := by
    unfold pyFromOTF
    dsimp only
    rw [nbind (show pyNew s = _ from if_pos ho)]
    rfl
  rw [nbind e1]
  have e2 : ∀ t : NState (PyState F), t.cb.oracle t.cb.calls = true → pyFromOTF (some p) t = some (some (t.cb.next, p),
      { t with cb := { t.cb with refs := Function.update t.cb.refs t.cb.next 1, next := t.cb.next + 1, calls := t.cb.calls + 1 } }) := fun t ht => by
    unfold pyFromOTF
    dsimp only
    rw [nbind (show pyNew t = _ from if_pos ht)]
    rfl
  rw [nbind (e2 _ ho')]
  unfold py_l1qc_main
  dsimp only
  rw [if_neg (by rintro (k | k) <;> contradiction)]
  have e3 : ∀ t, pyC (nrun (wmul a.mrow a.mcol)) t = (none : Option (Int × NState (PyState F))) := fun t => by
    unfold pyC nrun wmul
    rw [if_neg hf]; rfl
  show (pyC (nrun (wmul a.mrow a.mcol)) _).bind _ = none
  rw [e3]; rfl

/-- **C61**, Python: an image is returned only if the solver succeeded, and it is the recovered image (`recover`), in the shape
asked for, with the solver's record. -/
theorem C61_python (hr : s.cb.WF) (hs : s.WF) (hw : Hist lib s.cb.w L) (hb : ¬ L.busy (twoDim a.mrow a.mcol a.dct_mode))
    (hsz : ∀ b, a.b = some b → (b.dim0 : Int) ≤ INT_MAX) (hsz' : ∀ p, a.pix_idx = some p → (p.dim0 : Int) ≤ INT_MAX)
    {t x r : ℕ} {rows cols : Int} {img : Arr F} {res : LBResult F} (h : py_l1qc_dct lib a s = some (.ret t x r rows cols img res, s')) :
    ∃ (mrow mcol : ℕ) (hp : 0 < mrow ∧ 0 < mcol) (b : NpArr F) (p : NpArr Int) (image : Vec F (mrow * mcol)),
      a.mrow = mrow ∧ a.mcol = mcol ∧ a.b = some b ∧ a.pix_idx = some p ∧ rows = mrow ∧ cols = mcol ∧
      recover (imageFuns lib mrow mcol b.dim0 (List.ofFn p.data) (twoDim mrow mcol a.dct_mode) hp) b.data a.opts = some (res, image) ∧
      res.status = 0 ∧ img.1 = mrow * mcol ∧ ∀ k : Fin img.1, ∃ hk : k.val < mrow * mcol, img.2 k = image ⟨k.val, hk⟩ := by
  rcases C55_python_partial hr hs hsz hsz' h with ⟨kind, h1, -⟩ | ⟨b, p, h1, h2, h3, h4, h5, h6, h7, h8, -, hv⟩
  · cases h1
  have hv' : ValidDct b.dim0 a.mrow a.mcol (List.ofFn p.data) := by
    by_contra hc
    have := (hv hc).1
    cases this
  rcases py_inv hr h with ⟨kind, k1, -⟩ | ⟨b', p', -, k2, k3, -, -, -, -, -, -, -, o, s1, k4, -, -, ⟨k5, k6, -⟩ | ⟨k5, k6, -⟩ | ⟨k5, _, _, _, -, -, -, -, -, -, k6, -⟩⟩
  · cases k1
  · cases k6
  · cases k6
  rw [h2] at k2
  rw [h3] at k3
  cases k2
  cases k3
  rw [toCInt_small (hsz b h2), List.take_of_length_le (by rw [List.length_ofFn, Int.toNat_natCast, h6])] at k4
  injection k6 with e1 e2 e3 e4 e5 e6 e7
  subst e4 e5 e6 e7
  obtain ⟨mrow, hmr⟩ := Int.eq_ofNat_of_zero_le hv'.2.1.le
  obtain ⟨mcol, hmc⟩ := Int.eq_ofNat_of_zero_le hv'.2.2.1.le
  rw [hmr, hmc] at k4 hb
  have hn : ((mrow : Int) * mcol).toNat = mrow * mcol := by
    rw [← Int.natCast_mul]; rfl
  obtain ⟨-, ⟨rfl, -⟩ | ⟨hp, -, ⟨g1, -⟩ | ⟨b', res, y, g1, g2, g3, g4, ⟨g5, -⟩ | ⟨g5, -, hlen, g6⟩⟩⟩⟩ :=
    C53_outcome_partial (pyCallState_wf hs) (show Hist lib (pyCallState s).cb L from hw) (by rw [List.length_ofFn, h6]) hb k4
  · exact absurd k5 (by show ¬ L1C_DCT_INIT_FAILURE = 0; decide)
  · exact absurd (g1.symm.trans k5) (by decide)
  · exact absurd (g4.symm.trans k5) g5
  dsimp only at g1 hlen g6
  rw [slice_full] at g1
  cases g1
  refine ⟨mrow, mcol, hp, b, p, y, hmr, hmc, h2, h3, hmr, hmc, ?_, ?_, hlen.trans hn, fun k => ?_⟩
  · rw [g3]; exact g2
  · rw [g3]; exact g5
  · have hk : k.val < mrow * mcol := lt_of_lt_of_eq k.isLt (hlen.trans hn)
    refine ⟨hk, ?_⟩
    have := g6 (Fin.cast hlen k)
    rw [dif_pos (show (Fin.cast hlen k).val < mrow * mcol from hk)] at this
    exact this

/-- **C62**, Python, memory: whatever happens, a defined call frees the image buffer and whatever the solver allocated. -/
theorem C62_memory (hr : s.cb.WF) (hs : s.WF) (hw : Hist lib s.cb.w L) (hb : ¬ L.busy (twoDim a.mrow a.mcol a.dct_mode))
    (hsz : ∀ b, a.b = some b → (b.dim0 : Int) ≤ INT_MAX) (hsz' : ∀ p, a.pix_idx = some p → (p.dim0 : Int) ≤ INT_MAX)
    (h : py_l1qc_dct lib a s = some (out, s')) : s'.live = s.live := by
  rcases C55_python_partial hr hs hsz hsz' h with ⟨kind, -, h1, -⟩ | ⟨b, p, h1, h2, h3, h4, h5, h6, h7, h8, -, hv⟩
  · exact h1
  by_cases hv' : ValidDct b.dim0 a.mrow a.mcol (List.ofFn p.data)
  swap
  · exact (hv hv').2.2.1
  rcases py_inv hr h with ⟨kind, -, k1, -⟩ | ⟨b', p', -, k2, k3, -, -, -, -, -, -, -, o, s1, k4, -, k5, -⟩
  · exact k1
  rw [h2] at k2
  rw [h3] at k3
  cases k2
  cases k3
  rw [toCInt_small (hsz b h2), List.take_of_length_le (by rw [List.length_ofFn, Int.toNat_natCast, h6])] at k4
  obtain ⟨mrow, hmr⟩ := Int.eq_ofNat_of_zero_le hv'.2.1.le
  obtain ⟨mcol, hmc⟩ := Int.eq_ofNat_of_zero_le hv'.2.2.1.le
  rw [hmr, hmc] at k4 hb
  have hl := (C53_outcome_partial (pyCallState_wf hs) (show Hist lib (pyCallState s).cb L from hw) (by rw [List.length_ofFn, h6]) hb k4).1
  have n0 : s.next ∉ s.live := fun hc => absurd (hs _ hc) (lt_irrefl _)
  rw [k5, hl]
  exact Finset.erase_insert n0

/-- **C62**, Python, references, when the call ends with an exception: every reference taken has been dropped, except possibly when
memory runs out for the result tuple itself; then the image and the dictionary stay, one reference each. -/
theorem C62_references_partial (hr : s.cb.WF) {kind : String} (h : py_l1qc_dct lib a s = some (.exc kind, s')) :
    s'.cb.refs = s.cb.refs ∨ (kind = "MemoryError" ∧ ∃ x r, x ≠ r ∧ s.cb.refs x = 0 ∧ s.cb.refs r = 0 ∧
      s'.cb.refs = Function.update (Function.update s.cb.refs x 1) r 1) := by
  rcases py_inv hr h with ⟨_, -, -, -, k1⟩ | ⟨b, p, -, -, -, -, -, -, -, -, -, -, o, s1, -, -, -, ⟨-, -, k⟩ | ⟨-, e, k | ⟨x, r, k1, k2, k3, k4⟩⟩ | ⟨-, _, _, _, -, -, -, -, -, -, k, -⟩⟩
  · exact Or.inl k1
  · exact Or.inl k
  · exact Or.inl k
  · exact Or.inr ⟨by cases e; rfl, x, r, k1, hr _ k2, hr _ k3, k4⟩
  · cases k

/-- **C62**, Python, references, false: after every successful call the image and the dictionary have two references although only
the returned tuple refers to them, so neither is ever released. -/
theorem C62_references_false (hr : s.cb.WF) {t x r : ℕ} {rows cols : Int} {img : Arr F} {res : LBResult F}
    (h : py_l1qc_dct lib a s = some (.ret t x r rows cols img res, s')) :
    s'.cb.refs t = 1 ∧ s'.cb.refs x = 2 ∧ s'.cb.refs r = 2 ∧ ∀ o, o ≠ t → o ≠ x → o ≠ r → s'.cb.refs o = s.cb.refs o := by
  rcases py_inv hr h with ⟨_, k1, -⟩ | ⟨b, p, -, -, -, -, -, -, -, -, -, -, o, s1, -, -, -, ⟨-, k, -⟩ | ⟨-, k, -⟩ | ⟨-, t', x', r', k1, k2, k3, -, -, -, k4, k5⟩⟩
  · cases k1
  · cases k
  · cases k
  injection k4 with e1 e2 e3
  subst e1 e2 e3
  rw [k5]
  refine ⟨by simp, by simp [k3, Ne.symm k1], by simp [Ne.symm k2], fun o h1 h2 h3 => by simp [h1, h2, h3]⟩

end python

/-! ### A concrete call from Python -/

section example_python

/-- a fresh interpreter with memory -/
noncomputable def exPy : NState (PyState Dbl) := ⟨∅, 0, 0, fun _ => true, freshWorld Dbl, fun _ => 0, 0, 0, fun _ => true⟩

noncomputable def exPyArgs : PyL1qcArgs Dbl := ⟨2, 3, some ⟨1, 2, fvec ![7, 8]⟩, some ⟨1, 2, ![5, 1]⟩, oneOpts, DCT1⟩

/-- `l1qc_dct(2, 3, [7, 8], [5, 1], ...)` returns an image, so the hypotheses of the theorems on successful calls are met -/
theorem C61_example : ∃ t x r img res s', py_l1qc_dct refLib exPyArgs exPy = some (.ret t x r 2 3 img res, s') ∧ s'.live = ∅ := by
  obtain ⟨o, s1, h, hl, h0⟩ := exSolve (s := pyCallState exPy) (pyCallState_wf (fun a h => by cases h)) rfl (fun _ => rfl) (fun _ => lit 0)
  have m0 : 0 ∈ s1.live := by rw [hl]; exact Finset.mem_insert_self _ _
  refine ⟨4, 2, 3, o.x_out, o.lb_res.getD ⟨inf, 0, 0, 0⟩,
    ⟨s1.live.erase 0, s1.next, s1.calls, s1.oracle, s1.cb,
      (fun q : ℕ → ℕ => Function.update (Function.update q 2 (q 2 + 1)) 3 (Function.update q 2 (q 2 + 1) 3 + 1)) (Function.update (decR (decR (Function.update (Function.update (Function.update (Function.update (fun _ => 0) 0 1) 1 1) 2 1) 3 1) (some 0)) (some 1)) 4 1), 5, 5, fun _ => true⟩, ?_, ?_⟩
  rotate_left
  · show s1.live.erase 0 = ∅
    rw [hl]; rfl
  · unfold py_l1qc_dct
    rw [if_neg (by show ¬ (DCT1 ≠ DCT1 ∧ DCT1 ≠ DCT2); decide)]
    rw [nbind (show pyFromOTF exPyArgs.b exPy = some (some (0, ⟨1, 2, fvec ![7, 8]⟩), ⟨∅, 0, 0, fun _ => true, freshWorld Dbl, Function.update (fun _ => 0) 0 1, 1, 1, fun _ => true⟩) from rfl)]
    rw [nbind (show pyFromOTF exPyArgs.pix_idx _ = some (some (1, ⟨1, 2, ![5, 1]⟩), ⟨∅, 0, 0, fun _ => true, freshWorld Dbl,
      Function.update (Function.update (fun _ => 0) 0 1) 1 1, 2, 2, fun _ => true⟩) from rfl)]
    dsimp only
    unfold py_l1qc_main
    rw [if_neg (by decide)]
    have e0 : ∀ t : NState (PyState Dbl), pyC (nrun (wmul exPyArgs.mrow exPyArgs.mcol)) t = some (6, t) := fun t => by
      unfold pyC nrun
      have : wmul (F := Dbl) exPyArgs.mrow exPyArgs.mcol t.cb.w = some (6, t.cb.w) := by
        unfold wmul; rw [if_pos (by show FitsInt (2 * 3); unfold FitsInt INT_MAX INT_MIN; omega)]; rfl
      dsimp only
      rw [this]; rfl
    rw [nbind (e0 _)]
    have ec : toCInt ((2 : ℕ) : Int) = 2 := by decide
    dsimp only
    rw [ec, if_neg (by decide), if_neg (by decide)]
    have e1 : pyC nalloc (⟨∅, 0, 0, fun _ => true, freshWorld Dbl, Function.update (Function.update (fun _ => 0) 0 1) 1 1, 2, 2, fun _ => true⟩ : NState (PyState Dbl)) =
      some (some 0, ⟨{0}, 1, 1, fun _ => true, freshWorld Dbl, Function.update (Function.update (fun _ => 0) 0 1) 1 1, 2, 2, fun _ => true⟩) := rfl
    rw [nbind e1]
    dsimp only
    have e2 : pyC (l1qc_dct refLib exPyArgs.mrow exPyArgs.mcol ⟨(6 : Int).toNat, fun _ => lit 0⟩ 2 ⟨2, fvec ![7, 8]⟩ ((List.ofFn ![5, 1]).take (2 : Int).toNat)
        exPyArgs.dct_mode exPyArgs.opts)
        (⟨{0}, 1, 1, fun _ => true, freshWorld Dbl, Function.update (Function.update (fun _ => 0) 0 1) 1 1, 2, 2, fun _ => true⟩ : NState (PyState Dbl)) =
      some (o, ⟨s1.live, s1.next, s1.calls, s1.oracle, s1.cb, Function.update (Function.update (fun _ => 0) 0 1) 1 1, 2, 2, fun _ => true⟩) := by
      unfold pyC
      have e : (List.ofFn ![(5 : Int), 1]).take (2 : Int).toNat = [5, 1] := by decide
      rw [e]
      have h' : l1qc_dct refLib exPyArgs.mrow exPyArgs.mcol ⟨(6 : Int).toNat, fun _ => lit 0⟩ 2 ⟨2, fvec ![7, 8]⟩ [5, 1]
        exPyArgs.dct_mode exPyArgs.opts ⟨{0}, 1, 1, fun _ => true, freshWorld Dbl⟩ = some (o, s1) := h
      dsimp only
      rw [h']; rfl
    rw [nbind e2, if_neg (by rw [h0]; exact fun h => h rfl)]
    rw [nbind (show pyNew _ = some (some 2, ⟨s1.live, s1.next, s1.calls, s1.oracle, s1.cb, Function.update (Function.update (Function.update (fun _ => 0) 0 1) 1 1) 2 1, 3, 3, fun _ => true⟩) from rfl)]
    dsimp only
    rw [nbind (show pyNew _ = some (some 3, ⟨s1.live, s1.next, s1.calls, s1.oracle, s1.cb, Function.update (Function.update (Function.update (Function.update (fun _ => 0) 0 1) 1 1) 2 1) 3 1, 4, 4, fun _ => true⟩) from rfl)]
    dsimp only
    rw [nbind (show pyDec (some 0) _ = some ((), ⟨s1.live, s1.next, s1.calls, s1.oracle, s1.cb, decR (Function.update (Function.update (Function.update (Function.update (fun _ => 0) 0 1) 1 1) 2 1) 3 1) (some 0), 4, 4, fun _ => true⟩) from rfl)]
    rw [nbind (show pyDec (some 1) _ = some ((), ⟨s1.live, s1.next, s1.calls, s1.oracle, s1.cb, decR (decR (Function.update (Function.update (Function.update (Function.update (fun _ => 0) 0 1) 1 1) 2 1) 3 1) (some 0)) (some 1), 4, 4, fun _ => true⟩) from rfl)]
    have e3 : pyC (nfree (some 0)) (⟨s1.live, s1.next, s1.calls, s1.oracle, s1.cb, decR (decR (Function.update (Function.update (Function.update (Function.update (fun _ => 0) 0 1) 1 1) 2 1) 3 1) (some 0)) (some 1), 4, 4, fun _ => true⟩ : NState (PyState Dbl)) = some ((), ⟨s1.live.erase 0, s1.next, s1.calls, s1.oracle, s1.cb, decR (decR (Function.update (Function.update (Function.update (Function.update (fun _ => 0) 0 1) 1 1) 2 1) 3 1) (some 0)) (some 1), 4, 4, fun _ => true⟩) := by
      unfold pyC
      rw [nfree_some (s := ⟨s1.live, s1.next, s1.calls, s1.oracle, s1.cb⟩) m0]; rfl
    rw [nbind e3]
    rw [nbind (show pyNew _ = some (some 4, ⟨s1.live.erase 0, s1.next, s1.calls, s1.oracle, s1.cb, Function.update (decR (decR (Function.update (Function.update (Function.update (Function.update (fun _ => 0) 0 1) 1 1) 2 1) 3 1) (some 0)) (some 1)) 4 1, 5, 5, fun _ => true⟩) from rfl)]
    rfl

end example_python

/-- `C55_python_partial` on the same run, `C55_python_overflow_false` on an image whose number of pixels is no `int`,
and `C62_references_partial` on a call whose positions are outside the image. -/
example : py_l1qc_dct refLib { exPyArgs with mrow := 50000, mcol := 50000 } exPy = none :=
  C55_python_overflow_false (Or.inl rfl) rfl rfl rfl rfl (by show ¬ FitsInt (50000 * 50000); unfold FitsInt INT_MAX INT_MIN; omega) rfl rfl

example {out : PyOut Dbl} {s' : NState (PyState Dbl)} (h : py_l1qc_dct refLib { exPyArgs with pix_idx := some ⟨1, 2, ![6, 1]⟩ } exPy = some (out, s')) :
    ∃ kind, out = .exc kind ∧ s'.live = ∅ := by
  have h' := C55_python_partial (fun _ _ => rfl) (fun a h => by cases h) (fun b hb => by cases hb; decide) (fun b hb => by cases hb; decide) h
  rcases h' with ⟨kind, h1, h2, -⟩ | ⟨b, p, -, hb, hp, -, -, -, -, -, -, hrej⟩
  · exact ⟨kind, h1, h2⟩
  · cases hb
    cases hp
    obtain ⟨h1, -, h2, -⟩ := hrej (by simp [ValidDct, exPyArgs])
    exact ⟨_, h1, h2⟩

section example_nan

/-- `C55_nan_false`: the same call with a NaN among the indices. -/
theorem exParseNan : (l1qc_mex_parse 1 [.arr (mxNum 2), .arr (mxNum 3), mxPair 7 8, .arr ⟨true, 1, 2, 2, ![.nan, .fin 2]⟩, .struct 1 1 fun _ => some (mxNum 1)]).run =
    some (.ok ⟨2, 3, ⟨2, fvec ![7, 8]⟩, ⟨2, ![.nan, .fin 2]⟩, oneOpts⟩) := by
  unfold l1qc_mex_parse
  dsimp only
  rw [if_neg (by omega)]
  have e0 : mexScalar (.arr (mxNum 2)) = (pure (Dbl.fin 2) : MexP Dbl) := rfl
  have e1 : mexScalar (.arr (mxNum 3)) = (pure (Dbl.fin 3) : MexP Dbl) := rfl
  have e2 : mexLift (castInt (Dbl.fin 2)) = (pure 2 : MexP Int) := by
    have := castInt_nat (k := 2) (by decide)
    rw [Nat.cast_ofNat] at this
    rw [this]; rfl
  have e3 : mexLift (castInt (Dbl.fin 3)) = (pure 3 : MexP Int) := by
    have := castInt_nat (k := 3) (by decide)
    rw [Nat.cast_ofNat] at this
    rw [this]; rfl
  have e4 : mexArray (mxPair 7 8) = (pure ⟨2, fvec ![7, 8]⟩ : MexP (Arr Dbl)) := rfl
  have e5 : mexArray (.arr ⟨true, 1, 2, 2, ![.nan, .fin 2]⟩) = (pure ⟨2, ![.nan, .fin 2]⟩ : MexP (Arr Dbl)) := rfl
  rw [e0, e1, pure_bind, e2, pure_bind, pure_bind, e3, pure_bind, if_neg (by unfold FitsInt INT_MAX INT_MIN; omega), e4, e5, pure_bind, pure_bind,
    if_neg (by show ¬ (¬ (2 * 3 : Int) > (2 : ℕ) ∨ (2 : ℕ) ≠ 2 ∨ (2 : Int) ≤ 0 ∨ (3 : Int) ≤ 0); omega)]
  rw [if_neg (by simp), exOpts_ok]
  rfl

example (junk : ℕ → Dbl) :
    l1qc_dct_mex refLib junk 1 [.arr (mxNum 2), .arr (mxNum 3), mxPair 7 8, .arr ⟨true, 1, 2, 2, ![.nan, .fin 2]⟩, .struct 1 1 fun _ => some (mxNum 1)] exWorld = none :=
  C55_nan_false exParseNan (tl := [.fin 2]) (by simp [List.ofFn_succ]) rfl rfl

end example_nan

end L1c
