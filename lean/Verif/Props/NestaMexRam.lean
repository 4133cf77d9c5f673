import Verif.Proofs.NestaMexMem
import Verif.Props.DctTvRam
import Verif.Props.NestaBindings

/-!
# C100: NESTA from Matlab on memory

The body of the Matlab function is run on memory with everything it allocates: the work array and the DCT set, the copy of the samples, NESTA's own arrays.
Every allocation may be refused, and memory from `l1c_malloc_double` contains anything.
-/

namespace L1c
open Scalar Matrix Cmd

section generic
variable {F : Type} [Scalar F] {s : PState F} {lib : FftwLib F} {fw1 : ℕ → FftwM F} {fw2 : ℕ → ℕ → FftwM F} {av ah : F} {idx : List Int} {mode : Int} {b z : Ptr}
  {junkU junkX : ℕ → F} {opts : NestaOpts F} {ana : Bool}

/-- Sizes, weights or indices that are not as documented are refused; the process is exactly as before. -/
theorem C100_rejects {mrow mcol n : Int} (hf : FitsInt (mrow * mcol)) (hv : ¬ ValidTv n mrow mcol av ah idx) :
    CSpec (nestaMexM fw1 fw2 junkU junkX mrow mcol n av ah mode ana idx b z opts) s L1C_INVALID_ARGUMENT s := by
  have h : CSpec (tvSetupM junkU n mrow mcol av ah mode idx) s (L1C_INVALID_ARGUMENT, none) s := (cspec_need hf s).bind (by
    rw [if_pos (bad_of hv)]
    exact .done _ _)
  exact h.bind (.done _ _)

/-- The product of the sizes is formed before anything is checked: if it does not fit in `int` the call is undefined.  So it is for documented arguments whose number
of coefficients does not fit. -/
theorem C100_overflow_false {mrow mcol n : Int} (h : ¬ FitsInt (mrow * mcol) ∨ (ValidTv n mrow mcol av ah idx ∧ ¬ FitsInt (tvP (mrow.toNat * mcol.toNat) av ah))) :
    CUB (nestaMexM fw1 fw2 junkU junkX mrow mcol n av ah mode ana idx b z opts) s := by
  by_cases hf : FitsInt (mrow * mcol)
  · obtain ⟨hv, hp⟩ := h.resolve_left (not_not.2 hf)
    refine CUB.bind ((cspec_need hf s).bind_ub ?_)
    rw [if_neg (not_bad hv)]
    exact CUB.bind (cub_need hp _)
  · exact CUB.bind (CUB.bind (cub_need hf _))

variable {mrow mcol n : ℕ} {bv : Vec F n}

/-- In analysis mode, when the first eight requests are granted and NESTA on vectors (transforms as functions, no memory) is defined for what the allocator answers from
then on: the routine returns exactly NESTA's status, under every interleaving, and its vector is in the output array.  Nothing else of the caller's memory has changed
and everything is released.  The output array may overlap the samples. -/
theorem C100_result (C : TvMexCall lib fw1 fw2 mrow mcol n av ah idx b z bv s) (h : 0 < mrow ∧ 0 < mcol) (ho : ∀ i < 8, s.oracle (s.calls + i) = true)
    {out : NestaOut F n (mrow * mcol) (tvP (mrow * mcol) av ah)} {ns : NState (TvBuf F (mrow * mcol) (tvP (mrow * mcol) av ah))}
    (hr : l1c_nesta ((mrow * mcol : ℕ) : Int) n (fun i => junkX i) bv (tvAna (mexCfg lib mrow mcol n av ah (twoDim mrow mcol mode) idx h)) opts
      ⟨∅, 0, s.calls + 8, s.oracle, ⟨DctBuf.fresh, fun i => junkU i⟩⟩ = some (out, ns)) :
    ∃ s', CSpec (nestaMexM fw1 fw2 junkU junkX mrow mcol n av ah mode true idx b z opts) s out.status s' ∧ s'.live = s.live ∧ s'.mem.len = s.mem.len ∧
      HoldsV s' z out.xk ∧ ∀ a : Ptr, s.live a.blk = true → a ∉ Rng z (mrow * mcol) → s'.mem.val a = s.mem.val a := by
  obtain ⟨-, hi⟩ := validIdx C.valid.1 C.len
  obtain ⟨r, s1, a1, ⟨-, o, rfl, U⟩ | ⟨a2, -⟩⟩ := tvAllocM_spec C.wf (twoDim mrow mcol mode) (mrow * mcol) (tvP (mrow * mcol) av ah) junkU
  · obtain ⟨x0, bo, s2, s3, b1, b2, -, -, b5, b6, b7⟩ := mexArrays U (mrow * mcol) n junkX
    obtain ⟨x, rfl⟩ := Option.isSome_iff_exists.1 (b5.2 (ho 6 (by omega)))
    obtain ⟨b', rfl⟩ := Option.isSome_iff_exists.1 (b6.2 (ho 7 (by omega)))
    obtain ⟨s4, c1, M⟩ := b7 x b' rfl rfl b bv C.hb (C.wf.lt C.blive)
    have K := mex_call (fw1 := fw1) (fw2 := fw2) (mode := mode) C.toTvPyCall h hi M
    have e : s4.asN (⟨DctBuf.fresh, fun i => junkU i⟩ : TvBuf F (mrow * mcol) (tvP (mrow * mcol) av ah)) = ⟨∅, 0, s.calls + 8, s.oracle, ⟨DctBuf.fresh, fun i => junkU i⟩⟩ := by
      unfold PState.asN
      rw [M.calls, M.ext.orc]
    have hst : out.status ≠ L1C_INCONSISTENT_ARGUMENTS := by
      have hT := tvAna_total (c := mexCfg lib mrow mcol n av ah (twoDim mrow mcol mode) idx h) (imageFuns_set (lib := lib) (two := twoDim mrow mcol mode) h hi)
      by_cases hal : ∀ i < 10, s.oracle (s.calls + 8 + i) = true
      · have := (C43_success_partial _ bv opts _ ns (fun k hk => by cases hk) hal (hT.notMissing ⟨rfl, rfl⟩) out hr).1
        rw [this]
        decide
      · obtain ⟨ns', e', -, -⟩ := nesta_oom (fun i : Fin (mrow * mcol) => junkX i) bv (tvAna (mexCfg lib mrow mcol n av ah (twoDim mrow mcol mode) idx h)) opts
          ⟨∅, 0, s.calls + 8, s.oracle, ⟨DctBuf.fresh, fun i => junkU i⟩⟩ (fun k hk => by cases hk) hal
        obtain ⟨rfl, -⟩ := Prod.mk.inj (Option.some.inj (e'.symm.trans hr))
        show L1C_OUT_OF_MEMORY ≠ L1C_INCONSISTENT_ARGUMENTS
        decide
    obtain ⟨s5, k1, k2, -, -, k3, -, k4⟩ := C95_refines K (m_arg := ((mrow * mcol : ℕ) : Int)) (n_arg := n) (opts := opts) (o := out) (ns := ns)
      ((congrArg (l1c_nesta ((mrow * mcol : ℕ) : Int) n (fun i => junkX i) bv (tvAna (mexCfg lib mrow mcol n av ah (twoDim mrow mcol mode) idx h)) opts) e).trans hr)
    obtain ⟨s', d1, d2⟩ := mex_rest C M k1 k2 (k3 hst).1 (k3 hst).2 fun a ha => by
      obtain ⟨g1, g2, g3, g4⟩ := M.caller C.wf ha
      exact k4 a g1 g2 g3 g4
    exact ⟨s', (mex_ana C a1).1 (b1.bind (b2.bind (c1.bind d1))), d2⟩
  · exact absurd (fun i hi => ho i (by omega)) a2

/-- Some request is refused, but neither the array for the unknowns nor the copy of the samples (requests 6 and 7), and the last one only after another: in analysis
mode the routine reports the failure, is defined, and leaves all of the caller's memory but the output array as it was.  Everything is released unless a
two-dimensional DCT setup failed.  Missing: see `C100_leak_false`, `C100_setup_leak_false` and `C100_last_request_false`. -/
theorem C100_out_of_memory_partial (C : TvMexCall lib fw1 fw2 mrow mcol n av ah idx b z bv s) (ho : ¬ ∀ i < 18, s.oracle (s.calls + i) = true)
    (h6 : s.oracle (s.calls + 6) = true) (h7 : s.oracle (s.calls + 7) = true) :
    ∃ st s', CSpec (nestaMexM fw1 fw2 junkU junkX mrow mcol n av ah mode true idx b z opts) s st s' ∧ (st = L1C_OUT_OF_MEMORY ∨ st = L1C_DCT_INIT_FAILURE) ∧
      (∀ a : Ptr, s.live a.blk = true → a ∉ Rng z (mrow * mcol) → s'.mem.val a = s.mem.val a) ∧
      (twoDim mrow mcol mode = false ∨ s.oracle s.calls = false ∨ (∀ i < 6, s.oracle (s.calls + i) = true) → s'.live = s.live ∧ s'.mem.len = s.mem.len) := by
  obtain ⟨h, hi⟩ := validIdx C.valid.1 C.len
  obtain ⟨r, s1, a1, ⟨g6, o, rfl, U⟩ | ⟨a2, a3, a4, a5, a6⟩⟩ := tvAllocM_spec C.wf (twoDim mrow mcol mode) (mrow * mcol) (tvP (mrow * mcol) av ah) junkU
  · obtain ⟨x0, bo, s2, s3, b1, b2, -, -, b5, b6, b7⟩ := mexArrays U (mrow * mcol) n junkX
    obtain ⟨x, rfl⟩ := Option.isSome_iff_exists.1 (b5.2 h6)
    obtain ⟨b', rfl⟩ := Option.isSome_iff_exists.1 (b6.2 h7)
    obtain ⟨s4, c1, M⟩ := b7 x b' rfl rfl b bv C.hb (C.wf.lt C.blive)
    have K := mex_call (fw1 := fw1) (fw2 := fw2) (mode := mode) C.toTvPyCall h hi M
    have hf : ¬ ∀ i < 10, s4.oracle (s4.calls + i) = true := fun hc => ho fun i hi => by
      rcases Nat.lt_or_ge i 6 with h1 | h1
      · exact g6 i h1
      rcases Nat.lt_or_ge i 8 with h2 | h2
      · rcases Nat.lt_or_ge i 7 with h3 | h3
        · rwa [show i = 6 by omega]
        · rwa [show i = 7 by omega]
      · have := hc (i - 8) (by omega)
        rwa [M.calls, M.ext.orc, show s.calls + 8 + (i - 8) = s.calls + i by omega] at this
    push Not at hf
    obtain ⟨i, hi, hf⟩ := hf
    obtain ⟨s5, k1, k2, k3, k4⟩ := C95_out_of_memory K (opts := opts) hi (Bool.eq_false_iff.2 hf)
    have xl := M.ext.liveAt (p := x) (by simp)
    obtain ⟨s', d1, d2, d3, -, d4⟩ := mex_rest C M k1 (M.hx.grow (by rw [k3]) fun q hq => k4 q (hq ▸ xl)) k2 k3 fun a ha => k4 a (M.caller C.wf ha).1
    exact ⟨_, s', (mex_ana C a1).1 (b1.bind (b2.bind (c1.bind d1))), Or.inl rfl, d4, fun _ => ⟨d2, d3⟩⟩
  · refine ⟨_, s1, mex_fails C a1 a3, a4, fun a ha _ => a5 a (C.wf.lt ha), fun hc => ?_⟩
    rcases a6 with ⟨-, e⟩ | ⟨e, e0, -⟩
    · exact e.final C.wf
    · rcases hc with hc | hc | hc
      · rw [hc] at e
        cases e
      · rw [hc] at e0
        cases e0
      · exact absurd hc a2

/-- If the set is made but the array for the unknowns or the copy of the samples is refused, the routine reports it without destroying the set: exactly six blocks
stay allocated, and nobody can release them. -/
theorem C100_leak_false (C : TvMexCall lib fw1 fw2 mrow mcol n av ah idx b z bv s) (ho : ∀ i < 6, s.oracle (s.calls + i) = true)
    (h : s.oracle (s.calls + 6) = false ∨ s.oracle (s.calls + 7) = false) :
    ∃ s', CSpec (nestaMexM fw1 fw2 junkU junkX mrow mcol n av ah mode ana idx b z opts) s L1C_OUT_OF_MEMORY s' ∧ (∀ k, s.live k = true → s'.live k = true) ∧
      {k | s'.live k = true ∧ s.live k = false}.ncard = 6 ∧ ∀ a, s.live a.blk = true → s'.mem.val a = s.mem.val a := by
  obtain ⟨r, s1, a1, ⟨-, o, rfl, U⟩ | ⟨a2, -⟩⟩ := tvAllocM_spec C.wf (twoDim mrow mcol mode) (mrow * mcol) (tvP (mrow * mcol) av ah) junkU
  · have use : ∀ (ax : NAxM F) (Mx : Ptr → Ptr → Cmd F Unit), ∃ s', CSpec (nestaMexUseM ax Mx o junkX (mrow * mcol) n b z opts) s1 L1C_OUT_OF_MEMORY s' ∧ Ext s s' o.blocks ∧ OldVals s s' := by
      intro ax Mx
      obtain ⟨x0, bo, s2, s3, b1, b2, b3, b4, b5, b6, -⟩ := mexArrays U ax.m.toNat n junkX
      obtain ⟨s4, c1, c2, c3, -⟩ := frees_spec [x0, bo] b3
      refine ⟨s4, b1.bind (b2.bind ?_), c2, fun q hq => by rw [c3]; exact b4 q hq⟩
      rcases x0 with _ | x
      · exact c1.bind (.done _ _)
      rcases bo with _ | b'
      · exact c1.bind (.done _ _)
      · exfalso
        rcases h with h | h
        · rw [b5.1 rfl] at h
          cases h
        · rw [b6.1 rfl] at h
          cases h
    have fin : ∀ s', Ext s s' o.blocks → OldVals s s' → (∀ k, s.live k = true → s'.live k = true) ∧
        {k | s'.live k = true ∧ s.live k = false}.ncard = 6 ∧ ∀ a, s.live a.blk = true → s'.mem.val a = s.mem.val a := fun s' E V =>
      ⟨fun k hk => by rw [E.old_live k (C.wf.lt hk)]; exact hk, ext_leak C.wf E (by simp [TvObj.blocks, DctObj.blocks]), fun a ha => V a (C.wf.lt ha)⟩
    cases ana
    · obtain ⟨s', k1, k2, k3⟩ := use _ _
      exact ⟨s', mex_syn C a1 k1, fin s' k2 k3⟩
    · obtain ⟨s', k1, k2, k3⟩ := use _ _
      exact ⟨s', (mex_ana C a1).1 k1, fin s' k2 k3⟩
  · exact absurd ho a2

/-- A two-dimensional DCT setup that is refused a request after its first one leaks. -/
theorem C100_setup_leak_false (C : TvMexCall lib fw1 fw2 mrow mcol n av ah idx b z bv s) (ht : twoDim mrow mcol mode = true)
    (h0 : s.oracle s.calls = true) (h1 : s.oracle (s.calls + 1) = true) (h6 : ¬ ∀ i < 6, s.oracle (s.calls + i) = true) :
    ∃ st s' k, CSpec (nestaMexM fw1 fw2 junkU junkX mrow mcol n av ah mode ana idx b z opts) s st s' ∧ (st = L1C_OUT_OF_MEMORY ∨ st = L1C_DCT_INIT_FAILURE) ∧
      s.live k = false ∧ s'.live k = true := by
  obtain ⟨r, s1, a1, ⟨a2, -⟩ | ⟨-, a3, a4, a5, ⟨hc | hc, -⟩ | ⟨-, -, L, e1, e2⟩⟩⟩ := tvAllocM_spec C.wf (twoDim mrow mcol mode) (mrow * mcol) (tvP (mrow * mcol) av ah) junkU
  · exact absurd a2 h6
  · rw [ht] at hc
    cases hc
  · rw [h0] at hc
    cases hc
  · obtain ⟨p, hp⟩ := e2 h1
    exact ⟨_, s1, p.blk, mex_fails C a1 a3, a4, (C.wf _ (e1.ptrs p hp).1).1, e1.liveAt hp⟩

/-- The last request, NESTA's stopping window, is not checked: if only it fails the call is undefined in analysis mode. -/
theorem C100_last_request_false (C : TvMexCall lib fw1 fw2 mrow mcol n av ah idx b z bv s) (ho : ∀ i < 18, s.oracle (s.calls + i) = true)
    (h : s.oracle (s.calls + 18) = false) : CUB (nestaMexM fw1 fw2 junkU junkX mrow mcol n av ah mode true idx b z opts) s := by
  obtain ⟨hp, hi⟩ := validIdx C.valid.1 C.len
  obtain ⟨r, s1, a1, ⟨g6, o, rfl, U⟩ | ⟨a2, -⟩⟩ := tvAllocM_spec C.wf (twoDim mrow mcol mode) (mrow * mcol) (tvP (mrow * mcol) av ah) junkU
  · obtain ⟨x0, bo, s2, s3, b1, b2, -, -, b5, b6, b7⟩ := mexArrays U (mrow * mcol) n junkX
    obtain ⟨x, rfl⟩ := Option.isSome_iff_exists.1 (b5.2 (ho 6 (by omega)))
    obtain ⟨b', rfl⟩ := Option.isSome_iff_exists.1 (b6.2 (ho 7 (by omega)))
    obtain ⟨s4, c1, M⟩ := b7 x b' rfl rfl b bv C.hb (C.wf.lt C.blive)
    have K := mex_call (fw1 := fw1) (fw2 := fw2) (mode := mode) C.toTvPyCall hp hi M
    have hT := tvAna_total (c := mexCfg lib mrow mcol n av ah (twoDim mrow mcol mode) idx hp) (imageFuns_set (lib := lib) (two := twoDim mrow mcol mode) hp hi)
    refine (mex_ana (st := 0) (s' := s) C a1).2 (b1.bind_ub (b2.bind_ub (c1.bind_ub (CUB.bind (C95_window_alloc_false K hT ⟨rfl, rfl⟩ (bufInv_fresh _) (fun i hi => ?_) ?_)))))
    · rw [M.calls, M.ext.orc, Nat.add_assoc]
      exact ho _ (by omega)
    · rw [M.calls, M.ext.orc, Nat.add_assoc]
      exact h
  · exact absurd (fun i hi => ho i (by omega)) a2

/-- In synthesis mode with a positive weight NESTA always refuses, though all arguments are as documented: the status is `L1C_INVALID_ARGUMENT`, and the output array
holds the transform of what the allocator left in the array for the unknowns.  Everything is released. -/
theorem C100_synthesis_false (C : TvMexCall lib fw1 fw2 mrow mcol n av ah idx b z bv s) (h : 0 < mrow ∧ 0 < mcol) (hw : job av = true ∨ job ah = true)
    (ho : ∀ i < 8, s.oracle (s.calls + i) = true) :
    ∃ out s', tvWv (mexCfg lib mrow mcol n av ah (twoDim mrow mcol mode) idx h) (fun i => junkX i) ⟨DctBuf.fresh, fun i => junkU i⟩ = some out ∧
      CSpec (nestaMexM fw1 fw2 junkU junkX mrow mcol n av ah mode false idx b z opts) s L1C_INVALID_ARGUMENT s' ∧ HoldsV s' z out.res ∧
      s'.live = s.live ∧ s'.mem.len = s.mem.len ∧ ∀ a : Ptr, s.live a.blk = true → a ∉ Rng z (mrow * mcol) → s'.mem.val a = s.mem.val a := by
  obtain ⟨-, hi⟩ := validIdx C.valid.1 C.len
  obtain ⟨r, s1, a1, ⟨-, o, rfl, U⟩ | ⟨a2, -⟩⟩ := tvAllocM_spec C.wf (twoDim mrow mcol mode) (mrow * mcol) (tvP (mrow * mcol) av ah) junkU
  · obtain ⟨x0, bo, s2, s3, b1, b2, -, -, b5, b6, b7⟩ := mexArrays U (tvP (mrow * mcol) av ah) n junkX
    obtain ⟨x, rfl⟩ := Option.isSome_iff_exists.1 (b5.2 (ho 6 (by omega)))
    obtain ⟨b', rfl⟩ := Option.isSome_iff_exists.1 (b6.2 (ho 7 (by omega)))
    obtain ⟨s4, c1, M⟩ := b7 x b' rfl rfl b bv C.hb (C.wf.lt C.blive)
    have hT := tvAna_total (c := mexCfg lib mrow mcol n av ah (twoDim mrow mcol mode) idx h) (imageFuns_set (lib := lib) (two := twoDim mrow mcol mode) h hi)
    have zl := C.wf.lt C.zlive
    have hz4 : HoldsV s4 z (fun i : Fin (mrow * mcol) => s4.mem.val (z + ((i : ℕ) : Int))) := ⟨fun k g0 g1 => ⟨(C.hz k g0 g1).1, by
      have := (C.hz k g0 g1).2
      rw [show (z + k).blk = z.blk from rfl] at this ⊢
      rw [M.ext.old_len _ zl]
      exact this⟩, fun _ => rfl⟩
    have hx := (M.ext.ptrs x (by simp)).1
    have hzo : Disjoint (Rng z (mrow * mcol)) (tvOwn o.dct.buf o.u (mrow * mcol) (tvP (mrow * mcol) av ah)) := Set.disjoint_left.2 fun a g1 g2 =>
      (M.caller C.wf (a := a) (by rw [g1.1]; exact C.zlive)).2.2.2 g2
    obtain ⟨out, hout⟩ : ∃ out, tvWv (mexCfg lib mrow mcol n av ah (twoDim mrow mcol mode) idx h) (fun i => junkX i) ⟨DctBuf.fresh, fun i => junkU i⟩ = some out := by
      obtain ⟨g, hg, hg'⟩ := hT.Wz
      cases hg
      obtain ⟨r, t', hr, -⟩ := hg' (fun i => junkX i) (fun _ => lit 0) ⟨DctBuf.fresh, fun i => junkU i⟩ (bufInv_fresh _)
      obtain ⟨out, hout, -⟩ := Option.map_eq_some_iff.1 hr
      exact ⟨out, hout⟩
    obtain ⟨s6, d1, -, -, d2, d3⟩ := (mex_impl (fw1 := fw1) (fw2 := fw2) (mode := mode) C.toTvPyCall h hi M.ext).Wv ⟨DctBuf.fresh, fun i => junkU i⟩ s4 x z (fun i => junkX i) _
      ((tvWvArg (mexCfg lib mrow mcol n av ah (twoDim mrow mcol mode) idx h) (fun i => junkX i) ⟨DctBuf.fresh, fun i => junkU i⟩, out.res), out.buf) M.tv M.hx hz4 (rng_disj (by omega)) (M.apart (by simp) _) hzo (by
        show (tvWv _ _ _).map _ = _
        rw [hout]
        rfl)
    obtain ⟨s', e1, e2, e3, e4, e5⟩ := mex_end C.wf M.ext (fun a ha => M.old a (C.wf.lt ha)) d3 (fun a ha hl => by
      obtain ⟨-, g2, -, g4⟩ := M.caller C.wf hl
      rcases ha with (ha | ha) | ha
      · exact absurd ha g2
      · exact ha
      · exact absurd ha g4) d2 C.zlive L1C_INVALID_ARGUMENT
    refine ⟨out, s', hout, mex_syn C a1 (b1.bind (b2.bind (c1.bind (CSpec.bind ?_ (d1.bind e1))))), e4, e2, e3, e5⟩
    unfold l1c_nestaM
    rw [if_pos]
    · exact .done _ _
    · right
      have hm : 0 < mrow * mcol := Nat.mul_pos h.1 h.2
      show ((mrow * mcol : ℕ) : Int) ≠ ((tvP (mrow * mcol) av ah : ℕ) : Int)
      unfold tvP
      rcases hw with hw | hw
      · rw [if_pos hw]
        push_cast
        split <;> omega
      · rw [if_pos hw]
        push_cast
        split <;> omega
  · exact absurd (fun i hi => ho i (by omega)) a2

end generic

section exact
variable {lib : FftwLib Dbl} {fw1 : ℕ → FftwM Dbl} {fw2 : ℕ → ℕ → FftwM Dbl} {mrow mcol n q : ℕ} {mode : Int} {ix : Fin n → Fin (mrow * mcol)} {av ah sigma mu : ℝ}
  {b z : Ptr} {tol : Dbl} {N : Int} {br : Fin n → ℝ} {s : PState Dbl} {junkU junkX : ℕ → Dbl}

/-- In exact arithmetic, from the caller's samples to the caller's image: samples at distinct pixels, not all zero, documented weights and sizes, `sigma` and `mu`
positive.  If the 19 requests are granted, whatever fresh memory contains and for every schedule, the analysis mode returns success.  The output array then holds an
image that fits the samples within `sigma`, no image that fits costs less by more than `anaGap`, nothing else of the caller's memory has changed, and everything is
released. -/
theorem C100_near_best (hlib : LibOk lib) (hinj : Function.Injective ix)
    (C : TvMexCall lib fw1 fw2 mrow mcol n (.fin av) (.fin ah) (posList ix) b z (fvec br) s) (hsig : 0 < sigma) (hmu : 0 < mu) (hb0 : br ≠ 0) (hN1 : 1 ≤ N) (hN : N < INT_MAX)
    (hq : q = 1 ∨ (q = 10000 ∧ ∃ t ≤ 0, tol = Dbl.fin t)) (hal : ∀ i < 19, s.oracle (s.calls + i) = true) :
    ∃ (y : Fin (mrow * mcol) → ℝ) (s' : PState Dbl),
      CSpec (nestaMexM fw1 fw2 junkU junkX mrow mcol n (.fin av) (.fin ah) mode true (posList ix) b z ⟨.fin sigma, .fin mu, tol, N⟩) s L1C_SUCCESS s' ∧
      HoldsV s' z (fvec y) ∧ s'.live = s.live ∧ s'.mem.len = s.mem.len ∧ (∀ a : Ptr, s.live a.blk = true → a ∉ Rng z (mrow * mcol) → s'.mem.val a = s.mem.val a) ∧
      NearlyBest (twoDim mrow mcol mode) av ah ix br sigma (anaGap q (mrow * mcol) av ah mu (anaCost (twoDim mrow mcol mode) av ah (onBlack ix br)) √(∑ i, br i ^ 2) N.toNat) y := by
  obtain ⟨h, hI⟩ := validIdx C.valid.1 C.len
  have T := tvReal_of_valid (syn := false) (two := twoDim mrow mcol mode) C.valid
  have hset : TvSetR (tvCfgOf lib (twoDim mrow mcol mode) ix av ah h) (idxFun n (posList ix)) av ah :=
    ⟨tvCfgOf_set hlib ix h, rfl, rfl, T.av0, T.ah0, T.dims⟩
  obtain ⟨ix', Q, ok, hQ⟩ := funT_ok (t := ⟨mrow, mcol, n, posList ix, .fin av, .fin ah, false, twoDim mrow mcol mode⟩) hlib h hI
  have e : ix' = ix := funext fun i => Fin.ext (by
    have := (ok.hix i).trans (posList_at ix i)
    exact_mod_cast this)
  rw [e] at ok
  obtain ⟨y, out, ns, g1, g2, g3, g4⟩ := tvAna_near hset ok (Nat.mul_pos h.1 h.2) hQ hinj (s := (⟨∅, 0, s.calls + 8, s.oracle, ⟨DctBuf.fresh, fun i => junkU i⟩⟩ : NState _))
    (b := br) (sigma := sigma) (mu := mu) (tol := tol) (N := N) (fun k hk => by cases hk) (bufInv_fresh _) (fun i => junkX i) hN
    (fun i hi => by
      show s.oracle (s.calls + 8 + i) = true
      rw [Nat.add_assoc]
      exact hal _ (by omega)) hsig hN1 hmu hb0 hq
  obtain ⟨s', c1, c2, c3, c4, c5⟩ := C100_result (junkU := junkU) (junkX := junkX) (mode := mode) C h (fun i hi => hal i (by omega)) g1
  rw [g2] at c1
  rw [g3] at c4
  exact ⟨y, s', c1, c4, c2, c3, c5, g4⟩

end exact

/-! ## Examples -/

/-- one block of nine doubles with the two samples of value 1 in front, and a guard value in another block -/
noncomputable def exMexRam (orc : ℕ → Bool) : PState Dbl where
  mem := ⟨fun k => if k = 0 then 9 else if k = 1 then 1 else 0, fun a => if a.blk = 0 then .fin 1 else .fin 7⟩
  live := fun k => decide (k < 2)
  next := 2
  calls := 2
  oracle := orc

/-- FFTW on memory for the examples -/
noncomputable def exF1 (m : ℕ) : FftwM Dbl := ⟨copyThrough m (refLib.f1 m).fwd, copyThrough m (refLib.f1 m).inv⟩
noncomputable def exF2 (r c : ℕ) : FftwM Dbl := ⟨copyThrough (r * c) (refLib.f2 r c).fwd, copyThrough (r * c) (refLib.f2 r c).inv⟩

/-- a 3 by 3 image from samples at pixels 4 and 0, both weights 1, written over the samples -/
theorem exMex_call (orc : ℕ → Bool) : TvMexCall refLib exF1 exF2 3 3 2 (.fin 1) (.fin 1) (posList (mrow := 3) (mcol := 3) ![4, 0]) ⟨0, 0⟩ ⟨0, 0⟩ (fvec fun _ => 1) (exMexRam orc) where
  wf := fun k hk => by
    have hk : 2 ≤ k := hk
    exact ⟨by simp [exMexRam]; omega, by
      show (if k = 0 then 9 else if k = 1 then 1 else 0) = 0
      rw [if_neg (by omega), if_neg (by omega)]⟩
  f1 := fun _ => copyThrough_impl _
  f2 := fun _ _ => copyThrough_impl _
  valid := by
    refine ⟨⟨by norm_num, by norm_num, by norm_num, fun i hi => ?_⟩, ?_, ?_, fun _ => by norm_num⟩
    · unfold posList at hi
      obtain ⟨k, rfl⟩ := (List.mem_ofFn' _ _).1 hi
      have := ((![4, 0] : Fin 2 → Fin (3 * 3)) k).2
      show (0 : Int) ≤ ((((![4, 0] : Fin 2 → Fin (3 * 3)) k : Fin (3 * 3)) : ℕ) : Int) ∧ ((((![4, 0] : Fin 2 → Fin (3 * 3)) k : Fin (3 * 3)) : ℕ) : Int) < ((3 : ℕ) : Int) * ((3 : ℕ) : Int)
      omega
    · rw [Dbl.lit_eq, Dbl.flt_fin]
      norm_num
    · rw [Dbl.lit_eq, Dbl.flt_fin]
      norm_num
  len := by simp [posList]
  fits := by unfold FitsInt INT_MAX INT_MIN; norm_num
  fitp := by
    unfold tvP
    rw [if_pos exTvm_job]
    unfold FitsInt INT_MAX INT_MIN
    norm_num
  hb := ⟨fun k h0 h1 => ⟨by simpa using h0, by
      show (0 : Int) + k < ((if (0 : ℕ) = 0 then 9 else if (0 : ℕ) = 1 then 1 else 0 : ℕ) : Int)
      push_cast at *; simp; omega⟩, fun i => by simp [exMexRam, fvec]⟩
  blive := rfl
  hz := fun k h0 h1 => ⟨by simpa using h0, by
      show (0 : Int) + k < ((if (0 : ℕ) = 0 then 9 else if (0 : ℕ) = 1 then 1 else 0 : ℕ) : Int)
      push_cast at *; simp; omega⟩
  zlive := rfl

/-- fresh memory full of NaN: the samples are overwritten by an image that has them within 1/2, the guard value stays, nothing is left allocated -/
example : ∃ (y : Fin (3 * 3) → ℝ) (s' : PState Dbl), CSpec (nestaMexM exF1 exF2 (fun _ => .nan) (fun _ => .nan) ((3 : ℕ) : Int) ((3 : ℕ) : Int) ((2 : ℕ) : Int) (.fin 1) (.fin 1) DCT2 true
      (posList (mrow := 3) (mcol := 3) ![4, 0]) ⟨0, 0⟩ ⟨0, 0⟩ ⟨.fin (1 / 2), .fin (1 / 100), .fin 0, 3⟩) (exMexRam fun _ => true) L1C_SUCCESS s' ∧ HoldsV s' ⟨0, 0⟩ (fvec y) ∧
      s'.live = (exMexRam fun _ => true).live ∧ s'.mem.val ⟨1, 0⟩ = .fin 7 ∧ √((y 4 - 1) ^ 2 + (y 0 - 1) ^ 2) ≤ 1 / 2 := by
  obtain ⟨y, s', h1, h2, h3, -, h4, h5, -⟩ := C100_near_best (mode := DCT2) (q := 1) (sigma := 1 / 2) (mu := 1 / 100) (tol := .fin 0) (N := 3) (junkU := fun _ => .nan) (junkX := fun _ => .nan)
    refLib_ok (ix := (![4, 0] : Fin 2 → Fin (3 * 3))) (by decide) (exMex_call fun _ => true) (by norm_num) (by norm_num) (fun h => by simpa using congrFun h 0) (by decide) (by decide)
    (Or.inl rfl) (fun _ _ => rfl)
  refine ⟨y, s', h1, h2, h3, (h4 ⟨1, 0⟩ rfl fun hc => by have := hc.1; cases this).trans (by simp [exMexRam]), ?_⟩
  simpa [Fin.sum_univ_two] using h5

/-- the copy of the samples is refused: six blocks leak -/
example : ∃ s', CSpec (nestaMexM exF1 exF2 (fun _ => .nan) (fun _ => .nan) ((3 : ℕ) : Int) ((3 : ℕ) : Int) ((2 : ℕ) : Int) (.fin 1) (.fin 1) DCT1 true
      (posList (mrow := 3) (mcol := 3) ![4, 0]) ⟨0, 0⟩ ⟨0, 0⟩ ⟨.fin (1 / 2), .fin (1 / 100), .fin 0, 3⟩) (exMexRam fun i => decide (i ≠ 9)) L1C_OUT_OF_MEMORY s' ∧
      {k | s'.live k = true ∧ (exMexRam fun i => decide (i ≠ 9)).live k = false}.ncard = 6 := by
  obtain ⟨s', h1, -, h2, -⟩ := C100_leak_false (mode := DCT1) (ana := true) (junkU := fun _ => .nan) (junkX := fun _ => .nan) (opts := ⟨.fin (1 / 2), .fin (1 / 100), .fin 0, 3⟩)
    (exMex_call fun i => decide (i ≠ 9)) (fun i hi => by simp [exMexRam]; omega) (Or.inr (by simp [exMexRam]))
  exact ⟨s', h1, h2⟩

/-- the last request is refused: undefined -/
example : CUB (nestaMexM exF1 exF2 (fun _ => .nan) (fun _ => .nan) ((3 : ℕ) : Int) ((3 : ℕ) : Int) ((2 : ℕ) : Int) (.fin 1) (.fin 1) DCT1 true
      (posList (mrow := 3) (mcol := 3) ![4, 0]) ⟨0, 0⟩ ⟨0, 0⟩ ⟨.fin (1 / 2), .fin (1 / 100), .fin 0, 3⟩) (exMexRam fun i => decide (i ≠ 20)) :=
  C100_last_request_false (exMex_call fun i => decide (i ≠ 20)) (fun i hi => by simp [exMexRam]; omega) (by simp [exMexRam])

/-- synthesis with a positive weight is refused -/
example : ∃ s', CSpec (nestaMexM exF1 exF2 (fun _ => .nan) (fun _ => .nan) ((3 : ℕ) : Int) ((3 : ℕ) : Int) ((2 : ℕ) : Int) (.fin 1) (.fin 1) DCT1 false
      (posList (mrow := 3) (mcol := 3) ![4, 0]) ⟨0, 0⟩ ⟨0, 0⟩ ⟨.fin (1 / 2), .fin (1 / 100), .fin 0, 3⟩) (exMexRam fun _ => true) L1C_INVALID_ARGUMENT s' := by
  obtain ⟨-, s', -, h, -⟩ := C100_synthesis_false (mode := DCT1) (junkU := fun _ => .nan) (junkX := fun _ => .nan) (opts := ⟨.fin (1 / 2), .fin (1 / 100), .fin 0, 3⟩)
    (exMex_call fun _ => true) ⟨by decide, by decide⟩ (Or.inl exTvm_job) (fun _ _ => rfl)
  exact ⟨s', h⟩

end L1c
