import Verif.Proofs.L1qcDct

/-!
# Properties of the image recovery from DCT samples

C53, C59 (and C20 for this entry point).  The routine runs on the real transform set and the real solver, in any state a client
can have brought about (`Hist`), whatever allocations fail.
-/

namespace L1c
open Scalar Matrix

set_option linter.unusedSectionVars false

/-! ## Helpers -/

section pure
variable {F : Type} [Scalar F] {m n : ℕ} {f : DctFuns F m n}

theorem recover_inv {b : Vec F n} {opts : QOpts F} {p : LBResult F × Vec F m} (h : recover f b opts = some p) :
    ∃ a u prm r v o, f.Aty b DctBuf.fresh = some a ∧ l1qc_newton_init a.res opts = some (u, prm) ∧
      l1qc_solve (pureAx f) prm b a.res u () = some (r, v) ∧ f.Mx r.x DctBuf.fresh = some o ∧ p = (r.res, o.res) := by
  unfold recover at h
  obtain ⟨a, h1, h⟩ := Option.bind_eq_some_iff.1 h
  obtain ⟨⟨u, prm⟩, h2, h⟩ := Option.bind_eq_some_iff.1 h
  obtain ⟨⟨r, v⟩, h3, h⟩ := Option.bind_eq_some_iff.1 h
  obtain ⟨o, h4, h⟩ := Option.bind_eq_some_iff.1 h
  exact ⟨a, u, prm, r, v, o, h1, h2, h3, h4, (Option.some.inj h).symm⟩

end pure

section real
variable {m n : ℕ} {f : DctFuns Dbl m n} {idx : Fin n → Int} {ix : Fin n → Fin m} {Q : Matrix (Fin m) (Fin m) ℝ}

theorem sampled_mulVec (x : Fin m → ℝ) : Q.submatrix ix id *ᵥ x = gather ix (Q *ᵥ x) := by
  funext i
  rfl

theorem pureAx_part (h : DctSetR f idx) (ok : FunsOk f idx ix Q) : AxPart (pureAx f) (fun _ => True) (Q.submatrix ix id) := by
  refine ⟨fun s v y s' _ h1 => ⟨trivial, fun x hx => ?_⟩, fun _ _ _ _ _ _ => trivial, fun _ _ _ _ _ _ => trivial⟩
  obtain ⟨s2, h2⟩ := ok.Ax.gives h _ Reach.fresh x
  subst hx
  have h1 : (f.Ax (fvec x) DctBuf.fresh).map (fun o => (o.res, ())) = some (y, s') := h1
  rw [h2] at h1
  rw [sampled_mulVec]
  exact (Prod.mk.inj (Option.some.inj h1)).1.symm

/-- the recovery in exact arithmetic -/
theorem recover_real (h : DctSetR f idx) (ok : FunsOk f idx ix Q) {b : Fin n → ℝ} {opts : QOpts Dbl} {eps : ℝ} (he : opts.epsilon = Dbl.fin eps)
    {res : LBResult Dbl} {y : Vec Dbl m} (hr : recover f (fvec b) opts = some (res, y)) :
    ((eps < nrm (gather ix (scat ix b) - b) ∧ res.status = L1C_INFEASIBLE_START) ∨
     (res.status = 0 ∧ ∃ eta : Fin m → ℝ, y = fvec (Q *ᵥ eta) ∧ res.l1 = Dbl.fin (∑ i, |eta i|) ∧ nrm (gather ix (Q *ᵥ eta) - b) ≤ eps)) := by
  obtain ⟨a, u, prm, r, v, o, h1, h2, h3, h4, h5⟩ := recover_inv hr
  obtain ⟨s1, e1⟩ := ok.Aty.gives h _ Reach.fresh b
  rw [e1] at h1
  cases h1
  obtain ⟨t, Lb, rfl, -⟩ := init_opts h2
  obtain ⟨rfl, rfl⟩ := Prod.mk.inj h5
  have hQ' : Q * Qᵀ = 1 := mul_eq_one_comm.1 ok.orth
  obtain ⟨-, ⟨g1, g2, -⟩ | ⟨g1, g2, g3, x', g4, g5⟩⟩ := solve_feasible (pureAx_part h ok) (prm := { opts with tau := t, lbiter := Lb }) he trivial h3
  · rw [sampled_mulVec, mulVec_mulVec, hQ', one_mulVec] at g1
    exact Or.inl ⟨g1, g2⟩
  · obtain ⟨s2, e2⟩ := ok.Mx.gives h _ Reach.fresh x'
    rw [g4, e2] at h4
    cases h4
    refine Or.inr ⟨g2, x', rfl, ?_, ?_⟩
    · rw [g3, g4, dasum_fvec]
    · rwa [sampled_mulVec] at g5

end real

/-! ## C20 -/

section generic
variable {F : Type} [Scalar F] {lib : FftwLib F} {L L₁ L₂ : Sets F}
variable {mrow mcol n : ℕ} {mode : Int} {idx : List Int} {b x_out : Arr F} {opts : QOpts F} {s s' : NState (World F)} {out : DctOut F}

/-- **C20 is false** for the image recovery too: the product of the sizes is formed before anything is checked. -/
theorem C20_image_overflow_false (lib : FftwLib F) {mrow mcol : Int} (hf : ¬ FitsInt (mrow * mcol)) (x_out : Arr F) (n : Int) (b : Arr F) (idx : List Int)
    (mode : Int) (opts : QOpts F) (s : NState (World F)) : l1qc_dct lib mrow mcol x_out n b idx mode opts s = none := by
  unfold l1qc_dct
  have e : nrun (wmul mrow mcol) s = none := by
    unfold nrun wmul
    rw [if_neg hf]; rfl
  show (nrun (wmul mrow mcol) s).bind _ = none
  rw [e]; rfl

example : ¬ FitsInt (50000 * 50000) := by unfold FitsInt INT_MAX INT_MIN; omega

/-! ## C53 -/

/-- **C53**, outcomes.  Whatever happened before and whatever allocations fail, a run that is defined ends in one of four
ways.  It returns 0 exactly when the recovery specification `recover` (no memory, no state, the transforms as right after
setup) succeeds; then the first `mrow*mcol` entries of `x_out` are the recovered image and the rest is untouched.
Otherwise `x_out` is untouched and the status is `L1C_DCT_INIT_FAILURE` if the transforms could not be set up,
`L1C_OUT_OF_MEMORY` if one of the next 21 requests was refused, or the status of the solver.  The arrays of
the routine and of the solver are all released. -/
theorem C53_outcome_partial (hs : s.WF) (hw : Hist lib s.cb L) (hl : idx.length = n) (hb : ¬ L.busy (twoDim mrow mcol mode))
    (h : l1qc_dct lib mrow mcol x_out n b idx mode opts s = some (out, s')) :
    s'.live = s.live ∧
    ((out = ⟨L1C_DCT_INIT_FAILURE, none, x_out⟩ ∧ ∃ st w', st ≠ L1C_SUCCESS ∧ l1c_setup_dct_transforms n mrow mcol mode idx s.cb = some ((st, none), w')) ∨
     ∃ hp : 0 < mrow ∧ 0 < mcol, IdxOk (mrow * mcol) (idxFun n idx) ∧
      ((out.status = L1C_OUT_OF_MEMORY ∧ out.x_out = x_out ∧ ∃ i < 21, s.oracle (s.calls + i) = false) ∨
       ∃ b' res image, slice n 0 b.2 = some b' ∧
        recover (imageFuns lib mrow mcol n idx (twoDim mrow mcol mode) hp) b' opts = some (res, image) ∧ out.lb_res = some res ∧ out.status = res.status ∧
        ((res.status ≠ 0 ∧ out.x_out = x_out) ∨
         (res.status = 0 ∧ mrow * mcol ≤ x_out.1 ∧ ∃ hlen : out.x_out.1 = x_out.1, ∀ k : Fin x_out.1,
            out.x_out.2 (Fin.cast hlen.symm k) = if hk : k.val < mrow * mcol then image ⟨k.val, hk⟩ else x_out.2 k)))) := by
  obtain ⟨hf, h1, ⟨st, ax⟩, w1, h2, h3⟩ := dct_inv hs hw hl hb h
  refine ⟨h1, ?_⟩
  rcases h3 with ⟨rfl, rfl, -⟩ | ⟨-, -, -, hp, hi, ⟨ho, rfl⟩ | ⟨-, -, -, b', hb', ⟨res, -, rfl, i, hi1, hi2⟩ | ⟨res, y, hr, ⟨h4, rfl⟩ | ⟨h4, z, hz, rfl⟩⟩⟩⟩
  · refine Or.inl ⟨rfl, st, w1, fun hc => ?_, h2⟩
    have := (C19_dct_setup hf h2).2.2.1.1 hc
    cases this
  · refine Or.inr ⟨hp, hi, Or.inl ⟨rfl, rfl, ?_⟩⟩
    rcases ho with ho | ho
    · exact ⟨0, by omega, ho⟩
    · exact ⟨1, by omega, ho⟩
  · exact Or.inr ⟨hp, hi, Or.inl ⟨rfl, rfl, 2 + i, by omega, by rw [← add_assoc]; exact hi2⟩⟩
  · exact Or.inr ⟨hp, hi, Or.inr ⟨b', res, y, hb', hr, rfl, rfl, Or.inl ⟨h4, rfl⟩⟩⟩
  · refine Or.inr ⟨hp, hi, Or.inr ⟨b', res, y, hb', hr, rfl, h4.symm, Or.inr ⟨h4, ?_⟩⟩⟩
    by_cases hle : mrow * mcol ≤ x_out.1
    · refine ⟨hle, rfl, fun k => ?_⟩
      rw [writeAt_eq 0 (by omega)] at hz
      show z k = _
      rw [← Option.some.inj hz]
      simp
    · unfold writeAt at hz
      rw [if_neg (by omega)] at hz
      cases hz

/-- **C53**, return value: 0 exactly when `x_out` has been overwritten by the recovered image. -/
theorem C53_status_partial (hs : s.WF) (hw : Hist lib s.cb L) (hl : idx.length = n) (hb : ¬ L.busy (twoDim mrow mcol mode))
    (h : l1qc_dct lib mrow mcol x_out n b idx mode opts s = some (out, s')) :
    (out.status ≠ 0 → out.x_out = x_out) ∧
    (out.status = 0 → ∃ hp : 0 < mrow ∧ 0 < mcol, ∃ b' res image, slice n 0 b.2 = some b' ∧
        recover (imageFuns lib mrow mcol n idx (twoDim mrow mcol mode) hp) b' opts = some (res, image) ∧ out.lb_res = some res ∧
        ∃ hlen : out.x_out.1 = x_out.1, ∀ k : Fin x_out.1,
            out.x_out.2 (Fin.cast hlen.symm k) = if hk : k.val < mrow * mcol then image ⟨k.val, hk⟩ else x_out.2 k) := by
  obtain ⟨-, ⟨rfl, -⟩ | ⟨hp, -, ⟨h1, h2, -⟩ | ⟨b', res, y, hb', hr, h1, h2, ⟨h3, h4⟩ | ⟨h3, -, h4⟩⟩⟩⟩ := C53_outcome_partial hs hw hl hb h
  · exact ⟨fun _ => rfl, fun hc => absurd hc (by show ¬ L1C_DCT_INIT_FAILURE = 0; decide)⟩
  · exact ⟨fun _ => h2, fun hc => absurd (h1.symm.trans hc) (by decide)⟩
  · exact ⟨fun _ => h4, fun hc => absurd (h2.symm.trans hc) h3⟩
  · exact ⟨fun hc => absurd (h2.trans h3) hc, fun _ => ⟨hp, b', res, y, hb', hr, h1, h4⟩⟩

/-- **C53**, release.  A defined run, whatever its result, leaves a state from which every guarantee about transform sets still
holds, and with no other set live nothing stays allocated unless a 2-D setup failed.  Missing: 2-D setups that fail. -/
theorem C53_released_partial (hs : s.WF) (hw : Hist lib s.cb L) (hl : idx.length = n) (hb : ¬ L.busy (twoDim mrow mcol mode))
    (h : l1qc_dct lib mrow mcol x_out n b idx mode opts s = some (out, s')) :
    s'.live = s.live ∧ (∃ st, Hist lib s'.cb (L.note1 (twoDim mrow mcol mode) st)) ∧
    (L.idle → twoDim mrow mcol mode = false ∨ out.status ≠ L1C_DCT_INIT_FAILURE → ∀ c, s'.cb.obj c = none) := by
  obtain ⟨hf, h1, ⟨st, ax⟩, w1, h2, h3⟩ := dct_inv hs hw hl hb h
  have key : ∃ st, Hist lib s'.cb (L.note1 (twoDim mrow mcol mode) st) ∧
      (twoDim mrow mcol mode = false ∨ out.status ≠ L1C_DCT_INIT_FAILURE → (L.note1 (twoDim mrow mcol mode) st).lost = L.lost) := by
    rcases h3 with ⟨rfl, rfl, rfl⟩ | ⟨-, -, hH, -⟩
    · have := Hist.dct n mrow mcol mode idx hw hl hb h2
      have hst : ¬ st = L1C_SUCCESS := fun hc => by
        have := (C19_dct_setup hf h2).2.2.1.1 hc
        cases this
      rw [if_neg hst] at this
      refine ⟨_, this, fun hc => ?_⟩
      rcases hc with hc | hc
      · simp [Sets.note1, hc]
      · exact absurd rfl hc
    · refine ⟨_, hH, fun _ => ?_⟩
      simp [Sets.note1, L1C_SUCCESS, L1C_OUT_OF_MEMORY, L1C_DCT_INIT_FAILURE]
  obtain ⟨st', hH, hk⟩ := key
  exact ⟨h1, ⟨st', hH⟩, fun hi hc c => C32_no_leak_partial hH ⟨hi.1, hi.2.1, hi.2.2.1, hi.2.2.2.1, (hk hc).trans hi.2.2.2.2⟩ c⟩

/-- Where the release fails: a 2-D setup that runs out of memory after its first request leaves an allocation behind. -/
theorem C53_released_false (hw : s.cb.WF) (hf : FitsInt (mrow * mcol)) (hv : ValidDct n mrow mcol idx) (ht : twoDim mrow mcol mode = true)
    (h0 : s.cb.oracle s.cb.calls = true) (h5 : ¬ ∀ i < 5, s.cb.oracle (s.cb.calls + i) = true) :
    ∃ s' c, l1qc_dct lib mrow mcol x_out n b idx mode opts s = some (⟨L1C_DCT_INIT_FAILURE, none, x_out⟩, s') ∧
      s.cb.obj c = none ∧ s'.cb.obj c ≠ none := by
  obtain ⟨st, w', c, e, h1, h2⟩ := C32_no_leak_false hw hf hv ht h0 h5
  refine ⟨{ s with cb := w' }, c, ?_, h1, h2⟩
  unfold l1qc_dct
  have e0 : wmul (F := F) (mrow : Int) mcol s.cb = some ((mrow : Int) * mcol, s.cb) := by
    unfold wmul; rw [if_pos hf]
  rw [nbind (nrun_eq e0), nbind (nrun_eq (s := { s with cb := s.cb }) e)]
  rfl

/-- Invalid sizes or indices are refused with `L1C_DCT_INIT_FAILURE`, nothing allocated, nothing changed. -/
theorem C53_rejects_partial {mrow mcol n : Int} (hf : FitsInt (mrow * mcol)) (hv : ¬ ValidDct n mrow mcol idx) :
    l1qc_dct lib mrow mcol x_out n b idx mode opts s = some (⟨L1C_DCT_INIT_FAILURE, none, x_out⟩, s) := by
  unfold l1qc_dct
  have e0 : wmul (F := F) mrow mcol s.cb = some (mrow * mcol, s.cb) := by
    unfold wmul; rw [if_pos hf]
  rw [nbind (nrun_eq e0), nbind (nrun_eq (s := { s with cb := s.cb }) (C19_rejects hf hv))]
  rfl

/-- **C59**, no influence of the past: two defined runs on the same data, in any two programs with any histories and any
allocation failures, give the same result whenever neither reports a failed setup or lack of memory. -/
theorem C59_same_result {s₁ s₂ s₁' s₂' : NState (World F)} {o₁ o₂ : DctOut F} (hs₁ : s₁.WF) (hs₂ : s₂.WF) (hw₁ : Hist lib s₁.cb L₁) (hw₂ : Hist lib s₂.cb L₂)
    (hl : idx.length = n) (hb₁ : ¬ L₁.busy (twoDim mrow mcol mode)) (hb₂ : ¬ L₂.busy (twoDim mrow mcol mode))
    (h₁ : l1qc_dct lib mrow mcol x_out n b idx mode opts s₁ = some (o₁, s₁')) (h₂ : l1qc_dct lib mrow mcol x_out n b idx mode opts s₂ = some (o₂, s₂'))
    (hn₁ : o₁.status ≠ L1C_DCT_INIT_FAILURE ∧ o₁.status ≠ L1C_OUT_OF_MEMORY) (hn₂ : o₂.status ≠ L1C_DCT_INIT_FAILURE ∧ o₂.status ≠ L1C_OUT_OF_MEMORY) :
    o₁ = o₂ := by
  obtain ⟨-, -, r1, v1, -, k1⟩ := dct_inv hs₁ hw₁ hl hb₁ h₁
  obtain ⟨-, -, r2, v2, -, k2⟩ := dct_inv hs₂ hw₂ hl hb₂ h₂
  rcases k1 with ⟨-, rfl, -⟩ | ⟨-, -, -, hp, hi, ⟨ho, rfl⟩ | ⟨-, -, -, b', hb', ⟨res, -, rfl, -⟩ | ⟨res, y, hr, k1⟩⟩⟩
  · exact absurd rfl hn₁.1
  · exact absurd rfl hn₁.2
  · exact absurd rfl hn₁.2
  rcases k2 with ⟨-, rfl, -⟩ | ⟨-, -, -, hp, hi, ⟨ho, rfl⟩ | ⟨-, -, -, c', hc', ⟨res', -, rfl, -⟩ | ⟨res', y', hr', k2⟩⟩⟩
  · exact absurd rfl hn₂.1
  · exact absurd rfl hn₂.2
  · exact absurd rfl hn₂.2
  rw [hb'] at hc'
  cases hc'
  rw [hr] at hr'
  cases hr'
  rcases k1 with ⟨g1, rfl⟩ | ⟨g1, z, hz, rfl⟩ <;> rcases k2 with ⟨g2, rfl⟩ | ⟨g2, z', hz', rfl⟩
  · rfl
  · exact absurd g2 g1
  · exact absurd g1 g2
  · rw [hz] at hz'
    cases hz'
    rfl

/-- **C53**, definedness: positive sizes, arrays long enough, not more samples than pixels, the automatic options
defined, counters that fit, and the memory request for the solver's `u` granted.  Every other failure of the allocator,
in the setup (outside the failures of C32), the routine or the solver is handled. -/
theorem C53_defined_partial (hs : s.WF) (hw : Hist lib s.cb L) (hb : ¬ L.busy (twoDim mrow mcol mode)) (hf : FitsInt (mrow * mcol))
    (hl : idx.length = n) (hp : 0 < mrow ∧ 0 < mcol)
    (hx : twoDim mrow mcol mode = true ∨ L.ever1 = false ∨ ∀ i < 3, s.cb.oracle (s.cb.calls + i) = true) (hxo : mrow * mcol ≤ x_out.1)
    (hnm : n ≤ mrow * mcol) {b' : Vec F n} (hb' : slice n 0 b.2 = some b')
    (hi : ∀ a, (imageFuns lib mrow mcol n idx (twoDim mrow mcol mode) hp).Aty b' DctBuf.fresh = some a →
      ∃ u prm, l1qc_newton_init a.res opts = some (u, prm) ∧ CountersFit prm)
    (ho2 : s.oracle (s.calls + 2) = true) :
    ∃ out s', l1qc_dct lib mrow mcol x_out n b idx mode opts s = some (out, s') ∧ s'.live = s.live := by
  cases hset : l1c_setup_dct_transforms n mrow mcol mode idx s.cb with
  | none => exact absurd hset (C32_setup_partial hw hf hb hx)
  | some r =>
    obtain ⟨⟨st, ax⟩, w1⟩ := r
    suffices hd : ∃ out s', l1qc_dct lib mrow mcol x_out n b idx mode opts s = some (out, s') by
      obtain ⟨out, s', h⟩ := hd
      exact ⟨out, s', h, (C53_outcome_partial hs hw hl hb h).1⟩
    cases ax with
    | none =>
      unfold l1qc_dct
      have e0 : wmul (F := F) (mrow : Int) mcol s.cb = some ((mrow : Int) * mcol, s.cb) := by
        unfold wmul; rw [if_pos hf]
      rw [nbind (nrun_eq e0), nbind (nrun_eq (s := { s with cb := s.cb }) hset)]
      exact ⟨_, _, rfl⟩
    | some ax =>
      obtain ⟨-, -, -, -, hIdx, -⟩ := setup_live hw hl hb hf hset
      obtain ⟨a, ha⟩ := (dctSet_total (imageFuns_set (lib := lib) (two := twoDim mrow mcol mode) hp hIdx)).2.1 b'
      obtain ⟨u, prm, h1, h2⟩ := hi a ha
      exact dct_total hs hw hl hb hf hp hset hxo hnm hb' ha h1 h2 ho2

/-- Where the full statement fails: the solver's first request is refused. -/
theorem C53_first_alloc_failure_false (hs : s.WF) (hw : Hist lib s.cb L) (hl : idx.length = n) (hb : ¬ L.busy (twoDim mrow mcol mode))
    (hf : FitsInt (mrow * mcol)) (hv : ValidDct n mrow mcol idx) (h5 : ∀ i < 5, s.cb.oracle (s.cb.calls + i) = true)
    (h01 : ∀ i < 2, s.oracle (s.calls + i) = true) (h2 : s.oracle (s.calls + 2) = false) :
    l1qc_dct lib mrow mcol x_out n b idx mode opts s = none := by
  cases h : l1qc_dct lib mrow mcol x_out n b idx mode opts s with
  | none => rfl
  | some r =>
    obtain ⟨-, -, r', w1, e, k⟩ := dct_inv hs hw hl hb (out := r.1) (s' := r.2) h
    obtain ⟨ax, w', e', -⟩ := C19_accepts (dct_mode := mode) hf hv h5
    rw [e'] at e
    cases e
    rcases k with ⟨k, -⟩ | ⟨-, -, -, -, -, ⟨k | k, -⟩ | ⟨-, -, k, -⟩⟩
    · cases k
    · have := h01 0 (by omega); rw [add_zero, k] at this; cases this
    · rw [h01 1 (by omega)] at k; cases k
    · rw [h2] at k; cases k

/-- Where the full statement fails: more samples than pixels (the setup accepts repeated indices) overrun a work array. -/
theorem C53_more_samples_false (hs : s.WF) (hw : Hist lib s.cb L) (hl : idx.length = n) (hb : ¬ L.busy (twoDim mrow mcol mode))
    (hf : FitsInt (mrow * mcol)) (hv : ValidDct n mrow mcol idx) (h5 : ∀ i < 5, s.cb.oracle (s.cb.calls + i) = true)
    (ho : ∀ i < 21, s.oracle (s.calls + i) = true) (hnm : mrow * mcol < n) :
    l1qc_dct lib mrow mcol x_out n b idx mode opts s = none := by
  cases h : l1qc_dct lib mrow mcol x_out n b idx mode opts s with
  | none => rfl
  | some r =>
    obtain ⟨-, ⟨-, st, w', hst, e⟩ | ⟨hp, hi, ⟨-, -, i, h1, h2⟩ | ⟨b', res, y, -, hr, -⟩⟩⟩ := C53_outcome_partial hs hw hl hb (out := r.1) (s' := r.2) h
    · obtain ⟨ax, w', e', -⟩ := C19_accepts (dct_mode := mode) hf hv h5
      rw [e'] at e
      cases e
    · rw [ho i h1] at h2; cases h2
    · obtain ⟨a, u, prm, r, v, o, -, -, h3, -, -⟩ := recover_inv hr
      have := (solve_inv h3).1
      omega

end generic

section exact
variable {lib : FftwLib Dbl} {L : Sets Dbl}
variable {mrow mcol n : ℕ} {mode : Int} {idx : List Int} {b : Fin n → ℝ} {x_out : Arr Dbl} {opts : QOpts Dbl} {s s' : NState (World Dbl)} {out : DctOut Dbl}

/-- **C59**, the result in exact arithmetic.  On success the image is finite and is the inverse DCT of coefficients `eta`
whose 1-norm is reported; the samples of the image match the data within `epsilon`. -/
theorem C59_recovers (hlib : LibOk lib) {eps : ℝ} (he : opts.epsilon = Dbl.fin eps) (hs : s.WF) (hw : Hist lib s.cb L) (hl : idx.length = n)
    (hb : ¬ L.busy (twoDim mrow mcol mode))
    (h : l1qc_dct lib mrow mcol x_out n ⟨n, fvec b⟩ idx mode opts s = some (out, s')) (h0 : out.status = 0) :
    ∃ (hp : 0 < mrow ∧ 0 < mcol) (M : (Fin (mrow * mcol) → ℝ) → Fin (mrow * mcol) → ℝ) (eta : Fin (mrow * mcol) → ℝ) (res : LBResult Dbl)
      (hlen : out.x_out.1 = x_out.1),
      Gives (imageFuns lib mrow mcol n idx (twoDim mrow mcol mode) hp) (imageFuns lib mrow mcol n idx (twoDim mrow mcol mode) hp).Mx M ∧
      (∀ k : Fin x_out.1, out.x_out.2 (Fin.cast hlen.symm k) = if hk : k.val < mrow * mcol then Dbl.fin (M eta ⟨k.val, hk⟩) else x_out.2 k) ∧
      out.lb_res = some res ∧ res.l1 = Dbl.fin (∑ i, |eta i|) ∧
      ∃ hi : ∀ i : Fin n, (idxFun n idx i).toNat < mrow * mcol,
        √(∑ i, (M eta ⟨(idxFun n idx i).toNat, hi i⟩ - b i) ^ 2) ≤ eps := by
  obtain ⟨-, ⟨rfl, -⟩ | ⟨hp, hi, ⟨h1, -⟩ | ⟨b', res, y, hb', hr, h1, h2, ⟨h3, -⟩ | ⟨h3, -, hlen, h4⟩⟩⟩⟩ := C53_outcome_partial hs hw hl hb h
  · exact absurd h0 (by show ¬ L1C_DCT_INIT_FAILURE = 0; decide)
  · exact absurd (h1.symm.trans h0) (by decide)
  · exact absurd (h2.symm.trans h0) h3
  have hR := imageFuns_setR hlib (two := twoDim mrow mcol mode) hp hi
  obtain ⟨ix, Q, ok⟩ := funsOk hR
  dsimp only at hb'
  rw [slice_full] at hb'
  cases hb'
  rcases recover_real hR ok he hr with ⟨-, g⟩ | ⟨-, eta, rfl, g2, g3⟩
  · exact absurd (g.symm.trans h3) (by decide)
  refine ⟨hp, _, eta, res, hlen, ok.Mx.gives hR, h4, h1, g2, fun i => ?_, ?_⟩
  · have := hi i; omega
  · have e : ∀ i, (⟨(idxFun n idx i).toNat, by have := hi i; omega⟩ : Fin (mrow * mcol)) = ix i := fun i => Fin.ext (by
      show (idxFun n idx i).toNat = (ix i : ℕ)
      rw [← ok.hix i]; rfl)
    refine le_trans (le_of_eq ?_) g3
    unfold nrm
    congr 1
    unfold dotProduct
    refine Finset.sum_congr rfl fun i _ => ?_
    rw [e i]
    simp only [Pi.sub_apply, gather]
    ring

/-- **C59**, with distinct sample positions and `epsilon ≥ 0` the start `Aᵀb` is feasible, so the recovery never refuses:
a defined run returns 0 unless the setup fails or memory runs out. -/
theorem C59_never_infeasible (hlib : LibOk lib) {eps : ℝ} (he : opts.epsilon = Dbl.fin eps) (heps : 0 ≤ eps) (hs : s.WF) (hw : Hist lib s.cb L)
    (hl : idx.length = n) (hd : idx.Nodup) (hb : ¬ L.busy (twoDim mrow mcol mode))
    (h : l1qc_dct lib mrow mcol x_out n ⟨n, fvec b⟩ idx mode opts s = some (out, s')) :
    out.status = 0 ∨ out.status = L1C_DCT_INIT_FAILURE ∨ out.status = L1C_OUT_OF_MEMORY := by
  obtain ⟨-, ⟨rfl, -⟩ | ⟨hp, hi, ⟨h1, -⟩ | ⟨b', res, y, hb', hr, h1, h2, -⟩⟩⟩ := C53_outcome_partial hs hw hl hb h
  · exact Or.inr (Or.inl rfl)
  · exact Or.inr (Or.inr h1)
  have hR := imageFuns_setR hlib (two := twoDim mrow mcol mode) hp hi
  obtain ⟨ix, Q, ok⟩ := funsOk hR
  dsimp only at hb'
  rw [slice_full] at hb'
  cases hb'
  rcases recover_real hR ok he hr with ⟨g, -⟩ | ⟨g, -⟩
  · exfalso
    have hinj : Function.Injective (idxFun n idx) := by
      intro i j hij
      have h3 : ∀ k : Fin n, idxFun n idx k = idx[k.val]'(by omega) := fun k => by
        unfold idxFun
        simp [hl]
      rw [h3, h3] at hij
      exact Fin.ext ((List.Nodup.getElem_inj_iff hd).1 hij)
    rw [gather_scat ix ((injective_iff ok.hix).1 hinj)] at g
    have : nrm (b - b) = 0 := by simp [nrm]
    rw [this] at g
    linarith
  · exact Or.inl (h2.trans g)

/-- Where the full statement fails: all-zero data with the automatic iteration count. -/
theorem C53_zero_data_false (hlib : LibOk lib) (hm : 2 * ((mrow * mcol : ℕ) : Int) + 1 ≤ INT_MAX) (hlb : opts.lbiter = 0)
    {lbtol mu : ℝ} (ht : opts.lbtol = Dbl.fin lbtol) (ht0 : 0 < lbtol) (hmu : opts.mu = Dbl.fin mu) (hmu1 : 1 < mu) (hs : s.WF) (hw : Hist lib s.cb L)
    (hl : idx.length = n) (hb : ¬ L.busy (twoDim mrow mcol mode)) (hv : ValidDct n mrow mcol idx)
    (h5 : ∀ i < 5, s.cb.oracle (s.cb.calls + i) = true) (ho : ∀ i < 21, s.oracle (s.calls + i) = true) :
    l1qc_dct lib mrow mcol x_out n ⟨n, fvec 0⟩ idx mode opts s = none := by
  have hf : FitsInt (mrow * mcol) := by
    unfold FitsInt INT_MIN
    push_cast at hm
    constructor
    · have : (0 : Int) ≤ mrow * mcol := by positivity
      omega
    · have : (0 : Int) ≤ mrow * mcol := by positivity
      omega
  cases h : l1qc_dct lib mrow mcol x_out n ⟨n, fvec 0⟩ idx mode opts s with
  | none => rfl
  | some r =>
    obtain ⟨-, ⟨-, st, w', hst, e⟩ | ⟨hp, hi, ⟨-, -, i, h1, h2⟩ | ⟨b', res, y, hb', hr, -⟩⟩⟩ := C53_outcome_partial hs hw hl hb (out := r.1) (s' := r.2) h
    · obtain ⟨ax, w', e', -⟩ := C19_accepts (dct_mode := mode) hf hv h5
      rw [e'] at e
      cases e
    · rw [ho i h1] at h2; cases h2
    · dsimp only at hb'
      rw [slice_full] at hb'
      cases hb'
      have hR := imageFuns_setR hlib (two := twoDim mrow mcol mode) hp hi
      obtain ⟨ix, Q, ok⟩ := funsOk hR
      obtain ⟨a, u, prm, r, v, o, h1, h2, -⟩ := recover_inv hr
      obtain ⟨s1, e1⟩ := ok.Aty.gives hR _ Reach.fresh 0
      rw [e1] at h1
      cases h1
      have hz : Qᵀ *ᵥ scat ix (0 : Fin n → ℝ) = 0 := by
        have : scat ix (0 : Fin n → ℝ) = 0 := by
          funext t
          by_cases ht : ∃ i, ix i = t
          · obtain ⟨i, rfl⟩ := ht
            exact scatter_const ix 0 0 i fun _ _ => rfl
          · exact scat_out ix 0 t fun i hi => ht ⟨i, hi⟩
        rw [this, mulVec_zero]
      dsimp only at h2
      rw [hz, init_zero_undefined (Nat.mul_pos hp.1 hp.2) hm hlb ht ht0 hmu hmu1] at h2
      cases h2

/-! ### A concrete run -/

noncomputable def refLib : FftwLib Dbl where
  f1 m := if h : m = 0 then ⟨fun x => x, fun x => x⟩ else haveI : NeZero m := ⟨h⟩; refFftw1
  f2 mrow mcol := if h : mrow = 0 ∨ mcol = 0 then ⟨fun x => x, fun x => x⟩ else
    haveI : NeZero mrow := ⟨fun h' => h (Or.inl h')⟩
    haveI : NeZero mcol := ⟨fun h' => h (Or.inr h')⟩
    refFftw2

theorem refLib_ok : LibOk refLib where
  f1 m _ := by
    unfold refLib
    simp only [NeZero.ne m, dif_neg, not_false_eq_true]
    exact refFftw1_ok
  f2 mrow mcol _ _ := by
    unfold refLib
    simp only [NeZero.ne mrow, NeZero.ne mcol, or_self, dif_neg, not_false_eq_true]
    exact refFftw2_ok

/-- program start -/
noncomputable def exWorld : NState (World Dbl) := ⟨∅, 0, 0, fun _ => true, freshWorld Dbl⟩

theorem exWorld_hist : Hist refLib exWorld.cb Sets.empty := .start _ _

theorem not_busy_empty (two : Bool) : ¬ (Sets.empty : Sets Dbl).busy two := by
  rintro (h | ⟨t, h, -⟩)
  · cases two <;> cases h
  · cases h

/-- two samples of a 2 by 3 image: the run is defined, returns 0, and all hypotheses above are met -/
theorem C53_example : ∃ out s', l1qc_dct refLib 2 3 ⟨6, fun _ => .fin 0⟩ 2 ⟨2, fvec ![7, 8]⟩ [5, 1] DCT2 exOpts exWorld = some (out, s') ∧
    out.status = 0 ∧ s'.live = ∅ ∧ ∀ c, s'.cb.obj c = none := by
  have hf : FitsInt ((2 : ℕ) * (3 : ℕ)) := by unfold FitsInt INT_MAX INT_MIN; norm_num
  have hv : ValidDct (2 : ℕ) (2 : ℕ) (3 : ℕ) [5, 1] := by unfold ValidDct; simp
  have hi : IdxOk (2 * 3) (idxFun 2 [5, 1]) := by intro i; fin_cases i <;> simp [idxFun]
  have hwf : exWorld.WF := fun a h => by cases h
  have hR := imageFuns_setR refLib_ok (two := twoDim (2 : ℕ) (3 : ℕ) DCT2) (mrow := 2) (mcol := 3) ⟨by norm_num, by norm_num⟩ hi
  obtain ⟨ix, Q, ok⟩ := funsOk hR
  have hinj : Function.Injective ix := (injective_iff ok.hix).1 (by
    intro i j hij
    fin_cases i <;> fin_cases j <;> simp [idxFun] at hij ⊢)
  have hne : Qᵀ *ᵥ scat ix ![7, 8] ≠ 0 := by
    intro hc
    have h1 : Q *ᵥ (Qᵀ *ᵥ scat ix ![7, 8]) = 0 := by rw [hc, mulVec_zero]
    rw [mulVec_mulVec, mul_eq_one_comm.1 ok.orth, one_mulVec] at h1
    have h2 := gather_scat ix hinj ![7, 8]
    rw [h1] at h2
    have := congrFun h2 0
    simp [gather] at this
  have hd : ∃ out s', l1qc_dct refLib (2 : ℕ) (3 : ℕ) ⟨6, fun _ => .fin 0⟩ (2 : ℕ) ⟨2, fvec ![7, 8]⟩ [5, 1] DCT2 exOpts exWorld = some (out, s') ∧
      s'.live = exWorld.live := by
    refine C53_defined_partial (n := 2) (mrow := 2) (mcol := 3) hwf exWorld_hist (not_busy_empty _) hf rfl ⟨by norm_num, by norm_num⟩ (Or.inl (by decide))
      (le_refl 6) (by norm_num) (slice_full _) ?_ rfl
    intro a ha
    obtain ⟨s1, e1⟩ := ok.Aty.gives hR _ Reach.fresh ![7, 8]
    rw [e1] at ha
    cases ha
    obtain ⟨⟨u, prm⟩, h1⟩ := C52_defined_partial hne (by decide) (prm := exOpts) (fun h0 => absurd h0 (by show ¬ (3 : Int) = 0; decide))
    refine ⟨u, prm, h1, ?_⟩
    obtain ⟨t, Lb, rfl, h⟩ := init_opts h1
    have hL : Lb = 3 := h (by show ¬ (3 : Int) = 0; decide)
    subst hL
    exact ⟨by show (0 : Int) ≤ 200; decide, by show (200 : Int) < INT_MAX; decide, by show ((3 : Int).toNat : Int) < INT_MAX; decide,
      by show (3 : Int).toNat * (((50 : Int) - 1).toNat * (200 : Int)) ≤ INT_MAX; decide,
      by show (3 : Int).toNat * ((((50 : Int) - 1).toNat : Int) + 1) ≤ INT_MAX; decide⟩
  obtain ⟨out, s', h, hlive⟩ := hd
  have hset : ∃ ax w', l1c_setup_dct_transforms (2 : ℕ) (2 : ℕ) (3 : ℕ) DCT2 [5, 1] exWorld.cb = some ((L1C_SUCCESS, some ax), w') := by
    obtain ⟨ax, w', e, -⟩ := C19_accepts (w := exWorld.cb) (dct_mode := DCT2) hf hv (fun _ _ => rfl)
    exact ⟨ax, w', e⟩
  obtain ⟨ax, w', hset⟩ := hset
  have hst : out.status = 0 := by
    rcases C59_never_infeasible (n := 2) (mrow := 2) (mcol := 3) refLib_ok (opts := exOpts) rfl zero_le_one hwf exWorld_hist rfl (by simp)
      (not_busy_empty _) h with h0 | h0 | h0
    · exact h0
    · exfalso
      obtain ⟨-, ⟨-, st, w', hst, e⟩ | ⟨hp, hi, ⟨h1, -⟩ | ⟨b', res, y, hb', hr, h1, h2, -⟩⟩⟩ :=
        C53_outcome_partial (n := 2) (mrow := 2) (mcol := 3) hwf exWorld_hist rfl (not_busy_empty _) h
      · rw [hset] at e; cases e
      · exact absurd (h0.symm.trans h1) (by decide)
      · dsimp only at hb'
        rw [slice_full] at hb'
        cases hb'
        rcases recover_real hR ok (opts := exOpts) rfl hr with ⟨-, g⟩ | ⟨g, -⟩
        · exact absurd (h0.symm.trans (h2.trans g)) (by decide)
        · exact absurd (h0.symm.trans (h2.trans g)) (by decide)
    · exfalso
      obtain ⟨-, ⟨rfl, -⟩ | ⟨hp, hi, ⟨-, -, i, -, h1⟩ | ⟨b', res, y, hb', hr, h1, h2, -⟩⟩⟩ :=
        C53_outcome_partial (n := 2) (mrow := 2) (mcol := 3) hwf exWorld_hist rfl (not_busy_empty _) h
      · exact absurd h0 (by show ¬ L1C_DCT_INIT_FAILURE = L1C_OUT_OF_MEMORY; decide)
      · cases h1
      · dsimp only at hb'
        rw [slice_full] at hb'
        cases hb'
        rcases recover_real hR ok (opts := exOpts) rfl hr with ⟨-, g⟩ | ⟨g, -⟩
        · exact absurd (h0.symm.trans (h2.trans g)) (by decide)
        · exact absurd (h0.symm.trans (h2.trans g)) (by decide)
  exact ⟨out, s', h, hst, hlive, (C53_released_partial (n := 2) (mrow := 2) (mcol := 3) hwf exWorld_hist rfl (not_busy_empty _) h).2.2 ⟨rfl, rfl, rfl, rfl, rfl⟩
    (Or.inr (by rw [hst]; decide))⟩

end exact

/-- `C53_released_false` with the last request of the set of operators refused. -/
example : ∃ s' c, l1qc_dct refLib 2 3 ⟨6, fun _ => .fin 0⟩ 2 ⟨2, fvec ![7, 8]⟩ [5, 1] DCT2 exOpts
      ⟨∅, 0, 0, fun _ => true, World.init (fun i => i != 4) (fun _ _ => lit 0) false⟩ = some (⟨L1C_DCT_INIT_FAILURE, none, ⟨6, fun _ => .fin 0⟩⟩, s') ∧
      s'.cb.obj c ≠ none :=
  let ⟨s', c, h, _, h'⟩ := C53_released_false (mrow := 2) (mcol := 3) (n := 2) (lib := refLib) (x_out := ⟨6, fun _ => .fin 0⟩) (b := ⟨2, fvec ![7, 8]⟩) (idx := [5, 1])
    (mode := DCT2) (opts := exOpts) (s := ⟨∅, 0, 0, fun _ => true, World.init (fun i => i != 4) (fun _ _ => lit 0) false⟩) (fun _ _ => rfl)
    (by unfold FitsInt INT_MAX INT_MIN; omega) (by simp [ValidDct]) (by decide) rfl (fun h => by have := h 4 (by omega); simp [World.init] at this)
  ⟨s', c, h, h'⟩

/-- `C53_rejects_partial`: position 6 is outside a 2×3 image. -/
example (s : NState (World Dbl)) : l1qc_dct refLib 2 3 ⟨6, fun _ => .fin 0⟩ 2 ⟨2, fvec ![7, 8]⟩ [6, 1] DCT2 exOpts s =
    some (⟨L1C_DCT_INIT_FAILURE, none, ⟨6, fun _ => .fin 0⟩⟩, s) :=
  C53_rejects_partial (by unfold FitsInt INT_MAX INT_MIN; omega) (by simp [ValidDct])

/-- `C53_first_alloc_failure_false`: the third request is refused. -/
example : l1qc_dct refLib 2 3 ⟨6, fun _ => .fin 0⟩ 2 ⟨2, fvec ![7, 8]⟩ [5, 1] DCT2 exOpts { exWorld with oracle := fun i => i != 2 } = none :=
  C53_first_alloc_failure_false (mrow := 2) (mcol := 3) (n := 2) (L := Sets.empty) (fun a h => by cases h) (.start _ _) rfl (not_busy_empty _)
    (by unfold FitsInt INT_MAX INT_MIN; omega) (by simp [ValidDct]) (fun _ _ => rfl) (by decide) rfl

/-- `C53_more_samples_false`: three samples of an image of two pixels. -/
example : l1qc_dct refLib 2 1 ⟨2, fun _ => .fin 0⟩ 3 ⟨3, fvec ![7, 8, 7]⟩ [0, 1, 0] DCT2 exOpts exWorld = none :=
  C53_more_samples_false (mrow := 2) (mcol := 1) (n := 3) (L := Sets.empty) (fun a h => by cases h) exWorld_hist rfl (not_busy_empty _)
    (by unfold FitsInt INT_MAX INT_MIN; omega) (by simp [ValidDct]) (fun _ _ => rfl) (fun _ _ => rfl) (by omega)

/-- `C53_zero_data_false`: all samples `0`. -/
example : l1qc_dct refLib 2 3 ⟨6, fun _ => .fin 0⟩ 2 ⟨2, fvec 0⟩ [5, 1] DCT2 exAuto exWorld = none :=
  C53_zero_data_false (mrow := 2) (mcol := 3) (n := 2) (L := Sets.empty) refLib_ok (by unfold INT_MAX; omega) rfl rfl (by norm_num) rfl (by norm_num)
    (fun a h => by cases h) exWorld_hist rfl (not_busy_empty _) (by simp [ValidDct]) (fun _ _ => rfl) (fun _ _ => rfl)

/-- `C59_recovers` and `C59_never_infeasible` read off the run of `C53_example`: pixels 5 and 1 of the image written are
within 1 of the samples. -/
example : ∃ out s', l1qc_dct refLib 2 3 ⟨6, fun _ => .fin 0⟩ 2 ⟨2, fvec ![7, 8]⟩ [5, 1] DCT2 exOpts exWorld = some (out, s') ∧
    ∃ (image : Fin 6 → ℝ) (hlen : out.x_out.1 = 6), (∀ k : Fin 6, out.x_out.2 (Fin.cast hlen.symm k) = Dbl.fin (image k)) ∧
      √(∑ i : Fin 2, (image (![5, 1] i) - (![7, 8] : Fin 2 → ℝ) i) ^ 2) ≤ 1 := by
  obtain ⟨out, s', h, h0, -⟩ := C53_example
  obtain ⟨hp, M, eta, -, hlen, -, hx, -, -, hi, hd⟩ := C59_recovers (mrow := 2) (mcol := 3) (n := 2) (L := Sets.empty) refLib_ok (eps := 1) rfl
    (fun a h => by cases h) exWorld_hist rfl (not_busy_empty _) h h0
  refine ⟨out, s', h, M eta, hlen, fun k => ?_, le_of_eq_of_le ?_ hd⟩
  · rw [hx k, dif_pos k.2]
  · congr 1

end L1c
