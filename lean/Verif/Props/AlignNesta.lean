import Verif.Props.AlignBindings
import Verif.Props.NestaMexRam
import Verif.Props.PyRam

/-!
# C106: whole NESTA calls from Python and Matlab break a promise when `malloc` gives a block that is not at a multiple of 64
-/

namespace L1c
open Prog Scalar Cmd

variable {F : Type} [Scalar F] {s s' : PState F}

theorem CSpec.pure_inv {α : Type} {a b : α} (h : CSpec (Pure.pure a : Cmd F α) s b s') : a = b := by cases h; rfl

theorem nestaMexUse_mis {ax : NAxM F} {Mx : Ptr → Ptr → Cmd F Unit} {o : TvObj} {junk : ℕ → F} {mtot n : ℕ} {b z : Ptr} {opts : NestaOpts F} (hc : 1 ≤ opts.n_continue)
    (h : CSpec (nestaMexUseM ax Mx o junk mtot n b z opts) s L1C_SUCCESS s') :
    ∃ w, s.next ≤ w ∧ ∀ base : ℕ → ℕ, ¬ DALIGN ∣ base w → CMis base (nestaMexUseM ax Mx o junk mtot n b z opts) s := by
  unfold nestaMexUseM at h ⊢
  obtain ⟨x0, s1, c1, h⟩ := h.inv_bind
  obtain ⟨b', s2, c2, h⟩ := h.inv_bind
  have n1 := c1.next_mono
  have n2 := c2.next_mono
  have bad : ∀ l : List (Option Ptr), ¬ CSpec (do freesC l; Pure.pure L1C_OUT_OF_MEMORY : Cmd F Int) s2 L1C_SUCCESS s' := fun l h => by
    obtain ⟨_, _, _, h⟩ := h.inv_bind
    exact absurd h.pure_inv (by decide)
  cases x0 with
  | none => exact (bad _ h).elim
  | some x =>
    cases b' with
    | none => exact (bad _ h).elim
    | some b' =>
      obtain ⟨_, s3, c3, h⟩ := h.inv_bind
      obtain ⟨st, s4, c4, h⟩ := h.inv_bind
      have n3 := c3.next_mono
      obtain ⟨_, s5, _, h⟩ := h.inv_bind
      obtain ⟨_, s6, _, h⟩ := h.inv_bind
      obtain ⟨_, s7, _, h⟩ := h.inv_bind
      obtain rfl := h.pure_inv
      obtain ⟨w, h1, h2⟩ := C106_nesta_window_false hc c4
      exact ⟨w, by omega, fun base hb => c1.bind_mis (c2.bind_mis (c3.bind_mis (h2 base hb).bind_left))⟩

theorem dctSetup_fail {two : Bool} {m : ℕ} {st : Int} (h : CSpec (dctSetupM (F := F) two m) s (st, none) s') : st ≠ L1C_SUCCESS := by
  have e1 : ∀ {c : Int} {s₁ : PState F}, c ≠ L1C_SUCCESS → CSpec (Pure.pure (c, none) : Cmd F (Int × Option DctObj)) s₁ (st, none) s' → st ≠ L1C_SUCCESS := fun hc h => by
    have := h.pure_inv
    simp only [Prod.mk.injEq, and_true] at this
    rwa [← this]
  have e2 : ∀ {c : Int} {l : List (Option Ptr)} {s₁ : PState F}, c ≠ L1C_SUCCESS → CSpec (do freesC l; Pure.pure (c, none) : Cmd F (Int × Option DctObj)) s₁ (st, none) s' → st ≠ L1C_SUCCESS := fun hc h => by
    obtain ⟨_, _, _, h⟩ := h.inv_bind
    exact e1 hc h
  unfold dctSetupM at h
  obtain ⟨bufs, s1, -, h⟩ := h.inv_bind
  split at h
  · obtain ⟨plans, s2, -, h⟩ := h.inv_bind
    split at h
    · have := h.pure_inv
      simp at this
    · split at h
      · exact e1 (by decide) h
      · exact e2 (by decide) h
  · split at h
    · exact e1 (by decide) h
    · exact e2 (by decide) h

theorem tvSetup_fail {junk : ℕ → F} {n mrow mcol : Int} {av ah : F} {mode : Int} {idx : List Int} {st : Int} (h : CSpec (tvSetupM junk n mrow mcol av ah mode idx) s (st, none) s') :
    st ≠ L1C_SUCCESS := by
  have e1 : ∀ {c : Int} {s₁ : PState F}, c ≠ L1C_SUCCESS → CSpec (Pure.pure (c, none) : Cmd F (Int × Option TvObj)) s₁ (st, none) s' → st ≠ L1C_SUCCESS := fun hc h => by
    have := h.pure_inv
    simp only [Prod.mk.injEq, and_true] at this
    rwa [← this]
  unfold tvSetupM at h
  obtain ⟨_, _, -, h⟩ := h.inv_bind
  split at h
  · exact e1 (by decide) h
  obtain ⟨_, _, -, h⟩ := h.inv_bind
  unfold tvAllocM at h
  obtain ⟨u, _, -, h⟩ := h.inv_bind
  cases u with
  | none => exact e1 (by decide) h
  | some u =>
    obtain ⟨⟨st', r⟩, _, c, h⟩ := h.inv_bind
    cases r with
    | some o =>
      have := h.pure_inv
      simp at this
    | none =>
      obtain ⟨_, _, _, h⟩ := h.inv_bind
      exact e1 (dctSetup_fail c) h

/-- NESTA from Matlab inherits the broken promise: whenever the call succeeds with a continuation step, in either mode and wherever the arrays of Matlab are, there is a new block such that
the call breaks a promise if that block is not at a multiple of 64, wherever all other blocks are. -/
theorem C106_matlab_nesta_false {fw1 : ℕ → FftwM F} {fw2 : ℕ → ℕ → FftwM F} {junkU junkX : ℕ → F} {mrow mcol n : Int} {alp_v alp_h : F} {mode : Int} {analysis : Bool} {idx : List Int}
    {b z : Ptr} {opts : NestaOpts F} (hc : 1 ≤ opts.n_continue)
    (h : CSpec (nestaMexM fw1 fw2 junkU junkX mrow mcol n alp_v alp_h mode analysis idx b z opts) s L1C_SUCCESS s') :
    ∃ w, s.next ≤ w ∧ ∀ base : ℕ → ℕ, ¬ DALIGN ∣ base w → CMis base (nestaMexM fw1 fw2 junkU junkX mrow mcol n alp_v alp_h mode analysis idx b z opts) s := by
  unfold nestaMexM at h ⊢
  obtain ⟨⟨st, r⟩, s1, c1, h⟩ := h.inv_bind
  have n1 := c1.next_mono
  cases r with
  | none => exact absurd h.pure_inv (tvSetup_fail c1)
  | some o =>
    cases analysis with
    | true =>
      obtain ⟨w, h1, h2⟩ := nestaMexUse_mis hc h
      exact ⟨w, by omega, fun base hb => c1.bind_mis (h2 base hb)⟩
    | false =>
      obtain ⟨w, h1, h2⟩ := nestaMexUse_mis hc h
      exact ⟨w, by omega, fun base hb => c1.bind_mis (h2 base hb)⟩

theorem pyNestaUse_mis {ax : NAxM F} {mtot n : ℕ} {x b : Ptr} {opts : NestaOpts F} (hc : 1 ≤ opts.n_continue) {z : Ptr}
    (h : CSpec (pyNestaUseM ax mtot n x b opts) s (.ret z L1C_SUCCESS) s') :
    ∃ w, s.next ≤ w ∧ ∀ base : ℕ → ℕ, ¬ DALIGN ∣ base w → CMis base (pyNestaUseM ax mtot n x b opts) s := by
  have h0 := h
  unfold pyNestaUseM at h0
  obtain ⟨st, s1, c1, h0⟩ := h0.inv_bind
  obtain ⟨z', s2, -, h0⟩ := h0.inv_bind
  cases z' with
  | none =>
    obtain ⟨_, _, _, h0⟩ := h0.inv_bind
    exact absurd h0.pure_inv (by simp)
  | some z' =>
    obtain ⟨_, _, _, h0⟩ := h0.inv_bind
    have e := h0.pure_inv
    simp only [PyRes.ret.injEq] at e
    obtain ⟨-, rfl⟩ := e
    obtain ⟨w, h1, h2⟩ := C106_python_nesta_false hc c1
    exact ⟨w, by omega, h2⟩

/-- The same for the whole call from Python: whenever it returns an array with status 0 after a continuation step, there is a new block such that the call breaks a promise if that block is not
at a multiple of 64, wherever all other blocks are. -/
theorem C106_python_nesta_call_false {fw1 : ℕ → FftwM F} {fw2 : ℕ → ℕ → FftwM F} {junkU : ℕ → F} {mrow mcol n : Int} {alp_v alp_h : F} {mode bp : Int} {idx : List Int} {b : Ptr}
    {opts : NestaOpts F} (hc : 1 ≤ opts.n_continue) {z : Ptr} (h : CSpec (pyNestaM fw1 fw2 junkU mrow mcol n alp_v alp_h mode bp idx b opts) s (.ret z L1C_SUCCESS) s') :
    ∃ w, s.next ≤ w ∧ ∀ base : ℕ → ℕ, ¬ DALIGN ∣ base w → CMis base (pyNestaM fw1 fw2 junkU mrow mcol n alp_v alp_h mode bp idx b opts) s := by
  have exc : ∀ {e : String} {s₁ : PState F}, ¬ CSpec (Pure.pure (.exc e) : Cmd F (PyRes Int)) s₁ (.ret z L1C_SUCCESS) s' := fun h => by
    have := h.pure_inv
    simp at this
  have exc' : ∀ {e : String} {l : List (Option Ptr)} {s₁ : PState F}, ¬ CSpec (do freesC l; Pure.pure (.exc e) : Cmd F (PyRes Int)) s₁ (.ret z L1C_SUCCESS) s' := fun h => by
    obtain ⟨_, _, _, h⟩ := h.inv_bind
    exact exc h
  unfold pyNestaM at h ⊢
  split at h
  · exact (exc h).elim
  rename_i g1
  rw [if_neg g1]
  split at h
  · exact (exc h).elim
  rename_i g2
  rw [if_neg g2]
  obtain ⟨_, s1, c1, h⟩ := h.inv_bind
  split at h
  · exact (exc h).elim
  rename_i g3
  obtain ⟨x, s2, c2, h⟩ := h.inv_bind
  obtain ⟨b', s3, c3, h⟩ := h.inv_bind
  have n1 := c1.next_mono
  have n2 := c2.next_mono
  have n3 := c3.next_mono
  cases x with
  | none => exact (exc' h).elim
  | some x =>
    cases b' with
    | none => exact (exc' h).elim
    | some b' =>
      obtain ⟨_, s4, c4, h⟩ := h.inv_bind
      have n4 := c4.next_mono
      have key : ∃ w, s4.next ≤ w ∧ ∀ base : ℕ → ℕ, ¬ DALIGN ∣ base w →
          CMis base (pyNestaSetM fw1 fw2 junkU mrow mcol n alp_v alp_h mode (decide (bp = BP_ANALYSIS)) idx x b' opts) s4 := by
        generalize decide (bp = BP_ANALYSIS) = ana at h
        unfold pyNestaSetM at h ⊢
        obtain ⟨⟨st, r⟩, s5, c5, h⟩ := h.inv_bind
        have n5 := c5.next_mono
        cases r with
        | none => exact (exc' h).elim
        | some o =>
          cases ana with
          | true =>
            obtain ⟨w, h1, h2⟩ := pyNestaUse_mis hc h
            exact ⟨w, by omega, fun base hb => c5.bind_mis (h2 base hb)⟩
          | false =>
            obtain ⟨w, h1, h2⟩ := pyNestaUse_mis hc h
            exact ⟨w, by omega, fun base hb => c5.bind_mis (h2 base hb)⟩
      obtain ⟨w, h1, h2⟩ := key
      refine ⟨w, by omega, fun base hb => c1.bind_mis ?_⟩
      rw [if_neg g3]
      exact c2.bind_mis (c3.bind_mis (c4.bind_mis (h2 base hb)))

/-- a call from Matlab to which this applies -/
example : ∃ w, 2 ≤ w ∧ CMis (fun k => if k = w then 64 * k + 16 else 64 * k) (nestaMexM exF1 exF2 (fun _ => .nan) (fun _ => .nan) ((3 : ℕ) : Int) ((3 : ℕ) : Int) ((2 : ℕ) : Int) (.fin 1) (.fin 1)
    DCT2 true (posList (mrow := 3) (mcol := 3) ![4, 0]) ⟨0, 0⟩ ⟨0, 0⟩ ⟨.fin (1 / 2), .fin (1 / 100), .fin 0, 3⟩) (exMexRam fun _ => true) := by
  obtain ⟨y, s', h1, -⟩ := C100_near_best (mode := DCT2) (q := 1) (sigma := 1 / 2) (mu := 1 / 100) (tol := .fin 0) (N := 3) (junkU := fun _ => .nan) (junkX := fun _ => .nan)
    refLib_ok (ix := (![4, 0] : Fin 2 → Fin (3 * 3))) (by decide) (exMex_call fun _ => true) (by norm_num) (by norm_num) (fun h => by simpa using congrFun h 0) (by decide) (by decide)
    (Or.inl rfl) (fun _ _ => rfl)
  obtain ⟨w, g1, g2⟩ := C106_matlab_nesta_false (by decide) h1
  refine ⟨w, g1, g2 _ ?_⟩
  rw [if_pos rfl]
  unfold DALIGN
  omega

/-- and one from Python -/
example : ∃ w, 2 ≤ w ∧ CMis (fun k => if k = w then 64 * k + 16 else 64 * k) (pyNestaM exF1 exF2 (fun _ => .nan) ((3 : ℕ) : Int) ((3 : ℕ) : Int) ((2 : ℕ) : Int) (.fin 1) (.fin 1) DCT2 BP_ANALYSIS
    (posList (mrow := 3) (mcol := 3) ![4, 0]) ⟨0, 0⟩ ⟨.fin (1 / 2), .fin (1 / 100), .fin 0, 3⟩) (exMexRam fun _ => true) := by
  obtain ⟨z, y, s', h1, -⟩ := C103_nesta_near_best_partial (junkU := fun _ => .nan) (q := 10000) (mode := DCT2) (tol := .fin 0) (N := 3) (sigma := 1 / 2) (mu := 1 / 100) refLib_ok
    (by intro i j; fin_cases i <;> fin_cases j <;> simp) (exMex_call fun _ => true).toTvPyCall (.inr rfl) (by norm_num) (by norm_num) (fun hc => by simpa using congrFun hc 0) (by norm_num)
    (by unfold INT_MAX; norm_num) (.inr ⟨rfl, 0, le_rfl, rfl⟩) fun _ => rfl
  obtain ⟨w, g1, g2⟩ := C106_python_nesta_call_false (by decide) h1
  refine ⟨w, g1, g2 _ ?_⟩
  rw [if_pos rfl]
  unfold DALIGN
  omega

end L1c
