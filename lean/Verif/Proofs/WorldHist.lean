import Verif.Proofs.WorldCall

/-! # Every protocol-conforming history keeps the ownership invariant -/

namespace L1c
open Scalar

set_option linter.unusedSectionVars false
set_option linter.unusedSimpArgs false
set_option linter.unusedTactic false

variable {F : Type} [Scalar F] {w w' : World F} {own own' : Own} {R : Res F} {L : Sets F}

theorem check_pix_idx_iff (idx : List Int) (m : Int) : check_pix_idx idx (m - 1) = true ↔ ¬ ∀ i ∈ idx, 0 ≤ i ∧ i < m := by
  unfold check_pix_idx
  rw [List.any_eq_true]
  push Not
  constructor
  · rintro ⟨i, hi, h⟩
    rw [decide_eq_true_iff] at h
    exact ⟨i, hi, fun _ => by omega⟩
  · rintro ⟨i, hi, h⟩
    refine ⟨i, hi, ?_⟩
    rw [decide_eq_true_iff]
    by_cases h0 : 0 ≤ i
    · have := h h0; omega
    · omega

/-! ## The front end -/

theorem setup_dct_nonpos {n mrow mcol dct_mode : Int} {idx : List Int} (h : n ≤ 0 ∨ mrow ≤ 0 ∨ mcol ≤ 0) :
    l1c_setup_dct_transforms n mrow mcol dct_mode idx w = some ((L1C_INVALID_ARGUMENT, none), w) := by
  unfold l1c_setup_dct_transforms
  rw [if_pos h]; rfl

theorem setup_dct_overflow {n mrow mcol dct_mode : Int} {idx : List Int} (h : ¬ (n ≤ 0 ∨ mrow ≤ 0 ∨ mcol ≤ 0))
    (hf : ¬ FitsInt (mrow * mcol)) : l1c_setup_dct_transforms n mrow mcol dct_mode idx w = none := by
  unfold l1c_setup_dct_transforms
  rw [if_neg h]
  refine wbind_none ?_
  unfold wmul
  rw [if_neg hf]

theorem setup_dct_badidx {n mrow mcol dct_mode : Int} {idx : List Int} (h : ¬ (n ≤ 0 ∨ mrow ≤ 0 ∨ mcol ≤ 0))
    (hf : FitsInt (mrow * mcol)) (hi : ¬ ∀ i ∈ idx, 0 ≤ i ∧ i < mrow * mcol) :
    l1c_setup_dct_transforms n mrow mcol dct_mode idx w = some ((L1C_INVALID_ARGUMENT, none), w) := by
  unfold l1c_setup_dct_transforms
  rw [if_neg h, wbind_some (a := mrow * mcol) (w' := w) (by unfold wmul; rw [if_pos hf]),
    if_pos ((check_pix_idx_iff idx (mrow * mcol)).2 hi)]
  rfl

theorem setup_dct_one {n mrow mcol dct_mode : Int} {idx : List Int} (hv : ValidDct n mrow mcol idx)
    (hf : FitsInt (mrow * mcol)) (ht : twoDim mrow mcol dct_mode = false) :
    l1c_setup_dct_transforms n mrow mcol dct_mode idx w = l1c_dct1_setup n.toNat (mrow * mcol).toNat idx w := by
  obtain ⟨h1, h2, h3, h4⟩ := hv
  have h : ¬ (n ≤ 0 ∨ mrow ≤ 0 ∨ mcol ≤ 0) := by omega
  have ht' : mcol = 1 ∨ mrow = 1 ∨ dct_mode = DCT1 := by
    unfold twoDim at ht
    rw [decide_eq_false_iff_not] at ht
    tauto
  unfold l1c_setup_dct_transforms
  rw [if_neg h, wbind_some (a := mrow * mcol) (w' := w) (by unfold wmul; rw [if_pos hf]),
    if_neg (fun hc => (check_pix_idx_iff idx (mrow * mcol)).1 hc h4), if_pos ht']

theorem setup_dct_two {n mrow mcol dct_mode : Int} {idx : List Int} (hv : ValidDct n mrow mcol idx)
    (hf : FitsInt (mrow * mcol)) (ht : twoDim mrow mcol dct_mode = true) :
    l1c_setup_dct_transforms n mrow mcol dct_mode idx w = l1c_dct2_setup n.toNat mrow.toNat mcol.toNat idx w := by
  obtain ⟨h1, h2, h3, h4⟩ := hv
  have h : ¬ (n ≤ 0 ∨ mrow ≤ 0 ∨ mcol ≤ 0) := by omega
  have ht' : mrow ≠ 1 ∧ mcol ≠ 1 ∧ dct_mode ≠ DCT1 := by
    unfold twoDim at ht
    rwa [decide_eq_true_iff] at ht
  unfold l1c_setup_dct_transforms
  rw [if_neg h, wbind_some (a := mrow * mcol) (w' := w) (by unfold wmul; rw [if_pos hf]),
    if_neg (fun hc => (check_pix_idx_iff idx (mrow * mcol)).1 hc h4), if_neg (by tauto),
    if_pos (Or.inl ⟨by omega, by omega⟩), if_neg (by tauto)]

/-! ## Buffers stay reachable -/

theorem dctOp_reach {m n : ℕ} {f : DctFuns F m n} {s : DctBuf F m} (hs : Reach f s) {op : Op} {a out : Arr F} {x}
    (h : dctOp f op a out s = some x) : Reach f x.2 := by
  have key : ∀ {k l : ℕ} (g : Vec F l → DctBuf F m → Option (XOut F k l m)) (c : Vec F l → DctCall F m n),
      (∀ v, (c v).run f s = (g v s).map (·.buf)) → onArrays g a out s = some x → Reach f x.2 := by
    intro k l g c hc hx
    unfold onArrays at hx
    obtain ⟨v, -, hx⟩ := bind_some_iff.1 hx
    obtain ⟨o, ho, hx⟩ := bind_some_iff.1 hx
    obtain ⟨a', -, hx⟩ := bind_some_iff.1 hx
    obtain ⟨out', -, hx⟩ := bind_some_iff.1 hx
    cases hx
    exact .call (c v) hs (by rw [hc, ho]; rfl)
  cases op
  case Ax => exact key _ .Ax (fun _ => rfl) h
  case Aty => exact key _ .Aty (fun _ => rfl) h
  case AtAx => exact key _ .AtAx (fun _ => rfl) h
  case Mx => exact key _ .Mx (fun _ => rfl) h
  case Mty => exact key _ .Mty (fun _ => rfl) h
  case Rx => exact key _ .Rx (fun _ => rfl) h
  case Rty =>
    obtain ⟨old, -, h⟩ := bind_some_iff.1 h
    exact key _ (fun y => .Rty y old) (fun _ => rfl) h
  all_goals
    obtain ⟨r, -, h⟩ := Option.map_eq_some_iff.1 h
    cases h
    exact hs

theorem tvAll_reach {mrow mcol n : ℕ} {c : TvCfg F mrow mcol n} {syn : Bool} {s : TvBuf F (mrow * mcol) c.p}
    (hs : TvReach c s) {op : Op} {a out : Arr F} {x} (h : tvAll c syn op a out s = some x) : TvReach c x.2 := by
  unfold tvAll at h
  split at h
  · obtain ⟨r, -, h⟩ := Option.map_eq_some_iff.1 h
    cases h
    exact hs
  split at h
  · cases h
  unfold tvOp at h
  cases op <;> cases syn <;> simp only at h
  all_goals first
    | (cases h; done)
    | (obtain ⟨v, -, h⟩ := bind_some_iff.1 h
       obtain ⟨o, ho, h⟩ := bind_some_iff.1 h
       obtain ⟨y, -, h⟩ := bind_some_iff.1 h
       first
        | cases h
        | (obtain ⟨y', -, h⟩ := bind_some_iff.1 h
           cases h)
       first
        | (refine .call (.Wv v) hs ?_; simp only [TvCall.run, ho, Option.map_some]; done)
        | (refine .call (.Rx v) hs ?_; simp only [TvCall.run, ho, Option.map_some]; done)
        | (refine .call (.Av v) hs ?_; simp only [TvCall.run, ho, Option.map_some]; done))
    | (obtain ⟨v, -, h⟩ := bind_some_iff.1 h
       obtain ⟨old, -, h⟩ := bind_some_iff.1 h
       obtain ⟨o, ho, h⟩ := bind_some_iff.1 h
       obtain ⟨y, -, h⟩ := bind_some_iff.1 h
       cases h
       first
        | (refine .call (.Wtx v old) hs ?_; simp only [TvCall.run, ho, Option.map_some]; done)
        | (refine .call (.Rty v old) hs ?_; simp only [TvCall.run, ho, Option.map_some]; done)
        | (refine .call (.Aty v old) hs ?_; simp only [TvCall.run, ho, Option.map_some]; done))

/-! ## Outcomes of the 1-D setup in any state -/

theorem dct1_setup_result {n m : ℕ} {idx : List Int} {r : Int × Option (AxFuns F)}
    (h : l1c_dct1_setup n m idx w = some (r, w')) :
    ((∀ i < 5, w.oracle (w.calls + i) = true) ∧ r = (L1C_SUCCESS, some ⟨n, m, m, m, lit 1, .d1⟩)) ∨
    ((¬ ∀ i < 5, w.oracle (w.calls + i) = true) ∧ (∀ i < 3, w.oracle (w.calls + i) = true) ∧ r = (L1C_DCT_INIT_FAILURE, none)) ∨
    ((¬ ∀ i < 5, w.oracle (w.calls + i) = true) ∧ (¬ ∀ i < 3, w.oracle (w.calls + i) = true) ∧ r = (L1C_OUT_OF_MEMORY, none)) := by
  have a3 : (∀ i < 3, w.oracle (w.calls + i) = true) ↔
      w.oracle w.calls = true ∧ w.oracle (w.calls + 1) = true ∧ w.oracle (w.calls + 2) = true :=
    ⟨fun h => ⟨h 0 (by omega), h 1 (by omega), h 2 (by omega)⟩, fun ⟨h0, h1, h2⟩ i hi => by
      interval_cases i <;> assumption⟩
  have a5 : (∀ i < 5, w.oracle (w.calls + i) = true) ↔
      (w.oracle w.calls = true ∧ w.oracle (w.calls + 1) = true ∧ w.oracle (w.calls + 2) = true) ∧
        w.oracle (w.calls + 3) = true ∧ w.oracle (w.calls + 4) = true :=
    ⟨fun h => ⟨⟨h 0 (by omega), h 1 (by omega), h 2 (by omega)⟩, h 3 (by omega), h 4 (by omega)⟩,
      fun ⟨⟨h0, h1, h2⟩, h3, h4⟩ i hi => by interval_cases i <;> assumption⟩
  by_cases h5 : ∀ i < 5, w.oracle (w.calls + i) = true
  · obtain ⟨w₁, e, -⟩ := dct1_setup_ok n m idx w h5
    rw [e] at h
    cases h
    exact Or.inl ⟨h5, rfl⟩
  refine Or.inr ?_
  have key : ∀ (st : Int) (v : World F), (dct_destroy >>= fun _ => (pure (st, none) : WM F (Int × Option (AxFuns F)))) v = some (r, w') →
      r = (st, none) := by
    intro st v hv
    rw [wbind] at hv
    cases hd : (dct_destroy v : Option (Unit × World F)) with
    | none => rw [hd] at hv; cases hv
    | some q => rw [hd] at hv; cases hv; rfl
  rw [a3]
  refine (?_ : _ ∨ _)
  have h5' := h5
  rw [a5] at h5'
  cases e0 : w.oracle w.calls <;> cases e1 : w.oracle (w.calls + 1) <;> cases e2 : w.oracle (w.calls + 2)
  case true.true.true =>
    refine Or.inl ⟨h5, ⟨rfl, rfl, rfl⟩, ?_⟩
    cases e3 : w.oracle (w.calls + 3) <;> cases e4 : w.oracle (w.calls + 4)
    case true.true => exact absurd ⟨⟨e0, e1, e2⟩, e3, e4⟩ h5'
    all_goals
      unfold l1c_dct1_setup at h
      simp only [wbind, wcalloc_eq, wnew_eq, wmodify, World.push, World.skip, e0, e1, e2, e3, e4, add_assoc, Nat.reduceAdd,
        if_true, if_false, Bool.false_eq_true, Option.isSome_some, Option.isSome_none, and_true, and_false, and_self] at h
      exact key _ _ (by rw [wbind]; exact h)
  all_goals
    refine Or.inr ⟨h5, by simp, ?_⟩
    unfold l1c_dct1_setup at h
    simp only [wbind, wcalloc_eq, wmodify, World.push, World.skip, e0, e1, e2, add_assoc, Nat.reduceAdd,
      if_true, if_false, Bool.false_eq_true] at h
    exact key _ _ (by rw [wbind]; exact h)

/-! ## The TV setup step by step -/

/-- the state after the assignments at the start of the setup -/
def World.reset (w : World F) (mrow mcol : Int) (alp_v alp_h : F) : World F :=
  { w with gt := { w.gt with mrow := mrow, mcol := mcol, alp_v := alp_v, alp_h := alp_h, jobV := false, jobH := false } }

/-- the state when the work array has been requested -/
def World.tvReady (w : World F) (mrow mcol : Int) (alp_v alp_h : F) (u : Option ℕ) : World F :=
  { w with gt := { w.gt with mrow := mrow, mcol := mcol, alp_v := alp_v, alp_h := alp_h, jobV := job alp_v, jobH := job alp_h, u := u } }

theorem tvBad_iff (n mrow mcol : Int) (alp_v alp_h : F) (idx : List Int) :
    tvBad n mrow mcol (mrow * mcol) alp_v alp_h idx ↔ ¬ ValidTv n mrow mcol alp_v alp_h idx := by
  unfold tvBad ValidTv ValidDct
  rw [check_pix_idx_iff]
  constructor
  · rintro (h | ⟨h, h'⟩ | h) ⟨⟨h1, h2, h3, h4⟩, h5, h6, h7⟩
    · rcases h with h | h | h | h | h
      · omega
      · omega
      · omega
      · exact h5 h
      · exact h6 h
    · have := h7 (Or.symm h); omega
    · exact h h4
  · intro h
    by_contra hc
    refine h ⟨⟨?_, ?_, ?_, ?_⟩, ?_, ?_, fun hp => ?_⟩
    · by_contra h'; exact hc (Or.inl (Or.inl (by omega)))
    · by_contra h'; exact hc (Or.inl (Or.inr (Or.inl (by omega))))
    · by_contra h'; exact hc (Or.inl (Or.inr (Or.inr (Or.inl (by omega)))))
    · by_contra h'; exact hc (Or.inr (Or.inr h'))
    · intro h'; exact hc (Or.inl (Or.inr (Or.inr (Or.inr (Or.inl h')))))
    · intro h'; exact hc (Or.inl (Or.inr (Or.inr (Or.inr (Or.inr h')))))
    · by_contra h'; exact hc (Or.inr (Or.inl ⟨hp.symm, by omega⟩))

variable {n mrow mcol dct_mode : Int} {alp_v alp_h : F} {analysis : Bool} {idx : List Int}

theorem setup_tv_overflow (hf : ¬ FitsInt (mrow * mcol)) :
    l1c_setup_dctTV_transforms n mrow mcol alp_v alp_h dct_mode analysis idx w = none := by
  unfold l1c_setup_dctTV_transforms
  rw [wbind_some (a := ()) (w' := w.reset mrow mcol alp_v alp_h) rfl]
  refine wbind_none ?_
  unfold wmul
  rw [if_neg hf]

theorem setup_tv_invalid (hf : FitsInt (mrow * mcol)) (hv : ¬ ValidTv n mrow mcol alp_v alp_h idx) :
    l1c_setup_dctTV_transforms n mrow mcol alp_v alp_h dct_mode analysis idx w =
      some ((L1C_INVALID_ARGUMENT, none), w.reset mrow mcol alp_v alp_h) := by
  unfold l1c_setup_dctTV_transforms
  rw [wbind_some (a := ()) (w' := w.reset mrow mcol alp_v alp_h) rfl,
    wbind_some (a := mrow * mcol) (w' := w.reset mrow mcol alp_v alp_h) (by unfold wmul; rw [if_pos hf]),
    if_pos ((tvBad_iff n mrow mcol alp_v alp_h idx).2 hv)]
  rfl

theorem setup_tv_toobig (hf : FitsInt (mrow * mcol)) (hv : ValidTv n mrow mcol alp_v alp_h idx)
    (hp : ¬ FitsInt (tvP (mrow * mcol).toNat alp_v alp_h)) :
    l1c_setup_dctTV_transforms n mrow mcol alp_v alp_h dct_mode analysis idx w = none := by
  unfold l1c_setup_dctTV_transforms
  rw [wbind_some (a := ()) (w' := w.reset mrow mcol alp_v alp_h) rfl,
    wbind_some (a := mrow * mcol) (w' := w.reset mrow mcol alp_v alp_h) (by unfold wmul; rw [if_pos hf]),
    if_neg (fun h => (tvBad_iff n mrow mcol alp_v alp_h idx).1 h hv)]
  rw [wbind_some (w' := _) rfl]
  simp only
  rw [if_pos hp]
  rfl

theorem setup_tv_refused (hf : FitsInt (mrow * mcol)) (hv : ValidTv n mrow mcol alp_v alp_h idx)
    (hp : FitsInt (tvP (mrow * mcol).toNat alp_v alp_h)) (ho : w.oracle w.calls = false) :
    l1c_setup_dctTV_transforms n mrow mcol alp_v alp_h dct_mode analysis idx w =
      some ((L1C_OUT_OF_MEMORY, none), w.skip.tvReady mrow mcol alp_v alp_h none) := by
  unfold l1c_setup_dctTV_transforms
  rw [wbind_some (a := ()) (w' := w.reset mrow mcol alp_v alp_h) rfl,
    wbind_some (a := mrow * mcol) (w' := w.reset mrow mcol alp_v alp_h) (by unfold wmul; rw [if_pos hf]),
    if_neg (fun h => (tvBad_iff n mrow mcol alp_v alp_h idx).1 h hv)]
  rw [wbind_some (w' := _) rfl]
  simp only
  rw [if_neg (not_not.2 hp), wbind, wmalloc_eq, if_neg (by show ¬ w.oracle w.calls = true; rw [ho]; simp)]
  rfl

/-- the rest of the setup once the work array is there, with whatever the allocator left in it -/
theorem setup_tv_junk (hf : FitsInt (mrow * mcol)) (hv : ValidTv n mrow mcol alp_v alp_h idx)
    (hp : FitsInt (tvP (mrow * mcol).toNat alp_v alp_h)) (ho : w.oracle w.calls = true) :
    ∃ a : Arr F, a = ⟨tvP (mrow * mcol).toNat alp_v alp_h, fun i => w.junk w.next i⟩ ∧
    l1c_setup_dctTV_transforms n mrow mcol alp_v alp_h dct_mode analysis idx w =
      match l1c_setup_dct_transforms n mrow mcol dct_mode idx ((w.push (.arr a)).tvReady mrow mcol alp_v alp_h (some w.next)) with
      | none => none
      | some ((_, some ax), v) => some ((L1C_SUCCESS, some (if analysis then
          ⟨n, (mrow * mcol).toNat, tvP (mrow * mcol).toNat alp_v alp_h, (mrow * mcol).toNat, tvNormW true alp_v alp_h, .tvAna⟩
          else ⟨n, tvP (mrow * mcol).toNat alp_v alp_h, (mrow * mcol).toNat, (mrow * mcol).toNat, tvNormW false alp_v alp_h, .tvSyn⟩)),
          { v with gt := { v.gt with loc := some ax.kind } })
      | some ((st, none), v) => match wfree (some w.next) v with
        | none => none
        | some (_, v') => some ((st, none), v') := by
  refine ⟨⟨_, fun i => w.junk w.next i⟩, rfl, ?_⟩
  conv_lhs => unfold l1c_setup_dctTV_transforms
  rw [wbind_some (a := ()) (w' := w.reset mrow mcol alp_v alp_h) rfl,
    wbind_some (a := mrow * mcol) (w' := w.reset mrow mcol alp_v alp_h) (by unfold wmul; rw [if_pos hf]),
    if_neg (fun h => (tvBad_iff n mrow mcol alp_v alp_h idx).1 h hv)]
  rw [wbind_some (w' := _) rfl]
  simp only
  rw [if_neg (not_not.2 hp), wbind, wmalloc_eq, if_pos]
  swap
  · exact ho
  dsimp only
  rw [wbind_some (w' := _) rfl]
  dsimp only
  rw [wbind]
  generalize hq : l1c_setup_dct_transforms n mrow mcol dct_mode idx ((w.push (.arr ⟨_, fun i => w.junk w.next i⟩)).tvReady
    mrow mcol alp_v alp_h (some w.next)) = q
  have hq' : ∀ v, v = (w.push (.arr ⟨tvP (mrow * mcol).toNat alp_v alp_h, fun i => w.junk w.next i⟩)).tvReady mrow mcol alp_v alp_h (some w.next) →
    l1c_setup_dct_transforms n mrow mcol dct_mode idx v = q := by rintro v rfl; exact hq
  rw [hq']
  swap
  · rfl
  cases q with
  | none => rfl
  | some q =>
    obtain ⟨⟨st, o⟩, v⟩ := q
    cases o with
    | none =>
      dsimp only
      rw [wbind]
      rw [show (w.reset mrow mcol alp_v alp_h).next = w.next from rfl]
      cases wfree (some w.next) v <;> rfl
    | some ax => cases analysis <;> rfl

/-- the rest of the setup once the work array is there -/
theorem setup_tv_granted (hf : FitsInt (mrow * mcol)) (hv : ValidTv n mrow mcol alp_v alp_h idx)
    (hp : FitsInt (tvP (mrow * mcol).toNat alp_v alp_h)) (ho : w.oracle w.calls = true) :
    ∃ a : Arr F, a.1 = tvP (mrow * mcol).toNat alp_v alp_h ∧
    l1c_setup_dctTV_transforms n mrow mcol alp_v alp_h dct_mode analysis idx w =
      match l1c_setup_dct_transforms n mrow mcol dct_mode idx ((w.push (.arr a)).tvReady mrow mcol alp_v alp_h (some w.next)) with
      | none => none
      | some ((_, some ax), v) => some ((L1C_SUCCESS, some (if analysis then
          ⟨n, (mrow * mcol).toNat, tvP (mrow * mcol).toNat alp_v alp_h, (mrow * mcol).toNat, tvNormW true alp_v alp_h, .tvAna⟩
          else ⟨n, tvP (mrow * mcol).toNat alp_v alp_h, (mrow * mcol).toNat, (mrow * mcol).toNat, tvNormW false alp_v alp_h, .tvSyn⟩)),
          { v with gt := { v.gt with loc := some ax.kind } })
      | some ((st, none), v) => match wfree (some w.next) v with
        | none => none
        | some (_, v') => some ((st, none), v') := by
  obtain ⟨a, rfl, e⟩ := setup_tv_junk (dct_mode := dct_mode) (analysis := analysis) hf hv hp ho
  exact ⟨_, rfl, e⟩

/-! ## The client's view and the resources agree -/

structure Rel (lib : FftwLib F) (L : Sets F) (R : Res F) (w : World F) : Prop where
  d1 : ∀ c, L.d1 = some c → ∃ (hm : 0 < c.m) (s : DctBuf F c.m), R.r1 = some ⟨c.m, c.n, c.idx, s⟩ ∧
    Reach (fun1 lib c.m c.n c.idx hm) s ∧ IdxOk c.m (idxFun c.n c.idx)
  d2 : ∀ c, L.d2 = some c → ∃ (hm : 0 < c.mrow ∧ 0 < c.mcol) (s : DctBuf F (c.mrow * c.mcol)),
    R.r2 = some ⟨c.mrow, c.mcol, c.n, c.idx, s⟩ ∧ Reach (fun2 lib c.mrow c.mcol c.n c.idx hm) s ∧
    IdxOk (c.mrow * c.mcol) (idxFun c.n c.idx)
  tv : ∀ t, L.tv = some t → ∃ (hm : 0 < t.mrow ∧ 0 < t.mcol)
    (s : TvBuf F (t.mrow * t.mcol) (tvP (t.mrow * t.mcol) t.alp_v t.alp_h)), TvRes R t s ∧ TvVars w t ∧
    TvReach (cfgT lib t hm) s ∧ IdxOk (t.mrow * t.mcol) (idxFun t.n t.idx)
  mat : ∀ c, L.mat = some c → ∃ d, R.rm = some ⟨c.N, c.M, c.A, d⟩
  n1 : ¬ L.busy false → R.r1 = none
  n2 : ¬ L.busy true → R.r2 = none
  nu : L.tv = none → R.u = none
  nm : L.mat = none → R.rm = none
  ex1 : ∀ t, L.tv = some t → t.two = false → L.d1 = none
  ex2 : ∀ t, L.tv = some t → t.two = true → L.d2 = none
  ever : L.ever1 = false → R.ever1 = false
  lost : L.lost = false → R.lost = false

theorem note1_other {two : Bool} {st : Int} (h1 : st ≠ L1C_SUCCESS) (h2 : st ≠ L1C_DCT_INIT_FAILURE) (h3 : st ≠ L1C_OUT_OF_MEMORY) :
    L.note1 two st = L := by
  have e1 : (st == L1C_SUCCESS) = false := by simpa using h1
  have e2 : (st == L1C_DCT_INIT_FAILURE) = false := by simpa using h2
  have e3 : (st == L1C_OUT_OF_MEMORY) = false := by simpa using h3
  unfold Sets.note1
  rw [e1, e2, e3]
  simp

theorem idxFun_ok {n m : Int} {idx : List Int} (hl : idx.length = n.toNat) (hi : ∀ i ∈ idx, 0 ≤ i ∧ i < m) (k : ℕ) (hk : (k : Int) = m) :
    IdxOk k (idxFun n.toNat idx) := by
  intro i
  unfold idxFun
  have hlt : i.val < idx.length := by rw [hl]; exact i.2
  rw [List.getD_eq_getElem?_getD, List.getElem?_eq_getElem hlt, Option.getD_some, hk]
  exact hi _ (List.getElem_mem hlt)

/-- transfer along a change that the client's live sets do not see -/
theorem Rel.tv_frame {lib : FftwLib F} (h : Rel lib L R w) {R' : Res F} (hu : R'.u = R.u) (h1 : R'.r1 = R.r1) (h2 : R'.r2 = R.r2)
    (hgt : w'.gt = w.gt) : ∀ t, L.tv = some t → ∃ (hm : 0 < t.mrow ∧ 0 < t.mcol)
    (s : TvBuf F (t.mrow * t.mcol) (tvP (t.mrow * t.mcol) t.alp_v t.alp_h)), TvRes R' t s ∧ TvVars w' t ∧
    TvReach (cfgT lib t hm) s ∧ IdxOk (t.mrow * t.mcol) (idxFun t.n t.idx) := by
  intro t ht
  obtain ⟨hm, s, hr, hv, hreach, hi⟩ := h.tv t ht
  refine ⟨hm, s, ?_, ?_, hreach, hi⟩
  · unfold TvRes at hr ⊢
    rw [hu, h1, h2]
    exact hr
  · exact ⟨by rw [hgt, hv.mrow], by rw [hgt, hv.mcol], by rw [hgt, hv.alp_v], by rw [hgt, hv.alp_h], by rw [hgt, hv.jobV],
      by rw [hgt, hv.jobH], by rw [hgt, hv.loc]⟩

/-- if the 1-D module is free, no TV set uses it -/
theorem not_busy_tv {two : Bool} (h : ¬ L.busy two) {t : SetTv F} (ht : L.tv = some t) : t.two ≠ two :=
  fun e => h (Or.inr ⟨t, ht, e⟩)

/-- what a DCT setup does to the resources -/
theorem dct_step (h : Inv w R own) (hfree : if twoDim mrow mcol dct_mode then R.r2 = none else R.r1 = none)
    {r : Int × Option (AxFuns F)} (hs : l1c_setup_dct_transforms n mrow mcol dct_mode idx w = some (r, w')) :
    (r = (L1C_INVALID_ARGUMENT, none) ∧ w' = w) ∨
    (∃ st, r = (st, none) ∧ twoDim mrow mcol dct_mode = false ∧ (st = L1C_DCT_INIT_FAILURE ∨ st = L1C_OUT_OF_MEMORY) ∧
      Inv w' { R with ever1 := R.ever1 || (st == L1C_DCT_INIT_FAILURE) } own ∧ w'.gt = w.gt) ∨
    (∃ st k, r = (st, none) ∧ twoDim mrow mcol dct_mode = true ∧ (st = L1C_DCT_INIT_FAILURE ∨ st = L1C_OUT_OF_MEMORY) ∧
      Inv w' { R with lost := true } (grow own w.next k .lost) ∧ w'.gt = w.gt) ∨
    (ValidDct n mrow mcol idx ∧ FitsInt (mrow * mcol) ∧ twoDim mrow mcol dct_mode = false ∧ ∃ ax, r = (L1C_SUCCESS, some ax) ∧ ax.kind = .d1 ∧
      Inv w' { R with r1 := some ⟨(mrow * mcol).toNat, n.toNat, idx, DctBuf.fresh⟩, ever1 := true } (grow own w.next 5 .d1) ∧ w'.gt = w.gt) ∨
    (ValidDct n mrow mcol idx ∧ FitsInt (mrow * mcol) ∧ twoDim mrow mcol dct_mode = true ∧ ∃ ax, r = (L1C_SUCCESS, some ax) ∧ ax.kind = .d2 ∧
      Inv w' { R with r2 := some ⟨mrow.toNat, mcol.toNat, n.toNat, idx, DctBuf.fresh⟩ } (grow own w.next 5 .d2) ∧ w'.gt = w.gt) := by
  by_cases h0 : n ≤ 0 ∨ mrow ≤ 0 ∨ mcol ≤ 0
  · rw [setup_dct_nonpos h0] at hs
    cases hs
    exact Or.inl ⟨rfl, rfl⟩
  by_cases hf : FitsInt (mrow * mcol)
  swap
  · rw [setup_dct_overflow h0 hf] at hs
    cases hs
  by_cases hi : ∀ i ∈ idx, 0 ≤ i ∧ i < mrow * mcol
  swap
  · rw [setup_dct_badidx h0 hf hi] at hs
    cases hs
    exact Or.inl ⟨rfl, rfl⟩
  have hv : ValidDct n mrow mcol idx := ⟨by omega, by omega, by omega, hi⟩
  refine Or.inr ?_
  cases ht : twoDim mrow mcol dct_mode
  · rw [ht] at hfree
    rw [setup_dct_one hv hf ht] at hs
    rcases dct1_setup_result hs with ⟨h5, -⟩ | ⟨h5, h3, hr⟩ | ⟨h5, h3, hr⟩
    · obtain ⟨v, e, hI, -, hg, -⟩ := inv_setup1 h hfree n.toNat (mrow * mcol).toNat idx h5
      rw [e] at hs
      cases hs
      exact Or.inr (Or.inr (Or.inl ⟨hv, hf, rfl, _, rfl, rfl, hI, hg⟩))
    · obtain ⟨st, v, e, hst, hI, -, hg, -⟩ := inv_setup1_fail h hfree n.toNat (mrow * mcol).toNat idx h5 (Or.inl h3)
      rw [e] at hs
      cases hs
      exact Or.inl ⟨st, rfl, rfl, hst, hI, hg⟩
    · have h3' : ¬ ∀ i < 3, w.oracle (w.calls + i) = true := by simpa using h3
      obtain ⟨e, hI, -, hg, -⟩ := inv_setup1_oom h hfree h3' hs
      subst e
      refine Or.inl ⟨_, rfl, rfl, Or.inr rfl, ?_, hg⟩
      rw [show (L1C_OUT_OF_MEMORY == L1C_DCT_INIT_FAILURE) = false from rfl, Bool.or_false]
      exact hI
  · rw [ht] at hfree
    rw [setup_dct_two hv hf ht] at hs
    by_cases h5 : ∀ i < 5, w.oracle (w.calls + i) = true
    · obtain ⟨v, e, hI, -, hg, -⟩ := inv_setup2 h hfree n.toNat mrow.toNat mcol.toNat idx h5
      rw [e] at hs
      cases hs
      exact Or.inr (Or.inr (Or.inr ⟨hv, hf, rfl, _, rfl, rfl, hI, hg⟩))
    · obtain ⟨st, v, k, e, hst, hI, -, hg, -⟩ := inv_setup2_fail h hfree n.toNat mrow.toNat mcol.toNat idx h5
      rw [e] at hs
      cases hs
      exact Or.inr (Or.inl ⟨st, k, rfl, rfl, hst, hI, hg⟩)

theorem toNat_mul {a b : Int} (ha : 0 < a) (hb : 0 < b) : (a * b).toNat = a.toNat * b.toNat := by
  obtain ⟨a', rfl⟩ := Int.eq_ofNat_of_zero_le ha.le
  obtain ⟨b', rfl⟩ := Int.eq_ofNat_of_zero_le hb.le
  rw [← Int.natCast_mul, Int.toNat_natCast, Int.toNat_natCast, Int.toNat_natCast]

/-- failure that only notes that plans were requested -/
theorem Rel.note {lib : FftwLib F} (h : Rel lib L R w) {two : Bool} (ht : two = false) {st : Int}
    (hst : st = L1C_DCT_INIT_FAILURE ∨ st = L1C_OUT_OF_MEMORY) (hgt : ∀ t, L.tv = some t → TvVars w t → TvVars w' t) :
    Rel lib (L.note1 two st) { R with ever1 := R.ever1 || (st == L1C_DCT_INIT_FAILURE) } w' := by
  have hs : (st == L1C_SUCCESS) = false := by
    rcases hst with rfl | rfl <;> rfl
  constructor
  · exact h.d1
  · exact h.d2
  · intro t e
    obtain ⟨hm, s, hr, hv, hre, hi⟩ := h.tv t e
    exact ⟨hm, s, hr, hgt t e hv, hre, hi⟩
  · exact h.mat
  · exact h.n1
  · exact h.n2
  · exact h.nu
  · exact h.nm
  · exact h.ex1
  · exact h.ex2
  · intro e
    simp only [Sets.note1, ht, hs, Bool.not_false, Bool.true_and, Bool.false_or, Bool.or_eq_false_iff] at e ⊢
    exact ⟨h.ever e.1, e.2⟩
  · intro e
    simp only [Sets.note1, ht, Bool.false_and, Bool.or_false] at e
    exact h.lost e

/-- a failing 2-D setup -/
theorem Rel.note2 {lib : FftwLib F} (h : Rel lib L R w) {two : Bool} (ht : two = true) {st : Int}
    (hst : st = L1C_DCT_INIT_FAILURE ∨ st = L1C_OUT_OF_MEMORY) (hgt : ∀ t, L.tv = some t → TvVars w t → TvVars w' t) :
    Rel lib (L.note1 two st) { R with lost := true } w' := by
  constructor
  · exact h.d1
  · exact h.d2
  · intro t e
    obtain ⟨hm, s, hr, hv, hre, hi⟩ := h.tv t e
    exact ⟨hm, s, hr, hgt t e hv, hre, hi⟩
  · exact h.mat
  · exact h.n1
  · exact h.n2
  · exact h.nu
  · exact h.nm
  · exact h.ex1
  · exact h.ex2
  · intro e
    simp only [Sets.note1, ht, Bool.not_true, Bool.false_and, Bool.or_false] at e
    exact h.ever e
  · intro e
    rcases hst with rfl | rfl <;> simp [Sets.note1, ht] at e

theorem gt_vars (e : w'.gt = w.gt) {t : SetTv F} (hv : TvVars w t) : TvVars w' t :=
  ⟨by rw [e, hv.mrow], by rw [e, hv.mcol], by rw [e, hv.alp_v], by rw [e, hv.alp_h], by rw [e, hv.jobV],
      by rw [e, hv.jobH], by rw [e, hv.loc]⟩

theorem note_invalid {two : Bool} : L.note1 two L1C_INVALID_ARGUMENT = L :=
  note1_other (by simp [L1C_INVALID_ARGUMENT, L1C_SUCCESS]) (by simp [L1C_INVALID_ARGUMENT, L1C_DCT_INIT_FAILURE])
    (by simp [L1C_INVALID_ARGUMENT, L1C_OUT_OF_MEMORY])

/-- without any change of the resources -/
theorem Rel.note_same {lib : FftwLib F} (h : Rel lib L R w) {two : Bool} (st : Int) (hst : st ≠ L1C_SUCCESS ∧ st ≠ L1C_DCT_INIT_FAILURE) :
    Rel lib (L.note1 two st) R w := by
  have e1 : (st == L1C_SUCCESS) = false := by simpa using hst.1
  have e2 : (st == L1C_DCT_INIT_FAILURE) = false := by simpa using hst.2
  refine { h with ever := fun e => h.ever ?_, lost := fun e => h.lost ?_ }
  · simpa [Sets.note1, e1, e2] using e
  · simp only [Sets.note1, Bool.or_eq_false_iff] at e
    exact e.1

theorem free_of_not_busy {lib : FftwLib F} (h : Rel lib L R w) {two : Bool} (hb : ¬ L.busy two) :
    if two then R.r2 = none else R.r1 = none := by
  cases two
  · exact h.n1 hb
  · exact h.n2 hb

theorem hist_dct {lib : FftwLib F} {r : Int × Option (AxFuns F)} (hI : Inv w R own) (hR : Rel lib L R w)
    (hl : idx.length = n.toNat) (hbz : ¬ L.busy (twoDim mrow mcol dct_mode))
    (hs : l1c_setup_dct_transforms n mrow mcol dct_mode idx w = some (r, w')) :
    ∃ R' own', Inv w' R' own' ∧ Rel lib ((if r.1 = L1C_SUCCESS then L.addDct n mrow mcol (twoDim mrow mcol dct_mode) idx else L).note1
        (twoDim mrow mcol dct_mode) r.1) R' w' := by
  rcases dct_step hI (free_of_not_busy hR hbz) hs with ⟨rfl, rfl⟩ | ⟨st, rfl, ht, hst, hI', hg⟩ |
    ⟨st, k, rfl, ht, hst, hI', hg⟩ | ⟨hv, hf, ht, ax, rfl, hk, hI', hg⟩ |
    ⟨hv, hf, ht, ax, rfl, hk, hI', hg⟩
  · refine ⟨R, own, hI, ?_⟩
    rw [if_neg (by simp [L1C_INVALID_ARGUMENT, L1C_SUCCESS]), note_invalid]
    exact hR
  · refine ⟨_, own, hI', ?_⟩
    rw [if_neg (by rcases hst with rfl | rfl <;> simp [L1C_DCT_INIT_FAILURE, L1C_OUT_OF_MEMORY, L1C_SUCCESS])]
    exact hR.note ht hst fun t _ => gt_vars hg
  · refine ⟨_, _, hI', ?_⟩
    rw [if_neg (by rcases hst with rfl | rfl <;> simp [L1C_DCT_INIT_FAILURE, L1C_OUT_OF_MEMORY, L1C_SUCCESS])]
    exact hR.note2 ht hst fun t _ => gt_vars hg
  · refine ⟨_, _, hI', ?_⟩
    rw [if_pos rfl]
    rw [ht] at hbz ⊢
    obtain ⟨v1, v2, v3, v4⟩ := hv
    have hpos : 0 < mrow * mcol := mul_pos v2 v3
    have htv : ∀ t, L.tv = some t → t.two = true := fun t e => by
      have := not_busy_tv hbz e
      simpa using this
    constructor
    · intro c hc
      simp only [Sets.note1, Sets.addDct, Bool.false_eq_true, if_false] at hc
      cases hc
      refine ⟨?_, _, rfl, .fresh, ?_⟩
      · simp only; omega
      · exact idxFun_ok hl v4 _ (by simp only; omega)
    · intro c hc
      exact hR.d2 c hc
    · intro t e
      obtain ⟨hm, s, hr, hv, hre, hi⟩ := hR.tv t e
      refine ⟨hm, s, ?_, gt_vars hg hv, hre, hi⟩
      have := htv t e
      unfold TvRes at hr ⊢
      rw [this, if_pos rfl] at hr ⊢
      exact hr
    · exact hR.mat
    · intro hc
      exact absurd (Or.inl rfl) hc
    · intro hc
      exact hR.n2 hc
    · exact hR.nu
    · exact hR.nm
    · intro t e e'
      have := htv t e
      rw [e'] at this
      cases this
    · exact hR.ex2
    · intro hc
      simp [Sets.note1] at hc
    · intro hc
      refine hR.lost ?_
      simpa [Sets.note1, Sets.addDct] using hc
  · refine ⟨_, _, hI', ?_⟩
    rw [if_pos rfl]
    rw [ht] at hbz ⊢
    obtain ⟨v1, v2, v3, v4⟩ := hv
    have hpos : 0 < mrow * mcol := mul_pos v2 v3
    have htv : ∀ t, L.tv = some t → t.two = false := fun t e => by
      have := not_busy_tv hbz e
      simpa using this
    constructor
    · intro c hc
      exact hR.d1 c hc
    · intro c hc
      simp only [Sets.note1, Sets.addDct, if_true] at hc
      cases hc
      refine ⟨⟨?_, ?_⟩, _, rfl, .fresh, ?_⟩
      · simp only; omega
      · simp only; omega
      · exact idxFun_ok hl v4 _ (by simp only; rw [← toNat_mul v2 v3]; omega)
    · intro t e
      obtain ⟨hm, s, hr, hv, hre, hi⟩ := hR.tv t e
      refine ⟨hm, s, ?_, gt_vars hg hv, hre, hi⟩
      have := htv t e
      unfold TvRes at hr ⊢
      rw [this, if_neg (by simp)] at hr ⊢
      exact hr
    · exact hR.mat
    · intro hc
      exact hR.n1 hc
    · intro hc
      exact absurd (Or.inl rfl) hc
    · exact hR.nu
    · exact hR.nm
    · exact hR.ex1
    · intro t e e'
      have := htv t e
      rw [e'] at this
      cases this
    · intro hc
      refine hR.ever ?_
      simp [Sets.note1, Sets.addDct] at hc
      exact hc
    · intro hc
      refine hR.lost ?_
      simpa [Sets.note1, Sets.addDct, L1C_SUCCESS, L1C_OUT_OF_MEMORY, L1C_DCT_INIT_FAILURE] using hc

theorem Rel.noTv {lib : FftwLib F} (h : Rel lib L R w) (ht : L.tv = none) (w' : World F) : Rel lib L R w' :=
  { h with tv := fun t e => by rw [ht] at e; cases e }

theorem hist_tv {lib : FftwLib F} {r : Int × Option (AxFuns F)} (hI : Inv w R own) (hR : Rel lib L R w)
    (hl : idx.length = n.toNat) (htv : L.tv = none) (hbz : ¬ L.busy (twoDim mrow mcol dct_mode))
    (hs : l1c_setup_dctTV_transforms n mrow mcol alp_v alp_h dct_mode analysis idx w = some (r, w')) :
    ∃ R' own', Inv w' R' own' ∧ Rel lib ((if r.1 = L1C_SUCCESS then { L with tv := some ⟨mrow.toNat, mcol.toNat, n.toNat, idx, alp_v, alp_h,
        !analysis, twoDim mrow mcol dct_mode⟩ } else L).note1 (twoDim mrow mcol dct_mode) r.1) R' w' := by
  have hu := hR.nu htv
  by_cases hf : FitsInt (mrow * mcol)
  swap
  · rw [setup_tv_overflow hf] at hs
    cases hs
  by_cases hv : ValidTv n mrow mcol alp_v alp_h idx
  swap
  · rw [setup_tv_invalid hf hv] at hs
    cases hs
    refine ⟨R, own, hI.setGt' hu _, ?_⟩
    rw [if_neg (by simp [L1C_INVALID_ARGUMENT, L1C_SUCCESS]), note_invalid]
    exact hR.noTv htv _
  by_cases hp : FitsInt (tvP (mrow * mcol).toNat alp_v alp_h)
  swap
  · rw [setup_tv_toobig hf hv hp] at hs
    cases hs
  cases ho : w.oracle w.calls
  · rw [setup_tv_refused hf hv hp ho] at hs
    cases hs
    refine ⟨R, own, hI.skip.setGt' hu _, ?_⟩
    rw [if_neg (by simp [L1C_OUT_OF_MEMORY, L1C_SUCCESS])]
    exact (hR.noTv htv _).note_same _ (by simp [L1C_DCT_INIT_FAILURE, L1C_OUT_OF_MEMORY, L1C_SUCCESS])
  obtain ⟨⟨l, a⟩, ha, e⟩ := setup_tv_granted (w := w) (dct_mode := dct_mode) (analysis := analysis) hf hv hp ho
  simp only at ha
  subst ha
  rw [e] at hs
  clear e
  set w₁ := (w.push (.arr ⟨_, a⟩)).tvReady mrow mcol alp_v alp_h (some w.next) with hw₁
  have hI₁ : Inv w₁ { R with u := some ⟨_, a⟩ } (grow own w.next 1 .tv) := (inv_allocU hI hu ⟨_, a⟩).setGt _ rfl
  have hgu : w₁.gt.u = some w.next := rfl
  generalize hq : l1c_setup_dct_transforms n mrow mcol dct_mode idx w₁ = q at hs
  match q, hq, hs with
  | none, hq, hs => cases hs
  | some ((st, none), v), hq, hs =>
    simp only at hs
    have hr : r = (st, none) := by
      cases hfv : wfree (some w.next) v with
      | none => rw [hfv] at hs; cases hs
      | some x => rw [hfv] at hs; cases hs; rfl
    rcases dct_step hI₁ (free_of_not_busy hR hbz) hq with ⟨e1, e2⟩ | ⟨st', e1, ht, hst, hI', hg⟩ |
      ⟨st', k, e1, ht, hst, hI', hg⟩ | ⟨-, -, -, ax, e1, -⟩ | ⟨-, -, -, ax, e1, -⟩
    · cases e1
      subst e2
      obtain ⟨v', e, hI', hg⟩ := inv_freeU hI₁ rfl
      rw [hgu] at e
      rw [e] at hs
      cases hs
      refine ⟨_, _, hI', ?_⟩
      rw [if_neg (by simp [L1C_INVALID_ARGUMENT, L1C_SUCCESS]), note_invalid]
      have := hR.noTv htv w'
      obtain ⟨r1, r2, u, rm, ev, lo⟩ := R
      simp only at hu
      subst hu
      exact this
    · cases e1
      obtain ⟨v', e, hI'', hg'⟩ := inv_freeU hI' rfl
      rw [hg, hgu] at e
      rw [e] at hs
      cases hs
      refine ⟨_, _, hI'', ?_⟩
      rw [if_neg (by rcases hst with rfl | rfl <;> simp [L1C_DCT_INIT_FAILURE, L1C_OUT_OF_MEMORY, L1C_SUCCESS])]
      have := hR.note (w' := w') ht hst (fun t e => by rw [htv] at e; cases e)
      obtain ⟨r1, r2, u, rm, ev, lo⟩ := R
      simp only at hu
      subst hu
      exact this
    · cases e1
      obtain ⟨v', e, hI'', hg'⟩ := inv_freeU hI' rfl
      rw [hg, hgu] at e
      rw [e] at hs
      cases hs
      refine ⟨_, _, hI'', ?_⟩
      rw [if_neg (by rcases hst with rfl | rfl <;> simp [L1C_DCT_INIT_FAILURE, L1C_OUT_OF_MEMORY, L1C_SUCCESS])]
      have := hR.note2 (w' := w') ht hst (fun t e => by rw [htv] at e; cases e)
      obtain ⟨r1, r2, u, rm, ev, lo⟩ := R
      simp only at hu
      subst hu
      exact this
    · cases e1
    · cases e1
  | some ((st, some ax), v), hq, hs =>
    simp only at hs
    cases hs
    obtain ⟨⟨v1, v2, v3, v4⟩, -⟩ := id hv
    have hmm := toNat_mul v2 v3
    have hpos : 0 < mrow * mcol := mul_pos v2 v3
    rcases dct_step hI₁ (free_of_not_busy hR hbz) hq with ⟨e1, e2⟩ | ⟨st', e1, ht, hst, hI', hg⟩ | ⟨st', k, e1, -⟩ |
      ⟨-, -, ht, ax', e1, hk, hI', hg⟩ | ⟨-, -, ht, ax', e1, hk, hI', hg⟩
    · cases e1
    · cases e1
    · cases e1
    · cases e1
      rw [ht] at hbz ⊢
      have hI2 := hI'.setGt { v.gt with loc := some ax.kind } rfl
      refine ⟨_, _, hI2, ?_⟩
      rw [if_pos rfl]
      have hd1 : L.d1 = none := by
        by_contra hc
        exact hbz (Or.inl (by simpa [Option.isSome_iff_ne_none] using hc))
      constructor
      · intro c hc
        simp only [Sets.note1] at hc
        rw [hd1] at hc
        cases hc
      · exact hR.d2
      · intro t e
        cases e
        refine ⟨⟨by simp only; omega, by simp only; omega⟩, ⟨DctBuf.fresh, hmm ▸ a⟩, ?_, ?_, .fresh _, ?_⟩
        · unfold TvRes
          simp only [Bool.false_eq_true, if_false]
          clear hI2 hI' hI₁ hgu hq hw₁
          revert a
          simp only
          clear hv hp
          generalize mrow.toNat * mcol.toNat = k at hmm
          subst hmm
          intro a _ _
          exact ⟨rfl, by trivial⟩
        · refine ⟨?_, ?_, ?_, ?_, ?_, ?_, ?_⟩ <;> simp only [hg, hk, hw₁, World.tvReady, Bool.false_eq_true, if_false]
          · omega
          · omega
        · exact idxFun_ok hl v4 _ (by simp only; rw [← hmm]; omega)
      · exact hR.mat
      · intro hc
        exact absurd (Or.inr ⟨_, rfl, rfl⟩) hc
      · intro hc
        refine hR.n2 fun hb => hc ?_
        rcases hb with hb | ⟨t, ht, -⟩
        · exact Or.inl hb
        · rw [htv] at ht; cases ht
      · intro hc; cases hc
      · exact hR.nm
      · intro t _ _; exact hd1
      · intro t e e'
        cases e
        cases e'
      · intro hc
        simp [Sets.note1] at hc
      · intro hc
        refine hR.lost ?_
        simpa [Sets.note1] using hc
    · cases e1
      rw [ht] at hbz ⊢
      have hI2 := hI'.setGt { v.gt with loc := some ax.kind } rfl
      refine ⟨_, _, hI2, ?_⟩
      rw [if_pos rfl]
      have hd2 : L.d2 = none := by
        by_contra hc
        exact hbz (Or.inl (by simpa [Option.isSome_iff_ne_none] using hc))
      constructor
      · exact hR.d1
      · intro c hc
        simp only [Sets.note1] at hc
        rw [hd2] at hc
        cases hc
      · intro t e
        cases e
        refine ⟨⟨by simp only; omega, by simp only; omega⟩, ⟨DctBuf.fresh, hmm ▸ a⟩, ?_, ?_, .fresh _, ?_⟩
        · unfold TvRes
          simp only [if_true]
          clear hI2 hI' hI₁ hgu hq hw₁
          revert a
          simp only
          clear hv hp
          generalize mrow.toNat * mcol.toNat = k at hmm
          subst hmm
          intro a _ _
          exact ⟨rfl, by trivial⟩
        · refine ⟨?_, ?_, ?_, ?_, ?_, ?_, ?_⟩ <;> simp only [hg, hk, hw₁, World.tvReady, if_true]
          · omega
          · omega
        · exact idxFun_ok hl v4 _ (by simp only; rw [← hmm]; omega)
      · exact hR.mat
      · intro hc
        refine hR.n1 fun hb => hc ?_
        rcases hb with hb | ⟨t, ht, -⟩
        · exact Or.inl hb
        · rw [htv] at ht; cases ht
      · intro hc
        exact absurd (Or.inr ⟨_, rfl, rfl⟩) hc
      · intro hc; cases hc
      · exact hR.nm
      · intro t e e'
        cases e
        cases e'
      · intro t _ _; exact hd2
      · intro hc
        refine hR.ever ?_
        simpa [Sets.note1] using hc
      · intro hc
        refine hR.lost ?_
        simpa [Sets.note1, L1C_SUCCESS, L1C_OUT_OF_MEMORY, L1C_DCT_INIT_FAILURE] using hc

/-- a DCT-TV setup whose first request is refused loses nothing -/
theorem hist_tvRefused {lib : FftwLib F} {r : Int × Option (AxFuns F)} (hI : Inv w R own) (hR : Rel lib L R w) (htv : L.tv = none)
    (hs : l1c_setup_dctTV_transforms n mrow mcol alp_v alp_h dct_mode analysis idx w = some (r, w')) (ho : w.oracle w.calls = false) :
    ∃ R' own', Inv w' R' own' ∧ Rel lib L R' w' := by
  have hu := hR.nu htv
  by_cases hf : FitsInt (mrow * mcol)
  swap
  · rw [setup_tv_overflow hf] at hs
    cases hs
  by_cases hv : ValidTv n mrow mcol alp_v alp_h idx
  swap
  · rw [setup_tv_invalid hf hv] at hs
    cases hs
    exact ⟨R, own, hI.setGt' hu _, hR.noTv htv _⟩
  by_cases hp : FitsInt (tvP (mrow * mcol).toNat alp_v alp_h)
  swap
  · rw [setup_tv_toobig hf hv hp] at hs
    cases hs
  rw [setup_tv_refused hf hv hp ho] at hs
  cases hs
  exact ⟨R, own, hI.skip.setGt' hu _, hR.noTv htv _⟩

theorem setup_mat_invalid {m : Int} {A : Arr F} (h : n ≤ 0 ∨ m ≤ 0) :
    l1c_setup_matrix_transforms n m A w = some ((L1C_INVALID_ARGUMENT, none), w) := by
  unfold l1c_setup_matrix_transforms
  rw [if_pos h]; rfl

theorem hist_mat {lib : FftwLib F} {r : Int × Option (AxFuns F)} {m : Int} {A : Arr F} (hI : Inv w R own) (hR : Rel lib L R w)
    (hm : L.mat = none) (hs : l1c_setup_matrix_transforms n m A w = some (r, w')) :
    ∃ R' own', Inv w' R' own' ∧ Rel lib (if r.1 = L1C_SUCCESS then { L with mat := some ⟨n.toNat, m.toNat, A⟩ } else L) R' w' := by
  by_cases h0 : n ≤ 0 ∨ m ≤ 0
  · rw [setup_mat_invalid h0] at hs
    cases hs
    refine ⟨R, own, hI, ?_⟩
    rw [if_neg (by simp [L1C_INVALID_ARGUMENT, L1C_SUCCESS])]
    exact hR
  cases ho : w.oracle w.calls
  · obtain ⟨v, e, hI', hg⟩ := inv_setupM_fail hI (hR.nm hm) (n := n) (m := m) (by omega) (by omega) A ho
    rw [e] at hs
    cases hs
    refine ⟨R, own, hI', ?_⟩
    rw [if_neg (by simp [L1C_OUT_OF_MEMORY, L1C_SUCCESS])]
    exact { hR with tv := hR.tv_frame rfl rfl rfl hg }
  · obtain ⟨v, e, hI', hg⟩ := inv_setupM hI (hR.nm hm) (n := n) (m := m) (by omega) (by omega) A ho
    rw [e] at hs
    cases hs
    refine ⟨_, _, hI', ?_⟩
    rw [if_pos rfl]
    exact { d1 := hR.d1, d2 := hR.d2, tv := hR.tv_frame rfl rfl rfl hg, mat := fun c hc => by cases hc; exact ⟨_, rfl⟩,
            n1 := hR.n1, n2 := hR.n2, nu := hR.nu, nm := fun hc => by cases hc
            ex1 := hR.ex1, ex2 := hR.ex2, ever := hR.ever, lost := hR.lost }

theorem tv_of_has {K : Kind} (h : L.has K) (hK : K = .tvSyn ∨ K = .tvAna) : ∃ t, L.tv = some t ∧ K = if t.syn then .tvSyn else .tvAna := by
  rcases hK with rfl | rfl
  · obtain ⟨t, ht, hs⟩ := h
    exact ⟨t, ht, by rw [hs]; rfl⟩
  · obtain ⟨t, ht, hs⟩ := h
    exact ⟨t, ht, by rw [hs]; rfl⟩

/-- the state a call leaves behind -/
theorem hist_call {lib : FftwLib F} {K : Kind} {op : Op} {a out : Arr F} {r : Arr F × Arr F} (hI : Inv w R own) (hR : Rel lib L R w)
    (hK : L.has K) (hs : wcall lib K op a out w = some (r, w')) : ∃ R' own', Inv w' R' own' ∧ Rel lib L R' w' := by
  have tvcase : (K = .tvSyn ∨ K = .tvAna) → ∃ R' own', Inv w' R' own' ∧ Rel lib L R' w' := by
    intro hK'
    obtain ⟨t, ht, hKt⟩ := tv_of_has hK hK'
    obtain ⟨hm, s, hr, hv, hre, hi⟩ := hR.tv t ht
    obtain ⟨put, e, hput⟩ := wcallT_eq hI hv hr hm lib op a out
    have e' : wcall lib K op a out w = wcallT lib t.syn op a out w := by
      rw [hKt]
      cases t.syn <;> rfl
    rw [e', e] at hs
    obtain ⟨x, hx, hs⟩ := Option.map_eq_some_iff.1 hs
    cases hs
    obtain ⟨hv', hI'⟩ := hput x.2
    refine ⟨_, own, hI', ?_⟩
    have hne : ¬ L.tv = none := by rw [ht]; simp
    cases h2 : t.two
    · have hset : R.setTv t x.2 = { R with u := some ⟨_, x.2.u⟩, r1 := some ⟨t.mrow * t.mcol, t.n, t.idx, x.2.dct⟩ } := by
        unfold Res.setTv; rw [h2]; rfl
      rw [hset]
      have hd := hR.ex1 t ht h2
      exact { d1 := fun c hc => by rw [hd] at hc; cases hc
              d2 := hR.d2
              tv := fun t' ht' => by
                rw [ht] at ht'; cases ht'
                refine ⟨hm, x.2, ?_, hv', tvAll_reach hre hx, hi⟩
                unfold TvRes
                rw [h2]
                exact ⟨rfl, rfl⟩
              mat := hR.mat
              n1 := fun hc => absurd (Or.inr ⟨t, ht, h2⟩) hc
              n2 := hR.n2
              nu := fun hc => absurd hc hne
              nm := hR.nm
              ex1 := hR.ex1, ex2 := hR.ex2, ever := hR.ever, lost := hR.lost }
    · have hset : R.setTv t x.2 = { R with u := some ⟨_, x.2.u⟩, r2 := some ⟨t.mrow, t.mcol, t.n, t.idx, x.2.dct⟩ } := by
        unfold Res.setTv; rw [h2]; rfl
      rw [hset]
      have hd := hR.ex2 t ht h2
      exact { d1 := hR.d1
              d2 := fun c hc => by rw [hd] at hc; cases hc
              tv := fun t' ht' => by
                rw [ht] at ht'; cases ht'
                refine ⟨hm, x.2, ?_, hv', tvAll_reach hre hx, hi⟩
                unfold TvRes
                rw [h2]
                exact ⟨rfl, rfl⟩
              mat := hR.mat
              n1 := hR.n1
              n2 := fun hc => absurd (Or.inr ⟨t, ht, h2⟩) hc
              nu := fun hc => absurd hc hne
              nm := hR.nm
              ex1 := hR.ex1, ex2 := hR.ex2, ever := hR.ever, lost := hR.lost }
  cases K with
  | d1 =>
    obtain ⟨c, hc⟩ := Option.isSome_iff_exists.1 hK
    obtain ⟨hm, s, hr, hre, hi⟩ := hR.d1 c hc
    have h1 := hI.s1
    rw [hr] at h1
    change wcall1 lib op a out w = _ at hs
    rw [wcall1_eq h1 hm lib op a out] at hs
    obtain ⟨x, hx, hs⟩ := Option.map_eq_some_iff.1 hs
    cases hs
    refine ⟨_, own, inv_store1 hI hr x.2, ?_⟩
    have htv : ∀ t, L.tv = some t → t.two = true := fun t e => by
      by_contra h2
      have := hR.ex1 t e (by simpa using h2)
      rw [hc] at this; cases this
    exact { d1 := fun c' hc' => by rw [hc] at hc'; cases hc'; exact ⟨hm, x.2, rfl, dctOp_reach hre hx, hi⟩
            d2 := hR.d2
            tv := fun t e => by
              obtain ⟨hm', s', hr', hv', hre', hi'⟩ := hR.tv t e
              refine ⟨hm', s', ?_, gt_vars (store1_gt _) hv', hre', hi'⟩
              unfold TvRes at hr' ⊢
              rw [htv t e, if_pos rfl] at hr' ⊢
              exact hr'
            mat := hR.mat
            n1 := fun h => absurd (Or.inl (by simp [hc])) h
            n2 := hR.n2, nu := hR.nu, nm := hR.nm, ex1 := hR.ex1, ex2 := hR.ex2, ever := hR.ever, lost := hR.lost }
  | d2 =>
    obtain ⟨c, hc⟩ := Option.isSome_iff_exists.1 hK
    obtain ⟨hm, s, hr, hre, hi⟩ := hR.d2 c hc
    have h1 := hI.s2
    rw [hr] at h1
    change wcall2 lib op a out w = _ at hs
    rw [wcall2_eq h1 hm lib op a out] at hs
    obtain ⟨x, hx, hs⟩ := Option.map_eq_some_iff.1 hs
    cases hs
    refine ⟨_, own, inv_store2 hI hr x.2, ?_⟩
    have htv : ∀ t, L.tv = some t → t.two = false := fun t e => by
      by_contra h2
      have := hR.ex2 t e (by simpa using h2)
      rw [hc] at this; cases this
    exact { d1 := hR.d1
            d2 := fun c' hc' => by rw [hc] at hc'; cases hc'; exact ⟨hm, x.2, rfl, dctOp_reach hre hx, hi⟩
            tv := fun t e => by
              obtain ⟨hm', s', hr', hv', hre', hi'⟩ := hR.tv t e
              refine ⟨hm', s', ?_, gt_vars (store2_gt _) hv', hre', hi'⟩
              unfold TvRes at hr' ⊢
              rw [htv t e, if_neg (by simp)] at hr' ⊢
              exact hr'
            mat := hR.mat
            n1 := hR.n1
            n2 := fun h => absurd (Or.inl (by simp [hc])) h
            nu := hR.nu, nm := hR.nm, ex1 := hR.ex1, ex2 := hR.ex2, ever := hR.ever, lost := hR.lost }
  | mat =>
    obtain ⟨c, hc⟩ := Option.isSome_iff_exists.1 hK
    obtain ⟨d, hr⟩ := hR.mat c hc
    have h1 := hI.sm
    rw [hr] at h1
    obtain ⟨b, hb, e⟩ := wcallM_eq h1 op a out
    change wcallM op a out w = _ at hs
    rw [e] at hs
    obtain ⟨x, hx, hs⟩ := Option.map_eq_some_iff.1 hs
    cases hs
    refine ⟨_, own, inv_storeM hI hr hb x.2, ?_⟩
    exact { d1 := hR.d1, d2 := hR.d2, tv := hR.tv_frame rfl rfl rfl rfl
            mat := fun c' hc' => by rw [hc] at hc'; cases hc'; exact ⟨_, rfl⟩
            n1 := hR.n1, n2 := hR.n2, nu := hR.nu
            nm := fun h => by rw [hc] at h; cases h
            ex1 := hR.ex1, ex2 := hR.ex2, ever := hR.ever, lost := hR.lost }
  | tvSyn => exact tvcase (Or.inl rfl)
  | tvAna => exact tvcase (Or.inr rfl)

/-- destroying a live set works and gives its resources back -/
theorem hist_destroy {lib : FftwLib F} {K : Kind} (hI : Inv w R own) (hR : Rel lib L R w) (hK : L.has K) :
    ∃ w', wdestroy K w = some ((), w') ∧ ∃ R' own', Inv w' R' own' ∧ Rel lib (L.drop K) R' w' := by
  have tvcase : (K = .tvSyn ∨ K = .tvAna) → ∃ w', wdestroy K w = some ((), w') ∧ ∃ R' own', Inv w' R' own' ∧ Rel lib (L.drop K) R' w' := by
    intro hK'
    obtain ⟨t, ht, hKt⟩ := tv_of_has hK hK'
    obtain ⟨hm, s, hr, hv, hre, hi⟩ := hR.tv t ht
    have ed : wdestroy K w = (tv_destroy w : Option (Unit × World F)) := by rcases hK' with rfl | rfl <;> rfl
    have eL : L.drop K = { L with tv := none } := by rcases hK' with rfl | rfl <;> rfl
    rw [eL]
    have e0 : (tv_destroy w : Option (Unit × World F)) = ((wdestroyLoc w.gt.loc >>= fun _ => wfree w.gt.u : WM F Unit) w) := rfl
    cases h2 : t.two
    · have hr1 := hr.2
      rw [h2, if_neg (by simp)] at hr1
      obtain ⟨w₁, e1, hI1, -, hg1, -⟩ := inv_destroy1 hI hr1
      obtain ⟨w₂, e2, hI2, hg2⟩ := inv_freeU hI1 (a := ⟨_, s.u⟩) hr.1
      rw [hg1] at e2
      refine ⟨w₂, ?_, _, _, hI2, ?_⟩
      · rw [ed, e0, hv.loc, h2]
        exact (wbind_some e1).trans e2
      · have hd := hR.ex1 t ht h2
        exact { d1 := fun c hc => by rw [hd] at hc; cases hc
                d2 := hR.d2, tv := fun t' e => by cases e
                mat := hR.mat, n1 := fun _ => rfl
                n2 := fun hc => hR.n2 fun hb => hc (by
                  rcases hb with hb | ⟨t', e, e'⟩
                  · exact Or.inl hb
                  · rw [ht] at e; cases e; rw [h2] at e'; cases e')
                nu := fun _ => rfl, nm := hR.nm
                ex1 := (fun t' e _ => by cases e), ex2 := (fun t' e _ => by cases e), ever := hR.ever, lost := hR.lost }
    · have hr1 := hr.2
      rw [h2, if_pos rfl] at hr1
      obtain ⟨w₁, e1, hI1, -, hg1, -⟩ := inv_destroy2 hI hr1
      obtain ⟨w₂, e2, hI2, hg2⟩ := inv_freeU hI1 (a := ⟨_, s.u⟩) hr.1
      rw [hg1] at e2
      refine ⟨w₂, ?_, _, _, hI2, ?_⟩
      · rw [ed, e0, hv.loc, h2]
        exact (wbind_some e1).trans e2
      · have hd := hR.ex2 t ht h2
        exact { d1 := hR.d1
                d2 := fun c hc => by rw [hd] at hc; cases hc
                tv := fun t' e => by cases e
                mat := hR.mat
                n1 := fun hc => hR.n1 fun hb => hc (by
                  rcases hb with hb | ⟨t', e, e'⟩
                  · exact Or.inl hb
                  · rw [ht] at e; cases e; rw [h2] at e'; cases e')
                n2 := fun _ => rfl
                nu := fun _ => rfl, nm := hR.nm
                ex1 := (fun t' e _ => by cases e), ex2 := (fun t' e _ => by cases e), ever := hR.ever, lost := hR.lost }
  cases K with
  | d1 =>
    obtain ⟨c, hc⟩ := Option.isSome_iff_exists.1 hK
    obtain ⟨hm, s, hr, hre, hi⟩ := hR.d1 c hc
    obtain ⟨w₁, e1, hI1, -, hg1, -⟩ := inv_destroy1 hI hr
    refine ⟨w₁, e1, _, _, hI1, ?_⟩
    have htv : ∀ t, L.tv = some t → t.two = true := fun t e => by
      by_contra h2
      have := hR.ex1 t e (by simpa using h2)
      rw [hc] at this; cases this
    exact { d1 := fun c hc => by cases hc
            d2 := hR.d2
            tv := fun t e => by
              obtain ⟨hm', s', hr', hv', hre', hi'⟩ := hR.tv t e
              refine ⟨hm', s', ?_, gt_vars hg1 hv', hre', hi'⟩
              unfold TvRes at hr' ⊢
              rw [htv t e, if_pos rfl] at hr' ⊢
              exact hr'
            mat := hR.mat, n1 := fun _ => rfl, n2 := hR.n2, nu := hR.nu, nm := hR.nm
            ex1 := (fun _ _ _ => rfl), ex2 := hR.ex2, ever := hR.ever, lost := hR.lost }
  | d2 =>
    obtain ⟨c, hc⟩ := Option.isSome_iff_exists.1 hK
    obtain ⟨hm, s, hr, hre, hi⟩ := hR.d2 c hc
    obtain ⟨w₁, e1, hI1, -, hg1, -⟩ := inv_destroy2 hI hr
    refine ⟨w₁, e1, _, _, hI1, ?_⟩
    have htv : ∀ t, L.tv = some t → t.two = false := fun t e => by
      by_contra h2
      have := hR.ex2 t e (by simpa using h2)
      rw [hc] at this; cases this
    exact { d1 := hR.d1
            d2 := fun c hc => by cases hc
            tv := fun t e => by
              obtain ⟨hm', s', hr', hv', hre', hi'⟩ := hR.tv t e
              refine ⟨hm', s', ?_, gt_vars hg1 hv', hre', hi'⟩
              unfold TvRes at hr' ⊢
              rw [htv t e, if_neg (by simp)] at hr' ⊢
              exact hr'
            mat := hR.mat, n1 := hR.n1, n2 := fun _ => rfl, nu := hR.nu, nm := hR.nm
            ex1 := hR.ex1, ex2 := (fun _ _ _ => rfl), ever := hR.ever, lost := hR.lost }
  | mat =>
    obtain ⟨c, hc⟩ := Option.isSome_iff_exists.1 hK
    obtain ⟨d, hr⟩ := hR.mat c hc
    obtain ⟨w₁, e1, hI1, hg1⟩ := inv_destroyM hI hr
    exact ⟨w₁, e1, _, _, hI1, { hR with tv := hR.tv_frame rfl rfl rfl hg1, mat := (fun c hc => by cases hc), nm := fun _ => rfl }⟩
  | tvSyn => exact tvcase (Or.inl rfl)
  | tvAna => exact tvcase (Or.inr rfl)

theorem inv_init (oracle : ℕ → Bool) (junk : ℕ → ℕ → F) :
    Inv (World.init oracle junk false) ⟨none, none, none, none, false, false⟩ (fun _ => none) where
  thr := rfl
  lt := fun _ h => absurd rfl h
  leak := fun _ _ => rfl
  s1 := fun _ h => by cases h
  s2 := fun _ h => by cases h
  su := fun _ h => by cases h
  sm := fun _ h => by cases h
  ever := fun _ => ⟨rfl, rfl⟩
  left := ⟨(fun _ _ h => by cases h), (fun _ _ h => by rcases h with h | h <;> cases h)⟩

/-- forgetting a live set -/
theorem hist_forget {lib : FftwLib F} {K : Kind} (hI : Inv w R own) (hR : Rel lib L R w) (hK : L.has K) :
    ∃ R' own', Inv w R' own' ∧ Rel lib { L.drop K with lost := true } R' w := by
  have tvcase : (K = .tvSyn ∨ K = .tvAna) → ∃ R' own', Inv w R' own' ∧ Rel lib { L.drop K with lost := true } R' w := by
    intro hK'
    obtain ⟨t, ht, hKt⟩ := tv_of_has hK hK'
    have eL : L.drop K = { L with tv := none } := by rcases hK' with rfl | rfl <;> rfl
    rw [eL]
    have hI1 := inv_forget hI .tv (by decide) (R' := { R with u := none, lost := true }) rfl rfl rfl rfl rfl rfl
    cases h2 : t.two
    · refine ⟨_, _, inv_forget hI1 .d1 (by decide) (R' := { R with u := none, r1 := none, lost := true }) rfl rfl rfl rfl rfl rfl, ?_⟩
      have hd := hR.ex1 t ht h2
      exact { d1 := fun c hc => by rw [hd] at hc; cases hc
              d2 := hR.d2, tv := fun t' e => by cases e
              mat := hR.mat, n1 := fun _ => rfl
              n2 := fun hc => hR.n2 fun hb => hc (by
                rcases hb with hb | ⟨t', e, e'⟩
                · exact Or.inl hb
                · rw [ht] at e; cases e; rw [h2] at e'; cases e')
              nu := fun _ => rfl, nm := hR.nm
              ex1 := (fun t' e _ => by cases e), ex2 := (fun t' e _ => by cases e), ever := hR.ever, lost := fun e => by cases e }
    · refine ⟨_, _, inv_forget hI1 .d2 (by decide) (R' := { R with u := none, r2 := none, lost := true }) rfl rfl rfl rfl rfl rfl, ?_⟩
      have hd := hR.ex2 t ht h2
      exact { d1 := hR.d1
              d2 := fun c hc => by rw [hd] at hc; cases hc
              tv := fun t' e => by cases e
              mat := hR.mat
              n1 := fun hc => hR.n1 fun hb => hc (by
                rcases hb with hb | ⟨t', e, e'⟩
                · exact Or.inl hb
                · rw [ht] at e; cases e; rw [h2] at e'; cases e')
              n2 := fun _ => rfl
              nu := fun _ => rfl, nm := hR.nm
              ex1 := (fun t' e _ => by cases e), ex2 := (fun t' e _ => by cases e), ever := hR.ever, lost := fun e => by cases e }
  cases K with
  | d1 =>
    obtain ⟨c, hc⟩ := Option.isSome_iff_exists.1 hK
    refine ⟨_, _, inv_forget hI .d1 (by decide) (R' := { R with r1 := none, lost := true }) rfl rfl rfl rfl rfl rfl, ?_⟩
    have htv : ∀ t, L.tv = some t → t.two = true := fun t e => by
      by_contra h2
      have := hR.ex1 t e (by simpa using h2)
      rw [hc] at this; cases this
    exact { d1 := fun c hc => by cases hc
            d2 := hR.d2
            tv := fun t e => by
              obtain ⟨hm', s', hr', hv', hre', hi'⟩ := hR.tv t e
              refine ⟨hm', s', ?_, hv', hre', hi'⟩
              unfold TvRes at hr' ⊢
              rw [htv t e, if_pos rfl] at hr' ⊢
              exact hr'
            mat := hR.mat, n1 := fun _ => rfl, n2 := hR.n2, nu := hR.nu, nm := hR.nm
            ex1 := (fun _ _ _ => rfl), ex2 := hR.ex2, ever := hR.ever, lost := fun e => by cases e }
  | d2 =>
    obtain ⟨c, hc⟩ := Option.isSome_iff_exists.1 hK
    refine ⟨_, _, inv_forget hI .d2 (by decide) (R' := { R with r2 := none, lost := true }) rfl rfl rfl rfl rfl rfl, ?_⟩
    have htv : ∀ t, L.tv = some t → t.two = false := fun t e => by
      by_contra h2
      have := hR.ex2 t e (by simpa using h2)
      rw [hc] at this; cases this
    exact { d1 := hR.d1
            d2 := fun c hc => by cases hc
            tv := fun t e => by
              obtain ⟨hm', s', hr', hv', hre', hi'⟩ := hR.tv t e
              refine ⟨hm', s', ?_, hv', hre', hi'⟩
              unfold TvRes at hr' ⊢
              rw [htv t e, if_neg (by simp)] at hr' ⊢
              exact hr'
            mat := hR.mat, n1 := hR.n1, n2 := fun _ => rfl, nu := hR.nu, nm := hR.nm
            ex1 := hR.ex1, ex2 := (fun _ _ _ => rfl), ever := hR.ever, lost := fun e => by cases e }
  | mat =>
    refine ⟨_, _, inv_forget hI .mat (by decide) (R' := { R with rm := none, lost := true }) rfl rfl rfl rfl rfl rfl, ?_⟩
    exact { d1 := hR.d1, d2 := hR.d2, tv := hR.tv_frame rfl rfl rfl rfl, mat := (fun c hc => by cases hc), n1 := hR.n1, n2 := hR.n2
            nu := hR.nu, nm := fun _ => rfl, ex1 := hR.ex1, ex2 := hR.ex2, ever := hR.ever, lost := fun e => by cases e }
  | tvSyn => exact tvcase (Or.inl rfl)
  | tvAna => exact tvcase (Or.inr rfl)

theorem hist_inv {lib : FftwLib F} (h : Hist lib w L) : ∃ R own, Inv w R own ∧ Rel lib L R w := by
  induction h with
  | start oracle junk =>
    exact ⟨_, _, inv_init oracle junk, { d1 := (fun _ h => by cases h), d2 := (fun _ h => by cases h), tv := (fun _ h => by cases h)
                                         mat := (fun _ h => by cases h), n1 := fun _ => rfl, n2 := fun _ => rfl, nu := fun _ => rfl
                                         nm := fun _ => rfl, ex1 := (fun _ h => by cases h), ex2 := (fun _ h => by cases h), ever := fun _ => rfl
                                         lost := fun _ => rfl }⟩
  | dct n mrow mcol dct_mode idx _ hl hb hs ih =>
    obtain ⟨R, own, hI, hR⟩ := ih
    exact hist_dct hI hR hl hb hs
  | tv n mrow mcol alp_v alp_h dct_mode analysis idx _ hl ht hb hs ih =>
    obtain ⟨R, own, hI, hR⟩ := ih
    exact hist_tv hI hR hl ht hb hs
  | tvRefused n mrow mcol alp_v alp_h dct_mode analysis idx _ ht hs ho ih =>
    obtain ⟨R, own, hI, hR⟩ := ih
    exact hist_tvRefused hI hR ht hs ho
  | mat n m A _ hm hs ih =>
    obtain ⟨R, own, hI, hR⟩ := ih
    exact hist_mat hI hR hm hs
  | call K op a out _ hK hs ih =>
    obtain ⟨R, own, hI, hR⟩ := ih
    exact hist_call hI hR hK hs
  | destroy K _ hK hs ih =>
    obtain ⟨R, own, hI, hR⟩ := ih
    obtain ⟨w₁, e, h⟩ := hist_destroy hI hR hK
    rw [e] at hs
    cases hs
    exact h
  | forget K _ hK ih =>
    obtain ⟨R, own, hI, hR⟩ := ih
    exact hist_forget hI hR hK

end L1c
