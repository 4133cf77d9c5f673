import Verif.Proofs.Options
import Verif.Props.Bindings
import Verif.Props.NestaBindings

/-!
# Options of the Matlab and Python interfaces

C75 and C76.
-/

namespace L1c
open Scalar

/-! ## Matlab -/

section matlab
variable {F : Type} [Scalar F] {resolve : String → Option String} {args : List (String × MxFld F)} {st : String → Option (MxFld F)} {nlhs : ℕ}
  {a0 a1 a2 a3 : MxVal F}

/-- **C75**: `l1qc_dct_opts` accepts its pairs exactly when every name stands for one of the parameters. -/
theorem C75_l1qc_names : (∃ st, l1qc_dct_opts resolve args = some st) ↔
    ∀ x ∈ args, ∃ p, resolve x.1 = some p ∧ p ∈ ["epsilon", "mu", "lbtol", "tau", "lbiter", "newton_tol", "newton_max_iter", "verbose", "l1_tol", "cgtol",
      "cgmaxiter", "warm_start_cg", "dct_mode"] := by
  unfold l1qc_dct_opts
  rw [inputParse_ok]
  refine forall₂_congr fun x _ => exists_congr fun p => and_congr_right fun _ => ?_
  rw [Option.isSome_iff_exists]
  simp only [addParameters_iff l1qcDefaults_nodup]
  simp only [l1qcDefaults, List.mem_cons, Prod.mk.injEq, List.not_mem_nil, or_false]
  simp only [exists_or, exists_and_left, exists_eq, and_true]

/-- **C75**: the same for `nesta_opts`. -/
theorem C75_nesta_names : (∃ st, nesta_opts resolve args = some st) ↔
    ∀ x ∈ args, ∃ p, resolve x.1 = some p ∧ p ∈ ["sigma", "mu", "tol", "alpha_v", "alpha_h", "verbose", "n_continue", "bp_mode", "dct_mode"] := by
  unfold nesta_opts
  rw [inputParse_ok]
  refine forall₂_congr fun x _ => exists_congr fun p => and_congr_right fun _ => ?_
  rw [Option.isSome_iff_exists]
  simp only [addParameters_iff nestaDefaults_nodup]
  simp only [nestaDefaults, List.mem_cons, Prod.mk.injEq, List.not_mem_nil, or_false]
  simp only [exists_or, exists_and_left, exists_eq, and_true]

/-- **C75**: with a struct built by `l1qc_dct_opts`, the arguments of `l1qc_dct` pass the checks exactly when the first four describe a
sampled image and every chosen option is a number (of `int` size where an integer is wanted); the solver then gets exactly these options.
No field is ever missing.  Missing in the property: the option `dct_mode` is accepted without any effect (`C75_dct_mode_false`), and two
defaults differ from their documentation (`C75_documented_false`). -/
theorem C75_l1qc_partial (hst : l1qc_dct_opts resolve args = some st) (hn : 1 ≤ nlhs) (c : MexCall F) :
    (l1qc_mex_parse nlhs [a0, a1, a2, a3, .struct 1 1 (numField st)]).run = some (.ok c) ↔
      MexImage a0 a1 a2 a3 c.mrow c.mcol c.b c.pix_idx ∧ L1qcChosen resolve args c.opts := by
  rw [C55_arguments hn]
  have e := chosenNum_iff l1qcDefaults_nodup hst
  constructor
  · rintro ⟨⟨b0, b1, b2, b3, f, rest, r0, r1, he, h0, h0', h1, h1', h2, h3, h4⟩, hf, hpos, hlen, hlt⟩
    obtain ⟨rfl, rfl, rfl, rfl, he', rfl⟩ : a0 = b0 ∧ a1 = b1 ∧ a2 = b2 ∧ a3 = b3 ∧ MxVal.struct 1 1 (numField st) = .struct 1 1 f ∧ [] = rest := by
      simpa using he
    obtain rfl : numField st = f := (MxVal.struct.inj he').2.2
    obtain ⟨wf, vf, nf, cf, lf, vi, g1, g2, g3, g4, g5, g6, g7, g8, g8', g9, g9', g10, g10', g11, g11', g12, g12'⟩ := h4
    refine ⟨⟨⟨r0, r1, h0, h0', h1, h1'⟩, h2, h3, hf, hpos.1, hpos.2, hlen, hlt⟩, ?_⟩
    exact ⟨(e _ _).1 g1, (e _ _).1 g2, (e _ _).1 g5, (e _ _).1 g3, ⟨_, (e _ _).1 g12, g12'⟩, (e _ _).1 g4, ⟨_, (e _ _).1 g10, g10'⟩, (e _ _).1 g6,
      (e _ _).1 g7, ⟨_, (e _ _).1 g11, g11'⟩, ⟨_, (e _ _).1 g8, g8'⟩, _, _, (e _ _).1 g9, g9'⟩
  · rintro ⟨⟨⟨r0, r1, h0, h0', h1, h1'⟩, h2, h3, hf, hp, hq, hlen, hlt⟩, g1, g2, g5, g3, ⟨_, g12, g12'⟩, g4, ⟨_, g10, g10'⟩, g6, g7, ⟨_, g11, g11'⟩, ⟨_, g8, g8'⟩, _, _, g9, g9'⟩
    exact ⟨⟨a0, a1, a2, a3, _, [], r0, r1, rfl, h0, h0', h1, h1', h2, h3, _, _, _, _, _, _, (e _ _).2 g1, (e _ _).2 g2, (e _ _).2 g3, (e _ _).2 g4, (e _ _).2 g5,
      (e _ _).2 g6, (e _ _).2 g7, (e _ _).2 g8, g8', (e _ _).2 g9, g9', (e _ _).2 g10, g10', (e _ _).2 g11, g11', (e _ _).2 g12, g12'⟩, hf, ⟨hp, hq⟩, hlen, hlt⟩

/-- **C75**: the same for `nesta_opts` and `nesta_dctTV`. -/
theorem C75_nesta_partial (hst : nesta_opts resolve args = some st) (hn : 2 ≤ nlhs) (c : NestaMexCall F) :
    (nesta_mex_parse nlhs (modeField st) [a0, a1, a2, a3, .struct 1 1 (numField st)]).run = some (.ok c) ↔
      MexImage a0 a1 a2 a3 c.mrow c.mcol c.b c.pix_idx ∧ NestaChosen resolve args c.opts c.alp_v c.alp_h c.dct_mode c.analysis := by
  have e := chosenNum_iff nestaDefaults_nodup hst
  have em := mode_iff nestaDefaults_nodup hst
  constructor
  · intro h
    obtain ⟨⟨b0, b1, b2, b3, f, rest, r0, r1, vb, nc, dm, vi, he, h0, h0', h1, h1', h2, h3, f1, f2, f3, f4, f4', f5, f5', f6, f7, f8, f8'⟩, hm, hf, hpos, hlen, hlt⟩ :=
      nesta_parse_ok h
    obtain ⟨rfl, rfl, rfl, rfl, he', rfl⟩ : a0 = b0 ∧ a1 = b1 ∧ a2 = b2 ∧ a3 = b3 ∧ MxVal.struct 1 1 (numField st) = .struct 1 1 f ∧ [] = rest := by
      simpa using he
    obtain rfl : numField st = f := (MxVal.struct.inj he').2.2
    exact ⟨⟨⟨r0, r1, h0, h0', h1, h1'⟩, h2, h3, hf, hpos.1, hpos.2, hlen, hlt⟩, (e _ _).1 f1, (e _ _).1 f2, (e _ _).1 f3, ⟨_, (e _ _).1 f5, f5'⟩, (e _ _).1 f6,
      (e _ _).1 f7, ⟨_, (e _ _).1 f8, f8'⟩, ⟨_, _, (e _ _).1 f4, f4'⟩, (em _).1 hm⟩
  · rintro ⟨⟨⟨r0, r1, h0, h0', h1, h1'⟩, h2, h3, hf, hp, hq, hlen, hlt⟩, f1, f2, f3, ⟨_, f5, f5'⟩, f6, f7, ⟨_, f8, f8'⟩, ⟨_, _, f4, f4'⟩, hm⟩
    exact C64_accepts ⟨⟨a0, a1, a2, a3, _, [], r0, r1, _, _, _, _, rfl, h0, h0', h1, h1', h2, h3, (e _ _).2 f1, (e _ _).2 f2, (e _ _).2 f3, (e _ _).2 f4, f4',
      (e _ _).2 f5, f5', (e _ _).2 f6, (e _ _).2 f7, (e _ _).2 f8, f8'⟩, (em _).2 hm, hf, ⟨hp, hq⟩, hlen, hlt⟩ hn

omit [Scalar F] in
theorem inputParse_snoc {r : String → Option String} {s0 : String → Option (MxFld F)} {l : List (String × MxFld F)} {n p : String} {v : MxFld F}
    {s1 : String → Option (MxFld F)} (h : inputParse r s0 l = some s1) (hr : r n = some p) (hs : (s1 p).isSome) :
    inputParse r s0 (l ++ [(n, v)]) = some (Function.update s1 p (some v)) := by
  induction l generalizing s0 with
  | nil =>
    obtain rfl := Option.some.inj h
    rw [List.nil_append]
    unfold inputParse
    rw [hr]
    dsimp only
    rw [if_neg (by cases hx : s0 p <;> simp_all)]
    rfl
  | cons q l ih =>
    obtain ⟨m, w⟩ := q
    rw [List.cons_append]
    unfold inputParse at h ⊢
    cases hm : r m with
    | none => rw [hm] at h; cases h
    | some t =>
      rw [hm] at h
      dsimp only at h ⊢
      split at h
      · cases h
      rename_i hh
      rw [if_neg hh]
      exact ih h

/-- **C75**, false: any value of the option `dct_mode`, even one that is not a number, is accepted by `l1qc_dct_opts`, and the call behaves
as if it had not been given (the one-dimensional transform is used). -/
theorem C75_dct_mode_false (hst : l1qc_dct_opts resolve args = some st) (hr : resolve "dct_mode" = some "dct_mode") (v : MxFld F) :
    ∃ st', l1qc_dct_opts resolve (args ++ [("dct_mode", v)]) = some st' ∧ st' "dct_mode" = some v ∧
      ∀ (lib : FftwLib F) (junk : ℕ → F) (nlhs : ℕ) (s : NState (World F)),
        l1qc_dct_mex lib junk nlhs [a0, a1, a2, a3, .struct 1 1 (numField st')] s = l1qc_dct_mex lib junk nlhs [a0, a1, a2, a3, .struct 1 1 (numField st)] s := by
  have hs : (st "dct_mode").isSome := by
    rw [inputParse_isSome hst, Option.isSome_iff_exists]
    exact ⟨mxLit 1, (addParameters_iff l1qcDefaults_nodup _ _).2 (by simp [l1qcDefaults])⟩
  refine ⟨_, inputParse_snoc hst hr hs, Function.update_self .., fun lib junk nlhs s => ?_⟩
  have hf : ∀ n, n ≠ "dct_mode" → numField (Function.update st "dct_mode" (some v)) n = numField st n := fun n hn => by
    unfold numField; rw [Function.update_of_ne hn]
  have ho : l1qc_mex_opts (numField (Function.update st "dct_mode" (some v))) = l1qc_mex_opts (numField st) := by
    unfold l1qc_mex_opts mexField
    rw [hf "epsilon" (by decide), hf "mu" (by decide), hf "tau" (by decide), hf "newton_tol" (by decide), hf "lbtol" (by decide), hf "l1_tol" (by decide),
      hf "cgtol" (by decide), hf "warm_start_cg" (by decide), hf "verbose" (by decide), hf "newton_max_iter" (by decide), hf "cgmaxiter" (by decide), hf "lbiter" (by decide)]
  have hp : l1qc_mex_parse nlhs [a0, a1, a2, a3, .struct 1 1 (numField (Function.update st "dct_mode" (some v)))] =
      l1qc_mex_parse nlhs [a0, a1, a2, a3, .struct 1 1 (numField st)] := by
    unfold l1qc_mex_parse
    dsimp only
    rw [ho]
  unfold l1qc_dct_mex
  rw [hp]

/-- **C75**, false of the documentation of `nesta_opts`: the option is not called `mode` -/
theorem C75_mode_false (ha : Abbreviates resolve) (v : MxFld F) : nesta_opts resolve [("mode", v)] = none := by
  have h : ¬ ∃ st, nesta_opts resolve [("mode", v)] = some st := by
    rw [C75_nesta_names]
    intro h
    obtain ⟨p, h1, h2⟩ := h _ (List.mem_singleton.2 rfl)
    have h3 : List.map Char.toLower "mode".toList <+: _ := ha _ _ h1
    simp only [List.mem_cons, List.not_mem_nil, or_false] at h2
    rcases h2 with rfl | rfl | rfl | rfl | rfl | rfl | rfl | rfl | rfl <;> revert h3 <;> decide
  cases hn : nesta_opts resolve [("mode", v)] with
  | none => rfl
  | some st => exact absurd ⟨st, hn⟩ h

/-- and its documented value `synthesys` is refused by `nesta_dctTV`. -/
theorem C75_synthesys_false (hst : nesta_opts resolve args = some st) (hc : Chosen nestaDefaults resolve args "bp_mode" (.str "synthesys"))
    {prhs : List (MxVal F)} (c : NestaMexCall F) : (nesta_mex_parse nlhs (modeField st) prhs).run ≠ some (.ok c) := by
  intro h
  have h1 := (nesta_parse_ok h).mode
  have h2 := (mode_iff nestaDefaults_nodup hst _).2 hc
  rw [h2] at h1
  revert h1
  cases c.analysis <;> decide

/-- **C75**, false of the documentation of `breg_anistropic_TV`: `mu`, `tol` and `max_iter` are not optional -/
theorem C75_breg_optional_false (nlhs : ℕ) (img : MxHdr) (f : Ptr) (prhs : List (MxVal F)) (h : prhs.length < 3) :
    breg_mex nlhs img f prhs = pure (.error "l1c:nlhs") := by
  match prhs, h with
  | [], _ => rfl
  | [_], _ => rfl
  | [_, _], _ => rfl

end matlab

theorem castInt_litNat (q : ℚ) (k : ℕ) (hq : q = k) (hk : FitsInt k) : castInt (lit q : Dbl) = some (k : Int) := by
  subst hq
  rw [Dbl.lit_eq]
  have := castInt_int (k : Int)
  rw [if_pos hk] at this
  rw [← this]
  push_cast
  rfl

/-- **C75**: without arguments the struct gives the solver these options. -/
theorem C75_l1qc_default (resolve : String → Option String) : L1qcChosen resolve [] (⟨.fin (1 / 10), .fin 10, .fin (1 / 1000), .fin 0, 0, .fin (1 / 1000), 50,
    .fin (1 / 100000), .fin (1 / 100000000), 200, 0⟩ : QOpts Dbl) := by
  have h : ∀ name (q : ℚ) (r : ℝ), (name, mxLit q) ∈ (l1qcDefaults : List (String × MxFld Dbl)) → (q : ℝ) = r → ChosenNum l1qcDefaults resolve [] name (Dbl.fin r) := by
    rintro name q r hm rfl
    exact ⟨2, Or.inr ⟨by simp, hm⟩⟩
  have hi : ∀ name (q : ℚ) (k : ℕ), (name, mxLit q) ∈ (l1qcDefaults : List (String × MxFld Dbl)) → q = k → FitsInt k → ChosenInt l1qcDefaults resolve ([] : List (String × MxFld Dbl)) name k :=
    fun name q k hm hq hk => ⟨lit q, ⟨2, Or.inr ⟨by simp, hm⟩⟩, castInt_litNat q k hq hk⟩
  refine ⟨h _ 0.1 _ (by simp [l1qcDefaults]) (by norm_num), h _ 10 _ (by simp [l1qcDefaults]) (by norm_num), h _ 1e-3 _ (by simp [l1qcDefaults]) (by norm_num),
    h _ 0 _ (by simp [l1qcDefaults]) (by norm_num), hi _ 0 0 (by simp [l1qcDefaults]) (by norm_num) (by decide), h _ 1e-3 _ (by simp [l1qcDefaults]) (by norm_num),
    hi _ 50 50 (by simp [l1qcDefaults]) (by norm_num) (by decide), h _ 1e-5 _ (by simp [l1qcDefaults]) (by norm_num), h _ 1e-8 _ (by simp [l1qcDefaults]) (by norm_num),
    hi _ 200 200 (by simp [l1qcDefaults]) (by norm_num) (by decide), hi _ 0 0 (by simp [l1qcDefaults]) (by norm_num) (by decide), 2, hi _ 2 2 (by simp [l1qcDefaults]) (by norm_num) (by decide)⟩

theorem C75_nesta_default (resolve : String → Option String) :
    NestaChosen resolve [] (⟨.fin (1 / 100), .fin (1 / 100000), .fin (1 / 1000), 5⟩ : NestaOpts Dbl) (.fin 0) (.fin 0) DCT1 true := by
  have h : ∀ name (q : ℚ) (r : ℝ), (name, mxLit q) ∈ (nestaDefaults : List (String × MxFld Dbl)) → (q : ℝ) = r → ChosenNum nestaDefaults resolve [] name (Dbl.fin r) := by
    rintro name q r hm rfl
    exact ⟨2, Or.inr ⟨by simp, hm⟩⟩
  have hi : ∀ name (q : ℚ) (k : ℕ), (name, mxLit q) ∈ (nestaDefaults : List (String × MxFld Dbl)) → q = k → FitsInt k → ChosenInt nestaDefaults resolve ([] : List (String × MxFld Dbl)) name k :=
    fun name q k hm hq hk => ⟨lit q, ⟨2, Or.inr ⟨by simp, hm⟩⟩, castInt_litNat q k hq hk⟩
  exact ⟨h _ 0.01 _ (by simp [nestaDefaults]) (by norm_num), h _ 1e-5 _ (by simp [nestaDefaults]) (by norm_num), h _ 1e-3 _ (by simp [nestaDefaults]) (by norm_num),
    hi _ 5 5 (by simp [nestaDefaults]) (by norm_num) (by decide), h _ 0 _ (by simp [nestaDefaults]) (by norm_num), h _ 0 _ (by simp [nestaDefaults]) (by norm_num),
    hi _ 1 1 (by simp [nestaDefaults]) (by norm_num) (by decide), ⟨5, hi _ 5 5 (by simp [nestaDefaults]) (by norm_num) (by decide)⟩, Or.inr ⟨by simp, by simp [nestaDefaults]⟩⟩

/-- **C75**, false of the documentation of `l1qc_dct_opts`: the default of `l1_tol` is not 0 -/
theorem C75_documented_false {resolve : String → Option String} : ¬ ChosenNum l1qcDefaults resolve [] "l1_tol" (Dbl.fin 0) := by
  rintro ⟨k, ⟨pre, n, suf, h, -⟩ | ⟨-, h⟩⟩
  · cases pre <;> cases h
  · simp [l1qcDefaults, mxLit] at h
    have := congrFun (h.2) 0
    rw [Dbl.fin.injEq] at this
    norm_num at this

/-! ## Python -/

theorem optbind {α β : Type} {o : Option α} {f : α → Option β} {a : α} (h : o = some a) : (o >>= f) = f a := by rw [h]; rfl

theorem optbind_inv {α β : Type} {o : Option α} {f : α → Option β} {b : β} (h : (o >>= f) = some b) : ∃ a, o = some a ∧ f a = some b :=
  Option.bind_eq_some_iff.1 h

section python
variable {F : Type} [Scalar F] {args : List (PyVal F)} {kw : List (String × PyVal F)}

/-- **C76**: `l1qc_dct` gets as far as its own checks exactly when the Python call fits its signature, with the values that the caller gave or
the defaults; otherwise it raises a `TypeError` and does nothing. -/
theorem C76_l1qc (hk : (kw.map (·.1)).Nodup) (a : PyL1qcArgs F) : py_l1qc_args args kw = some a ↔ PyL1qcGood args kw a := by
  unfold py_l1qc_args
  simp only [ite_not, pySlot_pos]
  have hn : pyNamesOk 4 4 l1qcKeywords args kw = true ↔ _ := pyNames_iff
  have eD := fun {i name dflt x} (h : name ≠ "") => pyD_iff (pa := args) (i := i) (dflt := dflt) (x := x) hk h
  have eI := fun {i name dflt z} (h : name ≠ "") => pyI_iff (pa := args) (i := i) (dflt := dflt) (z := z) hk h
  constructor
  · intro h
    split at h
    swap
    · cases h
    rename_i h0
    have h0 := hn.1 h0
    obtain ⟨mrow, h1, h⟩ := optbind_inv h
    obtain ⟨mcol, h2, h⟩ := optbind_inv h
    obtain ⟨b, h3, h⟩ := optbind_inv h
    obtain ⟨p, h4, h⟩ := optbind_inv h
    obtain ⟨eps, h5, h⟩ := optbind_inv h
    obtain ⟨mu, h6, h⟩ := optbind_inv h
    obtain ⟨lbt, h7, h⟩ := optbind_inv h
    obtain ⟨nt, h8, h⟩ := optbind_inv h
    obtain ⟨nm, h9, h⟩ := optbind_inv h
    obtain ⟨vb, h10, h⟩ := optbind_inv h
    obtain ⟨l1, h11, h⟩ := optbind_inv h
    obtain ⟨ct, h12, h⟩ := optbind_inv h
    obtain ⟨cm, h13, h⟩ := optbind_inv h
    obtain ⟨dm, h14, h⟩ := optbind_inv h
    obtain rfl := Option.some.inj h
    obtain ⟨r, c, b', p', rest, rfl⟩ : ∃ r c b p rest, args = r :: c :: b :: p :: rest := by
      match args, h0.1 with
      | r :: c :: b :: p :: rest, _ => exact ⟨r, c, b, p, rest, rfl⟩
    obtain rfl : b' = b := Option.some.inj h3
    obtain rfl : p' = p := Option.some.inj h4
    have h1 := pyI_pos.1 h1
    have h2 := pyI_pos.1 h2
    exact ⟨h0, ⟨r, c, _, _, rest, rfl, h1.1, h1.2, h2.1, h2.2, rfl, rfl⟩, (eD (by decide)).1 h5, (eD (by decide)).1 h6, (eD (by decide)).1 h7, (eD (by decide)).1 h8,
      (eI (by decide)).1 h9, ⟨_, (eI (by decide)).1 h10⟩, (eD (by decide)).1 h11, (eD (by decide)).1 h12, (eI (by decide)).1 h13, (eI (by decide)).1 h14, rfl, rfl, rfl⟩
  · obtain ⟨mrow, mcol, ab, api, ⟨eps, mu, lbt, tau, lbi, nt, nm, l1, ct, cm, ws⟩, dm⟩ := a
    rintro ⟨h0, ⟨r, c, b, p, rest, rfl, r1, r2, c1, c2, rfl, rfl⟩, h5, h6, h7, h8, h9, ⟨vb, h10⟩, h11, h12, h13, h14, rfl, rfl, rfl⟩
    rw [if_pos (hn.2 h0)]
    refine (optbind (pyI_pos.2 ⟨r1, r2⟩)).trans <| (optbind (pyI_pos.2 ⟨c1, c2⟩)).trans <| (optbind (rfl)).trans <| (optbind (rfl)).trans <| (optbind ((eD (by decide)).2 h5)).trans <| (optbind ((eD (by decide)).2 h6)).trans <| (optbind ((eD (by decide)).2 h7)).trans <| (optbind ((eD (by decide)).2 h8)).trans <| (optbind ((eI (by decide)).2 h9)).trans <| (optbind ((eI (by decide)).2 h10)).trans <| (optbind ((eD (by decide)).2 h11)).trans <| (optbind ((eD (by decide)).2 h12)).trans <| (optbind ((eI (by decide)).2 h13)).trans <| (optbind ((eI (by decide)).2 h14)).trans <| rfl

/-- **C76**: the same for `nesta_dctTV`. -/
theorem C76_nesta (hk : (kw.map (·.1)).Nodup) (a : PyNestaArgs F) : py_nesta_args args kw = some a ↔ PyNestaGood args kw a := by
  unfold py_nesta_args
  simp only [ite_not, pySlot_pos]
  have hn : pyNamesOk 4 4 nestaKeywords args kw = true ↔ _ := pyNames_iff
  have eD := fun {i name dflt x} (h : name ≠ "") => pyD_iff (pa := args) (i := i) (dflt := dflt) (x := x) hk h
  have eI := fun {i name dflt z} (h : name ≠ "") => pyI_iff (pa := args) (i := i) (dflt := dflt) (z := z) hk h
  constructor
  · intro h
    split at h
    swap
    · cases h
    rename_i h0
    have h0 := hn.1 h0
    obtain ⟨mrow, h1, h⟩ := optbind_inv h
    obtain ⟨mcol, h2, h⟩ := optbind_inv h
    obtain ⟨b, h3, h⟩ := optbind_inv h
    obtain ⟨p, h4, h⟩ := optbind_inv h
    obtain ⟨av, h5, h⟩ := optbind_inv h
    obtain ⟨ah, h6, h⟩ := optbind_inv h
    obtain ⟨sg, h7, h⟩ := optbind_inv h
    obtain ⟨mu, h8, h⟩ := optbind_inv h
    obtain ⟨tol, h9, h⟩ := optbind_inv h
    obtain ⟨nc, h10, h⟩ := optbind_inv h
    obtain ⟨vb, h11, h⟩ := optbind_inv h
    obtain ⟨dm, h12, h⟩ := optbind_inv h
    obtain ⟨bp, h13, h⟩ := optbind_inv h
    obtain rfl := Option.some.inj h
    obtain ⟨r, c, b', p', rest, rfl⟩ : ∃ r c b p rest, args = r :: c :: b :: p :: rest := by
      match args, h0.1 with
      | r :: c :: b :: p :: rest, _ => exact ⟨r, c, b, p, rest, rfl⟩
    obtain rfl : b' = b := Option.some.inj h3
    obtain rfl : p' = p := Option.some.inj h4
    have h1 := pyI_pos.1 h1
    have h2 := pyI_pos.1 h2
    exact ⟨h0, ⟨r, c, _, _, rest, rfl, h1.1, h1.2, h2.1, h2.2, rfl, rfl⟩, (eD (by decide)).1 h5, (eD (by decide)).1 h6, (eD (by decide)).1 h7, (eD (by decide)).1 h8,
      (eD (by decide)).1 h9, (eI (by decide)).1 h10, ⟨_, (eI (by decide)).1 h11⟩, (eI (by decide)).1 h12, (eI (by decide)).1 h13⟩
  · obtain ⟨mrow, mcol, ab, api, av, ah, bp, dm, ⟨sg, mu, tol, nc⟩⟩ := a
    rintro ⟨h0, ⟨r, c, b, p, rest, rfl, r1, r2, c1, c2, rfl, rfl⟩, h5, h6, h7, h8, h9, h10, ⟨vb, h11⟩, h12, h13⟩
    rw [if_pos (hn.2 h0)]
    refine (optbind (pyI_pos.2 ⟨r1, r2⟩)).trans <| (optbind (pyI_pos.2 ⟨c1, c2⟩)).trans <| (optbind (rfl)).trans <| (optbind (rfl)).trans <| (optbind ((eD (by decide)).2 h5)).trans <| (optbind ((eD (by decide)).2 h6)).trans <| (optbind ((eD (by decide)).2 h7)).trans <| (optbind ((eD (by decide)).2 h8)).trans <| (optbind ((eD (by decide)).2 h9)).trans <| (optbind ((eI (by decide)).2 h10)).trans <| (optbind ((eI (by decide)).2 h11)).trans <| (optbind ((eI (by decide)).2 h12)).trans <| (optbind ((eI (by decide)).2 h13)).trans <| rfl

/-- **C76**: the same for `breg_anistropic_TV`; its defaults are those of its documentation. -/
theorem C76_breg (hk : (kw.map (·.1)).Nodup) (f : PyVal F) (mu tol : F) (max_iter max_jac_iter : Int) :
    py_breg_args args kw = some (f, mu, tol, max_iter, max_jac_iter) ↔ PyBregGood args kw f mu tol max_iter max_jac_iter := by
  unfold py_breg_args
  simp only [ite_not, pySlot_pos]
  have hn : pyNamesOk 1 1 bregKeywords args kw = true ↔ _ := pyNames_iff
  have eD := fun {i name dflt x} (h : name ≠ "") => pyD_iff (pa := args) (i := i) (dflt := dflt) (x := x) hk h
  have eI := fun {i name dflt z} (h : name ≠ "") => pyI_iff (pa := args) (i := i) (dflt := dflt) (z := z) hk h
  constructor
  · intro h
    split at h
    swap
    · cases h
    rename_i h0
    obtain ⟨f', h1, h⟩ := optbind_inv h
    obtain ⟨mu', h2, h⟩ := optbind_inv h
    obtain ⟨tol', h3, h⟩ := optbind_inv h
    obtain ⟨mi, h4, h⟩ := optbind_inv h
    obtain ⟨mj, h5, h⟩ := optbind_inv h
    cases h
    exact ⟨hn.1 h0, h1, (eD (by decide)).1 h2, (eD (by decide)).1 h3, (eI (by decide)).1 h4, (eI (by decide)).1 h5⟩
  · rintro ⟨h0, h1, h2, h3, h4, h5⟩
    rw [if_pos (hn.2 h0)]
    refine (optbind (h1)).trans <| (optbind ((eD (by decide)).2 h2)).trans <| (optbind ((eD (by decide)).2 h3)).trans <| (optbind ((eI (by decide)).2 h4)).trans <| (optbind ((eI (by decide)).2 h5)).trans <| rfl

/-- **C76**: a call that does not fit the signature raises `TypeError` and changes nothing, neither memory nor references. -/
theorem C76_type_error (lib : FftwLib F) (hk : (kw.map (·.1)).Nodup) (s : NState (PyState F)) :
    ((∀ a, ¬ PyL1qcGood args kw a) → py_l1qc_call lib args kw s = some (.exc "TypeError", s)) ∧
    ((∀ a, ¬ PyNestaGood args kw a) → py_nesta_call lib args kw s = some (.exc "TypeError", s)) := by
  constructor
  · intro h
    unfold py_l1qc_call
    cases ha : py_l1qc_args args kw with
    | none => rfl
    | some a => exact absurd ((C76_l1qc hk a).1 ha) (h a)
  · intro h
    unfold py_nesta_call
    cases ha : py_nesta_args args kw with
    | none => rfl
    | some a => exact absurd ((C76_nesta hk a).1 ha) (h a)

/-- **C76**: a call that fits runs with the values it describes. -/
theorem C76_calls (lib : FftwLib F) (hk : (kw.map (·.1)).Nodup) (s : NState (PyState F)) :
    (∀ a, PyL1qcGood args kw a → py_l1qc_call lib args kw s = py_l1qc_dct lib a s) ∧
    (∀ a, PyNestaGood args kw a → py_nesta_call lib args kw s = py_nesta_dctTV lib a s) := by
  constructor
  · intro a h
    unfold py_l1qc_call
    rw [(C76_l1qc hk a).2 h]
  · intro a h
    unfold py_nesta_call
    rw [(C76_nesta hk a).2 h]

/-- **C76**, false: the two interfaces do not have the same defaults.  With no options given, Matlab allows a misfit of 0.1 and Python one of 0.01;
NESTA stops at 1e-3 from Matlab and at 1e-5 from Python. -/
theorem C76_same_defaults_false (resolve : String → Option String) {args : List (PyVal Dbl)} (h4 : args.length = 4) :
    (∀ a o, PyL1qcGood args [] a → L1qcChosen resolve [] o → o.epsilon ≠ a.opts.epsilon) ∧
    ∀ a o av ah dm an, PyNestaGood args [] a → NestaChosen resolve [] o av ah dm an → o.tol ≠ a.opts.tol := by
  have hnum : ∀ i name (d x : Dbl), 4 ≤ i → PyNum args [] i name d x → x = d := by
    rintro i name d x hi (⟨v, h | h, -⟩ | ⟨-, h⟩)
    · rw [List.getElem?_eq_none (by omega)] at h; cases h
    · exact absurd h.2 (by simp)
    · exact h
  constructor
  · intro a o ha ho he
    have h1 := hnum _ _ _ _ (by omega) ha.epsilon
    obtain ⟨k, ⟨pre, n, suf, h, -⟩ | ⟨-, h⟩⟩ := ho.1
    · cases pre <;> cases h
    · simp [l1qcDefaults, mxLit] at h
      have h2 := congrFun (h.2) 0
      rw [he, h1, Dbl.lit_eq, Dbl.fin.injEq] at h2
      norm_num at h2
  · intro a o av ah dm an ha ho he
    have h1 := hnum _ _ _ _ (by omega) ha.tol
    obtain ⟨k, ⟨pre, n, suf, h, -⟩ | ⟨-, h⟩⟩ := ho.2.2.1
    · cases pre <;> cases h
    · simp [nestaDefaults, mxLit] at h
      have h2 := congrFun (h.2) 0
      rw [he, h1, Dbl.lit_eq, Dbl.fin.injEq] at h2
      norm_num at h2

end python

/-- a choice: 50 becomes 7 for the number of Newton steps, given twice and under an abbreviation -/
example : ChosenInt l1qcDefaults (fun n => if n = "newton_max" ∨ n = "newton_max_iter" then some "newton_max_iter" else none)
    [("newton_max_iter", mxLit 3), ("newton_max", (mxLit 7 : MxFld Dbl))] "newton_max_iter" 7 :=
  ⟨lit 7, ⟨2, Or.inl ⟨[("newton_max_iter", mxLit 3)], "newton_max", [], rfl, by simp, by simp⟩⟩, castInt_litNat 7 7 (by norm_num) (by decide)⟩

/-- a Python call: the tolerance by position, the transform by name -/
example (b p : PyVal Dbl) : ∃ a, py_l1qc_args [⟨some (.inl 4), none, none⟩, ⟨some (.inl 5), none, none⟩, b, p, ⟨some (.inr (.fin (1 / 2))), none, none⟩]
    [("dct_mode", ⟨some (.inl 2), none, none⟩)] = some a ∧ a.opts.epsilon = .fin (1 / 2) ∧ a.dct_mode = 2 ∧ a.opts.newton_max_iter = 50 :=
  ⟨_, rfl, rfl, rfl, rfl⟩

/-- The remaining cases of C75 and C76 on concrete calls: `dct_mode` given to the solver without effect, the documented
value `synthesys`, a denoising call without options, and a Python call with no arguments. -/
example (a0 a1 a2 a3 : MxVal Dbl) (v : MxFld Dbl) : ∃ st', l1qc_dct_opts (F := Dbl) some [("dct_mode", v)] = some st' ∧ st' "dct_mode" = some v :=
  let ⟨st', h, h', _⟩ := C75_dct_mode_false (F := Dbl) (a0 := a0) (a1 := a1) (a2 := a2) (a3 := a3) (resolve := some) (args := []) rfl rfl v
  ⟨st', h, h'⟩

example (nlhs : ℕ) (prhs : List (MxVal Dbl)) (c : NestaMexCall Dbl) : ∃ st, nesta_opts (F := Dbl) some [("bp_mode", .str "synthesys")] = some st ∧
    (nesta_mex_parse nlhs (modeField st) prhs).run ≠ some (.ok c) := by
  obtain ⟨st, h⟩ := (C75_nesta_names (F := Dbl) (resolve := some) (args := [("bp_mode", .str "synthesys")])).2
    (fun x hx => ⟨"bp_mode", by rw [List.mem_singleton.1 hx], by decide⟩)
  exact ⟨st, h, C75_synthesys_false (F := Dbl) h (Or.inl ⟨[], "bp_mode", [], rfl, rfl, by simp⟩) c⟩

example : breg_mex (F := Dbl) 1 ⟨true, 3, 4, 2⟩ ⟨1, 0⟩ [.arr ⟨true, 1, 1, 2, fun _ => .fin 1⟩] = pure (.error "l1c:nlhs") :=
  C75_breg_optional_false _ _ _ _ (by decide)

example (lib : FftwLib Dbl) (s : NState (PyState Dbl)) : py_l1qc_call lib [] [] s = some (.exc "TypeError", s) :=
  (C76_type_error (args := []) (kw := []) lib List.nodup_nil s).1 fun a h => by
    have := (C76_l1qc (args := []) (kw := []) List.nodup_nil a).2 h
    cases this

/-- `C76_breg`: the weight and the iteration limit by name, the rest left to the defaults. -/
example (f : PyVal Dbl) : ∃ tol jac, PyBregGood [f] [("mu", ⟨some (.inl 3), none, none⟩), ("max_iter", ⟨some (.inl 7), none, none⟩)] f (.fin 3) tol 7 jac :=
  ⟨_, _, (C76_breg (by decide) f (.fin 3) _ 7 _).1 rfl⟩

end L1c
