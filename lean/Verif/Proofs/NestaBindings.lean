import Verif.Proofs.NestaSet
import Verif.Proofs.Bindings
import Verif.Spec.NestaBindings

/-! # Helpers for the nesta_dctTV functions of the interfaces -/

namespace L1c
open Scalar Matrix

section setup
variable {F : Type} [Scalar F] {lib : FftwLib F} {L : Sets F} {w w' : World F}
variable {n mrow mcol dct_mode : Int} {idx : List Int} {alp_v alp_h : F} {analysis : Bool}

/-- the ways a DCT-TV setup fails -/
theorem tv_setup_status {st : Int}
    (hs : l1c_setup_dctTV_transforms n mrow mcol alp_v alp_h dct_mode analysis idx w = some ((st, none), w')) :
    st = L1C_INVALID_ARGUMENT ∨ st = L1C_OUT_OF_MEMORY ∨ st = L1C_DCT_INIT_FAILURE := by
  by_cases hf : FitsInt (mrow * mcol)
  swap
  · rw [setup_tv_overflow hf] at hs; cases hs
  by_cases hv : ValidTv n mrow mcol alp_v alp_h idx
  swap
  · rw [setup_tv_invalid hf hv] at hs; cases hs; exact Or.inl rfl
  by_cases hp : FitsInt (tvP (mrow * mcol).toNat alp_v alp_h)
  swap
  · rw [setup_tv_toobig hf hv hp] at hs; cases hs
  cases ho : w.oracle w.calls
  · rw [setup_tv_refused hf hv hp ho] at hs; cases hs; exact Or.inr (Or.inl rfl)
  obtain ⟨a, -, e⟩ := setup_tv_granted (dct_mode := dct_mode) (analysis := analysis) hf hv hp ho
  rw [e] at hs
  generalize hq : l1c_setup_dct_transforms n mrow mcol dct_mode idx ((w.push (.arr a)).tvReady mrow mcol alp_v alp_h (some w.next)) = q at hs
  match q, hq, hs with
  | some ((_, some ax'), v), hq, hs => cases hs
  | some ((st', none), v), hq, hs =>
    dsimp only at hs
    have h := C19_dct_setup hf hq
    generalize wfree (some w.next) v = z at hs
    match z, hs with
    | some (_, v'), hs =>
      cases hs
      rcases h.2.1 with h0 | h0 | h0 | h0
      · have := h.2.2.1.1 h0
        cases this
      · exact Or.inl h0
      · exact Or.inr (Or.inl h0)
      · exact Or.inr (Or.inr h0)

/-- with memory for six requests, valid arguments are accepted -/
theorem tv_accepts (hf : FitsInt (mrow * mcol)) (hv : ValidTv n mrow mcol alp_v alp_h idx)
    (hp : FitsInt (tvP (mrow * mcol).toNat alp_v alp_h)) (ho : ∀ i < 6, w.oracle (w.calls + i) = true) :
    ∃ ax w', l1c_setup_dctTV_transforms n mrow mcol alp_v alp_h dct_mode analysis idx w = some ((L1C_SUCCESS, some ax), w') := by
  obtain ⟨a, -, e⟩ := setup_tv_granted (w := w) (dct_mode := dct_mode) (analysis := analysis) hf hv hp (ho 0 (by omega))
  obtain ⟨ax, v, e', -⟩ := C19_accepts (dct_mode := dct_mode) (w := (w.push (.arr a)).tvReady mrow mcol alp_v alp_h (some w.next)) hf hv.1
    (fun i hi => by
      show w.oracle (w.calls + 1 + i) = true
      rw [add_assoc, add_comm 1 i]
      exact ho (i + 1) (by omega))
  rw [e'] at e
  exact ⟨_, _, e⟩

/-- what is live after a successful setup -/
theorem tv_live {r k n : ℕ} {st : Int} {ax : AxFuns F} (hw : Hist lib w L) (hl : idx.length = n) (htv : L.tv = none)
    (hb : ¬ L.busy (twoDim r k dct_mode))
    (hs : l1c_setup_dctTV_transforms n r k alp_v alp_h dct_mode analysis idx w = some ((st, some ax), w')) :
    st = L1C_SUCCESS ∧ ∃ (t : SetTv F) (L1 : Sets F), t = ⟨r, k, n, idx, alp_v, alp_h, !analysis, twoDim r k dct_mode⟩ ∧ L1.tv = some t ∧ Hist lib w' L1 ∧
      L1 = ({ L with tv := some t }).note1 (twoDim r k dct_mode) L1C_SUCCESS ∧
      ax = ⟨t.n, t.m, t.p, (r * k : ℕ), tvNormW analysis alp_v alp_h, t.kind⟩ ∧
      ValidTv n r k alp_v alp_h idx := by
  have hst : st = L1C_SUCCESS := (C26_reported_sizes hs rfl).1
  subst hst
  have h := Hist.tv n r k alp_v alp_h dct_mode analysis idx hw hl htv hb hs
  rw [if_pos rfl] at h
  have hv := C28_accepts_only_valid hs rfl
  refine ⟨rfl, _, _, rfl, rfl, h, rfl, ?_, hv⟩
  by_cases hf : FitsInt ((r : Int) * k)
  swap
  · rw [setup_tv_overflow hf] at hs; cases hs
  by_cases hp : FitsInt (tvP ((r : Int) * k).toNat alp_v alp_h)
  swap
  · rw [setup_tv_toobig hf hv hp] at hs; cases hs
  cases ho : w.oracle w.calls
  · rw [setup_tv_refused hf hv hp ho] at hs; cases hs
  obtain ⟨a, -, e⟩ := setup_tv_granted (dct_mode := dct_mode) (analysis := analysis) hf hv hp ho
  rw [e] at hs
  generalize hq : l1c_setup_dct_transforms n r k dct_mode idx ((w.push (.arr a)).tvReady r k alp_v alp_h (some w.next)) = q at hs
  match q, hs with
  | some ((_, some ax'), v), hs =>
    cases analysis
    · cases hs; rfl
    · cases hs; rfl
  | some ((st, none), v), hs =>
    dsimp only at hs
    generalize wfree (some w.next) v = z at hs
    match z, hs with
    | some (_, v'), hs => cases hs

theorem dcopy_full {k : ℕ} (v old : Vec F k) : dcopy k v old = some v := by
  unfold dcopy
  rw [slice_full, obind, writeAt_full]

theorem SetTv.m_ana {t : SetTv F} (h : t.syn = false) : t.m = t.mrow * t.mcol := by unfold SetTv.m; rw [h]; rfl

/-- the output function of a live set; a copy in analysis mode -/
theorem setN_Mx (hw : Hist lib w L) {t : SetTv F} (ht : L.tv = some t) (v : Vec F t.m) (old : Vec F (t.mrow * t.mcol)) :
    ∃ a' o w', wcall lib t.kind .Mx ⟨t.m, v⟩ ⟨t.mrow * t.mcol, old⟩ w = some ((a', ⟨t.mrow * t.mcol, o⟩), w') ∧ Hist lib w' L ∧
      ∀ h : t.syn = false, ∀ i, o i = v (Fin.cast (SetTv.m_ana h).symm i) := by
  obtain ⟨hm, s, hr, hi, hc⟩ := tv_view hw ht
  have hset := funT_set (lib := lib) hm hi
  have hb := tvReach_inv (c := cfgT lib t hm) hset hr
  have key : ∃ a' o s', tvAll (cfgT lib t hm) t.syn .Mx ⟨t.m, v⟩ ⟨t.mrow * t.mcol, old⟩ s = some ((a', ⟨t.mrow * t.mcol, o⟩), s') ∧
      ∀ h : t.syn = false, ∀ i, o i = v (Fin.cast (SetTv.m_ana h).symm i) := by
    obtain ⟨mrow, mcol, n, idx, av, ah, syn, two⟩ := t
    cases syn
    · obtain ⟨o, ho, hd⟩ := all_copy (cfgT lib _ hm) s (syn := false) (op := .Mx) (Or.inr ⟨by decide, Or.inl rfl⟩) le_rfl le_rfl v old
      refine ⟨_, _, _, ho, fun _ i => ?_⟩
      have hd := (dcopy_full v old).symm.trans hd
      cases hd
      rfl
    · obtain ⟨o, ho⟩ := tvWv_some (setOk hset) hb v
      exact ⟨_, _, _, (all_Mx _ _ _ _).trans (congrArg _ ho), fun h => by cases h⟩
  obtain ⟨a', o, s', he, h2⟩ := key
  have hc := hc .Mx ⟨t.m, v⟩ ⟨t.mrow * t.mcol, old⟩
  rw [he] at hc
  obtain ⟨⟨r, w'⟩, h1, h3⟩ := Option.map_eq_some_iff.1 hc
  dsimp only at h3
  subst h3
  exact ⟨_, _, w', h1, .call _ .Mx _ _ hw (Sets.has_tv ht) h1, h2⟩

end setup

section nesta
variable {F : Type} [Scalar F] {lib : FftwLib F} {L : Sets F} {t : SetTv F} {s : NState (World F)} {nw : F} {opts : NestaOpts F} {q : Int}

theorem nestaArr_invalid {m_arg n_arg : Int} (h : n_arg ≠ t.n ∨ m_arg ≠ t.m) (xk b : Arr F) :
    nestaArr lib ⟨t.n, t.m, t.p, q, nw, t.kind⟩ m_arg xk n_arg b opts s = some ((L1C_INVALID_ARGUMENT, xk), s) := by
  unfold nestaArr
  rw [if_pos h]
  rfl

theorem nestaArr_eq (x : Vec F t.m) (b : Vec F t.n) :
    nestaArr lib ⟨t.n, t.m, t.p, q, nw, t.kind⟩ t.m ⟨t.m, x⟩ t.n ⟨t.n, b⟩ opts s =
      (l1c_nesta t.m t.n x b (setNAx lib t.kind t.n t.m t.p nw) opts s).map fun r => ((r.1.status, ⟨t.m, r.1.xk⟩), r.2) := by
  unfold nestaArr
  rw [if_neg (by simp)]
  show (nlift (slice t.m 0 x) >>= fun x' => nlift (slice t.n 0 b) >>= fun b' =>
    l1c_nesta t.m t.n x' b' (setNAx lib t.kind t.n t.m t.p nw) opts >>= fun o => nlift (writeAt 0 o.xk x) >>= fun y =>
      (pure (o.status, (⟨t.m, y⟩ : Arr F)) : NM (World F) (Int × Arr F))) s = _
  rw [slice_full, slice_full, nbind (nlift_some rfl _), nbind (nlift_some rfl _)]
  cases h : l1c_nesta t.m t.n x b (setNAx lib t.kind t.n t.m t.p nw) opts s with
  | none =>
    show (l1c_nesta t.m t.n x b (setNAx lib t.kind t.n t.m t.p nw) opts s).bind _ = none
    rw [h]; rfl
  | some r =>
    rw [nbind (a := r.1) (s' := r.2) h, writeAt_full, nbind (nlift_some rfl _)]
    rfl

/-- NESTA on a live set, by what memory is granted -/
theorem nesta_live (hs : s.WF) (hw : Hist lib s.cb L) (ht : L.tv = some t) (hn : t.n ≤ t.mrow * t.mcol) (hN : opts.n_continue < INT_MAX)
    (nw : F) (x : Vec F t.m) (b : Vec F t.n) :
    ((¬ ∀ i < 10, s.oracle (s.calls + i) = true) → ∃ s', l1c_nesta t.m t.n x b (setNAx lib t.kind t.n t.m t.p nw) opts s =
      some (⟨L1C_OUT_OF_MEMORY, x, 0, none⟩, s') ∧ s'.live = s.live ∧ s'.cb = s.cb) ∧
    ((∀ i < 10, s.oracle (s.calls + i) = true) → s.oracle (s.calls + 10) = false →
      l1c_nesta t.m t.n x b (setNAx lib t.kind t.n t.m t.p nw) opts s = none) ∧
    ((∀ i < 11, s.oracle (s.calls + i) = true) → ∃ out s', l1c_nesta t.m t.n x b (setNAx lib t.kind t.n t.m t.p nw) opts s = some (out, s') ∧
      out.status = 0 ∧ s'.live = s.live ∧ Hist lib s'.cb L) := by
  have hm : ¬ (setNAx lib t.kind t.n t.m t.p nw).Missing := by simp [NAx.Missing, setNAx]
  refine ⟨fun h => nesta_oom x b _ opts s hs h, fun h h' => C43_window_unchecked x b opts s hs h h' hm, fun h => ?_⟩
  have hle : t.n ≤ max t.m t.p := by
    have hp : t.mrow * t.mcol ≤ t.coefs := by simpa using tvP_zero (t.mrow * t.mcol) t.alp_v t.alp_h
    unfold SetTv.m SetTv.p
    cases t.syn
    · exact le_max_of_le_left hn
    · exact le_max_of_le_right hn
  obtain ⟨out, s', h1, h2⟩ := C43_no_ub_partial (setN_total ht nw).1 ⟨rfl, rfl⟩ hle x b opts hN s hs hw h
  obtain ⟨h3, h4, -⟩ := C43_success_partial x b opts s s' hs (fun i hi => h i (by omega)) hm out h1
  exact ⟨out, s', h1, h3, h4, h2⟩

end nesta

section mexrun
variable {F : Type} [Scalar F] {lib : FftwLib F} {L : Sets F} {t : SetTv F} {s : NState (World F)}

/-- the end of the Matlab function -/
def mexTail (lib : FftwLib F) (K : Kind) (pix x b : ℕ) (rows cols : Int) (mtot : ℕ) (o : Int × Arr F) : NM (World F) (NestaMexOut F) := do
  let z ← nrun (wcall lib K .Mx o.2 ⟨mtot, fun _ => lit 0⟩)
  nrun (wdestroy K)
  nfree (some pix)
  nfree (some x)
  nfree (some b)
  pure (nestaMexExit o.1 (.ret rows cols z.2 o.1))

theorem mexTail_eq (hw : Hist lib s.cb L) (ht : L.tv = some t) (v : Vec F t.m) (st rows cols : Int) {pix x b : ℕ} (h1 : pix ∈ s.live)
    (h2 : x ∈ s.live.erase pix) (h3 : b ∈ (s.live.erase pix).erase x) :
    ∃ o s', mexTail lib t.kind pix x b rows cols (t.mrow * t.mcol) (st, ⟨t.m, v⟩) s =
        some (nestaMexExit st (.ret rows cols ⟨t.mrow * t.mcol, o⟩ st), s') ∧
      s'.live = ((s.live.erase pix).erase x).erase b ∧ Hist lib s'.cb (L.drop t.kind) ∧
      (∀ h : t.syn = false, ∀ i, o i = v (Fin.cast (SetTv.m_ana h).symm i)) ∧
      ∃ a' w1, wcall lib t.kind .Mx ⟨t.m, v⟩ ⟨t.mrow * t.mcol, fun _ => lit 0⟩ s.cb = some ((a', ⟨t.mrow * t.mcol, o⟩), w1) := by
  obtain ⟨a', o, w1, e1, hw1, ho⟩ := setN_Mx hw ht v (fun _ => lit 0)
  obtain ⟨w2, e2, hw2⟩ := C32_destroy_partial hw1 (Sets.has_tv ht)
  refine ⟨o, ⟨((s.live.erase pix).erase x).erase b, s.next, s.calls, s.oracle, w2⟩, ?_, rfl, hw2, ho, a', w1, e1⟩
  unfold mexTail
  rw [nbind (nrun_eq e1), nbind (nrun_eq (s := ⟨s.live, s.next, s.calls, s.oracle, w1⟩) e2), nbind (nfree_some (s := ⟨s.live, s.next, s.calls, s.oracle, w2⟩) h1),
    nbind (nfree_some (s := ⟨s.live.erase pix, s.next, s.calls, s.oracle, w2⟩) h2),
    nbind (nfree_some (s := ⟨(s.live.erase pix).erase x, s.next, s.calls, s.oracle, w2⟩) h3)]
  rfl

variable {junk : ℕ → F} {r k n pix : ℕ} {b : Vec F n} {pidx : Arr F} {opts : NestaOpts F} {alp_v alp_h : F} {dct_mode : Int} {ana : Bool} {idx : List Int}
  {two : Bool}

/-- one of the two arrays cannot be had: the set stays alive -/
theorem mexRun_oom (hs : s.WF) (hpix : pix ∈ s.live) (ax : AxFuns F) (c : NestaMexCall F)
    (ho : s.oracle s.calls = false ∨ s.oracle (s.calls + 1) = false) :
    ∃ s', nesta_mex_run lib junk c (some pix) ax s = some (.error "l1c:l1qc_dct:outofmemory", s') ∧ s'.live = s.live.erase pix ∧ s'.cb = s.cb := by
  have n0 : s.next ∉ s.live := fun hc => absurd (hs _ hc) (lt_irrefl _)
  have hne : pix ≠ s.next := fun h => n0 (h ▸ hpix)
  unfold nesta_mex_run
  cases h0 : s.oracle s.calls with
  | false =>
    rw [nbind (nalloc_fail h0)]
    cases h1 : s.oracle (s.calls + 1) with
    | false =>
      rw [nbind (nalloc_fail (s := ⟨s.live, s.next, s.calls + 1, s.oracle, s.cb⟩) h1), if_pos (by simp),
        nbind (nfree_some (s := ⟨s.live, s.next, s.calls + 1 + 1, s.oracle, s.cb⟩) hpix)]
      exact ⟨_, rfl, rfl, rfl⟩
    | true =>
      rw [nbind (nalloc_ok (s := ⟨s.live, s.next, s.calls + 1, s.oracle, s.cb⟩) h1), if_pos (by simp),
        nbind (nfree_some (s := ⟨insert s.next s.live, s.next + 1, s.calls + 1 + 1, s.oracle, s.cb⟩) (Finset.mem_insert_of_mem hpix)),
        nbind (show nfree none _ = some ((), _) from rfl),
        nbind (nfree_some (s := ⟨(insert s.next s.live).erase pix, s.next + 1, s.calls + 1 + 1, s.oracle, s.cb⟩)
          (Finset.mem_erase.2 ⟨hne.symm, Finset.mem_insert_self _ _⟩))]
      refine ⟨_, rfl, ?_, rfl⟩
      show ((insert s.next s.live).erase pix).erase s.next = _
      rw [Finset.erase_right_comm, Finset.erase_insert n0]
  | true =>
    have h1 : s.oracle (s.calls + 1) = false := by
      rcases ho with ho | ho
      · rw [h0] at ho; cases ho
      · exact ho
    rw [nbind (nalloc_ok h0), nbind (nalloc_fail (s := ⟨insert s.next s.live, s.next + 1, s.calls + 1, s.oracle, s.cb⟩) h1), if_pos (by simp),
      nbind (nfree_some (s := ⟨insert s.next s.live, s.next + 1, s.calls + 1 + 1, s.oracle, s.cb⟩) (Finset.mem_insert_of_mem hpix)),
      nbind (nfree_some (s := ⟨(insert s.next s.live).erase pix, s.next + 1, s.calls + 1 + 1, s.oracle, s.cb⟩)
          (Finset.mem_erase.2 ⟨hne.symm, Finset.mem_insert_self _ _⟩))]
    refine ⟨_, rfl, ?_, rfl⟩
    show ((insert s.next s.live).erase pix).erase s.next = _
    rw [Finset.erase_right_comm, Finset.erase_insert n0]

/-- with the two arrays, the rest of the Matlab function -/
theorem mexRun_granted (h0 : s.oracle s.calls = true) (h1 : s.oracle (s.calls + 1) = true)
    (ht : t = ⟨r, k, n, idx, alp_v, alp_h, !ana, two⟩) {q : Int} {nw : F} :
    nesta_mex_run lib junk ⟨r, k, ⟨n, b⟩, pidx, opts, alp_v, alp_h, dct_mode, ana⟩ (some pix) ⟨t.n, t.m, t.p, q, nw, t.kind⟩ s =
      (nestaArr lib ⟨t.n, t.m, t.p, q, nw, t.kind⟩ ((k : Int) * r) ⟨t.m, fun i => junk i⟩ n ⟨n, b⟩ opts >>= fun o =>
        mexTail lib t.kind pix s.next (s.next + 1) r k (t.mrow * t.mcol) o) (mexCallState s) := by
  subst ht
  unfold nesta_mex_run
  rw [nbind (nalloc_ok h0), nbind (nalloc_ok (s := ⟨insert s.next s.live, s.next + 1, s.calls + 1, s.oracle, s.cb⟩) h1), if_neg (by simp)]
  rfl

/-- the rest of the Matlab function, by what memory is granted and what the set is for -/
theorem mexRun_full (hs : s.WF) (hpix : pix ∈ s.live) (hw : Hist lib s.cb L) (htv : L.tv = some t)
    (ht : t = ⟨r, k, n, idx, alp_v, alp_h, !ana, two⟩) (hn : n ≤ r * k) (hN : opts.n_continue < INT_MAX)
    (h0 : s.oracle s.calls = true) (h1 : s.oracle (s.calls + 1) = true) {q : Int} {nw : F} :
    (t.m ≠ r * k → ∃ s', nesta_mex_run lib junk ⟨r, k, ⟨n, b⟩, pidx, opts, alp_v, alp_h, dct_mode, ana⟩ (some pix) ⟨t.n, t.m, t.p, q, nw, t.kind⟩ s =
      some (.error "l1c:l1qc_dct:bad_index", s') ∧ s'.live = s.live.erase pix ∧ Hist lib s'.cb (L.drop t.kind)) ∧
    (t.m = r * k →
      ((¬ ∀ i < 10, s.oracle (s.calls + 2 + i) = true) → ∃ s',
        nesta_mex_run lib junk ⟨r, k, ⟨n, b⟩, pidx, opts, alp_v, alp_h, dct_mode, ana⟩ (some pix) ⟨t.n, t.m, t.p, q, nw, t.kind⟩ s =
          some (.error "l1c:l1qc_dct:outofmemory", s') ∧ s'.live = s.live.erase pix ∧ Hist lib s'.cb (L.drop t.kind)) ∧
      ((∀ i < 10, s.oracle (s.calls + 2 + i) = true) → s.oracle (s.calls + 2 + 10) = false →
        nesta_mex_run lib junk ⟨r, k, ⟨n, b⟩, pidx, opts, alp_v, alp_h, dct_mode, ana⟩ (some pix) ⟨t.n, t.m, t.p, q, nw, t.kind⟩ s = none) ∧
      ((∀ i < 11, s.oracle (s.calls + 2 + i) = true) → ∃ (b' : Vec F t.n) (out : NestaOut F t.n t.m t.p) (s1 : NState (World F)) (o : Vec F (r * k)) (s' : NState (World F)),
        (∀ i : Fin n, ∃ h, b' ⟨i, h⟩ = b i) ∧
        l1c_nesta t.m t.n (fun i => junk i) b' (setNAx lib t.kind t.n t.m t.p nw) opts (mexCallState s) = some (out, s1) ∧
        nesta_mex_run lib junk ⟨r, k, ⟨n, b⟩, pidx, opts, alp_v, alp_h, dct_mode, ana⟩ (some pix) ⟨t.n, t.m, t.p, q, nw, t.kind⟩ s =
          some (.ret r k ⟨r * k, o⟩ 0, s') ∧ s'.live = s.live.erase pix ∧ Hist lib s'.cb (L.drop t.kind) ∧
        (t.syn = false → ∀ i : Fin (r * k), ∃ hi : i.val < t.m, o i = out.xk ⟨i, hi⟩) ∧
        ∃ a' w1, wcall lib t.kind .Mx ⟨t.m, out.xk⟩ ⟨r * k, fun _ => lit 0⟩ s1.cb = some ((a', ⟨r * k, o⟩), w1))) := by
  have n0 : s.next ∉ s.live := fun hc => absurd (hs _ hc) (lt_irrefl _)
  have n1 : s.next + 1 ∉ s.live := fun hc => absurd (hs _ hc) (by omega)
  have hne : pix ≠ s.next := fun h => n0 (h ▸ hpix)
  have hne1 : pix ≠ s.next + 1 := fun h => n1 (h ▸ hpix)
  have m1 : pix ∈ (mexCallState s).live := Finset.mem_insert_of_mem (Finset.mem_insert_of_mem hpix)
  have m2 : s.next ∈ (mexCallState s).live.erase pix :=
    Finset.mem_erase.2 ⟨hne.symm, Finset.mem_insert_of_mem (Finset.mem_insert_self _ _)⟩
  have m3 : s.next + 1 ∈ ((mexCallState s).live.erase pix).erase s.next :=
    Finset.mem_erase.2 ⟨by omega, Finset.mem_erase.2 ⟨hne1.symm, Finset.mem_insert_self _ _⟩⟩
  have hlive : (((mexCallState s).live.erase pix).erase s.next).erase (s.next + 1) = s.live.erase pix := by
    show (((insert (s.next + 1) (insert s.next s.live)).erase pix).erase s.next).erase (s.next + 1) = _
    ext a
    simp only [Finset.mem_erase, Finset.mem_insert]
    constructor
    · tauto
    · intro h
      have h2 : a ≠ s.next := fun hc => n0 (hc ▸ h.2)
      have h3 : a ≠ s.next + 1 := fun hc => n1 (hc ▸ h.2)
      tauto
  have hwf := mexCallState_wf hs
  have hmul : (k : Int) * r = ((r * k : ℕ) : Int) := by push_cast; ring
  have hrun := mexRun_granted (lib := lib) (junk := junk) (b := b) (pidx := pidx) (pix := pix) (opts := opts) (dct_mode := dct_mode) h0 h1 ht (q := q) (nw := nw)
  have hrk : t.mrow * t.mcol = r * k := by subst ht; rfl
  rw [hrun]
  refine ⟨fun hm => ?_, fun hm => ?_⟩
  · rw [nbind (nestaArr_invalid (Or.inr (by rw [hmul]; exact_mod_cast Ne.symm hm)) _ _)]
    obtain ⟨o, s', e, e1, e2, -⟩ := mexTail_eq (s := mexCallState s) hw htv (fun i => junk i) L1C_INVALID_ARGUMENT r k m1 m2 m3
    exact ⟨s', e, e1.trans hlive, e2⟩
  · have hb : ∃ b' : Vec F t.n, (⟨n, b⟩ : Arr F) = ⟨t.n, b'⟩ ∧ (∀ i : Fin n, ∃ h, b' ⟨i, h⟩ = b i) := by
      subst ht; exact ⟨b, rfl, fun i => ⟨i.2, rfl⟩⟩
    obtain ⟨b', hb', hbi⟩ := hb
    have htn : (n : Int) = t.n := by subst ht; rfl
    have e0 : nestaArr lib ⟨t.n, t.m, t.p, q, nw, t.kind⟩ ((k : Int) * r) ⟨t.m, fun i => junk i⟩ n ⟨n, b⟩ opts =
        nestaArr lib ⟨t.n, t.m, t.p, q, nw, t.kind⟩ t.m ⟨t.m, fun i => junk i⟩ t.n ⟨t.n, b'⟩ opts := by
      rw [hb', htn, hmul, ← hm]
    rw [e0]
    obtain ⟨c1, c2, c3⟩ := nesta_live (s := mexCallState s) hwf hw htv (by subst ht; exact hn) hN nw (fun i => junk i) b'
    refine ⟨fun h => ?_, fun h h' => ?_, fun h => ?_⟩
    · obtain ⟨s1, e, e1, e2⟩ := c1 h
      have e3 := nestaArr_eq (lib := lib) (s := mexCallState s) (q := q) (nw := nw) (opts := opts) (fun i => junk i) b'
      rw [e] at e3
      rw [nbind e3]
      obtain ⟨o, s', g, g1, g2, -⟩ := mexTail_eq (s := s1) (e2 ▸ hw) htv (fun i => junk i) L1C_OUT_OF_MEMORY r k (e1 ▸ m1) (e1 ▸ m2) (e1 ▸ m3)
      exact ⟨s', g, by rw [g1, e1, hlive], g2⟩
    · have e := c2 h h'
      have e3 := nestaArr_eq (lib := lib) (s := mexCallState s) (q := q) (nw := nw) (opts := opts) (fun i => junk i) b'
      rw [e] at e3
      show (nestaArr lib _ _ _ _ _ _ _).bind _ = _
      rw [e3]; rfl
    · obtain ⟨out, s1, e, est, e1, e2⟩ := c3 h
      have e3 := nestaArr_eq (lib := lib) (s := mexCallState s) (q := q) (nw := nw) (opts := opts) (fun i => junk i) b'
      rw [e] at e3
      rw [nbind e3]
      obtain ⟨o, s', g, g1, g2, g3, a2, w2, g4⟩ := mexTail_eq (s := s1) e2 htv out.xk out.status r k (e1 ▸ m1) (e1 ▸ m2) (e1 ▸ m3)
      rw [est] at g
      refine ⟨b', out, s1, fun i => o (Fin.cast hrk.symm i), s', hbi, e, ?_, by rw [g1, e1, hlive], g2, fun h i => ⟨lt_of_lt_of_eq i.2 hm.symm, ?_⟩, a2, w2, ?_⟩
      · dsimp only
        rw [est, g]
        subst ht
        rfl
      · exact g3 h _
      · subst ht
        exact g4

end mexrun

/-! ## Parsing -/

section parse
variable {F : Type} [Scalar F]

theorem nesta_parse_ok {nlhs : ℕ} {mode : Option (Option String)} {prhs : List (MxVal F)} {c : NestaMexCall F}
    (h : (nesta_mex_parse nlhs mode prhs).run = some (.ok c)) : NestaMexGood prhs mode c := by
  unfold nesta_mex_parse at h
  split at h
  swap
  · cases h
  rename_i a0 a1 a2 a3 a4 rest
  split at h
  · cases h
  obtain ⟨r0, h0, h⟩ := mexBind_ok h
  obtain ⟨mrow, h0', h⟩ := mexBind_ok h
  obtain ⟨r1, h1, h⟩ := mexBind_ok h
  obtain ⟨mcol, h1', h⟩ := mexBind_ok h
  split at h
  · cases h
  rename_i hf
  obtain ⟨b, h2, h⟩ := mexBind_ok h
  obtain ⟨pix, h3, h⟩ := mexBind_ok h
  cases a4 with
  | arr => cases h
  | struct M N f =>
    dsimp only at h
    split at h
    · cases h
    rename_i hMN
    obtain ⟨⟨opts, alp_v, alp_h, dct_mode⟩, h4, h⟩ := mexBind_ok h
    obtain ⟨ana, h5, h⟩ := mexBind_ok h
    dsimp only at h
    split at h
    · cases h
    rename_i hd
    cases h
    have hM : M = 1 := by omega
    have hN : N = 1 := by omega
    subst hM hN
    unfold nesta_mex_opts at h4
    obtain ⟨sg, g1, h4⟩ := mexBind_ok h4
    obtain ⟨vb, g2, h4⟩ := mexBind_ok h4
    obtain ⟨vi, g2', h4⟩ := mexBind_ok h4
    obtain ⟨mu, g3, h4⟩ := mexBind_ok h4
    obtain ⟨tol, g4, h4⟩ := mexBind_ok h4
    obtain ⟨nc, g5, h4⟩ := mexBind_ok h4
    obtain ⟨nci, g5', h4⟩ := mexBind_ok h4
    obtain ⟨av, g6, h4⟩ := mexBind_ok h4
    obtain ⟨ah, g7, h4⟩ := mexBind_ok h4
    obtain ⟨dm, g8, h4⟩ := mexBind_ok h4
    obtain ⟨dmi, g8', h4⟩ := mexBind_ok h4
    cases h4
    refine ⟨⟨a0, a1, a2, a3, f, rest, r0, r1, vb, nc, dm, vi, rfl, mexScalar_ok h0, mexLift_ok h0', mexScalar_ok h1, mexLift_ok h1', mexArray_ok h2, mexArray_ok h3,
      mexField_ok g1, mexField_ok g3, mexField_ok g4, mexField_ok g2, mexLift_ok g2', mexField_ok g5, mexLift_ok g5', mexField_ok g6, mexField_ok g7, mexField_ok g8,
      mexLift_ok g8'⟩, ?_, by rw [mul_comm]; exact not_not.1 hf, by dsimp only; omega, by dsimp only; omega, by dsimp only; omega⟩
    match mode, h5 with
    | some (some v), h5 =>
      unfold nesta_mex_mode at h5
      dsimp only at h5 ⊢
      split at h5
      · rename_i hv
        cases h5
        rw [hv]; rfl
      · split at h5
        · rename_i hv
          cases h5
          rw [hv]; rfl
        · cases h5

theorem nestaIndices_true (mtot : Int) (x : List F) : nestaIndices true mtot x = mexIndices mtot x := by
  induction x with
  | nil => rfl
  | cons x xs ih =>
    unfold nestaIndices mexIndices
    rw [ih]
    rfl

/-- without memory for the indices the call is undefined unless the first index is bad -/
theorem nestaIndices_false {mtot : Int} {x : List F} (hx : x ≠ []) {o : Option (List Int)} (h : nestaIndices false mtot x = some o) :
    o = none ∧ mexIndices mtot x = some none := by
  cases x with
  | nil => exact absurd rfl hx
  | cons x xs =>
    unfold nestaIndices at h
    unfold mexIndices
    obtain ⟨v, hv, h⟩ := Option.bind_eq_some_iff.1 h
    rw [hv, Option.bind_some]
    split at h
    · cases h
    rename_i h1
    rw [if_neg h1]
    split at h
    · rename_i h2
      cases h
      rw [if_pos h2]
      exact ⟨rfl, rfl⟩
    · rw [if_pos (by decide)] at h
      cases h

end parse

section mex
variable {F : Type} [Scalar F] {lib : FftwLib F} {L : Sets F} {s s' : NState (World F)} {junk : ℕ → F} {nlhs : ℕ} {prhs : List (MxVal F)}
  {mode : Option (Option String)} {c : NestaMexCall F} {out : NestaMexOut F}

/-- the state once `pix_idx` is there and the setup has left the world `w` -/
def nmexState (s : NState (World F)) (w : World F) : NState (World F) := ⟨insert s.next s.live, s.next + 1, s.calls + 1, s.oracle, w⟩

omit [Scalar F] in
theorem nmexState_wf (hs : s.WF) (w : World F) : (nmexState s w).WF := by
  intro c hc
  rcases Finset.mem_insert.1 hc with rfl | hc
  · exact Nat.lt_succ_self _
  · have := hs c hc; show c < s.next + 1; omega

/-- a call with good arguments and memory for the indices -/
theorem nmex_run_eq (hp : (nesta_mex_parse nlhs mode prhs).run = some (.ok c)) (ho : s.oracle s.calls = true) {idx : List Int}
    (hi : mexIndices (c.mrow * c.mcol) (List.ofFn c.pix_idx.2) = some (some idx)) {st : Int} {ax : AxFuns F} {w : World F}
    (hsu : l1c_setup_dctTV_transforms c.b.1 c.mrow c.mcol c.alp_v c.alp_h c.dct_mode c.analysis idx s.cb = some ((st, some ax), w)) :
    nesta_dctTV_mex lib junk nlhs prhs mode s = nesta_mex_run lib junk c (some s.next) ax (nmexState s w) := by
  unfold nesta_dctTV_mex
  rw [hp]
  dsimp only
  rw [nbind (nalloc_ok ho), Option.isSome_some, nestaIndices_true, mul_comm c.mcol, hi, nbind (nlift_some rfl _)]
  dsimp only
  rw [nbind (nrun_eq (s := ⟨insert s.next s.live, s.next + 1, s.calls + 1, s.oracle, s.cb⟩) hsu)]
  rfl

/-- a call with good arguments whose setup fails -/
theorem nmex_setup_fails (hs : s.WF) (hp : (nesta_mex_parse nlhs mode prhs).run = some (.ok c)) (ho : s.oracle s.calls = true) {idx : List Int}
    (hi : mexIndices (c.mrow * c.mcol) (List.ofFn c.pix_idx.2) = some (some idx)) {st : Int} {w : World F}
    (hsu : l1c_setup_dctTV_transforms c.b.1 c.mrow c.mcol c.alp_v c.alp_h c.dct_mode c.analysis idx s.cb = some ((st, none), w)) :
    nesta_dctTV_mex lib junk nlhs prhs mode s = some (nestaMexExit st .unset, ⟨s.live, s.next + 1, s.calls + 1, s.oracle, w⟩) := by
  have n0 : s.next ∉ s.live := fun hc => absurd (hs _ hc) (lt_irrefl _)
  unfold nesta_dctTV_mex
  rw [hp]
  dsimp only
  rw [nbind (nalloc_ok ho), Option.isSome_some, nestaIndices_true, mul_comm c.mcol, hi, nbind (nlift_some rfl _)]
  dsimp only
  rw [nbind (nrun_eq (s := ⟨insert s.next s.live, s.next + 1, s.calls + 1, s.oracle, s.cb⟩) hsu)]
  dsimp only
  rw [nbind (nfree_some (s := ⟨insert s.next s.live, s.next + 1, s.calls + 1, s.oracle, w⟩) (Finset.mem_insert_self _ _))]
  show some (nestaMexExit st NestaMexOut.unset, (⟨(insert s.next s.live).erase s.next, _, _, _, _⟩ : NState (World F))) = _
  rw [Finset.erase_insert n0]

/-- a call with good arguments but a bad index -/
theorem nmex_bad (hs : s.WF) (hp : (nesta_mex_parse nlhs mode prhs).run = some (.ok c)) (ho : s.oracle s.calls = true)
    (hi : mexIndices (c.mrow * c.mcol) (List.ofFn c.pix_idx.2) = some none) :
    nesta_dctTV_mex lib junk nlhs prhs mode s = some (.error "l1c:l1qc_dct:bad_index", ⟨s.live, s.next + 1, s.calls + 1, s.oracle, s.cb⟩) := by
  have n0 : s.next ∉ s.live := fun hc => absurd (hs _ hc) (lt_irrefl _)
  unfold nesta_dctTV_mex
  rw [hp]
  dsimp only
  rw [nbind (nalloc_ok ho), Option.isSome_some, nestaIndices_true, mul_comm c.mcol, hi, nbind (nlift_some rfl _)]
  dsimp only
  rw [nbind (nfree_some (s := ⟨insert s.next s.live, s.next + 1, s.calls + 1, s.oracle, s.cb⟩) (Finset.mem_insert_self _ _))]
  show some (nestaMexExit L1C_INVALID_ARGUMENT NestaMexOut.unset, (⟨(insert s.next s.live).erase s.next, _, _, _, _⟩ : NState (World F))) = _
  rw [Finset.erase_insert n0]
  rfl

/-- how every defined call begins -/
theorem nmex_start (hs : s.WF) (hp : (nesta_mex_parse nlhs mode prhs).run = some (.ok c)) (h : nesta_dctTV_mex lib junk nlhs prhs mode s = some (out, s')) :
    (out = .error "l1c:l1qc_dct:bad_index" ∧ s'.live = s.live ∧ s'.cb = s.cb ∧ mexIndices (c.mrow * c.mcol) (List.ofFn c.pix_idx.2) = some none) ∨
    (s.oracle s.calls = true ∧ ∃ idx, OneBased (c.mrow * c.mcol) (List.ofFn c.pix_idx.2) idx ∧
      ((∃ st w, l1c_setup_dctTV_transforms c.b.1 c.mrow c.mcol c.alp_v c.alp_h c.dct_mode c.analysis idx s.cb = some ((st, none), w) ∧
        out = nestaMexExit st .unset ∧ s'.live = s.live ∧ s'.cb = w) ∨
      ∃ st ax w, l1c_setup_dctTV_transforms c.b.1 c.mrow c.mcol c.alp_v c.alp_h c.dct_mode c.analysis idx s.cb = some ((st, some ax), w) ∧
        nesta_mex_run lib junk c (some s.next) ax (nmexState s w) = some (out, s'))) := by
  have g := nesta_parse_ok hp
  have n0 : s.next ∉ s.live := fun hc => absurd (hs _ hc) (lt_irrefl _)
  have hne : List.ofFn c.pix_idx.2 ≠ [] := by
    obtain ⟨_, _, _, _, _, _, _, _, _, _, _, _, _, _, _, _, _, _, ⟨M, N, d, data, -, e, -, h2⟩, -⟩ := g.args
    intro h0
    have := congrArg List.length h0
    rw [List.length_ofFn, e] at this
    simp only [List.length_nil] at this
    omega
  cases ho : s.oracle s.calls with
  | false =>
    left
    unfold nesta_dctTV_mex at h
    rw [hp] at h
    dsimp only at h
    rw [nbind (nalloc_fail ho), Option.isSome_none, mul_comm c.mcol] at h
    obtain ⟨o, s2, h2, h⟩ := nbind_some h
    obtain ⟨hr, rfl⟩ := nlift_some' h2
    obtain ⟨rfl, hi⟩ := nestaIndices_false hne hr
    cases h
    exact ⟨rfl, rfl, rfl, hi⟩
  | true =>
    have hdef : ∃ o, mexIndices (c.mrow * c.mcol) (List.ofFn c.pix_idx.2) = some o := by
      unfold nesta_dctTV_mex at h
      rw [hp] at h
      dsimp only at h
      rw [nbind (nalloc_ok ho), Option.isSome_some, nestaIndices_true, mul_comm c.mcol] at h
      obtain ⟨o, s2, h2, h⟩ := nbind_some h
      exact ⟨o, (nlift_some' h2).1⟩
    obtain ⟨o, hi⟩ := hdef
    cases o with
    | none =>
      rw [nmex_bad hs hp ho hi] at h
      cases h
      exact Or.inl ⟨rfl, rfl, rfl, hi⟩
    | some idx =>
      refine Or.inr ⟨rfl, idx, mexIndices_iff.1 hi, ?_⟩
      cases hsu : l1c_setup_dctTV_transforms c.b.1 c.mrow c.mcol c.alp_v c.alp_h c.dct_mode c.analysis idx s.cb with
      | none =>
        exfalso
        unfold nesta_dctTV_mex at h
        rw [hp] at h
        dsimp only at h
        rw [nbind (nalloc_ok ho), Option.isSome_some, nestaIndices_true, mul_comm c.mcol, hi, nbind (nlift_some rfl _)] at h
        dsimp only at h
        obtain ⟨o, s2, h2, h⟩ := nbind_some h
        obtain ⟨w, h3, -⟩ := nrun_some h2
        have h3 : l1c_setup_dctTV_transforms c.b.1 c.mrow c.mcol c.alp_v c.alp_h c.dct_mode c.analysis idx s.cb = _ := h3
        rw [hsu] at h3
        cases h3
      | some r =>
        obtain ⟨⟨st, o⟩, w⟩ := r
        cases o with
        | none =>
          rw [nmex_setup_fails hs hp ho hi hsu] at h
          cases h
          exact Or.inl ⟨st, w, rfl, rfl, rfl, rfl⟩
        | some ax => exact Or.inr ⟨st, ax, w, rfl, by rw [← nmex_run_eq hp ho hi hsu]; exact h⟩

omit [Scalar F] in
/-- after the release only the record of 1-D plans may differ -/
theorem drop_tv {L L1 : Sets F} {t : SetTv F} {two : Bool} (htv : L.tv = none) (hL : L1 = ({ L with tv := some t }).note1 two L1C_SUCCESS) :
    ∃ e, L1.drop t.kind = { L with ever1 := e } := by
  subst hL
  obtain ⟨d1, d2, tv, mat, ever, lost⟩ := L
  cases htv
  refine ⟨ever || !two, ?_⟩
  unfold SetTv.kind
  cases t.syn <;> simp [Sets.note1, Sets.drop, L1C_SUCCESS, L1C_OUT_OF_MEMORY, L1C_DCT_INIT_FAILURE]

/-- how every defined call ends -/
theorem nmex_inv (hs : s.WF) (hw : Hist lib s.cb L) (htv : L.tv = none) (hb : ∀ two, ¬ L.busy two)
    (hp : (nesta_mex_parse nlhs mode prhs).run = some (.ok c)) (hN : c.opts.n_continue < INT_MAX) (h : nesta_dctTV_mex lib junk nlhs prhs mode s = some (out, s')) :
    s'.live = s.live ∧
    ((out = .error "l1c:l1qc_dct:bad_index" ∧ s'.cb = s.cb ∧ mexIndices (c.mrow * c.mcol) (List.ofFn c.pix_idx.2) = some none) ∨
    (s.oracle s.calls = true ∧ ∃ idx, OneBased (c.mrow * c.mcol) (List.ofFn c.pix_idx.2) idx ∧
      ((∃ st, l1c_setup_dctTV_transforms c.b.1 c.mrow c.mcol c.alp_v c.alp_h c.dct_mode c.analysis idx s.cb = some ((st, none), s'.cb) ∧
        out = nestaMexExit st .unset) ∨
      ∃ (r k : ℕ) (t : SetTv F) (L1 : Sets F) (w : World F), c.mrow = r ∧ c.mcol = k ∧
        t = ⟨r, k, c.b.1, idx, c.alp_v, c.alp_h, !c.analysis, twoDim r k c.dct_mode⟩ ∧
        L1 = ({ L with tv := some t }).note1 (twoDim r k c.dct_mode) L1C_SUCCESS ∧ Hist lib w L1 ∧
        ValidTv c.b.1 c.mrow c.mcol c.alp_v c.alp_h idx ∧
        (((s.oracle (s.calls + 1) = false ∨ s.oracle (s.calls + 2) = false) ∧ out = .error "l1c:l1qc_dct:outofmemory" ∧ s'.cb = w) ∨
        ((s.oracle (s.calls + 1) = true ∧ s.oracle (s.calls + 2) = true) ∧ Hist lib s'.cb (L1.drop t.kind) ∧
          ((t.m ≠ r * k ∧ out = .error "l1c:l1qc_dct:bad_index") ∨
          (t.m = r * k ∧ (¬ ∀ i < 10, s.oracle (s.calls + 3 + i) = true) ∧ out = .error "l1c:l1qc_dct:outofmemory") ∨
          (t.m = r * k ∧ ∃ (b' : Vec F t.n) (o : NestaOut F t.n t.m t.p) (s1 : NState (World F)) (x : Vec F (r * k)),
            (∀ i : Fin c.b.1, ∃ h, b' ⟨i, h⟩ = c.b.2 i) ∧ (∀ i < 11, s.oracle (s.calls + 3 + i) = true) ∧
            l1c_nesta t.m t.n (fun i => junk i) b' (setNAx lib t.kind t.n t.m t.p (tvNormW c.analysis c.alp_v c.alp_h)) c.opts (mexCallState (nmexState s w)) = some (o, s1) ∧
            out = .ret r k ⟨r * k, x⟩ 0 ∧ (t.syn = false → ∀ i : Fin (r * k), ∃ hi : i.val < t.m, x i = o.xk ⟨i, hi⟩) ∧
            (∃ a' w1, wcall lib t.kind .Mx ⟨t.m, o.xk⟩ ⟨r * k, fun _ => lit 0⟩ s1.cb = some ((a', ⟨r * k, x⟩), w1)) ∧
            ∃ st ax, l1c_setup_dctTV_transforms c.b.1 c.mrow c.mcol c.alp_v c.alp_h c.dct_mode c.analysis idx s.cb = some ((st, some ax), w)))))))) := by
  have g := nesta_parse_ok hp
  have n0 : s.next ∉ s.live := fun hc => absurd (hs _ hc) (lt_irrefl _)
  rcases nmex_start hs hp h with ⟨h1, h2, h3, h4⟩ | ⟨ho, idx, hi, ⟨st, w, h1, h2, h3, h4⟩ | ⟨st, ax, w, h1, h2⟩⟩
  · exact ⟨h2, Or.inl ⟨h1, h3, h4⟩⟩
  · exact ⟨h3, Or.inr ⟨ho, idx, hi, Or.inl ⟨st, by rw [h4]; exact h1, h2⟩⟩⟩
  have hlen := oneBased_length hi
  rw [List.length_ofFn] at hlen
  obtain ⟨_, _, len, lt⟩ : True ∧ True ∧ c.b.1 = c.pix_idx.1 ∧ (c.b.1 : Int) < c.mrow * c.mcol := ⟨trivial, trivial, g.len, g.lt⟩
  have pos := g.pos
  clear hp h g
  obtain ⟨mrow, mcol, ⟨n, b⟩, pidx, opts, av, ah, dm, ana⟩ := c
  dsimp only at *
  obtain ⟨r, rfl⟩ := Int.eq_ofNat_of_zero_le pos.1.le
  obtain ⟨k, rfl⟩ := Int.eq_ofNat_of_zero_le pos.2.le
  obtain ⟨-, t, L1, ht, hL1, hw1, hLe, hax, hv⟩ := tv_live hw (by omega) htv (hb _) h1
  subst hax
  have hpix : s.next ∈ (nmexState s w).live := Finset.mem_insert_self _ _
  have hlive : (nmexState s w).live.erase s.next = s.live := Finset.erase_insert n0
  have hn : n ≤ r * k := by exact_mod_cast lt.le
  have hwf := nmexState_wf hs w
  have assemble : ∀ {P : Prop}, s'.live = (nmexState s w).live.erase s.next → P → s'.live = s.live ∧ P := fun a b => ⟨a.trans hlive, b⟩
  by_cases hoo : (nmexState s w).oracle (nmexState s w).calls = true ∧ (nmexState s w).oracle ((nmexState s w).calls + 1) = true
  swap
  · obtain ⟨s2, e, e1, e2⟩ := mexRun_oom (lib := lib) (junk := junk) hwf hpix ⟨t.n, t.m, t.p, (r * k : ℕ), tvNormW ana av ah, t.kind⟩
      ⟨r, k, ⟨n, b⟩, pidx, opts, av, ah, dm, ana⟩ (by
        rcases not_and_or.1 hoo with h | h
        · exact Or.inl (by simpa using h)
        · exact Or.inr (by simpa using h))
    rw [e] at h2
    cases h2
    refine assemble e1 (Or.inr ⟨ho, idx, hi, Or.inr ⟨r, k, t, L1, w, rfl, rfl, ht, hLe, hw1, hv, Or.inl ⟨?_, rfl, e2⟩⟩⟩)
    rcases not_and_or.1 hoo with h | h
    · exact Or.inl (by simpa [nmexState] using h)
    · exact Or.inr (by simpa [nmexState] using h)
  · obtain ⟨c1, c2⟩ := mexRun_full (junk := junk) (b := b) (pidx := pidx) (dct_mode := dm) hwf hpix hw1 hL1 ht hn hN hoo.1 hoo.2 (q := (r * k : ℕ)) (nw := tvNormW ana av ah)
    by_cases hm : t.m = r * k
    · obtain ⟨d1, d2, d3⟩ := c2 hm
      by_cases h10 : ∀ i < 10, (nmexState s w).oracle ((nmexState s w).calls + 2 + i) = true
      · by_cases h11 : (nmexState s w).oracle ((nmexState s w).calls + 2 + 10) = true
        · have hall : ∀ i < 11, (nmexState s w).oracle ((nmexState s w).calls + 2 + i) = true := fun i hi => by
            rcases Nat.lt_or_ge i 10 with h | h
            · exact h10 i h
            · have : i = 10 := by omega
              rw [this]; exact h11
          obtain ⟨b', o, s1, x, s2, e1, e2, e3, e4, e5, e6, e7⟩ := d3 hall
          rw [e3] at h2
          cases h2
          exact assemble e4 (Or.inr ⟨ho, idx, hi, Or.inr ⟨r, k, t, L1, w, rfl, rfl, ht, hLe, hw1, hv,
            Or.inr ⟨hoo, e5, Or.inr (Or.inr ⟨hm, b', o, s1, x, e1, hall, e2, rfl, e6, e7, st, _, h1⟩)⟩⟩⟩)
        · rw [d2 h10 (by simpa using h11)] at h2
          cases h2
      · obtain ⟨s2, e, e1, e2⟩ := d1 h10
        rw [e] at h2
        cases h2
        exact assemble e1 (Or.inr ⟨ho, idx, hi, Or.inr ⟨r, k, t, L1, w, rfl, rfl, ht, hLe, hw1, hv, Or.inr ⟨hoo, e2, Or.inr (Or.inl ⟨hm, h10, rfl⟩)⟩⟩⟩)
    · obtain ⟨s2, e, e1, e2⟩ := c1 hm
      rw [e] at h2
      cases h2
      exact assemble e1 (Or.inr ⟨ho, idx, hi, Or.inr ⟨r, k, t, L1, w, rfl, rfl, ht, hLe, hw1, hv, Or.inr ⟨hoo, e2, Or.inl ⟨hm, rfl⟩⟩⟩⟩)

/-- which calls are defined -/
theorem nmex_defined (hs : s.WF) (hw : Hist lib s.cb L) (htv : L.tv = none) (hb : ∀ two, ¬ L.busy two)
    (hp : (nesta_mex_parse nlhs mode prhs).run = some (.ok c)) (hN : c.opts.n_continue < INT_MAX) (ho : s.oracle s.calls = true)
    (hi : mexIndices (c.mrow * c.mcol) (List.ofFn c.pix_idx.2) ≠ none)
    (hsu : ∀ idx, OneBased (c.mrow * c.mcol) (List.ofFn c.pix_idx.2) idx →
      l1c_setup_dctTV_transforms c.b.1 c.mrow c.mcol c.alp_v c.alp_h c.dct_mode c.analysis idx s.cb ≠ none)
    (hwin : (∀ i < 13, s.oracle (s.calls + i) = true) → s.oracle (s.calls + 13) = true) :
    ∃ out s', nesta_dctTV_mex lib junk nlhs prhs mode s = some (out, s') := by
  obtain ⟨o, hi⟩ := Option.ne_none_iff_exists'.1 hi
  cases o with
  | none => exact ⟨_, _, nmex_bad hs hp ho hi⟩
  | some idx =>
    have hi' := mexIndices_iff.1 hi
    obtain ⟨⟨⟨st, o⟩, w⟩, h1⟩ := Option.ne_none_iff_exists'.1 (hsu idx hi')
    cases o with
    | none => exact ⟨_, _, nmex_setup_fails hs hp ho hi h1⟩
    | some ax =>
      rw [nmex_run_eq hp ho hi h1]
      have g := nesta_parse_ok hp
      have hlen := oneBased_length hi'
      rw [List.length_ofFn] at hlen
      have len := g.len
      have lt := g.lt
      have pos := g.pos
      clear hp g hsu
      obtain ⟨mrow, mcol, ⟨n, b⟩, pidx, opts, av, ah, dm, ana⟩ := c
      dsimp only at *
      obtain ⟨r, rfl⟩ := Int.eq_ofNat_of_zero_le pos.1.le
      obtain ⟨k, rfl⟩ := Int.eq_ofNat_of_zero_le pos.2.le
      obtain ⟨-, t, L1, ht, hL1, hw1, hLe, hax, hv⟩ := tv_live hw (by omega) htv (hb _) h1
      subst hax
      have hpix : s.next ∈ (nmexState s w).live := Finset.mem_insert_self _ _
      have hn : n ≤ r * k := by exact_mod_cast lt.le
      have hwf := nmexState_wf hs w
      by_cases hoo : (nmexState s w).oracle (nmexState s w).calls = true ∧ (nmexState s w).oracle ((nmexState s w).calls + 1) = true
      swap
      · obtain ⟨s2, e, -⟩ := mexRun_oom (lib := lib) (junk := junk) hwf hpix ⟨t.n, t.m, t.p, (r * k : ℕ), tvNormW ana av ah, t.kind⟩
          ⟨r, k, ⟨n, b⟩, pidx, opts, av, ah, dm, ana⟩ (by
            rcases not_and_or.1 hoo with h | h
            · exact Or.inl (by simpa using h)
            · exact Or.inr (by simpa using h))
        exact ⟨_, _, e⟩
      · obtain ⟨c1, c2⟩ := mexRun_full (junk := junk) (b := b) (pidx := pidx) (dct_mode := dm) hwf hpix hw1 hL1 ht hn hN hoo.1 hoo.2 (q := (r * k : ℕ))
          (nw := tvNormW ana av ah)
        by_cases hm : t.m = r * k
        · obtain ⟨d1, d2, d3⟩ := c2 hm
          by_cases h10 : ∀ i < 10, (nmexState s w).oracle ((nmexState s w).calls + 2 + i) = true
          · have h11 := hwin fun i hi => by
              rcases Nat.lt_or_ge i 3 with h | h
              · interval_cases i
                · exact ho
                · exact hoo.1
                · exact hoo.2
              · have := h10 (i - 3) (by omega)
                have e : s.calls + 1 + 2 + (i - 3) = s.calls + i := by omega
                rw [← e]
                exact this
            obtain ⟨b', o, s1, x, s2, -, -, e3, -⟩ := d3 fun i hi => by
              rcases Nat.lt_or_ge i 10 with h | h
              · exact h10 i h
              · have : i = 10 := by omega
                rw [this]; exact h11
            exact ⟨_, _, e3⟩
          · obtain ⟨s2, e, -⟩ := d1 h10
            exact ⟨_, _, e⟩
        · obtain ⟨s2, e, -⟩ := c1 hm
          exact ⟨_, _, e⟩

end mex

/-! ## Python -/

section py
variable {F : Type} [Scalar F] {lib : FftwLib F}

omit [Scalar F] in
theorem pyNestaFail_some {b p x y : Option ℕ} {kind : String} {s s' : NState (PyState F)} {out : PyNestaOut F}
    (h : pyNestaFail b p x y kind s = some (out, s')) :
    out = .exc kind ∧ s' = ⟨eraseO (eraseO s.live x) y, s.next, s.calls, s.oracle, { s.cb with refs := decR (decR s.cb.refs b) p }⟩ := by
  unfold pyNestaFail at h
  obtain ⟨⟨⟩, s1, h1, h⟩ := nbind_some h
  obtain ⟨⟨⟩, s2, h2, h⟩ := nbind_some h
  obtain ⟨⟨⟩, s3, h3, h⟩ := nbind_some h
  obtain ⟨⟨⟩, s4, h4, h⟩ := nbind_some h
  obtain ⟨rfl, rfl⟩ := npure_some h
  obtain ⟨t, e1, e2⟩ := pyC_some h1
  have e3 := nfree_inv e1
  subst e3
  subst e2
  obtain ⟨t, e1, e2⟩ := pyC_some h2
  have e3 := nfree_inv e1
  subst e3
  subst e2
  have e := pyDec_some h3
  subst e
  exact ⟨rfl, pyDec_some h4⟩

/-- the library side of a Python state -/
def pyLib (s : NState (PyState F)) : NState (World F) := ⟨s.live, s.next, s.calls, s.oracle, s.cb.w⟩

/-- how every defined call from Python ends, once a transform set is live -/
theorem pyn_run_inv {a : PyNestaArgs F} {mtot n : Int} {bo po x b : ℕ} {bd : Arr F} {ax : AxFuns F} {s s' : NState (PyState F)} {out : PyNestaOut F}
    (h : py_nesta_run lib a mtot n bo po x b bd ax s = some (out, s')) :
    ∃ st xk s1, nestaArr lib ax mtot ⟨mtot.toNat, fun _ => lit 0⟩ n bd a.opts (pyLib s) = some ((st, xk), s1) ∧ s'.cb.w = s1.cb ∧
      (s'.live = (s1.live.erase x).erase b ∨ s'.live = (s1.live.erase b).erase x) ∧
      ((out = .exc "MemoryError" ∧
        (s'.cb.refs = decR (decR s.cb.refs (some bo)) (some po) ∨
         s'.cb.refs = decR (decR (Function.update s.cb.refs s.cb.next 1) (some bo)) (some po))) ∨
       (out = .ret (s.cb.next + 1) s.cb.next a.mrow a.mcol xk st ∧
        ∃ r, r = Function.update (decR (decR (Function.update s.cb.refs s.cb.next 1) (some bo)) (some po)) (s.cb.next + 1) 1 ∧
          s'.cb.refs = Function.update r s.cb.next (r s.cb.next + 1))) := by
  unfold py_nesta_run at h
  obtain ⟨⟨st, xk⟩, s2, h1, h⟩ := nbind_some h
  obtain ⟨s1, e1, rfl⟩ := pyC_some h1
  refine ⟨st, xk, s1, e1, ?_⟩
  obtain ⟨xo, s3, h2, h⟩ := nbind_some h
  rcases pyNew_some h2 with ⟨rfl, rfl⟩ | ⟨rfl, rfl⟩
  · obtain ⟨rfl, rfl⟩ := pyNestaFail_some h
    exact ⟨rfl, Or.inl rfl, Or.inl ⟨rfl, Or.inl rfl⟩⟩
  dsimp only at h
  obtain ⟨⟨⟩, s4, h3, h⟩ := nbind_some h
  have e := pyDec_some h3
  subst e
  obtain ⟨⟨⟩, s5, h4, h⟩ := nbind_some h
  have e := pyDec_some h4
  subst e
  obtain ⟨⟨⟩, s6, h5, h⟩ := nbind_some h
  obtain ⟨t, e2, rfl⟩ := pyC_some h5
  have e := nfree_inv e2
  subst e
  obtain ⟨⟨⟩, s7, h6, h⟩ := nbind_some h
  obtain ⟨t, e2, rfl⟩ := pyC_some h6
  have e := nfree_inv e2
  subst e
  obtain ⟨tu, s8, h7, h⟩ := nbind_some h
  rcases pyNew_some h7 with ⟨rfl, rfl⟩ | ⟨rfl, rfl⟩
  · obtain ⟨rfl, rfl⟩ := npure_some h
    exact ⟨rfl, Or.inr rfl, Or.inl ⟨rfl, Or.inr rfl⟩⟩
  · cases h
    exact ⟨rfl, Or.inr rfl, Or.inr ⟨rfl, _, rfl, rfl⟩⟩

/-- how every defined call from Python ends, after the conversion of the arrays -/
theorem pyn_main_inv {a : PyNestaArgs F} {bo po : ℕ} {b : NpArr F} {p : NpArr Int} {s s' : NState (PyState F)} {out : PyNestaOut F}
    (h : py_nesta_main lib a bo po b p s = some (out, s')) (hs : s.WF) :
    (∃ kind, out = .exc kind ∧ s'.live = s.live ∧ s'.cb.w = s.cb.w ∧ s'.cb.refs = decR (decR s.cb.refs (some bo)) (some po)) ∨
    (b.ndim = 1 ∧ p.ndim = 1 ∧ FitsInt (a.mrow * a.mcol) ∧ toCInt b.dim0 ≤ a.mrow * a.mcol ∧ toCInt b.dim0 = toCInt p.dim0 ∧ 0 ≤ toCInt b.dim0 ∧
     s.oracle s.calls = true ∧ s.oracle (s.calls + 1) = true ∧ ∃ bd, slice (toCInt b.dim0).toNat 0 b.data = some bd ∧
     ((∃ st, l1c_setup_dctTV_transforms (toCInt b.dim0) a.mrow a.mcol a.alpha_v a.alpha_h a.dct_mode (decide (a.bp_mode = BP_ANALYSIS))
          ((List.ofFn p.data).take (toCInt b.dim0).toNat) s.cb.w = some ((st, none), s'.cb.w) ∧
        out = .exc "RuntimeError" ∧ s'.live = s.live ∧ s'.cb.refs = decR (decR s.cb.refs (some bo)) (some po)) ∨
      ∃ st0 ax w st xk s1, l1c_setup_dctTV_transforms (toCInt b.dim0) a.mrow a.mcol a.alpha_v a.alpha_h a.dct_mode (decide (a.bp_mode = BP_ANALYSIS))
          ((List.ofFn p.data).take (toCInt b.dim0).toNat) s.cb.w = some ((st0, some ax), w) ∧
        nestaArr lib ax (a.mrow * a.mcol) ⟨(a.mrow * a.mcol).toNat, fun _ => lit 0⟩ (toCInt b.dim0) ⟨(toCInt b.dim0).toNat, bd⟩ a.opts
          { mexCallState (pyLib s) with cb := w } = some ((st, xk), s1) ∧
        s'.cb.w = s1.cb ∧ (s1.live = (mexCallState (pyLib s)).live → s'.live = s.live) ∧
        ((out = .exc "MemoryError" ∧
          (s'.cb.refs = decR (decR s.cb.refs (some bo)) (some po) ∨
           s'.cb.refs = decR (decR (Function.update s.cb.refs s.cb.next 1) (some bo)) (some po))) ∨
         (out = .ret (s.cb.next + 1) s.cb.next a.mrow a.mcol xk st ∧
          ∃ r, r = Function.update (decR (decR (Function.update s.cb.refs s.cb.next 1) (some bo)) (some po)) (s.cb.next + 1) 1 ∧
            s'.cb.refs = Function.update r s.cb.next (r s.cb.next + 1))))) := by
  have n0 : s.next ∉ s.live := fun hc => absurd (hs _ hc) (lt_irrefl _)
  have n1 : s.next + 1 ∉ s.live := fun hc => absurd (hs _ hc) (by omega)
  have er1 : ((insert (s.next + 1) (insert s.next s.live)).erase (s.next + 1)).erase s.next = s.live := erase_two n0 n1 (by omega)
  have er2 : ((insert (s.next + 1) (insert s.next s.live)).erase s.next).erase (s.next + 1) = s.live := by rw [Finset.erase_right_comm]; exact er1
  have er0 : (insert s.next s.live).erase s.next = s.live := Finset.erase_insert n0
  unfold py_nesta_main at h
  split at h
  · obtain ⟨rfl, rfl⟩ := pyNestaFail_some h
    exact Or.inl ⟨_, rfl, rfl, rfl, rfl⟩
  rename_i hd
  obtain ⟨mtot, s1, h1, h⟩ := nbind_some h
  obtain ⟨t, h2, rfl⟩ := pyC_some h1
  obtain ⟨c, h3, rfl⟩ := nrun_some h2
  unfold wmul at h3
  split at h3
  swap
  · cases h3
  rename_i hf
  cases h3
  dsimp only at h
  split at h
  · obtain ⟨rfl, rfl⟩ := pyNestaFail_some h
    exact Or.inl ⟨_, rfl, rfl, rfl, rfl⟩
  rename_i hn
  by_cases hm : a.mrow * a.mcol < 0
  · rw [if_pos hm, nbind (npure _ _), if_pos (by omega), nbind (npure _ _)] at h
    obtain ⟨rfl, rfl⟩ := pyNestaFail_some h
    exact Or.inl ⟨_, rfl, rfl, rfl, rfl⟩
  rw [if_neg hm] at h
  obtain ⟨xo, s2, h4, h⟩ := nbind_some h
  obtain ⟨t, h5, rfl⟩ := pyC_some h4
  dsimp only at h5
  by_cases hn0 : toCInt b.dim0 < 0
  · rw [if_pos hn0, nbind (npure _ _)] at h
    cases ho : s.oracle s.calls with
    | false =>
      rw [nalloc_fail (s := ⟨s.live, s.next, s.calls, s.oracle, s.cb.w⟩) ho] at h5
      cases h5
      obtain ⟨rfl, rfl⟩ := pyNestaFail_some h
      exact Or.inl ⟨_, rfl, rfl, rfl, rfl⟩
    | true =>
      rw [nalloc_ok (s := ⟨s.live, s.next, s.calls, s.oracle, s.cb.w⟩) ho] at h5
      cases h5
      obtain ⟨rfl, rfl⟩ := pyNestaFail_some h
      exact Or.inl ⟨_, rfl, er0, rfl, rfl⟩
  rw [if_neg hn0] at h
  obtain ⟨yo, s3, h6, h⟩ := nbind_some h
  obtain ⟨t', h7, rfl⟩ := pyC_some h6
  dsimp only at h7
  cases ho : s.oracle s.calls with
  | false =>
    rw [nalloc_fail (s := ⟨s.live, s.next, s.calls, s.oracle, s.cb.w⟩) ho] at h5
    cases h5
    dsimp only at h7
    cases ho1 : s.oracle (s.calls + 1) with
    | false =>
      rw [nalloc_fail (s := ⟨s.live, s.next, s.calls + 1, s.oracle, s.cb.w⟩) ho1] at h7
      cases h7
      obtain ⟨rfl, rfl⟩ := pyNestaFail_some h
      exact Or.inl ⟨_, rfl, rfl, rfl, rfl⟩
    | true =>
      rw [nalloc_ok (s := ⟨s.live, s.next, s.calls + 1, s.oracle, s.cb.w⟩) ho1] at h7
      cases h7
      obtain ⟨rfl, rfl⟩ := pyNestaFail_some h
      exact Or.inl ⟨_, rfl, er0, rfl, rfl⟩
  | true =>
    rw [nalloc_ok (s := ⟨s.live, s.next, s.calls, s.oracle, s.cb.w⟩) ho] at h5
    cases h5
    dsimp only at h7
    cases ho1 : s.oracle (s.calls + 1) with
    | false =>
      rw [nalloc_fail (s := ⟨insert s.next s.live, s.next + 1, s.calls + 1, s.oracle, s.cb.w⟩) ho1] at h7
      cases h7
      obtain ⟨rfl, rfl⟩ := pyNestaFail_some h
      exact Or.inl ⟨_, rfl, er0, rfl, rfl⟩
    | true =>
      rw [nalloc_ok (s := ⟨insert s.next s.live, s.next + 1, s.calls + 1, s.oracle, s.cb.w⟩) ho1] at h7
      cases h7
      dsimp only at h
      obtain ⟨bd, s4, h8, h⟩ := nbind_some h
      obtain ⟨hbd, rfl⟩ := nlift_some' h8
      obtain ⟨⟨st, o⟩, s5, h9, h⟩ := nbind_some h
      obtain ⟨t, h10, rfl⟩ := pyC_some h9
      obtain ⟨w, h11, rfl⟩ := nrun_some h10
      refine Or.inr ⟨by omega, by omega, hf, by omega, by omega, by omega, rfl, rfl, bd, hbd, ?_⟩
      cases o with
      | none =>
        obtain ⟨rfl, rfl⟩ := pyNestaFail_some h
        exact Or.inl ⟨st, h11, rfl, er2, rfl⟩
      | some ax =>
        obtain ⟨st', xk, s1, e1, e2, e3, e4⟩ := pyn_run_inv h
        refine Or.inr ⟨st, ax, w, st', xk, s1, h11, e1, e2, fun hl => ?_, e4⟩
        rcases e3 with e3 | e3
        · rw [e3, hl]; exact er2
        · rw [e3, hl]; exact er1

omit [Scalar F] in
theorem refs_two {r : ℕ → ℕ} {n : ℕ} (z0 : r n = 0) (z1 : r (n + 1) = 0) :
    decR (decR (Function.update (Function.update (Function.update r n 1) (n + 1) 1) (n + 1 + 1) 1) (some n)) (some (n + 1)) = Function.update r (n + 1 + 1) 1 := by
  funext k
  simp only [decR, Function.update_apply]
  by_cases h0 : k = n
  · subst h0
    have a1 : k ≠ k + 1 + 1 := by omega
    simp [z0, a1]
  by_cases h1 : k = n + 1
  · subst h1; simp [z1]
  simp [h0, h1]

/-- how every defined call from Python ends -/
theorem pyn_inv {a : PyNestaArgs F} {s s' : NState (PyState F)} {out : PyNestaOut F} (hs : s.WF) (hr : s.cb.WF)
    (h : py_nesta_dctTV lib a s = some (out, s')) :
    (∃ kind, out = .exc kind ∧ s'.live = s.live ∧ s'.cb.w = s.cb.w ∧ s'.cb.refs = s.cb.refs) ∨
    ∃ b p, (a.bp_mode = BP_ANALYSIS ∨ a.bp_mode = BP_SYNTHESIS) ∧ (a.dct_mode = DCT1 ∨ a.dct_mode = DCT2) ∧ a.b = some b ∧ a.pix_idx = some p ∧
     b.ndim = 1 ∧ p.ndim = 1 ∧ FitsInt (a.mrow * a.mcol) ∧ toCInt b.dim0 ≤ a.mrow * a.mcol ∧ toCInt b.dim0 = toCInt p.dim0 ∧ 0 ≤ toCInt b.dim0 ∧
     s.oracle s.calls = true ∧ s.oracle (s.calls + 1) = true ∧ ∃ bd, slice (toCInt b.dim0).toNat 0 b.data = some bd ∧
     ((∃ st, l1c_setup_dctTV_transforms (toCInt b.dim0) a.mrow a.mcol a.alpha_v a.alpha_h a.dct_mode (decide (a.bp_mode = BP_ANALYSIS))
          ((List.ofFn p.data).take (toCInt b.dim0).toNat) s.cb.w = some ((st, none), s'.cb.w) ∧
        out = .exc "RuntimeError" ∧ s'.live = s.live ∧ s'.cb.refs = s.cb.refs) ∨
      ∃ st0 ax w st xk s1, l1c_setup_dctTV_transforms (toCInt b.dim0) a.mrow a.mcol a.alpha_v a.alpha_h a.dct_mode (decide (a.bp_mode = BP_ANALYSIS))
          ((List.ofFn p.data).take (toCInt b.dim0).toNat) s.cb.w = some ((st0, some ax), w) ∧
        nestaArr lib ax (a.mrow * a.mcol) ⟨(a.mrow * a.mcol).toNat, fun _ => lit 0⟩ (toCInt b.dim0) ⟨(toCInt b.dim0).toNat, bd⟩ a.opts
          { mexCallState (pyLib s) with cb := w } = some ((st, xk), s1) ∧
        s'.cb.w = s1.cb ∧ (s1.live = (mexCallState (pyLib s)).live → s'.live = s.live) ∧
        ((out = .exc "MemoryError" ∧ (s'.cb.refs = s.cb.refs ∨ ∃ x, s.cb.next ≤ x ∧ s'.cb.refs = Function.update s.cb.refs x 1)) ∨
         ∃ tu x, tu ≠ x ∧ s.cb.next ≤ tu ∧ s.cb.next ≤ x ∧ out = .ret tu x a.mrow a.mcol xk st ∧
          s'.cb.refs = Function.update (Function.update s.cb.refs x 2) tu 1)) := by
  unfold py_nesta_dctTV at h
  split at h
  · obtain ⟨rfl, rfl⟩ := npure_some h
    exact Or.inl ⟨_, rfl, rfl, rfl, rfl⟩
  rename_i hbp
  split at h
  · obtain ⟨rfl, rfl⟩ := npure_some h
    exact Or.inl ⟨_, rfl, rfl, rfl, rfl⟩
  rename_i hdm
  have hbp : a.bp_mode = BP_ANALYSIS ∨ a.bp_mode = BP_SYNTHESIS := by
    by_contra hc; exact hbp (not_or.1 hc)
  have hdm : a.dct_mode = DCT1 ∨ a.dct_mode = DCT2 := by
    by_contra hc; exact hdm (not_or.1 hc)
  obtain ⟨bA, s1, h1, h⟩ := nbind_some h
  obtain ⟨pA, s2, h2, h⟩ := nbind_some h
  rcases pyFrom_some h1 with ⟨rfl, c1, rfl⟩ | ⟨b, hb, rfl, rfl⟩
  · rcases pyFrom_some h2 with ⟨rfl, c2, rfl⟩ | ⟨p, hp, rfl, rfl⟩
    · obtain ⟨rfl, rfl⟩ := pyNestaFail_some h
      exact Or.inl ⟨_, rfl, rfl, rfl, rfl⟩
    · obtain ⟨rfl, rfl⟩ := pyNestaFail_some h
      exact Or.inl ⟨_, rfl, rfl, rfl, decR_new (hr _ (le_refl _))⟩
  rcases pyFrom_some h2 with ⟨rfl, c2, rfl⟩ | ⟨p, hp, rfl, rfl⟩
  · obtain ⟨rfl, rfl⟩ := pyNestaFail_some h
    exact Or.inl ⟨_, rfl, rfl, rfl, decR_new (hr _ (le_refl _))⟩
  have z0 : s.cb.refs s.cb.next = 0 := hr _ (le_refl _)
  have z1 : s.cb.refs (s.cb.next + 1) = 0 := hr _ (by omega)
  have e2 := decR_new2 z0 z1 (by omega)
  have e3 := refs_two z0 z1
  rcases pyn_main_inv h hs with ⟨kind, rfl, k1, k2, k3⟩ | ⟨k1, k2, k3, k4, k5, k6, k7, k8, bd, k9, k10⟩
  · exact Or.inl ⟨kind, rfl, k1, k2, k3.trans e2⟩
  refine Or.inr ⟨b, p, hbp, hdm, hb, hp, k1, k2, k3, k4, k5, k6, k7, k8, bd, k9, ?_⟩
  rcases k10 with ⟨st, g1, g2, g3, g4⟩ | ⟨st0, ax, w, st, xk, s3, g1, g2, g3, g4, g5⟩
  · exact Or.inl ⟨st, g1, g2, g3, g4.trans e2⟩
  refine Or.inr ⟨st0, ax, w, st, xk, s3, g1, g2, g3, g4, ?_⟩
  rcases g5 with ⟨g5, g6 | g6⟩ | ⟨g5, r, rfl, g6⟩
  · exact Or.inl ⟨g5, Or.inl (g6.trans e2)⟩
  · exact Or.inl ⟨g5, Or.inr ⟨_, by omega, g6.trans e3⟩⟩
  · refine Or.inr ⟨_, _, ?_, ?_, ?_, g5, ?_⟩
    · show s.cb.next + 1 + 1 + 1 ≠ s.cb.next + 1 + 1; omega
    · show s.cb.next ≤ s.cb.next + 1 + 1 + 1; omega
    · show s.cb.next ≤ s.cb.next + 1 + 1; omega
    · rw [g6]
      show Function.update (Function.update (decR (decR (Function.update (Function.update (Function.update s.cb.refs s.cb.next 1) (s.cb.next + 1) 1)
        (s.cb.next + 1 + 1) 1) (some s.cb.next)) (some (s.cb.next + 1))) (s.cb.next + 1 + 1 + 1) 1) (s.cb.next + 1 + 1) _ = _
      rw [e3]
      funext k
      simp only [Function.update_apply]
      by_cases h0 : k = s.cb.next + 1 + 1
      · subst h0; simp
      · simp [h0]

/-- NESTA as the Python function calls it -/
theorem nestaArr_live {L : Sets F} {t : SetTv F} {s s1 : NState (World F)} {M : ℕ} {bd : Vec F t.n} {opts : NestaOpts F} {nw : F} {q st : Int} {xk : Arr F}
    (hs : s.WF) (hw : Hist lib s.cb L) (ht : L.tv = some t) (hn : t.n ≤ t.mrow * t.mcol) (hN : opts.n_continue < INT_MAX)
    (h : nestaArr lib ⟨t.n, t.m, t.p, q, nw, t.kind⟩ M ⟨M, fun _ => lit 0⟩ t.n ⟨t.n, bd⟩ opts s = some ((st, xk), s1)) :
    s1.live = s.live ∧ Hist lib s1.cb L ∧
    ((t.m ≠ M ∧ st = L1C_INVALID_ARGUMENT ∧ xk = ⟨M, fun _ => lit 0⟩) ∨
     (t.m = M ∧ st = L1C_OUT_OF_MEMORY ∧ xk = ⟨M, fun _ => lit 0⟩) ∨
     (t.m = M ∧ st = 0 ∧ ∃ out, l1c_nesta t.m t.n (fun _ => lit 0) bd (setNAx lib t.kind t.n t.m t.p nw) opts s = some (out, s1) ∧
      (∀ i < 11, s.oracle (s.calls + i) = true) ∧ xk = ⟨t.m, out.xk⟩)) := by
  by_cases hm : t.m = M
  · subst hm
    obtain ⟨c1, c2, c3⟩ := nesta_live hs hw ht hn hN nw (fun _ => lit 0) bd
    rw [nestaArr_eq] at h
    by_cases h10 : ∀ i < 10, s.oracle (s.calls + i) = true
    · cases h11 : s.oracle (s.calls + 10) with
      | false => rw [c2 h10 h11] at h; cases h
      | true =>
        have hall : ∀ i < 11, s.oracle (s.calls + i) = true := fun i hi => by
          rcases Nat.lt_or_ge i 10 with h | h
          · exact h10 i h
          · have : i = 10 := by omega
            rw [this]; exact h11
        obtain ⟨out, s2, e, e1, e2, e3⟩ := c3 hall
        rw [e] at h
        cases h
        exact ⟨e2, e3, Or.inr (Or.inr ⟨rfl, e1, out, e, hall, rfl⟩)⟩
    · obtain ⟨s2, e, e1, e2⟩ := c1 h10
      rw [e] at h
      cases h
      exact ⟨e1, e2 ▸ hw, Or.inr (Or.inl ⟨rfl, rfl, rfl⟩)⟩
  · rw [nestaArr_invalid (Or.inr (by exact_mod_cast Ne.symm hm))] at h
    cases h
    exact ⟨rfl, hw, Or.inl ⟨hm, rfl, rfl⟩⟩

omit [Scalar F] in
theorem pyC_ok {α : Type} {x : NM (World F) α} {a : α} {l1 l2 : Finset ℕ} {n1 n2 c1 c2 nx cl : ℕ} {o1 o2 orc : ℕ → Bool} {w1 w2 : World F} {refs : ℕ → ℕ}
    (h : x ⟨l1, n1, c1, o1, w1⟩ = some (a, ⟨l2, n2, c2, o2, w2⟩)) :
    pyC x ⟨l1, n1, c1, o1, ⟨w1, refs, nx, cl, orc⟩⟩ = some (a, ⟨l2, n2, c2, o2, ⟨w2, refs, nx, cl, orc⟩⟩) := by
  show (x ⟨l1, n1, c1, o1, w1⟩).map _ = _
  rw [h]; rfl

omit [Scalar F] in
theorem pyNew_ok {s : NState (PyState F)} (h : s.cb.oracle s.cb.calls = true) :
    pyNew s = some (some s.cb.next, { s with cb := { s.cb with refs := Function.update s.cb.refs s.cb.next 1, next := s.cb.next + 1, calls := s.cb.calls + 1 } }) := by
  unfold pyNew; rw [if_pos h]

omit [Scalar F] in
theorem pyFrom_ok {α : Type} {v : α} {s : NState (PyState F)} (h : s.cb.oracle s.cb.calls = true) :
    pyFromOTF (some v) s = some (some (s.cb.next, v),
      { s with cb := { s.cb with refs := Function.update s.cb.refs s.cb.next 1, next := s.cb.next + 1, calls := s.cb.calls + 1 } }) := by
  unfold pyFromOTF
  dsimp only
  rw [nbind (pyNew_ok h)]
  rfl

omit [Scalar F] in
theorem pyDec_ok {o : ℕ} {s : NState (PyState F)} (h : s.cb.refs o ≠ 0) :
    pyDec (some o) s = some ((), { s with cb := { s.cb with refs := decR s.cb.refs (some o) } }) := by
  unfold pyDec; dsimp only; rw [if_neg h]; rfl

/-- a call from Python with good arguments and enough memory -/
theorem pyn_eval {a : PyNestaArgs F} {s : NState (PyState F)} {n : ℕ} {b : Vec F n} {pix : Vec Int n} (hb : a.b = some ⟨1, n, b⟩) (hp : a.pix_idx = some ⟨1, n, pix⟩)
    (hbp : a.bp_mode = BP_ANALYSIS ∨ a.bp_mode = BP_SYNTHESIS) (hdm : a.dct_mode = DCT1 ∨ a.dct_mode = DCT2)
    (hf : FitsInt (a.mrow * a.mcol)) (hn : (n : Int) ≤ a.mrow * a.mcol) (hpy : ∀ i < 4, s.cb.oracle (s.cb.calls + i) = true)
    (h0 : s.oracle s.calls = true) (h1 : s.oracle (s.calls + 1) = true) {st0 : Int} {ax : AxFuns F} {w : World F}
    (hsu : l1c_setup_dctTV_transforms n a.mrow a.mcol a.alpha_v a.alpha_h a.dct_mode (decide (a.bp_mode = BP_ANALYSIS)) (List.ofFn pix) s.cb.w =
      some ((st0, some ax), w)) {st : Int} {xk : Arr F} {s1 : NState (World F)}
    (hne : nestaArr lib ax (a.mrow * a.mcol) ⟨(a.mrow * a.mcol).toNat, fun _ => lit 0⟩ n ⟨n, b⟩ a.opts { mexCallState (pyLib s) with cb := w } = some ((st, xk), s1))
    (hl : s1.live = (mexCallState (pyLib s)).live) :
    ∃ tu x s', py_nesta_dctTV lib a s = some (.ret tu x a.mrow a.mcol xk st, s') ∧ s'.cb.w = s1.cb := by
  have hsm : toCInt (n : Int) = n := by
    unfold FitsInt INT_MAX at hf
    unfold toCInt; omega
  have m1 : s.next + 1 ∈ s1.live := by rw [hl]; exact Finset.mem_insert_self _ _
  have m0 : s.next ∈ s1.live.erase (s.next + 1) := by
    rw [hl]; exact Finset.mem_erase.2 ⟨by omega, Finset.mem_insert_of_mem (Finset.mem_insert_self _ _)⟩
  obtain ⟨live, next, calls, oracle, w0, refs, nx, cl, orc⟩ := s
  obtain ⟨live1, next1, calls1, oracle1, w1⟩ := s1
  dsimp only at *
  clear hl
  unfold py_nesta_dctTV
  rw [if_neg (not_and_or.2 (hbp.imp not_not.2 not_not.2)), if_neg (not_and_or.2 (hdm.imp not_not.2 not_not.2)), hb, hp]
  rw [nbind (pyFrom_ok (hpy 0 (by omega))), nbind (pyFrom_ok (hpy 1 (by omega)))]
  dsimp only
  unfold py_nesta_main
  rw [if_neg (by simp), nbind (pyC_ok (nrun_eq (show wmul (F := F) a.mrow a.mcol _ = some (a.mrow * a.mcol, _) from by unfold wmul; rw [if_pos hf]))), hsm]
  dsimp only
  rw [if_neg (by omega), if_neg (by omega), nbind (pyC_ok (nalloc_ok (s := ⟨live, next, calls, oracle, w0⟩) h0)), if_neg (by omega),
    nbind (pyC_ok (nalloc_ok (s := ⟨insert next live, next + 1, calls + 1, oracle, w0⟩) h1))]
  dsimp only
  rw [show slice (n : Int).toNat 0 b = some b from slice_full b, nbind (nlift_some rfl _), List.take_of_length_le (by rw [List.length_ofFn]; simp),
    nbind (pyC_ok (nrun_eq (s := ⟨insert (next + 1) (insert next live), next + 1 + 1, calls + 1 + 1, oracle, w0⟩) hsu))]
  dsimp only
  unfold py_nesta_run
  have hne : nestaArr lib ax (a.mrow * a.mcol) ⟨(a.mrow * a.mcol).toNat, fun _ => lit 0⟩ n ⟨(n : Int).toNat, b⟩ a.opts
    ⟨insert (next + 1) (insert next live), next + 1 + 1, calls + 1 + 1, oracle, w⟩ = some ((st, xk), ⟨live1, next1, calls1, oracle1, w1⟩) := hne
  rw [nbind (pyC_ok hne), nbind (pyNew_ok (hpy 2 (by omega)))]
  dsimp only
  rw [nbind (pyDec_ok (by simp [Function.update_apply])), nbind (pyDec_ok (by simp [decR, Function.update_apply]))]
  dsimp only
  rw [nbind (pyC_ok (nfree_some (s := ⟨live1, next1, calls1, oracle1, w1⟩) m1)),
    nbind (pyC_ok (nfree_some (s := ⟨live1.erase (next + 1), next1, calls1, oracle1, w1⟩) m0)), nbind (pyNew_ok (hpy 3 (by omega)))]
  exact ⟨_, _, _, rfl, rfl⟩

end py
end L1c
