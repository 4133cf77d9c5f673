import Verif.Spec.Session
import Verif.Proofs.Frame
import Verif.Props.EndToEnd
import Verif.Props.NestaEnd
import Verif.Props.NestaSyn
import Mathlib.Algebra.BigOperators.Group.Finset.Basic

/-!
# C81: whole sessions
-/

namespace L1c
open Scalar

section any
variable {F : Type} [Scalar F] {lib : FftwLib F} {w : World F} {L : Sets F}

/-- nothing is in use -/
def Sets.Quiet (L : Sets F) : Prop := L.d1 = none ∧ L.d2 = none ∧ L.tv = none ∧ L.mat = none

omit [Scalar F] in
theorem Sets.Quiet.free (h : L.Quiet) (two : Bool) : ¬ L.busy two := by
  rintro (hb | ⟨t, ht, -⟩)
  · cases two
    · rw [if_neg (by simp), h.1] at hb; cases hb
    · rw [if_pos rfl, h.2.1] at hb; cases hb
  · rw [h.2.2.1] at ht; cases ht

omit [Scalar F] in
theorem Sets.Quiet.note (h : L.Quiet) (two : Bool) (st : Int) : (L.note1 two st).Quiet := h

theorem toCInt_le {n : ℕ} (h : 0 ≤ toCInt n) : (toCInt n).toNat ≤ n := by
  unfold toCInt at *; omega

/-- a run of the recovery routine, whatever its arguments -/
theorem dct_quiet {mrow mcol n : Int} {x_out b : Arr F} {idx : List Int} {mode : Int} {opts : QOpts F} {s s' : NState (World F)} {out : DctOut F}
    (hs : s.WF) (hw : Hist lib s.cb L) (hL : L.Quiet) (hl : idx.length = n.toNat)
    (hf : FitsInt (mrow * mcol)) (h : l1qc_dct lib mrow mcol x_out n b idx mode opts s = some (out, s')) : ∃ L', Hist lib s'.cb L' ∧ L'.Quiet := by
  by_cases hv : ValidDct n mrow mcol idx
  · obtain ⟨n, rfl⟩ := Int.eq_ofNat_of_zero_le hv.1.le
    obtain ⟨mrow, rfl⟩ := Int.eq_ofNat_of_zero_le hv.2.1.le
    obtain ⟨mcol, rfl⟩ := Int.eq_ofNat_of_zero_le hv.2.2.1.le
    obtain ⟨-, ⟨st, h1⟩, -⟩ := C53_released_partial hs hw hl (hL.free _) h
    exact ⟨_, h1, hL.note _ _⟩
  · rw [C53_rejects_partial hf hv] at h
    cases h
    exact ⟨L, hw, hL⟩

/-- a failed setup of a DCT-TV set -/
theorem tv_fail_quiet {n mrow mcol : Int} {av ah : F} {dm : Int} {ana : Bool} {idx : List Int} {st : Int} {w' : World F} (hw : Hist lib w L) (hL : L.Quiet)
    (hl : idx.length = n.toNat) (h : l1c_setup_dctTV_transforms n mrow mcol av ah dm ana idx w = some ((st, none), w')) :
    ∃ L', Hist lib w' L' ∧ L'.Quiet := by
  have := Hist.tv n mrow mcol av ah dm ana idx hw hl hL.2.2.1 (hL.free _) h
  have hst : ¬ st = L1C_SUCCESS := by rcases tv_setup_status h with rfl | rfl | rfl <;> decide
  rw [if_neg hst] at this
  exact ⟨_, this, hL.note _ _⟩

/-- a set left alive is forgotten -/
theorem forget_quiet {t : SetTv F} {two : Bool} {st : Int} (hw : Hist lib w (({ L with tv := some t }).note1 two st)) (hL : L.Quiet) : ∃ L', Hist lib w L' ∧ L'.Quiet := by
  refine ⟨_, Hist.forget t.kind hw (Sets.has_tv rfl), ?_⟩
  unfold SetTv.kind
  cases t.syn <;> exact ⟨hL.1, hL.2.1, rfl, hL.2.2.2⟩

/-- NESTA as Python calls it, after a setup that succeeded -/
theorem nesta_quiet {n mrow mcol : Int} {av ah : F} {dm : Int} {ana : Bool} {idx : List Int} {st0 st : Int} {ax : AxFuns F} {w' : World F} {s s1 : NState (World F)}
    {bd : Vec F n.toNat} {xk : Arr F} {opts : NestaOpts F} (hw : Hist lib w L) (hL : L.Quiet) (hl : idx.length = n.toNat) (hn : 0 ≤ n) (hle : n ≤ mrow * mcol)
    (hN : opts.n_continue < INT_MAX) (g1 : l1c_setup_dctTV_transforms n mrow mcol av ah dm ana idx w = some ((st0, some ax), w')) (hs : NState.WF { s with cb := w' })
    (g2 : nestaArr lib ax (mrow * mcol) ⟨(mrow * mcol).toNat, fun _ => lit 0⟩ n ⟨n.toNat, bd⟩ opts { s with cb := w' } = some ((st, xk), s1)) :
    ∃ L', Hist lib s1.cb L' ∧ L'.Quiet := by
  have hv := C28_accepts_only_valid g1 (C26_reported_sizes g1 rfl).1
  obtain ⟨n, rfl⟩ := Int.eq_ofNat_of_zero_le hn
  obtain ⟨r, rfl⟩ := Int.eq_ofNat_of_zero_le hv.1.2.1.le
  obtain ⟨k, rfl⟩ := Int.eq_ofNat_of_zero_le hv.1.2.2.1.le
  obtain ⟨-, t, L1, ht, hL1, hw1, hLe, hax, -⟩ := tv_live hw hl hL.2.2.1 (hL.free _) g1
  subst hax
  have htn : n = t.n := by subst ht; rfl
  have hrk : t.mrow * t.mcol = r * k := by subst ht; rfl
  obtain ⟨-, e2, -⟩ := nestaArr_live (t := t) (M := r * k) (bd := fun i => bd ⟨i, by rw [Int.toNat_natCast, htn]; exact i.2⟩) hs hw1 hL1 (by rw [hrk, ← htn]; exact_mod_cast hle) hN (by
    subst ht
    exact g2)
  exact forget_quiet (hLe ▸ e2) hL

/-- one call -/
theorem call_quiet {w' : World F} {v : ℕ} (hw : Hist lib w L) (hL : L.Quiet) (hc : Call lib w v w') : ∃ L, Hist lib w' L ∧ L.Quiet := by
  cases hc with
  | @py_l1qc s s' out args kw hs hr hk h =>
    by_cases hg : ∃ a, PyL1qcGood args kw a
    swap
    · rw [(C76_type_error lib hk s).1 (not_exists.1 hg)] at h
      cases h
      exact ⟨L, hw, hL⟩
    obtain ⟨a, hg⟩ := hg
    rw [(C76_calls lib hk s).1 a hg] at h
    rcases py_inv hr h with ⟨kind, -, -, h1, -⟩ | ⟨b, p, h1, h2, h3, h4, h5, h6, h7, h8, h9, h10, o, s1, h11, h12, -⟩
    · exact ⟨L, h1 ▸ hw, hL⟩
    rw [h12]
    refine dct_quiet (pyCallState_wf hs) (show Hist lib (pyCallState s).cb L from hw) hL ?_ h6 h11
    rw [List.length_take, List.length_ofFn, min_eq_left]
    rw [h8]
    by_cases hc : 0 ≤ toCInt p.dim0
    · exact toCInt_le hc
    · rw [Int.toNat_of_nonpos (by omega)]; omega
  | @py_nesta s s' out args kw hs hr hk hN h =>
    by_cases hg : ∃ a, PyNestaGood args kw a
    swap
    · rw [(C76_type_error lib hk s).2 (not_exists.1 hg)] at h
      cases h
      exact ⟨L, hw, hL⟩
    obtain ⟨a, hg⟩ := hg
    rw [(C76_calls lib hk s).2 a hg] at h
    have hN := hN a hg
    rcases pyn_inv hs hr h with ⟨kind, -, -, h1, -⟩ | ⟨b, p, h1, h2, h3, h4, h5, h6, h7, h8, h9, h10, h11, h12, bd, h13, h14⟩
    · exact ⟨L, h1 ▸ hw, hL⟩
    have hlen : ((List.ofFn p.data).take (toCInt b.dim0).toNat).length = (toCInt b.dim0).toNat := by
      rw [List.length_take, List.length_ofFn, min_eq_left]
      rw [h9] at h10 ⊢
      exact toCInt_le h10
    rcases h14 with ⟨st, g1, -⟩ | ⟨st0, ax, w, st, xk, s1, g1, g2, g3, -⟩
    · exact tv_fail_quiet hw hL hlen g1
    rw [g3]
    exact nesta_quiet hw hL hlen h10 h8 hN g1 (fun c hc => mexCallState_wf (s := pyLib s) hs c hc) g2
  | @mex_l1qc s s' out junk nlhs prhs hs h =>
    rcases mex_inv hs h with ⟨id, -, -, h3, -⟩ | ⟨c, idx, o, s1, h1, h2, h3, h4, h5, -⟩
    · exact ⟨L, h3 ▸ hw, hL⟩
    rw [h5]
    have hg := parse_ok h1
    exact dct_quiet (mexCallState_wf hs) (show Hist lib (mexCallState s).cb L from hw) hL (by rw [(mex_valid hg h2).1]; rfl) hg.fits h3
  | @mex_nesta s s' out junk nlhs prhs mode hs hN h =>
    rcases C64_arguments h with ⟨id, -, rfl⟩ | ⟨c, hp, hg, -⟩
    · exact ⟨L, hw, hL⟩
    obtain ⟨-, ⟨-, h1, -⟩ | ⟨-, idx, hi, ⟨st, h1, h2⟩ | ⟨r, k, t, L1, w, e1, e2, ht, hL1, hw1, hv, ⟨-, -, h1⟩ | ⟨-, h1, -⟩⟩⟩⟩ :=
      nmex_inv hs hw hL.2.2.1 hL.free hp (hN c hg) h
    · exact ⟨L, h1 ▸ hw, hL⟩
    · refine tv_fail_quiet hw hL ?_ h1
      rw [oneBased_length hi, List.length_ofFn, ← hg.len]; rfl
    · rw [h1]
      exact forget_quiet (hL1 ▸ hw1) hL
    · obtain ⟨e, he⟩ := drop_tv hL.2.2.1 hL1
      rw [he] at h1
      exact ⟨_, h1, hL⟩

/-- **C81**: after any sequence of calls from Python and Matlab, whatever their arguments and results, the library is in the state that a correct C client with
nothing in use would see; so everything proved for such a client holds for the next call. -/
theorem C81_usable {v : ℕ} (h : Session lib v w) : ∃ L, Hist lib w L ∧ L.Quiet := by
  induction h with
  | start o j => exact ⟨_, Hist.start o j, rfl, rfl, rfl, rfl⟩
  | call _ hc ih =>
    obtain ⟨L, hw, hL⟩ := ih
    exact call_quiet hw hL hc

/-- **C81**, no influence of the past: two calls of the Python function `l1qc_dct` with the same arguments, in any two sessions and with any memory, give the same
image and the same record whenever both return one; any arithmetic. -/
theorem C81_same_l1qc {args : List (PyVal F)} {kw : List (String × PyVal F)} {a : PyL1qcArgs F} {s s' q q' : NState (PyState F)} {v v' : ℕ} (hS : Session lib v s.cb.w) (hQ : Session lib v' q.cb.w)
    (hs : s.WF) (hq : q.WF) (hsr : s.cb.WF) (hqr : q.cb.WF) (hk : (kw.map (·.1)).Nodup) (hg : PyL1qcGood args kw a)
    (hsz : ∀ b, a.b = some b → (b.dim0 : Int) ≤ INT_MAX) (hsz' : ∀ p, a.pix_idx = some p → (p.dim0 : Int) ≤ INT_MAX)
    {t x r t' x' r' : ℕ} {rows cols rows' cols' : Int} {img img' : Arr F} {res res' : LBResult F}
    (h : py_l1qc_call lib args kw s = some (.ret t x r rows cols img res, s')) (h' : py_l1qc_call lib args kw q = some (.ret t' x' r' rows' cols' img' res', q')) :
    rows = rows' ∧ cols = cols' ∧ img = img' ∧ res = res' := by
  obtain ⟨L, hw, hL⟩ := C81_usable hS
  obtain ⟨L', hw', hL'⟩ := C81_usable hQ
  rw [(C76_calls lib hk _).1 a hg] at h h'
  obtain ⟨mr, mc, hp, b, p, im, a1, a2, a3, a4, a5, a6, a7, -, a8, a9⟩ := C61_python hsr hs hw (hL.free _) hsz hsz' h
  obtain ⟨mr', mc', hp', b', p', im', e1, e2, e3, e4, e5, e6, e7, -, e8, e9⟩ := C61_python hqr hq hw' (hL'.free _) hsz hsz' h'
  obtain rfl : mr = mr' := by exact_mod_cast a1.symm.trans e1
  obtain rfl : mc = mc' := by exact_mod_cast a2.symm.trans e2
  obtain rfl : b = b' := Option.some.inj (a3.symm.trans e3)
  obtain rfl : p = p' := Option.some.inj (a4.symm.trans e4)
  rw [a7] at e7
  obtain ⟨rfl, rfl⟩ := Prod.mk.inj (Option.some.inj e7)
  refine ⟨a5.trans e5.symm, a6.trans e6.symm, ?_, rfl⟩
  obtain ⟨k, v⟩ := img
  obtain ⟨k', v'⟩ := img'
  dsimp only at a8 e8
  subst a8 e8
  congr 1
  funext i
  obtain ⟨_, h1⟩ := a9 i
  obtain ⟨_, h2⟩ := e9 i
  exact h1.trans h2.symm

/-! ## What stays behind -/

theorem call_still {w' : World F} {v : ℕ} (hw : w.WF) (hc : Call lib w v w') : Still w w' := by
  cases hc with
  | @py_l1qc s s' out args kw hs hr hk h =>
    by_cases hg : ∃ a, PyL1qcGood args kw a
    swap
    · rw [(C76_type_error lib hk s).1 (not_exists.1 hg)] at h
      cases h
      exact .refl hw
    obtain ⟨a, hg⟩ := hg
    rw [(C76_calls lib hk s).1 a hg] at h
    rcases py_inv hr h with ⟨kind, -, -, h1, -⟩ | ⟨b, p, h1, h2, h3, h4, h5, h6, h7, h8, h9, h10, o, s1, h11, h12, -⟩
    · rw [h1]; exact .refl hw
    rw [h12]
    exact l1qc_still (s := pyCallState s) hw h11
  | @py_nesta s s' out args kw hs hr hk hN h =>
    by_cases hg : ∃ a, PyNestaGood args kw a
    swap
    · rw [(C76_type_error lib hk s).2 (not_exists.1 hg)] at h
      cases h
      exact .refl hw
    obtain ⟨a, hg⟩ := hg
    rw [(C76_calls lib hk s).2 a hg] at h
    rcases pyn_inv hs hr h with ⟨kind, -, -, h1, -⟩ | ⟨b, p, h1, h2, h3, h4, h5, h6, h7, h8, h9, h10, h11, h12, bd, h13, h14⟩
    · rw [h1]; exact .refl hw
    rcases h14 with ⟨st, g1, -⟩ | ⟨st0, ax, w, st, xk, s1, g1, g2, g3, -⟩
    · exact (kept_tv hw (.refl hw) g1).1
    rw [g3]
    exact (nestaArr_same _ _ _ g2).still (kept_tv hw (.refl hw) g1).1
  | @mex_l1qc s s' out junk nlhs prhs hs h =>
    rcases mex_inv hs h with ⟨id, -, -, h3, -⟩ | ⟨c, idx, o, s1, h1, h2, h3, h4, h5, -⟩
    · rw [h3]; exact .refl hw
    rw [h5]
    exact l1qc_still (s := mexCallState s) hw h3
  | @mex_nesta s s' out junk nlhs prhs mode hs hN h => exact nmex_still hw h

/-- **C81**, nothing left behind is ever released: every array the library holds between two calls of a session is still held, with the same size, after the next
call, whatever that call is and however it ends. -/
theorem C81_keeps {w' : World F} {v k : ℕ} (hS : Session lib v w) (hc : Call lib w k w') {b l : ℕ} (hb : Holds w b l) : Holds w' b l := by
  obtain ⟨L, hw, -⟩ := C81_usable hS
  obtain ⟨R, own, hi, -⟩ := hist_inv hw
  exact (call_still hi.wf hc).held b l hb

/-- the arrays of a new DCT-TV set -/
theorem tv_arrays {r k n : ℕ} {av ah : F} {dm : Int} {ana : Bool} {idx : List Int} {st : Int} {ax : AxFuns F} {w' : World F} (hw : Hist lib w L) (hL : L.Quiet)
    (hl : idx.length = n) (h : l1c_setup_dctTV_transforms n r k av ah dm ana idx w = some ((st, some ax), w')) :
    ∃ e u, w.next ≤ e ∧ w.next ≤ u ∧ (u < e ∨ e + 2 < u) ∧ Holds w' e (r * k) ∧ Holds w' (e + 1) (r * k) ∧ Holds w' (e + 2) (r * k) ∧ Holds w' u (tvP (r * k) av ah) := by
  obtain ⟨R0, own0, hi0, -⟩ := hist_inv hw
  obtain ⟨-, hf⟩ := kept_tv hi0.wf (.refl hi0.wf) h
  have hf := hf ax rfl
  obtain ⟨-, t, L1, ht, hL1, hw1, -, hax, -⟩ := tv_live hw hl hL.2.2.1 (hL.free _) h
  obtain ⟨R, own, hi, hR⟩ := hist_inv hw1
  obtain ⟨hm, s, hr, hv, -, -⟩ := hR.tv t hL1
  have hf : ((w'.gt.loc = some .d1 ∧ Fresh1 w w') ∨ (w'.gt.loc = some .d2 ∧ Fresh2 w w')) ∧ Newer w w'.gt.u := by
    rw [hax] at hf
    unfold SetTv.kind at hf
    cases hs : t.syn <;> simp only [hs] at hf <;> exact hf
  obtain ⟨hf, hfu⟩ := hf
  obtain ⟨hu, hr⟩ := hr
  have iu := hi.su
  rw [hu] at iu
  obtain ⟨u, u1, u2, u3⟩ := iu
  have hloc := hv.loc
  have tm : t.mrow = r ∧ t.mcol = k ∧ t.alp_v = av ∧ t.alp_h = ah := by subst ht; exact ⟨rfl, rfl, rfl, rfl⟩
  have hU : Holds w' u (tvP (r * k) av ah) := by
    rw [← tm.1, ← tm.2.1, ← tm.2.2.1, ← tm.2.2.2]; exact ⟨_, u2⟩
  cases h2 : t.two with
  | false =>
    rw [h2, if_neg (by simp)] at hr
    rw [h2, if_neg (by simp)] at hloc
    have i1 := hi.s1
    rw [hr] at i1
    obtain ⟨e, e1, e2, e3, e4, -, -, e5⟩ := i1
    rcases hf with ⟨-, hf, -⟩ | ⟨hc, -⟩
    swap
    · rw [hloc] at hc; cases hc
    refine ⟨e, u, hf e (by rw [e1]), hfu u u1, ?_, ?_, ?_, ?_, hU⟩
    · by_contra hc
      have := (u3 u).2 rfl
      rw [(e5 u).2 ⟨by omega, by omega⟩] at this
      cases this
    all_goals rw [← tm.1, ← tm.2.1]
    exacts [⟨_, e2⟩, ⟨_, e3⟩, ⟨_, e4⟩]
  | true =>
    rw [h2, if_pos rfl] at hr
    rw [h2, if_pos rfl] at hloc
    have i1 := hi.s2
    rw [hr] at i1
    obtain ⟨e, e1, e2, e3, e4, -, -, e5⟩ := i1
    rcases hf with ⟨hc, -⟩ | ⟨-, hf, -⟩
    · rw [hloc] at hc; cases hc
    refine ⟨e, u, hf e (by rw [e1]), hfu u u1, ?_, ?_, ?_, ?_, hU⟩
    · by_contra hc
      have := (u3 u).2 rfl
      rw [(e5 u).2 ⟨by omega, by omega⟩] at this
      cases this
    all_goals rw [← tm.1, ← tm.2.1]
    exacts [⟨_, e2⟩, ⟨_, e3⟩, ⟨_, e4⟩]

/-- **C81**, what one call leaves behind: a call of `nesta_dctTV` from Python that returns an image of `k` pixels leaves four arrays of at least `k` numbers each in the library that were not
there before. -/
theorem C81_leaves {w' : World F} {v k : ℕ} (hS : Session lib v w) (hc : Call lib w k w') (hk : 0 < k) :
    ∃ S : Finset ℕ, S.card = 4 ∧ ∀ b ∈ S, (∀ l, ¬ Holds w b l) ∧ ∃ l, k ≤ l ∧ Holds w' b l := by
  obtain ⟨L, hw, hL⟩ := C81_usable hS
  obtain ⟨R, own, hi, -⟩ := hist_inv hw
  have hwf := hi.wf
  clear hS
  cases hc with
  | py_l1qc => omega
  | mex_l1qc => omega
  | mex_nesta => omega
  | @py_nesta s s' out args kw hs hr hkw hN h =>
    cases out with
    | exc => exact absurd hk (lt_irrefl 0)
    | ret tu x rows cols img st =>
    by_cases hg : ∃ a, PyNestaGood args kw a
    swap
    · rw [(C76_type_error lib hkw s).2 (not_exists.1 hg)] at h
      cases h
    obtain ⟨a, hg⟩ := hg
    rw [(C76_calls lib hkw s).2 a hg] at h
    rcases pyn_inv hs hr h with ⟨kind, h1, -⟩ | ⟨b, p, h1, h2, h3, h4, h5, h6, h7, h8, h9, h10, h11, h12, bd, h13, h14⟩
    · cases h1
    rcases h14 with ⟨st, -, g1, -⟩ | ⟨st0, ax, w1, st', xk, s1, g1, g2, g3, -, ⟨g4, -⟩ | ⟨tu', x', -, -, -, g4, -⟩⟩
    · cases g1
    · cases g4
    have hlen : ((List.ofFn p.data).take (toCInt b.dim0).toNat).length = (toCInt b.dim0).toNat := by
      rw [List.length_take, List.length_ofFn, min_eq_left]
      rw [h9] at h10 ⊢
      exact toCInt_le h10
    have hv := C28_accepts_only_valid g1 (C26_reported_sizes g1 rfl).1
    have hrc : rows = a.mrow ∧ cols = a.mcol := by cases g4; exact ⟨rfl, rfl⟩
    have hpx : (PyNestaOut.ret tu x rows cols img st).pixels = (a.mrow * a.mcol).toNat := by
      rw [PyNestaOut.pixels, hrc.1, hrc.2]
    rw [hpx] at hk ⊢
    obtain ⟨n, en⟩ := Int.eq_ofNat_of_zero_le h10
    obtain ⟨r, er⟩ := Int.eq_ofNat_of_zero_le hv.1.2.1.le
    obtain ⟨k, ek⟩ := Int.eq_ofNat_of_zero_le hv.1.2.2.1.le
    have hrk : (a.mrow * a.mcol).toNat = r * k := by rw [er, ek, ← Nat.cast_mul, Int.toNat_natCast]
    rw [hrk]
    rw [en] at hlen
    rw [en, er, ek] at g1
    obtain ⟨e, u, e1, e2, e3, e4, e5, e6, e7⟩ := tv_arrays hw hL hlen g1
    have hsame := nestaArr_same _ _ _ g2
    rw [g3]
    have hnew : ∀ b, s.cb.w.next ≤ b → ∀ l, ¬ Holds s.cb.w b l := fun b hb l hc => by
      have := holds_lt hwf hc; omega
    refine ⟨{u, e, e + 1, e + 2}, ?_, ?_⟩
    · rw [Finset.card_insert_of_notMem, Finset.card_insert_of_notMem, Finset.card_insert_of_notMem, Finset.card_singleton] <;>
        simp only [Finset.mem_insert, Finset.mem_singleton] <;> omega
    · intro c hc
      simp only [Finset.mem_insert, Finset.mem_singleton] at hc
      rcases hc with rfl | rfl | rfl | rfl
      · refine ⟨hnew _ e2, _, ?_, hsame.held _ _ e7⟩
        unfold tvP
        split <;> split <;> omega
      · exact ⟨hnew _ e1, _, le_rfl, hsame.held _ _ e4⟩
      · exact ⟨hnew _ (by omega), _, le_rfl, hsame.held _ _ e5⟩
      · exact ⟨hnew _ (by omega), _, le_rfl, hsame.held _ _ e6⟩

/-- **C81**, negation of "the memory a session needs is bounded": when `nesta_dctTV` has returned `v` pixels to Python so far, the library holds arrays of at least `4 v` numbers in total,
and it will keep them. -/
theorem C81_memory_false {v : ℕ} (hS : Session lib v w) : ∃ (S : Finset ℕ) (len : ℕ → ℕ), (∀ b ∈ S, Holds w b (len b)) ∧ 4 * v ≤ ∑ b ∈ S, len b := by
  induction hS with
  | start o j => exact ⟨∅, fun _ => 0, by simp, by simp⟩
  | @call v k w w' hS hc ih =>
    obtain ⟨S, len, h1, h2⟩ := ih
    rcases Nat.eq_zero_or_pos k with rfl | hk
    · exact ⟨S, len, fun b hb => C81_keeps hS hc (h1 b hb), h2⟩
    obtain ⟨T, t1, t2⟩ := C81_leaves hS hc hk
    choose! len' t3 using fun b hb => (t2 b hb).2
    classical
    have hd : Disjoint S T := Finset.disjoint_left.2 fun b hb hb' => (t2 b hb').1 _ (h1 b hb)
    refine ⟨S ∪ T, fun b => if b ∈ S then len b else len' b, fun b hb => ?_, ?_⟩
    · by_cases hs : b ∈ S
      · simp only [hs, if_true]; exact C81_keeps hS hc (h1 b hs)
      · simp only [hs, if_false]; exact (t3 b ((Finset.mem_union.1 hb).resolve_left hs)).2
    · have e1 : ∑ b ∈ S, (if b ∈ S then len b else len' b) = ∑ b ∈ S, len b := Finset.sum_congr rfl fun b hb => if_pos hb
      have e2 : ∑ b ∈ T, (if b ∈ S then len b else len' b) = ∑ b ∈ T, len' b := Finset.sum_congr rfl fun b hb => if_neg (Finset.disjoint_right.1 hd hb)
      rw [Finset.sum_union hd, e1, e2]
      have e3 : 4 * k ≤ ∑ b ∈ T, len' b := by
        have := Finset.card_nsmul_le_sum T len' k (fun b hb => (t3 b hb).1)
        rwa [t1, smul_eq_mul] at this
      omega

/-- **C81**: what the requests for memory inside the library will give does not depend on the calls made so far. -/
theorem C81_oracle {w' : World F} {v k : ℕ} (hS : Session lib v w) (hc : Call lib w k w') : w'.oracle = w.oracle := by
  obtain ⟨L, hw, -⟩ := C81_usable hS
  obtain ⟨R, own, hi, -⟩ := hist_inv hw
  exact (call_still hi.wf hc).oracle

end any

section exact
variable {lib : FftwLib Dbl}

/-- **C81**, Python `l1qc_dct` at any point of any session, exact arithmetic: with valid distinct positions, real data that are not all zero, sharp options and enough memory the
call returns an image, and it is nearly the sparsest one that explains the data. -/
theorem C81_l1qc_python {args : List (PyVal Dbl)} {kw : List (String × PyVal Dbl)} {a : PyL1qcArgs Dbl} {s : NState (PyState Dbl)} {mrow mcol n : ℕ} {b : Fin n → ℝ} {idx : Fin n → Int}
    {v : ℕ} (hlib : LibOk lib) (hS : Session lib v s.cb.w) (hr : s.cb.WF) (hs : s.WF) (hk : (kw.map (·.1)).Nodup) (hg : PyL1qcGood args kw a)
    (h1 : a.mrow = mrow) (h2 : a.mcol = mcol) (h3 : a.b = some ⟨1, n, fvec b⟩) (h4 : a.pix_idx = some ⟨1, n, idx⟩)
    (hmode : a.dct_mode = DCT1 ∨ a.dct_mode = DCT2) (hinj : Function.Injective idx) (hv : ∀ i, 0 ≤ idx i ∧ idx i < (mrow : Int) * mcol) (hf : FitsInt ((mrow : Int) * mcol))
    (hb0 : b ≠ 0) {eps lbtol mu X : ℝ}
    (ho : SharpOpts a.opts (mrow * mcol) eps lbtol mu X) (hX : DataNorm lib mrow mcol n (List.ofFn idx) (twoDim mrow mcol a.dct_mode) b X)
    (m1 : ∀ i < 5, s.cb.w.oracle (s.cb.w.calls + i) = true) (m2 : ∀ i < 22, s.oracle (s.calls + i) = true) (m3 : ∀ k < 5, s.cb.oracle (s.cb.calls + k) = true) :
    ∃ t x r img res s', py_l1qc_call lib args kw s = some (.ret t x r mrow mcol img res, s') ∧ s'.live = s.live ∧ res.status = 0 ∧ Session lib v s'.cb.w ∧
      NearlySparsest lib mrow mcol n (List.ofFn idx) (twoDim mrow mcol a.dct_mode) b eps (3 * (mu * lbtol)) img := by
  obtain ⟨L, hw, hL⟩ := C81_usable hS
  obtain ⟨t, x, r, img, res, s', e1, e2, e3, e4⟩ := C78_python_returns hlib hr hs hw hk hg h1 h2 h3 h4 hmode hinj hv hf hb0 (hL.free _) ho hX m1 m2 m3
  exact ⟨t, x, r, img, res, s', e1, e2, e3, .call hS (.py_l1qc args kw hs hr hk e1), e4⟩

/-- **C81**, Matlab `l1qc_dct` at any point of any session. -/
theorem C81_l1qc_matlab {prhs : List (MxVal Dbl)} {c : MexCall Dbl} {s : NState (World Dbl)} {junk : ℕ → Dbl} {mrow mcol n : ℕ} {b : Fin n → ℝ} {ks : List Int}
    {v : ℕ} (hlib : LibOk lib) (hS : Session lib v s.cb) (hs : s.WF) (hg : MexGood prhs c)
    (h1 : c.mrow = mrow) (h2 : c.mcol = mcol) (h3 : c.b = ⟨n, fvec b⟩) (h4 : List.ofFn c.pix_idx.2 = ks.map fun k : Int => Dbl.fin (k : ℝ))
    (hr : ∀ k ∈ ks, 1 ≤ k ∧ k ≤ c.mrow * c.mcol) (hd : ks.Nodup) (hb0 : b ≠ 0) {eps lbtol mu X : ℝ}
    (ho : SharpOpts c.opts (mrow * mcol) eps lbtol mu X) (hX : DataNorm lib mrow mcol n (ks.map fun k => k - 1) (twoDim mrow mcol DCT1) b X)
    (m1 : ∀ i < 5, s.cb.oracle (s.cb.calls + i) = true) (m2 : ∀ i < 23, s.oracle (s.calls + i) = true) :
    ∃ img res s', l1qc_dct_mex lib junk 2 prhs s = some (.ret img (some res), s') ∧ s'.live = s.live ∧ res.status = 0 ∧ Session lib v s'.cb ∧
      NearlySparsest lib mrow mcol n (ks.map fun k => k - 1) (twoDim mrow mcol DCT1) b eps (3 * (mu * lbtol)) img := by
  obtain ⟨L, hw, hL⟩ := C81_usable hS
  obtain ⟨img, res, s', e1, e2, e3, e4⟩ := C78_matlab_returns (junk := junk) hlib hs hw hg h1 h2 h3 h4 hr hd hb0 (hL.free _) ho hX m1 m2
  exact ⟨img, res, s', e1, e2, e3, .call hS (.mex_l1qc junk 2 prhs hs e1), e4⟩

/-- **C81**, Python `nesta_dctTV` in analysis mode at any point of any session: with valid arguments and enough memory it returns, with status 0, a nearly optimal image. -/
theorem C81_nesta_python {args : List (PyVal Dbl)} {kw : List (String × PyVal Dbl)} {s : NState (PyState Dbl)} {r k n : ℕ} {b : Fin n → ℝ} {pix : Fin n → Int}
    {av ah sigma mu : ℝ} {tol : Dbl} {N dm : Int} {q : ℕ} {v : ℕ} (hlib : LibOk lib) (hS : Session lib v s.cb.w) (hs : s.WF) (hr : s.cb.WF) (hk : (kw.map (·.1)).Nodup)
    (hg : PyNestaGood args kw ⟨r, k, some ⟨1, n, fvec b⟩, some ⟨1, n, pix⟩, .fin av, .fin ah, BP_ANALYSIS, dm, ⟨.fin sigma, .fin mu, tol, N⟩⟩)
    (hdm : dm = DCT1 ∨ dm = DCT2) (hf : FitsInt ((r : Int) * k)) (hn : n ≤ r * k) (hv : ValidTv n r k (Dbl.fin av) (Dbl.fin ah) (List.ofFn pix))
    (hp : FitsInt (tvP (r * k) (Dbl.fin av) (Dbl.fin ah))) (hN1 : 1 ≤ N) (hN : N < INT_MAX) (hinj : Function.Injective pix) (hsig : 0 < sigma) (hmu : 0 < mu) (hb0 : b ≠ 0)
    (hq : q = 1 ∨ (q = 10000 ∧ ∃ t ≤ 0, tol = Dbl.fin t))
    (hpy : ∀ i < 4, s.cb.oracle (s.cb.calls + i) = true) (hal : ∀ i < 13, s.oracle (s.calls + i) = true) (hal' : ∀ i < 6, s.cb.w.oracle (s.cb.w.calls + i) = true) :
    ∃ (tu x : ℕ) (y : Fin (r * k) → ℝ) (ix : Fin n → Fin (r * k)) (s' : NState (PyState Dbl)),
      py_nesta_call lib args kw s = some (.ret tu x r k ⟨r * k, fvec y⟩ 0, s') ∧ (∀ i, ((ix i : ℕ) : Int) = pix i) ∧ Session lib (v + r * k) s'.cb.w ∧
      NearlyBest (twoDim r k dm) av ah ix b sigma (anaGap q (r * k) av ah mu (anaCost (twoDim r k dm) av ah (onBlack ix b)) √(∑ i, b i ^ 2) N.toNat) y := by
  obtain ⟨L, hw, hL⟩ := C81_usable hS
  obtain ⟨tu, x, y, ix, s', e1, e2, e3⟩ := C79_python_returns hlib hs hr hw hL.2.2.1 hL.free hk hg hdm hf hn hv hp hN1 hN hinj hsig hmu hb0 hq hpy hal hal'
  exact ⟨tu, x, y, ix, s', e1, e2, .call hS (.py_nesta (out := .ret tu x r k ⟨r * k, fvec y⟩ 0) args kw hs hr hk (fun a ha => by
    have := ((C76_nesta hk a).2 ha).symm.trans ((C76_nesta hk _).2 hg)
    cases this
    exact hN) e1), e3⟩

/-- **C81**, Matlab `nesta_dctTV` in analysis mode at any point of any session. -/
theorem C81_nesta_matlab {prhs : List (MxVal Dbl)} {mode : Option (Option String)} {s : NState (World Dbl)} {junk : ℕ → Dbl} {nlhs : ℕ} {r k n : ℕ} {b : Fin n → ℝ} {pix : Fin n → Int}
    {av ah sigma mu : ℝ} {tol : Dbl} {N dm : Int} {q : ℕ} {v : ℕ} (hlib : LibOk lib) (hS : Session lib v s.cb) (hs : s.WF)
    (hg : NestaMexGood prhs mode ⟨r, k, ⟨n, fvec b⟩, ⟨n, fun i => .fin (pix i : ℝ)⟩, ⟨.fin sigma, .fin mu, tol, N⟩, .fin av, .fin ah, dm, true⟩) (hl : 2 ≤ nlhs)
    (hN1 : 1 ≤ N) (hN : N < INT_MAX) (hinj : Function.Injective pix) (hpix : ∀ i, 1 ≤ pix i ∧ pix i ≤ r * k) (hsig : 0 < sigma) (hmu : 0 < mu) (hb0 : b ≠ 0)
    (hq : q = 1 ∨ (q = 10000 ∧ ∃ t ≤ 0, tol = Dbl.fin t)) (hv : 0 ≤ av) (hh : 0 ≤ ah) (hdim : (0 < av ∨ 0 < ah) → 2 < r ∧ 2 < k)
    (hp : FitsInt (tvP (r * k) (Dbl.fin av) (Dbl.fin ah))) (hal : ∀ i < 14, s.oracle (s.calls + i) = true) (hal' : ∀ i < 6, s.cb.oracle (s.cb.calls + i) = true) :
    ∃ (y : Fin (r * k) → ℝ) (ix : Fin n → Fin (r * k)) (s' : NState (World Dbl)),
      nesta_dctTV_mex lib junk nlhs prhs mode s = some (.ret r k ⟨r * k, fvec y⟩ 0, s') ∧ (∀ i, ((ix i : ℕ) : Int) + 1 = pix i) ∧ Session lib v s'.cb ∧
      NearlyBest (twoDim r k dm) av ah ix b sigma (anaGap q (r * k) av ah mu (anaCost (twoDim r k dm) av ah (onBlack ix b)) √(∑ i, b i ^ 2) N.toNat) y := by
  obtain ⟨L, hw, hL⟩ := C81_usable hS
  obtain ⟨y, ix, s', e1, e2, e3⟩ := C79_matlab_returns (junk := junk) hlib hs hw hL.2.2.1 hL.free hg hl hN1 hN hinj hpix hsig hmu hb0 hq hv hh hdim hp hal hal'
  exact ⟨y, ix, s', e1, e2, .call hS (.mex_nesta junk nlhs prhs mode hs (fun c hc => by
    have := (C64_accepts hc hl).symm.trans (C64_accepts hg hl)
    cases this
    exact hN) e1), e3⟩

/-! ## A session: NESTA from Python, twice, then `l1qc_dct` from Python -/

/-- a state of a Python process with library state `w` and all memory granted -/
noncomputable def pyAt (w : World Dbl) : NState (PyState Dbl) := ⟨∅, 0, 0, fun _ => true, ⟨w, fun _ => 0, 0, 0, fun _ => true⟩⟩

/-- `nesta_dctTV` returns at any point -/
theorem steep_step {w : World Dbl} {v : ℕ} (hS : Session refLib v w) (ho : w.oracle = fun _ => true) :
    ∃ w', Call refLib w 3 w' ∧ Session refLib (v + 3) w' ∧ w'.oracle = fun _ => true := by
  obtain ⟨tu, x, y, ix, s', h1, -, h3, -⟩ := C81_nesta_python (s := pyAt w) (q := 10000) refLib_ok hS (fun a h => by cases h) (fun _ _ => rfl) (by simp [steepKw]) steep_good
    (Or.inl rfl) (by decide) (by decide)
    ⟨⟨by decide, by decide, by decide, by decide⟩, by rw [Dbl.lit_eq, Dbl.flt_fin]; norm_num, by rw [Dbl.lit_eq, Dbl.flt_fin]; norm_num, fun h => by
      rw [Dbl.lit_eq, Dbl.flt_fin] at h; norm_num at h⟩
    steep_fits (by decide) (by decide) (by intro i j h; fin_cases i <;> fin_cases j <;> simp_all) one_pos (by norm_num)
    (fun h => by simpa using congrFun h 0) (Or.inr ⟨rfl, 0, le_rfl, rfl⟩) (fun _ _ => rfl) (fun _ _ => rfl) (fun i _ => by show w.oracle _ = true; rw [ho])
  have hc : Call refLib w 3 s'.cb.w := .py_nesta (s := pyAt w) (out := .ret tu x (3 : ℕ) (1 : ℕ) ⟨3 * 1, fvec y⟩ 0) steepArgs steepKw (fun a h => by cases h) (fun _ _ => rfl) (by simp [steepKw])
    (fun a ha => by
      have := ((C76_nesta (by simp [steepKw]) a).2 ha).symm.trans ((C76_nesta (by simp [steepKw]) _).2 steep_good)
      cases this
      decide) h1
  exact ⟨_, hc, .call hS hc, (C81_oracle hS hc).trans ho⟩

/-- sessions with arbitrarily much left behind exist -/
theorem C81_unbounded_false (N : ℕ) : ∃ (w : World Dbl) (S : Finset ℕ) (len : ℕ → ℕ), Session refLib (3 * N) w ∧ (∀ b ∈ S, Holds w b (len b)) ∧ 12 * N ≤ ∑ b ∈ S, len b := by
  have key : ∃ w : World Dbl, Session refLib (3 * N) w ∧ w.oracle = fun _ => true := by
    induction N with
    | zero => exact ⟨_, .start (fun _ => true) (fun _ _ => .nan), rfl⟩
    | succ N ih =>
      obtain ⟨w, h1, h2⟩ := ih
      obtain ⟨w', -, h3, h4⟩ := steep_step h1 h2
      exact ⟨w', h3, h4⟩
  obtain ⟨w, h1, -⟩ := key
  obtain ⟨S, len, h2, h3⟩ := C81_memory_false h1
  exact ⟨w, S, len, h1, h2, by omega⟩

/-- `C81_l1qc_python` after two calls of NESTA; also `C81_keeps`, `C81_leaves` and `C81_memory_false` apply -/
example : ∃ (w w1 w2 : World Dbl) (S : Finset ℕ) (img : Arr Dbl) (res : LBResult Dbl) (t x r : ℕ) (s' : NState (PyState Dbl)), Session refLib 3 w ∧ Call refLib w 3 w1 ∧
    (S.card = 4 ∧ ∀ b ∈ S, (∀ l, ¬ Holds w b l) ∧ ∃ l, 3 ≤ l ∧ Holds s'.cb.w b l) ∧
    py_l1qc_call refLib sharpArgs sharpKw (pyAt w1) = some (.ret t x r (3 : ℕ) (1 : ℕ) img res, s') ∧ s'.cb.w = w2 ∧ Session refLib 6 w2 ∧
    NearlySparsest refLib 3 1 2 (List.ofFn ![0, 2]) (twoDim (3 : ℕ) (1 : ℕ) DCT1) ![60, 80] 1 21 img := by
  obtain ⟨w, -, s1, o1⟩ := steep_step (Session.start (lib := refLib) (fun _ => true) (fun _ _ => .nan)) rfl
  obtain ⟨w1, c2, s2, o2⟩ := steep_step s1 o1
  obtain ⟨X, h1, h2, h3⟩ := sharpEx_data (idx := List.ofFn ![0, 2]) rfl (twoDim (3 : ℕ) (1 : ℕ) DCT1)
  obtain ⟨t, x, r, img, res, s', e1, -, -, e4, e5⟩ := C81_l1qc_python (lib := refLib) (s := pyAt w1) (n := 2) (mrow := 3) (mcol := 1) (idx := ![0, 2]) refLib_ok s2 (fun _ _ => rfl)
    (fun a h => by cases h) (by simp [sharpKw]) sharp_good rfl rfl rfl rfl (Or.inl rfl) (by decide) (by decide) (by decide)
    (fun h => by simpa using congrFun h 0) (sharpEx_ok (lit 0) h1 h2) h3 (fun i _ => by show w1.oracle _ = true; rw [o2]) (fun _ _ => rfl) (fun _ _ => rfl)
  rw [show (3 * (7 * 1) : ℝ) = 21 by norm_num] at e5
  obtain ⟨S, q1, q2⟩ := C81_leaves s1 c2 (by norm_num)
  have hc : Call refLib w1 0 s'.cb.w := .py_l1qc (s := pyAt w1) sharpArgs sharpKw (fun a h => by cases h) (fun _ _ => rfl) (by simp [sharpKw]) e1
  refine ⟨w, w1, _, S, img, res, t, x, r, s', s1, c2, ⟨q1, fun b hb => ⟨(q2 b hb).1, ?_⟩⟩, e1, rfl, e4, e5⟩
  obtain ⟨l, hl, hh⟩ := (q2 b hb).2
  exact ⟨l, hl, C81_keeps s2 hc hh⟩

/-- `C81_same_l1qc` applies to a call in a new process and the same call after NESTA -/
example : ∃ (w : World Dbl) (t x r t' x' r' : ℕ) (img img' : Arr Dbl) (res res' : LBResult Dbl) (s' q' : NState (PyState Dbl)), Session refLib 3 w ∧
    py_l1qc_call refLib sharpArgs sharpKw exPy = some (.ret t x r (3 : ℕ) (1 : ℕ) img res, s') ∧
    py_l1qc_call refLib sharpArgs sharpKw (pyAt w) = some (.ret t' x' r' (3 : ℕ) (1 : ℕ) img' res', q') ∧ img = img' ∧ res = res' := by
  obtain ⟨w, -, s1, o1⟩ := steep_step (Session.start (lib := refLib) (fun _ => true) (fun _ _ => .nan)) rfl
  obtain ⟨X, h1, h2, h3⟩ := sharpEx_data (idx := List.ofFn ![0, 2]) rfl (twoDim (3 : ℕ) (1 : ℕ) DCT1)
  have run : ∀ {v : ℕ} (w : World Dbl), Session refLib v w → w.oracle = (fun _ => true) → ∃ t x r img res s',
      py_l1qc_call refLib sharpArgs sharpKw (pyAt w) = some (.ret t x r (3 : ℕ) (1 : ℕ) img res, s') := fun w hS ho => by
    obtain ⟨t, x, r, img, res, s', e1, -⟩ := C81_l1qc_python (lib := refLib) (s := pyAt w) (n := 2) (mrow := 3) (mcol := 1) (idx := ![0, 2]) refLib_ok hS (fun _ _ => rfl)
      (fun a h => by cases h) (by simp [sharpKw]) sharp_good rfl rfl rfl rfl (Or.inl rfl) (by decide) (by decide) (by decide)
      (fun h => by simpa using congrFun h 0) (sharpEx_ok (lit 0) h1 h2) h3 (fun i _ => by show w.oracle _ = true; rw [ho]) (fun _ _ => rfl) (fun _ _ => rfl)
    exact ⟨t, x, r, img, res, s', e1⟩
  have s0 : Session refLib 0 exPy.cb.w := .start _ _
  obtain ⟨t, x, r, img, res, s', e1⟩ := run exPy.cb.w s0 rfl
  obtain ⟨t', x', r', img', res', q', e2⟩ := run w s1 o1
  obtain ⟨-, -, h5, h6⟩ := C81_same_l1qc (s := pyAt exPy.cb.w) (q := pyAt w) s0 s1 (fun a h => by cases h) (fun a h => by cases h) (fun _ _ => rfl) (fun _ _ => rfl)
    (by simp [sharpKw]) sharp_good (fun b hb => by cases hb; decide) (fun b hb => by cases hb; decide) e1 e2
  exact ⟨w, t, x, r, t', x', r', img, img', res, res', s', q', s1, e1, e2, h5, h6⟩

/-- `C81_l1qc_matlab` and `C81_nesta_matlab` apply after a call that left arrays behind -/
example (junk : ℕ → Dbl) : ∃ (w : World Dbl), Session refLib 3 w ∧
    (∃ img res s', l1qc_dct_mex refLib junk 2 sharpPrhs ⟨∅, 0, 0, fun _ => true, w⟩ = some (.ret img (some res), s') ∧ res.status = 0) ∧
    ∃ (y : Fin (3 * 1) → ℝ) (s' : NState (World Dbl)),
      nesta_dctTV_mex refLib junk 2 steepPrhs (some (some "analysis")) ⟨∅, 0, 0, fun _ => true, w⟩ = some (.ret (3 : ℕ) (1 : ℕ) ⟨3 * 1, fvec y⟩ 0, s') := by
  obtain ⟨w, -, s1, o1⟩ := steep_step (Session.start (lib := refLib) (fun _ => true) (fun _ _ => .nan)) rfl
  obtain ⟨X, h1, h2, h3⟩ := sharpEx_data (idx := [1, 3].map fun k : Int => k - 1) rfl (twoDim (3 : ℕ) (1 : ℕ) DCT1)
  refine ⟨w, s1, ?_, ?_⟩
  · obtain ⟨img, res, s', e1, -, e2, -⟩ := C81_l1qc_matlab (lib := refLib) (junk := junk) (s := ⟨∅, 0, 0, fun _ => true, w⟩) (n := 2) (mrow := 3) (mcol := 1) (ks := [1, 3]) refLib_ok s1
      (fun a h => by cases h) sharp_mex_good rfl rfl rfl (by simp [fvec]) (by decide) (by decide)
      (fun h => by simpa using congrFun h 0) (sharpEx_ok (.fin 0) h1 h2) h3 (fun i _ => by show w.oracle _ = true; rw [o1]) (fun _ _ => rfl)
    exact ⟨img, res, s', e1, e2⟩
  · obtain ⟨y, ix, s', e1, -⟩ := C81_nesta_matlab (junk := junk) (q := 10000) (s := ⟨∅, 0, 0, fun _ => true, w⟩) refLib_ok s1 (fun a h => by cases h)
      steep_mex_good (le_refl _) (by decide) (by decide) (by intro i j h; fin_cases i <;> fin_cases j <;> simp_all)
      (fun i => by fin_cases i <;> exact ⟨by decide, by decide⟩) one_pos (by norm_num) (fun h => by simpa using congrFun h 0) (Or.inr ⟨rfl, 0, le_rfl, rfl⟩)
      le_rfl le_rfl (fun h => absurd h (by norm_num)) steep_fits (fun _ _ => rfl) (fun i _ => by show w.oracle _ = true; rw [o1])
    exact ⟨y, s', e1⟩

end exact

end L1c
