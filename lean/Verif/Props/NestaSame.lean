import Verif.Proofs.NestaSim
import Verif.Props.Session

/-!
# C82: NESTA's result depends on its arguments only
-/

namespace L1c
open Scalar

section any
variable {F : Type} [Scalar F] {lib : FftwLib F} {w : World F} {L : Sets F}

/-- the set NESTA uses in analysis mode -/
def anaSet (r k n : ℕ) (idx : List Int) (av ah : F) (dm : Int) : SetTv F := ⟨r, k, n, idx, av, ah, false, twoDim r k dm⟩

/-- `x` is what some run of NESTA on the set `t` leaves in its output array -/
def Ran (lib : FftwLib F) (t : SetTv F) (nw : F) (b : Vec F t.n) (opts : NestaOpts F) (x : Vec F t.m) : Prop :=
  ∃ (s s' : NState (World F)) (L : Sets F) (xk : Vec F t.m) (o : NestaOut F t.n t.m t.p), s.WF ∧ Hist lib s.cb L ∧ L.tv = some t ∧
    (∀ i < 10, s.oracle (s.calls + i) = true) ∧ l1c_nesta t.m t.n xk b (setNAx lib t.kind t.n t.m t.p nw) opts s = some (o, s') ∧ x = o.xk

theorem Ran.unique {t : SetTv F} (ht : t.syn = false) {nw : F} {b : Vec F t.n} {opts : NestaOpts F} {x x' : Vec F t.m} (h : Ran lib t nw b opts x)
    (h' : Ran lib t nw b opts x') : x = x' := by
  obtain ⟨s, s', L, xk, o, a1, a2, a3, a4, a5, rfl⟩ := h
  obtain ⟨q, q', L', xk', o', b1, b2, b3, b4, b5, rfl⟩ := h'
  exact congrArg NestaOut.xk (nesta_sim (setNAx_agree ht _ _ _ _) (by simp [NAx.Missing, setNAx]) xk xk' b opts a1 b1 a4 b4 ⟨⟨L, a2, a3⟩, L', b2, b3⟩ a5 b5).1

/-- a call from Python in analysis mode that returns a result -/
theorem py_ran {args : List (PyVal F)} {kw : List (String × PyVal F)} {a : PyNestaArgs F} {s s' : NState (PyState F)} {v : ℕ} (hS : Session lib v s.cb.w)
    (hs : s.WF) (hsr : s.cb.WF) (hk : (kw.map (·.1)).Nodup) (hg : PyNestaGood args kw a) (hm : a.bp_mode = BP_ANALYSIS)
    (hsz : ∀ b, a.b = some b → (b.dim0 : Int) ≤ INT_MAX) (hsz' : ∀ p, a.pix_idx = some p → (p.dim0 : Int) ≤ INT_MAX) (hN : a.opts.n_continue < INT_MAX)
    {tu x : ℕ} {rows cols st : Int} {img : Arr F} (h : py_nesta_call lib args kw s = some (.ret tu x rows cols img st, s')) :
    ∃ (r k : ℕ) (b : NpArr F) (p : NpArr Int), a.mrow = r ∧ a.mcol = k ∧ a.b = some b ∧ a.pix_idx = some p ∧ rows = r ∧ cols = k ∧
      ValidTv b.dim0 r k a.alpha_v a.alpha_h (List.ofFn p.data) ∧ ((st = L1C_OUT_OF_MEMORY ∧ img = ⟨r * k, fun _ => lit 0⟩) ∨ (st = 0 ∧ ∃ y : Vec F (r * k), img = ⟨r * k, y⟩ ∧
        Ran lib (anaSet r k b.dim0 (List.ofFn p.data) a.alpha_v a.alpha_h a.dct_mode) (tvNormW true a.alpha_v a.alpha_h) b.data a.opts y)) := by
  obtain ⟨L, hw, hL⟩ := C81_usable hS
  rw [(C76_calls lib hk _).2 a hg] at h
  rcases C65_outcome_partial hs hsr hw hL.2.2.1 hL.free hsz hsz' hN h with
    ⟨k, h, -⟩ | ⟨b, p, -, -, hb, hp, -, -, -, -, -, -, ⟨h, -⟩ | ⟨r, k, t, w, e1, e2, ht, hv, hw1, -, ⟨h, -⟩ | ⟨tu', x', xk', st', -, -, -, h2, -, h4⟩⟩⟩
  · cases h
  · cases h
  · cases h
  cases h2
  rw [decide_eq_true hm] at ht h4
  subst ht
  refine ⟨r, k, b, p, e1, e2, hb, hp, rfl, rfl, e1 ▸ e2 ▸ hv, ?_⟩
  rcases h4 with ⟨hc, -⟩ | ⟨-, h5, h6⟩ | ⟨-, h5, b', o, s1, h6, h7, h8, h9, -⟩
  · exact absurd rfl hc
  · exact Or.inl ⟨h5, h6⟩
  refine Or.inr ⟨h5, o.xk, h9, { mexCallState (pyLib s) with cb := w }, s1, _, fun _ => lit 0, o, ?_, hw1, rfl, ?_, ?_, rfl⟩
  · exact fun c hc => mexCallState_wf (s := pyLib s) hs c hc
  · exact fun i hi => h8 i (by omega)
  · have hb' : b' = b.data := funext fun i => (h6 i).2
    rw [hb'] at h7
    exact h7

/-- a call from Matlab in analysis mode that returns a result -/
theorem mex_ran {prhs : List (MxVal F)} {mode : Option (Option String)} {c : NestaMexCall F} {s s' : NState (World F)} {junk : ℕ → F} {nlhs v : ℕ} (hS : Session lib v s.cb)
    (hs : s.WF) (hg : NestaMexGood prhs mode c) (hl : 2 ≤ nlhs) (hm : c.analysis = true) (hN : c.opts.n_continue < INT_MAX)
    {rows cols st : Int} {img : Arr F} (h : nesta_dctTV_mex lib junk nlhs prhs mode s = some (.ret rows cols img st, s')) :
    ∃ (r k : ℕ) (idx : List Int) (y : Vec F (r * k)), c.mrow = r ∧ c.mcol = k ∧ OneBased (c.mrow * c.mcol) (List.ofFn c.pix_idx.2) idx ∧ rows = r ∧ cols = k ∧ st = 0 ∧
      img = ⟨r * k, y⟩ ∧ ValidTv c.b.1 r k c.alp_v c.alp_h idx ∧ Ran lib (anaSet r k c.b.1 idx c.alp_v c.alp_h c.dct_mode) (tvNormW true c.alp_v c.alp_h) c.b.2 c.opts y := by
  obtain ⟨L, hw, hL⟩ := C81_usable hS
  rcases C64_outcome_partial hs hw hL.2.2.1 hL.free (C64_accepts hg hl) hN h with ⟨r, k, x, idx, t, e, e1, e2, e3, hi, hv, -, -, ht, h1⟩ | h | h | h
  swap
  · cases h
  swap
  · cases h
  swap
  · cases h
  cases e3
  rw [hm] at ht h1
  subst ht
  obtain ⟨w, b', o, s1, hw1, hb', hrun, hal, hx⟩ := h1 rfl
  refine ⟨r, k, idx, x, e1, e2, hi, rfl, rfl, rfl, rfl, e1 ▸ e2 ▸ hv, mexCallState (nmexState s w), s1, _, fun i => junk i, o, mexCallState_wf (nmexState_wf hs w), hw1, rfl, fun i hi => ?_, ?_, ?_⟩
  · exact hal i (by omega)
  · have : b' = c.b.2 := funext fun i => (hb' i).2
    rw [this] at hrun
    exact hrun
  · funext i
    exact (hx i).2

theorem oneBased_unique {m : Int} {x : List F} {i j : List Int} (h : OneBased m x i) (h' : OneBased m x j) : i = j := by
  unfold OneBased at h h'
  induction h generalizing j with
  | nil => cases h'; rfl
  | cons ha _ ih =>
    cases h' with
    | cons hb hc =>
      rw [ih hc]
      have := ha.1.symm.trans hb.1
      have := Option.some.inj this
      congr 1
      omega

/-- **C82**, Python: two calls of `nesta_dctTV` in analysis mode with the same arguments, in any two sessions and with any memory, give the same image when they
return the same status, and different statuses only when memory ran out in one of them; any arithmetic. -/
theorem C82_python {args : List (PyVal F)} {kw : List (String × PyVal F)} {a : PyNestaArgs F} {s s' q q' : NState (PyState F)} {v v' : ℕ} (hS : Session lib v s.cb.w)
    (hQ : Session lib v' q.cb.w) (hs : s.WF) (hq : q.WF) (hsr : s.cb.WF) (hqr : q.cb.WF) (hk : (kw.map (·.1)).Nodup) (hg : PyNestaGood args kw a) (hm : a.bp_mode = BP_ANALYSIS)
    (hsz : ∀ b, a.b = some b → (b.dim0 : Int) ≤ INT_MAX) (hsz' : ∀ p, a.pix_idx = some p → (p.dim0 : Int) ≤ INT_MAX) (hN : a.opts.n_continue < INT_MAX)
    {t x t' x' : ℕ} {rows cols st rows' cols' st' : Int} {img img' : Arr F}
    (h : py_nesta_call lib args kw s = some (.ret t x rows cols img st, s')) (h' : py_nesta_call lib args kw q = some (.ret t' x' rows' cols' img' st', q')) :
    rows = rows' ∧ cols = cols' ∧ (st = st' → img = img') ∧ (st ≠ st' → st = L1C_OUT_OF_MEMORY ∨ st' = L1C_OUT_OF_MEMORY) := by
  obtain ⟨r, k, b, p, a1, a2, a3, a4, a5, a6, -, a7⟩ := py_ran hS hs hsr hk hg hm hsz hsz' hN h
  obtain ⟨r', k', b', p', b1, b2, b3, b4, b5, b6, -, b7⟩ := py_ran hQ hq hqr hk hg hm hsz hsz' hN h'
  obtain rfl : r = r' := by exact_mod_cast a1.symm.trans b1
  obtain rfl : k = k' := by exact_mod_cast a2.symm.trans b2
  obtain rfl : b = b' := Option.some.inj (a3.symm.trans b3)
  obtain rfl : p = p' := Option.some.inj (a4.symm.trans b4)
  refine ⟨a5.trans b5.symm, a6.trans b6.symm, ?_⟩
  rcases a7 with ⟨rfl, rfl⟩ | ⟨rfl, y, rfl, hy⟩
  · rcases b7 with ⟨rfl, rfl⟩ | ⟨rfl, y, rfl, hy⟩
    · exact ⟨fun _ => rfl, fun h => absurd rfl h⟩
    · exact ⟨(fun h => by cases h), fun _ => Or.inl rfl⟩
  · rcases b7 with ⟨rfl, rfl⟩ | ⟨rfl, y', rfl, hy'⟩
    · exact ⟨(fun h => by cases h), fun _ => Or.inr rfl⟩
    · exact ⟨fun _ => by rw [hy.unique rfl hy'], fun h => absurd rfl h⟩

/-- **C82**, Matlab: two calls of `nesta_dctTV_mex` in analysis mode with the same arguments, in any two sessions and with any memory, give the same image and
status 0 whenever both return one; any arithmetic. -/
theorem C82_matlab {prhs : List (MxVal F)} {mode : Option (Option String)} {c : NestaMexCall F} {s s' q q' : NState (World F)} {junk junk' : ℕ → F} {nlhs nlhs' v v' : ℕ}
    (hS : Session lib v s.cb) (hQ : Session lib v' q.cb) (hs : s.WF) (hq : q.WF) (hg : NestaMexGood prhs mode c) (hl : 2 ≤ nlhs) (hl' : 2 ≤ nlhs') (hm : c.analysis = true)
    (hN : c.opts.n_continue < INT_MAX) {rows cols st rows' cols' st' : Int} {img img' : Arr F}
    (h : nesta_dctTV_mex lib junk nlhs prhs mode s = some (.ret rows cols img st, s')) (h' : nesta_dctTV_mex lib junk' nlhs' prhs mode q = some (.ret rows' cols' img' st', q')) :
    rows = rows' ∧ cols = cols' ∧ st = 0 ∧ st' = 0 ∧ img = img' := by
  obtain ⟨r, k, idx, y, a1, a2, a3, a4, a5, a6, rfl, -, hy⟩ := mex_ran hS hs hg hl hm hN h
  obtain ⟨r', k', idx', y', b1, b2, b3, b4, b5, b6, rfl, -, hy'⟩ := mex_ran hQ hq hg hl' hm hN h'
  obtain rfl : r = r' := by exact_mod_cast a1.symm.trans b1
  obtain rfl : k = k' := by exact_mod_cast a2.symm.trans b2
  obtain rfl := oneBased_unique a3 b3
  exact ⟨a4.trans b4.symm, a5.trans b5.symm, a6, b6, by rw [hy.unique rfl hy']⟩

/-- **C82**, Matlab against Python: calls in analysis mode with the same samples, options and sizes, the pixels counted from 1 in Matlab and from 0 in Python, give the
same image whenever both return one with status 0; any sessions, any memory, any arithmetic. -/
theorem C82_interfaces {prhs : List (MxVal F)} {mode : Option (Option String)} {c : NestaMexCall F} {args : List (PyVal F)} {kw : List (String × PyVal F)} {a : PyNestaArgs F}
    {s s' : NState (World F)} {q q' : NState (PyState F)} {junk : ℕ → F} {nlhs v v' : ℕ} (hS : Session lib v s.cb) (hQ : Session lib v' q.cb.w) (hs : s.WF) (hq : q.WF) (hqr : q.cb.WF)
    (hg : NestaMexGood prhs mode c) (hl : 2 ≤ nlhs) (hm : c.analysis = true) (hN : c.opts.n_continue < INT_MAX) (hk : (kw.map (·.1)).Nodup) (hga : PyNestaGood args kw a)
    (hma : a.bp_mode = BP_ANALYSIS) {ndim ndim' n : ℕ} {b : Vec F n} {pix : Fin n → Int} (hn : (n : Int) ≤ INT_MAX) (hb : c.b = ⟨n, b⟩) (hab : a.b = some ⟨ndim, n, b⟩)
    (hap : a.pix_idx = some ⟨ndim', n, pix⟩) (hpix : OneBased (c.mrow * c.mcol) (List.ofFn c.pix_idx.2) (List.ofFn pix)) (e1 : c.mrow = a.mrow) (e2 : c.mcol = a.mcol)
    (e3 : c.opts = a.opts) (e4 : c.alp_v = a.alpha_v) (e5 : c.alp_h = a.alpha_h) (e6 : c.dct_mode = a.dct_mode)
    {t x : ℕ} {rows cols st rows' cols' : Int} {img img' : Arr F}
    (h : nesta_dctTV_mex lib junk nlhs prhs mode s = some (.ret rows cols img st, s')) (h' : py_nesta_call lib args kw q = some (.ret t x rows' cols' img' 0, q')) :
    rows = rows' ∧ cols = cols' ∧ st = 0 ∧ img = img' := by
  obtain ⟨r, k, idx, y, a1, a2, a3, a4, a5, a6, rfl, -, hy⟩ := mex_ran hS hs hg hl hm hN h
  obtain ⟨r', k', bb, p, b1, b2, b3, b4, b5, b6, -, b7⟩ := py_ran hQ hq hqr hk hga hma (fun b hb => by rw [hab] at hb; cases hb; exact hn)
    (fun p hp => by rw [hap] at hp; cases hp; exact hn) (e3 ▸ hN) h'
  obtain rfl : r = r' := by exact_mod_cast a1.symm.trans (e1.trans b1)
  obtain rfl : k = k' := by exact_mod_cast a2.symm.trans (e2.trans b2)
  obtain rfl := oneBased_unique a3 hpix
  obtain rfl := Option.some.inj (hab.symm.trans b3)
  obtain rfl := Option.some.inj (hap.symm.trans b4)
  rcases b7 with ⟨hc, -⟩ | ⟨-, y', rfl, hy'⟩
  · cases hc
  refine ⟨a4.trans b5.symm, a5.trans b6.symm, a6, ?_⟩
  obtain ⟨mrow, mcol, bc, pc, oc, av, ah, dm, an⟩ := c
  dsimp only at *
  subst hb e3 e4 e5 e6
  rw [hy.unique rfl hy']

end any

/-! ## Synthesis mode, and concrete calls -/

section exact

/-- **C82 fails in synthesis mode**: a call from Matlab whose image is finite or not depending on what the memory of the process held at the start.  (The transforms
read an array before anything is written to it.) -/
theorem C82_synthesis_false (junk : ℕ → Dbl) : ∃ (lib : FftwLib Dbl) (prhs : List (MxVal Dbl)) (mode : Option (Option String)) (c : NestaMexCall Dbl)
    (s s' q q' : NState (World Dbl)) (x y : Arr Dbl) (rows cols : Int), LibOk lib ∧ NestaMexGood prhs mode c ∧ Session lib 0 s.cb ∧ Session lib 0 q.cb ∧
    nesta_dctTV_mex lib junk 2 prhs mode s = some (.ret rows cols x 0, s') ∧ nesta_dctTV_mex lib junk 2 prhs mode q = some (.ret rows cols y 0, q') ∧
    (∀ i, (x.2 i).IsFin) ∧ y.1 = 3 ∧ ∀ i, ¬ (y.2 i).IsFin := by
  obtain ⟨y, s', h1, h2⟩ := C80_memory_instance junk
  obtain ⟨x, ix, q', h3, -, -⟩ := C80_matlab_returns_partial (lib := nanLib) (junk := junk) (s := exWorld) (q := 10000) nanLib_ok (fun a h => by cases h) (Hist.start _ _) rfl
    (fun _ => not_busy_empty _)
    syn_mex_good (le_refl _) (by decide) (by decide) (by intro i j h; fin_cases i <;> fin_cases j <;> simp_all)
    (fun i => by fin_cases i <;> exact ⟨by decide, by decide⟩) one_pos (by norm_num) (fun h => by simpa using congrFun h 0) (Or.inr ⟨rfl, 0, le_rfl, rfl⟩)
    (fun _ _ => by show (lit 0 : Dbl).IsFin; rw [Dbl.lit_eq]; trivial) (fun _ _ => rfl) (fun _ _ => rfl)
  exact ⟨nanLib, _, _, _, _, q', _, s', _, _, _, _, nanLib_ok, syn_mex_good, Session.start _ _, Session.start _ _, h3, h1, fun _ => trivial, rfl, h2⟩

/-- `C82_python`, `C82_matlab` and `C82_interfaces` apply: four calls with the same data, from Python and Matlab, in a new process and after a call that left
arrays behind -/
example (junk junk' : ℕ → Dbl) : ∃ (w : World Dbl) (x : Arr Dbl) (t1 x1 t2 x2 : ℕ) (s1 s2 : NState (PyState Dbl)) (s3 s4 : NState (World Dbl)), Session refLib 3 w ∧
    py_nesta_call refLib steepArgs steepKw exPy = some (.ret t1 x1 (3 : ℕ) (1 : ℕ) x 0, s1) ∧ py_nesta_call refLib steepArgs steepKw (pyAt w) = some (.ret t2 x2 (3 : ℕ) (1 : ℕ) x 0, s2) ∧
    nesta_dctTV_mex refLib junk 2 steepPrhs (some (some "analysis")) exWorld = some (.ret (3 : ℕ) (1 : ℕ) x 0, s3) ∧
    nesta_dctTV_mex refLib junk' 2 steepPrhs (some (some "analysis")) ⟨∅, 0, 0, fun _ => true, w⟩ = some (.ret (3 : ℕ) (1 : ℕ) x 0, s4) := by
  have s0 : Session refLib 0 exPy.cb.w := .start _ _
  have s0' : Session refLib 0 exWorld.cb := .start _ _
  obtain ⟨w, -, sw, o1⟩ := steep_step (Session.start (lib := refLib) (fun _ => true) (fun _ _ => .nan)) rfl
  have run : ∀ {v : ℕ} (w : World Dbl), Session refLib v w → w.oracle = (fun _ => true) → ∃ t x img s',
      py_nesta_call refLib steepArgs steepKw (pyAt w) = some (.ret t x (3 : ℕ) (1 : ℕ) img 0, s') := fun w hS ho => by
    obtain ⟨tu, x, y, ix, s', h1, -⟩ := C81_nesta_python (s := pyAt w) (q := 10000) refLib_ok hS (fun a h => by cases h) (fun _ _ => rfl) (by simp [steepKw]) steep_good
      (Or.inl rfl) (by decide) (by decide)
      ⟨⟨by decide, by decide, by decide, by decide⟩, by rw [Dbl.lit_eq, Dbl.flt_fin]; norm_num, by rw [Dbl.lit_eq, Dbl.flt_fin]; norm_num, fun h => by
        rw [Dbl.lit_eq, Dbl.flt_fin] at h; norm_num at h⟩
      steep_fits (by decide) (by decide) (by intro i j h; fin_cases i <;> fin_cases j <;> simp_all) one_pos (by norm_num)
      (fun h => by simpa using congrFun h 0) (Or.inr ⟨rfl, 0, le_rfl, rfl⟩) (fun _ _ => rfl) (fun _ _ => rfl) (fun i _ => by show w.oracle _ = true; rw [ho])
    exact ⟨tu, x, _, s', h1⟩
  have mrun : ∀ {v : ℕ} (w : World Dbl) (junk : ℕ → Dbl), Session refLib v w → w.oracle = (fun _ => true) → ∃ img s',
      nesta_dctTV_mex refLib junk 2 steepPrhs (some (some "analysis")) ⟨∅, 0, 0, fun _ => true, w⟩ = some (.ret (3 : ℕ) (1 : ℕ) img 0, s') := fun w junk hS ho => by
    obtain ⟨y, ix, s', e1, -⟩ := C81_nesta_matlab (junk := junk) (q := 10000) (s := ⟨∅, 0, 0, fun _ => true, w⟩) refLib_ok hS (fun a h => by cases h)
      steep_mex_good (le_refl _) (by decide) (by decide) (by intro i j h; fin_cases i <;> fin_cases j <;> simp_all)
      (fun i => by fin_cases i <;> exact ⟨by decide, by decide⟩) one_pos (by norm_num) (fun h => by simpa using congrFun h 0) (Or.inr ⟨rfl, 0, le_rfl, rfl⟩)
      le_rfl le_rfl (fun h => absurd h (by norm_num)) steep_fits (fun _ _ => rfl) (fun i _ => by show w.oracle _ = true; rw [ho])
    exact ⟨_, s', e1⟩
  obtain ⟨t1, x1, i1, s1, e1⟩ := run exPy.cb.w s0 rfl
  obtain ⟨t2, x2, i2, s2, e2⟩ := run w sw o1
  obtain ⟨i3, s3, e3⟩ := mrun exWorld.cb junk s0' rfl
  obtain ⟨i4, s4, e4⟩ := mrun w junk' sw o1
  obtain ⟨-, -, h12, -⟩ := C82_python (s := pyAt exPy.cb.w) (q := pyAt w) s0 sw (fun a h => by cases h) (fun a h => by cases h) (fun _ _ => rfl) (fun _ _ => rfl)
    (by simp [steepKw]) steep_good rfl (fun b hb => by cases hb; decide) (fun b hb => by cases hb; decide) (by decide) e1 e2
  obtain ⟨-, -, -, -, h34⟩ := C82_matlab (s := ⟨∅, 0, 0, fun _ => true, exWorld.cb⟩) (q := ⟨∅, 0, 0, fun _ => true, w⟩) s0' sw (fun a h => by cases h) (fun a h => by cases h)
    steep_mex_good (le_refl _) (le_refl _) rfl (by decide) e3 e4
  have one : OneBased ((3 : ℕ) * (1 : ℕ) : Int) (List.ofFn fun i : Fin 2 => Dbl.fin ((![1, 3] i : Int) : ℝ)) (List.ofFn ![0, 2]) := by
    refine .cons ⟨?_, by decide, by decide⟩ (.cons ⟨?_, by decide, by decide⟩ .nil)
    · exact (congrArg (fun z : ℝ => castInt (Dbl.fin z)) (by simp : _ = ((1 : ℕ) : ℝ))).trans (castInt_nat (by decide))
    · exact (congrArg (fun z : ℝ => castInt (Dbl.fin z)) (by simp : _ = ((3 : ℕ) : ℝ))).trans (castInt_nat (by decide))
  obtain ⟨-, -, -, h23⟩ := C82_interfaces (s := ⟨∅, 0, 0, fun _ => true, exWorld.cb⟩) (q := pyAt w) (n := 2) s0' sw (fun a h => by cases h) (fun a h => by cases h) (fun _ _ => rfl)
    steep_mex_good (le_refl _) rfl (by decide) (by simp [steepKw]) steep_good rfl (by decide) rfl rfl rfl one rfl rfl rfl rfl rfl rfl e3 e2
  have h12 := h12 rfl
  subst h12 h34 h23
  exact ⟨w, i3, t1, x1, t2, x2, s1, s2, s3, s4, sw, e1, e2, e3, e4⟩

end exact

end L1c
