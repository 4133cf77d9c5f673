import Verif.Proofs.NestaBindings
import Verif.Props.Bindings
import Verif.Props.Nesta

/-!
# Properties of the nesta_dctTV functions of the Matlab and Python interfaces

C64 (Matlab), C65 (Python) and C66 (both, exact arithmetic).
-/

namespace L1c
open Scalar Matrix

/-! ## C64 -/

section matlab
variable {F : Type} [Scalar F] {lib : FftwLib F} {junk : ℕ → F} {nlhs : ℕ} {prhs : List (MxVal F)} {mode : Option (Option String)}
  {s s' : NState (World F)} {out : NestaMexOut F} {c : NestaMexCall F} {L : Sets F} {idx : List Int}

/-- A defined call either ends with a Matlab error before anything else happens, or its arguments describe a sampled image
and a complete set of options, two outputs are wanted, and `c` is what they say. -/
theorem C64_arguments (h : nesta_dctTV_mex lib junk nlhs prhs mode s = some (out, s')) :
    (∃ id, out = .error id ∧ s' = s) ∨ ∃ c, (nesta_mex_parse nlhs mode prhs).run = some (.ok c) ∧ NestaMexGood prhs mode c ∧ 2 ≤ nlhs := by
  unfold nesta_dctTV_mex at h
  cases hp : (nesta_mex_parse nlhs mode prhs).run with
  | none => rw [hp] at h; cases h
  | some e =>
    rw [hp] at h
    cases e with
    | error id =>
      obtain ⟨rfl, rfl⟩ := npure_some h
      exact Or.inl ⟨_, rfl, rfl⟩
    | ok c =>
      refine Or.inr ⟨c, rfl, nesta_parse_ok hp, ?_⟩
      unfold nesta_mex_parse at hp
      split at hp
      swap
      · cases hp
      split at hp
      · cases hp
      · omega

/-- Conversely such arguments are accepted. -/
theorem C64_accepts (hg : NestaMexGood prhs mode c) (hl : 2 ≤ nlhs) : (nesta_mex_parse nlhs mode prhs).run = some (.ok c) := by
  obtain ⟨⟨a0, a1, a2, a3, f, rest, r0, r1, vb, nc, dm, vi, rfl, h0, h0', h1, h1', h2, h3, f1, f2, f3, f4, f4', f5, f5', f6, f7, f8, f8'⟩, rfl, hf, hpos, hlen, hlt⟩ := hg
  have e : ∀ {name x}, IsMxField f name x → mexField f name = (pure x : MexP F) := fun ⟨d, h⟩ => by
    unfold mexField; rw [h]; rfl
  have el : ∀ {x : F} {z : Int}, castInt x = some z → mexLift (castInt x) = (pure z : MexP Int) := fun h => by rw [h]; rfl
  have hm : (c.b.1 : Int) ≤ INT_MAX := by have := hf.2; omega
  unfold nesta_mex_parse
  dsimp only
  rw [if_neg (by omega), mexScalar_eq h0, pure_bind, el h0', pure_bind, mexScalar_eq h1, pure_bind, el h1', pure_bind, if_neg (by rw [mul_comm]; exact not_not.2 hf),
    mexArray_eq h2 hm, pure_bind, mexArray_eq h3 (by rw [← hlen]; exact hm), pure_bind]
  have e4 : nesta_mex_opts f = (pure (c.opts, c.alp_v, c.alp_h, c.dct_mode) : MexP _) := by
    unfold nesta_mex_opts
    rw [e f1, pure_bind, e f4, pure_bind, el f4', pure_bind, e f2, pure_bind, e f3, pure_bind, e f5, pure_bind, el f5', pure_bind, e f6, pure_bind, e f7, pure_bind,
      e f8, pure_bind, el f8', pure_bind]
  have e5 : nesta_mex_mode (some (some (if c.analysis then "analysis" else "synthesis"))) = (pure c.analysis : MexP Bool) := by
    cases c.analysis <;> rfl
  rw [if_neg (by simp), e4, pure_bind, e5, pure_bind, if_neg (by omega)]
  rfl

/-- Every defined call returns all its own memory. -/
theorem C64_memory (hs : s.WF) (hw : Hist lib s.cb L) (htv : L.tv = none) (hb : ∀ two, ¬ L.busy two)
    (hN : ∀ c, (nesta_mex_parse nlhs mode prhs).run = some (.ok c) → c.opts.n_continue < INT_MAX)
    (h : nesta_dctTV_mex lib junk nlhs prhs mode s = some (out, s')) : s'.live = s.live := by
  rcases C64_arguments h with ⟨id, rfl, rfl⟩ | ⟨c, hp, -⟩
  · rfl
  · exact (nmex_inv hs hw htv hb hp (hN c hp) h).1

/-- The outcome of a defined call with good arguments.  Either an image is returned: the status is 0, the shape `mrow` by
`mcol`, the transform set is destroyed again, the indices passed were those of `idx` (1-based, in the image), the weights
were admissible, and if the mode is synthesis no weight is positive.  In analysis mode the image is NESTA's
result for these data and a set live for these arguments.  Or the call is an error, of one of three kinds: a bad index (some index
outside the image, a setup that refuses the arguments, or synthesis with a positive weight), no memory, or failure of
the FFT planner.  Never does the call return without setting its outputs.  Missing: after an error of the second kind the set may
still be alive (`C64_leak_false`); definedness is in `C64_defined_partial`. -/
theorem C64_outcome_partial (hs : s.WF) (hw : Hist lib s.cb L) (htv : L.tv = none) (hb : ∀ two, ¬ L.busy two)
    (hp : (nesta_mex_parse nlhs mode prhs).run = some (.ok c)) (hN : c.opts.n_continue < INT_MAX) (h : nesta_dctTV_mex lib junk nlhs prhs mode s = some (out, s')) :
    (∃ (r k : ℕ) (x : Vec F (r * k)) (idx : List Int) (t : SetTv F) (e : Bool), c.mrow = r ∧ c.mcol = k ∧ out = .ret r k ⟨r * k, x⟩ 0 ∧
      OneBased (c.mrow * c.mcol) (List.ofFn c.pix_idx.2) idx ∧ ValidTv c.b.1 c.mrow c.mcol c.alp_v c.alp_h idx ∧
      Hist lib s'.cb { L with ever1 := e } ∧
      (c.analysis = false → ¬ flt (lit 0) c.alp_v ∧ ¬ flt (lit 0) c.alp_h) ∧
      t = ⟨r, k, c.b.1, idx, c.alp_v, c.alp_h, !c.analysis, twoDim r k c.dct_mode⟩ ∧
      (c.analysis = true → ∃ (w : World F) (b' : Vec F t.n) (o : NestaOut F t.n t.m t.p) (s1 : NState (World F)),
        Hist lib w (({ L with tv := some t }).note1 (twoDim r k c.dct_mode) L1C_SUCCESS) ∧ (∀ i : Fin c.b.1, ∃ h, b' ⟨i, h⟩ = c.b.2 i) ∧
        l1c_nesta t.m t.n (fun i => junk i) b' (setNAx lib t.kind t.n t.m t.p (tvNormW c.analysis c.alp_v c.alp_h)) c.opts (mexCallState (nmexState s w)) = some (o, s1) ∧
        (∀ i < 11, s.oracle (s.calls + 3 + i) = true) ∧ ∀ i : Fin (r * k), ∃ hi : i.val < t.m, x i = o.xk ⟨i, hi⟩)) ∨
    out = .error "l1c:l1qc_dct:bad_index" ∨ out = .error "l1c:l1qc_dct:outofmemory" ∨ out = .error "l1c:dct_failure" := by
  obtain ⟨-, ⟨h1, -⟩ | ⟨-, idx, hi, ⟨st, h1, h2⟩ | ⟨r, k, t, L1, w, e1, e2, ht, hL1, hw1, hv, ⟨-, h1, -⟩ | ⟨-, h1, h2⟩⟩⟩⟩ := nmex_inv hs hw htv hb hp hN h
  · exact Or.inr (Or.inl h1)
  · right
    rcases tv_setup_status h1 with rfl | rfl | rfl
    · exact Or.inl h2
    · exact Or.inr (Or.inl h2)
    · exact Or.inr (Or.inr h2)
  · exact Or.inr (Or.inr (Or.inl h1))
  rcases h2 with ⟨-, h2⟩ | ⟨-, -, h2⟩ | ⟨hm, b', o, s1, x, g1, g2, g3, g4, g5⟩
  · exact Or.inr (Or.inl h2)
  · exact Or.inr (Or.inr (Or.inl h2))
  left
  obtain ⟨e, he⟩ := drop_tv htv hL1
  rw [he] at h1
  have hr : 0 < r * k := by
    have := (nesta_parse_ok hp).pos
    rw [e1, e2] at this
    exact Nat.mul_pos (by exact_mod_cast this.1) (by exact_mod_cast this.2)
  refine ⟨r, k, x, idx, t, e, e1, e2, g4, hi, hv, h1, fun hc => ?_, ht, fun hc => ⟨w, b', o, s1, hL1 ▸ hw1, g1, g3, g2, g5.1 (by rw [ht, hc]; rfl)⟩⟩
  have hcoef : tvP (r * k) c.alp_v c.alp_h = r * k := by
    rw [ht, hc] at hm
    exact hm
  unfold tvP at hcoef
  constructor
  · intro hj
    rw [if_pos (show job c.alp_v = true from by simp [job, hj])] at hcoef
    omega
  · intro hj
    rw [if_pos (show job c.alp_h = true from by simp [job, hj])] at hcoef
    omega

/-- Which calls with good arguments are defined: the numbers of the index array can be converted, the setup is defined, memory
for the index array is granted, and it is not just the eleventh request of NESTA that fails.  (The last two are needed:
`C64_calloc_false`, `C43_window_unchecked`.) -/
theorem C64_defined_partial (hs : s.WF) (hw : Hist lib s.cb L) (htv : L.tv = none) (hb : ∀ two, ¬ L.busy two)
    (hp : (nesta_mex_parse nlhs mode prhs).run = some (.ok c)) (hN : c.opts.n_continue < INT_MAX) (ho : s.oracle s.calls = true)
    (hi : ∀ x ∈ List.ofFn c.pix_idx.2, ∃ z, castInt x = some z ∧ FitsInt (z - 1))
    (hsu : ∀ idx, l1c_setup_dctTV_transforms c.b.1 c.mrow c.mcol c.alp_v c.alp_h c.dct_mode c.analysis idx s.cb ≠ none)
    (hwin : (∀ i < 13, s.oracle (s.calls + i) = true) → s.oracle (s.calls + 13) = true) :
    ∃ out s', nesta_dctTV_mex lib junk nlhs prhs mode s = some (out, s') := by
  refine nmex_defined hs hw htv hb hp hN ho ?_ (fun idx _ => hsu idx) hwin
  generalize List.ofFn c.pix_idx.2 = xs at hi
  induction xs with
  | nil => intro h; cases h
  | cons x xs ih =>
    obtain ⟨z, h1, h2⟩ := hi x (by simp)
    unfold mexIndices
    rw [h1, Option.bind_some, if_neg (not_not.2 h2)]
    split
    · intro h; cases h
    · intro h
      exact ih (fun y hy => hi y (by simp [hy])) (Option.map_eq_none_iff.1 h)

/-- False: when one of the two arrays allocated after the setup cannot be had, the error leaves the transform set alive. -/
theorem C64_leak_false (hs : s.WF) (hw : Hist lib s.cb L) (htv : L.tv = none) (hb : ∀ two, ¬ L.busy two)
    (hp : (nesta_mex_parse nlhs mode prhs).run = some (.ok c)) (ho : s.oracle s.calls = true)
    (hi : OneBased (c.mrow * c.mcol) (List.ofFn c.pix_idx.2) idx) {st : Int} {ax : AxFuns F} {w : World F}
    (hsu : l1c_setup_dctTV_transforms c.b.1 c.mrow c.mcol c.alp_v c.alp_h c.dct_mode c.analysis idx s.cb = some ((st, some ax), w))
    (hx : s.oracle (s.calls + 1) = false ∨ s.oracle (s.calls + 2) = false) :
    ∃ s' L1, nesta_dctTV_mex lib junk nlhs prhs mode s = some (.error "l1c:l1qc_dct:outofmemory", s') ∧ Hist lib s'.cb L1 ∧ L1.has ax.kind := by
  have g := nesta_parse_ok hp
  have hlen := oneBased_length hi
  rw [List.length_ofFn] at hlen
  have len := g.len
  have pos := g.pos
  rw [nmex_run_eq hp ho (mexIndices_iff.2 hi) hsu]
  obtain ⟨s2, e, -, e2⟩ := mexRun_oom (lib := lib) (junk := junk) (s := nmexState s w) (nmexState_wf hs w) (Finset.mem_insert_self _ _) ax c hx
  refine ⟨s2, ?_⟩
  clear hp g
  obtain ⟨mrow, mcol, ⟨n, b⟩, pidx, opts, av, ah, dm, ana⟩ := c
  dsimp only at *
  obtain ⟨r, rfl⟩ := Int.eq_ofNat_of_zero_le pos.1.le
  obtain ⟨k, rfl⟩ := Int.eq_ofNat_of_zero_le pos.2.le
  obtain ⟨-, t, L1, ht, hL1, hw1, hLe, hax, hv⟩ := tv_live hw (by omega) htv (hb _) hsu
  refine ⟨L1, e, by rw [e2]; exact hw1, ?_⟩
  rw [hax]
  exact Sets.has_tv hL1

/-- False: the index array is used without a check.  If it cannot be had and the first index is good, the call is undefined. -/
theorem C64_calloc_false (hp : (nesta_mex_parse nlhs mode prhs).run = some (.ok c)) (ho : s.oracle s.calls = false)
    (hi : OneBased (c.mrow * c.mcol) (List.ofFn c.pix_idx.2) idx) : nesta_dctTV_mex lib junk nlhs prhs mode s = none := by
  have g := nesta_parse_ok hp
  have hne : List.ofFn c.pix_idx.2 ≠ [] := by
    obtain ⟨_, _, _, _, _, _, _, _, _, _, _, _, _, _, _, _, _, _, ⟨M, N, d, data, -, e, -, h2, -⟩, -⟩ := g.args
    intro h0
    have := congrArg List.length h0
    rw [List.length_ofFn, e] at this
    simp only [List.length_nil] at this
    omega
  have hn : nestaIndices false (c.mrow * c.mcol) (List.ofFn c.pix_idx.2) = none := by
    cases h : nestaIndices false (c.mrow * c.mcol) (List.ofFn c.pix_idx.2) with
    | none => rfl
    | some o =>
      have := (nestaIndices_false hne h).2
      rw [mexIndices_iff.2 hi] at this
      cases this
  unfold nesta_dctTV_mex
  rw [hp]
  dsimp only
  rw [nbind (nalloc_fail ho), Option.isSome_none, mul_comm c.mcol, hn]
  rfl

/-- False: with a positive weight, synthesis mode never returns an image, whatever the samples.  If every
request for memory succeeds, the error even says that an index is bad. -/
theorem C64_synthesis_false (hs : s.WF) (hw : Hist lib s.cb L) (htv : L.tv = none) (hb : ∀ two, ¬ L.busy two)
    (hp : (nesta_mex_parse nlhs mode prhs).run = some (.ok c)) (hN : c.opts.n_continue < INT_MAX) (hsyn : c.analysis = false)
    (hpos : flt (lit 0) c.alp_v = true ∨ flt (lit 0) c.alp_h = true) (h : nesta_dctTV_mex lib junk nlhs prhs mode s = some (out, s')) :
    (∃ id, out = .error id) ∧
    (∀ st ax w, OneBased (c.mrow * c.mcol) (List.ofFn c.pix_idx.2) idx →
      l1c_setup_dctTV_transforms c.b.1 c.mrow c.mcol c.alp_v c.alp_h c.dct_mode c.analysis idx s.cb = some ((st, some ax), w) →
      s.oracle (s.calls + 1) = true → s.oracle (s.calls + 2) = true → out = .error "l1c:l1qc_dct:bad_index") := by
  refine ⟨?_, fun st ax w hi hsu h1 h2 => ?_⟩
  · rcases C64_outcome_partial hs hw htv hb hp hN h with ⟨r, k, x, idx, t, e, -, -, -, -, -, -, g, -⟩ | g | g | g
    · have := g hsyn
      rcases hpos with hpos | hpos
      · exact absurd hpos this.1
      · exact absurd hpos this.2
    · exact ⟨_, g⟩
    · exact ⟨_, g⟩
    · exact ⟨_, g⟩
  · obtain ⟨-, ⟨g, -, -⟩ | ⟨-, idx', hi', g⟩⟩ := nmex_inv hs hw htv hb hp hN h
    · exact g
    have e : idx' = idx := Option.some.inj (Option.some.inj ((mexIndices_iff.2 hi').symm.trans (mexIndices_iff.2 hi)))
    subst e
    rcases g with ⟨st', g, -⟩ | ⟨r, k, t, L1, w', e1, e2, ht, -, -, -, ⟨g, -⟩ | ⟨-, -, ⟨-, g⟩ | ⟨g, -⟩ | ⟨g, -⟩⟩⟩
    · rw [hsu] at g; cases g
    · rw [h1, h2] at g
      rcases g with g | g <;> cases g
    · exact g
    all_goals
      exfalso
      have hr : 0 < r * k := by
        have := (nesta_parse_ok hp).pos
        rw [e1, e2] at this
        exact Nat.mul_pos (by exact_mod_cast this.1) (by exact_mod_cast this.2)
      rw [ht, hsyn] at g
      have g : tvP (r * k) c.alp_v c.alp_h = r * k := g
      unfold tvP at g
      rcases hpos with hpos | hpos
      · rw [if_pos (show job c.alp_v = true from by simp [job, hpos])] at g
        omega
      · rw [if_pos (show job c.alp_h = true from by simp [job, hpos])] at g
        omega

end matlab

/-! ## C65 -/

section python
variable {F : Type} [Scalar F] {lib : FftwLib F} {a : PyNestaArgs F} {s s' : NState (PyState F)} {out : PyNestaOut F} {L : Sets F}

/-- How every defined call from Python ends (arrays of at most 2^31-1 entries, `n_continue` below the largest `int`).
1. An exception before the library is called, nothing changed; or
2. the arguments are right in number and shape, but the setup fails: `RuntimeError`, the caller's memory and references returned; or
3. the setup succeeds with a set `t` for the arguments.  Then all the caller's memory is returned, but `t` is still alive.  Either building
the result fails (`MemoryError`, at most one object left behind), or a tuple of an array of shape `mrow` by `mcol` and the status
is returned.  The status is 0 and the array NESTA's result, or it is `L1C_OUT_OF_MEMORY` or `L1C_INVALID_ARGUMENT` (exactly when the
mode is synthesis and a weight positive) and the array is zero.
Missing: the set is never destroyed (`C65_never_released_false`), the array keeps an extra reference (`C65_reference_false`), a failure
does not raise an exception (`C65_synthesis_false`). -/
theorem C65_outcome_partial (hs : s.WF) (hr : s.cb.WF) (hw : Hist lib s.cb.w L) (htv : L.tv = none) (hb : ∀ two, ¬ L.busy two)
    (hsz : ∀ b, a.b = some b → (b.dim0 : Int) ≤ INT_MAX) (hsz' : ∀ p, a.pix_idx = some p → (p.dim0 : Int) ≤ INT_MAX) (hN : a.opts.n_continue < INT_MAX)
    (h : py_nesta_dctTV lib a s = some (out, s')) :
    (∃ kind, out = .exc kind ∧ s'.live = s.live ∧ s'.cb.w = s.cb.w ∧ s'.cb.refs = s.cb.refs) ∨
    ∃ b p, (a.bp_mode = BP_ANALYSIS ∨ a.bp_mode = BP_SYNTHESIS) ∧ (a.dct_mode = DCT1 ∨ a.dct_mode = DCT2) ∧ a.b = some b ∧ a.pix_idx = some p ∧
      b.ndim = 1 ∧ p.ndim = 1 ∧ b.dim0 = p.dim0 ∧ FitsInt (a.mrow * a.mcol) ∧ (b.dim0 : Int) ≤ a.mrow * a.mcol ∧ s'.live = s.live ∧
      ((out = .exc "RuntimeError" ∧ s'.cb.refs = s.cb.refs ∧ ∃ st, st ≠ 0 ∧
        l1c_setup_dctTV_transforms b.dim0 a.mrow a.mcol a.alpha_v a.alpha_h a.dct_mode (decide (a.bp_mode = BP_ANALYSIS)) (List.ofFn p.data) s.cb.w =
          some ((st, none), s'.cb.w)) ∨
      ∃ (r k : ℕ) (t : SetTv F) (w : World F), a.mrow = r ∧ a.mcol = k ∧
        t = ⟨r, k, b.dim0, List.ofFn p.data, a.alpha_v, a.alpha_h, !(decide (a.bp_mode = BP_ANALYSIS)), twoDim r k a.dct_mode⟩ ∧
        ValidTv b.dim0 a.mrow a.mcol a.alpha_v a.alpha_h (List.ofFn p.data) ∧
        Hist lib w (({ L with tv := some t }).note1 (twoDim r k a.dct_mode) L1C_SUCCESS) ∧
        Hist lib s'.cb.w (({ L with tv := some t }).note1 (twoDim r k a.dct_mode) L1C_SUCCESS) ∧
        ((out = .exc "MemoryError" ∧ (s'.cb.refs = s.cb.refs ∨ ∃ x, s.cb.next ≤ x ∧ s'.cb.refs = Function.update s.cb.refs x 1)) ∨
         ∃ tu x xk st, tu ≠ x ∧ s.cb.next ≤ tu ∧ s.cb.next ≤ x ∧ out = .ret tu x r k xk st ∧
          s'.cb.refs = Function.update (Function.update s.cb.refs x 2) tu 1 ∧
          ((t.m ≠ r * k ∧ st = L1C_INVALID_ARGUMENT ∧ xk = ⟨r * k, fun _ => lit 0⟩) ∨
           (t.m = r * k ∧ st = L1C_OUT_OF_MEMORY ∧ xk = ⟨r * k, fun _ => lit 0⟩) ∨
           (t.m = r * k ∧ st = 0 ∧ ∃ (b' : Vec F t.n) (o : NestaOut F t.n t.m t.p) (s1 : NState (World F)), (∀ i : Fin b.dim0, ∃ h, b' ⟨i, h⟩ = b.data i) ∧
            l1c_nesta t.m t.n (fun _ => lit 0) b' (setNAx lib t.kind t.n t.m t.p (tvNormW (decide (a.bp_mode = BP_ANALYSIS)) a.alpha_v a.alpha_h)) a.opts
              { mexCallState (pyLib s) with cb := w } = some (o, s1) ∧
            (∀ i < 11, s.oracle (s.calls + 2 + i) = true) ∧ xk = ⟨t.m, o.xk⟩ ∧ ∃ ax, l1c_setup_dctTV_transforms b.dim0 a.mrow a.mcol a.alpha_v a.alpha_h a.dct_mode
              (decide (a.bp_mode = BP_ANALYSIS)) (List.ofFn p.data) s.cb.w = some ((L1C_SUCCESS, some ax), w))))) := by
  rcases pyn_inv hs hr h with h | ⟨b, p, h1, h2, h3, h4, h5, h6, h7, hrest⟩
  · exact Or.inl h
  rw [toCInt_small (hsz b h3), toCInt_small (hsz' p h4)] at hrest
  obtain ⟨h8, h9, h10, h11, h12, bd, h13, h14⟩ := hrest
  have hlen : b.dim0 = p.dim0 := by exact_mod_cast h9
  rw [List.take_of_length_le (by rw [List.length_ofFn, Int.toNat_natCast, hlen])] at h14
  refine Or.inr ⟨b, p, h1, h2, h3, h4, h5, h6, hlen, h7, h8, ?_⟩
  rcases h14 with ⟨st, g1, g2, g3, g4⟩ | ⟨st0, ax, w, st, xk, s1, g1, g2, g3, g4, g5⟩
  · refine ⟨g3, Or.inl ⟨g2, g4, st, ?_, g1⟩⟩
    rcases tv_setup_status g1 with rfl | rfl | rfl <;> decide
  have hst : st0 = L1C_SUCCESS := (C26_reported_sizes g1 rfl).1
  subst hst
  have hv := C28_accepts_only_valid g1 rfl
  obtain ⟨nd, b0, bdata⟩ := b
  have hbd : bdata = bd := by
    have h13 : slice b0 0 bdata = some bd := h13
    rw [slice_full] at h13
    exact Option.some.inj h13
  subst hbd
  dsimp only at *
  clear h13 hsz hsz' h3 h4 h
  obtain ⟨mrow, mcol, ab, ap, av, ah, bp, dm, opts⟩ := a
  dsimp only at *
  obtain ⟨r, rfl⟩ := Int.eq_ofNat_of_zero_le hv.1.2.1.le
  obtain ⟨k, rfl⟩ := Int.eq_ofNat_of_zero_le hv.1.2.2.1.le
  obtain ⟨-, t, L1, ht, hL1, hw1, hLe, hax, -⟩ := tv_live hw (by rw [List.length_ofFn, hlen]) htv (hb _) g1
  subst hax
  have hn : b0 ≤ r * k := by exact_mod_cast h8
  have hwf : NState.WF { mexCallState (pyLib s) with cb := w } := fun c hc => mexCallState_wf (s := pyLib s) hs c hc
  have hb' : ∃ b' : Vec F t.n, (⟨b0, bdata⟩ : Arr F) = ⟨t.n, b'⟩ ∧ (∀ i : Fin b0, ∃ h, b' ⟨i, h⟩ = bdata i) := by
    subst ht; exact ⟨bdata, rfl, fun i => ⟨i.2, rfl⟩⟩
  obtain ⟨b', hb', hbi⟩ := hb'
  have htn : (b0 : Int) = t.n := by subst ht; rfl
  have hrk : t.mrow * t.mcol = r * k := by subst ht; rfl
  have g2 : nestaArr lib ⟨t.n, t.m, t.p, (r * k : ℕ), tvNormW (decide (bp = BP_ANALYSIS)) av ah, t.kind⟩ (r * k : ℕ) ⟨r * k, fun _ => lit 0⟩ t.n ⟨t.n, b'⟩ opts
      { mexCallState (pyLib s) with cb := w } = some ((st, xk), s1) := by
    rw [← hb']
    exact (congrArg (fun z : Int => nestaArr lib ⟨t.n, t.m, t.p, (r * k : ℕ), tvNormW (decide (bp = BP_ANALYSIS)) av ah, t.kind⟩ (r * k : ℕ)
      ⟨r * k, fun _ => lit 0⟩ z ⟨b0, bdata⟩ opts { mexCallState (pyLib s) with cb := w }) htn.symm).trans g2
  have hn' : t.n ≤ t.mrow * t.mcol := by
    rw [hrk, ← show b0 = t.n by exact_mod_cast htn]
    exact hn
  obtain ⟨e1, e2, e3⟩ := nestaArr_live hwf hw1 hL1 hn' hN g2
  refine ⟨g4 e1, Or.inr ⟨r, k, t, w, rfl, rfl, ht, hv, hLe ▸ hw1, by rw [g3, ← hLe]; exact e2, ?_⟩⟩
  rcases g5 with g5 | ⟨tu, x, q1, q2, q3, q4, q5⟩
  · exact Or.inl g5
  refine Or.inr ⟨tu, x, xk, st, q1, q2, q3, q4, q5, ?_⟩
  rcases e3 with e3 | e3 | ⟨f1, f2, o, f3, f4, f5⟩
  · exact Or.inl e3
  · exact Or.inr (Or.inl e3)
  · exact Or.inr (Or.inr ⟨f1, f2, b', o, s1, hbi, f3, f4, f5, _, g1⟩)

/-- False: a call that returns leaves the transform set alive; nothing destroys it later. -/
theorem C65_never_released_false (hs : s.WF) (hr : s.cb.WF) (hw : Hist lib s.cb.w L) (htv : L.tv = none) (hb : ∀ two, ¬ L.busy two)
    (hsz : ∀ b, a.b = some b → (b.dim0 : Int) ≤ INT_MAX) (hsz' : ∀ p, a.pix_idx = some p → (p.dim0 : Int) ≤ INT_MAX) (hN : a.opts.n_continue < INT_MAX)
    {tu x : ℕ} {rows cols st : Int} {xk : Arr F} (h : py_nesta_dctTV lib a s = some (.ret tu x rows cols xk st, s')) :
    ∃ L1 t, Hist lib s'.cb.w L1 ∧ L1.tv = some t := by
  rcases C65_outcome_partial hs hr hw htv hb hsz hsz' hN h with ⟨k, h, -⟩ | ⟨b, p, -, -, -, -, -, -, -, -, -, -, ⟨h, -⟩ | ⟨r, k, t, w, -, -, -, -, -, g, -⟩⟩
  · cases h
  · cases h
  · exact ⟨_, t, g, rfl⟩

/-- False: the array returned has two references although only the result tuple refers to it; it is never released. -/
theorem C65_reference_false (hs : s.WF) (hr : s.cb.WF) (hw : Hist lib s.cb.w L) (htv : L.tv = none) (hb : ∀ two, ¬ L.busy two)
    (hsz : ∀ b, a.b = some b → (b.dim0 : Int) ≤ INT_MAX) (hsz' : ∀ p, a.pix_idx = some p → (p.dim0 : Int) ≤ INT_MAX) (hN : a.opts.n_continue < INT_MAX)
    {tu x : ℕ} {rows cols st : Int} {xk : Arr F} (h : py_nesta_dctTV lib a s = some (.ret tu x rows cols xk st, s')) :
    tu ≠ x ∧ s'.cb.refs x = 2 ∧ s'.cb.refs tu = 1 ∧ ∀ o, o ≠ tu → o ≠ x → s'.cb.refs o = s.cb.refs o := by
  rcases C65_outcome_partial hs hr hw htv hb hsz hsz' hN h with ⟨k, h, -⟩ | ⟨b, p, -, -, -, -, -, -, -, -, -, -, ⟨h, -⟩ | ⟨r, k, t, w, -, -, -, -, -, -, ⟨h, -⟩ |
    ⟨tu', x', xk', st', h1, -, -, h2, h3, -⟩⟩⟩
  · cases h
  · cases h
  · cases h
  · cases h2
    rw [h3]
    refine ⟨h1, ?_, ?_, fun o h4 h5 => ?_⟩
    · rw [Function.update_of_ne (Ne.symm h1), Function.update_self]
    · rw [Function.update_self]
    · rw [Function.update_of_ne h4, Function.update_of_ne h5]

/-- False: in synthesis mode with a positive weight a call that returns gives an array of zeros and the status
`L1C_INVALID_ARGUMENT`, whatever the samples, without an exception. -/
theorem C65_synthesis_false (hs : s.WF) (hr : s.cb.WF) (hw : Hist lib s.cb.w L) (htv : L.tv = none) (hb : ∀ two, ¬ L.busy two)
    (hsz : ∀ b, a.b = some b → (b.dim0 : Int) ≤ INT_MAX) (hsz' : ∀ p, a.pix_idx = some p → (p.dim0 : Int) ≤ INT_MAX) (hN : a.opts.n_continue < INT_MAX)
    (hsyn : a.bp_mode = BP_SYNTHESIS) (hpos : flt (lit 0) a.alpha_v = true ∨ flt (lit 0) a.alpha_h = true)
    {tu x : ℕ} {rows cols st : Int} {xk : Arr F} (h : py_nesta_dctTV lib a s = some (.ret tu x rows cols xk st, s')) :
    st = L1C_INVALID_ARGUMENT ∧ ∀ i, xk.2 i = lit 0 := by
  rcases C65_outcome_partial hs hr hw htv hb hsz hsz' hN h with ⟨k, h, -⟩ | ⟨b, p, -, -, -, -, -, -, -, -, -, -, ⟨h, -⟩ | ⟨r, k, t, w, e1, e2, ht, hv, -, -, ⟨h, -⟩ |
    ⟨tu', x', xk', st', h1, -, -, h2, h3, h4⟩⟩⟩
  · cases h
  · cases h
  · cases h
  · cases h2
    rcases h4 with ⟨-, h4, rfl⟩ | ⟨g, -⟩ | ⟨g, -⟩
    · exact ⟨h4, fun i => rfl⟩
    all_goals
      exfalso
      have hr : 0 < r * k := by
        have := hv.1.2
        rw [e1, e2] at this
        exact Nat.mul_pos (by exact_mod_cast this.1) (by exact_mod_cast this.2.1)
      rw [ht, hsyn] at g
      have g : tvP (r * k) a.alpha_v a.alpha_h = r * k := g
      unfold tvP at g
      rcases hpos with hpos | hpos
      · rw [if_pos (show job a.alpha_v = true from by simp [job, hpos])] at g
        omega
      · rw [if_pos (show job a.alpha_h = true from by simp [job, hpos])] at g
        omega

/-- valid calls with enough memory return -/
theorem py_returns {r k n : ℕ} {bp : Int} {ana : Bool} (hbp : bp = BP_ANALYSIS ∨ bp = BP_SYNTHESIS) (hana : ana = decide (bp = BP_ANALYSIS)) {b : Vec F n} {pix : Fin n → Int} {av ah : F} {dm : Int} {opts : NestaOpts F}
    (hsq : ana = false → tvP (r * k) av ah = r * k) (hs : s.WF) (hw : Hist lib s.cb.w L) (htv : L.tv = none) (hb : ∀ two, ¬ L.busy two) (hN : opts.n_continue < INT_MAX)
    (hdm : dm = DCT1 ∨ dm = DCT2) (hf : FitsInt ((r : Int) * k)) (hn : n ≤ r * k) (hv : ValidTv n r k av ah (List.ofFn pix)) (hp : FitsInt (tvP (r * k) av ah))
    (hpy : ∀ i < 4, s.cb.oracle (s.cb.calls + i) = true) (hal : ∀ i < 13, s.oracle (s.calls + i) = true) (hal' : ∀ i < 6, s.cb.w.oracle (s.cb.w.calls + i) = true) :
    ∃ tu x xk s', py_nesta_dctTV lib ⟨r, k, some ⟨1, n, b⟩, some ⟨1, n, pix⟩, av, ah, bp, dm, opts⟩ s = some (.ret tu x r k xk 0, s') := by
  have hrk : ((r : Int) * k).toNat = r * k := by exact_mod_cast Int.toNat_natCast (r * k)
  obtain ⟨ax, w, hsu⟩ := tv_accepts (dct_mode := dm) (analysis := ana) hf hv (by rw [hrk]; exact hp) hal'
  obtain ⟨-, t, L1, ht, hL1, hw1, hLe, hax, -⟩ := tv_live hw (by rw [List.length_ofFn]) htv (hb _) hsu
  have hwf : NState.WF { mexCallState (pyLib s) with cb := w } := fun c hc => mexCallState_wf (s := pyLib s) hs c hc
  subst ht
  have hmm : SetTv.m ⟨r, k, n, List.ofFn pix, av, ah, !ana, twoDim r k dm⟩ = r * k := by
    cases ana
    · exact hsq rfl
    · rfl
  obtain ⟨o, s1, e, e1, e2, e3⟩ := (nesta_live (opts := opts) hwf hw1 hL1 hn hN (tvNormW ana av ah) (fun _ => lit 0) b).2.2 (fun i hi => by
    show s.oracle (s.calls + 1 + 1 + i) = true
    rw [add_assoc, add_assoc]
    exact hal _ (by omega))
  have hne := nestaArr_eq (lib := lib) (q := (r * k : ℕ)) (nw := tvNormW ana av ah) (opts := opts) (s := { mexCallState (pyLib s) with cb := w })
    (t := ⟨r, k, n, List.ofFn pix, av, ah, !ana, twoDim r k dm⟩) (fun _ => lit 0) b
  rw [e, Option.map_some, e1] at hne
  subst hax
  obtain ⟨tu, x, s', h, -⟩ := pyn_eval (lib := lib) (a := ⟨r, k, some ⟨1, n, b⟩, some ⟨1, n, pix⟩, av, ah, bp, dm, opts⟩) (s := s) rfl rfl hbp hdm hf
    (by show (n : Int) ≤ r * k; exact_mod_cast hn) hpy (hal 0 (by omega)) (hal 1 (by omega)) (by rw [hana] at hsu; exact hsu) (st := 0) (xk := ⟨_, o.xk⟩) (s1 := s1) (by
      show nestaArr lib _ ((r : Int) * k) ⟨((r : Int) * k).toNat, fun _ => lit 0⟩ n ⟨n, b⟩ opts _ = _
      rw [hrk, ← Nat.cast_mul, ← hana, ← hmm]
      exact hne) e2
  exact ⟨tu, x, _, s', h⟩

/-- In analysis mode, with valid arguments and enough memory, a call returns with status 0. -/
theorem C65_returns {r k n : ℕ} {b : Vec F n} {pix : Fin n → Int} {av ah : F} {dm : Int} {opts : NestaOpts F}
    (hs : s.WF) (hw : Hist lib s.cb.w L) (htv : L.tv = none) (hb : ∀ two, ¬ L.busy two) (hN : opts.n_continue < INT_MAX)
    (hdm : dm = DCT1 ∨ dm = DCT2) (hf : FitsInt ((r : Int) * k)) (hn : n ≤ r * k) (hv : ValidTv n r k av ah (List.ofFn pix)) (hp : FitsInt (tvP (r * k) av ah))
    (hpy : ∀ i < 4, s.cb.oracle (s.cb.calls + i) = true) (hal : ∀ i < 13, s.oracle (s.calls + i) = true) (hal' : ∀ i < 6, s.cb.w.oracle (s.cb.w.calls + i) = true) :
    ∃ tu x xk s', py_nesta_dctTV lib ⟨r, k, some ⟨1, n, b⟩, some ⟨1, n, pix⟩, av, ah, BP_ANALYSIS, dm, opts⟩ s = some (.ret tu x r k xk 0, s') :=
  py_returns (Or.inl rfl) rfl (fun h => by cases h) hs hw htv hb hN hdm hf hn hv hp hpy hal hal'

end python

/-! ## C66 -/

section exact
variable {lib : FftwLib Dbl} {L : Sets Dbl}

theorem tvReal_of_valid {r k n : ℕ} {idx : List Int} {av ah : ℝ} {syn two : Bool} (hv : ValidTv n r k (Dbl.fin av) (Dbl.fin ah) idx) :
    TvReal ⟨r, k, n, idx, .fin av, .fin ah, syn, two⟩ av ah := by
  obtain ⟨-, h1, h2, h3⟩ := hv
  rw [Dbl.lit_eq, Dbl.flt_fin] at h1 h2
  push_cast at h1 h2
  refine ⟨rfl, rfl, not_lt.1 h1, not_lt.1 h2, fun h => ?_⟩
  have := h3 (by
    rw [Dbl.lit_eq, Dbl.flt_fin, Dbl.flt_fin]
    push_cast
    exact h)
  show 2 ≤ r ∧ 2 ≤ k
  omega

/-- NESTA on a live analysis set -/
theorem ana_exact (hlib : LibOk lib) {s : NState (World Dbl)} (hwf : s.WF) (hw : Hist lib s.cb L) {r k n : ℕ} {av ah : ℝ} {two : Bool} {ix : Fin n → Fin (r * k)}
    {t : SetTv Dbl} (hL : L.tv = some t) (ht : t = ⟨r, k, n, List.ofFn fun i => ((ix i : ℕ) : Int), .fin av, .fin ah, false, two⟩)
    (hr : TvReal t av ah) (hinj : Function.Injective ix) {b : Fin n → ℝ} {b' : Vec Dbl t.n} (hb : ∀ i : Fin n, ∃ h, b' ⟨i, h⟩ = .fin (b i))
    {sigma mu : ℝ} {tol : Dbl} {N : Int} (xk : Vec Dbl t.m) (hN : N < INT_MAX) (hal : ∀ i < 11, s.oracle (s.calls + i) = true) :
    (0 < sigma → (1 ≤ N → 0 < mu ∧ b ≠ 0) → 0 < r * k →
      ∃ (y : Fin (r * k) → ℝ) (out : NestaOut Dbl t.n t.m t.p) (s' : NState (World Dbl)),
        l1c_nesta t.m t.n xk b' (setNAx lib t.kind t.n t.m t.p (tvNormW true (.fin av) (.fin ah))) ⟨.fin sigma, .fin mu, tol, N⟩ s = some (out, s') ∧
        (∀ i : Fin (r * k), ∃ h, out.xk ⟨i, h⟩ = .fin (y i)) ∧ √(∑ i, (y (ix i) - b i) ^ 2) ≤ sigma) ∧
    (0 < mu → 1 ≤ N → b = 0 → 0 < r * k → ∀ out s',
      l1c_nesta t.m t.n xk b' (setNAx lib t.kind t.n t.m t.p (tvNormW true (.fin av) (.fin ah))) ⟨.fin sigma, .fin mu, tol, N⟩ s = some (out, s') →
      ∀ i, ¬ (out.xk i).IsFin) := by
  subst ht
  have hidx : ∀ i : Fin n, idxFun n (List.ofFn fun i => ((ix i : ℕ) : Int)) i = (ix i : ℕ) := fun i => by
    unfold idxFun
    rw [List.getD_eq_getElem?_getD, List.getElem?_eq_getElem (by rw [List.length_ofFn]; exact i.2), List.getElem_ofFn]
    rfl
  have hinj' : Function.Injective (idxFun n (List.ofFn fun i => ((ix i : ℕ) : Int))) := fun i j h => by
    rw [hidx, hidx] at h
    exact hinj (Fin.ext (by exact_mod_cast h))
  obtain ⟨ix', A, W, h1, h2, h3, R, h5, h6, h7⟩ := setN_realises hlib hw hL rfl hr hinj' (tvNormW true (.fin av) (.fin ah))
  have hix : ∀ i : Fin n, ix' i = ix i := fun i => Fin.ext (by
    have := (h1 i).trans (hidx i)
    exact_mod_cast this)
  have hb' : b' = fvec b := by
    funext i
    obtain ⟨_, h⟩ := hb i
    exact h
  subst hb'
  have hK : (setNAx lib .tvAna n (r * k) (tvP (r * k) (Dbl.fin av) (Dbl.fin ah)) (tvNormW true (.fin av) (.fin ah))).norm_W = .fin (√(1 + 4 * av ^ 2 + 4 * ah ^ 2)) := h6
  have hK0 : √(1 + 4 * av ^ 2 + 4 * ah ^ 2) ≠ 0 := by positivity
  have hp0 : 0 < r * k → 0 < tvP (r * k) (Dbl.fin av) (Dbl.fin ah) := fun h => lt_of_lt_of_le h (by simpa using tvP_zero (r * k) (Dbl.fin av) (Dbl.fin ah))
  have hres : ∀ y : Fin (r * k) → ℝ, nrm (b - A *ᵥ y) = √(∑ i, (y (ix i) - b i) ^ 2) := fun y => by
    unfold nrm
    congr 1
    refine Finset.sum_congr rfl fun i _ => ?_
    rw [Pi.sub_apply, h2 y i, hix i]
    ring
  constructor
  · intro hs hN1 hrk
    rcases le_or_gt N 0 with hN0 | hN0
    · obtain ⟨out, s', e, e1, e2, e3⟩ := C39_no_steps_partial R h3 (hp0 hrk) (b := b) (opts := ⟨.fin sigma, .fin mu, tol, N⟩) hs hK hN0 xk s hw hwf hal
      refine ⟨Aᵀ *ᵥ b, out, s', e, fun i => ⟨i.2, ?_⟩, by rw [← hres]; exact e3⟩
      exact congrFun e2 i
    · obtain ⟨hm, hb0⟩ := hN1 (by omega)
      have hx : Aᵀ *ᵥ b ≠ 0 := fun hc => hb0 (by
        have : (A * Aᵀ) *ᵥ b = 0 := by rw [← mulVec_mulVec, hc, mulVec_zero]
        rwa [h3, one_mulVec] at this)
      obtain ⟨j, hj, hj'⟩ := h5 _ hx
      obtain ⟨y, out, s', e, e1, e2, e3⟩ := C39_feasible_partial R h3 (b := b) (opts := ⟨.fin sigma, .fin mu, tol, N⟩) rfl hs rfl hm hK hK0 ⟨j, Or.inl ⟨hj, hj'⟩⟩
        (by show 1 ≤ N; omega) hN xk s hw hwf hal
      refine ⟨y, out, s', e, fun i => ⟨i.2, ?_⟩, by rw [← hres]; exact e3⟩
      exact congrFun e2 i
  · intro hm hN1 hb0 hrk out s' e
    subst hb0
    exact (C39_zero_data_not_finite R (hp0 hrk) (b := 0) (opts := ⟨.fin sigma, .fin mu, tol, N⟩) rfl hm hK (fun i => by simp [mulVec_zero]) hN1 xk s s' hw hwf
      (fun i hi => hal i (by omega)) out e).2

theorem oneBased_fin {r k n : ℕ} {pix : Fin n → Int} {idx : List Int} (h : OneBased ((r : Int) * k) (List.ofFn fun i => Dbl.fin (pix i : ℝ)) idx) :
    ∃ ix : Fin n → Fin (r * k), idx = List.ofFn (fun i => ((ix i : ℕ) : Int)) ∧ ∀ i, ((ix i : ℕ) : Int) + 1 = pix i := by
  have hl := oneBased_length h
  rw [List.length_ofFn] at hl
  have hg : ∀ i : Fin n, pix i = idx[i.val]'(by omega) + 1 ∧ 0 ≤ idx[i.val]'(by omega) ∧ idx[i.val]'(by omega) < r * k := fun i => by
    have := (List.forall₂_iff_get.1 h).2 i.val (by rw [List.length_ofFn]; exact i.2) (by omega)
    simp only [List.get_eq_getElem, List.getElem_ofFn, Fin.eta] at this
    rw [castInt_int] at this
    split at this
    · exact ⟨Option.some.inj this.1, this.2⟩
    · cases this.1
  refine ⟨fun i => ⟨(idx[i.val]'(by omega)).toNat, ?_⟩, ?_, fun i => ?_⟩
  · have := hg i
    zify
    rw [Int.toNat_of_nonneg this.2.1]
    exact this.2.2
  · apply List.ext_getElem
    · rw [List.length_ofFn]; omega
    · intro j h1 h2
      rw [List.getElem_ofFn]
      have := hg ⟨j, by omega⟩
      exact (Int.toNat_of_nonneg this.2.1).symm
  · have := hg i
    show ((idx[i.val]'(by omega)).toNat : Int) + 1 = pix i
    rw [Int.toNat_of_nonneg this.2.1]
    exact this.1.symm

variable {junk : ℕ → Dbl} {nlhs : ℕ} {prhs : List (MxVal Dbl)} {mode : Option (Option String)} {s s' : NState (World Dbl)}
  {r k n : ℕ} {b : Fin n → ℝ} {pix : Fin n → Int} {sigma mu av ah : ℝ} {tol : Dbl} {N dm : Int}

/-- **C66**, Matlab: the image returned in analysis mode fits the samples.  It consists of finite numbers and at the given pixels differs from the samples
by at most sigma in the Euclidean norm.  Missing: exact arithmetic; the samples must not all vanish (`C66_matlab_zero_false`). -/
theorem C66_matlab_partial (hlib : LibOk lib) (hs : s.WF) (hw : Hist lib s.cb L) (htv : L.tv = none) (hb : ∀ two, ¬ L.busy two)
    (hg : NestaMexGood prhs mode ⟨r, k, ⟨n, fvec b⟩, ⟨n, fun i => .fin (pix i : ℝ)⟩, ⟨.fin sigma, .fin mu, tol, N⟩, .fin av, .fin ah, dm, true⟩) (hl : 2 ≤ nlhs)
    (hN : N < INT_MAX) (hinj : Function.Injective pix) (hsig : 0 < sigma) (hd : 1 ≤ N → 0 < mu ∧ b ≠ 0)
    {rows cols st : Int} {x : Arr Dbl} (h : nesta_dctTV_mex lib junk nlhs prhs mode s = some (.ret rows cols x st, s')) :
    rows = r ∧ cols = k ∧ st = 0 ∧ ∃ (y : Fin (r * k) → ℝ) (ix : Fin n → Fin (r * k)), x = ⟨r * k, fvec y⟩ ∧ (∀ i, ((ix i : ℕ) : Int) + 1 = pix i) ∧
      √(∑ i, (y (ix i) - b i) ^ 2) ≤ sigma := by
  have hp := C64_accepts hg hl
  have hpos := hg.pos
  dsimp only at hpos
  rcases C64_outcome_partial hs hw htv hb hp hN h with ⟨r', k', x', idx, t, e, e1, e2, e3, hi, hv, -, -, ht, h1⟩ | h | h | h
  swap
  · cases h
  swap
  · cases h
  swap
  · cases h
  dsimp only at *
  obtain rfl : r = r' := by exact_mod_cast e1
  obtain rfl : k = k' := by exact_mod_cast e2
  cases e3
  obtain ⟨ix, rfl, hix⟩ := oneBased_fin hi
  obtain ⟨w, b', o, s1, hw1, hb', hrun, hal, hx⟩ := h1 rfl
  have hinj' : Function.Injective ix := fun i j hij => hinj (by rw [← hix, ← hix, hij])
  have hrk : 0 < r * k := Nat.mul_pos (by omega) (by omega)
  have hr : TvReal t av ah := by subst ht; exact tvReal_of_valid hv
  obtain ⟨y, o', s1', g1, g2, g3⟩ := (ana_exact (N := N) (tol := tol) (sigma := sigma) (mu := mu) hlib (mexCallState_wf (nmexState_wf hs w)) hw1 rfl ht hr hinj' (b := b) (b' := b')
    (fun i => hb' i) (fun i => junk i) hN hal).1 hsig hd hrk
  rw [hrun] at g1
  cases g1
  refine ⟨rfl, rfl, rfl, y, ix, ?_, hix, g3⟩
  congr 1
  funext i
  obtain ⟨_, hi1⟩ := hx i
  obtain ⟨_, hi2⟩ := g2 i
  exact hi1.trans hi2

/-- False without that: if all samples vanish (and at least one continuation step is made), whatever is returned has no finite entry
although the status is 0. -/
theorem C66_matlab_zero_false (hlib : LibOk lib) (hs : s.WF) (hw : Hist lib s.cb L) (htv : L.tv = none) (hb : ∀ two, ¬ L.busy two)
    (hg : NestaMexGood prhs mode ⟨r, k, ⟨n, fvec 0⟩, ⟨n, fun i => .fin (pix i : ℝ)⟩, ⟨.fin sigma, .fin mu, tol, N⟩, .fin av, .fin ah, dm, true⟩) (hl : 2 ≤ nlhs)
    (hN : N < INT_MAX) (hinj : Function.Injective pix) (hm : 0 < mu) (hN1 : 1 ≤ N)
    {rows cols st : Int} {x : Arr Dbl} (h : nesta_dctTV_mex lib junk nlhs prhs mode s = some (.ret rows cols x st, s')) :
    st = 0 ∧ ∀ i, ¬ (x.2 i).IsFin := by
  have hp := C64_accepts hg hl
  have hpos := hg.pos
  dsimp only at hpos
  rcases C64_outcome_partial hs hw htv hb hp hN h with ⟨r', k', x', idx, t, e, e1, e2, e3, hi, hv, -, -, ht, h1⟩ | h | h | h
  swap
  · cases h
  swap
  · cases h
  swap
  · cases h
  dsimp only at *
  obtain rfl : r = r' := by exact_mod_cast e1
  obtain rfl : k = k' := by exact_mod_cast e2
  cases e3
  obtain ⟨ix, rfl, hix⟩ := oneBased_fin hi
  obtain ⟨w, b', o, s1, hw1, hb', hrun, hal, hx⟩ := h1 rfl
  have hinj' : Function.Injective ix := fun i j hij => hinj (by rw [← hix, ← hix, hij])
  have hrk : 0 < r * k := Nat.mul_pos (by omega) (by omega)
  have hr : TvReal t av ah := by subst ht; exact tvReal_of_valid hv
  have := (ana_exact (N := N) (tol := tol) (sigma := sigma) (mu := mu) hlib (mexCallState_wf (nmexState_wf hs w)) hw1 rfl ht hr hinj' (b := 0) (b' := b')
    (fun i => hb' i) (fun i => junk i) hN hal).2 hm hN1 rfl hrk o s1 hrun
  refine ⟨rfl, fun i => ?_⟩
  obtain ⟨_, hi1⟩ := hx i
  show ¬ (x' i).IsFin
  rw [hi1]
  exact this _

/-- valid calls with enough memory return -/
theorem mex_returns {ana : Bool} (hsq : ana = false → tvP (r * k) (Dbl.fin av) (Dbl.fin ah) = r * k) (hs : s.WF) (hw : Hist lib s.cb L) (htv : L.tv = none) (hb : ∀ two, ¬ L.busy two)
    (hg : NestaMexGood prhs mode ⟨r, k, ⟨n, fvec b⟩, ⟨n, fun i => .fin (pix i : ℝ)⟩, ⟨.fin sigma, .fin mu, tol, N⟩, .fin av, .fin ah, dm, ana⟩) (hl : 2 ≤ nlhs)
    (hN : N < INT_MAX) (hpix : ∀ i, 1 ≤ pix i ∧ pix i ≤ r * k) (hv : 0 ≤ av) (hh : 0 ≤ ah) (hdim : (0 < av ∨ 0 < ah) → 2 < r ∧ 2 < k)
    (hp : FitsInt (tvP (r * k) (Dbl.fin av) (Dbl.fin ah))) (hal : ∀ i < 14, s.oracle (s.calls + i) = true) (hal' : ∀ i < 6, s.cb.oracle (s.cb.calls + i) = true) :
    ∃ x s', nesta_dctTV_mex lib junk nlhs prhs mode s = some (.ret r k x 0, s') := by
  have hpp := C64_accepts hg hl
  have hi : OneBased ((r : Int) * k) (List.ofFn fun i => Dbl.fin (pix i : ℝ)) ((List.ofFn pix).map fun k => k - 1) := by
    have := oneBased_ints (ks := List.ofFn pix) hg.fits (fun z hz => by
      obtain ⟨i, rfl⟩ := (List.mem_ofFn' _ _).1 hz
      exact hpix i)
    rw [List.map_ofFn] at this
    exact this
  have hvt : ValidTv n r k (Dbl.fin av) (Dbl.fin ah) ((List.ofFn pix).map fun k => k - 1) := by
    have h1 := hg.pos
    have h2 := hg.lt
    dsimp only at h1 h2
    have hn : 2 ≤ n := by
      obtain ⟨_, _, _, _, _, _, _, _, _, _, _, _, _, _, _, _, _, ⟨M, N, d, data, -, e, -, h3, -⟩, -⟩ := hg.args
      have := congrArg Sigma.fst e
      dsimp only at this
      omega
    refine ⟨⟨by omega, h1.1, h1.2, ?_⟩, ?_, ?_, ?_⟩
    · intro z hz
      obtain ⟨z', hz', rfl⟩ := List.mem_map.1 hz
      obtain ⟨i, rfl⟩ := (List.mem_ofFn' _ _).1 hz'
      have := hpix i
      omega
    · rw [Dbl.lit_eq, Dbl.flt_fin]; push_cast; exact not_lt.2 hv
    · rw [Dbl.lit_eq, Dbl.flt_fin]; push_cast; exact not_lt.2 hh
    · intro h
      rw [Dbl.lit_eq, Dbl.flt_fin, Dbl.flt_fin] at h
      push_cast at h
      have := hdim h
      omega
  have hsu : ∀ idx, OneBased ((r : Int) * k) (List.ofFn fun i => Dbl.fin (pix i : ℝ)) idx →
      ∃ ax w, l1c_setup_dctTV_transforms n r k (Dbl.fin av) (Dbl.fin ah) dm ana idx s.cb = some ((L1C_SUCCESS, some ax), w) := fun idx hidx => by
    have e : idx = (List.ofFn pix).map fun k => k - 1 := Option.some.inj (Option.some.inj ((mexIndices_iff.2 hidx).symm.trans (mexIndices_iff.2 hi)))
    subst e
    exact tv_accepts hg.fits hvt (by
      rw [show ((r : Int) * k).toNat = r * k from by exact_mod_cast Int.toNat_natCast (r * k)]
      exact hp) hal'
  obtain ⟨out, s', h⟩ := nmex_defined (lib := lib) (junk := junk) hs hw htv hb hpp hN (hal 0 (by omega)) (by rw [mexIndices_iff.2 hi]; intro h; cases h)
    (fun idx hidx => by
      obtain ⟨ax, w, h⟩ := hsu idx hidx
      exact fun hc => by rw [h] at hc; cases hc) (fun _ => hal 13 (by omega))
  obtain ⟨-, ⟨-, -, g⟩ | ⟨-, idx', hi', ⟨st', g, -⟩ | ⟨r', k', t, L1, w', e1, e2, ht, -, -, -, ⟨g, -⟩ | ⟨-, -, ⟨g, -⟩ | ⟨-, g, -⟩ | ⟨-, b', o, s1, x, -, -, -, g, -⟩⟩⟩⟩⟩ :=
    nmex_inv hs hw htv hb hpp hN h
  · rw [mexIndices_iff.2 hi] at g; cases g
  · obtain ⟨ax, w, h⟩ := hsu idx' hi'
    rw [h] at g; cases g
  · rw [hal 1 (by omega), hal 2 (by omega)] at g
    rcases g with g | g <;> cases g
  · subst ht
    dsimp only at e1 e2
    obtain rfl : r = r' := by exact_mod_cast e1
    obtain rfl : k = k' := by exact_mod_cast e2
    cases ana
    · exact absurd (hsq rfl) g
    · exact absurd rfl g
  · exact absurd (fun i hi => by rw [add_assoc]; exact hal (3 + i) (by omega)) g
  · dsimp only at e1 e2
    obtain rfl : r = r' := by exact_mod_cast e1
    obtain rfl : k = k' := by exact_mod_cast e2
    subst g
    exact ⟨_, s', h⟩

/-- **C66**, Matlab: such a call does return an image if the indices lie in the image, the weights are admissible, the size of the transforms
fits an `int` and all requests for memory are granted. -/
theorem C66_matlab_returns (hs : s.WF) (hw : Hist lib s.cb L) (htv : L.tv = none) (hb : ∀ two, ¬ L.busy two)
    (hg : NestaMexGood prhs mode ⟨r, k, ⟨n, fvec b⟩, ⟨n, fun i => .fin (pix i : ℝ)⟩, ⟨.fin sigma, .fin mu, tol, N⟩, .fin av, .fin ah, dm, true⟩) (hl : 2 ≤ nlhs)
    (hN : N < INT_MAX) (hpix : ∀ i, 1 ≤ pix i ∧ pix i ≤ r * k) (hv : 0 ≤ av) (hh : 0 ≤ ah) (hdim : (0 < av ∨ 0 < ah) → 2 < r ∧ 2 < k)
    (hp : FitsInt (tvP (r * k) (Dbl.fin av) (Dbl.fin ah))) (hal : ∀ i < 14, s.oracle (s.calls + i) = true) (hal' : ∀ i < 6, s.cb.oracle (s.cb.calls + i) = true) :
    ∃ x s', nesta_dctTV_mex lib junk nlhs prhs mode s = some (.ret r k x 0, s') :=
  mex_returns (fun h => by cases h) hs hw htv hb hg hl hN hpix hv hh hdim hp hal hal'

theorem valid_fin {r k n : ℕ} {pix : Fin n → Int} {av ah : Dbl} (hv : ValidTv n r k av ah (List.ofFn pix)) :
    ∃ ix : Fin n → Fin (r * k), ∀ i, ((ix i : ℕ) : Int) = pix i := by
  have h : ∀ i, ∃ j : Fin (r * k), ((j : ℕ) : Int) = pix i := fun i => by
    obtain ⟨h1, h2⟩ := hv.1.2.2.2 (pix i) ((List.mem_ofFn' _ _).2 ⟨i, rfl⟩)
    refine ⟨⟨(pix i).toNat, ?_⟩, Int.toNat_of_nonneg h1⟩
    zify
    rw [Int.toNat_of_nonneg h1]
    exact h2
  exact ⟨fun i => (h i).choose, fun i => (h i).choose_spec⟩

/-- what a call from Python in analysis mode with status 0 has run -/
theorem py_run {s s' : NState (PyState Dbl)} (hs : s.WF) (hr : s.cb.WF) (hw : Hist lib s.cb.w L) (htv : L.tv = none) (hb : ∀ two, ¬ L.busy two)
    (hn : (n : Int) ≤ INT_MAX) (hN : N < INT_MAX) {tu x : ℕ} {rows cols : Int} {xk : Arr Dbl}
    (h : py_nesta_dctTV lib ⟨r, k, some ⟨1, n, fvec b⟩, some ⟨1, n, pix⟩, .fin av, .fin ah, BP_ANALYSIS, dm, ⟨.fin sigma, .fin mu, tol, N⟩⟩ s =
      some (.ret tu x rows cols xk 0, s')) :
    rows = r ∧ cols = k ∧ 0 < r * k ∧ ∃ (ix : Fin n → Fin (r * k)) (t : SetTv Dbl) (w : World Dbl) (L1 : Sets Dbl) (b' : Vec Dbl t.n) (o : NestaOut Dbl t.n t.m t.p) (s1 : NState (World Dbl)),
      (∀ i, ((ix i : ℕ) : Int) = pix i) ∧ L1.tv = some t ∧ Hist lib w L1 ∧
      t = ⟨r, k, n, List.ofFn fun i => ((ix i : ℕ) : Int), .fin av, .fin ah, false, twoDim r k dm⟩ ∧ TvReal t av ah ∧ (∀ i : Fin n, ∃ h, b' ⟨i, h⟩ = .fin (b i)) ∧
      l1c_nesta t.m t.n (fun _ => lit 0) b' (setNAx lib t.kind t.n t.m t.p (tvNormW true (.fin av) (.fin ah))) ⟨.fin sigma, .fin mu, tol, N⟩
        { mexCallState (pyLib s) with cb := w } = some (o, s1) ∧
      (∀ i < 11, s.oracle (s.calls + 2 + i) = true) ∧ xk = ⟨t.m, o.xk⟩ := by
  rcases C65_outcome_partial hs hr hw htv hb (fun _ e => by cases e; exact hn) (fun _ e => by cases e; exact hn) hN h with
    ⟨k, h, -⟩ | ⟨b1, p, -, -, hb1, hp1, -, -, -, -, -, -, ⟨h, -⟩ | ⟨r', k', t, w, e1, e2, ht, hv, hw1, -, ⟨h, -⟩ | ⟨tu', x', xk', st', -, -, -, h2, -, h4⟩⟩⟩
  · cases h
  · cases h
  · cases h
  dsimp only at *
  cases hb1
  cases hp1
  cases h2
  obtain rfl : r = r' := by exact_mod_cast e1
  obtain rfl : k = k' := by exact_mod_cast e2
  have hrk : 0 < r * k := Nat.mul_pos (by exact_mod_cast hv.1.2.1) (by exact_mod_cast hv.1.2.2.1)
  obtain ⟨ix, hix⟩ := valid_fin hv
  have hpix : pix = fun i => ((ix i : ℕ) : Int) := funext fun i => (hix i).symm
  rcases h4 with ⟨-, h4, -⟩ | ⟨-, h4, -⟩ | ⟨-, -, b', o, s1, g1, g2, g3, g4, -⟩
  · cases h4
  · cases h4
  have ht' : t = ⟨r, k, n, List.ofFn fun i => ((ix i : ℕ) : Int), .fin av, .fin ah, false, twoDim r k dm⟩ := by
    rw [ht, hpix]; rfl
  have hr : TvReal t av ah := by subst ht; exact tvReal_of_valid hv
  exact ⟨rfl, rfl, hrk, ix, t, w, _, b', o, s1, hix, rfl, hw1, ht', hr, g1, g2, g3, g4⟩

/-- **C66**, Python: in analysis mode, with status 0, the image returned consists of finite numbers and at the given pixels differs from the samples by at
most sigma in the Euclidean norm.  Missing: exact arithmetic; the samples must not all vanish (`C66_python_zero_false`). -/
theorem C66_python_partial (hlib : LibOk lib) {s s' : NState (PyState Dbl)} (hs : s.WF) (hr : s.cb.WF) (hw : Hist lib s.cb.w L) (htv : L.tv = none) (hb : ∀ two, ¬ L.busy two)
    (hn : (n : Int) ≤ INT_MAX) (hN : N < INT_MAX) (hinj : Function.Injective pix) (hsig : 0 < sigma) (hd : 1 ≤ N → 0 < mu ∧ b ≠ 0)
    {tu x : ℕ} {rows cols : Int} {xk : Arr Dbl}
    (h : py_nesta_dctTV lib ⟨r, k, some ⟨1, n, fvec b⟩, some ⟨1, n, pix⟩, .fin av, .fin ah, BP_ANALYSIS, dm, ⟨.fin sigma, .fin mu, tol, N⟩⟩ s =
      some (.ret tu x rows cols xk 0, s')) :
    rows = r ∧ cols = k ∧ ∃ (y : Fin (r * k) → ℝ) (ix : Fin n → Fin (r * k)), xk = ⟨r * k, fvec y⟩ ∧ (∀ i, ((ix i : ℕ) : Int) = pix i) ∧
      √(∑ i, (y (ix i) - b i) ^ 2) ≤ sigma := by
  obtain ⟨e1, e2, hrk, ix, t, w, L1, b', o, s1, hix, hL1, hw1, ht, htr, hb', hrun, hal, hx⟩ := py_run hs hr hw htv hb hn hN h
  have hwf : NState.WF { mexCallState (pyLib s) with cb := w } := fun c hc => mexCallState_wf (s := pyLib s) hs c hc
  have hinj' : Function.Injective ix := fun i j hij => hinj (by rw [← hix, ← hix, hij])
  obtain ⟨y, o', s1', g1, g2, g3⟩ := (ana_exact (N := N) (tol := tol) (sigma := sigma) (mu := mu) hlib hwf hw1 hL1 ht htr hinj' (b := b) (b' := b')
    hb' (fun _ => lit 0) hN hal).1 hsig hd hrk
  rw [hrun] at g1
  cases g1
  refine ⟨e1, e2, y, ix, ?_, hix, g3⟩
  rw [hx]
  subst ht
  refine congrArg (Sigma.mk (r * k)) (funext fun i => ?_)
  obtain ⟨_, hi2⟩ := g2 i
  exact hi2

/-- False without that: if all samples vanish (and at least one continuation step is made), an array returned with status 0 has no finite entry. -/
theorem C66_python_zero_false (hlib : LibOk lib) {s s' : NState (PyState Dbl)} (hs : s.WF) (hr : s.cb.WF) (hw : Hist lib s.cb.w L) (htv : L.tv = none) (hb : ∀ two, ¬ L.busy two)
    (hn : (n : Int) ≤ INT_MAX) (hN : N < INT_MAX) (hinj : Function.Injective pix) (hm : 0 < mu) (hN1 : 1 ≤ N)
    {tu x : ℕ} {rows cols : Int} {xk : Arr Dbl}
    (h : py_nesta_dctTV lib ⟨r, k, some ⟨1, n, fvec 0⟩, some ⟨1, n, pix⟩, .fin av, .fin ah, BP_ANALYSIS, dm, ⟨.fin sigma, .fin mu, tol, N⟩⟩ s =
      some (.ret tu x rows cols xk 0, s')) : ∀ i, ¬ (xk.2 i).IsFin := by
  obtain ⟨e1, e2, hrk, ix, t, w, L1, b', o, s1, hix, hL1, hw1, ht, htr, hb', hrun, hal, hx⟩ := py_run hs hr hw htv hb hn hN h
  have hwf : NState.WF { mexCallState (pyLib s) with cb := w } := fun c hc => mexCallState_wf (s := pyLib s) hs c hc
  have hinj' : Function.Injective ix := fun i j hij => hinj (by rw [← hix, ← hix, hij])
  have := (ana_exact (N := N) (tol := tol) (sigma := sigma) (mu := mu) hlib hwf hw1 hL1 ht htr hinj' (b := 0) (b' := b')
    hb' (fun _ => lit 0) hN hal).2 hm hN1 rfl hrk o s1 hrun
  rw [hx]
  exact this

end exact

/-! ## Concrete calls -/

section examples

/-- samples `x`, `y` of a 3 by 3 image at the pixels 6 and 2 (counted from 1), all options 1 -/
noncomputable def nexPrhs (x y : ℝ) : List (MxVal Dbl) :=
  [.arr (mxNum 3), .arr (mxNum 3), mxPair x y, .arr ⟨true, 1, 2, 2, fun q => .fin ((![6, 2] q : Int) : ℝ)⟩, .struct 1 1 fun _ => some (mxNum 1)]

noncomputable def nexCall (x y : ℝ) (ana : Bool) : NestaMexCall Dbl :=
  ⟨(3 : ℕ), (3 : ℕ), ⟨2, fvec ![x, y]⟩, ⟨2, fun q => .fin ((![6, 2] q : Int) : ℝ)⟩, ⟨.fin 1, .fin 1, .fin 1, 1⟩, .fin 1, .fin 1, 1, ana⟩

theorem nex_good (x y : ℝ) (ana : Bool) : NestaMexGood (nexPrhs x y) (some (some (if ana then "analysis" else "synthesis"))) (nexCall x y ana) := by
  have e1 : castInt (Dbl.fin 1) = some 1 := by
    have := castInt_nat (k := 1) (by decide)
    rwa [Nat.cast_one] at this
  have e3 : castInt (Dbl.fin 3) = some ((3 : ℕ) : Int) := castInt_nat (k := 3) (by decide)
  have f : ∀ name, IsMxField (fun _ => some (mxNum 1)) name (Dbl.fin 1) := fun _ => ⟨2, rfl⟩
  refine ⟨⟨_, _, _, _, _, _, .fin 3, .fin 3, .fin 1, .fin 1, .fin 1, 1, rfl, ⟨2, rfl⟩, e3, ⟨2, rfl⟩, e3, ⟨1, 2, 2, _, rfl, rfl, by omega, by omega, le_refl _⟩,
    ⟨1, 2, 2, _, rfl, rfl, by omega, by omega, le_refl _⟩, f _, f _, f _, f _, e1, f _, e1, f _, f _, f _, e1⟩, rfl, ?_, ?_, rfl, ?_⟩
  · show FitsInt (3 * 3); unfold FitsInt INT_MAX INT_MIN; omega
  · show 0 < ((3 : ℕ) : Int) ∧ 0 < ((3 : ℕ) : Int); decide
  · show ((2 : ℕ) : Int) < 3 * 3; omega

theorem nex_inj : Function.Injective (![6, 2] : Fin 2 → Int) := by
  intro i j h
  fin_cases i <;> fin_cases j <;> simp_all

theorem nex_fits : FitsInt (tvP (3 * 3) (Dbl.fin 1) (Dbl.fin 1)) := by
  have j : job (Dbl.fin 1) = true := by
    unfold job
    rw [Dbl.lit_eq, Dbl.flt_fin]
    simp
  unfold tvP
  rw [if_pos j]
  unfold FitsInt INT_MAX INT_MIN
  omega

theorem nex_returns (junk : ℕ → Dbl) (x y : ℝ) : ∃ z s', nesta_dctTV_mex refLib junk 2 (nexPrhs x y) (some (some "analysis")) exWorld = some (.ret (3 : ℕ) (3 : ℕ) z 0, s') :=
  C66_matlab_returns (fun a h => by cases h) exWorld_hist rfl (fun _ => not_busy_empty _) (nex_good x y true) (le_refl _) (by decide)
    (fun i => by fin_cases i <;> exact ⟨by decide, by decide⟩) zero_le_one zero_le_one (fun _ => by omega) nex_fits (fun _ _ => rfl) (fun _ _ => rfl)

/-- `nesta_dctTV(3, 3, [7 8], [6 2], opts)` returns an image within 1 of the samples -/
example (junk : ℕ → Dbl) : ∃ (y : Fin 9 → ℝ) (s' : NState (World Dbl)), nesta_dctTV_mex refLib junk 2 (nexPrhs 7 8) (some (some "analysis")) exWorld =
    some (.ret 3 3 ⟨9, fvec y⟩ 0, s') ∧ √((y 5 - 7) ^ 2 + (y 1 - 8) ^ 2) ≤ 1 := by
  obtain ⟨z, s', h⟩ := nex_returns junk 7 8
  obtain ⟨-, -, -, y, ix, rfl, h1, h2⟩ := C66_matlab_partial refLib_ok (fun a h => by cases h) exWorld_hist rfl (fun _ => not_busy_empty _) (nex_good 7 8 true) (le_refl _)
    (by decide) nex_inj zero_lt_one (fun _ => ⟨zero_lt_one, fun hc => by have := congrFun hc 0; norm_num at this⟩) h
  refine ⟨y, s', h, ?_⟩
  have i0 : ix 0 = (5 : Fin 9) := Fin.ext (by have := h1 0; simp at this; show ((ix 0 : Fin (3 * 3)) : ℕ) = 5; omega)
  have i1 : ix 1 = (1 : Fin 9) := Fin.ext (by have := h1 1; simp at this; show ((ix 1 : Fin (3 * 3)) : ℕ) = 1; omega)
  rw [Fin.sum_univ_two, i0, i1] at h2
  exact h2

/-- with vanishing samples the call returns nine numbers that are not finite, and status 0 -/
example (junk : ℕ → Dbl) : ∃ z s', nesta_dctTV_mex refLib junk 2 (nexPrhs 0 0) (some (some "analysis")) exWorld = some (.ret 3 3 z 0, s') ∧ ∀ i, ¬ (z.2 i).IsFin := by
  obtain ⟨z, s', h⟩ := nex_returns junk 0 0
  have e : (![0, 0] : Fin 2 → ℝ) = 0 := by funext i; fin_cases i <;> rfl
  have g := nex_good 0 0 true
  unfold nexCall at g
  rw [e] at g
  exact ⟨z, s', h, (C66_matlab_zero_false refLib_ok (fun a h => by cases h) exWorld_hist rfl (fun _ => not_busy_empty _) g (le_refl _) (by decide) nex_inj zero_lt_one
    (le_refl _) h).2⟩

theorem nex_idx (x y : ℝ) (ana : Bool) : OneBased ((nexCall x y ana).mrow * (nexCall x y ana).mcol) (List.ofFn (nexCall x y ana).pix_idx.2) [5, 1] := by
  have e : List.ofFn (nexCall x y ana).pix_idx.2 = [(6 : Int), 2].map fun k : Int => Dbl.fin (k : ℝ) := by
    show List.ofFn (fun q => Dbl.fin ((![6, 2] q : Int) : ℝ)) = _
    rw [List.ofFn_succ, List.ofFn_succ]
    rfl
  rw [e]
  refine oneBased_ints (ks := [6, 2]) (nex_good x y ana).fits (fun k hk => ?_)
  show 1 ≤ k ∧ k ≤ (3 : ℕ) * (3 : ℕ)
  rcases List.mem_cons.1 hk with rfl | hk
  · norm_num
  · rw [List.mem_singleton.1 hk]; norm_num

theorem nex_setup (ana : Bool) (dm : Int) : ∃ ax w', l1c_setup_dctTV_transforms (2 : ℕ) (3 : ℕ) (3 : ℕ) (Dbl.fin 1) (.fin 1) dm ana [5, 1] (freshWorld Dbl) = some ((L1C_SUCCESS, some ax), w') := by
  refine tv_accepts (nex_good 0 0 ana).fits ⟨⟨by decide, by decide, by decide, ?_⟩, ?_, ?_, fun _ => by decide⟩ nex_fits (fun _ _ => rfl)
  · decide
  all_goals
    rw [Dbl.lit_eq, Dbl.flt_fin]
    norm_num

/-- the hypotheses of `C64_leak_false` are met: of the requests of the interface only the first is granted -/
example (junk : ℕ → Dbl) : ∃ s' L1 K, nesta_dctTV_mex refLib junk 2 (nexPrhs 7 8) (some (some "analysis")) ⟨∅, 0, 0, fun i => i == 0, freshWorld Dbl⟩ =
    some (.error "l1c:l1qc_dct:outofmemory", s') ∧ Hist refLib s'.cb L1 ∧ L1.has K := by
  obtain ⟨ax, w, h⟩ := nex_setup true 1
  obtain ⟨s', L1, h1, h2, h3⟩ := C64_leak_false (junk := junk) (s := ⟨∅, 0, 0, fun i => i == 0, freshWorld Dbl⟩) (fun a h => by cases h) exWorld_hist rfl (fun _ => not_busy_empty _)
    (C64_accepts (nex_good 7 8 true) (le_refl 2)) rfl (nex_idx 7 8 true) h (Or.inl rfl)
  exact ⟨s', L1, _, h1, h2, h3⟩

/-- the hypotheses of `C64_calloc_false` are met: the interface has no memory -/
example (junk : ℕ → Dbl) : nesta_dctTV_mex refLib junk 2 (nexPrhs 7 8) (some (some "analysis")) ⟨∅, 0, 0, fun _ => false, freshWorld Dbl⟩ = none :=
  C64_calloc_false (C64_accepts (nex_good 7 8 true) (le_refl 2)) rfl (nex_idx 7 8 true)

/-- the same call in synthesis mode is defined and complains about a bad index -/
example (junk : ℕ → Dbl) : ∃ s', nesta_dctTV_mex refLib junk 2 (nexPrhs 7 8) (some (some "synthesis")) exWorld = some (.error "l1c:l1qc_dct:bad_index", s') := by
  have hp := C64_accepts (nex_good 7 8 false) (le_refl 2)
  obtain ⟨ax, w, hsu⟩ := nex_setup false 1
  obtain ⟨out, s', h⟩ := nmex_defined (lib := refLib) (junk := junk) (s := exWorld) (fun a h => by cases h) exWorld_hist rfl (fun _ => not_busy_empty _) hp (by decide) rfl
    (by rw [mexIndices_iff.2 (nex_idx 7 8 false)]; intro h; cases h) (fun idx hidx hc => by
      have e : idx = [5, 1] := Option.some.inj (Option.some.inj ((mexIndices_iff.2 hidx).symm.trans (mexIndices_iff.2 (nex_idx 7 8 false))))
      subst e
      have hc : l1c_setup_dctTV_transforms (2 : ℕ) (3 : ℕ) (3 : ℕ) (Dbl.fin 1) (.fin 1) 1 false [5, 1] (freshWorld Dbl) = none := hc
      rw [hsu] at hc; cases hc) (fun _ => rfl)
  have := (C64_synthesis_false (fun a h => by cases h) exWorld_hist rfl (fun _ => not_busy_empty _) hp (by decide) rfl (Or.inl (by
    show flt (lit 0) (Dbl.fin 1) = true
    rw [Dbl.lit_eq, Dbl.flt_fin]; norm_num)) h).2 _ ax w (nex_idx 7 8 false) hsu rfl rfl
  subst this
  exact ⟨s', h⟩

/-- from Python, pixels counted from 0 -/
noncomputable def nexPyArgs (x y : ℝ) (bp : Int) : PyNestaArgs Dbl :=
  ⟨(3 : ℕ), (3 : ℕ), some ⟨1, 2, fvec ![x, y]⟩, some ⟨1, 2, ![5, 1]⟩, .fin 1, .fin 1, bp, DCT2, ⟨.fin 1, .fin 1, .fin 1, 1⟩⟩

theorem nex_py (x y : ℝ) : ∃ tu o xk s', py_nesta_dctTV refLib (nexPyArgs x y BP_ANALYSIS) exPy = some (.ret tu o (3 : ℕ) (3 : ℕ) xk 0, s') := by
  refine C65_returns (fun a h => by cases h) exWorld_hist rfl (fun _ => not_busy_empty _) (by decide) (Or.inr rfl) (nex_good 0 0 true).fits (by decide)
    ⟨⟨by decide, by decide, by decide, ?_⟩, ?_, ?_, fun _ => by decide⟩ nex_fits (fun _ _ => rfl) (fun _ _ => rfl) (fun _ _ => rfl)
  · decide
  all_goals
    rw [Dbl.lit_eq, Dbl.flt_fin]
    norm_num

theorem exPy_wf : exPy.cb.WF := fun _ _ => rfl

theorem nex_py_inj : Function.Injective (![5, 1] : Fin 2 → Int) := by
  intro i j h
  fin_cases i <;> fin_cases j <;> simp_all

/-- the call from Python returns an image within 1 of the samples; afterwards the set is alive and the array has a reference too many -/
example : ∃ tu o s' L1 t, ∃ y : Fin 9 → ℝ, py_nesta_dctTV refLib (nexPyArgs 7 8 BP_ANALYSIS) exPy = some (.ret tu o 3 3 ⟨9, fvec y⟩ 0, s') ∧
    √((y 5 - 7) ^ 2 + (y 1 - 8) ^ 2) ≤ 1 ∧ Hist refLib s'.cb.w L1 ∧ L1.tv = some t ∧ s'.cb.refs o = 2 := by
  obtain ⟨tu, o, xk, s', h⟩ := nex_py 7 8
  have hs : exPy.WF := fun a h => by cases h
  obtain ⟨-, -, y, ix, rfl, h1, h2⟩ := C66_python_partial refLib_ok hs exPy_wf exWorld_hist rfl (fun _ => not_busy_empty _) (by decide) (by decide) nex_py_inj zero_lt_one
    (fun _ => ⟨zero_lt_one, fun hc => by have := congrFun hc 0; norm_num at this⟩) h
  have hsz : ∀ b, (nexPyArgs 7 8 BP_ANALYSIS).b = some b → (b.dim0 : Int) ≤ INT_MAX := fun _ e => by cases e; decide
  have hsz' : ∀ b, (nexPyArgs 7 8 BP_ANALYSIS).pix_idx = some b → (b.dim0 : Int) ≤ INT_MAX := fun _ e => by cases e; decide
  obtain ⟨L1, t, g1, g2⟩ := C65_never_released_false hs exPy_wf exWorld_hist rfl (fun _ => not_busy_empty _) hsz hsz' (by decide) h
  obtain ⟨-, g3, -⟩ := C65_reference_false hs exPy_wf exWorld_hist rfl (fun _ => not_busy_empty _) hsz hsz' (by decide) h
  refine ⟨tu, o, s', L1, t, y, h, ?_, g1, g2, g3⟩
  have i0 : ix 0 = (5 : Fin 9) := Fin.ext (by have := h1 0; simp at this; show ((ix 0 : Fin (3 * 3)) : ℕ) = 5; omega)
  have i1 : ix 1 = (1 : Fin 9) := Fin.ext (by have := h1 1; simp at this; show ((ix 1 : Fin (3 * 3)) : ℕ) = 1; omega)
  rw [Fin.sum_univ_two, i0, i1] at h2
  exact h2

/-- vanishing samples from Python -/
example : ∃ tu o xk s', py_nesta_dctTV refLib (nexPyArgs 0 0 BP_ANALYSIS) exPy = some (.ret tu o 3 3 xk 0, s') ∧ ∀ i, ¬ (xk.2 i).IsFin := by
  obtain ⟨tu, o, xk, s', h⟩ := nex_py 0 0
  refine ⟨tu, o, xk, s', h, ?_⟩
  unfold nexPyArgs at h
  rw [show (![0, 0] : Fin 2 → ℝ) = 0 from by funext i; fin_cases i <;> rfl] at h
  exact C66_python_zero_false refLib_ok (fun a h => by cases h) exPy_wf exWorld_hist rfl (fun _ => not_busy_empty _) (by decide) (by decide) nex_py_inj zero_lt_one (le_refl _) h

/-- the call from Python in synthesis mode: nine zeros, no exception -/
example : ∃ tu o xk s', py_nesta_dctTV refLib (nexPyArgs 7 8 BP_SYNTHESIS) exPy = some (.ret tu o 3 3 xk L1C_INVALID_ARGUMENT, s') ∧ ∀ i, xk.2 i = .fin 0 := by
  obtain ⟨ax, w, hsu⟩ := nex_setup false DCT2
  obtain ⟨-, t, L1, ht, hL1, hw1, hLe, hax, -⟩ := tv_live (r := 3) (k := 3) (n := 2) (idx := [5, 1]) exWorld_hist rfl rfl (not_busy_empty _) hsu
  have hm : ((3 : ℕ) : Int) * (3 : ℕ) ≠ ax.m := by
    rw [hax, ht]
    show ((3 : ℕ) : Int) * (3 : ℕ) ≠ (tvP (3 * 3) (Dbl.fin 1) (Dbl.fin 1) : ℕ)
    have j : job (Dbl.fin 1) = true := by
      unfold job
      rw [Dbl.lit_eq, Dbl.flt_fin]
      simp
    unfold tvP
    rw [if_pos j]
    omega
  have hs : exPy.WF := fun a h => by cases h
  obtain ⟨tu, o, s', h, -⟩ := pyn_eval (lib := refLib) (a := nexPyArgs 7 8 BP_SYNTHESIS) (s := exPy) rfl rfl (Or.inr rfl) (Or.inr rfl) (nex_good 0 0 true).fits
    (by decide) (fun _ _ => rfl) rfl rfl (st0 := L1C_SUCCESS) (ax := ax) (w := w) hsu (st := L1C_INVALID_ARGUMENT) (xk := ⟨9, fun _ => lit 0⟩) (s1 := { mexCallState (pyLib exPy) with cb := w }) (by
      show nestaArr refLib ax (((3 : ℕ) : Int) * (3 : ℕ)) ⟨9, fun _ => lit 0⟩ _ _ _ _ = _
      unfold nestaArr
      rw [if_pos (Or.inr hm)]
      rfl) rfl
  exact ⟨tu, o, _, s', h, fun i => by
    show (lit 0 : Dbl) = .fin 0
    rw [Dbl.lit_eq]; norm_num⟩

end examples

end L1c
