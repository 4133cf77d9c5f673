import Verif.Props.L1qcOpt
import Verif.Props.Options
import Mathlib.Algebra.Order.Chebyshev

/-!
# Image recovery from Python and Matlab, from the call to the returned image (`C78`)
-/

namespace L1c
open Scalar Matrix

/-- The options ask for an accuracy that the solver can reach, for an image of `N` pixels whose data have DCT coefficients of 1-norm `X`: the
number of barrier iterations is left to the solver, linear systems are solved accurately (`cgLimit`), the test on the 1-norm is switched off, the Newton test
is sharp and there are enough iterations (`EnoughNewton`), none of them too many for an `int`. -/
structure SharpOpts (opts : QOpts Dbl) (N : ℕ) (eps lbtol mu X : ℝ) : Prop where
  eps_ok : opts.epsilon = Dbl.fin eps ∧ 0 < eps
  size_ok : 2 * (N : Int) + 1 ≤ INT_MAX
  auto_ok : opts.lbiter = 0
  lbtol_ok : opts.lbtol = Dbl.fin lbtol ∧ 0 < lbtol ∧ lbtol < 2 * (N : ℝ) + 1
  mu_ok : opts.mu = Dbl.fin mu ∧ 1 < mu
  cg_ok : Downhill opts N ∧ opts.cg_maxiter < INT_MAX
  l1_ok : ¬ Dbl.Lt (.fin 0) opts.l1_tol
  fit_ok : FitsInt (autoBarrier N lbtol mu X)
  newton_ok : ∃ tol, opts.newton_tol = Dbl.fin tol ∧ 0 < tol ∧ 32 * (2 * (N : ℝ) + 1) * tol ≤ lbtol ∧
    ∀ L : ℕ, (autoBarrier N lbtol mu X).toNat = L → (L : Int) < INT_MAX ∧ L * ((opts.newton_max_iter - 1).toNat * opts.cg_maxiter) ≤ INT_MAX ∧
      L * (((opts.newton_max_iter - 1).toNat : Int) + 1) ≤ INT_MAX ∧
      ∀ k, L = k + 1 → ¬ Dbl.Lt (.fin (cgLimit N 1 eps mu (eps ^ 2 / 2) X k)) opts.cg_tol ∧
        EnoughNewton N eps mu tol (eps ^ 2 / 2) X k (opts.newton_max_iter - 1).toNat

/-- The numbers `img` are an `mrow` by `mcol` image whose samples at the positions `idx` match `b` within `eps`, and whose DCT coefficients have a
1-norm that exceeds that of no image with this property by more than `gap`.  The image with DCT coefficients `z` is what the library's own
inverse transform `Mx` makes of `z`. -/
def NearlySparsest (lib : FftwLib Dbl) (mrow mcol n : ℕ) (idx : List Int) (two : Bool) (b : Fin n → ℝ) (eps gap : ℝ) (img : Arr Dbl) : Prop :=
  ∃ (hp : 0 < mrow ∧ 0 < mcol) (M : (Fin (mrow * mcol) → ℝ) → Fin (mrow * mcol) → ℝ) (eta : Fin (mrow * mcol) → ℝ)
    (hi : ∀ i : Fin n, (idxFun n idx i).toNat < mrow * mcol),
    Gives (imageFuns lib mrow mcol n idx two hp) (imageFuns lib mrow mcol n idx two hp).Mx M ∧
    img.1 = mrow * mcol ∧ (∀ k : Fin img.1, ∃ hk : k.val < mrow * mcol, img.2 k = Dbl.fin (M eta ⟨k.val, hk⟩)) ∧
    √(∑ i, (M eta ⟨(idxFun n idx i).toNat, hi i⟩ - b i) ^ 2) < eps ∧
    ∀ z, √(∑ i, (M z ⟨(idxFun n idx i).toNat, hi i⟩ - b i) ^ 2) ≤ eps → ∑ i, |eta i| ≤ ∑ i, |z i| + gap

/-- `X` is the 1-norm of the DCT coefficients of the data `b` on a black background -/
def DataNorm (lib : FftwLib Dbl) (mrow mcol n : ℕ) (idx : List Int) (two : Bool) (b : Fin n → ℝ) (X : ℝ) : Prop :=
  ∀ hp (x0 : Fin (mrow * mcol) → ℝ) a, (imageFuns lib mrow mcol n idx two hp).Aty (fvec b) DctBuf.fresh = some a → a.res = fvec x0 → ∑ i, |x0 i| = X

/-- what both interfaces use: a library call that returns 0 -/
theorem nearly_sparsest {lib : FftwLib Dbl} {Ls : Sets Dbl} {mrow mcol n : ℕ} {mode : Int} {idx : List Int} {b : Fin n → ℝ} {x_out : Arr Dbl} {opts : QOpts Dbl}
    {s s' : NState (World Dbl)} {out : DctOut Dbl} (hlib : LibOk lib) (hs : s.WF) (hw : Hist lib s.cb Ls) (hl : idx.length = n) (hd : idx.Nodup)
    (hb : ¬ Ls.busy (twoDim mrow mcol mode)) (hb0 : b ≠ 0) {eps lbtol mu X : ℝ} (ho : SharpOpts opts (mrow * mcol) eps lbtol mu X)
    (hX : DataNorm lib mrow mcol n idx (twoDim mrow mcol mode) b X) (hx : x_out.1 = mrow * mcol)
    (h : l1qc_dct lib mrow mcol x_out n ⟨n, fvec b⟩ idx mode opts s = some (out, s')) (h0 : out.status = 0) :
    NearlySparsest lib mrow mcol n idx (twoDim mrow mcol mode) b eps (3 * (mu * lbtol)) out.x_out := by
  obtain ⟨⟨e1, e2⟩, e3, e4, ⟨e5, e6, e7⟩, ⟨e8, e9⟩, ⟨e10, e12⟩, e13, -, tol, e14, e15, e16, e17⟩ := ho
  obtain ⟨e18, e19, e20, e21⟩ := e17 _ rfl
  obtain ⟨hp, M, eta, hlen, hi, g1, g2, g3, g4⟩ := C70_near_optimal hlib hs hw hl hd hb hb0 e1 e2 e3 e4 e5 e6 (by exact_mod_cast e7) e8 e9 e14 e15
    (by exact_mod_cast e16) e10 e13 e12 hX rfl e18 e19 e20 (fun k hk => (e21 k hk).1) (fun k hk => (e21 k hk).2) h h0
  refine ⟨hp, M, eta, hi, g1, hlen.trans hx, fun k => ?_, g3, g4⟩
  have hk : k.val < mrow * mcol := lt_of_lt_of_eq k.isLt (hlen.trans hx)
  refine ⟨hk, ?_⟩
  have := g2 (Fin.cast hlen k)
  rw [dif_pos (show (Fin.cast hlen k).val < mrow * mcol from hk)] at this
  exact this

/-- with sharp options and enough memory the library call returns 0 -/
theorem sharp_returns {lib : FftwLib Dbl} {Ls : Sets Dbl} {mrow mcol n : ℕ} {mode : Int} {idx : List Int} {b : Fin n → ℝ} {x_out : Arr Dbl} {opts : QOpts Dbl}
    {s : NState (World Dbl)} (hlib : LibOk lib) (hs : s.WF) (hw : Hist lib s.cb Ls) (hl : idx.length = n) (hd : idx.Nodup)
    (hv : ValidDct n mrow mcol idx) (hf : FitsInt ((mrow : Int) * mcol)) (hnm : n ≤ mrow * mcol)
    (hb : ¬ Ls.busy (twoDim mrow mcol mode)) (hb0 : b ≠ 0) {eps lbtol mu X : ℝ} (ho : SharpOpts opts (mrow * mcol) eps lbtol mu X)
    (hX : DataNorm lib mrow mcol n idx (twoDim mrow mcol mode) b X) (hx : x_out.1 = mrow * mcol)
    (hm1 : ∀ i < 5, s.cb.oracle (s.cb.calls + i) = true) (hm2 : ∀ i < 21, s.oracle (s.calls + i) = true) :
    ∃ out s', l1qc_dct lib mrow mcol x_out n ⟨n, fvec b⟩ idx mode opts s = some (out, s') ∧ out.status = 0 ∧ (∃ r, out.lb_res = some r ∧ r.status = 0) ∧ s'.live = s.live := by
  obtain ⟨⟨e1, e2⟩, e3, e4, ⟨e5, e6, e7⟩, ⟨e8, e9⟩, ⟨e10, e12⟩, e13, eF, tol, e14, e15, e16, e17⟩ := ho
  obtain ⟨e18, e19, e20, e21⟩ := e17 _ rfl
  have hp : 0 < mrow ∧ 0 < mcol := ⟨by exact_mod_cast hv.2.1, by exact_mod_cast hv.2.2.1⟩
  have hi : IdxOk (mrow * mcol) (idxFun n idx) := by
    intro i
    have h3 : idxFun n idx i = idx[i.val]'(by omega) := by
      unfold idxFun
      simp [hl]
    rw [h3]
    exact_mod_cast hv.2.2.2 _ (List.getElem_mem _)
  have hR := imageFuns_setR hlib (two := twoDim mrow mcol mode) (mrow := mrow) (mcol := mcol) hp hi
  obtain ⟨ix, Q, ok⟩ := funsOk hR
  have hinj : Function.Injective ix := (injective_iff ok.hix).1 (nodup_inj hl hd)
  have hne : Qᵀ *ᵥ scat ix b ≠ 0 := by
    intro hc
    have h1 := start_fits ok hinj b
    rw [hc, mulVec_zero] at h1
    exact hb0 h1.symm
  obtain ⟨sA, eA⟩ := ok.Aty.gives hR _ Reach.fresh b
  have hXe : ∑ i, |(Qᵀ *ᵥ scat ix b) i| = X := hX hp _ _ eA rfl
  obtain ⟨out, s', h, hlive⟩ := C53_defined_partial (x_out := x_out) (opts := opts) (b := ⟨n, fvec b⟩) hs hw hb hf hl hp (Or.inr (Or.inr fun i hi => hm1 i (by omega))) hx.ge hnm (slice_full _) (by
    intro a ha
    rw [eA] at ha
    cases ha
    obtain ⟨u, -, hu⟩ := init_fin hne e3
    have hu := hu opts
    rw [if_pos e4, e5, e8, init_auto_arg _ e6 e9, ceilInt_fin] at hu
    have hc : ⌈lbR (Qᵀ *ᵥ scat ix b) lbtol mu⌉ = autoBarrier (mrow * mcol) lbtol mu X := by
      rw [← hXe]; rfl
    rw [hc, if_pos eF, Option.map_some] at hu
    exact ⟨_, _, hu, ⟨le_trans (by positivity) e10.2.1, e12, e18, e19, e20⟩⟩) (hm2 2 (by norm_num))
  suffices hq : out.status = 0 ∧ ∃ r, out.lb_res = some r ∧ r.status = 0 from ⟨out, s', h, hq.1, hq.2, hlive⟩
  obtain ⟨-, ⟨-, st, w', hst, e⟩ | ⟨hp, hi', ⟨-, -, i, hi1, hi2⟩ | ⟨b', res, y, hb', hr, h1, h2, -⟩⟩⟩ := C53_outcome_partial hs hw hl hb h
  · obtain ⟨ax, w', e', -⟩ := C19_accepts (w := s.cb) (dct_mode := mode) hf hv hm1
    rw [e'] at e
    cases e
  · exact absurd ((hm2 i hi1).symm.trans hi2) (by decide)
  · dsimp only at hb'
    rw [slice_full] at hb'
    cases hb'
    rcases recover_real hR ok (opts := opts) e1 hr with ⟨g, -⟩ | ⟨g, -⟩
    · rw [gather_scat ix hinj, sub_self] at g
      exact absurd g (by simp [nrm, e2.le])
    · exact ⟨h2.trans g, _, h1, g⟩

section eval
variable {F : Type} [Scalar F] {lib : FftwLib F} {a : PyL1qcArgs F} {n : ℕ} {b : Vec F n} {idx : Fin n → Int}

/-- a call from Python with acceptable arguments, enough memory and a library call that returns 0 -/
theorem py_eval {s : NState (PyState F)} (hs : s.WF) (hm : a.dct_mode = DCT1 ∨ a.dct_mode = DCT2) (h3 : a.b = some ⟨1, n, b⟩) (h4 : a.pix_idx = some ⟨1, n, idx⟩)
    (hn : (n : Int) ≤ INT_MAX) (hf : FitsInt (a.mrow * a.mcol)) (hle : (n : Int) ≤ a.mrow * a.mcol) (m0 : s.oracle s.calls = true)
    (mp : ∀ k < 5, s.cb.oracle (s.cb.calls + k) = true) {o : DctOut F} {s1 : NState (World F)}
    (h : l1qc_dct lib a.mrow a.mcol ⟨(a.mrow * a.mcol).toNat, fun _ => lit 0⟩ n ⟨n, b⟩ (List.ofFn idx) a.dct_mode a.opts (pyCallState s) = some (o, s1))
    (h0 : o.status = 0) (hl : s1.live = (pyCallState s).live) :
    ∃ t x r s', py_l1qc_dct lib a s = some (.ret t x r a.mrow a.mcol o.x_out (o.lb_res.getD ⟨inf, 0, 0, 0⟩), s') ∧ s'.live = s.live := by
  have n0 : s.next ∉ s.live := fun hc => absurd (hs _ hc) (lt_irrefl _)
  obtain ⟨live, nx, cl, orc, w, rf, pn, pc, po⟩ := s
  dsimp only at m0 mp n0
  have mx : nx ∈ s1.live := by rw [hl]; exact Finset.mem_insert_self _ _
  have q0 : po pc = true := mp 0 (by norm_num)
  have q1 : po (pc + 1) = true := mp 1 (by norm_num)
  have q2 : po (pc + 1 + 1) = true := mp 2 (by norm_num)
  have q3 : po (pc + 1 + 1 + 1) = true := mp 3 (by norm_num)
  have q4 : po (pc + 1 + 1 + 1 + 1) = true := mp 4 (by norm_num)
  have eN : ∀ (live : Finset ℕ) (nx cl : ℕ) (orc : ℕ → Bool) (w : World F) (rf : ℕ → ℕ) (pn pc : ℕ), po pc = true →
      pyNew (⟨live, nx, cl, orc, w, rf, pn, pc, po⟩ : NState (PyState F)) = some (some pn, ⟨live, nx, cl, orc, w, Function.update rf pn 1, pn + 1, pc + 1, po⟩) :=
    fun _ _ _ _ _ _ _ _ hq => if_pos hq
  have eF : ∀ {α : Type} (v : α) (rf : ℕ → ℕ) (pn pc : ℕ), po pc = true →
      pyFromOTF (some v) (⟨live, nx, cl, orc, w, rf, pn, pc, po⟩ : NState (PyState F)) = some (some (pn, v), ⟨live, nx, cl, orc, w, Function.update rf pn 1, pn + 1, pc + 1, po⟩) :=
    fun v rf pn pc hq => by
      unfold pyFromOTF
      dsimp only
      rw [nbind (eN _ _ _ _ _ _ _ _ hq)]
      rfl
  have eD : ∀ (live : Finset ℕ) (nx cl : ℕ) (orc : ℕ → Bool) (w : World F) (rf : ℕ → ℕ) (pn pc i : ℕ), rf i ≠ 0 →
      pyDec (some i) (⟨live, nx, cl, orc, w, rf, pn, pc, po⟩ : NState (PyState F)) = some ((), ⟨live, nx, cl, orc, w, Function.update rf i (rf i - 1), pn, pc, po⟩) :=
    fun _ _ _ _ _ _ _ _ _ hq => if_neg hq
  unfold py_l1qc_dct
  rw [if_neg (by rintro ⟨k1, k2⟩; exact hm.elim k1 k2), h3, h4]
  simp only [nbind (eF _ _ _ _ q0), nbind (eF _ _ _ _ q1)]
  unfold py_l1qc_main
  rw [if_neg (by simp)]
  have e0 : ∀ t : NState (PyState F), pyC (nrun (wmul a.mrow a.mcol)) t = some (a.mrow * a.mcol, t) := fun t => by
    unfold pyC nrun
    have : wmul (F := F) a.mrow a.mcol t.cb.w = some (a.mrow * a.mcol, t.cb.w) := by
      unfold wmul; rw [if_pos hf]
    dsimp only
    rw [this]; rfl
  rw [nbind (e0 _)]
  dsimp only
  rw [toCInt_small hn, if_neg (by omega), if_neg (by omega)]
  have e1 : ∀ (rf : ℕ → ℕ) (pn pc : ℕ), pyC nalloc (⟨live, nx, cl, orc, w, rf, pn, pc, po⟩ : NState (PyState F)) =
      some (some nx, ⟨insert nx live, nx + 1, cl + 1, orc, w, rf, pn, pc, po⟩) := fun rf pn pc => by
    unfold pyC
    rw [nalloc_ok (s := ⟨live, nx, cl, orc, w⟩) m0]; rfl
  rw [nbind (e1 _ _ _)]
  dsimp only
  have e2 : ∀ (rf : ℕ → ℕ) (pn pc : ℕ), pyC (l1qc_dct lib a.mrow a.mcol ⟨(a.mrow * a.mcol).toNat, fun _ => lit 0⟩ n ⟨n, b⟩ ((List.ofFn idx).take (n : Int).toNat) a.dct_mode a.opts)
      (⟨insert nx live, nx + 1, cl + 1, orc, w, rf, pn, pc, po⟩ : NState (PyState F)) =
      some (o, ⟨s1.live, s1.next, s1.calls, s1.oracle, s1.cb, rf, pn, pc, po⟩) := fun rf pn pc => by
    unfold pyC
    rw [List.take_of_length_le (by rw [List.length_ofFn, Int.toNat_natCast])]
    have h' := h
    unfold pyCallState at h'
    dsimp only at h' ⊢
    rw [h']; rfl
  rw [nbind (e2 _ _ _), if_neg (by rw [h0]; exact fun h => h rfl)]
  simp only [nbind (eN _ _ _ _ _ _ _ _ q2)]
  simp only [nbind (eN _ _ _ _ _ _ _ _ q3)]
  rw [nbind (eD _ _ _ _ _ _ _ _ _ (by
    rw [Function.update_of_ne (by omega), Function.update_of_ne (by omega), Function.update_of_ne (by omega), Function.update_self]; decide))]
  rw [nbind (eD _ _ _ _ _ _ _ _ _ (by
    rw [Function.update_of_ne (by omega), Function.update_of_ne (by omega), Function.update_of_ne (by omega), Function.update_self]; decide))]
  have e3 : ∀ (rf : ℕ → ℕ) (pn pc : ℕ), pyC (nfree (some nx)) (⟨s1.live, s1.next, s1.calls, s1.oracle, s1.cb, rf, pn, pc, po⟩ : NState (PyState F)) =
      some ((), ⟨s1.live.erase nx, s1.next, s1.calls, s1.oracle, s1.cb, rf, pn, pc, po⟩) := fun rf pn pc => by
    unfold pyC
    rw [nfree_some (s := ⟨s1.live, s1.next, s1.calls, s1.oracle, s1.cb⟩) mx]; rfl
  rw [nbind (e3 _ _ _)]
  simp only [nbind (eN _ _ _ _ _ _ _ _ q4)]
  refine ⟨_, _, _, _, rfl, ?_⟩
  show s1.live.erase nx = live
  rw [hl]
  exact Finset.erase_insert n0

end eval

section python
variable {lib : FftwLib Dbl} {Ls : Sets Dbl} {args : List (PyVal Dbl)} {kw : List (String × PyVal Dbl)} {a : PyL1qcArgs Dbl} {s s' : NState (PyState Dbl)}
variable {mrow mcol n : ℕ} {b : Fin n → ℝ} {idx : Fin n → Int}

/-- **C78**, Python: whenever `l1qc_dct(mrow, mcol, b, pix_idx, …)` with distinct positions, real data that are not all zero and sharp options
returns an image, the image has the shape asked for, matches the data within `epsilon`, and is the sparsest such image up to `3 mu lbtol`. -/
theorem C78_python (hlib : LibOk lib) (hr : s.cb.WF) (hs : s.WF) (hw : Hist lib s.cb.w Ls) (hk : (kw.map (·.1)).Nodup) (hg : PyL1qcGood args kw a)
    (h1 : a.mrow = mrow) (h2 : a.mcol = mcol) (h3 : a.b = some ⟨1, n, fvec b⟩) (h4 : a.pix_idx = some ⟨1, n, idx⟩) (hn : (n : Int) ≤ INT_MAX)
    (hinj : Function.Injective idx) (hb0 : b ≠ 0) (hb : ¬ Ls.busy (twoDim mrow mcol a.dct_mode)) {eps lbtol mu X : ℝ}
    (ho : SharpOpts a.opts (mrow * mcol) eps lbtol mu X) (hX : DataNorm lib mrow mcol n (List.ofFn idx) (twoDim mrow mcol a.dct_mode) b X)
    {t x r : ℕ} {rows cols : Int} {img : Arr Dbl} {res : LBResult Dbl} (h : py_l1qc_call lib args kw s = some (.ret t x r rows cols img res, s')) :
    rows = mrow ∧ cols = mcol ∧ res.status = 0 ∧
      NearlySparsest lib mrow mcol n (List.ofFn idx) (twoDim mrow mcol a.dct_mode) b eps (3 * (mu * lbtol)) img := by
  rw [(C76_calls lib hk s).1 a hg] at h
  have hsz : ∀ b', a.b = some b' → (b'.dim0 : Int) ≤ INT_MAX := fun b' e => by rw [h3] at e; cases e; exact hn
  have hsz' : ∀ p', a.pix_idx = some p' → (p'.dim0 : Int) ≤ INT_MAX := fun b' e => by rw [h4] at e; cases e; exact hn
  obtain ⟨_, _, _, _, _, _, -, -, -, -, -, -, -, hres, -⟩ := C61_python hr hs hw (by rw [h1, h2]; exact hb) hsz hsz' h
  rcases py_inv hr h with ⟨kind, k1, -⟩ | ⟨b', p', -, k2, k3, -, -, -, -, -, -, -, o, s1, k4, -, -, ⟨k5, k6, -⟩ | ⟨k5, k6, -⟩ | ⟨k5, _, _, _, -, -, -, -, -, -, k6, -⟩⟩
  · cases k1
  · cases k6
  · cases k6
  rw [h3] at k2
  rw [h4] at k3
  cases k2
  cases k3
  rw [toCInt_small hn, List.take_of_length_le (by rw [List.length_ofFn, Int.toNat_natCast])] at k4
  injection k6 with e1 e2 e3 e4 e5 e6 e7
  subst e4 e5 e6 e7
  rw [h1, h2] at k4
  refine ⟨h1, h2, hres, nearly_sparsest hlib (pyCallState_wf hs) (show Hist lib (pyCallState s).cb Ls from hw) (List.length_ofFn ..) (List.nodup_ofFn.2 hinj)
    hb hb0 ho hX ?_ k4 k5⟩
  show ((mrow : Int) * mcol).toNat = mrow * mcol
  rw [← Int.natCast_mul]; rfl

/-- **C78**, Python, total: with valid distinct positions, real data that are not all zero, sharp options and enough memory the call does return an
image, and nothing that it allocated is left. -/
theorem C78_python_returns (hlib : LibOk lib) (hr : s.cb.WF) (hs : s.WF) (hw : Hist lib s.cb.w Ls) (hk : (kw.map (·.1)).Nodup) (hg : PyL1qcGood args kw a)
    (h1 : a.mrow = mrow) (h2 : a.mcol = mcol) (h3 : a.b = some ⟨1, n, fvec b⟩) (h4 : a.pix_idx = some ⟨1, n, idx⟩)
    (hmode : a.dct_mode = DCT1 ∨ a.dct_mode = DCT2) (hinj : Function.Injective idx) (hv : ∀ i, 0 ≤ idx i ∧ idx i < (mrow : Int) * mcol) (hf : FitsInt ((mrow : Int) * mcol))
    (hb0 : b ≠ 0) (hb : ¬ Ls.busy (twoDim mrow mcol a.dct_mode)) {eps lbtol mu X : ℝ}
    (ho : SharpOpts a.opts (mrow * mcol) eps lbtol mu X) (hX : DataNorm lib mrow mcol n (List.ofFn idx) (twoDim mrow mcol a.dct_mode) b X)
    (m1 : ∀ i < 5, s.cb.w.oracle (s.cb.w.calls + i) = true) (m2 : ∀ i < 22, s.oracle (s.calls + i) = true) (m3 : ∀ k < 5, s.cb.oracle (s.cb.calls + k) = true) :
    ∃ t x r img res s', py_l1qc_call lib args kw s = some (.ret t x r mrow mcol img res, s') ∧ s'.live = s.live ∧ res.status = 0 ∧
      NearlySparsest lib mrow mcol n (List.ofFn idx) (twoDim mrow mcol a.dct_mode) b eps (3 * (mu * lbtol)) img := by
  have hn0 : 0 < n := by
    rcases Nat.eq_zero_or_pos n with rfl | h
    · exact absurd (Subsingleton.elim b 0) hb0
    · exact h
  have hpos : 0 < (mrow : Int) * mcol := lt_of_le_of_lt (hv ⟨0, hn0⟩).1 (hv ⟨0, hn0⟩).2
  have hp : 0 < mrow * mcol := by exact_mod_cast hpos
  have hnm : n ≤ mrow * mcol := by
    have hlt : ∀ i, (idx i).toNat < mrow * mcol := fun i => by have := hv i; zify; omega
    have := Fintype.card_le_of_injective (fun i => (⟨(idx i).toNat, hlt i⟩ : Fin (mrow * mcol))) fun i j hij => hinj (by
      have := congrArg Fin.val hij
      dsimp only at this
      have := hv i; have := hv j; omega)
    simpa using this
  have hn : (n : Int) ≤ INT_MAX := le_trans (by exact_mod_cast hnm) hf.2
  have hmr := Nat.pos_of_mul_pos_right hp
  have hmc := Nat.pos_of_mul_pos_left hp
  have hnat : ((mrow : Int) * mcol).toNat = mrow * mcol := by rw [← Int.natCast_mul]; rfl
  obtain ⟨o, s1, k1, k2, -, k3⟩ := sharp_returns (x_out := ⟨((mrow : Int) * mcol).toNat, fun _ => lit 0⟩) hlib (pyCallState_wf hs) (show Hist lib (pyCallState s).cb Ls from hw)
    (List.length_ofFn ..) (List.nodup_ofFn.2 hinj) ⟨by exact_mod_cast hn0, by exact_mod_cast hmr, by exact_mod_cast hmc, fun i hi => by
      obtain ⟨j, rfl⟩ := (List.mem_ofFn' _ _).1 hi
      exact hv j⟩ hf hnm hb hb0 ho hX hnat m1 (fun i hi => by
      have := m2 (1 + i) (by omega)
      rwa [← add_assoc] at this)
  obtain ⟨t, x, r, s', k4, k5⟩ := py_eval (lib := lib) hs hmode h3 h4 hn (by rw [h1, h2]; exact hf) (by rw [h1, h2]; exact_mod_cast hnm) (m2 0 (by norm_num)) m3
    (by rw [h1, h2]; exact k1) k2 k3
  have h : py_l1qc_call lib args kw s = _ := ((C76_calls lib hk s).1 a hg).trans k4
  obtain ⟨-, -, g1, g2⟩ := C78_python hlib hr hs hw hk hg h1 h2 h3 h4 hn hinj hb0 hb ho hX h
  rw [h1, h2] at h
  exact ⟨t, x, r, _, _, s', h, k5, g1, g2⟩

end python

section matlab
variable {lib : FftwLib Dbl} {Ls : Sets Dbl} {junk : ℕ → Dbl} {prhs : List (MxVal Dbl)} {s s' : NState (World Dbl)} {c : MexCall Dbl}
variable {mrow mcol n : ℕ} {b : Fin n → ℝ} {ks : List Int}

/-- **C78**, Matlab: whenever `[img, res] = l1qc_dct(mrow, mcol, b, pix_idx, opts)` with distinct positions inside the image, real data that are not
all zero and sharp options returns with `res.status = 0`, the image matches the data within `epsilon` and is the sparsest such image up to
`3 mu lbtol`. -/
theorem C78_matlab (hlib : LibOk lib) (hs : s.WF) (hw : Hist lib s.cb Ls) (hg : MexGood prhs c)
    (h1 : c.mrow = mrow) (h2 : c.mcol = mcol) (h3 : c.b = ⟨n, fvec b⟩) (h4 : List.ofFn c.pix_idx.2 = ks.map fun k : Int => Dbl.fin (k : ℝ))
    (hr : ∀ k ∈ ks, 1 ≤ k ∧ k ≤ c.mrow * c.mcol) (hd : ks.Nodup) (hb0 : b ≠ 0) (hb : ¬ Ls.busy (twoDim mrow mcol DCT1)) {eps lbtol mu X : ℝ}
    (ho : SharpOpts c.opts (mrow * mcol) eps lbtol mu X) (hX : DataNorm lib mrow mcol n (ks.map fun k => k - 1) (twoDim mrow mcol DCT1) b X)
    (m0 : s.oracle s.calls = true) (m1 : s.oracle (s.calls + 1) = true) {out : MexOut Dbl}
    (h : l1qc_dct_mex lib junk 2 prhs s = some (out, s')) :
    ∃ img res, out = .ret img (some res) ∧
      (res.status = 0 → NearlySparsest lib mrow mcol n (ks.map fun k => k - 1) (twoDim mrow mcol DCT1) b eps (3 * (mu * lbtol)) img) := by
  have hp := (C55_arguments (nlhs := 2) (by norm_num)).2 hg
  obtain ⟨o, s1, k1, rfl⟩ := C55_accepts hs hp h4 hr m0 m1 h
  have hws : (mexCallState s).WF := mexCallState_wf hs
  have hi : OneBased (c.mrow * c.mcol) (List.ofFn c.pix_idx.2) (ks.map fun k => k - 1) := by
    rw [h4]; exact oneBased_ints hg.fits hr
  have hlen := (mex_valid hg hi).1
  obtain ⟨cr, cc, cb, cp, co⟩ := c
  dsimp only at *
  subst h1 h2 h3
  refine ⟨_, mexRes o, rfl, fun h0 => nearly_sparsest hlib hws (show Hist lib (mexCallState s).cb Ls from hw) hlen ?_ hb hb0 ho hX ?_ k1 ?_⟩
  · exact hd.map fun x y h => by simpa using h
  · show ((mrow : Int) * mcol).toNat = mrow * mcol
    rw [← Int.natCast_mul]; rfl
  · by_contra hc
    unfold mexRes at h0
    rw [if_pos hc] at h0
    exact hc h0

/-- **C78**, Matlab, total: with enough memory the call does return, with status 0, and nothing that it allocated is left. -/
theorem C78_matlab_returns (hlib : LibOk lib) (hs : s.WF) (hw : Hist lib s.cb Ls) (hg : MexGood prhs c)
    (h1 : c.mrow = mrow) (h2 : c.mcol = mcol) (h3 : c.b = ⟨n, fvec b⟩) (h4 : List.ofFn c.pix_idx.2 = ks.map fun k : Int => Dbl.fin (k : ℝ))
    (hr : ∀ k ∈ ks, 1 ≤ k ∧ k ≤ c.mrow * c.mcol) (hd : ks.Nodup) (hb0 : b ≠ 0) (hb : ¬ Ls.busy (twoDim mrow mcol DCT1)) {eps lbtol mu X : ℝ}
    (ho : SharpOpts c.opts (mrow * mcol) eps lbtol mu X) (hX : DataNorm lib mrow mcol n (ks.map fun k => k - 1) (twoDim mrow mcol DCT1) b X)
    (m1 : ∀ i < 5, s.cb.oracle (s.cb.calls + i) = true) (m2 : ∀ i < 23, s.oracle (s.calls + i) = true) :
    ∃ img res s', l1qc_dct_mex lib junk 2 prhs s = some (.ret img (some res), s') ∧ s'.live = s.live ∧ res.status = 0 ∧
      NearlySparsest lib mrow mcol n (ks.map fun k => k - 1) (twoDim mrow mcol DCT1) b eps (3 * (mu * lbtol)) img := by
  have hp := (C55_arguments (nlhs := 2) (by norm_num)).2 hg
  have hi : OneBased (c.mrow * c.mcol) (List.ofFn c.pix_idx.2) (ks.map fun k => k - 1) := by
    rw [h4]; exact oneBased_ints hg.fits hr
  obtain ⟨hlen, hval⟩ := mex_valid hg hi
  obtain ⟨cr, cc, cb, cp, co⟩ := c
  have hfits := hg.fits
  have hlt := hg.lt
  dsimp only at *
  subst h1 h2 h3
  have hnat : ((mrow : Int) * mcol).toNat = mrow * mcol := by rw [← Int.natCast_mul]; rfl
  obtain ⟨o, s1, k1, k2, ⟨rs, kr, kz⟩, k3⟩ := sharp_returns (x_out := ⟨((mrow : Int) * mcol).toNat, fun i => junk i⟩) hlib (mexCallState_wf hs) (show Hist lib (mexCallState s).cb Ls from hw)
    hlen (hd.map fun x y h => by simpa using h) hval hfits (by exact_mod_cast hlt.le) hb hb0 ho hX hnat m1 (fun i hi => by
      have := m2 (2 + i) (by omega)
      rwa [← add_assoc] at this)
  obtain ⟨s', k4, k5, -⟩ := mex_eval hs hp (m2 0 (by norm_num)) (m2 1 (by norm_num)) hi k1 k3
  have h0 : (mexRes o).status = 0 := by
    unfold mexRes
    rw [if_neg (not_not.2 k2), kr]
    exact kz
  obtain ⟨img, res, e, g⟩ := C78_matlab (junk := junk) hlib hs hw hg rfl rfl rfl h4 hr hd hb0 hb ho hX (m2 0 (by norm_num)) (m2 1 (by norm_num)) k4
  rw [if_pos rfl] at e k4
  cases e
  exact ⟨_, _, s', k4, k5, h0, g h0⟩

end matlab

/-! ### A concrete call: three pixels, the first and the last of which are 60 and 80 -/

section example_calls

/-- the options of the calls -/
noncomputable def sharpEx (tau : Dbl) : QOpts Dbl where
  epsilon := Dbl.fin 1
  mu := Dbl.fin 7
  lbtol := Dbl.fin 1
  tau := tau
  lbiter := 0
  newton_tol := Dbl.fin (1 / 224)
  newton_max_iter := 6000001
  l1_tol := Dbl.fin 0
  cg_tol := Dbl.fin 0
  cg_maxiter := 3
  warm_start_cg := 0

theorem sharpEx_barrier {X : ℝ} (h1 : 100 ≤ X) : startTau (3 * 1) X = 1 ∧ autoBarrier (3 * 1) 1 7 X = 1 := by
  have h0 : startTau (3 * 1) X = 1 := by
    unfold startTau
    refine max_eq_right ?_
    rw [div_le_one (by linarith)]
    norm_num
    linarith
  refine ⟨h0, ?_⟩
  have l7 : Real.log 7 ≠ 0 := (Real.log_pos (by norm_num)).ne'
  unfold autoBarrier
  rw [h0, Real.log_one, sub_zero, sub_zero]
  norm_num

theorem sharpEx_ok (tau : Dbl) {X : ℝ} (h1 : 100 ≤ X) (h2 : X ≤ 174) : SharpOpts (sharpEx tau) (3 * 1) 1 1 7 X := by
  obtain ⟨h3, h4⟩ := sharpEx_barrier h1
  have hN : ((sharpEx tau).newton_max_iter - 1).toNat = 6000000 := by show ((6000001 : Int) - 1).toNat = _; decide
  refine ⟨⟨rfl, one_pos⟩, by decide, rfl, ⟨rfl, by norm_num, by norm_num⟩, ⟨rfl, by norm_num⟩,
    ⟨⟨rfl, by show ((3 * 1 : ℕ) : Int) ≤ 3; decide, by show ¬ ((1 : ℝ) / 2 < 0); norm_num⟩, by show (3 : Int) < INT_MAX; decide⟩,
    by show ¬ ((0 : ℝ) < 0); norm_num, by rw [h4]; decide, 1 / 224, rfl, by norm_num, by norm_num, ?_⟩
  intro L hL
  rw [h4] at hL
  obtain rfl : L = 1 := hL.symm
  rw [hN]
  refine ⟨by decide, by show ((1 : ℕ) : Int) * (((6000000 : ℕ) : Int) * 3) ≤ INT_MAX; decide, by decide,
    fun k hk => ⟨tol_mono (cgLimit_nonneg one_pos zero_le_one (by norm_num) k) (by show ¬ ((0 : ℝ) < 0); norm_num), ?_⟩⟩
  obtain rfl : k = 0 := by omega
  have b1 : -1 ≤ Real.log (1 / 2) := by
    have := Real.one_sub_inv_le_log_of_pos (show (0 : ℝ) < 1 / 2 by norm_num)
    norm_num at this ⊢
    linarith
  have b2 : 0 ≤ Real.log (X / 60) := Real.log_nonneg (by linarith)
  have b3 : Real.log (1 / 2) ≤ 0 := Real.log_nonpos (by norm_num) (by norm_num)
  have hg : stepGain (2 * (1 * 7 ^ 0) * (1 / 224)) = 99 / 20000 * (1 / 112) := by
    unfold stepGain
    rw [min_eq_left (Real.le_sqrt_of_sq_le (by norm_num))]
    norm_num
  have hm : max (2 * ((3 * 1 : ℕ) : ℝ) + 1) X = X := max_eq_right (by norm_num; linarith)
  unfold EnoughNewton
  rw [h3, hg]
  simp only [startBound, barrierLow, startTop]
  rw [hm]
  norm_num at b1 b2 b3 ⊢
  linarith

/-- the DCT coefficients of the data have a 1-norm between 100 and 174 -/
theorem sharpEx_data {idx : List Int} (hi : idx = [0, 2]) (two : Bool) :
    ∃ X, 100 ≤ X ∧ X ≤ 174 ∧ DataNorm refLib 3 1 2 idx two ![60, 80] X := by
  subst hi
  have hi : IdxOk (3 * 1) (idxFun 2 [0, 2]) := by intro i; fin_cases i <;> simp [idxFun]
  have hp1 : 0 < 3 ∧ 0 < 1 := ⟨by norm_num, one_pos⟩
  have hR := imageFuns_setR refLib_ok (two := two) (mrow := 3) (mcol := 1) hp1 hi
  obtain ⟨ix, Q, ok⟩ := funsOk hR
  have x0 : ix 0 = (0 : Fin 3) := by
    have := ok.hix 0
    ext; simpa [idxFun] using this
  have x1 : ix 1 = (2 : Fin 3) := by
    have := ok.hix 1
    ext
    have h' : (((ix 1 : Fin (3 * 1)) : ℕ) : Int) = 2 := by simpa [idxFun] using this
    exact_mod_cast h'
  have hinj : Function.Injective ix := by
    intro i j hij
    fin_cases i <;> fin_cases j
    · rfl
    · exact absurd (x0.symm.trans (hij.trans x1)) (by decide)
    · exact absurd (x1.symm.trans (hij.trans x0)) (by decide)
    · rfl
  have hg := gather_scat ix hinj (![60, 80] : Fin 2 → ℝ)
  have s0 : scat ix (![60, 80] : Fin 2 → ℝ) (0 : Fin 3) = 60 := by
    have h := congrFun hg 0
    unfold gather at h
    rw [x0] at h
    exact h
  have s2 : scat ix (![60, 80] : Fin 2 → ℝ) (2 : Fin 3) = 80 := by
    have h := congrFun hg 1
    unfold gather at h
    rw [x1] at h
    exact h
  have s1 : scat ix (![60, 80] : Fin 2 → ℝ) (1 : Fin 3) = 0 := scat_out _ _ _ fun i => by
    fin_cases i
    · exact fun h => absurd (x0.symm.trans h) (by decide)
    · exact fun h => absurd (x1.symm.trans h) (by decide)
  have hv : scat ix (![60, 80] : Fin 2 → ℝ) ⬝ᵥ scat ix ![60, 80] = 10000 := by
    have e : scat ix (![60, 80] : Fin 2 → ℝ) ⬝ᵥ scat ix ![60, 80] = scat ix (![60, 80] : Fin 2 → ℝ) (0 : Fin 3) * scat ix (![60, 80] : Fin 2 → ℝ) (0 : Fin 3) +
        scat ix (![60, 80] : Fin 2 → ℝ) (1 : Fin 3) * scat ix (![60, 80] : Fin 2 → ℝ) (1 : Fin 3) + scat ix (![60, 80] : Fin 2 → ℝ) (2 : Fin 3) * scat ix (![60, 80] : Fin 2 → ℝ) (2 : Fin 3) :=
      Fin.sum_univ_three (fun i : Fin 3 => scat ix (![60, 80] : Fin 2 → ℝ) i * scat ix (![60, 80] : Fin 2 → ℝ) i)
    rw [e, s0, s1, s2]
    norm_num
  have hQ : Q * Qᵀ = 1 := mul_eq_one_comm.1 ok.orth
  have hy : ∑ i, |(Qᵀ *ᵥ scat ix ![60, 80]) i| ^ 2 = 10000 := by
    rw [← hv]
    have h := mulVec_adj Q (Qᵀ *ᵥ scat ix ![60, 80]) (scat ix ![60, 80])
    rw [mulVec_mulVec, hQ, one_mulVec] at h
    rw [h]
    exact Finset.sum_congr rfl fun i _ => by rw [sq_abs, sq]
  refine ⟨∑ i, |(Qᵀ *ᵥ scat ix ![60, 80]) i|, ?_, ?_, ?_⟩
  · have h : ∑ i, |(Qᵀ *ᵥ scat ix ![60, 80]) i| ^ 2 ≤ (∑ i, |(Qᵀ *ᵥ scat ix ![60, 80]) i|) ^ 2 := by
      rw [sq (∑ i, _), Finset.sum_mul]
      refine Finset.sum_le_sum fun i _ => ?_
      rw [sq]
      exact mul_le_mul_of_nonneg_left (Finset.single_le_sum (f := fun i => |(Qᵀ *ᵥ scat ix ![60, 80]) i|) (fun j _ => abs_nonneg _) (Finset.mem_univ i)) (abs_nonneg _)
    rw [hy] at h
    refine (pow_le_pow_iff_left₀ (by positivity) (by positivity) two_ne_zero).1 ?_
    linarith
  · have h := sq_sum_le_card_mul_sum_sq (s := Finset.univ) (f := fun i => |(Qᵀ *ᵥ scat ix ![60, 80]) i|)
    rw [hy, Finset.card_univ, Fintype.card_fin] at h
    exact (pow_le_pow_iff_left₀ (by positivity) (by positivity) two_ne_zero).1 (le_trans h (by norm_num))
  · intro hp x a ha hx
    obtain ⟨sA, eA⟩ := ok.Aty.gives hR _ Reach.fresh (![60, 80] : Fin 2 → ℝ)
    rw [eA] at ha
    cases ha
    rw [← fvec_injective hx]

/-- `l1qc_dct(3, 1, [60, 80], [0, 2], epsilon=1, mu=7, lbtol=1, newton_tol=1/224, newton_max_iter=6000001, l1_tol=0, cgtol=0, cgmaxiter=3)` -/
noncomputable def sharpArgs : List (PyVal Dbl) :=
  [⟨some (.inl 3), none, none⟩, ⟨some (.inl 1), none, none⟩, ⟨none, some ⟨1, 2, fvec ![60, 80]⟩, none⟩, ⟨none, none, some ⟨1, 2, ![0, 2]⟩⟩,
   ⟨some (.inr (.fin 1)), none, none⟩, ⟨some (.inr (.fin 7)), none, none⟩, ⟨some (.inr (.fin 1)), none, none⟩]

noncomputable def sharpKw : List (String × PyVal Dbl) :=
  [("newton_tol", ⟨some (.inr (.fin (1 / 224))), none, none⟩), ("newton_max_iter", ⟨some (.inl 6000001), none, none⟩), ("l1_tol", ⟨some (.inr (.fin 0)), none, none⟩),
   ("cgtol", ⟨some (.inr (.fin 0)), none, none⟩), ("cgmaxiter", ⟨some (.inl 3), none, none⟩)]

theorem sharp_good : PyL1qcGood sharpArgs sharpKw ⟨3, 1, some ⟨1, 2, fvec ![60, 80]⟩, some ⟨1, 2, ![0, 2]⟩, sharpEx (lit 0), DCT1⟩ := by
  refine ⟨⟨by decide, by decide, ?_⟩, ⟨_, _, _, _, _, rfl, rfl, by decide, rfl, by decide, rfl, rfl⟩, Or.inl ⟨_, Or.inl rfl, Or.inl rfl⟩, Or.inl ⟨_, Or.inl rfl, Or.inl rfl⟩,
    Or.inl ⟨_, Or.inl rfl, Or.inl rfl⟩, Or.inl ⟨⟨some (.inr (.fin (1 / 224))), none, none⟩, Or.inr ⟨by decide, by simp [sharpKw]⟩, Or.inl rfl⟩,
    Or.inl ⟨⟨some (.inl 6000001), none, none⟩, Or.inr ⟨by decide, by simp [sharpKw]⟩, rfl, by decide⟩,
    ⟨0, Or.inr ⟨?_, rfl⟩⟩, Or.inl ⟨⟨some (.inr (.fin 0)), none, none⟩, Or.inr ⟨by decide, by simp [sharpKw]⟩, Or.inl rfl⟩,
    Or.inl ⟨⟨some (.inr (.fin 0)), none, none⟩, Or.inr ⟨by decide, by simp [sharpKw]⟩, Or.inl rfl⟩,
    Or.inl ⟨⟨some (.inl 3), none, none⟩, Or.inr ⟨by decide, by simp [sharpKw]⟩, rfl, by decide⟩, Or.inr ⟨?_, rfl⟩, rfl, rfl, rfl⟩
  · intro p hp
    simp only [sharpKw, List.mem_cons, List.not_mem_nil, or_false] at hp
    rcases hp with rfl | rfl | rfl | rfl | rfl
    · exact ⟨3, rfl, by decide⟩
    · exact ⟨4, rfl, by decide⟩
    · exact ⟨6, rfl, by decide⟩
    · exact ⟨7, rfl, by decide⟩
    · exact ⟨8, rfl, by decide⟩
  · rintro v (h | ⟨-, h⟩)
    · cases h
    · simp [sharpKw] at h
  · rintro v (h | ⟨-, h⟩)
    · cases h
    · simp [sharpKw] at h

/-- `C78_python_returns` applies: the returned image has samples within 1 of 60 and 80, and its coefficients are at most 21 above the smallest
possible 1-norm -/
example : ∃ t x r img res s', py_l1qc_call refLib sharpArgs sharpKw exPy = some (.ret t x r (3 : ℕ) (1 : ℕ) img res, s') ∧ s'.live = ∅ ∧ res.status = 0 ∧
    NearlySparsest refLib 3 1 2 (List.ofFn ![0, 2]) (twoDim (3 : ℕ) (1 : ℕ) DCT1) ![60, 80] 1 21 img := by
  obtain ⟨X, h1, h2, h3⟩ := sharpEx_data (idx := List.ofFn ![0, 2]) rfl (twoDim (3 : ℕ) (1 : ℕ) DCT1)
  have h := C78_python_returns (lib := refLib) (s := exPy) (n := 2) (mrow := 3) (mcol := 1) (idx := ![0, 2]) refLib_ok (fun o _ => rfl) (fun a h => by cases h)
    exWorld_hist (by simp [sharpKw]) sharp_good rfl rfl rfl rfl (Or.inl rfl) (by decide) (by decide) (by decide)
    (fun h => by simpa using congrFun h 0) (not_busy_empty _) (sharpEx_ok (lit 0) h1 h2) h3 (fun _ _ => rfl) (fun _ _ => rfl) (fun _ _ => rfl)
  rwa [show (3 * (7 * 1) : ℝ) = 21 by norm_num] at h

/-- the struct with the options -/
noncomputable def sharpField : String → Option (MxArr Dbl)
  | "epsilon" => some (mxNum 1)
  | "mu" => some (mxNum 7)
  | "lbtol" => some (mxNum 1)
  | "tau" => some (mxNum 0)
  | "lbiter" => some (mxNum 0)
  | "newton_tol" => some (mxNum (1 / 224))
  | "newton_max_iter" => some (mxNum 6000001)
  | "l1_tol" => some (mxNum 0)
  | "cgtol" => some (mxNum 0)
  | "cgmaxiter" => some (mxNum 3)
  | "warm_start_cg" => some (mxNum 0)
  | "verbose" => some (mxNum 0)
  | _ => none

/-- the same call from Matlab, where positions start at 1 -/
noncomputable def sharpPrhs : List (MxVal Dbl) := [.arr (mxNum 3), .arr (mxNum 1), mxPair 60 80, mxPair 1 3, .struct 1 1 sharpField]

theorem sharp_mex_good : MexGood sharpPrhs ⟨3, 1, ⟨2, fvec ![60, 80]⟩, ⟨2, fvec ![1, 3]⟩, sharpEx (.fin 0)⟩ := by
  have c : ∀ (k : ℕ) {x : ℝ}, x = (k : ℝ) → (k : Int) ≤ INT_MAX → castInt (Dbl.fin x) = some (k : Int) := fun k x hx hk => by rw [hx]; exact castInt_nat hk
  refine ⟨⟨_, _, _, _, sharpField, _, .fin 3, .fin 1, rfl, ⟨_, rfl⟩, c 3 (by norm_num) (by decide), ⟨_, rfl⟩, c 1 (by norm_num) (by decide),
    ⟨_, _, _, _, rfl, rfl, by decide, by decide, by decide⟩, ⟨_, _, _, _, rfl, rfl, by decide, by decide, by decide⟩, ?_⟩, by decide, by decide, rfl, by decide⟩
  exact ⟨.fin 0, .fin 0, .fin 6000001, .fin 3, .fin 0, 0, ⟨_, rfl⟩, ⟨_, rfl⟩, ⟨_, rfl⟩, ⟨_, rfl⟩, ⟨_, rfl⟩, ⟨_, rfl⟩, ⟨_, rfl⟩, ⟨_, rfl⟩, c 0 (by norm_num) (by decide), ⟨_, rfl⟩,
    c 0 (by norm_num) (by decide), ⟨_, rfl⟩, c 6000001 (by norm_num) (by decide), ⟨_, rfl⟩, c 3 (by norm_num) (by decide), ⟨_, rfl⟩, c 0 (by norm_num) (by decide)⟩

/-- `C78_matlab_returns` applies -/
example : ∃ img res s', l1qc_dct_mex refLib (fun _ => .nan) 2 sharpPrhs exWorld = some (.ret img (some res), s') ∧ s'.live = ∅ ∧ res.status = 0 ∧
    NearlySparsest refLib 3 1 2 [0, 2] (twoDim (3 : ℕ) (1 : ℕ) DCT1) ![60, 80] 1 21 img := by
  obtain ⟨X, h1, h2, h3⟩ := sharpEx_data (idx := [1, 3].map fun k : Int => k - 1) rfl (twoDim (3 : ℕ) (1 : ℕ) DCT1)
  have h := C78_matlab_returns (lib := refLib) (junk := fun _ => .nan) (s := exWorld) (n := 2) (mrow := 3) (mcol := 1) (ks := [1, 3]) refLib_ok (fun a h => by cases h)
    exWorld_hist sharp_mex_good rfl rfl rfl (by simp [fvec]) (by decide) (by decide)
    (fun h => by simpa using congrFun h 0) (not_busy_empty _) (sharpEx_ok (.fin 0) h1 h2) h3 (fun _ _ => rfl) (fun _ _ => rfl)
  rwa [show (3 * (7 * 1) : ℝ) = 21 by norm_num] at h

end example_calls

end L1c
