import Verif.Proofs.NestaSteps
import Verif.Props.NestaBindings
import Verif.Props.Options

/-!
# C79: image recovery with NESTA from Matlab and Python, end to end

Also the bound of `C67` for any number of continuation steps.
-/

namespace L1c
open Scalar Matrix

section library
variable {n m p : ℕ} {σ : Type}
variable {A : Matrix (Fin n) (Fin m) ℝ} {W : Matrix (Fin m) (Fin p) ℝ} {Inv : σ → Prop} {D : Dbl → Prop} {ax : NAx Dbl σ n m p}
variable {b : Fin n → ℝ} {sigma mu K a : ℝ} {opts : NestaOpts Dbl}

/-- **C67**, several continuation steps: a bound in terms of the arguments only, for a dictionary with `a ‖x‖ ≤ ‖Wᵀ x‖ ≤ norm_W ‖x‖`.  It holds for every
tolerance with `q = 1` and for nonpositive ones with `q = 10000`.  `M` is the value the smoothing parameter is derived from; `l` and `U` bound the
smoothing parameters of all steps. -/
theorem C67_steps (R : Realises ax Inv D A W) (hA : A * Aᵀ = 1) {M l U : ℝ} {q : ℕ}
    (hsig : opts.sigma = Dbl.fin sigma) (hs : 0 < sigma) (hmu : opts.mu = Dbl.fin mu) (hm : 0 < mu) (hq : q = 1 ∨ (q = 10000 ∧ ∃ t ≤ 0, opts.tol = Dbl.fin t))
    (hK : ax.norm_W = Dbl.fin K) (hK0 : 0 < K) (hW : ∀ x, nrm (Wᵀ *ᵥ x) ≤ K * nrm x) (ha : 0 < a) (hWa : ∀ x, a * nrm x ≤ nrm (Wᵀ *ᵥ x))
    (hM : vmax (fvec (absHead m (Wᵀ *ᵥ (Aᵀ *ᵥ b)))) = Dbl.fin M) (hl : 0 < l) (hlM : l ≤ 9 / 10 * M) (hlm : l ≤ mu) (hUM : 9 / 10 * M ≤ U) (hUm : mu ≤ U)
    (hN : 1 ≤ opts.n_continue) (hN' : opts.n_continue < INT_MAX) (xk : Vec Dbl m) (s : NState σ) (hI : Inv s.cb) (hwf : s.WF)
    (hal : ∀ i < 11, s.oracle (s.calls + i) = true) :
    ∃ (x : Fin m → ℝ) (out : NestaOut Dbl n m p) (s' : NState σ), l1c_nesta m n xk (fvec b) ax opts s = some (out, s') ∧
      out.status = L1C_SUCCESS ∧ out.xk = fvec x ∧ Feas A b sigma x ∧ ∀ v, Feas A b sigma v →
        ∑ i, |(Wᵀ *ᵥ x) i| ≤ ∑ i, |(Wᵀ *ᵥ v) i| + p * mu / 2 +
          nestaErr p K mu q ((∑ i, |(Wᵀ *ᵥ (Aᵀ *ᵥ b)) i| + p * mu / 2) / a +
            nestaReach q p K l U a (∑ i, |(Wᵀ *ᵥ (Aᵀ *ᵥ b)) i|) (nrm (Aᵀ *ᵥ b)) (opts.n_continue.toNat - 1)) := by
  obtain ⟨xo, k, P', T, s', h1, h2, h3, h4⟩ := nesta_steps R hA hsig hs hmu hm hq hK hK0 hW ha hWa hM hl hlM hlm hUM hUm hN hN' xk s hI hwf hal
  refine ⟨_, _, s', h1, rfl, rfl, seqR_feas hA hs hm (mul_self_pos.2 hK0.ne') k, fun v hv => (step_near hA hs hm hK0 hW ha hWa xo k hv).trans
    (add_le_add le_rfl ?_)⟩
  have hS : 0 ≤ ∑ i, |(Wᵀ *ᵥ (Aᵀ *ᵥ b)) i| := Finset.sum_nonneg fun _ _ => abs_nonneg _
  have h0 : 0 ≤ (∑ i, |(Wᵀ *ᵥ (Aᵀ *ᵥ b)) i| + p * mu / 2) / a + nrm xo := by
    have := nrm_nonneg xo; positivity
  exact (nestaErr_iter hm hK0.le h0 h2 h3).trans (nestaErr_mono hm hK0 h0 (add_le_add le_rfl h4))

end library

section exact
variable {lib : FftwLib Dbl} {L : Sets Dbl}

/-- the bound of the dictionary, seen from the other side -/
theorem Wt_bound {m p : ℕ} {W : Matrix (Fin m) (Fin p) ℝ} {K : ℝ} (hK : 0 ≤ K) (h : ∀ v, nrm (W *ᵥ v) ≤ K * nrm v) (x : Fin m → ℝ) :
    nrm (Wᵀ *ᵥ x) ≤ K * nrm x := by
  have := W_bound (W := Wᵀ) hK (fun v => by rw [transpose_transpose]; exact h v) x
  exact this

/-- NESTA on a live analysis set -/
theorem ana_optimal (hlib : LibOk lib) {s : NState (World Dbl)} (hwf : s.WF) (hw : Hist lib s.cb L) {r k n : ℕ} {av ah : ℝ} {two : Bool} {ix : Fin n → Fin (r * k)}
    {t : SetTv Dbl} (hL : L.tv = some t) (ht : t = ⟨r, k, n, List.ofFn fun i => ((ix i : ℕ) : Int), .fin av, .fin ah, false, two⟩)
    (hr : TvReal t av ah) (hinj : Function.Injective ix) {b : Fin n → ℝ} {b' : Vec Dbl t.n} (hb : ∀ i : Fin n, ∃ h, b' ⟨i, h⟩ = .fin (b i))
    {sigma mu : ℝ} {tol : Dbl} {N : Int} (xk : Vec Dbl t.m) (hN : N < INT_MAX) (hal : ∀ i < 11, s.oracle (s.calls + i) = true)
    (hs : 0 < sigma) (hN1 : 1 ≤ N) (hmu : 0 < mu) (hb0 : b ≠ 0) (hrk : 0 < r * k) {q : ℕ} (hq : q = 1 ∨ (q = 10000 ∧ ∃ t ≤ 0, tol = Dbl.fin t)) :
    ∃ (y : Fin (r * k) → ℝ) (out : NestaOut Dbl t.n t.m t.p) (s' : NState (World Dbl)),
      l1c_nesta t.m t.n xk b' (setNAx lib t.kind t.n t.m t.p (tvNormW true (.fin av) (.fin ah))) ⟨.fin sigma, .fin mu, tol, N⟩ s = some (out, s') ∧
      (∀ i : Fin (r * k), ∃ h, out.xk ⟨i, h⟩ = .fin (y i)) ∧
      NearlyBest two av ah ix b sigma (anaGap q (r * k) av ah mu (anaCost two av ah (onBlack ix b)) √(∑ i, b i ^ 2) N.toNat) y := by
  subst ht
  have hidx : ∀ i : Fin n, idxFun n (List.ofFn fun i => ((ix i : ℕ) : Int)) i = (ix i : ℕ) := fun i => by
    unfold idxFun
    rw [List.getD_eq_getElem?_getD, List.getElem?_eq_getElem (by rw [List.length_ofFn]; exact i.2), List.getElem_ofFn]
    rfl
  have hinj' : Function.Injective (idxFun n (List.ofFn fun i => ((ix i : ℕ) : Int))) := fun i j h => by
    rw [hidx, hidx] at h
    exact hinj (Fin.ext (by exact_mod_cast h))
  obtain ⟨ix', A, W, h1, h2, h3, R, h5, h6, h7, h8, h9, h10, h11, h12, -⟩ := setN_real hlib hw hL rfl hr hinj' (tvNormW true (.fin av) (.fin ah))
  have hix : ix' = (ix : Fin n → Fin (r * k)) := funext fun i => Fin.ext (by
    have := (h1 i).trans (hidx i)
    exact_mod_cast this)
  have h8' : Aᵀ *ᵥ b = onBlack ix b := by rw [h8 b, hix]
  have hixi : ∀ i : Fin n, ix' i = ix i := fun i => congrFun hix i
  have hb' : b' = fvec b := by
    funext i
    obtain ⟨_, h⟩ := hb i
    exact h
  subst hb'
  have hK : (setNAx lib .tvAna n (r * k) (tvP (r * k) (Dbl.fin av) (Dbl.fin ah)) (tvNormW true (.fin av) (.fin ah))).norm_W = .fin (√(1 + 4 * av ^ 2 + 4 * ah ^ 2)) := h6
  have hK0 : 0 < √(1 + 4 * av ^ 2 + 4 * ah ^ 2) := by positivity
  have hres : ∀ y : Fin (r * k) → ℝ, nrm (b - A *ᵥ y) = √(∑ i, (y (ix i) - b i) ^ 2) := fun y => by
    unfold nrm
    congr 1
    refine Finset.sum_congr rfl fun i _ => ?_
    rw [Pi.sub_apply, h2 y i, hixi i]
    ring
  have hx : Aᵀ *ᵥ b ≠ 0 := fun hc => hb0 (by
    have : (A * Aᵀ) *ᵥ b = 0 := by rw [← mulVec_mulVec, hc, mulVec_zero]
    rwa [h3, one_mulVec] at this)
  have hnb : nrm (Aᵀ *ᵥ b) = √(∑ i, b i ^ 2) := by
    unfold nrm
    have : (A *ᵥ (Aᵀ *ᵥ b)) ⬝ᵥ b = (Aᵀ *ᵥ b) ⬝ᵥ (Aᵀ *ᵥ b) := mulVec_adj A _ _
    rw [← this, mulVec_mulVec, h3, one_mulVec]
    congr 1
    exact Finset.sum_congr rfl fun i _ => (sq _).symm
  obtain ⟨j, hj, hj'⟩ := h5 _ hx
  obtain ⟨M, hM, hM0, hM1⟩ := vmax_fvec (Nat.pos_of_ne_zero fun h => by rw [h] at j; exact j.elim0) (absHead (r * k) (Wᵀ *ᵥ (Aᵀ *ᵥ b)))
  have hMS : M ≤ ∑ i, |(Wᵀ *ᵥ (Aᵀ *ᵥ b)) i| := by
    obtain ⟨i, hi⟩ := hM1
    rw [hi]
    refine le_trans ?_ (Finset.single_le_sum (f := fun i => |(Wᵀ *ᵥ (Aᵀ *ᵥ b)) i|) (fun _ _ => abs_nonneg _) (Finset.mem_univ i))
    unfold absHead
    split
    · exact le_rfl
    · exact le_abs_self _
  have hMl : nrm (Aᵀ *ᵥ b) / √((r * k : ℕ) : ℝ) ≤ M := by
    obtain ⟨i, hi1, hi2⟩ := h12 (Aᵀ *ᵥ b)
    refine hi2.trans (le_trans ?_ (hM0 i))
    unfold absHead
    rw [if_pos hi1]
  have hS0 : 0 ≤ ∑ i, |(Wᵀ *ᵥ (Aᵀ *ᵥ b)) i| := Finset.sum_nonneg fun _ _ => abs_nonneg _
  have hrk' : (0 : ℝ) < ((r * k : ℕ) : ℝ) := by exact_mod_cast hrk
  have hl : 0 < min mu (9 / 10 * (nrm (Aᵀ *ᵥ b) / √((r * k : ℕ) : ℝ))) := lt_min hmu (by have := nrm_pos hx; positivity)
  obtain ⟨y, out, s', e, -, e2, e3, e4⟩ := C67_steps R h3 (b := b) (opts := ⟨.fin sigma, .fin mu, tol, N⟩) (a := 1) (q := q)
    (l := min mu (9 / 10 * (nrm (Aᵀ *ᵥ b) / √((r * k : ℕ) : ℝ)))) (U := max mu (∑ i, |(Wᵀ *ᵥ (Aᵀ *ᵥ b)) i|)) rfl hs rfl hmu hq hK hK0 (Wt_bound hK0.le h7) one_pos
    (fun x => by rw [one_mul]; exact h11 x) hM hl ((min_le_right _ _).trans (by linarith)) (min_le_left _ _)
    (le_trans (by have := hl.trans_le ((min_le_right _ _).trans (mul_le_mul_of_nonneg_left hMl (by norm_num))); linarith) (le_max_right _ _)) (le_max_left _ _)
    hN1 hN xk s hw hwf hal
  refine ⟨y, out, s', e, fun i => ⟨i.2, congrFun e2 i⟩, ?_, fun v hv => ?_⟩
  · rw [← hres]; exact e3
  · have := e4 v (by show nrm (b - A *ᵥ v) ≤ sigma; rw [hres]; exact hv)
    have h10' : ∀ x : Fin (r * k) → ℝ, ∑ i, |(Wᵀ *ᵥ x) i| = anaCost two av ah x := h10
    have h9' : tvP (r * k) (Dbl.fin av) (Dbl.fin ah) = anaCoefs (r * k) av ah := h9
    rw [h10', h10', h10', hnb, h8', div_one, add_assoc] at this
    unfold anaGap
    rw [← h9']
    exact this

variable {junk : ℕ → Dbl} {nlhs : ℕ} {prhs : List (MxVal Dbl)} {mode : Option (Option String)}
variable {r k n q : ℕ} {b : Fin n → ℝ} {pix : Fin n → Int} {sigma mu av ah : ℝ} {tol : Dbl} {N dm : Int}

/-- **C79**, Matlab: whenever a call in analysis mode with distinct pixels, samples that are not all zero and at least one continuation step returns an
image, the image fits the samples within sigma, and no image that fits costs less by more than `anaGap`. -/
theorem C79_matlab {s s' : NState (World Dbl)} (hlib : LibOk lib) (hs : s.WF) (hw : Hist lib s.cb L) (htv : L.tv = none) (hb : ∀ two, ¬ L.busy two)
    (hg : NestaMexGood prhs mode ⟨r, k, ⟨n, fvec b⟩, ⟨n, fun i => .fin (pix i : ℝ)⟩, ⟨.fin sigma, .fin mu, tol, N⟩, .fin av, .fin ah, dm, true⟩) (hl : 2 ≤ nlhs)
    (hN1 : 1 ≤ N) (hN : N < INT_MAX) (hinj : Function.Injective pix) (hsig : 0 < sigma) (hmu : 0 < mu) (hb0 : b ≠ 0)
    (hq : q = 1 ∨ (q = 10000 ∧ ∃ t ≤ 0, tol = Dbl.fin t))
    {rows cols st : Int} {x : Arr Dbl} (h : nesta_dctTV_mex lib junk nlhs prhs mode s = some (.ret rows cols x st, s')) :
    rows = r ∧ cols = k ∧ st = 0 ∧ ∃ (y : Fin (r * k) → ℝ) (ix : Fin n → Fin (r * k)), x = ⟨r * k, fvec y⟩ ∧ (∀ i, ((ix i : ℕ) : Int) + 1 = pix i) ∧
      NearlyBest (twoDim r k dm) av ah ix b sigma (anaGap q (r * k) av ah mu (anaCost (twoDim r k dm) av ah (onBlack ix b)) √(∑ i, b i ^ 2) N.toNat) y := by
  have hp := C64_accepts hg hl
  have hpos := hg.pos
  dsimp only at hpos
  rcases C64_outcome_partial hs hw htv hb hp hN h with ⟨r', k', x', idx, t, e, e1, e2, e3, hi, hv, -, -, ht, h1⟩ | h | h | h
  swap
  · cases h
  swap
  · cases h
  swap
  · cases h
  dsimp only at *
  obtain rfl : r = r' := by exact_mod_cast e1
  obtain rfl : k = k' := by exact_mod_cast e2
  cases e3
  obtain ⟨ix, rfl, hix⟩ := oneBased_fin hi
  obtain ⟨w, b', o, s1, hw1, hb', hrun, hal, hx⟩ := h1 rfl
  have hinj' : Function.Injective ix := fun i j hij => hinj (by rw [← hix, ← hix, hij])
  have hrk : 0 < r * k := Nat.mul_pos (by omega) (by omega)
  have hr : TvReal t av ah := by subst ht; exact tvReal_of_valid hv
  obtain ⟨y, o', s1', g1, g2, g3⟩ := ana_optimal (N := N) (tol := tol) (sigma := sigma) (mu := mu) hlib (mexCallState_wf (nmexState_wf hs w)) hw1 rfl ht hr hinj' (b := b) (b' := b')
    (fun i => hb' i) (fun i => junk i) hN hal hsig hN1 hmu hb0 hrk hq
  rw [hrun] at g1
  cases g1
  refine ⟨rfl, rfl, rfl, y, ix, ?_, hix, g3⟩
  congr 1
  funext i
  obtain ⟨_, hi1⟩ := hx i
  obtain ⟨_, hi2⟩ := g2 i
  exact hi1.trans hi2

/-- **C79**, Matlab, total: with pixels in the image, admissible weights and enough memory the call does return such an image. -/
theorem C79_matlab_returns {s : NState (World Dbl)} (hlib : LibOk lib) (hs : s.WF) (hw : Hist lib s.cb L) (htv : L.tv = none) (hb : ∀ two, ¬ L.busy two)
    (hg : NestaMexGood prhs mode ⟨r, k, ⟨n, fvec b⟩, ⟨n, fun i => .fin (pix i : ℝ)⟩, ⟨.fin sigma, .fin mu, tol, N⟩, .fin av, .fin ah, dm, true⟩) (hl : 2 ≤ nlhs)
    (hN1 : 1 ≤ N) (hN : N < INT_MAX) (hinj : Function.Injective pix) (hpix : ∀ i, 1 ≤ pix i ∧ pix i ≤ r * k) (hsig : 0 < sigma) (hmu : 0 < mu) (hb0 : b ≠ 0)
    (hq : q = 1 ∨ (q = 10000 ∧ ∃ t ≤ 0, tol = Dbl.fin t)) (hv : 0 ≤ av) (hh : 0 ≤ ah) (hdim : (0 < av ∨ 0 < ah) → 2 < r ∧ 2 < k)
    (hp : FitsInt (tvP (r * k) (Dbl.fin av) (Dbl.fin ah))) (hal : ∀ i < 14, s.oracle (s.calls + i) = true) (hal' : ∀ i < 6, s.cb.oracle (s.cb.calls + i) = true) :
    ∃ (y : Fin (r * k) → ℝ) (ix : Fin n → Fin (r * k)) (s' : NState (World Dbl)),
      nesta_dctTV_mex lib junk nlhs prhs mode s = some (.ret r k ⟨r * k, fvec y⟩ 0, s') ∧ (∀ i, ((ix i : ℕ) : Int) + 1 = pix i) ∧
      NearlyBest (twoDim r k dm) av ah ix b sigma (anaGap q (r * k) av ah mu (anaCost (twoDim r k dm) av ah (onBlack ix b)) √(∑ i, b i ^ 2) N.toNat) y := by
  obtain ⟨x, s', h⟩ := C66_matlab_returns (lib := lib) (junk := junk) hs hw htv hb hg hl hN hpix hv hh hdim hp hal hal'
  obtain ⟨-, -, -, y, ix, rfl, h1, h2⟩ := C79_matlab hlib hs hw htv hb hg hl hN1 hN hinj hsig hmu hb0 hq h
  exact ⟨y, ix, s', h, h1, h2⟩

variable {args : List (PyVal Dbl)} {kw : List (String × PyVal Dbl)}

/-- **C79**, Python: the same for `nesta_dctTV(mrow, mcol, b, pix_idx, …)` when it returns with status 0; pixels count from 0. -/
theorem C79_python {s s' : NState (PyState Dbl)} (hlib : LibOk lib) (hs : s.WF) (hr : s.cb.WF) (hw : Hist lib s.cb.w L) (htv : L.tv = none) (hb : ∀ two, ¬ L.busy two)
    (hk : (kw.map (·.1)).Nodup)
    (hg : PyNestaGood args kw ⟨r, k, some ⟨1, n, fvec b⟩, some ⟨1, n, pix⟩, .fin av, .fin ah, BP_ANALYSIS, dm, ⟨.fin sigma, .fin mu, tol, N⟩⟩)
    (hn : (n : Int) ≤ INT_MAX) (hN1 : 1 ≤ N) (hN : N < INT_MAX) (hinj : Function.Injective pix) (hsig : 0 < sigma) (hmu : 0 < mu) (hb0 : b ≠ 0)
    (hq : q = 1 ∨ (q = 10000 ∧ ∃ t ≤ 0, tol = Dbl.fin t))
    {tu x : ℕ} {rows cols : Int} {xk : Arr Dbl} (h : py_nesta_call lib args kw s = some (.ret tu x rows cols xk 0, s')) :
    rows = r ∧ cols = k ∧ ∃ (y : Fin (r * k) → ℝ) (ix : Fin n → Fin (r * k)), xk = ⟨r * k, fvec y⟩ ∧ (∀ i, ((ix i : ℕ) : Int) = pix i) ∧
      NearlyBest (twoDim r k dm) av ah ix b sigma (anaGap q (r * k) av ah mu (anaCost (twoDim r k dm) av ah (onBlack ix b)) √(∑ i, b i ^ 2) N.toNat) y := by
  rw [(C76_calls lib hk s).2 _ hg] at h
  obtain ⟨e1, e2, hrk, ix, t, w, L1, b', o, s1, hix, hL1, hw1, ht, htr, hb', hrun, hal, hx⟩ := py_run hs hr hw htv hb hn hN h
  have hwf : NState.WF { mexCallState (pyLib s) with cb := w } := fun c hc => mexCallState_wf (s := pyLib s) hs c hc
  have hinj' : Function.Injective ix := fun i j hij => hinj (by rw [← hix, ← hix, hij])
  obtain ⟨y, o', s1', g1, g2, g3⟩ := ana_optimal (N := N) (tol := tol) (sigma := sigma) (mu := mu) hlib hwf hw1 hL1 ht htr hinj' (b := b) (b' := b')
    hb' (fun _ => lit 0) hN hal hsig hN1 hmu hb0 hrk hq
  rw [hrun] at g1
  cases g1
  refine ⟨e1, e2, y, ix, ?_, hix, g3⟩
  rw [hx]
  subst ht
  refine congrArg (Sigma.mk (r * k)) (funext fun i => ?_)
  obtain ⟨_, hi2⟩ := g2 i
  exact hi2

/-- **C79**, Python, total: with valid arguments and enough memory the call does return such an image with status 0. -/
theorem C79_python_returns {s : NState (PyState Dbl)} (hlib : LibOk lib) (hs : s.WF) (hr : s.cb.WF) (hw : Hist lib s.cb.w L) (htv : L.tv = none) (hb : ∀ two, ¬ L.busy two)
    (hk : (kw.map (·.1)).Nodup)
    (hg : PyNestaGood args kw ⟨r, k, some ⟨1, n, fvec b⟩, some ⟨1, n, pix⟩, .fin av, .fin ah, BP_ANALYSIS, dm, ⟨.fin sigma, .fin mu, tol, N⟩⟩)
    (hdm : dm = DCT1 ∨ dm = DCT2) (hf : FitsInt ((r : Int) * k)) (hn : n ≤ r * k) (hv : ValidTv n r k (Dbl.fin av) (Dbl.fin ah) (List.ofFn pix))
    (hp : FitsInt (tvP (r * k) (Dbl.fin av) (Dbl.fin ah))) (hN1 : 1 ≤ N) (hN : N < INT_MAX) (hinj : Function.Injective pix) (hsig : 0 < sigma) (hmu : 0 < mu) (hb0 : b ≠ 0)
    (hq : q = 1 ∨ (q = 10000 ∧ ∃ t ≤ 0, tol = Dbl.fin t))
    (hpy : ∀ i < 4, s.cb.oracle (s.cb.calls + i) = true) (hal : ∀ i < 13, s.oracle (s.calls + i) = true) (hal' : ∀ i < 6, s.cb.w.oracle (s.cb.w.calls + i) = true) :
    ∃ (tu x : ℕ) (y : Fin (r * k) → ℝ) (ix : Fin n → Fin (r * k)) (s' : NState (PyState Dbl)),
      py_nesta_call lib args kw s = some (.ret tu x r k ⟨r * k, fvec y⟩ 0, s') ∧ (∀ i, ((ix i : ℕ) : Int) = pix i) ∧
      NearlyBest (twoDim r k dm) av ah ix b sigma (anaGap q (r * k) av ah mu (anaCost (twoDim r k dm) av ah (onBlack ix b)) √(∑ i, b i ^ 2) N.toNat) y := by
  obtain ⟨tu, x, xk, s', h⟩ := C65_returns (lib := lib) (opts := ⟨.fin sigma, .fin mu, tol, N⟩) (b := fvec b) hs hw htv hb hN hdm hf hn hv hp hpy hal hal'
  rw [← (C76_calls lib hk s).2 _ hg] at h
  have hn' : (n : Int) ≤ INT_MAX := le_trans (by exact_mod_cast hn) hf.2
  obtain ⟨-, -, y, ix, rfl, h1, h2⟩ := C79_python hlib hs hr hw htv hb hk hg hn' hN1 hN hinj hsig hmu hb0 hq h
  exact ⟨tu, x, y, ix, s', h, h1, h2⟩

end exact

/-! ## Concrete calls -/

section example_calls

/-- two continuation steps of the library call: one sample of a two-pixel image, dictionary the identity -/
example : ∃ (x : Fin 2 → ℝ) (out : NestaOut Dbl 1 2 2) (s' : NState Unit),
    l1c_nesta 2 1 (fun _ => lit 0) (fvec ![3]) (realAx exA (1 : Matrix (Fin 2) (Fin 2) ℝ) (Dbl.fin 1)) ⟨Dbl.fin (1 / 2), Dbl.fin (1 / 100), Dbl.fin 0, 2⟩ exState = some (out, s') ∧
      out.status = L1C_SUCCESS ∧ out.xk = fvec x ∧ ∀ v, Feas exA ![3] (1 / 2) v → ∑ i, |x i| ≤ ∑ i, |v i| + 1 / 50 := by
  have hW : ∀ x : Fin 2 → ℝ, ((1 : Matrix (Fin 2) (Fin 2) ℝ)ᵀ *ᵥ x) = x := fun x => by simp
  have hb : ((exA)ᵀ *ᵥ ![(3 : ℝ)]) = ![9 / 5, 12 / 5] := by
    funext i; fin_cases i <;> norm_num [exA, mulVec, dotProduct]
  have hM : vmax (fvec (absHead 2 ((1 : Matrix (Fin 2) (Fin 2) ℝ)ᵀ *ᵥ ((exA)ᵀ *ᵥ ![(3 : ℝ)])))) = Dbl.fin (12 / 5) := by
    obtain ⟨M, h1, h2, i, h3⟩ := vmax_fvec two_pos (absHead 2 ((1 : Matrix (Fin 2) (Fin 2) ℝ)ᵀ *ᵥ ((exA)ᵀ *ᵥ ![(3 : ℝ)])))
    rw [h1]
    congr 1
    rw [hW, hb] at h2 h3
    have g := h2 1
    fin_cases i <;> norm_num [absHead] at h3 g
    · rw [h3] at g; norm_num at g
    · rw [h3]
  obtain ⟨x, out, s', h1, h2, h3, -, h5⟩ := C67_steps (opts := ⟨Dbl.fin (1 / 2), Dbl.fin (1 / 100), Dbl.fin 0, 2⟩)
    (realAx_realises exA (1 : Matrix (Fin 2) (Fin 2) ℝ) (Dbl.fin 1)) (b := ![3]) (a := 1) (l := 1 / 100) (U := 3) (q := 10000)
    (by ext i j; fin_cases i; fin_cases j; norm_num [exA, Matrix.mul_apply]) rfl (by norm_num) rfl (by norm_num) (Or.inr ⟨rfl, 0, le_rfl, rfl⟩) rfl one_pos
    (fun x => by rw [hW, one_mul]) one_pos (fun x => by rw [hW, one_mul]) hM (by norm_num) (by norm_num) (by norm_num) (by norm_num) (by norm_num)
    (by decide) (by decide) (fun _ => lit 0) exState trivial exState_wf (fun _ _ => rfl)
  refine ⟨x, out, s', h1, h2, h3, fun v hv => ?_⟩
  have := h5 v hv
  rw [hW, hW, hb] at this
  simp only [hW] at this
  have e3 : nrm ![(9 / 5 : ℝ), 12 / 5] = 3 := by
    rw [nrm]
    norm_num [dotProduct, Fin.sum_univ_two]
    rw [show (9 : ℝ) = 3 * 3 by norm_num, Real.sqrt_mul_self (by norm_num)]
  rw [e3, Fin.sum_univ_two (f := fun i => |(![(9 / 5 : ℝ), 12 / 5]) i|), show ((2 : Int).toNat - 1) = 1 from rfl] at this
  have hS : |(![(9 / 5 : ℝ), 12 / 5]) 0| + |(![(9 / 5 : ℝ), 12 / 5]) 1| = 21 / 5 := by norm_num
  have hsq : √((2 : ℕ) : ℝ) ≤ 3 / 2 := by
    rw [Real.sqrt_le_left (by norm_num)]; norm_num
  have hr : nestaReach 10000 2 1 (1 / 100) 3 1 (21 / 5) 3 1 ≤ 8 := by
    unfold nestaReach nestaReach nestaErr
    norm_num at hsq ⊢
    linarith
  have hr0 : 0 ≤ nestaReach 10000 2 1 (1 / 100) 3 1 (21 / 5) 3 1 := by
    unfold nestaReach nestaReach nestaErr
    positivity
  rw [hS] at this
  refine this.trans ?_
  rw [add_assoc]
  refine add_le_add le_rfl ?_
  refine (add_le_add le_rfl (nestaErr_mono (by norm_num) one_pos (by positivity) (add_le_add le_rfl hr))).trans ?_
  unfold nestaErr
  norm_num at hsq ⊢
  linarith

/-- a bound on the cost of a three-pixel image without total variation -/
theorem ex_cost {x : Fin (3 * 1) → ℝ} : 0 ≤ anaCost (twoDim (3 : ℕ) (1 : ℕ) DCT1) 0 0 x ∧ anaCost (twoDim (3 : ℕ) (1 : ℕ) DCT1) 0 0 x ≤ 3 * ∑ i, |x i| := by
  have e : anaCost (twoDim (3 : ℕ) (1 : ℕ) DCT1) 0 0 x = ∑ i, |odct x i| := by
    unfold anaCost imgDct
    rw [if_neg (by decide), zero_mul, zero_mul, add_zero, add_zero]
  rw [e]
  refine ⟨Finset.sum_nonneg fun _ _ => abs_nonneg _, ?_⟩
  have h : ∀ i, |odct x i| ≤ ∑ j, |x j| := fun i => by
    unfold odct
    rw [abs_mul]
    have h1 : |(if (i : ℕ) = 0 then √(1 / ((3 * 1 : ℕ) : ℝ)) else √(2 / ((3 * 1 : ℕ) : ℝ)))| ≤ 1 := by
      split
      all_goals
        rw [abs_of_nonneg (Real.sqrt_nonneg _), Real.sqrt_le_one]
        norm_num
    refine (mul_le_of_le_one_left (abs_nonneg _) h1).trans ((Finset.abs_sum_le_sum_abs _ _).trans (Finset.sum_le_sum fun j _ => ?_))
    rw [abs_mul]
    exact mul_le_of_le_one_left (abs_nonneg _) (Real.abs_cos_le_one _)
  refine (Finset.sum_le_sum fun i _ => h i).trans ?_
  rw [Finset.sum_const, Finset.card_univ, Fintype.card_fin]
  simp

theorem onBlack_l1 {n m : ℕ} (ix : Fin n → Fin m) (b : Fin n → ℝ) : ∑ t, |onBlack ix b t| ≤ ∑ i, |b i| := by
  refine (Finset.sum_le_sum fun t _ => Finset.abs_sum_le_sum_abs _ _).trans ?_
  rw [Finset.sum_comm]
  refine Finset.sum_le_sum fun i _ => ?_
  rw [Finset.sum_eq_single (ix i) (fun t _ h => by rw [if_neg (Ne.symm h), abs_zero]) (fun h => absurd (Finset.mem_univ _) h), if_pos rfl]

/-- the gap for five steps, a vanishing tolerance and `mu = 0.01` -/
theorem ex_gap {S : ℝ} (h0 : 0 ≤ S) (hS : S ≤ 21) : anaGap 10000 (3 * 1) 0 0 (1 / 100) S 5 5 ≤ 3 / 50 := by
  have hc : anaCoefs (3 * 1) 0 0 = 3 := by simp [anaCoefs]
  have hK : √(1 + 4 * (0 : ℝ) ^ 2 + 4 * (0 : ℝ) ^ 2) = 1 := by norm_num
  have hsq : √((3 : ℕ) : ℝ) ≤ 7 / 4 := by
    rw [Real.sqrt_le_left (by norm_num)]; norm_num
  have hsq0 : 0 < √((3 : ℕ) : ℝ) := by positivity
  have hl : min (1 / 100 : ℝ) (9 / 10 * (5 / √((3 * 1 : ℕ) : ℝ))) = 1 / 100 := by
    refine min_eq_left ?_
    have : (1 : ℝ) ≤ 5 / √((3 * 1 : ℕ) : ℝ) := by
      rw [le_div_iff₀ hsq0]
      rw [one_mul]
      exact hsq.trans (by norm_num)
    linarith
  have hU : max (1 / 100) S ≤ 21 := max_le (by norm_num) hS
  have hU0 : (0 : ℝ) ≤ max (1 / 100) S := le_max_of_le_right h0
  have hr : ∀ j, 0 ≤ nestaReach 10000 3 1 (1 / 100) (max (1 / 100) S) 1 S 5 j ∧ nestaReach 10000 3 1 (1 / 100) (max (1 / 100) S) 1 S 5 j ≤ 53 := by
    intro j
    induction j with
    | zero => unfold nestaReach; norm_num
    | succ j ih =>
      unfold nestaReach
      rw [div_one, div_one]
      have d0 : 0 ≤ S + (3 : ℕ) * max (1 / 100) S / 2 + nestaReach 10000 3 1 (1 / 100) (max (1 / 100) S) 1 S 5 j := by
        have := ih.1; positivity
      constructor
      · have := nestaErr_nonneg (p := 3) (K := 1) (mu := 1 / 100) (k := 10000) (by norm_num) zero_le_one d0
        have h3 : (0 : ℝ) ≤ (3 : ℕ) * max (1 / 100) S / 2 := by positivity
        linarith
      · have := nestaErr_mono (p := 3) (K := 1) (mu := 1 / 100) (k := 10000) (d' := 106) (by norm_num) one_pos d0 (by have := ih.2; push_cast; linarith)
        have h4 : nestaErr 3 1 (1 / 100) 10000 106 ≤ 1 / 10 := by
          unfold nestaErr
          norm_num at hsq ⊢
          linarith
        push_cast at *
        linarith
  unfold anaGap
  rw [hc, hK, hl]
  have d0 : 0 ≤ S + (3 : ℕ) * (1 / 100) / 2 + nestaReach 10000 3 1 (1 / 100) (max (1 / 100) S) 1 S 5 (5 - 1) := by
    have := (hr (5 - 1)).1; positivity
  have := nestaErr_mono (p := 3) (K := 1) (mu := 1 / 100) (k := 10000) (d' := 75) (by norm_num) one_pos d0 (by have := (hr (5 - 1)).2; push_cast; linarith)
  have h4 : nestaErr 3 1 (1 / 100) 10000 75 ≤ 4 / 100 := by
    unfold nestaErr
    norm_num at hsq ⊢
    linarith
  push_cast at *
  linarith

theorem NearlyBest.mono {mrow mcol n : ℕ} {two : Bool} {av ah sigma g g' : ℝ} {ix : Fin n → Fin (mrow * mcol)} {b : Fin n → ℝ} {y : Fin (mrow * mcol) → ℝ}
    (h : NearlyBest two av ah ix b sigma g y) (hg : g ≤ g') : NearlyBest two av ah ix b sigma g' y :=
  ⟨h.1, fun v hv => (h.2 v hv).trans (add_le_add le_rfl hg)⟩

theorem ex_norm : √(∑ i, (![3, 4] : Fin 2 → ℝ) i ^ 2) = 5 := by
  rw [Fin.sum_univ_two]
  norm_num
  rw [show (25 : ℝ) = 5 * 5 by norm_num, Real.sqrt_mul_self (by norm_num)]

theorem ex_small (ix : Fin 2 → Fin (3 * 1)) : anaGap 10000 (3 * 1) 0 0 (1 / 100) (anaCost (twoDim (3 : ℕ) (1 : ℕ) DCT1) 0 0 (onBlack ix ![3, 4])) √(∑ i, (![3, 4] : Fin 2 → ℝ) i ^ 2) 5 ≤ 3 / 50 := by
  rw [ex_norm]
  refine ex_gap ex_cost.1 (ex_cost.2.trans ?_)
  have := onBlack_l1 ix (![3, 4] : Fin 2 → ℝ)
  rw [Fin.sum_univ_two] at this
  norm_num at this
  linarith

/-- `nesta_dctTV(3, 1, [3, 4], [0, 2], sigma=1, mu=0.01, tol=0)` -/
noncomputable def steepArgs : List (PyVal Dbl) :=
  [⟨some (.inl 3), none, none⟩, ⟨some (.inl 1), none, none⟩, ⟨none, some ⟨1, 2, fvec ![3, 4]⟩, none⟩, ⟨none, none, some ⟨1, 2, ![0, 2]⟩⟩]

noncomputable def steepKw : List (String × PyVal Dbl) :=
  [("sigma", ⟨some (.inr (.fin 1)), none, none⟩), ("mu", ⟨some (.inr (.fin (1 / 100))), none, none⟩), ("tol", ⟨some (.inr (.fin 0)), none, none⟩)]

theorem steep_good : PyNestaGood steepArgs steepKw
    ⟨(3 : ℕ), (1 : ℕ), some ⟨1, 2, fvec ![3, 4]⟩, some ⟨1, 2, ![0, 2]⟩, .fin 0, .fin 0, BP_ANALYSIS, DCT1, ⟨.fin 1, .fin (1 / 100), .fin 0, 5⟩⟩ := by
  have no : ∀ i name, 4 ≤ i → name ∉ ["sigma", "mu", "tol"] → ∀ v, ¬ PyGiven steepArgs steepKw i name v := by
    rintro i name hi hn v (h | ⟨-, h⟩)
    · rw [List.getElem?_eq_none (by exact hi)] at h; cases h
    · simp only [steepKw, List.mem_cons, List.not_mem_nil, or_false, Prod.mk.injEq] at h
      simp only [List.mem_cons, List.not_mem_nil, or_false] at hn
      rcases h with h | h | h <;> exact hn (by simp [h.1])
  have z : (Dbl.fin 0 : Dbl) = lit 0 := by rw [Dbl.lit_eq]; norm_num
  refine ⟨⟨by decide, by decide, ?_⟩, ⟨_, _, _, _, _, rfl, rfl, by decide, rfl, by decide, rfl, rfl⟩, Or.inr ⟨no _ _ (by decide) (by decide), z⟩,
    Or.inr ⟨no _ _ (by decide) (by decide), z⟩, Or.inl ⟨⟨some (.inr (.fin 1)), none, none⟩, Or.inr ⟨by decide, by simp [steepKw]⟩, Or.inl rfl⟩,
    Or.inl ⟨⟨some (.inr (.fin (1 / 100))), none, none⟩, Or.inr ⟨by decide, by simp [steepKw]⟩, Or.inl rfl⟩,
    Or.inl ⟨⟨some (.inr (.fin 0)), none, none⟩, Or.inr ⟨by decide, by simp [steepKw]⟩, Or.inl rfl⟩, Or.inr ⟨no _ _ (by decide) (by decide), rfl⟩,
    ⟨5, Or.inr ⟨no _ _ (by decide) (by decide), rfl⟩⟩, Or.inr ⟨no _ _ (by decide) (by decide), rfl⟩, Or.inr ⟨no _ _ (by decide) (by decide), rfl⟩⟩
  intro p hp
  simp only [steepKw, List.mem_cons, List.not_mem_nil, or_false] at hp
  rcases hp with rfl | rfl | rfl
  · exact ⟨2, rfl, by decide⟩
  · exact ⟨3, rfl, by decide⟩
  · exact ⟨4, rfl, by decide⟩

theorem steep_fits : FitsInt (tvP (3 * 1) (Dbl.fin 0) (Dbl.fin 0)) := by
  have j : job (Dbl.fin 0) = false := by
    unfold job
    rw [Dbl.lit_eq, ← Bool.not_eq_true, Dbl.flt_fin]
    norm_num
  unfold tvP
  rw [j]
  decide

/-- `C79_python_returns` applies: the image has samples within 1 of 3 and 4, and its cost is at most 0.06 above the smallest possible -/
example : ∃ (tu x : ℕ) (y : Fin (3 * 1) → ℝ) (ix : Fin 2 → Fin (3 * 1)) (s' : NState (PyState Dbl)),
    py_nesta_call refLib steepArgs steepKw exPy = some (.ret tu x (3 : ℕ) (1 : ℕ) ⟨3 * 1, fvec y⟩ 0, s') ∧ (∀ i, ((ix i : ℕ) : Int) = ![0, 2] i) ∧
      NearlyBest (twoDim (3 : ℕ) (1 : ℕ) DCT1) 0 0 ix ![3, 4] 1 (3 / 50) y := by
  have hs : exPy.WF := fun a h => by cases h
  obtain ⟨tu, x, y, ix, s', h1, h2, h3⟩ := C79_python_returns (q := 10000) refLib_ok hs exPy_wf exWorld_hist rfl (fun _ => not_busy_empty _) (by simp [steepKw]) steep_good
    (Or.inl rfl) (by decide) (by decide)
    ⟨⟨by decide, by decide, by decide, by decide⟩, by rw [Dbl.lit_eq, Dbl.flt_fin]; norm_num, by rw [Dbl.lit_eq, Dbl.flt_fin]; norm_num, fun h => by
      rw [Dbl.lit_eq, Dbl.flt_fin] at h; norm_num at h⟩
    steep_fits (by decide) (by decide) (by intro i j h; fin_cases i <;> fin_cases j <;> simp_all) one_pos (by norm_num)
    (fun h => by simpa using congrFun h 0) (Or.inr ⟨rfl, 0, le_rfl, rfl⟩) (fun _ _ => rfl) (fun _ _ => rfl) (fun _ _ => rfl)
  exact ⟨tu, x, y, ix, s', h1, h2, h3.mono (ex_small ix)⟩

/-- the struct with the options -/
noncomputable def steepField : String → Option (MxArr Dbl)
  | "sigma" => some (mxNum 1)
  | "mu" => some (mxNum (1 / 100))
  | "tol" => some (mxNum 0)
  | "n_continue" => some (mxNum 5)
  | "verbose" => some (mxNum 0)
  | "alpha_v" => some (mxNum 0)
  | "alpha_h" => some (mxNum 0)
  | "dct_mode" => some (mxNum 1)
  | _ => none

/-- the same call from Matlab, where pixels count from 1 -/
noncomputable def steepPrhs : List (MxVal Dbl) :=
  [.arr (mxNum 3), .arr (mxNum 1), mxPair 3 4, .arr ⟨true, 1, 2, 2, fun q => .fin ((![1, 3] q : Int) : ℝ)⟩, .struct 1 1 steepField]

theorem steep_mex_good : NestaMexGood steepPrhs (some (some "analysis"))
    ⟨(3 : ℕ), (1 : ℕ), ⟨2, fvec ![3, 4]⟩, ⟨2, fun i => .fin ((![1, 3] i : Int) : ℝ)⟩, ⟨.fin 1, .fin (1 / 100), .fin 0, 5⟩, .fin 0, .fin 0, DCT1, true⟩ := by
  have c : ∀ (k : ℕ) {x : ℝ}, x = (k : ℝ) → (k : Int) ≤ INT_MAX → castInt (Dbl.fin x) = some (k : Int) := fun k x hx hk => by rw [hx]; exact castInt_nat hk
  refine ⟨⟨_, _, _, _, steepField, _, .fin 3, .fin 1, .fin 0, .fin 5, .fin 1, 0, rfl, ⟨2, rfl⟩, c 3 (by norm_num) (by decide), ⟨2, rfl⟩, c 1 (by norm_num) (by decide),
    ⟨1, 2, 2, _, rfl, rfl, by omega, by omega, le_refl _⟩,
    ⟨1, 2, 2, _, rfl, rfl, by omega, by omega, le_refl _⟩, ⟨_, rfl⟩, ⟨_, rfl⟩, ⟨_, rfl⟩, ⟨_, rfl⟩, c 0 (by norm_num) (by decide), ⟨_, rfl⟩, c 5 (by norm_num) (by decide),
    ⟨_, rfl⟩, ⟨_, rfl⟩, ⟨_, rfl⟩, c 1 (by norm_num) (by decide)⟩, rfl, by decide, by decide, rfl, by decide⟩

/-- `C79_matlab_returns` applies -/
example (junk : ℕ → Dbl) : ∃ (y : Fin (3 * 1) → ℝ) (ix : Fin 2 → Fin (3 * 1)) (s' : NState (World Dbl)),
    nesta_dctTV_mex refLib junk 2 steepPrhs (some (some "analysis")) exWorld = some (.ret (3 : ℕ) (1 : ℕ) ⟨3 * 1, fvec y⟩ 0, s') ∧
      (∀ i, ((ix i : ℕ) : Int) + 1 = ![1, 3] i) ∧ NearlyBest (twoDim (3 : ℕ) (1 : ℕ) DCT1) 0 0 ix ![3, 4] 1 (3 / 50) y := by
  obtain ⟨y, ix, s', h1, h2, h3⟩ := C79_matlab_returns (junk := junk) (q := 10000) refLib_ok (fun a h => by cases h) exWorld_hist rfl (fun _ => not_busy_empty _)
    steep_mex_good (le_refl _) (by decide) (by decide) (by intro i j h; fin_cases i <;> fin_cases j <;> simp_all)
    (fun i => by fin_cases i <;> exact ⟨by decide, by decide⟩) one_pos (by norm_num) (fun h => by simpa using congrFun h 0) (Or.inr ⟨rfl, 0, le_rfl, rfl⟩)
    le_rfl le_rfl (fun h => absurd h (by norm_num)) steep_fits (fun _ _ => rfl) (fun _ _ => rfl)
  exact ⟨y, ix, s', h1, h2, h3.mono (ex_small ix)⟩

end example_calls

end L1c
