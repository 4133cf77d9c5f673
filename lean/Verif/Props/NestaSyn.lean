import Verif.Proofs.NestaNan
import Verif.Props.NestaEnd

/-!
# C80: image recovery with NESTA in synthesis mode

Without total variation the synthesis problem is the same as the analysis problem, posed in terms of the DCT coefficients.
-/

namespace L1c
open Scalar Matrix

section exact
variable {lib : FftwLib Dbl} {L : Sets Dbl}

theorem job_zero : job (Dbl.fin 0) = false := by
  unfold job; rw [Dbl.lit_eq, ← Bool.not_eq_true, Dbl.flt_fin]; norm_num

theorem tvP_zeros (m : ℕ) : tvP m (Dbl.fin 0) (Dbl.fin 0) = m := by
  unfold tvP; rw [job_zero]; simp

/-- NESTA on a live synthesis set without weights whose work array holds finite numbers: the coefficients it returns are those of a nearly best image,
and `Mx` turns them into that image. -/
theorem syn_optimal (hlib : LibOk lib) {s : NState (World Dbl)} (hwf : s.WF) {r k n : ℕ} {two : Bool} {ix : Fin n → Fin (r * k)}
    {t : SetTv Dbl} (hw : SynInv lib L t s.cb) (hL : L.tv = some t) (ht : t = ⟨r, k, n, List.ofFn fun i => ((ix i : ℕ) : Int), .fin 0, .fin 0, true, two⟩)
    (hr : TvReal t 0 0) (hinj : Function.Injective ix) {b : Fin n → ℝ} {b' : Vec Dbl t.n} (hb : ∀ i : Fin n, ∃ h, b' ⟨i, h⟩ = .fin (b i))
    {sigma mu : ℝ} {tol : Dbl} {N : Int} (xk : Vec Dbl t.m) (hN : N < INT_MAX) (hal : ∀ i < 11, s.oracle (s.calls + i) = true)
    (hs : 0 < sigma) (hN1 : 1 ≤ N) (hmu : 0 < mu) (hb0 : b ≠ 0) (hrk : 0 < r * k) {q : ℕ} (hq : q = 1 ∨ (q = 10000 ∧ ∃ t ≤ 0, tol = Dbl.fin t)) :
    ∃ (y : Fin (r * k) → ℝ) (out : NestaOut Dbl t.n t.m t.p) (s' : NState (World Dbl)),
      l1c_nesta t.m t.n xk b' (setNAx lib t.kind t.n t.m t.p (tvNormW false (.fin 0) (.fin 0))) ⟨.fin sigma, .fin mu, tol, N⟩ s = some (out, s') ∧
      (∀ i : Fin (r * k), ∃ h, out.xk ⟨i, h⟩ = .fin (imgDct two y i)) ∧
      (∀ old : Vec Dbl (r * k), ∃ a' w', wcall lib t.kind .Mx ⟨t.m, out.xk⟩ ⟨r * k, old⟩ s'.cb = some ((a', ⟨r * k, fvec y⟩), w')) ∧
      NearlyBest two 0 0 ix b sigma (anaGap q (r * k) 0 0 mu (anaCost two 0 0 (onBlack ix b)) √(∑ i, b i ^ 2) N.toNat) y := by
  subst ht
  have hidx : ∀ i : Fin n, idxFun n (List.ofFn fun i => ((ix i : ℕ) : Int)) i = (ix i : ℕ) := fun i => by
    unfold idxFun
    rw [List.getD_eq_getElem?_getD, List.getElem?_eq_getElem (by rw [List.length_ofFn]; exact i.2), List.getElem_ofFn]
    rfl
  have hinj' : Function.Injective (idxFun n (List.ofFn fun i => ((ix i : ℕ) : Int))) := fun i j h => by
    rw [hidx, hidx] at h
    exact hinj (Fin.ext (by exact_mod_cast h))
  obtain ⟨ix', A, W, img, h1, h2, R, h4, h5, h6, h7, h8, h9, h10, h11⟩ := setS_real hlib hw.1 hL rfl hr hinj' (tvNormW false (.fin 0) (.fin 0))
  have hix : ix' = (ix : Fin n → Fin (r * k)) := funext fun i => Fin.ext (by
    have := (h1 i).trans (hidx i)
    exact_mod_cast this)
  have hixi : ∀ i : Fin n, ix' i = ix i := fun i => congrFun hix i
  have h9' : img (Aᵀ *ᵥ b) = onBlack ix b := by rw [h9 b, hix]
  have hb' : b' = fvec b := by
    funext i
    obtain ⟨_, h⟩ := hb i
    exact h
  subst hb'
  have hK : (setNAx lib .tvSyn n (tvP (r * k) (Dbl.fin 0) (Dbl.fin 0)) (r * k) (tvNormW false (.fin 0) (.fin 0))).norm_W = .fin 1 := by
    show (lit 1 : Dbl) = _
    rw [Dbl.lit_eq]; norm_num
  have hcost : ∀ v, ∑ i, |(Wᵀ *ᵥ v) i| = anaCost two 0 0 (img v) := fun v => by
    unfold anaCost
    rw [zero_mul, zero_mul, add_zero, add_zero]
    exact congrArg (fun z : Fin (r * k) → ℝ => ∑ i, |z i|) (h7 v).symm
  have hres : ∀ v, nrm (b - A *ᵥ v) = √(∑ i, (img v (ix i) - b i) ^ 2) := fun v => by
    unfold nrm
    congr 1
    refine Finset.sum_congr rfl fun i _ => ?_
    rw [Pi.sub_apply, h6 v i, hixi i]
    ring
  have hx : Aᵀ *ᵥ b ≠ 0 := fun hc => hb0 (by
    have : (A * Aᵀ) *ᵥ b = 0 := by rw [← mulVec_mulVec, hc, mulVec_zero]
    rwa [h2, one_mulVec] at this)
  have hnb : nrm (Aᵀ *ᵥ b) = √(∑ i, b i ^ 2) := by
    unfold nrm
    have : (A *ᵥ (Aᵀ *ᵥ b)) ⬝ᵥ b = (Aᵀ *ᵥ b) ⬝ᵥ (Aᵀ *ᵥ b) := mulVec_adj A _ _
    rw [← this, mulVec_mulVec, h2, one_mulVec]
    congr 1
    exact Finset.sum_congr rfl fun i _ => (sq _).symm
  have habs : absHead (tvP (r * k) (Dbl.fin 0) (Dbl.fin 0)) (Wᵀ *ᵥ (Aᵀ *ᵥ b)) = fun i => |(Wᵀ *ᵥ (Aᵀ *ᵥ b)) i| := funext fun i => by
    unfold absHead
    rw [if_pos (lt_of_lt_of_eq i.2 (tvP_zeros _).symm)]
  obtain ⟨M, hM, hM0, hM1⟩ := vmax_fvec hrk (absHead (tvP (r * k) (Dbl.fin 0) (Dbl.fin 0)) (Wᵀ *ᵥ (Aᵀ *ᵥ b)))
  have hMS : M ≤ ∑ i, |(Wᵀ *ᵥ (Aᵀ *ᵥ b)) i| := by
    obtain ⟨i, hi⟩ := hM1
    rw [hi, habs]
    exact Finset.single_le_sum (f := fun i => |(Wᵀ *ᵥ (Aᵀ *ᵥ b)) i|) (fun _ _ => abs_nonneg _) (Finset.mem_univ i)
  have hMl : nrm (Aᵀ *ᵥ b) / √((r * k : ℕ) : ℝ) ≤ M := by
    obtain ⟨i, hi⟩ := h5 (Aᵀ *ᵥ b)
    refine hi.trans (le_trans ?_ (hM0 i))
    rw [habs]
  have hS0 : 0 ≤ ∑ i, |(Wᵀ *ᵥ (Aᵀ *ᵥ b)) i| := Finset.sum_nonneg fun _ _ => abs_nonneg _
  have hrk' : (0 : ℝ) < ((r * k : ℕ) : ℝ) := by exact_mod_cast hrk
  have hl : 0 < min mu (9 / 10 * (nrm (Aᵀ *ᵥ b) / √((r * k : ℕ) : ℝ))) := lt_min hmu (by have := nrm_pos hx; positivity)
  obtain ⟨y, out, s', e, e0, e2, e3, e4⟩ := C67_steps R h2 (b := b) (opts := ⟨.fin sigma, .fin mu, tol, N⟩) (a := 1) (q := q)
    (l := min mu (9 / 10 * (nrm (Aᵀ *ᵥ b) / √((r * k : ℕ) : ℝ)))) (U := max mu (∑ i, |(Wᵀ *ᵥ (Aᵀ *ᵥ b)) i|)) rfl hs rfl hmu hq hK one_pos
    (fun x => by rw [one_mul]; exact (h4 x).le) one_pos
    (fun x => by rw [one_mul]; exact (h4 x).ge) hM hl ((min_le_right _ _).trans (by linarith)) (min_le_left _ _)
    (le_trans (by have := hl.trans_le ((min_le_right _ _).trans (mul_le_mul_of_nonneg_left hMl (by norm_num))); linarith) (le_max_right _ _)) (le_max_left _ _)
    hN1 hN xk s hw hwf hal
  have hn : n ≤ r * k := by simpa using Fintype.card_le_of_injective ix hinj
  obtain ⟨out', s'', g1, -, -, g4⟩ := (nesta_live (opts := ⟨.fin sigma, .fin mu, tol, N⟩) hwf hw.1 hL hn hN (tvNormW false (.fin 0) (.fin 0)) xk (fvec b)).2.2 hal
  obtain ⟨rfl, rfl⟩ : out = out' ∧ s' = s'' := by
    have := e.symm.trans g1
    cases this
    exact ⟨rfl, rfl⟩
  refine ⟨img y, out, s', e, fun i => ?_, fun old => ?_, ?_, fun v hv => ?_⟩
  · obtain ⟨hi, h10i⟩ := h10 y i
    refine ⟨hi, ?_⟩
    rw [e2]
    show Dbl.fin (y ⟨i, hi⟩) = _
    rw [← h10i]
    exact congrArg Dbl.fin (congrFun (h7 y).symm i)
  · rw [e2]
    exact h11 y old s'.cb g4
  · rw [← hres]; exact e3
  · obtain ⟨z, rfl⟩ := h8 v
    have := e4 z (by show nrm (b - A *ᵥ z) ≤ sigma; rw [hres]; exact hv)
    have hc : anaCoefs (r * k) 0 0 = r * k := by simp [anaCoefs]
    rw [hcost, hcost, hcost, hnb, h9', div_one, add_assoc] at this
    unfold anaGap
    rw [hc, show √(1 + 4 * (0 : ℝ) ^ 2 + 4 * (0 : ℝ) ^ 2) = 1 by norm_num]
    exact this

variable {junk : ℕ → Dbl} {nlhs : ℕ} {prhs : List (MxVal Dbl)} {mode : Option (Option String)}
variable {r k n q : ℕ} {b : Fin n → ℝ} {pix : Fin n → Int} {sigma mu : ℝ} {tol : Dbl} {N dm : Int}

/-- **C80**, Matlab: whenever a call in synthesis mode without total variation, with distinct pixels, samples that are not all zero and at least one
continuation step returns an image, the image fits the samples within sigma, and no image that fits has a DCT with a smaller 1-norm by more than
`anaGap`.  Missing: exact arithmetic, and the memory the allocator hands out must hold finite numbers (`C80_memory_false`). -/
theorem C80_matlab_partial {s s' : NState (World Dbl)} (hlib : LibOk lib) (hs : s.WF) (hw : Hist lib s.cb L) (htv : L.tv = none) (hb : ∀ two, ¬ L.busy two)
    (hg : NestaMexGood prhs mode ⟨r, k, ⟨n, fvec b⟩, ⟨n, fun i => .fin (pix i : ℝ)⟩, ⟨.fin sigma, .fin mu, tol, N⟩, .fin 0, .fin 0, dm, false⟩) (hl : 2 ≤ nlhs)
    (hN1 : 1 ≤ N) (hN : N < INT_MAX) (hinj : Function.Injective pix) (hsig : 0 < sigma) (hmu : 0 < mu) (hb0 : b ≠ 0)
    (hq : q = 1 ∨ (q = 10000 ∧ ∃ t ≤ 0, tol = Dbl.fin t)) (hjunk : ∀ p i, (s.cb.junk p i).IsFin)
    {rows cols st : Int} {x : Arr Dbl} (h : nesta_dctTV_mex lib junk nlhs prhs mode s = some (.ret rows cols x st, s')) :
    rows = r ∧ cols = k ∧ st = 0 ∧ ∃ (y : Fin (r * k) → ℝ) (ix : Fin n → Fin (r * k)), x = ⟨r * k, fvec y⟩ ∧ (∀ i, ((ix i : ℕ) : Int) + 1 = pix i) ∧
      NearlyBest (twoDim r k dm) 0 0 ix b sigma (anaGap q (r * k) 0 0 mu (anaCost (twoDim r k dm) 0 0 (onBlack ix b)) √(∑ i, b i ^ 2) N.toNat) y := by
  have hp := C64_accepts hg hl
  have hpos := hg.pos
  dsimp only at hpos
  obtain ⟨-, ⟨h1, -⟩ | ⟨-, idx, hi, ⟨st, h1, h2⟩ | ⟨r', k', t, L1, w, e1, e2, ht, hL1, hw1, hv, ⟨-, h1, -⟩ | ⟨-, -, ⟨-, h1⟩ | ⟨-, -, h1⟩ | ⟨hm, b', o, s1, x', g1, g2, g3, g4, -, ⟨a', w1, g5⟩, st', ax, g6⟩⟩⟩⟩⟩ :=
    nmex_inv hs hw htv hb hp hN h
  · cases h1
  · rcases tv_setup_status h1 with rfl | rfl | rfl <;> cases h2
  · cases h1
  · cases h1
  · cases h1
  dsimp only at *
  obtain rfl : r = r' := by exact_mod_cast e1
  obtain rfl : k = k' := by exact_mod_cast e2
  cases g4
  obtain ⟨ix, rfl, hix⟩ := oneBased_fin hi
  have hinj' : Function.Injective ix := fun i j hij => hinj (by rw [← hix, ← hix, hij])
  have hrk : 0 < r * k := Nat.mul_pos (by omega) (by omega)
  have hr : TvReal t 0 0 := by subst ht; exact tvReal_of_valid hv
  have hwork := setup_work hw htv (hb _) ht g6
  have hLt : L1.tv = some t := by rw [hL1]; rfl
  obtain ⟨y, o', s1', f1, f2, f3, f4⟩ := syn_optimal (N := N) (tol := tol) (sigma := sigma) (mu := mu) hlib (mexCallState_wf (nmexState_wf hs w))
    ⟨hw1, _, hwork, fun i => hjunk _ _⟩ hLt ht hr hinj' (b := b) (b' := b') (fun i => g1 i) (fun i => junk i) hN g2 hsig hN1 hmu hb0 hrk hq
  rw [g3] at f1
  cases f1
  refine ⟨rfl, rfl, rfl, y, ix, ?_, hix, f4⟩
  obtain ⟨a2, w2, f5⟩ := f3 fun _ => lit 0
  rw [g5] at f5
  cases f5
  rfl

/-- **C80**, Matlab, total: with pixels in the image and enough memory the call does return such an image. -/
theorem C80_matlab_returns_partial {s : NState (World Dbl)} (hlib : LibOk lib) (hs : s.WF) (hw : Hist lib s.cb L) (htv : L.tv = none) (hb : ∀ two, ¬ L.busy two)
    (hg : NestaMexGood prhs mode ⟨r, k, ⟨n, fvec b⟩, ⟨n, fun i => .fin (pix i : ℝ)⟩, ⟨.fin sigma, .fin mu, tol, N⟩, .fin 0, .fin 0, dm, false⟩) (hl : 2 ≤ nlhs)
    (hN1 : 1 ≤ N) (hN : N < INT_MAX) (hinj : Function.Injective pix) (hpix : ∀ i, 1 ≤ pix i ∧ pix i ≤ r * k) (hsig : 0 < sigma) (hmu : 0 < mu) (hb0 : b ≠ 0)
    (hq : q = 1 ∨ (q = 10000 ∧ ∃ t ≤ 0, tol = Dbl.fin t)) (hjunk : ∀ p i, (s.cb.junk p i).IsFin)
    (hal : ∀ i < 14, s.oracle (s.calls + i) = true) (hal' : ∀ i < 6, s.cb.oracle (s.cb.calls + i) = true) :
    ∃ (y : Fin (r * k) → ℝ) (ix : Fin n → Fin (r * k)) (s' : NState (World Dbl)),
      nesta_dctTV_mex lib junk nlhs prhs mode s = some (.ret r k ⟨r * k, fvec y⟩ 0, s') ∧ (∀ i, ((ix i : ℕ) : Int) + 1 = pix i) ∧
      NearlyBest (twoDim r k dm) 0 0 ix b sigma (anaGap q (r * k) 0 0 mu (anaCost (twoDim r k dm) 0 0 (onBlack ix b)) √(∑ i, b i ^ 2) N.toNat) y := by
  obtain ⟨x, s', h⟩ := mex_returns (lib := lib) (junk := junk) (fun _ => tvP_zeros _) hs hw htv hb hg hl hN hpix le_rfl le_rfl (fun h => absurd h (by simp))
    (by rw [tvP_zeros]; have := hg.fits; dsimp only at this; exact_mod_cast this) hal hal'
  obtain ⟨-, -, -, y, ix, rfl, h1, h2⟩ := C80_matlab_partial hlib hs hw htv hb hg hl hN1 hN hinj hsig hmu hb0 hq hjunk h
  exact ⟨y, ix, s', h, h1, h2⟩

variable {args : List (PyVal Dbl)} {kw : List (String × PyVal Dbl)}

/-- **C80**, Python: when `nesta_dctTV(…, bp_mode=synthesis)` without total variation returns with status 0, the array returned is not the image but its DCT
(compare `C80_python_false`).  Missing besides: as for Matlab. -/
theorem C80_python_partial {s s' : NState (PyState Dbl)} (hlib : LibOk lib) (hs : s.WF) (hr : s.cb.WF) (hw : Hist lib s.cb.w L) (htv : L.tv = none) (hb : ∀ two, ¬ L.busy two)
    (hk : (kw.map (·.1)).Nodup)
    (hg : PyNestaGood args kw ⟨r, k, some ⟨1, n, fvec b⟩, some ⟨1, n, pix⟩, .fin 0, .fin 0, BP_SYNTHESIS, dm, ⟨.fin sigma, .fin mu, tol, N⟩⟩)
    (hn : (n : Int) ≤ INT_MAX) (hN1 : 1 ≤ N) (hN : N < INT_MAX) (hinj : Function.Injective pix) (hsig : 0 < sigma) (hmu : 0 < mu) (hb0 : b ≠ 0)
    (hq : q = 1 ∨ (q = 10000 ∧ ∃ t ≤ 0, tol = Dbl.fin t)) (hjunk : ∀ p i, (s.cb.w.junk p i).IsFin)
    {tu x : ℕ} {rows cols : Int} {xk : Arr Dbl} (h : py_nesta_call lib args kw s = some (.ret tu x rows cols xk 0, s')) :
    rows = r ∧ cols = k ∧ ∃ (y : Fin (r * k) → ℝ) (ix : Fin n → Fin (r * k)), xk = ⟨r * k, fvec (imgDct (twoDim r k dm) y)⟩ ∧ (∀ i, ((ix i : ℕ) : Int) = pix i) ∧
      NearlyBest (twoDim r k dm) 0 0 ix b sigma (anaGap q (r * k) 0 0 mu (anaCost (twoDim r k dm) 0 0 (onBlack ix b)) √(∑ i, b i ^ 2) N.toNat) y := by
  rw [(C76_calls lib hk s).2 _ hg] at h
  rcases C65_outcome_partial hs hr hw htv hb (fun _ e => by cases e; exact hn) (fun _ e => by cases e; exact hn) hN h with
    ⟨k, h, -⟩ | ⟨b1, p, -, -, hb1, hp1, -, -, -, -, -, -, ⟨h, -⟩ | ⟨r', k', t, w, e1, e2, ht, hv, hw1, -, ⟨h, -⟩ | ⟨tu', x', xk', st', -, -, -, h2, -, h4⟩⟩⟩
  · cases h
  · cases h
  · cases h
  dsimp only at *
  cases hb1
  cases hp1
  cases h2
  obtain rfl : r = r' := by exact_mod_cast e1
  obtain rfl : k = k' := by exact_mod_cast e2
  have hrk : 0 < r * k := Nat.mul_pos (by exact_mod_cast hv.1.2.1) (by exact_mod_cast hv.1.2.2.1)
  obtain ⟨ix, hix⟩ := valid_fin hv
  have hpix : pix = fun i => ((ix i : ℕ) : Int) := funext fun i => (hix i).symm
  rcases h4 with ⟨-, h4, -⟩ | ⟨-, h4, -⟩ | ⟨hm, -, b', o, s1, g1, g2, g3, g4, ax, g5⟩
  · cases h4
  · cases h4
  have hd : decide (BP_SYNTHESIS = BP_ANALYSIS) = false := by decide
  have ht' : t = ⟨r, k, n, List.ofFn fun i => ((ix i : ℕ) : Int), .fin 0, .fin 0, true, twoDim r k dm⟩ := by
    rw [ht, hpix]; rfl
  have htr : TvReal t 0 0 := by subst ht; exact tvReal_of_valid hv
  have hinj' : Function.Injective ix := fun i j hij => hinj ((hix i).symm.trans ((congrArg (fun z : Fin (r * k) => ((z : ℕ) : Int)) hij).trans (hix j)))
  have hwork := setup_work hw htv (hb _) ht g5
  have hwf : NState.WF { mexCallState (pyLib s) with cb := w } := fun c hc => mexCallState_wf (s := pyLib s) hs c hc
  obtain ⟨y, o', s1', f1, f2, -, f4⟩ := syn_optimal (s := { mexCallState (pyLib s) with cb := w }) (N := N) (tol := tol) (sigma := sigma) (mu := mu) hlib hwf
    ⟨hw1, _, hwork, fun i => hjunk _ _⟩ rfl ht' htr hinj' (b := b) (b' := b') g1 (fun _ => lit 0) hN g3 hsig hN1 hmu hb0 hrk hq
  have e : some (o, s1) = some (o', s1') := by rw [← g2, hd]; exact f1
  cases e
  refine ⟨rfl, rfl, y, ix, ?_, hix, f4⟩
  rw [g4]
  generalize o.xk = z at f2
  revert z
  rw [hm]
  intro z f2
  refine congrArg (Sigma.mk (r * k)) (funext fun i => ?_)
  obtain ⟨_, hi2⟩ := f2 i
  exact hi2

/-- **C80**, Python, total: with valid arguments and enough memory the call does return such an array with status 0. -/
theorem C80_python_returns_partial {s : NState (PyState Dbl)} (hlib : LibOk lib) (hs : s.WF) (hr : s.cb.WF) (hw : Hist lib s.cb.w L) (htv : L.tv = none) (hb : ∀ two, ¬ L.busy two)
    (hk : (kw.map (·.1)).Nodup)
    (hg : PyNestaGood args kw ⟨r, k, some ⟨1, n, fvec b⟩, some ⟨1, n, pix⟩, .fin 0, .fin 0, BP_SYNTHESIS, dm, ⟨.fin sigma, .fin mu, tol, N⟩⟩)
    (hdm : dm = DCT1 ∨ dm = DCT2) (hf : FitsInt ((r : Int) * k)) (hn : n ≤ r * k) (hv : ValidTv n r k (Dbl.fin 0) (Dbl.fin 0) (List.ofFn pix))
    (hN1 : 1 ≤ N) (hN : N < INT_MAX) (hinj : Function.Injective pix) (hsig : 0 < sigma) (hmu : 0 < mu) (hb0 : b ≠ 0)
    (hq : q = 1 ∨ (q = 10000 ∧ ∃ t ≤ 0, tol = Dbl.fin t)) (hjunk : ∀ p i, (s.cb.w.junk p i).IsFin)
    (hpy : ∀ i < 4, s.cb.oracle (s.cb.calls + i) = true) (hal : ∀ i < 13, s.oracle (s.calls + i) = true) (hal' : ∀ i < 6, s.cb.w.oracle (s.cb.w.calls + i) = true) :
    ∃ (tu x : ℕ) (y : Fin (r * k) → ℝ) (ix : Fin n → Fin (r * k)) (s' : NState (PyState Dbl)),
      py_nesta_call lib args kw s = some (.ret tu x r k ⟨r * k, fvec (imgDct (twoDim r k dm) y)⟩ 0, s') ∧ (∀ i, ((ix i : ℕ) : Int) = pix i) ∧
      NearlyBest (twoDim r k dm) 0 0 ix b sigma (anaGap q (r * k) 0 0 mu (anaCost (twoDim r k dm) 0 0 (onBlack ix b)) √(∑ i, b i ^ 2) N.toNat) y := by
  obtain ⟨tu, x, xk, s', h⟩ := py_returns (lib := lib) (opts := ⟨.fin sigma, .fin mu, tol, N⟩) (b := fvec b) (Or.inr rfl) rfl (fun _ => tvP_zeros _) hs hw htv hb hN hdm hf hn hv
    (by rw [tvP_zeros]; exact_mod_cast hf) hpy hal hal'
  rw [← (C76_calls lib hk s).2 _ hg] at h
  have hn' : (n : Int) ≤ INT_MAX := le_trans (by exact_mod_cast hn) hf.2
  obtain ⟨-, -, y, ix, rfl, h1, h2⟩ := C80_python_partial hlib hs hr hw htv hb hk hg hn' hN1 hN hinj hsig hmu hb0 hq hjunk h
  exact ⟨tu, x, y, ix, s', h, h1, h2⟩

/-! ## Memory that holds NaN -/

theorem exists_free {m n : ℕ} (h : n < m) (ix : Fin n → Fin m) : ∃ z, ∀ i, ix i ≠ z := by
  by_contra hc
  push Not at hc
  have := Fintype.card_le_of_surjective ix hc
  simp at this
  omega

/-- **C80 is false** without the assumption on memory: if the memory the allocator hands out holds NaN, every image a call in synthesis mode without total
variation returns to Matlab has no finite entry, whatever the samples and options.  (The transforms read an array before anything is written to it.) -/
theorem C80_memory_false {b : Vec Dbl n} {opts : NestaOpts Dbl} {s s' : NState (World Dbl)} (hl : NanStrict lib) (hs : s.WF) (hw : Hist lib s.cb L) (htv : L.tv = none) (hb : ∀ two, ¬ L.busy two)
    (hg : NestaMexGood prhs mode ⟨r, k, ⟨n, b⟩, ⟨n, fun i => .fin (pix i : ℝ)⟩, opts, .fin 0, .fin 0, dm, false⟩) (hlhs : 2 ≤ nlhs)
    (hN : opts.n_continue < INT_MAX) (hjunk : ∀ p i, s.cb.junk p i = .nan)
    {rows cols st : Int} {x : Arr Dbl} (h : nesta_dctTV_mex lib junk nlhs prhs mode s = some (.ret rows cols x st, s')) :
    st = 0 ∧ x.1 = r * k ∧ ∀ i, ¬ (x.2 i).IsFin := by
  have hp := C64_accepts hg hlhs
  have hpos := hg.pos
  have hlt := hg.lt
  dsimp only at hpos hlt
  obtain ⟨-, ⟨h1, -⟩ | ⟨-, idx, hi, ⟨st, h1, h2⟩ | ⟨r', k', t, L1, w, e1, e2, ht, hL1, hw1, hv, ⟨-, h1, -⟩ | ⟨-, -, ⟨-, h1⟩ | ⟨-, -, h1⟩ | ⟨hm, b', o, s1, x', g1, g2, g3, g4, -, ⟨a', w1, g5⟩, st', ax, g6⟩⟩⟩⟩⟩ :=
    nmex_inv hs hw htv hb hp hN h
  · cases h1
  · rcases tv_setup_status h1 with rfl | rfl | rfl <;> cases h2
  · cases h1
  · cases h1
  · cases h1
  dsimp only at *
  obtain rfl : r = r' := by exact_mod_cast e1
  obtain rfl : k = k' := by exact_mod_cast e2
  cases g4
  obtain ⟨ix, rfl, hix⟩ := oneBased_fin hi
  have hr : TvReal t 0 0 := by subst ht; exact tvReal_of_valid hv
  have hwork := setup_work hw htv (hb _) ht g6
  have hLt : L1.tv = some t := by rw [hL1]; rfl
  obtain ⟨z, hz⟩ := exists_free (by exact_mod_cast hlt) ix
  have hwf := mexCallState_wf (nmexState_wf hs w)
  subst ht
  have hn : n ≤ r * k := by exact_mod_cast hlt.le
  have hzi : ∀ i, idxFun n (List.ofFn fun i => ((ix i : ℕ) : Int)) i ≠ ((z : ℕ) : Int) := fun i hc => by
    unfold idxFun at hc
    rw [List.getD_eq_getElem?_getD, List.getElem?_eq_getElem (by rw [List.length_ofFn]; exact i.2), List.getElem_ofFn] at hc
    exact hz i (Fin.ext (by simpa using hc))
  have hrk : 0 < r * k := Nat.mul_pos (by omega) (by omega)
  obtain ⟨out', s'', f1, -, -, f4⟩ := (nesta_live (opts := opts) hwf hw1 hLt hn hN (tvNormW false (.fin 0) (.fin 0)) (fun i => junk i) b').2.2 g2
  rw [g3] at f1
  cases f1
  have hc : tvP (r * k) (Dbl.fin 0) (Dbl.fin 0) = r * k := tvP_zeros _
  have key : ¬ (o.xk ⟨0, by rw [hm]; exact hrk⟩).IsFin := by
    refine nesta_stuck (setN_still hLt _ _ _ _) (fun hc => ?_) _ _ _ _ _ hw1 hwf (fun i hi => g2 i (by omega)) (fun f a o w2 hf hfo => ?_) _ g3
    · simp [NAx.Missing, setNAx] at hc
    · cases hf
      exact set_aty_nonfin hl hw1 hLt rfl hr hwork (fun i => hjunk _ _) hzi hfo _
  exact ⟨rfl, rfl, set_mx_nonfin hl f4 hLt rfl hr ⟨_, key⟩ g5⟩

/-- The same from Python, when some pixel is not sampled. -/
theorem C80_python_memory_false {b : Vec Dbl n} {opts : NestaOpts Dbl} {s s' : NState (PyState Dbl)} (hl : NanStrict lib) (hs : s.WF) (hr : s.cb.WF) (hw : Hist lib s.cb.w L) (htv : L.tv = none)
    (hb : ∀ two, ¬ L.busy two) (hk : (kw.map (·.1)).Nodup)
    (hg : PyNestaGood args kw ⟨r, k, some ⟨1, n, b⟩, some ⟨1, n, pix⟩, .fin 0, .fin 0, BP_SYNTHESIS, dm, opts⟩)
    (hn : (n : Int) ≤ INT_MAX) (hlt : n < r * k) (hN : opts.n_continue < INT_MAX) (hjunk : ∀ p i, s.cb.w.junk p i = .nan)
    {tu x : ℕ} {rows cols : Int} {xk : Arr Dbl} (h : py_nesta_call lib args kw s = some (.ret tu x rows cols xk 0, s')) :
    xk.1 = r * k ∧ ∀ i, ¬ (xk.2 i).IsFin := by
  rw [(C76_calls lib hk s).2 _ hg] at h
  rcases C65_outcome_partial hs hr hw htv hb (fun _ e => by cases e; exact hn) (fun _ e => by cases e; exact hn) hN h with
    ⟨k, h, -⟩ | ⟨b1, p, -, -, hb1, hp1, -, -, -, -, -, -, ⟨h, -⟩ | ⟨r', k', t, w, e1, e2, ht, hv, hw1, -, ⟨h, -⟩ | ⟨tu', x', xk', st', -, -, -, h2, -, h4⟩⟩⟩
  · cases h
  · cases h
  · cases h
  dsimp only at *
  cases hb1
  cases hp1
  cases h2
  obtain rfl : r = r' := by exact_mod_cast e1
  obtain rfl : k = k' := by exact_mod_cast e2
  obtain ⟨ix, hix⟩ := valid_fin hv
  have hpix : pix = fun i => ((ix i : ℕ) : Int) := funext fun i => (hix i).symm
  rcases h4 with ⟨-, h4, -⟩ | ⟨-, h4, -⟩ | ⟨hm, -, b', o, s1, g1, g2, g3, g4, ax, g5⟩
  · cases h4
  · cases h4
  have htr : TvReal t 0 0 := by subst ht; exact tvReal_of_valid hv
  have hwork := setup_work hw htv (hb _) ht g5
  have hwf : NState.WF { mexCallState (pyLib s) with cb := w } := fun c hc => mexCallState_wf (s := pyLib s) hs c hc
  have ht' : t = ⟨r, k, n, List.ofFn fun i => ((ix i : ℕ) : Int), .fin 0, .fin 0, true, twoDim r k dm⟩ := by
    rw [ht, hpix]; rfl
  obtain ⟨z, hz⟩ := exists_free hlt ix
  have hzi : ∀ i, idxFun n (List.ofFn fun i => ((ix i : ℕ) : Int)) i ≠ ((z : ℕ) : Int) := fun i hc => by
    unfold idxFun at hc
    rw [List.getD_eq_getElem?_getD, List.getElem?_eq_getElem (by rw [List.length_ofFn]; exact i.2), List.getElem_ofFn] at hc
    exact hz i (Fin.ext (by simpa using hc))
  have key : ∀ i, ¬ (o.xk i).IsFin := fun i => by
    refine nesta_stuck (setN_still (L := ({ L with tv := some t } : Sets Dbl).note1 (twoDim r k dm) L1C_SUCCESS) rfl _ _ _ _) (fun hc => ?_) _ _ _ _ _ hw1 hwf (fun i hi => g3 i (by omega)) (fun f a o w2 hf hfo => ?_) _ g2
    · simp [NAx.Missing, setNAx] at hc
    · cases hf
      subst ht'
      exact set_aty_nonfin hl hw1 rfl rfl htr hwork (fun i => hjunk _ _) hzi hfo _
  rw [g4]
  exact ⟨hm, key⟩

end exact

/-! ## Concrete calls -/

section example_calls

/-- the call `steepPrhs` in synthesis mode -/
theorem syn_mex_good : NestaMexGood steepPrhs (some (some "synthesis"))
    ⟨(3 : ℕ), (1 : ℕ), ⟨2, fvec ![3, 4]⟩, ⟨2, fun i => .fin ((![1, 3] i : Int) : ℝ)⟩, ⟨.fin 1, .fin (1 / 100), .fin 0, 5⟩, .fin 0, .fin 0, DCT1, false⟩ :=
  ⟨steep_mex_good.args, rfl, steep_mex_good.fits, steep_mex_good.pos, steep_mex_good.len, steep_mex_good.lt⟩

/-- `C80_matlab_returns_partial` applies: the image has samples within 1 of 3 and 4, and its cost is at most 0.06 above the smallest possible -/
example (junk : ℕ → Dbl) : ∃ (y : Fin (3 * 1) → ℝ) (ix : Fin 2 → Fin (3 * 1)) (s' : NState (World Dbl)),
    nesta_dctTV_mex refLib junk 2 steepPrhs (some (some "synthesis")) exWorld = some (.ret (3 : ℕ) (1 : ℕ) ⟨3 * 1, fvec y⟩ 0, s') ∧
      (∀ i, ((ix i : ℕ) : Int) + 1 = ![1, 3] i) ∧ NearlyBest (twoDim (3 : ℕ) (1 : ℕ) DCT1) 0 0 ix ![3, 4] 1 (3 / 50) y := by
  obtain ⟨y, ix, s', h1, h2, h3⟩ := C80_matlab_returns_partial (junk := junk) (q := 10000) refLib_ok (fun a h => by cases h) exWorld_hist rfl (fun _ => not_busy_empty _)
    syn_mex_good (le_refl _) (by decide) (by decide) (by intro i j h; fin_cases i <;> fin_cases j <;> simp_all)
    (fun i => by fin_cases i <;> exact ⟨by decide, by decide⟩) one_pos (by norm_num) (fun h => by simpa using congrFun h 0) (Or.inr ⟨rfl, 0, le_rfl, rfl⟩)
    (fun _ _ => by show (lit 0 : Dbl).IsFin; rw [Dbl.lit_eq]; trivial) (fun _ _ => rfl) (fun _ _ => rfl)
  exact ⟨y, ix, s', h1, h2, h3.mono (ex_small ix)⟩

open Classical in
/-- plans that compute the documented transforms, and NaN when some datum is not finite -/
noncomputable def nanLib : FftwLib Dbl where
  f1 k := ⟨fun v j => if ∀ i, (v i).IsFin then (refLib.f1 k).fwd v j else .nan, fun v j => if ∀ i, (v i).IsFin then (refLib.f1 k).inv v j else .nan⟩
  f2 k l := ⟨fun v j => if ∀ i, (v i).IsFin then (refLib.f2 k l).fwd v j else .nan, fun v j => if ∀ i, (v i).IsFin then (refLib.f2 k l).inv v j else .nan⟩

theorem nanLib_ok : LibOk nanLib where
  f1 m _ := by
    refine ⟨fun x => funext fun j => ?_, fun x => funext fun j => ?_⟩
    · exact (if_pos fun _ => trivial).trans (congrFun ((refLib_ok.f1 m).fwd x) j)
    · exact (if_pos fun _ => trivial).trans (congrFun ((refLib_ok.f1 m).inv x) j)
  f2 k l _ _ := by
    refine ⟨fun x => funext fun j => ?_, fun x => funext fun j => ?_⟩
    · exact (if_pos fun _ => trivial).trans (congrFun ((refLib_ok.f2 k l).fwd x) j)
    · exact (if_pos fun _ => trivial).trans (congrFun ((refLib_ok.f2 k l).inv x) j)

theorem nanLib_strict : NanStrict nanLib := by
  have key : ∀ {k : ℕ} {v : Vec Dbl k}, (∃ i, ¬ (v i).IsFin) → ¬ ∀ i, (v i).IsFin := fun ⟨i, hi⟩ h => hi (h i)
  constructor
  · intro k v hv j
    constructor
    · rw [show (nanLib.f1 k).fwd v j = .nan from if_neg (key hv)]; exact fun h => h
    · rw [show (nanLib.f1 k).inv v j = .nan from if_neg (key hv)]; exact fun h => h
  · intro k l v hv j
    constructor
    · rw [show (nanLib.f2 k l).fwd v j = .nan from if_neg (key hv)]; exact fun h => h
    · rw [show (nanLib.f2 k l).inv v j = .nan from if_neg (key hv)]; exact fun h => h

/-- program start, memory full of NaN -/
noncomputable def nanWorld : NState (World Dbl) := ⟨∅, 0, 0, fun _ => true, World.init (fun _ => true) (fun _ _ => .nan) false⟩

/-- `C80_memory_false` applies to the very call of the example above -/
theorem C80_memory_instance (junk : ℕ → Dbl) : ∃ (x : Vec Dbl (3 * 1)) (s' : NState (World Dbl)),
    nesta_dctTV_mex nanLib junk 2 steepPrhs (some (some "synthesis")) nanWorld = some (.ret (3 : ℕ) (1 : ℕ) ⟨3 * 1, x⟩ 0, s') ∧ ∀ i, ¬ (x i).IsFin := by
  have hw : Hist nanLib nanWorld.cb Sets.empty := .start _ _
  obtain ⟨⟨l, x⟩, s', h⟩ := mex_returns (lib := nanLib) (junk := junk) (s := nanWorld) (nlhs := 2) (fun _ => tvP_zeros _) (fun a h => by cases h) hw rfl
    (fun _ => not_busy_empty _) syn_mex_good (le_refl _) (by decide) (fun i => by fin_cases i <;> exact ⟨by decide, by decide⟩) le_rfl le_rfl
    (fun h => absurd h (by norm_num)) steep_fits (fun _ _ => rfl) (fun _ _ => rfl)
  obtain ⟨-, h1, h2⟩ := C80_memory_false nanLib_strict (fun a h => by cases h) hw rfl (fun _ => not_busy_empty _) syn_mex_good (le_refl _) (by decide) (fun _ _ => rfl) h
  dsimp only at h1 h2
  subst h1
  exact ⟨x, s', h, h2⟩

/-- a black and a bright pixel, both sampled -/
noncomputable def darkArgs : List (PyVal Dbl) :=
  [⟨some (.inl 2), none, none⟩, ⟨some (.inl 1), none, none⟩, ⟨none, some ⟨1, 2, fvec ![0, 10]⟩, none⟩, ⟨none, none, some ⟨1, 2, ![0, 1]⟩⟩]

noncomputable def darkKw : List (String × PyVal Dbl) :=
  [("sigma", ⟨some (.inr (.fin 1)), none, none⟩), ("mu", ⟨some (.inr (.fin (1 / 100))), none, none⟩), ("tol", ⟨some (.inr (.fin 0)), none, none⟩),
   ("bp_mode", ⟨some (.inl 2), none, none⟩)]

theorem dark_good : PyNestaGood darkArgs darkKw
    ⟨(2 : ℕ), (1 : ℕ), some ⟨1, 2, fvec ![0, 10]⟩, some ⟨1, 2, ![0, 1]⟩, .fin 0, .fin 0, BP_SYNTHESIS, DCT1, ⟨.fin 1, .fin (1 / 100), .fin 0, 5⟩⟩ := by
  have no : ∀ i name, 4 ≤ i → name ∉ ["sigma", "mu", "tol", "bp_mode"] → ∀ v, ¬ PyGiven darkArgs darkKw i name v := by
    rintro i name hi hn v (h | ⟨-, h⟩)
    · rw [List.getElem?_eq_none (by exact hi)] at h; cases h
    · simp only [darkKw, List.mem_cons, List.not_mem_nil, or_false, Prod.mk.injEq] at h
      simp only [List.mem_cons, List.not_mem_nil, or_false] at hn
      rcases h with h | h | h | h <;> exact hn (by simp [h.1])
  have z : (Dbl.fin 0 : Dbl) = lit 0 := by rw [Dbl.lit_eq]; norm_num
  refine ⟨⟨by decide, by decide, ?_⟩, ⟨_, _, _, _, _, rfl, rfl, by decide, rfl, by decide, rfl, rfl⟩, Or.inr ⟨no _ _ (by decide) (by decide), z⟩,
    Or.inr ⟨no _ _ (by decide) (by decide), z⟩, Or.inl ⟨⟨some (.inr (.fin 1)), none, none⟩, Or.inr ⟨by decide, by simp [darkKw]⟩, Or.inl rfl⟩,
    Or.inl ⟨⟨some (.inr (.fin (1 / 100))), none, none⟩, Or.inr ⟨by decide, by simp [darkKw]⟩, Or.inl rfl⟩,
    Or.inl ⟨⟨some (.inr (.fin 0)), none, none⟩, Or.inr ⟨by decide, by simp [darkKw]⟩, Or.inl rfl⟩, Or.inr ⟨no _ _ (by decide) (by decide), rfl⟩,
    ⟨5, Or.inr ⟨no _ _ (by decide) (by decide), rfl⟩⟩, Or.inr ⟨no _ _ (by decide) (by decide), rfl⟩,
    Or.inl ⟨⟨some (.inl 2), none, none⟩, Or.inr ⟨by decide, by simp [darkKw]⟩, rfl, by decide⟩⟩
  intro p hp
  simp only [darkKw, List.mem_cons, List.not_mem_nil, or_false] at hp
  rcases hp with rfl | rfl | rfl | rfl
  · exact ⟨2, rfl, by decide⟩
  · exact ⟨3, rfl, by decide⟩
  · exact ⟨4, rfl, by decide⟩
  · exact ⟨8, rfl, by decide⟩

/-- **C80 is false** in Python: the samples of the array returned are further than sigma = 1 from the samples given, although all pixels were given and the status is 0. -/
theorem C80_python_false : ∃ (tu x : ℕ) (y : Fin (2 * 1) → ℝ) (s' : NState (PyState Dbl)),
    py_nesta_call refLib darkArgs darkKw exPy = some (.ret tu x (2 : ℕ) (1 : ℕ) ⟨2 * 1, fvec y⟩ 0, s') ∧
      ∀ ix : Fin 2 → Fin (2 * 1), (∀ i, ((ix i : ℕ) : Int) = ![0, 1] i) → 1 < √(∑ i, (y (ix i) - ![0, 10] i) ^ 2) := by
  have hs : exPy.WF := fun a h => by cases h
  obtain ⟨tu, x, y, ix, s', h1, h2, h3, -⟩ := C80_python_returns_partial (q := 10000) refLib_ok hs exPy_wf exWorld_hist rfl (fun _ => not_busy_empty _) (by simp [darkKw]) dark_good
    (Or.inl rfl) (by decide) (by decide)
    ⟨⟨by decide, by decide, by decide, by decide⟩, by rw [Dbl.lit_eq, Dbl.flt_fin]; norm_num, by rw [Dbl.lit_eq, Dbl.flt_fin]; norm_num, fun h => by
      rw [Dbl.lit_eq, Dbl.flt_fin] at h; norm_num at h⟩
    (by decide) (by decide) (by intro i j h; fin_cases i <;> fin_cases j <;> simp_all) one_pos (by norm_num)
    (fun h => by simpa using congrFun h 1) (Or.inr ⟨rfl, 0, le_rfl, rfl⟩)
    (fun _ _ => by show (lit 0 : Dbl).IsFin; rw [Dbl.lit_eq]; trivial) (fun _ _ => rfl) (fun _ _ => rfl) (fun _ _ => rfl)
  refine ⟨tu, x, _, s', h1, fun ix' hix' => ?_⟩
  have e : ∀ jx : Fin 2 → Fin (2 * 1), (∀ i, ((jx i : ℕ) : Int) = ![0, 1] i) → jx 0 = 0 ∧ jx 1 = 1 := fun jx h => by
    have h0 := h 0
    have h1 := h 1
    simp only [Matrix.cons_val_zero, Matrix.cons_val_one] at h0 h1
    exact ⟨Fin.ext (Int.ofNat.inj h0), Fin.ext (Int.ofNat.inj h1)⟩
  obtain ⟨a0, a1⟩ := e ix h2
  obtain ⟨b0, b1⟩ := e ix' hix'
  rw [Fin.sum_univ_two, a0, a1] at h3
  rw [Fin.sum_univ_two, b0, b1]
  simp only [Matrix.cons_val_zero, Matrix.cons_val_one] at h3 ⊢
  have h4 : (y 0 - 0) ^ 2 + (y 1 - 10) ^ 2 ≤ 1 := by
    rw [Real.sqrt_le_left (by norm_num)] at h3
    linarith
  have y0 : -1 ≤ y 0 := by nlinarith [sq_nonneg (y 1 - 10)]
  have y1 : 9 ≤ y 1 := by nlinarith [sq_nonneg (y 0)]
  have hd : imgDct (twoDim (2 : ℕ) (1 : ℕ) DCT1) y 0 = √(1 / 2) * (y 0 + y 1) := by
    have : twoDim (2 : ℕ) (1 : ℕ) DCT1 = false := by decide
    rw [this]
    show odct y 0 = _
    unfold odct
    rw [if_pos (by rfl), show (∑ j : Fin (2 * 1), Real.cos (Real.pi * ((0 : Fin (2 * 1)) : ℕ) * ((j : ℝ) + 1 / 2) / (2 * 1 : ℕ)) * y j) = y 0 + y 1 from ?_]
    · norm_num
    · refine (Fin.sum_univ_two (M := ℝ) (fun j : Fin 2 => _)).trans ?_
      simp
  rw [hd]
  apply Real.lt_sqrt_of_sq_lt
  have hq : √(1 / 2 : ℝ) ^ 2 = 1 / 2 := Real.sq_sqrt (by norm_num)
  have : (√(1 / 2) * (y 0 + y 1) - 0) ^ 2 = 1 / 2 * (y 0 + y 1) ^ 2 := by rw [sub_zero, mul_pow, hq]
  rw [this]
  nlinarith [sq_nonneg (imgDct (twoDim (2 : ℕ) (1 : ℕ) DCT1) y 1 - 10)]

end example_calls

end L1c
