import Verif.Proofs.NestaMirror
import Verif.Props.NestaSame

/-!
# C84: order of the samples, scale, sign and mirror images in NESTA
-/

namespace L1c
open Scalar Matrix

variable {lib : FftwLib Dbl} {r k n : ℕ} {av ah sigma mu c sg : ℝ} {b : Fin n → ℝ} {ix : Fin n → Fin (r * k)} {tol : Dbl} {N dm : Int}

/-- the ways of changing a picture that the problem does not notice: with a TV weight none, without one a change of sign and mirror images (with the DCT of
all pixels in one row, only the picture upside down) -/
def Unnoticed (two : Bool) (av ah sg : ℝ) (v h : Bool) : Prop :=
  (sg = 1 ∧ v = false ∧ h = false) ∨ (av = 0 ∧ ah = 0 ∧ (sg = 1 ∨ sg = -1) ∧ (two = false → v = h))

theorem idx_ofFn (ix : Fin n → Fin (r * k)) (i : Fin n) : idxFun n (List.ofFn fun i => ((ix i : ℕ) : Int)) i = (ix i : ℕ) := by
  unfold idxFun
  rw [List.getD_eq_getElem?_getD, List.getElem?_eq_getElem (by rw [List.length_ofFn]; exact i.2), List.getElem_ofFn]
  rfl

theorem ran_sym (hlib : LibOk lib) {v h : Bool} (hu : Unnoticed (twoDim r k dm) av ah sg v h) (hc : 0 < c) (hinj : Function.Injective ix) (f : Equiv.Perm (Fin n))
    (hr : TvReal (anaSet r k n (List.ofFn fun i => ((ix i : ℕ) : Int)) (.fin av) (.fin ah) dm) av ah)
    (hr' : TvReal (anaSet r k n (List.ofFn fun i => ((mirror v h (ix (f i)) : ℕ) : Int)) (.fin av) (.fin ah) dm) av ah)
    (hsig : 0 < sigma) (hmu : 0 < mu) (hb0 : b ≠ 0) (hN1 : 1 ≤ N) (hN : N < INT_MAX) {y y' : Vec Dbl (r * k)}
    (h1 : Ran lib (anaSet r k n (List.ofFn fun i => ((ix i : ℕ) : Int)) (.fin av) (.fin ah) dm) (tvNormW true (.fin av) (.fin ah)) (fvec b) ⟨.fin sigma, .fin mu, tol, N⟩ y)
    (h2 : Ran lib (anaSet r k n (List.ofFn fun i => ((mirror v h (ix (f i)) : ℕ) : Int)) (.fin av) (.fin ah) dm) (tvNormW true (.fin av) (.fin ah))
      (fvec fun i => c * (sg * b (f i))) ⟨.fin (c * sigma), .fin (c * mu), tol, N⟩ y') :
    ∃ x : Fin (r * k) → ℝ, y = fvec x ∧ y' = fvec fun t => c * (sg * x (mirror v h t)) := by
  obtain ⟨s, s1, L, xk, o, a1, a2, a3, a4, a5, rfl⟩ := h1
  obtain ⟨q, q1, L', xk', o', b1, b2, b3, b4, b5, rfl⟩ := h2
  have hinj' : Function.Injective (fun i => mirror v h (ix (f i))) := fun i j hij => by
    have := congrArg (mirror v h) hij
    simp only [mirror_invol] at this
    exact f.injective (hinj this)
  have conv : ∀ {jx : Fin n → Fin (r * k)}, Function.Injective jx → Function.Injective (idxFun n (List.ofFn fun i => ((jx i : ℕ) : Int))) := fun hj i j hij => by
    rw [idx_ofFn, idx_ofFn] at hij
    exact hj (Fin.ext (by exact_mod_cast hij))
  obtain ⟨jx, A, W, g1, g2, g3, R, g5, g6, -, g8, -, -, -, -, Q, g13, g14⟩ := setN_real hlib a2 a3 rfl hr (conv hinj) (tvNormW true (.fin av) (.fin ah))
  obtain ⟨jx', A', W', k1, k2, -, R', -, -, -, k8, -, -, -, -, Q', k13, k14⟩ := setN_real hlib b2 b3 rfl hr' (conv hinj') (tvNormW true (.fin av) (.fin ah))
  change Fin n → Fin (r * k) at jx jx'
  change Matrix (Fin n) (Fin (r * k)) ℝ at A A'
  change Matrix (Fin (r * k)) (Fin (tvP (r * k) (Dbl.fin av) (Dbl.fin ah))) ℝ at W W'
  change Matrix (Fin (r * k)) (Fin (r * k)) ℝ at Q Q'
  obtain rfl : jx = ix := funext fun i => Fin.ext (by have := (g1 i).trans (idx_ofFn ix i); exact_mod_cast this)
  obtain rfl : jx' = fun i => mirror v h (jx (f i)) := funext fun i => Fin.ext (by
    have := (k1 i).trans (idx_ofFn (fun i => mirror v h (jx (f i))) i); exact_mod_cast this)
  have hQ : Q' = Q := by
    have : Q'ᵀ = Qᵀ := Matrix.ext_of_mulVec_single fun i => (k13 _).trans (g13 _).symm
    exact Matrix.transpose_injective this
  subst hQ
  have hW : W' = W := by
    have : W'ᵀ = Wᵀ := Matrix.ext_of_mulVec_single fun i => (k14 _).trans (g14 _).symm
    exact Matrix.transpose_injective this
  subst hW
  have hsg : sg = 1 ∨ sg = -1 := by rcases hu with ⟨h, -⟩ | ⟨-, -, h, -⟩; exacts [Or.inl h, h]
  set e : Fin (tvP (r * k) (Dbl.fin av) (Dbl.fin ah)) → ℝ := fun i => if h' : i.val < r * k then sg * mirSign (twoDim r k dm) v h ⟨i.val, h'⟩ else 1 with hedef
  have he : ∀ i, e i = 1 ∨ e i = -1 := fun i => by
    simp only [hedef]
    split
    · rename_i h'
      rcases hsg with a | a <;> rcases mirSign_unit (twoDim r k dm) v h ⟨i.val, h'⟩ with d | d <;> rw [a, d] <;> norm_num
    · exact Or.inl rfl
  have hWt : ∀ x, W'ᵀ *ᵥ movePix sg (mirror v h) x = sgnPerm e 1 (W'ᵀ *ᵥ x) := by
    intro x
    have k14' : ∀ x, W'ᵀ *ᵥ x = wtReal Q' av ah x := k14
    have k13' : ∀ x, Q'ᵀ *ᵥ x = imgDct (twoDim r k dm) x := k13
    rcases hu with ⟨rfl, rfl, rfl⟩ | ⟨rfl, rfl, -, hv⟩
    · have e1 : movePix 1 (mirror false false) x = x := by
        funext i
        show 1 * x (mirror false false i) = x i
        rw [one_mul, mirror_id]
      rw [e1]
      funext i
      show _ = e i * (W'ᵀ *ᵥ x) i
      have : e i = 1 := by simp only [hedef]; split <;> simp [mirSign]
      rw [this, one_mul]
    · funext i
      show _ = e i * (W'ᵀ *ᵥ x) i
      have hi : i.val < r * k := i.2.trans_eq (by simp [tvP, job])
      rw [k14', k14']
      unfold wtReal
      rw [dif_pos hi, dif_pos hi, k13', k13']
      have e1 : movePix sg (mirror v h) x = sg • fun t => x (mirror v h t) := rfl
      have e2 : ∀ (a : ℝ) (z : Fin (r * k) → ℝ), imgDct (twoDim r k dm) (a • z) = a • imgDct (twoDim r k dm) z := fun a z => by
        rw [← k13', ← k13', mulVec_smul]
      rw [e1, e2, Pi.smul_apply, imgDct_mirror hv, smul_eq_mul, ← mul_assoc]
      simp only [hedef, dif_pos hi]
  have hS := sym_ops (A := A) (A' := A') (W := W') hsg (mirror_invol v h) f g2 k2 g8 k8 he hWt
  have g3' : A * Aᵀ = 1 := g3
  have hx : Aᵀ *ᵥ b ≠ 0 := fun hc => hb0 (by
    have : (A * Aᵀ) *ᵥ b = 0 := by rw [← mulVec_mulVec, hc, mulVec_zero]
    rwa [g3', one_mulVec] at this)
  obtain ⟨j, hj, hj'⟩ := g5 _ hx
  have hj2 : j.val < r * k := hj
  have hp : 0 < tvP (r * k) (Dbl.fin av) (Dbl.fin ah) := Nat.lt_of_le_of_lt (Nat.zero_le _) j.2
  obtain ⟨M, hM, hM0, -⟩ := vmax_fvec hp (absHead (r * k) (W'ᵀ *ᵥ (Aᵀ *ᵥ b)))
  have hMp : 0 < M := lt_of_lt_of_le (abs_pos.2 hj') (le_trans (le_of_eq (if_pos hj2).symm) (hM0 j))
  have hM' : vmax (fvec (absHead (r * k) (W'ᵀ *ᵥ (A'ᵀ *ᵥ (c • movePix sg f b))))) = Dbl.fin (c * M) := by
    rw [mulVec_smul, mulVec_smul, hS.hAt, hS.hWt]
    refine vmax_sym he (fun i hi => ?_) hc hp hM
    simp only [hedef, dif_neg (not_lt.2 hi)]
  have hK0 : √(1 + 4 * av ^ 2 + 4 * ah ^ 2) ≠ 0 := by positivity
  obtain ⟨x, e1, e2⟩ := nesta_sym hS hc R R' g3 hsig hmu (K := √(1 + 4 * av ^ 2 + 4 * ah ^ 2)) g6 g6 hK0 hM hM' hMp hN1 hN a2 b2 a1 b1 a4 b4 a5 b5
  exact ⟨x, e1, e2⟩

/-- **C84**, Matlab: two calls in analysis mode, the second with the samples in another order, multiplied by `c > 0`, as are sigma and mu, perhaps with the opposite
sign and at the mirrored pixels: if both return an image, the second image is the first one multiplied by the same number and mirrored the same way.  With a TV weight
only order and scale may change. -/
theorem C84_matlab {prhs prhs' : List (MxVal Dbl)} {mode mode' : Option (Option String)} {s s' q q' : NState (World Dbl)} {junk junk' : ℕ → Dbl} {nlhs nlhs' l l' : ℕ} {v h : Bool}
    (hlib : LibOk lib) (hS : Session lib l s.cb) (hQ : Session lib l' q.cb) (hs : s.WF) (hq : q.WF) (hu : Unnoticed (twoDim r k dm) av ah sg v h) (hc : 0 < c)
    (f : Equiv.Perm (Fin n))
    (hg : NestaMexGood prhs mode ⟨r, k, ⟨n, fvec b⟩, ⟨n, fun i => .fin (((ix i : ℕ) + 1 : Int) : ℝ)⟩, ⟨.fin sigma, .fin mu, tol, N⟩, .fin av, .fin ah, dm, true⟩)
    (hg' : NestaMexGood prhs' mode' ⟨r, k, ⟨n, fvec fun i => c * (sg * b (f i))⟩, ⟨n, fun i => .fin (((mirror v h (ix (f i)) : ℕ) + 1 : Int) : ℝ)⟩,
      ⟨.fin (c * sigma), .fin (c * mu), tol, N⟩, .fin av, .fin ah, dm, true⟩)
    (hl : 2 ≤ nlhs) (hl' : 2 ≤ nlhs') (hinj : Function.Injective ix) (hsig : 0 < sigma) (hmu : 0 < mu) (hb0 : b ≠ 0) (hN1 : 1 ≤ N) (hN : N < INT_MAX)
    {rows cols st rows' cols' st' : Int} {img img' : Arr Dbl}
    (h1 : nesta_dctTV_mex lib junk nlhs prhs mode s = some (.ret rows cols img st, s')) (h2 : nesta_dctTV_mex lib junk' nlhs' prhs' mode' q = some (.ret rows' cols' img' st', q')) :
    rows = rows' ∧ cols = cols' ∧ st = 0 ∧ st' = 0 ∧ ∃ x : Fin (r * k) → ℝ, img = ⟨r * k, fvec x⟩ ∧ img' = ⟨r * k, fvec fun t => c * (sg * x (mirror v h t))⟩ := by
  obtain ⟨r1, k1, idx, y, a1, a2, a3, a4, a5, a6, rfl, av1, hy⟩ := mex_ran hS hs hg hl rfl hN h1
  obtain ⟨r2, k2, idx', y', b1, b2, b3, b4, b5, b6, rfl, bv1, hy'⟩ := mex_ran hQ hq hg' hl' rfl hN h2
  dsimp only at a1 a2 a3 b1 b2 b3 hy hy' av1 bv1
  obtain rfl : r = r1 := by exact_mod_cast a1
  obtain rfl : k = k1 := by exact_mod_cast a2
  obtain rfl : r = r2 := by exact_mod_cast b1
  obtain rfl : k = k2 := by exact_mod_cast b2
  obtain ⟨jx, rfl, hj⟩ := oneBased_fin a3
  obtain ⟨jx', rfl, hj'⟩ := oneBased_fin b3
  obtain rfl : jx = ix := funext fun i => Fin.ext (by have := hj i; omega)
  obtain rfl : jx' = fun i => mirror v h (jx (f i)) := funext fun i => Fin.ext (by have := hj' i; omega)
  obtain ⟨x, rfl, rfl⟩ := ran_sym hlib hu hc hinj f (tvReal_of_valid av1) (tvReal_of_valid bv1) hsig hmu hb0 hN1 hN hy hy'
  exact ⟨a4.trans b4.symm, a5.trans b5.symm, a6, b6, x, rfl, rfl⟩

/-- **C84**, Python: the same for two calls that return an image with status 0. -/
theorem C84_python {args args' : List (PyVal Dbl)} {kw kw' : List (String × PyVal Dbl)} {s s' q q' : NState (PyState Dbl)} {l l' nd nd1 nd2 nd3 : ℕ} {v h : Bool}
    (hlib : LibOk lib) (hS : Session lib l s.cb.w) (hQ : Session lib l' q.cb.w) (hs : s.WF) (hq : q.WF) (hsr : s.cb.WF) (hqr : q.cb.WF)
    (hu : Unnoticed (twoDim r k dm) av ah sg v h) (hc : 0 < c) (f : Equiv.Perm (Fin n)) (hk : (kw.map (·.1)).Nodup) (hk' : (kw'.map (·.1)).Nodup)
    (hg : PyNestaGood args kw ⟨r, k, some ⟨nd, n, fvec b⟩, some ⟨nd1, n, fun i => (ix i : ℕ)⟩, .fin av, .fin ah, BP_ANALYSIS, dm, ⟨.fin sigma, .fin mu, tol, N⟩⟩)
    (hg' : PyNestaGood args' kw' ⟨r, k, some ⟨nd2, n, fvec fun i => c * (sg * b (f i))⟩, some ⟨nd3, n, fun i => (mirror v h (ix (f i)) : ℕ)⟩, .fin av, .fin ah, BP_ANALYSIS, dm,
      ⟨.fin (c * sigma), .fin (c * mu), tol, N⟩⟩)
    (hn : (n : Int) ≤ INT_MAX) (hinj : Function.Injective ix) (hsig : 0 < sigma) (hmu : 0 < mu) (hb0 : b ≠ 0) (hN1 : 1 ≤ N) (hN : N < INT_MAX)
    {t o t' o' : ℕ} {rows cols rows' cols' : Int} {img img' : Arr Dbl}
    (h1 : py_nesta_call lib args kw s = some (.ret t o rows cols img 0, s')) (h2 : py_nesta_call lib args' kw' q = some (.ret t' o' rows' cols' img' 0, q')) :
    rows = rows' ∧ cols = cols' ∧ ∃ x : Fin (r * k) → ℝ, img = ⟨r * k, fvec x⟩ ∧ img' = ⟨r * k, fvec fun t => c * (sg * x (mirror v h t))⟩ := by
  obtain ⟨r1, k1, bb, p, a1, a2, a3, a4, a5, a6, av1, a7⟩ := py_ran hS hs hsr hk hg rfl (fun b hb => by cases hb; exact hn) (fun b hb => by cases hb; exact hn) hN h1
  obtain ⟨r2, k2, bb', p', b1, b2, b3, b4, b5, b6, bv1, b7⟩ := py_ran hQ hq hqr hk' hg' rfl (fun b hb => by cases hb; exact hn) (fun b hb => by cases hb; exact hn) hN h2
  dsimp only at a1 a2 a3 a4 b1 b2 b3 b4 a7 b7 av1 bv1
  obtain rfl : r = r1 := by exact_mod_cast a1
  obtain rfl : k = k1 := by exact_mod_cast a2
  obtain rfl : r = r2 := by exact_mod_cast b1
  obtain rfl : k = k2 := by exact_mod_cast b2
  cases a3; cases a4; cases b3; cases b4
  rcases a7 with ⟨hc, -⟩ | ⟨-, y, rfl, hy⟩
  · cases hc
  rcases b7 with ⟨hc, -⟩ | ⟨-, y', rfl, hy'⟩
  · cases hc
  obtain ⟨x, rfl, rfl⟩ := ran_sym hlib hu hc hinj f (tvReal_of_valid av1) (tvReal_of_valid bv1) hsig hmu hb0 hN1 hN hy hy'
  exact ⟨a5.trans b5.symm, a6.trans b6.symm, x, rfl, rfl⟩

/-! ## Concrete calls -/

/-- options twice as large -/
noncomputable def turnField : String → Option (MxArr Dbl)
  | "sigma" => some (mxNum 2)
  | "mu" => some (mxNum (1 / 50))
  | f => steepField f

/-- the samples -8 and -6 instead of 3 and 4 -/
noncomputable def turnPrhs : List (MxVal Dbl) :=
  [.arr (mxNum 3), .arr (mxNum 1), mxPair (-8) (-6), .arr ⟨true, 1, 2, 2, fun q => .fin ((![1, 3] q : Int) : ℝ)⟩, .struct 1 1 turnField]

theorem turn_mex_good : NestaMexGood turnPrhs (some (some "analysis"))
    ⟨(3 : ℕ), (1 : ℕ), ⟨2, fvec ![-8, -6]⟩, ⟨2, fun i => .fin ((![1, 3] i : Int) : ℝ)⟩, ⟨.fin 2, .fin (1 / 50), .fin 0, 5⟩, .fin 0, .fin 0, DCT1, true⟩ := by
  have c : ∀ (k : ℕ) {x : ℝ}, x = (k : ℝ) → (k : Int) ≤ INT_MAX → castInt (Dbl.fin x) = some (k : Int) := fun k x hx hk => by rw [hx]; exact castInt_nat hk
  refine ⟨⟨_, _, _, _, turnField, _, .fin 3, .fin 1, .fin 0, .fin 5, .fin 1, 0, rfl, ⟨2, rfl⟩, c 3 (by norm_num) (by decide), ⟨2, rfl⟩, c 1 (by norm_num) (by decide),
    ⟨1, 2, 2, _, rfl, rfl, by omega, by omega, le_refl _⟩,
    ⟨1, 2, 2, _, rfl, rfl, by omega, by omega, le_refl _⟩, ⟨_, rfl⟩, ⟨_, rfl⟩, ⟨_, rfl⟩, ⟨_, rfl⟩, c 0 (by norm_num) (by decide), ⟨_, rfl⟩, c 5 (by norm_num) (by decide),
    ⟨_, rfl⟩, ⟨_, rfl⟩, ⟨_, rfl⟩, c 1 (by norm_num) (by decide)⟩, rfl, by decide, by decide, rfl, by decide⟩

/-- `C84_matlab` applies: samples 3 and 4 of the first and last of three pixels give an image `x`; -8 and -6 with sigma and mu doubled give `-2 x` upside down -/
example (junk junk' : ℕ → Dbl) : ∃ (x : Fin (3 * 1) → ℝ) (s' q' : NState (World Dbl)),
    nesta_dctTV_mex refLib junk 2 steepPrhs (some (some "analysis")) exWorld = some (.ret (3 : ℕ) (1 : ℕ) ⟨3 * 1, fvec x⟩ 0, s') ∧
    nesta_dctTV_mex refLib junk' 2 turnPrhs (some (some "analysis")) exWorld = some (.ret (3 : ℕ) (1 : ℕ) ⟨3 * 1, fvec fun t => -2 * x t.rev⟩ 0, q') := by
  obtain ⟨y, -, s', h1, -⟩ := C79_matlab_returns (junk := junk) (q := 10000) refLib_ok (fun a h => by cases h) exWorld_hist rfl (fun _ => not_busy_empty _)
    steep_mex_good (le_refl _) (by decide) (by decide) (by intro i j h; fin_cases i <;> fin_cases j <;> simp_all)
    (fun i => by fin_cases i <;> exact ⟨by decide, by decide⟩) one_pos (by norm_num) (fun h => by simpa using congrFun h 0) (Or.inr ⟨rfl, 0, le_rfl, rfl⟩)
    le_rfl le_rfl (fun h => absurd h (by norm_num)) steep_fits (fun _ _ => rfl) (fun _ _ => rfl)
  obtain ⟨y', -, q', h2, -⟩ := C79_matlab_returns (junk := junk') (q := 10000) refLib_ok (fun a h => by cases h) exWorld_hist rfl (fun _ => not_busy_empty _)
    turn_mex_good (le_refl _) (by decide) (by decide) (by intro i j h; fin_cases i <;> fin_cases j <;> simp_all)
    (fun i => by fin_cases i <;> exact ⟨by decide, by decide⟩) two_pos (by norm_num) (fun h => by simpa using congrFun h 0) (Or.inr ⟨rfl, 0, le_rfl, rfl⟩)
    le_rfl le_rfl (fun h => absurd h (by norm_num)) steep_fits (fun _ _ => rfl) (fun _ _ => rfl)
  have g1 := steep_mex_good
  have g2 := turn_mex_good
  have e1 : (![1, 3] : Fin 2 → Int) = fun i => (((![0, 2] : Fin 2 → Fin (3 * 1)) i : ℕ) + 1 : Int) := by funext i; fin_cases i <;> rfl
  have e2 : (![1, 3] : Fin 2 → Int) = fun i => ((mirror true true ((![0, 2] : Fin 2 → Fin (3 * 1)) (Equiv.swap 0 1 i)) : ℕ) + 1 : Int) := by
    funext i; fin_cases i <;> rfl
  have e3 : (![-8, -6] : Fin 2 → ℝ) = fun i => 2 * (-1 * ![3, 4] (Equiv.swap (0 : Fin 2) 1 i)) := by funext i; fin_cases i <;> norm_num
  have e4 : (2 : ℝ) = 2 * 1 := by norm_num
  have e5 : (1 / 50 : ℝ) = 2 * (1 / 100) := by norm_num
  rw [e1] at g1
  rw [e2, e3, e5] at g2
  rw [show Dbl.fin 2 = Dbl.fin (2 * 1) from congrArg _ e4] at g2
  obtain ⟨-, -, -, -, x, h3, h4⟩ := C84_matlab refLib_ok (Session.start _ _) (Session.start _ _) (fun a h => by cases h) (fun a h => by cases h)
    (Or.inr ⟨rfl, rfl, Or.inr rfl, fun _ => rfl⟩) two_pos (Equiv.swap 0 1) g1 g2 (le_refl _) (le_refl _) (by decide) one_pos (by norm_num) (fun h => by simpa using congrFun h 0)
    (by decide) (by decide) h1 h2
  rw [h3] at h1
  rw [h4] at h2
  refine ⟨x, s', q', h1, ?_⟩
  have : (fun t : Fin (3 * 1) => -2 * x t.rev) = fun t => 2 * (-1 * x (mirror true true t)) := funext fun t => by rw [mirror_rot]; ring
  rw [this]
  exact h2

/-- `nesta_dctTV(3, 1, [-8, -6], [0, 2], sigma=2, mu=0.02, tol=0)` -/
noncomputable def turnArgs : List (PyVal Dbl) :=
  [⟨some (.inl 3), none, none⟩, ⟨some (.inl 1), none, none⟩, ⟨none, some ⟨1, 2, fvec ![-8, -6]⟩, none⟩, ⟨none, none, some ⟨1, 2, ![0, 2]⟩⟩]

noncomputable def turnKw : List (String × PyVal Dbl) :=
  [("sigma", ⟨some (.inr (.fin 2)), none, none⟩), ("mu", ⟨some (.inr (.fin (1 / 50))), none, none⟩), ("tol", ⟨some (.inr (.fin 0)), none, none⟩)]

theorem turn_good : PyNestaGood turnArgs turnKw
    ⟨(3 : ℕ), (1 : ℕ), some ⟨1, 2, fvec ![-8, -6]⟩, some ⟨1, 2, ![0, 2]⟩, .fin 0, .fin 0, BP_ANALYSIS, DCT1, ⟨.fin 2, .fin (1 / 50), .fin 0, 5⟩⟩ := by
  have no : ∀ i name, 4 ≤ i → name ∉ ["sigma", "mu", "tol"] → ∀ v, ¬ PyGiven turnArgs turnKw i name v := by
    rintro i name hi hn v (h | ⟨-, h⟩)
    · rw [List.getElem?_eq_none (by exact hi)] at h; cases h
    · simp only [turnKw, List.mem_cons, List.not_mem_nil, or_false, Prod.mk.injEq] at h
      simp only [List.mem_cons, List.not_mem_nil, or_false] at hn
      rcases h with h | h | h <;> exact hn (by simp [h.1])
  have z : (Dbl.fin 0 : Dbl) = lit 0 := by rw [Dbl.lit_eq]; norm_num
  refine ⟨⟨by decide, by decide, ?_⟩, ⟨_, _, _, _, _, rfl, rfl, by decide, rfl, by decide, rfl, rfl⟩, Or.inr ⟨no _ _ (by decide) (by decide), z⟩,
    Or.inr ⟨no _ _ (by decide) (by decide), z⟩, Or.inl ⟨⟨some (.inr (.fin 2)), none, none⟩, Or.inr ⟨by decide, by simp [turnKw]⟩, Or.inl rfl⟩,
    Or.inl ⟨⟨some (.inr (.fin (1 / 50))), none, none⟩, Or.inr ⟨by decide, by simp [turnKw]⟩, Or.inl rfl⟩,
    Or.inl ⟨⟨some (.inr (.fin 0)), none, none⟩, Or.inr ⟨by decide, by simp [turnKw]⟩, Or.inl rfl⟩, Or.inr ⟨no _ _ (by decide) (by decide), rfl⟩,
    ⟨5, Or.inr ⟨no _ _ (by decide) (by decide), rfl⟩⟩, Or.inr ⟨no _ _ (by decide) (by decide), rfl⟩, Or.inr ⟨no _ _ (by decide) (by decide), rfl⟩⟩
  intro p hp
  simp only [turnKw, List.mem_cons, List.not_mem_nil, or_false] at hp
  rcases hp with rfl | rfl | rfl
  · exact ⟨2, rfl, by decide⟩
  · exact ⟨3, rfl, by decide⟩
  · exact ⟨4, rfl, by decide⟩

/-- `C84_python` applies to the same two problems -/
example : ∃ (x : Fin (3 * 1) → ℝ) (t1 o1 t2 o2 : ℕ) (s' q' : NState (PyState Dbl)),
    py_nesta_call refLib steepArgs steepKw exPy = some (.ret t1 o1 (3 : ℕ) (1 : ℕ) ⟨3 * 1, fvec x⟩ 0, s') ∧
    py_nesta_call refLib turnArgs turnKw exPy = some (.ret t2 o2 (3 : ℕ) (1 : ℕ) ⟨3 * 1, fvec fun t => -2 * x t.rev⟩ 0, q') := by
  have hs : exPy.WF := fun a h => by cases h
  have hv : ValidTv 2 (3 : ℕ) (1 : ℕ) (Dbl.fin 0) (Dbl.fin 0) (List.ofFn (![0, 2] : Fin 2 → Int)) :=
    ⟨⟨by decide, by decide, by decide, by decide⟩, by rw [Dbl.lit_eq, Dbl.flt_fin]; norm_num, by rw [Dbl.lit_eq, Dbl.flt_fin]; norm_num, fun h => by
      rw [Dbl.lit_eq, Dbl.flt_fin] at h; norm_num at h⟩
  have ij : Function.Injective (![0, 2] : Fin 2 → Int) := by intro i j h; fin_cases i <;> fin_cases j <;> simp_all
  obtain ⟨t1, o1, y, -, s', h1, -⟩ := C79_python_returns (q := 10000) refLib_ok hs exPy_wf exWorld_hist rfl (fun _ => not_busy_empty _) (by simp [steepKw]) steep_good
    (Or.inl rfl) (by decide) (by decide) hv steep_fits (by decide) (by decide) ij one_pos (by norm_num)
    (fun h => by simpa using congrFun h 0) (Or.inr ⟨rfl, 0, le_rfl, rfl⟩) (fun _ _ => rfl) (fun _ _ => rfl) (fun _ _ => rfl)
  obtain ⟨t2, o2, y', -, q', h2, -⟩ := C79_python_returns (q := 10000) refLib_ok hs exPy_wf exWorld_hist rfl (fun _ => not_busy_empty _) (by simp [turnKw]) turn_good
    (Or.inl rfl) (by decide) (by decide) hv steep_fits (by decide) (by decide) ij two_pos (by norm_num)
    (fun h => by simpa using congrFun h 0) (Or.inr ⟨rfl, 0, le_rfl, rfl⟩) (fun _ _ => rfl) (fun _ _ => rfl) (fun _ _ => rfl)
  have g1 := steep_good
  have g2 := turn_good
  have e1 : (![0, 2] : Fin 2 → Int) = fun i => (((![0, 2] : Fin 2 → Fin (3 * 1)) i : ℕ) : Int) := by funext i; fin_cases i <;> rfl
  have e2 : (![0, 2] : Fin 2 → Int) = fun i => ((mirror true true ((![0, 2] : Fin 2 → Fin (3 * 1)) (Equiv.swap 0 1 i)) : ℕ) : Int) := by
    funext i; fin_cases i <;> rfl
  have e3 : (![-8, -6] : Fin 2 → ℝ) = fun i => 2 * (-1 * ![3, 4] (Equiv.swap (0 : Fin 2) 1 i)) := by funext i; fin_cases i <;> norm_num
  have e4 : (2 : ℝ) = 2 * 1 := by norm_num
  have e5 : (1 / 50 : ℝ) = 2 * (1 / 100) := by norm_num
  rw [e1] at g1
  rw [e2, e3, e5] at g2
  rw [show Dbl.fin 2 = Dbl.fin (2 * 1) from congrArg _ e4] at g2
  obtain ⟨-, -, x, h3, h4⟩ := C84_python refLib_ok (Session.start _ _) (Session.start _ _) hs hs exPy_wf exPy_wf
    (Or.inr ⟨rfl, rfl, Or.inr rfl, fun _ => rfl⟩) two_pos (Equiv.swap 0 1) (by simp [steepKw]) (by simp [turnKw]) g1 g2 (by decide) (by decide) one_pos (by norm_num)
    (fun h => by simpa using congrFun h 0) (by decide) (by decide) h1 h2
  rw [h3] at h1
  rw [h4] at h2
  refine ⟨x, t1, o1, t2, o2, s', q', h1, ?_⟩
  have : (fun t : Fin (3 * 1) => -2 * x t.rev) = fun t => 2 * (-1 * x (mirror true true t)) := funext fun t => by rw [mirror_rot]; ring
  rw [this]
  exact h2

end L1c
