import Verif.Proofs.NewtonSymLoop
import Verif.Props.NestaSym
import Verif.Props.EndToEnd
import Mathlib.LinearAlgebra.Matrix.DotProduct

/-!
# The image recovery follows its samples (`C85`)
-/

namespace L1c
open Scalar Matrix

/-! ## Helpers -/

section init
variable {m : ℕ} {e : Fin m → ℝ}

theorem fabs_flip (he : ∀ i, e i = 1 ∨ e i = -1) (x : Fin m → ℝ) (i : Fin m) : fabs (fvec (e * x) i) = fabs (fvec x i) := by
  show Dbl.fin |e i * x i| = Dbl.fin |x i|
  rw [sgn_abs (he i)]

theorem init_flip (he : ∀ i, e i = 1 ∨ e i = -1) (x : Fin m → ℝ) (prm : QOpts Dbl) : l1qc_newton_init (fvec (e * x)) prm = l1qc_newton_init (fvec x) prm := by
  unfold l1qc_newton_init
  simp only [fabs_flip he, dasum_flip he]

theorem init_small {x u : Vec Dbl m} {prm prm' : QOpts Dbl} (h : l1qc_newton_init x prm = some (u, prm')) : 2 * (m : Int) + 1 ≤ INT_MAX := by
  unfold l1qc_newton_init at h
  dsimp only at h
  obtain ⟨k, h1, -⟩ := Option.bind_eq_some_iff.1 h
  unfold cint at h1
  split at h1
  · rename_i hf; exact hf.2
  · cases h1

end init

section real
variable {lib : FftwLib Dbl} {r k n : ℕ} {two v h : Bool} {sg : ℝ}

/-- the transforms of an image, with the DCT written out -/
theorem image_ok (hlib : LibOk lib) (hp : 0 < r ∧ 0 < k) {idx : List Int} (hi : IdxOk (r * k) (idxFun n idx)) :
    ∃ ix Q, FunsOk (imageFuns lib r k n idx two hp) (idxFun n idx) ix Q ∧ ∀ x, Qᵀ *ᵥ x = imgDct two x := by
  obtain ⟨ix, hr, hix⟩ := resolve_eq hi
  have : NeZero r := ⟨hp.1.ne'⟩
  have : NeZero k := ⟨hp.2.ne'⟩
  have : NeZero (r * k) := ⟨(Nat.mul_pos hp.1 hp.2).ne'⟩
  unfold imageFuns fun1 fun2 imgDct
  split
  · exact ⟨ix, _, dct2_ok (hlib.f2 _ _) hr hix, sdct_eq⟩
  · exact ⟨ix, _, dct1_ok (hlib.f1 _) hr hix, odct_eq⟩

variable {Q : Matrix (Fin (r * k)) (Fin (r * k)) ℝ}

/-- the inverse DCT of coefficients with switched signs is the mirrored image -/
theorem mirror_inverse (ho : Qᵀ * Q = 1) (hQ : ∀ x, Qᵀ *ᵥ x = imgDct two x) (hv : two = false → v = h) (sg : ℝ) (z : Fin (r * k) → ℝ) :
    Q *ᵥ ((fun t => sg * mirSign two v h t) * z) = fun t => sg * (Q *ᵥ z) (mirror v h t) := by
  have h1 : Qᵀ *ᵥ (fun t => (Q *ᵥ z) (mirror v h t)) = fun t => mirSign two v h t * z t := by
    rw [hQ]
    funext t
    rw [imgDct_mirror hv, ← hQ, mulVec_mulVec, ho, one_mulVec]
  have h2 : Q *ᵥ (fun t => mirSign two v h t * z t) = fun t => (Q *ᵥ z) (mirror v h t) := by
    rw [← h1, mulVec_mulVec, mul_eq_one_comm.1 ho, one_mulVec]
  have h3 : ((fun t => sg * mirSign two v h t) * z : Fin (r * k) → ℝ) = sg • fun t => mirSign two v h t * z t := by
    funext t; simp [mul_assoc]
  rw [h3, mulVec_smul, h2]
  rfl

theorem sampled_sym (ho : Qᵀ * Q = 1) (hQ : ∀ x, Qᵀ *ᵥ x = imgDct two x) (hv : two = false → v = h) (hsg : sg = 1 ∨ sg = -1) (ix : Fin n → Fin (r * k))
    (f : Equiv.Perm (Fin n)) :
    QSym (Q.submatrix ix id) (Q.submatrix (fun i => mirror v h (ix (f i))) id) (fun t => sg * mirSign two v h t) (fun y i => sg * y (f i)) := by
  have he : ∀ t : Fin (r * k), sg * mirSign two v h t = 1 ∨ sg * mirSign two v h t = -1 := fun t => by
    rcases hsg with a | a <;> rcases mirSign_unit two v h t with d | d <;> rw [a, d] <;> norm_num
  have hA : ∀ x, Q.submatrix (fun i => mirror v h (ix (f i))) id *ᵥ ((fun t => sg * mirSign two v h t) * x) = fun i => sg * (Q.submatrix ix id *ᵥ x) (f i) := fun x => by
    rw [sampled_mulVec, mirror_inverse ho hQ hv]
    funext i
    show sg * (Q *ᵥ x) (mirror v h (mirror v h (ix (f i)))) = _
    rw [mirror_invol]
    rfl
  have hdot : ∀ x y : Fin n → ℝ, (fun i => sg * x (f i)) ⬝ᵥ (fun i => sg * y (f i)) = x ⬝ᵥ y := fun x y => by
    unfold dotProduct
    rw [← Equiv.sum_comp f fun i => x i * y i]
    refine Finset.sum_congr rfl fun i _ => ?_
    linear_combination (x (f i) * y (f i)) * sgn_sq hsg
  refine ⟨he, hA, fun y => ?_, fun x y => funext fun i => by simp [mul_sub], hdot⟩
  refine dotProduct_eq _ _ fun x => ?_
  have hx : x = (fun t => sg * mirSign two v h t) * ((fun t => sg * mirSign two v h t) * x) := by
    funext t
    simp only [Pi.mul_apply]
    linear_combination (-(x t)) * sgn_sq (he t)
  set z := (fun t => sg * mirSign two v h t) * x with hz
  rw [dot_mulVec_T]
  conv_lhs => rw [hx]
  rw [hA, hdot, ← dot_mulVec_T]
  conv_rhs => rw [hx]
  rw [sgn_dot he]

/-- two recoveries from corresponding samples -/
theorem recover_sym (hlib : LibOk lib) (hp : 0 < r ∧ 0 < k) (hv : two = false → v = h) (hsg : sg = 1 ∨ sg = -1) {ix : Fin n → Fin (r * k)}
    (hinj : Function.Injective ix) (f : Equiv.Perm (Fin n)) {b : Fin n → ℝ} (hb0 : b ≠ 0) {opts : QOpts Dbl} {eps mu : ℝ} (he : opts.epsilon = .fin eps) (heps : 0 < eps)
    (hmu : opts.mu = .fin mu) (hmu0 : 0 < mu) (hc1 : opts.cg_maxiter < INT_MAX) {res res' : LBResult Dbl} {y y' : Vec Dbl (r * k)}
    (h1 : recover (imageFuns lib r k n (List.ofFn fun i => ((ix i : ℕ) : Int)) two hp) (fvec b) opts = some (res, y))
    (h2 : recover (imageFuns lib r k n (List.ofFn fun i => ((mirror v h (ix (f i)) : ℕ) : Int)) two hp) (fvec fun i => sg * b (f i)) opts = some (res', y')) :
    res' = res ∧ res.status = 0 ∧ ∃ x : Fin (r * k) → ℝ, y = fvec x ∧ y' = fvec fun t => sg * x (mirror v h t) := by
  have hok : ∀ jx : Fin n → Fin (r * k), IdxOk (r * k) (idxFun n (List.ofFn fun i => ((jx i : ℕ) : Int))) := fun jx i => by
    rw [idx_ofFn]; exact ⟨by omega, by exact_mod_cast (jx i).2⟩
  have hR := imageFuns_setR hlib (two := two) hp (hok ix)
  have hR' := imageFuns_setR hlib (two := two) hp (hok fun i => mirror v h (ix (f i)))
  obtain ⟨jx, Q, ok, hQ⟩ := image_ok hlib (two := two) hp (hok ix)
  obtain ⟨jx', Q', ok', hQ'⟩ := image_ok hlib (two := two) hp (hok fun i => mirror v h (ix (f i)))
  obtain rfl : jx = ix := funext fun i => Fin.ext (by have := (ok.hix i).trans (idx_ofFn ix i); exact_mod_cast this)
  obtain rfl : jx' = fun i => mirror v h (jx (f i)) := funext fun i => Fin.ext (by
    have := (ok'.hix i).trans (idx_ofFn (fun i => mirror v h (jx (f i))) i); exact_mod_cast this)
  obtain rfl : Q' = Q := by
    have : Q'ᵀ = Qᵀ := Matrix.ext_of_mulVec_single fun i => (hQ' _).trans (hQ _).symm
    exact Matrix.transpose_injective this
  have hinj' : Function.Injective (fun i => mirror v h (jx (f i))) := fun i j hij => by
    have := congrArg (mirror v h) hij
    simp only [mirror_invol] at this
    exact f.injective (hinj this)
  have hnm : n ≤ r * k := by simpa using Fintype.card_le_of_injective jx hinj
  have S := sampled_sym ok.orth hQ hv hsg jx f
  obtain ⟨a, u, prm, q, w, o, e1, e2, e3, e4, e5⟩ := recover_inv h1
  obtain ⟨a', u', prm', q', w', o', d1, d2, d3, d4, d5⟩ := recover_inv h2
  obtain ⟨s1, g1⟩ := ok.Aty.gives hR _ Reach.fresh b
  obtain ⟨s2, g2⟩ := ok'.Aty.gives hR' _ Reach.fresh (fun i => sg * b (f i))
  rw [g1] at e1
  rw [g2] at d1
  cases e1
  cases d1
  have hx : Q'ᵀ *ᵥ scat (fun i => mirror v h (jx (f i))) (fun i => sg * b (f i)) = (fun t => sg * mirSign two v h t) * (Q'ᵀ *ᵥ scat jx b) := by
    rw [← sampled_transpose hinj', ← sampled_transpose hinj]
    exact S.hT b
  dsimp only at e2 e3 d2 d3
  rw [hx] at d2 d3
  rw [init_flip S.he, e2] at d2
  obtain ⟨rfl, rfl⟩ := Prod.mk.inj (Option.some.inj d2)
  have hfit := start_fits ok hinj b
  have hx0 : Q'ᵀ *ᵥ scat jx b ≠ 0 := fun hc => hb0 (by rw [← hfit, hc, mulVec_zero])
  obtain ⟨t, Lb, hprm, -⟩ := init_opts e2
  obtain ⟨u0, hu0, hinit⟩ := init_fin hx0 (init_small e2)
  have e2' := (hinit opts).symm.trans e2
  obtain ⟨L, -, hL⟩ := Option.map_eq_some_iff.1 e2'
  obtain ⟨hL1, hL2⟩ := Prod.mk.inj hL
  subst hL1 hL2
  have hfeas : StrictFeas (Q'.submatrix jx id) b eps (Q'ᵀ *ᵥ scat jx b, u0) := by
    refine ⟨fun i => abs_lt.1 (hu0 i), ?_⟩
    show nrm (Q'.submatrix jx id *ᵥ (Q'ᵀ *ᵥ scat jx b) - b) < eps
    rw [hfit, sub_self]
    simpa [nrm] using heps
  obtain ⟨k1, k2, x1, k3, k4⟩ := solve_pair S (pureAx_real hR ok hinj) (pureAx_real hR' ok' hinj') hnm
    (prm := { opts with tau := Dbl.fin (tau0R (Q'ᵀ *ᵥ scat jx b)), lbiter := L }) hmu hmu0 hc1 he rfl
    (lt_of_lt_of_le one_pos (tau0R_ge _)) hfeas trivial trivial e3 d3
  obtain ⟨rfl, rfl⟩ := Prod.mk.inj e5
  obtain ⟨rfl, rfl⟩ := Prod.mk.inj d5
  obtain ⟨s3, g3⟩ := ok.Mx.gives hR _ Reach.fresh x1
  obtain ⟨s4, g4⟩ := ok'.Mx.gives hR' _ Reach.fresh ((fun t => sg * mirSign two v h t) * x1)
  rw [k3, g3] at e4
  rw [k4, g4] at d4
  cases e4
  cases d4
  refine ⟨k1, k2, Q' *ᵥ x1, rfl, ?_⟩
  show fvec (Q' *ᵥ _) = _
  rw [mirror_inverse ok.orth hQ hv]

/-- the 1-norm of the data does not notice the change -/
theorem dataNorm_sym (hlib : LibOk lib) (hv : two = false → v = h) (hsg : sg = 1 ∨ sg = -1) {ix : Fin n → Fin (r * k)} (hinj : Function.Injective ix) (f : Equiv.Perm (Fin n))
    {b : Fin n → ℝ} {X : ℝ} (hX : DataNorm lib r k n (List.ofFn fun i => ((ix i : ℕ) : Int)) two b X) :
    DataNorm lib r k n (List.ofFn fun i => ((mirror v h (ix (f i)) : ℕ) : Int)) two (fun i => sg * b (f i)) X := by
  intro hp x0 a ha hx
  have hok : ∀ jx : Fin n → Fin (r * k), IdxOk (r * k) (idxFun n (List.ofFn fun i => ((jx i : ℕ) : Int))) := fun jx i => by
    rw [idx_ofFn]; exact ⟨by omega, by exact_mod_cast (jx i).2⟩
  have hR := imageFuns_setR hlib (two := two) hp (hok ix)
  have hR' := imageFuns_setR hlib (two := two) hp (hok fun i => mirror v h (ix (f i)))
  obtain ⟨jx, Q, ok, hQ⟩ := image_ok hlib (two := two) hp (hok ix)
  obtain ⟨jx', Q', ok', hQ'⟩ := image_ok hlib (two := two) hp (hok fun i => mirror v h (ix (f i)))
  obtain rfl : jx = ix := funext fun i => Fin.ext (by have := (ok.hix i).trans (idx_ofFn ix i); exact_mod_cast this)
  obtain rfl : jx' = fun i => mirror v h (jx (f i)) := funext fun i => Fin.ext (by
    have := (ok'.hix i).trans (idx_ofFn (fun i => mirror v h (jx (f i))) i); exact_mod_cast this)
  obtain rfl : Q' = Q := by
    have : Q'ᵀ = Qᵀ := Matrix.ext_of_mulVec_single fun i => (hQ' _).trans (hQ _).symm
    exact Matrix.transpose_injective this
  have hinj' : Function.Injective (fun i => mirror v h (jx (f i))) := fun i j hij => by
    have := congrArg (mirror v h) hij
    simp only [mirror_invol] at this
    exact f.injective (hinj this)
  have S := sampled_sym ok.orth hQ hv hsg jx f
  obtain ⟨s1, g1⟩ := ok.Aty.gives hR _ Reach.fresh b
  obtain ⟨s2, g2⟩ := ok'.Aty.gives hR' _ Reach.fresh (fun i => sg * b (f i))
  rw [g2] at ha
  cases ha
  rw [← fvec_injective hx, ← hX hp _ _ g1 rfl]
  dsimp only
  rw [← sampled_transpose hinj', ← sampled_transpose hinj, S.hT b]
  exact Finset.sum_congr rfl fun i _ => sgn_abs (S.he i) _

end real

/-! ## C85 -/

variable {lib : FftwLib Dbl} {r k n : ℕ} {v h : Bool} {sg : ℝ} {b : Fin n → ℝ} {ix : Fin n → Fin (r * k)} {eps mu : ℝ} {opts : QOpts Dbl}

/-- **C85**, the library function: two calls at any points of any sessions, the second with the samples in another order, perhaps with the opposite sign and at the
mirrored pixels; the positions are distinct, the data not all zero, `epsilon > 0` and `mu > 0`.  If both return 0, the second image is the first one with that sign,
mirrored the same way, and the two result records are equal: same 1-norm, same numbers of Newton and conjugate gradient steps. -/
theorem C85_library (hlib : LibOk lib) {mode : Int} {s s' q q' : NState (World Dbl)} {l l' : ℕ} (hS : Session lib l s.cb) (hQ : Session lib l' q.cb) (hs : s.WF) (hq : q.WF)
    (hv : twoDim r k mode = false → v = h) (hsg : sg = 1 ∨ sg = -1) (hinj : Function.Injective ix) (f : Equiv.Perm (Fin n)) (hb0 : b ≠ 0)
    (he : opts.epsilon = .fin eps) (heps : 0 < eps) (hmu : opts.mu = .fin mu) (hmu0 : 0 < mu) (hc1 : opts.cg_maxiter < INT_MAX)
    {x_out x_out' : Vec Dbl (r * k)} {out out' : DctOut Dbl}
    (h1 : l1qc_dct lib r k ⟨r * k, x_out⟩ n ⟨n, fvec b⟩ (List.ofFn fun i => ((ix i : ℕ) : Int)) mode opts s = some (out, s'))
    (h2 : l1qc_dct lib r k ⟨r * k, x_out'⟩ n ⟨n, fvec fun i => sg * b (f i)⟩ (List.ofFn fun i => ((mirror v h (ix (f i)) : ℕ) : Int)) mode opts q = some (out', q'))
    (h3 : out.status = 0) (h4 : out'.status = 0) :
    out'.lb_res = out.lb_res ∧ ∃ x : Fin (r * k) → ℝ, out.x_out = ⟨r * k, fvec x⟩ ∧ out'.x_out = ⟨r * k, fvec fun t => sg * x (mirror v h t)⟩ := by
  have inv : ∀ {s s' : NState (World Dbl)} {l : ℕ} {c : Fin n → ℝ} {jx : Fin n → Fin (r * k)} {x_out : Vec Dbl (r * k)} {out : DctOut Dbl}, Session lib l s.cb → s.WF →
      l1qc_dct lib r k ⟨r * k, x_out⟩ n ⟨n, fvec c⟩ (List.ofFn fun i => ((jx i : ℕ) : Int)) mode opts s = some (out, s') → out.status = 0 →
      ∃ (hp : 0 < r ∧ 0 < k) (res : LBResult Dbl) (y : Vec Dbl (r * k)),
        recover (imageFuns lib r k n (List.ofFn fun i => ((jx i : ℕ) : Int)) (twoDim r k mode) hp) (fvec c) opts = some (res, y) ∧
        out.lb_res = some res ∧ out.x_out = ⟨r * k, y⟩ := by
    intro s s' l c jx x_out out hS hs h1 h3
    obtain ⟨L, hw, hL⟩ := C81_usable hS
    obtain ⟨-, ⟨rfl, -⟩ | ⟨hp, hi, ⟨a1, -⟩ | ⟨b', res, y, a1, a2, a3, a4, ⟨a5, -⟩ | ⟨-, -, a6, a7⟩⟩⟩⟩ := C53_outcome_partial hs hw (List.length_ofFn) (hL.free _) h1
    · exact absurd h3 (by show ¬ L1C_DCT_INIT_FAILURE = 0; decide)
    · exact absurd (a1.symm.trans h3) (by decide)
    · exact absurd (a4.symm.trans h3) a5
    dsimp only at a1
    rw [slice_full] at a1
    cases a1
    refine ⟨hp, res, y, a2, a3, ?_⟩
    obtain ⟨st, lr, n1, x1⟩ := out
    dsimp only at a6 a7
    subst a6
    show (⟨r * k, x1⟩ : Arr Dbl) = _
    congr 1
    funext i
    have := a7 i
    rw [dif_pos i.2] at this
    exact this
  obtain ⟨hp, res, y, e1, e2, e3⟩ := inv hS hs h1 h3
  obtain ⟨hp', res', y', d1, d2, d3⟩ := inv hQ hq h2 h4
  obtain ⟨rfl, -, x, rfl, rfl⟩ := recover_sym hlib hp hv hsg hinj f hb0 he heps hmu hmu0 hc1 e1 d1
  exact ⟨d2.trans e2.symm, x, e3, d3⟩

/-- **C85**, Python. -/
theorem C85_python (hlib : LibOk lib) {args args' : List (PyVal Dbl)} {kw kw' : List (String × PyVal Dbl)} {s s' q q' : NState (PyState Dbl)} {l l' nd nd1 nd2 nd3 : ℕ} {dm : Int}
    (hS : Session lib l s.cb.w) (hQ : Session lib l' q.cb.w) (hs : s.WF) (hq : q.WF) (hsr : s.cb.WF) (hqr : q.cb.WF) (hk : (kw.map (·.1)).Nodup) (hk' : (kw'.map (·.1)).Nodup)
    (hg : PyL1qcGood args kw ⟨r, k, some ⟨nd, n, fvec b⟩, some ⟨nd1, n, fun i => (ix i : ℕ)⟩, opts, dm⟩) (f : Equiv.Perm (Fin n))
    (hg' : PyL1qcGood args' kw' ⟨r, k, some ⟨nd2, n, fvec fun i => sg * b (f i)⟩, some ⟨nd3, n, fun i => (mirror v h (ix (f i)) : ℕ)⟩, opts, dm⟩)
    (hv : twoDim r k dm = false → v = h) (hsg : sg = 1 ∨ sg = -1) (hn : (n : Int) ≤ INT_MAX) (hinj : Function.Injective ix) (hb0 : b ≠ 0)
    (he : opts.epsilon = .fin eps) (heps : 0 < eps) (hmu : opts.mu = .fin mu) (hmu0 : 0 < mu) (hc1 : opts.cg_maxiter < INT_MAX)
    {t o d t' o' d' : ℕ} {rows cols rows' cols' : Int} {img img' : Arr Dbl} {res res' : LBResult Dbl}
    (h1 : py_l1qc_call lib args kw s = some (.ret t o d rows cols img res, s')) (h2 : py_l1qc_call lib args' kw' q = some (.ret t' o' d' rows' cols' img' res', q')) :
    rows = r ∧ rows' = r ∧ cols = k ∧ cols' = k ∧ res' = res ∧ ∃ x : Fin (r * k) → ℝ, img = ⟨r * k, fvec x⟩ ∧ img' = ⟨r * k, fvec fun t => sg * x (mirror v h t)⟩ := by
  obtain ⟨L, hw, hL⟩ := C81_usable hS
  obtain ⟨L', hw', hL'⟩ := C81_usable hQ
  rw [(C76_calls lib hk _).1 _ hg] at h1
  rw [(C76_calls lib hk' _).1 _ hg'] at h2
  obtain ⟨mr, mc, hp, bb, p, im, a1, a2, a3, a4, a5, a6, a7, -, a8, a9⟩ := C61_python hsr hs hw (hL.free _) (fun b hb => by cases hb; exact hn) (fun b hb => by cases hb; exact hn) h1
  obtain ⟨mr', mc', hp', bb', p', im', e1, e2, e3, e4, e5, e6, e7, -, e8, e9⟩ :=
    C61_python hqr hq hw' (hL'.free _) (fun b hb => by cases hb; exact hn) (fun b hb => by cases hb; exact hn) h2
  dsimp only at a1 a2 a3 a4 a7 e1 e2 e3 e4 e7
  obtain rfl : r = mr := by exact_mod_cast a1
  obtain rfl : k = mc := by exact_mod_cast a2
  obtain rfl : r = mr' := by exact_mod_cast e1
  obtain rfl : k = mc' := by exact_mod_cast e2
  cases a3; cases a4; cases e3; cases e4
  obtain ⟨rfl, -, x, rfl, rfl⟩ := recover_sym hlib hp hv hsg hinj f hb0 he heps hmu hmu0 hc1 a7 e7
  obtain ⟨n1, v1⟩ := img
  obtain ⟨n2, v2⟩ := img'
  dsimp only at a8 e8
  subst a8 e8
  refine ⟨a5, e5, a6, e6, rfl, x, ?_, ?_⟩
  · congr 1
    funext i
    exact (a9 i).2
  · congr 1
    funext i
    exact (e9 i).2

/-- **C85**, Matlab with two outputs (with one output a failure cannot be seen, `C61_matlab_false`).  The interface always uses the one-dimensional DCT of the image's
columns, one after the other, so the whole image may be turned by 180 degrees but not mirrored in one direction. -/
theorem C85_matlab (hlib : LibOk lib) {prhs prhs' : List (MxVal Dbl)} {s s' q q' : NState (World Dbl)} {junk junk' : ℕ → Dbl} {l l' : ℕ}
    (hS : Session lib l s.cb) (hQ : Session lib l' q.cb) (hs : s.WF) (hq : q.WF)
    (hg : MexGood prhs ⟨r, k, ⟨n, fvec b⟩, ⟨n, fun i => .fin (((ix i : ℕ) + 1 : Int) : ℝ)⟩, opts⟩) (f : Equiv.Perm (Fin n))
    (hg' : MexGood prhs' ⟨r, k, ⟨n, fvec fun i => sg * b (f i)⟩, ⟨n, fun i => .fin (((mirror v v (ix (f i)) : ℕ) + 1 : Int) : ℝ)⟩, opts⟩)
    (hsg : sg = 1 ∨ sg = -1) (hinj : Function.Injective ix) (hb0 : b ≠ 0)
    (he : opts.epsilon = .fin eps) (heps : 0 < eps) (hmu : opts.mu = .fin mu) (hmu0 : 0 < mu) (hc1 : opts.cg_maxiter < INT_MAX)
    {img img' : Arr Dbl} {res res' : LBResult Dbl} (h1 : l1qc_dct_mex lib junk 2 prhs s = some (.ret img (some res), s'))
    (h2 : l1qc_dct_mex lib junk' 2 prhs' q = some (.ret img' (some res'), q')) (h3 : res.status = 0) (h4 : res'.status = 0) :
    res' = res ∧ ∃ x : Fin (r * k) → ℝ, img = ⟨r * k, fvec x⟩ ∧ img' = ⟨r * k, fvec fun t => sg * x (mirror v v t)⟩ := by
  have inv : ∀ {prhs : List (MxVal Dbl)} {s s' : NState (World Dbl)} {junk : ℕ → Dbl} {c : Fin n → ℝ} {jx : Fin n → Fin (r * k)} {img : Arr Dbl} {res : LBResult Dbl}, s.WF →
      MexGood prhs ⟨r, k, ⟨n, fvec c⟩, ⟨n, fun i => .fin (((jx i : ℕ) + 1 : Int) : ℝ)⟩, opts⟩ →
      l1qc_dct_mex lib junk 2 prhs s = some (.ret img (some res), s') → res.status = 0 →
      ∃ o s1, l1qc_dct lib r k ⟨r * k, fun i => junk i⟩ n ⟨n, fvec c⟩ (List.ofFn fun i => ((jx i : ℕ) : Int)) DCT1 opts (mexCallState s) = some (o, s1) ∧
        o.status = 0 ∧ img = o.x_out ∧ res = mexRes o := by
    intro prhs s s' junk c jx img res hs hg h1 h3
    rcases C55_matlab_partial hs h1 with ⟨id, a1, -⟩ | ⟨c0, idx, o, s1, a1, a2, a3, -, a5, a6, -⟩
    · cases a1
    · have := ((C55_arguments (nlhs := 2) (by norm_num)).2 a1).symm.trans ((C55_arguments (nlhs := 2) (by norm_num)).2 hg)
      cases this
      rw [if_pos rfl] at a6
      cases a6
      dsimp only at a2 a5
      obtain ⟨jx', rfl, hj⟩ := oneBased_fin a2
      obtain rfl : jx' = jx := funext fun i => Fin.ext (by have := hj i; omega)
      have hnat : ((r : Int) * k).toNat = r * k := by rw [← Int.natCast_mul]; rfl
      rw [hnat] at a5
      refine ⟨o, s1, a5, ?_, rfl, rfl⟩
      by_contra hc
      unfold mexRes at h3
      rw [if_pos hc] at h3
      exact hc h3
  obtain ⟨o, s1, a1, a2, rfl, rfl⟩ := inv hs hg h1 h3
  obtain ⟨o', q1, b1, b2, rfl, rfl⟩ := inv hq hg' h2 h4
  have hS' : Session lib l (mexCallState s).cb := hS
  have hQ' : Session lib l' (mexCallState q).cb := hQ
  obtain ⟨c1, x, c2, c3⟩ := C85_library hlib hS' hQ' (mexCallState_wf hs) (mexCallState_wf hq) (fun _ => rfl) hsg hinj f hb0 he heps hmu hmu0 hc1 a1 b1 a2 b2
  refine ⟨?_, x, c2, c3⟩
  unfold mexRes
  rw [a2, b2, c1]

/-! ## Concrete calls: samples 60 and 80 of the first and last of three pixels, and -80 and -60 -/

/-- both problems have the same data norm -/
theorem turn_data {idx : List Int} (hi : idx = [0, 2]) (two : Bool) :
    ∃ X, 100 ≤ X ∧ X ≤ 174 ∧ DataNorm refLib 3 1 2 idx two ![60, 80] X ∧ DataNorm refLib 3 1 2 idx two ![-80, -60] X := by
  obtain ⟨X, h1, h2, h3⟩ := sharpEx_data hi two
  have h4 := dataNorm_sym refLib_ok (v := true) (h := true) (r := 3) (k := 1) (ix := ![0, 2]) (two := two) (fun _ => rfl) (Or.inr rfl) (by decide) (Equiv.swap 0 1)
    (b := ![60, 80]) (X := X) (by subst hi; exact h3)
  have e1 : (List.ofFn fun i => ((mirror true true ((![0, 2] : Fin 2 → Fin (3 * 1)) (Equiv.swap 0 1 i)) : ℕ) : Int)) = [0, 2] := by decide
  have e2 : (fun i => -1 * (![60, 80] : Fin 2 → ℝ) (Equiv.swap 0 1 i)) = ![-80, -60] := by funext i; fin_cases i <;> norm_num
  rw [e1, e2, ← hi] at h4
  exact ⟨X, h1, h2, h3, h4⟩

/-- `l1qc_dct(3, 1, [-80, -60], [0, 2], …)`, options as in `sharpArgs` -/
noncomputable def flipArgs : List (PyVal Dbl) :=
  [⟨some (.inl 3), none, none⟩, ⟨some (.inl 1), none, none⟩, ⟨none, some ⟨1, 2, fvec ![-80, -60]⟩, none⟩, ⟨none, none, some ⟨1, 2, ![0, 2]⟩⟩,
   ⟨some (.inr (.fin 1)), none, none⟩, ⟨some (.inr (.fin 7)), none, none⟩, ⟨some (.inr (.fin 1)), none, none⟩]

theorem flip_good : PyL1qcGood flipArgs sharpKw ⟨3, 1, some ⟨1, 2, fvec ![-80, -60]⟩, some ⟨1, 2, ![0, 2]⟩, sharpEx (lit 0), DCT1⟩ := by
  refine ⟨⟨by decide, by decide, ?_⟩, ⟨_, _, _, _, _, rfl, rfl, by decide, rfl, by decide, rfl, rfl⟩, Or.inl ⟨_, Or.inl rfl, Or.inl rfl⟩, Or.inl ⟨_, Or.inl rfl, Or.inl rfl⟩,
    Or.inl ⟨_, Or.inl rfl, Or.inl rfl⟩, Or.inl ⟨⟨some (.inr (.fin (1 / 224))), none, none⟩, Or.inr ⟨by decide, by simp [sharpKw]⟩, Or.inl rfl⟩,
    Or.inl ⟨⟨some (.inl 6000001), none, none⟩, Or.inr ⟨by decide, by simp [sharpKw]⟩, rfl, by decide⟩,
    ⟨0, Or.inr ⟨?_, rfl⟩⟩, Or.inl ⟨⟨some (.inr (.fin 0)), none, none⟩, Or.inr ⟨by decide, by simp [sharpKw]⟩, Or.inl rfl⟩,
    Or.inl ⟨⟨some (.inr (.fin 0)), none, none⟩, Or.inr ⟨by decide, by simp [sharpKw]⟩, Or.inl rfl⟩,
    Or.inl ⟨⟨some (.inl 3), none, none⟩, Or.inr ⟨by decide, by simp [sharpKw]⟩, rfl, by decide⟩, Or.inr ⟨?_, rfl⟩, rfl, rfl, rfl⟩
  · intro p hp
    simp only [sharpKw, List.mem_cons, List.not_mem_nil, or_false] at hp
    rcases hp with rfl | rfl | rfl | rfl | rfl
    · exact ⟨3, rfl, by decide⟩
    · exact ⟨4, rfl, by decide⟩
    · exact ⟨6, rfl, by decide⟩
    · exact ⟨7, rfl, by decide⟩
    · exact ⟨8, rfl, by decide⟩
  · rintro v (h | ⟨-, h⟩)
    · cases h
    · simp [sharpKw] at h
  · rintro v (h | ⟨-, h⟩)
    · cases h
    · simp [sharpKw] at h

theorem flip_pos1 : (![0, 2] : Fin 2 → Int) = fun i => (((![0, 2] : Fin 2 → Fin (3 * 1)) i : ℕ) : Int) := by funext i; fin_cases i <;> rfl

theorem flip_pos2 : (![0, 2] : Fin 2 → Int) = fun i => ((mirror true true ((![0, 2] : Fin 2 → Fin (3 * 1)) (Equiv.swap 0 1 i)) : ℕ) : Int) := by
  funext i; fin_cases i <;> rfl

theorem flip_b : (![-80, -60] : Fin 2 → ℝ) = fun i => -1 * ![60, 80] (Equiv.swap (0 : Fin 2) 1 i) := by funext i; fin_cases i <;> norm_num

theorem flip_img (x : Fin (3 * 1) → ℝ) : (fun t : Fin (3 * 1) => -x t.rev) = fun t => -1 * x (mirror true true t) := funext fun t => by rw [mirror_rot]; ring

/-- `C85_python` applies: the second image is `-x` upside down, with the same record -/
example : ∃ (x : Fin (3 * 1) → ℝ) (t1 o1 d1 t2 o2 d2 : ℕ) (res : LBResult Dbl) (s' q' : NState (PyState Dbl)),
    py_l1qc_call refLib sharpArgs sharpKw exPy = some (.ret t1 o1 d1 (3 : ℕ) (1 : ℕ) ⟨3 * 1, fvec x⟩ res, s') ∧
    py_l1qc_call refLib flipArgs sharpKw exPy = some (.ret t2 o2 d2 (3 : ℕ) (1 : ℕ) ⟨3 * 1, fvec fun t => -x t.rev⟩ res, q') := by
  obtain ⟨X, h1, h2, h3, h4⟩ := turn_data (idx := List.ofFn ![0, 2]) rfl (twoDim (3 : ℕ) (1 : ℕ) DCT1)
  have hs : exPy.WF := fun a h => by cases h
  obtain ⟨t1, o1, d1, img, res, s', r1, -⟩ := C78_python_returns (lib := refLib) (s := exPy) (n := 2) (mrow := 3) (mcol := 1) (idx := ![0, 2]) refLib_ok exPy_wf hs
    exWorld_hist (by simp [sharpKw]) sharp_good rfl rfl rfl rfl (Or.inl rfl) (by decide) (by decide) (by decide)
    (fun h => by simpa using congrFun h 0) (not_busy_empty _) (sharpEx_ok (lit 0) h1 h2) h3 (fun _ _ => rfl) (fun _ _ => rfl) (fun _ _ => rfl)
  obtain ⟨t2, o2, d2, img', res', q', r2, -⟩ := C78_python_returns (lib := refLib) (s := exPy) (n := 2) (mrow := 3) (mcol := 1) (idx := ![0, 2]) refLib_ok exPy_wf hs
    exWorld_hist (by simp [sharpKw]) flip_good rfl rfl rfl rfl (Or.inl rfl) (by decide) (by decide) (by decide)
    (fun h => by simpa using congrFun h 0) (not_busy_empty _) (sharpEx_ok (lit 0) h1 h2) h4 (fun _ _ => rfl) (fun _ _ => rfl) (fun _ _ => rfl)
  have g1 := sharp_good
  have g2 := flip_good
  rw [flip_pos1] at g1
  rw [flip_pos2, flip_b] at g2
  obtain ⟨-, -, -, -, rfl, x, rfl, rfl⟩ := C85_python (r := 3) (k := 1) refLib_ok (Session.start _ _) (Session.start _ _) hs hs exPy_wf exPy_wf (by simp [sharpKw]) (by simp [sharpKw]) g1
    (Equiv.swap 0 1) g2 (fun _ => rfl) (Or.inr rfl) (by decide) (by decide) (fun h => by simpa using congrFun h 0) rfl one_pos rfl (by norm_num) (by decide) r1 r2
  refine ⟨x, t1, o1, d1, t2, o2, d2, _, s', q', r1, ?_⟩
  rw [flip_img]
  exact r2

/-- the second problem from Matlab -/
noncomputable def flipPrhs : List (MxVal Dbl) := [.arr (mxNum 3), .arr (mxNum 1), mxPair (-80) (-60), mxPair 1 3, .struct 1 1 sharpField]

theorem flip_mex_good : MexGood flipPrhs ⟨3, 1, ⟨2, fvec ![-80, -60]⟩, ⟨2, fvec ![1, 3]⟩, sharpEx (.fin 0)⟩ := by
  have c : ∀ (k : ℕ) {x : ℝ}, x = (k : ℝ) → (k : Int) ≤ INT_MAX → castInt (Dbl.fin x) = some (k : Int) := fun k x hx hk => by rw [hx]; exact castInt_nat hk
  refine ⟨⟨_, _, _, _, sharpField, _, .fin 3, .fin 1, rfl, ⟨_, rfl⟩, c 3 (by norm_num) (by decide), ⟨_, rfl⟩, c 1 (by norm_num) (by decide),
    ⟨_, _, _, _, rfl, rfl, by decide, by decide, by decide⟩, ⟨_, _, _, _, rfl, rfl, by decide, by decide, by decide⟩, ?_⟩, by decide, by decide, rfl, by decide⟩
  exact ⟨.fin 0, .fin 0, .fin 6000001, .fin 3, .fin 0, 0, ⟨_, rfl⟩, ⟨_, rfl⟩, ⟨_, rfl⟩, ⟨_, rfl⟩, ⟨_, rfl⟩, ⟨_, rfl⟩, ⟨_, rfl⟩, ⟨_, rfl⟩, c 0 (by norm_num) (by decide), ⟨_, rfl⟩,
    c 0 (by norm_num) (by decide), ⟨_, rfl⟩, c 6000001 (by norm_num) (by decide), ⟨_, rfl⟩, c 3 (by norm_num) (by decide), ⟨_, rfl⟩, c 0 (by norm_num) (by decide)⟩

/-- `C85_matlab` applies -/
example (junk junk' : ℕ → Dbl) : ∃ (x : Fin (3 * 1) → ℝ) (res : LBResult Dbl) (s' q' : NState (World Dbl)),
    l1qc_dct_mex refLib junk 2 sharpPrhs exWorld = some (.ret ⟨3 * 1, fvec x⟩ (some res), s') ∧
    l1qc_dct_mex refLib junk' 2 flipPrhs exWorld = some (.ret ⟨3 * 1, fvec fun t => -x t.rev⟩ (some res), q') := by
  obtain ⟨X, h1, h2, h3, h4⟩ := turn_data (idx := [1, 3].map fun k : Int => k - 1) rfl (twoDim (3 : ℕ) (1 : ℕ) DCT1)
  have hs : exWorld.WF := fun a h => by cases h
  obtain ⟨img, res, s', r1, -, z1, -⟩ := C78_matlab_returns (lib := refLib) (junk := junk) (s := exWorld) (n := 2) (mrow := 3) (mcol := 1) (ks := [1, 3]) refLib_ok hs
    exWorld_hist sharp_mex_good rfl rfl rfl (by simp [fvec]) (by decide) (by decide)
    (fun h => by simpa using congrFun h 0) (not_busy_empty _) (sharpEx_ok (.fin 0) h1 h2) h3 (fun _ _ => rfl) (fun _ _ => rfl)
  obtain ⟨img', res', q', r2, -, z2, -⟩ := C78_matlab_returns (lib := refLib) (junk := junk') (s := exWorld) (n := 2) (mrow := 3) (mcol := 1) (ks := [1, 3]) refLib_ok hs
    exWorld_hist flip_mex_good rfl rfl rfl (by simp [fvec]) (by decide) (by decide)
    (fun h => by simpa using congrFun h 0) (not_busy_empty _) (sharpEx_ok (.fin 0) h1 h2) h4 (fun _ _ => rfl) (fun _ _ => rfl)
  have g1 := sharp_mex_good
  have g2 := flip_mex_good
  have e1 : (fvec ![1, 3] : Vec Dbl 2) = fun i => .fin ((((![0, 2] : Fin 2 → Fin (3 * 1)) i : ℕ) + 1 : Int) : ℝ) := by
    funext i
    rw [fvec_apply]
    congr 1
    fin_cases i <;> norm_num
  have e2 : (fvec ![1, 3] : Vec Dbl 2) = fun i => .fin (((mirror true true ((![0, 2] : Fin 2 → Fin (3 * 1)) (Equiv.swap 0 1 i)) : ℕ) + 1 : Int) : ℝ) := by
    rw [e1]
    funext i
    congr 4
    have := congrFun (flip_pos1.symm.trans flip_pos2) i
    exact_mod_cast this
  rw [e1] at g1
  rw [e2, flip_b] at g2
  obtain ⟨rfl, x, rfl, rfl⟩ := C85_matlab (r := 3) (k := 1) refLib_ok (Session.start _ _) (Session.start _ _) hs hs g1
    (Equiv.swap 0 1) g2 (Or.inr rfl) (by decide) (fun h => by simpa using congrFun h 0) rfl one_pos rfl (by norm_num) (by decide) r1 r2 z1 z2
  refine ⟨x, _, s', q', r1, ?_⟩
  rw [flip_img]
  exact r2

end L1c
