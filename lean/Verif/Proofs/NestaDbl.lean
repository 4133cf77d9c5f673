import Verif.Model.Nesta
import Verif.Proofs.NestaReal
import Verif.Proofs.DctTVK
import Mathlib.LinearAlgebra.Matrix.ToLin
import Mathlib.LinearAlgebra.Dimension.Finrank

/-! # NESTA on finite data -/

namespace L1c
open Scalar Matrix

variable {n m p : ℕ} {σ : Type}

/-! ## Running the monad -/

theorem nbind {σ α β : Type} {x : NM σ α} {f : α → NM σ β} {s s' : NState σ} {a : α} (h : x s = some (a, s')) :
    (x >>= f) s = f a s' := by
  show (x s).bind _ = _
  rw [h]; rfl

theorem nlift_some {σ α : Type} {o : Option α} {a : α} (h : o = some a) (s : NState σ) :
    (nlift o : NM σ α) s = some (a, s) := by rw [nlift, h]; rfl

theorem npure {σ α : Type} (a : α) (s : NState σ) : (pure a : NM σ α) s = some (a, s) := rfl

/-- writing a prefix of an array -/
theorem writeAt_val {F : Type} {k l : ℕ} (hk : k ≤ l) (x : Vec F k) (v : Vec F l) :
    ∃ w, writeAt 0 x v = some w ∧ ∀ j : Fin l, w j = if h : j.val < k then x ⟨j.val, h⟩ else v j := by
  obtain ⟨w, hw⟩ := writeAt_some 0 (by omega) x v
  refine ⟨w, hw, fun j => ?_⟩
  rw [writeAt_eq 0 (by omega)] at hw
  obtain rfl := Option.some.inj hw
  simp

/-- writing back what was read -/
theorem write_back {F : Type} {k l : ℕ} {x : Vec F k} {v : Vec F l} (h : slice k 0 v = some x) : writeAt 0 x v = some v := by
  have hk : 0 + k ≤ l := by
    by_contra hc
    rw [slice, dif_neg hc] at h; cases h
  rw [slice_eq 0 hk] at h
  cases h
  rw [writeAt_eq 0 hk]
  congr 1
  funext j
  split
  · congr 1
    exact Fin.ext (by simp)
  · rfl

/-- reading back a written prefix -/
theorem write_read {F : Type} {k l : ℕ} (h : k ≤ l) (x : Vec F k) (v : Vec F l) :
    ∃ w, writeAt 0 x v = some w ∧ slice k 0 w = some x ∧ ∀ D : F → Prop, (∀ i, D (x i)) → (∀ i, D (v i)) → ∀ i, D (w i) := by
  obtain ⟨w, hw, hv⟩ := writeAt_val h x v
  refine ⟨w, hw, slice_writeAt hw, fun D hx hd i => ?_⟩
  rw [hv]
  split
  · exact hx _
  · exact hd _

/-! ## Operators that compute real matrices -/

/-- `f` computes the matrix `M` on finite vectors, whatever the output array held before (as long as every entry
satisfied `D`) and as long as its private state satisfies `Inv`; it leaves the argument as it was and keeps `Inv` -/
def OpIs {k l : ℕ} (f : Option (NOp Dbl σ l k)) (Inv : σ → Prop) (D : Dbl → Prop) (M : Matrix (Fin k) (Fin l) ℝ) : Prop :=
  ∃ g, f = some g ∧ ∀ x old s, (∀ i, D (old i)) → Inv s → ∃ s', g (fvec x) old s = some ((fvec x, fvec (M *ᵥ x)), s') ∧ Inv s'

theorem OpIs.call {k l : ℕ} {f : Option (NOp Dbl σ l k)} {Inv : σ → Prop} {D : Dbl → Prop} {M : Matrix (Fin k) (Fin l) ℝ}
    (h : OpIs f Inv D M) (x : Fin l → ℝ) (old : Vec Dbl k) (hd : ∀ i, D (old i)) (s : NState σ) (hs : Inv s.cb) :
    ∃ c', ncall f (fvec x) old s = some ((fvec x, fvec (M *ᵥ x)), { s with cb := c' }) ∧ Inv c' := by
  obtain ⟨g, rfl, hg⟩ := h
  obtain ⟨c', h1, h2⟩ := hg x old s.cb hd hs
  exact ⟨c', by simp only [ncall, h1, Option.map_some], h2⟩

/-- the transform set computes `A`, `Aᵀ`, `W`, `Wᵀ`; `Aty` may depend on an output array whose entries do not satisfy
`D`, which finite numbers do and which does not depend on the sign -/
structure Realises (ax : NAx Dbl σ n m p) (Inv : σ → Prop) (D : Dbl → Prop) (A : Matrix (Fin n) (Fin m) ℝ)
    (W : Matrix (Fin m) (Fin p) ℝ) : Prop where
  Ax : OpIs ax.Ax Inv (fun _ => True) A
  Aty : OpIs ax.Aty Inv D Aᵀ
  Wz : OpIs ax.Wz Inv (fun _ => True) W
  Wtx : OpIs ax.Wtx Inv (fun _ => True) Wᵀ
  fin : ∀ r, D (Dbl.fin r)
  abs : ∀ x, D x → D (fabs x)
  hasRx : ax.hasRx = true
  hasRty : ax.hasRty = true

theorem rows_le {A : Matrix (Fin n) (Fin m) ℝ} (hA : A * Aᵀ = 1) : n ≤ m := by
  have hinj : Function.Injective (Matrix.mulVecLin Aᵀ) := by
    intro x y h
    have h' : Aᵀ *ᵥ x = Aᵀ *ᵥ y := h
    rw [← mul_transpose_mulVec hA x, ← mul_transpose_mulVec hA y, h']
  have := LinearMap.finrank_le_finrank_of_injective hinj
  simpa using this

theorem vnrm2err_fvec {k : ℕ} (x y : Fin k → ℝ) : vnrm2err (fvec x) (fvec y) = Dbl.fin (nrm (x - y)) := by
  unfold vnrm2err
  rw [show (fun i => fvec x i - fvec y i) = fvec (x - y) from by funext i; simp]
  exact dnrm2_fvec _

variable {A : Matrix (Fin n) (Fin m) ℝ} {W : Matrix (Fin m) (Fin p) ℝ} {Inv : σ → Prop} {D : Dbl → Prop} {ax : NAx Dbl σ n m p}

/-- the projection step on finite data -/
theorem project_fin (R : Realises ax Inv D A W) (hn : n ≤ max m p) {P : NestaProb Dbl n m p} {b : Fin n → ℝ}
    {sigma mu L : ℝ} (hb : P.b = fvec b) (hAtb : P.Atb = fvec (Aᵀ *ᵥ b)) (hsig : P.sigma = Dbl.fin sigma)
    (hmu : P.mu_j = Dbl.fin mu) (hL : P.L = Dbl.fin L) (hs : 0 < sigma) (hm : 0 < mu) (hL0 : 0 < L)
    (hd : ∀ i, D (P.dwork1 i)) (xx g : Fin m → ℝ) (s : NState σ) (hI : Inv s.cb) :
    ∃ d1 d2 c', l1c_nesta_project ax P (fvec xx) (fvec g) s =
      some ((fvec (projR A b sigma (L / mu) xx g), { P with dwork1 := d1, dwork2 := d2 }), { s with cb := c' }) ∧ Inv c' ∧
      ∀ i, D (d1 i) := by
  have hc : 0 < L / mu := div_pos hL0 hm
  set c := L / mu with hcdef
  have hLmu : P.L / P.mu_j = Dbl.fin c := by rw [hL, hmu, Dbl.fin_div hm.ne']
  set q := xx - (1 / c) • g with hq
  have hvk : vaxpy (lit (-1) / Dbl.fin c) (fvec g) (fvec xx) = fvec q := by
    rw [Dbl.lit_eq, Dbl.fin_div hc.ne', vaxpy_fvec]
    congr 1
    rw [hq]; push_cast; module
  obtain ⟨c1, hcall1, hI1⟩ := R.Ax.call q (fun i => P.dwork2 ⟨0 + i.val, by omega⟩) (fun _ => trivial) s hI
  obtain ⟨d2, hw2, hr2, -⟩ := write_read hn (fvec (A *ᵥ q)) P.dwork2
  obtain ⟨c2, hcall2, hI2⟩ := R.Aty.call (A *ᵥ q) (fun i => P.dwork1 ⟨0 + i.val, by omega⟩) (fun _ => hd _) { s with cb := c1 } hI1
  obtain ⟨d1, hw1, hr1, hd1⟩ := write_read (le_max_left m p) (fvec (Aᵀ *ᵥ (A *ᵥ q))) P.dwork1
  refine ⟨d1, d2, c2, ?_, hI2, hd1 D (fun _ => R.fin _) hd⟩
  unfold l1c_nesta_project
  simp only [hLmu, hvk]
  rw [nbind (nlift_some (slice_eq 0 (by omega) P.dwork2) s), nbind hcall1, nbind (nlift_some hw2 _), nbind (nlift_some hr2 _),
    nbind (nlift_some (slice_eq 0 (by omega) P.dwork1) _), nbind hcall2,
    nbind (nlift_some (write_back hr2) _), nbind (nlift_some hw1 _), nbind (nlift_some hr1 _), npure]
  have hlam : cmax (lit 0) (Dbl.fin c * (vnrm2err P.b (fvec (A *ᵥ q)) / P.sigma - lit 1)) = Dbl.fin (projLam A b sigma c q) := by
    rw [hb, hsig, vnrm2err_fvec, Dbl.fin_div hs.ne', Dbl.lit_eq, Dbl.lit_eq, Dbl.fin_sub, Dbl.fin_mul, cmax_fin' ]
    simp [projLam]
  have hlam0 : 0 ≤ projLam A b sigma c q := le_max_left _ _
  have hcl : c + projLam A b sigma c q ≠ 0 := by linarith
  simp only [hlam]
  simp only [Dbl.fin_add, Dbl.fin_div hcl, Dbl.fin_div hc.ne', Dbl.lit_eq, Dbl.fin_sub, Dbl.fin_mul, Dbl.fin_neg, hAtb,
    vaxpy_fvec]
  congr 4
  have e : projLam A b sigma c q / c * ((1 : ℚ) - projLam A b sigma c q / (c + projLam A b sigma c q)) = projA1 A b sigma c q := by
    rw [projA1]; push_cast; field_simp; ring
  rw [e]
  show -(projA1 A b sigma c q) • _ + _ = q + projA1 A b sigma c q • (Aᵀ *ᵥ (b - A *ᵥ q))
  rw [mulVec_sub Aᵀ b]; module
where
  cmax_fin' {a b : ℝ} : cmax (Dbl.fin a) (Dbl.fin b) = Dbl.fin (max a b) := Dbl.cmax_fin a b

/-- objective and gradient on finite data -/
theorem feval_fin (R : Realises ax Inv D A W) {P : NestaProb Dbl n m p} {mu : ℝ} (hmu : P.mu_j = Dbl.fin mu) (hm : 0 < mu)
    {x : Fin m → ℝ} (hx : P.xk = fvec x) (s : NState σ) (hI : Inv s.cb) :
    ∃ d1 d2 c', l1c_nesta_feval ax P s =
      some ({ P with dwork1 := d1, dwork2 := d2, fx := Dbl.fin (smF mu (Wᵀ *ᵥ x)), gradf := fvec (gradR mu W x) },
        { s with cb := c' }) ∧ Inv c' ∧ ((∀ i, D (P.dwork1 i)) → ∀ i, D (d1 i)) := by
  obtain ⟨c1, hcall1, hI1⟩ := R.Wtx.call x (fun i => P.dwork1 ⟨0 + i.val, by omega⟩) (fun _ => trivial) s hI
  obtain ⟨d1, hw1, hr1, hd1⟩ := write_read (le_max_right m p) (fvec (Wᵀ *ᵥ x)) P.dwork1
  have hu : (fun i => fvec (Wᵀ *ᵥ x) i / cmax P.mu_j (fabs (fvec (Wᵀ *ᵥ x) i))) = fvec (smUv mu (Wᵀ *ᵥ x)) := by
    funext i
    rw [hmu, fvec_apply, Dbl.fabs_fin, Dbl.cmax_fin, Dbl.fin_div (lt_max_of_lt_left hm).ne']
    rfl
  obtain ⟨d2, hw2, hr2, -⟩ := write_read (le_max_right m p) (fvec (smUv mu (Wᵀ *ᵥ x))) P.dwork2
  obtain ⟨c2, hcall2, hI2⟩ := R.Wz.call (smUv mu (Wᵀ *ᵥ x)) P.gradf (fun _ => trivial) { s with cb := c1 } hI1
  refine ⟨d1, d2, c2, ?_, hI2, hd1 D (fun _ => R.fin _)⟩
  unfold l1c_nesta_feval
  rw [hx]
  rw [nbind (nlift_some (slice_eq 0 (by omega) P.dwork1) s), nbind hcall1]
  dsimp only
  rw [nbind (nlift_some hw1 _), nbind (nlift_some hr1 _),
    hu, nbind (nlift_some hw2 _), nbind (nlift_some hr2 _), nbind hcall2]
  dsimp only
  rw [nbind (nlift_some (write_back hr2) _), npure]
  rw [← hx]
  congr 3
  rw [dnrm2_fvec, ddot_fvec, hmu, Dbl.lit_eq, Dbl.fin_mul, Dbl.fin_mul, Dbl.fin_mul, Dbl.fin_sub, nrm_sq, smF_eq]
  congr 2; push_cast; ring

/-! ## One inner iteration -/

/-- the fields of the problem that stay fixed during a continuation step, on finite data -/
structure NFix (A : Matrix (Fin n) (Fin m) ℝ) (D : Dbl → Prop) (P : NestaProb Dbl n m p) (b : Fin n → ℝ) (sigma mu L : ℝ) : Prop where
  hb : P.b = fvec b
  hAtb : P.Atb = fvec (Aᵀ *ᵥ b)
  hsigma : P.sigma = Dbl.fin sigma
  hmu : P.mu_j = Dbl.fin mu
  hL : P.L = Dbl.fin L
  hd : ∀ i, D (P.dwork1 i)

/-- the textbook iteration -/
noncomputable def bodyR (A : Matrix (Fin n) (Fin m) ℝ) (W : Matrix (Fin m) (Fin p) ℝ) (b : Fin n → ℝ) (sigma mu L : ℝ)
    (xo : Fin m → ℝ) (k : ℕ) (x gs : Fin m → ℝ) : (Fin m → ℝ) × (Fin m → ℝ) × (Fin m → ℝ) × (Fin m → ℝ) :=
  let y := projR A b sigma (L / mu) x (gradR mu W x)
  let gs' := ((k + 1 : ℝ) / 2) • gradR mu W x + gs
  let z := projR A b sigma (L / mu) xo gs'
  ((2 / (k + 3 : ℝ)) • z + (1 - 2 / (k + 3 : ℝ)) • y, gs', y, z)

/-- one inner iteration on finite data -/
theorem body_fin (R : Realises ax Inv D A W) (hn : n ≤ max m p) {st : NLoop Dbl n m p} {b : Fin n → ℝ} {sigma mu L : ℝ}
    (hF : NFix A D st.P b sigma mu L) (hs : 0 < sigma) (hm : 0 < mu) (hL0 : 0 < L) {xo x gs : Fin m → ℝ}
    (hxo : st.P.xo = fvec xo) (hx : st.P.xk = fvec x) (hgs : st.P.gradf_sum = fvec gs) (k : ℕ) (s : NState σ) (hI : Inv s.cb) :
    ∃ P' c', nestaBody ax k st s = some ((⟨P', fifoPush st.fifo (Dbl.fin (smF mu (Wᵀ *ᵥ x)))⟩,
        flt (fabs (Dbl.fin (smF mu (Wᵀ *ᵥ x)) - fifoMean st.fifo) / fifoMean st.fifo) st.P.tol_j), { s with cb := c' }) ∧
      Inv c' ∧ NFix A D P' b sigma mu L ∧ P'.xo = fvec xo ∧ P'.fx = Dbl.fin (smF mu (Wᵀ *ᵥ x)) ∧
      P'.xk = fvec (bodyR A W b sigma mu L xo k x gs).1 ∧ P'.gradf_sum = fvec (bodyR A W b sigma mu L xo k x gs).2.1 ∧
      P'.yk = fvec (bodyR A W b sigma mu L xo k x gs).2.2.1 ∧ P'.zk = fvec (bodyR A W b sigma mu L xo k x gs).2.2.2 ∧
      P'.tol_j = st.P.tol_j ∧ P'.mu = st.P.mu ∧ P'.tol = st.P.tol := by
  obtain ⟨d1, d2, c1, h1, hI1, hd1⟩ := feval_fin R hF.hmu hm hx s hI
  obtain ⟨e1, e2, c2, h2, hI2, hd2⟩ := project_fin R hn
    (P := { st.P with dwork1 := d1, dwork2 := d2, fx := Dbl.fin (smF mu (Wᵀ *ᵥ x)), gradf := fvec (gradR mu W x) })
    hF.hb hF.hAtb hF.hsigma hF.hmu hF.hL hs hm hL0 (hd1 hF.hd) x (gradR mu W x) { s with cb := c1 } hI1
  have hgs' : vaxpy (lit (1 / 2) * lit (k + 1)) (fvec (gradR mu W x)) st.P.gradf_sum =
      fvec (((k + 1 : ℝ) / 2) • gradR mu W x + gs) := by
    rw [hgs, Dbl.lit_eq, Dbl.lit_eq, Dbl.fin_mul, vaxpy_fvec]
    congr 3; push_cast; ring
  obtain ⟨f1, f2, c3, h3, hI3, hd3⟩ := project_fin R hn
    (P := { st.P with dwork1 := e1, dwork2 := e2, fx := Dbl.fin (smF mu (Wᵀ *ᵥ x)), gradf := fvec (gradR mu W x), yk := fvec (projR A b sigma (L / mu) x (gradR mu W x)), gradf_sum := fvec (((k + 1 : ℝ) / 2) • gradR mu W x + gs) })
    hF.hb hF.hAtb hF.hsigma hF.hmu hF.hL hs hm hL0 hd2 xo (((k + 1 : ℝ) / 2) • gradR mu W x + gs) { s with cb := c2 } hI2
  have htau : (lit 2 / lit (k + 3) : Dbl) = Dbl.fin (2 / (k + 3 : ℝ)) := by
    have : (k + 3 : ℝ) ≠ 0 := by positivity
    rw [Dbl.lit_eq, Dbl.lit_eq]; push_cast; rw [Dbl.fin_div this]
  dsimp only at h1 h2 h3
  rw [hx] at h2 h3
  rw [hxo] at h3
  refine ⟨{ st.P with dwork1 := f1, dwork2 := f2, fx := Dbl.fin (smF mu (Wᵀ *ᵥ x)), gradf := fvec (gradR mu W x), yk := fvec (projR A b sigma (L / mu) x (gradR mu W x)), gradf_sum := fvec (((k + 1 : ℝ) / 2) • gradR mu W x + gs), zk := fvec (projR A b sigma (L / mu) xo (((k + 1 : ℝ) / 2) • gradR mu W x + gs)), xk := fvec (bodyR A W b sigma mu L xo k x gs).1 }, c3, ?_, hI3,
    ⟨hF.hb, hF.hAtb, hF.hsigma, hF.hmu, hF.hL, hd3⟩, hxo, rfl, rfl, rfl, rfl, rfl, rfl, rfl, rfl⟩
  unfold nestaBody
  rw [nbind h1]
  dsimp only
  rw [hx, nbind h2]
  dsimp only
  rw [hgs', hxo, nbind h3]
  dsimp only
  rw [npure, htau, Dbl.lit_eq, Dbl.fin_sub, vaxpby_fvec]
  simp [bodyR]

end L1c
