import Verif.Proofs.NestaSyn
import Verif.Props.NestaEnd
import Verif.Spec.Nan

/-!
# NESTA on numbers that are not finite

What happens in synthesis mode when the work array of the transforms holds NaN.
-/

namespace L1c
open Scalar Matrix
variable {σ : Type} {n m p : ℕ}

/-! ## Entries that are not finite stay so -/

/-- the operator leaves its argument as it was, in states that it keeps -/
def OpStill {l k : ℕ} (Inv : σ → Prop) (f : Option (NOp Dbl σ l k)) : Prop :=
  ∀ g, f = some g → ∀ x old c a o c', Inv c → g x old c = some ((a, o), c') → a = x ∧ Inv c'

/-- all operators of NESTA do -/
structure NAx.Still (ax : NAx Dbl σ n m p) (Inv : σ → Prop) : Prop where
  Ax : OpStill Inv ax.Ax
  Aty : OpStill Inv ax.Aty
  Wz : OpStill Inv ax.Wz
  Wtx : OpStill Inv ax.Wtx

theorem OpStill.call {Inv : σ → Prop} {l k : ℕ} {f : Option (NOp Dbl σ l k)} (h : OpStill Inv f) {x a : Vec Dbl l} {old o : Vec Dbl k} {s s' : NState σ} (hI : Inv s.cb)
    (hc : ncall f x old s = some ((a, o), s')) : a = x ∧ Inv s'.cb := by
  cases f with
  | none => cases hc
  | some g =>
    obtain ⟨⟨r, c⟩, e, hc⟩ := Option.map_eq_some_iff.1 hc
    cases hc
    exact h g rfl _ _ _ _ _ _ hI e

theorem nlift_inv {α : Type} {o : Option α} {a : α} {s s' : NState σ} (h : (nlift o : NM σ α) s = some (a, s')) : o = some a ∧ s' = s := by
  obtain ⟨b, e, h⟩ := Option.map_eq_some_iff.1 h
  cases h
  exact ⟨e, rfl⟩

variable {Inv : σ → Prop}

theorem project_stuck {ax : NAx Dbl σ n m p} (K : ax.Still Inv) {P P' : NestaProb Dbl n m p} {xx g v : Vec Dbl m} {s s' : NState σ} {i : Fin m}
    (hI : Inv s.cb) (hb : ¬ (xx i).IsFin)
    (h : l1c_nesta_project ax P xx g s = some ((v, P'), s')) : ¬ (v i).IsFin ∧ P'.xk = P.xk ∧ P'.xo = P.xo ∧ Inv s'.cb := by
  unfold l1c_nesta_project at h
  dsimp only at h
  obtain ⟨a1, s1, h1, k1⟩ := nbind_some h
  obtain ⟨-, rfl⟩ := nlift_inv h1
  obtain ⟨⟨vk, a2⟩, s2, h2, k2⟩ := nbind_some k1
  obtain ⟨rfl, hI2⟩ := K.Ax.call hI h2
  obtain ⟨a3, s3, h3, k3⟩ := nbind_some k2
  obtain ⟨-, rfl⟩ := nlift_inv h3
  obtain ⟨a4, s4, h4, k4⟩ := nbind_some k3
  obtain ⟨-, rfl⟩ := nlift_inv h4
  obtain ⟨a5, s5, h5, k5⟩ := nbind_some k4
  obtain ⟨-, rfl⟩ := nlift_inv h5
  obtain ⟨⟨a6, b6⟩, s6, h6, k6⟩ := nbind_some k5
  obtain ⟨-, hI6⟩ := K.Aty.call hI2 h6
  obtain ⟨a7, s7, h7, k7⟩ := nbind_some k6
  obtain ⟨-, rfl⟩ := nlift_inv h7
  obtain ⟨a8, s8, h8, k8⟩ := nbind_some k7
  obtain ⟨-, rfl⟩ := nlift_inv h8
  obtain ⟨a9, s9, h9, k9⟩ := nbind_some k8
  obtain ⟨-, rfl⟩ := nlift_inv h9
  obtain ⟨hq, rfl⟩ := npure_some k9
  obtain ⟨rfl, rfl⟩ := Prod.mk.inj hq
  exact ⟨vaxpy_nonfin (vaxpy_nonfin (vaxpy_nonfin hb)), rfl, rfl, hI6⟩

theorem feval_stuck {ax : NAx Dbl σ n m p} (K : ax.Still Inv) {P P' : NestaProb Dbl n m p} {s s' : NState σ} (hI : Inv s.cb)
    (h : l1c_nesta_feval ax P s = some (P', s')) : P'.xk = P.xk ∧ P'.xo = P.xo ∧ Inv s'.cb := by
  unfold l1c_nesta_feval at h
  obtain ⟨a1, s1, h1, k1⟩ := nbind_some h
  obtain ⟨-, rfl⟩ := nlift_inv h1
  obtain ⟨⟨a2, b2⟩, s2, h2, k2⟩ := nbind_some k1
  obtain ⟨rfl, hI2⟩ := K.Wtx.call hI h2
  obtain ⟨a3, s3, h3, k3⟩ := nbind_some k2
  obtain ⟨-, rfl⟩ := nlift_inv h3
  obtain ⟨a4, s4, h4, k4⟩ := nbind_some k3
  obtain ⟨-, rfl⟩ := nlift_inv h4
  obtain ⟨a5, s5, h5, k5⟩ := nbind_some k4
  obtain ⟨-, rfl⟩ := nlift_inv h5
  obtain ⟨a6, s6, h6, k6⟩ := nbind_some k5
  obtain ⟨-, rfl⟩ := nlift_inv h6
  obtain ⟨⟨a7, b7⟩, s7, h7, k7⟩ := nbind_some k6
  obtain ⟨-, hI7⟩ := K.Wz.call hI2 h7
  obtain ⟨a8, s8, h8, k8⟩ := nbind_some k7
  obtain ⟨-, rfl⟩ := nlift_inv h8
  obtain ⟨rfl, rfl⟩ := npure_some k8
  exact ⟨rfl, rfl, hI7⟩

/-- the `i`-th entries of the iterates are not finite -/
def Stuck (i : Fin m) (P : NestaProb Dbl n m p) : Prop := ¬ (P.xk i).IsFin ∧ ¬ (P.xo i).IsFin

theorem body_stuck {ax : NAx Dbl σ n m p} (K : ax.Still Inv) {i : Fin m} {k : ℕ} {st st' : NLoop Dbl n m p} {stop : Bool} {s s' : NState σ} (hI : Inv s.cb)
    (hb : Stuck i st.P) (h : nestaBody ax k st s = some ((st', stop), s')) : Stuck i st'.P ∧ Inv s'.cb := by
  unfold nestaBody at h
  obtain ⟨P1, s1, h1, k1⟩ := nbind_some h
  obtain ⟨⟨y, P2⟩, s2, h2, k2⟩ := nbind_some k1
  obtain ⟨⟨z, P3⟩, s3, h3, k3⟩ := nbind_some k2
  obtain ⟨e1, e2, hI1⟩ := feval_stuck K hI h1
  dsimp only at h1 h2 h3 k3
  obtain ⟨-, e3, e4, hI2⟩ := project_stuck K (i := i) hI1 (by rw [e1]; exact hb.1) h2
  obtain ⟨hz, e5, e6, hI3⟩ := project_stuck K (i := i) hI2 (by show ¬ (P2.xo i).IsFin; rw [e4, e2]; exact hb.2) h3
  obtain ⟨hq, rfl⟩ := npure_some k3
  obtain ⟨rfl, -⟩ := Prod.mk.inj hq
  refine ⟨⟨fun hc => hz (Dbl.isFin_mul (Dbl.isFin_add.1 hc).1).2, ?_⟩, hI3⟩
  show ¬ (P3.xo i).IsFin
  rw [e6]
  show ¬ (P2.xo i).IsFin
  rw [e4, e2]
  exact hb.2

theorem inner_stuck {ax : NAx Dbl σ n m p} (K : ax.Still Inv) {i : Fin m} {fuel k : ℕ} {st st' : NLoop Dbl n m p} {N : ℕ} {s s' : NState σ} (hI : Inv s.cb)
    (hb : Stuck i st.P) (h : nestaInner ax fuel k st s = some ((st', N), s')) : Stuck i st'.P ∧ Inv s'.cb := by
  induction fuel generalizing k st s with
  | zero =>
    obtain ⟨hq, rfl⟩ := npure_some h
    obtain ⟨rfl, -⟩ := Prod.mk.inj hq
    exact ⟨hb, hI⟩
  | succ fuel ih =>
    unfold nestaInner at h
    obtain ⟨⟨st1, stop⟩, s1, h1, h2⟩ := nbind_some h
    obtain ⟨hb1, hI1⟩ := body_stuck K hI hb h1
    dsimp only at h2
    split at h2
    · obtain ⟨hq, rfl⟩ := npure_some h2
      obtain ⟨rfl, -⟩ := Prod.mk.inj hq
      exact ⟨hb1, hI1⟩
    · exact ih hI1 hb1 h2

theorem outer_stuck {ax : NAx Dbl σ n m p} (K : ax.Still Inv) {i : Fin m} {bm bt : Dbl} {fuel : ℕ} {iter : Int} {total : ℕ} {P P' : NestaProb Dbl n m p} {T : ℕ}
    {s s' : NState σ} (hI : Inv s.cb) (hb : Stuck i P) (h : nestaOuter ax bm bt fuel iter total P s = some ((P', T), s')) : Stuck i P' := by
  induction fuel generalizing iter total P s with
  | zero =>
    unfold nestaOuter at h
    split at h
    · obtain ⟨h, -⟩ := Prod.mk.inj (Option.some.inj h)
      obtain ⟨rfl, -⟩ := Prod.mk.inj h
      exact hb
    · cases h
  | succ fuel ih =>
    rw [nestaOuter] at h
    obtain ⟨⟨P1, k⟩, s1, h1, h2⟩ := nbind_some h
    obtain ⟨⟨st, k'⟩, s2, h3, h4⟩ := nbind_some h1
    obtain ⟨h5, rfl⟩ := npure_some h4
    obtain ⟨rfl, rfl⟩ := Prod.mk.inj h5
    have := inner_stuck K (st := nestaReset bm bt P) (i := i) hI hb h3
    exact ih (P := { st.P with xo := st.P.xk }) this.2 ⟨this.1.1, this.1.1⟩ h2

/-- If `Aᵀ b` has an entry that is not finite, so has the result of NESTA. -/
theorem nesta_stuck {ax : NAx Dbl σ n m p} (K : ax.Still Inv) {i : Fin m} (hm : ¬ ax.Missing) (opts : NestaOpts Dbl) (xk : Vec Dbl m) (b : Vec Dbl n) (s s' : NState σ)
    (hI : Inv s.cb) (hwf : s.WF)
    (hal : ∀ i < 10, s.oracle (s.calls + i) = true) (hA : ∀ f a o w, ax.Aty = some f → f b (fun _ => lit 0) s.cb = some ((a, o), w) → ¬ (o i).IsFin)
    (out : NestaOut Dbl n m p) (hrun : l1c_nesta m n xk b ax opts s = some (out, s')) : ¬ (out.xk i).IsFin := by
  obtain ⟨s1, e1, -, -, h⟩ := nesta_after_setup xk b ax opts s hwf hal hm
  rw [h] at hrun
  obtain ⟨⟨⟨st, P, bm, bt⟩, s2⟩, h1, h2⟩ := Option.bind_eq_some_iff.1 hrun
  split at h2
  · obtain ⟨⟨⟨P', T⟩, s3⟩, h3, h4⟩ := Option.map_eq_some_iff.1 h2
    obtain ⟨rfl, -⟩ := Prod.mk.inj h4
    have key : ¬ (P.xo i).IsFin ∧ Inv s2.cb := by
      unfold l1c_nesta_setup at h1
      rw [if_neg (by simpa [NAx.Missing] using hm)] at h1
      dsimp only at h1
      obtain ⟨⟨b', At⟩, s4, g1, k1⟩ := nbind_some h1
      obtain ⟨-, hI1⟩ := K.Aty.call (by rw [e1]; exact hI) g1
      obtain ⟨a2, s5, g2, k2⟩ := nbind_some k1
      obtain ⟨-, rfl⟩ := nlift_inv g2
      obtain ⟨⟨xo, r⟩, s6, g3, k3⟩ := nbind_some k2
      obtain ⟨rfl, hI3⟩ := K.Wtx.call hI1 g3
      obtain ⟨a4, s7, g4, k4⟩ := nbind_some k3
      obtain ⟨-, rfl⟩ := nlift_inv g4
      obtain ⟨a5, s8, g5, k5⟩ := nbind_some k4
      obtain ⟨-, rfl⟩ := nlift_inv g5
      obtain ⟨a6, s9, g6, k6⟩ := nbind_some k5
      obtain ⟨-, rfl⟩ := nlift_inv g6
      obtain ⟨a7, s10, g7, k7⟩ := nbind_some k6
      obtain ⟨-, rfl⟩ := nlift_inv g7
      obtain ⟨hq, rfl⟩ := npure_some k7
      cases hq
      refine ⟨?_, hI3⟩
      unfold ncall at g1
      cases hf : ax.Aty with
      | none => rw [hf] at g1; cases g1
      | some f =>
        rw [hf] at g1
        obtain ⟨⟨o, w⟩, j2, j3⟩ := Option.map_eq_some_iff.1 g1
        cases j3
        rw [e1] at j2
        exact hA f _ _ _ hf j2
    dsimp only at h3
    refine (outer_stuck K (i := i) ?_ ?_ h3).1
    · exact key.2
    · exact ⟨key.1, key.1⟩
  · cases h2

/-! ## FFTW on data that is not finite -/

theorem Dbl.isFin_div {a b : Dbl} (h : (a / b).IsFin) : a.IsFin := by
  change (Dbl.div a b).IsFin at h
  cases a <;> cases b <;> first | trivial | (exfalso; revert h; simp only [Dbl.div]; (try split_ifs) <;> exact fun h => h)

theorem vscale_nonfin {k : ℕ} {a : Dbl} {x : Vec Dbl k} {i : Fin k} (h : ¬ (x i).IsFin) : ¬ (vscale a x i).IsFin := fun hc => h (Dbl.isFin_mul hc).1

theorem update_nonfin {k : ℕ} {x : Vec Dbl k} {i j : Fin k} {a : Dbl} (h : ¬ (x i).IsFin) (ha : j = i → ¬ a.IsFin) : ¬ (Function.update x j a i).IsFin := by
  by_cases e : i = j
  · subst e; rw [Function.update_self]; exact ha rfl
  · rw [Function.update_of_ne e]; exact h

theorem dscalAt_nonfin {k cnt off stride : ℕ} {a : Dbl} {x : Vec Dbl k} {i : Fin k} (h : ¬ (x i).IsFin) : ¬ (dscalAt cnt off stride a x i).IsFin := by
  unfold dscalAt
  split
  · exact fun hc => h (Dbl.isFin_mul hc).1
  · exact h

variable {lib : FftwLib Dbl} {t : SetTv Dbl}

theorem strict_Mty (hl : NanStrict lib) (hm : 0 < t.mrow ∧ 0 < t.mcol) {x : Vec Dbl (t.mrow * t.mcol)} (hx : ∃ i, ¬ (x i).IsFin) {s : DctBuf Dbl (t.mrow * t.mcol)}
    {o : XOut Dbl (t.mrow * t.mcol) (t.mrow * t.mcol) (t.mrow * t.mcol)} (h : (funT lib t hm).Mty x s = some o) (j : Fin (t.mrow * t.mcol)) : ¬ (o.res j).IsFin := by
  unfold funT at h
  split at h
  · cases h
    have : NeZero t.mrow := ⟨hm.1.ne'⟩
    have : NeZero t.mcol := ⟨hm.2.ne'⟩
    have key : ∀ j, ¬ (vscale (dct2Cfg (lib.f2 t.mrow t.mcol) (idxFun t.n t.idx)).root ((lib.f2 t.mrow t.mcol).fwd x) j).IsFin :=
      fun j => vscale_nonfin (hl.2 _ _ x hx j).1
    exact dscalAt_nonfin (dscalAt_nonfin (update_nonfin (key j) fun e hc => key 0 (Dbl.isFin_mul hc).1))
  · cases h
    have : NeZero (t.mrow * t.mcol) := ⟨(Nat.mul_pos hm.1 hm.2).ne'⟩
    exact vscale_nonfin (update_nonfin (hl.1 _ x hx j).1 fun _ hc => (hl.1 _ x hx 0).1 (Dbl.isFin_div hc))

theorem strict_Mx (hl : NanStrict lib) (hm : 0 < t.mrow ∧ 0 < t.mcol) {x : Vec Dbl (t.mrow * t.mcol)} (hx : ∃ i, ¬ (x i).IsFin) {s : DctBuf Dbl (t.mrow * t.mcol)}
    {o : XOut Dbl (t.mrow * t.mcol) (t.mrow * t.mcol) (t.mrow * t.mcol)} (h : (funT lib t hm).Mx x s = some o) (j : Fin (t.mrow * t.mcol)) : ¬ (o.res j).IsFin := by
  obtain ⟨i, hi⟩ := hx
  unfold funT at h
  split at h
  · cases h
    have : NeZero t.mrow := ⟨hm.1.ne'⟩
    have : NeZero t.mcol := ⟨hm.2.ne'⟩
    refine vscale_nonfin (hl.2 _ _ _ ⟨i, ?_⟩ j).2
    exact dscalAt_nonfin (dscalAt_nonfin (update_nonfin hi fun e hc => hi (e ▸ (Dbl.isFin_mul hc).1)))
  · cases h
    have : NeZero (t.mrow * t.mcol) := ⟨(Nat.mul_pos hm.1 hm.2).ne'⟩
    refine vscale_nonfin (hl.1 _ _ ⟨i, ?_⟩ j).2
    exact update_nonfin hi fun e hc => hi (e ▸ (Dbl.isFin_mul hc).1)

/-- Without weights, `Aᵀ y` has no finite entry if the work array holds NaN and some pixel is not sampled. -/
theorem aty_nonfin (hl : NanStrict lib) (hr : TvReal t 0 0) (hm : 0 < t.mrow ∧ 0 < t.mcol) (hi : IdxOk (t.mrow * t.mcol) (idxFun t.n t.idx)) {y : Vec Dbl t.n} {old : Vec Dbl (cfgT lib t hm).p}
    {s : TvBuf Dbl (t.mrow * t.mcol) (cfgT lib t hm).p} (hu : ∀ i, s.u i = .nan) {z : Fin (t.mrow * t.mcol)} (hz : ∀ i, idxFun t.n t.idx i ≠ ((z : ℕ) : Int))
    {o : TvOut Dbl (cfgT lib t hm).p (t.mrow * t.mcol) (cfgT lib t hm).p} (h : tvAty (cfgT lib t hm) y old s = some o) (j : Fin (cfgT lib t hm).p) : ¬ (o.res j).IsFin := by
  have hc : (cfgT lib t hm).p = t.mrow * t.mcol := coefs_zero hr
  have h0 : 0 + t.mrow * t.mcol ≤ (cfgT lib t hm).p := by omega
  have hj : job (Dbl.fin 0) = false := by
    unfold job; rw [Dbl.lit_eq, ← Bool.not_eq_true, Dbl.flt_fin]; norm_num
  unfold tvAty at h
  rw [slice_eq 0 h0, obind] at h
  obtain ⟨r, hr1, hr2⟩ := C58_Rty_keeps_nan (f := (cfgT lib t hm).loc) (funT_set hm hi) y (fun i => s.u ⟨0 + i, by have := i.2; omega⟩) s.dct z hz (hu _)
  obtain ⟨w0, hw0⟩ := writeAt_some 0 h0 r.res s.u
  rw [hr1, obind, hw0, obind, slice_writeAt hw0, obind] at h
  unfold tvWtx at h
  obtain ⟨q, hq, h⟩ := optbind_inv h
  rw [show (cfgT lib t hm).alp_v = Dbl.fin 0 from hr.hv, show (cfgT lib t hm).alp_h = Dbl.fin 0 from hr.hh, hj, writeAt_eq 0 h0, obind] at h
  cases h
  have hlt : j.val < t.mrow * t.mcol := lt_of_lt_of_eq j.2 hc
  have := strict_Mty hl hm ⟨z, by rw [hr2]; exact fun h => h⟩ hq ⟨j, hlt⟩
  dsimp only
  rw [dif_pos ⟨by omega, by omega⟩]
  exact this

/-- Without weights, `Mx` of data that is not finite has no finite entry. -/
theorem mx_nonfin (hl : NanStrict lib) (hr : TvReal t 0 0) (hm : 0 < t.mrow ∧ 0 < t.mcol) {v : Vec Dbl (cfgT lib t hm).p} (hv : ∃ i, ¬ (v i).IsFin)
    {s : TvBuf Dbl (t.mrow * t.mcol) (cfgT lib t hm).p}
    {o : TvOut Dbl (t.mrow * t.mcol) (t.mrow * t.mcol) (cfgT lib t hm).p} (h : tvWv (cfgT lib t hm) v s = some o) (j : Fin (t.mrow * t.mcol)) : ¬ (o.res j).IsFin := by
  have hc : (cfgT lib t hm).p = t.mrow * t.mcol := coefs_zero hr
  have h0 : 0 + t.mrow * t.mcol ≤ (cfgT lib t hm).p := by omega
  have hj : job (Dbl.fin 0) = false := by
    unfold job; rw [Dbl.lit_eq, ← Bool.not_eq_true, Dbl.flt_fin]; norm_num
  obtain ⟨i, hi⟩ := hv
  have hlt : i.val < t.mrow * t.mcol := lt_of_lt_of_eq i.2 hc
  unfold tvWv at h
  rw [slice_eq 0 h0, obind] at h
  obtain ⟨q, hq, h⟩ := optbind_inv h
  obtain ⟨w0, hw0⟩ := writeAt_some 0 h0 q.res s.u
  rw [hw0, obind, slice_writeAt hw0, obind, show (cfgT lib t hm).alp_v = Dbl.fin 0 from hr.hv, show (cfgT lib t hm).alp_h = Dbl.fin 0 from hr.hh, hj] at h
  cases h
  refine strict_Mx hl hm ⟨⟨i, hlt⟩, ?_⟩ hq j
  have e : (⟨0 + i.val, by omega⟩ : Fin (cfgT lib t hm).p) = i := Fin.ext (by simp)
  dsimp only
  rw [e]
  exact hi

/-- the same for the functions of a live set -/
theorem set_aty_nonfin {L : Sets Dbl} {w w' : World Dbl} (hl : NanStrict lib) (h : Hist lib w L) (ht : L.tv = some t) (hsyn : t.syn = true) (hr : TvReal t 0 0)
    {u : Vec Dbl t.coefs} (hu : WorkIs w t u) (hun : ∀ i, u i = .nan) {z : Fin (t.mrow * t.mcol)} (hz : ∀ i, idxFun t.n t.idx i ≠ ((z : ℕ) : Int))
    {y : Vec Dbl t.n} {old o : Vec Dbl t.coefs} {y' : Vec Dbl t.n} (hc : setNOp lib t.kind .Aty t.n t.coefs y old w = some ((y', o), w')) (i : Fin t.coefs) : ¬ (o i).IsFin := by
  obtain ⟨hm, s, -, hi, hs, hcl⟩ := tv_work h ht
  obtain ⟨put, h1, -⟩ := hcl .Aty ⟨t.n, y⟩ ⟨t.coefs, old⟩
  have hsu : ∀ i, s.u i = .nan := fun i => by rw [hs.unique hu]; exact hun i
  have e := all_At (cfgT lib t hm) s y old
  rw [hsyn] at h1
  unfold setNOp at hc
  cases hq : tvAty (cfgT lib t hm) y old s with
  | none =>
    rw [hq] at e
    rw [show tvAll (cfgT lib t hm) true .Aty ⟨t.n, y⟩ ⟨t.coefs, old⟩ s = none from e] at h1
    rw [h1] at hc; cases hc
  | some q =>
    rw [hq] at e
    rw [show tvAll (cfgT lib t hm) true .Aty ⟨t.n, y⟩ ⟨t.coefs, old⟩ s = _ from e] at h1
    rw [h1] at hc
    simp only [Option.map_some, Option.bind_some] at hc
    obtain ⟨y1, -, hc⟩ := Option.bind_eq_some_iff.1 hc
    obtain ⟨o', ho, ho'⟩ := Option.map_eq_some_iff.1 hc
    cases ho'
    have ho : slice (cfgT lib t hm).p 0 q.res = some o := ho
    rw [slice_full] at ho
    cases ho
    exact aty_nonfin hl hr hm hi hsu hz hq i

/-- the operators of a live set leave their arguments as they were -/
theorem setN_still {L : Sets Dbl} (ht : L.tv = some t) (n m p : ℕ) (nw : Dbl) : (setNAx lib t.kind n m p nw).Still (fun w => Hist lib w L) := by
  have key : ∀ op l k, OpStill (fun w => Hist lib w L) (some (setNOp lib t.kind op l k)) := by
    intro op l k g hg x old c a o c' hc h
    cases hg
    unfold setNOp at h
    obtain ⟨⟨⟨a1, o1⟩, w1⟩, e, h⟩ := Option.bind_eq_some_iff.1 h
    obtain ⟨y, hy, h⟩ := Option.bind_eq_some_iff.1 h
    obtain ⟨z, -, h⟩ := Option.map_eq_some_iff.1 h
    cases h
    obtain ⟨hm, s, -, hi, -, hcl⟩ := tv_work hc ht
    obtain ⟨put, h1, -⟩ := hcl op ⟨l, x⟩ ⟨k, old⟩
    rw [h1] at e
    obtain ⟨⟨q, b⟩, hq, e'⟩ := Option.map_eq_some_iff.1 e
    have := (tvAll_arg (c := cfgT lib t hm) (funT_set hm hi) hq).exact
    cases e'
    dsimp only at this hy
    subst this
    dsimp only at hy
    rw [slice_full] at hy
    cases hy
    exact ⟨rfl, .call _ op _ _ hc (Sets.has_tv ht) (h1.trans e)⟩
  exact ⟨key _ _ _, key _ _ _, key _ _ _, key _ _ _⟩

theorem set_mx_nonfin {L : Sets Dbl} {w w' : World Dbl} (hl : NanStrict lib) (h : Hist lib w L) (ht : L.tv = some t) (hsyn : t.syn = true) (hr : TvReal t 0 0)
    {v : Vec Dbl t.coefs} (hv : ∃ i, ¬ (v i).IsFin) {old o : Vec Dbl (t.mrow * t.mcol)} {a' : Arr Dbl}
    (hc : wcall lib t.kind .Mx ⟨t.coefs, v⟩ ⟨t.mrow * t.mcol, old⟩ w = some ((a', ⟨t.mrow * t.mcol, o⟩), w')) (i : Fin (t.mrow * t.mcol)) : ¬ (o i).IsFin := by
  obtain ⟨hm, s, -, hi, hs, hcl⟩ := tv_work h ht
  obtain ⟨put, h1, -⟩ := hcl .Mx ⟨t.coefs, v⟩ ⟨t.mrow * t.mcol, old⟩
  have e := all_Mx (cfgT lib t hm) s v old
  rw [hsyn] at h1
  cases hq : tvWv (cfgT lib t hm) v s with
  | none =>
    rw [hq] at e
    rw [show tvAll (cfgT lib t hm) true .Mx ⟨t.coefs, v⟩ ⟨t.mrow * t.mcol, old⟩ s = none from e] at h1
    rw [h1] at hc; cases hc
  | some q =>
    rw [hq] at e
    rw [show tvAll (cfgT lib t hm) true .Mx ⟨t.coefs, v⟩ ⟨t.mrow * t.mcol, old⟩ s = _ from e] at h1
    rw [h1] at hc
    cases hc
    exact mx_nonfin hl hr hm hv hq i

end L1c
