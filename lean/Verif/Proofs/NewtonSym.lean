import Verif.Proofs.NewtonLoop
import Mathlib.Data.EReal.Basic

/-!
# Two runs of the log-barrier Newton solver on problems that differ by a symmetry

The second problem has its coefficients' signs switched by `e` and its samples moved by an isometry `T`.
-/

namespace L1c
open Scalar Matrix

variable {n m : ℕ}

/-- `A'` is `A` seen after switching the signs `e` of the coefficients and moving the samples by `T` -/
structure QSym (A A' : Matrix (Fin n) (Fin m) ℝ) (e : Fin m → ℝ) (T : (Fin n → ℝ) → Fin n → ℝ) : Prop where
  he : ∀ i, e i = 1 ∨ e i = -1
  hA : ∀ x, A' *ᵥ (e * x) = T (A *ᵥ x)
  hT : ∀ y, A'ᵀ *ᵥ T y = e * (Aᵀ *ᵥ y)
  sub : ∀ x y, T (x - y) = T x - T y
  dot : ∀ x y, T x ⬝ᵥ T y = x ⬝ᵥ y

/-- switch signs of the first half only -/
def flipX (e : Fin m → ℝ) (p : XU m) : XU m := (e * p.1, p.2)

theorem flipX_step (e : Fin m → ℝ) (p d : XU m) (t : ℝ) : flipX e p + t • flipX e d = flipX e (p + t • d) := by
  refine Prod.ext ?_ rfl
  funext i
  simp only [flipX, Prod.fst_add, Prod.smul_fst, Pi.add_apply, Pi.smul_apply, Pi.mul_apply, smul_eq_mul]
  ring

section real
variable {A A' : Matrix (Fin n) (Fin m) ℝ} {e : Fin m → ℝ} {T : (Fin n → ℝ) → Fin n → ℝ} {b : Fin n → ℝ} {eps tau : ℝ}

theorem sgn_sq {r : ℝ} (h : r = 1 ∨ r = -1) : r * r = 1 := by rcases h with rfl | rfl <;> norm_num

theorem sgn_dot {N : ℕ} {e : Fin N → ℝ} (he : ∀ i, e i = 1 ∨ e i = -1) (x y : Fin N → ℝ) : (e * x) ⬝ᵥ (e * y) = x ⬝ᵥ y := by
  refine Finset.sum_congr rfl fun i _ => ?_
  simp only [Pi.mul_apply]
  linear_combination (x i * y i) * sgn_sq (he i)

theorem sgn_abs {r : ℝ} (h : r = 1 ∨ r = -1) (x : ℝ) : |r * x| = |x| := by rcases h with rfl | rfl <;> simp

variable (S : QSym A A' e T)
include S

theorem QSym.resid (x : Fin m → ℝ) : A' *ᵥ (e * x) - T b = T (A *ᵥ x - b) := by rw [S.hA, S.sub]

theorem QSym.nrm_eq (y : Fin n → ℝ) : nrm (T y) = nrm y := by unfold nrm; rw [S.dot]

theorem QSym.feR_eq (x : Fin m → ℝ) : feR A' (T b) eps (e * x) = feR A b eps x := by
  unfold feR; rw [S.resid, S.dot]

theorem QSym.feas {p : XU m} : StrictFeas A' (T b) eps (flipX e p) ↔ StrictFeas A b eps p := by
  unfold StrictFeas flipX
  rw [S.resid, S.nrm_eq]
  refine and_congr_left' (forall_congr' fun i => ?_)
  simp only [Pi.mul_apply]
  rcases S.he i with h | h <;> rw [h] <;> constructor <;> rintro ⟨h1, h2⟩ <;> constructor <;> linarith

theorem QSym.barrier_eq (p : XU m) : barrier A' (T b) eps tau (flipX e p) = barrier A b eps tau p := by
  unfold barrier flipX
  rw [S.resid, S.dot]
  have h : ∑ i, Real.log (p.2 i - (e * p.1) i) + ∑ i, Real.log (p.2 i + (e * p.1) i) =
      ∑ i, Real.log (p.2 i - p.1 i) + ∑ i, Real.log (p.2 i + p.1 i) := by
    rw [← Finset.sum_add_distrib, ← Finset.sum_add_distrib]
    refine Finset.sum_congr rfl fun i _ => ?_
    simp only [Pi.mul_apply]
    rcases S.he i with h | h <;> rw [h]
    · rw [one_mul]
    · rw [neg_one_mul, sub_neg_eq_add, ← sub_eq_add_neg, add_comm]
  rw [h]

theorem QSym.s11 (p : XU m) : s11R (flipX e p) = s11R p := by
  funext i
  simp only [s11R, flipX, Pi.mul_apply]
  rcases S.he i with h | h <;> rw [h]
  · rw [one_mul]
  · rw [neg_one_mul, neg_neg, add_comm]

theorem QSym.s12 (p : XU m) : s12R (flipX e p) = e * s12R p := by
  funext i
  simp only [s12R, flipX, Pi.mul_apply]
  rcases S.he i with h | h <;> rw [h]
  · rw [one_mul, one_mul]
  · rw [neg_one_mul, neg_neg]; ring

theorem QSym.ntgu (p : XU m) : ntguR tau (flipX e p) = ntguR tau p := by
  funext i
  simp only [ntguR, flipX, Pi.mul_apply]
  rcases S.he i with h | h <;> rw [h]
  · rw [one_mul]
  · rw [neg_one_mul, neg_neg]; ring

theorem QSym.gu (p : XU m) : guR tau (flipX e p) = guR tau p := by
  funext i
  have := congrFun (S.ntgu (tau := tau) p) i
  show -1 / tau * ntguR tau (flipX e p) i = -1 / tau * ntguR tau p i
  rw [this]

theorem QSym.atr (x : Fin m → ℝ) : A'ᵀ *ᵥ (A' *ᵥ (e * x) - T b) = e * (Aᵀ *ᵥ (A *ᵥ x - b)) := by rw [S.resid, S.hT]

theorem QSym.ntgz (p : XU m) : ntgzR A' (T b) eps (flipX e p) = e * ntgzR A b eps p := by
  funext i
  have h1 := congrFun (S.atr (b := b) p.1) i
  have h2 := S.feR_eq (b := b) (eps := eps) p.1
  simp only [Pi.mul_apply] at h1
  simp only [ntgzR, flipX, Pi.mul_apply]
  rw [h2, h1]
  rcases S.he i with h | h <;> rw [h]
  · rw [one_mul, one_mul, one_mul]
  · rw [neg_one_mul, neg_neg]; ring

theorem QSym.gx (p : XU m) : gxR A' (T b) eps tau (flipX e p) = e * gxR A b eps tau p := by
  funext i
  have := congrFun (S.ntgz (b := b) (eps := eps) p) i
  simp only [Pi.mul_apply] at this
  show -1 / tau * ntgzR A' (T b) eps (flipX e p) i = e i * (-1 / tau * ntgzR A b eps p i)
  rw [this]; ring

theorem QSym.w1p (p : XU m) : w1pR A' (T b) eps tau (flipX e p) = e * w1pR A b eps tau p := by
  funext i
  have h := congrFun (S.ntgz (b := b) (eps := eps) p) i
  simp only [w1pR, S.s11, S.s12, S.ntgu, h, Pi.mul_apply]
  ring

theorem QSym.du (p : XU m) (dx : Fin m → ℝ) : duR tau (flipX e p) (e * dx) = duR tau p dx := by
  funext i
  simp only [duR, S.s11, S.s12, S.ntgu, Pi.mul_apply]
  linear_combination (-(s12R p i / s11R p i * dx i)) * sgn_sq (S.he i)

theorem QSym.red (p : XU m) (z : Fin m → ℝ) : redR A' (T b) eps (flipX e p) (e * z) = e * redR A b eps p z := by
  have hd : denseR A' (T b) eps (e * p.1) (e * z) = e * denseR A b eps p.1 z := by
    funext i
    have e1 := S.hA z
    simp only [denseR, S.atr, S.feR_eq, sgn_dot S.he, e1, S.hT, Pi.mul_apply]
    ring
  funext i
  show (s11R (flipX e p) i - s12R (flipX e p) i * s12R (flipX e p) i / s11R (flipX e p) i) * (e * z) i +
    denseR A' (T b) eps (e * p.1) (e * z) i = e i * ((s11R p i - s12R p i * s12R p i / s11R p i) * z i + denseR A b eps p.1 z i)
  rw [hd, S.s11, S.s12]
  simp only [Pi.mul_apply]
  have := sgn_sq (S.he i)
  rw [show e i * s12R p i * (e i * s12R p i) = s12R p i * s12R p i by linear_combination (s12R p i * s12R p i) * this]
  ring

theorem QSym.slope (p : XU m) (dx du : Fin m → ℝ) :
    gxR A' (T b) eps tau (flipX e p) ⬝ᵥ (e * dx) + guR tau (flipX e p) ⬝ᵥ du = gxR A b eps tau p ⬝ᵥ dx + guR tau p ⬝ᵥ du := by
  rw [S.gx, S.gu, sgn_dot S.he]

end real

/-! ## The linear solver -/

section cg
variable {N : ℕ} {e : Fin N → ℝ} {H H' : (Fin N → ℝ) →ₗ[ℝ] (Fin N → ℝ)} {w x0 : Fin N → ℝ}

theorem cgSeq_sym (he : ∀ i, e i = 1 ∨ e i = -1) (hH : ∀ z, H' (e * z) = e * H z) (k : ℕ) :
    (cgSeq H' 1 (e * w) (e * x0) k).x = e * (cgSeq H 1 w x0 k).x ∧ (cgSeq H' 1 (e * w) (e * x0) k).r = e * (cgSeq H 1 w x0 k).r ∧
    (cgSeq H' 1 (e * w) (e * x0) k).p = e * (cgSeq H 1 w x0 k).p := by
  induction k with
  | zero =>
    refine ⟨rfl, ?_, ?_⟩
    · show e * w - H' (e * x0) = e * (w - H x0)
      rw [hH, mul_sub]
    · show 1 * (e * w - H' (e * x0)) = e * (1 * (w - H x0))
      rw [hH, one_mul, one_mul, mul_sub]
  | succ k ih =>
    obtain ⟨h1, h2, h3⟩ := ih
    show (CGIt.next H' 1 _).x = e * (CGIt.next H 1 _).x ∧ (CGIt.next H' 1 _).r = e * (CGIt.next H 1 _).r ∧ (CGIt.next H' 1 _).p = e * (CGIt.next H 1 _).p
    have hs : ∀ (c : ℝ) (v : Fin N → ℝ), c • (e * v) = e * (c • v) := fun c v => (mul_smul_comm c e v).symm
    have hr : (CGIt.next H' 1 (cgSeq H' 1 (e * w) (e * x0) k)).r = e * (CGIt.next H 1 (cgSeq H 1 w x0 k)).r := by
      simp only [CGIt.next, one_mul, h2, h3, hH, sgn_dot he, hs, mul_sub]
    refine ⟨?_, hr, ?_⟩
    · simp only [CGIt.next, one_mul, h1, h2, h3, hH, sgn_dot he, hs, mul_add]
    · have hp : ∀ (G : (Fin N → ℝ) →ₗ[ℝ] (Fin N → ℝ)) (t : CGIt N), (CGIt.next G 1 t).p =
          (CGIt.next G 1 t).r + ((CGIt.next G 1 t).r ⬝ᵥ (CGIt.next G 1 t).r / (t.r ⬝ᵥ t.r)) • t.p := fun G t => by
        simp only [CGIt.next, one_mul]
      rw [hp, hp, hr, h2, h3, sgn_dot he, sgn_dot he, hs, mul_add]

theorem CGOk_sym (he : ∀ i, e i = 1 ∨ e i = -1) (hH : ∀ z, H' (e * z) = e * H z) (k : ℕ) :
    CGOk H' 1 (e * w) (e * x0) k ↔ CGOk H 1 w x0 k := by
  have h0 : ∀ v : Fin N → ℝ, e * v = 0 ↔ v = 0 := fun v => by
    rw [← dot_self_eq_zero, sgn_dot he, dot_self_eq_zero]
  unfold CGOk
  refine forall₂_congr fun j _ => ?_
  obtain ⟨-, h2, h3⟩ := cgSeq_sym (w := w) (x0 := x0) he hH j
  rw [h2, h3, hH, sgn_dot he, Ne, h0]

theorem repRes_sym (he : ∀ i, e i = 1 ∨ e i = -1) (hH : ∀ z, H' (e * z) = e * H z) (k : ℕ) :
    repRes H' 1 (e * w) (e * x0) k = repRes H 1 w x0 k := by
  cases k with
  | zero =>
    simp only [repRes, hH, one_mul, ← mul_sub, sgn_dot he]
  | succ k =>
    obtain ⟨h1, -, -⟩ := cgSeq_sym (w := w) (x0 := x0) he hH (k + 1)
    simp only [repRes, h1, hH, ← mul_sub, sgn_dot he]

/-- the two solvers are at corresponding points -/
def CgPair (H H' : (Fin N → ℝ) →ₗ[ℝ] (Fin N → ℝ)) (w x0 e : Fin N → ℝ) (k : ℕ) (st st' : CgState Dbl N) : Prop :=
  ((OnTrack H 1 w x0 k st ∧ OnTrack H' 1 (e * w) (e * x0) k st') ∨ (OffTrack H 1 w x0 k st ∧ OffTrack H' 1 (e * w) (e * x0) k st')) ∧
  st'.best = st.best ∧ ∃ z, st.bestx = fvec z ∧ st'.bestx = fvec (e * z)

variable {σ σ' : Type} {op : Vec Dbl N → σ → Vec Dbl N × σ} {op' : Vec Dbl N → σ' → Vec Dbl N × σ'}
  (he : ∀ i, e i = 1 ∨ e i = -1) (hH : ∀ z, H' (e * z) = e * H z) (hop : ∀ v s, (op (fvec v) s).1 = fvec (H v))
  (hop' : ∀ v s, (op' (fvec v) s).1 = fvec (H' v)) (hw : w ≠ 0)
include he hH hop hop' hw

theorem cg_step_pair {k : ℕ} {st st' : CgState Dbl N} (s : σ) (s' : σ') (h : CgPair H H' w x0 e k st st') :
    CgPair H H' w x0 e (k + 1) (pcgStep op (fvec 1) (.fin (w ⬝ᵥ w)) st s).1.1 (pcgStep op' (fvec 1) (.fin (w ⬝ᵥ w)) st' s').1.1 ∧
    ∀ tol, flt (pcgStep op' (fvec 1) (.fin (w ⬝ᵥ w)) st' s').1.2 tol = flt (pcgStep op (fvec 1) (.fin (w ⬝ᵥ w)) st s).1.2 tol := by
  have hw' : e * w ≠ 0 := fun hc => hw (by rw [← dot_self_eq_zero, ← sgn_dot he, hc, zero_dotProduct])
  have hww : (e * w) ⬝ᵥ (e * w) = w ⬝ᵥ w := sgn_dot he _ _
  obtain ⟨htr, hbest, z, hz, hz'⟩ := h
  have hstep : (OnTrack H 1 w x0 (k + 1) (pcgStep op (fvec 1) (.fin (w ⬝ᵥ w)) st s).1.1 ∧
      OnTrack H' 1 (e * w) (e * x0) (k + 1) (pcgStep op' (fvec 1) (.fin (w ⬝ᵥ w)) st' s').1.1 ∧
      (pcgStep op (fvec 1) (.fin (w ⬝ᵥ w)) st s).1.2 = .fin (repRes H 1 w x0 (k + 1)) ∧
      (pcgStep op' (fvec 1) (.fin (w ⬝ᵥ w)) st' s').1.2 = .fin (repRes H 1 w x0 (k + 1))) ∨
      (OffTrack H 1 w x0 (k + 1) (pcgStep op (fvec 1) (.fin (w ⬝ᵥ w)) st s).1.1 ∧
      OffTrack H' 1 (e * w) (e * x0) (k + 1) (pcgStep op' (fvec 1) (.fin (w ⬝ᵥ w)) st' s').1.1) := by
    rcases htr with ⟨h1, h2⟩ | ⟨h1, h2⟩
    · have g1 := pcg_step_track (w := 1) hop hw (fun _ => one_pos) (s := s) h1
      have g2 := pcg_step_track (w := 1) hop' hw' (fun _ => one_pos) (s := s') h2
      rw [hww, repRes_sym he hH] at g2
      rcases g1 with ⟨a1, a2⟩ | a1 <;> rcases g2 with ⟨c1, c2⟩ | c1
      · exact Or.inl ⟨a1, c1, a2, c2⟩
      · exact absurd ((CGOk_sym he hH _).2 a1.ok) c1.bad
      · exact absurd ((CGOk_sym he hH _).1 c1.ok) a1.bad
      · exact Or.inr ⟨a1, c1⟩
    · exact Or.inr ⟨pcg_step_off h1, pcg_step_off h2⟩
  obtain ⟨b1, b2⟩ := pcgStep_best op (fvec 1) (.fin (w ⬝ᵥ w)) st s
  obtain ⟨b1', b2'⟩ := pcgStep_best op' (fvec 1) (.fin (w ⬝ᵥ w)) st' s'
  rcases hstep with ⟨o1, o2, r1, r2⟩ | ⟨o1, o2⟩
  · refine ⟨⟨Or.inl ⟨o1, o2⟩, ?_, ?_⟩, fun tol => by rw [r1, r2]⟩
    · rw [b1, b1', r1, r2, hbest]
    · rw [b2, b2', r1, r2, hbest]
      split
      · exact ⟨_, o1.x, by rw [o2.x, (cgSeq_sym he hH (k + 1)).1]⟩
      · exact ⟨z, hz, hz'⟩
  · have f1 := fun t => pcg_rel_off t o1
    have f2 := fun t => pcg_rel_off t o2
    refine ⟨⟨Or.inr ⟨o1, o2⟩, ?_, ?_⟩, fun tol => by rw [f1, f2]⟩
    · rw [b1, b1', f1, f2, if_neg Bool.false_ne_true, if_neg Bool.false_ne_true, hbest]
    · rw [b2, b2', f1, f2, if_neg Bool.false_ne_true, if_neg Bool.false_ne_true]
      exact ⟨z, hz, hz'⟩

theorem cg_loop_pair (tol : Dbl) : ∀ (fuel k : ℕ) (iter : Int) (st st' : CgState Dbl N) (s : σ) (s' : σ') r r', CgPair H H' w x0 e k st st' →
    cgLoop (pcgStep op (fvec 1) (.fin (w ⬝ᵥ w))) tol fuel iter st s = some r →
    cgLoop (pcgStep op' (fvec 1) (.fin (w ⬝ᵥ w))) tol fuel iter st' s' = some r' →
    r'.2.1 = r.2.1 ∧ r'.1.best = r.1.best ∧ ∃ z, r.1.bestx = fvec z ∧ r'.1.bestx = fvec (e * z) := by
  intro fuel
  induction fuel with
  | zero =>
    intro k iter st st' s s' r r' h h1 h2
    unfold cgLoop at h1 h2
    split at h1
    · rename_i hle
      rw [if_pos hle] at h2
      obtain rfl := Option.some.inj h1
      obtain rfl := Option.some.inj h2
      exact ⟨rfl, h.2.1, h.2.2⟩
    · cases h1
  | succ fuel ih =>
    intro k iter st st' s s' r r' h h1 h2
    obtain ⟨g1, g2⟩ := cg_step_pair he hH hop hop' hw s s' h
    unfold cgLoop at h1 h2
    dsimp only at h1 h2
    rw [g2] at h2
    split at h1
    · rename_i hlt
      rw [if_pos hlt] at h2
      obtain rfl := Option.some.inj h1
      obtain rfl := Option.some.inj h2
      exact ⟨rfl, g1.2.1, g1.2.2⟩
    · rename_i hlt
      rw [if_neg hlt] at h2
      exact ih (k + 1) _ _ _ _ _ r r' g1 h1 h2

theorem cgsolve_pair {prm : CgParams Dbl} {s : σ} {s' : σ'} {out : CgOut Dbl σ N} {out' : CgOut Dbl σ' N}
    (h1 : l1c_cgsolve (fvec x0) (fvec w) op s prm = some out) (h2 : l1c_cgsolve (fvec (e * x0)) (fvec (e * w)) op' s' prm = some out') :
    out'.res = out.res ∧ ∃ z, out.x = fvec z ∧ out'.x = fvec (e * z) := by
  have hw' : e * w ≠ 0 := fun hc => hw (by rw [← dot_self_eq_zero, ← sgn_dot he, hc, zero_dotProduct])
  have hww : (e * w) ⬝ᵥ (e * w) = w ⬝ᵥ w := sgn_dot he _ _
  rw [cgsolve_eq_pcg] at h1 h2
  unfold l1c_cgsolve_diag_precond at h1 h2
  simp only [ddot_fvec, hww] at h1 h2
  obtain ⟨r, hr, rfl⟩ := Option.map_eq_some_iff.1 h1
  obtain ⟨r', hr', rfl⟩ := Option.map_eq_some_iff.1 h2
  obtain ⟨i1, k1, l1, -, hbx1, hb1, -⟩ := pcg_init_inv (x0 := x0) hop hw (w := 1) (fun _ => one_pos) s
  obtain ⟨i2, k2, l2, -, hbx2, hb2, -⟩ := pcg_init_inv (x0 := e * x0) hop' hw' (w := 1) (fun _ => one_pos) s'
  have ok1 : CGOk H 1 w x0 0 := fun j hj => by omega
  have ok2 : CGOk H' 1 (e * w) (e * x0) 0 := fun j hj => by omega
  have i1 := i1.resolve_right fun hc => hc.bad ok1
  have i2 := i2.resolve_right fun hc => hc.bad ok2
  obtain rfl : k1 = 0 := by omega
  obtain rfl : k2 = 0 := by omega
  obtain ⟨g1, g2, g3⟩ := cg_loop_pair he hH hop hop' hw prm.tol _ 0 _ _ _ _ _ r r' ⟨Or.inl ⟨i1, i2⟩, by rw [hb1, hb2, repRes_sym he hH], x0, hbx1, hbx2⟩ hr hr'
  refine ⟨?_, g3⟩
  show (⟨r'.1.best, min r'.2.1 prm.max_iter⟩ : CgResults Dbl) = ⟨r.1.best, min r.2.1 prm.max_iter⟩
  rw [g1, g2]

end cg
end L1c
