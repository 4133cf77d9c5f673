import Verif.Proofs.BregmanSaddle
import Mathlib.Algebra.BigOperators.Field

/-!
Helper lemmas: with `lam = 2*mu` and at least ten Gauss–Seidel sweeps per iteration, split Bregman converges to the
minimiser.  The Lyapunov function is `‖d - d*‖² + ‖b - b*‖²` plus a multiple of the squared residual of the linear
equation and the squared last change of `d - b`.
-/

namespace L1c
open Finset

variable {n m : ℕ} {mu lam : ℝ} {f us bxs bYs : Img} {jac : ℕ} {s : BStateR}

/-! ### one difference direction -/

/-- two pairs on the graph of the subdifferential of `g|·|` -/
theorem sub_mono {g d b d' b' : ℝ} (h1 : |b| ≤ g) (h2 : b * d = g * |d|) (h1' : |b'| ≤ g) (h2' : b' * d' = g * |d'|) :
    0 ≤ (b' - b) * (d' - d) := by
  have a : b' * d ≤ g * |d| := by
    calc b' * d ≤ |b' * d| := le_abs_self _
      _ = |b'| * |d| := abs_mul _ _
      _ ≤ g * |d| := mul_le_mul_of_nonneg_right h1' (abs_nonneg _)
  have c : b * d' ≤ g * |d'| := by
    calc b * d' ≤ |b * d'| := le_abs_self _
      _ = |b| * |d'| := abs_mul _ _
      _ ≤ g * |d'| := mul_le_mul_of_nonneg_right h1 (abs_nonneg _)
  nlinarith

theorem comp_step {g d b ds bs d' b' : Img} (he : ∀ i < n, ∀ j < m, d' i j + b' i j = g i j + ds i j + b i j)
    (hm : ∀ i < n, ∀ j < m, 0 ≤ (b' i j - bs i j) * (d' i j - ds i j)) :
    normSq2 n m (fun i j => d' i j - ds i j) + normSq2 n m (fun i j => b' i j - bs i j)
        + normSq2 n m (fun i j => g i j + ds i j - d i j)
      ≤ 2 * normSq2 n m g + 2 * (inner2 n m b g - inner2 n m bs g - inner2 n m d g + inner2 n m ds g)
        + normSq2 n m (fun i j => d i j - ds i j) + normSq2 n m (fun i j => b i j - bs i j) := by
  unfold normSq2 inner2
  simp only [mul_add, mul_sub, mul_sum, ← sum_add_distrib, ← sum_sub_distrib]
  refine sum_le_sum fun i hi => sum_le_sum fun j hj => ?_
  have e := he i (mem_range.1 hi) j (mem_range.1 hj)
  have h := hm i (mem_range.1 hi) j (mem_range.1 hj)
  have e' : b' i j = g i j + ds i j + b i j - d' i j := by linarith
  rw [e'] at h ⊢
  nlinarith

theorem reflect_le {g d b d' b' ds : Img} (he : ∀ i < n, ∀ j < m, d' i j + b' i j = g i j + ds i j + b i j)
    (hm : ∀ i < n, ∀ j < m, 0 ≤ (b' i j - b i j) * (d' i j - d i j)) :
    normSq2 n m (fun i j => (-b' i j + d' i j) - (-b i j + d i j)) ≤ normSq2 n m (fun i j => g i j + ds i j - d i j) := by
  rw [normSq2_sum2, normSq2_sum2]
  refine sum2_le fun i hi j hj => ?_
  have e := he i hi j hj
  have h := hm i hi j hj
  have e' : g i j + ds i j - d i j = d' i j + b' i j - b i j - d i j := by linarith
  rw [e']
  nlinarith

/-! ### norms -/

theorem normSq2_add_le (u v : Img) : normSq2 n m (fun i j => u i j + v i j) ≤ 4 * normSq2 n m u + 4 / 3 * normSq2 n m v := by
  rw [normSq2_sum2, normSq2_sum2, normSq2_sum2, ← sum2_smul, ← sum2_smul, ← sum2_add]
  exact sum2_le fun i _ j _ => by nlinarith [sq_nonneg (3 * u i j - v i j)]

theorem normSq2_add_le' (u v : Img) : normSq2 n m (fun i j => u i j + v i j) ≤ 2 * normSq2 n m u + 2 * normSq2 n m v := by
  rw [normSq2_sum2, normSq2_sum2, normSq2_sum2, ← sum2_smul, ← sum2_smul, ← sum2_add]
  exact sum2_le fun i _ j _ => by nlinarith [sq_nonneg (u i j - v i j)]

theorem div_norm (x y : Img) : normSq2 n m (fun i j => gradXT lam m x i j + gradYT lam n y i j)
    ≤ 8 * lam ^ 2 * (normSq2 n m x + normSq2 n m y) := by
  have h1 := gradXT_norm lam n m x
  have h2 := gradYT_norm lam n m y
  have h3 := normSq2_add_le' (n := n) (m := m) (gradXT lam m x) (gradYT lam n y)
  linarith

theorem young (hmu : 0 < mu) (r e : Img) :
    -(1 / mu) * inner2 n m r e ≤ 9 / 10 * normSq2 n m e + 5 / 18 * (normSq2 n m r / mu ^ 2) := by
  have h : normSq2 n m r / mu ^ 2 = normSq2 n m (fun i j => r i j / mu) := by
    unfold normSq2 inner2
    simp only [sum_div]
    exact sum_congr rfl fun i _ => sum_congr rfl fun j _ => by field_simp
  rw [h]
  unfold normSq2 inner2
  simp only [mul_sum, ← sum_add_distrib]
  refine sum_le_sum fun i _ => sum_le_sum fun j _ => ?_
  have : -(1 / mu) * (r i j * e i j) = -((r i j / mu) * e i j) := by ring
  rw [this]
  nlinarith [sq_nonneg (9 * e i j + 5 * (r i j / mu))]

/-! ### the state -/

/-- `d` is the shrinkage of `d + b` -/
def Shr (n m : ℕ) (lam : ℝ) (s : BStateR) : Prop := ∀ i < n, ∀ j < m,
  (|s.bx i j| ≤ 1 / lam ∧ s.bx i j * s.dx i j = 1 / lam * |s.dx i j|) ∧
  (|s.bY i j| ≤ 1 / lam ∧ s.bY i j * s.dy i j = 1 / lam * |s.dy i j|)

theorem shr_next (hlam : 0 < lam) : Shr n m lam (bregNextR n m mu lam jac f s) := fun _ _ _ _ =>
  ⟨shrinkR_spec (by positivity) _, shrinkR_spec (by positivity) _⟩

theorem shr_zero (hlam : 0 < lam) (f : Img) : Shr n m lam (bregIterR n m mu lam jac f 0) := fun i _ j _ => by
  have : (0 : ℝ) ≤ 1 / lam := by positivity
  simp [bregIterR]
  positivity

theorem saddle_x (hlam : 0 < lam) (h : Saddle n m mu lam f us bxs bYs) {i j : ℕ} (hi : i < n) (hj : j < m) :
    |bxs i j| ≤ 1 / lam ∧ bxs i j * gradX 1 m us i j = 1 / lam * |gradX 1 m us i j| := by
  have h1 := h.hx i hi j hj
  have h2 := h.ex i hi j hj
  rw [abs_mul, abs_of_pos hlam] at h1
  refine ⟨by rw [le_div_iff₀ hlam]; linarith, ?_⟩
  rw [← h2]; field_simp

theorem saddle_y (hlam : 0 < lam) (h : Saddle n m mu lam f us bxs bYs) {i j : ℕ} (hi : i < n) (hj : j < m) :
    |bYs i j| ≤ 1 / lam ∧ bYs i j * gradY 1 n us i j = 1 / lam * |gradY 1 n us i j| := by
  have h1 := h.hy i hi j hj
  have h2 := h.ey i hi j hj
  rw [abs_mul, abs_of_pos hlam] at h1
  refine ⟨by rw [le_div_iff₀ hlam]; linarith, ?_⟩
  rw [← h2]; field_simp

/-- distance of `d`, `b` to their limits -/
noncomputable def lyV (n m : ℕ) (us bxs bYs : Img) (s : BStateR) : ℝ :=
  normSq2 n m (fun i j => s.dx i j - gradX 1 m us i j) + normSq2 n m (fun i j => s.bx i j - bxs i j)
    + (normSq2 n m (fun i j => s.dy i j - gradY 1 n us i j) + normSq2 n m (fun i j => s.bY i j - bYs i j))

noncomputable def errImg (us : Img) (s : BStateR) : Img := fun i j => s.u i j - us i j

/-- residual left by the sweeps -/
noncomputable def resid (n m : ℕ) (mu lam : ℝ) (jac : ℕ) (f : Img) (s : BStateR) : Img := fun i j =>
  rhsR n m mu lam f s i j - pixOp n m mu lam (bregNextR n m mu lam jac f s).u i j

theorem gradX_err (s : BStateR) (i j : ℕ) : gradX 1 m s.u i j = gradX 1 m (errImg us s) i j + gradX 1 m us i j := by
  unfold gradX errImg; split <;> ring
theorem gradY_err (s : BStateR) (i j : ℕ) : gradY 1 n s.u i j = gradY 1 n (errImg us s) i j + gradY 1 n us i j := by
  unfold gradY errImg; split <;> ring

/-- change of `d - b` in the next iteration -/
noncomputable def chgX (n m : ℕ) (mu lam : ℝ) (jac : ℕ) (f : Img) (s : BStateR) : Img := fun i j =>
  (-(bregNextR n m mu lam jac f s).bx i j + (bregNextR n m mu lam jac f s).dx i j) - (-s.bx i j + s.dx i j)
noncomputable def chgY (n m : ℕ) (mu lam : ℝ) (jac : ℕ) (f : Img) (s : BStateR) : Img := fun i j =>
  (-(bregNextR n m mu lam jac f s).bY i j + (bregNextR n m mu lam jac f s).dy i j) - (-s.bY i j + s.dy i j)

/-- the basic inequality of one iteration -/
theorem lyV_step (hlam : 0 < lam) (hS : Saddle n m mu lam f us bxs bYs) (hs : Shr n m lam s) :
    lyV n m us bxs bYs (bregNextR n m mu lam jac f s)
        + (normSq2 n m (chgX n m mu lam jac f s) + normSq2 n m (chgY n m mu lam jac f s))
      ≤ lyV n m us bxs bYs s - 2 / lam * (mu * normSq2 n m (errImg us (bregNextR n m mu lam jac f s))
        + inner2 n m (resid n m mu lam jac f s) (errImg us (bregNextR n m mu lam jac f s))) := by
  set t := bregNextR n m mu lam jac f s with ht
  set e := errImg us t with he
  have hsh : Shr n m lam t := shr_next hlam
  have ex : ∀ i < n, ∀ j < m, t.dx i j + t.bx i j = gradX 1 m e i j + gradX 1 m us i j + s.bx i j := by
    intro i _ j _
    rw [← gradX_err]
    show shrinkR _ _ + (_ - shrinkR _ _) = _
    rw [add_sub_cancel]; rfl
  have ey : ∀ i < n, ∀ j < m, t.dy i j + t.bY i j = gradY 1 n e i j + gradY 1 n us i j + s.bY i j := by
    intro i _ j _
    rw [← gradY_err]
    show shrinkR _ _ + (_ - shrinkR _ _) = _
    rw [add_sub_cancel]; rfl
  have mx : ∀ i < n, ∀ j < m, 0 ≤ (t.bx i j - bxs i j) * (t.dx i j - gradX 1 m us i j) := fun i hi j hj =>
    sub_mono (saddle_x hlam hS hi hj).1 (saddle_x hlam hS hi hj).2 (hsh i hi j hj).1.1 (hsh i hi j hj).1.2
  have my : ∀ i < n, ∀ j < m, 0 ≤ (t.bY i j - bYs i j) * (t.dy i j - gradY 1 n us i j) := fun i hi j hj =>
    sub_mono (saddle_y hlam hS hi hj).1 (saddle_y hlam hS hi hj).2 (hsh i hi j hj).2.1 (hsh i hi j hj).2.2
  have sx := comp_step (d := s.dx) ex mx
  have sy := comp_step (d := s.dy) ey my
  have rx := reflect_le (d := s.dx) ex fun i hi j hj => sub_mono (hs i hi j hj).1.1 (hs i hi j hj).1.2 (hsh i hi j hj).1.1 (hsh i hi j hj).1.2
  have ry := reflect_le (d := s.dy) ey fun i hi j hj => sub_mono (hs i hi j hj).2.1 (hs i hi j hj).2.2 (hsh i hi j hj).2.1 (hsh i hi j hj).2.2
  -- the linear equation
  have w1 := weak_eq n m mu lam t.u e
  have w2 := inner2_rhsR (n := n) (m := m) (mu := mu) (lam := lam) (f := f) (s := s) e
  have w3 : inner2 n m (resid n m mu lam jac f s) e = inner2 n m (rhsR n m mu lam f s) e - inner2 n m (pixOp n m mu lam t.u) e :=
    inner2_sub n m _ _ _
  have w4 := hS.st e
  have u1 : inner2 n m t.u e = normSq2 n m e + inner2 n m us e := by
    unfold normSq2; rw [← inner2_add]; exact inner2_eqOn (fun i _ j _ => by rw [he]; unfold errImg; ring) fun _ _ _ _ => rfl
  have u2 : inner2 n m (gradX 1 m t.u) (gradX 1 m e) = normSq2 n m (gradX 1 m e) + inner2 n m (gradX 1 m us) (gradX 1 m e) := by
    unfold normSq2; rw [← inner2_add]; exact inner2_eqOn (fun i _ j _ => gradX_err t i j) fun _ _ _ _ => rfl
  have u3 : inner2 n m (gradY 1 n t.u) (gradY 1 n e) = normSq2 n m (gradY 1 n e) + inner2 n m (gradY 1 n us) (gradY 1 n e) := by
    unfold normSq2; rw [← inner2_add]; exact inner2_eqOn (fun i _ j _ => gradY_err t i j) fun _ _ _ _ => rfl
  have u4 : inner2 n m (fun i j => -s.bx i j + s.dx i j) (gradX 1 m e) = inner2 n m s.dx (gradX 1 m e) - inner2 n m s.bx (gradX 1 m e) := by
    rw [← inner2_sub]; exact inner2_eqOn (fun i _ j _ => by ring) fun _ _ _ _ => rfl
  have u5 : inner2 n m (fun i j => -s.bY i j + s.dy i j) (gradY 1 n e) = inner2 n m s.dy (gradY 1 n e) - inner2 n m s.bY (gradY 1 n e) := by
    rw [← inner2_sub]; exact inner2_eqOn (fun i _ j _ => by ring) fun _ _ _ _ => rfl
  rw [u1, u2, u3] at w1
  rw [u4, u5] at w2
  rw [inner2_sub] at w4
  have key : 2 / lam * (mu * normSq2 n m e + inner2 n m (resid n m mu lam jac f s) e)
      = -(2 * normSq2 n m (gradX 1 m e) + 2 * (inner2 n m s.bx (gradX 1 m e) - inner2 n m bxs (gradX 1 m e) - inner2 n m s.dx (gradX 1 m e) + inner2 n m (gradX 1 m us) (gradX 1 m e))
        + (2 * normSq2 n m (gradY 1 n e) + 2 * (inner2 n m s.bY (gradY 1 n e) - inner2 n m bYs (gradY 1 n e) - inner2 n m s.dy (gradY 1 n e) + inner2 n m (gradY 1 n us) (gradY 1 n e)))) := by
    rw [div_mul_eq_mul_div, div_eq_iff hlam.ne']
    rw [w3, ← w1, w2]
    linear_combination -2 * w4
  unfold lyV chgX chgY
  rw [key]
  linarith

/-! ### the residual -/

theorem rhs_change (s : BStateR) (i j : ℕ) :
    rhsR n m mu lam f (bregNextR n m mu lam jac f s) i j = rhsR n m mu lam f s i j
      + (gradXT lam m (chgX n m mu lam jac f s) i j + gradYT lam n (chgY n m mu lam jac f s) i j) := by
  unfold rhsR gradXT gradYT adjRow chgX chgY
  split_ifs <;> ring

theorem gsQ_two (hmu : 0 < mu) : gsQ mu (2 * mu) = 4 / 5 := by unfold gsQ; field_simp; norm_num

/-- ten or more sweeps -/
theorem resid_norm (hmu : 0 < mu) (hj : 10 ≤ jac) (f : Img) (s : BStateR) :
    normSq2 n m (resid n m mu (2 * mu) jac f s)
      ≤ 4 * (4 / 5) ^ 19 * normSq2 n m (fun i j => rhsR n m mu (2 * mu) f s i j - pixOp n m mu (2 * mu) s.u i j) := by
  obtain ⟨k, rfl⟩ : ∃ k, jac = k + 1 := ⟨jac - 1, by omega⟩
  have h1 := gs_residual_iter (n := n) (m := m) hmu (by linarith : 0 ≤ 2 * mu) (rhsR n m mu (2 * mu) f s) s.u (k + 1)
  have h2 := resOp_norm (n := n) (m := m) hmu (by linarith : 0 ≤ 2 * mu) (fun i j => rhsR n m mu (2 * mu) f s i j - pixOp n m mu (2 * mu) s.u i j) k
  have e : normSq2 n m (resid n m mu (2 * mu) (k + 1) f s) = normSq2 n m ((resOp n m mu (2 * mu))^[k + 1] fun i j => rhsR n m mu (2 * mu) f s i j - pixOp n m mu (2 * mu) s.u i j) := by
    unfold normSq2; exact inner2_eqOn h1 h1
  rw [e]
  refine h2.trans ?_
  rw [gsQ_two hmu]
  have e2 : 2 * (2 * mu) / mu = 4 := by field_simp; norm_num
  rw [e2, ← mul_assoc]
  refine mul_le_mul_of_nonneg_right ?_ (normSq2_nonneg n m _)
  rw [mul_assoc, ← pow_add]
  refine mul_le_mul_of_nonneg_left ?_ (by norm_num)
  exact pow_le_pow_of_le_one (by norm_num) (by norm_num) (by omega)

/-! ### the Lyapunov function -/

/-- invariant: the residual of the current image splits into a part counted by `A` and a part counted by `X` -/
def ResSplit (n m : ℕ) (mu : ℝ) (f : Img) (s : BStateR) (A X : ℝ) : Prop :=
  ∃ ρ x y : Img, normSq2 n m ρ = mu ^ 2 * A ∧ normSq2 n m x + normSq2 n m y = X ∧
    ∀ i < n, ∀ j < m, rhsR n m mu (2 * mu) f s i j - pixOp n m mu (2 * mu) s.u i j
      = ρ i j + (gradXT (2 * mu) m x i j + gradYT (2 * mu) n y i j)

theorem phi_step (hmu : 0 < mu) (hj : 10 ≤ jac) (hS : Saddle n m mu (2 * mu) f us bxs bYs) (hs : Shr n m (2 * mu) s)
    {A X : ℝ} (hr : ResSplit n m mu f s A X) :
    ∃ A' X', ResSplit n m mu f (bregNextR n m mu (2 * mu) jac f s) A' X' ∧
      lyV n m us bxs bYs (bregNextR n m mu (2 * mu) jac f s) + A' / 8 + X'
          + 1 / 10 * normSq2 n m (errImg us (bregNextR n m mu (2 * mu) jac f s))
        ≤ lyV n m us bxs bYs s + A / 8 + X := by
  obtain ⟨ρ, x, y, h1, h2, h3⟩ := hr
  set t := bregNextR n m mu (2 * mu) jac f s with ht
  refine ⟨normSq2 n m (resid n m mu (2 * mu) jac f s) / mu ^ 2,
    normSq2 n m (chgX n m mu (2 * mu) jac f s) + normSq2 n m (chgY n m mu (2 * mu) jac f s),
    ⟨resid n m mu (2 * mu) jac f s, chgX n m mu (2 * mu) jac f s, chgY n m mu (2 * mu) jac f s, by field_simp, rfl, ?_⟩, ?_⟩
  · intro i hi j hj
    rw [rhs_change]
    unfold resid
    ring
  · have s1 := lyV_step (jac := jac) (by linarith : (0 : ℝ) < 2 * mu) hS hs
    have s2 := young (n := n) (m := m) hmu (resid n m mu (2 * mu) jac f s) (errImg us t)
    have s3 := resid_norm (n := n) (m := m) hmu hj f s
    have s4 : normSq2 n m (fun i j => rhsR n m mu (2 * mu) f s i j - pixOp n m mu (2 * mu) s.u i j)
        = normSq2 n m (fun i j => ρ i j + (gradXT (2 * mu) m x i j + gradYT (2 * mu) n y i j)) := by
      unfold normSq2; exact inner2_eqOn h3 h3
    have s5 := normSq2_add_le (n := n) (m := m) ρ fun i j => gradXT (2 * mu) m x i j + gradYT (2 * mu) n y i j
    have s6 := div_norm (n := n) (m := m) (lam := 2 * mu) x y
    rw [h2] at s6
    rw [h1] at s5
    rw [s4] at s3
    have hA : 0 ≤ A := by
      have := normSq2_nonneg n m ρ
      rw [h1] at this
      exact nonneg_of_mul_nonneg_right this (by positivity)
    have hX : 0 ≤ X := by
      rw [← h2]; exact add_nonneg (normSq2_nonneg ..) (normSq2_nonneg ..)
    have s7 : normSq2 n m (resid n m mu (2 * mu) jac f s) / mu ^ 2 ≤ 4 * (4 / 5) ^ 19 * (4 * A + 128 / 3 * X) := by
      rw [div_le_iff₀ (by positivity)]
      refine s3.trans ?_
      rw [mul_assoc (4 * (4 / 5) ^ 19)]
      refine mul_le_mul_of_nonneg_left ?_ (by norm_num)
      nlinarith
    set a := normSq2 n m (resid n m mu (2 * mu) jac f s) / mu ^ 2 with ha
    have e1 : 2 / (2 * mu) * (mu * normSq2 n m (errImg us t) + inner2 n m (resid n m mu (2 * mu) jac f s) (errImg us t))
        = normSq2 n m (errImg us t) + 1 / mu * inner2 n m (resid n m mu (2 * mu) jac f s) (errImg us t) := by
      field_simp
    rw [e1] at s1
    have s8 : (5 / 18 + 1 / 8) * a ≤ A / 8 + X := by
      have c1 : (5 / 18 + 1 / 8) * (4 * (4 / 5) ^ 19 * 4) ≤ (1 / 8 : ℝ) := by norm_num
      have c2 : (5 / 18 + 1 / 8) * (4 * (4 / 5) ^ 19 * (128 / 3)) ≤ (1 : ℝ) := by norm_num
      have d1 := mul_le_mul_of_nonneg_right c1 hA
      have d2 := mul_le_mul_of_nonneg_right c2 hX
      have d3 := mul_le_mul_of_nonneg_left s7 (by norm_num : (0 : ℝ) ≤ 5 / 18 + 1 / 8)
      linarith
    linarith

theorem res_zero (f : Img) : ResSplit n m mu f (bregIterR n m mu (2 * mu) jac f 0) 0
    (normSq2 n m (gradX 1 m f) + normSq2 n m (gradY 1 n f)) := by
  refine ⟨fun _ _ => 0, fun i j => -gradX 1 m f i j, fun i j => -gradY 1 n f i j, ?_, ?_, ?_⟩
  · unfold normSq2 inner2; simp
  · unfold normSq2 inner2; simp
  · intro i hi j hj
    have h := lap_pix n m f hi hj
    have e1 : rhsR n m mu (2 * mu) f (bregIterR n m mu (2 * mu) jac f 0) i j = mu * f i j := by
      unfold rhsR gradXT gradYT adjRow; simp [bregIterR]
    have e2 : gradXT (2 * mu) m (fun i j => -gradX 1 m f i j) i j + gradYT (2 * mu) n (fun i j => -gradY 1 n f i j) i j
        = -(2 * mu) * (gradXT 1 m (gradX 1 m f) i j + gradYT 1 n (gradY 1 n f) i j) := by
      unfold gradXT gradYT adjRow; split_ifs <;> ring
    rw [e1, e2, h]
    show mu * f i j - pixOp n m mu (2 * mu) f i j = _
    unfold pixOp
    ring

theorem lyV_nonneg (s : BStateR) : 0 ≤ lyV n m us bxs bYs s := by
  unfold lyV
  exact add_nonneg (add_nonneg (normSq2_nonneg ..) (normSq2_nonneg ..)) (add_nonneg (normSq2_nonneg ..) (normSq2_nonneg ..))

/-- the errors of all iterates are square summable -/
theorem err_sum (hmu : 0 < mu) (hj : 10 ≤ jac) (hS : Saddle n m mu (2 * mu) f us bxs bYs) (K : ℕ) :
    ∑ k ∈ range K, normSq2 n m (errImg us (bregIterR n m mu (2 * mu) jac f (k + 1)))
      ≤ 10 * (lyV n m us bxs bYs (bregIterR n m mu (2 * mu) jac f 0) + (normSq2 n m (gradX 1 m f) + normSq2 n m (gradY 1 n f))) := by
  have key : ∀ K, ∃ A X, 0 ≤ A ∧ 0 ≤ X ∧ ResSplit n m mu f (bregIterR n m mu (2 * mu) jac f K) A X ∧
      Shr n m (2 * mu) (bregIterR n m mu (2 * mu) jac f K) ∧
      lyV n m us bxs bYs (bregIterR n m mu (2 * mu) jac f K) + A / 8 + X
        + 1 / 10 * ∑ k ∈ range K, normSq2 n m (errImg us (bregIterR n m mu (2 * mu) jac f (k + 1)))
      ≤ lyV n m us bxs bYs (bregIterR n m mu (2 * mu) jac f 0) + (normSq2 n m (gradX 1 m f) + normSq2 n m (gradY 1 n f)) := by
    intro K
    induction K with
    | zero =>
      exact ⟨0, _, le_rfl, add_nonneg (normSq2_nonneg ..) (normSq2_nonneg ..), res_zero f, shr_zero (by linarith) f, by simp⟩
    | succ K ih =>
      obtain ⟨A, X, -, -, h3, h4, h5⟩ := ih
      obtain ⟨A', X', g1, g2⟩ := phi_step hmu hj hS h4 h3
      have hA : 0 ≤ A' := by
        obtain ⟨ρ, -, -, q, -⟩ := g1
        have := normSq2_nonneg n m ρ
        rw [q] at this
        exact nonneg_of_mul_nonneg_right this (by positivity)
      have hX : 0 ≤ X' := by
        obtain ⟨-, x, y, -, q, -⟩ := g1
        rw [← q]; exact add_nonneg (normSq2_nonneg ..) (normSq2_nonneg ..)
      refine ⟨A', X', hA, hX, g1, shr_next (by linarith), ?_⟩
      rw [sum_range_succ]
      show lyV n m us bxs bYs (bregNextR ..) + A' / 8 + X' + 1 / 10 * (_ + normSq2 n m (errImg us (bregNextR ..))) ≤ _
      linarith
  obtain ⟨A, X, h1, h2, -, -, h5⟩ := key K
  have := lyV_nonneg (n := n) (m := m) (us := us) (bxs := bxs) (bYs := bYs) (bregIterR n m mu (2 * mu) jac f K)
  linarith

/-! ### the starting value in terms of the input image -/

theorem normSq2_le_norm1 (u : Img) : normSq2 n m u ≤ norm1 n m u ^ 2 := by
  have h0 : 0 ≤ norm1 n m u := sum_nonneg fun i _ => sum_nonneg fun j _ => abs_nonneg _
  have hb : ∀ i < n, ∀ j < m, |u i j| ≤ norm1 n m u := fun i hi j hj => by
    have h1 : |u i j| ≤ ∑ j ∈ range m, |u i j| :=
      single_le_sum (f := fun j => |u i j|) (fun j _ => abs_nonneg _) (mem_range.2 hj)
    exact h1.trans (single_le_sum (f := fun i => ∑ j ∈ range m, |u i j|)
      (fun i _ => sum_nonneg fun j _ => abs_nonneg _) (mem_range.2 hi))
  have e : norm1 n m u ^ 2 = sum2 n m fun i j => norm1 n m u * |u i j| := by
    rw [sum2_smul, sq]; rfl
  rw [e, normSq2_sum2]
  refine sum2_le fun i hi j hj => ?_
  rw [← sq_abs, sq]
  exact mul_le_mul_of_nonneg_right (hb i hi j hj) (abs_nonneg _)

theorem norm1_nonneg (u : Img) : 0 ≤ norm1 n m u := sum_nonneg fun _ _ => sum_nonneg fun _ _ => abs_nonneg _

theorem box_norm {b : Img} (h : ∀ i < n, ∀ j < m, |b i j| ≤ 1 / lam) :
    normSq2 n m b ≤ n * m / lam ^ 2 := by
  have e : (n * m / lam ^ 2 : ℝ) = sum2 n m fun _ _ => 1 / lam ^ 2 := by
    unfold sum2; simp; ring
  rw [e, normSq2_sum2]
  refine sum2_le fun i hi j hj => ?_
  rw [← sq_abs, one_div, ← inv_pow, ← one_div]
  exact pow_le_pow_left₀ (abs_nonneg _) (h i hi j hj) 2

theorem start_bound (hmu : 0 < mu) (hS : Saddle n m mu (2 * mu) f us bxs bYs) :
    10 * (lyV n m us bxs bYs (bregIterR n m mu (2 * mu) jac f 0) + (normSq2 n m (gradX 1 m f) + normSq2 n m (gradY 1 n f)))
      ≤ 20 * (norm1 n m (gradX 1 m f) + norm1 n m (gradY 1 n f)) ^ 2 + 5 * (n * m) / mu ^ 2 := by
  have hl : (0 : ℝ) < 2 * mu := by linarith
  have neg : ∀ v : Img, normSq2 n m (fun i j => 0 - v i j) = normSq2 n m v := fun v => by
    unfold normSq2 inner2; exact sum_congr rfl fun i _ => sum_congr rfl fun j _ => by ring
  have e : lyV n m us bxs bYs (bregIterR n m mu (2 * mu) jac f 0)
      = normSq2 n m (gradX 1 m us) + normSq2 n m bxs + (normSq2 n m (gradY 1 n us) + normSq2 n m bYs) := by
    rw [← neg (gradX 1 m us), ← neg bxs, ← neg (gradY 1 n us), ← neg bYs]; rfl
  have b1 := box_norm (n := n) (m := m) fun i hi j hj => (saddle_x hl hS hi hj).1
  have b2 := box_norm (n := n) (m := m) fun i hi j hj => (saddle_y hl hS hi hj).1
  have b3 : (n * m / (2 * mu) ^ 2 : ℝ) = n * m / mu ^ 2 / 4 := by rw [mul_pow]; field_simp; norm_num
  rw [b3] at b1 b2
  have h1 := hS.strong f
  unfold tvObj at h1
  have z : normSq2 n m (fun i j => f i j - f i j) = 0 := by unfold normSq2 inner2; simp
  rw [z] at h1
  have h2 : 0 ≤ mu / 2 * normSq2 n m (fun i j => us i j - f i j) := mul_nonneg (by linarith) (normSq2_nonneg ..)
  have h3 : 0 ≤ mu / 2 * normSq2 n m (fun i j => f i j - us i j) := mul_nonneg (by linarith) (normSq2_nonneg ..)
  have h4 : norm1 n m (gradX 1 m us) + norm1 n m (gradY 1 n us) ≤ norm1 n m (gradX 1 m f) + norm1 n m (gradY 1 n f) := by linarith
  have p1 := norm1_nonneg (n := n) (m := m) (gradX 1 m us)
  have p2 := norm1_nonneg (n := n) (m := m) (gradY 1 n us)
  have p3 := norm1_nonneg (n := n) (m := m) (gradX 1 m f)
  have p4 := norm1_nonneg (n := n) (m := m) (gradY 1 n f)
  have q1 := normSq2_le_norm1 (n := n) (m := m) (gradX 1 m us)
  have q2 := normSq2_le_norm1 (n := n) (m := m) (gradY 1 n us)
  have q3 := normSq2_le_norm1 (n := n) (m := m) (gradX 1 m f)
  have q4 := normSq2_le_norm1 (n := n) (m := m) (gradY 1 n f)
  have r1 : (norm1 n m (gradX 1 m us) + norm1 n m (gradY 1 n us)) ^ 2 ≤ (norm1 n m (gradX 1 m f) + norm1 n m (gradY 1 n f)) ^ 2 :=
    pow_le_pow_left₀ (by linarith) h4 2
  have r2 : norm1 n m (gradX 1 m us) ^ 2 + norm1 n m (gradY 1 n us) ^ 2 ≤ (norm1 n m (gradX 1 m us) + norm1 n m (gradY 1 n us)) ^ 2 := by nlinarith
  have r3 : norm1 n m (gradX 1 m f) ^ 2 + norm1 n m (gradY 1 n f) ^ 2 ≤ (norm1 n m (gradX 1 m f) + norm1 n m (gradY 1 n f)) ^ 2 := by nlinarith
  have e5 : (5 * (n * m) / mu ^ 2 : ℝ) = 5 * (n * m / mu ^ 2) := by ring
  rw [e, e5]
  linarith

end L1c
