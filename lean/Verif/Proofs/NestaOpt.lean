import Verif.Proofs.NestaFin
import Mathlib.Topology.Order.Compact
import Mathlib.Analysis.Matrix.Normed

/-! # How far a point returned by NESTA is from the optimum -/

namespace L1c
open Scalar Matrix

variable {n m p : ℕ} {σ : Type}
variable {A : Matrix (Fin n) (Fin m) ℝ} {W : Matrix (Fin m) (Fin p) ℝ} {b : Fin n → ℝ} {sigma c mu K : ℝ}

/-! ## The second sequence and the mixed point -/

/-- the points `z_k` stay as close to a minimiser as the start -/
theorem accel_z {f : (Fin m → ℝ) → ℝ} {g : (Fin m → ℝ) → Fin m → ℝ} {xo : Fin m → ℝ} {x y z : ℕ → Fin m → ℝ}
    (hA : A * Aᵀ = 1) (hs : 0 < sigma) (hc : 0 < c) (S : AccelSeq A b sigma c g xo x y z)
    (hlow : ∀ x y, f x + g x ⬝ᵥ (y - x) ≤ f y)
    (hup : ∀ x y, f y ≤ f x + g x ⬝ᵥ (y - x) + c / 2 * ((y - x) ⬝ᵥ (y - x))) (k : ℕ) (w : Fin m → ℝ)
    (hw : Feas A b sigma w) (hmin : ∀ v, Feas A b sigma v → f w ≤ f v) : nrm (z k - w) ≤ nrm (w - xo) := by
  have hzf : Feas A b sigma (z k) := by rw [S.hz k]; exact projR_feas hA hs hc _ _
  have hyf : Feas A b sigma (y k) := by rw [S.hy k]; exact projR_feas hA hs hc _ _
  have h1 := accel hA hs hc S hlow hup k (z k) hzf
  have h2 : psi f g c xo x k (z k) + c / 2 * ((w - z k) ⬝ᵥ (w - z k)) ≤ psi f g c xo x k w := by
    have := projR_opt hA hs hc xo (∑ i ∈ Finset.range (k + 1), ((i + 1 : ℝ) / 2) • g (x i)) w hw
    rw [← S.hz k] at this
    rw [psi_eq, psi_eq]; linarith
  have hsum : ∀ k : ℕ, ∑ i ∈ Finset.range (k + 1), ((i + 1 : ℝ) / 2) = (k + 1) * (k + 2) / 4 := by
    intro k
    induction k with
    | zero => simp; norm_num
    | succ k ih => rw [Finset.sum_range_succ, ih]; push_cast; ring
  have h3 : psi f g c xo x k w ≤ c / 2 * ((w - xo) ⬝ᵥ (w - xo)) + (k + 1) * (k + 2) / 4 * f w := by
    unfold psi
    have : ∑ i ∈ Finset.range (k + 1), ((i + 1 : ℝ) / 2) * (f (x i) + g (x i) ⬝ᵥ (w - x i)) ≤ (k + 1) * (k + 2) / 4 * f w := by
      rw [← hsum, Finset.sum_mul]
      exact Finset.sum_le_sum fun i _ => mul_le_mul_of_nonneg_left (hlow _ _) (by positivity)
    linarith
  have h4 : ((k + 1 : ℝ) * (k + 2) / 4) * f w ≤ ((k + 1 : ℝ) * (k + 2) / 4) * f (y k) :=
    mul_le_mul_of_nonneg_left (hmin _ hyf) (by positivity)
  have h5 : c / 2 * ((w - z k) ⬝ᵥ (w - z k)) ≤ c / 2 * ((w - xo) ⬝ᵥ (w - xo)) := by linarith
  have h6 := le_of_mul_le_mul_left h5 (by positivity)
  refine nrm_le_of_sq (nrm_nonneg _) ?_
  rw [nrm_sq]
  have e : z k - w = -(w - z k) := by abel
  rw [e, neg_dotProduct, dotProduct_neg, neg_neg]
  exact h6

theorem smUv_nrm (hmu : 0 < mu) (w : Fin p → ℝ) : nrm (smUv mu w) ≤ √p := by
  refine nrm_le_of_sq (Real.sqrt_nonneg _) ?_
  rw [Real.mul_self_sqrt (Nat.cast_nonneg _)]
  have : ∀ i ∈ Finset.univ, smUv mu w i * smUv mu w i ≤ 1 := fun i _ => by
    have h := abs_le.1 (smU_abs_le hmu (w i))
    show smU mu (w i) * smU mu (w i) ≤ 1
    nlinarith
  have := Finset.sum_le_sum this
  simpa [dotProduct] using this

/-- the smoothed objective grows at most linearly -/
theorem comp_lip (hmu : 0 < mu) (hK : ∀ x, nrm (Wᵀ *ᵥ x) ≤ K * nrm x) (x y : Fin m → ℝ) :
    smF mu (Wᵀ *ᵥ x) ≤ smF mu (Wᵀ *ᵥ y) + √p * (K * nrm (x - y)) := by
  have h1 := comp_lower (W := W) hmu x y
  rw [dot_gradR] at h1
  have h2 := neg_nrm_le_dot (smUv mu (Wᵀ *ᵥ x)) (Wᵀ *ᵥ (y - x))
  have h3 : nrm (smUv mu (Wᵀ *ᵥ x)) * nrm (Wᵀ *ᵥ (y - x)) ≤ √p * (K * nrm (y - x)) :=
    mul_le_mul (smUv_nrm hmu _) (hK _) (nrm_nonneg _) (Real.sqrt_nonneg _)
  have e : nrm (y - x) = nrm (x - y) := by
    rw [show y - x = -(x - y) by abel, nrm, neg_dotProduct, dotProduct_neg, neg_neg, nrm]
  rw [e] at h3
  linarith

theorem comp_convex (hmu : 0 < mu) {t : ℝ} (h0 : 0 ≤ t) (h1 : t ≤ 1) (x y : Fin m → ℝ) :
    smF mu (Wᵀ *ᵥ (t • x + (1 - t) • y)) ≤ t * smF mu (Wᵀ *ᵥ x) + (1 - t) * smF mu (Wᵀ *ᵥ y) := by
  set v := t • x + (1 - t) • y with hv
  have hx := comp_lower (W := W) hmu v x
  have hy := comp_lower (W := W) hmu v y
  have ex : x - v = (1 - t) • (x - y) := by rw [hv]; module
  have ey : y - v = (-t) • (x - y) := by rw [hv]; module
  rw [ex, dotProduct_smul, smul_eq_mul] at hx
  rw [ey, dotProduct_smul, smul_eq_mul] at hy
  generalize gradR mu W v ⬝ᵥ (x - y) = G at *
  nlinarith [mul_le_mul_of_nonneg_left hx h0, mul_le_mul_of_nonneg_left hy (by linarith : 0 ≤ 1 - t)]

theorem seqR_opt (hA : A * Aᵀ = 1) (hs : 0 < sigma) (hm : 0 < mu) (hK0 : 0 < K) (hK : ∀ x, nrm (Wᵀ *ᵥ x) ≤ K * nrm x)
    {xo w : Fin m → ℝ} (hw : Feas A b sigma w) (hmin : ∀ v, Feas A b sigma v → smF mu (Wᵀ *ᵥ w) ≤ smF mu (Wᵀ *ᵥ v)) (k : ℕ) :
    smF mu (Wᵀ *ᵥ (seqR A W b sigma mu (K * K) xo (k + 1)).1) ≤ smF mu (Wᵀ *ᵥ w) + nestaErr p K mu (k + 1) (nrm (w - xo)) := by
  have hc : 0 < K * K / mu := div_pos (mul_self_pos.2 hK0.ne') hm
  have S := seqR_accel (A := A) (W := W) (b := b) (sigma := sigma) (mu := mu) (L := K * K) (xo := xo)
  have hl := fun x y => comp_lower (W := W) hm x y
  have hu := fun x y => comp_upper (W := W) hm hK x y
  have hy := accel_rate hA hs hc S (f := fun x => smF mu (Wᵀ *ᵥ x)) hl hu k w hw
  have hz := accel_z hA hs hc S (f := fun x => smF mu (Wᵀ *ᵥ x)) hl hu k w hw hmin
  have hz2 := comp_lip hm hK (seqZ A W b sigma mu (K * K) xo k) w
  have hk : (0 : ℝ) < k + 3 := by positivity
  have ht0 : 0 ≤ 2 / (k + 3 : ℝ) := by positivity
  have ht1 : 2 / (k + 3 : ℝ) ≤ 1 := by rw [div_le_one hk]; have : (0 : ℝ) ≤ k := Nat.cast_nonneg k; linarith
  have hx := comp_convex (W := W) hm ht0 ht1 (seqZ A W b sigma mu (K * K) xo k) (seqY A W b sigma mu (K * K) xo k)
  rw [show (seqR A W b sigma mu (K * K) xo (k + 1)).1 = (2 / (k + 3 : ℝ)) • seqZ A W b sigma mu (K * K) xo k + (1 - 2 / (k + 3 : ℝ)) • seqY A W b sigma mu (K * K) xo k
    from S.hx k]
  have hz3 : smF mu (Wᵀ *ᵥ seqZ A W b sigma mu (K * K) xo k) ≤ smF mu (Wᵀ *ᵥ w) + √p * (K * nrm (w - xo)) := by
    have : √p * (K * nrm (seqZ A W b sigma mu (K * K) xo k - w)) ≤ √p * (K * nrm (w - xo)) :=
      mul_le_mul_of_nonneg_left (mul_le_mul_of_nonneg_left hz hK0.le) (Real.sqrt_nonneg _)
    linarith
  have a1 := mul_le_mul_of_nonneg_left hz3 ht0
  have a2 := mul_le_mul_of_nonneg_left hy (by linarith : 0 ≤ 1 - 2 / (k + 3 : ℝ))
  have e1 : ((k + 1 : ℕ) : ℝ) + 2 = k + 3 := by push_cast; ring
  have e2 : 2 * (K ^ 2 / mu) * nrm (w - xo) ^ 2 / (((k + 1 : ℕ) : ℝ) * (((k + 1 : ℕ) : ℝ) + 1)) =
      2 * (K * K / mu) * ((w - xo) ⬝ᵥ (w - xo)) / ((k + 1) * (k + 2)) := by
    rw [← nrm_sq]; push_cast; ring
  unfold nestaErr
  rw [e1, e2]
  linarith

/-! ## Minimisers exist -/

theorem nrm_cont {k : ℕ} : Continuous fun x : Fin k → ℝ => nrm x :=
  Real.continuous_sqrt.comp (continuous_finsetSum _ fun i _ => (continuous_apply i).mul (continuous_apply i))

theorem nrm_le_l1 (w : Fin p → ℝ) : nrm w ≤ ∑ i, |w i| := by
  refine nrm_le_of_sq (Finset.sum_nonneg fun i _ => abs_nonneg _) ?_
  rw [Finset.sum_mul_sum]
  refine Finset.sum_le_sum fun i _ => ?_
  rw [← abs_mul_abs_self (w i)]
  exact Finset.single_le_sum (f := fun j => |w i| * |w j|) (fun j _ => mul_nonneg (abs_nonneg _) (abs_nonneg _)) (Finset.mem_univ i)

theorem abs_le_nrm (x : Fin m → ℝ) (i : Fin m) : |x i| ≤ nrm x := by
  have h : x i * x i ≤ nrm x * nrm x := by
    rw [nrm_sq]
    exact Finset.single_le_sum (f := fun j => x j * x j) (fun j _ => mul_self_nonneg _) (Finset.mem_univ i)
  exact abs_le_of_sq_le_sq (by nlinarith) (nrm_nonneg _)

theorem exists_smooth_min (hmu : 0 < mu) {a : ℝ} (ha : 0 < a) (hW : ∀ x, a * nrm x ≤ nrm (Wᵀ *ᵥ x)) {x0 : Fin m → ℝ}
    (hx0 : Feas A b sigma x0) :
    ∃ w, Feas A b sigma w ∧ (∀ v, Feas A b sigma v → smF mu (Wᵀ *ᵥ w) ≤ smF mu (Wᵀ *ᵥ v)) ∧
      a * nrm w ≤ smF mu (Wᵀ *ᵥ x0) + p * mu / 2 := by
  have hcoer : ∀ x, a * nrm x ≤ smF mu (Wᵀ *ᵥ x) + p * mu / 2 := fun x =>
    (hW x).trans ((nrm_le_l1 _).trans (l1_le_smF hmu _))
  obtain ⟨K, hK0, hK⟩ := exists_bound W
  have hcont : Continuous fun x => smF mu (Wᵀ *ᵥ x) := by
    rw [continuous_iff_continuousAt]
    intro x
    exact (hasFDerivAt_of_bounds (f := fun x => smF mu (Wᵀ *ᵥ x)) (g := gradR mu W x) (c := K * K / mu / 2) (by positivity)
      (fun y => comp_lower hmu x y) (fun y => comp_upper hmu hK x y)).continuousAt
  set B := smF mu (Wᵀ *ᵥ x0) + p * mu / 2 with hB
  set S : Set (Fin m → ℝ) := {x | Feas A b sigma x ∧ a * nrm x ≤ B} with hS
  have hclosed : IsClosed S := by
    refine IsClosed.inter ?_ ?_
    · exact isClosed_le (nrm_cont.comp (continuous_const.sub (Continuous.matrix_mulVec continuous_const continuous_id))) continuous_const
    · exact isClosed_le (continuous_const.mul nrm_cont) continuous_const
  have hbdd : Bornology.IsBounded S := by
    refine (Metric.isBounded_iff_subset_closedBall 0).2 ⟨B / a, fun x hx => ?_⟩
    rw [mem_closedBall_zero_iff]
    have hBa : nrm x ≤ B / a := by rw [le_div_iff₀ ha, mul_comm]; exact hx.2
    refine (pi_norm_le_iff_of_nonneg ((nrm_nonneg x).trans hBa)).2 fun i => ?_
    rw [Real.norm_eq_abs]
    exact (abs_le_nrm x i).trans hBa
  have hcomp : IsCompact S := Metric.isCompact_of_isClosed_isBounded hclosed hbdd
  obtain ⟨w, hw, hmin⟩ := hcomp.exists_isMinOn ⟨x0, hx0, hcoer x0⟩ hcont.continuousOn
  refine ⟨w, hw.1, fun v hv => ?_, hw.2⟩
  by_cases h : a * nrm v ≤ B
  · exact hmin ⟨hv, h⟩
  · have h1 : smF mu (Wᵀ *ᵥ w) ≤ smF mu (Wᵀ *ᵥ x0) := hmin ⟨hx0, hcoer x0⟩
    have := hcoer v
    linarith

/-! ## Runs -/

section runs
variable {F : Type} [Scalar F] {ax : NAx F σ n m p}

/-- the last continuation step taken apart -/
theorem outer_last (bm bt : F) : ∀ (j : ℕ) (iter : Int) (total : ℕ) (P P1 P2 : NestaProb F n m p) (T k : ℕ) (s s1 s2 : NState σ),
    nestaOuter ax bm bt j iter total P s = some ((P1, T), s1) → nestaContinue ax bm bt P1 s1 = some ((P2, k), s2) →
    iter + j + 1 ≤ INT_MAX → nestaOuter ax bm bt (j + 1) iter total P s = some ((P2, T + k), s2) := by
  intro j
  induction j with
  | zero =>
    intro iter total P P1 P2 T k s s1 s2 h1 h2 hi
    unfold nestaOuter at h1
    rw [if_pos (by push_cast at hi; omega), npure] at h1
    cases h1
    unfold nestaOuter
    rw [nbind h2]
    dsimp only
    unfold nestaOuter
    rw [if_pos (by push_cast at hi; omega), npure]
  | succ j ih =>
    intro iter total P P1 P2 T k s s1 s2 h1 h2 hi
    unfold nestaOuter at h1
    obtain ⟨⟨⟨P', k'⟩, s'⟩, h3, h4⟩ := Option.bind_eq_some_iff.1 h1
    unfold nestaOuter
    rw [nbind h3]
    exact ih (iter + 1) (total + k') P' P1 P2 T k s' s1 s2 h4 h2 (by push_cast at hi; omega)

end runs

variable {Inv : σ → Prop} {D : Dbl → Prop} {ax : NAx Dbl σ n m p}

/-- a whole run on finite data with the last continuation step taken apart -/
theorem nesta_last (R : Realises ax Inv D A W) (hA : A * Aᵀ = 1) {M : ℝ} {opts : NestaOpts Dbl}
    (hsig : opts.sigma = Dbl.fin sigma) (hs : 0 < sigma) (hmu : opts.mu = Dbl.fin mu) (hm : 0 < mu)
    (hK : ax.norm_W = Dbl.fin K) (hK0 : K ≠ 0) (hM : vmax (fvec (absHead m (Wᵀ *ᵥ (Aᵀ *ᵥ b)))) = Dbl.fin M) (hM0 : 0 < M)
    (hN : 1 ≤ opts.n_continue) (hN' : opts.n_continue < INT_MAX) (xk : Vec Dbl m) (s : NState σ) (hI : Inv s.cb) (hwf : s.WF)
    (hal : ∀ i < 11, s.oracle (s.calls + i) = true) :
    ∃ (xo : Fin m → ℝ) (k T : ℕ) (P' : NestaProb Dbl n m p) (s' : NState σ),
      l1c_nesta m n xk (fvec b) ax opts s =
        some (⟨L1C_SUCCESS, fvec (seqR A W b sigma mu (K * K) xo (k + 1)).1, T + (k + 1), some P'⟩, s') ∧
      Feas A b sigma xo ∧ k + 1 ≤ 10000 ∧ (opts.n_continue = 1 → xo = Aᵀ *ᵥ b ∧ T = 0) ∧
      ∃ (P1 P2 : NestaProb Dbl n m p) (bm bt : Dbl) (s1 s2 s3 : NState σ),
        l1c_nesta_setup ax (nestaZero (fvec b)) (fvec b) opts s1 = some ((L1C_SUCCESS, P1, bm, bt), s2) ∧
        nestaOuter ax bm bt (opts.n_continue.toNat - 1) 1 0 { P1 with xk := P1.xo } { s2 with live := insert s2.next s2.live, next := s2.next + 1, calls := s2.calls + 1 } = some ((P2, T), s3) ∧ P2.xk = fvec xo := by
  obtain ⟨s1, e1, -, -, hrun⟩ := nesta_after_setup xk (fvec b) ax opts s hwf (fun i hi => hal i (by omega)) R.notMissing
  obtain ⟨P1, c1, h1, hI1, f1, f2, f3, f4, f5, f6, f7, f8⟩ := setup_fin R (P := nestaZero (fvec b)) R.zero hK b opts hM s1 (e1 ▸ hI)
  have hmu0 : 0 < 9 / 10 * M := by positivity
  obtain ⟨beta, hbeta, hb0, hbN, -⟩ := beta_fin hm hmu0 hN
  rw [hmu, hbeta] at h1
  have hat : OuterAt A D b sigma (9 / 10 * M) (K * K) (Aᵀ *ᵥ b) { P1 with xk := P1.xo } :=
    ⟨⟨f1, f2, f3.trans hsig, f5, f4, f8 R.zero⟩, f7, f7⟩
  have hn := (rows_le hA).trans (le_max_left m p)
  have hL0 := mul_self_pos.2 hK0
  obtain ⟨j, hj⟩ : ∃ j, opts.n_continue.toNat = j + 1 := ⟨opts.n_continue.toNat - 1, by omega⟩
  set s2 : NState σ := { s1 with live := insert s1.next s1.live, next := s1.next + 1, calls := s1.calls + 1, cb := c1 } with hs2
  obtain ⟨P2, T, c2, xo, g1, g2, g3, g4, -⟩ := outer_fin R hA hn hs hb0 hL0 (fexp (flog (opts.tol / Dbl.fin (1 / 10)) / lit opts.n_continue)) j 1 0 _ _ _ s2 hmu0 hat
    (proj_init_feas hA hs b) (by omega) hI1
  have hmj : 9 / 10 * M * beta ^ j * beta = mu := by rw [mul_assoc, ← pow_succ, ← hj]; exact hbN
  obtain ⟨P3, k, c3, k1, k2, k3, k4, -, -⟩ := continue_fin R hn hs (hmj ▸ hm) hL0 g3
    (fexp (flog (opts.tol / Dbl.fin (1 / 10)) / lit opts.n_continue)) { s2 with cb := c2 } g2
  have hlast := outer_last _ _ j 1 0 _ _ _ _ _ _ _ _ g1 k1 (by omega)
  rw [hmj] at k4
  refine ⟨xo, k, T, P3, { s2 with live := s.live, cb := c3 }, ?_, g4, k3, ?_, P1, P2, _, _, s1, _, { s2 with cb := c2 }, h1, ?_, g3.hxk⟩
  · rw [hrun, h1, Option.bind_some, if_pos (hal 10 (by omega))]
    dsimp only
    rw [hj, hlast, Option.map_some]
    dsimp only
    rw [k4.hxk]
  · intro hN1
    have hj0 : j = 0 := by omega
    subst hj0
    unfold nestaOuter at g1
    rw [if_pos (by decide), npure] at g1
    have e := Prod.mk.inj (Prod.mk.inj (Option.some.inj g1)).1
    refine ⟨?_, e.2.symm⟩
    have := g3.hxk.symm.trans ((congrArg NestaProb.xk e.1).symm.trans f7)
    funext i
    exact Dbl.fin.inj (congrFun this i)
  · rw [hj]; exact g1

/-! ### No early stop -/

/-- nonnegative finite entries -/
def FifoNonneg (q : Fifo Dbl) : Prop := ∀ i, ∃ r : ℝ, 0 ≤ r ∧ q.f_vals i = Dbl.fin r

theorem fifoNonneg_new : FifoNonneg fifoNew := fun i => ⟨0, le_rfl, by simp [fifoNew]⟩

theorem fifoNonneg_push {q : Fifo Dbl} (h : FifoNonneg q) {r : ℝ} (hr : 0 ≤ r) : FifoNonneg (fifoPush q (Dbl.fin r)) := by
  intro i
  show ∃ r', _ ∧ Function.update q.f_vals q.next (Dbl.fin r) i = _
  by_cases hi : i = q.next
  · subst hi; exact ⟨r, hr, by simp⟩
  · rw [Function.update_of_ne hi]; exact h i

/-- the tolerance cannot be undercut -/
def NoTol (t : Dbl) : Prop := t = Dbl.nan ∨ ∃ r : ℝ, r ≤ 0 ∧ t = Dbl.fin r

theorem no_stop {q : Fifo Dbl} (h : FifoNonneg q) (f : ℝ) {t : Dbl} (ht : NoTol t) :
    flt (fabs (Dbl.fin f - fifoMean q) / fifoMean q) t = false := by
  rcases ht with rfl | ⟨r, hr, rfl⟩
  · simp
  choose v hv0 hv using h
  have hsum : dsum q.f_vals = Dbl.fin (∑ i, v i) := by
    rw [show q.f_vals = fvec v from funext hv, dsum_fvec]
  have hv1 : 0 ≤ ∑ i, v i := Finset.sum_nonneg fun i _ => hv0 i
  rw [Bool.eq_false_iff, Ne, Dbl.flt_iff]
  unfold fifoMean
  rw [hsum, Dbl.lit_eq, Dbl.fin_div']
  have hq : (0 : ℝ) ≤ ((q.n_total : ℚ) : ℝ) := by positivity
  by_cases h0 : ((q.n_total : ℚ) : ℝ) = 0
  · rw [if_pos h0]
    unfold Dbl.infMul
    split
    · simp [Dbl.Lt]
    · rw [if_pos (lt_of_le_of_ne hv1 (Ne.symm ‹_›))]
      exact id
  · rw [if_neg h0, Dbl.fin_sub, Dbl.fabs_fin, Dbl.fin_div']
    have hm : 0 ≤ (∑ i, v i) / ((q.n_total : ℚ) : ℝ) := div_nonneg hv1 hq
    split
    · unfold Dbl.infMul
      split
      · exact id
      · rw [if_pos (lt_of_le_of_ne (abs_nonneg _) (Ne.symm ‹_›))]
        exact id
    · intro hlt
      have : |f - (∑ i, v i) / ((q.n_total : ℚ) : ℝ)| / ((∑ i, v i) / ((q.n_total : ℚ) : ℝ)) < r := hlt
      have h2 := div_nonneg (abs_nonneg (f - (∑ i, v i) / ((q.n_total : ℚ) : ℝ))) hm
      linarith

/-- with such a tolerance the inner loop makes all its iterations -/
theorem inner_full (R : Realises ax Inv D A W) (hn : n ≤ max m p) (hs : 0 < sigma) (hm : 0 < mu) {L : ℝ} (hL0 : 0 < L) {xo : Fin m → ℝ} {tol : Dbl}
    (ht : NoTol tol) : ∀ (fuel k : ℕ) (st st' : NLoop Dbl n m p) (K : ℕ) (s s' : NState σ), InnerAt A W D b sigma mu L xo tol k st.P → FifoNonneg st.fifo →
      Inv s.cb → nestaInner ax fuel k st s = some ((st', K), s') → K = k + fuel := by
  intro fuel
  induction fuel with
  | zero =>
    intro k st st' K s s' _ _ _ h
    cases h; rfl
  | succ fuel ih =>
    intro k st st' K s s' h hf hI hrun
    obtain ⟨P', c', hb, hI', hF', hxo', -, hxk', hgs', hyk', -, htol', -, -⟩ :=
      body_fin R hn h.fix hs hm hL0 h.hxo h.hxk h.hgs k s hI
    have hat : InnerAt A W D b sigma mu L xo tol (k + 1) P' :=
      ⟨hF', hxo', hxk', hgs', fun j hj => by obtain rfl : k = j := by omega
                                             exact hyk', htol'.trans h.htol⟩
    unfold nestaInner at hrun
    rw [nbind hb] at hrun
    dsimp only at hrun
    rw [h.htol, no_stop hf _ ht, if_neg (by simp)] at hrun
    have := ih (k + 1) _ _ _ _ _ hat (fifoNonneg_push hf (smF_nonneg hm _)) hI' hrun
    omega

/-- factor of the tolerance schedule for a nonpositive target -/
theorem beta_tol_nonpos {t : ℝ} (ht : t ≤ 0) {N : Int} (hN : 1 ≤ N) :
    fexp (flog (Dbl.fin t / Dbl.fin (1 / 10)) / lit N) = Dbl.nan ∨ fexp (flog (Dbl.fin t / Dbl.fin (1 / 10)) / lit N) = Dbl.fin 0 := by
  rw [Dbl.fin_div (by norm_num), Dbl.flog_fin']
  rcases lt_or_eq_of_le ht with h | rfl
  · left
    rw [if_pos (by linarith), Dbl.nan_div]; rfl
  · right
    rw [if_neg (by norm_num), if_pos (by norm_num), Dbl.lit_eq]
    have : (Dbl.ninf / Dbl.fin ((N : ℚ) : ℝ) : Dbl) = Dbl.ninf := by
      show (if 0 ≤ ((N : ℚ) : ℝ) then Dbl.ninf else Dbl.pinf) = _
      rw [if_pos]
      have : (0 : Int) ≤ N := by omega
      exact_mod_cast this
    rw [this]; rfl

theorem noTol_mul {a bt : Dbl} (ha : a = Dbl.nan ∨ ∃ r : ℝ, a = Dbl.fin r) (hb : bt = Dbl.nan ∨ bt = Dbl.fin 0) :
    NoTol (a * bt) := by
  rcases hb with rfl | rfl
  · left; simp
  · rcases ha with rfl | ⟨r, rfl⟩
    · left; simp
    · right; exact ⟨0, le_rfl, by rw [Dbl.fin_mul, mul_zero]⟩

/-- with a nonpositive target tolerance every continuation step makes 10000 iterations -/
theorem outer_full (R : Realises ax Inv D A W) (hA : A * Aᵀ = 1) (hs : 0 < sigma) {beta L : ℝ} (hbeta : 0 < beta) (hL0 : 0 < L)
    {bt : Dbl} (hbt : bt = Dbl.nan ∨ bt = Dbl.fin 0) : ∀ (fuel : ℕ) (iter : Int) (total : ℕ) (P P' : NestaProb Dbl n m p) (T : ℕ) (mu : ℝ) (xo : Fin m → ℝ) (s s' : NState σ),
      0 < mu → OuterAt A D b sigma mu L xo P → Feas A b sigma xo → (P.tol_j = Dbl.nan ∨ ∃ r : ℝ, P.tol_j = Dbl.fin r) → Inv s.cb →
      nestaOuter ax (Dbl.fin beta) bt fuel iter total P s = some ((P', T), s') → T = total + 10000 * fuel := by
  have hn := (rows_le hA).trans (le_max_left m p)
  intro fuel
  induction fuel with
  | zero =>
    intro iter total P P' T mu xo s s' _ _ _ _ _ h
    unfold nestaOuter at h
    split at h
    · cases h; rfl
    · cases h
  | succ fuel ih =>
    intro iter total P P' T mu xo s s' hmu h hx ht hI hrun
    have hmb := mul_pos hmu hbeta
    obtain ⟨P1, K, c1, h1, hI1, -, hO, -, ht1⟩ := continue_fin R hn hs hmb hL0 h bt s hI
    have hno := noTol_mul ht hbt
    have hK : K + 1 = 10000 := by
      have h2 := h1
      unfold nestaContinue at h2
      obtain ⟨⟨⟨st', k⟩, s1⟩, h3, h4⟩ := Option.bind_eq_some_iff.1 h2
      have := inner_full R hn hs hmb hL0 hno _ _ _ _ _ _ _ (reset_at (W := W) h bt) fifoNonneg_new hI h3
      have hk := (Prod.mk.inj (Prod.mk.inj (Option.some.inj h4)).1).2
      simp only [L1C_NESTA_MAX_INNER_ITER] at this
      omega
    unfold nestaOuter at hrun
    rw [nbind h1] at hrun
    have := ih (iter + 1) (total + (K + 1)) P1 P' T (mu * beta) _ _ s' hmb hO (seqR_feas hA hs hmb hL0 K) ?_ hI1 hrun
    · omega
    · rw [ht1]
      rcases hno with h | ⟨r, -, h⟩
      · exact Or.inl h
      · exact Or.inr ⟨r, h⟩

/-- a whole run with a nonpositive tolerance -/
theorem nesta_full (R : Realises ax Inv D A W) (hA : A * Aᵀ = 1) {M t : ℝ} {opts : NestaOpts Dbl}
    (hsig : opts.sigma = Dbl.fin sigma) (hs : 0 < sigma) (hmu : opts.mu = Dbl.fin mu) (hm : 0 < mu) (htol : opts.tol = Dbl.fin t) (ht : t ≤ 0)
    (hK : ax.norm_W = Dbl.fin K) (hK0 : K ≠ 0) (hM : vmax (fvec (absHead m (Wᵀ *ᵥ (Aᵀ *ᵥ b)))) = Dbl.fin M) (hM0 : 0 < M)
    (hN : 1 ≤ opts.n_continue) (xk : Vec Dbl m) (s : NState σ) (hI : Inv s.cb) (hwf : s.WF)
    (hal : ∀ i < 11, s.oracle (s.calls + i) = true) {out : NestaOut Dbl n m p} {s' : NState σ}
    (hrun : l1c_nesta m n xk (fvec b) ax opts s = some (out, s')) : (out.inner : Int) = 10000 * opts.n_continue := by
  obtain ⟨s1, e1, -, -, hr⟩ := nesta_after_setup xk (fvec b) ax opts s hwf (fun i hi => hal i (by omega)) R.notMissing
  obtain ⟨P1, c1, h1, hI1, f1, f2, f3, f4, f5, f6, f7, f8⟩ := setup_fin R (P := nestaZero (fvec b)) R.zero hK b opts hM s1 (e1 ▸ hI)
  have hmu0 : 0 < 9 / 10 * M := by positivity
  obtain ⟨beta, hbeta, hb0, -, -⟩ := beta_fin hm hmu0 hN
  rw [hmu, hbeta] at h1
  have hat : OuterAt A D b sigma (9 / 10 * M) (K * K) (Aᵀ *ᵥ b) { P1 with xk := P1.xo } :=
    ⟨⟨f1, f2, f3.trans hsig, f5, f4, f8 R.zero⟩, f7, f7⟩
  rw [hr, h1, Option.bind_some, if_pos (hal 10 (by omega))] at hrun
  obtain ⟨⟨⟨P2, T⟩, s2⟩, h2, h3⟩ := Option.map_eq_some_iff.1 hrun
  have hb := beta_tol_nonpos ht hN
  rw [← htol] at hb
  have := outer_full R hA hs hb0 (mul_self_pos.2 hK0) hb _ _ _ _ _ _ _ _ _ _ hmu0 hat (proj_init_feas hA hs b) (Or.inr ⟨_, f6⟩) hI1 h2
  obtain ⟨rfl, -⟩ := Prod.mk.inj h3
  show (T : Int) = _
  rw [this]; push_cast
  omega

end L1c
