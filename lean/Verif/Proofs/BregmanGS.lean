import Verif.Proofs.BregmanFin
import Mathlib.Tactic.Linarith
import Mathlib.Tactic.Positivity
import Mathlib.Tactic.FieldSimp

/-!
Helper lemmas: what Gauss–Seidel sweeps do to the Euclidean norm of the residual.

A sweep maps the residual `r` to `lam * U δ`, where `δ` solves the forward substitution
`(mu + cnt*lam) δ = r + lam * L δ` (`L`, `U`: sums over the neighbours before/after in the sweep order).  Both steps
are positive, so the Cauchy–Schwarz inequality holds pixel by pixel.
-/

namespace L1c
open Finset

variable {n m : ℕ} {mu lam : ℝ}

/-- neighbours the sweep has already passed -/
noncomputable def loSum (u : Img) (i j : ℕ) : ℝ :=
  (if j = 0 then 0 else u i (j - 1)) + (if i = 0 then 0 else u (i - 1) j)

/-- neighbours the sweep has still to reach -/
noncomputable def upSum (n m : ℕ) (u : Img) (i j : ℕ) : ℝ :=
  (if j + 1 < m then u i (j + 1) else 0) + (if i + 1 < n then u (i + 1) j else 0)

noncomputable def loCnt (i j : ℕ) : ℝ := loSum (fun _ _ => 1) i j
noncomputable def upCnt (n m i j : ℕ) : ℝ := upSum n m (fun _ _ => 1) i j

theorem nbSum_split (u : Img) (i j : ℕ) : nbSum n m u i j = loSum u i j + upSum n m u i j := by
  unfold nbSum loSum upSum; ring

theorem nbCnt_split (i j : ℕ) : nbCnt n m i j = loCnt i j + upCnt n m i j := nbSum_split _ i j

theorem loCnt_bounds (i j : ℕ) : 0 ≤ loCnt i j ∧ loCnt i j ≤ 2 := by
  unfold loCnt loSum; split_ifs <;> norm_num

theorem upCnt_bounds (i j : ℕ) : 0 ≤ upCnt n m i j ∧ upCnt n m i j ≤ 2 := by
  unfold upCnt upSum; split_ifs <;> norm_num

/-- forward substitution -/
def Fwd (n m : ℕ) (mu lam : ℝ) (r δ : Img) : Prop :=
  ∀ i < n, ∀ j < m, (mu + nbCnt n m i j * lam) * δ i j = r i j + lam * loSum δ i j

/-- what one sweep computes -/
theorem gsSweepR_eq (hmu : 0 < mu) (hlam : 0 ≤ lam) (rhs u : Img) {i j : ℕ} (hi : i < n) (hj : j < m) :
    (mu + nbCnt n m i j * lam) * gsSweepR n m mu lam rhs u i j
      = rhs i j + lam * (loSum (gsSweepR n m mu lam rhs u) i j + upSum n m u i j) := by
  have h1 : gsSweepR n m mu lam rhs u i j = _ := gsStateR_stable hj (n * m) (pix_lt hi hj)
  have e1 : (if j = 0 then 0 else gsStateR n m mu lam rhs u (i * m + j) i (j - 1))
      = if j = 0 then 0 else gsSweepR n m mu lam rhs u i (j - 1) := by
    split
    · rfl
    · have hj1 : j - 1 < m := by omega
      rw [gsStateR_stable hj1 _ (by omega)]
      exact (gsStateR_stable hj1 (n * m) (pix_lt hi hj1)).symm
  have e2 : (if i = 0 then 0 else gsStateR n m mu lam rhs u (i * m + j) (i - 1) j)
      = if i = 0 then 0 else gsSweepR n m mu lam rhs u (i - 1) j := by
    split
    · rfl
    · have hi1 : i - 1 < n := by omega
      have hlt : (i - 1) * m + j < i * m + j := by
        have : (i - 1) * m + m = i * m := by
          rw [← Nat.succ_mul]; congr 1; omega
        omega
      rw [gsStateR_stable hj _ hlt]
      exact (gsStateR_stable hj (n * m) (pix_lt hi1 hj)).symm
  have e3 : (if j + 1 < m then gsStateR n m mu lam rhs u (i * m + j) i (j + 1) else 0)
      = if j + 1 < m then u i (j + 1) else 0 := by
    split
    · rename_i h; exact gsStateR_before h _ (by omega)
    · rfl
  have e4 : (if i + 1 < n then gsStateR n m mu lam rhs u (i * m + j) (i + 1) j else 0)
      = if i + 1 < n then u (i + 1) j else 0 := by
    split
    · exact gsStateR_before hj _ (by rw [Nat.add_mul]; omega)
    · rfl
  rw [h1]
  unfold gsPixR
  rw [mul_div_cancel₀ _ (diag_pos hmu hlam i j).ne', nbSum_split]
  unfold loSum upSum
  rw [e1, e2, e3, e4]

/-- induction in the order of the sweep -/
theorem pix_induct {P : ℕ → ℕ → Prop}
    (h : ∀ i < n, ∀ j < m, (j ≠ 0 → P i (j - 1)) → (i ≠ 0 → P (i - 1) j) → P i j) : ∀ i < n, ∀ j < m, P i j := by
  intro i
  induction i with
  | zero =>
    intro hi j
    induction j with
    | zero => intro hj; exact h 0 hi 0 hj (fun c => absurd rfl c) fun c => absurd rfl c
    | succ j ih => intro hj; exact h 0 hi _ hj (fun _ => ih (by omega)) fun c => absurd rfl c
  | succ i ihi =>
    intro hi j
    induction j with
    | zero => intro hj; exact h _ hi 0 hj (fun c => absurd rfl c) fun _ => ihi (by omega) 0 hj
    | succ j ih => intro hj; exact h _ hi _ hj (fun _ => ih (by omega)) fun _ => ihi (by omega) _ hj

/-- the forward substitution has a solution for every right-hand side -/
theorem fwd_exists (hmu : 0 < mu) (hlam : 0 ≤ lam) (r : Img) : Fwd n m mu lam r (gsSweepR n m mu lam r fun _ _ => 0) := by
  intro i hi j hj
  rw [gsSweepR_eq hmu hlam r _ hi hj]
  have : upSum n m (fun _ _ => 0) i j = 0 := by unfold upSum; simp
  rw [this, add_zero]

/-- one sweep, seen from the residual -/
theorem gs_residual (hmu : 0 < mu) (hlam : 0 ≤ lam) (rhs u : Img) :
    Fwd n m mu lam (fun i j => rhs i j - pixOp n m mu lam u i j) (fun i j => gsSweepR n m mu lam rhs u i j - u i j) ∧
    ∀ i < n, ∀ j < m, rhs i j - pixOp n m mu lam (gsSweepR n m mu lam rhs u) i j
      = lam * upSum n m (fun i j => gsSweepR n m mu lam rhs u i j - u i j) i j := by
  have lo : ∀ (a b : Img) i j, loSum (fun i j => a i j - b i j) i j = loSum a i j - loSum b i j := by
    intro a b i j; unfold loSum; split_ifs <;> ring
  have up : ∀ (a b : Img) i j, upSum n m (fun i j => a i j - b i j) i j = upSum n m a i j - upSum n m b i j := by
    intro a b i j; unfold upSum; split_ifs <;> ring
  refine ⟨fun i hi j hj => ?_, fun i hi j hj => ?_⟩
  · have h := gsSweepR_eq hmu hlam rhs u hi hj
    rw [lo]
    beta_reduce
    unfold pixOp
    rw [nbSum_split, mul_sub, h]; ring
  · have h := gsSweepR_eq hmu hlam rhs u hi hj
    rw [up]
    unfold pixOp
    rw [nbSum_split, h]; ring

/-! ### the pixelwise Cauchy–Schwarz inequality -/

/-- `r² ≤ p q` with `p, q ≥ 0` -/
def CSq (r p q : ℝ) : Prop := 0 ≤ p ∧ 0 ≤ q ∧ r ^ 2 ≤ p * q

theorem CSq.zero : CSq 0 0 0 := ⟨le_rfl, le_rfl, by norm_num⟩

theorem CSq.add {r p q r' p' q' : ℝ} (h : CSq r p q) (h' : CSq r' p' q') : CSq (r + r') (p + p') (q + q') := by
  obtain ⟨a, b, c⟩ := h
  obtain ⟨a', b', c'⟩ := h'
  refine ⟨by positivity, by positivity, ?_⟩
  have h1 : (r * r') ^ 2 ≤ (p * q') * (p' * q) := by
    have := mul_le_mul c c' (sq_nonneg _) (by positivity)
    nlinarith
  have h2 : 2 * (r * r') ≤ p * q' + p' * q := by
    have h3 : (2 * (r * r')) ^ 2 ≤ (p * q' + p' * q) ^ 2 := by nlinarith [sq_nonneg (p * q' - p' * q)]
    exact le_of_sq_le_sq' h3 (by positivity)
  nlinarith
where
  le_of_sq_le_sq' {x y : ℝ} (h : x ^ 2 ≤ y ^ 2) (hy : 0 ≤ y) : x ≤ y := by
    exact (abs_le_of_sq_le_sq' h hy).2

theorem CSq.smul {r p q c : ℝ} (hc : 0 ≤ c) (h : CSq r p q) : CSq (c * r) (c * p) (c * q) := by
  obtain ⟨a, b, d⟩ := h
  refine ⟨by positivity, by positivity, ?_⟩
  have := mul_le_mul_of_nonneg_left d (sq_nonneg c)
  nlinarith

theorem CSq.ite {P : Prop} [Decidable P] {r p q : ℝ} (h : P → CSq r p q) :
    CSq (if P then r else 0) (if P then p else 0) (if P then q else 0) := by
  split
  · rename_i hp; exact h hp
  · exact .zero

theorem CSq.ite' {P : Prop} [Decidable P] {r p q : ℝ} (h : ¬ P → CSq r p q) :
    CSq (if P then 0 else r) (if P then 0 else p) (if P then 0 else q) := by
  split
  · exact .zero
  · rename_i hp; exact h hp

theorem fwd_csq (hmu : 0 < mu) (hlam : 0 ≤ lam) {r p q δ α β : Img} (h : ∀ i < n, ∀ j < m, CSq (r i j) (p i j) (q i j))
    (hδ : Fwd n m mu lam r δ) (hα : Fwd n m mu lam p α) (hβ : Fwd n m mu lam q β) :
    ∀ i < n, ∀ j < m, CSq (δ i j) (α i j) (β i j) := by
  refine pix_induct fun i hi j hj h1 h2 => ?_
  have hd := diag_pos (n := n) (m := m) hmu hlam i j
  have key : CSq ((mu + nbCnt n m i j * lam) * δ i j) ((mu + nbCnt n m i j * lam) * α i j) ((mu + nbCnt n m i j * lam) * β i j) := by
    rw [hδ i hi j hj, hα i hi j hj, hβ i hi j hj]
    exact (h i hi j hj).add (((CSq.ite' h1).add (CSq.ite' h2)).smul hlam)
  have := key.smul (inv_nonneg.2 hd.le)
  rwa [inv_mul_cancel_left₀ hd.ne', inv_mul_cancel_left₀ hd.ne', inv_mul_cancel_left₀ hd.ne'] at this

theorem up_csq {δ α β : Img} (h : ∀ i < n, ∀ j < m, CSq (δ i j) (α i j) (β i j)) {i j : ℕ} (hi : i < n) (hj : j < m) :
    CSq (upSum n m δ i j) (upSum n m α i j) (upSum n m β i j) :=
  (CSq.ite fun c => h i hi _ c).add (CSq.ite fun c => h _ c j hj)

/-! ### the operator of one sweep on the residual -/

/-- residual after a sweep as a function of the residual before -/
noncomputable def resOp (n m : ℕ) (mu lam : ℝ) (r : Img) : Img := fun i j =>
  lam * upSum n m (gsSweepR n m mu lam r fun _ _ => 0) i j

theorem resOp_csq (hmu : 0 < mu) (hlam : 0 ≤ lam) {r p q : Img} (h : ∀ i < n, ∀ j < m, CSq (r i j) (p i j) (q i j)) :
    ∀ i < n, ∀ j < m, CSq (resOp n m mu lam r i j) (resOp n m mu lam p i j) (resOp n m mu lam q i j) := fun _ hi _ hj =>
  (up_csq (fwd_csq hmu hlam h (fwd_exists hmu hlam r) (fwd_exists hmu hlam p) (fwd_exists hmu hlam q)) hi hj).smul hlam

theorem fwd_unique (hmu : 0 < mu) (hlam : 0 ≤ lam) {r r' δ δ' : Img} (hr : ImgEq n m r r') (h : Fwd n m mu lam r δ)
    (h' : Fwd n m mu lam r' δ') : ImgEq n m δ δ' := by
  refine pix_induct fun i hi j hj h1 h2 => ?_
  have hd := diag_pos (n := n) (m := m) hmu hlam i j
  refine mul_left_cancel₀ hd.ne' ?_
  rw [h i hi j hj, h' i hi j hj, hr i hi j hj]
  unfold loSum
  have e1 : (if j = 0 then 0 else δ i (j - 1)) = if j = 0 then 0 else δ' i (j - 1) := by
    split
    · rfl
    · rename_i c; exact h1 c
  have e2 : (if i = 0 then 0 else δ (i - 1) j) = if i = 0 then 0 else δ' (i - 1) j := by
    split
    · rfl
    · rename_i c; exact h2 c
  rw [e1, e2]

theorem upSum_congr {u v : Img} (h : ImgEq n m u v) {i j : ℕ} (hi : i < n) (hj : j < m) :
    upSum n m u i j = upSum n m v i j := by
  unfold upSum
  have e1 : (if j + 1 < m then u i (j + 1) else 0) = if j + 1 < m then v i (j + 1) else 0 := by
    split
    · rename_i c; exact h i hi _ c
    · rfl
  have e2 : (if i + 1 < n then u (i + 1) j else 0) = if i + 1 < n then v (i + 1) j else 0 := by
    split
    · rename_i c; exact h _ c j hj
    · rfl
  rw [e1, e2]

theorem resOp_congr (hmu : 0 < mu) (hlam : 0 ≤ lam) {r r' : Img} (hr : ImgEq n m r r') :
    ImgEq n m (resOp n m mu lam r) (resOp n m mu lam r') := fun i hi j hj => by
  unfold resOp
  rw [upSum_congr (fwd_unique hmu hlam hr (fwd_exists hmu hlam r) (fwd_exists hmu hlam r')) hi hj]

/-- `k` sweeps, seen from the residual -/
theorem gs_residual_iter (hmu : 0 < mu) (hlam : 0 ≤ lam) (rhs u : Img) (k : ℕ) :
    ImgEq n m (fun i j => rhs i j - pixOp n m mu lam ((gsSweepR n m mu lam rhs)^[k] u) i j)
      ((resOp n m mu lam)^[k] fun i j => rhs i j - pixOp n m mu lam u i j) := by
  induction k with
  | zero => exact fun _ _ _ _ => rfl
  | succ k ih =>
    rw [Function.iterate_succ_apply', Function.iterate_succ_apply']
    obtain ⟨h1, h2⟩ := gs_residual (n := n) (m := m) hmu hlam rhs ((gsSweepR n m mu lam rhs)^[k] u)
    intro i hi j hj
    beta_reduce
    rw [h2 i hi j hj]
    show lam * _ = lam * _
    rw [upSum_congr (fwd_unique hmu hlam ih h1 (fwd_exists hmu hlam _)) hi hj]

theorem resOp_iter_csq (hmu : 0 < mu) (hlam : 0 ≤ lam) {r p q : Img} (h : ∀ i < n, ∀ j < m, CSq (r i j) (p i j) (q i j)) (k : ℕ) :
    ∀ i < n, ∀ j < m, CSq ((resOp n m mu lam)^[k] r i j) ((resOp n m mu lam)^[k] p i j) ((resOp n m mu lam)^[k] q i j) := by
  induction k with
  | zero => exact h
  | succ k ih =>
    rw [Function.iterate_succ_apply', Function.iterate_succ_apply', Function.iterate_succ_apply']
    exact resOp_csq hmu hlam ih

/-! ### sums -/

/-- contraction factor -/
noncomputable def gsQ (mu lam : ℝ) : ℝ := 2 * lam / (mu + 2 * lam)

theorem gsQ_mul (hmu : 0 < mu) (hlam : 0 ≤ lam) {c : ℝ} (hc : c ≤ 2) : c * lam ≤ (mu + c * lam) * gsQ mu lam := by
  unfold gsQ
  rw [mul_div_assoc', le_div_iff₀ (by positivity)]
  have := mul_nonneg (mul_nonneg hmu.le hlam) (sub_nonneg.2 hc)
  nlinarith

theorem gsQ_nonneg (hmu : 0 < mu) (hlam : 0 ≤ lam) : 0 ≤ gsQ mu lam := by unfold gsQ; positivity

noncomputable def sum2 (n m : ℕ) (u : Img) : ℝ := ∑ i ∈ range n, ∑ j ∈ range m, u i j

theorem row_shift (m : ℕ) (x : ℕ → ℝ) :
    ∑ j ∈ range m, (if j + 1 < m then x (j + 1) else 0) = ∑ j ∈ range m, (if j = 0 then 0 else 1) * x j := by
  rcases m with _ | k
  · rfl
  · rw [sum_ite_last k fun j => x (j + 1), sum_range_succ' _ k]
    simp

theorem row_shift' (m : ℕ) (x : ℕ → ℝ) :
    ∑ j ∈ range m, (if j = 0 then 0 else x (j - 1)) = ∑ j ∈ range m, (if j + 1 < m then 1 else 0) * x j := by
  rcases m with _ | k
  · rfl
  · rw [sum_ite_first]
    have := sum_ite_last k x
    rw [← this]
    exact sum_congr rfl fun j _ => by split <;> simp

theorem sum2_up (u : Img) : sum2 n m (upSum n m u) = sum2 n m fun i j => loCnt i j * u i j := by
  unfold sum2 upSum loCnt loSum
  simp only [add_mul, sum_add_distrib]
  congr 1
  · exact sum_congr rfl fun i _ => row_shift m (u i)
  · rw [sum_comm, sum_comm (s := range n)]
    exact sum_congr rfl fun j _ => row_shift n fun i => u i j

theorem sum2_lo (u : Img) : sum2 n m (loSum u) = sum2 n m fun i j => upCnt n m i j * u i j := by
  unfold sum2 upCnt upSum loSum
  simp only [add_mul, sum_add_distrib]
  congr 1
  · exact sum_congr rfl fun i _ => row_shift' m (u i)
  · rw [sum_comm, sum_comm (s := range n)]
    exact sum_congr rfl fun j _ => row_shift' n fun i => u i j

theorem sum2_le {u v : Img} (h : ∀ i < n, ∀ j < m, u i j ≤ v i j) : sum2 n m u ≤ sum2 n m v :=
  sum_le_sum fun i hi => sum_le_sum fun j hj => h i (mem_range.1 hi) j (mem_range.1 hj)

theorem sum2_congr {u v : Img} (h : ImgEq n m u v) : sum2 n m u = sum2 n m v :=
  sum_congr rfl fun i hi => sum_congr rfl fun j hj => h i (mem_range.1 hi) j (mem_range.1 hj)

theorem sum2_add (u v : Img) : sum2 n m (fun i j => u i j + v i j) = sum2 n m u + sum2 n m v := by
  unfold sum2; simp only [sum_add_distrib]

theorem sum2_smul (c : ℝ) (u : Img) : sum2 n m (fun i j => c * u i j) = c * sum2 n m u := by
  unfold sum2; simp only [mul_sum]

theorem fwd_nonneg (hmu : 0 < mu) (hlam : 0 ≤ lam) {r δ : Img} (h : ∀ i < n, ∀ j < m, 0 ≤ r i j) (hδ : Fwd n m mu lam r δ) :
    ∀ i < n, ∀ j < m, 0 ≤ δ i j := fun i hi j hj =>
  (fwd_csq hmu hlam (p := r) (q := r) (r := r) (fun i hi j hj => ⟨h i hi j hj, h i hi j hj, by rw [sq]⟩) hδ hδ hδ i hi j hj).1

/-- on nonnegative residuals a sweep contracts the sum -/
theorem resOp_sum (hmu : 0 < mu) (hlam : 0 ≤ lam) {r : Img} (h : ∀ i < n, ∀ j < m, 0 ≤ r i j) :
    sum2 n m (resOp n m mu lam r) ≤ gsQ mu lam * sum2 n m r := by
  set δ := gsSweepR n m mu lam r fun _ _ => 0 with hδ
  have hf : Fwd n m mu lam r δ := fwd_exists hmu hlam r
  have h0 := fwd_nonneg hmu hlam h hf
  have e1 : sum2 n m (fun i j => (mu + nbCnt n m i j * lam) * δ i j) = sum2 n m r + lam * sum2 n m (fun i j => upCnt n m i j * δ i j) := by
    rw [sum2_congr (v := fun i j => r i j + lam * loSum δ i j) hf, sum2_add, sum2_smul, sum2_lo]
  have e2 : sum2 n m (fun i j => (mu + nbCnt n m i j * lam) * δ i j)
      = sum2 n m (fun i j => (mu + loCnt i j * lam) * δ i j) + lam * sum2 n m (fun i j => upCnt n m i j * δ i j) := by
    rw [← sum2_smul, ← sum2_add]
    exact sum2_congr fun i _ j _ => by rw [nbCnt_split]; ring
  have e3 : sum2 n m r = sum2 n m (fun i j => (mu + loCnt i j * lam) * δ i j) := by linarith
  have e4 : sum2 n m (resOp n m mu lam r) = sum2 n m fun i j => lam * (loCnt i j * δ i j) := by
    unfold resOp
    rw [sum2_smul, sum2_up, sum2_smul]
  rw [e4, e3, ← sum2_smul]
  refine sum2_le fun i hi j hj => ?_
  have := mul_le_mul_of_nonneg_right (gsQ_mul hmu hlam (loCnt_bounds i j).2) (h0 i hi j hj)
  nlinarith

theorem resOp_nonneg (hmu : 0 < mu) (hlam : 0 ≤ lam) {r : Img} (h : ∀ i < n, ∀ j < m, 0 ≤ r i j) :
    ∀ i < n, ∀ j < m, 0 ≤ resOp n m mu lam r i j := fun i hi j hj =>
  (resOp_csq hmu hlam (p := r) (q := r) (r := r) (fun i hi j hj => ⟨h i hi j hj, h i hi j hj, by rw [sq]⟩) i hi j hj).1

theorem resOp_iter_sum (hmu : 0 < mu) (hlam : 0 ≤ lam) {r : Img} (h : ∀ i < n, ∀ j < m, 0 ≤ r i j) (k : ℕ) :
    (∀ i < n, ∀ j < m, 0 ≤ (resOp n m mu lam)^[k] r i j) ∧
    sum2 n m ((resOp n m mu lam)^[k] r) ≤ gsQ mu lam ^ k * sum2 n m r := by
  induction k with
  | zero => exact ⟨h, by simp⟩
  | succ k ih =>
    rw [Function.iterate_succ_apply']
    refine ⟨resOp_nonneg hmu hlam ih.1, (resOp_sum hmu hlam ih.1).trans ?_⟩
    rw [pow_succ']
    calc gsQ mu lam * sum2 n m ((resOp n m mu lam)^[k] r) ≤ gsQ mu lam * (gsQ mu lam ^ k * sum2 n m r) :=
          mul_le_mul_of_nonneg_left ih.2 (gsQ_nonneg hmu hlam)
      _ = _ := by ring

/-! ### maxima -/

theorem lo_le {α : Img} {X : ℝ} {i j : ℕ} (h1 : j ≠ 0 → α i (j - 1) ≤ X) (h2 : i ≠ 0 → α (i - 1) j ≤ X) :
    loSum α i j ≤ loCnt i j * X := by
  unfold loCnt loSum
  by_cases a : j = 0 <;> by_cases b : i = 0 <;> simp only [a, b, if_true, if_false]
  · simp
  · have := h2 b; rw [a] at this; linarith
  · have := h1 a; rw [b] at this; linarith
  · have := h2 b; have := h1 a; linarith

theorem up_le {α : Img} {X : ℝ} (h : ∀ i < n, ∀ j < m, α i j ≤ X) {i j : ℕ} (hi : i < n) (hj : j < m) :
    upSum n m α i j ≤ upCnt n m i j * X := by
  unfold upCnt upSum
  by_cases a : j + 1 < m <;> by_cases b : i + 1 < n <;> simp only [a, b, if_true, if_false]
  · have := h i hi _ a; have := h _ b j hj; linarith
  · have := h i hi _ a; linarith
  · have := h _ b j hj; linarith
  · simp

theorem fwd_le (hmu : 0 < mu) (hlam : 0 ≤ lam) {r δ : Img} {X : ℝ}
    (hr : ∀ i < n, ∀ j < m, r i j ≤ (mu + upCnt n m i j * lam) * X) (hδ : Fwd n m mu lam r δ) : ∀ i < n, ∀ j < m, δ i j ≤ X := by
  refine pix_induct fun i hi j hj h1 h2 => ?_
  have hd := diag_pos (n := n) (m := m) hmu hlam i j
  refine le_of_mul_le_mul_left ?_ hd
  rw [hδ i hi j hj, nbCnt_split]
  have := mul_le_mul_of_nonneg_left (lo_le h1 h2) hlam
  have := hr i hi j hj
  nlinarith

theorem resOp_one_fwd (hmu : 0 < mu) (hlam : 0 ≤ lam) (k : ℕ) : ∀ i < n, ∀ j < m,
    gsSweepR n m mu lam ((resOp n m mu lam)^[k] fun _ _ => 1) (fun _ _ => 0) i j ≤ gsQ mu lam ^ k * (1 / mu) := by
  induction k with
  | zero =>
    refine fwd_le hmu hlam (fun i hi j hj => ?_) (fwd_exists hmu hlam _)
    have h1 : mu * (1 / mu) = 1 := by field_simp
    have h2 : 0 ≤ upCnt n m i j * lam * (1 / mu) := mul_nonneg (mul_nonneg (upCnt_bounds i j).1 hlam) (by positivity)
    rw [pow_zero, one_mul, add_mul, h1]
    simpa using h2
  | succ k ih =>
    refine fwd_le hmu hlam (fun i hi j hj => ?_) (fwd_exists hmu hlam _)
    rw [Function.iterate_succ_apply']
    unfold resOp
    have h1 := mul_le_mul_of_nonneg_left (up_le ih hi hj) hlam
    refine h1.trans ?_
    have hq : 0 ≤ gsQ mu lam ^ k * (1 / mu) := mul_nonneg (pow_nonneg (gsQ_nonneg hmu hlam) k) (by positivity)
    have h2 := mul_le_mul_of_nonneg_right (gsQ_mul hmu hlam (upCnt_bounds (n := n) (m := m) i j).2) hq
    rw [pow_succ]
    nlinarith

/-- after at least one sweep, the image of the constant `1` is small everywhere -/
theorem resOp_one_le (hmu : 0 < mu) (hlam : 0 ≤ lam) (k : ℕ) : ∀ i < n, ∀ j < m,
    (resOp n m mu lam)^[k + 1] (fun _ _ => 1) i j ≤ 2 * lam / mu * gsQ mu lam ^ k := by
  intro i hi j hj
  rw [Function.iterate_succ_apply']
  have h1 := mul_le_mul_of_nonneg_left (up_le (resOp_one_fwd (n := n) (m := m) hmu hlam k) hi hj) hlam
  refine h1.trans ?_
  have hq : 0 ≤ lam * (gsQ mu lam ^ k * (1 / mu)) := mul_nonneg hlam (mul_nonneg (pow_nonneg (gsQ_nonneg hmu hlam) k) (by positivity))
  have h2 := mul_le_mul_of_nonneg_right (upCnt_bounds (n := n) (m := m) i j).2 hq
  have e : 2 * lam / mu * gsQ mu lam ^ k = 2 * (lam * (gsQ mu lam ^ k * (1 / mu))) := by ring
  rw [e]
  linarith

theorem normSq2_sum2 (u : Img) : normSq2 n m u = sum2 n m fun i j => u i j ^ 2 := normSq2_eq n m u

/-- `k + 1` sweeps contract the Euclidean norm of the residual -/
theorem resOp_norm (hmu : 0 < mu) (hlam : 0 ≤ lam) (r : Img) (k : ℕ) :
    normSq2 n m ((resOp n m mu lam)^[k + 1] r) ≤ 2 * lam / mu * gsQ mu lam ^ k * (gsQ mu lam ^ (k + 1) * normSq2 n m r) := by
  have h1 := resOp_iter_csq (n := n) (m := m) hmu hlam (r := r) (p := fun _ _ => 1) (q := fun i j => r i j ^ 2)
    (fun i _ j _ => ⟨zero_le_one, sq_nonneg _, by rw [one_mul]⟩) (k + 1)
  have h2 := resOp_iter_sum (n := n) (m := m) hmu hlam (r := fun i j => r i j ^ 2) (fun i _ j _ => sq_nonneg _) (k + 1)
  have hq : 0 ≤ 2 * lam / mu * gsQ mu lam ^ k := mul_nonneg (by positivity) (pow_nonneg (gsQ_nonneg hmu hlam) k)
  rw [normSq2_sum2, normSq2_sum2]
  refine le_trans ?_ (mul_le_mul_of_nonneg_left h2.2 hq)
  rw [← sum2_smul]
  refine sum2_le fun i hi j hj => ?_
  refine (h1 i hi j hj).2.2.trans ?_
  exact mul_le_mul_of_nonneg_right (resOp_one_le hmu hlam k i hi j hj) (h2.1 i hi j hj)

end L1c
