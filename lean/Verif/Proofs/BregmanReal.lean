import Verif.Spec.Bregman
import Verif.Proofs.TVReal
import Verif.Proofs.BregmanRun

/-! Helper lemmas: real analysis behind split Bregman TV denoising. -/

namespace L1c
open Finset

/-! ### the linear equation, pixel by pixel -/

/-- sum of the values of the (two to four) neighbours -/
noncomputable def nbSum (n m : ℕ) (u : Img) (i j : ℕ) : ℝ :=
  (if j + 1 < m then u i (j + 1) else 0) + (if j = 0 then 0 else u i (j - 1))
    + (if i + 1 < n then u (i + 1) j else 0) + (if i = 0 then 0 else u (i - 1) j)

/-- number of neighbours -/
noncomputable def nbCnt (n m : ℕ) (i j : ℕ) : ℝ := nbSum n m (fun _ _ => 1) i j

noncomputable def pixOp (n m : ℕ) (mu lam : ℝ) (u : Img) : Img := fun i j =>
  (mu + nbCnt n m i j * lam) * u i j - lam * nbSum n m u i j

theorem nbCnt_nonneg (n m i j : ℕ) : 0 ≤ nbCnt n m i j := by
  unfold nbCnt nbSum
  have : ∀ (p : Prop) [Decidable p], (0 : ℝ) ≤ if p then 1 else 0 := fun p _ => by split <;> norm_num
  have h2 : ∀ (p : Prop) [Decidable p], (0 : ℝ) ≤ if p then 0 else 1 := fun p _ => by split <;> norm_num
  have a := this (j + 1 < m); have b := this (i + 1 < n); have c := h2 (j = 0); have d := h2 (i = 0)
  linarith

theorem nbCnt_le (n m i j : ℕ) : nbCnt n m i j ≤ 4 := by
  unfold nbCnt nbSum
  have : ∀ (p : Prop) [Decidable p], (if p then (1 : ℝ) else 0) ≤ 1 := fun p _ => by split <;> norm_num
  have h2 : ∀ (p : Prop) [Decidable p], (if p then (0 : ℝ) else 1) ≤ 1 := fun p _ => by split <;> norm_num
  have a := this (j + 1 < m); have b := this (i + 1 < n); have c := h2 (j = 0); have d := h2 (i = 0)
  linarith

theorem lap_row (m : ℕ) (x : ℕ → ℝ) {j : ℕ} (hj : j < m) : adjRow 1 m (fwdRow 1 m x) j
    = (if j + 1 < m then x j - x (j + 1) else 0) + (if j = 0 then 0 else x j - x (j - 1)) := by
  unfold adjRow fwdRow
  rcases j with _ | j
  · rw [if_pos rfl, if_pos rfl]
    by_cases h : 0 + 1 < m
    · rw [if_pos h, if_pos h, if_pos h]; ring
    · rw [if_neg h, if_neg h]; ring
  · rw [if_neg (show ¬ j + 1 = 0 by omega), if_neg (show ¬ j + 1 = 0 by omega), Nat.add_sub_cancel, if_pos hj]
    by_cases h : j + 1 + 1 < m
    · rw [if_pos h, if_pos h, if_pos h]; ring
    · rw [if_neg h, if_neg h]; ring

theorem lap_pix (n m : ℕ) (u : Img) {i j : ℕ} (hi : i < n) (hj : j < m) :
    gradXT 1 m (gradX 1 m u) i j + gradYT 1 n (gradY 1 n u) i j = nbCnt n m i j * u i j - nbSum n m u i j := by
  have h1 : gradXT 1 m (gradX 1 m u) i j = _ := lap_row m (u i) hj
  have h2 : gradYT 1 n (gradY 1 n u) i j = _ := lap_row n (fun i => u i j) hi
  rw [h1, h2]
  unfold nbCnt nbSum
  split_ifs <;> ring

theorem inner2_add (n m : ℕ) (u v w : Img) : inner2 n m (fun i j => u i j + v i j) w = inner2 n m u w + inner2 n m v w := by
  unfold inner2
  rw [← sum_add_distrib]
  exact sum_congr rfl fun i _ => by rw [← sum_add_distrib]; exact sum_congr rfl fun j _ => by ring

theorem inner2_sub (n m : ℕ) (u v w : Img) : inner2 n m (fun i j => u i j - v i j) w = inner2 n m u w - inner2 n m v w := by
  unfold inner2
  rw [← sum_sub_distrib]
  exact sum_congr rfl fun i _ => by rw [← sum_sub_distrib]; exact sum_congr rfl fun j _ => by ring

theorem inner2_smul (n m : ℕ) (c : ℝ) (u w : Img) : inner2 n m (fun i j => c * u i j) w = c * inner2 n m u w := by
  unfold inner2
  rw [mul_sum]
  exact sum_congr rfl fun i _ => by rw [mul_sum]; exact sum_congr rfl fun j _ => by ring

theorem inner2_swap (n m : ℕ) (u v : Img) : inner2 n m u v = inner2 n m v u := by
  unfold inner2
  exact sum_congr rfl fun i _ => sum_congr rfl fun j _ => by ring

theorem inner2_eqOn {n m : ℕ} {u u' v v' : Img} (h : ImgEq n m u u') (h' : ImgEq n m v v') :
    inner2 n m u v = inner2 n m u' v' := by
  unfold inner2
  exact sum_congr rfl fun i hi => sum_congr rfl fun j hj => by
    rw [h i (mem_range.1 hi) j (mem_range.1 hj), h' i (mem_range.1 hi) j (mem_range.1 hj)]

theorem weak_eq (n m : ℕ) (mu lam : ℝ) (u v : Img) :
    mu * inner2 n m u v + lam * inner2 n m (gradX 1 m u) (gradX 1 m v)
      + lam * inner2 n m (gradY 1 n u) (gradY 1 n v) = inner2 n m (pixOp n m mu lam u) v := by
  have hx : inner2 n m (gradX 1 m u) (gradX 1 m v) = inner2 n m (gradXT 1 m (gradX 1 m u)) v := by
    rw [inner2_swap, gradX_adjoint, inner2_swap]
  have hy : inner2 n m (gradY 1 n u) (gradY 1 n v) = inner2 n m (gradYT 1 n (gradY 1 n u)) v := by
    rw [inner2_swap, gradY_adjoint, inner2_swap]
  rw [hx, hy, ← inner2_smul, ← inner2_smul, ← inner2_smul, ← inner2_add, ← inner2_add]
  refine inner2_eqOn (fun i hi j hj => ?_) (fun _ _ _ _ => rfl)
  have := lap_pix n m u hi hj
  unfold pixOp
  linear_combination lam * this

theorem normSq2_eq_zero {n m : ℕ} {u : Img} (h : normSq2 n m u = 0) : ImgEq n m u fun _ _ => 0 := by
  rw [normSq2_eq] at h
  intro i hi j hj
  have h1 := (sum_eq_zero_iff_of_nonneg (fun i _ => by positivity)).1 h i (mem_range.2 hi)
  have h2 := (sum_eq_zero_iff_of_nonneg (fun i _ => by positivity)).1 h1 j (mem_range.2 hj)
  exact pow_eq_zero_iff (two_ne_zero) |>.1 h2

theorem solves_iff_pix (n m : ℕ) (mu lam : ℝ) (rhs u : Img) :
    SolvesTV n m mu lam rhs u ↔ ImgEq n m (pixOp n m mu lam u) rhs := by
  constructor
  · intro h
    have h1 : inner2 n m (fun i j => pixOp n m mu lam u i j - rhs i j) (fun i j => pixOp n m mu lam u i j - rhs i j) = 0 := by
      rw [inner2_sub, ← weak_eq, h, sub_self]
    intro i hi j hj
    have := normSq2_eq_zero h1 i hi j hj
    simpa [sub_eq_zero] using this
  · intro h v
    rw [weak_eq]
    exact inner2_eqOn h fun _ _ _ _ => rfl

/-- value of a pixel after its update -/
noncomputable def gsPixR (n m : ℕ) (mu lam : ℝ) (rhs u : Img) (i j : ℕ) : ℝ :=
  (rhs i j + lam * nbSum n m u i j) / (mu + nbCnt n m i j * lam)

variable {n m : ℕ} {mu lam : ℝ} {rhs u us : Img}

theorem diag_pos (hmu : 0 < mu) (hlam : 0 ≤ lam) (i j : ℕ) : 0 < mu + nbCnt n m i j * lam := by
  have := mul_nonneg (nbCnt_nonneg n m i j) hlam
  linarith

/-- the pixel equation says that the update does nothing -/
theorem gsPixR_eq_iff (hmu : 0 < mu) (hlam : 0 ≤ lam) (i j : ℕ) :
    gsPixR n m mu lam rhs u i j = u i j ↔ pixOp n m mu lam u i j = rhs i j := by
  unfold gsPixR pixOp
  rw [div_eq_iff (diag_pos hmu hlam i j).ne']
  constructor <;> intro h <;> linarith

theorem nbSum_congr {v : Img} (h : ImgEq n m u v) {i j : ℕ} (hi : i < n) (hj : j < m) :
    nbSum n m u i j = nbSum n m v i j := by
  unfold nbSum
  have e1 : (if j + 1 < m then u i (j + 1) else 0) = if j + 1 < m then v i (j + 1) else 0 := by
    split
    · exact h i hi _ (by omega)
    · rfl
  have e2 : (if j = 0 then 0 else u i (j - 1)) = if j = 0 then 0 else v i (j - 1) := by
    split
    · rfl
    · exact h i hi _ (by omega)
  have e3 : (if i + 1 < n then u (i + 1) j else 0) = if i + 1 < n then v (i + 1) j else 0 := by
    split
    · exact h _ (by omega) _ hj
    · rfl
  have e4 : (if i = 0 then 0 else u (i - 1) j) = if i = 0 then 0 else v (i - 1) j := by
    split
    · rfl
    · exact h _ (by omega) _ hj
  rw [e1, e2, e3, e4]

theorem nbSum_near {v : Img} {E : ℝ} (h : ImgNear n m E u v) {i j : ℕ} (hi : i < n) (hj : j < m) :
    |nbSum n m u i j - nbSum n m v i j| ≤ nbCnt n m i j * E := by
  have e1 : |(if j + 1 < m then u i (j + 1) else 0) - (if j + 1 < m then v i (j + 1) else 0)| ≤ (if j + 1 < m then 1 else 0) * E := by
    split
    · rw [one_mul]; exact h i hi _ (by omega)
    · simp
  have e2 : |(if j = 0 then 0 else u i (j - 1)) - (if j = 0 then 0 else v i (j - 1))| ≤ (if j = 0 then 0 else 1) * E := by
    split
    · simp
    · rw [one_mul]; exact h i hi _ (by omega)
  have e3 : |(if i + 1 < n then u (i + 1) j else 0) - (if i + 1 < n then v (i + 1) j else 0)| ≤ (if i + 1 < n then 1 else 0) * E := by
    split
    · rw [one_mul]; exact h _ (by omega) _ hj
    · simp
  have e4 : |(if i = 0 then 0 else u (i - 1) j) - (if i = 0 then 0 else v (i - 1) j)| ≤ (if i = 0 then 0 else 1) * E := by
    split
    · simp
    · rw [one_mul]; exact h _ (by omega) _ hj
  unfold nbCnt nbSum
  rw [abs_le] at *
  constructor <;> nlinarith [e1.1, e1.2, e2.1, e2.2, e3.1, e3.2, e4.1, e4.2]

/-- one pixel update brings the pixel closer to the solution -/
theorem gsPixR_near (hmu : 0 < mu) (hlam : 0 < lam) (hs : ImgEq n m (pixOp n m mu lam us) rhs) {E : ℝ}
    (h : ImgNear n m E u us) {i j : ℕ} (hi : i < n) (hj : j < m) :
    |gsPixR n m mu lam rhs u i j - us i j| ≤ 4 * lam / (mu + 4 * lam) * E := by
  have hd := diag_pos (n := n) (m := m) hmu hlam.le i j
  have hE : 0 ≤ E := (abs_nonneg _).trans (h i hi j hj)
  have e : gsPixR n m mu lam rhs u i j - us i j = lam * (nbSum n m u i j - nbSum n m us i j) / (mu + nbCnt n m i j * lam) := by
    have := hs i hi j hj
    unfold gsPixR
    unfold pixOp at this
    rw [eq_div_iff hd.ne', sub_mul, div_mul_cancel₀ _ hd.ne']
    linarith
  rw [e, abs_div, abs_mul, abs_of_pos hlam, abs_of_pos hd]
  have h1 := nbSum_near h hi hj
  have h2 : lam * |nbSum n m u i j - nbSum n m us i j| / (mu + nbCnt n m i j * lam)
      ≤ lam * (nbCnt n m i j * E) / (mu + nbCnt n m i j * lam) := by
    apply div_le_div_of_nonneg_right _ hd.le
    exact mul_le_mul_of_nonneg_left h1 hlam.le
  refine h2.trans ?_
  rw [div_mul_eq_mul_div, div_le_div_iff₀ hd (by positivity)]
  have h4 := nbCnt_le n m i j
  have h0 := nbCnt_nonneg n m i j
  have : 0 ≤ lam * E * mu * (4 - nbCnt n m i j) := by
    have : 0 ≤ 4 - nbCnt n m i j := by linarith
    positivity
  nlinarith

/-! ### in-place sweeps over the reals -/

/-- the image after the first `k` pixels have been updated -/
noncomputable def gsStateR (n m : ℕ) (mu lam : ℝ) (rhs u : Img) : ℕ → Img
  | 0 => u
  | k + 1 => fun a b => if a = k / m ∧ b = k % m then gsPixR n m mu lam rhs (gsStateR n m mu lam rhs u k) (k / m) (k % m)
      else gsStateR n m mu lam rhs u k a b

noncomputable def gsSweepR (n m : ℕ) (mu lam : ℝ) (rhs u : Img) : Img := gsStateR n m mu lam rhs u (n * m)

theorem gsStateR_near (hmu : 0 < mu) (hlam : 0 < lam) (hs : ImgEq n m (pixOp n m mu lam us) rhs) {E : ℝ}
    (h : ImgNear n m E u us) (k : ℕ) (hk : k ≤ n * m) : ∀ i < n, ∀ j < m,
      |gsStateR n m mu lam rhs u k i j - us i j| ≤ (if i * m + j < k then 4 * lam / (mu + 4 * lam) * E else E) := by
  induction k with
  | zero => intro i hi j hj; rw [if_neg (by omega)]; exact h i hi j hj
  | succ k ih =>
    have ih := ih (by omega)
    intro i hi j hj
    have hE : 0 ≤ E := (abs_nonneg _).trans (h i hi j hj)
    have hm : 0 < m := by omega
    have hq : 4 * lam / (mu + 4 * lam) * E ≤ E := by
      rw [div_mul_eq_mul_div, div_le_iff₀ (by positivity)]
      nlinarith
    have hnear : ImgNear n m E (gsStateR n m mu lam rhs u k) us := fun a ha b hb =>
      (ih a ha b hb).trans (by split <;> [exact hq; exact le_rfl])
    by_cases e : i = k / m ∧ j = k % m
    · have ek : i * m + j = k := by rw [e.1, e.2]; exact Nat.div_add_mod' k m
      rw [if_pos (by omega)]
      show |(if i = k / m ∧ j = k % m then _ else _) - us i j| ≤ _
      rw [if_pos e, ← e.1, ← e.2]
      exact gsPixR_near hmu hlam hs hnear hi hj
    · have ek : i * m + j ≠ k := by
        rintro rfl
        exact e ⟨by rw [Nat.add_comm, Nat.add_mul_div_right _ _ hm, Nat.div_eq_of_lt hj, zero_add],
          by rw [Nat.add_comm, Nat.add_mul_mod_self_right, Nat.mod_eq_of_lt hj]⟩
      show |(if i = k / m ∧ j = k % m then _ else _) - us i j| ≤ _
      rw [if_neg e]
      have := ih i hi j hj
      have hc : (i * m + j < k + 1) ↔ (i * m + j < k) := by omega
      simp only [hc]
      exact this

theorem pix_lt {i j : ℕ} (hi : i < n) (hj : j < m) : i * m + j < n * m := by
  have : (i + 1) * m ≤ n * m := Nat.mul_le_mul_right m hi
  rw [add_mul, one_mul] at this; omega

/-- a sweep contracts the error -/
theorem gsSweepR_near (hmu : 0 < mu) (hlam : 0 < lam) (hs : ImgEq n m (pixOp n m mu lam us) rhs) {E : ℝ}
    (h : ImgNear n m E u us) : ImgNear n m (4 * lam / (mu + 4 * lam) * E) (gsSweepR n m mu lam rhs u) us := by
  intro i hi j hj
  have := gsStateR_near hmu hlam hs h (n * m) le_rfl i hi j hj
  rwa [if_pos (pix_lt hi hj)] at this

/-- a pixel keeps its value once the sweep has passed -/
theorem gsStateR_stable {i j : ℕ} (hj : j < m) (k : ℕ) (hk : i * m + j < k) :
    gsStateR n m mu lam rhs u k i j = gsPixR n m mu lam rhs (gsStateR n m mu lam rhs u (i * m + j)) i j := by
  have hm : 0 < m := by omega
  have e1 : (i * m + j) / m = i := by rw [Nat.add_comm, Nat.add_mul_div_right _ _ hm, Nat.div_eq_of_lt hj, zero_add]
  have e2 : (i * m + j) % m = j := by rw [Nat.add_comm, Nat.add_mul_mod_self_right, Nat.mod_eq_of_lt hj]
  induction k with
  | zero => omega
  | succ k ih =>
    show (if i = k / m ∧ j = k % m then _ else _) = _
    by_cases e : i = k / m ∧ j = k % m
    · have ek : k = i * m + j := by rw [e.1, e.2]; exact (Nat.div_add_mod' k m).symm
      rw [if_pos e, ek, e1, e2]
    · rw [if_neg e]
      apply ih
      by_contra hne
      have : k = i * m + j := by omega
      exact e (by rw [this, e1, e2]; exact ⟨rfl, rfl⟩)

/-- a pixel keeps its value until the sweep arrives -/
theorem gsStateR_before {i j : ℕ} (hj : j < m) (k : ℕ) (hk : k ≤ i * m + j) :
    gsStateR n m mu lam rhs u k i j = u i j := by
  induction k with
  | zero => rfl
  | succ k ih =>
    show (if i = k / m ∧ j = k % m then _ else _) = _
    rw [if_neg, ih (by omega)]
    rintro ⟨e1, e2⟩
    have : k = i * m + j := by rw [e1, e2]; exact (Nat.div_add_mod' k m).symm
    omega

theorem gsPixR_congr {v : Img} (h : ImgEq n m u v) {i j : ℕ} (hi : i < n) (hj : j < m) :
    gsPixR n m mu lam rhs u i j = gsPixR n m mu lam rhs v i j := by
  unfold gsPixR; rw [nbSum_congr h hi hj]

theorem gsSweepR_fixed_iff (hmu : 0 < mu) (hlam : 0 ≤ lam) :
    ImgEq n m (gsSweepR n m mu lam rhs u) u ↔ ImgEq n m (pixOp n m mu lam u) rhs := by
  constructor
  · intro h i hi j hj
    have hst : ImgEq n m (gsStateR n m mu lam rhs u (i * m + j)) u := by
      intro a ha b hb
      by_cases hlt : a * m + b < i * m + j
      · rw [gsStateR_stable hb _ hlt, ← h a ha b hb]
        exact (gsStateR_stable hb _ (pix_lt ha hb)).symm
      · exact gsStateR_before hb _ (by omega)
    rw [← gsPixR_eq_iff hmu hlam, ← gsPixR_congr hst hi hj, ← gsStateR_stable hj _ (pix_lt hi hj)]
    exact h i hi j hj
  · intro h
    have : ∀ k ≤ n * m, ImgEq n m (gsStateR n m mu lam rhs u k) u := by
      intro k
      induction k with
      | zero => intro _ i _ j _; rfl
      | succ k ih =>
        intro hk i hi j hj
        have ih := ih (by omega)
        show (if i = k / m ∧ j = k % m then _ else _) = _
        split
        · rename_i e
          rw [← e.1, ← e.2, gsPixR_congr ih hi hj, gsPixR_eq_iff hmu hlam]
          exact h i hi j hj
        · exact ih i hi j hj
    exact this _ le_rfl

/-! ### existence and uniqueness -/

theorem solves_unique (hmu : 0 < mu) (hlam : 0 ≤ lam) {v : Img} (hu : SolvesTV n m mu lam rhs u)
    (hv : SolvesTV n m mu lam rhs v) : ImgEq n m u v := by
  have h : SolvesTV n m mu lam (fun _ _ => 0) (fun i j => u i j - v i j) := by
    rw [solves_iff_pix] at *
    intro i hi j hj
    have a := hu i hi j hj
    have b := hv i hi j hj
    have e : nbSum n m (fun i j => u i j - v i j) i j = nbSum n m u i j - nbSum n m v i j := by
      unfold nbSum; split_ifs <;> ring
    unfold pixOp at *
    rw [e]
    linarith
  have h1 := h (fun i j => u i j - v i j)
  have z : inner2 n m (fun _ _ => 0) (fun i j => u i j - v i j) = 0 := by unfold inner2; simp
  rw [z] at h1
  have p1 := normSq2_nonneg n m (gradX 1 m fun i j => u i j - v i j)
  have p2 := normSq2_nonneg n m (gradY 1 n fun i j => u i j - v i j)
  have p0 := normSq2_nonneg n m (fun i j => u i j - v i j)
  have : normSq2 n m (fun i j => u i j - v i j) = 0 := by
    unfold normSq2 at *
    have q1 := mul_nonneg hlam p1
    have q2 := mul_nonneg hlam p2
    have q0 := mul_nonneg hmu.le p0
    have : mu * inner2 n m (fun i j => u i j - v i j) (fun i j => u i j - v i j) = 0 := by linarith
    rcases mul_eq_zero.1 this with h | h
    · exact absurd h hmu.ne'
    · exact h
  intro i hi j hj
  have := normSq2_eq_zero this i hi j hj
  linarith

end L1c
