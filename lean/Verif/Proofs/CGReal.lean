import Verif.Spec.CG
import Verif.Base.Vec
import Mathlib.Tactic.Linarith
import Mathlib.Tactic.FieldSimp
import Mathlib.LinearAlgebra.Dimension.Finrank
import Mathlib.LinearAlgebra.Dimension.Constructions
import Mathlib.LinearAlgebra.FiniteDimensional.Lemmas

/-! # Facts about textbook conjugate gradients -/

namespace L1c

variable {N : ℕ} {A : (Fin N → ℝ) →ₗ[ℝ] (Fin N → ℝ)} {w b x0 : Fin N → ℝ}

theorem CGOk.mono {j k : ℕ} (h : CGOk A w b x0 k) (hj : j ≤ k) : CGOk A w b x0 j :=
  fun i hi => h i (by omega)

theorem cgSeq_r (k : ℕ) : (cgSeq A w b x0 k).r = b - A (cgSeq A w b x0 k).x := by
  induction k with
  | zero => rfl
  | succ k ih => simp only [cgSeq, CGIt.next, map_add, map_smul, ih]; abel

theorem wdot_pos (hw : ∀ i, 0 < w i) {r : Fin N → ℝ} (hr : r ≠ 0) : 0 < r ⬝ᵥ (w * r) := by
  obtain ⟨i, hi⟩ := Function.ne_iff.1 hr
  refine Finset.sum_pos' (fun j _ => ?_) ⟨i, Finset.mem_univ i, ?_⟩
  · have := hw j; have := mul_self_nonneg (r j)
    simp only [Pi.mul_apply]; nlinarith [mul_nonneg (hw j).le this]
  · simp only [Pi.mul_apply]
    have : 0 < r i * r i := mul_self_pos.2 hi
    nlinarith [mul_pos (hw i) this]

theorem wdot_comm (w u v : Fin N → ℝ) : u ⬝ᵥ (w * v) = v ⬝ᵥ (w * u) := by
  simp only [dotProduct, Pi.mul_apply]; exact Finset.sum_congr rfl fun i _ => by ring

/-- orthogonality relations of iterate `k` with all earlier ones -/
structure CGInv (A : (Fin N → ℝ) →ₗ[ℝ] (Fin N → ℝ)) (w b x0 : Fin N → ℝ) (k : ℕ) : Prop where
  rr : ∀ j < k, (cgSeq A w b x0 k).r ⬝ᵥ (w * (cgSeq A w b x0 j).r) = 0
  rp : ∀ j < k, (cgSeq A w b x0 k).r ⬝ᵥ (cgSeq A w b x0 j).p = 0
  pp : ∀ j < k, (cgSeq A w b x0 k).p ⬝ᵥ A (cgSeq A w b x0 j).p = 0

theorem CGInv.self {k : ℕ} (h : CGInv A w b x0 k) :
    (cgSeq A w b x0 k).r ⬝ᵥ (cgSeq A w b x0 k).p = (cgSeq A w b x0 k).r ⬝ᵥ (w * (cgSeq A w b x0 k).r) := by
  cases k with
  | zero => rfl
  | succ k =>
    have := h.rp k (by omega)
    show (cgSeq A w b x0 (k+1)).r ⬝ᵥ (w * (cgSeq A w b x0 (k+1)).r + _ • (cgSeq A w b x0 k).p) = _
    rw [dotProduct_add, dotProduct_smul, this]; simp

theorem cgInv (hA : ∀ u v, A u ⬝ᵥ v = u ⬝ᵥ A v) (hw : ∀ i, 0 < w i) :
    ∀ k, CGOk A w b x0 k → ∀ i ≤ k, CGInv A w b x0 i := by
  intro k
  induction k with
  | zero =>
    intro _ i hi
    obtain rfl : i = 0 := by omega
    exact ⟨by simp, by simp, by simp⟩
  | succ k ih =>
    intro hok i hi
    have ihk := ih (hok.mono (by omega))
    rcases Nat.lt_or_ge i (k + 1) with h | h
    · exact ihk i (by omega)
    obtain rfl : i = k + 1 := by omega
    clear h hi
    have hk := ihk k le_rfl
    obtain ⟨hr0, hpp0⟩ := hok k (by omega)
    set S := cgSeq A w b x0 with hS
    set al : ℕ → ℝ := fun j => ((S j).r ⬝ᵥ (w * (S j).r)) / ((S j).p ⬝ᵥ A (S j).p) with hal
    have hrn : ∀ j, (S (j+1)).r = (S j).r - al j • A (S j).p := fun j => rfl
    have hpn : ∀ j, (S (j+1)).p = w * (S (j+1)).r +
        (((S (j+1)).r ⬝ᵥ (w * (S (j+1)).r)) / ((S j).r ⬝ᵥ (w * (S j).r))) • (S j).p := fun j => rfl
    have hd : 0 < (S k).r ⬝ᵥ (w * (S k).r) := wdot_pos hw hr0
    have rp : ∀ j < k + 1, (S (k+1)).r ⬝ᵥ (S j).p = 0 := by
      intro j hj
      rw [hrn, sub_dotProduct, smul_dotProduct]
      rcases Nat.lt_succ_iff_lt_or_eq.1 hj with h | rfl
      · rw [hk.rp j h, hA, hk.pp j h]; simp
      · rw [hk.self, dotProduct_comm (A _)]
        simp only [hal, smul_eq_mul]
        field_simp
        ring
    have rr : ∀ j < k + 1, (S (k+1)).r ⬝ᵥ (w * (S j).r) = 0 := by
      intro j hj
      cases j with
      | zero => exact rp 0 (by omega)
      | succ j =>
        have h1 := rp (j+1) hj
        have h2 := rp j (by omega)
        rw [hpn, dotProduct_add, dotProduct_smul, h2] at h1
        simpa using h1
    have rA : ∀ j < k + 1, al j * ((S (k+1)).r ⬝ᵥ (w * A (S j).p)) =
        (S (k+1)).r ⬝ᵥ (w * (S j).r) - (S (k+1)).r ⬝ᵥ (w * (S (j+1)).r) := by
      intro j _
      rw [hrn j, mul_sub, dotProduct_sub, mul_smul_comm, dotProduct_smul, smul_eq_mul]; ring
    have hal0 : ∀ j < k + 1, al j ≠ 0 := fun j hj =>
      div_ne_zero (wdot_pos hw (hok j hj).1).ne' (hok j hj).2
    refine ⟨rr, rp, ?_⟩
    intro j hj
    rw [hpn, add_dotProduct, smul_dotProduct, smul_eq_mul]
    have hz : (w * (S (k+1)).r) ⬝ᵥ A (S j).p = (S (k+1)).r ⬝ᵥ (w * A (S j).p) := by
      simp only [dotProduct, Pi.mul_apply]; exact Finset.sum_congr rfl fun i _ => by ring
    rw [hz]
    have h1 := rA j hj
    rw [rr j hj] at h1
    rcases Nat.lt_succ_iff_lt_or_eq.1 hj with h | rfl
    · rw [rr (j+1) (by omega)] at h1
      have h2 : (S (k+1)).r ⬝ᵥ (w * A (S j).p) = 0 := by
        have := hal0 j hj
        simpa [this] using h1
      rw [h2, hk.pp j h]; simp
    · have h2 : (S (j+1)).r ⬝ᵥ (w * A (S j).p) = - ((S (j+1)).r ⬝ᵥ (w * (S (j+1)).r)) / al j := by
        rw [eq_div_iff (hal0 j hj)]; linarith
      rw [h2]
      simp only [hal]
      field_simp
      ring

/-- for an SPD operator CG can only break down by having solved the system -/
theorem cgOk_of_ne (hA : SPD A) (hw : ∀ i, 0 < w i) (k : ℕ) (h : ∀ j < k, (cgSeq A w b x0 j).r ≠ 0) :
    CGOk A w b x0 k := by
  induction k with
  | zero => intro j hj; omega
  | succ k ih =>
    have hk := ih fun j hj => h j (by omega)
    intro j hj
    rcases Nat.lt_succ_iff_lt_or_eq.1 hj with h' | rfl
    · exact hk j h'
    · refine ⟨h j hj, (hA.2 _ fun hp => ?_).ne'⟩
      have h1 := ((cgInv hA.1 hw j hk) j le_rfl).self
      rw [hp] at h1
      have := wdot_pos hw (h j hj)
      simp at h1; linarith

/-- at most `N` nonzero vectors of `ℝᴺ` can be pairwise `w`-orthogonal -/
theorem orth_le (hw : ∀ i, 0 < w i) (n : ℕ) (v : ℕ → Fin N → ℝ) (h0 : ∀ j < n, v j ≠ 0)
    (ho : ∀ i < n, ∀ j < i, v i ⬝ᵥ (w * v j) = 0) : n ≤ N := by
  have hli : LinearIndependent ℝ (fun j : Fin n => v j) := by
    rw [linearIndependent_iff']
    intro s g hg i hi
    have h1 : (∑ j ∈ s, g j • v j) ⬝ᵥ (w * v i) = 0 := by rw [hg]; simp
    rw [sum_dotProduct, Finset.sum_eq_single i] at h1
    · rw [smul_dotProduct, smul_eq_mul] at h1
      exact (mul_eq_zero.1 h1).resolve_right (wdot_pos hw (h0 i i.2)).ne'
    · intro j _ hji
      rw [smul_dotProduct]
      rcases lt_or_gt_of_ne (fun e => hji (Fin.ext e) : (j : ℕ) ≠ i) with h | h
      · rw [wdot_comm, ho i i.2 j h]; simp
      · rw [ho j j.2 i h]; simp
    · intro h; exact absurd hi h
  have := hli.fintype_card_le_finrank
  simpa using this

/-- an SPD system is solved after at most `N` iterations -/
theorem cg_finite (hA : SPD A) (hw : ∀ i, 0 < w i) :
    ∃ k ≤ N, CGOk A w b x0 k ∧ (cgSeq A w b x0 k).r = 0 := by
  classical
  by_cases hex : ∃ k, (cgSeq A w b x0 k).r = 0
  · have hmin := Nat.find_spec hex
    have hlt : ∀ j < Nat.find hex, (cgSeq A w b x0 j).r ≠ 0 := fun j hj => Nat.find_min hex hj
    have hok := cgOk_of_ne hA hw _ hlt
    refine ⟨Nat.find hex, ?_, hok, hmin⟩
    exact orth_le hw _ (fun j => (cgSeq A w b x0 j).r) hlt fun i hi j hj =>
      (cgInv hA.1 hw _ hok i hi.le).rr j hj
  · have hne : ∀ j, (cgSeq A w b x0 j).r ≠ 0 := fun j h => hex ⟨j, h⟩
    have hok := cgOk_of_ne hA hw (N + 1) fun j _ => hne j
    have := orth_le hw (N + 1) (fun j => (cgSeq A w b x0 j).r) (fun j _ => hne j) fun i hi j hj =>
      (cgInv hA.1 hw _ hok i hi.le).rr j hj
    omega

end L1c
