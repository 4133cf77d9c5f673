import Verif.Proofs.NestaSym
import Verif.Proofs.NestaSet
import Verif.Spec.NestaSym
import Mathlib.Analysis.SpecialFunctions.Trigonometric.Basic

/-! # Symmetries of the transforms: order of the samples, sign, mirror images -/

namespace L1c
open Scalar Matrix

/-! ## The DCT of a mirror image -/

theorem odct_rev {m : ℕ} (x : Fin m → ℝ) (k : Fin m) : odct (fun i => x i.rev) k = (-1) ^ k.val * odct x k := by
  have hm : (m : ℝ) ≠ 0 := by
    have := k.2
    exact_mod_cast (by omega : m ≠ 0)
  unfold odct
  rw [← Equiv.sum_comp Fin.revPerm, mul_left_comm ((-1) ^ k.val), Finset.mul_sum _ _ ((-1) ^ k.val)]
  refine congrArg _ (Finset.sum_congr rfl fun j _ => ?_)
  dsimp only
  rw [Fin.revPerm_apply, Fin.rev_rev, ← mul_assoc]
  congr 1
  have hj : (j.rev.val : ℝ) = m - 1 - j := by
    have h1 : j.rev.val = m - 1 - j.val := by rw [Fin.val_rev]; omega
    rw [h1, Nat.cast_sub (by have := j.2; omega), Nat.cast_sub (by have := j.2; omega)]
    simp
  have e : Real.pi * k * ((j.rev.val : ℝ) + 1 / 2) / m = k * Real.pi - Real.pi * k * ((j : ℝ) + 1 / 2) / m := by
    rw [hj]; field_simp; ring
  rw [e, Real.cos_nat_mul_pi_sub]

/-- sign that a mirror image gives to coefficient `t` -/
def mirSign {mrow mcol : ℕ} (two v h : Bool) (t : Fin (mrow * mcol)) : ℝ :=
  if two then (if v then (-1) ^ (finProdFinEquiv.symm t).1.val else 1) * (if h then (-1) ^ (finProdFinEquiv.symm t).2.val else 1)
  else if v then (-1) ^ t.val else 1

theorem odct_smul {m : ℕ} (a : ℝ) (x : Fin m → ℝ) : odct (fun i => a * x i) = fun k => a * odct x k := by
  funext k
  unfold odct
  rw [mul_left_comm a, Finset.mul_sum Finset.univ _ a]
  congr 1
  exact Finset.sum_congr rfl fun j _ => by ring

theorem odct_mir {m : ℕ} (v : Bool) (x : Fin m → ℝ) (k : Fin m) : odct (fun i => x (if v then i.rev else i)) k = (if v then (-1) ^ k.val else 1) * odct x k := by
  cases v
  · simp
  · simpa using odct_rev x k

theorem mirror_px {mrow mcol : ℕ} (v h : Bool) (i : Fin mrow) (j : Fin mcol) : mirror v h (px i j) = px (if v then i.rev else i) (if h then j.rev else j) := by
  simp [mirror, px]

theorem mirror_invol {mrow mcol : ℕ} (v h : Bool) (t : Fin (mrow * mcol)) : mirror v h (mirror v h t) = t := by
  obtain ⟨⟨i, j⟩, rfl⟩ := finProdFinEquiv.surjective t
  show mirror v h (mirror v h (px i j)) = px i j
  rw [mirror_px, mirror_px]
  cases v <;> cases h <;> simp

theorem mirror_id {mrow mcol : ℕ} (t : Fin (mrow * mcol)) : mirror false false t = t := finProdFinEquiv.apply_symm_apply t

theorem mirror_rot {mrow mcol : ℕ} (t : Fin (mrow * mcol)) : mirror true true t = t.rev := by
  obtain ⟨⟨i, j⟩, rfl⟩ := finProdFinEquiv.surjective t
  show mirror true true (px i j) = _
  rw [mirror_px]
  apply Fin.ext
  simp only [if_true, px, finProdFinEquiv_apply_val, Fin.val_rev]
  have h1 := i.2
  have h2 := j.2
  obtain ⟨a, ha⟩ : ∃ a, mrow = i.val + 1 + a := ⟨mrow - (i.val + 1), by omega⟩
  obtain ⟨d, hd⟩ : ∃ d, mcol = j.val + 1 + d := ⟨mcol - (j.val + 1), by omega⟩
  rw [show mrow - (i.val + 1) = a by omega, show mcol - (j.val + 1) = d by omega]
  have : mrow * mcol = mcol * i.val + (mcol * a + mcol) := by
    calc mrow * mcol = (i.val + 1 + a) * mcol := congrArg (· * mcol) ha
      _ = _ := by ring
  rw [this]
  omega

theorem imgDct_mirror {mrow mcol : ℕ} {two v h : Bool} (hv : two = false → v = h) (x : Fin (mrow * mcol) → ℝ) (t : Fin (mrow * mcol)) :
    imgDct two (fun i => x (mirror v h i)) t = mirSign two v h t * imgDct two x t := by
  cases two
  · obtain rfl := hv rfl
    unfold imgDct mirSign
    simp only [Bool.false_eq_true, if_false]
    have e : (fun i => x (mirror v v i)) = fun i => x (if v then i.rev else i) := by
      funext i
      cases v
      · simp [mirror_id]
      · simp [mirror_rot]
    rw [e, odct_mir]
  · unfold imgDct mirSign sep2
    simp only [if_true, mirror_px]
    have e : ∀ i : Fin mrow, odct (fun j : Fin mcol => x (px (if v then i.rev else i) (if h then j.rev else j))) (finProdFinEquiv.symm t).2 =
        (if h then (-1) ^ (finProdFinEquiv.symm t).2.val else 1) * odct (fun j => x (px (if v then i.rev else i) j)) (finProdFinEquiv.symm t).2 := fun i =>
      odct_mir h (fun j => x (px (if v then i.rev else i) j)) _
    simp only [e, odct_smul]
    rw [odct_mir v fun i => odct (fun j => x (px i j)) (finProdFinEquiv.symm t).2]
    ring

theorem mirSign_unit {mrow mcol : ℕ} (two v h : Bool) (t : Fin (mrow * mcol)) : mirSign two v h t = 1 ∨ mirSign two v h t = -1 := by
  have p1 : ∀ n : ℕ, (-1 : ℝ) ^ n = 1 ∨ (-1 : ℝ) ^ n = -1 := fun n => neg_one_pow_eq_or ℝ n
  unfold mirSign
  split
  · have a : (if v then (-1 : ℝ) ^ (finProdFinEquiv.symm t).1.val else 1) = 1 ∨ (if v then (-1 : ℝ) ^ (finProdFinEquiv.symm t).1.val else 1) = -1 := by
      split; exacts [p1 _, Or.inl rfl]
    have b : (if h then (-1 : ℝ) ^ (finProdFinEquiv.symm t).2.val else 1) = 1 ∨ (if h then (-1 : ℝ) ^ (finProdFinEquiv.symm t).2.val else 1) = -1 := by
      split; exacts [p1 _, Or.inl rfl]
    rcases a with a | a <;> rcases b with b | b <;> rw [a, b] <;> norm_num
  · split
    exacts [p1 _, Or.inl rfl]

/-! ## The operators -/

section ops
variable {n m p : ℕ}

/-- `x ↦ s x(ρ ·)` -/
def movePix {m : ℕ} (s : ℝ) (g : Fin m → Fin m) : (Fin m → ℝ) →ₗ[ℝ] Fin m → ℝ where
  toFun x := fun i => s * x (g i)
  map_add' x y := by funext i; simp [mul_add]
  map_smul' a x := by funext i; simp; ring

theorem sym_ops {A A' : Matrix (Fin n) (Fin m) ℝ} {W : Matrix (Fin m) (Fin p) ℝ} {s : ℝ} (hs : s = 1 ∨ s = -1) {g : Fin m → Fin m} (hg : ∀ i, g (g i) = i)
    (f : Equiv.Perm (Fin n)) {ix : Fin n → Fin m} (hA : ∀ x i, (A *ᵥ x) i = x (ix i)) (hA' : ∀ x i, (A' *ᵥ x) i = x (g (ix (f i))))
    (hAt : ∀ y, Aᵀ *ᵥ y = onBlack ix y) (hAt' : ∀ y, A'ᵀ *ᵥ y = onBlack (fun i => g (ix (f i))) y) {e : Fin p → ℝ} (he : ∀ i, e i = 1 ∨ e i = -1)
    (hW : ∀ x, Wᵀ *ᵥ movePix s g x = sgnPerm e 1 (Wᵀ *ᵥ x)) : SymR A A' W W (movePix s g) (movePix s f) e 1 := by
  have hss : s * s = 1 := by rcases hs with rfl | rfl <;> norm_num
  have hee : ∀ i, e i * e i = 1 := fun i => by rcases he i with h | h <;> rw [h] <;> norm_num
  have hinv : ∀ x, movePix s g (movePix s g x) = x := fun x => by
    funext i
    show s * (s * x (g (g i))) = x i
    rw [hg, ← mul_assoc, hss, one_mul]
  refine ⟨fun x => funext fun i => ?_, fun y => funext fun t => ?_, fun z => funext fun i => ?_, hW, fun y => ?_, he⟩
  · rw [hA']
    show s * x (g (g (ix (f i)))) = s * (A *ᵥ x) (f i)
    rw [hg, hA]
  · show _ = s * (Aᵀ *ᵥ y) (g t)
    rw [hAt', hAt]
    unfold onBlack
    rw [← Equiv.sum_comp f fun i => if ix i = g t then y i else 0, Finset.mul_sum]
    refine Finset.sum_congr rfl fun i _ => ?_
    have : g (ix (f i)) = t ↔ ix (f i) = g t := ⟨fun h => by rw [← h, hg], fun h => by rw [h, hg]⟩
    simp only [this]
    show (if _ then s * y (f i) else 0) = _
    split <;> simp
  · have key : ∀ u : Fin p → ℝ, (W *ᵥ u) i = (Wᵀ *ᵥ Pi.single i 1) ⬝ᵥ u := fun u => by
      rw [dot_mulVec_T]
      simp
    show _ = s * (W *ᵥ z) (g i)
    rw [key, ← hinv (Pi.single i 1), hW]
    have h1 : sgnPerm e 1 (Wᵀ *ᵥ movePix s g (Pi.single i 1)) ⬝ᵥ sgnPerm e 1 z = (Wᵀ *ᵥ movePix s g (Pi.single i 1)) ⬝ᵥ z := by
      refine Finset.sum_congr rfl fun k _ => ?_
      show e k * _ * (e k * _) = _
      rw [mul_mul_mul_comm, hee, one_mul]; rfl
    rw [h1, dot_mulVec_T]
    have h2 : movePix s g (Pi.single i 1) = s • Pi.single (g i) 1 := by
      funext j
      show s * (Pi.single i (1 : ℝ) : Fin m → ℝ) (g j) = s * (Pi.single (g i) (1 : ℝ) : Fin m → ℝ) j
      congr 1
      by_cases h : g j = i
      · subst h; simp [hg]
      · have : j ≠ g i := fun h' => h (by rw [h', hg])
        simp [Pi.single_apply, h, this]
    rw [h2, smul_dotProduct]
    simp
  · have : ∀ i, (movePix s f y) i * (movePix s f y) i = y (f i) * y (f i) := fun i => by
      show s * y (f i) * (s * y (f i)) = _
      rw [mul_mul_mul_comm, hss, one_mul]
    unfold nrm dotProduct
    simp only [this]
    rw [Equiv.sum_comp f fun i => y i * y i]

/-- the number the smoothing starts from scales with the data -/
theorem vmax_sym {e : Fin p → ℝ} (he : ∀ i, e i = 1 ∨ e i = -1) (he' : ∀ i : Fin p, m ≤ i.val → e i = 1) {c M : ℝ} (hc : 0 < c) (hp : 0 < p) {w : Fin p → ℝ}
    (hM : vmax (fvec (absHead m w)) = Dbl.fin M) : vmax (fvec (absHead m (c • sgnPerm e 1 w))) = Dbl.fin (c * M) := by
  have h1 : absHead m (c • sgnPerm e 1 w) = c • absHead m w := by
    funext i
    show (if i.val < m then |c * (e i * w i)| else c * (e i * w i)) = c * (if i.val < m then |w i| else w i)
    split
    · have : |e i| = 1 := by rcases he i with h | h <;> rw [h] <;> norm_num
      rw [abs_mul, abs_mul, abs_of_pos hc, this, one_mul]
    · rw [he' i (by omega), one_mul]
  obtain ⟨M1, e1, e2, i, e3⟩ := vmax_fvec hp (absHead m w)
  obtain ⟨M2, f1, f2, j, f3⟩ := vmax_fvec hp (c • absHead m w)
  rw [h1, f1]
  rw [e1] at hM
  cases hM
  congr 1
  have a := f2 i
  have b := e2 j
  rw [Pi.smul_apply, smul_eq_mul] at a f3
  rw [e3] at *
  rw [f3] at *
  exact le_antisymm (mul_le_mul_of_nonneg_left b hc.le) a

end ops

end L1c
