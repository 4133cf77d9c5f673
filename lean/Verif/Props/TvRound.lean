import Verif.Proofs.TvRound
import Verif.Props.Rounding
import Verif.Props.TV

/-!
# Property C88: rounding errors of the image kernels

`M : FpModel F` is any rounded arithmetic in which negation and the literal 2 are exact (`FpSign`); IEEE binary64 is one (`b64Sign`).
`M.img mem X m` is the real image stored at `X`.  Every bound is about a pixel whose computed value is finite, and holds for every
interleaving of the threads (`KSpec`).
-/

namespace L1c
open Prog Scalar

section
variable {F : Type} [Scalar F] (M : FpModel F)

/-- row difference: two roundings -/
theorem C88_Dx {n m : ℕ} (hm : 1 ≤ m) (hfit : FitsInt ((n : Int) * m)) (alpha : F) (X D : Ptr) (mem : Mem F)
    (hX : mem.Has X ((n * m : ℕ) : Int)) (hD : mem.Has D ((n * m : ℕ) : Int)) (hs : Sep ((n * m : ℕ) : Int) D X) :
    ∃ mem', KSpec (l1c_Dx n m alpha X D) mem mem' ∧ ∀ i < n, ∀ j < m, M.fin (mem'.pix D m i j) →
      |M.img mem' D m i j - gradX (M.val alpha) m (M.img mem X m) i j| ≤ M.gam 2 * |gradX (M.val alpha) m (M.img mem X m) i j| + M.w := by
  refine ⟨_, C07_Dx hm hfit alpha X D mem hX hD hs, fun i hi j hj => ?_⟩
  simp only [FpModel.img, Mem.setImg_pix _ _ _ _ _ hi hj, gradX]
  split_ifs with h
  · exact fun hf => FpModel.scaled_diff hf
  · intro _
    rw [M.zero]
    simpa using M.w_nonneg

/-- column difference: two roundings -/
theorem C88_Dy {n m : ℕ} (hn : 1 ≤ n) (hfit : FitsInt ((n : Int) * m)) (alpha : F) (X D : Ptr) (mem : Mem F)
    (hX : mem.Has X ((n * m : ℕ) : Int)) (hD : mem.Has D ((n * m : ℕ) : Int)) (hs : Sep ((n * m : ℕ) : Int) D X) :
    ∃ mem', KSpec (l1c_Dy n m alpha X D) mem mem' ∧ ∀ i < n, ∀ j < m, M.fin (mem'.pix D m i j) →
      |M.img mem' D m i j - gradY (M.val alpha) n (M.img mem X m) i j| ≤ M.gam 2 * |gradY (M.val alpha) n (M.img mem X m) i j| + M.w := by
  refine ⟨_, C07_Dy hn hfit alpha X D mem hX hD hs, fun i hi j hj => ?_⟩
  simp only [FpModel.img, Mem.setImg_pix _ _ _ _ _ hi hj, gradY]
  split_ifs with h
  · exact fun hf => FpModel.scaled_diff hf
  · intro _
    rw [M.zero]
    simpa using M.w_nonneg

/-- `backX` and `backY` are the transposes of the differences: the specification used below is the right one -/
theorem C88_back_meaning (α : ℝ) (n m : ℕ) (u v : Img) :
    inner2 n m (gradX α m u) v = inner2 n m u (backX α m v) ∧ inner2 n m (gradY α n u) v = inner2 n m u (backY α n v) :=
  ⟨gradX_adjoint α n m u v, gradY_adjoint α n m u v⟩

/-- transposed row difference: two roundings -/
theorem C88_DxT (hS : FpSign M) {n m : ℕ} (hm : 2 ≤ m) (hfit : FitsInt ((n : Int) * m)) (alpha : F) (X D : Ptr) (mem : Mem F)
    (hX : mem.Has X ((n * m : ℕ) : Int)) (hD : mem.Has D ((n * m : ℕ) : Int)) (hs : Sep ((n * m : ℕ) : Int) D X) :
    ∃ mem', KSpec (l1c_DxT n m alpha X D) mem mem' ∧ ∀ i < n, ∀ j < m, M.fin (mem'.pix D m i j) →
      |M.img mem' D m i j - backX (M.val alpha) m (M.img mem X m) i j| ≤ M.gam 2 * |backX (M.val alpha) m (M.img mem X m) i j| + M.w := by
  refine ⟨_, kspec_DxT hm hfit hX hD hs, fun i hi j hj => ?_⟩
  simp only [FpModel.img, Mem.setImg_pix _ _ _ _ _ hi hj, backX, dRowT]
  by_cases h1 : j + 1 = m
  · rw [if_pos h1, if_neg (by omega), if_neg (by omega), sub_zero, show m - 2 = j - 1 by omega]
    exact fun hf => FpModel.scaled hf
  · rw [if_neg h1, if_pos (show j + 1 < m by omega)]
    by_cases h0 : j = 0
    · subst h0
      simp only [if_true, zero_sub]
      intro hf
      have := FpModel.scaled hf
      rw [(hS.neg (M.mul hf).1).2, neg_mul, ← mul_neg] at this
      exact this
    · simp only [if_neg h0]
      exact fun hf => FpModel.scaled_diff hf

/-- transposed column difference: two roundings -/
theorem C88_DyT {n m : ℕ} (hfit : FitsInt ((n : Int) * m)) (alpha : F) (X D : Ptr) (mem : Mem F)
    (hX : mem.Has X ((n * m : ℕ) : Int)) (hD : mem.Has D ((n * m : ℕ) : Int)) (hs : Sep ((n * m : ℕ) : Int) D X) :
    ∃ mem', KSpec (l1c_DyT n m alpha X D) mem mem' ∧ ∀ i < n, ∀ j < m, M.fin (mem'.pix D m i j) →
      |M.img mem' D m i j - backY (M.val alpha) n (M.img mem X m) i j| ≤ M.gam 2 * |backY (M.val alpha) n (M.img mem X m) i j| + M.w := by
  refine ⟨_, kspec_DyT hfit hX hD hs, fun i hi j hj hf => ?_⟩
  rw [Mem.setImg_pix _ _ _ _ _ hi hj] at hf
  simp only [FpModel.img, Mem.setImg_pix _ _ _ _ _ hi hj, backY]
  have := FpModel.scaled_diff hf
  simp only [apply_ite M.val, M.zero] at this
  exact this

/-- second row difference: the error is small against the pixels involved, not against the result (the terms can cancel) -/
theorem C88_DxTDx (hS : FpSign M) {n m : ℕ} (hm : 2 ≤ m) (hfit : FitsInt ((n : Int) * m)) (alpha : F) (X D : Ptr) (mem : Mem F)
    (hX : mem.Has X ((n * m : ℕ) : Int)) (hD : mem.Has D ((n * m : ℕ) : Int)) (hs : Sep ((n * m : ℕ) : Int) D X) :
    ∃ mem', KSpec (l1c_DxTDx n m alpha X D) mem mem' ∧ ∀ i < n, ∀ j < m, M.fin (mem'.pix D m i j) →
      |M.img mem' D m i j - backX (M.val alpha) m (gradX (M.val alpha) m (M.img mem X m)) i j| ≤
        M.gam 5 * (M.val alpha ^ 2 * sizeX m (M.img mem X m) i j) +
          (1 + M.u) ^ 5 * M.w * (M.val alpha ^ 2 + sizeX m (M.img mem X m) i j + M.w) + M.w := by
  refine ⟨_, kspec_DxTDx hm hfit hX hD hs, fun i hi j hj => ?_⟩
  simp only [FpModel.img, Mem.setImg_pix _ _ _ _ _ hi hj, backX, gradX, sizeX, dRow2]
  by_cases h1 : j + 1 = m
  · have c1 : ¬ j = 0 := by omega
    have c2 : ¬ j + 1 < m := by omega
    have c3 : j < m := by omega
    rw [if_pos h1, show m - 2 = j - 1 by omega, show m - 1 = j by omega]
    simp only [c1, c2, if_false, Nat.sub_add_cancel (show 1 ≤ j by omega), c3, if_true]
    intro hf
    have := FpModel.Within.sq_mul (fun h => within_two h) hf
    rw [add_comm |M.val (mem.pix X m i j)|] at this
    convert this using 2
    · ring_nf
    · ring
  · rw [if_neg h1, if_pos (show j + 1 < m by omega)]
    by_cases h0 : j = 0
    · subst h0
      simp only [if_true, zero_sub, zero_add, if_pos (show 0 + 1 < m by omega)]
      intro hf
      have := FpModel.Within.sq_mul (fun h => within_two h) hf
      convert this using 2
      ring_nf
    · rw [if_neg h0, if_neg h0, if_pos (show j - 1 + 1 < m by omega), if_pos (show j + 1 < m by omega), if_neg h0,
        Nat.sub_add_cancel (by omega)]
      simp only [if_pos (show j + 1 < m by omega)]
      intro hf
      have := FpModel.Within.sq_mul (fun h => within_three hS h) hf
      convert this using 2
      · ring_nf
      · ring

/-- second column difference -/
theorem C88_DyTDy (hS : FpSign M) {n m : ℕ} (hn : 2 ≤ n) (hfit : FitsInt ((n : Int) * m)) (alpha : F) (X D : Ptr) (mem : Mem F)
    (hX : mem.Has X ((n * m : ℕ) : Int)) (hD : mem.Has D ((n * m : ℕ) : Int)) (hs : Sep ((n * m : ℕ) : Int) D X) :
    ∃ mem', KSpec (l1c_DyTDy n m alpha X D) mem mem' ∧ ∀ i < n, ∀ j < m, M.fin (mem'.pix D m i j) →
      |M.img mem' D m i j - backY (M.val alpha) n (gradY (M.val alpha) n (M.img mem X m)) i j| ≤
        M.gam 5 * (M.val alpha ^ 2 * sizeY n (M.img mem X m) i j) +
          (1 + M.u) ^ 5 * M.w * (M.val alpha ^ 2 + sizeY n (M.img mem X m) i j + M.w) + M.w := by
  refine ⟨_, kspec_DyTDy hfit hX hD hs, fun i hi j hj => ?_⟩
  simp only [FpModel.img, Mem.setImg_pix _ _ _ _ _ hi hj, backY, gradY, sizeY, dCol2]
  by_cases h1 : i + 1 = n
  · rw [if_neg (show ¬ i = 0 by omega), if_pos (Or.inr h1), if_neg (show ¬ i + 1 < n by omega), if_neg (show ¬ i = 0 by omega),
      if_pos (show i - 1 + 1 < n by omega), if_neg (show ¬ i + 1 < n by omega), if_neg (show ¬ i = 0 by omega),
      if_neg (show ¬ i + 1 < n by omega), Nat.sub_add_cancel (by omega)]
    intro hf
    have := FpModel.Within.sq_mul (fun h => within_border hS h) hf
    rw [M.zero, abs_zero] at this
    convert this using 2
    · ring_nf
  · by_cases h0 : i = 0
    · subst h0
      simp only [if_true, true_or, zero_sub, zero_add, if_pos (show 0 + 1 < n by omega)]
      intro hf
      have := FpModel.Within.sq_mul (fun h => within_border hS h) hf
      rw [M.zero, abs_zero] at this
      convert this using 2
      · ring_nf
      · ring
    · rw [if_neg h0, if_neg (show ¬ (i = 0 ∨ i + 1 = n) by omega), if_pos (show i + 1 < n by omega), if_neg h0,
        if_pos (show i - 1 + 1 < n by omega), if_neg h0, Nat.sub_add_cancel (by omega)]
      simp only [if_pos (show i + 1 < n by omega)]
      intro hf
      have := FpModel.Within.sq_mul (fun h => within_three hS h) hf
      convert this using 2
      · ring_nf
      · ring

end

/-! ## binary64 -/

/-- With weight 1, as the denoising uses it, every row difference of finite pixels is the correctly rounded exact difference; so it
is zero exactly between equal pixels and otherwise has the right sign. -/
theorem C88_Dx_unit {n m : ℕ} (hm : 1 ≤ m) (hfit : FitsInt ((n : Int) * m)) (X D : Ptr) (mem : Mem B64)
    (hX : mem.Has X ((n * m : ℕ) : Int)) (hD : mem.Has D ((n * m : ℕ) : Int)) (hs : Sep ((n * m : ℕ) : Int) D X) :
    ∃ mem', KSpec (l1c_Dx n m (lit 1 : B64) X D) mem mem' ∧ ∀ i < n, ∀ j, j + 1 < m → (mem.pix X m i j).IsFin → (mem.pix X m i (j + 1)).IsFin →
      |rnd ((mem.pix X m i (j + 1)).toReal - (mem.pix X m i j).toReal)| < 2 ^ (1024 : ℤ) →
      (mem'.pix D m i j).IsFin ∧ (mem'.pix D m i j).toReal = rnd ((mem.pix X m i (j + 1)).toReal - (mem.pix X m i j).toReal) ∧
      ((mem'.pix D m i j).toReal = 0 ↔ (mem.pix X m i (j + 1)).toReal = (mem.pix X m i j).toReal) ∧
      (0 < (mem'.pix D m i j).toReal ↔ (mem.pix X m i j).toReal < (mem.pix X m i (j + 1)).toReal) := by
  refine ⟨_, C07_Dx hm hfit _ X D mem hX hD hs, fun i hi j hj fa fb hb => ?_⟩
  rw [Mem.setImg_pix _ _ _ _ _ hi (by omega), if_pos hj]
  obtain ⟨fs, vs⟩ := B64.sub_fin fb fa hb
  obtain ⟨f, v⟩ := B64.sign_mul B64.lit_one.1 (Or.inl B64.lit_one.2) fs
  rw [B64.lit_one.2, one_mul, vs] at v
  have hg : Grid ((mem.pix X m i (j + 1)).toReal - (mem.pix X m i j).toReal) := by
    rw [sub_eq_add_neg]
    exact (B64.grid fb).add (B64.grid fa).neg
  refine ⟨f, v, ?_, ?_⟩
  · rw [v, rnd_grid_eq_zero hg, sub_eq_zero]
  · rw [v, ← sub_pos (b := (mem.pix X m i j).toReal)]
    refine ⟨fun h => ?_, fun h => lt_of_le_of_ne (rnd_nonneg h.le) (fun c => h.ne' ((rnd_grid_eq_zero hg).1 c.symm))⟩
    by_contra hn
    have := rnd_mono (not_lt.1 hn)
    rw [rnd_zero] at this
    linarith

/-- same for columns -/
theorem C88_Dy_unit {n m : ℕ} (hn : 1 ≤ n) (hfit : FitsInt ((n : Int) * m)) (X D : Ptr) (mem : Mem B64)
    (hX : mem.Has X ((n * m : ℕ) : Int)) (hD : mem.Has D ((n * m : ℕ) : Int)) (hs : Sep ((n * m : ℕ) : Int) D X) :
    ∃ mem', KSpec (l1c_Dy n m (lit 1 : B64) X D) mem mem' ∧ ∀ i, i + 1 < n → ∀ j < m, (mem.pix X m i j).IsFin → (mem.pix X m (i + 1) j).IsFin →
      |rnd ((mem.pix X m (i + 1) j).toReal - (mem.pix X m i j).toReal)| < 2 ^ (1024 : ℤ) →
      (mem'.pix D m i j).IsFin ∧ (mem'.pix D m i j).toReal = rnd ((mem.pix X m (i + 1) j).toReal - (mem.pix X m i j).toReal) ∧
      ((mem'.pix D m i j).toReal = 0 ↔ (mem.pix X m (i + 1) j).toReal = (mem.pix X m i j).toReal) ∧
      (0 < (mem'.pix D m i j).toReal ↔ (mem.pix X m i j).toReal < (mem.pix X m (i + 1) j).toReal) := by
  refine ⟨_, C07_Dy hn hfit _ X D mem hX hD hs, fun i hi j hj fa fb hb => ?_⟩
  rw [Mem.setImg_pix _ _ _ _ _ (by omega) hj, if_pos hi]
  obtain ⟨fs, vs⟩ := B64.sub_fin fb fa hb
  obtain ⟨f, v⟩ := B64.sign_mul B64.lit_one.1 (Or.inl B64.lit_one.2) fs
  rw [B64.lit_one.2, one_mul, vs] at v
  have hg : Grid ((mem.pix X m (i + 1) j).toReal - (mem.pix X m i j).toReal) := by
    rw [sub_eq_add_neg]
    exact (B64.grid fb).add (B64.grid fa).neg
  refine ⟨f, v, ?_, ?_⟩
  · rw [v, rnd_grid_eq_zero hg, sub_eq_zero]
  · rw [v, ← sub_pos (b := (mem.pix X m i j).toReal)]
    refine ⟨fun h => ?_, fun h => lt_of_le_of_ne (rnd_nonneg h.le) (fun c => h.ne' ((rnd_grid_eq_zero hg).1 c.symm))⟩
    by_contra hn
    have := rnd_mono (not_lt.1 hn)
    rw [rnd_zero] at this
    linarith

/-- Shrinkage in binary64 never overflows and is the correctly rounded soft threshold.  So it is zero exactly within the threshold,
never enlarges an entry, and keeps the order of entries. -/
theorem C88_shrink {N : Int} (X D : Ptr) (gamma : B64) (mem : Mem B64) (hX : mem.Has X N) (hD : mem.Has D N) (hs : NoCross N D X)
    (hg : gamma.IsFin) (hg0 : 0 ≤ gamma.toReal) :
    ∃ mem', KSpec (breg_shrink1 N X D gamma) mem mem' ∧ ∀ k, 0 ≤ k → k < N → (mem.val (X + k)).IsFin →
      (mem'.val (D + k)).IsFin ∧ (mem'.val (D + k)).toReal = rnd (softR gamma.toReal (mem.val (X + k)).toReal) ∧
      ((mem'.val (D + k)).toReal = 0 ↔ |(mem.val (X + k)).toReal| ≤ gamma.toReal) ∧
      |(mem'.val (D + k)).toReal| ≤ |(mem.val (X + k)).toReal| ∧
      |(mem'.val (D + k)).toReal - softR gamma.toReal (mem.val (X + k)).toReal| ≤ 2 ^ (-53 : ℤ) * |softR gamma.toReal (mem.val (X + k)).toReal| ∧
      ∀ l, 0 ≤ l → l < N → (mem.val (X + l)).IsFin → (mem.val (X + k)).toReal ≤ (mem.val (X + l)).toReal →
        (mem'.val (D + k)).toReal ≤ (mem'.val (D + l)).toReal := by
  refine ⟨_, kspec_map1 (shrinkVal gamma) hX hD hs, fun k h0 h1 hf => ?_⟩
  rw [Mem.setRange_val_in _ _ _ _ _ h0 h1]
  obtain ⟨f, v⟩ := B64.shrink_val hg hf hg0
  have hgr := softR_grid (B64.grid hg) (B64.grid hf)
  refine ⟨f, v, ?_, ?_, ?_, fun l l0 l1 hl hle => ?_⟩
  · rw [v, rnd_grid_eq_zero hgr, softR_zero]
  · rw [v, rnd_abs]
    have := rnd_mono (softR_abs hg0 (mem.val (X + k)).toReal)
    rwa [← rnd_abs (mem.val (X + k)).toReal, B64.rnd_toReal hf] at this
  · rw [v]
    obtain ⟨δ, hd, he⟩ := rnd_grid_err hgr
    rw [he, show ∀ a : ℝ, a * (1 + δ) - a = δ * a by intro a; ring, abs_mul]
    exact mul_le_mul_of_nonneg_right hd (abs_nonneg _)
  · rw [Mem.setRange_val_in _ _ _ _ _ l0 l1, v, (B64.shrink_val hg hl hg0).2]
    exact rnd_mono (softR_mono hg0 hle)

/-! ### the second difference is not exactly the two differences one after the other -/

/-- one row: `-2^53, 1, 0` -/
noncomputable def stepMem : Mem B64 :=
  ⟨fun _ => 3, fun p => if p.off = 0 then -B64.ofReal big else if p.off = 1 then lit 1 else lit 0⟩

theorem small_max {r : ℝ} (h : |r| ≤ 2 ^ 54) : |r| < 2 ^ (1024 : ℤ) := by
  refine lt_of_le_of_lt h (lt_of_eq_of_lt ?_ B64.pow_big)
  norm_num

/-- `C09` over the reals says `DxTDx X = DxT (Dx X)`.  In binary64 it fails: on the row `-2^53, 1, 0` the middle entry is `2^53 + 2`
one way and `2^53` the other.  The memory also meets the hypotheses of all theorems above on kernels, with a rounding really happening. -/
theorem C88_second_difference_false : stepMem.Has ⟨0, 0⟩ ((1 * 3 : ℕ) : Int) ∧ (∀ i j, (stepMem.pix ⟨0, 0⟩ 3 i j).IsFin) ∧
    ∃ m₁ m₂ m₃, KSpec (l1c_Dx 1 3 (lit 1 : B64) ⟨0, 0⟩ ⟨1, 0⟩) stepMem m₁ ∧ KSpec (l1c_DxT 1 3 (lit 1 : B64) ⟨1, 0⟩ ⟨2, 0⟩) m₁ m₂ ∧
      KSpec (l1c_DxTDx 1 3 (lit 1 : B64) ⟨0, 0⟩ ⟨3, 0⟩) stepMem m₃ ∧
      (m₂.pix ⟨2, 0⟩ 3 0 1).toReal = 2 ^ 53 ∧ (m₃.pix ⟨3, 0⟩ 3 0 1).toReal = 2 ^ 53 + 2 := by
  have hfit : FitsInt (((1 : ℕ) : Int) * ((3 : ℕ) : Int)) := by unfold FitsInt INT_MAX INT_MIN; norm_num
  have has : ∀ b, stepMem.Has ⟨b, 0⟩ ((1 * 3 : ℕ) : Int) := fun b i h0 h1 => by
    simp only [Mem.Ok, stepMem, Ptr.add_off]
    push_cast at h1
    omega
  have vb : (B64.ofReal big).1 = Dbl.fin big := B64.ofReal_val rnd_big (small_max (by rw [abs_of_pos (by norm_num)]; norm_num))
  obtain ⟨fB, wB⟩ := B64.val_fin vb
  obtain ⟨fa, va⟩ := B64.neg_fin fB
  obtain ⟨fn, vn⟩ := B64.neg_fin fa
  obtain ⟨f1, v1⟩ := B64.lit_one
  obtain ⟨f0, v0⟩ := B64.lit_zero
  have f2 : (lit 2 : B64).IsFin ∧ (lit 2 : B64).toReal = 2 := by
    have := B64.lit_nat (n := 2) (by norm_num)
    push_cast at this
    exact this
  obtain ⟨f2, v2⟩ := f2
  have p0 : stepMem.pix ⟨0, 0⟩ 3 0 0 = -B64.ofReal big := by simp [Mem.pix, stepMem]
  have p1 : stepMem.pix ⟨0, 0⟩ 3 0 1 = lit 1 := by simp [Mem.pix, stepMem]
  have p2 : stepMem.pix ⟨0, 0⟩ 3 0 2 = lit 0 := by simp [Mem.pix, stepMem]
  have k1 := C07_Dx (n := 1) (m := 3) (by norm_num) hfit (lit 1 : B64) ⟨0, 0⟩ ⟨1, 0⟩ stepMem (has 0) (has 1) (Sep.of_blk (by simp))
  have k3 := kspec_DxTDx (n := 1) (m := 3) (alpha := (lit 1 : B64)) (X := ⟨0, 0⟩) (D := ⟨3, 0⟩) (mem := stepMem) (by norm_num) hfit (has 0) (has 3)
    (Sep.of_blk (by simp))
  have k2 := kspec_DxT (n := 1) (m := 3) (alpha := (lit 1 : B64)) (X := ⟨1, 0⟩) (D := ⟨2, 0⟩)
    (mem := stepMem.setImg ⟨1, 0⟩ 1 3 fun i j =>
      if j + 1 < 3 then (lit 1 : B64) * (stepMem.pix ⟨0, 0⟩ 3 i (j + 1) - stepMem.pix ⟨0, 0⟩ 3 i j) else lit 0) (by norm_num) hfit (has 1) (has 2)
    (Sep.of_blk (by simp))
  refine ⟨has 0, fun i j => ?_, _, _, _, k1, k2, k3, ?_, ?_⟩
  · simp only [Mem.pix, stepMem]
    split_ifs
    · exact fa
    · exact f1
    · exact f0
  · rw [Mem.setImg_pix _ _ _ _ _ (by norm_num) (by norm_num)]
    simp only [dRowT]
    rw [if_neg (by norm_num), if_neg (by norm_num), Mem.setImg_pix _ _ _ _ _ (by norm_num) (by norm_num),
      Mem.setImg_pix _ _ _ _ _ (by norm_num) (by norm_num), if_pos (by norm_num), if_pos (by norm_num), p0, p1, p2]
    have r1 : rnd ((lit 1 : B64).toReal - (-B64.ofReal big).toReal) = big := by
      rw [v1, va, wB, sub_neg_eq_add, add_comm, rnd_big1]
    have r2 : rnd ((lit 0 : B64).toReal - (lit 1 : B64).toReal) = -1 := by
      rw [v1, v0, zero_sub, rnd_neg, rnd_one]
    obtain ⟨g1, w1⟩ := B64.sub_fin f1 fa (by rw [r1]; exact small_max (by rw [abs_of_pos (by norm_num)]; norm_num))
    obtain ⟨g2, w2⟩ := B64.sub_fin f0 f1 (by rw [r2]; exact small_max (by rw [abs_neg, abs_one]; norm_num))
    rw [r1] at w1
    rw [r2] at w2
    obtain ⟨g3, w3⟩ := B64.sign_mul f1 (Or.inl v1) g1
    obtain ⟨g4, w4⟩ := B64.sign_mul f1 (Or.inl v1) g2
    rw [v1, w1, one_mul] at w3
    rw [v1, w2, one_mul] at w4
    have r3 : rnd ((lit 1 * (lit 1 - -B64.ofReal big) : B64).toReal - (lit 1 * (lit 0 - lit 1) : B64).toReal) = big := by
      rw [w3, w4, sub_neg_eq_add, rnd_big1]
    obtain ⟨g5, w5⟩ := B64.sub_fin g3 g4 (by rw [r3]; exact small_max (by rw [abs_of_pos (by norm_num)]; norm_num))
    obtain ⟨g6, w6⟩ := B64.sign_mul f1 (Or.inl v1) g5
    refine w6.trans ?_
    rw [v1, w5, r3]
    norm_num
  · rw [Mem.setImg_pix _ _ _ _ _ (by norm_num) (by norm_num)]
    simp only [dRow2]
    rw [if_neg (by norm_num), if_neg (by norm_num)]
    show (lit 1 * lit 1 * (-stepMem.pix ⟨0, 0⟩ 3 0 0 + lit 2 * stepMem.pix ⟨0, 0⟩ 3 0 1 - stepMem.pix ⟨0, 0⟩ 3 0 2) : B64).toReal = _
    rw [p0, p1, p2]
    obtain ⟨g1, w1⟩ := B64.sign_mul f1 (Or.inl v1) f1
    rw [v1, mul_one] at w1
    have r2 : rnd ((lit 2 : B64).toReal * (lit 1 : B64).toReal) = 2 := by rw [v1, v2, mul_one, rnd_two]
    obtain ⟨g2, w2⟩ := B64.mul_fin f2 f1 (by rw [r2]; exact small_max (by rw [abs_of_pos (by norm_num)]; norm_num))
    rw [r2] at w2
    have r3 : rnd ((- -B64.ofReal big).toReal + (lit 2 * lit 1 : B64).toReal) = big + 2 := by rw [vn, va, wB, w2, neg_neg, rnd_big2]
    have hb : |big + 2| < 2 ^ (1024 : ℤ) := small_max (by rw [abs_of_pos (by norm_num)]; norm_num)
    obtain ⟨g3, w3⟩ := B64.add_fin fn g2 (by rw [r3]; exact hb)
    rw [r3] at w3
    have r4 : rnd ((- -B64.ofReal big + lit 2 * lit 1 : B64).toReal - (lit 0 : B64).toReal) = big + 2 := by rw [w3, v0, sub_zero, rnd_big2]
    obtain ⟨g4, w4⟩ := B64.sub_fin g3 f0 (by rw [r4]; exact hb)
    obtain ⟨g5, w5⟩ := B64.sign_mul g1 (Or.inl w1) g4
    refine w5.trans ?_
    rw [w1, w4, r4]
    norm_num

/-- the hypotheses of `C88_Dx`, `C88_DxT`, `C88_DxTDx` (three columns, separate blocks) and of `C88_shrink` (threshold 1) -/
example : stepMem.Has ⟨0, 0⟩ ((1 * 3 : ℕ) : Int) ∧ Sep ((1 * 3 : ℕ) : Int) ⟨1, 0⟩ ⟨0, 0⟩ ∧ FpSign b64Model ∧
    NoCross 3 ⟨1, 0⟩ ⟨0, 0⟩ ∧ (lit 1 : B64).IsFin ∧ 0 ≤ (lit 1 : B64).toReal :=
  ⟨C88_second_difference_false.1, Sep.of_blk (by simp), b64Sign, NoCross.of_blk (by simp), B64.lit_one.1, by rw [B64.lit_one.2]; norm_num⟩

/-- soft threshold 1 of -3, 1/2 and 3 -/
example : softR 1 (-3) = -2 ∧ softR 1 (1 / 2) = 0 ∧ softR 1 3 = 2 := by
  refine ⟨?_, ?_, ?_⟩ <;> unfold softR <;> norm_num

end L1c
