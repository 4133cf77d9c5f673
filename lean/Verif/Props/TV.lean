import Verif.Proofs.TVReal

/-!
# C07–C11: the finite-difference operators of `src/TV.c`

`KSpec k mem mem'` means: under every interleaving of the OpenMP iterations the kernel `k` performs no
out-of-bounds access and no signed overflow, can always run to completion, and every complete run ends
in `mem'`.  `mem.setImg D n m f` is `mem` with the image at `D` replaced by `f` and all else unchanged.
-/

namespace L1c
open Prog Scalar

/-! ## C07 -/

/-- `C07` for `l1c_Dx`, any scalar arithmetic. -/
theorem C07_Dx {F : Type} [Scalar F] {n m : ℕ} (hm : 1 ≤ m) (hfit : FitsInt ((n : Int) * m)) (alpha : F)
    (X D : Ptr) (mem : Mem F) (hX : mem.Has X ((n * m : ℕ) : Int)) (hD : mem.Has D ((n * m : ℕ) : Int))
    (hs : Sep ((n * m : ℕ) : Int) D X) :
    KSpec (l1c_Dx n m alpha X D) mem (mem.setImg D n m fun i j =>
      if j + 1 < m then alpha * (mem.pix X m i (j + 1) - mem.pix X m i j) else lit 0) :=
  kspec_Dx hm hfit hX hD hs

/-- `C07` for `l1c_Dy`, any scalar arithmetic. -/
theorem C07_Dy {F : Type} [Scalar F] {n m : ℕ} (hn : 1 ≤ n) (hfit : FitsInt ((n : Int) * m)) (alpha : F)
    (X D : Ptr) (mem : Mem F) (hX : mem.Has X ((n * m : ℕ) : Int)) (hD : mem.Has D ((n * m : ℕ) : Int))
    (hs : Sep ((n * m : ℕ) : Int) D X) :
    KSpec (l1c_Dy n m alpha X D) mem (mem.setImg D n m fun i j =>
      if i + 1 < n then alpha * (mem.pix X m (i + 1) j - mem.pix X m i j) else lit 0) :=
  kspec_Dy hn hfit hX hD hs

/-- `setImg` really is "image replaced, everything else unchanged" (so that `C07` says what it should). -/
theorem C07_setImg_meaning {F : Type} (mem : Mem F) (D : Ptr) (n m : ℕ) (f : ℕ → ℕ → F) :
    (∀ i < n, ∀ j < m, (mem.setImg D n m f).val (D + ((i * m + j : ℕ) : Int)) = f i j) ∧
    (∀ a : Ptr, (∀ i < n, ∀ j < m, a ≠ D + ((i * m + j : ℕ) : Int)) → (mem.setImg D n m f).val a = mem.val a) ∧
    (mem.setImg D n m f).len = mem.len := by
  refine ⟨fun i hi j hj => Mem.setImg_pix mem D n m f hi hj, fun a ha => ?_, rfl⟩
  apply Mem.setRange_val_out
  rintro ⟨h1, h2, h3⟩
  have hm : 0 < m := by
    rcases Nat.eq_zero_or_pos m with rfl | h
    · simp at h3; omega
    · exact h
  have hk : (a.off - D.off).toNat < n * m := by omega
  refine ha ((a.off - D.off).toNat / m) (by rw [Nat.div_lt_iff_lt_mul hm]; exact hk)
    ((a.off - D.off).toNat % m) (Nat.mod_lt _ hm) ?_
  rw [Nat.div_add_mod']
  ext
  · simpa using h1
  · simp; omega

/-- memory used in the non-vacuity examples: every block has `N` doubles, entry `k` is `k` -/
noncomputable def demoMem (N : ℕ) : Mem Dbl := ⟨fun _ => N, fun p => Dbl.fin p.off⟩

theorem demoMem_holds (n m : ℕ) (b : ℕ) :
    HoldsImg (demoMem (n * m)) ⟨b, 0⟩ n m (fun i j => ((i * m + j : ℕ) : ℝ)) := by
  refine ⟨fun i h0 h1 => ⟨by simpa using h0, by simpa [demoMem] using h1⟩, fun i hi j hj => ?_⟩
  simp [Mem.pix, demoMem]

example : ∃ mem : Mem Dbl, ∃ X D : Ptr, mem.Has X ((2 * 3 : ℕ) : Int) ∧ mem.Has D ((2 * 3 : ℕ) : Int) ∧
    Sep ((2 * 3 : ℕ) : Int) D X ∧ FitsInt ((2 : Int) * 3) :=
  ⟨demoMem (2 * 3), ⟨0, 0⟩, ⟨1, 0⟩, (demoMem_holds 2 3 0).1, (demoMem_holds 2 3 1).1,
    Sep.of_blk (by simp), by unfold FitsInt INT_MAX INT_MIN; norm_num⟩

/-! ## C08 -/

/-- `C08` for the row operators. -/
theorem C08_x {n m : ℕ} (hm : 2 ≤ m) (hfit : FitsInt ((n : Int) * m)) (α : ℝ) (mem : Mem Dbl)
    (U V DU DV : Ptr) (u v : Img) (hU : HoldsImg mem U n m u) (hV : HoldsImg mem V n m v)
    (hDU : mem.Has DU ((n * m : ℕ) : Int)) (hDV : mem.Has DV ((n * m : ℕ) : Int))
    (hs : Sep ((n * m : ℕ) : Int) DU U) (hs' : Sep ((n * m : ℕ) : Int) DV V) :
    ∃ m₁ m₂ du dv, KSpec (l1c_Dx n m (Dbl.fin α) U DU) mem m₁ ∧ HoldsImg m₁ DU n m du ∧
      KSpec (l1c_DxT n m (Dbl.fin α) V DV) mem m₂ ∧ HoldsImg m₂ DV n m dv ∧
      inner2 n m du v = inner2 n m u dv :=
  ⟨_, _, gradX α m u, gradXT α m v, imgOp_Dx (by omega) hfit α mem U DU u hU hDU hs, holdsImg_setImg hDU,
    imgOp_DxT hm hfit α mem V DV v hV hDV hs', holdsImg_setImg hDV, gradX_adjoint α n m u v⟩

/-- `C08` for the column operators. -/
theorem C08_y {n m : ℕ} (hn : 1 ≤ n) (hfit : FitsInt ((n : Int) * m)) (α : ℝ) (mem : Mem Dbl)
    (U V DU DV : Ptr) (u v : Img) (hU : HoldsImg mem U n m u) (hV : HoldsImg mem V n m v)
    (hDU : mem.Has DU ((n * m : ℕ) : Int)) (hDV : mem.Has DV ((n * m : ℕ) : Int))
    (hs : Sep ((n * m : ℕ) : Int) DU U) (hs' : Sep ((n * m : ℕ) : Int) DV V) :
    ∃ m₁ m₂ du dv, KSpec (l1c_Dy n m (Dbl.fin α) U DU) mem m₁ ∧ HoldsImg m₁ DU n m du ∧
      KSpec (l1c_DyT n m (Dbl.fin α) V DV) mem m₂ ∧ HoldsImg m₂ DV n m dv ∧
      inner2 n m du v = inner2 n m u dv :=
  ⟨_, _, gradY α n u, gradYT α n v, imgOp_Dy hn hfit α mem U DU u hU hDU hs, holdsImg_setImg hDU,
    imgOp_DyT hfit α mem V DV v hV hDV hs', holdsImg_setImg hDV, gradY_adjoint α n m u v⟩

example : ∃ mem : Mem Dbl, ∃ U V DU DV : Ptr, ∃ u v : Img, HoldsImg mem U 2 3 u ∧ HoldsImg mem V 2 3 v ∧
    mem.Has DU ((2 * 3 : ℕ) : Int) ∧ mem.Has DV ((2 * 3 : ℕ) : Int) ∧
    Sep ((2 * 3 : ℕ) : Int) DU U ∧ Sep ((2 * 3 : ℕ) : Int) DV V ∧ inner2 2 3 u v ≠ 0 :=
  ⟨demoMem (2 * 3), ⟨0, 0⟩, ⟨1, 0⟩, ⟨2, 0⟩, ⟨3, 0⟩, _, _, demoMem_holds 2 3 0, demoMem_holds 2 3 1,
    (demoMem_holds 2 3 2).1, (demoMem_holds 2 3 3).1, Sep.of_blk (by simp), Sep.of_blk (by simp), by
    simp only [inner2, Finset.sum_range_succ, Finset.sum_range_zero]; norm_num⟩

/-! ## C09 -/

/-- `C09` for rows: `DxTDx` is `DxT` after `Dx`, for every image with at least two columns. (One
column is undefined behaviour, see `C11`.) -/
theorem C09_x {n m : ℕ} (hm : 2 ≤ m) (hfit : FitsInt ((n : Int) * m)) (α : ℝ) (mem : Mem Dbl)
    (X T D : Ptr) (u : Img) (hX : HoldsImg mem X n m u)
    (hT : mem.Has T ((n * m : ℕ) : Int)) (hD : mem.Has D ((n * m : ℕ) : Int))
    (hTX : Sep ((n * m : ℕ) : Int) T X) (hDX : Sep ((n * m : ℕ) : Int) D X)
    (hDT : Sep ((n * m : ℕ) : Int) D T) :
    ∃ m₁ m₂ m₃, KSpec (l1c_Dx n m (Dbl.fin α) X T) mem m₁ ∧ KSpec (l1c_DxT n m (Dbl.fin α) T D) m₁ m₂ ∧
      KSpec (l1c_DxTDx n m (Dbl.fin α) X D) mem m₃ ∧
      ∀ i < n, ∀ j < m, m₂.pix D m i j = m₃.pix D m i j := by
  have h1 := imgOp_Dx (show 1 ≤ m by omega) hfit α mem X T u hX hT hTX
  have h2 := imgOp_DxT hm hfit α _ T D _ (holdsImg_setImg (u := gradX α m u) hT) hD hDT
  have h3 := imgOp_DxTDx hm hfit α mem X D u hX hD hDX
  exact ⟨_, _, _, h1, h2, h3, fun i hi j hj => by
    rw [Mem.setImg_pix _ _ _ _ _ hi hj, Mem.setImg_pix _ _ _ _ _ hi hj]⟩

/-- `C09` for columns: `DyTDy` is `DyT` after `Dy`, for every image with at least two rows.
Missing: images with one row, where the claim is false, see `C09_y_one_row_false`. -/
theorem C09_y_partial {n m : ℕ} (hn : 2 ≤ n) (hfit : FitsInt ((n : Int) * m)) (α : ℝ) (mem : Mem Dbl)
    (X T D : Ptr) (u : Img) (hX : HoldsImg mem X n m u)
    (hT : mem.Has T ((n * m : ℕ) : Int)) (hD : mem.Has D ((n * m : ℕ) : Int))
    (hTX : Sep ((n * m : ℕ) : Int) T X) (hDX : Sep ((n * m : ℕ) : Int) D X)
    (hDT : Sep ((n * m : ℕ) : Int) D T) :
    ∃ m₁ m₂ m₃, KSpec (l1c_Dy n m (Dbl.fin α) X T) mem m₁ ∧ KSpec (l1c_DyT n m (Dbl.fin α) T D) m₁ m₂ ∧
      KSpec (l1c_DyTDy n m (Dbl.fin α) X D) mem m₃ ∧
      ∀ i < n, ∀ j < m, m₂.pix D m i j = m₃.pix D m i j := by
  have h1 := imgOp_Dy (show 1 ≤ n by omega) hfit α mem X T u hX hT hTX
  have h2 := imgOp_DyT hfit α _ T D _ (holdsImg_setImg (u := gradY α n u) hT) hD hDT
  have h3 := imgOp_DyTDy hn hfit α mem X D u hX hD hDX
  exact ⟨_, _, _, h1, h2, h3, fun i hi j hj => by
    rw [Mem.setImg_pix _ _ _ _ _ hi hj, Mem.setImg_pix _ _ _ _ _ hi hj]⟩

/-- On a one-row image `DyT (Dy X)` is zero but `DyTDy X` is `α² X`: the two differ at every pixel with
`α·u ≠ 0`, whatever the number of columns. -/
theorem C09_y_one_row_false {m : ℕ} (hfit : FitsInt ((1 : Int) * m)) (α : ℝ) (hα : α ≠ 0)
    (mem : Mem Dbl) (X T D : Ptr) (u : Img) (hX : HoldsImg mem X 1 m u)
    (hT : mem.Has T ((1 * m : ℕ) : Int)) (hD : mem.Has D ((1 * m : ℕ) : Int))
    (hTX : Sep ((1 * m : ℕ) : Int) T X) (hDX : Sep ((1 * m : ℕ) : Int) D X)
    (hDT : Sep ((1 * m : ℕ) : Int) D T) :
    ∃ m₁ m₂ m₃, KSpec (l1c_Dy 1 m (Dbl.fin α) X T) mem m₁ ∧ KSpec (l1c_DyT 1 m (Dbl.fin α) T D) m₁ m₂ ∧
      KSpec (l1c_DyTDy 1 m (Dbl.fin α) X D) mem m₃ ∧
      ∀ j < m, u 0 j ≠ 0 → m₂.pix D m 0 j = Dbl.fin 0 ∧ m₃.pix D m 0 j = Dbl.fin (α ^ 2 * u 0 j) ∧
        m₂.pix D m 0 j ≠ m₃.pix D m 0 j := by
  have h1 := imgOp_Dy (n := 1) le_rfl hfit α mem X T u hX hT hTX
  have h2 := imgOp_DyT (n := 1) hfit α _ T D _ (holdsImg_setImg (u := gradY α 1 u) hT) hD hDT
  have h3 := kspec_DyTDy (n := 1) (alpha := Dbl.fin α) hfit hX.1 hD hDX
  refine ⟨_, _, _, h1, h2, h3, fun j hj hu => ?_⟩
  have a : (Mem.pix (Mem.setImg mem D 1 m (dCol2 (Dbl.fin α) 1 (mem.pix X m))) D m 0 j)
      = Dbl.fin (α ^ 2 * u 0 j) := by
    rw [Mem.setImg_pix _ _ _ _ _ (by omega) hj]
    simp [dCol2, hX.2 0 (by omega) j hj]; left; ring
  have b : ∀ mem' : Mem Dbl, (Mem.pix (Mem.setImg mem' D 1 m fun i j =>
      Dbl.fin (gradYT α 1 (gradY α 1 u) i j)) D m 0 j) = Dbl.fin 0 := by
    intro mem'
    rw [Mem.setImg_pix _ _ _ _ _ (by omega) hj]
    simp [gradYT, adjRow]
  refine ⟨b _, a, ?_⟩
  rw [a, b]
  intro h
  have := Dbl.fin_injective h
  have : α ^ 2 * u 0 j ≠ 0 := mul_ne_zero (pow_ne_zero 2 hα) hu
  exact this (by linarith)

example : ∃ mem : Mem Dbl, ∃ X T D : Ptr, ∃ u : Img, HoldsImg mem X 1 3 u ∧
    mem.Has T ((1 * 3 : ℕ) : Int) ∧ mem.Has D ((1 * 3 : ℕ) : Int) ∧ Sep ((1 * 3 : ℕ) : Int) T X ∧
    Sep ((1 * 3 : ℕ) : Int) D X ∧ Sep ((1 * 3 : ℕ) : Int) D T ∧ u 0 1 ≠ 0 :=
  ⟨demoMem (1 * 3), ⟨0, 0⟩, ⟨1, 0⟩, ⟨2, 0⟩, _, demoMem_holds 1 3 0, (demoMem_holds 1 3 1).1,
    (demoMem_holds 1 3 2).1, Sep.of_blk (by simp), Sep.of_blk (by simp), Sep.of_blk (by simp), by norm_num⟩

/-! ## C10 -/

/-- Euclidean norm of an image -/
noncomputable def norm2 (n m : ℕ) (u : Img) : ℝ := Real.sqrt (normSq2 n m u)

theorem norm2_le_of_sq {n m : ℕ} {α : ℝ} {u w : Img} (h : normSq2 n m w ≤ 4 * α ^ 2 * normSq2 n m u) :
    norm2 n m w ≤ 2 * |α| * norm2 n m u := by
  unfold norm2
  have e : 2 * |α| * Real.sqrt (normSq2 n m u) = Real.sqrt (4 * α ^ 2 * normSq2 n m u) := by
    rw [Real.sqrt_mul (by positivity), show 4 * α ^ 2 = (2 * |α|) ^ 2 by rw [mul_pow, sq_abs]; norm_num,
      Real.sqrt_sq (by positivity)]
  rw [e]
  exact Real.sqrt_le_sqrt h

/-- `C10`: each of the four operators has norm at most `2|α|`. -/
theorem C10_norm {n m : ℕ} (hn : 1 ≤ n) (hm : 2 ≤ m) (hfit : FitsInt ((n : Int) * m)) (α : ℝ)
    (mem : Mem Dbl) (X D : Ptr) (u : Img) (hX : HoldsImg mem X n m u)
    (hD : mem.Has D ((n * m : ℕ) : Int)) (hs : Sep ((n * m : ℕ) : Int) D X) :
    ∀ k ∈ [l1c_Dx n m (Dbl.fin α) X D, l1c_Dy n m (Dbl.fin α) X D, l1c_DxT n m (Dbl.fin α) X D,
        l1c_DyT n m (Dbl.fin α) X D],
      ∃ m' w, KSpec k mem m' ∧ HoldsImg m' D n m w ∧ norm2 n m w ≤ 2 * |α| * norm2 n m u := by
  intro k hk
  simp only [List.mem_cons, List.not_mem_nil, or_false] at hk
  rcases hk with rfl | rfl | rfl | rfl
  · exact ⟨_, _, imgOp_Dx (by omega) hfit α mem X D u hX hD hs, holdsImg_setImg hD,
      norm2_le_of_sq (gradX_norm α n m u)⟩
  · exact ⟨_, _, imgOp_Dy hn hfit α mem X D u hX hD hs, holdsImg_setImg hD,
      norm2_le_of_sq (gradY_norm α n m u)⟩
  · exact ⟨_, _, imgOp_DxT hm hfit α mem X D u hX hD hs, holdsImg_setImg hD,
      norm2_le_of_sq (gradXT_norm α n m u)⟩
  · exact ⟨_, _, imgOp_DyT hfit α mem X D u hX hD hs, holdsImg_setImg hD,
      norm2_le_of_sq (gradYT_norm α n m u)⟩

/-! ## C11 -/

/-- `C11` for images with at least two columns: no schedule of any of the six operators reaches an
out-of-bounds access.  Missing: one-column images, where `l1c_DxT` and `l1c_DxTDx` do read out of
bounds, see `C11_one_column_ub`. -/
theorem C11_safe_partial {F : Type} [Scalar F] {n m : ℕ} (hn : 1 ≤ n) (hm : 2 ≤ m)
    (hfit : FitsInt ((n : Int) * m)) (alpha : F) (X D : Ptr) (mem : Mem F)
    (hX : mem.Has X ((n * m : ℕ) : Int)) (hD : mem.Has D ((n * m : ℕ) : Int))
    (hs : Sep ((n * m : ℕ) : Int) D X) :
    ∀ k ∈ [l1c_Dx n m alpha X D, l1c_Dy n m alpha X D, l1c_DxT n m alpha X D,
        l1c_DyT n m alpha X D, l1c_DxTDx n m alpha X D, l1c_DyTDy n m alpha X D], ¬ KUB k mem := by
  intro k hk
  simp only [List.mem_cons, List.not_mem_nil, or_false] at hk
  rcases hk with rfl | rfl | rfl | rfl | rfl | rfl
  · exact (kspec_Dx (by omega) hfit hX hD hs).safe
  · exact (kspec_Dy hn hfit hX hD hs).safe
  · exact (kspec_DxT hm hfit hX hD hs).safe
  · exact (kspec_DyT hfit hX hD hs).safe
  · exact (kspec_DxTDx hm hfit hX hD hs).safe
  · exact (kspec_DyTDy hfit hX hD hs).safe

/-- the four operators that are also safe on one-column images -/
theorem C11_safe_one_column {F : Type} [Scalar F] {n : ℕ} (hn : 1 ≤ n)
    (hfit : FitsInt ((n : Int) * (1 : ℕ))) (alpha : F) (X D : Ptr) (mem : Mem F)
    (hX : mem.Has X ((n * 1 : ℕ) : Int)) (hD : mem.Has D ((n * 1 : ℕ) : Int))
    (hs : Sep ((n * 1 : ℕ) : Int) D X) :
    ∀ k ∈ [l1c_Dx n (1 : ℕ) alpha X D, l1c_Dy n (1 : ℕ) alpha X D, l1c_DyT n (1 : ℕ) alpha X D,
        l1c_DyTDy n (1 : ℕ) alpha X D], ¬ KUB k mem := by
  intro k hk
  simp only [List.mem_cons, List.not_mem_nil, or_false] at hk
  rcases hk with rfl | rfl | rfl | rfl
  · exact (kspec_Dx le_rfl hfit hX hD hs).safe
  · exact (kspec_Dy hn hfit hX hD hs).safe
  · exact (kspec_DyT hfit hX hD hs).safe
  · exact (kspec_DyTDy hfit hX hD hs).safe

/-- On a one-column image whose buffer is exactly one allocation (`X` at the start of a block of `n`
doubles), `l1c_DxT` reads `X[-1]` and `l1c_DxTDx` reads outside too. -/
theorem C11_one_column_ub {F : Type} [Scalar F] {n : ℕ} (hn : 1 ≤ n) (alpha : F) (X D : Ptr)
    (mem : Mem F) (hX0 : X.off = 0) (hXn : mem.len X.blk = n) :
    KUB (l1c_DxT n 1 alpha X D) mem ∧ KUB (l1c_DxTDx n 1 alpha X D) mem := by
  have hbad : ¬ mem.Ok (X + (-1 : Int)) := by
    rintro ⟨h, _⟩; simp [hX0] at h
  have fit0 : FitsInt ((0 : Int) * 1) := by unfold FitsInt INT_MAX INT_MIN; norm_num
  have hok0 : mem.Ok (X + (0 : Int)) := ⟨by simp [hX0], by simp [hX0, hXn]; omega⟩
  constructor
  · rw [l1c_DxT, ← List.append_nil (parFor _ _ _ _)]
    refine kub_parFor (hi := (n : Int)) 0 le_rfl (by omega) ?_ _
    rw [run_bind, run_assert fit0, Option.bind_some]
    simp only [ddiffT_z, zero_mul, Ptr.add_zero]
    rw [Ptr.add_zero] at hok0
    rw [run_bind, run_load hok0, Option.bind_some, run_bind]
    cases hst : (store D (-alpha * mem.val X) : Prog F Unit).run mem with
    | none => rfl
    | some r =>
      obtain ⟨⟨⟩, mem'⟩ := r
      have hD : mem.Ok D := by
        by_contra h; rw [run_store_ub h] at hst; simp at hst
      rw [run_store hD] at hst
      obtain rfl : mem.write D (-alpha * mem.val X) = mem' := by simpa using hst
      rw [Option.bind_some, run_bind, forUp_empty _ _ (by omega), run_pure, Option.bind_some, run_bind,
        show (1 : Int) - 2 = -1 by norm_num, run_load_ub (by simpa using hbad)]
      rfl
  · rw [l1c_DxTDx, ← List.append_nil (parFor _ _ _ _)]
    refine kub_parFor (hi := (n : Int)) 0 le_rfl (by omega) ?_ _
    rw [run_bind, run_assert fit0, Option.bind_some]
    simp only [ddiff2_z, zero_mul, Ptr.add_zero]
    rw [Ptr.add_zero] at hok0
    rw [run_bind, run_load hok0, Option.bind_some, run_bind]
    by_cases h1 : mem.Ok (X + (1 : Int))
    · rw [run_load h1, Option.bind_some, run_bind]
      by_cases hD : mem.Ok D
      · rw [run_store hD, Option.bind_some, run_bind, forUp_empty _ _ (by omega), run_pure,
          Option.bind_some, run_bind, show (1 : Int) - 1 = 0 by norm_num, Ptr.add_zero,
          run_load (by simpa using hok0), Option.bind_some, run_bind,
          show (1 : Int) - 2 = -1 by norm_num, run_load_ub (by simpa using hbad)]
        rfl
      · rw [run_store_ub hD]; rfl
    · rw [run_load_ub h1]; rfl

/-- Images with more pixels than an `int` can count: `l1c_DyT` overflows. -/
theorem C11_overflow_ub {F : Type} [Scalar F] (n m : Int) (h : ¬ FitsInt (n * m)) (alpha : F) (X D : Ptr)
    (mem : Mem F) : KUB (l1c_DyT n m alpha X D) mem ∧ KUB (l1c_DyTDy n m alpha X D) mem :=
  ⟨kub_seq (run_assert_ub h mem) _, kub_seq (run_assert_ub h mem) _⟩

/-- The kernels of C11 on a `5 × 1` image and on one whose number of pixels is no `int`. -/
example : ¬ KUB (l1c_Dx (5 : ℕ) (1 : ℕ) (Dbl.fin 1) ⟨0, 0⟩ ⟨1, 0⟩) (demoMem (5 * 1)) ∧ KUB (l1c_DxT (5 : ℕ) 1 (Dbl.fin 1) ⟨0, 0⟩ ⟨1, 0⟩) (demoMem (5 * 1)) :=
  ⟨C11_safe_one_column (by norm_num) (by unfold FitsInt INT_MAX INT_MIN; norm_num) _ _ _ _ (demoMem_holds 5 1 0).1 (demoMem_holds 5 1 1).1
    (Sep.of_blk (by simp)) _ (List.mem_cons_self ..), (C11_one_column_ub (n := 5) (by norm_num) _ _ _ (demoMem (5 * 1)) rfl rfl).1⟩

example : KUB (l1c_DyT 65536 65536 (Dbl.fin 1) ⟨0, 0⟩ ⟨1, 0⟩) (demoMem 5) :=
  (C11_overflow_ub _ _ (by unfold FitsInt INT_MAX INT_MIN; norm_num) _ _ _ _).1

example : ∀ k ∈ [l1c_Dx (2 : ℕ) (3 : ℕ) (Dbl.fin 1) ⟨0, 0⟩ ⟨1, 0⟩, l1c_DyTDy (2 : ℕ) (3 : ℕ) (Dbl.fin 1) ⟨0, 0⟩ ⟨1, 0⟩], ¬ KUB k (demoMem (2 * 3)) := by
  intro k hk
  refine C11_safe_partial (n := 2) (m := 3) (by norm_num) (by norm_num) (by unfold FitsInt INT_MAX INT_MIN; norm_num) (Dbl.fin 1) ⟨0, 0⟩ ⟨1, 0⟩ _
    (demoMem_holds 2 3 0).1 (demoMem_holds 2 3 1).1 (Sep.of_blk (by simp)) k ?_
  rcases List.mem_cons.1 hk with rfl | hk
  · exact List.mem_cons_self ..
  · rw [List.mem_singleton.1 hk]
    exact List.mem_of_mem_getLast? rfl

example : ∃ mem : Mem Dbl, ∃ X : Ptr, X.off = 0 ∧ mem.len X.blk = (5 : ℕ) :=
  ⟨demoMem 5, ⟨0, 0⟩, rfl, rfl⟩

end L1c
