import Verif.Proofs.DctReal

/-! # The DCT operators compute orthogonal matrices, sampling and its transpose -/

namespace L1c
open Scalar Matrix

variable {m n mrow mcol : ℕ}

/-! ## Index resolution, gather, scatter -/

theorem resolve_eq {idx : Fin n → Int} (h : IdxOk m idx) :
    ∃ ix : Fin n → Fin m, resolve m idx = some ix ∧ ∀ i, ((ix i : ℕ) : Int) = idx i := by
  have h' : ∀ i, 0 ≤ idx i ∧ idx i < (m : Int) := h
  refine ⟨fun i => ⟨(idx i).toNat, by have := h i; omega⟩, ?_, fun i => ?_⟩
  · unfold resolve; rw [dif_pos h']
  · have := h i; simp; omega

theorem resolve_none {idx : Fin n → Int} (h : ¬ IdxOk m idx) : resolve m idx = none := by
  have h' : ¬ ∀ i, 0 ≤ idx i ∧ idx i < (m : Int) := h
  unfold resolve; rw [dif_neg h']

section scatter
variable {F : Type} (ix : Fin n → Fin m)

theorem foldl_update_append (y : Vec F n) (l : List (Fin n)) (x : Vec F m) (t : Fin m) :
    (∀ i ∈ l, ix i ≠ t) → (l.foldl (fun x i => Function.update x (ix i) (y i)) x) t = x t := by
  induction l generalizing x with
  | nil => intro _; rfl
  | cons a l ih =>
    intro h
    rw [List.foldl_cons, ih _ fun i hi => h i (List.mem_cons_of_mem _ hi)]
    rw [Function.update_of_ne (h a (List.mem_cons_self)).symm]

theorem scatter_out (y : Vec F n) (x : Vec F m) (t : Fin m) (h : ∀ i, ix i ≠ t) :
    scatter ix y x t = x t := foldl_update_append ix y _ x t fun i _ => h i

/-- entries named by the list take a value that only depends on the list -/
theorem foldl_update_in (y : Vec F n) (z : F) (l : List (Fin n)) (x : Vec F m) (t : Fin m)
    (hex : ∃ i ∈ l, ix i = t) (hz : ∀ i ∈ l, ix i = t → y i = z) :
    (l.foldl (fun x i => Function.update x (ix i) (y i)) x) t = z := by
  induction l generalizing x with
  | nil => obtain ⟨i, hi, _⟩ := hex; simp at hi
  | cons a l ih =>
    rw [List.foldl_cons]
    by_cases h : ∃ i ∈ l, ix i = t
    · exact ih _ h fun i hi => hz i (List.mem_cons_of_mem _ hi)
    · obtain ⟨i, hi, hit⟩ := hex
      rcases List.mem_cons.1 hi with rfl | hi'
      · rw [foldl_update_append ix y l _ t fun j hj hjt => h ⟨j, hj, hjt⟩, ← hit, Function.update_self]
        exact hz i List.mem_cons_self hit
      · exact absurd ⟨i, hi', hit⟩ h

theorem scatter_const (y : Vec F n) (x : Vec F m) (i : Fin n) (h : ∀ j, ix j = ix i → y j = y i) :
    scatter ix y x (ix i) = y i :=
  foldl_update_in ix y (y i) _ x (ix i) ⟨i, List.mem_finRange i, rfl⟩ fun j _ => h j

theorem foldl_update_indep (y : Vec F n) (l : List (Fin n)) (x x' : Vec F m) (t : Fin m)
    (h : (∀ i ∈ l, ix i ≠ t) → x t = x' t) :
    (l.foldl (fun x i => Function.update x (ix i) (y i)) x) t =
      (l.foldl (fun x i => Function.update x (ix i) (y i)) x') t := by
  induction l generalizing x x' with
  | nil => exact h (by simp)
  | cons a l ih =>
    rw [List.foldl_cons, List.foldl_cons]
    apply ih
    intro hl
    by_cases ha : ix a = t
    · subst ha; simp
    · rw [Function.update_of_ne (Ne.symm ha), Function.update_of_ne (Ne.symm ha)]
      apply h
      intro i hi
      rcases List.mem_cons.1 hi with rfl | hi
      · exact ha
      · exact hl i hi

/-- scatter only keeps the old contents outside the sampled entries -/
theorem scatter_indep (y : Vec F n) (x x' : Vec F m) (h : ∀ t, (∀ i, ix i ≠ t) → x t = x' t) :
    scatter ix y x = scatter ix y x' := by
  funext t
  exact foldl_update_indep ix y _ x x' t fun hl => h t fun i => hl i (List.mem_finRange i)

theorem scatter_fvec (y : Fin n → ℝ) (x : Fin m → ℝ) :
    scatter ix (fvec y) (fvec x) = fvec (scatter ix y x) := by
  unfold scatter
  generalize List.finRange n = l
  induction l generalizing x with
  | nil => rfl
  | cons a l ih =>
    rw [List.foldl_cons, List.foldl_cons, ← ih]
    congr 1
    funext t
    by_cases h : t = ix a
    · subst h; simp
    · simp [Function.update_of_ne h]

theorem gather_fvec (x : Fin m → ℝ) : gather ix (fvec x) = fvec (gather ix x) := rfl

/-- transposed sampling over the reals -/
def scat (y : Fin n → ℝ) : Fin m → ℝ := scatter ix y 0

theorem scat_out (y : Fin n → ℝ) (t : Fin m) (h : ∀ i, ix i ≠ t) : scat ix y t = 0 := scatter_out ix y 0 t h

theorem gather_scat (h : Function.Injective ix) (y : Fin n → ℝ) : gather ix (scat ix y) = y := by
  funext i
  exact scatter_const ix y 0 i fun j hj => by rw [h hj]

theorem scat_gather (x : Fin m → ℝ) (t : Fin m) :
    scat ix (gather ix x) t = if ∃ i, ix i = t then x t else 0 := by
  split
  · rename_i h
    obtain ⟨i, rfl⟩ := h
    exact scatter_const ix (gather ix x) 0 i fun j hj => by simp only [gather, hj]
  · rename_i h
    exact scat_out ix _ t fun i hi => h ⟨i, hi⟩

/-- sampling and its transpose are adjoint when no pixel is sampled twice -/
theorem gather_adj (h : Function.Injective ix) (x : Fin m → ℝ) (y : Fin n → ℝ) :
    gather ix x ⬝ᵥ y = x ⬝ᵥ scat ix y := by
  classical
  simp only [dotProduct]
  rw [← Finset.sum_subset (Finset.subset_univ (Finset.univ.image ix))]
  · rw [Finset.sum_image fun a _ b _ hab => h hab]
    refine Finset.sum_congr rfl fun i _ => ?_
    have := congrFun (gather_scat ix h y) i
    simp only [gather] at this ⊢
    rw [this]
  · intro t _ ht
    rw [scat_out ix y t fun i hi => ht (Finset.mem_image.2 ⟨i, Finset.mem_univ i, hi⟩), mul_zero]

end scatter

/-! ## Buffers -/

theorem bufInv_fresh {F : Type} [Scalar F] (idx : Fin n → Int) : BufInv idx (DctBuf.fresh : DctBuf F m) :=
  fun _ _ => rfl

theorem bufInv_scatter {F : Type} [Scalar F] {idx : Fin n → Int} {ix : Fin n → Fin m}
    (hix : ∀ i, ((ix i : ℕ) : Int) = idx i) {s : DctBuf F m} (h : BufInv idx s) (y : Vec F n) (dx dy : Vec F m) :
    BufInv idx ⟨scatter ix y s.Ety, dx, dy⟩ := by
  intro t ht
  show scatter ix y s.Ety t = _
  rw [scatter_out ix y s.Ety t fun i hi => ht i (by rw [← hix, hi])]
  exact h t ht

/-- scattering into the persistent buffer is scattering into zeros -/
theorem scatter_buf {F : Type} [Scalar F] {idx : Fin n → Int} {ix : Fin n → Fin m}
    (hix : ∀ i, ((ix i : ℕ) : Int) = idx i) {s : DctBuf F m} (h : BufInv idx s) (y : Vec F n) :
    scatter ix y s.Ety = scatter ix y fun _ => lit 0 :=
  scatter_indep ix y _ _ fun t ht => h t fun i hi => ht i (Fin.ext (by have := hix i; omega))

theorem scatter_buf_fvec {idx : Fin n → Int} {ix : Fin n → Fin m}
    (hix : ∀ i, ((ix i : ℕ) : Int) = idx i) {s : DctBuf Dbl m} (h : BufInv idx s) (y : Fin n → ℝ) :
    scatter ix (fvec y) s.Ety = fvec (scat ix y) := by
  rw [scatter_buf hix h]
  have : (fun _ => lit 0 : Vec Dbl m) = fvec 0 := by funext t; simp
  rw [this, scatter_fvec]; rfl

/-! ## Elementary steps on finite data -/

theorem vscale_fvec (a : ℝ) (x : Fin m → ℝ) : vscale (.fin a) (fvec x) = fvec (fun i => x i * a) := rfl

theorem update_fvec (x : Fin m → ℝ) (t : Fin m) (a : ℝ) :
    Function.update (fvec x) t (.fin a) = fvec (Function.update x t a) := by
  funext i
  by_cases h : i = t
  · subst h; simp
  · simp [Function.update_of_ne h]

theorem root2_eq : (root2 : Dbl) = .fin (Real.sqrt 2) := by
  unfold root2; rw [Dbl.lit_eq, Dbl.fsqrt_fin (by norm_num)]; norm_num

theorem root2_ne : Real.sqrt 2 ≠ 0 := by positivity

/-! ## What the operator set means -/

/-- A transform set acts through an orthogonal matrix `Q` (the inverse DCT) and the sampling `ix`. -/
structure FunsOk (f : DctFuns Dbl m n) (idx : Fin n → Int) (ix : Fin n → Fin m)
    (Q : Matrix (Fin m) (Fin m) ℝ) : Prop where
  orth : Qᵀ * Q = 1
  hix : ∀ i, ((ix i : ℕ) : Int) = idx i
  Mx : Computes idx f.Mx (Q *ᵥ ·)
  Mty : Computes idx f.Mty (Qᵀ *ᵥ ·)
  Ax : Computes idx f.Ax fun x => gather ix (Q *ᵥ x)
  Aty : Computes idx f.Aty fun y => Qᵀ *ᵥ scat ix y
  AtAx : Computes idx f.AtAx fun x => Qᵀ *ᵥ scat ix (gather ix (Q *ᵥ x))
  Rx : Computes idx f.Rx fun x => gather ix x
  Rty : ∀ old, Computes idx (fun y => f.Rty y (fvec old)) fun y => scat ix y

theorem dct_Ety_computes {idx : Fin n → Int} {ix : Fin n → Fin m} {c : DctCfg Dbl m n} (hc : c.idx = idx)
    (hr : resolve m idx = some ix) (old : Fin m → ℝ) :
    Computes idx (fun y => dct_Ety c y (fvec old)) fun y => scat ix y := by
  intro y s hs
  refine ⟨s, ?_, hs⟩
  have h0 : vscale (lit 0) (fvec old) = fvec (0 : Fin m → ℝ) := by
    funext i; simp [vscale]
  unfold dct_Ety
  rw [hc, hr]
  simp only [h0, scatter_fvec]
  rfl

/-! ### 1-D -/

section d1
variable [NeZero m]

theorem dct1_root (fw : Fftw Dbl m) (idx : Fin n → Int) : (dct1Cfg fw idx).root = .fin (rootN m) := by
  have hm : (m : ℝ) ≠ 0 := by exact_mod_cast NeZero.ne m
  unfold dct1Cfg rootN
  simp only [Dbl.lit_eq, Rat.cast_natCast, Dbl.fin_mul]
  rw [Dbl.fin_div (by push_cast; positivity), Dbl.fsqrt_fin (by positivity)]
  norm_num

theorem idct1_step {fw : Fftw Dbl m} (hfw : FftwOk1 fw) (x : Fin m → ℝ) :
    fw.inv (Function.update (fvec x) 0 (fvec x 0 * root2)) =
      fvec (redft01 (Function.update x 0 (x 0 * Real.sqrt 2))) := by
  rw [root2_eq, fvec_apply, Dbl.fin_mul, update_fvec, hfw.inv]

theorem dct1_step {fw : Fftw Dbl m} (hfw : FftwOk1 fw) (y : Fin m → ℝ) :
    vscale (.fin (rootN m)) (Function.update (fw.fwd (fvec y)) 0 (fw.fwd (fvec y) 0 / root2)) =
      fvec ((dctMat m)ᵀ *ᵥ y) := by
  rw [hfw.fwd, root2_eq, fvec_apply, Dbl.fin_div root2_ne, update_fvec, vscale_fvec, ← dct1_eq]; rfl

theorem dct1_ok {fw : Fftw Dbl m} (hfw : FftwOk1 fw) {idx : Fin n → Int} {ix : Fin n → Fin m}
    (hr : resolve m idx = some ix) (hix : ∀ i, ((ix i : ℕ) : Int) = idx i) :
    FunsOk (dct1Funs fw idx) idx ix (dctMat m) := by
  have hroot := dct1_root fw idx
  have hres : resolve m (dct1Cfg fw idx).idx = some ix := hr
  have hfwd : (dct1Cfg fw idx).fw = fw := rfl
  have hrestore : ∀ (x : Fin m → ℝ) (v : Dbl), v = .fin (x 0) →
      Function.update (Function.update (fvec x) 0 (fvec x 0 * root2)) 0 v = fvec x := by
    intro x v hv
    rw [hv, Function.update_idem, update_fvec, Function.update_eq_self]
  have hund : ∀ x : Fin m → ℝ, Function.update (fvec x) 0 (fvec x 0 * root2) 0 / root2 = .fin (x 0) := by
    intro x
    rw [Function.update_self, root2_eq, fvec_apply, Dbl.fin_mul, Dbl.fin_div root2_ne, mul_div_cancel_right₀ _ root2_ne]
  have hinv : ∀ x : Fin m → ℝ, (fun i => redft01 (Function.update x 0 (x 0 * Real.sqrt 2)) i * rootN m) =
      dctMat m *ᵥ x := fun x => idct1_eq x
  refine ⟨dctMat_orth, hix, ?_, ?_, ?_, ?_, ?_, ?_, ?_⟩
  · intro x s hs
    refine ⟨s, ?_, hs⟩
    show dct_Mx (dct1Cfg fw idx) (fvec x) s = _
    unfold dct_Mx
    simp only [hroot, hfwd, hund, hrestore x _ rfl, idct1_step hfw, vscale_fvec, hinv]
  · intro y s hs
    refine ⟨s, ?_, hs⟩
    show dct_Mty (dct1Cfg fw idx) (fvec y) s = _
    unfold dct_Mty
    simp only [hroot, hfwd, dct1_step hfw]
  · intro x s hs
    refine ⟨{ s with dy := fvec (redft01 (Function.update x 0 (x 0 * Real.sqrt 2))) }, ?_, hs⟩
    show dct_EMx (dct1Cfg fw idx) (fvec x) s = _
    unfold dct_EMx
    simp only [hres, hroot, hfwd, idct1_step hfw, hrestore x (fvec x 0) rfl]
    rw [← hinv]
    rfl
  · intro y s hs
    refine ⟨⟨scatter ix (fvec y) s.Ety, Function.update (fw.fwd (fvec (scat ix y))) 0
      (fw.fwd (fvec (scat ix y)) 0 / root2), s.dy⟩, ?_, bufInv_scatter hix hs _ _ _⟩
    show dct_MtEty (dct1Cfg fw idx) (fvec y) s = _
    unfold dct_MtEty
    simp only [hres, hroot, hfwd]
    rw [← dct1_step hfw, ← scatter_buf_fvec hix hs]
    rfl
  · intro x s hs
    refine ⟨⟨scatter ix (fvec (gather ix (dctMat m *ᵥ x))) s.Ety,
      Function.update (fw.fwd (fvec (scat ix (gather ix (dctMat m *ᵥ x))))) 0
        (fw.fwd (fvec (scat ix (gather ix (dctMat m *ᵥ x)))) 0 / root2),
      fvec (redft01 (Function.update x 0 (x 0 * Real.sqrt 2)))⟩, ?_, bufInv_scatter hix hs _ _ _⟩
    · show dct_MtEt_EMx (dct1Cfg fw idx) (fvec x) s = _
      unfold dct_MtEt_EMx
      have hg : vscale (.fin (rootN m)) (gather ix (fvec (redft01 (Function.update x 0 (x 0 * Real.sqrt 2))))) =
          fvec (gather ix (dctMat m *ᵥ x)) := by
        rw [← hinv]; rfl
      simp only [hres, hroot, hfwd, idct1_step hfw, hrestore x (fvec x 0) rfl]
      rw [← dct1_step hfw, ← scatter_buf_fvec hix hs, ← hg]
      rfl
  · intro x s hs
    refine ⟨s, ?_, hs⟩
    show dct_Ex (dct1Cfg fw idx) (fvec x) s = _
    unfold dct_Ex
    simp only [hres]
    rfl
  · intro old
    exact dct_Ety_computes (c := dct1Cfg fw idx) (idx := idx) rfl hr old

end d1

/-! ### 2-D -/

section d2
variable [NeZero mrow] [NeZero mcol]

/-- weight of frequency 0 in the inverse transform -/
noncomputable def wt [NeZero m] (k : Fin m) : ℝ := if k = 0 then Real.sqrt 2 else 1

/-- row and column of a pixel -/
def prow (t : Fin (mrow * mcol)) : Fin mrow := (finProdFinEquiv.symm t).1
def pcol (t : Fin (mrow * mcol)) : Fin mcol := (finProdFinEquiv.symm t).2

omit [NeZero mrow] [NeZero mcol] in
theorem px_val (t : Fin (mrow * mcol)) : (t : ℕ) = pcol t + mcol * prow t := by
  have h : finProdFinEquiv (prow t, pcol t) = t := finProdFinEquiv.apply_symm_apply t
  conv_lhs => rw [← h]
  rfl

theorem fin_zero_iff [NeZero m] (k : Fin m) : k = 0 ↔ (k : ℕ) = 0 :=
  ⟨fun h => by rw [h]; rfl, fun h => Fin.ext (by simpa using h)⟩

theorem t_zero_iff (t : Fin (mrow * mcol)) : t = 0 ↔ prow t = 0 ∧ pcol t = 0 := by
  rw [fin_zero_iff, fin_zero_iff, fin_zero_iff, px_val t]
  have hc : 0 < mcol := Nat.pos_of_ne_zero (NeZero.ne mcol)
  constructor
  · intro h
    have h1 : (pcol t : ℕ) = 0 := by omega
    have h2 : mcol * (prow t : ℕ) = 0 := by omega
    exact ⟨by rcases Nat.mul_eq_zero.1 h2 with h | h <;> omega, h1⟩
  · rintro ⟨h1, h2⟩; rw [h1, h2]; simp

theorem first_row_iff (t : Fin (mrow * mcol)) :
    (1 ≤ (t : ℕ) ∧ ((t : ℕ) - 1) % 1 = 0 ∧ ((t : ℕ) - 1) / 1 < mcol - 1) ↔ prow t = 0 ∧ pcol t ≠ 0 := by
  rw [Ne, fin_zero_iff, fin_zero_iff, px_val t]
  have hc := (pcol t).2
  simp only [Nat.mod_one, Nat.div_one, true_and]
  rcases Nat.eq_zero_or_pos (prow t : ℕ) with h | h
  · rw [h, Nat.mul_zero, Nat.add_zero]; omega
  · have : mcol ≤ mcol * (prow t : ℕ) := Nat.le_mul_of_pos_right _ h
    omega

theorem first_col_iff (t : Fin (mrow * mcol)) :
    (mcol ≤ (t : ℕ) ∧ ((t : ℕ) - mcol) % mcol = 0 ∧ ((t : ℕ) - mcol) / mcol < mrow - 1) ↔ prow t ≠ 0 ∧ pcol t = 0 := by
  rw [Ne, fin_zero_iff, fin_zero_iff, px_val t]
  have hc := (pcol t).2
  have hr := (prow t).2
  generalize (pcol t : ℕ) = c at *
  generalize (prow t : ℕ) = r at *
  rcases r with _ | r
  · simp; omega
  · have e : c + mcol * (r + 1) - mcol = c + mcol * r := by rw [Nat.mul_succ]; omega
    rw [e, Nat.add_mul_mod_self_left, Nat.mod_eq_of_lt hc, Nat.add_mul_div_left _ _ (by omega), Nat.div_eq_of_lt hc]
    constructor
    · rintro ⟨_, h, _⟩; exact ⟨by omega, h⟩
    · rintro ⟨_, h⟩; exact ⟨by rw [Nat.mul_succ]; omega, h, by omega⟩

theorem dscalAt_fvec (cnt off stride : ℕ) (a : ℝ) (x : Fin m → ℝ) :
    dscalAt cnt off stride (.fin a) (fvec x) = fvec (fun t =>
      if off ≤ t.val ∧ (t.val - off) % stride = 0 ∧ (t.val - off) / stride < cnt then x t * a else x t) := by
  funext t
  simp only [dscalAt, fvec]
  split <;> rfl

/-- the three weighting steps together -/
theorem weight_steps (x : Fin (mrow * mcol) → ℝ) (a b : ℝ) (hab : b * b = a) :
    dscalAt (mrow - 1) mcol mcol (.fin b) (dscalAt (mcol - 1) 1 1 (.fin b)
      (Function.update (fvec x) 0 (fvec x 0 * .fin a))) =
    fvec (fun t => x t * ((if prow t = 0 then b else 1) * (if pcol t = 0 then b else 1))) := by
  rw [fvec_apply, Dbl.fin_mul, update_fvec, dscalAt_fvec, dscalAt_fvec]
  congr 1
  funext t
  simp only [first_row_iff, first_col_iff]
  by_cases hr : prow t = 0 <;> by_cases hc : pcol t = 0
  · have ht : t = 0 := (t_zero_iff t).2 ⟨hr, hc⟩
    subst ht
    simp [hr, hc, hab]
  · have ht : t ≠ 0 := fun h => hc ((t_zero_iff t).1 h).2
    simp [hr, hc, Function.update_of_ne ht]
  · have ht : t ≠ 0 := fun h => hr ((t_zero_iff t).1 h).1
    simp [hr, hc, Function.update_of_ne ht]
  · have ht : t ≠ 0 := fun h => hr ((t_zero_iff t).1 h).1
    simp [hr, hc, Function.update_of_ne ht]

theorem dct2Pre_fvec (x : Fin (mrow * mcol) → ℝ) :
    dct2Pre (fvec x) = fvec (fun t => x t * (wt (prow t) * wt (pcol t))) := by
  have h := weight_steps x 2 (Real.sqrt 2) (Real.mul_self_sqrt (by norm_num))
  unfold dct2Pre wt
  rw [root2_eq, ← h]
  simp

theorem dct2Post_fvec (x : Fin (mrow * mcol) → ℝ) :
    dct2Post (fvec x) = fvec (fun t => x t * ((if prow t = 0 then 1 / Real.sqrt 2 else 1) *
      (if pcol t = 0 then 1 / Real.sqrt 2 else 1))) := by
  have hs : Real.sqrt 2 * Real.sqrt 2 = 2 := Real.mul_self_sqrt (by norm_num)
  have h := weight_steps x (1/2) (1 / Real.sqrt 2) (by rw [div_mul_div_comm, hs]; norm_num)
  unfold dct2Post
  rw [root2_eq, Dbl.lit_eq, Dbl.lit_eq, Dbl.fin_div root2_ne, ← h]
  norm_num

theorem redft01_smul [NeZero m] (a : ℝ) (x : Fin m → ℝ) (k : Fin m) :
    redft01 (fun j => a * x j) k = a * redft01 x k := by
  unfold redft01
  have : ∑ j : Fin m, (if j = 0 then (0 : ℝ) else a * x j * Real.cos (Real.pi * (j : ℝ) * ((k : ℝ) + 1 / 2) / m)) =
      a * ∑ j : Fin m, (if j = 0 then (0 : ℝ) else x j * Real.cos (Real.pi * (j : ℝ) * ((k : ℝ) + 1 / 2) / m)) := by
    rw [Finset.mul_sum]
    refine Finset.sum_congr rfl fun j _ => ?_
    split <;> ring
  rw [this]; ring

theorem redft10_smul (a : ℝ) (x : Fin m → ℝ) (k : Fin m) : redft10 (fun j => a * x j) k = a * redft10 x k := by
  unfold redft10
  have : ∑ j : Fin m, a * x j * Real.cos (Real.pi * ((j : ℝ) + 1 / 2) * k / m) =
      a * ∑ j : Fin m, x j * Real.cos (Real.pi * ((j : ℝ) + 1 / 2) * k / m) := by
    rw [Finset.mul_sum]; exact Finset.sum_congr rfl fun j _ => by ring
  rw [this]; ring

theorem update_wt [NeZero m] (x : Fin m → ℝ) : Function.update x 0 (x 0 * Real.sqrt 2) = fun j => x j * wt j := by
  funext j
  by_cases h : j = 0
  · subst h; simp [wt]
  · simp [wt, h]

omit [NeZero mrow] [NeZero mcol] in
theorem root_mul : Real.sqrt (1 / ((mrow : ℝ) * mcol * 4)) = rootN mrow * rootN mcol := by
  unfold rootN
  rw [← Real.sqrt_mul (by positivity)]
  congr 1
  rw [div_mul_div_comm]
  congr 1 <;> ring

omit [NeZero mrow] [NeZero mcol] in
theorem sep2_apply (f : (Fin mrow → ℝ) → Fin mrow → ℝ) (g : (Fin mcol → ℝ) → Fin mcol → ℝ)
    (x : Fin (mrow * mcol) → ℝ) (t : Fin (mrow * mcol)) :
    sep2 f g x t = f (fun i => g (fun j => x (px i j)) (pcol t)) (prow t) := rfl

omit [NeZero mrow] [NeZero mcol] in
@[simp] theorem prow_px (i : Fin mrow) (j : Fin mcol) : prow (px i j) = i := by simp [prow, px]
omit [NeZero mrow] [NeZero mcol] in
@[simp] theorem pcol_px (i : Fin mrow) (j : Fin mcol) : pcol (px i j) = j := by simp [pcol, px]

theorem idct2_eq (x : Fin (mrow * mcol) → ℝ) :
    (fun t => sep2 redft01 redft01 (fun t => x t * (wt (prow t) * wt (pcol t))) t * (rootN mrow * rootN mcol)) =
      dctMat2 mrow mcol *ᵥ x := by
  rw [dctMat2, ← sep2_mulVec]
  funext t
  simp only [sep2_apply, ← idct1_eq]
  simp only [idct1, update_wt, prow_px, pcol_px]
  have h1 : ∀ i : Fin mrow, redft01 (fun j => x (px i j) * (wt i * wt j)) (pcol t) =
      wt i * redft01 (fun j => x (px i j) * wt j) (pcol t) := by
    intro i
    rw [← redft01_smul]; congr 1; funext j; ring
  have h2 : (fun i : Fin mrow => redft01 (fun j => x (px i j) * wt j) (pcol t) * rootN mcol * wt i) =
      fun i => rootN mcol * (wt i * redft01 (fun j => x (px i j) * wt j) (pcol t)) := by funext i; ring
  simp only [h1]
  rw [h2, redft01_smul]; ring

theorem dct2_eq (y : Fin (mrow * mcol) → ℝ) :
    (fun t => sep2 redft10 redft10 y t * (rootN mrow * rootN mcol) *
      ((if prow t = 0 then 1 / Real.sqrt 2 else 1) * (if pcol t = 0 then 1 / Real.sqrt 2 else 1))) =
      (dctMat2 mrow mcol)ᵀ *ᵥ y := by
  have ht : (dctMat2 mrow mcol)ᵀ = reindex finProdFinEquiv finProdFinEquiv
      (kroneckerMap (· * ·) (dctMat mrow)ᵀ (dctMat mcol)ᵀ) := by
    rw [dctMat2, transpose_reindex, ← kroneckerMap_transpose]
  rw [ht, ← sep2_mulVec]
  funext t
  simp only [sep2_apply, ← dct1_eq]
  have hd : ∀ {m : ℕ} [NeZero m] (z : Fin m → ℝ) (k : Fin m),
      dct1 z k = (rootN m * if k = 0 then 1 / Real.sqrt 2 else 1) * redft10 z k := by
    intro m _ z k
    unfold dct1
    by_cases hk : k = 0
    · subst hk; simp; ring
    · rw [Function.update_of_ne hk, if_neg hk]; ring
  simp only [hd]
  rw [redft10_smul]; ring

theorem dct2_root (fw : Fftw Dbl (mrow * mcol)) (idx : Fin n → Int) : (dct2Cfg fw idx).root =
    .fin (rootN mrow * rootN mcol) := by
  have hr : (mrow : ℝ) ≠ 0 := by exact_mod_cast NeZero.ne mrow
  have hc : (mcol : ℝ) ≠ 0 := by exact_mod_cast NeZero.ne mcol
  rw [← root_mul]
  unfold dct2Cfg
  simp only [Dbl.lit_eq, Rat.cast_natCast, Dbl.fin_mul]
  rw [Dbl.fin_div (by push_cast; positivity), Dbl.fsqrt_fin (by positivity)]
  norm_num

theorem dct2_ok {fw : Fftw Dbl (mrow * mcol)} (hfw : FftwOk2 fw) {idx : Fin n → Int}
    {ix : Fin n → Fin (mrow * mcol)} (hr : resolve (mrow * mcol) idx = some ix)
    (hix : ∀ i, ((ix i : ℕ) : Int) = idx i) : FunsOk (dct2Funs fw idx) idx ix (dctMat2 mrow mcol) := by
  have hroot := dct2_root fw idx
  have hres : resolve (mrow * mcol) (dct2Cfg fw idx).idx = some ix := hr
  have hfwd : (dct2Cfg fw idx).fw = fw := rfl
  have hpost : ∀ y, dct2Post (vscale (.fin (rootN mrow * rootN mcol)) (fw.fwd (fvec y))) =
      fvec ((dctMat2 mrow mcol)ᵀ *ᵥ y) := by
    intro y
    rw [hfw.fwd, vscale_fvec, dct2Post_fvec, ← dct2_eq]
  refine ⟨dctMat2_orth, hix, ?_, ?_, ?_, ?_, ?_, ?_, ?_⟩
  · intro x s hs
    refine ⟨{ s with dx := dct2Pre (fvec x) }, ?_, hs⟩
    show dct2_Mx (dct2Cfg fw idx) (fvec x) s = _
    unfold dct2_Mx
    simp only [hroot, hfwd]
    rw [dct2Pre_fvec, hfw.inv, vscale_fvec, idct2_eq]
  · intro y s hs
    refine ⟨s, ?_, hs⟩
    show dct2_Mty (dct2Cfg fw idx) (fvec y) s = _
    unfold dct2_Mty
    simp only [hroot, hfwd, hpost]
  · intro x s hs
    refine ⟨{ s with dx := dct2Pre (fvec x), dy := fw.inv (dct2Pre (fvec x)) }, ?_, hs⟩
    show dct2_EMx (dct2Cfg fw idx) (fvec x) s = _
    unfold dct2_EMx
    simp only [hres, hroot, hfwd]
    rw [← idct2_eq, dct2Pre_fvec, hfw.inv]
    rfl
  · intro y s hs
    refine ⟨⟨scatter ix (fvec y) s.Ety, fw.fwd (fvec (scat ix y)), s.dy⟩, ?_, bufInv_scatter hix hs _ _ _⟩
    show dct2_MtEty (dct2Cfg fw idx) (fvec y) s = _
    unfold dct2_MtEty
    simp only [hres, hroot, hfwd, ← hpost]
    rw [← scatter_buf_fvec hix hs]
    rfl
  · intro x s hs
    refine ⟨⟨scatter ix (fvec (gather ix (dctMat2 mrow mcol *ᵥ x))) s.Ety,
      fw.fwd (fvec (scat ix (gather ix (dctMat2 mrow mcol *ᵥ x)))), fw.inv (dct2Pre (fvec x))⟩, ?_, bufInv_scatter hix hs _ _ _⟩
    · show dct2_MtEt_EMx (dct2Cfg fw idx) (fvec x) s = _
      unfold dct2_MtEt_EMx
      have hg : vscale (.fin (rootN mrow * rootN mcol)) (gather ix (fw.inv (dct2Pre (fvec x)))) =
          fvec (gather ix (dctMat2 mrow mcol *ᵥ x)) := by
        rw [← idct2_eq, dct2Pre_fvec, hfw.inv]; rfl
      simp only [hres, hroot, hfwd, ← hpost]
      rw [← scatter_buf_fvec hix hs, ← hg]
      rfl
  · intro x s hs
    refine ⟨s, ?_, hs⟩
    show dct_Ex (dct2Cfg fw idx) (fvec x) s = _
    unfold dct_Ex
    simp only [hres]
    rfl
  · intro old
    exact dct_Ety_computes (c := dct2Cfg fw idx) (idx := idx) rfl hr old

end d2

end L1c
