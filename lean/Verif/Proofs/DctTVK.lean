import Verif.Spec.DctTV
import Verif.Proofs.TVVec
import Verif.Proofs.DctSet

namespace L1c
open Scalar Matrix

variable {mrow mcol n : ℕ}

theorem asImg_eq (x : Fin (mrow * mcol) → ℝ) : asImg x = toImg x := rfl
theorem asVec_eq (u : Img) : (asVec u : Fin (mrow * mcol) → ℝ) = ofImg u := rfl

theorem job_fin (a : ℝ) : job (Dbl.fin a) = decide (0 < a) := by
  unfold job
  by_cases h : 0 < a
  · rw [decide_eq_true h, Dbl.lit_eq, Rat.cast_zero]; exact (Dbl.flt_fin 0 a).2 h
  · rw [decide_eq_false h, Dbl.lit_eq, Rat.cast_zero]; exact Bool.eq_false_iff.2 fun h' => h ((Dbl.flt_fin 0 a).1 h')

/-! ## slices -/

section slices
variable {F : Type} {p m : ℕ}

theorem slice_eq (off : ℕ) (h : off + m ≤ p) (v : Vec F p) :
    slice m off v = some fun i : Fin m => v ⟨off + i.val, by omega⟩ := by
  unfold slice; rw [dif_pos h]

theorem writeAt_eq (off : ℕ) (h : off + m ≤ p) (x : Vec F m) (v : Vec F p) :
    writeAt off x v = some fun k => if h : off ≤ k.val ∧ k.val - off < m then x ⟨k.val - off, h.2⟩ else v k := by
  unfold writeAt; rw [if_pos h]

/-- reading back what was written -/
theorem slice_writeAt {off : ℕ} {x : Vec F m} {v w : Vec F p} (h : writeAt off x v = some w) :
    slice m off w = some x := by
  by_cases hp : off + m ≤ p
  · rw [writeAt_eq off hp] at h
    cases h
    rw [slice_eq off hp]
    congr 1
    funext i
    have hi := i.2
    rw [dif_pos ⟨by simp, by simp⟩]
    congr 1
    exact Fin.ext (by simp)
  · unfold writeAt at h; rw [if_neg hp] at h; cases h

/-- a write elsewhere does not matter -/
theorem slice_writeAt_ne {off off' : ℕ} {x : Vec F m} {v w : Vec F p} (h : writeAt off x v = some w)
    (hd : off + m ≤ off' ∨ off' + m ≤ off) : slice m off' w = slice m off' v := by
  by_cases hp : off + m ≤ p
  · rw [writeAt_eq off hp] at h
    cases h
    by_cases hp' : off' + m ≤ p
    · rw [slice_eq off' hp', slice_eq off' hp']
      congr 1
      funext i
      have hi := i.2
      rw [dif_neg (by simp only; omega)]
    · unfold slice; rw [dif_neg hp', dif_neg hp']
  · unfold writeAt at h; rw [if_neg hp] at h; cases h

end slices

/-! ## The dictionary -/

section dict
variable {c : TvCfg Dbl mrow mcol n} {idx : Fin n → Int} {av ah : ℝ}

/-- real dictionary -/
noncomputable def wReal {p : ℕ} (Q : Matrix (Fin (mrow * mcol)) (Fin (mrow * mcol)) ℝ) (av ah : ℝ) (v : Fin p → ℝ) :
    Fin (mrow * mcol) → ℝ := dictW (fun x => Q *ᵥ x) av ah v

/-- real transposed dictionary -/
noncomputable def wtReal {p : ℕ} (Q : Matrix (Fin (mrow * mcol)) (Fin (mrow * mcol)) ℝ) (av ah : ℝ)
    (x : Fin (mrow * mcol) → ℝ) : Fin p → ℝ := fun k =>
  if h : k.val < mrow * mcol then (Qᵀ *ᵥ x) ⟨k, h⟩
  else if h : 0 < av ∧ k.val - mrow * mcol < mrow * mcol then rDyT av x ⟨k.val - mrow * mcol, h.2⟩
  else if h : 0 < ah ∧ k.val - (if 0 < av then 2 * (mrow * mcol) else mrow * mcol) < mrow * mcol then
    rDxT ah x ⟨k.val - (if 0 < av then 2 * (mrow * mcol) else mrow * mcol), h.2⟩
  else 0

/-- offset of the horizontal block -/
noncomputable def offH (m : ℕ) (av : ℝ) : ℕ := if 0 < av then 2 * m else m

/-- number of coefficients -/
noncomputable def pReal (m : ℕ) (av ah : ℝ) : ℕ := m + (if 0 < av then m else 0) + (if 0 < ah then m else 0)

theorem TvSetR.p_eq (h : TvSetR c idx av ah) : c.p = pReal (mrow * mcol) av ah := by
  unfold TvCfg.p tvP pReal
  rw [h.hv, h.hh, job_fin, job_fin]
  simp only [decide_eq_true_eq]

/-- inner products split into the blocks -/
theorem dot_blocks {p m : ℕ} (hp : p = pReal m av ah) (v w : Fin p → ℝ) :
    v ⬝ᵥ w = coef m 0 v ⬝ᵥ coef m 0 w + (if 0 < av then coef m m v ⬝ᵥ coef m m w else 0)
      + (if 0 < ah then coef m (offH m av) v ⬝ᵥ coef m (offH m av) w else 0) := by
  set f : ℕ → ℝ := fun k => if h : k < p then v ⟨k, h⟩ * w ⟨k, h⟩ else 0 with hf
  have h1 : v ⬝ᵥ w = ∑ k ∈ Finset.range p, f k := by
    rw [← Fin.sum_univ_eq_sum_range]
    refine Finset.sum_congr rfl fun i _ => ?_
    simp only [hf]; rw [dif_pos i.2]
  have h2 : ∀ off, coef m off v ⬝ᵥ coef m off w = ∑ k ∈ Finset.range m, f (off + k) := by
    intro off
    rw [← Fin.sum_univ_eq_sum_range (fun k => f (off + k))]
    refine Finset.sum_congr rfl fun i _ => ?_
    simp only [hf, coef]
    split <;> simp
  rw [h1, h2, h2, h2, hp]
  unfold pReal offH
  by_cases hv : 0 < av <;> by_cases hh : 0 < ah
  · simp only [hv, hh, if_true, zero_add, Finset.sum_range_add, two_mul]
  · simp only [hv, hh, if_true, if_false, zero_add, Finset.sum_range_add, add_zero]
  · simp only [hv, hh, if_true, if_false, zero_add, Finset.sum_range_add, add_zero]
  · simp only [hv, hh, if_false, zero_add, add_zero]

theorem coef_wt0 {p : ℕ} (hp : p = pReal (mrow * mcol) av ah) (Q) (x : Fin (mrow * mcol) → ℝ) :
    coef (mrow * mcol) 0 (wtReal Q av ah x : Fin p → ℝ) = Qᵀ *ᵥ x := by
  funext i
  have hi := i.2
  unfold coef
  rw [dif_pos (by rw [hp]; unfold pReal; omega)]
  unfold wtReal
  simp only [zero_add, hi, dif_pos]

theorem coef_wtV {p : ℕ} (hp : p = pReal (mrow * mcol) av ah) (hv : 0 < av) (Q) (x : Fin (mrow * mcol) → ℝ) :
    coef (mrow * mcol) (mrow * mcol) (wtReal Q av ah x : Fin p → ℝ) = rDyT av x := by
  funext i
  have hi := i.2
  unfold coef
  rw [dif_pos (by rw [hp]; unfold pReal; rw [if_pos hv]; omega)]
  unfold wtReal
  rw [dif_neg (by simp), dif_pos ⟨hv, by simp⟩]
  congr 1
  exact Fin.ext (by simp)

theorem coef_wtH {p : ℕ} (hp : p = pReal (mrow * mcol) av ah) (hh : 0 < ah) (Q) (x : Fin (mrow * mcol) → ℝ) :
    coef (mrow * mcol) (offH (mrow * mcol) av) (wtReal Q av ah x : Fin p → ℝ) = rDxT ah x := by
  funext i
  have hi := i.2
  unfold coef offH
  by_cases hv : 0 < av
  · simp only [hv, if_true]
    rw [dif_pos (by rw [hp]; unfold pReal; rw [if_pos hv, if_pos hh]; omega)]
    unfold wtReal
    rw [dif_neg (by simp only; omega), dif_neg (by simp only; omega)]
    simp only [hv, if_true]
    rw [dif_pos ⟨hh, by omega⟩]
    congr 1
    exact Fin.ext (by simp)
  · simp only [hv, if_false]
    rw [dif_pos (by rw [hp]; unfold pReal; rw [if_neg hv, if_pos hh]; omega)]
    unfold wtReal
    rw [dif_neg (by simp only; omega), dif_neg (by simp [hv])]
    simp only [hv, if_false]
    rw [dif_pos ⟨hh, by omega⟩]
    congr 1
    exact Fin.ext (by simp)

/-- `W` and `Wᵀ` are adjoint -/
theorem w_adjoint {p : ℕ} (hp : p = pReal (mrow * mcol) av ah) (Q : Matrix (Fin (mrow * mcol)) (Fin (mrow * mcol)) ℝ)
    (v : Fin p → ℝ) (x : Fin (mrow * mcol) → ℝ) : wReal Q av ah v ⬝ᵥ x = v ⬝ᵥ wtReal Q av ah x := by
  rw [dot_blocks hp, coef_wt0 hp]
  unfold wReal dictW
  rw [add_dotProduct, add_dotProduct, mulVec_adj]
  congr 1
  · congr 1
    split
    · rename_i hv; rw [coef_wtV hp hv]; exact rDy_adj av _ x
    · simp
  · split
    · rename_i hh; rw [coef_wtH hp hh]; exact rDx_adj ah _ x
    · simp

/-- Cauchy–Schwarz with weights, entrywise -/
theorem cs3 (a b c : ℝ) {B C : ℝ} (hB : 0 < B) (hC : 0 < C) :
    (a + b + c) ^ 2 ≤ (1 + B + C) * (a ^ 2 + b ^ 2 / B + c ^ 2 / C) := by
  have h : (1 + B + C) * (a ^ 2 + b ^ 2 / B + c ^ 2 / C) - (a + b + c) ^ 2 =
      (B * a - b) ^ 2 / B + (C * a - c) ^ 2 / C + (C * b - B * c) ^ 2 / (B * C) := by
    field_simp; ring
  have : 0 ≤ (B * a - b) ^ 2 / B + (C * a - c) ^ 2 / C + (C * b - B * c) ^ 2 / (B * C) := by positivity
  linarith

theorem cs2 (a b : ℝ) {B : ℝ} (hB : 0 < B) : (a + b) ^ 2 ≤ (1 + B) * (a ^ 2 + b ^ 2 / B) := by
  have h : (1 + B) * (a ^ 2 + b ^ 2 / B) - (a + b) ^ 2 = (B * a - b) ^ 2 / B := by
    field_simp; ring
  have : 0 ≤ (B * a - b) ^ 2 / B := by positivity
  linarith

theorem dot_sq {m : ℕ} (a : Fin m → ℝ) : a ⬝ᵥ a = ∑ i, a i ^ 2 := by
  simp only [dotProduct, sq]

theorem cs3_vec {m : ℕ} (a b c : Fin m → ℝ) {B C : ℝ} (hB : 0 < B) (hC : 0 < C) :
    (a + b + c) ⬝ᵥ (a + b + c) ≤ (1 + B + C) * (a ⬝ᵥ a + b ⬝ᵥ b / B + c ⬝ᵥ c / C) := by
  simp only [dot_sq, Finset.sum_div, ← Finset.sum_add_distrib, Finset.mul_sum, Pi.add_apply]
  exact Finset.sum_le_sum fun i _ => cs3 _ _ _ hB hC

theorem cs2_vec {m : ℕ} (a b : Fin m → ℝ) {B : ℝ} (hB : 0 < B) :
    (a + b) ⬝ᵥ (a + b) ≤ (1 + B) * (a ⬝ᵥ a + b ⬝ᵥ b / B) := by
  simp only [dot_sq, Finset.sum_div, ← Finset.sum_add_distrib, Finset.mul_sum, Pi.add_apply]
  exact Finset.sum_le_sum fun i _ => cs2 _ _ hB

/-- the dictionary norm -/
theorem w_norm {p : ℕ} (hp : p = pReal (mrow * mcol) av ah) {Q : Matrix (Fin (mrow * mcol)) (Fin (mrow * mcol)) ℝ}
    (hQ : Qᵀ * Q = 1) (hv0 : 0 ≤ av) (hh0 : 0 ≤ ah) (v : Fin p → ℝ) :
    wReal Q av ah v ⬝ᵥ wReal Q av ah v ≤ (1 + 4 * av ^ 2 + 4 * ah ^ 2) * (v ⬝ᵥ v) := by
  have hq : ∀ x : Fin (mrow * mcol) → ℝ, (Q *ᵥ x) ⬝ᵥ (Q *ᵥ x) = x ⬝ᵥ x := fun x => by
    rw [mulVec_adj, mulVec_mulVec, hQ, one_mulVec]
  have hy := fun x : Fin (mrow * mcol) → ℝ => rDy_norm (mrow := mrow) (mcol := mcol) av x
  have hx := fun x : Fin (mrow * mcol) → ℝ => rDx_norm (mrow := mrow) (mcol := mcol) ah x
  have hdiv : ∀ {s t A : ℝ}, 0 < A → s ≤ A * t → s / A ≤ t := by
    intro s t A hA h
    rw [div_le_iff₀ hA]; linarith
  rw [dot_blocks hp v v]
  unfold wReal dictW
  by_cases hv : 0 < av <;> by_cases hh : 0 < ah
  · simp only [hv, hh, if_true]
    have hA : 0 < 4 * av ^ 2 := by positivity
    have hB : 0 < 4 * ah ^ 2 := by positivity
    refine (cs3_vec _ _ _ hA hB).trans ?_
    apply mul_le_mul_of_nonneg_left _ (by positivity)
    rw [hq]
    refine add_le_add (add_le_add le_rfl (hdiv hA (hy _))) (hdiv hB ?_)
    have := hx (coef (mrow * mcol) (2 * (mrow * mcol)) v)
    unfold offH
    rw [if_pos hv]
    exact this
  · have h0 : ah = 0 := le_antisymm (not_lt.1 hh) hh0
    simp only [hv, hh, if_true, if_false, add_zero]
    have hA : 0 < 4 * av ^ 2 := by positivity
    refine (cs2_vec _ _ hA).trans ?_
    rw [h0]
    have e : (1 + 4 * av ^ 2 + 4 * (0 : ℝ) ^ 2) = 1 + 4 * av ^ 2 := by ring
    rw [e]
    apply mul_le_mul_of_nonneg_left _ (by positivity)
    rw [hq]
    exact add_le_add le_rfl (hdiv hA (hy _))
  · have h0 : av = 0 := le_antisymm (not_lt.1 hv) hv0
    simp only [hv, hh, if_true, if_false, add_zero]
    have hB : 0 < 4 * ah ^ 2 := by positivity
    refine (cs2_vec _ _ hB).trans ?_
    rw [h0]
    have e : (1 + 4 * (0 : ℝ) ^ 2 + 4 * ah ^ 2) = 1 + 4 * ah ^ 2 := by ring
    rw [e]
    apply mul_le_mul_of_nonneg_left _ (by positivity)
    rw [hq]
    refine add_le_add le_rfl (hdiv hB ?_)
    have := hx (coef (mrow * mcol) (mrow * mcol) v)
    unfold offH
    rw [if_neg (lt_irrefl _)]
    exact this
  · simp only [hv, hh, if_false, add_zero]
    rw [hq]
    have : 0 ≤ coef (mrow * mcol) 0 v ⬝ᵥ coef (mrow * mcol) 0 v := dot_self_nonneg _
    nlinarith [sq_nonneg av, sq_nonneg ah]

theorem obind {α β : Type} (a : α) (f : α → Option β) : (some a >>= f) = f a := rfl

theorem slice_fvec {p m : ℕ} (off : ℕ) (h : off + m ≤ p) (v : Fin p → ℝ) :
    slice m off (fvec v) = some (fvec (coef m off v)) := by
  rw [slice_eq off h]
  congr 1
  funext i
  have hi := i.2
  show Dbl.fin _ = Dbl.fin _
  unfold coef
  rw [dif_pos (by omega)]

theorem writeAt_some {F : Type} {p m : ℕ} (off : ℕ) (h : off + m ≤ p) (x : Vec F m) (v : Vec F p) :
    ∃ w, writeAt off x v = some w := ⟨_, writeAt_eq off h x v⟩

theorem vaxpy_one {m : ℕ} (x y : Fin m → ℝ) : vaxpy (lit 1) (fvec x) (fvec y) = fvec (y + x) := by
  funext i
  show (lit 1 : Dbl) * Dbl.fin (x i) + Dbl.fin (y i) = Dbl.fin (y i + x i)
  rw [Dbl.lit_eq, Rat.cast_one, Dbl.fin_mul, Dbl.fin_add, one_mul, add_comm]

theorem incV_eq (m : ℕ) (hv : 0 < av) : incV m (Dbl.fin av) = m := by
  unfold incV; rw [job_fin, decide_eq_true hv, if_pos rfl]

theorem incH_eq (m : ℕ) (hh : 0 < ah) : incH m (Dbl.fin av) (Dbl.fin ah) = offH m av := by
  unfold incH incV offH; rw [job_fin, job_fin, decide_eq_true hh, if_pos rfl]
  by_cases hv : 0 < av
  · rw [decide_eq_true hv, if_pos rfl, if_pos hv]; omega
  · rw [decide_eq_false hv, if_neg (by simp), if_neg hv]; omega

theorem pReal_zero (m : ℕ) : 0 + m ≤ pReal m av ah := by unfold pReal; omega
theorem pReal_v (m : ℕ) (hv : 0 < av) : m + m ≤ pReal m av ah := by unfold pReal; rw [if_pos hv]; omega
theorem pReal_h (m : ℕ) (hh : 0 < ah) : offH m av + m ≤ pReal m av ah := by
  unfold pReal offH; rw [if_pos hh]; split <;> omega

/-- `W v` in exact arithmetic -/
theorem tvWv_real (h : TvSetR c idx av ah) {ix : Fin n → Fin (mrow * mcol)}
    {Q : Matrix (Fin (mrow * mcol)) (Fin (mrow * mcol)) ℝ} (hf : FunsOk c.loc idx ix Q) (v : Fin c.p → ℝ)
    (s : TvBuf Dbl (mrow * mcol) c.p) (hs : BufInv idx s.dct) :
    ∃ s', tvWv c (fvec v) s = some ⟨fvec (wReal Q av ah v), s'⟩ ∧ BufInv idx s'.dct := by
  have hp := h.p_eq
  have h0 : 0 + mrow * mcol ≤ c.p := by rw [hp]; exact pReal_zero _
  obtain ⟨b', hM, hb'⟩ := hf.Mx (coef (mrow * mcol) 0 v) s.dct hs
  obtain ⟨w0, hw0⟩ := writeAt_some 0 h0 (fvec (Q *ᵥ coef (mrow * mcol) 0 v)) s.u
  have hs0 := slice_writeAt hw0
  unfold tvWv
  rw [slice_fvec 0 h0, obind, hM, obind]
  simp only []
  rw [hw0, obind, hs0, obind]
  rw [h.hv, h.hh, job_fin, job_fin]
  unfold wReal dictW
  by_cases hv : 0 < av
  · rw [decide_eq_true hv, if_pos rfl, incV_eq _ hv]
    have h1 : mrow * mcol + mrow * mcol ≤ c.p := by rw [hp]; exact pReal_v _ hv
    obtain ⟨w1, hw1⟩ := writeAt_some (mrow * mcol) h1
      (fvec (rDy (mrow := mrow) (mcol := mcol) av (coef (mrow * mcol) (mrow * mcol) v))) w0
    have hs1 := slice_writeAt hw1
    rw [slice_fvec _ h1, obind, vDy_fvec, hw1, obind,
      hs1, obind, vaxpy_one, if_pos hv, if_pos hv]
    by_cases hh : 0 < ah
    · have h2 : 2 * (mrow * mcol) + mrow * mcol ≤ c.p := by
        rw [hp]; have := pReal_h (av := av) (mrow * mcol) hh; unfold offH at this; rwa [if_pos hv] at this
      obtain ⟨w2, hw2⟩ := writeAt_some (2 * (mrow * mcol)) h2
        (fvec (rDx (mrow := mrow) (mcol := mcol) ah (coef (mrow * mcol) (2 * (mrow * mcol)) v))) w1
      have hs2 := slice_writeAt hw2
      have hoff : offH (mrow * mcol) av = 2 * (mrow * mcol) := if_pos hv
      simp only [decide_eq_true hh, if_true, pure_bind, incH_eq _ hh, hoff]
      rw [slice_fvec _ h2, obind, vDx_fvec, hw2, obind,
        hs2, obind, vaxpy_one, if_pos hh]
      exact ⟨⟨b', w2⟩, rfl, hb'⟩
    · simp only [decide_eq_false hh, pure_bind, if_neg hh, Bool.false_eq_true, if_false, add_zero]
      exact ⟨⟨b', w1⟩, rfl, hb'⟩
  · simp only [decide_eq_false hv, pure_bind, if_neg hv, Bool.false_eq_true, if_false, add_zero]
    by_cases hh : 0 < ah
    · have h2 : mrow * mcol + mrow * mcol ≤ c.p := by
        rw [hp]; have := pReal_h (av := av) (mrow * mcol) hh; unfold offH at this; rwa [if_neg hv] at this
      obtain ⟨w2, hw2⟩ := writeAt_some (mrow * mcol) h2
        (fvec (rDx (mrow := mrow) (mcol := mcol) ah (coef (mrow * mcol) (mrow * mcol) v))) w0
      have hs2 := slice_writeAt hw2
      have hoff : offH (mrow * mcol) av = mrow * mcol := if_neg hv
      simp only [decide_eq_true hh, if_true, incH_eq _ hh, hoff]
      rw [slice_fvec _ h2, obind, vDx_fvec, hw2, obind,
        hs2, obind, vaxpy_one, if_pos hh]
      exact ⟨⟨b', w2⟩, rfl, hb'⟩
    · simp only [decide_eq_false hh, pure_bind, if_neg hh, Bool.false_eq_true, if_false, add_zero]
      exact ⟨⟨b', w0⟩, rfl, hb'⟩

/-- `Wᵀ x` in exact arithmetic, whatever the output array held -/
theorem tvWtx_real (h : TvSetR c idx av ah) {ix : Fin n → Fin (mrow * mcol)}
    {Q : Matrix (Fin (mrow * mcol)) (Fin (mrow * mcol)) ℝ} (hf : FunsOk c.loc idx ix Q) (x : Fin (mrow * mcol) → ℝ)
    (old : Vec Dbl c.p) (s : TvBuf Dbl (mrow * mcol) c.p) (hs : BufInv idx s.dct) :
    ∃ s', tvWtx c (fvec x) old s = some ⟨fvec (wtReal Q av ah x), s'⟩ ∧ BufInv idx s'.dct ∧ s'.u = s.u := by
  have hp := h.p_eq
  have h0 : 0 + mrow * mcol ≤ c.p := by rw [hp]; exact pReal_zero _
  obtain ⟨b', hM, hb'⟩ := hf.Mty x s.dct hs
  unfold tvWtx
  rw [hM, obind]
  simp only []
  rw [writeAt_eq 0 h0, obind, h.hv, h.hh, job_fin, job_fin]
  refine ⟨⟨b', s.u⟩, ?_, hb', rfl⟩
  by_cases hv : 0 < av
  · have h1 : mrow * mcol + mrow * mcol ≤ c.p := by rw [hp]; exact pReal_v _ hv
    rw [decide_eq_true hv, if_pos rfl, incV_eq _ hv, vDyT_fvec, writeAt_eq _ h1, obind]
    by_cases hh : 0 < ah
    · have h2 : 2 * (mrow * mcol) + mrow * mcol ≤ c.p := by
        rw [hp]; have := pReal_h (av := av) (mrow * mcol) hh; unfold offH at this; rwa [if_pos hv] at this
      have hoff : offH (mrow * mcol) av = 2 * (mrow * mcol) := if_pos hv
      rw [decide_eq_true hh, if_pos rfl, incH_eq _ hh, hoff, vDxT_fvec (h.dims (.inr hh)).2, writeAt_eq _ h2,
        obind]
      congr 1
      congr 1
      funext k
      have hk : k.val < 3 * (mrow * mcol) := by
        have := lt_of_lt_of_eq k.2 hp; unfold pReal at this; rw [if_pos hv, if_pos hh] at this; omega
      unfold wtReal fvec
      simp only [hv, hh, true_and, if_true]
      by_cases k1 : k.val < mrow * mcol
      · rw [dif_neg (by omega), dif_neg (by omega), dif_pos (by omega), dif_pos k1]; rfl
      · by_cases k2 : k.val - mrow * mcol < mrow * mcol
        · rw [dif_neg (by omega), dif_pos (by omega), dif_neg k1, dif_pos k2]
        · rw [dif_pos (by omega), dif_neg k1, dif_neg k2, dif_pos (by omega)]
    · rw [decide_eq_false hh, if_neg (by simp), pure_bind]
      show some _ = some _
      congr 1
      congr 1
      funext k
      have hk : k.val < 2 * (mrow * mcol) := by
        have := lt_of_lt_of_eq k.2 hp; unfold pReal at this; rw [if_pos hv, if_neg hh] at this; omega
      unfold wtReal fvec
      simp only [hv, true_and]
      by_cases k1 : k.val < mrow * mcol
      · rw [dif_neg (by omega), dif_pos (by omega), dif_pos k1]; rfl
      · rw [dif_pos (by omega), dif_neg k1, dif_pos (by omega)]
  · rw [decide_eq_false hv, if_neg (by simp), pure_bind]
    by_cases hh : 0 < ah
    · have h2 : mrow * mcol + mrow * mcol ≤ c.p := by
        rw [hp]; have := pReal_h (av := av) (mrow * mcol) hh; unfold offH at this; rwa [if_neg hv] at this
      have hoff : offH (mrow * mcol) av = mrow * mcol := if_neg hv
      rw [decide_eq_true hh, if_pos rfl, incH_eq _ hh, hoff, vDxT_fvec (h.dims (.inr hh)).2, writeAt_eq _ h2,
        obind]
      congr 1
      congr 1
      funext k
      have hk : k.val < 2 * (mrow * mcol) := by
        have := lt_of_lt_of_eq k.2 hp; unfold pReal at this; rw [if_neg hv, if_pos hh] at this; omega
      unfold wtReal fvec
      simp only [hv, hh, true_and, false_and, if_false]
      by_cases k1 : k.val < mrow * mcol
      · rw [dif_neg (by omega), dif_pos (by omega), dif_pos k1]; rfl
      · rw [dif_pos (by omega), dif_neg k1, dif_neg not_false, dif_pos (by omega)]
    · rw [decide_eq_false hh, if_neg (by simp), pure_bind]
      show some _ = some _
      congr 1
      congr 1
      funext k
      have hk : k.val < mrow * mcol := by
        have := lt_of_lt_of_eq k.2 hp; unfold pReal at this; rw [if_neg hv, if_neg hh] at this; omega
      unfold wtReal fvec
      beta_reduce
      rw [dif_pos (by omega), dif_pos hk]; rfl

/-- `A v` (synthesis) -/
theorem tvAv_real (h : TvSetR c idx av ah) {ix : Fin n → Fin (mrow * mcol)}
    {Q : Matrix (Fin (mrow * mcol)) (Fin (mrow * mcol)) ℝ} (hf : FunsOk c.loc idx ix Q) (v : Fin c.p → ℝ)
    (s : TvBuf Dbl (mrow * mcol) c.p) (hs : BufInv idx s.dct) :
    ∃ s', tvAv c (fvec v) s = some ⟨fvec (gather ix (wReal Q av ah v)), s'⟩ ∧ BufInv idx s'.dct := by
  have hp := h.p_eq
  have h0 : 0 + mrow * mcol ≤ c.p := by rw [hp]; exact pReal_zero _
  obtain ⟨s1, hW, hs1⟩ := tvWv_real h hf v s hs
  obtain ⟨w0, hw0⟩ := writeAt_some 0 h0 (fvec (wReal Q av ah v)) s1.u
  have hsl := slice_writeAt hw0
  obtain ⟨b', hR, hb'⟩ := hf.Rx (wReal Q av ah v) s1.dct hs1
  unfold tvAv
  rw [hW, obind]
  simp only []
  rw [hw0, obind, hsl, obind, hR]
  exact ⟨⟨b', w0⟩, rfl, hb'⟩

/-- the first `m` entries of the work array `u` are finite numbers -/
def UFin {m p : ℕ} (s : TvBuf Dbl m p) : Prop := ∃ a : Fin m → ℝ, slice m 0 s.u = some (fvec a)

/-- `Aᵀ y` (synthesis), once `u` holds finite numbers -/
theorem tvAty_real (h : TvSetR c idx av ah) {ix : Fin n → Fin (mrow * mcol)}
    {Q : Matrix (Fin (mrow * mcol)) (Fin (mrow * mcol)) ℝ} (hf : FunsOk c.loc idx ix Q) (y : Fin n → ℝ)
    (old : Vec Dbl c.p) (s : TvBuf Dbl (mrow * mcol) c.p) (hs : BufInv idx s.dct) (hu : UFin s) :
    ∃ s', tvAty c (fvec y) old s = some ⟨fvec (wtReal Q av ah (scat ix y)), s'⟩ ∧ BufInv idx s'.dct := by
  have hp := h.p_eq
  have h0 : 0 + mrow * mcol ≤ c.p := by rw [hp]; exact pReal_zero _
  obtain ⟨a, ha⟩ := hu
  obtain ⟨b', hR, hb'⟩ := hf.Rty a y s.dct hs
  obtain ⟨w0, hw0⟩ := writeAt_some 0 h0 (fvec (scat ix y)) s.u
  have hsl := slice_writeAt hw0
  obtain ⟨s1, hW, hs1, _⟩ := tvWtx_real h hf (scat ix y) old ⟨b', w0⟩ hb'
  unfold tvAty
  rw [ha, obind]
  simp only [] at hR ⊢
  rw [hR, obind]
  simp only []
  rw [hw0, obind, hsl, obind, hW]
  exact ⟨s1, rfl, hs1⟩

end dict

/-! ## Reachable buffers, any arithmetic -/

section reach
variable {F : Type} [Scalar F] {c : TvCfg F mrow mcol n} {idx : Fin n → Int}

theorem bind_some_iff {α β : Type} {o : Option α} {f : α → Option β} {b : β} :
    (o >>= f) = some b ↔ ∃ a, o = some a ∧ f a = some b := Option.bind_eq_some_iff

theorem tvWv_keep (h : SetOk c.loc idx) {v : Vec F c.p} {s : TvBuf F (mrow * mcol) c.p} {o}
    (hs : BufInv idx s.dct) (ho : tvWv c v s = some o) : BufInv idx o.buf.dct := by
  unfold tvWv at ho
  obtain ⟨v0, _, ho⟩ := bind_some_iff.1 ho
  obtain ⟨r, hr, ho⟩ := bind_some_iff.1 ho
  obtain ⟨u, _, ho⟩ := bind_some_iff.1 ho
  obtain ⟨y, _, ho⟩ := bind_some_iff.1 ho
  obtain ⟨a, _, ho⟩ := bind_some_iff.1 ho
  obtain ⟨b, _, ho⟩ := bind_some_iff.1 ho
  cases ho
  exact h.Mx.keep _ _ _ hs hr

theorem tvWtx_keep (h : SetOk c.loc idx) {x : Vec F (mrow * mcol)} {old : Vec F c.p}
    {s : TvBuf F (mrow * mcol) c.p} {o}
    (hs : BufInv idx s.dct) (ho : tvWtx c x old s = some o) : BufInv idx o.buf.dct := by
  unfold tvWtx at ho
  obtain ⟨r, hr, ho⟩ := bind_some_iff.1 ho
  obtain ⟨u, _, ho⟩ := bind_some_iff.1 ho
  obtain ⟨a, _, ho⟩ := bind_some_iff.1 ho
  obtain ⟨b, _, ho⟩ := bind_some_iff.1 ho
  cases ho
  exact h.Mty.keep _ _ _ hs hr

theorem tvReach_inv (h : DctSet c.loc idx) {s : TvBuf F (mrow * mcol) c.p} (hs : TvReach c s) :
    BufInv idx s.dct := by
  have ok := setOk h
  induction hs with
  | fresh u => exact bufInv_fresh idx
  | @call s s' k _ hc ih =>
    cases k <;> simp only [TvCall.run, Option.map_eq_some_iff] at hc <;> obtain ⟨o, ho, rfl⟩ := hc
    · exact tvWv_keep ok ih ho
    · exact tvWtx_keep ok ih ho
    · unfold tvRx at ho
      obtain ⟨r, hr, ho⟩ := bind_some_iff.1 ho
      cases ho
      exact ok.Rx.keep _ _ _ ih hr
    · unfold tvRty at ho
      obtain ⟨r, hr, ho⟩ := bind_some_iff.1 ho
      cases ho
      exact (ok.Rty _).keep _ _ _ ih hr
    · unfold tvAv at ho
      obtain ⟨r, hr, ho⟩ := bind_some_iff.1 ho
      obtain ⟨u, _, ho⟩ := bind_some_iff.1 ho
      obtain ⟨x, _, ho⟩ := bind_some_iff.1 ho
      obtain ⟨q, hq, ho⟩ := bind_some_iff.1 ho
      cases ho
      exact ok.Rx.keep _ _ _ (tvWv_keep ok ih hr) hq
    · unfold tvAty at ho
      obtain ⟨u0, _, ho⟩ := bind_some_iff.1 ho
      obtain ⟨r, hr, ho⟩ := bind_some_iff.1 ho
      obtain ⟨u, _, ho⟩ := bind_some_iff.1 ho
      obtain ⟨x, _, ho⟩ := bind_some_iff.1 ho
      exact tvWtx_keep (s := ⟨r.buf, u⟩) ok ((ok.Rty _).keep _ _ _ ih hr) ho

end reach

end L1c
