import Verif.Proofs.BregmanOpt

/-! Helper lemmas: split Bregman on finite data stays finite and follows the real recursion. -/

namespace L1c
open Finset

/-- the doubles of `A` on the image are the reals of `R` -/
def IsR (n m : ℕ) (A : FImg Dbl) (R : Img) : Prop := ∀ i < n, ∀ j < m, A i j = Dbl.fin (R i j)

theorem holdsImg_iff {mem : Mem Dbl} {p : Ptr} {n m : ℕ} {R : Img} :
    HoldsImg mem p n m R ↔ HoldsF mem p n m fun i j => Dbl.fin (R i j) := Iff.rfl

theorem HoldsF.toImg {mem : Mem Dbl} {p : Ptr} {n m : ℕ} {A : FImg Dbl} {R : Img} (h : HoldsF mem p n m A)
    (hA : IsR n m A R) : HoldsImg mem p n m R :=
  ⟨h.1, fun i hi j hj => by rw [h.2 i hi j hj, hA i hi j hj]⟩

theorem setRange_frame {F : Type} (mem : Mem F) (D : Ptr) (N : ℕ) (g : Int → F) {p : Ptr}
    (hp : ∀ k : ℕ, k < N → p ≠ D + (k : Int)) : (mem.setRange D N g).val p = mem.val p := by
  show (if _ then _ else _) = _
  rw [if_neg]
  rintro ⟨h1, h2, h3⟩
  refine hp (p.off - D.off).toNat (by omega) ?_
  rw [show ((p.off - D.off).toNat : Int) = p.off - D.off by omega]
  ext
  · exact h1
  · rw [Ptr.add_off]; omega

theorem setImg_setImg {F : Type} (mem : Mem F) (D : Ptr) (n m : ℕ) (A B : FImg F) :
    (mem.setImg D n m A).setImg D n m B = mem.setImg D n m B := by
  ext a
  · rfl
  · show (if _ then _ else (if _ then _ else _)) = if _ then _ else _
    split
    · rfl
    · rfl

variable {n m : ℕ} {mu lam : ℝ} {rhs u : Img} {A U : FImg Dbl}

theorem gsInv_fin (k : ℚ) (h : mu + k * lam ≠ 0) :
    gsInv (Dbl.fin mu) (Dbl.fin lam) k = Dbl.fin (1 / (mu + k * lam)) := by
  unfold gsInv
  rw [Dbl.lit_eq, Dbl.lit_eq, Dbl.fin_mul, Dbl.fin_add, Dbl.fin_div h, Rat.cast_one]

theorem gsPix_fin (hn : 2 ≤ n) (hm : 2 ≤ m) (hmu : 0 < mu) (hlam : 0 ≤ lam) (hA : IsR n m A rhs) (hU : IsR n m U u)
    {i j : ℕ} (hi : i < n) (hj : j < m) :
    gsPix n m (Dbl.fin mu) (Dbl.fin lam) A U i j = Dbl.fin (gsPixR n m mu lam rhs u i j) := by
  have c2 := gsInv_fin (mu := mu) (lam := lam) 2 (by push_cast; positivity)
  have c3 := gsInv_fin (mu := mu) (lam := lam) 3 (by push_cast; positivity)
  have c4 := gsInv_fin (mu := mu) (lam := lam) 4 (by push_cast; positivity)
  push_cast at c2 c3 c4
  have a0 := hA i hi j hj
  have u1 : j + 1 < m → U i (j + 1) = Dbl.fin (u i (j + 1)) := fun h => hU i hi _ h
  have u2 : U i (j - 1) = Dbl.fin (u i (j - 1)) := hU i hi _ (by omega)
  have u3 : i + 1 < n → U (i + 1) j = Dbl.fin (u (i + 1) j) := fun h => hU _ h j hj
  have u4 : U (i - 1) j = Dbl.fin (u (i - 1) j) := hU _ (by omega) j hj
  unfold gsPix gsPixR nbCnt nbSum
  by_cases hi0 : i = 0
  · have hi1 : i + 1 < n := by omega
    rw [if_pos hi0]
    by_cases hj0 : j = 0
    · have hj1 : j + 1 < m := by omega
      rw [if_pos hj0, a0, u1 hj1, u3 hi1, c2]
      simp only [Dbl.fin_add, Dbl.fin_mul, if_pos hi0, if_pos hj0, if_pos hj1, if_pos hi1]
      congr 1; ring
    · rw [if_neg hj0]
      by_cases hj1 : j + 1 = m
      · have hj2 : ¬ j + 1 < m := by omega
        rw [if_pos hj1, a0, u2, u3 hi1, c2]
        simp only [Dbl.fin_add, Dbl.fin_mul, if_pos hi0, if_neg hj0, if_neg hj2, if_pos hi1]
        congr 1; ring
      · have hj2 : j + 1 < m := by omega
        rw [if_neg hj1, a0, u1 hj2, u2, u3 hi1, c3]
        simp only [Dbl.fin_add, Dbl.fin_mul, if_pos hi0, if_neg hj0, if_pos hj2, if_pos hi1]
        congr 1; ring
  · rw [if_neg hi0]
    by_cases hi1 : i + 1 = n
    · have hi2 : ¬ i + 1 < n := by omega
      rw [if_pos hi1]
      by_cases hj0 : j = 0
      · have hj1 : j + 1 < m := by omega
        rw [if_pos hj0, a0, u1 hj1, u4, c2]
        simp only [Dbl.fin_add, Dbl.fin_mul, if_neg hi0, if_pos hj0, if_pos hj1, if_neg hi2]
        congr 1; ring
      · rw [if_neg hj0]
        by_cases hj1 : j + 1 = m
        · have hj2 : ¬ j + 1 < m := by omega
          rw [if_pos hj1, a0, u2, u4, c2]
          simp only [Dbl.fin_add, Dbl.fin_mul, if_neg hi0, if_neg hj0, if_neg hj2, if_neg hi2]
          congr 1; ring
        · have hj2 : j + 1 < m := by omega
          rw [if_neg hj1, a0, u1 hj2, u2, u4, c3]
          simp only [Dbl.fin_add, Dbl.fin_mul, if_neg hi0, if_neg hj0, if_pos hj2, if_neg hi2]
          congr 1; ring
    · have hi2 : i + 1 < n := by omega
      rw [if_neg hi1]
      by_cases hj0 : j = 0
      · have hj1 : j + 1 < m := by omega
        rw [if_pos hj0, a0, u1 hj1, u3 hi2, u4, c3]
        simp only [Dbl.fin_add, Dbl.fin_mul, if_neg hi0, if_pos hj0, if_pos hj1, if_pos hi2]
        congr 1; ring
      · rw [if_neg hj0]
        by_cases hj1 : j + 1 = m
        · have hj2 : ¬ j + 1 < m := by omega
          rw [if_pos hj1, a0, u2, u3 hi2, u4, c3]
          simp only [Dbl.fin_add, Dbl.fin_mul, if_neg hi0, if_neg hj0, if_neg hj2, if_pos hi2]
          congr 1; ring
        · have hj2 : j + 1 < m := by omega
          rw [if_neg hj1, a0, u1 hj2, u2, u3 hi2, u4, c4]
          simp only [Dbl.fin_add, Dbl.fin_mul, if_neg hi0, if_neg hj0, if_pos hj2, if_pos hi2]
          congr 1; ring

theorem gsSweep_fin (hn : 2 ≤ n) (hm : 2 ≤ m) (hmu : 0 < mu) (hlam : 0 ≤ lam) (hA : IsR n m A rhs) (hU : IsR n m U u) :
    IsR n m (gsSweep n m (Dbl.fin mu) (Dbl.fin lam) A U) (gsSweepR n m mu lam rhs u) := by
  have : ∀ k ≤ n * m, IsR n m (gsState n m (Dbl.fin mu) (Dbl.fin lam) A U k) (gsStateR n m mu lam rhs u k) := by
    intro k
    induction k with
    | zero => intro _; exact hU
    | succ k ih =>
      intro hk i hi j hj
      have ih := ih (by omega)
      show upd2 _ _ _ _ i j = Dbl.fin (if _ then _ else _)
      unfold upd2
      split
      · rename_i e
        rw [← e.1, ← e.2]
        exact gsPix_fin hn hm hmu hlam hA ih hi hj
      · exact ih i hi j hj
  exact this _ le_rfl

theorem gsIter_fin (hn : 2 ≤ n) (hm : 2 ≤ m) (hmu : 0 < mu) (hlam : 0 ≤ lam) (hA : IsR n m A rhs) (hU : IsR n m U u) (k : ℕ) :
    IsR n m ((gsSweep n m (Dbl.fin mu) (Dbl.fin lam) A)^[k] U) ((gsSweepR n m mu lam rhs)^[k] u) := by
  induction k with
  | zero => exact hU
  | succ k ih =>
    rw [Function.iterate_succ_apply', Function.iterate_succ_apply']
    exact gsSweep_fin hn hm hmu hlam hA ih

/-! ### the Jacobi variant and the operator -/

theorem nbCount_eq (hn : 2 ≤ n) (hm : 2 ≤ m) {i j : ℕ} (hi : i < n) (hj : j < m) :
    ((nbCount n m i j : ℚ) : ℝ) = nbCnt n m i j := by
  unfold nbCount nbCnt nbSum
  split_ifs <;> first | (exfalso; omega) | norm_num

theorem jacobi_fin (hn : 2 ≤ n) (hm : 2 ≤ m) (hmu : 0 < mu) (hlam : 0 ≤ lam) (hA : IsR n m A rhs) (hU : IsR n m U u)
    {i j : ℕ} (hi : i < n) (hj : j < m) :
    diagF n m (Dbl.fin mu) (Dbl.fin lam) i j * jacW2 n m (Dbl.fin lam) A U i j
      = Dbl.fin (gsPixR n m mu lam rhs u i j) := by
  have h0 : (Scalar.lit 0 : Dbl) = Dbl.fin 0 := by rw [Dbl.lit_eq, Rat.cast_zero]
  have e1 : (if i = 0 then (Scalar.lit 0 : Dbl) else U (i - 1) j) = Dbl.fin (if i = 0 then 0 else u (i - 1) j) := by
    split
    · exact h0
    · exact hU _ (by omega) j hj
  have e2 : (if i + 1 < n then U (i + 1) j else (Scalar.lit 0 : Dbl)) = Dbl.fin (if i + 1 < n then u (i + 1) j else 0) := by
    split
    · exact hU _ (by omega) j hj
    · exact h0
  have hW1 : jacW1 n (Dbl.fin lam) A U i j = Dbl.fin (rhs i j - lam * (-(if i = 0 then 0 else u (i - 1) j) - (if i + 1 < n then u (i + 1) j else 0))) := by
    unfold jacW1
    rw [e1, e2, hA i hi j hj, Dbl.fin_neg, Dbl.fin_sub, Dbl.fin_mul, Dbl.fin_sub]
  have hd : mu + nbCnt n m i j * lam ≠ 0 := (diag_pos hmu hlam i j).ne'
  have hW2 : jacW2 n m (Dbl.fin lam) A U i j = Dbl.fin (rhs i j + lam * nbSum n m u i j) := by
    unfold jacW2 nbSum
    rw [hW1]
    by_cases hj0 : j = 0
    · rw [if_pos hj0, hU i hi _ (by omega), Dbl.fin_mul, Dbl.fin_add, if_pos (show j + 1 < m by omega), if_pos hj0]
      congr 1; ring
    · rw [if_neg hj0]
      by_cases hj1 : j + 1 = m
      · rw [if_pos hj1, hU i hi _ (by omega), Dbl.fin_neg, Dbl.fin_neg, Dbl.fin_mul, Dbl.fin_add, if_neg (show ¬ j + 1 < m by omega), if_neg hj0]
        congr 1; ring
      · rw [if_neg hj1, hU i hi (j - 1) (by omega), hU i hi (j + 1) (by omega), Dbl.fin_neg, Dbl.fin_neg, Dbl.fin_sub, Dbl.fin_mul,
          Dbl.fin_add, if_pos (show j + 1 < m by omega), if_neg hj0]
        congr 1; ring
  unfold diagF
  rw [gsInv_fin _ (by rw [nbCount_eq hn hm hi hj]; exact hd), hW2, Dbl.fin_mul, nbCount_eq hn hm hi hj]
  unfold gsPixR
  congr 1; ring

/-- the values of `breg_hess_eval` are those of the operator -/
theorem hess_fin (hn : 2 ≤ n) (hm : 2 ≤ m) (hfit : FitsInt ((n : Int) * m)) {mem : Mem Dbl} {X W : Ptr}
    (hX : HoldsImg mem X n m u) (hW : mem.Has W ((n * m : ℕ) : Int)) (hs : Sep ((n * m : ℕ) : Int) W X) {i j : ℕ} (hi : i < n) (hj : j < m) :
    Dbl.fin mu * Dbl.fin (u i j) + Dbl.fin lam * dCol2 (Scalar.lit 1) n (fun i j => Dbl.fin (u i j)) i j
      + Dbl.fin lam * dRow2 (Scalar.lit 1) m (fun j => Dbl.fin (u i j)) j = Dbl.fin (pixOp n m mu lam u i j) := by
  have h1 : (Scalar.lit 1 : Dbl) = Dbl.fin 1 := by rw [Dbl.lit_eq, Rat.cast_one]
  have hc : dCol2 (Scalar.lit 1) n (fun i j => Dbl.fin (u i j)) i j = Dbl.fin (gradYT 1 n (gradY 1 n u) i j) := by
    have a := imgOp_DyTDy hn hfit 1 mem X W u hX hW hs
    have b := kspec_DyTDy (alpha := Dbl.fin 1) hfit hX.1 hW hs
    have e := congrArg (fun M => M.pix W m i j) (a.unique b)
    beta_reduce at e
    rw [Mem.setImg_pix _ _ _ _ _ hi hj, Mem.setImg_pix _ _ _ _ _ hi hj] at e
    rw [h1, e]
    unfold dCol2
    have p0 := hX.2 i hi j hj
    have p1 := hX.2 (i - 1) (by omega) j hj
    rw [p0, p1]
    by_cases hh : i + 1 < n
    · have p2 := hX.2 (i + 1) hh j hj
      simp only [p2]
    · simp only [hh]
      simp
  have hr : dRow2 (Scalar.lit 1) m (fun j => Dbl.fin (u i j)) j = Dbl.fin (gradXT 1 m (gradX 1 m u) i j) := by
    have a := imgOp_DxTDx hm hfit 1 mem X W u hX hW hs
    have b := kspec_DxTDx (alpha := Dbl.fin 1) hm hfit hX.1 hW hs
    have e := congrArg (fun M => M.pix W m i j) (a.unique b)
    beta_reduce at e
    rw [Mem.setImg_pix _ _ _ _ _ hi hj, Mem.setImg_pix _ _ _ _ _ hi hj] at e
    rw [h1, e]
    unfold dRow2
    rw [hX.2 i hi j hj, hX.2 i hi (j - 1) (by omega), hX.2 i hi (m - 1) (by omega), hX.2 i hi (m - 2) (by omega), hX.2 i hi 0 (by omega), hX.2 i hi 1 (by omega)]
    by_cases hh : j + 1 < m
    · rw [hX.2 i hi (j + 1) hh]
    · rw [if_pos (by omega), if_pos (by omega)]
  rw [hc, hr, Dbl.fin_mul, Dbl.fin_mul, Dbl.fin_mul, Dbl.fin_add, Dbl.fin_add]
  congr 1
  have := lap_pix n m u hi hj
  unfold pixOp
  linear_combination lam * this

/-! ### one outer iteration -/

/-- the real variables -/
structure BStateR where
  (u dx dy bx bY : Img)

noncomputable def rhsR (n m : ℕ) (mu lam : ℝ) (f : Img) (s : BStateR) : Img := fun i j =>
  gradXT lam m (fun i j => -s.bx i j + s.dx i j) i j + (gradYT lam n (fun i j => -s.bY i j + s.dy i j) i j + mu * f i j)

noncomputable def bregNextR (n m : ℕ) (mu lam : ℝ) (jac : ℕ) (f : Img) (s : BStateR) : BStateR :=
  let u := (gsSweepR n m mu lam (rhsR n m mu lam f s))^[jac] s.u
  let gx : Img := fun i j => gradX 1 m u i j + s.bx i j
  let gy : Img := fun i j => gradY 1 n u i j + s.bY i j
  { u := u
    dx := fun i j => shrinkR (1 / lam) (gx i j)
    dy := fun i j => shrinkR (1 / lam) (gy i j)
    bx := fun i j => gx i j - shrinkR (1 / lam) (gx i j)
    bY := fun i j => gy i j - shrinkR (1 / lam) (gy i j) }

structure IsRS (n m : ℕ) (s : BState Dbl) (r : BStateR) : Prop where
  u : IsR n m s.u r.u
  dx : IsR n m s.dx r.dx
  dy : IsR n m s.dy r.dy
  bx : IsR n m s.bx r.bx
  bY : IsR n m s.bY r.bY

theorem dRowT_fin (hm : 2 ≤ m) {x : ℕ → Dbl} {y : ℕ → ℝ} (h : ∀ j < m, x j = Dbl.fin (y j)) {j : ℕ} (hj : j < m) :
    dRowT (Dbl.fin lam) m x j = Dbl.fin (adjRow lam m y j) := by
  unfold dRowT adjRow
  by_cases h1 : j + 1 = m
  · rw [if_pos h1, h _ (by omega), Dbl.fin_mul, if_neg (by omega), if_neg (by omega), show m - 2 = j - 1 by omega, sub_zero]
  · rw [if_neg h1]
    by_cases h0 : j = 0
    · rw [if_pos h0, h 0 (by omega), Dbl.fin_neg, Dbl.fin_mul, if_pos h0, if_pos (by omega), h0]
      congr 1; ring
    · rw [if_neg h0, h _ (by omega), h j hj, Dbl.fin_sub, Dbl.fin_mul, if_neg h0, if_pos (by omega)]

theorem dColT_fin {X : FImg Dbl} {Y : Img} (h : IsR n m X Y) {i j : ℕ} (hi : i < n) (hj : j < m) :
    dColT (Dbl.fin lam) n X i j = Dbl.fin (gradYT lam n Y i j) := by
  unfold dColT gradYT adjRow
  have h0 : (Scalar.lit 0 : Dbl) = Dbl.fin 0 := by rw [Dbl.lit_eq, Rat.cast_zero]
  rw [h0, h i hi j hj]
  have e1 : (if i = 0 then Dbl.fin 0 else X (i - 1) j) = Dbl.fin (if i = 0 then 0 else Y (i - 1) j) := by
    split
    · rfl
    · exact h _ (by omega) j hj
  have e2 : (if i + 1 < n then Dbl.fin (Y i j) else Dbl.fin 0) = Dbl.fin (if i + 1 < n then Y i j else 0) := by split <;> rfl
  rw [e1, e2, Dbl.fin_sub, Dbl.fin_mul]

theorem rhs_fin (hm : 2 ≤ m) {f : Img} {fF : FImg Dbl} (hf : IsR n m fF f) {s : BState Dbl} {r : BStateR} (h : IsRS n m s r) :
    IsR n m (rhsF n m (Dbl.fin mu) (Dbl.fin lam) fF s) (rhsR n m mu lam f r) := by
  intro i hi j hj
  unfold rhsF rhsR
  rw [dRowT_fin hm (y := fun j => -r.bx i j + r.dx i j)
      (fun j hj => by rw [h.bx i hi j hj, h.dx i hi j hj, Dbl.fin_neg, Dbl.fin_add]) hj,
    dColT_fin (Y := fun i j => -r.bY i j + r.dy i j)
      (fun i hi j hj => by rw [h.bY i hi j hj, h.dy i hi j hj, Dbl.fin_neg, Dbl.fin_add]) hi hj,
    hf i hi j hj, Dbl.fin_mul, Dbl.fin_add, Dbl.lit_eq, Dbl.fin_mul, Dbl.fin_add, Rat.cast_one, one_mul]
  rfl

theorem next_fin (hn : 2 ≤ n) (hm : 2 ≤ m) (hmu : 0 < mu) (hlam : 0 < lam) (jac : ℕ) {f : Img} {fF : FImg Dbl}
    (hf : IsR n m fF f) {s : BState Dbl} {r : BStateR} (h : IsRS n m s r) :
    IsRS n m (bregNext n m (Dbl.fin mu) (Dbl.fin lam) jac fF s) (bregNextR n m mu lam jac f r) := by
  have hu := gsIter_fin hn hm hmu hlam.le (rhs_fin (mu := mu) (lam := lam) hm hf h) h.u jac
  have h0 : (Scalar.lit 0 : Dbl) = Dbl.fin 0 := by rw [Dbl.lit_eq, Rat.cast_zero]
  have h1 : (Scalar.lit 1 : Dbl) = Dbl.fin 1 := by rw [Dbl.lit_eq, Rat.cast_one]
  have hg : (Scalar.lit 1 : Dbl) / Dbl.fin lam = Dbl.fin (1 / lam) := by rw [h1, Dbl.fin_div hlam.ne']
  have hx : ∀ i < n, ∀ j < m, gxF m ((gsSweep n m (Dbl.fin mu) (Dbl.fin lam) (rhsF n m (Dbl.fin mu) (Dbl.fin lam) fF s))^[jac] s.u) s.bx i j
      = Dbl.fin (gradX 1 m ((gsSweepR n m mu lam (rhsR n m mu lam f r))^[jac] r.u) i j + r.bx i j) := by
    intro i hi j hj
    unfold gxF dRow gradX
    rw [h.bx i hi j hj, h1, h0]
    split
    · rw [hu i hi _ (by omega), hu i hi j hj, Dbl.fin_sub, Dbl.fin_mul, Dbl.fin_mul, Dbl.fin_add, one_mul, one_mul]
    · rw [Dbl.fin_mul, Dbl.fin_add, one_mul]
  have hy : ∀ i < n, ∀ j < m, gyF n ((gsSweep n m (Dbl.fin mu) (Dbl.fin lam) (rhsF n m (Dbl.fin mu) (Dbl.fin lam) fF s))^[jac] s.u) s.bY i j
      = Dbl.fin (gradY 1 n ((gsSweepR n m mu lam (rhsR n m mu lam f r))^[jac] r.u) i j + r.bY i j) := by
    intro i hi j hj
    unfold gyF gradY
    rw [h.bY i hi j hj, h1, h0]
    split
    · rw [hu _ (by omega) j hj, hu i hi j hj, Dbl.fin_sub, Dbl.fin_mul, Dbl.fin_mul, Dbl.fin_add, one_mul, one_mul]
    · rw [Dbl.fin_mul, Dbl.fin_add, one_mul]
  refine ⟨hu, ?_, ?_, ?_, ?_⟩
  · intro i hi j hj
    show shrinkVal _ (gxF m _ _ i j) = _
    rw [hx i hi j hj, hg, shrinkVal_fin]; rfl
  · intro i hi j hj
    show shrinkVal _ (gyF n _ _ i j) = _
    rw [hy i hi j hj, hg, shrinkVal_fin]; rfl
  · intro i hi j hj
    show -shrinkVal _ (gxF m _ _ i j) + gxF m _ _ i j = _
    rw [hx i hi j hj, hg, shrinkVal_fin, Dbl.fin_neg, Dbl.fin_add]
    exact congrArg Dbl.fin (by unfold bregNextR; ring)
  · intro i hi j hj
    show -shrinkVal _ (gyF n _ _ i j) + gyF n _ _ i j = _
    rw [hy i hi j hj, hg, shrinkVal_fin, Dbl.fin_neg, Dbl.fin_add]
    exact congrArg Dbl.fin (by unfold bregNextR; ring)

/-- the real run -/
noncomputable def bregIterR (n m : ℕ) (mu lam : ℝ) (jac : ℕ) (f : Img) : ℕ → BStateR
  | 0 => ⟨f, fun _ _ => 0, fun _ _ => 0, fun _ _ => 0, fun _ _ => 0⟩
  | k + 1 => bregNextR n m mu lam jac f (bregIterR n m mu lam jac f k)

theorem iter_fin (hn : 2 ≤ n) (hm : 2 ≤ m) (hmu : 0 < mu) (hlam : 0 < lam) (jac : ℕ) {f : Img} {fF : FImg Dbl}
    (hf : IsR n m fF f) (k : ℕ) :
    IsRS n m (bregIter n m (Dbl.fin mu) (Dbl.fin lam) jac fF k) (bregIterR n m mu lam jac f k) := by
  induction k with
  | zero =>
    have h0 : (Scalar.lit 0 : Dbl) = Dbl.fin 0 := by rw [Dbl.lit_eq, Rat.cast_zero]
    exact ⟨hf, fun _ _ _ _ => h0, fun _ _ _ _ => h0, fun _ _ _ _ => h0, fun _ _ _ _ => h0⟩
  | succ k ih => exact next_fin hn hm hmu hlam jac hf ih

/-! ### facts about the real iteration -/

variable {f : Img} {jac : ℕ} {s : BStateR}

theorem next_bounded (hlam : 0 < lam) (i j : ℕ) :
    |(bregNextR n m mu lam jac f s).bx i j| ≤ 1 / lam ∧ |(bregNextR n m mu lam jac f s).bY i j| ≤ 1 / lam :=
  ⟨(shrinkR_spec (by positivity) _).1, (shrinkR_spec (by positivity) _).1⟩

theorem inner2_rhsR (v : Img) : inner2 n m (rhsR n m mu lam f s) v
    = lam * inner2 n m (fun i j => -s.bx i j + s.dx i j) (gradX 1 m v)
      + lam * inner2 n m (fun i j => -s.bY i j + s.dy i j) (gradY 1 n v) + mu * inner2 n m f v := by
  have hx : inner2 n m (gradXT lam m (fun i j => -s.bx i j + s.dx i j)) v
      = lam * inner2 n m (fun i j => -s.bx i j + s.dx i j) (gradX 1 m v) := by
    rw [inner2_swap, ← gradX_adjoint, ← inner2_smul, inner2_swap]
    unfold inner2
    refine sum_congr rfl fun i _ => sum_congr rfl fun j _ => ?_
    unfold gradX
    split <;> ring
  have hy : inner2 n m (gradYT lam n (fun i j => -s.bY i j + s.dy i j)) v
      = lam * inner2 n m (fun i j => -s.bY i j + s.dy i j) (gradY 1 n v) := by
    rw [inner2_swap, ← gradY_adjoint, ← inner2_smul, inner2_swap]
    unfold inner2
    refine sum_congr rfl fun i _ => sum_congr rfl fun j _ => ?_
    unfold gradY
    split <;> ring
  have e : rhsR n m mu lam f s = fun i j => gradXT lam m (fun i j => -s.bx i j + s.dx i j) i j
      + (gradYT lam n (fun i j => -s.bY i j + s.dy i j) i j + mu * f i j) := rfl
  have s1 := inner2_add n m (gradXT lam m (fun i j => -s.bx i j + s.dx i j))
    (fun i j => gradYT lam n (fun i j => -s.bY i j + s.dy i j) i j + mu * f i j) v
  have s2 := inner2_add n m (gradYT lam n (fun i j => -s.bY i j + s.dy i j)) (fun i j => mu * f i j) v
  rw [e, s1, hx, s2, hy, inner2_smul]
  ring

/-- equality of the five images on the pixels -/
structure SameR (n m : ℕ) (s t : BStateR) : Prop where
  u : ImgEq n m s.u t.u
  dx : ImgEq n m s.dx t.dx
  dy : ImgEq n m s.dy t.dy
  bx : ImgEq n m s.bx t.bx
  bY : ImgEq n m s.bY t.bY

theorem gradX_eqOn {u v : Img} (h : ImgEq n m u v) : ImgEq n m (gradX 1 m u) (gradX 1 m v) := by
  intro i hi j hj; unfold gradX
  split
  · rw [h i hi _ (by omega), h i hi j hj]
  · rfl
theorem gradY_eqOn {u v : Img} (h : ImgEq n m u v) : ImgEq n m (gradY 1 n u) (gradY 1 n v) := by
  intro i hi j hj; unfold gradY
  split
  · rw [h _ (by omega) j hj, h i hi j hj]
  · rfl

/-- an unchanged state satisfies the optimality conditions -/
theorem fixed_strong (hmu : 0 < mu) (hlam : 0 < lam) (hj : 1 ≤ jac)
    (h : SameR n m (bregNextR n m mu lam jac f s) s) (v : Img) :
    tvObj n m mu f s.u + mu / 2 * normSq2 n m (fun i j => v i j - s.u i j) ≤ tvObj n m mu f v := by
  have hsol := iterate_fixed hmu hlam hj h.u
  have hu : ImgEq n m ((gsSweepR n m mu lam (rhsR n m mu lam f s))^[jac] s.u) s.u := h.u
  have hgx := gradX_eqOn hu
  have hgy := gradY_eqOn hu
  have edx : ∀ i < n, ∀ j < m, s.dx i j = gradX 1 m s.u i j := by
    intro i hi j hj
    have a : shrinkR _ _ = _ := h.dx i hi j hj
    have b : _ - shrinkR _ _ = _ := h.bx i hi j hj
    beta_reduce at a b
    rw [hgx i hi j hj] at a b
    rw [a] at b; linarith
  have edy : ∀ i < n, ∀ j < m, s.dy i j = gradY 1 n s.u i j := by
    intro i hi j hj
    have a : shrinkR _ _ = _ := h.dy i hi j hj
    have b : _ - shrinkR _ _ = _ := h.bY i hi j hj
    beta_reduce at a b
    rw [hgy i hi j hj] at a b
    rw [a] at b; linarith
  have bnd : ∀ {b : ℝ}, |b| ≤ 1 / lam → |lam * b| ≤ 1 := by
    intro b hb
    rw [abs_mul, abs_of_pos hlam]
    calc lam * |b| ≤ lam * (1 / lam) := mul_le_mul_of_nonneg_left hb hlam.le
      _ = 1 := mul_one_div_cancel hlam.ne'
  have sg : ∀ {g d b : ℝ}, shrinkR (1 / lam) g = d → g - d = b → lam * b * d = |d| := by
    intro g d b h1 h2
    have := (shrinkR_spec (show 0 ≤ 1 / lam by positivity) g).2
    rw [h1, h2] at this
    rw [mul_assoc, this, ← mul_assoc, mul_one_div_cancel hlam.ne', one_mul]
  refine tv_strong (p := lam) (bx := s.bx) (bY := s.bY) ?_ ?_ ?_ ?_ ?_ v
  · intro i hi j hj; rw [← h.bx i hi j hj]; exact bnd (next_bounded hlam i j).1
  · intro i hi j hj; rw [← h.bY i hi j hj]; exact bnd (next_bounded hlam i j).2
  · intro i hi j hj
    rw [← edx i hi j hj]
    have a : shrinkR _ _ = _ := h.dx i hi j hj
    have b : _ - shrinkR _ _ = _ := h.bx i hi j hj
    rw [a] at b
    exact sg a b
  · intro i hi j hj
    rw [← edy i hi j hj]
    have a : shrinkR _ _ = _ := h.dy i hi j hj
    have b : _ - shrinkR _ _ = _ := h.bY i hi j hj
    rw [a] at b
    exact sg a b
  · intro v
    have h1 := hsol v
    rw [inner2_rhsR] at h1
    have e1 : inner2 n m (fun i j => -s.bx i j + s.dx i j) (gradX 1 m v)
        = inner2 n m (gradX 1 m s.u) (gradX 1 m v) - inner2 n m s.bx (gradX 1 m v) := by
      rw [← inner2_sub]
      exact inner2_eqOn (fun i hi j hj => by rw [edx i hi j hj]; ring) fun _ _ _ _ => rfl
    have e2 : inner2 n m (fun i j => -s.bY i j + s.dy i j) (gradY 1 n v)
        = inner2 n m (gradY 1 n s.u) (gradY 1 n v) - inner2 n m s.bY (gradY 1 n v) := by
      rw [← inner2_sub]
      exact inner2_eqOn (fun i hi j hj => by rw [edy i hi j hj]; ring) fun _ _ _ _ => rfl
    rw [e1, e2] at h1
    rw [inner2_sub]
    linarith

/-- the strong minimum is unique -/
theorem strong_unique (hmu : 0 < mu) {u v : Img}
    (hu : ∀ w, tvObj n m mu f u + mu / 2 * normSq2 n m (fun i j => w i j - u i j) ≤ tvObj n m mu f w)
    (hv : tvObj n m mu f v ≤ tvObj n m mu f u) : ImgEq n m v u := by
  have h1 := hu v
  have h2 := normSq2_nonneg n m (fun i j => v i j - u i j)
  have h3 : normSq2 n m (fun i j => v i j - u i j) = 0 := by
    have : mu / 2 * normSq2 n m (fun i j => v i j - u i j) ≤ 0 := by linarith
    have hp : 0 < mu / 2 := by linarith
    nlinarith
  intro i hi j hj
  have := normSq2_eq_zero h3 i hi j hj
  linarith

/-- a constant image is a fixed point -/
theorem const_iter (hmu : 0 < mu) (hlam : 0 < lam) (c : ℝ) (k : ℕ) :
    SameR n m (bregIterR n m mu lam jac (fun _ _ => c) k) ⟨fun _ _ => c, fun _ _ => 0, fun _ _ => 0, fun _ _ => 0, fun _ _ => 0⟩ := by
  induction k with
  | zero => exact ⟨fun _ _ _ _ => rfl, fun _ _ _ _ => rfl, fun _ _ _ _ => rfl, fun _ _ _ _ => rfl, fun _ _ _ _ => rfl⟩
  | succ k ih =>
    set s := bregIterR n m mu lam jac (fun _ _ => c) k with hs
    have hrhs : ImgEq n m (rhsR n m mu lam (fun _ _ => c) s) fun _ _ => mu * c := by
      intro i hi j hj
      unfold rhsR gradXT gradYT adjRow
      have a1 : (if j = 0 then 0 else -s.bx i (j - 1) + s.dx i (j - 1)) = 0 := by
        split
        · rfl
        · rw [ih.bx i hi _ (by omega), ih.dx i hi _ (by omega)]; ring
      have a2 : (if i = 0 then 0 else -s.bY (i - 1) j + s.dy (i - 1) j) = 0 := by
        split
        · rfl
        · rw [ih.bY _ (by omega) j hj, ih.dy _ (by omega) j hj]; ring
      beta_reduce
      rw [a1, a2, ih.bx i hi j hj, ih.dx i hi j hj, ih.bY i hi j hj, ih.dy i hi j hj]
      simp
    have hpix : ∀ u : Img, ImgEq n m u (fun _ _ => c) → ImgEq n m (gsSweepR n m mu lam (rhsR n m mu lam (fun _ _ => c) s) u) u := by
      intro u hu
      rw [gsSweepR_fixed_iff hmu hlam.le]
      intro i hi j hj
      rw [hrhs i hi j hj]
      unfold pixOp
      rw [nbSum_congr hu hi hj, hu i hi j hj]
      have : nbSum n m (fun _ _ => c) i j = c * nbCnt n m i j := by
        unfold nbCnt nbSum; split_ifs <;> ring
      rw [this]; ring
    have hu : ∀ l : ℕ, ImgEq n m ((gsSweepR n m mu lam (rhsR n m mu lam (fun _ _ => c) s))^[l] s.u) (fun _ _ => c) := by
      intro l
      induction l with
      | zero => exact ih.u
      | succ l ihl =>
        rw [Function.iterate_succ_apply']
        intro i hi j hj
        rw [hpix _ ihl i hi j hj, ihl i hi j hj]
    have hs0 : shrinkR (1 / lam) 0 = 0 := by
      unfold shrinkR
      rw [abs_zero, max_eq_right]
      · simp
      · have : 0 < 1 / lam := by positivity
        linarith
    have gx0 : ∀ i < n, ∀ j < m, gradX 1 m ((gsSweepR n m mu lam (rhsR n m mu lam (fun _ _ => c) s))^[jac] s.u) i j + s.bx i j = 0 := by
      intro i hi j hj
      rw [gradX_eqOn (hu jac) i hi j hj, ih.bx i hi j hj]
      unfold gradX; split <;> ring
    have gy0 : ∀ i < n, ∀ j < m, gradY 1 n ((gsSweepR n m mu lam (rhsR n m mu lam (fun _ _ => c) s))^[jac] s.u) i j + s.bY i j = 0 := by
      intro i hi j hj
      rw [gradY_eqOn (hu jac) i hi j hj, ih.bY i hi j hj]
      unfold gradY; split <;> ring
    refine ⟨hu jac, ?_, ?_, ?_, ?_⟩ <;> intro i hi j hj
    · show shrinkR _ (_ + s.bx i j) = 0
      rw [gx0 i hi j hj, hs0]
    · show shrinkR _ (_ + s.bY i j) = 0
      rw [gy0 i hi j hj, hs0]
    · show (_ + s.bx i j) - shrinkR _ (_ + s.bx i j) = 0
      rw [gx0 i hi j hj, hs0, sub_zero]
    · show (_ + s.bY i j) - shrinkR _ (_ + s.bY i j) = 0
      rw [gy0 i hi j hj, hs0, sub_zero]

end L1c
