import Verif.Proofs.MathK
import Mathlib.Algebra.BigOperators.Intervals
import Mathlib.Algebra.BigOperators.Group.List.Basic

/-! Helper lemmas for reductions. -/

namespace L1c
open Prog Scalar

theorem mask_bit : ∀ i : Fin 32, 2 ≤ i.val → (~~~(3#32)).getLsbD i.val = true := by decide

/-- rounding down to a multiple of 4 -/
theorem regularpart_eq (N : Int) (h : FitsInt N) : regularpart N = N - N % 4 := by
  unfold regularpart
  have e : (BitVec.ofInt 32 N &&& ~~~(3#32)) = (BitVec.ofInt 32 N >>> 2) <<< 2 := by
    apply BitVec.eq_of_getLsbD_eq
    intro i hi
    simp only [BitVec.getLsbD_and, BitVec.getLsbD_shiftLeft, BitVec.getLsbD_ushiftRight, hi,
      decide_true, Bool.true_and]
    by_cases h2 : i < 2
    · have : i = 0 ∨ i = 1 := by omega
      rcases this with rfl | rfl <;> simp
    · rw [mask_bit ⟨i, hi⟩ (by simp only; omega)]
      simp only [h2, decide_false, Bool.not_false, Bool.true_and, Bool.and_true]
      congr 1; omega
  rw [e, BitVec.toInt_eq_toNat_cond]
  simp only [BitVec.toNat_shiftLeft, BitVec.toNat_ushiftRight, BitVec.toNat_ofInt,
    Nat.shiftRight_eq_div_pow, Nat.shiftLeft_eq]
  unfold FitsInt INT_MIN INT_MAX at h
  have hN : ((N % (2 ^ 32 : ℕ)).toNat : Int) = N % 4294967296 := by
    rw [Int.toNat_of_nonneg (Int.emod_nonneg _ (by norm_num))]; norm_num
  generalize hq : (N % ((2 ^ 32 : ℕ) : Int)).toNat = q at *
  have hq2 : q < 4294967296 := by omega
  norm_num
  have : q / 4 * 4 % 4294967296 = q / 4 * 4 := Nat.mod_eq_of_lt (by omega)
  rw [this]
  split <;> omega

theorem blocks_eq (N : Int) (h : FitsInt N) : blocks N = N / 4 := by
  unfold blocks; rw [regularpart_eq N h]; omega

theorem tailStart_eq (N : Int) (h : FitsInt N) (h0 : 0 ≤ N) : tailStart N = 4 * (N / 4) := by
  unfold tailStart; rw [blocks_eq N h, regularpart_eq N h]; split <;> omega

theorem tailStart_neg (N : Int) (h : FitsInt N) (h0 : N < 0) : tailStart N = 0 := by
  unfold tailStart; rw [regularpart_eq N h]; split <;> omega

theorem run_load4 {F : Type} [Scalar F] {m : Mem F} {p : Ptr} {b N : Int} (hx : m.Has p N) (h0 : 0 ≤ b)
    (h1 : 4 * b + 3 < N) : (load4 (p + 4 * b)).run m = some
      (⟨m.val (p + 4 * b), m.val (p + (4 * b + 1)), m.val (p + (4 * b + 2)), m.val (p + (4 * b + 3))⟩, m) := by
  simp only [load4, run_bind, Ptr.add_add, add_zero,
    run_load (hx (4 * b) (by omega) (by omega)), run_load (hx (4 * b + 1) (by omega) (by omega)),
    run_load (hx (4 * b + 2) (by omega) (by omega)), run_load (hx (4 * b + 3) (by omega) (by omega)),
    Option.bind_some, run_pure]

theorem run_store4 {F : Type} [Scalar F] {m : Mem F} {p : Ptr} {b N : Int} (hx : m.Has p N) (h0 : 0 ≤ b)
    (h1 : 4 * b + 3 < N) (v : Vec4 F) : (store4 (p + 4 * b) v).run m = some ((),
      (((m.write (p + 4 * b) v.a).write (p + (4 * b + 1)) v.b).write (p + (4 * b + 2)) v.c).write
        (p + (4 * b + 3)) v.d) := by
  simp only [store4, run_bind, Ptr.add_add, add_zero]
  rw [run_store (hx (4 * b) (by omega) (by omega)), Option.bind_some]
  dsimp only
  rw [run_store (by exact hx (4 * b + 1) (by omega) (by omega)), Option.bind_some]
  dsimp only
  rw [run_store (by exact hx (4 * b + 2) (by omega) (by omega)), Option.bind_some]
  dsimp only
  rw [run_store (by exact hx (4 * b + 3) (by omega) (by omega))]

end L1c
