import Verif.Base.Scalar
import Mathlib.Data.Matrix.Mul
import Mathlib.Algebra.BigOperators.Fin

/-!
# Vectors

`Vec F N` is the content of an array of `N` doubles.  The algorithm models (`Verif/Model/*`, second
layer) are functions on such contents; the vector kernels they call are verified on memory in
`Verif/Props/VecMath.lean` (C03, C04), which is what justifies using these functional versions.
-/

namespace L1c
open Scalar

abbrev Vec (F : Type) (N : ℕ) := Fin N → F

variable {F : Type} [Scalar F] {N : ℕ}

/-- `cblas_ddot(N, x, 1, y, 1)` in index order (BLAS may use another order; over `Dbl` the order does
not matter) -/
def ddot (x y : Vec F N) : F := (List.finRange N).foldl (fun s i => s + x i * y i) (lit 0)

/-- `cblas_daxpy(N, a, x, 1, y, 1)` and `l1c_daxpy_z`: `a*x + y` -/
def vaxpy (a : F) (x y : Vec F N) : Vec F N := fun i => a * x i + y i

/-- `l1c_daxpby`, `l1c_daxpby_z`: `a*x + b*y` -/
def vaxpby (a : F) (x : Vec F N) (b : F) (y : Vec F N) : Vec F N := fun i => a * x i + b * y i

/-- `l1c_dxmuly_z` -/
def vmul (x y : Vec F N) : Vec F N := fun i => x i * y i

/-- `cblas_dnrm2` -/
def dnrm2 (x : Vec F N) : F := fsqrt (ddot x x)

/-- `l1c_dnorm1` / `cblas_dasum` -/
def dasum (x : Vec F N) : F := (List.finRange N).foldl (fun s i => s + fabs (x i)) (lit 0)

/-- `l1c_dsum` -/
def dsum (x : Vec F N) : F := (List.finRange N).foldl (fun s i => s + x i) (lit 0)

/-! ## Real vectors inside `Dbl` -/

/-- real vector as an array of doubles -/
def fvec (v : Fin N → ℝ) : Vec Dbl N := fun i => Dbl.fin (v i)

@[simp] theorem fvec_apply (v : Fin N → ℝ) (i : Fin N) : fvec v i = Dbl.fin (v i) := rfl

theorem fvec_injective : Function.Injective (fvec (N := N)) := fun a b h => by
  funext i; exact Dbl.fin_injective (congrFun h i)

/-- `Dbl.fin` is additive -/
def Dbl.finHom : ℝ →+ Dbl where
  toFun := Dbl.fin
  map_zero' := Dbl.zero_eq.symm
  map_add' _ _ := rfl

theorem Dbl.fin_sum {ι : Type*} (s : Finset ι) (f : ι → ℝ) :
    ∑ i ∈ s, Dbl.fin (f i) = Dbl.fin (∑ i ∈ s, f i) := (map_sum Dbl.finHom f s).symm

theorem foldl_add_eq_sum (f : Fin N → Dbl) :
    (List.finRange N).foldl (fun s i => s + f i) (lit 0) = ∑ i, f i := by
  have : ∀ (l : List (Fin N)) (a : Dbl), l.foldl (fun s i => s + f i) a = a + (l.map f).sum := by
    intro l
    induction l with
    | nil => intro a; simp
    | cons h t ih => intro a; simp [ih, add_assoc]
  rw [this, Fin.sum_univ_def]
  exact Dbl.zero_add' _

theorem ddot_eq_sum (x y : Vec Dbl N) : ddot x y = ∑ i, x i * y i := foldl_add_eq_sum _
theorem dasum_eq_sum (x : Vec Dbl N) : dasum x = ∑ i, fabs (x i) := foldl_add_eq_sum _
theorem dsum_eq_sum (x : Vec Dbl N) : dsum x = ∑ i, x i := foldl_add_eq_sum _

@[simp] theorem ddot_fvec (x y : Fin N → ℝ) : ddot (fvec x) (fvec y) = Dbl.fin (x ⬝ᵥ y) := by
  rw [ddot_eq_sum, dotProduct, ← Dbl.fin_sum]; rfl

@[simp] theorem dasum_fvec (x : Fin N → ℝ) : dasum (fvec x) = Dbl.fin (∑ i, |x i|) := by
  rw [dasum_eq_sum, ← Dbl.fin_sum]; rfl

@[simp] theorem dsum_fvec (x : Fin N → ℝ) : dsum (fvec x) = Dbl.fin (∑ i, x i) := by
  rw [dsum_eq_sum, ← Dbl.fin_sum]; rfl

@[simp] theorem vaxpy_fvec (a : ℝ) (x y : Fin N → ℝ) : vaxpy (Dbl.fin a) (fvec x) (fvec y) = fvec (a • x + y) := by
  funext i; simp [vaxpy, fvec]

@[simp] theorem vaxpby_fvec (a b : ℝ) (x y : Fin N → ℝ) :
    vaxpby (Dbl.fin a) (fvec x) (Dbl.fin b) (fvec y) = fvec (a • x + b • y) := by
  funext i; simp [vaxpby, fvec]

@[simp] theorem vmul_fvec (x y : Fin N → ℝ) : vmul (fvec x) (fvec y) = fvec (fun i => x i * y i) := by
  funext i; simp [vmul, fvec]

theorem dot_self_nonneg (x : Fin N → ℝ) : 0 ≤ x ⬝ᵥ x :=
  Finset.sum_nonneg fun i _ => mul_self_nonneg (x i)

theorem dot_self_eq_zero {x : Fin N → ℝ} : x ⬝ᵥ x = 0 ↔ x = 0 := by
  constructor
  · intro h
    funext i
    have := (Finset.sum_eq_zero_iff_of_nonneg (fun i _ => mul_self_nonneg (x i))).1 h i (Finset.mem_univ i)
    simpa using this
  · rintro rfl; simp

theorem dot_self_pos {x : Fin N → ℝ} (h : x ≠ 0) : 0 < x ⬝ᵥ x :=
  lt_of_le_of_ne (dot_self_nonneg x) fun e => h (dot_self_eq_zero.1 e.symm)

/-- Euclidean norm of a real vector -/
noncomputable def nrm (x : Fin N → ℝ) : ℝ := Real.sqrt (x ⬝ᵥ x)

theorem nrm_nonneg (x : Fin N → ℝ) : 0 ≤ nrm x := Real.sqrt_nonneg _
theorem nrm_pos {x : Fin N → ℝ} (h : x ≠ 0) : 0 < nrm x := Real.sqrt_pos.2 (dot_self_pos h)

@[simp] theorem dnrm2_fvec (x : Fin N → ℝ) : dnrm2 (fvec x) = Dbl.fin (nrm x) := by
  simp [dnrm2, nrm, dot_self_nonneg]

/-! ## Finiteness -/

theorem Dbl.isFin_add {a b : Dbl} : (a + b).IsFin ↔ a.IsFin ∧ b.IsFin := by
  cases a <;> cases b <;>
    first
    | exact ⟨fun _ => ⟨trivial, trivial⟩, fun _ => trivial⟩
    | exact ⟨fun h => h.elim, fun h => h.1.elim⟩
    | exact ⟨fun h => h.elim, fun h => h.2.elim⟩

theorem Dbl.isFin_sum {ι : Type*} (s : Finset ι) (f : ι → Dbl) :
    (∑ i ∈ s, f i).IsFin ↔ ∀ i ∈ s, (f i).IsFin := by
  classical
  induction s using Finset.induction_on with
  | empty => simp [Dbl.zero_eq, Dbl.IsFin]
  | insert a s ha ih => rw [Finset.sum_insert ha, Dbl.isFin_add, ih]; simp

theorem Dbl.isFin_iff {a : Dbl} : a.IsFin ↔ ∃ r, a = Dbl.fin r := by
  cases a <;> simp [Dbl.IsFin]

theorem fvec_of_isFin {x : Vec Dbl N} (h : ∀ i, (x i).IsFin) : ∃ v, x = fvec v := by
  choose v hv using fun i => Dbl.isFin_iff.1 (h i)
  exact ⟨v, funext hv⟩

end L1c
