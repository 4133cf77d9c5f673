import Mathlib.Data.Real.Basic
import Mathlib.Analysis.Real.Sqrt
import Mathlib.Analysis.SpecialFunctions.Log.Basic
import Mathlib.Algebra.Order.Round
import Mathlib.Tactic.Ring
import Mathlib.Tactic.Linarith
import Mathlib.Tactic.NormNum
import Mathlib.Tactic.Positivity
import Mathlib.Tactic.FieldSimp

/-!
# Scalars

`Scalar F` is the set of operations the C code applies to `double`.  The class has **no
laws**: a theorem stated for all `Scalar F` holds for IEEE binary64 with whatever rounding.

`Dbl` is exact real arithmetic extended by the IEEE special values.  Not modelled: rounding,
overflow of finite results, the sign of zero (a zero divisor counts as `+0`).
-/

namespace L1c

/-- `l1c_int` is `int` (include/l1c.h:16): 32-bit two's complement. -/
def INT_MAX : Int := 2147483647
/-- smallest `int` -/
def INT_MIN : Int := -2147483648

/-- An integer value is representable as `int`; signed overflow is undefined behaviour in C. -/
def FitsInt (z : Int) : Prop := INT_MIN ≤ z ∧ z ≤ INT_MAX

instance (z : Int) : Decidable (FitsInt z) := by unfold FitsInt; infer_instance

/-- Operations on C `double`.  No laws. -/
class Scalar (F : Type) extends Add F, Sub F, Mul F, Div F, Neg F where
  /-- decimal literals and `int → double` conversions -/
  lit : ℚ → F
  /-- `INFINITY` -/
  inf : F
  /-- `NAN` -/
  nan : F
  fabs : F → F
  fsqrt : F → F
  flog : F → F
  fexp : F → F
  /-- C `<` -/
  flt : F → F → Bool
  /-- C `<=` -/
  fle : F → F → Bool
  /-- C `==` -/
  feq : F → F → Bool
  isNaN : F → Bool
  /-- `(int)ceil(x)`; `none` when the value does not fit (undefined behaviour) -/
  ceilInt : F → Option Int

namespace Scalar
variable {F : Type} [Scalar F]

/-- include/l1c_math.h: `min(a,b)` is `a < b ? a : b`. -/
def cmin (a b : F) : F := if flt a b then a else b
/-- include/l1c_math.h: `max(a,b)` is `a > b ? a : b`. -/
def cmax (a b : F) : F := if flt b a then a else b

/-- literal zero -/
abbrev zero : F := lit 0
/-- literal one -/
abbrev one : F := lit 1
end Scalar

/-! ## IEEE binary64 (Lean's `Float`) is an instance -/

instance : Scalar Float where
  lit q := Float.ofInt q.num / Float.ofInt q.den
  inf := 1.0 / 0.0
  nan := 0.0 / 0.0
  fabs := Float.abs
  fsqrt := Float.sqrt
  flog := Float.log
  fexp := Float.exp
  flt a b := a < b
  fle a b := a ≤ b
  feq a b := a == b
  isNaN := Float.isNaN
  ceilInt x :=
    let c := x.ceil
    if Float.ofInt INT_MIN ≤ c ∧ c ≤ Float.ofInt INT_MAX then some c.toInt32.toInt else none

/-! ## Exact extended doubles -/

/-- Real numbers plus IEEE special values. -/
inductive Dbl where
  | fin (r : ℝ)
  | pinf
  | ninf
  | nan

namespace Dbl

/-- finite values -/
def IsFin : Dbl → Prop
  | fin _ => True
  | _ => False

/-- real value of a finite number (0 otherwise; only used under `IsFin`) -/
noncomputable def toReal : Dbl → ℝ
  | fin r => r
  | _ => 0

protected noncomputable def add : Dbl → Dbl → Dbl
  | nan, _ => nan
  | _, nan => nan
  | fin a, fin b => fin (a + b)
  | fin _, pinf => pinf
  | fin _, ninf => ninf
  | pinf, fin _ => pinf
  | ninf, fin _ => ninf
  | pinf, pinf => pinf
  | ninf, ninf => ninf
  | pinf, ninf => nan
  | ninf, pinf => nan

protected noncomputable def neg : Dbl → Dbl
  | fin a => fin (-a)
  | pinf => ninf
  | ninf => pinf
  | nan => nan

open Classical in
/-- `inf * r` for finite `r` -/
noncomputable def infMul (r : ℝ) : Dbl := if r = 0 then nan else if 0 < r then pinf else ninf

protected noncomputable def mul : Dbl → Dbl → Dbl
  | nan, _ => nan
  | _, nan => nan
  | fin a, fin b => fin (a * b)
  | fin a, pinf => infMul a
  | fin a, ninf => infMul (-a)
  | pinf, fin b => infMul b
  | ninf, fin b => infMul (-b)
  | pinf, pinf => pinf
  | ninf, ninf => pinf
  | pinf, ninf => ninf
  | ninf, pinf => ninf

open Classical in
/-- Division; a zero divisor counts as `+0`. -/
protected noncomputable def div : Dbl → Dbl → Dbl
  | nan, _ => nan
  | _, nan => nan
  | fin a, fin b => if b = 0 then infMul a else fin (a / b)
  | fin _, pinf => fin 0
  | fin _, ninf => fin 0
  | pinf, fin b => if 0 ≤ b then pinf else ninf
  | ninf, fin b => if 0 ≤ b then ninf else pinf
  | pinf, pinf => nan
  | pinf, ninf => nan
  | ninf, pinf => nan
  | ninf, ninf => nan

protected noncomputable def abs : Dbl → Dbl
  | fin a => fin |a|
  | pinf => pinf
  | ninf => pinf
  | nan => nan

open Classical in
protected noncomputable def sqrt : Dbl → Dbl
  | fin a => if a < 0 then nan else fin (Real.sqrt a)
  | pinf => pinf
  | ninf => nan
  | nan => nan

open Classical in
protected noncomputable def log : Dbl → Dbl
  | fin a => if a < 0 then nan else if a = 0 then ninf else fin (Real.log a)
  | pinf => pinf
  | ninf => nan
  | nan => nan

protected noncomputable def exp : Dbl → Dbl
  | fin a => fin (Real.exp a)
  | pinf => pinf
  | ninf => fin 0
  | nan => nan

/-- C `<`: false as soon as one side is NaN. -/
def Lt : Dbl → Dbl → Prop
  | fin a, fin b => a < b
  | fin _, pinf => True
  | ninf, fin _ => True
  | ninf, pinf => True
  | _, _ => False

/-- C `<=`: false as soon as one side is NaN. -/
def Le : Dbl → Dbl → Prop
  | fin a, fin b => a ≤ b
  | fin _, pinf => True
  | ninf, fin _ => True
  | ninf, pinf => True
  | pinf, pinf => True
  | ninf, ninf => True
  | _, _ => False

open Classical in
/-- `(int)ceil(x)` -/
noncomputable def ceilInt : Dbl → Option Int
  | fin a => if FitsInt ⌈a⌉ then some ⌈a⌉ else none
  | _ => none

open Classical in
noncomputable instance (a b : Dbl) : Decidable (Lt a b) := inferInstance
open Classical in
noncomputable instance (a b : Dbl) : Decidable (Le a b) := inferInstance
open Classical in
noncomputable instance : DecidableEq Dbl := inferInstance

noncomputable instance instScalar : Scalar Dbl where
  add := Dbl.add
  sub a b := Dbl.add a (Dbl.neg b)
  mul := Dbl.mul
  div := Dbl.div
  neg := Dbl.neg
  lit q := fin (q : ℝ)
  inf := pinf
  nan := nan
  fabs := Dbl.abs
  fsqrt := Dbl.sqrt
  flog := Dbl.log
  fexp := Dbl.exp
  flt a b := decide (Lt a b)
  fle a b := decide (Le a b)
  feq a b := decide (a = b ∧ a ≠ nan)
  isNaN a := decide (a = nan)
  ceilInt := ceilInt

open Scalar

@[simp] theorem fin_add (a b : ℝ) : (fin a + fin b : Dbl) = fin (a + b) := rfl
@[simp] theorem fin_neg (a : ℝ) : (-fin a : Dbl) = fin (-a) := rfl
@[simp] theorem fin_sub (a b : ℝ) : (fin a - fin b : Dbl) = fin (a - b) := by
  show fin (a + -b) = fin (a - b); rw [sub_eq_add_neg]
@[simp] theorem fin_mul (a b : ℝ) : (fin a * fin b : Dbl) = fin (a * b) := rfl
theorem fin_div' (a b : ℝ) : (fin a / fin b : Dbl) = if b = 0 then infMul a else fin (a / b) := by
  show (if b = 0 then infMul a else fin (a / b)) = _
  congr
@[simp] theorem fin_div {a b : ℝ} (hb : b ≠ 0) : (fin a / fin b : Dbl) = fin (a / b) := by
  rw [fin_div', if_neg hb]
theorem zero_div_zero : (fin 0 / fin 0 : Dbl) = nan := by
  rw [fin_div', if_pos rfl]; simp [infMul]
theorem pos_div_zero {a : ℝ} (ha : 0 < a) : (fin a / fin 0 : Dbl) = pinf := by
  rw [fin_div', if_pos rfl]; simp [infMul, ha.ne', ha]
theorem neg_div_zero {a : ℝ} (ha : a < 0) : (fin a / fin 0 : Dbl) = ninf := by
  rw [fin_div', if_pos rfl]; simp [infMul, ha.ne, not_lt.mpr ha.le]
@[simp] theorem lit_eq (q : ℚ) : (lit q : Dbl) = fin (q : ℝ) := rfl
@[simp] theorem fabs_fin (a : ℝ) : fabs (fin a) = fin |a| := rfl
theorem fsqrt_fin' (a : ℝ) : fsqrt (fin a) = if a < 0 then nan else fin (Real.sqrt a) := by
  show (if a < 0 then nan else fin (Real.sqrt a)) = _
  congr
@[simp] theorem fsqrt_fin {a : ℝ} (h : 0 ≤ a) : fsqrt (fin a) = fin (Real.sqrt a) := by
  rw [fsqrt_fin', if_neg (not_lt.mpr h)]
theorem flog_fin' (a : ℝ) :
    flog (fin a) = if a < 0 then nan else if a = 0 then ninf else fin (Real.log a) := by
  show (if a < 0 then nan else if a = 0 then ninf else fin (Real.log a)) = _
  congr
@[simp] theorem flog_fin {a : ℝ} (h : 0 < a) : flog (fin a) = fin (Real.log a) := by
  rw [flog_fin', if_neg (not_lt.mpr h.le), if_neg h.ne']
@[simp] theorem fexp_fin (a : ℝ) : fexp (fin a) = fin (Real.exp a) := rfl

theorem flt_iff (a b : Dbl) : flt a b = true ↔ Lt a b := by
  show decide (Lt a b) = true ↔ _; exact decide_eq_true_iff
theorem fle_iff (a b : Dbl) : fle a b = true ↔ Le a b := by
  show decide (Le a b) = true ↔ _; exact decide_eq_true_iff
@[simp] theorem flt_fin (a b : ℝ) : (flt (fin a) (fin b) = true) ↔ a < b := by
  rw [flt_iff]; simp [Lt]
@[simp] theorem fle_fin (a b : ℝ) : (fle (fin a) (fin b) = true) ↔ a ≤ b := by
  rw [fle_iff]; simp [Le]
@[simp] theorem flt_nan_left (a : Dbl) : flt nan a = false := by
  rw [Bool.eq_false_iff, Ne, flt_iff]; simp [Lt]
@[simp] theorem flt_nan_right (a : Dbl) : flt a nan = false := by
  rw [Bool.eq_false_iff, Ne, flt_iff]; cases a <;> simp [Lt]
@[simp] theorem fle_nan_left (a : Dbl) : fle nan a = false := by
  rw [Bool.eq_false_iff, Ne, fle_iff]; simp [Le]
@[simp] theorem fle_nan_right (a : Dbl) : fle a nan = false := by
  rw [Bool.eq_false_iff, Ne, fle_iff]; cases a <;> simp [Le]
@[simp] theorem isNaN_fin (a : ℝ) : Scalar.isNaN (fin a) = false := by
  show decide (fin a = nan) = false; simp
@[simp] theorem isNaN_nan : Scalar.isNaN nan = true := by
  show decide (nan = nan) = true; simp
theorem isNaN_iff (a : Dbl) : Scalar.isNaN a = true ↔ a = nan := by
  show decide (a = nan) = true ↔ _; simp
theorem fin_injective : Function.Injective fin := fun a b h => by simpa using h

@[simp] theorem nan_add (a : Dbl) : nan + a = nan := by cases a <;> rfl
@[simp] theorem add_nan (a : Dbl) : a + nan = nan := by cases a <;> rfl
@[simp] theorem nan_mul (a : Dbl) : nan * a = nan := by cases a <;> rfl
@[simp] theorem mul_nan (a : Dbl) : a * nan = nan := by cases a <;> rfl
@[simp] theorem nan_div (a : Dbl) : nan / a = nan := by cases a <;> rfl
@[simp] theorem div_nan (a : Dbl) : a / nan = nan := by cases a <;> rfl
@[simp] theorem neg_nan : (-nan : Dbl) = nan := rfl
theorem sub_def (a b : Dbl) : a - b = a + -b := rfl
@[simp] theorem nan_sub (a : Dbl) : nan - a = nan := by rw [sub_def, nan_add]
@[simp] theorem sub_nan (a : Dbl) : a - nan = nan := by rw [sub_def, neg_nan, add_nan]
@[simp] theorem fsqrt_nan : fsqrt nan = nan := rfl
@[simp] theorem flog_nan : flog nan = nan := rfl
@[simp] theorem fabs_nan : fabs nan = nan := rfl

theorem cmin_fin (a b : ℝ) : cmin (fin a) (fin b) = fin (min a b) := by
  unfold cmin; by_cases h : a < b
  · rw [if_pos ((flt_fin a b).2 h), min_eq_left h.le]
  · rw [if_neg (by simpa using h), min_eq_right (not_lt.1 h)]
theorem cmax_fin (a b : ℝ) : cmax (fin a) (fin b) = fin (max a b) := by
  unfold cmax; by_cases h : b < a
  · rw [if_pos ((flt_fin b a).2 h), max_eq_left h.le]
  · rw [if_neg (by simpa using h), max_eq_right (not_lt.1 h)]

protected theorem add_comm' (a b : Dbl) : a + b = b + a := by
  cases a <;> cases b <;> first | rfl | (simp only [fin_add]; rw [add_comm])

protected theorem add_assoc' (a b c : Dbl) : a + b + c = a + (b + c) := by
  cases a <;> cases b <;> cases c <;>
    first | rfl | (simp only [fin_add]; rw [add_assoc])

protected theorem zero_add' (a : Dbl) : (lit 0 : Dbl) + a = a := by
  cases a with
  | fin r => show fin (((0 : ℚ) : ℝ) + r) = fin r; simp
  | _ => rfl

noncomputable instance : Zero Dbl := ⟨lit 0⟩

/-- Addition of extended doubles is associative and commutative with unit 0. -/
noncomputable instance : AddCommMonoid Dbl where
  add := (· + ·)
  add_assoc := Dbl.add_assoc'
  zero_add := Dbl.zero_add'
  add_zero a := by rw [Dbl.add_comm']; exact Dbl.zero_add' a
  add_comm := Dbl.add_comm'
  nsmul := nsmulRec

theorem zero_eq : (0 : Dbl) = fin 0 := by
  show (lit 0 : Dbl) = fin 0
  simp

end Dbl
end L1c
