import Verif.Base.Scalar
import Mathlib.Logic.Function.Basic

/-!
# C heap with an arbitrary allocator

A block is live or not; live blocks have a size in bytes and 8-byte cells.  Every allocation request
consults an arbitrary oracle, which may refuse; requests above `PTRDIFF_MAX` are always refused
(no C implementation can serve them).  Freeing or accessing a block that is not live, or accessing a
cell outside a block, is undefined behaviour: the computation is `none`.
-/

namespace L1c

/-- contents of an 8-byte cell -/
inductive Cell (F : Type) where
  | undef
  | num (v : F)
  | ptr (p : Option ℕ)

structure Block (F : Type) where
  bytes : ℕ
  cells : ℕ → Cell F

/-- heap: block table, next fresh id, number of requests so far, oracle for future requests -/
structure Heap (F : Type) where
  blk : ℕ → Option (Block F)
  next : ℕ
  calls : ℕ
  oracle : ℕ → Bool

namespace Heap
variable {F : Type}
/-- ids at or above `next` were never handed out -/
def WF (h : Heap F) : Prop := ∀ b, h.next ≤ b → h.blk b = none
def Live (h : Heap F) (b : ℕ) : Prop := (h.blk b).isSome
end Heap

/-- largest request any allocator can serve -/
def PTRDIFF_MAX : ℕ := 2 ^ 63 - 1

/-- computations on the heap; `none` is undefined behaviour -/
abbrev HM (F : Type) (α : Type) := StateT (Heap F) Option α

variable {F : Type}

/-- `(size_t)N * 8` on a 64-bit target: conversion and product are modulo 2^64 -/
def sizeBytes (N : Int) : ℕ := (((N % 2 ^ 64) * 8) % 2 ^ 64).toNat

/-- `malloc` / `posix_memalign`: fresh block with indeterminate contents, or NULL -/
def hmalloc (bytes : ℕ) : HM F (Option ℕ) := fun h =>
  if h.oracle h.calls ∧ bytes ≤ PTRDIFF_MAX then
    some (some h.next, { h with blk := Function.update h.blk h.next (some ⟨bytes, fun _ => .undef⟩),
                                next := h.next + 1, calls := h.calls + 1 })
  else some (none, { h with calls := h.calls + 1 })

/-- `free` -/
def hfree (p : Option ℕ) : HM F Unit := fun h =>
  match p with
  | none => some ((), h)
  | some b => if (h.blk b).isSome then some ((), { h with blk := Function.update h.blk b none }) else none

/-- store into cell `i` of block `b` -/
def hstore (b : ℕ) (i : ℕ) (c : Cell F) : HM F Unit := fun h =>
  match h.blk b with
  | none => none
  | some B => if 8 * (i + 1) ≤ B.bytes then
      some ((), { h with blk := Function.update h.blk b (some { B with cells := Function.update B.cells i c }) })
    else none

/-- load a pointer from cell `i` of block `b`; indeterminate or numeric contents are UB -/
def hloadPtr (b : ℕ) (i : ℕ) : HM F (Option ℕ) := fun h =>
  match h.blk b with
  | none => none
  | some B => if 8 * (i + 1) ≤ B.bytes then
      match B.cells i with
      | .ptr p => some (p, h)
      | _ => none
    else none

/-- `for (k = 0; k < n; k++) body(k)` -/
def hfor (body : ℕ → HM F Unit) : ℕ → HM F Unit
  | 0 => pure ()
  | k + 1 => do hfor body k; body k

end L1c
