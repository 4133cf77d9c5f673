import Verif.Model.Memory

/-! What a 2-D allocation promises. -/

namespace L1c
variable {F : Type}

/-- What a caller may rely on when a 2-D allocation succeeds: `t` is a new block holding a table of
`nrow` row pointers; the rows are new, pairwise distinct, distinct from `t`, hold `ncol` doubles each,
and have contents `c`; no block that was live before is affected. -/
structure Is2D (h₀ h : Heap F) (t : ℕ) (row : ℕ → ℕ) (nrow ncol : Int) (c : Cell F) : Prop where
  tnew : h₀.blk t = none
  table : ∃ B, h.blk t = some B ∧ 8 * nrow.toNat ≤ B.bytes ∧ ∀ k < nrow.toNat, B.cells k = .ptr (some (row k))
  rnew : ∀ k < nrow.toNat, h₀.blk (row k) = none ∧ row k ≠ t
  inj : ∀ k < nrow.toNat, ∀ l < nrow.toNat, row k = row l → k = l
  size : ∀ k < nrow.toNat, 0 ≤ ncol ∧ ∃ B, h.blk (row k) = some B ∧ 8 * ncol.toNat ≤ B.bytes ∧
    ∀ i < ncol.toNat, B.cells i = c
  others : ∀ b, b ≠ t → (∀ k < nrow.toNat, b ≠ row k) → h.blk b = h₀.blk b

end L1c
