import Verif.Base.Par

/-!
# Images in memory, and real difference operators (specification)

An image with `n` rows and `m` columns is stored row-major.  `X i j` is row `i`, column `j`.
-/

namespace L1c

variable {F : Type}

/-- pixel `(i,j)` of the row-major image with `m` columns at `p` -/
def Mem.pix (mem : Mem F) (p : Ptr) (m i j : ℕ) : F := mem.val (p + ((i * m + j : ℕ) : Int))

/-- memory in which the `n × m` image at `p` is `f` and everything else is as in `mem` -/
def Mem.setImg (mem : Mem F) (p : Ptr) (n m : ℕ) (f : ℕ → ℕ → F) : Mem F :=
  mem.setRange p ((n * m : ℕ) : Int) fun k => f (k.toNat / m) (k.toNat % m)

/-- the two ranges of `N` doubles do not overlap (C `restrict`) -/
def Sep (N : Int) (p q : Ptr) : Prop :=
  ∀ i j, 0 ≤ i → i < N → 0 ≤ j → j < N → p + i ≠ q + j

theorem Sep.symm {N : Int} {p q : Ptr} (h : Sep N p q) : Sep N q p :=
  fun i j h0 h1 h2 h3 e => h j i h2 h3 h0 h1 e.symm

theorem Sep.of_blk {N : Int} {p q : Ptr} (h : p.blk ≠ q.blk) : Sep N p q := by
  intro i j _ _ _ _ e
  exact h (by simpa using congrArg Ptr.blk e)

/-- real-valued image -/
abbrev Img := ℕ → ℕ → ℝ

/-- the real image `u` is stored at `p` -/
def HoldsImg (mem : Mem Dbl) (p : Ptr) (n m : ℕ) (u : Img) : Prop :=
  mem.Has p ((n * m : ℕ) : Int) ∧ ∀ i < n, ∀ j < m, mem.pix p m i j = Dbl.fin (u i j)

/-- inner product of images -/
noncomputable def inner2 (n m : ℕ) (u v : Img) : ℝ :=
  ∑ i ∈ Finset.range n, ∑ j ∈ Finset.range m, u i j * v i j

/-- squared Euclidean norm of an image -/
noncomputable def normSq2 (n m : ℕ) (u : Img) : ℝ := inner2 n m u u

/-- forward difference along a row, zero in the last column (documentation of `l1c_Dx`) -/
noncomputable def gradX (α : ℝ) (m : ℕ) (u : Img) : Img :=
  fun i j => if j + 1 < m then α * (u i (j + 1) - u i j) else 0

/-- forward difference along a column, zero in the last row (documentation of `l1c_Dy`) -/
noncomputable def gradY (α : ℝ) (n : ℕ) (u : Img) : Img :=
  fun i j => if i + 1 < n then α * (u (i + 1) j - u i j) else 0

end L1c
