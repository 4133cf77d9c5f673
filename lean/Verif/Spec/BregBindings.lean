import Verif.Model.BregBindings
import Verif.Spec.Bregman
import Verif.Spec.Bindings

/-!
# Images as Matlab and C store them
-/

namespace L1c

/-- pixel in row `r` and column `c` of a Matlab image with `rows` rows, stored in the numbers `v` column by column -/
def matImg {F : Type} (rows : ℕ) (v : ℕ → F) (r c : ℕ) : F := v (c * rows + r)

/-- pixel in row `r` and column `c` of an image with `cols` columns, stored in the numbers `v` row by row (C, numpy) -/
def rowImg {F : Type} (cols : ℕ) (v : ℕ → F) (r c : ℕ) : F := v (r * cols + c)

/-- memory at `p` contains the numbers `v 0 … v (N-1)` -/
def HoldsBuf {F : Type} (mem : Mem F) (p : Ptr) (N : ℕ) (v : ℕ → F) : Prop :=
  mem.Has p (N : Int) ∧ ∀ k < N, mem.val (p + (k : Int)) = v k

/-- the numbers `data` are what the library function writes when it is given an `n` by `m` image with the numbers `v` in row order -/
def LibraryResult {F : Type} [Scalar F] (n m : ℕ) (mu tol : F) (max_iter jac : Int) (v : ℕ → F) (data : List F) : Prop :=
  ∃ (s s' : PState F) (uk f : Ptr) (i : Int), s.WF ∧ s.mem.Has uk ((n * m : ℕ) : Int) ∧ HoldsBuf s.mem f (n * m) v ∧
    CSpec (l1c_breg_anistropic_TV n m uk f mu tol max_iter jac) s (0, i) s' ∧
    data.length = n * m ∧ ∀ k < n * m, data[k]? = some (s'.mem.val (uk + (k : Int)))

/-- the arguments of `breg_anistropic_TV(img, mu, tol, max_iter)`: a matrix of at least 3 by 3 doubles and three numbers -/
def BregMexGood {F : Type} [Scalar F] (img : MxHdr) (prhs : List (MxVal F)) (mu tol : F) (max_iter : Int) : Prop :=
  (img.isDouble = true ∧ 3 ≤ img.M ∧ 3 ≤ img.N ∧ img.dims ≤ 2) ∧
  ∃ a1 a2 a3 rest k, prhs = a1 :: a2 :: a3 :: rest ∧ IsMxScalar a1 mu ∧ IsMxScalar a2 tol ∧ IsMxScalar a3 k ∧ castInt k = some max_iter

end L1c
