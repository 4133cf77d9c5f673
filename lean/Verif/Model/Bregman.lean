import Verif.Base.Cmd
import Verif.Base.Errors
import Verif.Model.Math
import Verif.Model.TV

/-!
# Model of `src/bregman.c`

Images are `n` rows by `m` columns, row-major.  Index expressions such as `i*m+j+1` are exact integers; they
lie between 0 and `n*m`, so they do not overflow when `n*m` (checked where the code forms it) fits in `int`.
`restrict` appears as the no-overlap hypotheses of the theorems.  Logging and timing are not modelled.
-/

namespace L1c
open Prog Scalar

variable {F : Type} [Scalar F]

/-- include/bregman.h:5 -/
def dsign (a : F) : F := if fle (lit 0) a then lit 1 else lit (-1)

/-- value stored by one iteration of src/bregman.c:69-72 -/
def shrinkVal (gamma x : F) : F := dsign x * cmax (fabs x - gamma) (lit 0)

/-- src/bregman.c:62-73 -/
def breg_shrink1 (N : Int) (x d : Ptr) (gamma : F) : Kernel F :=
  parFor (al := [x, d]) 0 N fun i => do
    let xi ← load (x + i)
    store (d + i) (shrinkVal gamma xi)

/-- src/bregman.c:80-89 -/
def breg_mxpy_z (N : Int) (x y z : Ptr) : Kernel F :=
  parFor (al := [x, y, z]) 0 N fun i => do
    let xi ← load (x + i)
    let yi ← load (y + i)
    store (z + i) (-xi + yi)

/-- `cblas_daxpy(N, alpha, x, 1, y, 1)`: `y[i] += alpha*x[i]`, in any order.  (Reference BLAS skips the loop
when `alpha == 0`; the callers here pass `mu` and `1.0`.) -/
def cblas_daxpy (N : Int) (alpha : F) (x y : Ptr) : Kernel F :=
  parFor 0 N fun i => do
    let xi ← load (x + i)
    let yi ← load (y + i)
    store (y + i) (yi + alpha * xi)

/-- `cblas_dcopy(N, x, 1, y, 1)` -/
def cblas_dcopy (N : Int) (x y : Ptr) : Kernel F :=
  parFor 0 N fun i => do
    let xi ← load (x + i)
    store (y + i) xi

/-- src/bregman.c:91-105 -/
def breg_hess_eval (n m : Int) (x y : Ptr) (mu lambda : F) (dwork1 dwork2 : Ptr) : Kernel F :=
  l1c_DyTDy n m (lit 1) x dwork1
  ++ l1c_DxTDx n m (lit 1) x dwork2
  ++ seqK (forUp 0 (n * m) fun i => do
    let xi ← load (x + i)
    let d1 ← load (dwork1 + i)
    let d2 ← load (dwork2 + i)
    store (y + i) (mu * xi + lambda * d1 + lambda * d2))

/-- src/bregman.c:112-143.  After the inner loop of the middle rows the C variable `j` is `m-1` when
`m >= 2`, and 1 otherwise. -/
def hess_inv_diag (n m : Int) (mu lambda : F) (D : Ptr) : Prog F Unit := do
  let mu_2lam := lit 1 / (mu + lit 2 * lambda)
  let mu_3lam := lit 1 / (mu + lit 3 * lambda)
  let mu_4lam := lit 1 / (mu + lit 4 * lambda)
  store (D + (0 : Int)) mu_2lam
  forUp 1 (m - 1) fun j => store (D + (0 * m + j)) mu_3lam
  store (D + (m - 1)) mu_2lam
  forUp 1 (n - 1) fun k => do
    store (D + k * m) mu_3lam
    forUp 1 (m - 1) fun j => store (D + (k * m + j)) mu_4lam
    store (D + (k * m + max 1 (m - 1))) mu_3lam
  store (D + (n - 1) * m) mu_2lam
  forUp ((n - 1) * m + 1) (m * n - 1) fun j => store (D + j) mu_3lam
  store (D + (m * n - 1)) mu_2lam

/-- src/bregman.c:166-190.  After the inner loop `j` is `(i+1)*m-1` when `m >= 2`, and `i*m+1` otherwise.
The first loops are sequential (the OpenMP pragmas are commented out). -/
def breg_anis_jacobi (n m : Int) (uk dwork rhs D : Ptr) (lambda : F) : Kernel F :=
  seqK (do
    assert (FitsInt (n * m))
    forUp 0 (n * m) fun i => do
      let ui_min_m ← (if i < m then pure (lit 0) else load (uk + (i - m)) : Prog F F)
      let ui_p_m ← (if i < n * m - m then load (uk + (i + m)) else pure (lit 0) : Prog F F)
      let r ← load (rhs + i)
      store (dwork + i) (r - lambda * (-ui_min_m - ui_p_m))
    forUp 0 n fun i => do
      let d ← load (dwork + i * m)
      let r ← load (uk + (i * m + 1))
      store (dwork + i * m) (d + lambda * r)
      forUp (i * m + 1) ((i + 1) * m - 1) fun j => do
        let d ← load (dwork + j)
        let a ← load (uk + (j - 1))
        let b ← load (uk + (j + 1))
        store (dwork + j) (d + -lambda * (-a - b))
      let j := max (i * m + 1) ((i + 1) * m - 1)
      let d ← load (dwork + j)
      let a ← load (uk + (j - 1))
      store (dwork + j) (d + -lambda * (-a)))
  ++ l1c_dxmuly_z (n * m) D dwork uk

/-- `tmp = rhs[p] + (u[a] + u[b]) * lambda; u[p] = tmp * c` -/
def gs2 (u rhs : Ptr) (p a b : Int) (lambda c : F) : Prog F Unit := do
  let r ← load (rhs + p)
  let x ← load (u + a)
  let y ← load (u + b)
  store (u + p) ((r + (x + y) * lambda) * c)

/-- `tmp = rhs[p] + (u[a] + u[b] + u[d]) * lambda; u[p] = tmp * c` -/
def gs3 (u rhs : Ptr) (p a b d : Int) (lambda c : F) : Prog F Unit := do
  let r ← load (rhs + p)
  let x ← load (u + a)
  let y ← load (u + b)
  let z ← load (u + d)
  store (u + p) ((r + (x + y + z) * lambda) * c)

/-- `tmp = rhs[p] + (u[a] + u[b] + u[d] + u[e]) * lambda; u[p] = tmp * c` -/
def gs4 (u rhs : Ptr) (p a b d e : Int) (lambda c : F) : Prog F Unit := do
  let r ← load (rhs + p)
  let x ← load (u + a)
  let y ← load (u + b)
  let z ← load (u + d)
  let w ← load (u + e)
  store (u + p) ((r + (x + y + z + w) * lambda) * c)

/-- src/bregman.c:232-301 -/
def breg_anis_guass_seidel (n m : Int) (u rhs : Ptr) (mu lambda : F) : Prog F Unit := do
  let c4 := lit 1 / (mu + lit 4 * lambda)
  let c3 := lit 1 / (mu + lit 3 * lambda)
  let c2 := lit 1 / (mu + lit 2 * lambda)
  -- top left
  gs2 u rhs (0 * m + 0) (0 * m + 0 + 1) ((0 + 1) * m + 0) lambda c2
  -- top row
  forUp 1 (m - 1) fun j =>
    gs3 u rhs (0 * m + j) (0 * m + j + 1) (0 * m + j - 1) ((0 + 1) * m + j) lambda c3
  -- top right
  gs2 u rhs (0 * m + (m - 1)) (0 * m + (m - 1) - 1) ((0 + 1) * m + (m - 1)) lambda c2
  -- central rows
  forUp 1 (n - 1) fun i => do
    gs3 u rhs (i * m + 0) (i * m + 0 + 1) ((i + 1) * m + 0) ((i - 1) * m + 0) lambda c3
    forUp 1 (m - 1) fun j =>
      gs4 u rhs (i * m + j) (i * m + j + 1) (i * m + j - 1) ((i + 1) * m + j) ((i - 1) * m + j) lambda c4
    gs3 u rhs (i * m + (m - 1)) (i * m + (m - 1) - 1) ((i + 1) * m + (m - 1)) ((i - 1) * m + (m - 1)) lambda c3
  -- bottom left
  gs2 u rhs ((n - 1) * m + 0) ((n - 1) * m + 0 + 1) ((n - 1 - 1) * m + 0) lambda c2
  -- bottom row
  forUp 1 (m - 1) fun j =>
    gs3 u rhs ((n - 1) * m + j) ((n - 1) * m + j + 1) ((n - 1) * m + j - 1) ((n - 1 - 1) * m + j) lambda c3
  -- bottom right
  gs2 u rhs ((n - 1) * m + (m - 1)) ((n - 1) * m + (m - 1) - 1) ((n - 1 - 1) * m + (m - 1)) lambda c2

/-- src/bregman.c:303-325 (`N = n*m` is formed at line 316) -/
def breg_anis_rhs (n m : Int) (f dx bx dy by' rhs : Ptr) (mu lambda : F) (dwork1 dwork2 : Ptr) : Kernel F :=
  seqK (assert (FitsInt (n * m)))
  ++ breg_mxpy_z (n * m) by' dy dwork1
  ++ l1c_DyT n m lambda dwork1 dwork2
  ++ breg_mxpy_z (n * m) bx dx dwork1
  ++ l1c_DxT n m lambda dwork1 rhs
  ++ cblas_daxpy (n * m) mu f dwork2
  ++ cblas_daxpy (n * m) (lit 1) dwork2 rhs

/-- the arrays of `l1c_breg_anistropic_TV` -/
structure BregBuf where
  (uk f uk_1 d_x d_y b_x b_y dwork1 dwork2 rhs : Ptr)

/-- src/bregman.c:395-397: the smoother sweeps -/
def bregSweeps (n m : Int) (B : BregBuf) (mu lambda : F) (max_jac_iter : Int) : Cmd F Int :=
  Cmd.loopLe max_jac_iter (fun _ => do
    Cmd.exec (seqK (breg_anis_guass_seidel n m B.uk B.rhs mu lambda))
    pure false) 1

/-- src/bregman.c:400-415: everything after `l1c_dnrm2_rel_err` and before the test -/
def bregTail (n m : Int) (B : BregBuf) (lambda : F) : Kernel F :=
  l1c_Dx n m (lit 1) B.uk B.dwork1
  ++ cblas_daxpy (n * m) (lit 1) B.b_x B.dwork1
  ++ l1c_Dy n m (lit 1) B.uk B.dwork2
  ++ cblas_daxpy (n * m) (lit 1) B.b_y B.dwork2
  ++ breg_shrink1 (n * m) B.dwork1 B.d_x (lit 1 / lambda)
  ++ breg_shrink1 (n * m) B.dwork2 B.d_y (lit 1 / lambda)
  ++ breg_mxpy_z (n * m) B.d_x B.dwork1 B.b_x
  ++ breg_mxpy_z (n * m) B.d_y B.dwork2 B.b_y
  ++ cblas_dcopy (n * m) B.uk B.uk_1

/-- src/bregman.c:393-418: body of the outer loop; the result says whether it ends in `break` -/
def bregBody (n m : Int) (B : BregBuf) (mu lambda tol : F) (max_jac_iter : Int) : Cmd F Bool := do
  Cmd.exec (breg_anis_rhs n m B.f B.d_x B.b_x B.d_y B.b_y B.rhs mu lambda B.dwork1 B.dwork2)
  let _ ← bregSweeps n m B mu lambda max_jac_iter
  Cmd.assume [B.uk, B.uk_1]
  let dnrm_err ← Cmd.eval (l1c_dnrm2_rel_err (n * m) B.uk B.uk_1)
  Cmd.exec (bregTail n m B lambda)
  pure (flt dnrm_err tol)

/-- src/bregman.c:387-419: copy and outer loop; the result is the final value of `iter` -/
def bregLoop (n m : Int) (B : BregBuf) (mu lambda tol : F) (max_iter max_jac_iter : Int) : Cmd F Int := do
  Cmd.exec (cblas_dcopy (n * m) B.f B.uk)
  Cmd.loopLe max_iter (fun _ => bregBody n m B mu lambda tol max_jac_iter) 1

/-- src/bregman.c:382-419: the NULL test and, if it passes, the optimisation -/
def bregGuarded (n m : Int) (uk f : Ptr) (mu lambda tol : F) (max_iter max_jac_iter : Int) :
    Option Ptr → Option Ptr → Option Ptr → Option Ptr → Option Ptr → Option Ptr → Option Ptr → Option Ptr →
      Cmd F (Int × Int)
  | some uk_1, some d_x, some d_y, some b_x, some b_y, some dwork1, some dwork2, some rhs => do
    let iter ← bregLoop n m ⟨uk, f, uk_1, d_x, d_y, b_x, b_y, dwork1, dwork2, rhs⟩ mu lambda tol
      max_iter max_jac_iter
    pure (0, iter)
  | _, _, _, _, _, _, _, _ => pure (L1C_OUT_OF_MEMORY, 0)

/-- src/bregman.c:354-435.  Besides the C return value the model also returns the final value of the local
variable `iter` (0 when the loop was not reached), so that properties can speak about it. -/
def l1c_breg_anistropic_TV (n m : Int) (uk f : Ptr) (mu tol : F) (max_iter max_jac_iter : Int) :
    Cmd F (Int × Int) := do
  Cmd.need (FitsInt (n * m))
  let lambda := lit 2 * mu
  let uk_1 ← Cmd.callocC (n * m)
  let d_x ← Cmd.callocC (n * m)
  let d_y ← Cmd.callocC (n * m)
  let b_x ← Cmd.callocC (n * m)
  let b_y ← Cmd.callocC (n * m)
  let dwork1 ← Cmd.callocC (n * m)
  let dwork2 ← Cmd.callocC (n * m)
  let rhs ← Cmd.callocC (n * m)
  let r ← bregGuarded n m uk f mu lambda tol max_iter max_jac_iter uk_1 d_x d_y b_x b_y dwork1 dwork2 rhs
  Cmd.freeC uk_1
  Cmd.freeC d_x
  Cmd.freeC d_y
  Cmd.freeC b_x
  Cmd.freeC b_y
  Cmd.freeC dwork1
  Cmd.freeC dwork2
  Cmd.freeC rhs
  pure r

end L1c
