import Verif.Model.NestaMem
import Verif.Model.DctTV

/-!
# The functions of the transform sets on memory

`src/dct1.c`, `src/dct2.c`, `src/matrix_transforms.c`: the same functions as in `Model/Dct` and `Model/DctTV`, but the arrays are
pointers into memory.

* Executions of the two FFTW plans are arbitrary commands `fwd`, `inv` with an input and an output array (`fftw_execute` works on
  the arrays the plan was made for).
* The list of sample positions is a function from `int` to `int` (an array of the client that no function here writes); nothing
  keeps a position inside the array, an access outside a block is undefined.
* BLAS calls are loops; `cblas_dgemv` computes each entry as one sum in index order.
* Sizes are the natural numbers the setup functions have stored.  Not modelled: `restrict`.
-/

namespace L1c
open Prog Scalar Cmd

variable {F : Type} [Scalar F]

/-- the two FFTW plans of a set -/
structure FftwM (F : Type) where
  /-- the REDFT10 plan -/
  fwd : Ptr → Ptr → Cmd F Unit
  /-- the REDFT01 plan -/
  inv : Ptr → Ptr → Cmd F Unit

/-- the buffers, src/dct1.c:27-29, src/dct2.c:27-29 -/
structure DctPtr where
  Ety : Ptr
  dx : Ptr
  dy : Ptr

/-- the other file-scope variables, src/dct1.c:31-34, src/dct2.c:31-36 -/
structure DctVarM (F : Type) where
  fw : FftwM F
  buf : DctPtr
  n : ℕ
  idx : Int → Int
  root : F

/-- `x[0] = f(x[0])` -/
def head0M (x : Ptr) (f : F → F) : Cmd F Unit := exec (seqK do
  let v ← load x
  store x (f v))

/-- `for (i = 0; i < N; i++) y[i] = x[i] * a` -/
def scaleM (N : ℕ) (a : F) (x y : Ptr) : Cmd F Unit := exec (seqK (forUp 0 (N : Int) fun i => do
  let v ← load (x + i)
  store (y + i) (v * a)))

/-- `cblas_dscal(cnt, a, x, stride)` -/
def dscalM (cnt : ℕ) (a : F) (x : Ptr) (stride : ℕ) : Cmd F Unit := exec (seqK (forUp 0 (cnt : Int) fun i => do
  let v ← load (x + i * (stride : Int))
  store (x + i * (stride : Int)) (v * a)))

/-- `for (i = 0; i < n; i++) y[i] = f(x[idx[i]])` -/
def gatherM (n : ℕ) (idx : Int → Int) (f : F → F) (x y : Ptr) : Cmd F Unit := exec (seqK (forUp 0 (n : Int) fun i => do
  let v ← load (x + idx i)
  store (y + i) (f v)))

/-- `for (i = 0; i < n; i++) x[idx[i]] = y[i]` -/
def scatterM (n : ℕ) (idx : Int → Int) (y x : Ptr) : Cmd F Unit := exec (seqK (forUp 0 (n : Int) fun i => do
  let v ← load (y + i)
  store (x + idx i) v))

/-- `for (i = 0; i < n; i++) x[idx[i]] = y[idx[i]] * a` -/
def resampleM (n : ℕ) (idx : Int → Int) (a : F) (y x : Ptr) : Cmd F Unit := exec (seqK (forUp 0 (n : Int) fun i => do
  let v ← load (y + idx i)
  store (x + idx i) (v * a)))

/-! ## 1-D (src/dct1.c) -/

/-- src/dct1.c:179-191 -/
def dct_MxM (m : ℕ) (c : DctVarM F) (x y : Ptr) : Cmd F Unit := do
  head0M x (· * root2)
  c.fw.inv x y
  scaleM m c.root y y
  head0M x (· / root2)

/-- src/dct1.c:193-213 -/
def dct_MtyM (m : ℕ) (c : DctVarM F) (y x : Ptr) : Cmd F Unit := do
  Cmd.assume [x]
  c.fw.fwd y x
  head0M x (· / root2)
  scaleM m c.root x x

/-- src/dct1.c:215-238 -/
def dct_EMxM (c : DctVarM F) (x y : Ptr) : Cmd F Unit := do
  Cmd.assume [y, c.buf.dy]
  let x0_tmp ← eval (load x)
  head0M x (· * root2)
  c.fw.inv x c.buf.dy
  exec (seqK (store x x0_tmp))
  gatherM c.n c.idx (· * c.root) c.buf.dy y

/-- src/dct1.c:240-269 -/
def dct_MtEtyM (m : ℕ) (c : DctVarM F) (y x : Ptr) : Cmd F Unit := do
  Cmd.assume [y, x, c.buf.dx, c.buf.Ety]
  scatterM c.n c.idx y c.buf.Ety
  c.fw.fwd c.buf.Ety c.buf.dx
  head0M c.buf.dx (· / root2)
  scaleM m c.root c.buf.dx x

/-- src/dct1.c:271-315 -/
def dct_MtEt_EMxM (m : ℕ) (c : DctVarM F) (x z : Ptr) : Cmd F Unit := do
  Cmd.assume [c.buf.dy, c.buf.Ety, c.buf.dx, z]
  let x0_tmp ← eval (load x)
  head0M x (· * root2)
  c.fw.inv x c.buf.dy
  exec (seqK (store x x0_tmp))
  resampleM c.n c.idx c.root c.buf.dy c.buf.Ety
  c.fw.fwd c.buf.Ety c.buf.dx
  head0M c.buf.dx (· / root2)
  scaleM m c.root c.buf.dx z

/-- src/dct1.c:320-324, src/dct2.c:347-351 -/
def dct_ExM (c : DctVarM F) (x y : Ptr) : Cmd F Unit := gatherM c.n c.idx id x y

/-- src/dct1.c:333-340, src/dct2.c:360-367 -/
def dct_EtyM (m : ℕ) (c : DctVarM F) (y x : Ptr) : Cmd F Unit := do
  scaleM m (lit 0) x x
  scatterM c.n c.idx y x

/-! ## 2-D (src/dct2.c) -/

/-- weights before the inverse transform: src/dct2.c:238-244, 258-264, 309-315 -/
def dct2PreM (mrow mcol : ℕ) (x : Ptr) : Cmd F Unit := do
  head0M x (· * lit 2)
  dscalM (mcol - 1) root2 (x + (1 : Int)) 1
  dscalM (mrow - 1) root2 (x + (mcol : Int)) mcol

/-- weights after the forward transform: src/dct2.c:222-227, 290-295, 336-341 -/
def dct2PostM (mrow mcol : ℕ) (x : Ptr) : Cmd F Unit := do
  head0M x (· * lit (1 / 2))
  dscalM (mcol - 1) (lit 1 / root2) (x + (1 : Int)) 1
  dscalM (mrow - 1) (lit 1 / root2) (x + (mcol : Int)) mcol

/-- src/dct2.c:213-228 -/
def dct2_MtyM (mrow mcol : ℕ) (c : DctVarM F) (y x : Ptr) : Cmd F Unit := do
  c.fw.fwd y x
  scaleM (mrow * mcol) c.root x x
  dct2PostM mrow mcol x

/-- src/dct2.c:233-250 -/
def dct2_MxM (mrow mcol : ℕ) (c : DctVarM F) (x y : Ptr) : Cmd F Unit := do
  exec (cblas_dcopy ((mrow * mcol : ℕ) : Int) x c.buf.dx)
  dct2PreM mrow mcol c.buf.dx
  c.fw.inv c.buf.dx y
  scaleM (mrow * mcol) c.root y y

/-- src/dct2.c:252-273 -/
def dct2_EMxM (mrow mcol : ℕ) (c : DctVarM F) (x y : Ptr) : Cmd F Unit := do
  exec (cblas_dcopy ((mrow * mcol : ℕ) : Int) x c.buf.dx)
  dct2PreM mrow mcol c.buf.dx
  c.fw.inv c.buf.dx c.buf.dy
  gatherM c.n c.idx (· * c.root) c.buf.dy y

/-- src/dct2.c:275-296 -/
def dct2_MtEtyM (mrow mcol : ℕ) (c : DctVarM F) (y x : Ptr) : Cmd F Unit := do
  scatterM c.n c.idx y c.buf.Ety
  c.fw.fwd c.buf.Ety c.buf.dx
  scaleM (mrow * mcol) c.root c.buf.dx x
  dct2PostM mrow mcol x

/-- src/dct2.c:298-342 -/
def dct2_MtEt_EMxM (mrow mcol : ℕ) (c : DctVarM F) (x z : Ptr) : Cmd F Unit := do
  exec (cblas_dcopy ((mrow * mcol : ℕ) : Int) x c.buf.dx)
  dct2PreM mrow mcol c.buf.dx
  c.fw.inv c.buf.dx c.buf.dy
  resampleM c.n c.idx c.root c.buf.dy c.buf.Ety
  c.fw.fwd c.buf.Ety c.buf.dx
  scaleM (mrow * mcol) c.root c.buf.dx z
  dct2PostM mrow mcol z

/-- the operators of a transform set, as stored in `l1c_AxFuns` -/
structure DctFunsM (F : Type) where
  Ax : Ptr → Ptr → Cmd F Unit
  Aty : Ptr → Ptr → Cmd F Unit
  AtAx : Ptr → Ptr → Cmd F Unit
  Mx : Ptr → Ptr → Cmd F Unit
  Mty : Ptr → Ptr → Cmd F Unit
  Rx : Ptr → Ptr → Cmd F Unit
  Rty : Ptr → Ptr → Cmd F Unit

/-- src/dct1.c:144-151 -/
def dct1FunsM (m : ℕ) (c : DctVarM F) : DctFunsM F :=
  ⟨dct_EMxM c, dct_MtEtyM m c, dct_MtEt_EMxM m c, dct_MxM m c, dct_MtyM m c, dct_ExM c, dct_EtyM m c⟩

/-- src/dct2.c:174-180 -/
def dct2FunsM (mrow mcol : ℕ) (c : DctVarM F) : DctFunsM F :=
  ⟨dct2_EMxM mrow mcol c, dct2_MtEtyM mrow mcol c, dct2_MtEt_EMxM mrow mcol c, dct2_MxM mrow mcol c, dct2_MtyM mrow mcol c, dct_ExM c,
    dct_EtyM (mrow * mcol) c⟩

/-! ## Matrix (src/matrix_transforms.c) -/

/-- `cblas_dgemv(CblasRowMajor, CblasNoTrans, n, m, 1.0, A, m, x, 1, 0.0, y, 1)`, src/matrix_transforms.c:86-108 -/
def matAxM (n m : ℕ) (A x y : Ptr) : Cmd F Unit := exec (seqK (forUp 0 (n : Int) fun i => do
  let s ← foldUp 0 (m : Int) (lit 0) fun j acc => do
    let a ← load (A + (i * (m : Int) + j))
    let v ← load (x + j)
    pure (acc + a * v)
  store (y + i) s))

/-- the same with `CblasTrans`, src/matrix_transforms.c:116-127 -/
def matAtyM (n m : ℕ) (A y x : Ptr) : Cmd F Unit := exec (seqK (forUp 0 (m : Int) fun j => do
  let s ← foldUp 0 (n : Int) (lit 0) fun i acc => do
    let a ← load (A + (i * (m : Int) + j))
    let v ← load (y + i)
    pure (acc + a * v)
  store (x + j) s))

/-- src/matrix_transforms.c:129-132 -/
def matAtAxM (n m : ℕ) (A dwork x z : Ptr) : Cmd F Unit := do
  matAxM n m A x dwork
  matAtyM n m A dwork z

/-- `Identity`, src/matrix_transforms.c:134, src/dct1.c:177, src/dct2.c:207-209 -/
def identityM (m : ℕ) (x z : Ptr) : Cmd F Unit := exec (cblas_dcopy (m : Int) x z)

/-- the part of the set that l1qc uses, src/matrix_transforms.c:66-68 -/
def matFunsM (n m : ℕ) (A dwork : Ptr) : QAxM F := ⟨matAxM n m A, matAtyM n m A, matAtAxM n m A dwork⟩

/-- the part that NESTA uses, src/matrix_transforms.c:57-76 -/
def matNestaM (n m : ℕ) (A : Ptr) : NAxM F := ⟨n, m, m, some (matAxM n m A), some (matAtyM n m A), some (identityM m), some (identityM m), true, true, matNormW⟩

/-- the part of a DCT set that l1qc uses -/
def DctFunsM.q (c : DctFunsM F) : QAxM F := ⟨c.Ax, c.Aty, c.AtAx⟩

/-- the part of a DCT set that NESTA uses, src/dct1.c:138-157, src/dct2.c:168-186 -/
def DctFunsM.nesta (n m : ℕ) (c : DctFunsM F) : NAxM F := ⟨n, m, m, some c.Ax, some c.Aty, some (identityM m), some (identityM m), true, true, lit 1⟩

end L1c
