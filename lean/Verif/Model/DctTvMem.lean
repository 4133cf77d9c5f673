import Verif.Model.TransMem
import Verif.Model.TV

/-!
# The DCT + TV transform set on memory

The functions of `src/dct_tv_transforms.c`: the same as in `Model/DctTV`, but the arrays are pointers into memory and the image differences are
the parallel loops of `Model/TV`.

* `_m`, `_p`, `_inc_TVV`, `_inc_TVH` and `jobs` are functions of the image size and the weights, as in `Model/DctTV`.
* `cblas_daxpy(N, a, x, 1, y, 1)` is the loop `y[i] = a*x[i] + y[i]`.
* Nothing keeps `v + _inc_TVV` inside the array; an access outside a block is undefined.
-/

namespace L1c
open Prog Scalar Cmd

variable {F : Type} [Scalar F]

/-- the file-scope variables, src/dct_tv_transforms.c:24-35: `loc` is `ax_funs_local` -/
structure TvVarM (F : Type) where
  loc : DctFunsM F
  mrow : ℕ
  mcol : ℕ
  alp_v : F
  alp_h : F
  u : Ptr

/-- `D(_mrow, _mcol, alp, v + inc, u + inc); cblas_daxpy(_m, 1, u + inc, 1, y, 1);` -/
def tvTermM (c : TvVarM F) (D : Int → Int → F → Ptr → Ptr → Kernel F) (alp : F) (inc : ℕ) (v y : Ptr) : Cmd F Unit := do
  exec (D c.mrow c.mcol alp (v + (inc : Int)) (c.u + (inc : Int)))
  exec (daxpyK ((c.mrow * c.mcol : ℕ) : Int) (lit 1) (c.u + (inc : Int)) y)

/-- `Wv`, src/dct_tv_transforms.c:186-202 -/
def tvWvM (c : TvVarM F) (v y : Ptr) : Cmd F Unit := do
  c.loc.Mx v c.u
  exec (cblas_dcopy ((c.mrow * c.mcol : ℕ) : Int) c.u y)
  if job c.alp_v then tvTermM c l1c_Dy c.alp_v (incV (c.mrow * c.mcol) c.alp_v) v y else pure ()
  if job c.alp_h then tvTermM c l1c_Dx c.alp_h (incH (c.mrow * c.mcol) c.alp_v c.alp_h) v y else pure ()

/-- `Wtx`, src/dct_tv_transforms.c:211-224 -/
def tvWtxM (c : TvVarM F) (x v : Ptr) : Cmd F Unit := do
  c.loc.Mty x v
  if job c.alp_v then exec (l1c_DyT c.mrow c.mcol c.alp_v x (v + (incV (c.mrow * c.mcol) c.alp_v : Int))) else pure ()
  if job c.alp_h then exec (l1c_DxT c.mrow c.mcol c.alp_h x (v + (incH (c.mrow * c.mcol) c.alp_v c.alp_h : Int))) else pure ()

/-- `Rx`, src/dct_tv_transforms.c:226 -/
def tvRxM (c : TvVarM F) (x y : Ptr) : Cmd F Unit := c.loc.Rx x y

/-- `Rty`, src/dct_tv_transforms.c:228 -/
def tvRtyM (c : TvVarM F) (y x : Ptr) : Cmd F Unit := c.loc.Rty y x

/-- `Av`, src/dct_tv_transforms.c:230-233: the result array of `Wv` is its own work array -/
def tvAvM (c : TvVarM F) (v y : Ptr) : Cmd F Unit := do
  tvWvM c v c.u
  c.loc.Rx c.u y

/-- `Aty`, src/dct_tv_transforms.c:235-239 -/
def tvAtyM (c : TvVarM F) (y v : Ptr) : Cmd F Unit := do
  c.loc.Rty y c.u
  tvWtxM c c.u v

/-- the part of the set that NESTA uses in analysis mode, src/dct_tv_transforms.c:101-105, 122-132, 145-162 -/
def tvAnaM (n : ℕ) (c : TvVarM F) : NAxM F :=
  ⟨n, c.mrow * c.mcol, tvP (c.mrow * c.mcol) c.alp_v c.alp_h, some (tvRxM c), some (tvRtyM c), some (tvWvM c), some (tvWtxM c), true, true,
    tvNormW true c.alp_v c.alp_h⟩

/-- the same in synthesis mode; `Identity` copies `_m` numbers whatever the arrays' lengths, src/dct_tv_transforms.c:178 -/
def tvSynM (n : ℕ) (c : TvVarM F) : NAxM F :=
  ⟨n, tvP (c.mrow * c.mcol) c.alp_v c.alp_h, c.mrow * c.mcol, some (tvAvM c), some (tvAtyM c), some (identityM (c.mrow * c.mcol)),
    some (identityM (c.mrow * c.mcol)), true, true, tvNormW false c.alp_v c.alp_h⟩

end L1c
