import Verif.Model.Dct

/-!
# Model of `src/dct_tv_transforms.c` (operators) and `src/matrix_transforms.c`

* Arrays are `Vec`s; sub-array pointers such as `v + _inc_TVV` are `slice`/`writeAt`, undefined (`none`) when they
  leave the array.
* The image-difference routines of `src/TV.c` appear as functions on whole images; `Verif/Proofs/TVVec.lean` proves
  that the parallel memory-level routines of `Verif/Model/TV.lean` compute exactly these functions.
* `old` arguments are what the output array held before the call.
* `_m`, `_p`, `_inc_TVV`, `_inc_TVH` and `jobs` are determined by `_mrow`, `_mcol`, `_alp_v`, `_alp_h`
  (src/dct_tv_transforms.c:72-82, 108-124).  The setup functions themselves are in `Verif/Model/World.lean`.
-/

namespace L1c
open Scalar

variable {F : Type}

/-- `m` consecutive entries starting at `off` -/
def slice {p : ℕ} (m off : ℕ) (v : Vec F p) : Option (Vec F m) :=
  if h : off + m ≤ p then some fun i => v ⟨off + i, by omega⟩ else none

/-- overwrite `m` consecutive entries starting at `off` -/
def writeAt {m p : ℕ} (off : ℕ) (x : Vec F m) (v : Vec F p) : Option (Vec F p) :=
  if off + m ≤ p then
    some fun k => if h : off ≤ k.val ∧ k.val - off < m then x ⟨k.val - off, h.2⟩ else v k
  else none

/-- `cblas_dcopy(m, x, 1, z, 1)` -/
def dcopy {l k : ℕ} (m : ℕ) (x : Vec F l) (z : Vec F k) : Option (Vec F k) := do
  let y ← slice m 0 x
  writeAt 0 y z

variable [Scalar F] {mrow mcol n : ℕ}

/-! ## Image differences on whole images -/

/-- row and column of entry `t` of a row-major image -/
def rowOf (t : Fin (mrow * mcol)) : ℕ := t.val / mcol
def colOf (t : Fin (mrow * mcol)) : ℕ := t.val % mcol

/-- pixel `(i, j)`; never used outside the image -/
def pixel (x : Vec F (mrow * mcol)) (i j : ℕ) : F :=
  if h : i * mcol + j < mrow * mcol then x ⟨i * mcol + j, h⟩ else nan

/-- effect of `l1c_Dx`, src/TV.c:108-121 with 49-54 -/
def vDx (alpha : F) (x : Vec F (mrow * mcol)) : Vec F (mrow * mcol) := fun t =>
  if colOf t + 1 < mcol then alpha * (pixel x (rowOf t) (colOf t + 1) - pixel x (rowOf t) (colOf t)) else lit 0

/-- effect of `l1c_DxT`, src/TV.c:138-147 with 66-72 -/
def vDxT (alpha : F) (x : Vec F (mrow * mcol)) : Vec F (mrow * mcol) := fun t =>
  if colOf t + 1 = mcol then alpha * pixel x (rowOf t) (mcol - 2)
  else if colOf t = 0 then -alpha * pixel x (rowOf t) 0
  else alpha * (pixel x (rowOf t) (colOf t - 1) - pixel x (rowOf t) (colOf t))

/-- effect of `l1c_Dy`, src/TV.c:201-217 -/
def vDy (alpha : F) (x : Vec F (mrow * mcol)) : Vec F (mrow * mcol) := fun t =>
  if rowOf t + 1 < mrow then alpha * (pixel x (rowOf t + 1) (colOf t) - pixel x (rowOf t) (colOf t)) else lit 0

/-- effect of `l1c_DyT`, src/TV.c:238-249 -/
def vDyT (alpha : F) (x : Vec F (mrow * mcol)) : Vec F (mrow * mcol) := fun t =>
  let Ai := if rowOf t + 1 < mrow then pixel x (rowOf t) (colOf t) else lit 0
  let Ai_min_m := if rowOf t = 0 then lit 0 else pixel x (rowOf t - 1) (colOf t)
  alpha * (Ai_min_m - Ai)

/-! ## DCT + TV dictionary -/

/-- `_JOB_TV_V` / `_JOB_TV_H`: the weight is positive -/
def job (alp : F) : Bool := flt (lit 0) alp

/-- `_p`, src/dct_tv_transforms.c:76, 108-118 -/
def tvP (m : ℕ) (av ah : F) : ℕ := m + (if job av then m else 0) + (if job ah then m else 0)

/-- `_inc_TVV`, src/dct_tv_transforms.c:79, 110 -/
def incV (m : ℕ) (av : F) : ℕ := if job av then m else 0

/-- `_inc_TVH`, src/dct_tv_transforms.c:80, 116 -/
def incH (m : ℕ) (av ah : F) : ℕ := if job ah then incV m av + m else 0

/-- file-scope variables that do not change between setups: src/dct_tv_transforms.c:24-35 -/
structure TvCfg (F : Type) (mrow mcol n : ℕ) where
  loc : DctFuns F (mrow * mcol) n
  alp_v : F
  alp_h : F

/-- buffers: those of the DCT set and `u` -/
structure TvBuf (F : Type) (m p : ℕ) where
  dct : DctBuf F m
  u : Vec F p

/-- result of a call: output array and buffers.  (The argument array is only read, except by `tvWv`, see `tvWvArg`.) -/
structure TvOut (F : Type) (k m p : ℕ) where
  res : Vec F k
  buf : TvBuf F m p

abbrev TvCfg.p (c : TvCfg F mrow mcol n) : ℕ := tvP (mrow * mcol) c.alp_v c.alp_h

/-- src/dct_tv_transforms.c:186-202.  `y` receives `m` entries. -/
def tvWv (c : TvCfg F mrow mcol n) (v : Vec F c.p) (s : TvBuf F (mrow * mcol) c.p) :
    Option (TvOut F (mrow * mcol) (mrow * mcol) c.p) := do
  let v0 ← slice (mrow * mcol) 0 v
  let o ← c.loc.Mx v0 s.dct
  let u ← writeAt 0 o.res s.u
  let y ← slice (mrow * mcol) 0 u
  let (u, y) ← (if job c.alp_v then do
      let w ← slice (mrow * mcol) (incV (mrow * mcol) c.alp_v) v
      let u ← writeAt (incV (mrow * mcol) c.alp_v) (vDy c.alp_v w) u
      let d ← slice (mrow * mcol) (incV (mrow * mcol) c.alp_v) u
      pure (u, vaxpy (lit 1) d y)
    else pure (u, y))
  let (u, y) ← (if job c.alp_h then do
      let w ← slice (mrow * mcol) (incH (mrow * mcol) c.alp_v c.alp_h) v
      let u ← writeAt (incH (mrow * mcol) c.alp_v c.alp_h) (vDx c.alp_h w) u
      let d ← slice (mrow * mcol) (incH (mrow * mcol) c.alp_v c.alp_h) u
      pure (u, vaxpy (lit 1) d y)
    else pure (u, y))
  return ⟨y, ⟨o.buf, u⟩⟩

/-- the argument array after `tvWv`: the DCT's `Mx` scales its first entry and scales it back (src/dct1.c:182, 190).  (`v` where `tvWv` is undefined.) -/
def tvWvArg (c : TvCfg F mrow mcol n) (v : Vec F c.p) (s : TvBuf F (mrow * mcol) c.p) : Vec F c.p :=
  ((do
    let v0 ← slice (mrow * mcol) 0 v
    let o ← c.loc.Mx v0 s.dct
    writeAt 0 o.arg v : Option (Vec F c.p))).getD v

/-- src/dct_tv_transforms.c:211-224 -/
def tvWtx (c : TvCfg F mrow mcol n) (x : Vec F (mrow * mcol)) (old : Vec F c.p)
    (s : TvBuf F (mrow * mcol) c.p) : Option (TvOut F c.p (mrow * mcol) c.p) := do
  let o ← c.loc.Mty x s.dct
  let v ← writeAt 0 o.res old
  let v ← (if job c.alp_v then writeAt (incV (mrow * mcol) c.alp_v) (vDyT c.alp_v x) v else pure v)
  let v ← (if job c.alp_h then writeAt (incH (mrow * mcol) c.alp_v c.alp_h) (vDxT c.alp_h x) v else pure v)
  return ⟨v, ⟨o.buf, s.u⟩⟩

/-- src/dct_tv_transforms.c:226 -/
def tvRx (c : TvCfg F mrow mcol n) (x : Vec F (mrow * mcol)) (s : TvBuf F (mrow * mcol) c.p) :
    Option (TvOut F n (mrow * mcol) c.p) := do
  let o ← c.loc.Rx x s.dct
  return ⟨o.res, ⟨o.buf, s.u⟩⟩

/-- src/dct_tv_transforms.c:228 -/
def tvRty (c : TvCfg F mrow mcol n) (y : Vec F n) (old : Vec F (mrow * mcol)) (s : TvBuf F (mrow * mcol) c.p) :
    Option (TvOut F (mrow * mcol) (mrow * mcol) c.p) := do
  let o ← c.loc.Rty y old s.dct
  return ⟨o.res, ⟨o.buf, s.u⟩⟩

/-- src/dct_tv_transforms.c:230-233; `Wv(v, u)` leaves its result in the first `m` entries of `u` -/
def tvAv (c : TvCfg F mrow mcol n) (v : Vec F c.p) (s : TvBuf F (mrow * mcol) c.p) :
    Option (TvOut F n (mrow * mcol) c.p) := do
  let o ← tvWv c v s
  let u ← writeAt 0 o.res o.buf.u
  let x ← slice (mrow * mcol) 0 u
  let r ← c.loc.Rx x o.buf.dct
  return ⟨r.res, ⟨r.buf, u⟩⟩

/-- src/dct_tv_transforms.c:235-239 -/
def tvAty (c : TvCfg F mrow mcol n) (y : Vec F n) (old : Vec F c.p) (s : TvBuf F (mrow * mcol) c.p) :
    Option (TvOut F c.p (mrow * mcol) c.p) := do
  let u0 ← slice (mrow * mcol) 0 s.u
  let o ← c.loc.Rty y u0 s.dct
  let u ← writeAt 0 o.res s.u
  let x ← slice (mrow * mcol) 0 u
  tvWtx c x old ⟨o.buf, u⟩

/-- src/dct_tv_transforms.c:178: copies `_m` entries whatever the lengths of the two arrays -/
def tvIdentity {l k : ℕ} (m : ℕ) (x : Vec F l) (z : Vec F k) : Option (Vec F k) := dcopy m x z

/-- `ax_funs->norm_W`, src/dct_tv_transforms.c:101-105 -/
def tvNormW (analysis : Bool) (av ah : F) : F :=
  if analysis then fsqrt (lit 1 + lit 4 * av * av + lit 4 * ah * ah) else lit 1

/-! ## Matrix transforms (src/matrix_transforms.c)

`cblas_dgemv` is its definition: entry `i` is the sum of products of row `i`; beta = 0 means the output array is not
read.  The order of summation is not specified by BLAS; the sum is taken in index order. -/

variable {m : ℕ}

/-- row-major matrix entry -/
def entry (A : Vec F (n * m)) (i : Fin n) (j : Fin m) : F := A (finProdFinEquiv (i, j))

/-- src/matrix_transforms.c:86-108 -/
def matAx (A : Vec F (n * m)) (x : Vec F m) : Vec F n := fun i => ddot (fun j => entry A i j) x

/-- src/matrix_transforms.c:116-127 -/
def matAty (A : Vec F (n * m)) (y : Vec F n) : Vec F m := fun j => ddot (fun i => entry A i j) y

/-- src/matrix_transforms.c:129-132, through the work array `xfm_dwork` of `max n m` doubles (lines 43-51) -/
def matAtAx (A : Vec F (n * m)) (x : Vec F m) (dwork : Vec F (max n m)) : Option (Vec F m × Vec F (max n m)) := do
  let dwork ← writeAt 0 (matAx A x) dwork
  let y ← slice n 0 dwork
  return (matAty A y, dwork)

/-- `ax_funs->norm_W`, src/matrix_transforms.c:64 -/
def matNormW : F := lit 0

end L1c
