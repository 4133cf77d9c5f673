import Verif.Base.Vec

/-!
# Model of `src/dct1.c` and `src/dct2.c` (the operators)

* FFTW is a parameter: two functions, `fwd` for the REDFT10 plan and `inv` for the REDFT01 plan.
  FFTW's default for these out-of-place transforms is to preserve the input (quoted in src/dct1.c:119),
  so the input buffer is unchanged by an execution.
* The file-scope buffers `dct_Ety_sparse`, `dct_x`, `dct_y` persist between calls; they are the state
  `DctBuf`.  Every operator returns its result, the argument array afterwards, and the new buffers.
* `none` is undefined behaviour: a sample index outside the signal.
* Sizes are positive (`NeZero`), which the setup functions check.  The address/alignment hints and the
  requirement that argument and result arrays differ (`restrict`) are not modelled.
* Not modelled: FFTW's threads.  Freshly set-up buffers are zero (assumes that FFTW_PATIENT planning,
  which may overwrite the arrays, leaves them zero, as the code itself assumes).
-/

namespace L1c
open Scalar

variable {F : Type} {m n mrow mcol : ℕ}

/-- loop `for i: out[i] = x[idx[i]]` -/
def gather (ix : Fin n → Fin m) (x : Vec F m) : Vec F n := fun i => x (ix i)

/-- loop `for i = 0..n-1: x[idx[i]] = y[i]`, in this order -/
def scatter (ix : Fin n → Fin m) (y : Vec F n) (x : Vec F m) : Vec F m :=
  (List.finRange n).foldl (fun x i => Function.update x (ix i) (y i)) x

variable [Scalar F]

/-- the two FFTW plans of a transform set -/
structure Fftw (F : Type) (m : ℕ) where
  /-- the REDFT10 plan -/
  fwd : Vec F m → Vec F m
  /-- the REDFT01 plan -/
  inv : Vec F m → Vec F m

/-- persistent buffers: src/dct1.c:27-29, src/dct2.c:27-29 -/
structure DctBuf (F : Type) (m : ℕ) where
  Ety : Vec F m
  dx : Vec F m
  dy : Vec F m

/-- the other file-scope variables: src/dct1.c:31-34, src/dct2.c:31-36 -/
structure DctCfg (F : Type) (m n : ℕ) where
  fw : Fftw F m
  idx : Fin n → Int
  root : F

/-- result of one operator call -/
structure XOut (F : Type) (k l m : ℕ) where
  /-- the output array -/
  res : Vec F k
  /-- the input array after the call -/
  arg : Vec F l
  /-- persistent buffers after the call -/
  buf : DctBuf F m

/-- all sample indices lie inside an array of length `m`; otherwise the access is undefined -/
def resolve (m : ℕ) (idx : Fin n → Int) : Option (Fin n → Fin m) :=
  if h : ∀ i, 0 ≤ idx i ∧ idx i < (m : Int) then
    some fun i => ⟨(idx i).toNat, by have := h i; omega⟩
  else none

/-- the constant `sqrt(2.0)` -/
def root2 : F := fsqrt (lit 2)

/-- scaling loops and `cblas_dscal(m, a, x, 1)` -/
def vscale (a : F) (x : Vec F m) : Vec F m := fun i => x i * a

/-- `cblas_dscal(cnt, a, x + off, stride)` -/
def dscalAt (cnt off stride : ℕ) (a : F) (x : Vec F m) : Vec F m := fun t =>
  if off ≤ t.val ∧ (t.val - off) % stride = 0 ∧ (t.val - off) / stride < cnt then x t * a else x t

/-! ## 1-D (src/dct1.c) -/

/-- variables set by `l1c_dct1_setup`, src/dct1.c:113-117 -/
def dct1Cfg (fw : Fftw F m) (idx : Fin n → Int) : DctCfg F m n :=
  ⟨fw, idx, fsqrt (lit 1 / (lit m * lit 2))⟩

/-- freshly allocated buffers: src/dct1.c:104-106, src/dct2.c:137-141 -/
def DctBuf.fresh : DctBuf F m := ⟨fun _ => lit 0, fun _ => lit 0, fun _ => lit 0⟩

section d1
variable [NeZero m]

/-- src/dct1.c:179-191 -/
def dct_Mx (c : DctCfg F m n) (x : Vec F m) (s : DctBuf F m) : Option (XOut F m m m) :=
  let x := Function.update x 0 (x 0 * root2)
  let y := c.fw.inv x
  let y := vscale c.root y
  let x := Function.update x 0 (x 0 / root2)
  some ⟨y, x, s⟩

/-- src/dct1.c:193-213 -/
def dct_Mty (c : DctCfg F m n) (y : Vec F m) (s : DctBuf F m) : Option (XOut F m m m) :=
  let x := c.fw.fwd y
  let x := Function.update x 0 (x 0 / root2)
  some ⟨vscale c.root x, y, s⟩

/-- src/dct1.c:215-238 -/
def dct_EMx (c : DctCfg F m n) (x : Vec F m) (s : DctBuf F m) : Option (XOut F n m m) := do
  let ix ← resolve m c.idx
  let x0_tmp := x 0
  let x := Function.update x 0 (x 0 * root2)
  let dy := c.fw.inv x
  let x := Function.update x 0 x0_tmp
  return ⟨vscale c.root (gather ix dy), x, { s with dy := dy }⟩

/-- src/dct1.c:240-269 -/
def dct_MtEty (c : DctCfg F m n) (y : Vec F n) (s : DctBuf F m) : Option (XOut F m n m) := do
  let ix ← resolve m c.idx
  let Ety := scatter ix y s.Ety
  let dx := c.fw.fwd Ety
  let dx := Function.update dx 0 (dx 0 / root2)
  return ⟨vscale c.root dx, y, { s with Ety := Ety, dx := dx }⟩

/-- src/dct1.c:271-315 -/
def dct_MtEt_EMx (c : DctCfg F m n) (x : Vec F m) (s : DctBuf F m) : Option (XOut F m m m) := do
  let ix ← resolve m c.idx
  let x0_tmp := x 0
  let x := Function.update x 0 (x 0 * root2)
  let dy := c.fw.inv x
  let x := Function.update x 0 x0_tmp
  let Ety := scatter ix (vscale c.root (gather ix dy)) s.Ety
  let dx := c.fw.fwd Ety
  let dx := Function.update dx 0 (dx 0 / root2)
  return ⟨vscale c.root dx, x, ⟨Ety, dx, dy⟩⟩

end d1

/-- src/dct1.c:320-324, src/dct2.c:347-351 -/
def dct_Ex (c : DctCfg F m n) (x : Vec F m) (s : DctBuf F m) : Option (XOut F n m m) := do
  let ix ← resolve m c.idx
  return ⟨gather ix x, x, s⟩

/-- src/dct1.c:333-340, src/dct2.c:360-367.  `old` is what the output array contained before the call: the
code clears it by multiplying with zero. -/
def dct_Ety (c : DctCfg F m n) (y : Vec F n) (old : Vec F m) (s : DctBuf F m) : Option (XOut F m n m) := do
  let ix ← resolve m c.idx
  return ⟨scatter ix y (vscale (lit 0) old), y, s⟩

/-! ## 2-D (src/dct2.c) -/

/-- variables set by `l1c_dct2_setup`, src/dct2.c:143-150 -/
def dct2Cfg (fw : Fftw F (mrow * mcol)) (idx : Fin n → Int) : DctCfg F (mrow * mcol) n :=
  ⟨fw, idx, fsqrt (lit 1 / (lit mrow * lit mcol * lit 4))⟩

section d2
variable [NeZero mrow] [NeZero mcol]

/-- weights applied before the inverse transform: src/dct2.c:238-244, 258-264, 309-315 -/
def dct2Pre (x : Vec F (mrow * mcol)) : Vec F (mrow * mcol) :=
  let x := Function.update x 0 (x 0 * lit 2)
  let x := dscalAt (mcol - 1) 1 1 root2 x
  dscalAt (mrow - 1) mcol mcol root2 x

/-- weights applied after the forward transform: src/dct2.c:222-227, 290-295, 336-341 -/
def dct2Post (x : Vec F (mrow * mcol)) : Vec F (mrow * mcol) :=
  let x := Function.update x 0 (x 0 * lit (1 / 2))
  let x := dscalAt (mcol - 1) 1 1 (lit 1 / root2) x
  dscalAt (mrow - 1) mcol mcol (lit 1 / root2) x

/-- src/dct2.c:213-228 -/
def dct2_Mty (c : DctCfg F (mrow * mcol) n) (y : Vec F (mrow * mcol)) (s : DctBuf F (mrow * mcol)) :
    Option (XOut F (mrow * mcol) (mrow * mcol) (mrow * mcol)) :=
  let x := vscale c.root (c.fw.fwd y)
  some ⟨dct2Post x, y, s⟩

/-- src/dct2.c:233-250 -/
def dct2_Mx (c : DctCfg F (mrow * mcol) n) (x : Vec F (mrow * mcol)) (s : DctBuf F (mrow * mcol)) :
    Option (XOut F (mrow * mcol) (mrow * mcol) (mrow * mcol)) :=
  let dx := dct2Pre x
  let y := c.fw.inv dx
  some ⟨vscale c.root y, x, { s with dx := dx }⟩

/-- src/dct2.c:252-273 -/
def dct2_EMx (c : DctCfg F (mrow * mcol) n) (x : Vec F (mrow * mcol)) (s : DctBuf F (mrow * mcol)) :
    Option (XOut F n (mrow * mcol) (mrow * mcol)) := do
  let ix ← resolve (mrow * mcol) c.idx
  let dx := dct2Pre x
  let dy := c.fw.inv dx
  return ⟨vscale c.root (gather ix dy), x, { s with dx := dx, dy := dy }⟩

/-- src/dct2.c:275-296 -/
def dct2_MtEty (c : DctCfg F (mrow * mcol) n) (y : Vec F n) (s : DctBuf F (mrow * mcol)) :
    Option (XOut F (mrow * mcol) n (mrow * mcol)) := do
  let ix ← resolve (mrow * mcol) c.idx
  let Ety := scatter ix y s.Ety
  let dx := c.fw.fwd Ety
  let x := vscale c.root dx
  return ⟨dct2Post x, y, { s with Ety := Ety, dx := dx }⟩

/-- src/dct2.c:298-342 -/
def dct2_MtEt_EMx (c : DctCfg F (mrow * mcol) n) (x : Vec F (mrow * mcol)) (s : DctBuf F (mrow * mcol)) :
    Option (XOut F (mrow * mcol) (mrow * mcol) (mrow * mcol)) := do
  let ix ← resolve (mrow * mcol) c.idx
  let dx := dct2Pre x
  let dy := c.fw.inv dx
  let Ety := scatter ix (vscale c.root (gather ix dy)) s.Ety
  let dx := c.fw.fwd Ety
  let z := vscale c.root dx
  return ⟨dct2Post z, x, ⟨Ety, dx, dy⟩⟩

end d2

/-- the operators of a transform set, as stored in `l1c_AxFuns` -/
structure DctFuns (F : Type) (m n : ℕ) where
  Ax : Vec F m → DctBuf F m → Option (XOut F n m m)
  Aty : Vec F n → DctBuf F m → Option (XOut F m n m)
  AtAx : Vec F m → DctBuf F m → Option (XOut F m m m)
  Mx : Vec F m → DctBuf F m → Option (XOut F m m m)
  Mty : Vec F m → DctBuf F m → Option (XOut F m m m)
  Rx : Vec F m → DctBuf F m → Option (XOut F n m m)
  Rty : Vec F n → Vec F m → DctBuf F m → Option (XOut F m n m)

/-- src/dct1.c:144-151 -/
def dct1Funs [NeZero m] (fw : Fftw F m) (idx : Fin n → Int) : DctFuns F m n :=
  let c := dct1Cfg fw idx
  ⟨dct_EMx c, dct_MtEty c, dct_MtEt_EMx c, dct_Mx c, dct_Mty c, dct_Ex c, dct_Ety c⟩

/-- src/dct2.c:174-180 -/
def dct2Funs [NeZero mrow] [NeZero mcol] (fw : Fftw F (mrow * mcol)) (idx : Fin n → Int) :
    DctFuns F (mrow * mcol) n :=
  let c := dct2Cfg fw idx
  ⟨dct2_EMx c, dct2_MtEty c, dct2_MtEt_EMx c, dct2_Mx c, dct2_Mty c, dct_Ex c, dct_Ety c⟩

end L1c
