import Verif.Base.Par

/-!
# Model of `src/TV.c`

Images are `n` rows by `m` columns, row-major.  `int` products `i_row*m`, `n*m` are exact here;
`Len = n*m` is checked for signed overflow where the code forms it (`l1c_DyT`, `l1c_DyTDy`,
`l1c_Dy`); the row offsets `i_row*m` formed by the other functions are smaller.
-/

namespace L1c
open Prog Scalar

variable {F : Type} [Scalar F]

/-- src/TV.c:49-54 -/
def ddiff_z (n : Int) (alpha : F) (x dx : Ptr) : Prog F Unit := do
  forUp 1 n fun i => do
    let a ← load (x + i)
    let b ← load (x + (i - 1))
    store (dx + (i - 1)) (alpha * (a - b))
  store (dx + (n - 1)) (lit 0)

/-- src/TV.c:66-72 -/
def ddiffT_z (n : Int) (alpha : F) (x dx : Ptr) : Prog F Unit := do
  let x0 ← load (x + (0 : Int))
  store (dx + (0 : Int)) (-alpha * x0)
  forUp 1 n fun i => do
    let a ← load (x + (i - 1))
    let b ← load (x + i)
    store (dx + i) (alpha * (a - b))
  let l ← load (x + (n - 2))
  store (dx + (n - 1)) (alpha * l)

/-- src/TV.c:81-88 -/
def ddiff2_z (n : Int) (alpha : F) (x dx : Ptr) : Prog F Unit := do
  let alp2 := alpha * alpha
  let x0 ← load (x + (0 : Int))
  let x1 ← load (x + (1 : Int))
  store (dx + (0 : Int)) (alp2 * (x0 - x1))
  forUp 1 (n - 1) fun i => do
    let a ← load (x + (i - 1))
    let b ← load (x + i)
    let c ← load (x + (i + 1))
    store (dx + i) (alp2 * (-a + lit 2 * b - c))
  let p ← load (x + (n - 1))
  let q ← load (x + (n - 2))
  store (dx + (n - 1)) (alp2 * (p - q))

/-- src/TV.c:108-121 -/
def l1c_Dx (n m : Int) (alpha : F) (X Dx : Ptr) : Kernel F :=
  parFor 0 n fun i_row => do
    assert (FitsInt (i_row * m))
    ddiff_z m alpha (X + i_row * m) (Dx + i_row * m)

/-- src/TV.c:138-147 -/
def l1c_DxT (n m : Int) (alpha : F) (X DxT : Ptr) : Kernel F :=
  parFor 0 n fun i_row => do
    assert (FitsInt (i_row * m))
    ddiffT_z m alpha (X + i_row * m) (DxT + i_row * m)

/-- src/TV.c:164-174 -/
def l1c_DxTDx (n m : Int) (alpha : F) (X DxTDx : Ptr) : Kernel F :=
  parFor 0 n fun i_row => do
    assert (FitsInt (i_row * m))
    ddiff2_z m alpha (X + i_row * m) (DxTDx + i_row * m)

/-- src/TV.c:201-217: two parallel loops -/
def l1c_Dy (n m : Int) (alpha : F) (X Dy : Ptr) : Kernel F :=
  (parFor 0 (n - 1) fun row => do
    assert (FitsInt ((row + 1) * m))
    forUp (row * m) ((row + 1) * m) fun col => do
      let a ← load (X + (col + m))
      let b ← load (X + col)
      store (Dy + col) (alpha * (a - b)))
  ++ seqK (assert (FitsInt (n * m)))
  ++ (parFor ((n - 1) * m) (n * m) fun i => store (Dy + i) (lit 0))

/-- src/TV.c:238-249 -/
def l1c_DyT (n m : Int) (alpha : F) (A dyt : Ptr) : Kernel F :=
  seqK (assert (FitsInt (n * m)))
  ++ parFor 0 (n * m) fun i => do
    let Ai ← (if i < (n - 1) * m then load (A + i) else pure (lit 0) : Prog F F)
    let Ai_min_m ← (if i < m then pure (lit 0) else load (A + (i - m)) : Prog F F)
    store (dyt + i) (alpha * (Ai_min_m - Ai))

/-- src/TV.c:269-283 -/
def l1c_DyTDy (n m : Int) (alpha : F) (A dytdy : Ptr) : Kernel F :=
  seqK (assert (FitsInt (n * m)))
  ++ parFor 0 (n * m) fun i => do
    let alp2 := alpha * alpha
    let Ai_min_m ← (if i < m then pure (lit 0) else load (A + (i - m)) : Prog F F)
    let D_ii_Ai ← (if i < m ∨ i > m * (n - 1) - 1 then load (A + i)
      else load (A + i) >>= fun a => pure (lit 2 * a) : Prog F F)
    let Ai_p_m ← (if i < n * m - m then load (A + (i + m)) else pure (lit 0) : Prog F F)
    store (dytdy + i) (alp2 * (-Ai_min_m + D_ii_Ai - Ai_p_m))

end L1c
