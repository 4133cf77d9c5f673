import Verif.Base.Par

/-!
# Model of `src/l1c_math.c`, of the BLAS routines it calls, and of `src/vcl/vcl_math.cpp`

`__builtin_assume_aligned` has no effect on values; the pointers it names are the last argument of `parFor`.  `restrict` appears as
the no-overlap hypotheses of the theorems.
-/

namespace L1c
open Prog Scalar

variable {F : Type} [Scalar F]

/-! ## src/l1c_math.c -/

/-- src/l1c_math.c:14-22 `__l1c_daxpby`: `y = alpha*x + beta*y` (also what the macro `l1c_daxpby`
of include/l1c_math.h:39-47 expands to when BLAS has no `daxpby`). -/
def l1c_daxpby (N : Int) (alpha : F) (x : Ptr) (beta : F) (y : Ptr) : Kernel F :=
  parFor (al := [x, y]) 0 N fun i => do
    let xi ← load (x + i)
    let yi ← load (y + i)
    store (y + i) (alpha * xi + beta * yi)

/-- src/l1c_math.c:27-33 -/
def l1c_init_vec (N : Int) (x : Ptr) (alpha : F) : Kernel F :=
  parFor (al := [x]) 0 N fun i => store (x + i) alpha

/-- src/l1c_math.c:39-51 -/
def l1c_dxmuly_z (N : Int) (x y z : Ptr) : Kernel F :=
  parFor (al := [x, y, z]) 0 N fun i => do
    let xi ← load (x + i)
    let yi ← load (y + i)
    store (z + i) (xi * yi)

/-- src/l1c_math.c:60-80 -/
def l1c_daxpby_z (N : Int) (alpha : F) (x : Ptr) (beta : F) (y z : Ptr) : Kernel F :=
  parFor (al := [x, y, z]) 0 N fun i => do
    let xi ← load (x + i)
    let yi ← load (y + i)
    store (z + i) (alpha * xi + beta * yi)

/-- src/l1c_math.c:89-108 -/
def l1c_daxpy_z (N : Int) (alpha : F) (x y z : Ptr) : Kernel F :=
  parFor (al := [x, y, z]) 0 N fun i => do
    let xi ← load (x + i)
    let yi ← load (y + i)
    store (z + i) (alpha * xi + yi)

/-- `cblas_daxpy(N, alpha, x, 1, y, 1)` as `y[i] = alpha*x[i] + y[i]`, in any order -/
def daxpyK (N : Int) (alpha : F) (x y : Ptr) : Kernel F :=
  parFor 0 N fun i => do
    let xi ← load (x + i)
    let yi ← load (y + i)
    store (y + i) (alpha * xi + yi)

/-- src/l1c_math.c:179-184 (sequential loop) -/
def l1c_abs_vec (n : Int) (x y : Ptr) : Prog F Unit :=
  forUp 0 n fun k => do
    let v ← load (x + k)
    store (y + k) (fabs v)

/-- src/l1c_math.c:116-123 -/
def l1c_dsum (N : Int) (x : Ptr) : Prog F F :=
  foldUp 0 N (lit 0) fun i sum => do
    let v ← load (x + i)
    pure (sum + v)

/-- `cblas_dasum(N, x, 1)`: sum of absolute values, in index order (BLAS may use another order;
`Dbl` addition is associative and commutative, see `C04`). -/
def cblas_dasum (N : Int) (x : Ptr) : Prog F F :=
  foldUp 0 N (lit 0) fun i s => do
    let v ← load (x + i)
    pure (s + fabs v)

/-- src/l1c_math.c:114 -/
def l1c_dnorm1 (N : Int) (x : Ptr) : Prog F F := cblas_dasum N x

/-- One OpenMP thread's share of the loop at src/l1c_math.c:129-132: `chunk` lists the iterations
this thread executes; its private `total` starts at 0. -/
def dlogsumChunk (alpha : F) (x : Ptr) (chunk : List Int) : Prog F F :=
  chunk.foldlM (fun total i => do
    let v ← load (x + i)
    pure (total + flog (alpha * v))) (lit 0)

/-- src/l1c_math.c:125-134 with an arbitrary distribution `sched` of the iterations over threads;
`reduction(+ : total)` adds the private totals to the original `total = 0.0`.  `sched` is valid
when its concatenation is a permutation of `0..N-1` (`ValidSched`). -/
def l1c_dlogsum (sched : List (List Int)) (alpha : F) (x : Ptr) : Prog F F :=
  sched.foldlM (fun total chunk => do
    let t ← dlogsumChunk alpha x chunk
    pure (total + t)) (lit 0)

/-- an assignment of the iterations `0..N-1` to threads -/
def ValidSched (N : Int) (sched : List (List Int)) : Prop :=
  sched.flatten.Perm ((List.range N.toNat).map Int.ofNat)

/-- `cblas_ddot(N, x, 1, y, 1)` -/
def cblas_ddot (N : Int) (x y : Ptr) : Prog F F :=
  foldUp 0 N (lit 0) fun i s => do
    let a ← load (x + i)
    let b ← load (y + i)
    pure (s + a * b)

/-- the loop at src/l1c_math.c:148-151 and 197-200 -/
def sqDiffLoop (N : Int) (x y : Ptr) : Prog F F :=
  foldUp 0 N (lit 0) fun i nrm => do
    let a ← load (x + i)
    let b ← load (y + i)
    let diff := a - b
    pure (nrm + diff * diff)

/-- src/l1c_math.c:141-153 -/
def l1c_dnrm2_rel_err (N : Int) (x y : Ptr) : Prog F F := do
  let ynrm ← cblas_ddot N y y
  let nrm ← sqDiffLoop N x y
  pure (fsqrt (nrm / ynrm))

/-- src/l1c_math.c:191-202 -/
def l1c_dnrm2_err (N : Int) (x y : Ptr) : Prog F F := do
  let nrm ← sqDiffLoop N x y
  pure (fsqrt nrm)

/-- src/l1c_math.c:158-174 -/
def l1c_max_vec (n : Int) (x : Ptr) : Prog F F :=
  if n ≤ 0 then pure nan
  else do
    let x0 ← load (x + (0 : Int))
    if n = 1 then pure x0
    else foldUp 1 n x0 fun k xmax => do
      let v ← load (x + k)
      pure (if flt xmax v then v else xmax)

/-! ## src/vcl/vcl_math.cpp -/

/-- `N & (~(VECTORSIZE - 1))` with `VECTORSIZE = 4` on 32-bit `int`
(src/vcl/vcl_math.cpp:14, 36, 61). -/
def regularpart (N : Int) : Int := (BitVec.ofInt 32 N &&& ~~~(3#32)).toInt

/-- `Vec4d` -/
structure Vec4 (F : Type) where
  a : F
  b : F
  c : F
  d : F

/-- `xvec.load_a(p)` -/
def load4 (p : Ptr) : Prog F (Vec4 F) := do
  let a ← load (p + (0 : Int))
  let b ← load (p + (1 : Int))
  let c ← load (p + (2 : Int))
  let d ← load (p + (3 : Int))
  pure ⟨a, b, c, d⟩

/-- `zvec.store(p)` -/
def store4 (p : Ptr) (v : Vec4 F) : Prog F Unit := do
  store (p + (0 : Int)) v.a
  store (p + (1 : Int)) v.b
  store (p + (2 : Int)) v.c
  store (p + (3 : Int)) v.d

/-- lane-wise map of two vectors -/
def Vec4.map₂ (f : F → F → F) (x y : Vec4 F) : Vec4 F :=
  ⟨f x.a y.a, f x.b y.b, f x.c y.c, f x.d y.d⟩

/-- `vcl::horizontal_add` (association as in the AVX implementation; irrelevant for `Dbl`) -/
def Vec4.hadd (v : Vec4 F) : F := (v.a + v.b) + (v.c + v.d)

/-- number of trips of `for (i = 0; i < regularpart; i += 4)` -/
def blocks (N : Int) : Int := (regularpart N + 3) / 4

/-- value of `i` when the blocked loop exits -/
def tailStart (N : Int) : Int := if 0 < regularpart N then 4 * blocks N else 0

/-- src/vcl/vcl_math.cpp:35-54 -/
def vcl_sum (N : Int) (x : Ptr) : Prog F F := do
  let sum_vec ← foldUp 0 (blocks N) (⟨lit 0, lit 0, lit 0, lit 0⟩ : Vec4 F) fun b s => do
    let xvec ← load4 (x + 4 * b)
    pure (s.map₂ (· + ·) xvec)
  let total ← foldUp (tailStart N) N (lit 0) fun i t => do
    let v ← load (x + i)
    pure (t + v)
  pure (total + sum_vec.hadd)

/-- src/vcl/vcl_math.cpp:12-33; `vcl::log` is modelled as `log` on each lane -/
def vcl_logsum (N : Int) (alpha : F) (x : Ptr) : Prog F F := do
  let sum_vec ← foldUp 0 (blocks N) (⟨lit 0, lit 0, lit 0, lit 0⟩ : Vec4 F) fun b s => do
    let xvec ← load4 (x + 4 * b)
    pure (s.map₂ (fun t v => t + flog (v * alpha)) xvec)
  let total ← foldUp (tailStart N) N (lit 0) fun i t => do
    let v ← load (x + i)
    pure (t + flog (v * alpha))
  pure (total + sum_vec.hadd)

/-- src/vcl/vcl_math.cpp:60-81 -/
def vcl_dxMy_pz (N : Int) (x y z : Ptr) : Prog F Unit := do
  forUp 0 (blocks N) fun b => do
    let xv ← load4 (x + 4 * b)
    let yv ← load4 (y + 4 * b)
    let zv ← load4 (z + 4 * b)
    store4 (z + 4 * b) ⟨xv.a * yv.a + zv.a, xv.b * yv.b + zv.b, xv.c * yv.c + zv.c, xv.d * yv.d + zv.d⟩
  forUp (tailStart N) N fun i => do
    let a ← load (x + i)
    let b ← load (y + i)
    let c ← load (z + i)
    store (z + i) (a * b + c)

end L1c
