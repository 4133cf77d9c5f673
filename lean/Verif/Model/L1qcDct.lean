import Verif.Model.World
import Verif.Model.Newton

/-!
# Image recovery from DCT samples, src/l1qc_dct.c

The routine of src/l1qc_dct.c:30-96 with the real transform set of src/dct1.c / src/dct2.c (`World`) and the real
Newton solver (`l1c_l1qc_newton`).  `NState` tracks the arrays the routine and the solver allocate, its client state `cb`
is the `World` of the transform modules.  The two have separate allocation oracles, so every pattern of failing
allocations is covered.  The `printf`s and the clock are left out.
-/

namespace L1c
open Scalar

variable {F : Type} [Scalar F]

/-- A function of a transform set as the solver calls it: argument of length `l`, result array of length `k`.
Simplification: what the result array held before is taken to be zeros, and the solver keeps its own argument; both are
invisible for `Ax`, `Aty`, `AtAx`, which overwrite the whole result and leave the argument alone. -/
def setOp (lib : FftwLib F) (K : Kind) (op : Op) (l k : ℕ) : LOp F (World F) l k := fun v w =>
  (wcall lib K op ⟨l, v⟩ ⟨k, fun _ => lit 0⟩ w).bind fun r => (slice k 0 r.1.2.2).map fun o => (o, r.2)

/-- the functions the solver uses -/
def setAx (lib : FftwLib F) (K : Kind) (n m : ℕ) : QAx F (World F) n m where
  Ax := setOp lib K .Ax m n
  Aty := setOp lib K .Aty n m
  AtAx := setOp lib K .AtAx m m

/-- what the caller sees: return value, `*lb_res` if it was written, `x_out` -/
structure DctOut (F : Type) where
  status : Int
  lb_res : Option (LBResult F)
  x_out : Arr F

/-- src/l1qc_dct.c:62-76: measurements copied, start `Aᵀb`, solve, and transform back into `x_out` on success.
Arrays shorter than the sizes say are read or written out of bounds (`none`). -/
def l1qc_dct_body (lib : FftwLib F) (K : Kind) (n m : ℕ) (b x_out : Arr F) (opts : QOpts F) : NM (World F) (DctOut F) := do
  let b ← nlift (slice n 0 b.2)
  let eta_0 ← nrun (setOp lib K .Aty n m b)
  let r ← l1c_l1qc_newton (setAx lib K n m) eta_0 b opts
  if r.res.status ≠ 0 then pure ⟨r.res.status, some r.res, x_out⟩
  else do
    let x1 ← nlift (writeAt 0 r.x x_out.2)
    let y ← nrun (fun w => wcall lib K .Mx ⟨m, r.x⟩ ⟨x_out.1, x1⟩ w)
    pure ⟨0, some r.res, y.2⟩

/-- src/l1qc_dct.c:30-96 (`status` starts at 0; `mtot` is an `int` product formed before any check) -/
def l1qc_dct (lib : FftwLib F) (mrow mcol : Int) (x_out : Arr F) (n : Int) (b : Arr F) (pix_idx : List Int)
    (dct_mode : Int) (opts : QOpts F) : NM (World F) (DctOut F) := do
  let mtot ← nrun (wmul mrow mcol)
  let r ← nrun (l1c_setup_dct_transforms n mrow mcol dct_mode pix_idx)
  match r.2 with
  | none => pure ⟨L1C_DCT_INIT_FAILURE, none, x_out⟩
  | some ax =>
    if r.1 ≠ 0 then pure ⟨L1C_DCT_INIT_FAILURE, none, x_out⟩
    else do
      let eta_0 ← nalloc
      let b_ours ← nalloc
      let out ←
        if b_ours.isNone ∨ eta_0.isNone then pure ⟨L1C_OUT_OF_MEMORY, none, x_out⟩
        else l1qc_dct_body lib ax.kind n.toNat mtot.toNat b x_out opts
      nrun (wdestroy ax.kind)
      nfree b_ours
      nfree eta_0
      pure out

end L1c
