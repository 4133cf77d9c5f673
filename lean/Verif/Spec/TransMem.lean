import Verif.Spec.NestaMem
import Verif.Spec.Dct
import Verif.Model.DctTV
import Verif.Model.TransMem

/-!
# Transform sets on memory (specification)
-/

namespace L1c
open Scalar

variable {F : Type} [Scalar F] {m n l k : ℕ}

/-- the FFTW commands compute the transforms `fw`: they read the input array, fill the output array and change nothing else -/
structure FftwImpl (c : FftwM F) (fw : Fftw F m) : Prop where
  fwd : ∀ (s : PState F) (x y : Ptr) (v : Vec F m), HoldsV s x v → s.mem.Has y m → Disjoint (Rng x m) (Rng y m) →
    ∃ s', CSpec (c.fwd x y) s () s' ∧ HoldsV s' y (fw.fwd v) ∧ Only (Rng y m) s s'
  inv : ∀ (s : PState F) (x y : Ptr) (v : Vec F m), HoldsV s x v → s.mem.Has y m → Disjoint (Rng x m) (Rng y m) →
    ∃ s', CSpec (c.inv x y) s () s' ∧ HoldsV s' y (fw.inv v) ∧ Only (Rng y m) s s'

/-- the buffers are in memory -/
structure BufAt (b : DctPtr) (t : DctBuf F m) (s : PState F) : Prop where
  Ety : HoldsV s b.Ety t.Ety
  dx : HoldsV s b.dx t.dx
  dy : HoldsV s b.dy t.dy

/-- their addresses -/
def DctPtr.Own (b : DctPtr) (m : ℕ) : Set Ptr := Rng b.Ety m ∪ Rng b.dx m ∪ Rng b.dy m

/-- they do not overlap -/
structure DctPtr.Sep (b : DctPtr) (m : ℕ) : Prop where
  ex : Disjoint (Rng b.Ety m) (Rng b.dx m)
  ey : Disjoint (Rng b.Ety m) (Rng b.dy m)
  xy : Disjoint (Rng b.dx m) (Rng b.dy m)

/-- a function of a DCT set as an operator that may change its argument and ignores the old result -/
def dctNOp (f : Vec F l → DctBuf F m → Option (XOut F k l m)) : NOp F (DctBuf F m) l k := fun v _ t => (f v t).map fun o => ((o.arg, o.res), o.buf)

/-- the same where the old result matters -/
def dctNOp' (f : Vec F l → Vec F k → DctBuf F m → Option (XOut F k l m)) : NOp F (DctBuf F m) l k := fun v old t =>
  (f v old t).map fun o => ((o.arg, o.res), o.buf)

/-- the commands compute the functions of a DCT set, with the buffers as common private data -/
structure DctImpl (c : DctFunsM F) (f : DctFuns F m n) (R : DctBuf F m → PState F → Prop) (Own : Set Ptr) : Prop where
  Ax : NOpImpl c.Ax (dctNOp f.Ax) R Own
  Aty : NOpImpl c.Aty (dctNOp f.Aty) R Own
  AtAx : NOpImpl c.AtAx (dctNOp f.AtAx) R Own
  Mx : NOpImpl c.Mx (dctNOp f.Mx) R Own
  Mty : NOpImpl c.Mty (dctNOp f.Mty) R Own
  Rx : NOpImpl c.Rx (dctNOp f.Rx) R Own
  Rty : NOpImpl c.Rty (dctNOp' f.Rty) R Own

/-- the variables after `l1c_dct1_setup`, src/dct1.c:113-117 -/
def dct1Var (m : ℕ) (fw : FftwM F) (buf : DctPtr) (n : ℕ) (idx : Int → Int) : DctVarM F := ⟨fw, buf, n, idx, fsqrt (lit 1 / (lit m * lit 2))⟩

/-- the variables after `l1c_dct2_setup`, src/dct2.c:143-150 -/
def dct2Var (mrow mcol : ℕ) (fw : FftwM F) (buf : DctPtr) (n : ℕ) (idx : Int → Int) : DctVarM F :=
  ⟨fw, buf, n, idx, fsqrt (lit 1 / (lit mrow * lit mcol * lit 4))⟩

/-- a DCT set as operators for l1qc: what each function returns right after setup -/
def dctOps (f : DctFuns F m n) : QOps F Unit n m where
  A v _ := (((f.Ax v DctBuf.fresh).map (·.res)).getD fun _ => lit 0, ())
  At v _ := (((f.Aty v DctBuf.fresh).map (·.res)).getD fun _ => lit 0, ())
  AtA v _ := (((f.AtAx v DctBuf.fresh).map (·.res)).getD fun _ => lit 0, ())

/-- the buffers are in memory and fit for use: outside the sampled positions `Ety` is zero -/
def BufsAt (b : DctPtr) (m : ℕ) (idx : Fin n → Int) (s : PState F) : Prop := ∃ t : DctBuf F m, BufInv idx t ∧ BufAt b t s

/-- a matrix as operators for l1qc -/
def matOps (A : Vec F (n * m)) : QOps F Unit n m where
  A v _ := (matAx A v, ())
  At v _ := (matAty A v, ())
  AtA v _ := (matAty A (matAx A v), ())

/-- the matrix and its work array are in memory -/
def MatAt (p dwork : Ptr) (A : Vec F (n * m)) (s : PState F) : Prop := HoldsV s p A ∧ s.mem.Has dwork ((max n m : ℕ) : Int)

/-- their addresses -/
def matOwn (p dwork : Ptr) (n m : ℕ) : Set Ptr := Rng p (n * m) ∪ Rng dwork (max n m)

end L1c
