import Verif.Model.World
import Verif.Spec.DctTV

/-!
# Specification of transform-set lifecycles

`Hist` describes clients that destroy each set at most once and never set up a set of a module while they still use another
one of the same module.  They may forget sets without destroying them (the Python interface does), and setups may fail.
-/

namespace L1c
open Scalar

variable {F : Type} [Scalar F]

/-- the arguments `l1c_setup_dct_transforms` is documented to accept -/
def ValidDct (n mrow mcol : Int) (idx : List Int) : Prop :=
  0 < n ∧ 0 < mrow ∧ 0 < mcol ∧ ∀ i ∈ idx, 0 ≤ i ∧ i < mrow * mcol

/-- the arguments `l1c_setup_dctTV_transforms` is documented to accept -/
def ValidTv (n mrow mcol : Int) (alp_v alp_h : F) (idx : List Int) : Prop :=
  ValidDct n mrow mcol idx ∧ ¬ flt alp_v (lit 0) ∧ ¬ flt alp_h (lit 0) ∧
    ((flt (lit 0) alp_v ∨ flt (lit 0) alp_h) → 2 < mrow ∧ 2 < mcol)

/-- whether the two-dimensional DCT is chosen -/
def twoDim (mrow mcol dct_mode : Int) : Bool := decide (mrow ≠ 1 ∧ mcol ≠ 1 ∧ dct_mode ≠ DCT1)

/-! ## Live sets, as the client sees them -/

structure Set1D where
  m : ℕ
  n : ℕ
  idx : List Int

structure Set2D where
  mrow : ℕ
  mcol : ℕ
  n : ℕ
  idx : List Int

structure SetTv (F : Type) where
  mrow : ℕ
  mcol : ℕ
  n : ℕ
  idx : List Int
  alp_v : F
  alp_h : F
  /-- synthesis mode -/
  syn : Bool
  /-- uses the 2-D DCT -/
  two : Bool

structure SetMat (F : Type) where
  N : ℕ
  M : ℕ
  A : Arr F

/-- the live sets; `ever1` remembers whether FFTW plans were ever requested for a 1-D DCT, `lost` whether resources may have
been lost: a set was forgotten, or a 2-D setup failed -/
structure Sets (F : Type) where
  d1 : Option Set1D
  d2 : Option Set2D
  tv : Option (SetTv F)
  mat : Option (SetMat F)
  ever1 : Bool
  lost : Bool

def Sets.empty : Sets F := ⟨none, none, none, none, false, false⟩

namespace Sets

/-- a module is in use -/
def busy (L : Sets F) (two : Bool) : Prop :=
  (if two then L.d2.isSome else L.d1.isSome) ∨ ∃ t, L.tv = some t ∧ t.two = two

def has (L : Sets F) : Kind → Prop
  | .d1 => L.d1.isSome
  | .d2 => L.d2.isSome
  | .tvSyn => ∃ t, L.tv = some t ∧ t.syn = true
  | .tvAna => ∃ t, L.tv = some t ∧ t.syn = false
  | .mat => L.mat.isSome

def drop (L : Sets F) : Kind → Sets F
  | .d1 => { L with d1 := none }
  | .d2 => { L with d2 := none }
  | .tvSyn => { L with tv := none }
  | .tvAna => { L with tv := none }
  | .mat => { L with mat := none }

/-- nothing is live and nothing was lost -/
def idle (L : Sets F) : Prop := L.d1 = none ∧ L.d2 = none ∧ L.tv = none ∧ L.mat = none ∧ L.lost = false

/-- what a setup with this status leaves: 1-D plans have been requested if it got that far; a 2-D setup that fails after the
argument checks may lose resources -/
def note1 (L : Sets F) (two : Bool) (status : Int) : Sets F :=
  { L with
    ever1 := L.ever1 || (!two && (status == L1C_SUCCESS || status == L1C_DCT_INIT_FAILURE))
    lost := L.lost || (two && (status == L1C_OUT_OF_MEMORY || status == L1C_DCT_INIT_FAILURE)) }

def addDct (L : Sets F) (n mrow mcol : Int) (two : Bool) (idx : List Int) : Sets F :=
  if two then { L with d2 := some ⟨mrow.toNat, mcol.toNat, n.toNat, idx⟩ }
  else { L with d1 := some ⟨(mrow * mcol).toNat, n.toNat, idx⟩ }

end Sets

/-- what a client can do, starting from program start, if it uses at most one live set per module.  A set it no longer needs may
be destroyed or forgotten.  If the first request of a DCT-TV setup is refused, nothing is lost. -/
inductive Hist (lib : FftwLib F) : World F → Sets F → Prop
  | start (oracle : ℕ → Bool) (junk : ℕ → ℕ → F) : Hist lib (World.init oracle junk false) Sets.empty
  | dct {w w' : World F} {L : Sets F} {r : Int × Option (AxFuns F)} (n mrow mcol dct_mode : Int) (idx : List Int) :
      Hist lib w L → idx.length = n.toNat → ¬ L.busy (twoDim mrow mcol dct_mode) →
      l1c_setup_dct_transforms n mrow mcol dct_mode idx w = some (r, w') →
      Hist lib w' ((if r.1 = L1C_SUCCESS then L.addDct n mrow mcol (twoDim mrow mcol dct_mode) idx else L).note1
        (twoDim mrow mcol dct_mode) r.1)
  | tv {w w' : World F} {L : Sets F} {r : Int × Option (AxFuns F)} (n mrow mcol : Int) (alp_v alp_h : F) (dct_mode : Int)
      (analysis : Bool) (idx : List Int) :
      Hist lib w L → idx.length = n.toNat → L.tv = none → ¬ L.busy (twoDim mrow mcol dct_mode) →
      l1c_setup_dctTV_transforms n mrow mcol alp_v alp_h dct_mode analysis idx w = some (r, w') →
      Hist lib w' ((if r.1 = L1C_SUCCESS then { L with tv := some ⟨mrow.toNat, mcol.toNat, n.toNat, idx, alp_v, alp_h,
        !analysis, twoDim mrow mcol dct_mode⟩ } else L).note1 (twoDim mrow mcol dct_mode) r.1)
  | tvRefused {w w' : World F} {L : Sets F} {r : Int × Option (AxFuns F)} (n mrow mcol : Int) (alp_v alp_h : F) (dct_mode : Int)
      (analysis : Bool) (idx : List Int) :
      Hist lib w L → L.tv = none → l1c_setup_dctTV_transforms n mrow mcol alp_v alp_h dct_mode analysis idx w = some (r, w') →
      w.oracle w.calls = false → Hist lib w' L
  | mat {w w' : World F} {L : Sets F} {r : Int × Option (AxFuns F)} (n m : Int) (A : Arr F) :
      Hist lib w L → L.mat = none → l1c_setup_matrix_transforms n m A w = some (r, w') →
      Hist lib w' (if r.1 = L1C_SUCCESS then { L with mat := some ⟨n.toNat, m.toNat, A⟩ } else L)
  | call {w w' : World F} {L : Sets F} {r : Arr F × Arr F} (K : Kind) (op : Op) (a out : Arr F) :
      Hist lib w L → L.has K → wcall lib K op a out w = some (r, w') → Hist lib w' L
  | destroy {w w' : World F} {L : Sets F} (K : Kind) :
      Hist lib w L → L.has K → wdestroy K w = some ((), w') → Hist lib w' (L.drop K)
  | forget {w : World F} {L : Sets F} (K : Kind) : Hist lib w L → L.has K → Hist lib w { L.drop K with lost := true }

/-! ## What the functions of a set are meant to do -/

/-- the functions of a 1-D set -/
def fun1 (lib : FftwLib F) (m n : ℕ) (idx : List Int) (hm : 0 < m) : DctFuns F m n :=
  haveI : NeZero m := ⟨hm.ne'⟩
  dct1Funs (lib.f1 m) (idxFun n idx)

def fun2 (lib : FftwLib F) (mrow mcol n : ℕ) (idx : List Int) (h : 0 < mrow ∧ 0 < mcol) : DctFuns F (mrow * mcol) n :=
  haveI : NeZero mrow := ⟨h.1.ne'⟩
  haveI : NeZero mcol := ⟨h.2.ne'⟩
  dct2Funs (lib.f2 mrow mcol) (idxFun n idx)

/-- the DCT functions inside a TV set -/
def funT (lib : FftwLib F) (t : SetTv F) (h : 0 < t.mrow ∧ 0 < t.mcol) : DctFuns F (t.mrow * t.mcol) t.n :=
  if t.two then fun2 lib t.mrow t.mcol t.n t.idx h else fun1 lib (t.mrow * t.mcol) t.n t.idx (Nat.mul_pos h.1 h.2)

/-- the configuration of a TV set -/
def cfgT (lib : FftwLib F) (t : SetTv F) (h : 0 < t.mrow ∧ 0 < t.mcol) : TvCfg F t.mrow t.mcol t.n :=
  ⟨funT lib t h, t.alp_v, t.alp_h⟩

/-- all functions of a TV set; `AtAx` is never set -/
def tvAll {mrow mcol n : ℕ} (c : TvCfg F mrow mcol n) (syn : Bool) (op : Op) (a out : Arr F)
    (s : TvBuf F (mrow * mcol) c.p) : Option ((Arr F × Arr F) × TvBuf F (mrow * mcol) c.p) :=
  if (syn ∧ (op = .Wz ∨ op = .Wtx)) ∨ (¬ syn ∧ (op = .Mx ∨ op = .Mty)) then (copyArr (mrow * mcol) a out).map fun r => (r, s)
  else if op = .AtAx then none
  else tvOp c syn op a out s

/-- all functions of a matrix set -/
def matOp (N M : ℕ) (A : Arr F) (op : Op) (a out : Arr F) (dwork : Vec F (max N M)) :
    Option ((Arr F × Arr F) × Vec F (max N M)) := do
  let A ← slice (N * M) 0 A.2
  match op with
  | .Ax | .Rx => do
    let x ← slice M 0 a.2
    let y ← writeAt 0 (matAx A x) out.2
    return ((a, ⟨out.1, y⟩), dwork)
  | .Aty | .Rty => do
    let y ← slice N 0 a.2
    let x ← writeAt 0 (matAty A y) out.2
    return ((a, ⟨out.1, x⟩), dwork)
  | .AtAx => do
    let x ← slice M 0 a.2
    let r ← matAtAx A x dwork
    let z ← writeAt 0 r.1 out.2
    return ((a, ⟨out.1, z⟩), r.2)
  | .Mx | .Mty | .Wz | .Wtx => (copyArr M a out).map fun r => (r, dwork)

end L1c
