import Verif.Base.Errors
import Verif.Model.DctTV

/-!
# Setup, use and destruction of transform sets

`src/dct1.c`, `src/dct2.c`, `src/dct_transforms.c`, `src/dct_tv_transforms.c`, `src/matrix_transforms.c`: the file-scope
variables of the modules, the memory and FFTW plans they own, and the calls a client makes.

* `World` holds the live objects (arrays of doubles, FFTW plans), an arbitrary oracle deciding which requests succeed,
  arbitrary contents of uninitialised arrays, and the file-scope variables.
* `none` is undefined behaviour: freeing or using something that is not live, a signed overflow, an access outside an
  array.
* Object ids are never reused, so a stale pointer never becomes valid again.  (Real allocators reuse addresses; a double
  free then hits a foreign block.)
* Allocation of `len` doubles is justified by `C02_malloc` and `C02_calloc`.
* The index list and the matrix belong to the client, who must keep them unchanged (documented); the model stores their
  contents.
* An operator that finds file-scope variables inconsistent with the arrays and plans (wrong size, not live) is treated as
  undefined behaviour, also where the C code would compute a wrong result instead.  Counterexamples below never use this.
* `threads` tells whether the library is built with FFTW threads; then `destroy` calls `fftw_cleanup_threads`, after which
  "all existing plans become undefined" (FFTW manual).
* Not modelled: messages on stderr, `ax_funs->data`.
-/

namespace L1c
open Scalar

/-- an array of doubles with its length -/
abbrev Arr (F : Type) := Σ l : ℕ, Vec F l

/-- what FFTW plan was made: `FFTW_REDFT10` or `FFTW_REDFT01`, in one or two dimensions -/
inductive PlanKind where
  | fwd1 (m : ℕ)
  | inv1 (m : ℕ)
  | fwd2 (mrow mcol : ℕ)
  | inv2 (mrow mcol : ℕ)
  deriving DecidableEq

inductive Obj (F : Type) where
  | arr (a : Arr F)
  | plan (k : PlanKind) (inp out : ℕ)

/-- file-scope variables of src/dct1.c:24-34 -/
structure G1 (F : Type) where
  Ety : Option ℕ
  x : Option ℕ
  y : Option ℕ
  pM : Option ℕ
  pE : Option ℕ
  m : ℕ
  n : ℕ
  idx : List Int

/-- file-scope variables of src/dct2.c:24-36 -/
structure G2 (F : Type) where
  Ety : Option ℕ
  x : Option ℕ
  y : Option ℕ
  pM : Option ℕ
  pE : Option ℕ
  mrow : ℕ
  mcol : ℕ
  n : ℕ
  idx : List Int

/-- which functions a `l1c_AxFuns` holds -/
inductive Kind where
  | d1 | d2 | tvSyn | tvAna | mat
  deriving DecidableEq

/-- file-scope variables of src/dct_tv_transforms.c:24-35.  `jobs`, `_inc_TVV`, `_inc_TVH`, `_p` are set together with
`jobV`, `jobH`: see `tvP`, `incV`, `incH`. -/
structure GT (F : Type) where
  mrow : Int
  mcol : Int
  alp_v : F
  alp_h : F
  jobV : Bool
  jobH : Bool
  loc : Option Kind
  u : Option ℕ

/-- file-scope variables of src/matrix_transforms.c:13-16 -/
structure GM (F : Type) where
  A : Arr F
  N : ℕ
  M : ℕ
  dwork : Option ℕ

structure World (F : Type) where
  obj : ℕ → Option (Obj F)
  next : ℕ
  calls : ℕ
  oracle : ℕ → Bool
  junk : ℕ → ℕ → F
  threads : Bool
  g1 : G1 F
  g2 : G2 F
  gt : GT F
  gm : GM F

/-- `l1c_AxFuns`: the numbers, and which functions it points to -/
structure AxFuns (F : Type) where
  n : Int
  m : Int
  p : Int
  q : Int
  normW : F
  kind : Kind

abbrev WM (F : Type) (α : Type) := StateT (World F) Option α

/-- undefined behaviour -/
def wub {F α : Type} : WM F α := fun _ => none

variable {F : Type} [Scalar F]

/-- state of a freshly started program: file-scope variables are zero -/
def World.init (oracle : ℕ → Bool) (junk : ℕ → ℕ → F) (threads : Bool) : World F where
  obj := fun _ => none
  next := 0
  calls := 0
  oracle := oracle
  junk := junk
  threads := threads
  g1 := ⟨none, none, none, none, none, 0, 0, []⟩
  g2 := ⟨none, none, none, none, none, 0, 0, 0, []⟩
  gt := ⟨0, 0, lit 0, lit 0, false, false, none, none⟩
  gm := ⟨⟨0, fun _ => lit 0⟩, 0, 0, none⟩

/-! ## Memory and plans -/

/-- a request that may be refused -/
def wnew (o : ℕ → Obj F) : WM F (Option ℕ) := fun w =>
  if w.oracle w.calls then
    some (some w.next, { w with obj := Function.update w.obj w.next (some (o w.next)), next := w.next + 1, calls := w.calls + 1 })
  else some (none, { w with calls := w.calls + 1 })

/-- `l1c_malloc_double(len)` -/
def wmalloc (len : ℕ) : WM F (Option ℕ) := fun w => wnew (fun b => .arr ⟨len, fun i => w.junk b i⟩) w

/-- `l1c_calloc_double(len)` -/
def wcalloc (len : ℕ) : WM F (Option ℕ) := wnew fun _ => .arr ⟨len, fun _ => lit 0⟩

/-- `l1c_free_double` -/
def wfree (p : Option ℕ) : WM F Unit := fun w =>
  match p with
  | none => some ((), w)
  | some b => match w.obj b with
    | some (.arr _) => some ((), { w with obj := Function.update w.obj b none })
    | _ => none

/-- `fftw_destroy_plan`; NULL is allowed -/
def wdestroyPlan (p : Option ℕ) : WM F Unit := fun w =>
  match p with
  | none => some ((), w)
  | some b => match w.obj b with
    | some (.plan _ _ _) => some ((), { w with obj := Function.update w.obj b none })
    | _ => none

/-- `fftw_cleanup_threads()` if compiled in: all plans become undefined -/
def wcleanup : WM F Unit := fun w =>
  if w.threads then
    some ((), { w with obj := fun b => match w.obj b with | some (.plan _ _ _) => none | o => o })
  else some ((), w)

/-- a zeroing loop over a live array -/
def wzero (p : Option ℕ) (len : ℕ) : WM F Unit := fun w =>
  match p with
  | none => none
  | some b => match w.obj b with
    | some (.arr a) => (writeAt 0 (fun _ : Fin len => lit 0) a.2).map fun v =>
        ((), { w with obj := Function.update w.obj b (some (.arr ⟨a.1, v⟩)) })
    | _ => none

/-! ## One-dimensional DCT -/

/-- src/dct1.c:166-175 -/
def dct_destroy : WM F Unit := fun w => (do
  wfree w.g1.Ety
  wfree w.g1.x
  wfree w.g1.y
  wdestroyPlan w.g1.pE
  wdestroyPlan w.g1.pM
  wcleanup) w

/-- src/dct1.c:94-164.  `m` is the signal length, `idx` the contents of `pix_mask_idx`. -/
def l1c_dct1_setup (n m : ℕ) (idx : List Int) : WM F (Int × Option (AxFuns F)) := do
  let Ety ← wcalloc m
  modify fun w => { w with g1 := { w.g1 with Ety := Ety } }
  let x ← wcalloc m
  modify fun w => { w with g1 := { w.g1 with x := x } }
  let y ← wcalloc m
  modify fun w => { w with g1 := { w.g1 with y := y } }
  match Ety, x, y with
  | some e, some x, some y => do
    modify fun w => { w with g1 := { w.g1 with m := m, n := n, idx := idx } }
    let pM ← wnew fun _ => .plan (.fwd1 m) e x
    modify fun w => { w with g1 := { w.g1 with pM := pM } }
    let pE ← wnew fun _ => .plan (.inv1 m) x y
    modify fun w => { w with g1 := { w.g1 with pE := pE } }
    if pM.isSome ∧ pE.isSome then
      return (L1C_SUCCESS, some ⟨n, m, m, m, lit 1, .d1⟩)
    else do
      dct_destroy
      return (L1C_DCT_INIT_FAILURE, none)
  | _, _, _ => do
    dct_destroy
    return (L1C_OUT_OF_MEMORY, none)

/-! ## Two-dimensional DCT -/

/-- src/dct2.c:195-205 -/
def dct2_destroy : WM F Unit := fun w => (do
  wfree w.g2.Ety
  wfree w.g2.x
  wfree w.g2.y
  wdestroyPlan w.g2.pE
  wdestroyPlan w.g2.pM
  wcleanup) w

/-- src/dct2.c:117-193; the failure path releases nothing (lines 190-192) -/
def l1c_dct2_setup (n mrow mcol : ℕ) (idx : List Int) : WM F (Int × Option (AxFuns F)) := do
  let Ety ← wmalloc (mrow * mcol)
  modify fun w => { w with g2 := { w.g2 with Ety := Ety } }
  let x ← wmalloc (mrow * mcol)
  modify fun w => { w with g2 := { w.g2 with x := x } }
  let y ← wmalloc (mrow * mcol)
  modify fun w => { w with g2 := { w.g2 with y := y } }
  match Ety, x, y with
  | some e, some x, some y => do
    wzero (some e) (mrow * mcol)
    wzero (some x) (mrow * mcol)
    wzero (some y) (mrow * mcol)
    modify fun w => { w with g2 := { w.g2 with mrow := mrow, mcol := mcol, n := n, idx := idx } }
    let pM ← wnew fun _ => .plan (.fwd2 mrow mcol) e x
    modify fun w => { w with g2 := { w.g2 with pM := pM } }
    let pE ← wnew fun _ => .plan (.inv2 mrow mcol) x y
    modify fun w => { w with g2 := { w.g2 with pE := pE } }
    if pE.isSome ∧ pM.isSome then
      return (L1C_SUCCESS, some ⟨n, (mrow * mcol : ℕ), (mrow * mcol : ℕ), (mrow * mcol : ℕ), lit 1, .d2⟩)
    else return (L1C_DCT_INIT_FAILURE, none)
  | _, _, _ => return (L1C_OUT_OF_MEMORY, none)

/-! ## Front end -/

/-- signed product; overflow is undefined behaviour -/
def wmul (a b : Int) : WM F Int := fun w => if FitsInt (a * b) then some (a * b, w) else none

/-- `check_pix_idx`, src/dct_transforms.c:71-80, src/dct_tv_transforms.c:241-250: true if some index is outside.
`n` entries are read; the list has that many (precondition of the call). -/
def check_pix_idx (idx : List Int) (max_idx : Int) : Bool := idx.any fun i => decide (max_idx < i ∨ i < 0)

/-- `dct_mode` -/
def DCT1 : Int := 1
def DCT2 : Int := 2

/-- src/dct_transforms.c:42-69.  `n` is the length of `idx` whenever it is positive; `mrow * mcol - 1` and the repeated
products are computed once. -/
def l1c_setup_dct_transforms (n mrow mcol dct_mode : Int) (idx : List Int) : WM F (Int × Option (AxFuns F)) := do
  if n ≤ 0 ∨ mrow ≤ 0 ∨ mcol ≤ 0 then return (L1C_INVALID_ARGUMENT, none)
  else do
    let mtot ← wmul mrow mcol
    if check_pix_idx idx (mtot - 1) then return (L1C_INVALID_ARGUMENT, none)
    else if mcol = 1 ∨ mrow = 1 ∨ dct_mode = DCT1 then l1c_dct1_setup n.toNat mtot.toNat idx
    else if (1 < mcol ∧ 1 < mrow) ∨ dct_mode = DCT2 then
      if mcol = 1 ∨ mrow = 1 then return (L1C_INCONSISTENT_ARGUMENTS, none)
      else l1c_dct2_setup n.toNat mrow.toNat mcol.toNat idx
    else return (L1C_INCONSISTENT_ARGUMENTS, none)

/-! ## DCT + TV -/

/-- `destroy` through a function pointer to a DCT set; calling an unset pointer is undefined -/
def wdestroyLoc : Option Kind → WM F Unit
  | some .d1 => dct_destroy
  | some .d2 => dct2_destroy
  | _ => wub

/-- src/dct_tv_transforms.c:173-176 -/
def tv_destroy : WM F Unit := fun w => (do
  wdestroyLoc w.gt.loc
  wfree w.gt.u) w

/-- src/dct_tv_transforms.c:72-81 -/
def tvReset (mrow mcol : Int) (alp_v alp_h : F) : WM F Unit :=
  modify fun w => { w with gt := { w.gt with mrow := mrow, mcol := mcol, alp_v := alp_v, alp_h := alp_h, jobV := false, jobH := false } }

/-- the argument checks, src/dct_tv_transforms.c:83-93 -/
def tvBad (n mrow mcol mtot : Int) (alp_v alp_h : F) (idx : List Int) : Prop :=
  (n ≤ 0 ∨ mrow ≤ 0 ∨ mcol ≤ 0 ∨ flt alp_v (lit 0) ∨ flt alp_h (lit 0)) ∨
  ((flt (lit 0) alp_h ∨ flt (lit 0) alp_v) ∧ (mrow ≤ 2 ∨ mcol ≤ 2)) ∨ check_pix_idx idx (mtot - 1)

instance (n mrow mcol mtot : Int) (alp_v alp_h : F) (idx : List Int) : Decidable (tvBad n mrow mcol mtot alp_v alp_h idx) := by
  unfold tvBad; infer_instance

/-- src/dct_tv_transforms.c:62-171; `analysis` tells `bp_mode == analysis`, every other value being treated as synthesis
in the places where the code tests for `synthesis`: the two tests agree on the two values of the enumeration. -/
def l1c_setup_dctTV_transforms (n mrow mcol : Int) (alp_v alp_h : F) (dct_mode : Int) (analysis : Bool) (idx : List Int) :
    WM F (Int × Option (AxFuns F)) := do
  tvReset mrow mcol alp_v alp_h
  let mtot ← wmul mrow mcol
  if tvBad n mrow mcol mtot alp_v alp_h idx then return (L1C_INVALID_ARGUMENT, none)
  else do
    modify fun w => { w with gt := { w.gt with jobV := job alp_v, jobH := job alp_h } }
    let m := mtot.toNat
    let p := tvP m alp_v alp_h
    if ¬ FitsInt p then wub
    else do
      let u ← wmalloc p
      modify fun w => { w with gt := { w.gt with u := u } }
      match u with
      | none => return (L1C_OUT_OF_MEMORY, none)
      | some _ => do
        let r ← l1c_setup_dct_transforms n mrow mcol dct_mode idx
        match r with
        | (_, some a) => do
          modify fun w => { w with gt := { w.gt with loc := some a.kind } }
          if analysis then return (L1C_SUCCESS, some ⟨n, m, p, m, tvNormW true alp_v alp_h, .tvAna⟩)
          else return (L1C_SUCCESS, some ⟨n, p, m, m, tvNormW false alp_v alp_h, .tvSyn⟩)
        | (status, none) => do
          wfree u
          return (status, none)

/-! ## Matrix -/

/-- src/matrix_transforms.c:78 -/
def destroy_matrix_transforms : WM F Unit := fun w => wfree w.gm.dwork w

/-- src/matrix_transforms.c:37-76; `A` holds `n*m` numbers -/
def l1c_setup_matrix_transforms (n m : Int) (A : Arr F) : WM F (Int × Option (AxFuns F)) := do
  if n ≤ 0 ∨ m ≤ 0 then return (L1C_INVALID_ARGUMENT, none)
  else do
    let L := max n.toNat m.toNat
    let dwork ← wmalloc L
    modify fun w => { w with gm := { w.gm with dwork := dwork } }
    match dwork with
    | none => return (L1C_OUT_OF_MEMORY, none)
    | some b => do
      wzero (some b) L
      modify fun w => { w with gm := { w.gm with A := A, N := n.toNat, M := m.toNat } }
      return (L1C_SUCCESS, some ⟨n, m, m, m, matNormW, .mat⟩)

/-- calling `ax_funs.destroy()` -/
def wdestroy : Kind → WM F Unit
  | .d1 => dct_destroy
  | .d2 => dct2_destroy
  | .tvSyn => tv_destroy
  | .tvAna => tv_destroy
  | .mat => destroy_matrix_transforms

/-! ## Calling operators -/

/-- the FFTW transforms, by size -/
structure FftwLib (F : Type) where
  f1 : ∀ m : ℕ, Fftw F m
  f2 : ∀ mrow mcol : ℕ, Fftw F (mrow * mcol)

inductive Op where
  | Ax | Aty | AtAx | Mx | Mty | Wz | Wtx | Rx | Rty
  deriving DecidableEq

/-- `pix_mask_idx[0..n-1]`; a list that is too short makes every use undefined -/
def idxFun (n : ℕ) (idx : List Int) : Fin n → Int := fun i => idx.getD i (-1)

/-- an operator working on the start of the client's arrays: argument `a`, output `out` -/
def onArrays {k l m : ℕ} (f : Vec F l → DctBuf F m → Option (XOut F k l m)) (a out : Arr F) (s : DctBuf F m) :
    Option ((Arr F × Arr F) × DctBuf F m) := do
  let x ← slice l 0 a.2
  let o ← f x s
  let a' ← writeAt 0 o.arg a.2
  let out' ← writeAt 0 o.res out.2
  return ((⟨a.1, a'⟩, ⟨out.1, out'⟩), o.buf)

/-- copying the first `m` entries -/
def copyArr (m : ℕ) (a out : Arr F) : Option (Arr F × Arr F) := (dcopy m a.2 out.2).map fun v => (a, ⟨out.1, v⟩)

/-- operators of a DCT set that use its buffers -/
def dctOp {m n : ℕ} (f : DctFuns F m n) (op : Op) (a out : Arr F) (s : DctBuf F m) :
    Option ((Arr F × Arr F) × DctBuf F m) :=
  match op with
  | .Ax => onArrays f.Ax a out s
  | .Aty => onArrays f.Aty a out s
  | .AtAx => onArrays f.AtAx a out s
  | .Mx => onArrays f.Mx a out s
  | .Mty => onArrays f.Mty a out s
  | .Rx => onArrays f.Rx a out s
  | .Rty => do
    let old ← slice m 0 out.2
    onArrays (fun y => f.Rty y old) a out s
  | .Wz => (copyArr m a out).map fun r => (r, s)
  | .Wtx => (copyArr m a out).map fun r => (r, s)

/-- the array of `m` doubles at `b` -/
def getArr (w : World F) (m b : ℕ) : Option (Vec F m) :=
  match w.obj b with
  | some (.arr a) => if h : a.1 = m then some (h ▸ a.2) else none
  | _ => none

/-- a live plan of the given kind for the given arrays -/
def IsPlan (w : World F) (b : ℕ) (k : PlanKind) (inp out : ℕ) : Prop := w.obj b = some (.plan k inp out)

instance (w : World F) (b : ℕ) (k : PlanKind) (inp out : ℕ) : Decidable (IsPlan w b k inp out) := by
  unfold IsPlan
  match h : w.obj b with
  | none => exact isFalse (by simp)
  | some (.arr a) => exact isFalse (by simp)
  | some (.plan k' i o) =>
    if hk : k' = k ∧ i = inp ∧ o = out then exact isTrue (by rw [hk.1, hk.2.1, hk.2.2])
    else exact isFalse (by simpa using hk)

/-- the buffers of a DCT module, if its variables are consistent with live arrays and plans -/
def loadBuf (w : World F) (m : ℕ) (Ety x y pM pE : Option ℕ) (kM kE : PlanKind) : Option (DctBuf F m) := do
  let e ← Ety
  let x ← x
  let y ← y
  let pM ← pM
  let pE ← pE
  if IsPlan w pM kM e x ∧ IsPlan w pE kE x y then
    return ⟨← getArr w m e, ← getArr w m x, ← getArr w m y⟩
  else none

def storeArr {m : ℕ} (p : Option ℕ) (v : Vec F m) (obj : ℕ → Option (Obj F)) : ℕ → Option (Obj F) :=
  match p with
  | none => obj
  | some b => Function.update obj b (some (.arr ⟨m, v⟩))

/-- write the buffers back -/
def storeBuf {m : ℕ} (w : World F) (Ety x y : Option ℕ) (s : DctBuf F m) : World F :=
  { w with obj := storeArr y s.dy (storeArr x s.dx (storeArr Ety s.Ety w.obj)) }

/-- buffers of the 1-D module -/
def buf1 (w : World F) (m : ℕ) : Option (DctBuf F m) :=
  if w.g1.m = m then loadBuf w m w.g1.Ety w.g1.x w.g1.y w.g1.pM w.g1.pE (.fwd1 m) (.inv1 m) else none

/-- buffers of the 2-D module -/
def buf2 (w : World F) (mrow mcol : ℕ) : Option (DctBuf F (mrow * mcol)) :=
  if w.g2.mrow = mrow ∧ w.g2.mcol = mcol then
    loadBuf w (mrow * mcol) w.g2.Ety w.g2.x w.g2.y w.g2.pM w.g2.pE (.fwd2 mrow mcol) (.inv2 mrow mcol) else none

def store1 {m : ℕ} (w : World F) (s : DctBuf F m) : World F := storeBuf w w.g1.Ety w.g1.x w.g1.y s
def store2 {m : ℕ} (w : World F) (s : DctBuf F m) : World F := storeBuf w w.g2.Ety w.g2.x w.g2.y s

/-- an operator of a 1-D DCT set, working with whatever the file-scope variables hold now -/
def wcall1 (lib : FftwLib F) (op : Op) (a out : Arr F) : WM F (Arr F × Arr F) := fun w =>
  if op = .Wz ∨ op = .Wtx then (copyArr w.g1.m a out).map fun r => (r, w)
  else if h : 0 < w.g1.m then
    haveI : NeZero w.g1.m := ⟨h.ne'⟩
    do
      let s ← buf1 w w.g1.m
      let r ← dctOp (dct1Funs (lib.f1 w.g1.m) (idxFun w.g1.n w.g1.idx)) op a out s
      return (r.1, store1 w r.2)
  else none

/-- an operator of a 2-D DCT set -/
def wcall2 (lib : FftwLib F) (op : Op) (a out : Arr F) : WM F (Arr F × Arr F) := fun w =>
  if op = .Wz ∨ op = .Wtx then (copyArr (w.g2.mrow * w.g2.mcol) a out).map fun r => (r, w)
  else if h : 0 < w.g2.mrow ∧ 0 < w.g2.mcol then
    haveI : NeZero w.g2.mrow := ⟨h.1.ne'⟩
    haveI : NeZero w.g2.mcol := ⟨h.2.ne'⟩
    do
      let s ← buf2 w w.g2.mrow w.g2.mcol
      let r ← dctOp (dct2Funs (lib.f2 w.g2.mrow w.g2.mcol) (idxFun w.g2.n w.g2.idx)) op a out s
      return (r.1, store2 w r.2)
  else none

/-- an operator of a matrix set -/
def wcallM (op : Op) (a out : Arr F) : WM F (Arr F × Arr F) := fun w => do
  let A ← slice (w.gm.N * w.gm.M) 0 w.gm.A.2
  match op with
  | .Ax | .Rx => do
    let x ← slice w.gm.M 0 a.2
    let y ← writeAt 0 (matAx A x) out.2
    return ((a, ⟨out.1, y⟩), w)
  | .Aty | .Rty => do
    let y ← slice w.gm.N 0 a.2
    let x ← writeAt 0 (matAty A y) out.2
    return ((a, ⟨out.1, x⟩), w)
  | .AtAx => do
    let x ← slice w.gm.M 0 a.2
    let b ← w.gm.dwork
    let d ← getArr w (max w.gm.N w.gm.M) b
    let r ← matAtAx A x d
    let z ← writeAt 0 r.1 out.2
    return ((a, ⟨out.1, z⟩), { w with obj := Function.update w.obj b (some (.arr ⟨_, r.2⟩)) })
  | .Mx | .Mty | .Wz | .Wtx => (copyArr w.gm.M a out).map fun r => (r, w)

/-- the DCT functions `ax_funs_local` points to, with their buffers -/
def locFuns (lib : FftwLib F) (w : World F) (mrow mcol : ℕ) (h : 0 < mrow ∧ 0 < mcol) :
    Option (Σ n, DctFuns F (mrow * mcol) n × DctBuf F (mrow * mcol)) :=
  haveI : NeZero mrow := ⟨h.1.ne'⟩
  haveI : NeZero mcol := ⟨h.2.ne'⟩
  haveI : NeZero (mrow * mcol) := ⟨(Nat.mul_pos h.1 h.2).ne'⟩
  match w.gt.loc with
  | some .d1 => (buf1 w (mrow * mcol)).map fun s => ⟨w.g1.n, dct1Funs (lib.f1 (mrow * mcol)) (idxFun w.g1.n w.g1.idx), s⟩
  | some .d2 => (buf2 w mrow mcol).map fun s => ⟨w.g2.n, dct2Funs (lib.f2 mrow mcol) (idxFun w.g2.n w.g2.idx), s⟩
  | _ => none

def locStore {m : ℕ} (w : World F) (s : DctBuf F m) : World F :=
  match w.gt.loc with
  | some .d1 => store1 w s
  | _ => store2 w s

/-- operators of a DCT+TV set other than the copies; `syn` tells the mode the set was made for -/
def tvOp {mrow mcol n : ℕ} (c : TvCfg F mrow mcol n) (syn : Bool) (op : Op) (a out : Arr F)
    (s : TvBuf F (mrow * mcol) c.p) : Option ((Arr F × Arr F) × TvBuf F (mrow * mcol) c.p) :=
  let W : Option ((Arr F × Arr F) × TvBuf F (mrow * mcol) c.p) := do
    let v ← slice c.p 0 a.2
    let o ← tvWv c v s
    let a' ← writeAt 0 (tvWvArg c v s) a.2
    let y ← writeAt 0 o.res out.2
    return ((⟨a.1, a'⟩, ⟨out.1, y⟩), o.buf)
  let Wt : Option ((Arr F × Arr F) × TvBuf F (mrow * mcol) c.p) := do
    let x ← slice (mrow * mcol) 0 a.2
    let old ← slice c.p 0 out.2
    let o ← tvWtx c x old s
    let y ← writeAt 0 o.res out.2
    return ((a, ⟨out.1, y⟩), o.buf)
  let R : Option ((Arr F × Arr F) × TvBuf F (mrow * mcol) c.p) := do
    let x ← slice (mrow * mcol) 0 a.2
    let o ← tvRx c x s
    let y ← writeAt 0 o.res out.2
    return ((a, ⟨out.1, y⟩), o.buf)
  let Rt : Option ((Arr F × Arr F) × TvBuf F (mrow * mcol) c.p) := do
    let y ← slice n 0 a.2
    let old ← slice (mrow * mcol) 0 out.2
    let o ← tvRty c y old s
    let x ← writeAt 0 o.res out.2
    return ((a, ⟨out.1, x⟩), o.buf)
  let A : Option ((Arr F × Arr F) × TvBuf F (mrow * mcol) c.p) := do
    let v ← slice c.p 0 a.2
    let o ← tvAv c v s
    let a' ← writeAt 0 (tvWvArg c v s) a.2
    let y ← writeAt 0 o.res out.2
    return ((⟨a.1, a'⟩, ⟨out.1, y⟩), o.buf)
  let At : Option ((Arr F × Arr F) × TvBuf F (mrow * mcol) c.p) := do
    let y ← slice n 0 a.2
    let old ← slice c.p 0 out.2
    let o ← tvAty c y old s
    let x ← writeAt 0 o.res out.2
    return ((a, ⟨out.1, x⟩), o.buf)
  match op, syn with
  | .Ax, true => A
  | .Ax, false => R
  | .Aty, true => At
  | .Aty, false => Rt
  | .Mx, true => W
  | .Mty, true => Wt
  | .Wz, false => W
  | .Wtx, false => Wt
  | .Rx, _ => R
  | .Rty, _ => Rt
  | _, _ => none

/-- the operators of a DCT+TV set that are not plain copies, with the sizes and weights in the file-scope variables as
explicit arguments -/
def wcallTAt (lib : FftwLib F) (syn : Bool) (op : Op) (a out : Arr F) (mrow mcol : ℕ) (alp_v alp_h : F) :
    WM F (Arr F × Arr F) := fun w =>
  if h : (0 < mrow ∧ 0 < mcol) ∧ w.gt.jobV = job alp_v ∧ w.gt.jobH = job alp_h then do
    let l ← locFuns lib w mrow mcol h.1
    let b ← w.gt.u
    let u ← getArr w (tvP (mrow * mcol) alp_v alp_h) b
    let r ← tvOp (⟨l.2.1, alp_v, alp_h⟩ : TvCfg F mrow mcol l.1) syn op a out ⟨l.2.2, u⟩
    let w' := locStore w r.2.dct
    return (r.1, { w' with obj := Function.update w'.obj b (some (.arr ⟨_, r.2.u⟩)) })
  else none

/-- an operator of a DCT+TV set: src/dct_tv_transforms.c:144-162 -/
def wcallT (lib : FftwLib F) (syn : Bool) (op : Op) (a out : Arr F) : WM F (Arr F × Arr F) := fun w =>
  if (syn ∧ (op = .Wz ∨ op = .Wtx)) ∨ (¬ syn ∧ (op = .Mx ∨ op = .Mty)) then
    (copyArr (w.gt.mrow * w.gt.mcol).toNat a out).map fun r => (r, w)
  else if op = .AtAx then none
  else wcallTAt lib syn op a out w.gt.mrow.toNat w.gt.mcol.toNat w.gt.alp_v w.gt.alp_h w

/-- calling an operator through a `l1c_AxFuns` -/
def wcall (lib : FftwLib F) : Kind → Op → Arr F → Arr F → WM F (Arr F × Arr F)
  | .d1, op, a, out => wcall1 lib op a out
  | .d2, op, a, out => wcall2 lib op a out
  | .tvSyn, op, a, out => wcallT lib true op a out
  | .tvAna, op, a, out => wcallT lib false op a out
  | .mat, op, a, out => wcallM op a out

end L1c
