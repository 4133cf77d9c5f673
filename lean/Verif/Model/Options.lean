import Verif.Model.NestaBindings
import Verif.Model.BregBindings

/-!
# How options reach the interfaces

* Matlab: the functions `l1qc_dct_opts.m` and `nesta_opts.m`, which build the option structs that the gateways read.  Both hand
  their name-value pairs to Matlab's `inputParser` with its default settings: a name stands for the parameter that it abbreviates
  (case ignored), an unknown or ambiguous name is an error, the last of several values counts, parameters that are not given
  keep their defaults.  `resolve` says which parameter a name stands for.  Simplification: options given as a struct, and lists
  that are not pairs with names, are left out.
* Python: `PyArg_ParseTupleAndKeywords` in the three functions of `interfaces/python/l1cPy.c`.  Names `""` are positional only.
  Simplification: an integer too large for a double (an error) counts as its rounded value.
-/

namespace L1c
open Scalar

variable {F : Type} [Scalar F]

/-! ## Matlab -/

/-- the value of an option: an array of numbers or a string -/
inductive MxFld (F : Type) where
  | num (a : MxArr F)
  | str (s : String)

/-- a number of a Matlab program -/
def mxLit (q : ℚ) : MxFld F := .num ⟨true, 1, 1, 2, fun _ => lit q⟩

/-- the fields of a struct as the gateways see them: numbers; a string is an array that is not of class double -/
def numField (st : String → Option (MxFld F)) (name : String) : Option (MxArr F) :=
  (st name).map fun v => match v with
    | .num a => a
    | .str s => ⟨false, 1, s.length, 2, fun _ => lit 0⟩

/-- the field `bp_mode` as `mxGetString` reads it -/
def modeField (st : String → Option (MxFld F)) : Option (Option String) :=
  (st "bp_mode").map fun v => match v with
    | .num _ => none
    | .str s => some s

/-- `inputParser.parse`: one pair after the other replaces a value; `none` is an error -/
def inputParse (resolve : String → Option String) (st : String → Option (MxFld F)) : List (String × MxFld F) → Option (String → Option (MxFld F))
  | [] => some st
  | (n, v) :: rest =>
    match resolve n with
    | none => none
    | some p => if (st p).isNone then none else inputParse resolve (Function.update st p (some v)) rest

/-- the parameters as they have been added -/
def addParameters (d : List (String × MxFld F)) (name : String) : Option (MxFld F) := (d.find? fun x => x.1 = name).map (·.2)

/-- interfaces/mex/l1qc_dct_opts.m:46-59 -/
def l1qcDefaults : List (String × MxFld F) :=
  [("epsilon", mxLit 0.1), ("mu", mxLit 10), ("lbtol", mxLit 1e-3), ("tau", mxLit 0), ("lbiter", mxLit 0), ("newton_tol", mxLit 1e-3),
   ("newton_max_iter", mxLit 50), ("verbose", mxLit 2), ("l1_tol", mxLit 1e-5), ("cgtol", mxLit 1e-8), ("cgmaxiter", mxLit 200),
   ("warm_start_cg", mxLit 0), ("dct_mode", mxLit 1)]

/-- interfaces/mex/l1qc_dct_opts.m:1-63 -/
def l1qc_dct_opts (resolve : String → Option String) (varargin : List (String × MxFld F)) : Option (String → Option (MxFld F)) :=
  inputParse resolve (addParameters l1qcDefaults) varargin

/-- interfaces/mex/nesta_opts.m:19-29 -/
def nestaDefaults : List (String × MxFld F) :=
  [("sigma", mxLit 0.01), ("mu", mxLit 1e-5), ("tol", mxLit 1e-3), ("alpha_v", mxLit 0), ("alpha_h", mxLit 0), ("verbose", mxLit 5),
   ("n_continue", mxLit 5), ("bp_mode", .str "analysis"), ("dct_mode", mxLit 1)]

/-- interfaces/mex/nesta_opts.m:1-36 -/
def nesta_opts (resolve : String → Option String) (varargin : List (String × MxFld F)) : Option (String → Option (MxFld F)) :=
  inputParse resolve (addParameters nestaDefaults) varargin

/-! ## Python -/

/-- a Python object: a number or something else, and the array that numpy makes of it, of doubles or of integers -/
structure PyVal (F : Type) where
  num : Option (Int ⊕ F)
  dbl : Option (NpArr F)
  ints : Option (NpArr Int)

/-- format `d`; an argument that is not given leaves the variable as it is -/
def pyD (dflt : F) : Option (PyVal F) → Option F
  | none => some dflt
  | some v => match v.num with
    | some (.inl z) => some (lit z)
    | some (.inr x) => some x
    | none => none

/-- format `i` -/
def pyI (dflt : Int) : Option (PyVal F) → Option Int
  | none => some dflt
  | some v => match v.num with
    | some (.inl z) => if FitsInt z then some z else none
    | _ => none

/-- what belongs to parameter number `i` called `name` -/
def pySlot (args : List (PyVal F)) (kw : List (String × PyVal F)) (i : ℕ) (name : String) : Option (PyVal F) :=
  if i < args.length then args[i]? else if name = "" then none else (kw.find? fun x => x.1 = name).map (·.2)

/-- the checks of `PyArg_ParseTupleAndKeywords` on the number and names of the arguments: `opt` are the names after the `npos`
positional-only ones, of which `nreq` are required -/
def pyNamesOk (nreq npos : ℕ) (opt : List String) (args : List (PyVal F)) (kw : List (String × PyVal F)) : Bool :=
  decide (nreq ≤ args.length) && decide (args.length ≤ npos + opt.length) && kw.all fun x => decide (x.1 ∈ opt.drop (args.length - npos))

/-- interfaces/python/l1cPy.c:122-136 -/
def l1qcKeywords : List String := ["epsilon", "mu", "lbtol", "newton_tol", "newton_max_iter", "verbose", "l1_tol", "cgtol", "cgmaxiter", "dct_mode"]

/-- interfaces/python/l1cPy.c:94-160: the defaults are those of `opts`; `tau`, `lbiter` and `warm_start_cg` have no name -/
def py_l1qc_args (args : List (PyVal F)) (kw : List (String × PyVal F)) : Option (PyL1qcArgs F) :=
  if ¬ pyNamesOk 4 4 l1qcKeywords args kw then none
  else do
    let mrow ← pyI 0 (pySlot args kw 0 "")
    let mcol ← pyI 0 (pySlot args kw 1 "")
    let b ← pySlot args kw 2 ""
    let pix_idx ← pySlot args kw 3 ""
    let epsilon ← pyD (lit 0.01) (pySlot args kw 4 "epsilon")
    let mu ← pyD (lit 10) (pySlot args kw 5 "mu")
    let lbtol ← pyD (lit 1e-3) (pySlot args kw 6 "lbtol")
    let newton_tol ← pyD (lit 1e-3) (pySlot args kw 7 "newton_tol")
    let newton_max_iter ← pyI 50 (pySlot args kw 8 "newton_max_iter")
    let _ ← pyI 0 (pySlot args kw 9 "verbose")
    let l1_tol ← pyD (lit 1e-5) (pySlot args kw 10 "l1_tol")
    let cg_tol ← pyD (lit 1e-8) (pySlot args kw 11 "cgtol")
    let cg_maxiter ← pyI 200 (pySlot args kw 12 "cgmaxiter")
    let dct_mode ← pyI DCT1 (pySlot args kw 13 "dct_mode")
    pure ⟨mrow, mcol, b.dbl, pix_idx.ints, ⟨epsilon, mu, lbtol, lit 0, 0, newton_tol, newton_max_iter, l1_tol, cg_tol, cg_maxiter, 0⟩, dct_mode⟩

/-- `l1cPy.l1qc_dct(*args, **kw)`, interfaces/python/l1cPy.c:94-245 -/
def py_l1qc_call (lib : FftwLib F) (args : List (PyVal F)) (kw : List (String × PyVal F)) : NM (PyState F) (PyOut F) :=
  match py_l1qc_args args kw with
  | none => pure (.exc "TypeError")
  | some a => py_l1qc_dct lib a

/-- interfaces/python/l1cPy.c:351-364 -/
def nestaKeywords : List String := ["alpha_v", "alpha_h", "sigma", "mu", "tol", "n_continue", "verbose", "dct_mode", "bp_mode"]

/-- interfaces/python/l1cPy.c:334-386 -/
def py_nesta_args (args : List (PyVal F)) (kw : List (String × PyVal F)) : Option (PyNestaArgs F) :=
  if ¬ pyNamesOk 4 4 nestaKeywords args kw then none
  else do
    let mrow ← pyI 0 (pySlot args kw 0 "")
    let mcol ← pyI 0 (pySlot args kw 1 "")
    let b ← pySlot args kw 2 ""
    let pix_idx ← pySlot args kw 3 ""
    let alpha_v ← pyD (lit 0) (pySlot args kw 4 "alpha_v")
    let alpha_h ← pyD (lit 0) (pySlot args kw 5 "alpha_h")
    let sigma ← pyD (lit 0.01) (pySlot args kw 6 "sigma")
    let mu ← pyD (lit 1e-5) (pySlot args kw 7 "mu")
    let tol ← pyD (lit 1e-5) (pySlot args kw 8 "tol")
    let n_continue ← pyI 5 (pySlot args kw 9 "n_continue")
    let _ ← pyI 5 (pySlot args kw 10 "verbose")
    let dct_mode ← pyI DCT1 (pySlot args kw 11 "dct_mode")
    let bp_mode ← pyI BP_ANALYSIS (pySlot args kw 12 "bp_mode")
    pure ⟨mrow, mcol, b.dbl, pix_idx.ints, alpha_v, alpha_h, bp_mode, dct_mode, ⟨sigma, mu, tol, n_continue⟩⟩

/-- `l1cPy.nesta_dctTV(*args, **kw)`, interfaces/python/l1cPy.c:334-473 -/
def py_nesta_call (lib : FftwLib F) (args : List (PyVal F)) (kw : List (String × PyVal F)) : NM (PyState F) (PyNestaOut F) :=
  match py_nesta_args args kw with
  | none => pure (.exc "TypeError")
  | some a => py_nesta_dctTV lib a

/-- interfaces/python/l1cPy.c:259 -/
def bregKeywords : List String := ["mu", "tol", "max_iter", "max_jac_iter"]

/-- interfaces/python/l1cPy.c:247-266: the numbers; the image is `args[0]` -/
def py_breg_args (args : List (PyVal F)) (kw : List (String × PyVal F)) : Option (PyVal F × F × F × Int × Int) :=
  if ¬ pyNamesOk 1 1 bregKeywords args kw then none
  else do
    let f ← pySlot args kw 0 ""
    let mu ← pyD (lit 10) (pySlot args kw 1 "mu")
    let tol ← pyD (lit 0.001) (pySlot args kw 2 "tol")
    let max_iter ← pyI 1000 (pySlot args kw 3 "max_iter")
    let max_jac_iter ← pyI 1 (pySlot args kw 4 "max_jac_iter")
    pure (f, mu, tol, max_iter, max_jac_iter)

end L1c
