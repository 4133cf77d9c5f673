import Verif.Model.BregBindings
import Verif.Model.Options

/-!
# The Python call `breg_anistropic_TV(f, mu=…, tol=…, max_iter=…, max_jac_iter=…)`

`_breg_anistropic_TV` in `interfaces/python/l1cPy.c`, from the parsing of the arguments to the returned object, with the
reference counts of the Python objects it creates.  `Verif.Model.BregBindings.py_breg` is the part after the conversion to an
array, without the counts.

The conversion itself belongs to numpy: `conv` says for each object whether it can be converted to an array of doubles, with which
dimensions, and where the numbers are.  Objects that the caller holds are not counted, as the function does not touch their counts.
-/

namespace L1c
open Prog Scalar

variable {F : Type} [Scalar F]

/-- the interpreter: references to each object, the next object, and which requests for a new object are granted -/
structure PyRefs where
  refs : ℕ → ℕ
  next : ℕ
  calls : ℕ
  oracle : ℕ → Bool

/-- C code called from Python -/
abbrev PyCmd (F : Type) := StateT PyRefs (Cmd F)

/-- a library call -/
def pyRun {α : Type} (c : Cmd F α) : PyCmd F α := fun r => do
  let a ← c
  pure (a, r)

/-- a new Python object with one reference, or NULL -/
def pyNewC : PyCmd F (Option ℕ) := fun r =>
  if r.oracle r.calls then pure (some r.next, { r with refs := Function.update r.refs r.next 1, next := r.next + 1, calls := r.calls + 1 })
  else pure (none, { r with calls := r.calls + 1 })

/-- `Py_INCREF` -/
def pyIncC (o : ℕ) : PyCmd F Unit := fun r => pure ((), { r with refs := Function.update r.refs o (r.refs o + 1) })

/-- `Py_DECREF`; dropping a reference that does not exist is undefined -/
def pyDecC (o : ℕ) : PyCmd F Unit := fun r => do
  Cmd.need (r.refs o ≠ 0)
  pure ((), { r with refs := Function.update r.refs o (r.refs o - 1) })

/-- an array of doubles: number of dimensions, the first two of them, and where the numbers are -/
structure NpImg where
  ndim : ℕ
  dim0 : ℕ
  dim1 : ℕ
  ptr : Ptr

/-- how a call ends: an exception, or an object with its shape and its numbers -/
inductive PyImgOut (F : Type) where
  | exc (kind : String)
  | ret (obj : ℕ) (rows cols : Int) (data : List F)

/-- interfaces/python/l1cPy.c:275-331: `fA` is the converted array -/
def py_breg_body (fA : ℕ) (img : NpImg) (mu tol : F) (max_iter max_jac_iter : Int) : PyCmd F (PyImgOut F) :=
  if img.ndim ≠ 2 then do
    pyDecC fA
    pure (.exc "IndexError")
  else
    let n := toCInt img.dim0
    let m := toCInt img.dim1
    if n < 3 ∨ m < 3 then do
      pyDecC fA
      pure (.exc "ValueError")
    else do
      pyRun (Cmd.need (FitsInt (n * m)))
      let f_ours ← pyRun (Cmd.callocC (n * m))
      let uk ← pyRun (Cmd.callocC (n * m))
      match f_ours, uk with
      | some f_ours, some uk => do
        pyRun (Cmd.exec (cblas_dcopy (n * m) img.ptr f_ours))
        let st ← pyRun (l1c_breg_anistropic_TV n m uk f_ours mu tol max_iter max_jac_iter)
        if st.1 ≠ 0 then do
          pyRun (Cmd.freeC (some f_ours))
          pyRun (Cmd.freeC (some uk))
          pyDecC fA
          pure (.exc "MemoryError")
        else do
          let out ← pyNewC
          match out with
          | none => do
            pyRun (Cmd.freeC (some f_ours))
            pyRun (Cmd.freeC (some uk))
            pyDecC fA
            pure (.exc "MemoryError")
          | some out => do
            let data ← pyRun (readBuf uk (n * m).toNat)
            pyDecC fA
            pyRun (Cmd.freeC (some f_ours))
            pyRun (Cmd.freeC (some uk))
            pyIncC out
            pure (.ret out n m data)
      | _, _ => do
        pyDecC fA
        pure (.exc "MemoryError")

/-- interfaces/python/l1cPy.c:247-331.  `Py_BuildValue("O", x)` returns `x` with one more reference (line 322: `pyIncC`). -/
def py_breg_call (conv : PyVal F → Option NpImg) (args : List (PyVal F)) (kw : List (String × PyVal F)) : PyCmd F (PyImgOut F) :=
  match py_breg_args args kw with
  | none => pure (.exc "TypeError")
  | some (f, mu, tol, max_iter, max_jac_iter) =>
    match conv f with
    | none => pure (.exc "RuntimeError")
    | some img => do
      let fA ← pyNewC
      match fA with
      | none => pure (.exc "RuntimeError")
      | some fA => py_breg_body fA img mu tol max_iter max_jac_iter

end L1c
