import Verif.Model.Json
import Verif.Model.L1qcDct

/-!
# The example program, examples/c/l1qc_dct_c.c

The client state holds the number of open files and the `World` of the transform modules.  The command line only chooses the file
(`FileEnv`, `parse`) and the verbosity, which has no effect here.  The memory of the parsed document is not tracked (as in
`Verif/Model/Json.lean`), messages are left out.
-/

namespace L1c
open Scalar

variable {F : Type} [Scalar F] {α : Type}

/-- a computation that only knows the open files -/
def nfiles (x : NM ℕ α) : NM (ℕ × World F) α := fun s =>
  (x ⟨s.live, s.next, s.calls, s.oracle, s.cb.1⟩).map fun r => (r.1, ⟨r.2.live, r.2.next, r.2.calls, r.2.oracle, (r.2.cb, s.cb.2)⟩)

/-- a computation that only knows the transform modules -/
def nworld (x : NM (World F) α) : NM (ℕ × World F) α := fun s =>
  (x ⟨s.live, s.next, s.calls, s.oracle, s.cb.2⟩).map fun r => (r.1, ⟨r.2.live, r.2.next, r.2.calls, r.2.oracle, (s.cb.1, r.2.cb)⟩)

/-- examples/c/l1qc_dct_c.c:47-58; fields that are not named are 0, the verbosities are left out -/
def exampleOpts : QOpts F where
  epsilon := lit (1 / 10)
  mu := lit 10
  lbtol := lit (1 / 1000)
  tau := lit 0
  lbiter := 0
  newton_tol := lit (1 / 1000)
  newton_max_iter := 50
  l1_tol := lit (1 / 100000)
  cg_tol := lit (1 / 100000000)
  cg_maxiter := 200
  warm_start_cg := 0

/-- a list as an array -/
def listArr (l : List F) : Arr F := ⟨l.length, fun i => l.get i⟩

/-- `l1c_malloc_double(m)` with whatever the memory holds -/
def freshArr (m : Int) (junk : ℕ → F) : Arr F := ⟨m.toNat, fun i => junk i⟩

/-- examples/c/l1qc_dct_c.c:13-89.  First component: the value `main` returns; second: what the recovery returned, if it was called
(the program discards it).  `junk` is what the fresh array `x` holds. -/
def exampleMain (lib : FftwLib F) (parse : List UInt8 → Option (CJ F)) (e : FileEnv) (junk : ℕ → F) :
    NM (ℕ × World F) (Int × Option (DctOut F)) := do
  let fpath ← nalloc
  match fpath with
  | none => pure (1, none)
  | some f => do
    let r ← nfiles (load_file_to_json parse e)
    if r.1 ≠ 0 then do
      nfree (some f)
      pure (L1C_FILE_READ_FAILURE, none)
    else do
      let doc := r.2.getD none
      let b ← nfiles (extract_json_double_array doc "b")
      let p ← nfiles (extract_json_int_array doc "pix_idx")
      let mm := extract_json_int doc "mtot"
      let n := p.N.getD (b.N.getD 0)
      let m := mm.2.getD 0
      let status := b.status + p.status + mm.1
      let bptr := b.x.getD none
      let pptr := p.x.getD none
      let x ← nfiles (ncalloc m)
      let out ←
        if status ≠ 0 ∨ x.isNone then pure (status + 1, none)
        else do
          let o ← nworld (l1qc_dct lib m 1 (freshArr m junk) n (listArr ((bptr.map (·.2)).getD []))
            ((pptr.map (·.2)).getD []) DCT1 exampleOpts)
          pure (status, some o)
      nfree (some f)
      nfree x
      nfree (pptr.map (·.1))
      nfree (bptr.map (·.1))
      pure out

end L1c
