import Verif.Model.Nesta

/-!
# Model of `src/json_utils.c`

Memory is tracked as in `Verif/Model/Nesta.lean`; the client state counts the open files.  The C library and
cJSON are outside: what `fopen`, `ftell` and `fread` deliver is an arbitrary `FileEnv`, and `cJSON_Parse` is an arbitrary
function of the text (the memory of the parsed document is not tracked).  Messages to stderr are left out.
-/

namespace L1c
open Scalar

/-- conversion to `int` (as the usual compilers do it: modulo 2^32) -/
def toCInt (z : Int) : Int := (z + 2147483648) % 4294967296 - 2147483648

/-- what the C library does with the named file -/
structure FileEnv where
  /-- `fopen` succeeds -/
  opens : Bool
  /-- what `get_file_length` (src/json_utils.c:175-182) returns, a `long`; -1 if the stream cannot be positioned -/
  ftell : Int
  /-- the bytes `fread` can deliver before end of file or an error -/
  stream : List UInt8

/-- `calloc(count, size)` of `k` bytes in total, `k` an `int` converted to `size_t`: no allocator can serve a request that was
negative before the conversion -/
def ncalloc (k : Int) : NM ℕ (Option ℕ) :=
  if k < 0 then (fun s => some (none, { s with calls := s.calls + 1 })) else nalloc

/-- number of bytes `fread(buf, file_len, 1, f)` asks for: `file_len` converted to `size_t` -/
def freadSize (file_len : Int) : ℕ := (file_len % 18446744073709551616).toNat

def fopened : NM ℕ Unit := fun s => some ((), { s with cb := s.cb + 1 })
def fclose : NM ℕ Unit := fun s => some ((), { s with cb := s.cb - 1 })

/-- src/json_utils.c:21-50.  Second component: `*file_data` (the block and its contents) if it is not NULL. -/
def load_file_as_text (e : FileEnv) : NM ℕ (Int × Option (ℕ × List UInt8)) := do
  if !e.opens then pure (1, none)
  else do
    fopened
    let file_len := toCInt e.ftell
    if ¬ FitsInt (file_len + 1) then nub
    else do
      let p ← ncalloc (file_len + 1)
      match p with
      | none => do
        fclose
        pure (1, none)
      | some b => do
        let got := e.stream.take (freadSize file_len)
        if (got.length : Int) > file_len + 1 then nub
        else do
          fclose
          let text := got ++ List.replicate ((file_len + 1).toNat - got.length) 0
          if freadSize file_len ≠ 0 ∧ freadSize file_len ≤ e.stream.length then pure (0, some (b, text))
          else pure (1, some (b, text))

/-- a C string ends at the first zero byte -/
def cstring (text : List UInt8) : List UInt8 := text.takeWhile (· ≠ 0)

/-- src/json_utils.c:52-71 for a valid pointer `data_json`, so the test at line 62 is never true.  Second component: what
was stored in `*data_json`, if anything was; `some none` is a stored NULL. -/
def load_file_to_json {J : Type} (parse : List UInt8 → Option J) (e : FileEnv) : NM ℕ (Int × Option (Option J)) := do
  let r ← load_file_as_text e
  if r.1 ≠ 0 then pure (1, none)
  else do
    let doc := (r.2.map fun t => parse (cstring t.2)).getD none
    nfree (r.2.map (·.1))
    pure (0, some doc)

/-! ## Fields of a document -/

/-- cJSON items; numbers carry `valuedouble` and `valueint` -/
inductive CJ (F : Type) where
  | null
  | bool (b : Bool)
  | num (valuedouble : F) (valueint : Int)
  | str (s : String)
  | arr (l : List (CJ F))
  | obj (l : List (String × CJ F))

variable {F : Type} [Scalar F]

/-- `item->valuedouble`: cJSON clears new items, so 0 for everything but numbers -/
def CJ.valuedouble : CJ F → F
  | num d _ => d
  | _ => lit 0

/-- `item->valueint`: as above, except that cJSON stores 1 for `true` -/
def CJ.valueint : CJ F → Int
  | num _ i => i
  | bool true => 1
  | _ => 0

/-- `cJSON_GetObjectItemCaseSensitive`: the first member with that name -/
def CJ.get (name : String) : CJ F → Option (CJ F)
  | obj l => (l.find? fun e => e.1 == name).map (·.2)
  | _ => none

/-- src/json_utils.c:73-88; second component: `*N` if written -/
def extract_json_int (data_json : Option (CJ F)) (name : String) : Int × Option Int :=
  match data_json with
  | none => (1, none)
  | some d =>
    match d.get name with
    | some (.num a i) => (0, some (CJ.valueint (.num a i)))
    | _ => (1, none)

/-- src/json_utils.c:90-105; second component: `*a` if written -/
def extract_json_double (data_json : Option (CJ F)) (name : String) : Int × Option F :=
  match data_json with
  | none => (1, none)
  | some d =>
    match d.get name with
    | some (.num a i) => (0, some (CJ.valuedouble (.num a i)))
    | _ => (1, none)

/-- what the array functions leave: status, `*N` if written, `*x` if written (block and contents, or NULL) -/
structure ArrOut (T : Type) where
  status : Int
  N : Option Int
  x : Option (Option (ℕ × List T))

/-- src/json_utils.c:107-142.  The array is filled element by element; more elements than were allocated (only when the
element count does not fit in `int`) is an overrun. -/
def extract_json_double_array (data_json : Option (CJ F)) (name : String) : NM ℕ (ArrOut F) :=
  match data_json with
  | none => pure ⟨1, none, none⟩
  | some d =>
    match d.get name with
    | some (.arr l) => do
      let N := toCInt l.length
      let x ← ncalloc N
      match x with
      | none => pure ⟨1, some N, some none⟩
      | some b => if (l.length : Int) > N then nub else pure ⟨0, some N, some (some (b, l.map CJ.valuedouble))⟩
    | _ => pure ⟨1, some 0, none⟩

/-- src/json_utils.c:144-173: the pointer is not tested before it is written through -/
def extract_json_int_array (data_json : Option (CJ F)) (name : String) : NM ℕ (ArrOut Int) :=
  match data_json with
  | none => pure ⟨1, none, none⟩
  | some d =>
    match d.get name with
    | some (.arr l) => do
      let N := toCInt l.length
      let x ← ncalloc N
      match x with
      | none => if l.length > 0 then nub else pure ⟨0, some N, some none⟩
      | some b => if (l.length : Int) > N then nub else pure ⟨0, some N, some (some (b, l.map CJ.valueint))⟩
    | _ => pure ⟨1, some 0, none⟩

end L1c
