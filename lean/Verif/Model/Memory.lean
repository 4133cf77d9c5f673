import Verif.Base.Heap

/-!
# Model of `src/l1c_memory.c` (the `posix_memalign` build, lines 9-22, and 48-136)

Alignment is not modelled.  `l1c_init_vec` is modelled in `Verif/Model/Math.lean`; here its effect is the
element-by-element store loop.
-/

namespace L1c
variable {F : Type} [Scalar F]

/-- src/l1c_memory.c:9-20 (and 27-31 for the `_mm_malloc` build) -/
def l1c_malloc_double (N : Int) : HM F (Option ℕ) := hmalloc (sizeBytes N)

/-- src/l1c_memory.c:22 -/
def l1c_free_double (x : Option ℕ) : HM F Unit := hfree x

/-- effect of `l1c_init_vec(N, x, 0)` (src/l1c_math.c) on a heap block -/
def h_init_vec (N : Int) (x : ℕ) : HM F Unit := hfor (fun i => hstore x i (.num (Scalar.lit 0))) N.toNat

/-- src/l1c_memory.c:48-55 -/
def l1c_calloc_double (N : Int) : HM F (Option ℕ) := do
  let dptr ← l1c_malloc_double N
  match dptr with
  | none => pure none
  | some b => do
    h_init_vec N b
    pure (some b)

/-- src/l1c_memory.c:101-106, the loop that allocates rows; `false` is `goto fail2`.
`fuel` counts the remaining rows, `k` is the C loop variable. -/
def allocRows (dwork : ℕ) (ncol : Int) : ℕ → ℕ → HM F Bool
  | 0, _ => pure true
  | fuel + 1, k => do
    let r ← l1c_malloc_double ncol
    hstore dwork k (.ptr r)
    match r with
    | none => pure false
    | some _ => allocRows dwork ncol fuel (k + 1)

/-- src/l1c_memory.c:111-113 and 130-132: free every row -/
def freeRows (dwork : ℕ) (nrow : Int) : HM F Unit :=
  hfor (fun k => do
    let r ← hloadPtr dwork k
    l1c_free_double r) nrow.toNat

/-- src/l1c_memory.c:90-118 -/
def l1c_malloc_double_2D (nrow ncol : Int) : HM F (Option ℕ) := do
  let dwork ← hmalloc (sizeBytes nrow)
  match dwork with
  | none => do
    hfree none
    pure none
  | some t => do
    hfor (fun k => hstore t k (.ptr none)) nrow.toNat
    let ok ← allocRows t ncol nrow.toNat 0
    if ok then pure (some t)
    else do
      freeRows t nrow
      hfree (some t)
      pure none

/-- `l1c_init_vec(ncol, dptr[i], 0)`: writing through a NULL row pointer is undefined behaviour -/
def initRow (ncol : Int) : Option ℕ → HM F Unit
  | none => if 0 < ncol then (fun _ => none) else pure ()
  | some b => h_init_vec ncol b

/-- src/l1c_memory.c:68-76 -/
def l1c_calloc_double_2D (nrow ncol : Int) : HM F (Option ℕ) := do
  let dptr ← l1c_malloc_double_2D nrow ncol
  match dptr with
  | none => pure none
  | some t => do
    hfor (fun i => do
      let r ← hloadPtr t i
      initRow ncol r) nrow.toNat
    pure (some t)

/-- src/l1c_memory.c:127-136 -/
def l1c_free_double_2D (nrow : Int) (ddptr : Option ℕ) : HM F Unit := do
  match ddptr with
  | none => pure ()
  | some t => freeRows t nrow
  hfree ddptr

end L1c
