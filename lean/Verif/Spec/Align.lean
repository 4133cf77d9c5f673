import Verif.Model.DctTvMem
import Verif.Model.L1qcDctMem

/-!
# Promises of alignment

`__builtin_assume_aligned(p, DALIGN)` promises the compiler that the address `p` is a multiple of 64 bytes; if it is not, the behaviour is undefined.  The address of a
block is given from outside: `base b` is the byte at which block `b` starts.  A promise is broken when some execution comes to a loop or an `assume` that names a
pointer whose address is not a multiple of 64.
-/

namespace L1c

/-- `DALIGN`, include/l1c.h:26-28 -/
def DALIGN : ℕ := 64

/-- the address of the pointer is a multiple of `DALIGN`; a double has 8 bytes -/
def Ptr.Aligned (base : ℕ → ℕ) (p : Ptr) : Prop := (DALIGN : Int) ∣ (base p.blk : Int) + 8 * p.off

/-- what `l1c_malloc_double` guarantees (src/l1c_memory.c:14, 29): the blocks it will hand out start at a multiple of `DALIGN` -/
def FreshAligned {F : Type} (base : ℕ → ℕ) (s : PState F) : Prop := ∀ b, s.next ≤ b → DALIGN ∣ base b

/-- some execution of the kernel comes to a broken promise -/
inductive KMis {F : Type} (base : ℕ → ℕ) : Kernel F → Mem F → Prop
  | here {p : Phase F} {k : Kernel F} {m : Mem F} {q : Ptr} (h : q ∈ p.al) (hq : ¬ q.Aligned base) : KMis base (p :: k) m
  | there {p : Phase F} {k : Kernel F} {m m₁ : Mem F} (c : Config F) (s : Steps (threads p.N p.body, m) c) (d : IsDone c) (e : c.2 = m₁) (u : KMis base k m₁) :
      KMis base (p :: k) m

/-- some execution of the command comes to a broken promise -/
inductive CMis {F α : Type} [Scalar F] (base : ℕ → ℕ) : Cmd F α → PState F → Prop
  | kern {k : Kernel F} {c : Cmd F α} {s : PState F} (h : KMis base k s.mem) : CMis base (.kern k c) s
  | kernNext {k : Kernel F} {c : Cmd F α} {s : PState F} {m : Mem F} (h : KEnds k s.mem m) (t : CMis base c { s with mem := m }) : CMis base (.kern k c) s
  | queryNext {p : Prog F F} {c : F → Cmd F α} {s : PState F} {v : F} {m : Mem F} (h : p.run s.mem = some (v, m)) (t : CMis base (c v) { s with mem := m }) :
      CMis base (.query p c) s
  | calloc {N : Int} {c : Option Ptr → Cmd F α} {s : PState F} (t : CMis base (c (s.calloc N).1) (s.calloc N).2) : CMis base (.calloc N c) s
  | freeNext {p : Option Ptr} {c : Cmd F α} {s s₁ : PState F} (h : s.free p = some s₁) (t : CMis base c s₁) : CMis base (.free p c) s

/-- some execution of the kernel comes to its end -/
def KCanEnd {F : Type} (k : Kernel F) : Prop := ∃ m m', KEnds k m m'

/-- whatever the command reads and however the allocator decides, as long as new arrays are aligned, all its promises hold and its result satisfies `Q`; used as the
assumption on operators that the caller supplies -/
def Cmd.KeepsAlign {F α : Type} (base : ℕ → ℕ) (Q : α → Prop) : Cmd F α → Prop
  | .done a => Q a
  | .kern k c => (∀ ph ∈ k, ∀ q ∈ ph.al, q.Aligned base) ∧ (KCanEnd k → c.KeepsAlign base Q)
  | .query _ c => ∀ v, (c v).KeepsAlign base Q
  | .calloc _ c => ∀ r : Option Ptr, (∀ p, r = some p → p.Aligned base) → (c r).KeepsAlign base Q
  | .free _ c => c.KeepsAlign base Q

/-- every path through the command breaks a promise or ends with a result in `Q` -/
def Cmd.MustMis {F α : Type} (base : ℕ → ℕ) (Q : α → Prop) : Cmd F α → Prop
  | .done a => Q a
  | .kern k c => (∃ ph ∈ k, ∃ q ∈ ph.al, ¬ q.Aligned base) ∨ c.MustMis base Q
  | .query _ c => ∀ v, (c v).MustMis base Q
  | .calloc _ c => ∀ r, (c r).MustMis base Q
  | .free _ c => c.MustMis base Q

/-! ## Operators and libraries -/

variable {F : Type}

/-- on aligned arrays the operator keeps its promises -/
def OpAl (base : ℕ → ℕ) (f : Ptr → Ptr → Cmd F Unit) : Prop := ∀ x y, x.Aligned base → y.Aligned base → (f x y).KeepsAlign base fun _ => True

/-- the transform `inv` of FFTW is content with any input that is aligned and any output in `P`, and `fwd` with aligned arrays -/
structure FftwAl (base : ℕ → ℕ) (P : Ptr → Prop) (fw : FftwM F) : Prop where
  fwd : OpAl base fw.fwd
  inv : ∀ x y, x.Aligned base → P y → (fw.inv x y).KeepsAlign base fun _ => True
  sub : ∀ y, y.Aligned base → P y

/-- the buffers of a set are aligned -/
structure BufAl (base : ℕ → ℕ) (b : DctPtr) : Prop where
  e : b.Ety.Aligned base
  x : b.dx.Aligned base
  y : b.dy.Aligned base

/-- the operators of l1qc -/
structure QAxAl (base : ℕ → ℕ) (ax : QAxM F) : Prop where
  Ax : OpAl base ax.Ax
  Aty : OpAl base ax.Aty
  AtAx : OpAl base ax.AtAx

/-- an operator of the set, if it is there -/
def FnAl (base : ℕ → ℕ) (f : Option (Ptr → Ptr → Cmd F Unit)) : Prop := ∀ g, f = some g → OpAl base g

/-- the operators of NESTA -/
structure NAxAl (base : ℕ → ℕ) (ax : NAxM F) : Prop where
  Ax : FnAl base ax.Ax
  Aty : FnAl base ax.Aty
  Wz : FnAl base ax.Wz
  Wtx : FnAl base ax.Wtx

end L1c
