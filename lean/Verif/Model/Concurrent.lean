import Verif.Base.Cmd

/-!
# Several callers at once

Threads of one process call library functions at the same time.  Each caller runs a command (`Base/Cmd`); single memory accesses of all callers, and of
all threads of their parallel loops, are interleaved arbitrarily on one shared memory.

* A function without file-scope variables is a command that knows nothing but its arguments.  The file-scope variables of the transform sets
  (src/dct1.c:24-34, src/dct2.c:24-36, src/dct_tv_transforms.c:24-35, src/matrix_transforms.c:13-16) are pointers that two callers share.
* The allocator is thread safe: it hands out blocks that nobody else has.  In the model every caller draws block names from a pool of its own; the pools are
  disjoint, the blocks live in the shared memory.  Each caller has its own sequence of refusals (`oracle`).
* Data races, inside a call and between calls, are undefined behaviour.
-/

namespace L1c
open Prog

variable {F : Type}

/-- what the allocator has given to one caller -/
structure Local where
  live : ℕ → Bool
  next : ℕ
  calls : ℕ
  oracle : ℕ → Bool

/-- the state a caller sees -/
def Local.on (l : Local) (m : Mem F) : PState F := ⟨m, l.live, l.next, l.calls, l.oracle⟩

/-- the allocator's part of a state -/
def PState.loc (s : PState F) : Local := ⟨s.live, s.next, s.calls, s.oracle⟩

/-- what a caller still has to do -/
inductive Act (F α : Type) where
  | cmd (c : Cmd F α)
  /-- inside a parallel loop; `k` and `c` come after it -/
  | loop (T : ℕ → Prog F Unit) (k : Kernel F) (c : Cmd F α)
  /-- computing a scalar -/
  | comp (p : Prog F F) (c : F → Cmd F α)

/-- one step of one caller: at most one memory access, or one call of the allocator -/
inductive CStep [Scalar F] {α : Type} : Act F α → Local → Mem F → Act F α → Local → Mem F → Prop
  | skip {c : Cmd F α} {l : Local} {m : Mem F} : CStep (.cmd (.kern [] c)) l m (.cmd c) l m
  | enter {p : Phase F} {k : Kernel F} {c : Cmd F α} {l : Local} {m : Mem F} :
      CStep (.cmd (.kern (p :: k) c)) l m (.loop (threads p.N p.body) k c) l m
  | par {T T' : ℕ → Prog F Unit} {k : Kernel F} {c : Cmd F α} {l : Local} {m m' : Mem F} (h : Step (T, m) (T', m')) :
      CStep (.loop T k c) l m (.loop T' k c) l m'
  | barrier {T : ℕ → Prog F Unit} {k : Kernel F} {c : Cmd F α} {l : Local} {m : Mem F} (h : ∀ i, T i = .ret ()) :
      CStep (.loop T k c) l m (.cmd (.kern k c)) l m
  | ask {p : Prog F F} {c : F → Cmd F α} {l : Local} {m : Mem F} : CStep (.cmd (.query p c)) l m (.comp p c) l m
  | rd {q : Ptr} {k : F → Prog F F} {c : F → Cmd F α} {l : Local} {m : Mem F} (ok : m.Ok q) : CStep (.comp (.rd q k) c) l m (.comp (k (m.val q)) c) l m
  | wr {q : Ptr} {v : F} {k : Prog F F} {c : F → Cmd F α} {l : Local} {m : Mem F} (ok : m.Ok q) :
      CStep (.comp (.wr q v k) c) l m (.comp k c) l (m.write q v)
  | answer {v : F} {c : F → Cmd F α} {l : Local} {m : Mem F} : CStep (.comp (.ret v) c) l m (.cmd (c v)) l m
  | calloc {N : Int} {c : Option Ptr → Cmd F α} {l : Local} {m : Mem F} :
      CStep (.cmd (.calloc N c)) l m (.cmd (c ((l.on m).calloc N).1)) ((l.on m).calloc N).2.loc ((l.on m).calloc N).2.mem
  | free {p : Option Ptr} {c : Cmd F α} {l : Local} {m : Mem F} {s : PState F} (h : (l.on m).free p = some s) :
      CStep (.cmd (.free p c)) l m (.cmd c) s.loc s.mem

/-- the caller is about to do something undefined -/
def Act.Bad {α : Type} (a : Act F α) (l : Local) (m : Mem F) : Prop :=
  match a with
  | .cmd (.free p _) => (l.on m).free p = none
  | .cmd _ => False
  | .loop T _ _ => IsUB (T, m)
  | .comp .ub _ => True
  | .comp (.rd q _) _ => ¬ m.Ok q
  | .comp (.wr q _ _) _ => ¬ m.Ok q
  | .comp (.ret _) _ => False

/-- several callers on one memory; they may return values of different types -/
structure Sys (F : Type) {ι : Type} (α : ι → Type) where
  act : ∀ i, Act F (α i)
  loc : ι → Local
  mem : Mem F

/-- one step of some caller -/
inductive SStep [Scalar F] {ι : Type} [DecidableEq ι] {α : ι → Type} : Sys F α → Sys F α → Prop
  | step {X : Sys F α} (i : ι) {a : Act F (α i)} {l : Local} {m : Mem F} (h : CStep (X.act i) (X.loc i) X.mem a l m) :
      SStep X ⟨Function.update X.act i a, Function.update X.loc i l, m⟩

/-- any number of steps -/
abbrev SSteps [Scalar F] {ι : Type} [DecidableEq ι] {α : ι → Type} : Sys F α → Sys F α → Prop := Relation.ReflTransGen SStep

/-- the caller is about to read the address -/
def Act.Reads {α : Type} (a : Act F α) (p : Ptr) : Prop :=
  match a with
  | .loop T _ _ => ∃ i k, T i = .rd p k
  | .comp (.rd q _) _ => q = p
  | _ => False

/-- the caller is about to write to the address, or to release its block -/
def Act.Writes {α : Type} (a : Act F α) (p : Ptr) : Prop :=
  match a with
  | .loop T _ _ => ∃ i v k, T i = .wr p v k
  | .comp (.wr q _ _) _ => q = p
  | .cmd (.free (some q) _) => q.blk = p.blk
  | _ => False

/-- data race: two callers are about to access one address, and one of them writes to it or releases it -/
def Sys.Race {ι : Type} {α : ι → Type} (X : Sys F α) : Prop :=
  ∃ i j p, i ≠ j ∧ (X.act i).Writes p ∧ ((X.act j).Reads p ∨ (X.act j).Writes p)

/-- some caller is about to do something undefined, or two callers race -/
def Sys.Bad {ι : Type} {α : ι → Type} (X : Sys F α) : Prop := (∃ i, (X.act i).Bad (X.loc i) X.mem) ∨ X.Race

/-- all callers start their calls at the same time -/
def Sys.start {ι : Type} {α : ι → Type} (prog : ∀ i, Cmd F (α i)) (L : ι → Local) (m : Mem F) : Sys F α := ⟨fun i => .cmd (prog i), L, m⟩

/-- every call has returned, caller `i` with `r i` -/
def Sys.Returned {ι : Type} {α : ι → Type} (X : Sys F α) (r : ∀ i, α i) : Prop := ∀ i, X.act i = .cmd (.done (r i))

end L1c
