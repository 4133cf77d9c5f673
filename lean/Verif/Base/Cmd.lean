import Verif.Base.Par

/-!
# Commands: kernels, allocation and data-dependent control flow

`Cmd F α` is a C function body: it runs kernels (parallel or sequential loops on memory), computes scalars
from memory, calls `l1c_calloc_double` / `l1c_free_double`, and branches on the results.  The process
state `PState` is the numeric memory, the set of live blocks and an arbitrary allocation oracle.

* `CSpec c s a s'`: under **every** interleaving of every parallel loop, `c` started in `s` is free of
  undefined behaviour, can run to completion, and every complete run returns `a` in state `s'`.
* `CUB c s`: **some** execution of `c` started in `s` reaches undefined behaviour.
-/

namespace L1c
open Prog

variable {F : Type} {α β : Type}

/-- process state; a block id is never reused -/
structure PState (F : Type) where
  mem : Mem F
  live : ℕ → Bool
  next : ℕ
  calls : ℕ
  oracle : ℕ → Bool

namespace PState
/-- ids at or above `next` were never handed out -/
def WF (s : PState F) : Prop := ∀ b, s.next ≤ b → s.live b = false ∧ s.mem.len b = 0

/-- `l1c_calloc_double(N)` (src/l1c_memory.c:48-55): NULL when the allocator refuses or `N < 0` (`C02`
proves that a negative count is never served), else a fresh block of `N` zeros. -/
def calloc [Scalar F] (s : PState F) (N : Int) : Option Ptr × PState F :=
  if s.oracle s.calls = true ∧ 0 ≤ N then
    (some ⟨s.next, 0⟩,
      { s with mem := ⟨Function.update s.mem.len s.next N.toNat,
                       fun p => if p.blk = s.next then Scalar.lit 0 else s.mem.val p⟩,
               live := Function.update s.live s.next true, next := s.next + 1, calls := s.calls + 1 })
  else (none, { s with calls := s.calls + 1 })

/-- `l1c_free_double(p)` (src/l1c_memory.c:22): freeing a pointer that is not the start of a live block is
undefined behaviour (`none`). -/
def free (s : PState F) (p : Option Ptr) : Option (PState F) :=
  match p with
  | none => some s
  | some p => if s.live p.blk = true ∧ p.off = 0 then
      some { s with mem := { s.mem with len := Function.update s.mem.len p.blk 0 },
                    live := Function.update s.live p.blk false }
    else none
end PState

/-- C function bodies -/
inductive Cmd (F : Type) (α : Type) where
  | done (a : α)
  | kern (k : Kernel F) (next : Cmd F α)
  | query (p : Prog F F) (next : F → Cmd F α)
  | calloc (N : Int) (next : Option Ptr → Cmd F α)
  | free (p : Option Ptr) (next : Cmd F α)

namespace Cmd

protected def bind : Cmd F α → (α → Cmd F β) → Cmd F β
  | done a, f => f a
  | kern k c, f => kern k (c.bind f)
  | query p c, f => query p (fun v => (c v).bind f)
  | calloc N c, f => calloc N (fun v => (c v).bind f)
  | free p c, f => free p (c.bind f)

instance : Monad (Cmd F) where
  pure := done
  bind := Cmd.bind

/-- run a kernel -/
def exec (k : Kernel F) : Cmd F Unit := kern k (done ())
/-- compute a scalar -/
def eval (p : Prog F F) : Cmd F F := query p done
/-- call `l1c_calloc_double` -/
def callocC (N : Int) : Cmd F (Option Ptr) := calloc N done
/-- call `l1c_free_double` -/
def freeC (p : Option Ptr) : Cmd F Unit := free p (done ())
/-- promise the compiler that pointers are aligned (`__builtin_assume_aligned`) -/
def assume (al : List Ptr) : Cmd F Unit := exec (assumeK al)
/-- continue only if the condition holds; otherwise undefined behaviour (signed overflow) -/
def need (c : Prop) [Decidable c] : Cmd F Unit := exec (seqK (Prog.assert c))

/-- `for (; i <= hi; i++) { … }` where the body may `break` (by returning `true`); the result is the value
of `i` after the loop.  `i++` beyond `INT_MAX` is undefined behaviour. -/
def loopLe (hi : Int) (body : Int → Cmd F Bool) (i : Int) : Cmd F Int :=
  if i ≤ hi then do
    let brk ← body i
    if brk then pure i
    else do
      need (FitsInt (i + 1))
      loopLe hi body (i + 1)
  else pure i
termination_by (hi + 1 - i).toNat
decreasing_by omega

end Cmd

/-- some interleaving of a kernel ends in `m'` -/
inductive KEnds : Kernel F → Mem F → Mem F → Prop
  | nil (m : Mem F) : KEnds [] m m
  | cons {p : Phase F} {k : Kernel F} {m m₁ m' : Mem F} (c : Config F)
      (s : Steps (threads p.N p.body, m) c) (d : IsDone c) (e : c.2 = m₁) (t : KEnds k m₁ m') :
      KEnds (p :: k) m m'

theorem KSpec.ends_eq {k : Kernel F} {m m' m'' : Mem F} (h : KSpec k m m') (h' : KEnds k m m'') : m'' = m' := by
  induction h generalizing m'' with
  | nil => cases h'; rfl
  | cons h _ ih =>
    cases h' with
    | cons c s d e t => have := (h c s).2.1 d; rw [this] at e; subst e; exact ih t

theorem KSpec.ends {k : Kernel F} {m m' : Mem F} (h : KSpec k m m') : KEnds k m m' := by
  induction h with
  | nil => exact .nil _
  | cons h _ ih =>
    obtain ⟨c, s, d, e⟩ := (h _ .refl).2.2
    exact .cons c s d e ih

variable [Scalar F]

/-- complete description of a command, under every interleaving -/
inductive CSpec : Cmd F α → PState F → α → PState F → Prop
  | done (a : α) (s : PState F) : CSpec (.done a) s a s
  | kern {k : Kernel F} {c : Cmd F α} {s s' : PState F} {a : α} {m : Mem F} (h : KSpec k s.mem m)
      (t : CSpec c { s with mem := m } a s') : CSpec (.kern k c) s a s'
  | query {p : Prog F F} {c : F → Cmd F α} {s s' : PState F} {a : α} {v : F} {m : Mem F}
      (h : p.run s.mem = some (v, m)) (t : CSpec (c v) { s with mem := m } a s') : CSpec (.query p c) s a s'
  | calloc {N : Int} {c : Option Ptr → Cmd F α} {s s' : PState F} {a : α}
      (t : CSpec (c (s.calloc N).1) (s.calloc N).2 a s') : CSpec (.calloc N c) s a s'
  | free {p : Option Ptr} {c : Cmd F α} {s s₁ s' : PState F} {a : α} (h : s.free p = some s₁)
      (t : CSpec c s₁ a s') : CSpec (.free p c) s a s'

/-- some execution reaches undefined behaviour -/
inductive CUB : Cmd F α → PState F → Prop
  | kern {k : Kernel F} {c : Cmd F α} {s : PState F} (h : KUB k s.mem) : CUB (.kern k c) s
  | kernNext {k : Kernel F} {c : Cmd F α} {s : PState F} {m : Mem F} (h : KEnds k s.mem m)
      (t : CUB c { s with mem := m }) : CUB (.kern k c) s
  | query {p : Prog F F} {c : F → Cmd F α} {s : PState F} (h : p.run s.mem = none) : CUB (.query p c) s
  | queryNext {p : Prog F F} {c : F → Cmd F α} {s : PState F} {v : F} {m : Mem F}
      (h : p.run s.mem = some (v, m)) (t : CUB (c v) { s with mem := m }) : CUB (.query p c) s
  | calloc {N : Int} {c : Option Ptr → Cmd F α} {s : PState F}
      (t : CUB (c (s.calloc N).1) (s.calloc N).2) : CUB (.calloc N c) s
  | free {p : Option Ptr} {c : Cmd F α} {s : PState F} (h : s.free p = none) : CUB (.free p c) s
  | freeNext {p : Option Ptr} {c : Cmd F α} {s s₁ : PState F} (h : s.free p = some s₁)
      (t : CUB c s₁) : CUB (.free p c) s

theorem CSpec.safe {c : Cmd F α} {s s' : PState F} {a : α} (h : CSpec c s a s') : ¬ CUB c s := by
  induction h with
  | done => intro u; cases u
  | kern h _ ih =>
    intro u
    cases u with
    | kern u => exact h.safe u
    | kernNext e u => rw [h.ends_eq e] at u; exact ih u
  | query h _ ih =>
    intro u
    cases u with
    | query u => rw [h] at u; cases u
    | queryNext e u =>
      rw [h, Option.some.injEq, Prod.mk.injEq] at e
      obtain ⟨rfl, rfl⟩ := e; exact ih u
  | calloc _ ih => intro u; cases u with | calloc u => exact ih u
  | free h _ ih =>
    intro u
    cases u with
    | free u => rw [h] at u; cases u
    | freeNext e u => rw [h, Option.some.injEq] at e; subst e; exact ih u

theorem CSpec.unique {c : Cmd F α} {s s' s'' : PState F} {a b : α} (h : CSpec c s a s') (h' : CSpec c s b s'') :
    a = b ∧ s' = s'' := by
  induction h with
  | done => cases h'; exact ⟨rfl, rfl⟩
  | kern h _ ih => cases h' with | kern g t => have := h.unique g; subst this; exact ih t
  | query h _ ih =>
    cases h' with
    | query g t =>
      rw [h, Option.some.injEq, Prod.mk.injEq] at g
      obtain ⟨rfl, rfl⟩ := g; exact ih t
  | calloc _ ih => cases h' with | calloc t => exact ih t
  | free h _ ih => cases h' with | free g t => rw [h, Option.some.injEq] at g; subst g; exact ih t

theorem CSpec.bind {x : Cmd F α} {f : α → Cmd F β} {s s₁ s' : PState F} {a : α} {b : β}
    (h : CSpec x s a s₁) (h' : CSpec (f a) s₁ b s') : CSpec (x >>= f) s b s' := by
  show CSpec (x.bind f) s b s'
  induction h with
  | done => exact h'
  | kern h _ ih => exact .kern h (ih h')
  | query h _ ih => exact .query h (ih h')
  | calloc _ ih => exact .calloc (ih h')
  | free h _ ih => exact .free h (ih h')

theorem CSpec.bind_ub {x : Cmd F α} {f : α → Cmd F β} {s s₁ : PState F} {a : α}
    (h : CSpec x s a s₁) (h' : CUB (f a) s₁) : CUB (x >>= f) s := by
  show CUB (x.bind f) s
  induction h with
  | done => exact h'
  | kern h _ ih => exact .kernNext h.ends (ih h')
  | query h _ ih => exact .queryNext h (ih h')
  | calloc _ ih => exact .calloc (ih h')
  | free h _ ih => exact .freeNext h (ih h')

theorem CUB.bind {x : Cmd F α} {f : α → Cmd F β} {s : PState F} (h : CUB x s) : CUB (x >>= f) s := by
  show CUB (x.bind f) s
  induction h with
  | kern h => exact .kern h
  | kernNext h _ ih => exact .kernNext h ih
  | query h => exact .query h
  | queryNext h _ ih => exact .queryNext h ih
  | calloc _ ih => exact .calloc ih
  | free h => exact .free h
  | freeNext h _ ih => exact .freeNext h ih

theorem cspec_exec {k : Kernel F} {s : PState F} {m : Mem F} (h : KSpec k s.mem m) :
    CSpec (Cmd.exec k) s () { s with mem := m } := .kern h (.done _ _)

theorem cspec_eval {p : Prog F F} {s : PState F} {v : F} {m : Mem F} (h : p.run s.mem = some (v, m)) :
    CSpec (Cmd.eval p) s v { s with mem := m } := .query h (.done _ _)

theorem cspec_assume (al : List Ptr) (s : PState F) : CSpec (Cmd.assume al) s () s := .kern (kspec_assume al s.mem) (.done _ _)

theorem cspec_need {c : Prop} [Decidable c] (h : c) (s : PState F) : CSpec (Cmd.need c) s () s :=
  .kern (kspec_seq (run_assert h s.mem)) (.done _ _)

theorem cub_need {c : Prop} [Decidable c] (h : ¬ c) (s : PState F) : CUB (Cmd.need c : Cmd F Unit) s := by
  refine .kern ?_
  have := kub_seq (al := []) (run_assert_ub h s.mem) []
  rwa [List.append_nil] at this

theorem cspec_free {p : Option Ptr} {s s' : PState F} (h : s.free p = some s') :
    CSpec (Cmd.freeC p) s () s' := .free h (.done _ _)

theorem cspec_calloc (N : Int) (s : PState F) :
    CSpec (Cmd.callocC N) s (s.calloc N).1 (s.calloc N).2 := .calloc (.done _ _)

end L1c
