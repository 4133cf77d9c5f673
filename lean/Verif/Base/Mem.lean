import Verif.Base.Scalar
import Mathlib.Logic.Function.Basic

/-!
# Memory and programs with explicit undefined behaviour

A pointer is a block and a signed offset (in doubles).  Memory has a length per block
(0 = not allocated / freed).  A program is a tree of single reads and writes; running it
gives `none` as soon as an access is out of bounds (undefined behaviour).
-/

namespace L1c

/-- pointer to `double`: block and offset counted in doubles -/
@[ext] structure Ptr where
  blk : Nat
  off : Int
deriving DecidableEq

namespace Ptr
/-- pointer arithmetic `p + i` -/
def shift (p : Ptr) (i : Int) : Ptr := ⟨p.blk, p.off + i⟩
instance : HAdd Ptr Int Ptr := ⟨shift⟩
@[simp] theorem add_blk (p : Ptr) (i : Int) : (p + i).blk = p.blk := rfl
@[simp] theorem add_off (p : Ptr) (i : Int) : (p + i).off = p.off + i := rfl
@[simp] theorem add_zero (p : Ptr) : p + (0 : Int) = p := by ext <;> simp
theorem add_add (p : Ptr) (i j : Int) : p + i + j = p + (i + j) := by ext <;> simp; ring
@[simp] theorem add_inj (p : Ptr) (i j : Int) : p + i = p + j ↔ i = j := by
  rw [Ptr.ext_iff]; simp
end Ptr

/-- memory: length of each block, contents of each address -/
structure Mem (F : Type) where
  len : Nat → Nat
  val : Ptr → F

namespace Mem
variable {F : Type}

/-- the address is inside its block -/
def Ok (m : Mem F) (p : Ptr) : Prop := 0 ≤ p.off ∧ p.off < m.len p.blk

instance (m : Mem F) (p : Ptr) : Decidable (m.Ok p) := by unfold Ok; infer_instance

/-- store one double (no bounds check; checks are in `run`) -/
def write (m : Mem F) (p : Ptr) (v : F) : Mem F := { m with val := Function.update m.val p v }

@[simp] theorem write_len (m : Mem F) (p v) : (m.write p v).len = m.len := rfl
@[simp] theorem write_ok (m : Mem F) (p v q) : (m.write p v).Ok q ↔ m.Ok q := Iff.rfl
theorem write_val (m : Mem F) (p v q) : (m.write p v).val q = if q = p then v else m.val q := by
  simp [write, Function.update_apply]

/-- `p` points to at least `n` doubles -/
def Has (m : Mem F) (p : Ptr) (n : Int) : Prop := ∀ i, 0 ≤ i → i < n → m.Ok (p + i)

/-- memory in which the `n` doubles at `p` are `f 0, …, f (n-1)` and all else is as in `m` -/
def setRange (m : Mem F) (p : Ptr) (n : Int) (f : Int → F) : Mem F :=
  { m with val := fun a => if a.blk = p.blk ∧ p.off ≤ a.off ∧ a.off < p.off + n
                           then f (a.off - p.off) else m.val a }

@[simp] theorem setRange_len (m : Mem F) (p n f) : (m.setRange p n f).len = m.len := rfl
@[simp] theorem setRange_ok (m : Mem F) (p n f q) : (m.setRange p n f).Ok q ↔ m.Ok q := Iff.rfl
@[simp] theorem setRange_has (m : Mem F) (p n f q k) :
    (m.setRange p n f).Has q k ↔ m.Has q k := Iff.rfl

theorem setRange_val_in (m : Mem F) (p : Ptr) (n : Int) (f : Int → F) (i : Int)
    (h0 : 0 ≤ i) (h1 : i < n) : (m.setRange p n f).val (p + i) = f i := by
  have : (p + i).blk = p.blk ∧ p.off ≤ (p + i).off ∧ (p + i).off < p.off + n := by
    simp; omega
  simp only [setRange]
  rw [if_pos this]; simp

theorem setRange_val_out (m : Mem F) (p : Ptr) (n : Int) (f : Int → F) (a : Ptr)
    (h : ¬ (a.blk = p.blk ∧ p.off ≤ a.off ∧ a.off < p.off + n)) :
    (m.setRange p n f).val a = m.val a := by
  simp only [setRange]; rw [if_neg h]

@[ext] protected theorem ext {m m' : Mem F} (h1 : m.len = m'.len) (h2 : ∀ a, m.val a = m'.val a) :
    m = m' := by
  cases m; cases m'; simp only [mk.injEq] at *; exact ⟨h1, funext h2⟩

theorem setRange_zero (m : Mem F) (p : Ptr) (n : Int) (hn : n ≤ 0) (f : Int → F) :
    m.setRange p n f = m := by
  ext a
  · rfl
  · exact setRange_val_out _ _ _ _ _ (by omega)

theorem setRange_write (m : Mem F) (p : Ptr) (n : Int) (f : Int → F) (hn : 0 ≤ n) :
    (m.setRange p n f).write (p + n) (f n) = m.setRange p (n + 1) f := by
  ext a
  · rfl
  · rw [write_val]
    by_cases h : a = p + n
    · subst h; rw [if_pos rfl, setRange_val_in _ _ _ _ _ hn (by omega)]
    · rw [if_neg h]
      simp only [setRange]
      have : a.blk = p.blk → a.off ≠ p.off + n := by
        intro h1 h2; exact h (Ptr.ext h1 (by simpa using h2))
      by_cases hb : a.blk = p.blk
      · have := this hb
        simp only [hb, true_and]
        by_cases hc : p.off ≤ a.off ∧ a.off < p.off + n
        · rw [if_pos hc, if_pos (by omega)]
        · rw [if_neg hc, if_neg (by omega)]
      · simp [hb]

theorem setRange_congr (m : Mem F) (p : Ptr) (n : Int) (f g : Int → F)
    (h : ∀ i, 0 ≤ i → i < n → f i = g i) : m.setRange p n f = m.setRange p n g := by
  ext a
  · rfl
  · simp only [setRange]
    split
    · exact h _ (by omega) (by omega)
    · rfl

end Mem

/-- Programs of single memory accesses. -/
inductive Prog (F : Type) (α : Type) where
  | ret (a : α)
  | rd (p : Ptr) (k : F → Prog F α)
  | wr (p : Ptr) (v : F) (k : Prog F α)
  /-- undefined behaviour other than an out-of-bounds access -/
  | ub

namespace Prog
variable {F α β γ : Type}

protected def bind : Prog F α → (α → Prog F β) → Prog F β
  | ret a, f => f a
  | rd p k, f => rd p (fun v => (k v).bind f)
  | wr p v k, f => wr p v (k.bind f)
  | ub, _ => ub

instance : Monad (Prog F) where
  pure := ret
  bind := Prog.bind

/-- `*p` -/
def load (p : Ptr) : Prog F F := rd p ret
/-- `*p = v` -/
def store (p : Ptr) (v : F) : Prog F Unit := wr p v (ret ())
/-- continue only if the condition holds; otherwise undefined behaviour -/
def assert (c : Prop) [Decidable c] : Prog F Unit := if c then ret () else ub

/-- sequential execution; `none` is undefined behaviour -/
def run : Prog F α → Mem F → Option (α × Mem F)
  | ret a, m => some (a, m)
  | rd p k, m => if m.Ok p then run (k (m.val p)) m else none
  | wr p v k, m => if m.Ok p then run k (m.write p v) else none
  | ub, _ => none

@[simp] theorem run_pure (a : α) (m : Mem F) : (pure a : Prog F α).run m = some (a, m) := rfl
@[simp] theorem run_ret (a : α) (m : Mem F) : (ret a : Prog F α).run m = some (a, m) := rfl
@[simp] theorem run_ub (m : Mem F) : (ub : Prog F α).run m = none := rfl

theorem run_bind' (x : Prog F α) (f : α → Prog F β) (m : Mem F) :
    (x.bind f).run m = (x.run m).bind (fun r => (f r.1).run r.2) := by
  induction x generalizing m with
  | ret a => rfl
  | rd p k ih => simp only [Prog.bind, run]; split <;> simp [ih]
  | wr p v k ih => simp only [Prog.bind, run]; split <;> simp [ih]
  | ub => rfl

@[simp] theorem run_bind (x : Prog F α) (f : α → Prog F β) (m : Mem F) :
    (x >>= f).run m = (x.run m).bind (fun r => (f r.1).run r.2) := run_bind' x f m

theorem run_load {p : Ptr} {m : Mem F} (h : m.Ok p) :
    (load p : Prog F F).run m = some (m.val p, m) := by simp [load, run, h]
theorem run_store {p : Ptr} {v : F} {m : Mem F} (h : m.Ok p) :
    (store p v).run m = some ((), m.write p v) := by simp [store, run, h]
theorem run_load_ub {p : Ptr} {m : Mem F} (h : ¬ m.Ok p) :
    (load p : Prog F F).run m = none := by simp [load, run, h]
theorem run_store_ub {p : Ptr} {v : F} {m : Mem F} (h : ¬ m.Ok p) :
    (store p v).run m = none := by simp [store, run, h]
theorem run_assert {c : Prop} [Decidable c] (h : c) (m : Mem F) :
    (assert c : Prog F Unit).run m = some ((), m) := by simp [assert, h]
theorem run_assert_ub {c : Prop} [Decidable c] (h : ¬ c) (m : Mem F) :
    (assert c : Prog F Unit).run m = none := by simp [assert, h]

/-- `k` iterations of a loop counting up from `lo` -/
def forN (lo : Int) (body : Int → Prog F Unit) : Nat → Prog F Unit
  | 0 => pure ()
  | k + 1 => do forN lo body k; body (lo + k)

/-- `for (i = lo; i < hi; i++) body(i)` -/
def forUp (lo hi : Int) (body : Int → Prog F Unit) : Prog F Unit :=
  forN lo body (hi - lo).toNat

/-- `for (i = lo; i < hi; i++) s = body(i, s)`: loop with a local accumulator -/
def foldN (lo : Int) (body : Int → γ → Prog F γ) (s : γ) : Nat → Prog F γ
  | 0 => pure s
  | k + 1 => do let t ← foldN lo body s k; body (lo + k) t

/-- accumulator loop over `lo ≤ i < hi` -/
def foldUp (lo hi : Int) (s : γ) (body : Int → γ → Prog F γ) : Prog F γ :=
  foldN lo body s (hi - lo).toNat

/-- Loop rule: `M i` is the memory before iteration `i`. -/
theorem run_forUp (lo hi : Int) (body : Int → Prog F Unit) (M : Int → Mem F)
    (h : ∀ i, lo ≤ i → i < hi → (body i).run (M i) = some ((), M (i + 1))) (hle : lo ≤ hi) :
    (forUp lo hi body).run (M lo) = some ((), M hi) := by
  have key : ∀ k : Nat, (k : Int) ≤ hi - lo →
      (forN lo body k).run (M lo) = some ((), M (lo + k)) := by
    intro k
    induction k with
    | zero => intro _; simp [forN]
    | succ k ih =>
      intro hk
      have hk' : (k : Int) ≤ hi - lo := by push_cast at hk; omega
      simp only [forN, run_bind, ih hk', Option.bind_some]
      rw [h _ (by omega) (by push_cast at hk; omega)]
      push_cast; rw [add_assoc]
  have := key (hi - lo).toNat (by omega)
  rw [forUp, this]
  congr 3; omega

/-- Loop rule with accumulator; the memory may change too. -/
theorem run_foldUp (lo hi : Int) (s : γ) (body : Int → γ → Prog F γ) (S : Int → γ) (M : Int → Mem F)
    (h : ∀ i, lo ≤ i → i < hi → (body i (S i)).run (M i) = some (S (i + 1), M (i + 1)))
    (hs : S lo = s) (hle : lo ≤ hi) :
    (foldUp lo hi s body).run (M lo) = some (S hi, M hi) := by
  have key : ∀ k : Nat, (k : Int) ≤ hi - lo →
      (foldN lo body s k).run (M lo) = some (S (lo + k), M (lo + k)) := by
    intro k
    induction k with
    | zero => intro _; simp [foldN, hs]
    | succ k ih =>
      intro hk
      have hk' : (k : Int) ≤ hi - lo := by push_cast at hk; omega
      simp only [foldN, run_bind, ih hk', Option.bind_some]
      rw [h _ (by omega) (by push_cast at hk; omega)]
      push_cast; rw [add_assoc]
  have := key (hi - lo).toNat (by omega)
  rw [foldUp, this]
  have e : lo + ((hi - lo).toNat : Int) = hi := by omega
  rw [e]

theorem forUp_empty (lo hi : Int) (h : hi ≤ lo) (body : Int → Prog F Unit) :
    forUp lo hi body = pure () := by
  have : (hi - lo).toNat = 0 := by omega
  rw [forUp, this]; rfl

theorem foldUp_empty (lo hi : Int) (h : hi ≤ lo) (s : γ) (body : Int → γ → Prog F γ) :
    foldUp lo hi s body = pure s := by
  have : (hi - lo).toNat = 0 := by omega
  rw [foldUp, this]; rfl

/-- UB in an iteration that is reached makes the loop UB. -/
theorem run_forUp_ub (lo hi : Int) (body : Int → Prog F Unit) (M : Int → Mem F) (j : Int)
    (h : ∀ i, lo ≤ i → i < j → (body i).run (M i) = some ((), M (i + 1)))
    (hj : (body j).run (M j) = none) (h1 : lo ≤ j) (h2 : j < hi) :
    (forUp lo hi body).run (M lo) = none := by
  have pre : ∀ k : Nat, (k : Int) ≤ j - lo →
      (forN lo body k).run (M lo) = some ((), M (lo + k)) := by
    intro k
    induction k with
    | zero => intro _; simp [forN]
    | succ k ih =>
      intro hk
      have hk' : (k : Int) ≤ j - lo := by push_cast at hk; omega
      simp only [forN, run_bind, ih hk', Option.bind_some]
      rw [h _ (by omega) (by push_cast at hk; omega)]
      push_cast; rw [add_assoc]
  have post : ∀ d : Nat, (forN lo body ((j - lo).toNat + 1 + d)).run (M lo) = none := by
    intro d
    induction d with
    | zero =>
      have e : lo + ((j - lo).toNat : Int) = j := by omega
      simp only [forN, run_bind, pre _ (show (((j - lo).toNat : Nat) : Int) ≤ j - lo by omega),
        Option.bind_some, e, hj]
    | succ d ih =>
      have : (j - lo).toNat + 1 + (d + 1) = ((j - lo).toNat + 1 + d) + 1 := by omega
      rw [this]
      simp only [forN, run_bind, ih, Option.bind_none]
  have e : (hi - lo).toNat = (j - lo).toNat + 1 + (hi - j - 1).toNat := by omega
  rw [forUp, e]; exact post _

/-! ## Footprints -/

/-- every write goes to `W`, every read to `R`, whatever values are read -/
def Foot (W R : Set Ptr) : Prog F α → Prop
  | ret _ => True
  | rd p k => p ∈ R ∧ ∀ v, Foot W R (k v)
  | wr p _ k => p ∈ W ∧ Foot W R k
  | ub => True

theorem Foot.bind {W R : Set Ptr} {x : Prog F α} {f : α → Prog F β} (hx : Foot W R x)
    (hf : ∀ a, Foot W R (f a)) : Foot W R (x >>= f) := by
  show Foot W R (x.bind f)
  induction x with
  | ret a => exact hf a
  | rd p k ih => exact ⟨hx.1, fun v => ih v (hx.2 v)⟩
  | wr p v k ih => exact ⟨hx.1, ih hx.2⟩
  | ub => trivial

theorem Foot.load {W R : Set Ptr} {p : Ptr} (h : p ∈ R) : Foot W R (load p : Prog F F) :=
  ⟨h, fun _ => trivial⟩
theorem Foot.store {W R : Set Ptr} {p : Ptr} {v : F} (h : p ∈ W) : Foot W R (store p v) :=
  ⟨h, trivial⟩
theorem Foot.pure {W R : Set Ptr} (a : α) : Foot W R (pure a : Prog F α) := trivial
theorem Foot.assert {W R : Set Ptr} (c : Prop) [Decidable c] :
    Foot W R (assert c : Prog F Unit) := by unfold Prog.assert; split <;> trivial

theorem Foot.forUp {W R : Set Ptr} {lo hi : Int} {body : Int → Prog F Unit}
    (h : ∀ i, lo ≤ i → i < hi → Foot W R (body i)) : Foot W R (forUp lo hi body) := by
  have : ∀ k : Nat, (k : Int) ≤ (hi - lo).toNat → Foot W R (forN lo body k) := by
    intro k
    induction k with
    | zero => intro _; exact trivial
    | succ k ih =>
      intro hk
      exact Foot.bind (ih (by push_cast at hk; omega)) (fun _ => h _ (by omega) (by push_cast at hk; omega))
  exact this _ le_rfl

/-- Two memories agree on a set of addresses and on block lengths. -/
def Agree (S : Set Ptr) (m m' : Mem F) : Prop := m.len = m'.len ∧ ∀ a ∈ S, m.val a = m'.val a

/-- A program depends only on its footprint, and changes only its write set. -/
theorem Foot.run_agree {W R : Set Ptr} {x : Prog F α} (hx : Foot W R x) :
    ∀ {m m' : Mem F}, Agree (W ∪ R) m m' →
      (x.run m = none ∧ x.run m' = none) ∨
      ∃ a n n', x.run m = some (a, n) ∧ x.run m' = some (a, n') ∧ Agree (W ∪ R) n n' := by
  induction x with
  | ret a => intro m m' h; exact Or.inr ⟨a, m, m', rfl, rfl, h⟩
  | ub => intro m m' _; exact Or.inl ⟨rfl, rfl⟩
  | rd p k ih =>
    intro m m' h
    have hv : m.val p = m'.val p := h.2 p (Or.inr hx.1)
    have ho : m.Ok p ↔ m'.Ok p := by unfold Mem.Ok; rw [h.1]
    simp only [run]
    by_cases hp : m.Ok p
    · rw [if_pos hp, if_pos (ho.1 hp), ← hv]
      exact ih _ (hx.2 _) h
    · rw [if_neg hp, if_neg (fun q => hp (ho.2 q))]; exact Or.inl ⟨rfl, rfl⟩
  | wr p v k ih =>
    intro m m' h
    have ho : m.Ok p ↔ m'.Ok p := by unfold Mem.Ok; rw [h.1]
    simp only [run]
    by_cases hp : m.Ok p
    · rw [if_pos hp, if_pos (ho.1 hp)]
      refine ih hx.2 ⟨h.1, fun a ha => ?_⟩
      rw [Mem.write_val, Mem.write_val, h.2 a ha]
    · rw [if_neg hp, if_neg (fun q => hp (ho.2 q))]; exact Or.inl ⟨rfl, rfl⟩

theorem Foot.run_frame {W R : Set Ptr} {x : Prog F α} (hx : Foot W R x) :
    ∀ {m n : Mem F} {a : α}, x.run m = some (a, n) →
      n.len = m.len ∧ ∀ q, q ∉ W → n.val q = m.val q := by
  induction x with
  | ret a => intro m n b h; simp only [run_ret, Option.some.injEq, Prod.mk.injEq] at h; simp [h.2]
  | ub => intro m n b h; simp at h
  | rd p k ih =>
    intro m n b h
    simp only [run] at h
    by_cases hp : m.Ok p
    · rw [if_pos hp] at h; exact ih _ (hx.2 _) h
    · rw [if_neg hp] at h; simp at h
  | wr p v k ih =>
    intro m n b h
    simp only [run] at h
    by_cases hp : m.Ok p
    · rw [if_pos hp] at h
      obtain ⟨h1, h2⟩ := ih hx.2 h
      refine ⟨h1, fun q hq => ?_⟩
      rw [h2 q hq, Mem.write_val, if_neg]
      rintro rfl; exact hq hx.1
    · rw [if_neg hp] at h; simp at h

end Prog
end L1c
