import Verif.Base.Mem
import Mathlib.Logic.Relation

/-!
# OpenMP parallel loops as arbitrary interleavings

`#pragma omp parallel for` over `N` iterations is modelled as `N` threads, one per
iteration, whose single memory accesses are interleaved arbitrarily.  (Every real OpenMP
schedule, with any number of threads and any chunking, is one of these interleavings.)

`ParSpec N body m m'` says: under *every* interleaving started in memory `m`
* no access is out of bounds, no two threads race, and no other undefined behaviour is reached,
* if all threads have finished, the memory is exactly `m'`,
* execution can always be continued until all threads have finished.
-/

namespace L1c
open Prog

variable {F : Type}

/-- configuration: remaining program of each thread, and the shared memory -/
abbrev Config (F : Type) := (ℕ → Prog F Unit) × Mem F

/-- one memory access of one thread -/
inductive Step : Config F → Config F → Prop
  | rd {T : ℕ → Prog F Unit} {m : Mem F} (i : ℕ) (p : Ptr) (k : F → Prog F Unit)
      (h : T i = .rd p k) (ok : m.Ok p) : Step (T, m) (Function.update T i (k (m.val p)), m)
  | wr {T : ℕ → Prog F Unit} {m : Mem F} (i : ℕ) (p : Ptr) (v : F) (k : Prog F Unit)
      (h : T i = .wr p v k) (ok : m.Ok p) : Step (T, m) (Function.update T i k, m.write p v)

/-- any number of steps -/
abbrev Steps : Config F → Config F → Prop := Relation.ReflTransGen Step

/-- data race: two threads are about to access the same address and one of them writes.
(C11 5.1.2.4: undefined.  There is no synchronisation inside a loop, so two conflicting
accesses race exactly if some interleaving makes both of them next.) -/
def Race (T : ℕ → Prog F Unit) : Prop :=
  ∃ i j p, i ≠ j ∧ (∃ v k, T i = .wr p v k) ∧ ((∃ k, T j = .rd p k) ∨ ∃ v k, T j = .wr p v k)

/-- some thread is about to do something undefined -/
def IsUB (c : Config F) : Prop :=
  (∃ i, c.1 i = .ub ∨ (∃ p k, c.1 i = .rd p k ∧ ¬ c.2.Ok p) ∨ (∃ p v k, c.1 i = .wr p v k ∧ ¬ c.2.Ok p)) ∨
    Race c.1

/-- all threads have finished -/
def IsDone (c : Config F) : Prop := ∀ i, c.1 i = .ret ()

/-- the threads of a parallel loop with `N` iterations -/
def threads (N : ℕ) (body : ℕ → Prog F Unit) : ℕ → Prog F Unit :=
  fun i => if i < N then body i else .ret ()

/-- Complete description of a parallel loop: safe, deterministic and able to finish. -/
def ParSpec (N : ℕ) (body : ℕ → Prog F Unit) (m m' : Mem F) : Prop :=
  ∀ c, Steps (threads N body, m) c →
    ¬ IsUB c ∧ (IsDone c → c.2 = m') ∧ ∃ c', Steps c c' ∧ IsDone c' ∧ c'.2 = m'

/-- A thread running alone. -/
theorem Steps.solo {T : ℕ → Prog F Unit} {m n : Mem F} (i : ℕ) (h : (T i).run m = some ((), n)) :
    Steps (T, m) (Function.update T i (.ret ()), n) := by
  generalize hx : T i = x at h
  induction x generalizing T m with
  | ret a =>
    simp only [run_ret, Option.some.injEq, Prod.mk.injEq, true_and] at h
    subst h
    have : Function.update T i (.ret ()) = T := by rw [← hx]; simp
    rw [this]
  | ub => simp at h
  | rd p k ih =>
    simp only [run] at h
    by_cases hp : m.Ok p
    · rw [if_pos hp] at h
      refine Relation.ReflTransGen.head (Step.rd i p k hx hp) ?_
      have := ih (m.val p) (T := Function.update T i (k (m.val p))) (m := m) (by simp) h
      simpa using this
    · rw [if_neg hp] at h; simp at h
  | wr p v k ih =>
    simp only [run] at h
    by_cases hp : m.Ok p
    · rw [if_pos hp] at h
      refine Relation.ReflTransGen.head (Step.wr i p v k hx hp) ?_
      have := ih (T := Function.update T i k) (m := m.write p v) (by simp) h
      simpa using this
    · rw [if_neg hp] at h; simp at h

/-- What is preserved along every interleaving of non-interfering threads. -/
structure ParInv (W R : ℕ → Set Ptr) (n : ℕ → Mem F) (m₀ : Mem F) (c : Config F) : Prop where
  foot : ∀ i, Foot (W i) (R i) (c.1 i)
  solo : ∀ i, ∃ n', (c.1 i).run c.2 = some ((), n') ∧ ∀ a ∈ W i, n'.val a = (n i).val a
  len : c.2.len = m₀.len
  frame : ∀ a, (∀ i, a ∉ W i) → c.2.val a = m₀.val a

theorem ParInv.step {W R : ℕ → Set Ptr} {n : ℕ → Mem F} {m₀ : Mem F} {c c' : Config F}
    (hd : ∀ i j, i ≠ j → ∀ a ∈ W i, a ∉ W j ∧ a ∉ R j)
    (h : ParInv W R n m₀ c) (s : Step c c') : ParInv W R n m₀ c' := by
  cases s with
  | @rd T m i p k hi ok =>
    have hfi := h.foot i
    simp only [hi] at hfi
    refine ⟨fun j => ?_, fun j => ?_, h.len, h.frame⟩
    · by_cases e : j = i
      · subst e; simpa using hfi.2 _
      · simpa [e] using h.foot j
    · by_cases e : j = i
      · subst e
        obtain ⟨n', h1, h2⟩ := h.solo j
        simp only [hi, run, if_pos ok] at h1
        exact ⟨n', by simpa using h1, h2⟩
      · simpa [e] using h.solo j
  | @wr T m i p v k hi ok =>
    have hfi := h.foot i
    simp only [hi] at hfi
    refine ⟨fun j => ?_, fun j => ?_, h.len, fun a ha => ?_⟩
    · by_cases e : j = i
      · subst e; simpa using hfi.2
      · simpa [e] using h.foot j
    · by_cases e : j = i
      · subst e
        obtain ⟨n', h1, h2⟩ := h.solo j
        simp only [hi, run, if_pos ok] at h1
        exact ⟨n', by simpa using h1, h2⟩
      · obtain ⟨n', h1, h2⟩ := h.solo j
        have hp := hd i j (Ne.symm e) p hfi.1
        have ag : Agree (W j ∪ R j) m (m.write p v) := by
          refine ⟨rfl, fun a ha => ?_⟩
          rw [Mem.write_val, if_neg]
          rintro rfl
          rcases ha with ha | ha
          · exact hp.1 ha
          · exact hp.2 ha
        rcases (h.foot j).run_agree ag with ⟨h3, _⟩ | ⟨a, q, q', h3, h4, h5⟩
        · rw [h1] at h3; simp at h3
        · simp only at h1 h3
          rw [h1] at h3
          simp only [Option.some.injEq, Prod.mk.injEq] at h3
          refine ⟨q', ?_, fun b hb => ?_⟩
          · simp [e, h4]
          · rw [← h5.2 b (Or.inl hb), ← h3.2]; exact h2 b hb
    · rw [Mem.write_val, if_neg]
      · exact h.frame a ha
      · rintro rfl; exact ha i hfi.1

theorem ParInv.steps {W R : ℕ → Set Ptr} {n : ℕ → Mem F} {m₀ : Mem F} {c c' : Config F}
    (hd : ∀ i j, i ≠ j → ∀ a ∈ W i, a ∉ W j ∧ a ∉ R j)
    (h : ParInv W R n m₀ c) (s : Steps c c') : ParInv W R n m₀ c' := by
  induction s with
  | refl => exact h
  | tail _ st ih => exact ih.step hd st

theorem ParInv.notUB {W R : ℕ → Set Ptr} {n : ℕ → Mem F} {m₀ : Mem F} {c : Config F}
    (hd : ∀ i j, i ≠ j → ∀ a ∈ W i, a ∉ W j ∧ a ∉ R j)
    (h : ParInv W R n m₀ c) : ¬ IsUB c := by
  rintro (⟨i, hi | ⟨p, k, hi, hp⟩ | ⟨p, v, k, hi, hp⟩⟩ | ⟨i, j, p, hij, ⟨v, k, hi⟩, hj⟩)
  iterate 3
    obtain ⟨n', h1, _⟩ := h.solo i
    rw [hi] at h1
    simp [run] at h1
    try exact hp h1.1
  have hw := h.foot i
  rw [hi] at hw
  have hn := hd i j hij p hw.1
  have hf := h.foot j
  rcases hj with ⟨k, hj⟩ | ⟨v, k, hj⟩ <;> rw [hj] at hf
  · exact hn.2 hf.1
  · exact hn.1 hf.1

theorem ParInv.done {W R : ℕ → Set Ptr} {n : ℕ → Mem F} {m₀ m' : Mem F} {c : Config F}
    (h : ParInv W R n m₀ c) (hd : IsDone c) (hlen : m'.len = m₀.len)
    (hW : ∀ i, ∀ a ∈ W i, m'.val a = (n i).val a)
    (hout : ∀ a, (∀ i, a ∉ W i) → m'.val a = m₀.val a) : c.2 = m' := by
  ext a
  · rw [h.len, hlen]
  · by_cases ha : ∃ i, a ∈ W i
    · obtain ⟨i, hi⟩ := ha
      obtain ⟨n', h1, h2⟩ := h.solo i
      rw [hd i] at h1
      simp only [run_ret, Option.some.injEq, Prod.mk.injEq, true_and] at h1
      rw [hW i a hi, ← h2 a hi, h1]
    · push Not at ha
      rw [h.frame a ha, hout a ha]

theorem ParInv.finish {W R : ℕ → Set Ptr} {n : ℕ → Mem F} {m₀ : Mem F} {c : Config F}
    (hd : ∀ i j, i ≠ j → ∀ a ∈ W i, a ∉ W j ∧ a ∉ R j)
    (N : ℕ) (h : ParInv W R n m₀ c) (hN : ∀ i, N ≤ i → c.1 i = .ret ()) :
    ∃ c', Steps c c' ∧ IsDone c' := by
  induction N generalizing c with
  | zero => exact ⟨c, .refl, fun i => hN i (Nat.zero_le i)⟩
  | succ N ih =>
    obtain ⟨n', h1, _⟩ := h.solo N
    have s : Steps c (Function.update c.1 N (.ret ()), n') := Steps.solo (T := c.1) N h1
    obtain ⟨c', s', d'⟩ := ih (h.steps hd s) (fun i hi => by
      by_cases e : i = N
      · subst e; simp
      · simpa [e] using hN i (by omega))
    exact ⟨c', s.trans s', d'⟩

theorem Steps.tail_ret {c c' : Config F} (s : Steps c c') (N : ℕ)
    (hN : ∀ i, N ≤ i → c.1 i = .ret ()) : ∀ i, N ≤ i → c'.1 i = .ret () := by
  induction s with
  | refl => exact hN
  | tail _ st ih =>
    intro i hi
    have := ih i hi
    cases st with
    | rd j p k hj ok =>
      by_cases e : i = j
      · subst e; simp only at this; rw [this] at hj; cases hj
      · simpa [e] using this
    | wr j p v k hj ok =>
      by_cases e : i = j
      · subst e; simp only at this; rw [this] at hj; cases hj
      · simpa [e] using this

/-- **Non-interference theorem.**  If no iteration writes what another reads or writes, then
every interleaving is safe and ends in the memory `m'` that collects the solo results. -/
theorem parSpec_of_solo {N : ℕ} {body : ℕ → Prog F Unit} {m m' : Mem F} (W R : ℕ → Set Ptr)
    (hfoot : ∀ i, i < N → Foot (W i) (R i) (body i))
    (hd : ∀ i j, i < N → j < N → i ≠ j → ∀ a ∈ W i, a ∉ W j ∧ a ∉ R j)
    (hsolo : ∀ i, i < N → ∃ n, (body i).run m = some ((), n) ∧ ∀ a ∈ W i, m'.val a = n.val a)
    (hlen : m'.len = m.len)
    (hout : ∀ a, (∀ i, i < N → a ∉ W i) → m'.val a = m.val a) :
    ParSpec N body m m' := by
  classical
  set W' : ℕ → Set Ptr := fun i => if i < N then W i else ∅ with hW'
  set R' : ℕ → Set Ptr := fun i => if i < N then R i else ∅ with hR'
  have : Nonempty (Mem F) := ⟨m⟩
  choose! nn hn using hsolo
  have hd' : ∀ i j, i ≠ j → ∀ a ∈ W' i, a ∉ W' j ∧ a ∉ R' j := by
    intro i j hij a ha
    by_cases hi : i < N
    · by_cases hj : j < N
      · simp only [hW', hR', if_pos hi, if_pos hj] at *; exact hd i j hi hj hij a ha
      · simp [hW', hR', hj]
    · simp [hW', hi] at ha
  have inv0 : ParInv W' R' nn m (threads N body, m) := by
    refine ⟨fun i => ?_, fun i => ?_, rfl, fun _ _ => rfl⟩
    · by_cases hi : i < N
      · simp only [threads, hW', hR', if_pos hi]; exact hfoot i hi
      · simp only [threads, if_neg hi]; trivial
    · by_cases hi : i < N
      · simp only [threads, if_pos hi]
        exact ⟨nn i, (hn i hi).1, fun _ _ => rfl⟩
      · simp only [threads, if_neg hi, hW']
        exact ⟨m, rfl, fun a ha => by simp at ha⟩
  intro c s
  have inv := inv0.steps hd' s
  have fin : ∀ c, ParInv W' R' nn m c → IsDone c → c.2 = m' := by
    intro c inv d
    refine inv.done d hlen (fun i a ha => ?_) (fun a ha => hout a fun i hi => ?_)
    · by_cases hi : i < N
      · simp only [hW', if_pos hi] at ha; exact (hn i hi).2 a ha
      · simp [hW', hi] at ha
    · have := ha i; simpa [hW', hi] using this
  refine ⟨inv.notUB hd', fin c inv, ?_⟩
  obtain ⟨c', s', d'⟩ := inv.finish hd' N (s.tail_ret N (fun i hi => by simp [threads, not_lt.mpr hi]))
  exact ⟨c', s', d', fin c' (inv.steps hd' s') d'⟩

/-- The final memory of a parallel loop is unique. -/
theorem ParSpec.unique {N : ℕ} {body : ℕ → Prog F Unit} {m m' m'' : Mem F}
    (h : ParSpec N body m m') (h' : ParSpec N body m m'') : m' = m'' := by
  obtain ⟨c, s, d, e⟩ := (h _ .refl).2.2
  rw [← e, (h' c s).2.1 d]

/-- Sequential code is a parallel loop with a single thread. -/
theorem parSpec_seq {x : Prog F Unit} {m m' : Mem F} (h : x.run m = some ((), m')) :
    ParSpec 1 (fun _ => x) m m' := by
  refine parSpec_of_solo (fun _ => Set.univ) (fun _ => Set.univ) (fun i _ => ?_)
    (fun i j hi hj hij => by omega) (fun i _ => ⟨m', h, fun _ _ => rfl⟩) ?_
    (fun a ha => absurd (Set.mem_univ a) (ha 0 one_pos))
  · clear h; induction x with
    | ret _ => trivial
    | ub => trivial
    | rd p k ih => exact ⟨trivial, fun v => ih v⟩
    | wr p v k ih => exact ⟨trivial, ih⟩
  · have : Foot (Set.univ) (Set.univ) x := by
      clear h; induction x with
      | ret _ => trivial
      | ub => trivial
      | rd p k ih => exact ⟨trivial, fun v => ih v⟩
      | wr p v k ih => exact ⟨trivial, ih⟩
    exact (this.run_frame h).1

/-! ## Kernels: sequences of parallel loops (with the implicit barrier between them) -/

/-- One phase: a parallel loop (number of iterations, body) and the pointers the function promises the compiler to be aligned
(`__builtin_assume_aligned`).  A promise has no effect on `Step`; `Spec/Align` says when it is broken. -/
structure Phase (F : Type) where
  N : ℕ
  body : ℕ → Prog F Unit
  al : List Ptr

/-- A `void` C function: phases executed one after another. -/
abbrev Kernel (F : Type) := List (Phase F)

/-- `#pragma omp parallel for` `for (i = lo; i < hi; i++) body(i)` -/
def parFor (lo hi : Int) (body : Int → Prog F Unit) (al : List Ptr := []) : Kernel F :=
  [⟨(hi - lo).toNat, fun k => body (lo + k), al⟩]

/-- sequential code -/
def seqK (x : Prog F Unit) (al : List Ptr := []) : Kernel F := [⟨1, fun _ => x, al⟩]

/-- nothing but promises of alignment -/
def assumeK (al : List Ptr) : Kernel F := [⟨0, fun _ => .ret (), al⟩]

/-- What a kernel does, under every interleaving of every phase. -/
inductive KSpec : Kernel F → Mem F → Mem F → Prop
  | nil (m : Mem F) : KSpec [] m m
  | cons {p : Phase F} {k : Kernel F} {m m₁ m' : Mem F}
      (h : ParSpec p.N p.body m m₁) (t : KSpec k m₁ m') : KSpec (p :: k) m m'

/-- Some interleaving of some phase reaches undefined behaviour. -/
inductive KUB : Kernel F → Mem F → Prop
  | here {p : Phase F} {k : Kernel F} {m : Mem F} (c : Config F)
      (s : Steps (threads p.N p.body, m) c) (u : IsUB c) : KUB (p :: k) m
  | there {p : Phase F} {k : Kernel F} {m m₁ : Mem F} (c : Config F)
      (s : Steps (threads p.N p.body, m) c) (d : IsDone c) (e : c.2 = m₁) (u : KUB k m₁) :
      KUB (p :: k) m

theorem KSpec.append {k k' : Kernel F} {m m₁ m' : Mem F} (h : KSpec k m m₁) (h' : KSpec k' m₁ m') :
    KSpec (k ++ k') m m' := by
  induction h with
  | nil => exact h'
  | cons h _ ih => exact .cons h (ih h')

theorem KSpec.unique {k : Kernel F} {m m' m'' : Mem F} (h : KSpec k m m') (h' : KSpec k m m'') :
    m' = m'' := by
  induction h generalizing m'' with
  | nil => cases h'; rfl
  | cons h _ ih =>
    cases h' with
    | cons g t => have := h.unique g; subst this; exact ih t

/-- A kernel with a specification has no undefined behaviour under any interleaving. -/
theorem KSpec.safe {k : Kernel F} {m m' : Mem F} (h : KSpec k m m') : ¬ KUB k m := by
  induction h with
  | nil => intro u; cases u
  | cons h _ ih =>
    intro u
    cases u with
    | here c s u => exact (h c s).1 u
    | there c s d e u =>
      have := (h c s).2.1 d
      rw [this] at e; subst e; exact ih u

theorem kspec_seq {x : Prog F Unit} {al : List Ptr} {m m' : Mem F} (h : x.run m = some ((), m')) :
    KSpec (seqK x al) m m' := .cons (parSpec_seq h) (.nil _)

theorem kspec_assume (al : List Ptr) (m : Mem F) : KSpec (assumeK al) m m := by
  refine .cons (parSpec_of_solo (fun _ => ∅) (fun _ => ∅) (fun i hi => ?_) (fun i j hi => ?_) (fun i hi => ?_) rfl fun a _ => rfl) (.nil _)
  all_goals exact absurd hi (Nat.not_lt_zero _)

/-- A thread whose solo run is undefined makes the kernel undefined. -/
theorem Steps.solo_ub {T : ℕ → Prog F Unit} {m : Mem F} (i : ℕ) (h : (T i).run m = none) :
    ∃ c, Steps (T, m) c ∧ IsUB c := by
  generalize hx : T i = x at h
  induction x generalizing T m with
  | ret a => simp at h
  | ub => exact ⟨_, .refl, .inl ⟨i, Or.inl hx⟩⟩
  | rd p k ih =>
    simp only [run] at h
    by_cases hp : m.Ok p
    · rw [if_pos hp] at h
      obtain ⟨c, s, u⟩ := ih (m.val p) (T := Function.update T i (k (m.val p))) (m := m) (by simp) h
      exact ⟨c, Relation.ReflTransGen.head (Step.rd i p k hx hp) s, u⟩
    · exact ⟨_, .refl, .inl ⟨i, Or.inr (Or.inl ⟨p, k, hx, hp⟩)⟩⟩
  | wr p v k ih =>
    simp only [run] at h
    by_cases hp : m.Ok p
    · rw [if_pos hp] at h
      obtain ⟨c, s, u⟩ := ih (T := Function.update T i k) (m := m.write p v) (by simp) h
      exact ⟨c, Relation.ReflTransGen.head (Step.wr i p v k hx hp) s, u⟩
    · exact ⟨_, .refl, .inl ⟨i, Or.inr (Or.inr ⟨p, v, k, hx, hp⟩)⟩⟩

theorem kub_parFor {lo hi : Int} {body : Int → Prog F Unit} {al : List Ptr} {m : Mem F} (i : Int) (h1 : lo ≤ i)
    (h2 : i < hi) (h : (body i).run m = none) (k : Kernel F) :
    KUB (parFor lo hi body al ++ k) m := by
  obtain ⟨c, s, u⟩ := Steps.solo_ub (T := threads (hi - lo).toNat (fun k => body (lo + k))) (m := m)
    (i - lo).toNat (by
      have e : lo + ((i - lo).toNat : Int) = i := by omega
      simp only [threads]
      rw [if_pos (by omega), e]; exact h)
  exact .here c s u

theorem kub_seq {x : Prog F Unit} {al : List Ptr} {m : Mem F} (h : x.run m = none) (k : Kernel F) :
    KUB (seqK x al ++ k) m := by
  obtain ⟨c, s, u⟩ := Steps.solo_ub (T := threads 1 (fun _ => x)) (m := m) 0
    (by simpa [threads] using h)
  exact .here c s u

/-- **Element-wise loops.**  Iteration `i` reads only addresses that no other iteration
writes, and leaves `f i` in `out + i` and nothing else changed. -/
theorem kspec_elementwise {N : Int} {body : Int → Prog F Unit} {al : List Ptr} {m : Mem F} {out : Ptr}
    {f : Int → F} (R : Int → Set Ptr)
    (hfoot : ∀ i, 0 ≤ i → i < N → Foot {out + i} (R i) (body i))
    (hR : ∀ i j, 0 ≤ i → i < N → 0 ≤ j → j < N → i ≠ j → out + i ∉ R j)
    (hrun : ∀ i, 0 ≤ i → i < N → ∃ n, (body i).run m = some ((), n) ∧ n.val (out + i) = f i) :
    KSpec (parFor 0 N body al) m (m.setRange out N f) := by
  refine KSpec.cons (m₁ := m.setRange out N f) (parSpec_of_solo (fun k => {out + (0 + (k : Int))}) (fun k => R (0 + (k : Int)))
    (fun i hi => ?_) (fun i j hi hj hij a ha => ?_) (fun i hi => ?_) rfl (fun a ha => ?_)) (.nil _)
  · exact hfoot _ (by omega) (by simp at hi; omega)
  · simp at hi hj
    rw [Set.mem_singleton_iff] at ha ⊢
    subst ha
    refine ⟨?_, hR _ _ (by omega) (by omega) (by omega) (by omega) (by omega)⟩
    simp; omega
  · simp at hi
    obtain ⟨n, h1, h2⟩ := hrun (0 + (i : Int)) (by omega) (by omega)
    refine ⟨n, h1, fun a ha => ?_⟩
    rw [Set.mem_singleton_iff] at ha; subst ha
    rw [h2, Mem.setRange_val_in _ _ _ _ _ (by omega) (by omega)]
  · apply Mem.setRange_val_out
    rintro ⟨h1, h2, h3⟩
    refine ha (a.off - out.off).toNat (by simp; omega) ?_
    rw [Set.mem_singleton_iff]
    ext
    · simpa using h1
    · simp; omega

end L1c
