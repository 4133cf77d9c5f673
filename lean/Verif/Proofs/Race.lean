import Verif.Spec.Race
import Verif.Proofs.ConcurrentLib
import Verif.Proofs.MathK

/-! Helper lemmas: data races. -/

namespace L1c
open Prog Scalar Cmd

variable {F α β : Type}

theorem KRace.ub {k : Kernel F} {m : Mem F} (h : KRace k m) : KUB k m := by
  induction h with
  | here c s r => exact .here c s (.inr r)
  | there c s d e _ ih => exact .there c s d e ih

/-- one thread executes the first part of its program -/
theorem Steps.pre {T : ℕ → Prog F Unit} {m n : Mem F} (i : ℕ) {x : Prog F α} {f : α → Prog F Unit} {a : α} (hx : T i = x.bind f) (h : x.run m = some (a, n)) :
    Steps (T, m) (Function.update T i (f a), n) := by
  induction x generalizing T m with
  | ret b =>
    simp only [run_ret, Option.some.injEq, Prod.mk.injEq] at h
    obtain ⟨rfl, rfl⟩ := h
    have : Function.update T i (f b) = T := by rw [show f b = T i from hx.symm]; simp
    rw [this]
  | ub => simp at h
  | rd p k ih =>
    simp only [run] at h
    split at h
    · next hp =>
      refine Relation.ReflTransGen.head (Step.rd i p _ hx hp) ?_
      have := ih (m.val p) (T := Function.update T i ((k (m.val p)).bind f)) (m := m) (by simp) h
      simpa using this
    · simp at h
  | wr p v k ih =>
    simp only [run] at h
    split at h
    · next hp =>
      refine Relation.ReflTransGen.head (Step.wr i p v _ hx hp) ?_
      have := ih (T := Function.update T i (k.bind f)) (m := m.write p v) (by simp) h
      simpa using this
    · simp at h

theorem prog_bind_ret (x : Prog F α) : x.bind ret = x := by
  induction x with
  | ret => rfl
  | ub => rfl
  | rd p k ih => simp only [Prog.bind]; congr; funext v; exact ih v
  | wr p v k ih => simp only [Prog.bind]; rw [ih]

theorem prog_bind_assoc {γ : Type} (x : Prog F α) (f : α → Prog F β) (g : β → Prog F γ) : (x.bind f).bind g = x.bind fun a => (f a).bind g := by
  induction x with
  | ret => rfl
  | ub => rfl
  | rd p k ih => simp only [Prog.bind]; congr; funext v; exact ih v
  | wr p v k ih => simp only [Prog.bind]; rw [ih]

/-- the first round of a loop -/
theorem forN_first (lo : Int) (body : Int → Prog F Unit) (k : ℕ) : ∃ R : Prog F Unit, forN lo body (k + 1) = (body lo).bind fun _ => R := by
  induction k with
  | zero =>
    refine ⟨ret (), ?_⟩
    show body (lo + ((0 : ℕ) : Int)) = _
    rw [show (fun _ : Unit => (ret () : Prog F Unit)) = ret from rfl, prog_bind_ret]
    simp
  | succ k ih =>
    obtain ⟨R, h⟩ := ih
    refine ⟨R.bind fun _ => body (lo + ((k + 1 : ℕ) : Int)), ?_⟩
    show (forN lo body (k + 1)).bind _ = _
    rw [h, prog_bind_assoc]

theorem forUp_first {lo hi : Int} (h : lo < hi) (body : Int → Prog F Unit) : ∃ R : Prog F Unit, forUp lo hi body = (body lo).bind fun _ => R := by
  obtain ⟨k, hk⟩ : ∃ k, (hi - lo).toNat = k + 1 := ⟨(hi - lo).toNat - 1, by omega⟩
  unfold forUp
  rw [hk]
  exact forN_first lo body k

/-- two threads of a parallel loop: after a part that only reads, one is about to write where the other, after a part that only reads, is about to read -/
theorem race_parFor {lo hi : Int} {body : Int → Prog F Unit} {al : List Ptr} {m : Mem F} {i j : Int} {p : Ptr} (hi1 : lo ≤ i) (hi2 : i < hi) (hj1 : lo ≤ j) (hj2 : j < hi) (hij : i ≠ j)
    {x : Prog F α} {f : α → Prog F Unit} {a : α} {y : Prog F β} {g : β → Prog F Unit} {b : β} {v : F} {k : Prog F Unit} {k' : F → Prog F Unit}
    (e1 : body i = x.bind f) (r1 : x.run m = some (a, m)) (w : f a = .wr p v k) (e2 : body j = y.bind g) (r2 : y.run m = some (b, m)) (r : g b = .rd p k') (K : Kernel F) :
    KRace (parFor lo hi body al ++ K) m := by
  have hi' : lo + ((i - lo).toNat : Int) = i := by omega
  have hj' : lo + ((j - lo).toNat : Int) = j := by omega
  have hne : (j - lo).toNat ≠ (i - lo).toNat := by omega
  have s1 := Steps.pre (T := threads (hi - lo).toNat fun k => body (lo + k)) (m := m) (i - lo).toNat (x := x) (f := f) (a := a) (n := m) (by
    simp only [threads]; rw [if_pos (by omega), hi', e1]) r1
  have s2 := Steps.pre (T := Function.update (threads (hi - lo).toNat fun k => body (lo + k)) (i - lo).toNat (f a)) (m := m) (j - lo).toNat (x := y) (f := g) (a := b) (n := m) (by
    rw [Function.update_of_ne hne]
    simp only [threads]; rw [if_pos (by omega), hj', e2]) r2
  refine .here _ (s1.trans s2) ⟨(i - lo).toNat, (j - lo).toNat, p, hne.symm, ⟨v, k, ?_⟩, .inl ⟨k', ?_⟩⟩
  · simp only [Function.update_of_ne hne.symm, Function.update_self]; exact w
  · simp only [Function.update_self]; exact r

/-- element-wise routines with two inputs race exactly if some iteration writes what another reads -/
theorem race_map2 {N : Int} {m : Mem F} {x y z : Ptr} {al : List Ptr} (f : F → F → F) (hx : m.Has x N) (hy : m.Has y N) (hz : m.Has z N) :
    KRace (parFor (al := al) 0 N fun i => do
        let a ← load (x + i); let b ← load (y + i); store (z + i) (f a b)) m ↔ ¬ (NoCross N z x ∧ NoCross N z y) := by
  constructor
  · exact fun h hc => (kspec_map2 f hx hy hz hc.1 hc.2).safe h.ub
  · intro h
    have key : ∀ i, 0 ≤ i → i < N → (do let a ← load (x + i); let b ← load (y + i); pure (f a b) : Prog F F).run m = some (f (m.val (x + i)) (m.val (y + i)), m) := fun i h0 h1 => by
      simp only [run_bind, run_load (hx i h0 h1), Option.bind_some, run_load (hy i h0 h1), run_pure]
    rw [← List.append_nil (parFor _ _ _ _)]
    rw [not_and_or] at h
    unfold NoCross at h
    push Not at h
    rcases h with ⟨i, j, h0, h1, h2, h3, h4, h5⟩ | ⟨i, j, h0, h1, h2, h3, h4, h5⟩
    · exact race_parFor (p := z + i) h0 h1 h2 h3 h4 (x := (do let a ← load (x + i); let b ← load (y + i); pure (f a b) : Prog F F)) (f := fun v => store (z + i) v)
        rfl (key i h0 h1) rfl (y := (ret () : Prog F Unit)) (g := fun _ => (load (x + j)).bind fun a => (load (y + j)).bind fun b => store (z + j) (f a b)) rfl rfl
        (by rw [h5]; rfl) []
    · exact race_parFor (p := z + i) h0 h1 h2 h3 h4 (x := (do let a ← load (x + i); let b ← load (y + i); pure (f a b) : Prog F F)) (f := fun v => store (z + i) v)
        rfl (key i h0 h1) rfl (y := (load (x + j) : Prog F F)) (g := fun a => (load (y + j)).bind fun b => store (z + j) (f a b)) rfl (run_load (hx j h2 h3))
        (by rw [h5]; rfl) []

theorem part_univ [Scalar F] (m : Mem F) : m.part Set.univ = m := by
  ext a
  · simp [Mem.part]
  · simp [Mem.part]

section matrix
variable [Scalar F] {C : Set ℕ} {n m : ℕ} {A x y : Ptr}

theorem spares_matAx (h : y.blk ∉ C) : (matAxM (F := F) n m A x y).Spares C := spares_exec (.seq (Foot.forUp fun _ _ _ =>
  Foot.bind (foot_fold fun _ _ => Foot.bind (Foot.load (Set.mem_univ _)) fun _ => Foot.bind (Foot.load (Set.mem_univ _)) fun _ => Foot.pure _) fun _ => Foot.store h))

theorem spares_matAty (h : y.blk ∉ C) : (matAtyM (F := F) n m A x y).Spares C := spares_exec (.seq (Foot.forUp fun _ _ _ =>
  Foot.bind (foot_fold fun _ _ => Foot.bind (Foot.load (Set.mem_univ _)) fun _ => Foot.bind (Foot.load (Set.mem_univ _)) fun _ => Foot.pure _) fun _ => Foot.store h))

end matrix

/-- a caller enters a sequential loop and executes the part of its first round before the first write -/
theorem CSteps.first [Scalar F] {lo hi : Int} (h : lo < hi) {body : Int → Prog F Unit} {x : Prog F β} {f : β → Prog F Unit} {a : β} {m : Mem F} {l : Local} {p : Ptr} {v : F} {k : Prog F Unit}
    {c : Cmd F α} (e : body lo = x.bind f) (r : x.run m = some (a, m)) (w : f a = .wr p v k) :
    ∃ A, CSteps (.cmd (.kern (seqK (forUp lo hi body)) c)) l m A l m ∧ A.Writes p := by
  obtain ⟨R, hR⟩ := forUp_first h body
  have s1 := Steps.pre (T := threads 1 fun _ => forUp lo hi body) (m := m) 0 (x := x) (f := fun a => (f a).bind fun _ => R) (a := a) (n := m) (by
    simp only [threads]; rw [if_pos one_pos, hR, e, prog_bind_assoc]) r
  refine ⟨_, .head .enter (CSteps.loop s1), 0, v, k.bind fun _ => R, ?_⟩
  simp only [Function.update_self, w, Prog.bind]

/-- two callers, each in a state of its own, at the same time -/
theorem race_two [Scalar F] {γ : Fin 2 → Type} {prog : ∀ i, Cmd F (γ i)} {L : Fin 2 → Local} {m : Mem F} {p : Ptr} {A : ∀ i, Act F (γ i)}
    (h : ∀ i, CSteps (.cmd (prog i)) (L i) m (A i) (L i) m) (hw : ∀ i, (A i).Writes p) : ∃ Y : Sys F γ, SSteps (Sys.start prog L m) Y ∧ Y.Race := by
  have q1 := SSteps.caller (X := Sys.start prog L m) 0 (h 0)
  have q2 := q1.trans (SSteps.caller 1 (A := A 1) (l := L 1) (m := m) (by
    simp only [Function.update_of_ne (show (1 : Fin 2) ≠ 0 by decide)]
    exact h 1))
  refine ⟨_, q2, 0, 1, p, by decide, ?_, .inr ?_⟩
  · simp only [Function.update_of_ne (show (0 : Fin 2) ≠ 1 by decide), Function.update_self]; exact hw 0
  · simp only [Function.update_self]; exact hw 1

end L1c
