import Verif.Model.Math

/-! Helper lemmas for the element-wise kernels. -/

namespace L1c
open Prog Scalar

variable {F : Type}

/-- No index of one range addresses a *different* index of the other: the two length-`N` ranges
are disjoint, or they are the same range.  Implied by `restrict`. -/
def NoCross (N : Int) (out inp : Ptr) : Prop :=
  ∀ i j, 0 ≤ i → i < N → 0 ≤ j → j < N → i ≠ j → out + i ≠ inp + j

theorem NoCross.of_blk {N : Int} {p q : Ptr} (h : p.blk ≠ q.blk) : NoCross N p q := by
  intro i j _ _ _ _ _ e
  exact h (by simpa using congrArg Ptr.blk e)

theorem NoCross.refl (N : Int) (p : Ptr) : NoCross N p p := by
  intro i j _ _ _ _ h; simpa using h

/-- one-input element-wise loop body -/
theorem kspec_map1 {N : Int} {m : Mem F} {x y : Ptr} {al : List Ptr} (f : F → F)
    (hx : m.Has x N) (hy : m.Has y N) (hxy : NoCross N y x) :
    KSpec (parFor (al := al) 0 N fun i => do let a ← load (x + i); store (y + i) (f a)) m
      (m.setRange y N fun i => f (m.val (x + i))) := by
  refine kspec_elementwise (fun i => {x + i}) (fun i h0 h1 => ?_) (fun i j h0 h1 h2 h3 h4 => ?_)
    (fun i h0 h1 => ?_)
  · exact Foot.bind (Foot.load rfl) fun _ => Foot.store rfl
  · simpa using hxy i j h0 h1 h2 h3 h4
  · exact ⟨m.write (y + i) (f (m.val (x + i))),
      by simp [run_load (hx i h0 h1), run_store (hy i h0 h1)], by simp [Mem.write_val]⟩

/-- two-input element-wise loop body -/
theorem kspec_map2 {N : Int} {m : Mem F} {x y z : Ptr} {al : List Ptr} (f : F → F → F)
    (hx : m.Has x N) (hy : m.Has y N) (hz : m.Has z N)
    (hzx : NoCross N z x) (hzy : NoCross N z y) :
    KSpec (parFor (al := al) 0 N fun i => do
        let a ← load (x + i); let b ← load (y + i); store (z + i) (f a b)) m
      (m.setRange z N fun i => f (m.val (x + i)) (m.val (y + i))) := by
  refine kspec_elementwise (fun i => {x + i, y + i}) (fun i h0 h1 => ?_)
    (fun i j h0 h1 h2 h3 h4 => ?_) (fun i h0 h1 => ?_)
  · exact Foot.bind (Foot.load (by simp)) fun _ => Foot.bind (Foot.load (by simp)) fun _ =>
      Foot.store rfl
  · have a := hzx i j h0 h1 h2 h3 h4
    have b := hzy i j h0 h1 h2 h3 h4
    simp [a, b]
  · exact ⟨m.write (z + i) (f (m.val (x + i)) (m.val (y + i))),
      by simp [run_load (hx i h0 h1), run_load (hy i h0 h1), run_store (hz i h0 h1)],
      by simp [Mem.write_val]⟩

/-- Sequential in-place/out-of-place map loop. -/
theorem run_map1 {N : Int} {m : Mem F} {x y : Ptr} (f : F → F) (hN : 0 ≤ N)
    (hx : m.Has x N) (hy : m.Has y N) (hxy : NoCross N y x) :
    (forUp 0 N fun i => do let a ← load (x + i); store (y + i) (f a)).run m
      = some ((), m.setRange y N fun i => f (m.val (x + i))) := by
  have := run_forUp 0 N (fun i => do let a ← load (x + i); store (y + i) (f a))
    (fun i => m.setRange y i fun i => f (m.val (x + i))) (fun i h0 h1 => ?_) hN
  · rwa [Mem.setRange_zero _ _ _ le_rfl] at this
  · have hv : (m.setRange y i fun i => f (m.val (x + i))).val (x + i) = m.val (x + i) := by
      apply Mem.setRange_val_out
      rintro ⟨h2, h3, h4⟩
      simp only [Ptr.add_blk, Ptr.add_off] at h2 h3 h4
      refine hxy (x.off + i - y.off) i (by omega) (by omega) h0 h1 (by omega) ?_
      ext
      · simp [h2]
      · simp
    have hx' : (m.setRange y i fun i => f (m.val (x + i))).Ok (x + i) := hx i h0 h1
    have hy' : (m.setRange y i fun i => f (m.val (x + i))).Ok (y + i) := hy i h0 h1
    simp only [run_bind, run_load hx', run_store hy', Option.bind_some, hv]
    rw [Mem.setRange_write _ _ _ (fun i => f (m.val (x + i))) h0]

/-- read-only accumulation loop -/
theorem run_sum {γ : Type} {N lo : Int} {m : Mem F} {s : γ} {body : Int → γ → Prog F γ}
    (S : Int → γ) (hle : lo ≤ N) (h0 : S lo = s)
    (h : ∀ i, lo ≤ i → i < N → (body i (S i)).run m = some (S (i + 1), m)) :
    (foldUp lo N s body).run m = some (S N, m) :=
  run_foldUp lo N s body S (fun _ => m) h h0 hle

end L1c
