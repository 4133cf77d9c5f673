import Verif.Spec.MemVec
import Verif.Proofs.MathK

/-! Helper lemmas: kernels on vectors in memory. -/

namespace L1c
open Prog Scalar

variable {F : Type} {N : ℕ} {s s' s'' : PState F} {S T : Set Ptr} {x y z p : Ptr}

theorem mem_rng_add {i : Int} (h0 : 0 ≤ i) (h1 : i < N) : p + i ∈ Rng p N := ⟨rfl, by simp; omega, by simp; omega⟩

namespace Only
theorem refl (s : PState F) : Only S s s := ⟨rfl, fun _ _ => rfl, rfl, rfl, rfl, rfl⟩

theorem mono (h : Only S s s') (hs : S ⊆ T) : Only T s s' := ⟨h.len, fun a ha => h.val a fun hc => ha (hs hc), h.rest⟩

theorem trans (h : Only S s s') (h' : Only T s' s'') (hs : S ⊆ T) : Only T s s'' :=
  ⟨h'.len.trans h.len, fun a ha => (h'.val a ha).trans (h.val a fun hc => ha (hs hc)), h'.rest.1.trans h.rest.1,
    h'.rest.2.1.trans h.rest.2.1, h'.rest.2.2.1.trans h.rest.2.2.1, h'.rest.2.2.2.trans h.rest.2.2.2⟩

theorem comp (h : Only S s s') (h' : Only T s' s'') : Only (S ∪ T) s s'' :=
  (h.mono Set.subset_union_left).trans (h'.mono Set.subset_union_right) subset_rfl

theorem has (h : Only S s s') {n : Int} (hp : s.mem.Has p n) : s'.mem.Has p n := by
  intro i h0 h1
  have := hp i h0 h1
  unfold Mem.Ok at this ⊢
  rwa [h.len]
end Only

theorem HoldsV.keep {v : Vec F N} (hv : HoldsV s p v) (h : Only S s s') (hd : Disjoint (Rng p N) S) : HoldsV s' p v :=
  ⟨h.has hv.1, fun i => by
    rw [h.val _ (Set.disjoint_left.1 hd (mem_rng_add (by omega) (by omega)))]
    exact hv.2 i⟩

theorem HoldsV.val {v : Vec F N} (hv : HoldsV s p v) {i : Int} (h0 : 0 ≤ i) (h1 : i < N) : s.mem.val (p + i) = v ⟨i.toNat, by omega⟩ := by
  have := hv.2 ⟨i.toNat, by omega⟩
  rw [← this]
  congr 2
  simp [h0]

theorem NoCross.of_disj (h : Disjoint (Rng x N) (Rng y N)) : NoCross N x y := fun _ _ h0 h1 h2 h3 _ e =>
  Set.disjoint_left.1 h (mem_rng_add h0 h1) (e ▸ mem_rng_add h2 h3)

/-- a kernel that rewrites the range `z` -/
theorem setRange_holds (hz : s.mem.Has z N) (g : Int → F) (w : Vec F N) (hw : ∀ i : Fin N, g ((i : ℕ) : Int) = w i) :
    HoldsV { s with mem := s.mem.setRange z N g } z w ∧ Only (Rng z N) s { s with mem := s.mem.setRange z N g } := by
  refine ⟨⟨hz, fun i => ?_⟩, rfl, fun a ha => ?_, rfl, rfl, rfl, rfl⟩
  · show (s.mem.setRange z N g).val _ = _
    rw [Mem.setRange_val_in _ _ _ _ _ (by omega) (by omega)]
    exact hw i
  · exact Mem.setRange_val_out _ _ _ _ _ ha

variable [Scalar F]

/-- element-wise command with two inputs -/
theorem cmd_map2 (f : F → F → F) {k : Kernel F} {al : List Ptr} (hk : k = parFor (al := al) 0 N fun i => do
      let a ← load (x + i); let b ← load (y + i); store (z + i) (f a b)) {u v : Vec F N} (hx : HoldsV s x u) (hy : HoldsV s y v)
    (hz : s.mem.Has z N) (hzx : NoCross N z x) (hzy : NoCross N z y) :
    ∃ s', CSpec (Cmd.exec k) s () s' ∧ HoldsV s' z (fun i => f (u i) (v i)) ∧ Only (Rng z N) s s' := by
  subst hk
  have h := setRange_holds (s := s) hz (fun i => f (s.mem.val (x + i)) (s.mem.val (y + i))) (fun i => f (u i) (v i))
    (fun i => by rw [hx.2, hy.2])
  exact ⟨_, cspec_exec (kspec_map2 f hx.1 hy.1 hz hzx hzy), h.1, h.2⟩

/-- element-wise command with one input -/
theorem cmd_map1 (f : F → F) {k : Kernel F} {al : List Ptr} (hk : k = parFor (al := al) 0 N fun i => do let a ← load (x + i); store (z + i) (f a)) {u : Vec F N}
    (hx : HoldsV s x u) (hz : s.mem.Has z N) (hzx : NoCross N z x) :
    ∃ s', CSpec (Cmd.exec k) s () s' ∧ HoldsV s' z (fun i => f (u i)) ∧ Only (Rng z N) s s' := by
  subst hk
  have h := setRange_holds (s := s) hz (fun i => f (s.mem.val (x + i))) (fun i => f (u i)) (fun i => by rw [hx.2])
  exact ⟨_, cspec_exec (kspec_map1 f hx.1 hz hzx), h.1, h.2⟩

omit [Scalar F] in
/-- a fold over an array, in index order -/
theorem run_foldV {γ : Type} (g : γ → Fin N → γ) (s0 : γ) {body : Int → γ → Prog F γ} {m : Mem F}
    (hb : ∀ (i : Fin N) c, (body ((i : ℕ) : Int) c).run m = some (g c i, m)) :
    (foldUp 0 N s0 body).run m = some ((List.finRange N).foldl g s0, m) := by
  have h := run_foldUp 0 (N : Int) s0 body (fun k => ((List.finRange N).take k.toNat).foldl g s0) (fun _ => m) (fun k h0 h1 => ?_) (by simp) (by omega)
  · have e : ((List.finRange N).take ((N : Int).toNat)) = List.finRange N := List.take_of_length_le (by simp)
    rw [h, e]
  · obtain ⟨j, rfl⟩ := Int.eq_ofNat_of_zero_le h0
    have hj : j < N := by omega
    have := hb ⟨j, hj⟩ (((List.finRange N).take j).foldl g s0)
    dsimp only at this ⊢
    rw [Int.toNat_natCast, this]
    congr 2
    rw [show ((j : Int) + 1).toNat = j + 1 by omega, List.take_add_one, List.foldl_append]
    rw [List.getElem?_eq_getElem (by simpa using hj)]
    simp

theorem cmd_ddot {u v : Vec F N} (hx : HoldsV s x u) (hy : HoldsV s y v) : CSpec (Cmd.eval (cblas_ddot N x y)) s (ddot u v) s := by
  refine cspec_eval (m := s.mem) (run_foldV (fun c i => c + u i * v i) (lit 0) fun i c => ?_)
  simp only [run_bind, run_load (hx.1 ((i : ℕ) : Int) (by omega) (by omega)), run_load (hy.1 ((i : ℕ) : Int) (by omega) (by omega)), Option.bind_some, run_pure, hx.2, hy.2]

end L1c
