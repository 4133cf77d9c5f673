import Verif.Proofs.Race
import Verif.Props.VecMath
import Verif.Props.TV
import Verif.Props.Concurrent

/-!
# C104: data races

A data race (two threads access one address, at least one writes, nothing orders them) is undefined behaviour in C.  `Race`, `Sys.Race` (Base/Par, Model/Concurrent) say
that two threads are about to do that; `IsUB`, `KUB`, `Sys.Bad` include it, so that every theorem that excludes undefined behaviour excludes races.
-/

namespace L1c
open Prog Scalar Cmd

/-! ## One routine -/

/-- The four vector routines with a parallel loop over two inputs, for all lengths, factors and contents, and all positions of the arrays: some schedule has a race
exactly if the output overlaps an input other than element for element. -/
theorem C104_vectors {F : Type} [Scalar F] {N : Int} (alpha beta : F) {x y z : Ptr} {m : Mem F} (hx : m.Has x N) (hy : m.Has y N) (hz : m.Has z N) :
    (∀ k ∈ [l1c_dxmuly_z N x y z, l1c_daxpy_z N alpha x y z, l1c_daxpby_z N alpha x beta y z], KRace k m ↔
      ∃ i j, 0 ≤ i ∧ i < N ∧ 0 ≤ j ∧ j < N ∧ i ≠ j ∧ (z + i = x + j ∨ z + i = y + j)) ∧
    (KRace (l1c_daxpby N alpha x beta y) m ↔ ∃ i j, 0 ≤ i ∧ i < N ∧ 0 ≤ j ∧ j < N ∧ i ≠ j ∧ y + i = x + j) := by
  have e : ∀ {x y z : Ptr}, (¬ (NoCross N z x ∧ NoCross N z y)) ↔ ∃ i j, 0 ≤ i ∧ i < N ∧ 0 ≤ j ∧ j < N ∧ i ≠ j ∧ (z + i = x + j ∨ z + i = y + j) := fun {x y z} => by
    rw [not_and_or]
    unfold NoCross
    push Not
    constructor
    · rintro (⟨i, j, h0, h1, h2, h3, h4, h5⟩ | ⟨i, j, h0, h1, h2, h3, h4, h5⟩)
      · exact ⟨i, j, h0, h1, h2, h3, h4, .inl h5⟩
      · exact ⟨i, j, h0, h1, h2, h3, h4, .inr h5⟩
    · rintro ⟨i, j, h0, h1, h2, h3, h4, h5 | h5⟩
      · exact .inl ⟨i, j, h0, h1, h2, h3, h4, h5⟩
      · exact .inr ⟨i, j, h0, h1, h2, h3, h4, h5⟩
  constructor
  · intro k hk
    simp only [List.mem_cons, List.not_mem_nil, or_false] at hk
    rcases hk with rfl | rfl | rfl
    · exact (race_map2 (fun a b => a * b) hx hy hz).trans e
    · exact (race_map2 (fun a b => alpha * a + b) hx hy hz).trans e
    · exact (race_map2 (fun a b => alpha * a + beta * b) hx hy hz).trans e
  · refine ((race_map2 (fun a b => alpha * a + beta * b) hx hy hy).trans e).trans ⟨?_, ?_⟩
    · rintro ⟨i, j, h0, h1, h2, h3, h4, h5 | h5⟩
      · exact ⟨i, j, h0, h1, h2, h3, h4, h5⟩
      · exact absurd ((Ptr.add_inj _ _ _).1 h5) h4
    · rintro ⟨i, j, h0, h1, h2, h3, h4, h5⟩
      exact ⟨i, j, h0, h1, h2, h3, h4, .inl h5⟩

/-- The six difference operators on separate arrays: no schedule has a race. -/
theorem C104_differences {F : Type} [Scalar F] {n m : ℕ} (hn : 1 ≤ n) (hm : 2 ≤ m) (hfit : FitsInt ((n : Int) * m)) (alpha : F) (X D : Ptr) (mem : Mem F)
    (hX : mem.Has X ((n * m : ℕ) : Int)) (hD : mem.Has D ((n * m : ℕ) : Int)) (hs : Sep ((n * m : ℕ) : Int) D X) :
    ∀ k ∈ [l1c_Dx n m alpha X D, l1c_Dy n m alpha X D, l1c_DxT n m alpha X D, l1c_DyT n m alpha X D, l1c_DxTDx n m alpha X D, l1c_DyTDy n m alpha X D], ¬ KRace k mem :=
  fun k hk h => C11_safe_partial hn hm hfit alpha X D mem hX hD hs k hk h.ub

/-- In place (`D = X`) the vertical difference of an image with three or more rows has a race, whatever the image: one thread overwrites the row that another still reads. -/
theorem C104_in_place_false {F : Type} [Scalar F] {n m : ℕ} (hn : 3 ≤ n) (hm : 1 ≤ m) (hfit : FitsInt ((n : Int) * m)) (alpha : F) (X : Ptr) (mem : Mem F)
    (hX : mem.Has X ((n * m : ℕ) : Int)) : KRace (l1c_Dy n m alpha X X) mem := by
  have hnm : 3 * m ≤ n * m := Nat.mul_le_mul_right m hn
  have hz : 3 * (m : Int) ≤ ((n * m : ℕ) : Int) := by exact_mod_cast hnm
  have fit : ∀ k : Int, 0 ≤ k → k ≤ 2 → FitsInt (k * m) := fun k h0 h2 => by
    unfold FitsInt INT_MAX INT_MIN at *
    push_cast at hz
    constructor <;> nlinarith [hfit.1, hfit.2]
  have hok : ∀ k : Int, 0 ≤ k → k < 3 * m → mem.Ok (X + k) := fun k h0 h1 => hX k h0 (h1.trans_le hz)
  have hbody : ∀ row : Int, 0 ≤ row → row ≤ 1 → ∃ R : Prog F Unit, (do
      assert (FitsInt ((row + 1) * (m : Int)))
      forUp (row * (m : Int)) ((row + 1) * (m : Int)) fun col => do
        let a ← load (X + (col + (m : Int)))
        let b ← load (X + col)
        store (X + col) (alpha * (a - b)) : Prog F Unit) = .rd (X + (row * (m : Int) + (m : Int))) fun a => .rd (X + row * (m : Int)) fun b => .wr (X + row * (m : Int)) (alpha * (a - b)) R := fun row h0 h1 => by
    obtain ⟨R, hR⟩ := forUp_first (F := F) (lo := row * (m : Int)) (hi := (row + 1) * (m : Int)) (by nlinarith) fun col => do
        let a ← load (X + (col + (m : Int)))
        let b ← load (X + col)
        store (X + col) (alpha * (a - b))
    refine ⟨R, ?_⟩
    rw [hR]
    show Prog.bind _ _ = _
    rw [assert, if_pos (fit _ (by omega) (by omega))]
    rfl
  obtain ⟨R0, h0⟩ := hbody 0 le_rfl (by omega)
  obtain ⟨R1, h1⟩ := hbody 1 (by omega) le_rfl
  unfold l1c_Dy
  rw [List.append_assoc]
  refine race_parFor (i := 1) (j := 0) (p := X + (1 : Int) * (m : Int)) (by omega) (by omega) le_rfl (by omega) (by omega)
    (x := .rd (X + ((1 : Int) * (m : Int) + (m : Int))) fun a => .rd (X + (1 : Int) * (m : Int)) fun b => .ret (alpha * (a - b))) (f := fun v => .wr (X + (1 : Int) * (m : Int)) v R1)
    (a := alpha * (mem.val (X + ((1 : Int) * (m : Int) + (m : Int))) - mem.val (X + (1 : Int) * (m : Int)))) ?_ ?_ rfl
    (y := (ret () : Prog F Unit)) (g := fun _ => .rd (X + ((0 : Int) * (m : Int) + (m : Int))) fun a => .rd (X + (0 : Int) * (m : Int)) fun b => .wr (X + (0 : Int) * (m : Int)) (alpha * (a - b)) R0)
    (b := ()) (k' := fun a => .rd (X + (0 : Int) * (m : Int)) fun b => .wr (X + (0 : Int) * (m : Int)) (alpha * (a - b)) R0) ?_ rfl ?_ _
  · exact h1
  · simp only [run]
    rw [if_pos (hok _ (by omega) (by omega)), if_pos (hok _ (by omega) (by omega))]
  · exact h0
  · rw [show (0 : Int) * (m : Int) + (m : Int) = 1 * (m : Int) by ring]

/-! ## A whole call -/

/-- Any library call that is defined: at no moment do two threads of one of its parallel loops race.  (The theorems that describe a call `c` give `CSpec c s a s'`.) -/
theorem C104_call {F α : Type} [Scalar F] {c : Cmd F α} {s s' : PState F} {a : α} (h : CSpec c s a s') {Y : Sys F fun _ : Unit => α}
    (hY : SSteps (Sys.start (fun _ => c) (fun _ => s.loc) s.mem) Y) {T : ℕ → Prog F Unit} {k : Kernel F} {c' : Cmd F α} (hT : Y.act () = .loop T k c') : ¬ Race T := by
  have h1 := (C102_as_alone (O := fun _ : Unit => Set.univ) (prog := fun _ => c) (L := fun _ => s.loc) (m := s.mem) (a := fun _ => a) (s' := fun _ => s')
    (fun i j hij => absurd (Subsingleton.elim i j) hij) (fun _ => by rw [part_univ]; exact h) (fun _ _ _ => trivial) (fun _ _ _ _ => trivial) hY).1
  intro hr
  refine h1 (.inl ⟨(), ?_⟩)
  rw [hT]
  exact .inr hr

/-- Denoising by any number of threads, also of a common image: no race inside a call and none between calls. -/
theorem C104_denoise {F : Type} [Scalar F] {ι : Type} [Fintype ι] [DecidableEq ι] (q : ι → DenoiseCall F) {L : ι → Local} {m : Mem F} {O : ι → Set ℕ} {C : Set ℕ}
    (hd : ∀ i j, i ≠ j → Disjoint (O i) (O j)) (hc : ∀ i, Disjoint (O i) C) (hq : ∀ i, (q i).Ready (O i) C (L i) m) {Y : Sys F fun _ : ι => Int × Int}
    (hY : SSteps (Sys.start (fun i => (q i).prog) L m) Y) : ¬ Y.Race ∧ ∀ i T k c, Y.act i = .loop T k c → ¬ Race T := by
  have h := (C102_denoise q hd hc hq hY).1
  refine ⟨fun hr => h (.inr hr), fun i T k c hT hr => h (.inl ⟨i, ?_⟩)⟩
  rw [hT]
  exact .inr hr

/-! ## One matrix and many threads -/

/-- one call of `Ax` or `Aty` of a matrix set, with the vector in its argument -/
inductive MatUse (F : Type) (n m : ℕ) where
  | ax (x y : Ptr) (v : Vec F m)
  | aty (y x : Ptr) (v : Vec F n)

def MatUse.prog {F : Type} [Scalar F] {n m : ℕ} (A : Ptr) : MatUse F n m → Cmd F Unit
  | .ax x y _ => matAxM n m A x y
  | .aty y x _ => matAtyM n m A y x

/-- the argument is in a block of the caller or a common one, the result goes to a block of the caller -/
def MatUse.Ready {F : Type} {n m : ℕ} (O C : Set ℕ) (l : Local) (mem : Mem F) : MatUse F n m → Prop
  | .ax x y v => HoldsV (l.on mem) x v ∧ mem.Has y n ∧ x.blk ∈ O ∪ C ∧ y.blk ∈ O ∧ Disjoint (Rng x m) (Rng y n)
  | .aty y x v => HoldsV (l.on mem) y v ∧ mem.Has x m ∧ y.blk ∈ O ∪ C ∧ x.blk ∈ O ∧ Disjoint (Rng y n) (Rng x m)

/-- the result is the product -/
def MatUse.Outcome {F : Type} [Scalar F] {n m : ℕ} (Av : Vec F (n * m)) (l : Local) (mem : Mem F) : MatUse F n m → Prop
  | .ax _ y v => HoldsV (l.on mem) y (matAx Av v)
  | .aty _ x v => HoldsV (l.on mem) x (matAty Av v)

/-- Any number of threads use `Ax` and `Aty` of one matrix set at the same time, with results in separate arrays: no race, nothing undefined, every thread gets its product,
and all calls return. -/
theorem C104_matrix_shared {F : Type} [Scalar F] {ι : Type} [Fintype ι] [DecidableEq ι] {n m : ℕ} {A : Ptr} {Av : Vec F (n * m)} (q : ι → MatUse F n m) {L : ι → Local} {mem : Mem F}
    {O : ι → Set ℕ} {C : Set ℕ} (hd : ∀ i j, i ≠ j → Disjoint (O i) (O j)) (hc : ∀ i, Disjoint (O i) C) (hA : mem.Has A ((n * m : ℕ) : Int))
    (hv : ∀ k : Fin (n * m), mem.val (A + ((k : ℕ) : Int)) = Av k) (hAC : A.blk ∈ C) (hl : ∀ i b, (L i).live b = true → b ∈ O i) (hq : ∀ i, (q i).Ready (O i) C (L i) mem)
    {Y : Sys F fun _ : ι => Unit} (hY : SSteps (Sys.start (fun i => (q i).prog A) L mem) Y) :
    ¬ Y.Bad ∧ (∀ i, Y.act i = .cmd (.done ()) → (q i).Outcome Av (L i) Y.mem) ∧ ∃ Z, SSteps Y Z ∧ Z.Returned fun _ => () := by
  have part : ∀ i {N : ℕ} {p : Ptr} {v : Vec F N}, p.blk ∈ O i ∪ C → HoldsV ((L i).on mem) p v → HoldsV ((L i).on (mem.part (O i ∪ C))) p v := fun i N p v hp h =>
    ⟨fun k h0 h1 => ok_part (by exact hp) (h.1 k h0 h1), fun k => (part_val (by exact hp)).trans (h.2 k)⟩
  have hA' : ∀ i, HoldsV ((L i).on (mem.part (O i ∪ C))) A Av := fun i => part i (.inr hAC) ⟨hA, hv⟩
  have dA : ∀ i {p : Ptr} {N : ℕ}, p.blk ∈ O i → Disjoint (Rng A (n * m)) (Rng p N) := fun i p N hp => rng_disj fun e => Set.disjoint_left.1 (hc i) hp (e ▸ hAC)
  have move : ∀ i {N : ℕ} {p : Ptr} {v : Vec F N} {s' : PState F} {M : Mem F}, p.blk ∈ O i → Mem.SameIn (O i) s'.mem M → HoldsV s' p v → HoldsV ((L i).on M) p v := fun i N p v s' M hp hs h =>
    ⟨fun k h0 h1 => ⟨(h.1 k h0 h1).1, by show _ < (M.len p.blk : Int); rw [(hs _ hp).1]; exact (h.1 k h0 h1).2⟩, fun k => ((hs _ hp).2 _).trans (h.2 k)⟩
  have key : ∀ i, ∃ s', CSpec ((q i).prog A) ((L i).on (mem.part (O i ∪ C))) () s' ∧ s'.next = (L i).next ∧ ((q i).prog A).Spares C ∧
      ∀ M : Mem F, Mem.SameIn (O i) s'.mem M → (q i).Outcome Av (L i) M := fun i => by
    have h := hq i
    revert h
    cases q i with
    | ax x y v =>
      rintro ⟨h1, h2, h3, h4, h5⟩
      obtain ⟨s', g1, g2, g3⟩ := cmd_matAx (hA' i) (part i h3 h1) (y := y) (fun k h0 h1 => ok_part (by exact .inl h4) (h2 k h0 h1)) (dA i h4) h5
      exact ⟨s', g1, g3.rest.2.1, spares_matAx fun hC => Set.disjoint_left.1 (hc i) h4 hC, fun M hM => move i h4 hM g2⟩
    | aty y x v =>
      rintro ⟨h1, h2, h3, h4, h5⟩
      obtain ⟨s', g1, g2, g3⟩ := cmd_matAty (hA' i) (part i h3 h1) (y := x) (fun k h0 h1 => ok_part (by exact .inl h4) (h2 k h0 h1)) (dA i h4) h5
      exact ⟨s', g1, g3.rest.2.1, spares_matAty fun hC => Set.disjoint_left.1 (hc i) h4 hC, fun M hM => move i h4 hM g2⟩
  choose s' k1 k2 k3 k4 using key
  obtain ⟨g1, g2, g3, -⟩ := C102_common_data hd hc k3 k1 hl (fun i b h1 h2 => by rw [k2 i] at h2; omega) hY
  exact ⟨g1, fun i hi => k4 i _ (g2 i () hi).2, g3⟩

/-- `AtAx` of a matrix set is different: it keeps `Ax` in a buffer of the set.  Two threads that call it at the same time race for the first element of that buffer, even with
separate arguments and results, for all sizes and contents. -/
theorem C104_matrix_AtAx_false {F : Type} [Scalar F] {n m : ℕ} (hn : 1 ≤ n) {A dwork : Ptr} {L : Fin 2 → Local} {mem : Mem F} {x z : Fin 2 → Ptr} (hA : mem.Has A ((n * m : ℕ) : Int))
    (hx : ∀ i, mem.Has (x i) m) : ∃ Y : Sys F fun _ : Fin 2 => Unit, SSteps (Sys.start (fun i => (matFunsM n m A dwork).AtAx (x i) (z i)) L mem) Y ∧ Y.Race := by
  have key : ∀ i, ∃ Ac : Act F Unit, CSteps (.cmd ((matFunsM n m A dwork).AtAx (x i) (z i))) (L i) mem Ac (L i) mem ∧ Ac.Writes (dwork + (0 : Int)) := fun i => by
    have hf : ∃ v, (foldUp 0 (m : Int) (lit 0 : F) fun j acc => do
        let a ← load (A + ((0 : Int) * (m : Int) + j))
        let v ← load (x i + j)
        pure (acc + a * v)).run mem = some (v, mem) := by
      refine ⟨_, run_foldV (fun c j => c + mem.val (A + ((0 : Int) * (m : Int) + ((j : ℕ) : Int))) * mem.val (x i + ((j : ℕ) : Int))) (lit 0) fun j c => ?_⟩
      have hj : (((j : ℕ) : Int)) < ((n * m : ℕ) : Int) := by exact_mod_cast lt_of_lt_of_le j.2 (Nat.le_mul_of_pos_left m hn)
      have h1 : mem.Ok (A + ((0 : Int) * (m : Int) + ((j : ℕ) : Int))) := hA _ (by omega) (by rw [zero_mul, zero_add]; exact hj)
      simp only [run_bind, run_load h1, Option.bind_some, run_load (hx i ((j : ℕ) : Int) (by omega) (by omega)), run_pure]
    obtain ⟨v, hv⟩ := hf
    exact CSteps.first (lo := 0) (hi := (n : Int)) (by omega) rfl hv rfl
  choose Ac h1 h2 using key
  exact race_two h1 h2

/-- `Aty` of a DCT set places the samples in a buffer of the set: two threads that call it at the same time race, for all sizes, positions and arguments.  1-D and 2-D. -/
theorem C104_dct_Aty_false {F : Type} [Scalar F] {n : ℕ} (hn : 1 ≤ n) {m mrow mcol : ℕ} {c : DctVarM F} (hc : c.n = n) {L : Fin 2 → Local} {mem : Mem F} {y x : Fin 2 → Ptr}
    (hy : ∀ i, mem.Has (y i) n) : ∀ S ∈ [dct1FunsM m c, dct2FunsM mrow mcol c],
    ∃ Y : Sys F fun _ : Fin 2 => Unit, SSteps (Sys.start (fun i => S.Aty (y i) (x i)) L mem) Y ∧ Y.Race := by
  have key : ∀ (K : Cmd F Unit) i, ∃ Ac : Act F Unit, CSteps (.cmd ((scatterM c.n c.idx (y i) c.buf.Ety).bind fun _ => K)) (L i) mem Ac (L i) mem ∧ Ac.Writes (c.buf.Ety + c.idx 0) := fun K i =>
    CSteps.first (lo := 0) (hi := (c.n : Int)) (by omega) rfl (run_load (hy i 0 le_rfl (by omega))) rfl
  intro S hS
  simp only [List.mem_cons, List.not_mem_nil, or_false] at hS
  rcases hS with rfl | rfl
  · choose Ac h1 h2 using fun i => key (do
      c.fw.fwd c.buf.Ety c.buf.dx
      head0M c.buf.dx (· / root2)
      scaleM m c.root c.buf.dx (x i)) i
    exact race_two (fun i => .head .enter (.head (.barrier fun j => by simp [threads]) (.head .skip (h1 i)))) h2
  · choose Ac h1 h2 using fun i => key (do
      c.fw.fwd c.buf.Ety c.buf.dx
      scaleM (mrow * mcol) c.root c.buf.dx (x i)
      dct2PostM mrow mcol (x i)) i
    exact race_two h1 h2

/-! ## Examples -/

/-- 6 doubles from each of the blocks 0 to 3 -/
private noncomputable def raceMem : Mem Dbl := ⟨fun b => if b < 4 then 6 else 0, fun p => .fin (p.off : ℝ)⟩

private theorem raceMem_has {b : ℕ} (hb : b < 4) {o k : Int} (ho : 0 ≤ o) (hk : o + k ≤ 6) : raceMem.Has ⟨b, o⟩ k := fun i h0 h1 =>
  ⟨by show 0 ≤ o + i; omega, by show o + i < ((if b < 4 then 6 else 0 : ℕ) : Int); rw [if_pos hb]; push_cast; omega⟩

/-- five elements, the output one place after the first input: race; the output on the first input: none -/
example : KRace (l1c_daxpy_z 5 (Dbl.fin 2) ⟨0, 0⟩ ⟨1, 0⟩ ⟨0, 1⟩) raceMem ∧ ¬ KRace (l1c_daxpy_z 5 (Dbl.fin 2) ⟨0, 0⟩ ⟨1, 0⟩ ⟨0, 0⟩) raceMem := by
  have h : ∀ b < 4, ∀ o : Int, 0 ≤ o → o ≤ 1 → raceMem.Has ⟨b, o⟩ 5 := fun b hb o h0 h1 => raceMem_has hb h0 (by omega)
  have key := fun z hz => (C104_vectors (N := 5) (x := ⟨0, 0⟩) (y := ⟨1, 0⟩) (z := z) (Dbl.fin 2) (Dbl.fin 0) (h 0 (by norm_num) 0 le_rfl (by norm_num))
    (h 1 (by norm_num) 0 le_rfl (by norm_num)) hz).1 (l1c_daxpy_z 5 (Dbl.fin 2) ⟨0, 0⟩ ⟨1, 0⟩ z) (List.mem_cons_of_mem _ List.mem_cons_self)
  constructor
  · exact (key _ (h 0 (by norm_num) 1 (by norm_num) le_rfl)).2 ⟨0, 1, by norm_num, by norm_num, by norm_num, by norm_num, by norm_num, .inl rfl⟩
  · intro hr
    obtain ⟨i, j, h0, h1, h2, h3, h4, h5 | h5⟩ := (key _ (h 0 (by norm_num) 0 le_rfl (by norm_num))).1 hr
    · exact h4 ((Ptr.add_inj _ _ _).1 h5)
    · have := congrArg Ptr.blk h5
      simp at this

/-- a 3 by 2 image in place, and with a separate result -/
example : KRace (l1c_Dy (3 : ℕ) (2 : ℕ) (Dbl.fin 1) ⟨0, 0⟩ ⟨0, 0⟩) raceMem ∧ ¬ KRace (l1c_Dy (3 : ℕ) (2 : ℕ) (Dbl.fin 1) ⟨0, 0⟩ ⟨1, 0⟩) raceMem :=
  ⟨C104_in_place_false (n := 3) (m := 2) le_rfl (by norm_num) (by unfold FitsInt INT_MAX INT_MIN; norm_num) _ _ _ (raceMem_has (by norm_num) le_rfl (by norm_num)),
    C104_differences (n := 3) (m := 2) (by norm_num) le_rfl (by unfold FitsInt INT_MAX INT_MIN; norm_num) (Dbl.fin 1) ⟨0, 0⟩ ⟨1, 0⟩ _ (raceMem_has (by norm_num) le_rfl (by norm_num))
      (raceMem_has (by norm_num) le_rfl (by norm_num)) (Sep.of_blk (by simp)) _ (List.mem_cons_of_mem _ List.mem_cons_self)⟩

/-- a call that is defined -/
example : ∃ s' : PState Dbl, CSpec (Cmd.exec (l1c_init_vec 6 ⟨2, 0⟩ (Dbl.fin 7))) ⟨raceMem, fun b => decide (b < 4), 4, 0, fun _ => true⟩ () s' :=
  ⟨_, cspec_exec (C03_init_vec 6 ⟨2, 0⟩ (Dbl.fin 7) raceMem (raceMem_has (by norm_num) le_rfl (by norm_num)))⟩

/-- a 2 by 3 matrix in block 0; one thread multiplies by it, another by its transpose, with results in blocks 1 and 2 and arguments in the common block 3 -/
noncomputable def exMatUse (i : Fin 2) : MatUse Dbl 2 3 := if i = 0 then .ax ⟨3, 0⟩ ⟨1, 0⟩ fun k => .fin ((k : ℕ) : ℝ) else .aty ⟨3, 0⟩ ⟨2, 0⟩ fun k => .fin ((k : ℕ) : ℝ)

example : ∃ (L : Fin 2 → Local) (O : Fin 2 → Set ℕ), (∀ i j, i ≠ j → Disjoint (O i) (O j)) ∧ (∀ i, Disjoint (O i) {0, 3}) ∧ raceMem.Has ⟨0, 0⟩ ((2 * 3 : ℕ) : Int) ∧
    (∀ i b, (L i).live b = true → b ∈ O i) ∧ ∀ i, (exMatUse i).Ready (O i) {0, 3} (L i) raceMem := by
  refine ⟨fun i => ⟨fun b => decide (b = i.val + 1), 4, 0, fun _ => true⟩, fun i => {i.val + 1}, fun i j hij => ?_, fun i => ?_, raceMem_has (by norm_num) le_rfl (by norm_num),
    fun i b hb => by simpa using hb, fun i => ?_⟩
  · rw [Set.disjoint_singleton]
    intro h
    exact hij (Fin.ext (by omega))
  · rw [Set.disjoint_singleton_left]
    have := i.2
    simp only [Set.mem_insert_iff, Set.mem_singleton_iff]
    omega
  · fin_cases i
    · exact ⟨⟨raceMem_has (by norm_num) le_rfl (by norm_num), fun k => by simp [Local.on, raceMem]⟩, raceMem_has (by norm_num) le_rfl (by norm_num), by simp, by simp, rng_disj (by decide)⟩
    · exact ⟨⟨raceMem_has (by norm_num) le_rfl (by norm_num), fun k => by simp [Local.on, raceMem]⟩, raceMem_has (by norm_num) le_rfl (by norm_num), by simp, by simp, rng_disj (by decide)⟩

/-- the same matrix with its buffer in block 1, two threads that call `AtAx` -/
example (L : Fin 2 → Local) : ∃ Y : Sys Dbl fun _ : Fin 2 => Unit,
    SSteps (Sys.start (fun i : Fin 2 => (matFunsM 2 3 ⟨0, 0⟩ ⟨1, 0⟩).AtAx ⟨2, 3 * ((i : ℕ) : Int)⟩ ⟨3, 3 * ((i : ℕ) : Int)⟩) L raceMem) Y ∧ Y.Race :=
  C104_matrix_AtAx_false (n := 2) (m := 3) (A := ⟨0, 0⟩) (x := fun i => ⟨2, 3 * ((i : ℕ) : Int)⟩) (z := fun i => ⟨3, 3 * ((i : ℕ) : Int)⟩) (by norm_num) (raceMem_has (by norm_num) le_rfl (by norm_num))
    fun i => raceMem_has (by norm_num) (by omega) (by have := i.2; push_cast; omega)

end L1c
