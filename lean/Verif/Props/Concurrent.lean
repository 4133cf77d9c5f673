import Verif.Proofs.ConcurrentLib
import Verif.Props.Bregman
import Verif.Props.TransRam

/-!
# C102: calls made at the same time by several threads
-/

namespace L1c
open Prog Scalar Cmd

/-! ## Any calls -/

/-- Any number of callers start any library calls at the same time.  Each has memory blocks of its own (`O i`), which include its results and the blocks
the allocator will hand to it; the blocks `C` are common, and the calls do not write there.  If every call is defined when it is made alone on the blocks it
may use, and then returns `a i` in state `s' i`, then in every interleaving of the single memory accesses: nothing undefined happens and no two threads race; a call that has
returned has returned `a i`, and its blocks are as after the call made alone; all calls can return; common blocks and blocks of nobody stay as they were. -/
theorem C102_common_data {F : Type} [Scalar F] {ι : Type} [Fintype ι] [DecidableEq ι] {α : ι → Type} {prog : ∀ i, Cmd F (α i)} {L : ι → Local} {m : Mem F}
    {O : ι → Set ℕ} {C : Set ℕ} {a : ∀ i, α i} {s' : ι → PState F} (hd : ∀ i j, i ≠ j → Disjoint (O i) (O j)) (hc : ∀ i, Disjoint (O i) C) (hw : ∀ i, (prog i).Spares C)
    (halone : ∀ i, CSpec (prog i) ((L i).on (m.part (O i ∪ C))) (a i) (s' i)) (hlive : ∀ i b, (L i).live b = true → b ∈ O i)
    (hpool : ∀ i b, (L i).next ≤ b → b < (s' i).next → b ∈ O i) {Y : Sys F α} (hY : SSteps (Sys.start prog L m) Y) :
    ¬ Y.Bad ∧ (∀ i r, Y.act i = .cmd (.done r) → r = a i ∧ Mem.SameIn (O i) (s' i).mem Y.mem) ∧ (∃ Z, SSteps Y Z ∧ Z.Returned a) ∧
      Mem.SameIn {b | ∀ i, b ∉ O i} m Y.mem := by
  have h0 : SysInv O C a s' m (Sys.start prog L m) := ⟨fun i => ⟨halone i, hlive i, hpool i, hw i⟩, SameOut.refl _ _⟩
  have h := h0.steps hd hc hY
  refine ⟨?_, fun i r hr => ?_, h.finish hd hc, fun b hb => h.out b fun hn => ?_⟩
  · rintro (⟨i, hi⟩ | ⟨i, j, p, hij, hi, hj⟩)
    · exact (h.inv i).safe hi
    · have h1 := (h.inv i).writes hi
      rcases hj with hj | hj
      · rcases (h.inv j).reads hj with h2 | h2
        · exact Set.disjoint_left.1 (hd i j hij) h1 h2
        · exact Set.disjoint_left.1 (hc i) h1 h2
      · exact Set.disjoint_left.1 (hd i j hij) h1 ((h.inv j).writes hj)
  · have hi := h.inv i
    rw [hr] at hi
    obtain ⟨h1, -, h3⟩ := hi.returned
    refine ⟨h1, fun b hb => ?_⟩
    rw [← h3]
    exact ⟨(part_len (.inl hb)).symm, fun o => (part_val (p := ⟨b, o⟩) (.inl hb)).symm⟩
  · obtain ⟨i, hi⟩ := Set.mem_iUnion.1 hn
    exact hb i hi

/-- With nothing in common there is no condition on what the calls write. -/
theorem C102_as_alone {F : Type} [Scalar F] {ι : Type} [Fintype ι] [DecidableEq ι] {α : ι → Type} {prog : ∀ i, Cmd F (α i)} {L : ι → Local} {m : Mem F}
    {O : ι → Set ℕ} {a : ∀ i, α i} {s' : ι → PState F} (hd : ∀ i j, i ≠ j → Disjoint (O i) (O j))
    (halone : ∀ i, CSpec (prog i) ((L i).on (m.part (O i))) (a i) (s' i)) (hlive : ∀ i b, (L i).live b = true → b ∈ O i)
    (hpool : ∀ i b, (L i).next ≤ b → b < (s' i).next → b ∈ O i) {Y : Sys F α} (hY : SSteps (Sys.start prog L m) Y) :
    ¬ Y.Bad ∧ (∀ i r, Y.act i = .cmd (.done r) → r = a i ∧ Mem.SameIn (O i) (s' i).mem Y.mem) ∧ (∃ Z, SSteps Y Z ∧ Z.Returned a) ∧
      Mem.SameIn {b | ∀ i, b ∉ O i} m Y.mem :=
  C102_common_data (C := ∅) hd (fun _ => Set.disjoint_empty _) (fun _ => spares_empty _) (fun i => by rw [Set.union_empty]; exact halone i) hlive hpool hY

/-! ## TV denoising -/

/-- one call of `l1c_breg_anistropic_TV` and the two images in its arrays -/
structure DenoiseCall (F : Type) where
  (n m : ℕ)
  (uk f : Ptr)
  (mu tol : F)
  (max_iter jac : Int)
  (u0 f0 : FImg F)

def DenoiseCall.prog {F : Type} [Scalar F] (q : DenoiseCall F) : Cmd F (Int × Int) := l1c_breg_anistropic_TV q.n q.m q.uk q.f q.mu q.tol q.max_iter q.jac

/-- the arguments are good; the output array and the next eight blocks of the allocator are blocks of the caller, the input image may be in a common block -/
structure DenoiseCall.Ready {F : Type} [Scalar F] (q : DenoiseCall F) (O C : Set ℕ) (l : Local) (mem : Mem F) : Prop where
  n : 2 ≤ q.n
  m : 2 ≤ q.m
  fit : FitsInt ((q.n : Int) * q.m)
  iter : q.max_iter < INT_MAX
  jac : q.jac < INT_MAX
  uk : HoldsF mem q.uk q.n q.m q.u0
  f : HoldsF mem q.f q.n q.m q.f0
  sep : Sep ((q.n * q.m : ℕ) : Int) q.uk q.f
  ukO : q.uk.blk ∈ O
  fO : q.f.blk ∈ O ∪ C
  live : ∀ b, l.live b = true → b ∈ O ∧ b < l.next
  fresh : ∀ b ∈ O ∪ C, l.next ≤ b → mem.len b = 0
  pool : ∀ b, l.next ≤ b → b < l.next + 8 → b ∈ O

/-- what the call did: the denoised image is some Bregman iterate and the rule for stopping was met, or memory was refused and the output array is unchanged;
the input image is unchanged in any case -/
def DenoiseCall.Outcome {F : Type} [Scalar F] (q : DenoiseCall F) (l : Local) (r : Int × Int) (mem : Mem F) : Prop :=
  HoldsF mem q.f q.n q.m q.f0 ∧
  (((∀ k < 8, l.oracle (l.calls + k) = true) ∧ r.1 = 0 ∧ ∃ K ≤ q.max_iter.toNat, HoldsF mem q.uk q.n q.m (bregIter q.n q.m q.mu (lit 2 * q.mu) q.jac.toNat q.f0 K).u ∧
      (K = q.max_iter.toNat ∨
        flt (relErrF q.n q.m (bregIter q.n q.m q.mu (lit 2 * q.mu) q.jac.toNat q.f0 K).u (bregOld q.n q.m q.mu (lit 2 * q.mu) q.jac.toNat q.f0 (K - 1))) q.tol = true) ∧
      ∀ k < K - 1, flt (relErrF q.n q.m (bregIter q.n q.m q.mu (lit 2 * q.mu) q.jac.toNat q.f0 (k + 1)).u (bregOld q.n q.m q.mu (lit 2 * q.mu) q.jac.toNat q.f0 k)) q.tol = false) ∨
   ((∃ k < 8, l.oracle (l.calls + k) = false) ∧ r.1 = L1C_OUT_OF_MEMORY ∧ HoldsF mem q.uk q.n q.m q.u0))

/-- Any number of threads denoise images at the same time, each into its own array, with any sizes and parameters, and any allocations refused.  The images may
lie in blocks `C` that threads have in common; several threads may read the same image.
In every interleaving nothing undefined happens, every call that has returned has the outcome it has when made alone, and all calls can return. -/
theorem C102_denoise {F : Type} [Scalar F] {ι : Type} [Fintype ι] [DecidableEq ι] (q : ι → DenoiseCall F) {L : ι → Local} {m : Mem F} {O : ι → Set ℕ} {C : Set ℕ}
    (hd : ∀ i j, i ≠ j → Disjoint (O i) (O j)) (hc : ∀ i, Disjoint (O i) C) (hq : ∀ i, (q i).Ready (O i) C (L i) m) {Y : Sys F fun _ : ι => Int × Int} (hY : SSteps (Sys.start (fun i => (q i).prog) L m) Y) :
    ¬ Y.Bad ∧ (∀ i r, Y.act i = .cmd (.done r) → (q i).Outcome (L i) r Y.mem) ∧ ∃ Z r, SSteps Y Z ∧ Z.Returned r := by
  have key : ∀ i, ∃ r s', CSpec (q i).prog ((L i).on (m.part (O i ∪ C))) r s' ∧ ∀ M : Mem F, Mem.SameIn (O i) s'.mem M → Mem.SameIn C m M → (q i).Outcome (L i) r M := fun i => by
    have hi := hq i
    have hw : ((L i).on (m.part (O i ∪ C))).WF := fun b hb => by
      refine ⟨?_, ?_⟩
      · cases h : (L i).live b with
        | false => exact h
        | true => have h1 := (hi.live b h).2; have : (L i).next ≤ b := hb; omega
      · show (m.part (O i ∪ C)).len b = 0
        simp only [Mem.part]
        split
        · next h => exact hi.fresh b h hb
        · rfl
    have holds : ∀ {P : Set ℕ} {M M' : Mem F} {p : Ptr} {A : FImg F}, p.blk ∈ P → Mem.SameIn P M M' → HoldsF M p (q i).n (q i).m A → HoldsF M' p (q i).n (q i).m A :=
      fun {P M M' p A} hp hs h => ⟨fun k h0 h1 => ⟨(h.1 k h0 h1).1, by have := (h.1 k h0 h1).2; rwa [(hs _ (by exact hp)).1]⟩, fun a ha b hb => by
        rw [← h.2 a ha b hb]; exact (hs _ hp).2 _⟩
    have hpart : Mem.SameIn (O i ∪ C) m (m.part (O i ∪ C)) := fun b hb => ⟨part_len hb, fun o => part_val (p := ⟨b, o⟩) hb⟩
    have hu := holds (.inl hi.ukO) hpart hi.uk
    have hf := holds hi.fO hpart hi.f
    have input : ∀ {M M' : Mem F}, Mem.SameIn (O i) M M' → Mem.SameIn C m M' → HoldsF M (q i).f (q i).n (q i).m (q i).f0 → HoldsF M' (q i).f (q i).n (q i).m (q i).f0 :=
      fun h1 h2 h => hi.fO.elim (fun hO => holds hO h1 h) fun hC => holds hC h2 hi.f
    have hpos : 0 < (q i).n * (q i).m := Nat.mul_pos (by have := hi.n; omega) (by have := hi.m; omega)
    have hblk : ∀ {p : Ptr} {A : FImg F}, HoldsF (m.part (O i ∪ C)) p (q i).n (q i).m A → p.blk < (L i).next := fun {p A} h => by
      by_contra hc
      have h1 := (hw p.blk (by exact not_lt.1 hc)).2
      have h2 := h.1 0 le_rfl (by exact_mod_cast hpos)
      have h3 := h2.2
      rw [show ((p + (0 : Int)).blk) = p.blk from rfl, show (m.part (O i ∪ C)).len p.blk = 0 from h1] at h3
      have := h2.1
      simp only [Nat.cast_zero] at h3
      omega
    by_cases hor : ∀ k < 8, (L i).oracle ((L i).calls + k) = true
    · obtain ⟨K, it, s', h1, -, h3, h4, h5, h6, h7⟩ := cspec_breg (mu := (q i).mu) (tol := (q i).tol) hw hi.n hi.m hi.fit hu hf hi.sep hi.iter hi.jac hor
      refine ⟨_, s', h1, fun M hM hC => ⟨input hM hC ⟨fun k h0 h1 => ?_, fun a ha b hb => ?_⟩, .inl ⟨hor, rfl, K, h6, holds hi.ukO hM h4, ?_, ?_⟩⟩⟩
      · have := hf.1 k h0 h1
        unfold Mem.Ok at this ⊢
        rwa [h3]
      · rw [← hf.2 a ha b hb]
        have hfb := hblk hf
        refine h5 _ hfb fun k hk => ?_
        exact (hi.sep k (a * (q i).m + b) (by omega) (by exact_mod_cast hk) (by positivity) (by
          have : a * (q i).m + b < (q i).n * (q i).m := by nlinarith
          exact_mod_cast this)).symm
      · rcases h7 with ⟨h, -, -⟩ | ⟨h, -, hb, -⟩
        · exact .inl h
        · right
          unfold bregBrk at hb
          rwa [Nat.sub_add_cancel h] at hb
      · rcases h7 with ⟨-, -, h⟩ | ⟨-, -, -, h⟩
        · exact fun k hk => h k (by omega)
        · exact fun k hk => h k hk
    · obtain ⟨s', h1, -, h3, h4⟩ := cspec_breg_oom (uk := (q i).uk) (f := (q i).f) (mu := (q i).mu) (tol := (q i).tol) (max_iter := (q i).max_iter) (jac := (q i).jac) hw hi.fit
        fun h => hor h.1
      have keep : ∀ {p : Ptr} {A : FImg F}, HoldsF (m.part (O i ∪ C)) p (q i).n (q i).m A → HoldsF s'.mem p (q i).n (q i).m A := fun {p A} h =>
        ⟨fun k h0 h1 => by have := h.1 k h0 h1; unfold Mem.Ok at this ⊢; rwa [h3], fun a ha b hb => by have hb' := hblk h; rw [← h.2 a ha b hb]; exact h4 _ hb'⟩
      push Not at hor
      obtain ⟨k, hk, e⟩ := hor
      exact ⟨_, s', h1, fun M hM hC => ⟨input hM hC (keep hf), .inr ⟨⟨k, hk, by simpa using e⟩, rfl, holds hi.ukO hM (keep hu)⟩⟩⟩
  choose r s' h1 h2 using key
  obtain ⟨g1, g2, g3, g4⟩ := C102_common_data hd hc (fun i => spares_breg _ _ _ _ _ _ _ fun h => Set.disjoint_left.1 (hc i) (hq i).ukO h) h1 (fun i b hb => ((hq i).live b hb).1) (fun i b hb hb' => (hq i).pool b hb
    (lt_of_lt_of_le hb' ((h1 i).next_le_add (allocLe_breg _ _ _ _ _ _ _ _)))) hY
  refine ⟨g1, fun i ri hri => ?_, ?_⟩
  · obtain ⟨rfl, h4⟩ := g2 i ri hri
    exact h2 i _ h4 fun b hb => g4 b fun j hj => Set.disjoint_left.1 (hc j) hj hb
  · obtain ⟨Z, h4, h5⟩ := g3
    exact ⟨Z, r, h4, h5⟩

/-! ## Two threads and one DCT set -/

/-- Two threads call `Ax` of a 1-D DCT set at the same time, with separate arguments and results.  The buffer of the set is shared.  For all sizes, positions
and arguments there is an execution in which both calls return, and both threads receive the samples of the second thread's argument. -/
theorem C102_shared_set_false {F : Type} [Scalar F] {m n : ℕ} [NeZero m] {fw : Fftw F m} {fwM : FftwM F} (H : FftwImpl fwM fw) {b : DctPtr} {idx : Int → Int}
    {L : Fin 2 → Local} {mem : Mem F} {x y : Fin 2 → Ptr} {v : Fin 2 → Vec F m} {t : DctBuf F m} {o : XOut F n m m}
    (hx : ∀ i, HoldsV ((L i).on mem) (x i) (v i)) (hy : ∀ i, mem.Has (y i) n) (hdy : mem.Has b.dy m)
    (hxb : ∀ i, Disjoint (Rng (x i) m) (Rng b.dy m)) (hyb : ∀ i, Disjoint (Rng (y i) n) (Rng b.dy m))
    (hxx : Disjoint (Rng (x 0) m) (Rng (x 1) m)) (hyy : Disjoint (Rng (y 0) n) (Rng (y 1) n))
    (ho : (dct1Funs fw fun i : Fin n => idx ((i : ℕ) : Int)).Ax (v 1) t = some o) :
    ∃ Y : Sys F fun _ : Fin 2 => Unit, SSteps (Sys.start (fun i => (dct1FunsM m (dct1Var m fwM b n idx)).Ax (x i) (y i)) L mem) Y ∧
      Y.Returned (fun _ => ()) ∧ HoldsV ((L 0).on Y.mem) (y 0) o.res ∧ HoldsV ((L 1).on Y.mem) (y 1) o.res := by
  obtain ⟨ix, hr, e2⟩ := Option.bind_eq_some_iff.1 ho
  cases e2
  have hix := resolve_val hr
  set c := dct1Var m fwM b n idx with hc
  have hprog : ∀ i, (dct1FunsM m c).Ax (x i) (y i) = (emxHead c (x i) (y i)).bind fun _ => gatherM c.n c.idx (· * c.root) c.buf.dy (y i) := fun i => emx_split c (x i) (y i)
  -- the first thread until its result is in the buffer
  obtain ⟨s1, c1, -, -, o1⟩ := emxHead_spec (y := y 0) (n := n) (idx := idx) (r := c.root) H (hx 0) hdy (hxb 0)
  -- the second thread from start to end
  have hx1 : HoldsV ((L 1).on s1.mem) (x 1) (v 1) := by
    have : HoldsV s1 (x 1) (v 1) := HoldsV.keep (s := (L 0).on mem) (hx 1) o1 (Set.disjoint_union_right.2 ⟨hxx.symm, hxb 1⟩)
    exact this
  obtain ⟨s2, c2, -, h2, o2⟩ := emxHead_spec (y := y 1) (n := n) (idx := idx) (r := c.root) H hx1 (o1.has (show ((L 0).on mem).mem.Has b.dy m from hdy)) (hxb 1)
  have hy1 : s2.mem.Has (y 1) n := o2.has (show ((L 1).on s1.mem).mem.Has (y 1) n from o1.has (show ((L 0).on mem).mem.Has (y 1) n from hy 1))
  obtain ⟨s3, c3, h3, o3⟩ := cmd_gather hix h2 hy1 (hyb 1).symm (· * c.root)
  -- the first thread reads the buffer
  have h2' : HoldsV (s1.loc.on s3.mem) b.dy (fw.inv (Function.update (v 1) 0 (v 1 0 * root2))) := HoldsV.keep (s' := s3) h2 o3 (hyb 1).symm
  have hy0 : (s1.loc.on s3.mem).mem.Has (y 0) n := o3.has (o2.has (show ((L 1).on s1.mem).mem.Has (y 0) n from o1.has (show ((L 0).on mem).mem.Has (y 0) n from hy 0)))
  obtain ⟨s4, c4, h4, o4⟩ := cmd_gather hix h2' hy0 (hyb 0).symm (· * c.root)
  have r1 := CSpec.steps c1 fun _ => gatherM c.n c.idx (· * c.root) c.buf.dy (y 0)
  have r2 := CSpec.steps (CSpec.bind (f := fun _ => gatherM c.n c.idx (· * c.root) c.buf.dy (y 1)) c2 c3) fun a => .done a
  have r4 := CSpec.steps c4 fun a => .done a
  have e0 : ∀ C : Cmd F Unit, (C.bind fun a => .done a) = C := fun C => by
    induction C with
    | done => rfl
    | kern _ _ ih => exact congrArg _ ih
    | query _ _ ih => exact congrArg _ (funext ih)
    | calloc _ _ ih => exact congrArg _ (funext ih)
    | free _ _ ih => exact congrArg _ ih
  rw [e0] at r2 r4
  set X0 : Sys F fun _ : Fin 2 => Unit := Sys.start (fun i => (dct1FunsM m c).Ax (x i) (y i)) L mem with hX0
  have q1 := SSteps.caller (X := X0) 0 (A := .cmd (gatherM c.n c.idx (· * c.root) c.buf.dy (y 0))) (l := s1.loc) (m := s1.mem) (by
    show CSteps (.cmd ((dct1FunsM m c).Ax (x 0) (y 0))) (L 0) mem _ _ _
    rw [hprog]; exact r1)
  have q2 := q1.trans (SSteps.caller 1 (A := .cmd (.done ())) (l := s3.loc) (m := s3.mem) (by
    simp only [Function.update_of_ne (show (1 : Fin 2) ≠ 0 by decide)]
    show CSteps (.cmd ((dct1FunsM m c).Ax (x 1) (y 1))) (L 1) s1.mem _ _ _
    rw [hprog]; exact r2))
  have q3 := q2.trans (SSteps.caller 0 (A := .cmd (.done ())) (l := s4.loc) (m := s4.mem) (by
    simp only [Function.update_of_ne (show (0 : Fin 2) ≠ 1 by decide), Function.update_self]
    exact r4))
  refine ⟨_, q3, fun i => ?_, h4, ?_⟩
  · fin_cases i
    · simp
    · simp
  · exact HoldsV.keep (s := s1.loc.on s3.mem) (s' := s4) h3 o4 hyy.symm

/-- With exact arithmetic, an exact DCT and every position sampled, that answer is wrong for the first thread whenever the two arguments differ: alone its call
would have given something else. -/
theorem C102_shared_set_wrong {m : ℕ} [NeZero m] {fw : Fftw Dbl m} (hfw : FftwOk1 fw) {fwM : FftwM Dbl} (H : FftwImpl fwM fw) {b : DctPtr} {L : Fin 2 → Local} {mem : Mem Dbl}
    {x y : Fin 2 → Ptr} {v : Fin 2 → Fin m → ℝ} (hne : v 0 ≠ v 1) (hx : ∀ i, HoldsV ((L i).on mem) (x i) (fvec (v i))) (hy : ∀ i, mem.Has (y i) m) (hdy : mem.Has b.dy m)
    (hxb : ∀ i, Disjoint (Rng (x i) m) (Rng b.dy m)) (hyb : ∀ i, Disjoint (Rng (y i) m) (Rng b.dy m))
    (hxx : Disjoint (Rng (x 0) m) (Rng (x 1) m)) (hyy : Disjoint (Rng (y 0) m) (Rng (y 1) m)) :
    ∃ (Y : Sys Dbl fun _ : Fin 2 => Unit) (o : XOut Dbl m m m) (w : Vec Dbl m), SSteps (Sys.start (fun i => (dct1FunsM m (dct1Var m fwM b m fun i => i)).Ax (x i) (y i)) L mem) Y ∧
      Y.Returned (fun _ => ()) ∧ (dct1Funs fw fun i : Fin m => ((i : ℕ) : Int)).Ax (fvec (v 0)) .fresh = some o ∧ HoldsV ((L 0).on Y.mem) (y 0) w ∧ w ≠ o.res := by
  have hi : IdxOk m fun i : Fin m => ((i : ℕ) : Int) := fun i => ⟨Int.natCast_nonneg _, Int.ofNat_lt.2 i.2⟩
  have hS : DctSetR (dct1Funs fw fun i : Fin m => ((i : ℕ) : Int)) _ := .d1 fw _ hfw hi
  obtain ⟨M, A, _, gM, gA, _, hA⟩ := C22_samples hS
  obtain ⟨M', Mt, gM', -, hinv, -⟩ := C21_orthonormal hS
  obtain ⟨t0, h0⟩ := gA _ .fresh (v 0)
  obtain ⟨t1, h1⟩ := gA _ .fresh (v 1)
  obtain ⟨Y, s1, s2, s3, -⟩ := C102_shared_set_false H hx hy hdy hxb hyb hxx hyy (idx := fun i => i) h1
  refine ⟨Y, _, _, s1, s2, h0, s3, fun e => hne ?_⟩
  have eM : ∀ z, M z = M' z := fun z => by
    obtain ⟨p, hp⟩ := gM _ .fresh z
    obtain ⟨p', hp'⟩ := gM' _ .fresh z
    exact fvec_injective (congrArg XOut.res (Option.some.inj (hp.symm.trans hp')))
  have eA : A (v 0) = A (v 1) := fvec_injective e.symm
  have eAM : ∀ z, A z = M z := fun z => funext fun i => (hA z i i rfl).1
  rw [eAM, eAM, eM, eM] at eA
  rw [← hinv (v 0), ← hinv (v 1), eA]

/-! ## Examples -/

/-- one 3 by 4 image in block 0, the output arrays of two threads in blocks 1 and 2 -/
noncomputable def exDenoise (i : Fin 2) : DenoiseCall Dbl := ⟨3, 4, ⟨1 + i, 0⟩, ⟨0, 0⟩, .fin 1, .fin (1 / 100), 50, 2, fun r c => .fin ((r * 4 + c : ℕ) : ℝ), fun r c => .fin ((r * 4 + c : ℕ) : ℝ)⟩

/-- both threads read block 0; the first draws its work arrays from blocks 3 to 10, the second from blocks 11 to 18 and is refused its sixth request -/
example : ∃ (L : Fin 2 → Local) (m : Mem Dbl) (O : Fin 2 → Set ℕ), (∀ i j, i ≠ j → Disjoint (O i) (O j)) ∧ (∀ i, Disjoint (O i) {0}) ∧ (∀ i, (exDenoise i).Ready (O i) {0} (L i) m) ∧
    (∀ k < 8, (L 0).oracle ((L 0).calls + k) = true) ∧ ∃ k < 8, (L 1).oracle ((L 1).calls + k) = false := by
  refine ⟨fun i => ⟨fun b => decide (b = 1 + i.val), 3 + 8 * i.val, 0, fun k => decide (i = 0 ∨ k ≠ 5)⟩,
    ⟨fun b => if b < 3 then 12 else 0, fun p => .fin (p.off : ℝ)⟩, fun i => {b | b = 1 + i.val ∨ (3 + 8 * i.val ≤ b ∧ b < 11 + 8 * i.val)}, fun i j hij => ?_, fun i => ?_, fun i => ?_,
    fun k _ => by simp, 5, by norm_num, by simp⟩
  · rw [Set.disjoint_left]
    intro b h1 h2
    have : i.val ≠ j.val := fun h => hij (Fin.ext h)
    have := i.2
    have := j.2
    simp only [Set.mem_ofPred_eq] at h1 h2
    omega
  · rw [Set.disjoint_singleton_right]
    simp only [Set.mem_ofPred_eq]
    omega
  · have hi := i.2
    have hh : ∀ b < 3, HoldsF (⟨fun b => if b < 3 then 12 else 0, fun p => .fin (p.off : ℝ)⟩ : Mem Dbl) ⟨b, 0⟩ 3 4 (fun r c => .fin ((r * 4 + c : ℕ) : ℝ)) := fun b hb =>
      ⟨fun k h0 h1 => ⟨by simpa using h0, by simpa [hb] using h1⟩, fun r _ c _ => by simp [Mem.pix]⟩
    exact ⟨by show 2 ≤ 3; omega, by show 2 ≤ 4; omega, by show FitsInt (((3 : ℕ) : Int) * (4 : ℕ)); unfold FitsInt INT_MAX INT_MIN; norm_num, by show (50 : Int) < INT_MAX; unfold INT_MAX; norm_num,
      by show (2 : Int) < INT_MAX; unfold INT_MAX; norm_num, hh _ (by omega), hh _ (by omega), Sep.of_blk (by show 1 + i.val ≠ 0; omega), .inl rfl, .inr rfl,
      fun b hb => by
        simp only [decide_eq_true_eq] at hb
        refine ⟨by simp only [Set.mem_ofPred_eq]; omega, ?_⟩
        show b < 3 + 8 * i.val
        omega,
      fun b hb hn => by
        have : 3 + 8 * i.val ≤ b := hn
        show (if b < 3 then 12 else 0) = 0
        rw [if_neg (by omega)],
      fun b h1 h2 => by
        have : 3 + 8 * i.val ≤ b := h1
        have : b < 3 + 8 * i.val + 8 := h2
        simp only [Set.mem_ofPred_eq]; omega⟩

/-- two threads with the 4-point DCT set whose buffers are in blocks 0 to 2: arguments in blocks 3 and 4, results in blocks 5 and 6 -/
example : ∃ (L : Fin 2 → Local) (mem : Mem Dbl) (Y : Sys Dbl fun _ : Fin 2 => Unit) (o : XOut Dbl 4 4 4) (w : Vec Dbl 4),
    SSteps (Sys.start (fun i => (dct1FunsM 4 (dct1Var 4 ⟨copyThrough 4 refFftw1.fwd, copyThrough 4 refFftw1.inv⟩ exBufs 4 fun i => i)).Ax ⟨3 + i.val, 0⟩ ⟨5 + i.val, 0⟩) L mem) Y ∧
      Y.Returned (fun _ => ()) ∧ (dct1Funs refFftw1 fun i : Fin 4 => ((i : ℕ) : Int)).Ax (fvec fun _ => 1) .fresh = some o ∧ HoldsV ((L 0).on Y.mem) ⟨5, 0⟩ w ∧ w ≠ o.res := by
  refine ⟨fun _ => ⟨fun b => decide (b < 7), 7, 0, fun _ => true⟩, ⟨fun b => if b < 7 then 4 else 0, fun p => .fin (if p.blk = 3 then 1 else 2)⟩, ?_⟩
  have hh : ∀ b < 7, (⟨fun b => if b < 7 then 4 else 0, fun p => .fin (if p.blk = 3 then 1 else 2)⟩ : Mem Dbl).Has ⟨b, 0⟩ ((4 : ℕ) : Int) := fun b hb k h0 h1 =>
    ⟨by simpa using h0, by simpa [hb] using h1⟩
  exact C102_shared_set_wrong (v := fun i _ => if i = 0 then 1 else 2) refFftw1_ok (copyThrough_impl refFftw1) (b := exBufs) (x := fun i => ⟨3 + i.val, 0⟩) (y := fun i => ⟨5 + i.val, 0⟩)
    (fun h => by have := congrFun h 0; norm_num at this) (fun i => ⟨hh _ (by omega), fun k => by fin_cases i <;> simp [fvec, Local.on]⟩) (fun i => hh _ (by omega)) (hh _ (by decide))
    (fun i => rng_disj (by show 3 + i.val ≠ 2; omega)) (fun i => rng_disj (by show 5 + i.val ≠ 2; omega)) (rng_disj (by decide)) (rng_disj (by decide))

end L1c
