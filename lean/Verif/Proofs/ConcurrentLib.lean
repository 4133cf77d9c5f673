import Verif.Proofs.Concurrent
import Verif.Proofs.BregmanMain
import Verif.Proofs.DctRam

/-! # Library calls made at the same time -/

namespace L1c
open Prog Scalar Cmd

variable {F : Type} {α β : Type}

/-- at most `k` calls of the allocator -/
def AllocLe : ℕ → Cmd F α → Prop
  | _, .done _ => True
  | k, .kern _ c => AllocLe k c
  | k, .query _ c => ∀ v, AllocLe k (c v)
  | k, .calloc _ c => 0 < k ∧ ∀ r, AllocLe (k - 1) (c r)
  | k, .free _ c => AllocLe k c

theorem AllocLe.mono {c : Cmd F α} {j k : ℕ} (h : AllocLe j c) (hk : j ≤ k) : AllocLe k c := by
  induction c generalizing j k with
  | done => trivial
  | kern _ c ih => exact ih h hk
  | query _ c ih => exact fun v => ih v (h v) hk
  | calloc _ c ih => exact ⟨lt_of_lt_of_le h.1 hk, fun r => ih r (h.2 r) (by omega)⟩
  | free _ c ih => exact ih h hk

theorem AllocLe.bind {c : Cmd F α} {f : α → Cmd F β} {j k : ℕ} (h : AllocLe j c) (hf : ∀ a, AllocLe k (f a)) : AllocLe (j + k) (c.bind f) := by
  induction c generalizing j with
  | done a => exact (hf a).mono (by omega)
  | kern _ c ih => exact ih h
  | query _ c ih => exact fun v => ih v (h v)
  | calloc _ c ih =>
    refine ⟨by have := h.1; omega, fun r => ?_⟩
    have h1 := h.1
    have := ih r (h.2 r)
    rwa [show j + k - 1 = j - 1 + k by omega]
  | free _ c ih => exact ih h

theorem AllocLe.bind0 {c : Cmd F α} {f : α → Cmd F β} {k : ℕ} (h : AllocLe 0 c) (hf : ∀ a, AllocLe k (f a)) : AllocLe k (c.bind f) := by
  have := h.bind hf
  rwa [Nat.zero_add] at this

theorem allocLe_loop {hi : Int} {body : Int → Cmd F Bool} (hb : ∀ i, AllocLe 0 (body i)) (i : Int) : AllocLe 0 (Cmd.loopLe hi body i) := by
  induction h : (hi + 1 - i).toNat using Nat.strong_induction_on generalizing i with
  | _ N ih =>
    unfold Cmd.loopLe
    split
    · refine AllocLe.bind0 (hb i) fun brk => ?_
      cases brk
      · refine AllocLe.bind0 (c := Cmd.need _) trivial fun _ => ?_
        exact ih _ (by omega) (i + 1) rfl
      · trivial
    · trivial

theorem CSpec.next_le_add [Scalar F] {c : Cmd F α} {s s' : PState F} {a : α} (h : CSpec c s a s') : ∀ {k : ℕ}, AllocLe k c → s'.next ≤ s.next + k := by
  induction h with
  | done => intro k _; omega
  | kern _ _ ih => exact fun hk => ih hk
  | query _ _ ih => exact fun hk => ih (hk _)
  | @calloc N c s s' a t ih =>
    intro k hk
    have h1 := ih (hk.2 _)
    have h2 : (s.calloc N).2.next ≤ s.next + 1 := by unfold PState.calloc; split <;> simp
    have := hk.1
    omega
  | @free p c s s₁ s' a h t ih =>
    intro k hk
    have h1 := ih hk
    have h2 : s₁.next = s.next := by
      unfold PState.free at h
      split at h
      · simp only [Option.some.injEq] at h; rw [h]
      · split at h
        · simp only [Option.some.injEq] at h; rw [← h]
        · simp at h
    omega

/-- the TV denoiser asks for eight arrays -/
theorem allocLe_breg [Scalar F] (n m : Int) (uk f : Ptr) (mu tol : F) (max_iter jac : Int) : AllocLe 8 (l1c_breg_anistropic_TV n m uk f mu tol max_iter jac) := by
  have hbody : ∀ B lam, AllocLe 0 (bregBody n m B mu lam tol jac) := fun B lam => by
    refine AllocLe.bind0 (c := Cmd.exec _) trivial fun _ => ?_
    refine AllocLe.bind0 (c := bregSweeps _ _ _ _ _ _) (allocLe_loop (fun _ => ?_) 1) fun _ => ?_
    · exact AllocLe.bind0 (c := Cmd.exec _) trivial fun _ => trivial
    refine AllocLe.bind0 (c := Cmd.assume _) trivial fun _ => ?_
    refine AllocLe.bind0 (c := Cmd.eval _) (fun _ => trivial) fun _ => ?_
    exact AllocLe.bind0 (c := Cmd.exec _) trivial fun _ => trivial
  have hg : ∀ lam a b c d e f' g h, AllocLe 0 (bregGuarded n m uk f mu lam tol max_iter jac a b c d e f' g h) := fun lam a b c d e f' g h => by
    unfold bregGuarded
    split
    · refine AllocLe.bind0 (c := bregLoop _ _ _ _ _ _ _ _) ?_ fun _ => trivial
      exact AllocLe.bind0 (c := Cmd.exec _) trivial fun _ => allocLe_loop (fun _ => hbody _ _) 1
    · trivial
  refine AllocLe.bind0 (c := Cmd.need _) trivial fun _ => ?_
  refine ⟨by omega, fun _ => ⟨by omega, fun _ => ⟨by omega, fun _ => ⟨by omega, fun _ => ⟨by omega, fun _ => ⟨by omega, fun _ => ⟨by omega, fun _ => ⟨by omega, fun _ => ?_⟩⟩⟩⟩⟩⟩⟩⟩
  exact AllocLe.bind0 (c := bregGuarded _ _ _ _ _ _ _ _ _ _ _ _ _ _ _ _ _) (hg _ _ _ _ _ _ _ _ _) fun _ => trivial

section spares
variable [Scalar F] {C : Set ℕ}

/-- the kernel writes to no block of `C` -/
def KSpares (C : Set ℕ) (k : Kernel F) : Prop := ∀ ph ∈ k, ∀ i, Foot {a | a.blk ∉ C} Set.univ (ph.body i)

omit [Scalar F] in
theorem KSpares.append {k k' : Kernel F} (h : KSpares C k) (h' : KSpares C k') : KSpares C (k ++ k') := fun ph hph =>
  (List.mem_append.1 hph).elim (h ph) (h' ph)

omit [Scalar F] in
theorem KSpares.par {lo hi : Int} {body : Int → Prog F Unit} {al : List Ptr} (h : ∀ i, Foot {a | a.blk ∉ C} Set.univ (body i)) : KSpares C (parFor lo hi body al) := fun ph hph i => by
  obtain rfl := List.mem_singleton.1 hph
  exact h _

omit [Scalar F] in
theorem KSpares.assume {al : List Ptr} : KSpares (F := F) C (assumeK al) := fun ph hph i => by
  obtain rfl := List.mem_singleton.1 hph
  trivial

omit [Scalar F] in
theorem KSpares.seq {p : Prog F Unit} {al : List Ptr} (h : Foot {a | a.blk ∉ C} Set.univ p) : KSpares C (seqK p al) := fun ph hph i => by
  obtain rfl := List.mem_singleton.1 hph
  exact h

/-- footprints of straight-line code with loops -/
local macro "foot" : tactic => `(tactic| repeat' first
  | exact Foot.load (Set.mem_univ _)
  | exact Foot.store (by assumption)
  | exact Foot.assert _
  | exact Foot.pure _
  | trivial
  | refine Foot.bind ?_ fun _ => ?_
  | refine Foot.forUp fun _ _ _ => ?_
  | split)

omit [Scalar F] in
theorem foot_fold {γ : Type} {lo hi : Int} {s : γ} {body : Int → γ → Prog F γ} (h : ∀ i t, Foot {a | a.blk ∉ C} Set.univ (body i t)) :
    Foot {a | a.blk ∉ C} Set.univ (foldUp lo hi s body) := by
  unfold foldUp
  generalize (hi - lo).toNat = k
  induction k with
  | zero => trivial
  | succ k ih => exact Foot.bind ih fun t => h _ t

variable {x y z d : Ptr}

theorem spares_shrink {N : Int} {g : F} (h : d.blk ∉ C) : KSpares C (breg_shrink1 N x d g) := .par fun _ => by foot
theorem spares_mxpy {N : Int} (h : d.blk ∉ C) : KSpares (F := F) C (breg_mxpy_z N x y d) := .par fun _ => by foot
theorem spares_axpy {N : Int} {g : F} (h : d.blk ∉ C) : KSpares C (cblas_daxpy N g x d) := .par fun _ => by foot
omit [Scalar F] in
theorem spares_copy {N : Int} (h : d.blk ∉ C) : KSpares (F := F) C (cblas_dcopy N x d) := .par fun _ => by foot
theorem spares_Dx {n m : Int} {g : F} (h : d.blk ∉ C) : KSpares C (l1c_Dx n m g x d) := .par fun _ => by unfold ddiff_z; foot
theorem spares_DxT {n m : Int} {g : F} (h : d.blk ∉ C) : KSpares C (l1c_DxT n m g x d) := .par fun _ => by unfold ddiffT_z; foot
theorem spares_Dy {n m : Int} {g : F} (h : d.blk ∉ C) : KSpares C (l1c_Dy n m g x d) :=
  ((KSpares.par fun _ => by foot).append (.seq (by foot))).append (.par fun _ => by foot)
theorem spares_DyT {n m : Int} {g : F} (h : d.blk ∉ C) : KSpares C (l1c_DyT n m g x d) := (KSpares.seq (by foot)).append (.par fun _ => by foot)
theorem spares_sweep {n m : Int} {mu lam : F} (h : d.blk ∉ C) : KSpares C (seqK (breg_anis_guass_seidel n m d x mu lam)) := .seq (by
  unfold breg_anis_guass_seidel gs2 gs3 gs4
  foot)

theorem spares_rhs {n m : Int} {f dx bx dy bY rhs w1 w2 : Ptr} {mu lam : F} (h1 : rhs.blk ∉ C) (h2 : w1.blk ∉ C) (h3 : w2.blk ∉ C) :
    KSpares C (breg_anis_rhs n m f dx bx dy bY rhs mu lam w1 w2) :=
  ((((((KSpares.seq (by foot)).append (spares_mxpy h2)).append (spares_DyT h3)).append (spares_mxpy h2)).append (spares_DxT h1)).append (spares_axpy h3)).append (spares_axpy h1)

omit [Scalar F] in
theorem Cmd.Spares.bind {c : Cmd F α} {f : α → Cmd F β} (h : c.Spares C) (hf : ∀ a, (f a).Spares C) : (c.bind f).Spares C := by
  induction c with
  | done a => exact hf a
  | kern k c ih => exact ⟨h.1, ih h.2⟩
  | query p c ih => exact ⟨h.1, fun v => ih v (h.2 v)⟩
  | calloc N c ih => exact fun r hr => ih r (h r hr)
  | free p c ih => exact ⟨h.1, ih h.2⟩

omit [Scalar F] in
theorem spares_exec {k : Kernel F} (h : KSpares C k) : (Cmd.exec k).Spares C := ⟨h, trivial⟩

omit [Scalar F] in
theorem spares_loop {hi : Int} {body : Int → Cmd F Bool} (hb : ∀ i, (body i).Spares C) (i : Int) : (Cmd.loopLe hi body i).Spares C := by
  induction h : (hi + 1 - i).toNat using Nat.strong_induction_on generalizing i with
  | _ N ih =>
    unfold Cmd.loopLe
    split
    · refine Cmd.Spares.bind (hb i) fun brk => ?_
      cases brk
      · refine Cmd.Spares.bind (c := Cmd.need _) (spares_exec (.seq (Foot.assert _))) fun _ => ?_
        exact ih _ (by omega) (i + 1) rfl
      · trivial
    · trivial

/-- the TV denoiser writes to its output array and to blocks it has allocated -/
theorem spares_breg (n m : Int) {uk : Ptr} (f : Ptr) (mu tol : F) (max_iter jac : Int) (hu : uk.blk ∉ C) : (l1c_breg_anistropic_TV n m uk f mu tol max_iter jac).Spares C := by
  have hg : ∀ lam (a b c d e f' g h : Option Ptr), (∀ p, a = some p → p.blk ∉ C) → (∀ p, b = some p → p.blk ∉ C) → (∀ p, c = some p → p.blk ∉ C) → (∀ p, d = some p → p.blk ∉ C) →
      (∀ p, e = some p → p.blk ∉ C) → (∀ p, f' = some p → p.blk ∉ C) → (∀ p, g = some p → p.blk ∉ C) → (∀ p, h = some p → p.blk ∉ C) →
      (bregGuarded n m uk f mu lam tol max_iter jac a b c d e f' g h).Spares C := fun lam a b c d e f' g h ha hb hc hd he hf hg hh => by
    unfold bregGuarded
    split
    · have h1 := ha _ rfl
      have h2 := hb _ rfl
      have h3 := hc _ rfl
      have h4 := hd _ rfl
      have h5 := he _ rfl
      have h6 := hf _ rfl
      have h7 := hg _ rfl
      have h8 := hh _ rfl
      refine Cmd.Spares.bind (c := bregLoop _ _ _ _ _ _ _ _) ?_ fun _ => trivial
      refine Cmd.Spares.bind (c := Cmd.exec _) (spares_exec (spares_copy hu)) fun _ => spares_loop (fun _ => ?_) 1
      refine Cmd.Spares.bind (c := Cmd.exec _) (spares_exec (spares_rhs h8 h6 h7)) fun _ => ?_
      refine Cmd.Spares.bind (c := bregSweeps _ _ _ _ _ _) (spares_loop (fun _ => ?_) 1) fun _ => ?_
      · exact Cmd.Spares.bind (c := Cmd.exec _) (spares_exec (spares_sweep hu)) fun _ => trivial
      refine Cmd.Spares.bind (c := Cmd.assume _) (spares_exec KSpares.assume) fun _ => ?_
      refine Cmd.Spares.bind (c := Cmd.eval _) ⟨?_, fun _ => trivial⟩ fun _ => ?_
      · unfold l1c_dnrm2_rel_err cblas_ddot sqDiffLoop
        refine Foot.bind (foot_fold fun _ _ => by foot) fun _ => Foot.bind (foot_fold fun _ _ => by foot) fun _ => trivial
      refine Cmd.Spares.bind (c := Cmd.exec _) (spares_exec ?_) fun _ => trivial
      exact (((((((((spares_Dx h6).append (spares_axpy h6)).append (spares_Dy h7)).append (spares_axpy h7)).append (spares_shrink h2)).append (spares_shrink h3)).append (spares_mxpy h4)).append
        (spares_mxpy h5)).append (spares_copy h1))
    · trivial
  refine Cmd.Spares.bind (c := Cmd.need _) (spares_exec (.seq (Foot.assert _))) fun _ => ?_
  intro a ha b hb c hc d hd e he f' hf g hg' h hh
  refine Cmd.Spares.bind (c := bregGuarded _ _ _ _ _ _ _ _ _ _ _ _ _ _ _ _ _) (hg _ _ _ _ _ _ _ _ _ ha hb hc hd he hf hg' hh) fun _ => ?_
  exact ⟨ha, hb, hc, hd, he, hf, hg', hh, trivial⟩

end spares

section dct
variable [Scalar F] {m n : ℕ} [NeZero m] {fw : Fftw F m} {fwM : FftwM F} {b : DctPtr} {idx : Int → Int} {ix : Fin n → Fin m}

/-- `dct_EMx` up to the point where the result is in the common buffer -/
def emxHead (c : DctVarM F) (x y : Ptr) : Cmd F Unit := do
  Cmd.assume [y, c.buf.dy]
  let x0_tmp ← eval (load x)
  head0M x (· * root2)
  c.fw.inv x c.buf.dy
  exec (seqK (store x x0_tmp))

omit [Scalar F] in
theorem bind_assoc' {γ : Type} (c : Cmd F α) (f : α → Cmd F β) (g : β → Cmd F γ) : (c.bind f).bind g = c.bind fun a => (f a).bind g := by
  induction c with
  | done => rfl
  | kern _ _ ih => exact congrArg _ ih
  | query _ _ ih => exact congrArg _ (funext ih)
  | calloc _ _ ih => exact congrArg _ (funext ih)
  | free _ _ ih => exact congrArg _ ih

theorem emx_split (c : DctVarM F) (x y : Ptr) : dct_EMxM c x y = (emxHead c x y).bind fun _ => gatherM c.n c.idx (· * c.root) c.buf.dy y := by
  unfold emxHead dct_EMxM
  show Cmd.bind _ _ = Cmd.bind (Cmd.bind _ _) _
  rw [bind_assoc']
  congr 1
  funext _
  show Cmd.bind _ _ = Cmd.bind (Cmd.bind _ _) _
  rw [bind_assoc']
  congr 1
  funext v
  show Cmd.bind _ _ = Cmd.bind (Cmd.bind _ _) _
  rw [bind_assoc']
  congr 1
  funext _
  show Cmd.bind _ _ = Cmd.bind (Cmd.bind _ _) _
  rw [bind_assoc']
  rfl

theorem emxHead_spec (H : FftwImpl fwM fw) {s : PState F} {x y : Ptr} {v : Vec F m} {r : F} (hx : HoldsV s x v) (hy : s.mem.Has b.dy m) (hd : Disjoint (Rng x m) (Rng b.dy m)) :
    ∃ s', CSpec (emxHead ⟨fwM, b, n, idx, r⟩ x y) s () s' ∧ HoldsV s' x v ∧ HoldsV s' b.dy (fw.inv (Function.update v 0 (v 0 * root2))) ∧
      Only (Rng x m ∪ Rng b.dy m) s s' := by
  obtain ⟨s1, c1, h1, o1⟩ := cmd_head0 hx (· * root2)
  obtain ⟨s2, c2, h2, o2⟩ := H.inv s1 x b.dy _ h1 (o1.has hy) hd
  have h1' := h1.keep o2 hd
  obtain ⟨s3, c3, h3, o3⟩ := cmd_store0 h1' (v 0)
  refine ⟨s3, (cspec_assume _ s).bind ((cmd_load0 hx).bind (c1.bind (c2.bind c3))), ?_, h2.keep o3 hd.symm, ?_⟩
  · have : Function.update (Function.update v 0 (v 0 * root2)) 0 (v 0) = v := by simp
    rwa [this] at h3
  · exact ((o1.mono (T := Rng x m ∪ Rng b.dy m) Set.subset_union_left).trans (o2.mono Set.subset_union_right) le_rfl).trans (o3.mono Set.subset_union_left) le_rfl

end dct

end L1c
