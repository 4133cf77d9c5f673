import Verif.Spec.Align
import Mathlib.Data.List.GetD

/-! # Which functions keep their promises of alignment -/

namespace L1c
open Prog Scalar Cmd

variable {F : Type} {α β : Type} {base : ℕ → ℕ}

/-- the promises of a kernel hold -/
def KAl (base : ℕ → ℕ) (k : Kernel F) : Prop := ∀ ph ∈ k, ∀ q ∈ ph.al, q.Aligned base

theorem KAl.safe {k : Kernel F} {m : Mem F} (h : KAl base k) : ¬ KMis base k m := fun u => by
  induction u with
  | here h1 h2 => exact h2 (h _ List.mem_cons_self _ h1)
  | there _ _ _ _ _ ih => exact ih fun ph hp => h ph (List.mem_cons_of_mem _ hp)

theorem Ptr.aligned_zero {b : ℕ} (h : DALIGN ∣ base b) : (⟨b, 0⟩ : Ptr).Aligned base := by
  unfold Ptr.Aligned
  simpa using Int.natCast_dvd_natCast.2 h

section sound
variable [Scalar F]

theorem Cmd.KeepsAlign.safe {Q : α → Prop} {c : Cmd F α} {s : PState F} (h : c.KeepsAlign base Q) (hb : FreshAligned base s) : ¬ CMis base c s := fun u => by
  induction u with
  | kern u => exact KAl.safe h.1 u
  | kernNext e _ ih => exact ih (h.2 ⟨_, _, e⟩) hb
  | queryNext _ _ ih => exact ih (h _) hb
  | @calloc N c s _ ih =>
    refine ih (h _ ?_) ?_
    · intro p hp
      unfold PState.calloc at hp
      split at hp
      · cases hp
        exact Ptr.aligned_zero (hb _ le_rfl)
      · cases hp
    · intro b hb'
      refine hb b (le_trans ?_ hb')
      unfold PState.calloc
      split
      · exact Nat.le_succ _
      · exact le_rfl
  | @freeNext p c s s₁ e _ ih =>
    refine ih h fun b hb' => hb b (le_trans (le_of_eq ?_) hb')
    unfold PState.free at e
    split at e
    · cases e; rfl
    · split at e
      · cases e; rfl
      · cases e

theorem CMis.bind_left {x : Cmd F α} {f : α → Cmd F β} {s : PState F} (h : CMis base x s) : CMis base (x >>= f) s := by
  show CMis base (x.bind f) s
  induction h with
  | kern h => exact .kern h
  | kernNext h _ ih => exact .kernNext h ih
  | queryNext h _ ih => exact .queryNext h ih
  | calloc _ ih => exact .calloc ih
  | freeNext h _ ih => exact .freeNext h ih

theorem CSpec.bind_mis {x : Cmd F α} {f : α → Cmd F β} {s s₁ : PState F} {a : α} (h : CSpec x s a s₁) (h' : CMis base (f a) s₁) : CMis base (x >>= f) s := by
  show CMis base (x.bind f) s
  induction h with
  | done => exact h'
  | kern h _ ih => exact .kernNext h.ends (ih h')
  | query h _ ih => exact .queryNext h (ih h')
  | calloc _ ih => exact .calloc (ih h')
  | free h _ ih => exact .freeNext h (ih h')

/-- a run of two commands is a run of the first and one of the second -/
theorem CSpec.inv_bind {x : Cmd F α} {f : α → Cmd F β} {s s' : PState F} {b : β} (h : CSpec (x >>= f) s b s') : ∃ a s₁, CSpec x s a s₁ ∧ CSpec (f a) s₁ b s' := by
  change CSpec (x.bind f) s b s' at h
  induction x generalizing s with
  | done a => exact ⟨a, s, .done a s, h⟩
  | kern k c ih =>
    cases h with
    | kern h t =>
      obtain ⟨a, s₁, h1, h2⟩ := ih t
      exact ⟨a, s₁, .kern h h1, h2⟩
  | query p c ih =>
    cases h with
    | query h t =>
      obtain ⟨a, s₁, h1, h2⟩ := ih _ t
      exact ⟨a, s₁, .query h h1, h2⟩
  | calloc N c ih =>
    cases h with
    | calloc t =>
      obtain ⟨a, s₁, h1, h2⟩ := ih _ t
      exact ⟨a, s₁, .calloc h1, h2⟩
  | free p c ih =>
    cases h with
    | free h t =>
      obtain ⟨a, s₁, h1, h2⟩ := ih t
      exact ⟨a, s₁, .free h h1, h2⟩

omit [Scalar F] in
theorem KSpec.mis {k : Kernel F} {m m' : Mem F} (h : KSpec k m m') (hk : ∃ ph ∈ k, ∃ q ∈ ph.al, ¬ q.Aligned base) : KMis base k m := by
  induction h with
  | nil => obtain ⟨_, h, _⟩ := hk; cases h
  | @cons p k m m₁ m' hp _ ih =>
    obtain ⟨ph, h1, q, h2, h3⟩ := hk
    rcases List.mem_cons.1 h1 with rfl | h1
    · exact .here h2 h3
    · obtain ⟨c, s, d, e⟩ := (hp _ .refl).2.2
      exact .there c s d e (ih ⟨ph, h1, q, h2, h3⟩)

theorem Cmd.MustMis.mis {Q : α → Prop} {c : Cmd F α} {s s' : PState F} {a : α} (h : CSpec c s a s') (hc : c.MustMis base Q) (ha : ¬ Q a) : CMis base c s := by
  induction h with
  | done => exact absurd hc ha
  | kern h _ ih =>
    rcases hc with hc | hc
    · exact .kern (h.mis hc)
    · exact .kernNext h.ends (ih hc ha)
  | query h _ ih => exact .queryNext h (ih (hc _) ha)
  | calloc _ ih => exact .calloc (ih (hc _) ha)
  | free h _ ih => exact .freeNext h (ih hc ha)

omit [Scalar F] in
theorem Cmd.MustMis.bind {Q : α → Prop} {R : β → Prop} {x : Cmd F α} {f : α → Cmd F β} (h : x.MustMis base Q) (hf : ∀ a, Q a → (f a).MustMis base R) :
    (x >>= f).MustMis base R := by
  show (x.bind f).MustMis base R
  induction x with
  | done a => exact hf a h
  | kern k c ih => exact h.imp id ih
  | query p c ih => exact fun v => ih v (h v)
  | calloc N c ih => exact fun r => ih r (h r)
  | free p c ih => exact ih h

omit [Scalar F] in
/-- commands about which nothing is known -/
theorem Cmd.mustMis_true (c : Cmd F α) : c.MustMis base (fun _ => True) := by
  induction c with
  | done a => trivial
  | kern k c ih => exact .inr ih
  | query p c ih => exact fun v => ih v
  | calloc N c ih => exact fun r => ih r
  | free p c ih => exact ih

omit [Scalar F] in
theorem Cmd.MustMis.skip {R : β → Prop} {x : Cmd F α} {f : α → Cmd F β} (hf : ∀ a, (f a).MustMis base R) : (x >>= f).MustMis base R :=
  (Cmd.mustMis_true x).bind fun a _ => hf a

omit [Scalar F] in
theorem Cmd.MustMis.hit {R : β → Prop} {k : Kernel F} {f : Unit → Cmd F β} (h : ∃ ph ∈ k, ∃ q ∈ ph.al, ¬ q.Aligned base) : (Cmd.exec k >>= f).MustMis base R := .inl h

end sound

/-! ## Rules -/

namespace Cmd.KeepsAlign
variable {Q : α → Prop} {R : β → Prop}

theorem bind {x : Cmd F α} {f : α → Cmd F β} (h : x.KeepsAlign base Q) (hf : ∀ a, Q a → (f a).KeepsAlign base R) : (x >>= f).KeepsAlign base R := by
  show (x.bind f).KeepsAlign base R
  induction x with
  | done a => exact hf a h
  | kern k c ih => exact ⟨h.1, fun e => ih (h.2 e)⟩
  | query p c ih => exact fun v => ih v (h v)
  | calloc N c ih => exact fun r hr => ih r (h r hr)
  | free p c ih => exact ih h

theorem mono {x : Cmd F α} {Q' : α → Prop} (h : x.KeepsAlign base Q) (hq : ∀ a, Q a → Q' a) : x.KeepsAlign base Q' := by
  induction x with
  | done a => exact hq a h
  | kern k c ih => exact ⟨h.1, fun e => ih (h.2 e)⟩
  | query p c ih => exact fun v => ih v (h v)
  | calloc N c ih => exact fun r hr => ih r (h r hr)
  | free p c ih => exact ih h

theorem pure {a : α} (h : Q a) : (Pure.pure a : Cmd F α).KeepsAlign base Q := h

theorem exec {k : Kernel F} {f : Unit → Cmd F β} (h : KAl base k) (hf : (f ()).KeepsAlign base R) : (Cmd.exec k >>= f).KeepsAlign base R := ⟨h, fun _ => hf⟩

theorem exec1 {k : Kernel F} (h : KAl base k) : (Cmd.exec k).KeepsAlign base fun _ => True := ⟨h, fun _ => trivial⟩

theorem eval {p : Prog F F} {f : F → Cmd F β} (hf : ∀ v, (f v).KeepsAlign base R) : (Cmd.eval p >>= f).KeepsAlign base R := hf

theorem assume {al : List Ptr} {f : Unit → Cmd F β} (h : ∀ q ∈ al, q.Aligned base) (hf : (f ()).KeepsAlign base R) : (Cmd.assume al >>= f).KeepsAlign base R :=
  ⟨fun ph hp q hq => (by rw [List.mem_singleton.1 hp] at hq; exact h q hq), fun _ => hf⟩

theorem need' {p : Prop} [Decidable p] {f : Unit → Cmd F β} (hf : p → (f ()).KeepsAlign base R) : (Cmd.need p >>= f).KeepsAlign base R := by
  refine ⟨fun ph hp q hq => (by rw [List.mem_singleton.1 hp] at hq; cases hq), fun ⟨m, m', e⟩ => hf ?_⟩
  by_contra hp
  cases e with
  | cons c s d e t =>
    have hz : ∀ c', Steps (threads 1 (fun _ => (Prog.assert p : Prog F Unit)), m) c' → c'.1 0 = .ub := fun c' s' => by
      induction s' with
      | refl => simp [threads, Prog.assert, hp]
      | tail _ h ih =>
        cases h with
        | rd i q k h ok =>
          have : i ≠ 0 := fun e => by subst e; exact absurd (ih.symm.trans h) (by simp)
          simpa [Function.update, this.symm] using ih
        | wr i q v k h ok =>
          have : i ≠ 0 := fun e => by subst e; exact absurd (ih.symm.trans h) (by simp)
          simpa [Function.update, this.symm] using ih
    have h1 := hz c s
    rw [d 0] at h1
    cases h1

theorem need {p : Prop} [Decidable p] {f : Unit → Cmd F β} (hf : (f ()).KeepsAlign base R) : (Cmd.need p >>= f).KeepsAlign base R := need' fun _ => hf

theorem calloc {N : Int} {f : Option Ptr → Cmd F β} (hf : ∀ r : Option Ptr, (∀ p, r = some p → p.Aligned base) → (f r).KeepsAlign base R) :
    (Cmd.callocC N >>= f).KeepsAlign base R := hf

theorem free {p : Option Ptr} {f : Unit → Cmd F β} (hf : (f ()).KeepsAlign base R) : (Cmd.freeC p >>= f).KeepsAlign base R := hf

theorem loopLe {hi : Int} {body : Int → Cmd F Bool} (hb : ∀ i, (body i).KeepsAlign base fun _ => True) (i : Int) : (Cmd.loopLe hi body i).KeepsAlign base fun _ => True := by
  induction h : (hi + 1 - i).toNat using Nat.strong_induction_on generalizing i with
  | _ N ih =>
    unfold Cmd.loopLe
    split
    · refine bind (hb i) fun brk _ => ?_
      cases brk
      · refine need ?_
        exact ih _ (by omega) (i + 1) rfl
      · trivial
    · trivial

theorem loopSt {σ : Type} {hi : Int} {body : σ → Cmd F (σ × Bool)} (hb : ∀ v, (body v).KeepsAlign base fun _ => True) (i : Int) (v : σ) :
    (Cmd.loopSt hi body i v).KeepsAlign base fun _ => True := by
  induction h : (hi + 1 - i).toNat using Nat.strong_induction_on generalizing i v with
  | _ N ih =>
    unfold Cmd.loopSt
    split
    · refine bind (hb v) fun r _ => ?_
      split
      · trivial
      · refine need ?_
        exact ih _ (by omega) (i + 1) _ rfl
    · trivial

end Cmd.KeepsAlign

/-! ## Kernels -/

section kernels
variable {x y z d : Ptr} {N n m : Int}

@[simp] theorem kal_append {k k' : Kernel F} : KAl base (k ++ k') ↔ KAl base k ∧ KAl base k' := by
  simp only [KAl, List.mem_append, or_imp, forall_and]

@[simp] theorem kal_par {lo hi : Int} {body : Int → Prog F Unit} {al : List Ptr} : KAl base (parFor lo hi body al) ↔ ∀ q ∈ al, q.Aligned base := by simp [KAl, parFor]
@[simp] theorem kal_seq {p : Prog F Unit} {al : List Ptr} : KAl base (seqK p al) ↔ ∀ q ∈ al, q.Aligned base := by simp [KAl, seqK]

variable [Scalar F] {a b : F}
omit [Scalar F] in
@[simp] theorem kal_init : KAl base (l1c_init_vec N x a) ↔ x.Aligned base := by simp [l1c_init_vec]
@[simp] theorem kal_daxpby : KAl base (l1c_daxpby N a x b y) ↔ x.Aligned base ∧ y.Aligned base := by simp [l1c_daxpby]
@[simp] theorem kal_dxmuly : KAl (F := F) base (l1c_dxmuly_z N x y z) ↔ x.Aligned base ∧ y.Aligned base ∧ z.Aligned base := by simp [l1c_dxmuly_z]
@[simp] theorem kal_daxpby_z : KAl base (l1c_daxpby_z N a x b y z) ↔ x.Aligned base ∧ y.Aligned base ∧ z.Aligned base := by simp [l1c_daxpby_z]
@[simp] theorem kal_daxpy_z : KAl base (l1c_daxpy_z N a x y z) ↔ x.Aligned base ∧ y.Aligned base ∧ z.Aligned base := by simp [l1c_daxpy_z]
@[simp] theorem kal_shrink : KAl base (breg_shrink1 N x d a) ↔ x.Aligned base ∧ d.Aligned base := by simp [breg_shrink1]
@[simp] theorem kal_mxpy : KAl (F := F) base (breg_mxpy_z N x y z) ↔ x.Aligned base ∧ y.Aligned base ∧ z.Aligned base := by simp [breg_mxpy_z]
@[simp] theorem kal_daxpy : KAl base (daxpyK N a x y) := by simp [daxpyK]
@[simp] theorem kal_blas : KAl base (cblas_daxpy N a x y) := by simp [cblas_daxpy]
omit [Scalar F] in
@[simp] theorem kal_copy : KAl (F := F) base (cblas_dcopy N x y) := by simp [cblas_dcopy]
@[simp] theorem kal_Dx : KAl base (l1c_Dx n m a x y) := by simp [l1c_Dx]
@[simp] theorem kal_DxT : KAl base (l1c_DxT n m a x y) := by simp [l1c_DxT]
@[simp] theorem kal_Dy : KAl base (l1c_Dy n m a x y) := by simp [l1c_Dy]
@[simp] theorem kal_DyT : KAl base (l1c_DyT n m a x y) := by simp [l1c_DyT]
end kernels

variable [Scalar F]
open Cmd.KeepsAlign

/-- the next command is a kernel or a computation -/
local macro "stp" : tactic => `(tactic| first
  | refine Cmd.KeepsAlign.assume (by simp [*]) ?_
  | refine Cmd.KeepsAlign.exec (by simp [*]) ?_
  | refine Cmd.KeepsAlign.eval fun _ => ?_
  | refine Cmd.KeepsAlign.need ?_)

/-! ## TV denoising -/

theorem keeps_breg (n m : Int) {uk f : Ptr} (mu tol : F) (max_iter jac : Int) (hu : uk.Aligned base) :
    (l1c_breg_anistropic_TV n m uk f mu tol max_iter jac).KeepsAlign base fun _ => True := by
  unfold l1c_breg_anistropic_TV
  refine need ?_
  refine calloc fun a ha => calloc fun b hb => calloc fun c hc => calloc fun d hd => calloc fun e he => calloc fun f' hf => calloc fun g hg => calloc fun h hh => ?_
  refine bind (Q := fun _ => True) ?_ fun _ _ => trivial
  unfold bregGuarded
  split
  · have h1 := ha _ rfl
    have h2 := hb _ rfl
    have h3 := hc _ rfl
    have h4 := hd _ rfl
    have h5 := he _ rfl
    have h6 := hf _ rfl
    have h7 := hg _ rfl
    have h8 := hh _ rfl
    refine bind (Q := fun _ => True) ?_ fun _ _ => trivial
    unfold bregLoop
    stp
    refine loopLe (fun _ => ?_) _
    unfold bregBody breg_anis_rhs bregTail bregSweeps
    stp
    refine bind (Q := fun _ => True) (loopLe (fun _ => ?_) _) fun _ _ => ?_
    · stp
      trivial
    stp
    stp
    stp
    trivial
  · trivial

theorem must_breg (n m : Int) {uk f : Ptr} (mu tol : F) {max_iter : Int} (jac : Int) (hu : ¬ uk.Aligned base) (hi : 1 ≤ max_iter) :
    (l1c_breg_anistropic_TV n m uk f mu tol max_iter jac).MustMis base fun r => r.1 ≠ 0 := by
  unfold l1c_breg_anistropic_TV
  refine .skip fun _ => .skip fun a => .skip fun b => .skip fun c => .skip fun d => .skip fun e => .skip fun f' => .skip fun g => .skip fun h => ?_
  refine Cmd.MustMis.bind (Q := fun r : Int × Int => r.1 ≠ 0) ?_ fun r hr => .skip fun _ => .skip fun _ => .skip fun _ => .skip fun _ => .skip fun _ => .skip fun _ => .skip fun _ => .skip fun _ => hr
  unfold bregGuarded
  split
  · refine Cmd.MustMis.bind (Q := fun _ => False) ?_ fun _ h => h.elim
    unfold bregLoop
    refine .skip fun _ => ?_
    rw [Cmd.loopLe, if_pos hi]
    refine Cmd.MustMis.bind (Q := fun _ => False) ?_ fun _ h => h.elim
    unfold bregBody
    refine .skip fun _ => .skip fun _ => ?_
    exact .hit ⟨_, List.mem_singleton_self _, uk, List.mem_cons_self, hu⟩
  · show (L1C_OUT_OF_MEMORY : Int) ≠ 0
    decide

/-! ## Lists of allocations -/

omit [Scalar F] in
theorem keeps_callocs (Ns : List Int) : (callocsC (F := F) Ns).KeepsAlign base fun l => ∀ p, some p ∈ l → p.Aligned base := by
  induction Ns with
  | nil => exact fun p hp => by cases hp
  | cons N Ns ih =>
    refine calloc fun r hr => bind ih fun l hl => ?_
    intro p hp
    rcases List.mem_cons.1 hp with h | h
    · exact hr p h.symm
    · exact hl p h

omit [Scalar F] in
theorem keeps_frees (l : List (Option Ptr)) : (freesC (F := F) l).KeepsAlign base fun _ => True := by
  induction l with
  | nil => trivial
  | cons p l ih => exact ih

omit [Scalar F] in
theorem keeps_rows (N : Int) (k : ℕ) (rows : List Ptr) (h : ∀ p ∈ rows, p.Aligned base) :
    (callocRowsC (F := F) N k rows).KeepsAlign base fun r => ∀ l, r = some l → l.length = rows.length + k ∧ ∀ p ∈ l, p.Aligned base := by
  induction k generalizing rows with
  | zero => exact fun l hl => by cases hl; exact ⟨rfl, h⟩
  | succ k ih =>
    refine calloc fun r hr => ?_
    cases r with
    | none => exact bind (keeps_frees _) fun _ _ => pure fun l hl => by cases hl
    | some p =>
      refine (ih (rows ++ [p]) fun q hq => ?_).mono fun r hr' l hl => ?_
      · rcases List.mem_append.1 hq with hq | hq
        · exact h q hq
        · rw [List.mem_singleton.1 hq]
          exact hr p rfl
      · obtain ⟨h1, h2⟩ := hr' l hl
        refine ⟨?_, h2⟩
        rw [h1, List.length_append, List.length_singleton]
        omega

omit [Scalar F] in
theorem keeps_2D (k : ℕ) (N : Int) :
    (calloc2DC (F := F) k N).KeepsAlign base fun r => ∀ t l, r = some (t, l) → l.length = k ∧ ∀ p ∈ l, p.Aligned base := by
  unfold calloc2DC
  refine calloc fun r _ => ?_
  cases r with
  | none => exact fun t l h => by cases h
  | some t =>
    refine bind (keeps_rows N k [] (by simp)) fun r hr => ?_
    cases r with
    | none => exact fun t l h => by cases h
    | some rows =>
      refine pure fun t l h => ?_
      cases h
      obtain ⟨h1, h2⟩ := hr _ rfl
      exact ⟨by simpa using h1, h2⟩

/-! ## Operators -/

/-- next a call of an operator -/
local macro "opr " t:term : tactic => `(tactic| refine Cmd.KeepsAlign.bind (Q := fun _ => True) $t fun _ _ => ?_)

omit [Scalar F] in
theorem keeps_head0 (x : Ptr) (f : F → F) : (head0M x f).KeepsAlign base fun _ => True := exec1 (by simp)
theorem keeps_scale (N : ℕ) (a : F) (x y : Ptr) : (scaleM N a x y).KeepsAlign base fun _ => True := exec1 (by simp)
theorem keeps_dscal (N : ℕ) (a : F) (x : Ptr) (s : ℕ) : (dscalM N a x s).KeepsAlign base fun _ => True := exec1 (by simp)
omit [Scalar F] in
theorem keeps_gather (n : ℕ) (idx : Int → Int) (f : F → F) (x y : Ptr) : (gatherM n idx f x y).KeepsAlign base fun _ => True := exec1 (by simp)
omit [Scalar F] in
theorem keeps_scatter (n : ℕ) (idx : Int → Int) (y x : Ptr) : (scatterM (F := F) n idx y x).KeepsAlign base fun _ => True := exec1 (by simp)
theorem keeps_resample (n : ℕ) (idx : Int → Int) (a : F) (y x : Ptr) : (resampleM n idx a y x).KeepsAlign base fun _ => True := exec1 (by simp)
omit [Scalar F] in
theorem keeps_identity (m : ℕ) (x y : Ptr) : (identityM (F := F) m x y).KeepsAlign base fun _ => True := exec1 (by simp)
theorem keeps_matAx (n m : ℕ) (A x y : Ptr) : (matAxM (F := F) n m A x y).KeepsAlign base fun _ => True := exec1 (by simp)
theorem keeps_matAty (n m : ℕ) (A x y : Ptr) : (matAtyM (F := F) n m A x y).KeepsAlign base fun _ => True := exec1 (by simp)
theorem keeps_matAtAx (n m : ℕ) (A d x y : Ptr) : (matAtAxM (F := F) n m A d x y).KeepsAlign base fun _ => True := by
  unfold matAtAxM
  opr keeps_matAx ..
  exact keeps_matAty ..
theorem keeps_pre (mrow mcol : ℕ) (x : Ptr) : (dct2PreM (F := F) mrow mcol x).KeepsAlign base fun _ => True := by
  unfold dct2PreM
  opr keeps_head0 ..
  opr keeps_dscal ..
  exact keeps_dscal ..
theorem keeps_post (mrow mcol : ℕ) (x : Ptr) : (dct2PostM (F := F) mrow mcol x).KeepsAlign base fun _ => True := by
  unfold dct2PostM
  opr keeps_head0 ..
  opr keeps_dscal ..
  exact keeps_dscal ..

/-- the functions of a DCT set keep their promises; the output of `Mx` need only be in `P` -/
structure DctAl (base : ℕ → ℕ) (P : Ptr → Prop) (c : DctFunsM F) : Prop where
  Ax : OpAl base c.Ax
  Aty : OpAl base c.Aty
  AtAx : OpAl base c.AtAx
  Mx : ∀ x y, x.Aligned base → P y → (c.Mx x y).KeepsAlign base fun _ => True
  Mty : OpAl base c.Mty
  Rx : ∀ x y, (c.Rx x y).KeepsAlign base fun _ => True
  Rty : ∀ x y, (c.Rty x y).KeepsAlign base fun _ => True

section dct
variable {P : Ptr → Prop} {v : DctVarM F} (hf : FftwAl base P v.fw) (hb : BufAl base v.buf)
include hf hb

theorem keeps_dct1 (m : ℕ) : DctAl base P (dct1FunsM m v) := by
  obtain ⟨he, hx, hy⟩ := hb
  refine ⟨fun x y h1 h2 => ?_, fun x y h1 h2 => ?_, fun x y h1 h2 => ?_, fun x y h1 h2 => ?_, fun x y h1 h2 => ?_, fun x y => keeps_gather .., fun x y => ?_⟩
  · show (dct_EMxM v x y).KeepsAlign base _
    unfold dct_EMxM
    stp
    stp
    opr keeps_head0 ..
    opr hf.inv _ _ h1 (hf.sub _ hy)
    stp
    exact keeps_gather ..
  · show (dct_MtEtyM m v x y).KeepsAlign base _
    unfold dct_MtEtyM
    stp
    opr keeps_scatter ..
    opr hf.fwd _ _ he hx
    opr keeps_head0 ..
    exact keeps_scale ..
  · show (dct_MtEt_EMxM m v x y).KeepsAlign base _
    unfold dct_MtEt_EMxM
    stp
    stp
    opr keeps_head0 ..
    opr hf.inv _ _ h1 (hf.sub _ hy)
    stp
    opr keeps_resample ..
    opr hf.fwd _ _ he hx
    opr keeps_head0 ..
    exact keeps_scale ..
  · show (dct_MxM m v x y).KeepsAlign base _
    unfold dct_MxM
    opr keeps_head0 ..
    opr hf.inv _ _ h1 h2
    opr keeps_scale ..
    exact keeps_head0 ..
  · show (dct_MtyM m v x y).KeepsAlign base _
    unfold dct_MtyM
    stp
    opr hf.fwd _ _ h1 h2
    opr keeps_head0 ..
    exact keeps_scale ..
  · show (dct_EtyM m v x y).KeepsAlign base _
    unfold dct_EtyM
    opr keeps_scale ..
    exact keeps_scatter ..

theorem keeps_dct2 (mrow mcol : ℕ) : DctAl base P (dct2FunsM mrow mcol v) := by
  obtain ⟨he, hx, hy⟩ := hb
  refine ⟨fun x y h1 h2 => ?_, fun x y h1 h2 => ?_, fun x y h1 h2 => ?_, fun x y h1 h2 => ?_, fun x y h1 h2 => ?_, fun x y => keeps_gather .., fun x y => ?_⟩
  · show (dct2_EMxM mrow mcol v x y).KeepsAlign base _
    unfold dct2_EMxM
    stp
    opr keeps_pre ..
    opr hf.inv _ _ hx (hf.sub _ hy)
    exact keeps_gather ..
  · show (dct2_MtEtyM mrow mcol v x y).KeepsAlign base _
    unfold dct2_MtEtyM
    opr keeps_scatter ..
    opr hf.fwd _ _ he hx
    opr keeps_scale ..
    exact keeps_post ..
  · show (dct2_MtEt_EMxM mrow mcol v x y).KeepsAlign base _
    unfold dct2_MtEt_EMxM
    stp
    opr keeps_pre ..
    opr hf.inv _ _ hx (hf.sub _ hy)
    opr keeps_resample ..
    opr hf.fwd _ _ he hx
    opr keeps_scale ..
    exact keeps_post ..
  · show (dct2_MxM mrow mcol v x y).KeepsAlign base _
    unfold dct2_MxM
    stp
    opr keeps_pre ..
    opr hf.inv _ _ hx h2
    exact keeps_scale ..
  · show (dct2_MtyM mrow mcol v x y).KeepsAlign base _
    unfold dct2_MtyM
    opr hf.fwd _ _ h1 h2
    opr keeps_scale ..
    exact keeps_post ..
  · show (dct_EtyM (mrow * mcol) v x y).KeepsAlign base _
    unfold dct_EtyM
    opr keeps_scale ..
    exact keeps_scatter ..
end dct

/-! ## l1qc -/

/-- the arrays of the problem record, except `b` -/
structure QPtrAl (base : ℕ → ℕ) (q : QPtr) : Prop where
  r : q.r.Aligned base
  fu1 : q.fu1.Aligned base
  fu2 : q.fu2.Aligned base
  w1p : q.w1p.Aligned base
  dx : q.dx.Aligned base
  du : q.du.Aligned base
  D : ∀ i < 7, (q.DWORK7 i).Aligned base

theorem keeps_cg (N : Int) {x b : Ptr} {D : ℕ → Ptr} {ax : Ptr → Ptr → Cmd F Unit} (prm : CgParams F) (hx : x.Aligned base) (hb : b.Aligned base)
    (hD : ∀ i < 4, (D i).Aligned base) (ha : OpAl base ax) : (l1c_cgsolveM N x b D ax prm).KeepsAlign base fun _ => True := by
  have h0 := hD 0 (by decide)
  have h1 := hD 1 (by decide)
  have h2 := hD 2 (by decide)
  have h3 := hD 3 (by decide)
  unfold l1c_cgsolveM
  stp
  opr ha _ _ hx h0
  stp
  stp
  stp
  stp
  opr loopSt (fun v => ?_) _ _
  · unfold cgBodyM
    opr ha _ _ h1 h3
    stp
    stp
    stp
    stp
    stp
    dsimp only
    split
    · stp
      trivial
    · trivial
  · stp
    trivial

section newton
variable {ax : QAxM F} {q : QPtr} {x u : Ptr} (n m : Int) (ha : QAxAl base ax) (hq : QPtrAl base q) (hx : x.Aligned base) (hu : u.Aligned base)

include ha hq
include hx hu in
theorem keeps_feval (c : QScal F) : (l1qc_f_evalM n m ax q c x u).KeepsAlign base fun _ => True := by
  have h1 := hq.fu1
  have h2 := hq.fu2
  unfold l1qc_f_evalM
  opr ha.Ax _ _ hx hq.r
  stp
  stp
  stp
  stp
  stp
  stp
  stp
  stp
  trivial

theorem keeps_dir (c : QScal F) (prm : CgParams F) : (l1qc_descent_dirM m ax q c prm).KeepsAlign base fun _ => True := by
  have h0 := hq.D 0 (by decide)
  have h2 := hq.D 2 (by decide)
  unfold l1qc_descent_dirM
  opr ha.Aty _ _ hq.r h2
  refine Cmd.KeepsAlign.exec (by simp [l1qc_hess_gradM]) ?_
  refine Cmd.KeepsAlign.bind (Q := fun _ => True) (keeps_cg _ _ hq.dx hq.w1p (fun i hi => hq.D _ (by omega)) fun z y hz hy => ?_) fun r _ => ?_
  · unfold l1qc_H11pfunM
    stp
    opr ha.AtAx _ _ hz hy
    stp
    exact exec1 (by simp [*])
  · split
    · trivial
    · refine Cmd.KeepsAlign.exec (by simp [l1qc_duM]) ?_
      trivial

theorem keeps_maxstep (c : QScal F) : (l1qc_find_max_stepM n m ax q c).KeepsAlign base fun _ => True := by
  unfold l1qc_find_max_stepM
  opr ha.Ax _ _ hq.dx (hq.D 0 (by decide))
  stp
  stp
  stp
  stp
  stp
  trivial

include hx hu

theorem keeps_ls (f0 g : F) (prm : LSParams F) (fuel iter : ℕ) (step flin : F) (cb : CbMem (QScal F) F) :
    (lsLoopM m x u q.dx q.du (q.DWORK7 0) (q.DWORK7 1) (l1qc_fevalM n m ax q) f0 g prm fuel iter step flin cb).KeepsAlign base fun _ => True := by
  have h0 := hq.D 0 (by decide)
  have h1 := hq.D 1 (by decide)
  have h2 := hq.dx
  have h3 := hq.du
  induction fuel generalizing iter step flin cb with
  | zero => trivial
  | succ fuel ih =>
    unfold lsLoopM
    stp
    stp
    refine Cmd.KeepsAlign.bind (Q := fun _ => True) ?_ fun r _ => ?_
    · unfold l1qc_fevalM
      opr keeps_feval n m ha hq h0 h1 _
      trivial
    · split
      · exact ih ..
      · dsimp only
        split
        · stp
          stp
          trivial
        · exact ih ..

theorem keeps_nbody (prm : QOpts F) (st : QVars F) : (l1qc_newton_bodyM n m ax q x u prm st).KeepsAlign base fun _ => True := by
  unfold l1qc_newton_bodyM
  refine Cmd.KeepsAlign.bind (Q := fun _ => True) ?_ fun r _ => ?_
  · unfold warmStartM
    split
    · exact exec1 (by simp)
    · split
      · exact exec1 (by simp)
      · trivial
  refine Cmd.KeepsAlign.bind (keeps_dir m ha hq _ _) fun d _ => ?_
  refine Cmd.KeepsAlign.need ?_
  refine Cmd.KeepsAlign.bind (keeps_maxstep n m ha hq _) fun s _ => ?_
  stp
  stp
  refine Cmd.KeepsAlign.bind (keeps_ls n m ha hq hx hu _ _ _ _ _ _ _ _) fun ls _ => ?_
  dsimp only
  split
  · trivial
  · split
    · trivial
    · stp
      trivial

theorem keeps_nloop (prm : QOpts F) (fuel : ℕ) (iter : Int) (st : QVars F) : (l1qc_newton_loopM n m ax q x u prm fuel iter st).KeepsAlign base fun _ => True := by
  induction fuel generalizing iter st with
  | zero => trivial
  | succ fuel ih =>
    unfold l1qc_newton_loopM
    refine Cmd.KeepsAlign.bind (keeps_nbody n m ha hq hx hu _ _) fun r _ => ?_
    split
    · trivial
    · exact ih ..

theorem keeps_lb (prm : QOpts F) (fuel : ℕ) (iter : Int) (st : QVars F) : (l1qc_lb_loopM n m ax q x u prm fuel iter st).KeepsAlign base fun _ => True := by
  have h2 := hq.dx
  induction fuel generalizing iter st with
  | zero => exact Cmd.KeepsAlign.need trivial
  | succ fuel ih =>
    unfold l1qc_lb_loopM
    refine Cmd.KeepsAlign.bind (Q := fun _ => True) ?_ fun r _ => ih ..
    unfold l1qc_lb_bodyM
    stp
    refine Cmd.KeepsAlign.bind (keeps_feval n m ha hq hx hu _) fun c _ => ?_
    refine Cmd.KeepsAlign.bind (keeps_nloop n m ha hq hx hu _ _ _ _) fun r _ => ?_
    exact Cmd.KeepsAlign.need trivial

theorem keeps_solve (prm : QOpts F) : (l1qc_solveM n m ax q x u prm).KeepsAlign base fun _ => True := by
  unfold l1qc_solveM
  refine Cmd.KeepsAlign.bind (Q := fun _ => True) ?_ fun r _ => ?_
  · unfold l1qc_check_feasible_startM
    opr ha.Ax _ _ hx (hq.D 0 (by decide))
    stp
    stp
    trivial
  · split
    · trivial
    · refine Cmd.KeepsAlign.bind (keeps_lb n m ha hq hx hu _ _ _ _) fun r _ => trivial
end newton

theorem keeps_newton (n m : ℕ) {ax : QAxM F} {x : Ptr} (b : Ptr) (prm : QOpts F) (ha : QAxAl base ax) (hx : x.Aligned base) :
    (l1c_l1qc_newtonM n m ax x b prm).KeepsAlign base fun _ => True := by
  unfold l1c_l1qc_newtonM
  refine calloc fun u hu => ?_
  cases u with
  | none => exact Cmd.KeepsAlign.need trivial
  | some u =>
    have hu := hu u rfl
    refine Cmd.KeepsAlign.bind (Q := fun _ => True) ?_ fun prm _ => ?_
    · unfold l1qc_newton_initM
      stp
      stp
      stp
      refine Cmd.KeepsAlign.need ?_
      dsimp only
      split
      · exact Cmd.KeepsAlign.need trivial
      · trivial
    refine Cmd.KeepsAlign.bind (keeps_callocs _) fun arrs hA => ?_
    refine Cmd.KeepsAlign.bind (keeps_2D 7 _) fun d hd => ?_
    extract_lets jp
    have hj : ∀ r, (jp r).KeepsAlign base fun _ => True := fun r => by
      refine Cmd.KeepsAlign.free ?_
      opr keeps_frees _
      refine Cmd.KeepsAlign.bind (Q := fun _ => True) ?_ fun _ _ => ?_
      · unfold free2DC
        split
        · trivial
        · opr keeps_frees _
          trivial
      · stp
        trivial
    · cases e : mkQPtr b arrs d with
      | none => exact hj _
      | some q =>
        refine Cmd.KeepsAlign.bind (keeps_solve _ _ ha ?_ hx hu _) fun r _ => hj r
        unfold mkQPtr at e
        split at e
        · cases e
          obtain ⟨hl, hr⟩ := hd _ _ rfl
          refine ⟨hA _ (by simp), hA _ (by simp), hA _ (by simp), hA _ (by simp), hA _ (by simp), hA _ (by simp), fun i hi => ?_⟩
          show Ptr.Aligned base (List.getD _ i _)
          rw [List.getD_eq_getElem _ _ (by omega)]
          exact hr _ (List.getElem_mem _)
        · cases e

/-- image recovery: the output array need only be in `P`, the samples anywhere -/
theorem keeps_l1qc_dct {P : Ptr → Prop} {fw1 : ℕ → FftwM F} {fw2 : ℕ → ℕ → FftwM F} (h1 : ∀ m, FftwAl base P (fw1 m)) (h2 : ∀ r c, FftwAl base P (fw2 r c))
    (mrow mcol : Int) {x_out : Ptr} (n : Int) (b : Ptr) (idx : List Int) (mode : Int) (opts : QOpts F) (hx : P x_out) :
    (l1qc_dctM fw1 fw2 mrow mcol x_out n b idx mode opts).KeepsAlign base fun _ => True := by
  unfold l1qc_dctM
  refine Cmd.KeepsAlign.need ?_
  split
  · trivial
  split
  · trivial
  generalize hm : mrow.toNat * mcol.toNat = m
  dsimp only
  generalize decide (¬ (mcol = 1 ∨ mrow = 1 ∨ mode = DCT1)) = two
  refine Cmd.KeepsAlign.bind (Q := fun r => ∀ o, r.2 = some o → BufAl base o.buf) ?_ fun r hr => ?_
  · unfold dctSetupM
    refine Cmd.KeepsAlign.bind (keeps_callocs _) fun l hl => ?_
    split
    · refine Cmd.KeepsAlign.bind (keeps_callocs _) fun l' _ => ?_
      split
      · refine Cmd.KeepsAlign.pure fun o ho => ?_
        cases ho
        exact ⟨hl _ (by simp), hl _ (by simp), hl _ (by simp)⟩
      · split
        · exact fun o ho => by cases ho
        · exact Cmd.KeepsAlign.bind (keeps_frees _) fun _ _ => fun o ho => by cases ho
    · split
      · exact fun o ho => by cases ho
      · exact Cmd.KeepsAlign.bind (keeps_frees _) fun _ _ => fun o ho => by cases ho
  split
  · trivial
  · rename_i o ho
    have hB := hr o ho
    have hc : DctAl base P (imageFunsM fw1 fw2 mrow.toNat mcol.toNat n.toNat idx two o.buf) := by
      unfold imageFunsM
      split
      · exact keeps_dct2 (h2 _ _) hB _ _
      · exact keeps_dct1 (h1 _) hB _
    revert hc
    generalize imageFunsM fw1 fw2 mrow.toNat mcol.toNat n.toNat idx two o.buf = c
    intro hc
    unfold l1qc_dct_withM
    refine calloc fun e he => calloc fun b' hb' => ?_
    extract_lets jp
    have hj : ∀ r, (jp r).KeepsAlign base fun _ => True := fun r => by
      show (freesC _ >>= _ : Cmd F _).KeepsAlign base _
      opr keeps_frees _
      opr keeps_frees _
      trivial
    · split
      · have he := he _ rfl
        have hb' := hb' _ rfl
        refine Cmd.KeepsAlign.bind (Q := fun _ => True) ?_ fun r _ => hj r
        unfold l1qc_dct_bodyM
        stp
        opr hc.Aty _ _ hb' he
        refine Cmd.KeepsAlign.bind (keeps_newton _ _ _ _ (show QAxAl base c.q from ⟨hc.Ax, hc.Aty, hc.AtAx⟩) he) fun r _ => ?_
        split
        · trivial
        · stp
          opr hc.Mx _ _ he hx
          trivial
      · exact hj _

/-! ## NESTA -/

/-- the arrays of the problem record -/
structure NPtrAl (base : ℕ → ℕ) (q : NPtr) : Prop where
  xo : q.xo.Aligned base
  xk : q.xk.Aligned base
  yk : q.yk.Aligned base
  zk : q.zk.Aligned base
  Atb : q.Atb.Aligned base
  gradf : q.gradf.Aligned base
  gradf_sum : q.gradf_sum.Aligned base
  dwork1 : q.dwork1.Aligned base
  dwork2 : q.dwork2.Aligned base
  b : q.b.Aligned base

omit [Scalar F] in
theorem keeps_call {f : Option (Ptr → Ptr → Cmd F Unit)} {x y : Ptr} (h : FnAl base f) (hx : x.Aligned base) (hy : y.Aligned base) :
    (callFn f x y).KeepsAlign base fun _ => True := by
  cases f with
  | none => exact exec1 (by simp)
  | some g => exact h g rfl x y hx hy

theorem keeps_nesta {m : Int} (xk : Ptr) {n : Int} {b : Ptr} {ax : NAxM F} (opts : NestaOpts F) (ha : NAxAl base ax) (hb : b.Aligned base) :
    (l1c_nestaM m xk n b ax opts).KeepsAlign base fun _ => True := by
  unfold l1c_nestaM
  split
  · trivial
  refine calloc fun np _ => ?_
  cases np with
  | none => trivial
  | some np =>
  refine Cmd.KeepsAlign.bind (keeps_callocs _) fun arrs hA => ?_
  cases e : mkNPtr b arrs with
  | none =>
    dsimp only
    opr keeps_frees _
    trivial
  | some q =>
  have hq : NPtrAl base q := by
    unfold mkNPtr at e
    split at e
    · cases e
      exact ⟨hA _ (by simp), hA _ (by simp), hA _ (by simp), hA _ (by simp), hA _ (by simp), hA _ (by simp), hA _ (by simp), hA _ (by simp), hA _ (by simp), hb⟩
    · cases e
  clear e hA
  obtain ⟨h1, h2, h3, h4, h5, h6, h7, h8, h9, h10⟩ := hq
  dsimp only
  refine Cmd.KeepsAlign.bind (Q := fun _ => True) ?_ fun r _ => ?_
  · unfold l1c_nesta_setupM
    split
    · trivial
    · dsimp only
      opr keeps_call ha.Aty h10 h5
      stp
      opr keeps_call ha.Wtx h1 h8
      stp
      stp
      trivial
  split
  · trivial
  rename_i c bm bt
  refine Cmd.KeepsAlign.bind (Q := fun f => f.f_vals.Aligned base) ?_ fun fifo hf => ?_
  · unfold fifoNewM
    refine calloc fun r hr => ?_
    cases r with
    | none => exact Cmd.KeepsAlign.need' fun h => h.elim
    | some p =>
      stp
      exact hr p rfl
  stp
  refine Cmd.KeepsAlign.bind (Q := fun _ => True) ?_ fun st _ => ?_
  · suffices H : ∀ fuel iter (st : NVars F), st.fifo.f_vals.Aligned base → (nestaOuterM ax q bm bt fuel iter st).KeepsAlign base fun _ => True from H _ _ _ hf
    intro fuel
    induction fuel with
    | zero => exact fun iter st _ => Cmd.KeepsAlign.need trivial
    | succ fuel ih =>
      intro iter st hs
      unfold nestaOuterM
      refine Cmd.KeepsAlign.bind (Q := fun st => st.fifo.f_vals.Aligned base) ?_ fun st hs => ih _ _ hs
      unfold nestaContinueM
      stp
      stp
      refine Cmd.KeepsAlign.bind (Q := fun st => st.fifo.f_vals.Aligned base) ?_ fun st hs => ?_
      · suffices H : ∀ fuel k (st : NVars F), st.fifo.f_vals.Aligned base → (nestaInnerM ax q fuel k st).KeepsAlign base fun st => st.fifo.f_vals.Aligned base from H _ _ _ hs
        intro fuel
        induction fuel with
        | zero => exact fun k st h => h
        | succ fuel ih =>
          intro k st hs
          have proj : ∀ c x g v, x.Aligned base → g.Aligned base → v.Aligned base → (l1c_nesta_projectM ax q c x g v).KeepsAlign base fun _ => True := by
            intro c x g v hx hg hv
            unfold l1c_nesta_projectM
            stp
            opr keeps_call ha.Ax hv h9
            opr keeps_call ha.Aty h9 h8
            stp
            stp
            stp
            exact exec1 (by simp)
          unfold nestaInnerM
          refine Cmd.KeepsAlign.bind (Q := fun r => r.1.fifo.f_vals.Aligned base) ?_ fun r hr => ?_
          · unfold nestaBodyM
            refine Cmd.KeepsAlign.bind (Q := fun _ => True) ?_ fun c _ => ?_
            · unfold l1c_nesta_fevalM
              opr keeps_call ha.Wtx h2 h8
              stp
              stp
              stp
              opr keeps_call ha.Wz h9 h6
              trivial
            opr proj _ _ _ _ h2 h6 h3
            stp
            opr proj _ _ _ _ h1 h7 h4
            stp
            refine Cmd.KeepsAlign.bind (Q := fun _ => True) ?_ fun fb _ => ?_
            · unfold fifoMeanM
              stp
              trivial
            refine Cmd.KeepsAlign.bind (Q := fun f => f.f_vals.Aligned base) ?_ fun f hf => hf
            unfold fifoPushM
            stp
            exact hs
          · split
            · exact hr
            · exact ih _ _ hr
      · stp
        exact hs
  · stp
    opr keeps_frees _
    trivial

/-! ## Calls that cannot succeed without breaking a promise -/

section must
open Cmd.MustMis

theorem must_nesta {m : Int} (xk : Ptr) {n : Int} {b : Ptr} (ax : NAxM F) (opts : NestaOpts F) (hb : ¬ b.Aligned base) (hc : 1 ≤ opts.n_continue) :
    (l1c_nestaM m xk n b ax opts).MustMis base fun r => r ≠ L1C_SUCCESS := by
  unfold l1c_nestaM
  split
  · show (L1C_INVALID_ARGUMENT : Int) ≠ L1C_SUCCESS
    decide
  refine .skip fun np => ?_
  cases np with
  | none => show (L1C_OUT_OF_MEMORY : Int) ≠ L1C_SUCCESS; decide
  | some np =>
  refine .skip fun arrs => ?_
  cases e : mkNPtr b arrs with
  | none => exact .skip fun _ => .skip fun _ => (by decide : (L1C_OUT_OF_MEMORY : Int) ≠ L1C_SUCCESS)
  | some q =>
  have hq : q.b = b := by
    unfold mkNPtr at e
    split at e
    · cases e; rfl
    · cases e
  refine .skip fun r => ?_
  cases r with
  | none => show (L1C_INCONSISTENT_ARGUMENTS : Int) ≠ L1C_SUCCESS; decide
  | some r =>
  obtain ⟨c, bm, bt⟩ := r
  refine .skip fun fifo => .skip fun _ => ?_
  refine Cmd.MustMis.bind (Q := fun _ => False) ?_ fun _ h => h.elim
  obtain ⟨k, hk⟩ : ∃ k, opts.n_continue.toNat = k + 1 := ⟨opts.n_continue.toNat - 1, by omega⟩
  rw [hk]
  unfold nestaOuterM
  refine Cmd.MustMis.bind (Q := fun _ => False) ?_ fun _ h => h.elim
  unfold nestaContinueM
  refine .skip fun _ => .skip fun _ => ?_
  refine Cmd.MustMis.bind (Q := fun _ => False) ?_ fun _ h => h.elim
  unfold L1C_NESTA_MAX_INNER_ITER nestaInnerM
  refine Cmd.MustMis.bind (Q := fun _ => False) ?_ fun _ h => h.elim
  unfold nestaBodyM
  refine .skip fun _ => ?_
  refine Cmd.MustMis.bind (Q := fun _ => False) ?_ fun _ h => h.elim
  unfold l1c_nesta_projectM
  refine .skip fun _ => .skip fun _ => .skip fun _ => ?_
  exact .hit ⟨_, List.mem_singleton_self _, q.b, List.mem_cons_self, by rwa [hq]⟩

theorem must_newton (n m : ℕ) (ax : QAxM F) {x : Ptr} (b : Ptr) (prm : QOpts F) (hx : ¬ x.Aligned base) (hl : 1 ≤ prm.lbiter) :
    (l1c_l1qc_newtonM n m ax x b prm).MustMis base fun r => r.status ≠ 0 := by
  unfold l1c_l1qc_newtonM
  refine .skip fun u => ?_
  cases u with
  | none => exact .skip fun _ => (by decide : (L1C_OUT_OF_MEMORY : Int) ≠ 0)
  | some u =>
  refine Cmd.MustMis.bind (Q := fun p => 1 ≤ p.lbiter) ?_ fun prm hl => ?_
  · unfold l1qc_newton_initM
    refine .skip fun _ => .skip fun _ => .skip fun _ => .skip fun _ => ?_
    dsimp only
    rw [if_neg (by omega)]
    exact hl
  refine .skip fun arrs => .skip fun d => ?_
  extract_lets jp
  have hj : ∀ r, r.1 ≠ 0 → (jp r).MustMis base fun r => r.status ≠ 0 := fun r hr => .skip fun _ => .skip fun _ => .skip fun _ => .skip fun _ => hr
  cases e : mkQPtr b arrs d with
  | none => exact hj _ (by decide : (L1C_OUT_OF_MEMORY : Int) ≠ 0)
  | some q =>
  refine Cmd.MustMis.bind (Q := fun r : Int × Int × Int => r.1 ≠ 0) ?_ fun r h => hj r h
  unfold l1qc_solveM
  refine .skip fun bad => ?_
  split
  · show (L1C_INFEASIBLE_START : Int) ≠ 0
    decide
  refine Cmd.MustMis.bind (Q := fun _ => False) ?_ fun _ h => h.elim
  obtain ⟨k, hk⟩ : ∃ k, prm.lbiter.toNat = k + 1 := ⟨prm.lbiter.toNat - 1, by omega⟩
  rw [hk]
  unfold l1qc_lb_loopM
  refine Cmd.MustMis.bind (Q := fun _ => False) ?_ fun _ h => h.elim
  unfold l1qc_lb_bodyM
  refine .skip fun _ => ?_
  refine Cmd.MustMis.bind (Q := fun _ => False) ?_ fun _ h => h.elim
  unfold l1qc_f_evalM
  refine .skip fun _ => .skip fun _ => ?_
  exact .hit ⟨_, List.mem_singleton_self _, x, by simp, hx⟩

theorem must_l1qc_dct {P : Ptr → Prop} {fw1 : ℕ → FftwM F} {fw2 : ℕ → ℕ → FftwM F} (h1 : ∀ m x y, ¬ P y → ((fw1 m).inv x y).MustMis base fun _ => False)
    (h2 : ∀ r c x y, ¬ P y → ((fw2 r c).inv x y).MustMis base fun _ => False)
    (mrow mcol : Int) {x_out : Ptr} (n : Int) (b : Ptr) (idx : List Int) (mode : Int) (opts : QOpts F) (hx : ¬ P x_out) :
    (l1qc_dctM fw1 fw2 mrow mcol x_out n b idx mode opts).MustMis base fun r => r.1 ≠ 0 := by
  unfold l1qc_dctM
  refine .skip fun _ => ?_
  split
  · show (L1C_DCT_INIT_FAILURE : Int) ≠ 0
    decide
  split
  · show (L1C_DCT_INIT_FAILURE : Int) ≠ 0
    decide
  dsimp only
  generalize decide (¬ (mcol = 1 ∨ mrow = 1 ∨ mode = DCT1)) = two
  refine .skip fun r => ?_
  split
  · show (L1C_DCT_INIT_FAILURE : Int) ≠ 0
    decide
  rename_i o ho
  unfold l1qc_dct_withM
  refine .skip fun e => .skip fun b' => ?_
  extract_lets jp
  have hj : ∀ r, r.1 ≠ 0 → (jp r).MustMis base fun r => r.1 ≠ 0 := fun r hr => .skip fun _ => .skip fun _ => hr
  split
  · refine Cmd.MustMis.bind (Q := fun r : Int × Option (LBResult F) => r.1 ≠ 0) ?_ fun r h => hj r h
    unfold l1qc_dct_bodyM
    refine .skip fun _ => .skip fun _ => .skip fun r => ?_
    split
    · assumption
    refine .skip fun _ => ?_
    refine Cmd.MustMis.bind (Q := fun _ => False) ?_ fun _ h => h.elim
    unfold imageFunsM
    split
    · show (dct2_MxM _ _ _ _ _).MustMis base _
      unfold dct2_MxM
      exact .skip fun _ => .skip fun _ => Cmd.MustMis.bind (h2 _ _ _ _ hx) fun _ h => h.elim
    · show (dct_MxM _ _ _ _).MustMis base _
      unfold dct_MxM
      exact .skip fun _ => Cmd.MustMis.bind (h1 _ _ _ hx) fun _ h => h.elim
  · exact hj _ (by show (L1C_OUT_OF_MEMORY : Int) ≠ 0; decide)

end must

/-! ## The window of NESTA -/

theorem calloc_next {s : PState F} {N : Int} : s.next ≤ (s.calloc N).2.next := by
  unfold PState.calloc
  split
  · exact Nat.le_succ _
  · exact le_rfl

theorem calloc_some {s : PState F} {N : Int} {p : Ptr} (h : (s.calloc N).1 = some p) : p = ⟨s.next, 0⟩ ∧ (s.calloc N).2.next = s.next + 1 := by
  unfold PState.calloc at h ⊢
  split at h
  · rename_i hh
    rw [if_pos hh]
    cases h
    exact ⟨rfl, rfl⟩
  · cases h

theorem CSpec.next_mono {c : Cmd F α} {s s' : PState F} {a : α} (h : CSpec c s a s') : s.next ≤ s'.next := by
  induction h with
  | done => exact le_rfl
  | kern _ _ ih => exact ih
  | query _ _ ih => exact ih
  | calloc _ ih => exact calloc_next.trans ih
  | @free p c s s₁ _ _ e _ ih =>
    refine le_trans (le_of_eq ?_) ih
    unfold PState.free at e
    split at e
    · cases e; rfl
    · split at e
      · cases e; rfl
      · cases e

theorem callocC_inv {N : Int} {s s' : PState F} {r : Option Ptr} (h : CSpec (Cmd.callocC N) s r s') : r = (s.calloc N).1 ∧ s' = (s.calloc N).2 := by
  cases h with
  | calloc t => cases t; exact ⟨rfl, rfl⟩

theorem callocs_next {Ns : List Int} {s s' : PState F} {l : List (Option Ptr)} (h : CSpec (callocsC Ns) s l s') : s.next + l.countP Option.isSome ≤ s'.next := by
  induction Ns generalizing s l with
  | nil => cases h; exact le_rfl
  | cons N Ns ih =>
    obtain ⟨r, s1, c1, h⟩ := h.inv_bind
    obtain ⟨l', s2, c2, h⟩ := h.inv_bind
    cases h
    have i := ih c2
    cases r with
    | none =>
      have := c1.next_mono
      simp
      omega
    | some p =>
      obtain ⟨e1, e2⟩ := callocC_inv c1
      have := (calloc_some e1.symm).2
      rw [← e2] at this
      simp
      omega

theorem nesta_window {m : Int} {xk : Ptr} {n : Int} {b : Ptr} {ax : NAxM F} {opts : NestaOpts F} (hc : 1 ≤ opts.n_continue) {s s' : PState F}
    (h : CSpec (l1c_nestaM m xk n b ax opts) s L1C_SUCCESS s') :
    ∃ blk, s.next + 10 ≤ blk ∧ ∀ base : ℕ → ℕ, ¬ DALIGN ∣ base blk → CMis base (l1c_nestaM m xk n b ax opts) s := by
  have pinj : ∀ {a b : Int} {s s' : PState F}, CSpec (Pure.pure a : Cmd F Int) s b s' → a = b := fun h => by cases h; rfl
  unfold l1c_nestaM at h ⊢
  split at h
  · exact absurd (pinj h) (by decide)
  rename_i hne
  rw [if_neg hne]
  obtain ⟨np, s1, c1, h⟩ := h.inv_bind
  cases np with
  | none => exact absurd (pinj h) (by decide)
  | some np =>
  have n1 : s1.next = s.next + 1 := by
    obtain ⟨e1, e2⟩ := callocC_inv c1
    rw [e2]
    exact (calloc_some e1.symm).2
  obtain ⟨arrs, s2, c2, h⟩ := h.inv_bind
  have n2 := callocs_next c2
  cases e : mkNPtr b arrs with
  | none =>
    rw [e] at h
    obtain ⟨_, _, _, h⟩ := h.inv_bind
    obtain ⟨_, _, _, h⟩ := h.inv_bind
    exact absurd (pinj h) (by decide)
  | some q =>
  have n3 : arrs.countP Option.isSome = 9 := by
    unfold mkNPtr at e
    split at e
    · rfl
    · cases e
  rw [e] at h
  obtain ⟨r, s3, c3, h⟩ := h.inv_bind
  cases r with
  | none => exact absurd (pinj h) (by decide)
  | some r =>
  obtain ⟨c, bm, bt⟩ := r
  obtain ⟨fifo, s4, c4, h⟩ := h.inv_bind
  have hf : fifo.f_vals = ⟨s3.next, 0⟩ := by
    obtain ⟨r, t1, d1, d⟩ := c4.inv_bind
    cases r with
    | none =>
      obtain ⟨_, _, d2, _⟩ := d.inv_bind
      exact absurd (cub_need (fun h => h) _) d2.safe
    | some p =>
      obtain ⟨_, _, _, d⟩ := d.inv_bind
      cases d
      exact (calloc_some (callocC_inv d1).1.symm).1
  refine ⟨s3.next, by have := c3.next_mono; omega, fun base hb => ?_⟩
  refine c1.bind_mis (c2.bind_mis ?_)
  rw [e]
  refine c3.bind_mis (c4.bind_mis ?_)
  refine Cmd.MustMis.mis (Q := fun _ => False) h ?_ (fun h => h)
  refine .skip fun _ => ?_
  refine Cmd.MustMis.bind (Q := fun _ => False) ?_ fun _ h => h.elim
  obtain ⟨k, hk⟩ : ∃ k, opts.n_continue.toNat = k + 1 := ⟨opts.n_continue.toNat - 1, by omega⟩
  rw [hk]
  unfold nestaOuterM
  refine Cmd.MustMis.bind (Q := fun _ => False) ?_ fun _ h => h.elim
  unfold nestaContinueM
  refine .hit ⟨_, List.mem_singleton_self _, fifo.f_vals, by simp, ?_⟩
  rw [hf]
  intro h
  unfold Ptr.Aligned at h
  exact hb (Int.natCast_dvd_natCast.1 (by simpa using h))

/-! ## The sets that the library offers to NESTA -/

omit [Scalar F] in
theorem fn_some {g : Ptr → Ptr → Cmd F Unit} (h : OpAl base g) : FnAl base (some g) := fun g' e => by cases e; exact h

theorem nax_dct {P : Ptr → Prop} (n m : ℕ) {c : DctFunsM F} (h : DctAl base P c) : NAxAl base (c.nesta n m) :=
  ⟨fn_some h.Ax, fn_some h.Aty, fn_some fun _ _ _ _ => keeps_identity .., fn_some fun _ _ _ _ => keeps_identity ..⟩

theorem nax_mat (n m : ℕ) (A : Ptr) : NAxAl base (matNestaM (F := F) n m A) :=
  ⟨fn_some fun _ _ _ _ => keeps_matAx .., fn_some fun _ _ _ _ => keeps_matAty .., fn_some fun _ _ _ _ => keeps_identity .., fn_some fun _ _ _ _ => keeps_identity ..⟩

section tv
variable {P : Ptr → Prop} (hP : ∀ y, y.Aligned base → P y) {c : TvVarM F} (h : DctAl base P c.loc) (hu : c.u.Aligned base)

theorem keeps_term (D : Int → Int → F → Ptr → Ptr → Kernel F) (hD : ∀ n m a x y, KAl base (D n m a x y)) (alp : F) (inc : ℕ) (v y : Ptr) :
    (tvTermM c D alp inc v y).KeepsAlign base fun _ => True := by
  unfold tvTermM
  refine Cmd.KeepsAlign.exec (hD _ _ _ _ _) ?_
  exact exec1 (by simp)

include hP h hu in
theorem keeps_Wv : OpAl base (tvWvM c) := fun v y hv hy => by
  unfold tvWvM
  have t1 := keeps_term (base := base) (c := c) l1c_Dy (fun _ _ _ _ _ => kal_Dy) c.alp_v (incV (c.mrow * c.mcol) c.alp_v) v y
  have t2 := keeps_term (base := base) (c := c) l1c_Dx (fun _ _ _ _ _ => kal_Dx) c.alp_h (incH (c.mrow * c.mcol) c.alp_v c.alp_h) v y
  opr h.Mx _ _ hv (hP _ hu)
  stp
  cases job c.alp_v <;> cases job c.alp_h
  · trivial
  · exact t2
  · exact Cmd.KeepsAlign.bind t1 fun _ _ => trivial
  · exact Cmd.KeepsAlign.bind t1 fun _ _ => t2

include h in
theorem keeps_Wtx : OpAl base (tvWtxM c) := fun x v hx hv => by
  unfold tvWtxM
  have t1 : (Cmd.exec (l1c_DyT c.mrow c.mcol c.alp_v x (v + (incV (c.mrow * c.mcol) c.alp_v : Int)))).KeepsAlign base fun _ => True := exec1 (by simp)
  have t2 : (Cmd.exec (l1c_DxT c.mrow c.mcol c.alp_h x (v + (incH (c.mrow * c.mcol) c.alp_v c.alp_h : Int)))).KeepsAlign base fun _ => True := exec1 (by simp)
  opr h.Mty _ _ hx hv
  cases job c.alp_v <;> cases job c.alp_h
  · trivial
  · exact t2
  · exact Cmd.KeepsAlign.bind t1 fun _ _ => trivial
  · exact Cmd.KeepsAlign.bind t1 fun _ _ => t2

include hP h hu

theorem nax_tv (n : ℕ) : NAxAl base (tvAnaM n c) ∧ NAxAl base (tvSynM n c) := by
  refine ⟨⟨fn_some fun x y _ _ => h.Rx x y, fn_some fun x y _ _ => h.Rty x y, fn_some (keeps_Wv hP h hu), fn_some (keeps_Wtx h)⟩,
    ⟨fn_some fun x y hx hy => ?_, fn_some fun x y hx hy => ?_, fn_some fun _ _ _ _ => keeps_identity .., fn_some fun _ _ _ _ => keeps_identity ..⟩⟩
  · unfold tvAvM
    opr keeps_Wv hP h hu _ _ hx hu
    exact h.Rx ..
  · unfold tvAtyM
    opr h.Rty _ _
    exact keeps_Wtx h _ _ hu hy
end tv

end L1c
