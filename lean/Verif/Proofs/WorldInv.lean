import Verif.Proofs.WorldK
import Verif.Spec.World

/-! # Ownership invariant of the transform modules -/

namespace L1c
open Scalar

set_option linter.unusedSectionVars false
set_option linter.unusedSimpArgs false

variable {F : Type} [Scalar F]

inductive Mod where
  | d1 | d2 | tv | mat | lost
  deriving DecidableEq

/-- what the 1-D module holds -/
structure R1 (F : Type) where
  m : ℕ
  n : ℕ
  idx : List Int
  buf : DctBuf F m

structure R2 (F : Type) where
  mrow : ℕ
  mcol : ℕ
  n : ℕ
  idx : List Int
  buf : DctBuf F (mrow * mcol)

structure RM (F : Type) where
  N : ℕ
  M : ℕ
  A : Arr F
  dwork : Vec F (max N M)

structure Res (F : Type) where
  r1 : Option (R1 F)
  r2 : Option (R2 F)
  u : Option (Arr F)
  rm : Option (RM F)
  ever1 : Bool
  lost : Bool

abbrev Own := ℕ → Option Mod

def Has1 (w : World F) (own : Own) : Option (R1 F) → Prop
  | none => ∀ b, own b ≠ some .d1
  | some r => ∃ k, w.g1 = ⟨some k, some (k + 1), some (k + 2), some (k + 3), some (k + 4), r.m, r.n, r.idx⟩ ∧
      w.obj k = some (.arr ⟨r.m, r.buf.Ety⟩) ∧ w.obj (k + 1) = some (.arr ⟨r.m, r.buf.dx⟩) ∧
      w.obj (k + 2) = some (.arr ⟨r.m, r.buf.dy⟩) ∧ w.obj (k + 3) = some (.plan (.fwd1 r.m) k (k + 1)) ∧
      w.obj (k + 4) = some (.plan (.inv1 r.m) (k + 1) (k + 2)) ∧ ∀ b, own b = some .d1 ↔ k ≤ b ∧ b ≤ k + 4

def Has2 (w : World F) (own : Own) : Option (R2 F) → Prop
  | none => ∀ b, own b ≠ some .d2
  | some r => ∃ k, w.g2 = ⟨some k, some (k + 1), some (k + 2), some (k + 3), some (k + 4), r.mrow, r.mcol, r.n, r.idx⟩ ∧
      w.obj k = some (.arr ⟨r.mrow * r.mcol, r.buf.Ety⟩) ∧ w.obj (k + 1) = some (.arr ⟨r.mrow * r.mcol, r.buf.dx⟩) ∧
      w.obj (k + 2) = some (.arr ⟨r.mrow * r.mcol, r.buf.dy⟩) ∧
      w.obj (k + 3) = some (.plan (.fwd2 r.mrow r.mcol) k (k + 1)) ∧
      w.obj (k + 4) = some (.plan (.inv2 r.mrow r.mcol) (k + 1) (k + 2)) ∧ ∀ b, own b = some .d2 ↔ k ≤ b ∧ b ≤ k + 4

def HasU (w : World F) (own : Own) : Option (Arr F) → Prop
  | none => ∀ b, own b ≠ some .tv
  | some a => ∃ k, w.gt.u = some k ∧ w.obj k = some (.arr a) ∧ ∀ b, own b = some .tv ↔ b = k

def HasM (w : World F) (own : Own) : Option (RM F) → Prop
  | none => ∀ b, own b ≠ some .mat
  | some r => ∃ k, w.gm = ⟨r.A, r.N, r.M, some k⟩ ∧ w.obj k = some (.arr ⟨_, r.dwork⟩) ∧ ∀ b, own b = some .mat ↔ b = k

/-- nothing is lost unless noted, and the plan variables of a 1-D module that is not in use do not point to what others own -/
structure Left (w : World F) (R : Res F) (own : Own) : Prop where
  lost : R.lost = false → ∀ b, own b ≠ some .lost
  plans : R.r1 = none → ∀ b, (w.g1.pM = some b ∨ w.g1.pE = some b) → b < w.next ∧ (own b = none ∨ own b = some .lost)

structure Inv (w : World F) (R : Res F) (own : Own) : Prop where
  thr : w.threads = false
  lt : ∀ b, own b ≠ none → b < w.next
  leak : ∀ b, own b = none → w.obj b = none
  s1 : Has1 w own R.r1
  s2 : Has2 w own R.r2
  su : HasU w own R.u
  sm : HasM w own R.rm
  ever : R.ever1 = false → w.g1.pM = none ∧ w.g1.pE = none
  left : Left w R own

theorem Inv.wf {w : World F} {R : Res F} {own : Own} (h : Inv w R own) : w.WF := fun b hb =>
  h.leak b (by by_contra hc; exact absurd (h.lt b hc) (by omega))

/-! ## Framing -/

variable {w w' : World F} {own own' : Own}

theorem Has1.frame {r : Option (R1 F)} (h : Has1 w own r) (hg : w'.g1 = w.g1)
    (ho : ∀ b, own b = some .d1 → w'.obj b = w.obj b) (hw : ∀ b, own' b = some .d1 ↔ own b = some .d1) : Has1 w' own' r := by
  cases r with
  | none => intro b hb; exact h b ((hw b).1 hb)
  | some r =>
    obtain ⟨k, h1, h2, h3, h4, h5, h6, h7⟩ := h
    refine ⟨k, by rw [hg, h1], ?_, ?_, ?_, ?_, ?_, fun b => (hw b).trans (h7 b)⟩
    · rw [ho _ ((h7 _).2 ⟨by omega, by omega⟩), h2]
    · rw [ho _ ((h7 _).2 ⟨by omega, by omega⟩), h3]
    · rw [ho _ ((h7 _).2 ⟨by omega, by omega⟩), h4]
    · rw [ho _ ((h7 _).2 ⟨by omega, by omega⟩), h5]
    · rw [ho _ ((h7 _).2 ⟨by omega, by omega⟩), h6]

theorem Has2.frame {r : Option (R2 F)} (h : Has2 w own r) (hg : w'.g2 = w.g2)
    (ho : ∀ b, own b = some .d2 → w'.obj b = w.obj b) (hw : ∀ b, own' b = some .d2 ↔ own b = some .d2) : Has2 w' own' r := by
  cases r with
  | none => intro b hb; exact h b ((hw b).1 hb)
  | some r =>
    obtain ⟨k, h1, h2, h3, h4, h5, h6, h7⟩ := h
    refine ⟨k, by rw [hg, h1], ?_, ?_, ?_, ?_, ?_, fun b => (hw b).trans (h7 b)⟩
    · rw [ho _ ((h7 _).2 ⟨by omega, by omega⟩), h2]
    · rw [ho _ ((h7 _).2 ⟨by omega, by omega⟩), h3]
    · rw [ho _ ((h7 _).2 ⟨by omega, by omega⟩), h4]
    · rw [ho _ ((h7 _).2 ⟨by omega, by omega⟩), h5]
    · rw [ho _ ((h7 _).2 ⟨by omega, by omega⟩), h6]

theorem HasU.frame {r : Option (Arr F)} (h : HasU w own r) (hg : w'.gt.u = w.gt.u)
    (ho : ∀ b, own b = some .tv → w'.obj b = w.obj b) (hw : ∀ b, own' b = some .tv ↔ own b = some .tv) : HasU w' own' r := by
  cases r with
  | none => intro b hb; exact h b ((hw b).1 hb)
  | some r =>
    obtain ⟨k, h1, h2, h7⟩ := h
    exact ⟨k, by rw [hg, h1], by rw [ho _ ((h7 _).2 rfl), h2], fun b => (hw b).trans (h7 b)⟩

theorem HasM.frame {r : Option (RM F)} (h : HasM w own r) (hg : w'.gm = w.gm)
    (ho : ∀ b, own b = some .mat → w'.obj b = w.obj b) (hw : ∀ b, own' b = some .mat ↔ own b = some .mat) : HasM w' own' r := by
  cases r with
  | none => intro b hb; exact h b ((hw b).1 hb)
  | some r =>
    obtain ⟨k, h1, h2, h7⟩ := h
    exact ⟨k, by rw [hg, h1], by rw [ho _ ((h7 _).2 rfl), h2], fun b => (hw b).trans (h7 b)⟩

/-- ownership after handing `k` fresh objects to a module -/
def grow (own : Own) (next k : ℕ) (M : Mod) : Own := fun b => if next ≤ b ∧ b < next + k then some M else own b

/-- ownership after releasing a module -/
def shrink (own : Own) (M : Mod) : Own := fun b => if own b = some M then none else own b

theorem grow_ne {next k : ℕ} {M M' : Mod} (h : M' ≠ M) (hlt : ∀ b, own b ≠ none → b < next) (b : ℕ) :
    grow own next k M b = some M' ↔ own b = some M' := by
  unfold grow
  split
  · rename_i hb
    constructor
    · intro he; cases he; exact absurd rfl h
    · intro he
      have := hlt b (by rw [he]; simp)
      omega
  · rfl

theorem grow_self {next k : ℕ} {M : Mod} (h : ∀ b, own b ≠ some M) (b : ℕ) :
    grow own next k M b = some M ↔ next ≤ b ∧ b < next + k := by
  unfold grow
  split
  · rename_i hb; exact ⟨fun _ => hb, fun _ => rfl⟩
  · rename_i hb; exact ⟨fun he => absurd he (h b), fun he => absurd he hb⟩

theorem shrink_ne {M M' : Mod} (h : M' ≠ M) (b : ℕ) : shrink own M b = some M' ↔ own b = some M' := by
  unfold shrink
  split
  · rename_i hb
    rw [hb]
    exact ⟨fun he => absurd he (by simp), fun he => absurd (Option.some.inj he).symm h⟩
  · rfl

theorem shrink_self {M : Mod} (b : ℕ) : shrink own M b ≠ some M := by
  unfold shrink
  split
  · simp
  · assumption

theorem shrink_none {M : Mod} (b : ℕ) : shrink own M b = none ↔ own b = none ∨ own b = some M := by
  unfold shrink
  split
  · rename_i h; simp [h]
  · rename_i h; simp [h]

theorem Left.same {R R' : Res F} (h : Left w R own) (h1 : R'.r1 = none → R.r1 = none) (h2 : R'.lost = R.lost) (hg : w'.g1 = w.g1)
    (hn : w.next ≤ w'.next) : Left w' R' own :=
  ⟨fun e => h.lost (h2 ▸ e), fun e b hb => by
    rw [hg] at hb
    obtain ⟨h3, h4⟩ := h.plans (h1 e) b hb
    exact ⟨h3.trans_le hn, h4⟩⟩

theorem Left.grown {R R' : Res F} (h : Left w R own) {k : ℕ} {M : Mod} (hM : M = .lost → R'.lost = true) (h1 : R'.r1 = none → R.r1 = none)
    (h2 : R'.lost = false → R.lost = false) (hg : R'.r1 = none → w'.g1 = w.g1) (hn : w.next ≤ w'.next) : Left w' R' (grow own w.next k M) := by
  refine ⟨fun e b hb => ?_, fun e b hb => ?_⟩
  · unfold grow at hb
    split at hb
    · cases hb
      rw [hM rfl] at e; cases e
    · exact h.lost (h2 e) b hb
  · rw [hg e] at hb
    obtain ⟨h3, h4⟩ := h.plans (h1 e) b hb
    refine ⟨h3.trans_le hn, ?_⟩
    unfold grow
    rw [if_neg (by omega)]
    exact h4

theorem Left.shrunk {R R' : Res F} (h : Left w R own) {M : Mod} (h1 : R'.r1 = none → R.r1 = none)
    (h2 : R'.lost = R.lost) (hg : w'.g1 = w.g1) (hn : w.next ≤ w'.next) : Left w' R' (shrink own M) := by
  refine ⟨fun e b hb => ?_, fun e b hb => ?_⟩
  · unfold shrink at hb
    split at hb
    · cases hb
    · exact h.lost (h2 ▸ e) b hb
  · rw [hg] at hb
    obtain ⟨h3, h4⟩ := h.plans (h1 e) b hb
    refine ⟨h3.trans_le hn, ?_⟩
    unfold shrink
    split
    · exact Or.inl rfl
    · exact h4

/-! ## Setup and destroy of single modules -/

theorem inv_setup1 {R : Res F} (h : Inv w R own) (hr : R.r1 = none) (n m : ℕ) (idx : List Int)
    (ho : ∀ i < 5, w.oracle (w.calls + i) = true) :
    ∃ w', l1c_dct1_setup n m idx w = some ((L1C_SUCCESS, some ⟨n, m, m, m, lit 1, .d1⟩), w') ∧
      Inv w' { R with r1 := some ⟨m, n, idx, DctBuf.fresh⟩, ever1 := true } (grow own w.next 5 .d1) ∧
      w'.g2 = w.g2 ∧ w'.gt = w.gt ∧ w'.gm = w.gm := by
  obtain ⟨w', h1, h2⟩ := dct1_setup_ok n m idx w ho
  refine ⟨w', h1, ?_, by rw [h2], by rw [h2], by rw [h2]⟩
  have hold : ∀ b, own b ≠ none → w'.obj b = w.obj b := by
    intro b hb
    have := h.lt b hb
    rw [h2]
    simp only [Function.update_apply]
    rw [if_neg (by omega), if_neg (by omega), if_neg (by omega), if_neg (by omega), if_neg (by omega)]
  have hs1 : ∀ b, own b ≠ some .d1 := by have := h.s1; rw [hr] at this; exact this
  have hsn : ∀ (M : Mod) b, own b = some M → own b ≠ none := fun M b hb => by rw [hb]; simp
  constructor
  · rw [h2]; exact h.thr
  · intro b hb
    rw [h2]
    show b < w.next + 5
    unfold grow at hb
    split at hb
    · omega
    · have := h.lt b hb; omega
  · intro b hb
    unfold grow at hb
    split at hb
    · simp at hb
    · rename_i hb'
      rw [h2]
      simp only [Function.update_apply]
      rw [if_neg (by omega), if_neg (by omega), if_neg (by omega), if_neg (by omega), if_neg (by omega)]
      exact h.leak b hb
  · refine ⟨w.next, by rw [h2], ?_, ?_, ?_, ?_, ?_, fun b => (grow_self hs1 b).trans (by omega)⟩ <;>
      · rw [h2]; simp [DctBuf.fresh]
  · exact h.s2.frame (by rw [h2]) (fun b hb => hold b (hsn _ b hb)) (grow_ne (by decide) h.lt)
  · exact h.su.frame (by rw [h2]) (fun b hb => hold b (hsn _ b hb)) (grow_ne (by decide) h.lt)
  · exact h.sm.frame (by rw [h2]) (fun b hb => hold b (hsn _ b hb)) (grow_ne (by decide) h.lt)
  · intro he; simp at he
  · exact h.left.grown (by simp) (fun e => by cases e) id (fun e => by cases e) (by rw [h2]; exact Nat.le_add_right _ _)

theorem inv_setup1_fail {R : Res F} (h : Inv w R own) (hr : R.r1 = none) (n m : ℕ) (idx : List Int)
    (ho : ¬ ∀ i < 5, w.oracle (w.calls + i) = true)
    (h' : (∀ i < 3, w.oracle (w.calls + i) = true) ∨ R.ever1 = false) :
    ∃ st w', l1c_dct1_setup n m idx w = some ((st, none), w') ∧ (st = L1C_DCT_INIT_FAILURE ∨ st = L1C_OUT_OF_MEMORY) ∧
      Inv w' { R with ever1 := R.ever1 || (st == L1C_DCT_INIT_FAILURE) } own ∧
      w'.g2 = w.g2 ∧ w'.gt = w.gt ∧ w'.gm = w.gm := by
  obtain ⟨st, w', h1, h2, h3, h4, h5, h6⟩ := dct1_setup_fail n m idx w h.wf h.thr ho (h'.imp_right h.ever)
  refine ⟨st, w', h1, ?_, ?_, h2.g2, h2.gt, h2.gm⟩
  · by_cases hc : ∀ i < 3, w.oracle (w.calls + i) = true
    · exact Or.inl (h3 hc)
    · exact Or.inr (h4 hc)
  have hs1 : ∀ b, own b ≠ some .d1 := by have := h.s1; rw [hr] at this; exact this
  constructor
  · rw [h2.threads]; exact h.thr
  · intro b hb; exact lt_of_lt_of_le (h.lt b hb) h2.next
  · intro b hb; rw [h2.obj]; exact h.leak b hb
  · rw [hr]; exact hs1
  · exact h.s2.frame h2.g2 (fun b _ => by rw [h2.obj]) (fun _ => Iff.rfl)
  · exact h.su.frame (by rw [h2.gt]) (fun b _ => by rw [h2.obj]) (fun _ => Iff.rfl)
  · exact h.sm.frame h2.gm (fun b _ => by rw [h2.obj]) (fun _ => Iff.rfl)
  · intro he
    by_cases hc : ∀ i < 3, w.oracle (w.calls + i) = true
    · rw [h3 hc] at he; simp at he
    · exact h5 hc
  · refine ⟨h.left.lost, fun _ b hb => ?_⟩
    by_cases hc : ∀ i < 3, w.oracle (w.calls + i) = true
    · obtain ⟨g1, g2⟩ := h6 hc b hb
      exact ⟨g2, Or.inl (by by_contra hn; exact absurd (h.lt b hn) (by omega))⟩
    · obtain ⟨g1, g2⟩ := h5 hc
      rw [g1, g2] at hb
      rcases hb with hb | hb <;> cases hb

/-- a 1-D setup that runs out of memory: if it is defined, plans of a forgotten set may be gone, nothing else -/
theorem inv_setup1_oom {R : Res F} (h : Inv w R own) (hr : R.r1 = none) {n m : ℕ} {idx : List Int}
    (ho : ¬ ∀ i < 3, w.oracle (w.calls + i) = true) {r : Int × Option (AxFuns F)} (hs : l1c_dct1_setup n m idx w = some (r, w')) :
    r = (L1C_OUT_OF_MEMORY, none) ∧ Inv w' R own ∧ w'.g2 = w.g2 ∧ w'.gt = w.gt ∧ w'.gm = w.gm := by
  obtain ⟨h1, h2, h3, h4, h5, h6, h7, h8, h9, h10⟩ := dct1_setup_oom h.wf h.thr ho hs
  have hs1 : ∀ b, own b ≠ some .d1 := by have := h.s1; rw [hr] at this; exact this
  have hne : ∀ (M : Mod), M ≠ .lost → ∀ b, own b = some M → w'.obj b = w.obj b := by
    intro M hM b hb
    refine h10 b fun hc => ?_
    rcases (h.left.plans hr b hc).2 with h' | h'
    · rw [h'] at hb; cases hb
    · rw [h'] at hb; exact hM (Option.some.inj hb).symm
  refine ⟨h1, ?_, h4, h5, h6⟩
  constructor
  · rw [h3]; exact h.thr
  · intro b hb; exact lt_of_lt_of_le (h.lt b hb) h2
  · intro b hb
    rcases h9 b with h' | h'
    · exact h'
    · rw [h']; exact h.leak b hb
  · rw [hr]; exact hs1
  · exact h.s2.frame h4 (hne _ (by decide)) (fun _ => Iff.rfl)
  · exact h.su.frame (by rw [h5]) (hne _ (by decide)) (fun _ => Iff.rfl)
  · exact h.sm.frame h6 (hne _ (by decide)) (fun _ => Iff.rfl)
  · intro he; rw [h7, h8]; exact h.ever he
  · refine ⟨h.left.lost, fun e b hb => ?_⟩
    rw [h7, h8] at hb
    obtain ⟨g1, g2⟩ := h.left.plans e b hb
    exact ⟨g1.trans_le h2, g2⟩

/-- a 2-D setup that fails loses what it was granted -/
theorem inv_setup2_fail {R : Res F} (h : Inv w R own) (hr : R.r2 = none) (n mrow mcol : ℕ) (idx : List Int)
    (ho : ¬ ∀ i < 5, w.oracle (w.calls + i) = true) :
    ∃ st w' k, l1c_dct2_setup n mrow mcol idx w = some ((st, none), w') ∧ (st = L1C_DCT_INIT_FAILURE ∨ st = L1C_OUT_OF_MEMORY) ∧
      Inv w' { R with lost := true } (grow own w.next k .lost) ∧ w'.g1 = w.g1 ∧ w'.gt = w.gt ∧ w'.gm = w.gm := by
  obtain ⟨st, w', k, h1, h2, h3, h4, h5, h6, h7, h8, h9⟩ := dct2_setup_fail n mrow mcol idx w ho
  refine ⟨st, w', k, h1, h2, ?_, h5, h6, h7⟩
  have hs2 : ∀ b, own b ≠ some .d2 := by have := h.s2; rw [hr] at this; exact this
  have hold : ∀ (M : Mod) b, own b = some M → w'.obj b = w.obj b := fun M b hb => h8 b (h.lt b (by rw [hb]; simp))
  constructor
  · rw [h4]; exact h.thr
  · intro b hb
    rw [h3]
    unfold grow at hb
    split at hb
    · omega
    · have := h.lt b hb; omega
  · intro b hb
    unfold grow at hb
    split at hb
    · cases hb
    · rename_i hb'
      by_cases hlt : b < w.next
      · rw [h8 b hlt]; exact h.leak b hb
      · rw [h9 b (by omega)]; exact h.leak b hb
  · exact h.s1.frame h5 (fun b hb => hold _ b hb) (grow_ne (by decide) h.lt)
  · rw [show ({ R with lost := true } : Res F).r2 = none from hr]
    intro b hb
    exact hs2 b ((grow_ne (by decide) h.lt b).1 hb)
  · exact h.su.frame (by rw [h6]) (fun b hb => hold _ b hb) (grow_ne (by decide) h.lt)
  · exact h.sm.frame h7 (fun b hb => hold _ b hb) (grow_ne (by decide) h.lt)
  · intro he; rw [h5]; exact h.ever he
  · exact h.left.grown (fun _ => rfl) id (fun e => by cases e) (fun _ => h5) (by rw [h3]; exact Nat.le_add_right _ _)

/-- forgetting what a module owns -/
def forgo (own : Own) (M : Mod) : Own := fun b => if own b = some M then some .lost else own b

theorem forgo_ne {M M' : Mod} (h : M' ≠ M) (hl : M' ≠ .lost) (b : ℕ) : forgo own M b = some M' ↔ own b = some M' := by
  unfold forgo
  split
  · rename_i hb
    rw [hb]
    exact ⟨fun he => absurd (Option.some.inj he).symm hl, fun he => absurd (Option.some.inj he).symm h⟩
  · rfl

theorem forgo_self {M : Mod} (hl : M ≠ .lost) (b : ℕ) : forgo own M b ≠ some M := by
  unfold forgo
  split
  · exact fun h => hl (Option.some.inj h).symm
  · assumption

theorem forgo_none {M : Mod} (b : ℕ) : forgo own M b = none ↔ own b = none := by
  unfold forgo
  split
  · rename_i h; simp [h]
  · rfl

theorem inv_forget {R R' : Res F} (h : Inv w R own) (M : Mod) (hM : M ≠ .lost) (hl : R'.lost = true) (he : R'.ever1 = R.ever1)
    (h1 : R'.r1 = if M = .d1 then none else R.r1) (h2 : R'.r2 = if M = .d2 then none else R.r2)
    (hu : R'.u = if M = .tv then none else R.u) (hm : R'.rm = if M = .mat then none else R.rm) : Inv w R' (forgo own M) := by
  have hno : ∀ (M' : Mod), M' = M → ∀ b, forgo own M b ≠ some M' := fun M' e b => by rw [e]; exact forgo_self hM b
  constructor
  · exact h.thr
  · intro b hb; exact h.lt b fun hc => hb ((forgo_none b).2 hc)
  · intro b hb; exact h.leak b ((forgo_none b).1 hb)
  · rw [h1]
    split
    · rename_i e; exact hno _ e.symm
    · rename_i e; exact h.s1.frame rfl (fun _ _ => rfl) (forgo_ne (Ne.symm e) (by decide))
  · rw [h2]
    split
    · rename_i e; exact hno _ e.symm
    · rename_i e; exact h.s2.frame rfl (fun _ _ => rfl) (forgo_ne (Ne.symm e) (by decide))
  · rw [hu]
    split
    · rename_i e; exact hno _ e.symm
    · rename_i e; exact h.su.frame rfl (fun _ _ => rfl) (forgo_ne (Ne.symm e) (by decide))
  · rw [hm]
    split
    · rename_i e; exact hno _ e.symm
    · rename_i e; exact h.sm.frame rfl (fun _ _ => rfl) (forgo_ne (Ne.symm e) (by decide))
  · rw [he]; exact h.ever
  · refine ⟨fun e => absurd (hl.symm.trans e) (by simp), fun e b hb => ?_⟩
    have key : b < w.next ∧ (own b = none ∨ own b = some .lost ∨ own b = some M) := by
      cases hr : R.r1 with
      | none =>
        obtain ⟨g1, g2⟩ := h.left.plans hr b hb
        exact ⟨g1, g2.imp_right Or.inl⟩
      | some r =>
        have e1 : M = .d1 := by
          by_contra hc
          rw [h1, if_neg hc, hr] at e; cases e
        have hs := h.s1
        rw [hr] at hs
        obtain ⟨k, hg, -, -, -, -, -, hown⟩ := hs
        rw [hg] at hb
        have hb' : own b = some .d1 := (hown b).2 (by
          rcases hb with hb | hb
          · have : k + 3 = b := Option.some.inj hb
            omega
          · have : k + 4 = b := Option.some.inj hb
            omega)
        exact ⟨h.lt b (by rw [hb']; simp), Or.inr (Or.inr (by rw [hb', e1]))⟩
    refine ⟨key.1, ?_⟩
    unfold forgo
    rcases key.2 with g | g | g
    · rw [g, if_neg (by simp)]; exact Or.inl rfl
    · right
      rw [g]
      split <;> rfl
    · rw [if_pos g]; exact Or.inr rfl

theorem inv_destroy1 {R : Res F} (h : Inv w R own) {r : R1 F} (hr : R.r1 = some r) :
    ∃ w', dct_destroy w = some ((), w') ∧ Inv w' { R with r1 := none } (shrink own .d1) ∧
      w'.g2 = w.g2 ∧ w'.gt = w.gt ∧ w'.gm = w.gm := by
  have hs1 := h.s1
  rw [hr] at hs1
  obtain ⟨k, hg, o0, o1, o2, o3, o4, hown⟩ := hs1
  generalize he : dct_destroy w = e
  rw [dct_destroy_eq] at he
  simp [hg, wbind, wfree, wdestroyPlan, wcleanup, h.thr, o0, o1, o2, o3, o4] at he
  subst he
  refine ⟨_, rfl, ?_, rfl, rfl, rfl⟩
  have hsh : ∀ b, ¬ (k ≤ b ∧ b ≤ k + 4) → Function.update (Function.update (Function.update (Function.update
      (Function.update w.obj k none) (k + 1) none) (k + 2) none) (k + 4) none) (k + 3) none b = w.obj b := by
    intro b hb
    simp only [Function.update_apply]
    rw [if_neg (by omega), if_neg (by omega), if_neg (by omega), if_neg (by omega), if_neg (by omega)]
  have hne : ∀ (M : Mod), M ≠ .d1 → ∀ b, own b = some M → ¬ (k ≤ b ∧ b ≤ k + 4) := by
    intro M hM b hb hc
    rw [(hown b).2 hc] at hb
    exact hM (Option.some.inj hb).symm
  constructor
  · rfl
  · intro b hb
    refine h.lt b fun hc => hb ((shrink_none b).2 (Or.inl hc))
  · intro b hb
    show Function.update (Function.update (Function.update (Function.update (Function.update w.obj k none) (k + 1) none)
      (k + 2) none) (k + 4) none) (k + 3) none b = none
    by_cases hc : k ≤ b ∧ b ≤ k + 4
    · simp only [Function.update_apply]
      by_cases b3 : b = k + 3
      · rw [if_pos b3]
      by_cases b4 : b = k + 4
      · rw [if_neg b3, if_pos b4]
      by_cases b2 : b = k + 2
      · rw [if_neg b3, if_neg b4, if_pos b2]
      by_cases b1 : b = k + 1
      · rw [if_neg b3, if_neg b4, if_neg b2, if_pos b1]
      rw [if_neg b3, if_neg b4, if_neg b2, if_neg b1, if_pos (by omega)]
    · rw [hsh b hc]
      rcases (shrink_none b).1 hb with h' | h'
      · exact h.leak b h'
      · exact absurd ((hown b).1 h') hc
  · exact fun b => shrink_self b
  · exact h.s2.frame rfl (fun b hb => hsh b (hne _ (by decide) b hb)) (shrink_ne (by decide))
  · exact h.su.frame rfl (fun b hb => hsh b (hne _ (by decide) b hb)) (shrink_ne (by decide))
  · exact h.sm.frame rfl (fun b hb => hsh b (hne _ (by decide) b hb)) (shrink_ne (by decide))
  · intro he; have := h.ever he; rw [hg] at this; exact this
  · refine ⟨fun e b hb => ?_, fun _ b hb => ?_⟩
    · exact h.left.lost e b ((shrink_ne (by decide) b).1 hb)
    · have hb' : k ≤ b ∧ b ≤ k + 4 := by
        rcases hb with hb | hb
        · have : k + 3 = b := by simpa [hg] using hb
          omega
        · have : k + 4 = b := by simpa [hg] using hb
          omega
      exact ⟨h.lt b (by rw [(hown b).2 hb']; simp), Or.inl ((shrink_none b).2 (Or.inr ((hown b).2 hb')))⟩

theorem inv_setup2 {R : Res F} (h : Inv w R own) (hr : R.r2 = none) (n mrow mcol : ℕ) (idx : List Int)
    (ho : ∀ i < 5, w.oracle (w.calls + i) = true) :
    ∃ w', l1c_dct2_setup n mrow mcol idx w = some ((L1C_SUCCESS, some ⟨n, (mrow * mcol : ℕ), (mrow * mcol : ℕ), (mrow * mcol : ℕ), lit 1, .d2⟩), w') ∧
      Inv w' { R with r2 := some ⟨mrow, mcol, n, idx, DctBuf.fresh⟩ } (grow own w.next 5 .d2) ∧
      w'.g1 = w.g1 ∧ w'.gt = w.gt ∧ w'.gm = w.gm := by
  obtain ⟨w', h1, h2⟩ := dct2_setup_ok n mrow mcol idx w ho
  refine ⟨w', h1, ?_, by rw [h2], by rw [h2], by rw [h2]⟩
  have hold : ∀ b, own b ≠ none → w'.obj b = w.obj b := by
    intro b hb
    have := h.lt b hb
    rw [h2]
    simp only [Function.update_apply]
    rw [if_neg (by omega), if_neg (by omega), if_neg (by omega), if_neg (by omega), if_neg (by omega)]
  have hs1 : ∀ b, own b ≠ some .d2 := by have := h.s2; rw [hr] at this; exact this
  have hsn : ∀ (M : Mod) b, own b = some M → own b ≠ none := fun M b hb => by rw [hb]; simp
  constructor
  · rw [h2]; exact h.thr
  · intro b hb
    rw [h2]
    show b < w.next + 5
    unfold grow at hb
    split at hb
    · omega
    · have := h.lt b hb; omega
  · intro b hb
    unfold grow at hb
    split at hb
    · simp at hb
    · rename_i hb'
      rw [h2]
      simp only [Function.update_apply]
      rw [if_neg (by omega), if_neg (by omega), if_neg (by omega), if_neg (by omega), if_neg (by omega)]
      exact h.leak b hb
  · exact h.s1.frame (by rw [h2]) (fun b hb => hold b (hsn _ b hb)) (grow_ne (by decide) h.lt)
  · refine ⟨w.next, by rw [h2], ?_, ?_, ?_, ?_, ?_, fun b => (grow_self hs1 b).trans (by omega)⟩ <;>
      · rw [h2]; simp [DctBuf.fresh]
  · exact h.su.frame (by rw [h2]) (fun b hb => hold b (hsn _ b hb)) (grow_ne (by decide) h.lt)
  · exact h.sm.frame (by rw [h2]) (fun b hb => hold b (hsn _ b hb)) (grow_ne (by decide) h.lt)
  · intro he; rw [h2]; exact h.ever he
  · exact h.left.grown (by simp) id id (fun _ => by rw [h2]) (by rw [h2]; exact Nat.le_add_right _ _)

theorem inv_destroy2 {R : Res F} (h : Inv w R own) {r : R2 F} (hr : R.r2 = some r) :
    ∃ w', dct2_destroy w = some ((), w') ∧ Inv w' { R with r2 := none } (shrink own .d2) ∧
      w'.g1 = w.g1 ∧ w'.gt = w.gt ∧ w'.gm = w.gm := by
  have hs1 := h.s2
  rw [hr] at hs1
  obtain ⟨k, hg, o0, o1, o2, o3, o4, hown⟩ := hs1
  generalize he : dct2_destroy w = e
  rw [dct2_destroy_eq] at he
  simp [hg, wbind, wfree, wdestroyPlan, wcleanup, h.thr, o0, o1, o2, o3, o4] at he
  subst he
  refine ⟨_, rfl, ?_, rfl, rfl, rfl⟩
  have hsh : ∀ b, ¬ (k ≤ b ∧ b ≤ k + 4) → Function.update (Function.update (Function.update (Function.update
      (Function.update w.obj k none) (k + 1) none) (k + 2) none) (k + 4) none) (k + 3) none b = w.obj b := by
    intro b hb
    simp only [Function.update_apply]
    rw [if_neg (by omega), if_neg (by omega), if_neg (by omega), if_neg (by omega), if_neg (by omega)]
  have hne : ∀ (M : Mod), M ≠ .d2 → ∀ b, own b = some M → ¬ (k ≤ b ∧ b ≤ k + 4) := by
    intro M hM b hb hc
    rw [(hown b).2 hc] at hb
    exact hM (Option.some.inj hb).symm
  constructor
  · rfl
  · intro b hb
    refine h.lt b fun hc => hb ((shrink_none b).2 (Or.inl hc))
  · intro b hb
    show Function.update (Function.update (Function.update (Function.update (Function.update w.obj k none) (k + 1) none)
      (k + 2) none) (k + 4) none) (k + 3) none b = none
    by_cases hc : k ≤ b ∧ b ≤ k + 4
    · simp only [Function.update_apply]
      by_cases b3 : b = k + 3
      · rw [if_pos b3]
      by_cases b4 : b = k + 4
      · rw [if_neg b3, if_pos b4]
      by_cases b2 : b = k + 2
      · rw [if_neg b3, if_neg b4, if_pos b2]
      by_cases b1 : b = k + 1
      · rw [if_neg b3, if_neg b4, if_neg b2, if_pos b1]
      rw [if_neg b3, if_neg b4, if_neg b2, if_neg b1, if_pos (by omega)]
    · rw [hsh b hc]
      rcases (shrink_none b).1 hb with h' | h'
      · exact h.leak b h'
      · exact absurd ((hown b).1 h') hc
  · exact h.s1.frame rfl (fun b hb => hsh b (hne _ (by decide) b hb)) (shrink_ne (by decide))
  · exact fun b => shrink_self b
  · exact h.su.frame rfl (fun b hb => hsh b (hne _ (by decide) b hb)) (shrink_ne (by decide))
  · exact h.sm.frame rfl (fun b hb => hsh b (hne _ (by decide) b hb)) (shrink_ne (by decide))
  · exact h.ever
  · exact h.left.shrunk id rfl rfl le_rfl


theorem inv_setupM {R : Res F} (h : Inv w R own) (hr : R.rm = none) {n m : Int} (hn : 0 < n) (hm : 0 < m) (A : Arr F)
    (ho : w.oracle w.calls = true) :
    ∃ w', l1c_setup_matrix_transforms n m A w = some ((L1C_SUCCESS, some ⟨n, m, m, m, matNormW, .mat⟩), w') ∧
      Inv w' { R with rm := some ⟨n.toNat, m.toNat, A, fun _ => lit 0⟩ } (grow own w.next 1 .mat) ∧
      w'.gt = w.gt := by
  generalize he : l1c_setup_matrix_transforms n m A w = e
  simp [l1c_setup_matrix_transforms, hn, hm, wbind, wmalloc_eq, ho, World.push, wmodify, wpure, wzero, writeAt_full,
    not_le.2 hn, not_le.2 hm] at he
  subst he
  refine ⟨_, rfl, ?_, rfl⟩
  have hold : ∀ b, own b ≠ none → Function.update w.obj w.next
      (some (.arr ⟨max n.toNat m.toNat, fun _ => lit 0⟩)) b = w.obj b := by
    intro b hb
    have := h.lt b hb
    rw [Function.update_of_ne (by omega)]
  have hs1 : ∀ b, own b ≠ some .mat := by have := h.sm; rw [hr] at this; exact this
  have hsn : ∀ (M : Mod) b, own b = some M → own b ≠ none := fun M b hb => by rw [hb]; simp
  constructor
  · exact h.thr
  · intro b hb
    show b < w.next + 1
    unfold grow at hb
    split at hb
    · omega
    · have := h.lt b hb; omega
  · intro b hb
    unfold grow at hb
    split at hb
    · simp at hb
    · rename_i hb'
      show Function.update w.obj w.next _ b = none
      rw [Function.update_of_ne (by omega)]
      exact h.leak b hb
  · exact h.s1.frame rfl (fun b hb => hold b (hsn _ b hb)) (grow_ne (by decide) h.lt)
  · exact h.s2.frame rfl (fun b hb => hold b (hsn _ b hb)) (grow_ne (by decide) h.lt)
  · exact h.su.frame rfl (fun b hb => hold b (hsn _ b hb)) (grow_ne (by decide) h.lt)
  · exact ⟨w.next, rfl, Function.update_self .., fun b => (grow_self hs1 b).trans (by omega)⟩
  · exact h.ever
  · exact h.left.grown (by simp) id id (fun _ => rfl) (Nat.le_succ _)

theorem inv_setupM_fail {R : Res F} (h : Inv w R own) (hr : R.rm = none) {n m : Int} (hn : 0 < n) (hm : 0 < m) (A : Arr F)
    (ho : w.oracle w.calls = false) :
    ∃ w', l1c_setup_matrix_transforms n m A w = some ((L1C_OUT_OF_MEMORY, none), w') ∧ Inv w' R own ∧ w'.gt = w.gt := by
  generalize he : l1c_setup_matrix_transforms n m A w = e
  simp [l1c_setup_matrix_transforms, hn, hm, wbind, wmalloc_eq, ho, World.skip, wmodify, wpure,
    not_le.2 hn, not_le.2 hm] at he
  subst he
  refine ⟨_, rfl, ?_, rfl⟩
  have hs1 : ∀ b, own b ≠ some .mat := by have := h.sm; rw [hr] at this; exact this
  exact ⟨h.thr, h.lt, h.leak, h.s1.frame rfl (fun _ _ => rfl) (fun _ => Iff.rfl),
    h.s2.frame rfl (fun _ _ => rfl) (fun _ => Iff.rfl), h.su.frame rfl (fun _ _ => rfl) (fun _ => Iff.rfl),
    by rw [hr]; exact hs1, h.ever, h.left.same id rfl rfl le_rfl⟩

theorem inv_destroyM {R : Res F} (h : Inv w R own) {r : RM F} (hr : R.rm = some r) :
    ∃ w', destroy_matrix_transforms w = some ((), w') ∧ Inv w' { R with rm := none } (shrink own .mat) ∧ w'.gt = w.gt := by
  have hs1 := h.sm
  rw [hr] at hs1
  obtain ⟨k, hg, o0, hown⟩ := hs1
  generalize he : destroy_matrix_transforms w = e
  simp [destroy_matrix_transforms, hg, wfree, o0] at he
  subst he
  refine ⟨_, rfl, ?_, rfl⟩
  have hne : ∀ (M : Mod), M ≠ .mat → ∀ b, own b = some M → Function.update w.obj k none b = w.obj b := by
    intro M hM b hb
    refine Function.update_of_ne (fun hc => ?_) ..
    rw [(hown b).2 hc] at hb
    exact hM (Option.some.inj hb).symm
  constructor
  · exact h.thr
  · intro b hb
    refine h.lt b fun hc => hb ((shrink_none b).2 (Or.inl hc))
  · intro b hb
    show Function.update w.obj k none b = none
    by_cases hc : b = k
    · rw [hc, Function.update_self]
    · rw [Function.update_of_ne hc]
      rcases (shrink_none b).1 hb with h' | h'
      · exact h.leak b h'
      · exact absurd ((hown b).1 h') hc
  · exact h.s1.frame rfl (fun b hb => hne _ (by decide) b hb) (shrink_ne (by decide))
  · exact h.s2.frame rfl (fun b hb => hne _ (by decide) b hb) (shrink_ne (by decide))
  · exact h.su.frame rfl (fun b hb => hne _ (by decide) b hb) (shrink_ne (by decide))
  · exact fun b => shrink_self b
  · exact h.ever
  · exact h.left.shrunk id rfl rfl le_rfl

/-! ## The work array of the TV module -/

/-- changes of the TV variables other than `u` -/
theorem Inv.setGt {R : Res F} (h : Inv w R own) (g : GT F) (hg : g.u = w.gt.u) : Inv { w with gt := g } R own :=
  ⟨h.thr, h.lt, h.leak, h.s1.frame rfl (fun _ _ => rfl) (fun _ => Iff.rfl),
    h.s2.frame rfl (fun _ _ => rfl) (fun _ => Iff.rfl), h.su.frame hg (fun _ _ => rfl) (fun _ => Iff.rfl),
    h.sm.frame rfl (fun _ _ => rfl) (fun _ => Iff.rfl), h.ever, h.left.same id rfl rfl le_rfl⟩

/-- without a live work array all TV variables may change -/
theorem Inv.setGt' {R : Res F} (h : Inv w R own) (hu : R.u = none) (g : GT F) : Inv { w with gt := g } R own :=
  ⟨h.thr, h.lt, h.leak, h.s1.frame rfl (fun _ _ => rfl) (fun _ => Iff.rfl),
    h.s2.frame rfl (fun _ _ => rfl) (fun _ => Iff.rfl), by have := h.su; rw [hu] at this ⊢; exact this,
    h.sm.frame rfl (fun _ _ => rfl) (fun _ => Iff.rfl), h.ever, h.left.same id rfl rfl le_rfl⟩

theorem Inv.skip {R : Res F} (h : Inv w R own) : Inv w.skip R own :=
  ⟨h.thr, h.lt, h.leak, h.s1.frame rfl (fun _ _ => rfl) (fun _ => Iff.rfl),
    h.s2.frame rfl (fun _ _ => rfl) (fun _ => Iff.rfl), h.su.frame rfl (fun _ _ => rfl) (fun _ => Iff.rfl),
    h.sm.frame rfl (fun _ _ => rfl) (fun _ => Iff.rfl), h.ever, h.left.same id rfl rfl le_rfl⟩

/-- `u = l1c_malloc_double(p)` -/
theorem inv_allocU {R : Res F} (h : Inv w R own) (hr : R.u = none) (a : Arr F) :
    Inv { w.push (.arr a) with gt := { w.gt with u := some w.next } } { R with u := some a } (grow own w.next 1 .tv) := by
  have hold : ∀ b, own b ≠ none → Function.update w.obj w.next (some (.arr a)) b = w.obj b := by
    intro b hb
    have := h.lt b hb
    rw [Function.update_of_ne (by omega)]
  have hs1 : ∀ b, own b ≠ some .tv := by have := h.su; rw [hr] at this; exact this
  have hsn : ∀ (M : Mod) b, own b = some M → own b ≠ none := fun M b hb => by rw [hb]; simp
  constructor
  · exact h.thr
  · intro b hb
    show b < w.next + 1
    unfold grow at hb
    split at hb
    · omega
    · have := h.lt b hb; omega
  · intro b hb
    unfold grow at hb
    split at hb
    · simp at hb
    · rename_i hb'
      show Function.update w.obj w.next _ b = none
      rw [Function.update_of_ne (by omega)]
      exact h.leak b hb
  · exact h.s1.frame rfl (fun b hb => hold b (hsn _ b hb)) (grow_ne (by decide) h.lt)
  · exact h.s2.frame rfl (fun b hb => hold b (hsn _ b hb)) (grow_ne (by decide) h.lt)
  · exact ⟨w.next, rfl, Function.update_self .., fun b => (grow_self hs1 b).trans (by omega)⟩
  · exact h.sm.frame rfl (fun b hb => hold b (hsn _ b hb)) (grow_ne (by decide) h.lt)
  · exact h.ever
  · exact h.left.grown (by simp) id id (fun _ => rfl) (Nat.le_succ _)

theorem inv_freeU {R : Res F} (h : Inv w R own) {a : Arr F} (hr : R.u = some a) :
    ∃ w', wfree w.gt.u w = some ((), w') ∧ Inv w' { R with u := none } (shrink own .tv) ∧ w'.gt = w.gt := by
  have hs1 := h.su
  rw [hr] at hs1
  obtain ⟨k, hg, o0, hown⟩ := hs1
  rw [hg]
  refine ⟨_, wfree_arr o0, ?_, rfl⟩
  have hne : ∀ (M : Mod), M ≠ .tv → ∀ b, own b = some M → Function.update w.obj k none b = w.obj b := by
    intro M hM b hb
    refine Function.update_of_ne (fun hc => ?_) ..
    rw [(hown b).2 hc] at hb
    exact hM (Option.some.inj hb).symm
  constructor
  · exact h.thr
  · intro b hb
    refine h.lt b fun hc => hb ((shrink_none b).2 (Or.inl hc))
  · intro b hb
    show Function.update w.obj k none b = none
    by_cases hc : b = k
    · rw [hc, Function.update_self]
    · rw [Function.update_of_ne hc]
      rcases (shrink_none b).1 hb with h' | h'
      · exact h.leak b h'
      · exact absurd ((hown b).1 h') hc
  · exact h.s1.frame rfl (fun b hb => hne _ (by decide) b hb) (shrink_ne (by decide))
  · exact h.s2.frame rfl (fun b hb => hne _ (by decide) b hb) (shrink_ne (by decide))
  · exact fun b => shrink_self b
  · exact h.sm.frame rfl (fun b hb => hne _ (by decide) b hb) (shrink_ne (by decide))
  · exact h.ever
  · exact h.left.shrunk id rfl rfl le_rfl

end L1c
