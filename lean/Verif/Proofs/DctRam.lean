import Verif.Proofs.TransMem

/-! Helper lemmas: the DCT functions on memory compute the DCT functions on vectors. -/

namespace L1c
open Prog Scalar

variable {F : Type} [Scalar F] {m n l k : ℕ} {x y : Ptr} {b : DctPtr}

omit [Scalar F] in
theorem resolve_val {idx : Fin n → Int} {ix : Fin n → Fin m} (h : resolve m idx = some ix) (i : Fin n) : ((ix i : ℕ) : Int) = idx i := by
  unfold resolve at h
  split at h
  · rename_i hc
    rw [← Option.some.inj h]
    have := hc i
    simp; omega
  · cases h

section steps
variable {len : XA → ℕ} {ptr : XA → Ptr} {V : (i : XA) → Vec F (len i)} (S : ASep len ptr ∅)
include S

theorem step_head0 (a : XA) [NeZero (len a)] (f : F → F) : Run len ptr (head0M (ptr a) f) V (Function.update V a (Function.update (V a) 0 (f (V a 0)))) :=
  .set S a fun _ hs => cmd_head0 (hs a) f

theorem step_store0 (a : XA) [NeZero (len a)] (w : F) : Run len ptr (Cmd.exec (seqK (store (ptr a) w))) V (Function.update V a (Function.update (V a) 0 w)) :=
  .set S a fun _ hs => cmd_store0 (hs a) w

theorem step_self (a : XA) (r : F) : Run len ptr (scaleM (len a) r (ptr a) (ptr a)) V (Function.update V a (vscale r (V a))) :=
  .set S a fun _ hs => cmd_scale (hs a) (hs a).1 (NoCross.refl _ _) r
end steps

variable {idx : Int → Int} {fwM : FftwM F}

section one
variable [NeZero m] {fw : Fftw F m} (H : FftwImpl fwM fw) (hb : b.Sep m)

include H hb

theorem d1_Ax : NOpImpl (dct_EMxM (dct1Var m fwM b n idx)) (dctNOp (dct1Funs fw fun i : Fin n => idx ((i : ℕ) : Int)).Ax) (BufAt b) (b.Own m) := by
  refine nop_of_run hb fun x y S v old t r e => ?_
  obtain ⟨o, e1, rfl⟩ := Option.map_eq_some_iff.1 e
  obtain ⟨ix, hr, e2⟩ := Option.bind_eq_some_iff.1 e1
  cases e2
  have hix := resolve_val hr
  have : NeZero (XA.len m n m .x) := ‹NeZero m›
  refine Run.assume ?_
  refine Run.eval (p := load (XA.ptr x y b .x)) (fun s hs => cmd_load0 (hs .x)) ?_
  refine Run.seq (step_head0 S .x _) ?_
  refine Run.seq (Run.set S .dy fun s hs => H.inv s _ _ _ (hs .x) (hs .dy).1 (S.dis .x .dy (by decide))) ?_
  refine Run.seq (step_store0 S .x _) ?_
  refine Run.congr (Run.set S .y (fun s hs => cmd_gather hix (hs .dy) (hs .y).1 (S.dis .dy .y (by decide)) _)) ?_
  funext i
  cases i <;> rfl

theorem d1_Aty : NOpImpl (dct_MtEtyM m (dct1Var m fwM b n idx)) (dctNOp (dct1Funs fw fun i : Fin n => idx ((i : ℕ) : Int)).Aty) (BufAt b) (b.Own m) := by
  refine nop_of_run hb fun x y S v old t r e => ?_
  obtain ⟨o, e1, rfl⟩ := Option.map_eq_some_iff.1 e
  obtain ⟨ix, hr, e2⟩ := Option.bind_eq_some_iff.1 e1
  cases e2
  have hix := resolve_val hr
  have : NeZero (XA.len n m m .dx) := ‹NeZero m›
  refine Run.assume ?_
  refine Run.seq (Run.set S .e fun s hs => cmd_scatter hix (hs .e) (hs .x) (S.dis .x .e (by decide))) ?_
  refine Run.seq (Run.set S .dx fun s hs => H.fwd s _ _ _ (hs .e) (hs .dx).1 (S.dis .e .dx (by decide))) ?_
  refine Run.seq (step_head0 S .dx _) ?_
  refine Run.congr (Run.set S .y fun s hs => cmd_scale (hs .dx) (hs .y).1 (NoCross.of_disj (S.dis .y .dx (by decide))) _) ?_
  funext i
  cases i <;> rfl

theorem d1_AtAx : NOpImpl (dct_MtEt_EMxM m (dct1Var m fwM b n idx)) (dctNOp (dct1Funs fw fun i : Fin n => idx ((i : ℕ) : Int)).AtAx) (BufAt b) (b.Own m) := by
  refine nop_of_run hb fun x y S v old t r e => ?_
  obtain ⟨o, e1, rfl⟩ := Option.map_eq_some_iff.1 e
  obtain ⟨ix, hr, e2⟩ := Option.bind_eq_some_iff.1 e1
  cases e2
  have hix := resolve_val hr
  have : NeZero (XA.len m m m .x) := ‹NeZero m›
  have : NeZero (XA.len m m m .dx) := ‹NeZero m›
  refine Run.assume ?_
  refine Run.eval (p := load (XA.ptr x y b .x)) (fun s hs => cmd_load0 (hs .x)) ?_
  refine Run.seq (step_head0 S .x _) ?_
  refine Run.seq (Run.set S .dy fun s hs => H.inv s _ _ _ (hs .x) (hs .dy).1 (S.dis .x .dy (by decide))) ?_
  refine Run.seq (step_store0 S .x _) ?_
  refine Run.seq (Run.set S .e fun s hs => cmd_resample hix (hs .e) (hs .dy) (S.dis .dy .e (by decide)) _) ?_
  refine Run.seq (Run.set S .dx fun s hs => H.fwd s _ _ _ (hs .e) (hs .dx).1 (S.dis .e .dx (by decide))) ?_
  refine Run.seq (step_head0 S .dx _) ?_
  refine Run.congr (Run.set S .y fun s hs => cmd_scale (hs .dx) (hs .y).1 (NoCross.of_disj (S.dis .y .dx (by decide))) _) ?_
  funext i
  cases i <;> rfl

theorem d1_Mx (jdx : Fin n → Int) : NOpImpl (dct_MxM m (dct1Var m fwM b n idx)) (dctNOp (dct1Funs fw jdx).Mx) (BufAt b) (b.Own m) := by
  refine nop_of_run hb fun x y S v old t r e => ?_
  obtain ⟨o, e1, rfl⟩ := Option.map_eq_some_iff.1 e
  cases e1
  have : NeZero (XA.len m m m .x) := ‹NeZero m›
  refine Run.seq (step_head0 S .x _) ?_
  refine Run.seq (Run.set S .y fun s hs => H.inv s _ _ _ (hs .x) (hs .y).1 (S.dis .x .y (by decide))) ?_
  refine Run.seq (step_self S .y _) ?_
  refine Run.congr (step_head0 S .x _) ?_
  funext i
  cases i <;> rfl

theorem d1_Mty (jdx : Fin n → Int) : NOpImpl (dct_MtyM m (dct1Var m fwM b n idx)) (dctNOp (dct1Funs fw jdx).Mty) (BufAt b) (b.Own m) := by
  refine nop_of_run hb fun x y S v old t r e => ?_
  obtain ⟨o, e1, rfl⟩ := Option.map_eq_some_iff.1 e
  cases e1
  have : NeZero (XA.len m m m .y) := ‹NeZero m›
  refine Run.assume ?_
  refine Run.seq (Run.set S .y fun s hs => H.fwd s _ _ _ (hs .x) (hs .y).1 (S.dis .x .y (by decide))) ?_
  refine Run.seq (step_head0 S .y _) ?_
  refine Run.congr (step_self S .y _) ?_
  funext i
  cases i <;> rfl
end one

section both
variable {c : DctCfg F m n} {root : F} (hb : b.Sep m) (hc : c.idx = fun i : Fin n => idx ((i : ℕ) : Int))
include hb hc

theorem d_Ex : NOpImpl (dct_ExM ⟨fwM, b, n, idx, root⟩) (dctNOp (dct_Ex c)) (BufAt b) (b.Own m) := by
  refine nop_of_run hb fun x y S v old t r e => ?_
  obtain ⟨o, e1, rfl⟩ := Option.map_eq_some_iff.1 e
  obtain ⟨ix, hr, e2⟩ := Option.bind_eq_some_iff.1 e1
  cases e2
  rw [hc] at hr
  have hix := resolve_val hr
  refine Run.congr (Run.set S .y (fun s hs => cmd_gather hix (hs .x) (hs .y).1 (S.dis .x .y (by decide)) _)) ?_
  funext i
  cases i <;> rfl

theorem d_Ety : NOpImpl (dct_EtyM m ⟨fwM, b, n, idx, root⟩) (dctNOp' (dct_Ety c)) (BufAt b) (b.Own m) := by
  refine nop_of_run hb fun x y S v old t r e => ?_
  obtain ⟨o, e1, rfl⟩ := Option.map_eq_some_iff.1 e
  obtain ⟨ix, hr, e2⟩ := Option.bind_eq_some_iff.1 e1
  cases e2
  rw [hc] at hr
  have hix := resolve_val hr
  refine Run.seq (step_self S .y _) ?_
  refine Run.congr (Run.set S .y fun s hs => cmd_scatter hix (hs .y) (hs .x) (S.dis .x .y (by decide))) ?_
  funext i
  cases i <;> rfl
end both

theorem dct1_impl [NeZero m] {fw : Fftw F m} (H : FftwImpl fwM fw) (hb : b.Sep m) (n : ℕ) (idx : Int → Int) :
    DctImpl (dct1FunsM m (dct1Var m fwM b n idx)) (dct1Funs fw fun i : Fin n => idx ((i : ℕ) : Int)) (BufAt b) (b.Own m) :=
  ⟨d1_Ax H hb, d1_Aty H hb, d1_AtAx H hb, d1_Mx H hb _, d1_Mty H hb _, d_Ex hb rfl, d_Ety hb rfl⟩

section two
variable {mrow mcol : ℕ} [NeZero mrow] [NeZero mcol] {s : PState F}

theorem cmd_pre {v : Vec F (mrow * mcol)} (hx : HoldsV s x v) :
    ∃ s', CSpec (dct2PreM mrow mcol x) s () s' ∧ HoldsV s' x (dct2Pre v) ∧ Only (Rng x (mrow * mcol)) s s' := by
  have hr := Nat.pos_of_ne_zero (NeZero.ne mrow)
  have hc := Nat.pos_of_ne_zero (NeZero.ne mcol)
  obtain ⟨s1, c1, h1, o1⟩ := cmd_head0 hx (· * lit 2)
  obtain ⟨s2, c2, h2, o2⟩ := cmd_dscal (cnt := mcol - 1) (off := 1) (stride := 1) h1 (by omega) (fun i hi => by
    have := Nat.mul_le_mul hr (le_refl mcol); omega) root2
  obtain ⟨s3, c3, h3, o3⟩ := cmd_dscal (cnt := mrow - 1) (off := mcol) (stride := mcol) h2 hc (fun i hi => by
    have h := Nat.mul_le_mul (show i + 2 ≤ mrow by omega) (le_refl mcol)
    rw [Nat.add_mul] at h; omega) root2
  exact ⟨s3, c1.bind (c2.bind c3), h3, (o1.trans o2 subset_rfl).trans o3 subset_rfl⟩

theorem cmd_post {v : Vec F (mrow * mcol)} (hx : HoldsV s x v) :
    ∃ s', CSpec (dct2PostM mrow mcol x) s () s' ∧ HoldsV s' x (dct2Post v) ∧ Only (Rng x (mrow * mcol)) s s' := by
  have hr := Nat.pos_of_ne_zero (NeZero.ne mrow)
  have hc := Nat.pos_of_ne_zero (NeZero.ne mcol)
  obtain ⟨s1, c1, h1, o1⟩ := cmd_head0 hx (· * lit (1 / 2))
  obtain ⟨s2, c2, h2, o2⟩ := cmd_dscal (cnt := mcol - 1) (off := 1) (stride := 1) h1 (by omega) (fun i hi => by
    have := Nat.mul_le_mul hr (le_refl mcol); omega) (lit 1 / root2)
  obtain ⟨s3, c3, h3, o3⟩ := cmd_dscal (cnt := mrow - 1) (off := mcol) (stride := mcol) h2 hc (fun i hi => by
    have h := Nat.mul_le_mul (show i + 2 ≤ mrow by omega) (le_refl mcol)
    rw [Nat.add_mul] at h; omega) (lit 1 / root2)
  exact ⟨s3, c1.bind (c2.bind c3), h3, (o1.trans o2 subset_rfl).trans o3 subset_rfl⟩

variable {fw : Fftw F (mrow * mcol)} (H : FftwImpl fwM fw) (hb : b.Sep (mrow * mcol))
include H hb

theorem d2_Ax : NOpImpl (dct2_EMxM mrow mcol (dct2Var mrow mcol fwM b n idx)) (dctNOp (dct2Funs fw fun i : Fin n => idx ((i : ℕ) : Int)).Ax) (BufAt b)
    (b.Own (mrow * mcol)) := by
  refine nop_of_run hb fun x y S v old t r e => ?_
  obtain ⟨o, e1, rfl⟩ := Option.map_eq_some_iff.1 e
  obtain ⟨ix, hr, e2⟩ := Option.bind_eq_some_iff.1 e1
  cases e2
  have hix := resolve_val hr
  refine Run.seq (Run.set S .dx fun s hs => cmd_copy (hs .x) (hs .dx).1 (NoCross.of_disj (S.dis .dx .x (by decide)))) ?_
  refine Run.seq (Run.set S .dx fun s hs => cmd_pre (hs .dx)) ?_
  refine Run.seq (Run.set S .dy fun s hs => H.inv s _ _ _ (hs .dx) (hs .dy).1 (S.dis .dx .dy (by decide))) ?_
  refine Run.congr (Run.set S .y (fun s hs => cmd_gather hix (hs .dy) (hs .y).1 (S.dis .dy .y (by decide)) _)) ?_
  funext i
  cases i <;> rfl

theorem d2_Aty : NOpImpl (dct2_MtEtyM mrow mcol (dct2Var mrow mcol fwM b n idx)) (dctNOp (dct2Funs fw fun i : Fin n => idx ((i : ℕ) : Int)).Aty) (BufAt b)
    (b.Own (mrow * mcol)) := by
  refine nop_of_run hb fun x y S v old t r e => ?_
  obtain ⟨o, e1, rfl⟩ := Option.map_eq_some_iff.1 e
  obtain ⟨ix, hr, e2⟩ := Option.bind_eq_some_iff.1 e1
  cases e2
  have hix := resolve_val hr
  refine Run.seq (Run.set S .e fun s hs => cmd_scatter hix (hs .e) (hs .x) (S.dis .x .e (by decide))) ?_
  refine Run.seq (Run.set S .dx fun s hs => H.fwd s _ _ _ (hs .e) (hs .dx).1 (S.dis .e .dx (by decide))) ?_
  refine Run.seq (Run.set S .y fun s hs => cmd_scale (hs .dx) (hs .y).1 (NoCross.of_disj (S.dis .y .dx (by decide))) _) ?_
  refine Run.congr (Run.set S .y fun s hs => cmd_post (hs .y)) ?_
  funext i
  cases i <;> rfl

theorem d2_AtAx : NOpImpl (dct2_MtEt_EMxM mrow mcol (dct2Var mrow mcol fwM b n idx)) (dctNOp (dct2Funs fw fun i : Fin n => idx ((i : ℕ) : Int)).AtAx) (BufAt b)
    (b.Own (mrow * mcol)) := by
  refine nop_of_run hb fun x y S v old t r e => ?_
  obtain ⟨o, e1, rfl⟩ := Option.map_eq_some_iff.1 e
  obtain ⟨ix, hr, e2⟩ := Option.bind_eq_some_iff.1 e1
  cases e2
  have hix := resolve_val hr
  refine Run.seq (Run.set S .dx fun s hs => cmd_copy (hs .x) (hs .dx).1 (NoCross.of_disj (S.dis .dx .x (by decide)))) ?_
  refine Run.seq (Run.set S .dx fun s hs => cmd_pre (hs .dx)) ?_
  refine Run.seq (Run.set S .dy fun s hs => H.inv s _ _ _ (hs .dx) (hs .dy).1 (S.dis .dx .dy (by decide))) ?_
  refine Run.seq (Run.set S .e fun s hs => cmd_resample hix (hs .e) (hs .dy) (S.dis .dy .e (by decide)) _) ?_
  refine Run.seq (Run.set S .dx fun s hs => H.fwd s _ _ _ (hs .e) (hs .dx).1 (S.dis .e .dx (by decide))) ?_
  refine Run.seq (Run.set S .y fun s hs => cmd_scale (hs .dx) (hs .y).1 (NoCross.of_disj (S.dis .y .dx (by decide))) _) ?_
  refine Run.congr (Run.set S .y fun s hs => cmd_post (hs .y)) ?_
  funext i
  cases i <;> rfl

theorem d2_Mx (jdx : Fin n → Int) : NOpImpl (dct2_MxM mrow mcol (dct2Var mrow mcol fwM b n idx)) (dctNOp (dct2Funs fw jdx).Mx) (BufAt b) (b.Own (mrow * mcol)) := by
  refine nop_of_run hb fun x y S v old t r e => ?_
  obtain ⟨o, e1, rfl⟩ := Option.map_eq_some_iff.1 e
  cases e1
  refine Run.seq (Run.set S .dx fun s hs => cmd_copy (hs .x) (hs .dx).1 (NoCross.of_disj (S.dis .dx .x (by decide)))) ?_
  refine Run.seq (Run.set S .dx fun s hs => cmd_pre (hs .dx)) ?_
  refine Run.seq (Run.set S .y fun s hs => H.inv s _ _ _ (hs .dx) (hs .y).1 (S.dis .dx .y (by decide))) ?_
  refine Run.congr (step_self S .y _) ?_
  funext i
  cases i <;> rfl

theorem d2_Mty (jdx : Fin n → Int) : NOpImpl (dct2_MtyM mrow mcol (dct2Var mrow mcol fwM b n idx)) (dctNOp (dct2Funs fw jdx).Mty) (BufAt b) (b.Own (mrow * mcol)) := by
  refine nop_of_run hb fun x y S v old t r e => ?_
  obtain ⟨o, e1, rfl⟩ := Option.map_eq_some_iff.1 e
  cases e1
  refine Run.seq (Run.set S .y fun s hs => H.fwd s _ _ _ (hs .x) (hs .y).1 (S.dis .x .y (by decide))) ?_
  refine Run.seq (step_self S .y _) ?_
  refine Run.congr (Run.set S .y fun s hs => cmd_post (hs .y)) ?_
  funext i
  cases i <;> rfl

theorem dct2_impl (n : ℕ) (idx : Int → Int) : DctImpl (dct2FunsM mrow mcol (dct2Var mrow mcol fwM b n idx)) (dct2Funs fw fun i : Fin n => idx ((i : ℕ) : Int)) (BufAt b)
    (b.Own (mrow * mcol)) :=
  ⟨d2_Ax H hb, d2_Aty H hb, d2_AtAx H hb, d2_Mx H hb _, d2_Mty H hb _, d_Ex hb rfl, d_Ety hb rfl⟩
end two

end L1c
