import Verif.Proofs.WorldInv

/-! # Operator calls on live sets -/

namespace L1c
open Scalar

set_option linter.unusedSectionVars false
set_option linter.unusedSimpArgs false

variable {F : Type} [Scalar F] {w w' : World F} {own own' : Own} {R : Res F}

theorem getArr_eq {b m : ℕ} {v : Vec F m} (h : w.obj b = some (.arr ⟨m, v⟩)) : getArr w m b = some v := by
  simp [getArr, h]

theorem buf1_eq {r : R1 F} (h : Has1 w own (some r)) : buf1 w r.m = some r.buf := by
  obtain ⟨k, hg, o0, o1, o2, o3, o4, hown⟩ := h
  unfold buf1 loadBuf
  rw [hg]
  simp [IsPlan, o3, o4, getArr_eq o0, getArr_eq o1, getArr_eq o2]

theorem buf2_eq {r : R2 F} (h : Has2 w own (some r)) : buf2 w r.mrow r.mcol = some r.buf := by
  obtain ⟨k, hg, o0, o1, o2, o3, o4, hown⟩ := h
  unfold buf2 loadBuf
  rw [hg]
  simp [IsPlan, o3, o4, getArr_eq o0, getArr_eq o1, getArr_eq o2]

/-- writing the buffers back -/
theorem inv_store1 (h : Inv w R own) {r : R1 F} (hr : R.r1 = some r) (s : DctBuf F r.m) :
    Inv (store1 w s) { R with r1 := some { r with buf := s } } own := by
  have hs := h.s1
  rw [hr] at hs
  obtain ⟨k, hg, o0, o1, o2, o3, o4, hown⟩ := hs
  have e : store1 w s = { w with obj := Function.update (Function.update (Function.update w.obj k (some (.arr ⟨r.m, s.Ety⟩)))
      (k + 1) (some (.arr ⟨r.m, s.dx⟩))) (k + 2) (some (.arr ⟨r.m, s.dy⟩)) } := by
    simp [store1, storeBuf, storeArr, hg]
  rw [e]
  have hsh : ∀ b, ¬ (k ≤ b ∧ b ≤ k + 2) → Function.update (Function.update (Function.update w.obj k (some (.arr ⟨r.m, s.Ety⟩)))
      (k + 1) (some (.arr ⟨r.m, s.dx⟩))) (k + 2) (some (.arr ⟨r.m, s.dy⟩)) b = w.obj b := by
    intro b hb
    simp only [Function.update_apply]
    rw [if_neg (by omega), if_neg (by omega), if_neg (by omega)]
  have hne : ∀ (M : Mod), M ≠ .d1 → ∀ b, own b = some M → ¬ (k ≤ b ∧ b ≤ k + 2) := by
    intro M hM b hb hc
    rw [(hown b).2 ⟨hc.1, by omega⟩] at hb
    exact hM (Option.some.inj hb).symm
  constructor
  · exact h.thr
  · exact h.lt
  · intro b hb
    rw [show ({ w with obj := _ } : World F).obj b = _ from hsh b fun hc => by
      rw [(hown b).2 ⟨hc.1, by omega⟩] at hb; simp at hb]
    exact h.leak b hb
  · refine ⟨k, hg, ?_, ?_, ?_, ?_, ?_, hown⟩
    · simp
    · simp
    · simp
    · simp [o3]
    · simp [o4]
  · exact h.s2.frame rfl (fun b hb => hsh b (hne _ (by decide) b hb)) (fun _ => Iff.rfl)
  · exact h.su.frame rfl (fun b hb => hsh b (hne _ (by decide) b hb)) (fun _ => Iff.rfl)
  · exact h.sm.frame rfl (fun b hb => hsh b (hne _ (by decide) b hb)) (fun _ => Iff.rfl)
  · exact h.ever
  · exact h.left.same (fun e => by cases e) rfl rfl le_rfl

theorem inv_store2 (h : Inv w R own) {r : R2 F} (hr : R.r2 = some r) (s : DctBuf F (r.mrow * r.mcol)) :
    Inv (store2 w s) { R with r2 := some { r with buf := s } } own := by
  have hs := h.s2
  rw [hr] at hs
  obtain ⟨k, hg, o0, o1, o2, o3, o4, hown⟩ := hs
  have e : store2 w s = { w with obj := Function.update (Function.update (Function.update w.obj k
      (some (.arr ⟨r.mrow * r.mcol, s.Ety⟩)))
      (k + 1) (some (.arr ⟨r.mrow * r.mcol, s.dx⟩))) (k + 2) (some (.arr ⟨r.mrow * r.mcol, s.dy⟩)) } := by
    simp [store2, storeBuf, storeArr, hg]
  rw [e]
  have hsh : ∀ b, ¬ (k ≤ b ∧ b ≤ k + 2) → Function.update (Function.update (Function.update w.obj k
      (some (.arr ⟨r.mrow * r.mcol, s.Ety⟩)))
      (k + 1) (some (.arr ⟨r.mrow * r.mcol, s.dx⟩))) (k + 2) (some (.arr ⟨r.mrow * r.mcol, s.dy⟩)) b = w.obj b := by
    intro b hb
    simp only [Function.update_apply]
    rw [if_neg (by omega), if_neg (by omega), if_neg (by omega)]
  have hne : ∀ (M : Mod), M ≠ .d2 → ∀ b, own b = some M → ¬ (k ≤ b ∧ b ≤ k + 2) := by
    intro M hM b hb hc
    rw [(hown b).2 ⟨hc.1, by omega⟩] at hb
    exact hM (Option.some.inj hb).symm
  constructor
  · exact h.thr
  · exact h.lt
  · intro b hb
    rw [show ({ w with obj := _ } : World F).obj b = _ from hsh b fun hc => by
      rw [(hown b).2 ⟨hc.1, by omega⟩] at hb; simp at hb]
    exact h.leak b hb
  · exact h.s1.frame rfl (fun b hb => hsh b (hne _ (by decide) b hb)) (fun _ => Iff.rfl)
  · refine ⟨k, hg, ?_, ?_, ?_, ?_, ?_, hown⟩
    · simp
    · simp
    · simp
    · simp [o3]
    · simp [o4]
  · exact h.su.frame rfl (fun b hb => hsh b (hne _ (by decide) b hb)) (fun _ => Iff.rfl)
  · exact h.sm.frame rfl (fun b hb => hsh b (hne _ (by decide) b hb)) (fun _ => Iff.rfl)
  · exact h.ever
  · exact h.left.same id rfl rfl le_rfl

theorem inv_storeU (h : Inv w R own) {a : Arr F} (hr : R.u = some a) {b : ℕ} (hb : w.gt.u = some b) (v : Arr F) :
    Inv { w with obj := Function.update w.obj b (some (.arr v)) } { R with u := some v } own := by
  have hs := h.su
  rw [hr] at hs
  obtain ⟨k, hg, o0, hown⟩ := hs
  have : k = b := by rw [hb] at hg; exact (Option.some.inj hg).symm
  subst this
  have hne : ∀ (M : Mod), M ≠ .tv → ∀ b, own b = some M → Function.update w.obj k (some (.arr v)) b = w.obj b := by
    intro M hM b hb
    refine Function.update_of_ne (fun hc => ?_) ..
    rw [(hown b).2 hc] at hb
    exact hM (Option.some.inj hb).symm
  constructor
  · exact h.thr
  · exact h.lt
  · intro c hc
    have : c ≠ k := fun e => by rw [(hown c).2 e] at hc; simp at hc
    exact (Function.update_of_ne this ..).trans (h.leak c hc)
  · exact h.s1.frame rfl (fun b hb => hne _ (by decide) b hb) (fun _ => Iff.rfl)
  · exact h.s2.frame rfl (fun b hb => hne _ (by decide) b hb) (fun _ => Iff.rfl)
  · exact ⟨k, hg, Function.update_self .., hown⟩
  · exact h.sm.frame rfl (fun b hb => hne _ (by decide) b hb) (fun _ => Iff.rfl)
  · exact h.ever
  · exact h.left.same id rfl rfl le_rfl

theorem inv_storeM (h : Inv w R own) {r : RM F} (hr : R.rm = some r) {b : ℕ} (hb : w.gm.dwork = some b)
    (v : Vec F (max r.N r.M)) :
    Inv { w with obj := Function.update w.obj b (some (.arr ⟨_, v⟩)) } { R with rm := some { r with dwork := v } } own := by
  have hs := h.sm
  rw [hr] at hs
  obtain ⟨k, hg, o0, hown⟩ := hs
  have : k = b := by rw [hg] at hb; exact Option.some.inj hb
  subst this
  have hne : ∀ (M : Mod), M ≠ .mat → ∀ b, own b = some M → Function.update w.obj k (some (.arr ⟨_, v⟩)) b = w.obj b := by
    intro M hM b hb
    refine Function.update_of_ne (fun hc => ?_) ..
    rw [(hown b).2 hc] at hb
    exact hM (Option.some.inj hb).symm
  constructor
  · exact h.thr
  · exact h.lt
  · intro c hc
    have : c ≠ k := fun e => by rw [(hown c).2 e] at hc; simp at hc
    exact (Function.update_of_ne this ..).trans (h.leak c hc)
  · exact h.s1.frame rfl (fun b hb => hne _ (by decide) b hb) (fun _ => Iff.rfl)
  · exact h.s2.frame rfl (fun b hb => hne _ (by decide) b hb) (fun _ => Iff.rfl)
  · exact h.su.frame rfl (fun b hb => hne _ (by decide) b hb) (fun _ => Iff.rfl)
  · exact ⟨k, hg, Function.update_self .., hown⟩
  · exact h.ever
  · exact h.left.same id rfl rfl le_rfl

theorem store1_gt {m : ℕ} (s : DctBuf F m) : (store1 w s).gt = w.gt := rfl
theorem store2_gt {m : ℕ} (s : DctBuf F m) : (store2 w s).gt = w.gt := rfl

/-- storing what is there changes nothing -/
theorem store1_self {r : R1 F} (h : Has1 w own (some r)) : store1 w r.buf = w := by
  obtain ⟨k, hg, o0, o1, o2, o3, o4, hown⟩ := h
  have : Function.update (Function.update (Function.update w.obj k (some (.arr ⟨r.m, r.buf.Ety⟩)))
      (k + 1) (some (.arr ⟨r.m, r.buf.dx⟩))) (k + 2) (some (.arr ⟨r.m, r.buf.dy⟩)) = w.obj := by
    rw [← o0, Function.update_eq_self, ← o1, Function.update_eq_self, ← o2, Function.update_eq_self]
  obtain ⟨obj, next, calls, oracle, junk, threads, g1, g2, gt, gm⟩ := w
  simp only at hg
  subst hg
  simp only [store1, storeBuf, storeArr]
  rw [this]

theorem store2_self {r : R2 F} (h : Has2 w own (some r)) : store2 w r.buf = w := by
  obtain ⟨k, hg, o0, o1, o2, o3, o4, hown⟩ := h
  have : Function.update (Function.update (Function.update w.obj k (some (.arr ⟨r.mrow * r.mcol, r.buf.Ety⟩)))
      (k + 1) (some (.arr ⟨r.mrow * r.mcol, r.buf.dx⟩))) (k + 2) (some (.arr ⟨r.mrow * r.mcol, r.buf.dy⟩)) = w.obj := by
    rw [← o0, Function.update_eq_self, ← o1, Function.update_eq_self, ← o2, Function.update_eq_self]
  obtain ⟨obj, next, calls, oracle, junk, threads, g1, g2, gt, gm⟩ := w
  simp only at hg
  subst hg
  simp only [store2, storeBuf, storeArr]
  rw [this]

theorem wcall1_eq {r : R1 F} (h : Has1 w own (some r)) (hm : 0 < r.m) (lib : FftwLib F) (op : Op) (a out : Arr F) :
    wcall1 lib op a out w = (dctOp (fun1 lib r.m r.n r.idx hm) op a out r.buf).map fun x => (x.1, store1 w x.2) := by
  have hb := buf1_eq h
  have hst := store1_self h
  obtain ⟨k, hg, -⟩ := h
  obtain ⟨obj, next, calls, oracle, junk, threads, g1, g2, gt, gm⟩ := w
  simp only at hg
  subst hg
  unfold wcall1
  by_cases hop : op = .Wz ∨ op = .Wtx
  · rw [if_pos hop]
    rcases hop with rfl | rfl <;>
    · simp only [dctOp, Option.map_map, Function.comp_def]
      congr 1
      funext x
      rw [hst]
  · rw [if_neg hop]
    have hm' : 0 < (⟨obj, next, calls, oracle, junk, threads, ⟨some k, some (k + 1), some (k + 2), some (k + 3), some (k + 4),
      r.m, r.n, r.idx⟩, g2, gt, gm⟩ : World F).g1.m := hm
    rw [dif_pos hm']
    simp only [] at hb ⊢
    rw [hb]
    show (dctOp (fun1 lib r.m r.n r.idx hm) op a out r.buf >>= _) = _
    cases dctOp (fun1 lib r.m r.n r.idx hm) op a out r.buf <;> rfl

theorem wcall2_eq {r : R2 F} (h : Has2 w own (some r)) (hm : 0 < r.mrow ∧ 0 < r.mcol) (lib : FftwLib F) (op : Op) (a out : Arr F) :
    wcall2 lib op a out w = (dctOp (fun2 lib r.mrow r.mcol r.n r.idx hm) op a out r.buf).map fun x => (x.1, store2 w x.2) := by
  have hb := buf2_eq h
  have hst := store2_self h
  obtain ⟨k, hg, -⟩ := h
  obtain ⟨obj, next, calls, oracle, junk, threads, g1, g2, gt, gm⟩ := w
  simp only at hg
  subst hg
  unfold wcall2
  by_cases hop : op = .Wz ∨ op = .Wtx
  · rw [if_pos hop]
    rcases hop with rfl | rfl <;>
    · simp only [dctOp, Option.map_map, Function.comp_def]
      congr 1
      funext x
      rw [hst]
  · rw [if_neg hop]
    have hm' : 0 < (⟨obj, next, calls, oracle, junk, threads, g1, ⟨some k, some (k + 1), some (k + 2), some (k + 3), some (k + 4),
      r.mrow, r.mcol, r.n, r.idx⟩, gt, gm⟩ : World F).g2.mrow ∧ 0 < (⟨obj, next, calls, oracle, junk, threads, g1,
      ⟨some k, some (k + 1), some (k + 2), some (k + 3), some (k + 4), r.mrow, r.mcol, r.n, r.idx⟩, gt, gm⟩ : World F).g2.mcol := hm
    rw [dif_pos hm']
    simp only [] at hb ⊢
    rw [hb]
    show (dctOp (fun2 lib r.mrow r.mcol r.n r.idx hm) op a out r.buf >>= _) = _
    cases dctOp (fun2 lib r.mrow r.mcol r.n r.idx hm) op a out r.buf <;> rfl

theorem wcallM_eq {r : RM F} (h : HasM w own (some r)) (op : Op) (a out : Arr F) :
    ∃ b, w.gm.dwork = some b ∧ wcallM op a out w = (matOp r.N r.M r.A op a out r.dwork).map fun x =>
      (x.1, { w with obj := Function.update w.obj b (some (.arr ⟨_, x.2⟩)) }) := by
  obtain ⟨k, hg, ho, -⟩ := h
  have hst : { w with obj := Function.update w.obj k (some (.arr ⟨_, r.dwork⟩)) } = w := by
    rw [← ho, Function.update_eq_self]
  refine ⟨k, by rw [hg], ?_⟩
  have hga : getArr w (max r.N r.M) k = some r.dwork := getArr_eq ho
  obtain ⟨obj, next, calls, oracle, junk, threads, g1, g2, gt, gm⟩ := w
  simp only at hg
  subst hg
  simp only at hst
  unfold wcallM matOp
  cases hA : slice (r.N * r.M) 0 r.A.2 with
  | none => rfl
  | some A =>
    rw [obind, obind]
    cases op
    case AtAx =>
      simp only [obind, hga]
      cases slice r.M 0 a.2 with
      | none => rfl
      | some x =>
        rw [obind, obind]
        cases matAtAx A x r.dwork with
        | none => rfl
        | some q =>
          rw [obind, obind]
          cases writeAt 0 q.1 out.2 <;> rfl
    case Ax =>
      dsimp only
      cases slice r.M 0 a.2 with
      | none => rfl
      | some x =>
        rw [obind, obind]
        cases writeAt 0 (matAx A x) out.2 with
        | none => rfl
        | some y => rw [obind, obind]; show _ = some _; beta_reduce; rw [hst]; rfl
    case Rx =>
      dsimp only
      cases slice r.M 0 a.2 with
      | none => rfl
      | some x =>
        rw [obind, obind]
        cases writeAt 0 (matAx A x) out.2 with
        | none => rfl
        | some y => rw [obind, obind]; show _ = some _; beta_reduce; rw [hst]; rfl
    case Aty =>
      dsimp only
      cases slice r.N 0 a.2 with
      | none => rfl
      | some x =>
        rw [obind, obind]
        cases writeAt 0 (matAty A x) out.2 with
        | none => rfl
        | some y => rw [obind, obind]; show _ = some _; beta_reduce; rw [hst]; rfl
    case Rty =>
      dsimp only
      cases slice r.N 0 a.2 with
      | none => rfl
      | some x =>
        rw [obind, obind]
        cases writeAt 0 (matAty A x) out.2 with
        | none => rfl
        | some y => rw [obind, obind]; show _ = some _; beta_reduce; rw [hst]; rfl
    all_goals
      simp only [Option.map_map, Function.comp_def]
      congr 1
      funext x
      rw [hst]

/-- the TV variables describe the set `t` -/
structure TvVars (w : World F) (t : SetTv F) : Prop where
  mrow : w.gt.mrow = t.mrow
  mcol : w.gt.mcol = t.mcol
  alp_v : w.gt.alp_v = t.alp_v
  alp_h : w.gt.alp_h = t.alp_h
  jobV : w.gt.jobV = job t.alp_v
  jobH : w.gt.jobH = job t.alp_h
  loc : w.gt.loc = some (if t.two then .d2 else .d1)

/-- the resources of a TV set -/
def TvRes (R : Res F) (t : SetTv F) (s : TvBuf F (t.mrow * t.mcol) (tvP (t.mrow * t.mcol) t.alp_v t.alp_h)) : Prop :=
  R.u = some ⟨_, s.u⟩ ∧ if t.two then R.r2 = some ⟨t.mrow, t.mcol, t.n, t.idx, s.dct⟩
    else R.r1 = some ⟨t.mrow * t.mcol, t.n, t.idx, s.dct⟩

/-- the resources with new buffers -/
def Res.setTv (R : Res F) (t : SetTv F) (s : TvBuf F (t.mrow * t.mcol) (tvP (t.mrow * t.mcol) t.alp_v t.alp_h)) : Res F :=
  if t.two then { R with u := some ⟨_, s.u⟩, r2 := some ⟨t.mrow, t.mcol, t.n, t.idx, s.dct⟩ }
  else { R with u := some ⟨_, s.u⟩, r1 := some ⟨t.mrow * t.mcol, t.n, t.idx, s.dct⟩ }

theorem wcallT_eq (h : Inv w R own) {t : SetTv F} (hv : TvVars w t)
    {s : TvBuf F (t.mrow * t.mcol) (tvP (t.mrow * t.mcol) t.alp_v t.alp_h)} (hs : TvRes R t s)
    (hm : 0 < t.mrow ∧ 0 < t.mcol) (lib : FftwLib F) (op : Op) (a out : Arr F) :
    ∃ put : TvBuf F (t.mrow * t.mcol) (tvP (t.mrow * t.mcol) t.alp_v t.alp_h) → World F,
      wcallT lib t.syn op a out w = (tvAll (cfgT lib t hm) t.syn op a out s).map (fun x => (x.1, put x.2)) ∧
      ∀ s', TvVars (put s') t ∧ Inv (put s') (R.setTv t s') own := by
  have hsu := h.su
  rw [hs.1] at hsu
  obtain ⟨b, hb, hob, hown⟩ := hsu
  have hloc : locFuns lib w t.mrow t.mcol hm = some ⟨t.n, funT lib t hm, s.dct⟩ := by
    unfold locFuns
    rw [hv.loc]
    unfold funT
    cases ht : t.two
    · have hr1 : R.r1 = some ⟨t.mrow * t.mcol, t.n, t.idx, s.dct⟩ := by have := hs.2; rw [ht] at this; exact this
      have h1 := h.s1
      rw [hr1] at h1
      have hb1 := buf1_eq h1
      obtain ⟨k, hg, -⟩ := h1
      simp only [Bool.false_eq_true, if_false]
      have e1 : w.g1.n = t.n := by rw [hg]
      have e2 : w.g1.idx = t.idx := by rw [hg]
      simp only at hb1
      rw [hb1, e1, e2]
      rfl
    · have hr1 : R.r2 = some ⟨t.mrow, t.mcol, t.n, t.idx, s.dct⟩ := by have := hs.2; rw [ht] at this; exact this
      have h1 := h.s2
      rw [hr1] at h1
      have hb1 := buf2_eq h1
      obtain ⟨k, hg, -⟩ := h1
      simp only [if_true]
      have e1 : w.g2.n = t.n := by rw [hg]
      have e2 : w.g2.idx = t.idx := by rw [hg]
      simp only at hb1
      rw [hb1, e1, e2]
      rfl
  have hstore : ∀ d : DctBuf F (t.mrow * t.mcol), (locStore w d).gt = w.gt ∧
      Inv (locStore w d) (R.setTv t ⟨d, s.u⟩) own ∧ locStore w s.dct = w := by
    intro d
    unfold locStore Res.setTv
    rw [hv.loc]
    cases ht : t.two
    · have hr1 : R.r1 = some ⟨t.mrow * t.mcol, t.n, t.idx, s.dct⟩ := by have := hs.2; rw [ht] at this; exact this
      have h1 := h.s1
      rw [hr1] at h1
      simp only [Bool.false_eq_true, if_false]
      refine ⟨rfl, ?_, store1_self h1⟩
      have := inv_store1 h hr1 d
      rw [← hs.1]
      exact this
    · have hr1 : R.r2 = some ⟨t.mrow, t.mcol, t.n, t.idx, s.dct⟩ := by have := hs.2; rw [ht] at this; exact this
      have h1 := h.s2
      rw [hr1] at h1
      simp only [if_true]
      refine ⟨rfl, ?_, store2_self h1⟩
      have := inv_store2 h hr1 d
      rw [← hs.1]
      exact this
  refine ⟨fun s' => { locStore w s'.dct with obj := Function.update (locStore w s'.dct).obj b (some (.arr ⟨_, s'.u⟩)) }, ?_, ?_⟩
  · unfold wcallT tvAll
    by_cases hid : (t.syn ∧ (op = .Wz ∨ op = .Wtx)) ∨ (¬ t.syn ∧ (op = .Mx ∨ op = .Mty))
    · rw [if_pos hid, if_pos hid, hv.mrow, hv.mcol, ← Nat.cast_mul, Int.toNat_natCast, Option.map_map]
      congr 1
      funext x
      simp only [Function.comp_def, (hstore s.dct).2.2]
      rw [← hob, Function.update_eq_self]
    · rw [if_neg hid, if_neg hid]
      by_cases hat : op = .AtAx
      · rw [if_pos hat, if_pos hat]; rfl
      · rw [if_neg hat, if_neg hat, hv.mrow, hv.mcol, Int.toNat_natCast, Int.toNat_natCast, hv.alp_v, hv.alp_h]
        unfold wcallTAt
        rw [dif_pos ⟨hm, hv.jobV, hv.jobH⟩, hloc, obind, hb, obind, getArr_eq hob, obind]
        show (tvOp (cfgT lib t hm) t.syn op a out s >>= _) = _
        cases tvOp (cfgT lib t hm) t.syn op a out s <;> rfl
  · intro s'
    have h1 := hstore s'.dct
    refine ⟨?_, ?_⟩
    · have hgt : ({ locStore w s'.dct with obj := Function.update (locStore w s'.dct).obj b (some (.arr ⟨_, s'.u⟩)) } : World F).gt = w.gt := h1.1
      exact ⟨by rw [hgt, hv.mrow], by rw [hgt, hv.mcol], by rw [hgt, hv.alp_v], by rw [hgt, hv.alp_h], by rw [hgt, hv.jobV],
        by rw [hgt, hv.jobH], by rw [hgt, hv.loc]⟩
    · have hu : (R.setTv t ⟨s'.dct, s.u⟩).u = some ⟨_, s.u⟩ := by unfold Res.setTv; split <;> rfl
      have := inv_storeU h1.2.1 hu (b := b) (by rw [h1.1, hb]) ⟨_, s'.u⟩
      have e : ({ R.setTv t ⟨s'.dct, s.u⟩ with u := some ⟨_, s'.u⟩ } : Res F) = R.setTv t s' := by
        unfold Res.setTv; split <;> rfl
      rw [e] at this
      exact this

end L1c
