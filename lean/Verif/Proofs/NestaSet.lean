import Verif.Model.NestaBindings
import Verif.Proofs.Arguments
import Verif.Proofs.L1qcDct
import Verif.Props.DctTV
import Verif.Props.Nesta
import Verif.Props.WorldSizes
import Verif.Spec.NestaEnd

/-! # NESTA on a live DCT-TV set -/

namespace L1c
open Scalar Matrix

section generic
variable {F : Type} [Scalar F] {lib : FftwLib F} {L : Sets F} {w w' : World F} {mrow mcol n : ℕ}

/-- which functions a set offers -/
def SetTv.kind (t : SetTv F) : Kind := if t.syn then .tvSyn else .tvAna

/-- number of coefficients -/
abbrev SetTv.coefs (t : SetTv F) : ℕ := tvP (t.mrow * t.mcol) t.alp_v t.alp_h

/-- `ax_funs->m` and `ax_funs->p` -/
def SetTv.m (t : SetTv F) : ℕ := if t.syn then t.coefs else t.mrow * t.mcol
def SetTv.p (t : SetTv F) : ℕ := if t.syn then t.mrow * t.mcol else t.coefs

theorem tvP_zero (m : ℕ) (av ah : F) : 0 + m ≤ tvP m av ah := by unfold tvP; omega
theorem tvP_v (m : ℕ) {av ah : F} (h : job av = true) : incV m av + m ≤ tvP m av ah := by
  unfold tvP incV; rw [if_pos h]; omega
theorem tvP_h (m : ℕ) {av ah : F} (h : job ah = true) : incH m av ah + m ≤ tvP m av ah := by
  unfold tvP incH incV; rw [if_pos h]; split <;> omega

theorem OpOk.run {k l m : ℕ} {idx : Fin n → Int} {op : Vec F l → DctBuf F m → Option (XOut F k l m)} (h : OpOk idx op) (x : Vec F l)
    {s : DctBuf F m} (hs : BufInv idx s) : ∃ o, op x s = some o := let ⟨o, _, e, _⟩ := h.same x s hs; ⟨o, e⟩

section ops
variable {c : TvCfg F mrow mcol n} {idx : Fin n → Int} (ok : SetOk c.loc idx) {s : TvBuf F (mrow * mcol) c.p} (hs : BufInv idx s.dct)
include ok hs

theorem tvWv_some (v : Vec F c.p) : ∃ o, tvWv c v s = some o := by
  obtain ⟨v0, hv0⟩ : ∃ x, slice (mrow * mcol) 0 v = some x := ⟨_, slice_eq 0 (tvP_zero _ _ _) v⟩
  obtain ⟨o, ho⟩ := ok.Mx.run v0 hs
  obtain ⟨u, hu⟩ := writeAt_some 0 (tvP_zero (mrow * mcol) c.alp_v c.alp_h) o.res s.u
  unfold tvWv
  rw [hv0, obind, ho, obind, hu, obind, slice_writeAt hu, obind]
  have hV : ∀ (u : Vec F c.p) (y : Vec F (mrow * mcol)), ∃ r, (if job c.alp_v then do
      let w ← slice (mrow * mcol) (incV (mrow * mcol) c.alp_v) v
      let u ← writeAt (incV (mrow * mcol) c.alp_v) (vDy c.alp_v w) u
      let d ← slice (mrow * mcol) (incV (mrow * mcol) c.alp_v) u
      pure (u, vaxpy (lit 1) d y)
    else pure (u, y) : Option (Vec F c.p × Vec F (mrow * mcol))) = some r := fun u y => by
    split
    · rename_i h
      obtain ⟨x, hx⟩ : ∃ x, slice (mrow * mcol) (incV (mrow * mcol) c.alp_v) v = some x := ⟨_, slice_eq _ (tvP_v _ h) v⟩
      obtain ⟨u', hu'⟩ := writeAt_some _ (tvP_v (mrow * mcol) h) (vDy c.alp_v x) u
      rw [hx, obind, hu', obind, slice_writeAt hu', obind]
      exact ⟨_, rfl⟩
    · exact ⟨_, rfl⟩
  have hH : ∀ (u : Vec F c.p) (y : Vec F (mrow * mcol)), ∃ r, (if job c.alp_h then do
      let w ← slice (mrow * mcol) (incH (mrow * mcol) c.alp_v c.alp_h) v
      let u ← writeAt (incH (mrow * mcol) c.alp_v c.alp_h) (vDx c.alp_h w) u
      let d ← slice (mrow * mcol) (incH (mrow * mcol) c.alp_v c.alp_h) u
      pure (u, vaxpy (lit 1) d y)
    else pure (u, y) : Option (Vec F c.p × Vec F (mrow * mcol))) = some r := fun u y => by
    split
    · rename_i h
      obtain ⟨x, hx⟩ : ∃ x, slice (mrow * mcol) (incH (mrow * mcol) c.alp_v c.alp_h) v = some x := ⟨_, slice_eq _ (tvP_h _ h) v⟩
      obtain ⟨u', hu'⟩ := writeAt_some _ (tvP_h (mrow * mcol) h) (vDx c.alp_h x) u
      rw [hx, obind, hu', obind, slice_writeAt hu', obind]
      exact ⟨_, rfl⟩
    · exact ⟨_, rfl⟩
  obtain ⟨r1, h1⟩ := hV u o.res
  rw [h1, obind]
  obtain ⟨r2, h2⟩ := hH r1.1 r1.2
  dsimp only
  rw [h2, obind]
  exact ⟨_, rfl⟩

theorem tvWtx_some (x : Vec F (mrow * mcol)) (old : Vec F c.p) : ∃ o, tvWtx c x old s = some o := by
  obtain ⟨o, ho⟩ := ok.Mty.run x hs
  obtain ⟨u, hu⟩ := writeAt_some 0 (tvP_zero (mrow * mcol) c.alp_v c.alp_h) o.res old
  have hV : ∀ v : Vec F c.p, ∃ r, (if job c.alp_v then writeAt (incV (mrow * mcol) c.alp_v) (vDyT c.alp_v x) v else pure v : Option (Vec F c.p)) = some r := fun v => by
    split
    · rename_i h; exact writeAt_some _ (tvP_v _ h) _ _
    · exact ⟨_, rfl⟩
  have hH : ∀ v : Vec F c.p, ∃ r, (if job c.alp_h then writeAt (incH (mrow * mcol) c.alp_v c.alp_h) (vDxT c.alp_h x) v else pure v : Option (Vec F c.p)) = some r := fun v => by
    split
    · rename_i h; exact writeAt_some _ (tvP_h _ h) _ _
    · exact ⟨_, rfl⟩
  obtain ⟨r1, h1⟩ := hV u
  obtain ⟨r2, h2⟩ := hH r1
  unfold tvWtx
  rw [ho, obind, hu, obind, h1, obind, h2, obind]
  exact ⟨_, rfl⟩

theorem tvRx_some (x : Vec F (mrow * mcol)) : ∃ o, tvRx c x s = some o := by
  obtain ⟨o, ho⟩ := ok.Rx.run x hs
  unfold tvRx
  rw [ho, obind]
  exact ⟨_, rfl⟩

theorem tvRty_some (y : Vec F n) (old : Vec F (mrow * mcol)) : ∃ o, tvRty c y old s = some o := by
  obtain ⟨o, ho⟩ := (ok.Rty old).run y hs
  unfold tvRty
  rw [ho, obind]
  exact ⟨_, rfl⟩

theorem tvAv_some (v : Vec F c.p) : ∃ o, tvAv c v s = some o := by
  obtain ⟨o, ho⟩ := tvWv_some ok hs v
  obtain ⟨u, hu⟩ := writeAt_some 0 (tvP_zero (mrow * mcol) c.alp_v c.alp_h) o.res o.buf.u
  obtain ⟨r, hr⟩ := ok.Rx.run o.res (tvWv_keep ok hs ho)
  unfold tvAv
  rw [ho, obind, hu, obind, slice_writeAt hu, obind, hr, obind]
  exact ⟨_, rfl⟩

theorem tvAty_some (y : Vec F n) (old : Vec F c.p) : ∃ o, tvAty c y old s = some o := by
  obtain ⟨u0, hu0⟩ : ∃ x, slice (mrow * mcol) 0 s.u = some x := ⟨_, slice_eq 0 (tvP_zero _ _ _) s.u⟩
  obtain ⟨o, ho⟩ := (ok.Rty u0).run y hs
  have hk := (ok.Rty _).keep _ _ _ hs ho
  obtain ⟨u, hu⟩ := writeAt_some 0 (tvP_zero (mrow * mcol) c.alp_v c.alp_h) o.res s.u
  unfold tvAty
  rw [hu0, obind, ho, obind, hu, obind, slice_writeAt hu, obind]
  exact tvWtx_some (s := ⟨o.buf, u⟩) ok hk _ _

end ops

theorem funT_set {t : SetTv F} (hm : 0 < t.mrow ∧ 0 < t.mcol) (hi : IdxOk (t.mrow * t.mcol) (idxFun t.n t.idx)) :
    DctSet (funT lib t hm) (idxFun t.n t.idx) := by
  unfold funT fun1 fun2
  split
  · have : NeZero t.mrow := ⟨hm.1.ne'⟩
    have : NeZero t.mcol := ⟨hm.2.ne'⟩
    exact .d2 _ _ hi
  · have : NeZero (t.mrow * t.mcol) := ⟨(Nat.mul_pos hm.1 hm.2).ne'⟩
    exact .d1 _ _ hi

theorem funT_setR {lib : FftwLib Dbl} (hlib : LibOk lib) {t : SetTv Dbl} (hm : 0 < t.mrow ∧ 0 < t.mcol)
    (hi : IdxOk (t.mrow * t.mcol) (idxFun t.n t.idx)) : DctSetR (funT lib t hm) (idxFun t.n t.idx) := by
  unfold funT fun1 fun2
  split
  · have : NeZero t.mrow := ⟨hm.1.ne'⟩
    have : NeZero t.mcol := ⟨hm.2.ne'⟩
    exact .d2 _ _ (hlib.f2 _ _) hi
  · have : NeZero (t.mrow * t.mcol) := ⟨(Nat.mul_pos hm.1 hm.2).ne'⟩
    exact .d1 _ _ (hlib.f1 _) hi

/-- a live set, seen through its functions -/
theorem tv_view (h : Hist lib w L) {t : SetTv F} (ht : L.tv = some t) : ∃ (hm : 0 < t.mrow ∧ 0 < t.mcol) (s : _),
    TvReach (cfgT lib t hm) s ∧ IdxOk (t.mrow * t.mcol) (idxFun t.n t.idx) ∧
    ∀ op a out, (wcall lib t.kind op a out w).map (·.1) = (tvAll (cfgT lib t hm) t.syn op a out s).map (·.1) := by
  obtain ⟨hm, s, hr, hc⟩ := (C31_independent_partial h).2.2.1 t ht
  obtain ⟨R, own, -, hR⟩ := hist_inv h
  obtain ⟨-, -, -, -, -, hi⟩ := hR.tv t ht
  exact ⟨hm, s, hr, hi, hc⟩

theorem Sets.has_tv {t : SetTv F} (ht : L.tv = some t) : L.has t.kind := by
  unfold SetTv.kind
  cases h : t.syn
  · exact ⟨t, ht, h⟩
  · exact ⟨t, ht, h⟩

/-- from the functions of a set to calls as NESTA makes them -/
theorem setN_run (h : Hist lib w L) {t : SetTv F} (ht : L.tv = some t) {op : Op} {l k : ℕ} {v : Vec F l} {old o : Vec F k}
    {hm : 0 < t.mrow ∧ 0 < t.mcol} {s : TvBuf F (t.mrow * t.mcol) (cfgT lib t hm).p}
    (hc : (wcall lib t.kind op ⟨l, v⟩ ⟨k, old⟩ w).map (·.1) = (tvAll (cfgT lib t hm) t.syn op ⟨l, v⟩ ⟨k, old⟩ s).map (·.1))
    {a' : Arr F} {s' : TvBuf F (t.mrow * t.mcol) (cfgT lib t hm).p}
    (he : tvAll (cfgT lib t hm) t.syn op ⟨l, v⟩ ⟨k, old⟩ s = some ((a', ⟨k, o⟩), s')) :
    ∃ v' w', a' = ⟨l, v'⟩ ∧ setNOp lib t.kind op l k v old w = some ((v', o), w') ∧ Hist lib w' L := by
  obtain ⟨-, -, -, hi, -⟩ := tv_view h ht
  obtain ⟨v', rfl, -⟩ := tvAll_arg (c := cfgT lib t hm) (funT_set hm hi) he
  rw [he] at hc
  obtain ⟨⟨r, w'⟩, h1, h2⟩ := Option.map_eq_some_iff.1 hc
  dsimp only at h2
  subst h2
  refine ⟨v', w', rfl, ?_, .call _ op _ _ h (Sets.has_tv ht) h1⟩
  unfold setNOp
  rw [h1]
  simp only [Option.bind_some, slice_full, Option.map_some]

section eqs
variable (c : TvCfg F mrow mcol n) (s : TvBuf F (mrow * mcol) c.p)

theorem all_Wz (v : Vec F c.p) (old : Vec F (mrow * mcol)) : tvAll c false .Wz ⟨_, v⟩ ⟨_, old⟩ s =
    (tvWv c v s).map fun o => ((⟨_, tvWvArg c v s⟩, ⟨_, o.res⟩), o.buf) := by
  unfold tvAll
  rw [if_neg (by decide), if_neg (by decide)]
  simp only [tvOp, slice_full, writeAt_full, obind]
  cases tvWv c v s <;> rfl

theorem all_Mx (v : Vec F c.p) (old : Vec F (mrow * mcol)) : tvAll c true .Mx ⟨_, v⟩ ⟨_, old⟩ s =
    (tvWv c v s).map fun o => ((⟨_, tvWvArg c v s⟩, ⟨_, o.res⟩), o.buf) := by
  unfold tvAll
  rw [if_neg (by decide), if_neg (by decide)]
  simp only [tvOp, slice_full, writeAt_full, obind]
  cases tvWv c v s <;> rfl

theorem all_Wtx (x : Vec F (mrow * mcol)) (old : Vec F c.p) : tvAll c false .Wtx ⟨_, x⟩ ⟨_, old⟩ s =
    (tvWtx c x old s).map fun o => ((⟨_, x⟩, ⟨_, o.res⟩), o.buf) := by
  unfold tvAll
  rw [if_neg (by decide), if_neg (by decide)]
  simp only [tvOp, slice_full, writeAt_full, obind]
  cases tvWtx c x old s <;> rfl

theorem all_R (x : Vec F (mrow * mcol)) (old : Vec F n) : tvAll c false .Ax ⟨_, x⟩ ⟨_, old⟩ s =
    (tvRx c x s).map fun o => ((⟨_, x⟩, ⟨_, o.res⟩), o.buf) := by
  unfold tvAll
  rw [if_neg (by decide), if_neg (by decide)]
  simp only [tvOp, slice_full, writeAt_full, obind]
  cases tvRx c x s <;> rfl

theorem all_Rt (y : Vec F n) (old : Vec F (mrow * mcol)) : tvAll c false .Aty ⟨_, y⟩ ⟨_, old⟩ s =
    (tvRty c y old s).map fun o => ((⟨_, y⟩, ⟨_, o.res⟩), o.buf) := by
  unfold tvAll
  rw [if_neg (by decide), if_neg (by decide)]
  simp only [tvOp, slice_full, writeAt_full, obind]
  cases tvRty c y old s <;> rfl

theorem all_A (v : Vec F c.p) (old : Vec F n) : tvAll c true .Ax ⟨_, v⟩ ⟨_, old⟩ s =
    (tvAv c v s).map fun o => ((⟨_, tvWvArg c v s⟩, ⟨_, o.res⟩), o.buf) := by
  unfold tvAll
  rw [if_neg (by decide), if_neg (by decide)]
  simp only [tvOp, slice_full, writeAt_full, obind]
  cases tvAv c v s <;> rfl

theorem all_At (y : Vec F n) (old : Vec F c.p) : tvAll c true .Aty ⟨_, y⟩ ⟨_, old⟩ s =
    (tvAty c y old s).map fun o => ((⟨_, y⟩, ⟨_, o.res⟩), o.buf) := by
  unfold tvAll
  rw [if_neg (by decide), if_neg (by decide)]
  simp only [tvOp, slice_full, writeAt_full, obind]
  cases tvAty c y old s <;> rfl

theorem all_copy {l k : ℕ} {syn : Bool} {op : Op} (h : (syn ∧ (op = .Wz ∨ op = .Wtx)) ∨ (¬ syn ∧ (op = .Mx ∨ op = .Mty))) (hl : mrow * mcol ≤ l)
    (hk : mrow * mcol ≤ k) (x : Vec F l) (old : Vec F k) : ∃ o, tvAll c syn op ⟨_, x⟩ ⟨_, old⟩ s = some ((⟨_, x⟩, ⟨_, o⟩), s) ∧
      dcopy (mrow * mcol) x old = some o := by
  obtain ⟨o, ho⟩ : ∃ o, dcopy (mrow * mcol) x old = some o := by
    unfold dcopy
    rw [slice_eq 0 (by omega), obind]
    exact writeAt_some 0 (by omega) _ _
  refine ⟨o, ?_, ho⟩
  unfold tvAll
  rw [if_pos h]
  unfold copyArr
  dsimp only
  rw [ho]; rfl

end eqs

/-- every call NESTA and its callers make on a live set is defined and leaves a live set -/
theorem setN_total {t : SetTv F} (ht : L.tv = some t) (nw : F) :
    (setNAx lib t.kind t.n t.m t.p nw).Total (fun w => Hist lib w L) ∧
    OpTotal (fun w => Hist lib w L) (some (setNOp lib t.kind .Mx t.m (t.mrow * t.mcol))) := by
  have key : ∀ {op : Op} {l k : ℕ}, (∀ (hm : 0 < t.mrow ∧ 0 < t.mcol) (s : TvBuf F (t.mrow * t.mcol) (cfgT lib t hm).p),
      SetOk (cfgT lib t hm).loc (idxFun t.n t.idx) → BufInv (idxFun t.n t.idx) s.dct → ∀ (v : Vec F l) (old : Vec F k),
        ∃ a' o s', tvAll (cfgT lib t hm) t.syn op ⟨l, v⟩ ⟨k, old⟩ s = some ((a', ⟨k, o⟩), s')) →
      OpTotal (fun w => Hist lib w L) (some (setNOp lib t.kind op l k)) := by
    intro op l k hop
    refine ⟨_, rfl, fun v old w hw => ?_⟩
    obtain ⟨hm, s, hr, hi, hc⟩ := tv_view hw ht
    have hset := funT_set (lib := lib) hm hi
    obtain ⟨a', o, s', he⟩ := hop hm s (setOk hset) (tvReach_inv (c := cfgT lib t hm) hset hr) v old
    obtain ⟨v', w', -, h1, h2⟩ := setN_run hw ht (hc _ _ _) he
    exact ⟨_, w', h1, h2⟩
  have hp : t.mrow * t.mcol ≤ t.coefs := by simpa using tvP_zero (t.mrow * t.mcol) t.alp_v t.alp_h
  obtain ⟨mrow, mcol, n, idx, av, ah, syn, two⟩ := t
  cases syn
  · refine ⟨⟨key fun hm s ok hb v old => ?_, key fun hm s ok hb v old => ?_, key fun hm s ok hb v old => ?_, key fun hm s ok hb v old => ?_⟩,
      key fun hm s ok hb v old => ?_⟩
    · obtain ⟨o, ho⟩ := tvRx_some ok hb v
      exact ⟨_, _, _, (all_R _ _ _ _).trans (congrArg _ ho)⟩
    · obtain ⟨o, ho⟩ := tvRty_some ok hb v old
      exact ⟨_, _, _, (all_Rt _ _ _ _).trans (congrArg _ ho)⟩
    · obtain ⟨o, ho⟩ := tvWv_some ok hb v
      exact ⟨_, _, _, (all_Wz _ _ _ _).trans (congrArg _ ho)⟩
    · obtain ⟨o, ho⟩ := tvWtx_some ok hb v old
      exact ⟨_, _, _, (all_Wtx _ _ _ _).trans (congrArg _ ho)⟩
    · obtain ⟨o, ho, -⟩ := all_copy (cfgT lib _ hm) s (syn := false) (op := .Mx) (Or.inr ⟨by decide, Or.inl rfl⟩) le_rfl le_rfl v old
      exact ⟨_, _, _, ho⟩
  · refine ⟨⟨key fun hm s ok hb v old => ?_, key fun hm s ok hb v old => ?_, key fun hm s ok hb v old => ?_, key fun hm s ok hb v old => ?_⟩,
      key fun hm s ok hb v old => ?_⟩
    · obtain ⟨o, ho⟩ := tvAv_some ok hb v
      exact ⟨_, _, _, (all_A _ _ _ _).trans (congrArg _ ho)⟩
    · obtain ⟨o, ho⟩ := tvAty_some ok hb v old
      exact ⟨_, _, _, (all_At _ _ _ _).trans (congrArg _ ho)⟩
    · obtain ⟨o, ho, -⟩ := all_copy (cfgT lib _ hm) s (syn := true) (op := .Wz) (Or.inl ⟨rfl, Or.inl rfl⟩) le_rfl hp v old
      exact ⟨_, _, _, ho⟩
    · obtain ⟨o, ho, -⟩ := all_copy (cfgT lib _ hm) s (syn := true) (op := .Wtx) (Or.inl ⟨rfl, Or.inr rfl⟩) hp le_rfl v old
      exact ⟨_, _, _, ho⟩
    · obtain ⟨o, ho⟩ := tvWv_some ok hb v
      exact ⟨_, _, _, (all_Mx _ _ _ _).trans (congrArg _ ho)⟩

end generic

/-! ## Exact arithmetic -/

/-- an adjoint pair of maps is a matrix and its transpose -/
theorem adj_matrix {k l : ℕ} {f : (Fin l → ℝ) → Fin k → ℝ} {g : (Fin k → ℝ) → Fin l → ℝ} (h : ∀ v x, f v ⬝ᵥ x = v ⬝ᵥ g x) :
    ∃ M : Matrix (Fin k) (Fin l) ℝ, (∀ v, M *ᵥ v = f v) ∧ ∀ x, Mᵀ *ᵥ x = g x := by
  have hf : ∀ v, (Matrix.of fun i => g (Pi.single i 1)) *ᵥ v = f v := fun v => funext fun i => by
    show g (Pi.single i 1) ⬝ᵥ v = _
    rw [dotProduct_comm, ← h]
    simp
  refine ⟨Matrix.of fun i => g (Pi.single i 1), hf, fun x => funext fun j => ?_⟩
  have := h (Pi.single j 1) x
  rw [← hf] at this
  simp only [single_dotProduct, one_mul] at this
  rw [← this]
  show (fun i => g (Pi.single i 1) j) ⬝ᵥ x = _
  congr 1
  funext i
  simp [mulVec]

theorem matrix_one {k : ℕ} {M : Matrix (Fin k) (Fin k) ℝ} (h : ∀ v, M *ᵥ v = v) : M = 1 := by
  ext i j
  have := congrFun (h (Pi.single j 1)) i
  rw [mulVec_single_one] at this
  rw [show M i j = Mᵀ j i from rfl]
  show M.col j i = _
  rw [this, Matrix.one_apply, Pi.single_apply]

section exact
variable {lib : FftwLib Dbl} {L : Sets Dbl} {w : World Dbl} {t : SetTv Dbl} {av ah : ℝ}

/-- the weights of a set that are proper numbers and, when one is positive, an image that is large enough -/
structure TvReal (t : SetTv Dbl) (av ah : ℝ) : Prop where
  hv : t.alp_v = .fin av
  hh : t.alp_h = .fin ah
  av0 : 0 ≤ av
  ah0 : 0 ≤ ah
  dims : (0 < av ∨ 0 < ah) → 2 ≤ t.mrow ∧ 2 ≤ t.mcol

theorem odct_eq {m : ℕ} [NeZero m] (x : Fin m → ℝ) : (dctMat m)ᵀ *ᵥ x = odct x := by
  funext k
  unfold odct
  rw [Finset.mul_sum]
  show ∑ j, (dctMat m)ᵀ k j * x j = _
  refine Finset.sum_congr rfl fun j _ => ?_
  rw [transpose_apply, dctMat_basis, dctBasis, mul_assoc]
  congr 1
  simp only [Fin.ext_iff, Fin.val_zero]

theorem sdct_eq {mrow mcol : ℕ} [NeZero mrow] [NeZero mcol] (x : Fin (mrow * mcol) → ℝ) : (dctMat2 mrow mcol)ᵀ *ᵥ x = sep2 odct odct x := by
  have h1 : (odct : (Fin mrow → ℝ) → _) = fun y => (dctMat mrow)ᵀ *ᵥ y := funext fun y => (odct_eq y).symm
  have h2 : (odct : (Fin mcol → ℝ) → _) = fun y => (dctMat mcol)ᵀ *ᵥ y := funext fun y => (odct_eq y).symm
  rw [h1, h2, sep2_mulVec, dctMat2, transpose_reindex, ← kroneckerMap_transpose]

/-- the transforms inside a set, with the DCT written out -/
theorem funT_ok (hlib : LibOk lib) (hm : 0 < t.mrow ∧ 0 < t.mcol) (hi : IdxOk (t.mrow * t.mcol) (idxFun t.n t.idx)) :
    ∃ ix Q, FunsOk (funT lib t hm) (idxFun t.n t.idx) ix Q ∧ ∀ x, Qᵀ *ᵥ x = imgDct t.two x := by
  obtain ⟨ix, hr, hix⟩ := resolve_eq hi
  have : NeZero t.mrow := ⟨hm.1.ne'⟩
  have : NeZero t.mcol := ⟨hm.2.ne'⟩
  have : NeZero (t.mrow * t.mcol) := ⟨(Nat.mul_pos hm.1 hm.2).ne'⟩
  unfold funT fun1 fun2 imgDct
  split
  · exact ⟨ix, _, dct2_ok (hlib.f2 _ _) hr hix, sdct_eq⟩
  · exact ⟨ix, _, dct1_ok (hlib.f1 _) hr hix, odct_eq⟩

theorem scat_sum {m n : ℕ} (ix : Fin n → Fin m) (hix : Function.Injective ix) (y : Fin n → ℝ) (k : Fin m) : scat ix y k = onBlack ix y k := by
  unfold onBlack
  by_cases h : ∃ i, ix i = k
  · obtain ⟨i, rfl⟩ := h
    rw [Finset.sum_eq_single i (fun j _ hj => if_neg fun e => hj (hix e)) (fun h => absurd (Finset.mem_univ i) h), if_pos rfl]
    exact congrFun (gather_scat ix hix y) i
  · push Not at h
    rw [scat_out ix y k h, Finset.sum_eq_zero fun i _ => if_neg (h i)]

theorem coef_sq {p m : ℕ} (hp : p = pReal m av ah) (v : Fin p → ℝ) : coef m 0 v ⬝ᵥ coef m 0 v ≤ v ⬝ᵥ v := by
  rw [dot_blocks hp v v]
  have h : ∀ x : Fin m → ℝ, 0 ≤ x ⬝ᵥ x := fun x => Finset.sum_nonneg fun i _ => mul_self_nonneg _
  have h1 : 0 ≤ (if 0 < av then coef m m v ⬝ᵥ coef m m v else 0) := by split; exacts [h _, le_rfl]
  have h2 : 0 ≤ (if 0 < ah then coef m (offH m av) v ⬝ᵥ coef m (offH m av) v else 0) := by split; exacts [h _, le_rfl]
  linarith

/-- some entry is at least the quadratic mean -/
theorem exists_big {m : ℕ} (hm : 0 < m) (x : Fin m → ℝ) : ∃ i, nrm x / √m ≤ |x i| := by
  by_contra hc
  push Not at hc
  have hm' : (0 : ℝ) < m := by exact_mod_cast hm
  have hne : (Finset.univ : Finset (Fin m)).Nonempty := ⟨⟨0, hm⟩, Finset.mem_univ _⟩
  have h1 : x ⬝ᵥ x < ∑ _i : Fin m, nrm x / √m * (nrm x / √m) :=
    Finset.sum_lt_sum_of_nonempty hne fun i _ => by
      rw [← abs_mul_abs_self]
      exact mul_self_lt_mul_self (abs_nonneg _) (hc i)
  rw [Finset.sum_const, Finset.card_univ, Fintype.card_fin, nsmul_eq_mul, ← nrm_sq, div_mul_div_comm, Real.mul_self_sqrt hm'.le,
    mul_div_cancel₀ _ hm'.ne'] at h1
  exact lt_irrefl _ h1

/-- a live analysis set computes the sampling, the dictionary and their transposes -/
theorem setN_real (hlib : LibOk lib) (hw : Hist lib w L) (ht : L.tv = some t) (hsyn : t.syn = false) (hr : TvReal t av ah)
    (hinj : Function.Injective (idxFun t.n t.idx)) (nw : Dbl) :
    ∃ (ix : Fin t.n → Fin (t.mrow * t.mcol)) (A : Matrix (Fin t.n) (Fin (t.mrow * t.mcol)) ℝ) (W : Matrix (Fin (t.mrow * t.mcol)) (Fin t.coefs) ℝ),
      (∀ i, ((ix i : ℕ) : Int) = idxFun t.n t.idx i) ∧ (∀ x i, (A *ᵥ x) i = x (ix i)) ∧ A * Aᵀ = 1 ∧
      Realises (setNAx lib .tvAna t.n (t.mrow * t.mcol) t.coefs nw) (fun w => Hist lib w L) Dbl.IsFin A W ∧
      (∀ x : Fin (t.mrow * t.mcol) → ℝ, x ≠ 0 → ∃ k : Fin t.coefs, k.val < t.mrow * t.mcol ∧ (Wᵀ *ᵥ x) k ≠ 0) ∧
      tvNormW true t.alp_v t.alp_h = .fin (√(1 + 4 * av ^ 2 + 4 * ah ^ 2)) ∧
      (∀ v, nrm (W *ᵥ v) ≤ √(1 + 4 * av ^ 2 + 4 * ah ^ 2) * nrm v) ∧
      (∀ y, Aᵀ *ᵥ y = onBlack ix y) ∧ t.coefs = anaCoefs (t.mrow * t.mcol) av ah ∧
      (∀ x, ∑ k, |(Wᵀ *ᵥ x) k| = anaCost t.two av ah x) ∧ (∀ x, nrm x ≤ nrm (Wᵀ *ᵥ x)) ∧
      (∀ x, ∃ k : Fin t.coefs, k.val < t.mrow * t.mcol ∧ nrm x / √((t.mrow * t.mcol : ℕ) : ℝ) ≤ |(Wᵀ *ᵥ x) k|) ∧
      ∃ Q : Matrix (Fin (t.mrow * t.mcol)) (Fin (t.mrow * t.mcol)) ℝ, (∀ x, Qᵀ *ᵥ x = imgDct t.two x) ∧ ∀ x, Wᵀ *ᵥ x = wtReal Q av ah x := by
  obtain ⟨hm, -, -, hi, -⟩ := tv_view hw ht
  have hset : TvSetR (cfgT lib t hm) (idxFun t.n t.idx) av ah := ⟨funT_setR hlib hm hi, hr.hv, hr.hh, hr.av0, hr.ah0, hr.dims⟩
  obtain ⟨ix, Q, ok, hQ⟩ : ∃ ix Q, FunsOk (cfgT lib t hm).loc (idxFun t.n t.idx) ix Q ∧ ∀ x, Qᵀ *ᵥ x = imgDct t.two x := funT_ok hlib hm hi
  have hix := (injective_iff ok.hix).1 hinj
  obtain ⟨A, hA, hAt⟩ := adj_matrix (gather_adj ix hix)
  obtain ⟨W, hW, hWt⟩ : ∃ W : Matrix (Fin (t.mrow * t.mcol)) (Fin t.coefs) ℝ, (∀ v, W *ᵥ v = wReal Q av ah v) ∧ ∀ x, Wᵀ *ᵥ x = wtReal Q av ah x :=
    adj_matrix (w_adjoint (p := t.coefs) hset.p_eq Q)
  have hk : t.kind = .tvAna := by unfold SetTv.kind; rw [hsyn]; rfl
  have nrm_Qt : ∀ x, nrm (Qᵀ *ᵥ x) = nrm x := fun x => by
    unfold nrm
    rw [← mulVec_adj, mulVec_mulVec, mul_eq_one_comm.1 ok.orth, one_mulVec]
  have hpos : (0 : ℝ) < 1 + 4 * av ^ 2 + 4 * ah ^ 2 := by positivity
  have key : ∀ {op : Op} {l k : ℕ} {D : Dbl → Prop} {M : Matrix (Fin k) (Fin l) ℝ},
      (∀ (s : TvBuf Dbl (t.mrow * t.mcol) (cfgT lib t hm).p), BufInv (idxFun t.n t.idx) s.dct → ∀ (v : Fin l → ℝ) (old : Vec Dbl k), (∀ i, D (old i)) →
        ∃ a' s', tvAll (cfgT lib t hm) false op ⟨l, fvec v⟩ ⟨k, old⟩ s = some ((a', ⟨k, fvec (M *ᵥ v)⟩), s')) →
      OpIs (some (setNOp lib .tvAna op l k)) (fun w => Hist lib w L) D M := by
    intro op l k D M hop
    refine ⟨_, rfl, fun v old w hd hw => ?_⟩
    obtain ⟨hm', s, hr, -, hc⟩ := tv_view hw ht
    obtain ⟨a', s', he⟩ := hop s (tvReach_inv (c := cfgT lib t hm) hset.loc.toSet hr) v old hd
    obtain ⟨v', w', ha, h1, h2⟩ := setN_run hw ht (hc _ _ _) (by rw [hsyn]; exact he)
    have hv := (tvAll_arg (c := cfgT lib t hm) hset.loc.toSet he).exact
    rw [ha] at hv
    cases hv
    rw [hk] at h1
    exact ⟨w', h1, h2⟩
  refine ⟨ix, A, W, ok.hix, fun x i => by rw [hA]; rfl, matrix_one fun v => by rw [← mulVec_mulVec, hA, hAt, gather_scat ix hix],
    ⟨key fun s hb v old _ => ?_, key fun s hb v old hd => ?_, key fun s hb v old _ => ?_, key fun s hb v old _ => ?_, fun _ => trivial, ?_, rfl, rfl⟩,
    fun x hx => ?_, ?_, fun v => ?_, fun y => ?_, hset.p_eq, fun x => ?_, fun x => ?_, fun x => ?_, Q, hQ, hWt⟩
  · obtain ⟨b, h1, -⟩ := ok.Rx v s.dct hb
    have h2 : tvRx (cfgT lib t hm) (fvec v) s = some ⟨fvec (A *ᵥ v), ⟨b, s.u⟩⟩ := by
      unfold tvRx; rw [h1, hA]; rfl
    exact ⟨_, _, (all_R _ _ _ _).trans (congrArg _ h2)⟩
  · have ho : old = fvec fun i => (old i).toReal := funext fun i => by
      have := hd i
      show _ = Dbl.fin _
      dsimp only
      cases h : old i <;> rw [h] at this <;> first | rfl | cases this
    obtain ⟨b, h1, -⟩ := ok.Rty (fun i => (old i).toReal) v s.dct hb
    rw [← ho] at h1
    have h2 : tvRty (cfgT lib t hm) (fvec v) old s = some ⟨fvec (Aᵀ *ᵥ v), ⟨b, s.u⟩⟩ := by
      unfold tvRty
      dsimp only at h1
      rw [h1, hAt]; rfl
    exact ⟨_, _, (all_Rt _ _ _ _).trans (congrArg _ h2)⟩
  · obtain ⟨s', h1, -⟩ := tvWv_real hset ok v s hb
    have h2 := h1.trans (congrArg (fun z => some (⟨fvec z, s'⟩ : TvOut Dbl (t.mrow * t.mcol) (t.mrow * t.mcol) (cfgT lib t hm).p)) (hW v).symm)
    exact ⟨_, _, (all_Wz _ _ _ _).trans (congrArg _ h2)⟩
  · obtain ⟨s', h1, -⟩ := tvWtx_real hset ok v old s hb
    have h2 := h1.trans (congrArg (fun z => some (⟨fvec z, s'⟩ : TvOut Dbl (cfgT lib t hm).p (t.mrow * t.mcol) (cfgT lib t hm).p)) (hWt v).symm)
    exact ⟨_, _, (all_Wtx _ _ _ _).trans (congrArg _ h2)⟩
  · intro x hx
    cases x <;> first | trivial | cases hx
  · have hne : Qᵀ *ᵥ x ≠ 0 := fun h0 => hx (by
      have : Q *ᵥ (Qᵀ *ᵥ x) = x := by rw [mulVec_mulVec, mul_eq_one_comm.1 ok.orth, one_mulVec]
      rw [← this, h0, mulVec_zero])
    obtain ⟨i, hi'⟩ := Function.ne_iff.1 hne
    have hlt : 0 + i.val < t.coefs := by have := tvP_zero (t.mrow * t.mcol) t.alp_v t.alp_h; have := i.2; unfold SetTv.coefs; omega
    refine ⟨⟨0 + i.val, hlt⟩, by simp, ?_⟩
    have := congrFun (coef_wt0 hset.p_eq Q x) i
    unfold coef at this
    rw [dif_pos (show 0 + i.val < (cfgT lib t hm).p from hlt)] at this
    rw [hWt]
    refine fun h0 => hi' (this.symm.trans h0)
  · rw [hr.hv, hr.hh]
    unfold tvNormW
    rw [if_pos rfl]
    simp only [Dbl.lit_eq, Dbl.fin_mul, Dbl.fin_add, Rat.cast_one, Rat.cast_ofNat]
    have e : (1 : ℝ) + 4 * av * av + 4 * ah * ah = 1 + 4 * av ^ 2 + 4 * ah ^ 2 := by ring
    rw [e, Dbl.fsqrt_fin hpos.le]
  · rw [hW]
    unfold nrm
    rw [← Real.sqrt_mul hpos.le]
    exact Real.sqrt_le_sqrt (w_norm hset.p_eq ok.orth hr.av0 hr.ah0 v)
  · rw [hAt]
    funext k
    exact scat_sum ix hix y k
  · have := wt_l1 hset Q x
    simp only [hWt]
    refine this.trans ?_
    rw [hQ]
    unfold anaCost
    congr 1
    · congr 1
      split
      · rfl
      · rw [le_antisymm (not_lt.1 ‹_›) hr.av0, zero_mul, zero_mul]
    · split
      · rfl
      · rw [le_antisymm (not_lt.1 ‹_›) hr.ah0, zero_mul, zero_mul]
  · rw [← nrm_Qt x]
    refine Real.sqrt_le_sqrt ?_
    rw [← coef_wt0 hset.p_eq Q x, hWt]
    exact coef_sq hset.p_eq (wtReal Q av ah x)
  · obtain ⟨i, hi'⟩ := exists_big (Nat.mul_pos hm.1 hm.2) (Qᵀ *ᵥ x)
    rw [nrm_Qt x] at hi'
    have hlt : 0 + i.val < t.coefs := by have := tvP_zero (t.mrow * t.mcol) t.alp_v t.alp_h; have := i.2; unfold SetTv.coefs; omega
    refine ⟨⟨0 + i.val, hlt⟩, by simp, ?_⟩
    have := congrFun (coef_wt0 hset.p_eq Q x) i
    unfold coef at this
    rw [dif_pos (show 0 + i.val < (cfgT lib t hm).p from hlt)] at this
    rw [hWt]
    exact hi'.trans (le_of_eq (congrArg abs this.symm))

/-- a live analysis set computes the sampling, the dictionary and their transposes -/
theorem setN_realises (hlib : LibOk lib) (hw : Hist lib w L) (ht : L.tv = some t) (hsyn : t.syn = false) (hr : TvReal t av ah)
    (hinj : Function.Injective (idxFun t.n t.idx)) (nw : Dbl) :
    ∃ (ix : Fin t.n → Fin (t.mrow * t.mcol)) (A : Matrix (Fin t.n) (Fin (t.mrow * t.mcol)) ℝ) (W : Matrix (Fin (t.mrow * t.mcol)) (Fin t.coefs) ℝ),
      (∀ i, ((ix i : ℕ) : Int) = idxFun t.n t.idx i) ∧ (∀ x i, (A *ᵥ x) i = x (ix i)) ∧ A * Aᵀ = 1 ∧
      Realises (setNAx lib .tvAna t.n (t.mrow * t.mcol) t.coefs nw) (fun w => Hist lib w L) Dbl.IsFin A W ∧
      (∀ x : Fin (t.mrow * t.mcol) → ℝ, x ≠ 0 → ∃ k : Fin t.coefs, k.val < t.mrow * t.mcol ∧ (Wᵀ *ᵥ x) k ≠ 0) ∧
      tvNormW true t.alp_v t.alp_h = .fin (√(1 + 4 * av ^ 2 + 4 * ah ^ 2)) ∧
      ∀ v, nrm (W *ᵥ v) ≤ √(1 + 4 * av ^ 2 + 4 * ah ^ 2) * nrm v := by
  obtain ⟨ix, A, W, h1, h2, h3, h4, h5, h6, h7, -⟩ := setN_real hlib hw ht hsyn hr hinj nw
  exact ⟨ix, A, W, h1, h2, h3, h4, h5, h6, h7⟩

end exact
end L1c
