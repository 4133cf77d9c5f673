import Verif.Proofs.NestaBindings
import Verif.Spec.NestaEnd

/-!
# Synthesis mode: what the functions of a live set compute

`Aty` reads the work array of the module before anything has been written to it, so the facts depend on what the allocator
left there.
-/

namespace L1c
open Scalar Matrix

/-! ## The work array -/

section generic
variable {F : Type} [Scalar F] {lib : FftwLib F} {L : Sets F} {w w' : World F} {t : SetTv F}

/-- the contents of the work array of the live set -/
def WorkIs (w : World F) (t : SetTv F) (u : Vec F t.coefs) : Prop := ∃ b, w.gt.u = some b ∧ w.obj b = some (.arr ⟨t.coefs, u⟩)

theorem WorkIs.unique {u u' : Vec F t.coefs} (h : WorkIs w t u) (h' : WorkIs w t u') : u = u' := by
  obtain ⟨b, h1, h2⟩ := h
  obtain ⟨b', h1', h2'⟩ := h'
  rw [h1] at h1'
  cases h1'
  rw [h2] at h2'
  cases h2'
  rfl

/-- right after setup it holds what the allocator left there -/
theorem setup_work {r k n : ℕ} {st : Int} {ax : AxFuns F} {idx : List Int} {alp_v alp_h : F} {dm : Int} {ana : Bool} (hw : Hist lib w L)
    (htv : L.tv = none) (hb : ¬ L.busy (twoDim r k dm)) (ht : t = ⟨r, k, n, idx, alp_v, alp_h, !ana, twoDim r k dm⟩)
    (hs : l1c_setup_dctTV_transforms n r k alp_v alp_h dm ana idx w = some ((st, some ax), w')) :
    WorkIs w' t fun i => w.junk w.next i := by
  have hst : st = L1C_SUCCESS := (C26_reported_sizes hs rfl).1
  subst hst
  have hv := C28_accepts_only_valid hs rfl
  have hrk : ((r : Int) * k).toNat = r * k := by exact_mod_cast Int.toNat_natCast (r * k)
  by_cases hf : FitsInt ((r : Int) * k)
  swap
  · rw [setup_tv_overflow hf] at hs; cases hs
  by_cases hp : FitsInt (tvP ((r : Int) * k).toNat alp_v alp_h)
  swap
  · rw [setup_tv_toobig hf hv hp] at hs; cases hs
  cases ho : w.oracle w.calls
  · rw [setup_tv_refused hf hv hp ho] at hs; cases hs
  obtain ⟨a, ha, e⟩ := setup_tv_junk (dct_mode := dm) (analysis := ana) hf hv hp ho
  rw [e] at hs
  obtain ⟨R, own, hI, hR⟩ := hist_inv hw
  have hI₁ : Inv ((w.push (.arr a)).tvReady r k alp_v alp_h (some w.next)) { R with u := some a } (grow own w.next 1 .tv) :=
    (inv_allocU hI (hR.nu htv) a).setGt _ rfl
  generalize hq : l1c_setup_dct_transforms n r k dm idx ((w.push (.arr a)).tvReady r k alp_v alp_h (some w.next)) = q at hs
  have key : ∀ {v : World F} {R' : Res F} {own' : _}, Inv v R' own' → R'.u = some a → ∀ l, WorkIs { v with gt := { v.gt with loc := l } } t fun i => w.junk w.next i := by
    intro v R' own' hI' hu l
    have hsu := hI'.su
    rw [hu, ha] at hsu
    obtain ⟨b, h1, h2, -⟩ := hsu
    subst ht
    refine ⟨b, h1, ?_⟩
    rw [hrk] at h2
    exact h2
  match q, hq, hs with
  | some ((st, none), v), hq, hs =>
    dsimp only at hs
    generalize wfree (some w.next) v = z at hs
    match z, hs with
    | some (_, v'), hs => cases hs
  | some ((st, some ax'), v), hq, hs =>
    cases hs
    rcases dct_step hI₁ (free_of_not_busy hR hb) hq with ⟨e1, -⟩ | ⟨_, e1, -⟩ | ⟨_, _, e1, -⟩ | ⟨-, -, -, ax', e1, -, hI', -⟩ | ⟨-, -, -, ax', e1, -, hI', -⟩
    · cases e1
    · cases e1
    · cases e1
    · exact key hI' rfl _
    · exact key hI' rfl _

/-- the functions of a live set together with its work array -/
theorem tv_work (h : Hist lib w L) (ht : L.tv = some t) :
    ∃ (hm : 0 < t.mrow ∧ 0 < t.mcol) (s : TvBuf F (t.mrow * t.mcol) (cfgT lib t hm).p), TvReach (cfgT lib t hm) s ∧ IdxOk (t.mrow * t.mcol) (idxFun t.n t.idx) ∧
      WorkIs w t s.u ∧ ∀ op a out, ∃ put : TvBuf F (t.mrow * t.mcol) (cfgT lib t hm).p → World F,
        wcall lib t.kind op a out w = (tvAll (cfgT lib t hm) t.syn op a out s).map (fun x => (x.1, put x.2)) ∧ ∀ s', WorkIs (put s') t s'.u := by
  obtain ⟨R, own, hI, hR⟩ := hist_inv h
  obtain ⟨hm, s, hs, hv, hr, hi⟩ := hR.tv t ht
  have work : ∀ {v : World F} {R' : Res F} {s' : TvBuf F (t.mrow * t.mcol) (tvP (t.mrow * t.mcol) t.alp_v t.alp_h)}, Inv v R' own → R'.u = some ⟨_, s'.u⟩ → WorkIs v t s'.u := by
    intro v R' s' hI' hu
    have hsu := hI'.su
    rw [hu] at hsu
    obtain ⟨b, h1, h2, -⟩ := hsu
    exact ⟨b, h1, h2⟩
  refine ⟨hm, s, hr, hi, work hI hs.1, fun op a out => ?_⟩
  obtain ⟨put, h1, h2⟩ := wcallT_eq hI hv hs hm lib op a out
  refine ⟨put, ?_, fun s' => work (h2 s').2 (by unfold Res.setTv; split <;> rfl)⟩
  rw [← h1]
  unfold SetTv.kind
  cases t.syn <;> rfl

/-- from the functions of a set to calls as NESTA makes them, with the work array -/
theorem work_run (h : Hist lib w L) (ht : L.tv = some t) {op : Op} {l k : ℕ} {v : Vec F l} {old o : Vec F k}
    {hm : 0 < t.mrow ∧ 0 < t.mcol} {s : TvBuf F (t.mrow * t.mcol) (cfgT lib t hm).p} {put : TvBuf F (t.mrow * t.mcol) (cfgT lib t hm).p → World F}
    (hc : wcall lib t.kind op ⟨l, v⟩ ⟨k, old⟩ w = (tvAll (cfgT lib t hm) t.syn op ⟨l, v⟩ ⟨k, old⟩ s).map (fun x => (x.1, put x.2)))
    {a' : Arr F} {s' : TvBuf F (t.mrow * t.mcol) (cfgT lib t hm).p}
    (he : tvAll (cfgT lib t hm) t.syn op ⟨l, v⟩ ⟨k, old⟩ s = some ((a', ⟨k, o⟩), s')) :
    ∃ v', a' = ⟨l, v'⟩ ∧ wcall lib t.kind op ⟨l, v⟩ ⟨k, old⟩ w = some ((a', ⟨k, o⟩), put s') ∧
      setNOp lib t.kind op l k v old w = some ((v', o), put s') ∧ Hist lib (put s') L := by
  obtain ⟨-, -, -, hi, -⟩ := tv_view h ht
  obtain ⟨v', rfl, -⟩ := tvAll_arg (c := cfgT lib t hm) (funT_set hm hi) he
  rw [he] at hc
  have hc : wcall lib t.kind op ⟨l, v⟩ ⟨k, old⟩ w = some ((⟨l, v'⟩, ⟨k, o⟩), put s') := hc
  refine ⟨v', rfl, hc, ?_, .call _ op _ _ h (Sets.has_tv ht) hc⟩
  unfold setNOp
  rw [hc]
  simp only [Option.bind_some, slice_full, Option.map_some]

end generic

/-! ## Exact arithmetic -/

section buffers
variable {mrow mcol n : ℕ} {c : TvCfg Dbl mrow mcol n} {idx : Fin n → Int} {av ah : ℝ}

/-- `A v` (synthesis) leaves finite numbers in the work array -/
theorem tvAv_work (h : TvSetR c idx av ah) {ix : Fin n → Fin (mrow * mcol)}
    {Q : Matrix (Fin (mrow * mcol)) (Fin (mrow * mcol)) ℝ} (hf : FunsOk c.loc idx ix Q) (v : Fin c.p → ℝ)
    (s : TvBuf Dbl (mrow * mcol) c.p) (hs : BufInv idx s.dct) :
    ∃ s', tvAv c (fvec v) s = some ⟨fvec (gather ix (wReal Q av ah v)), s'⟩ ∧ UFin s' := by
  have hp := h.p_eq
  have h0 : 0 + mrow * mcol ≤ c.p := by rw [hp]; exact pReal_zero _
  obtain ⟨s1, hW, hs1⟩ := tvWv_real h hf v s hs
  obtain ⟨w0, hw0⟩ := writeAt_some 0 h0 (fvec (wReal Q av ah v)) s1.u
  have hsl := slice_writeAt hw0
  obtain ⟨b', hR, hb'⟩ := hf.Rx (wReal Q av ah v) s1.dct hs1
  unfold tvAv
  rw [hW, obind]
  simp only []
  rw [hw0, obind, hsl, obind, hR]
  exact ⟨⟨b', w0⟩, rfl, _, hsl⟩

/-- `Aᵀ y` (synthesis) keeps them there -/
theorem tvAty_work (h : TvSetR c idx av ah) {ix : Fin n → Fin (mrow * mcol)}
    {Q : Matrix (Fin (mrow * mcol)) (Fin (mrow * mcol)) ℝ} (hf : FunsOk c.loc idx ix Q) (y : Fin n → ℝ)
    (old : Vec Dbl c.p) (s : TvBuf Dbl (mrow * mcol) c.p) (hs : BufInv idx s.dct) (hu : UFin s) :
    ∃ s', tvAty c (fvec y) old s = some ⟨fvec (wtReal Q av ah (scat ix y)), s'⟩ ∧ UFin s' := by
  have hp := h.p_eq
  have h0 : 0 + mrow * mcol ≤ c.p := by rw [hp]; exact pReal_zero _
  obtain ⟨a, ha⟩ := hu
  obtain ⟨b', hR, hb'⟩ := hf.Rty a y s.dct hs
  obtain ⟨w0, hw0⟩ := writeAt_some 0 h0 (fvec (scat ix y)) s.u
  have hsl := slice_writeAt hw0
  obtain ⟨s1, hW, hs1, hu1⟩ := tvWtx_real h hf (scat ix y) old ⟨b', w0⟩ hb'
  unfold tvAty
  rw [ha, obind]
  simp only [] at hR ⊢
  rw [hR, obind]
  simp only []
  rw [hw0, obind, hsl, obind, hW]
  exact ⟨s1, rfl, _, by rw [hu1]; exact hsl⟩

end buffers

section exact
variable {lib : FftwLib Dbl} {L : Sets Dbl} {w : World Dbl} {t : SetTv Dbl}

/-- a live set whose work array holds finite numbers -/
def SynInv (lib : FftwLib Dbl) (L : Sets Dbl) (t : SetTv Dbl) (w : World Dbl) : Prop :=
  Hist lib w L ∧ ∃ u : Vec Dbl t.coefs, WorkIs w t u ∧ ∀ i, (u i).IsFin

theorem coefs_zero (hr : TvReal t 0 0) : t.coefs = t.mrow * t.mcol := by
  have hj : job (Dbl.fin 0) = false := by
    unfold job; rw [Dbl.lit_eq, ← Bool.not_eq_true, Dbl.flt_fin]; norm_num
  unfold SetTv.coefs tvP
  rw [hr.hv, hr.hh, hj]
  simp

/-- a live synthesis set without weights computes the sampled inverse DCT and its transpose, if its work array holds finite numbers -/
theorem setS_real (hlib : LibOk lib) (hw : Hist lib w L) (ht : L.tv = some t) (hsyn : t.syn = true) (hr : TvReal t 0 0)
    (hinj : Function.Injective (idxFun t.n t.idx)) (nw : Dbl) :
    ∃ (ix : Fin t.n → Fin (t.mrow * t.mcol)) (A : Matrix (Fin t.n) (Fin t.coefs) ℝ) (W : Matrix (Fin t.coefs) (Fin (t.mrow * t.mcol)) ℝ)
      (img : (Fin t.coefs → ℝ) → Fin (t.mrow * t.mcol) → ℝ),
      (∀ i, ((ix i : ℕ) : Int) = idxFun t.n t.idx i) ∧ A * Aᵀ = 1 ∧
      Realises (setNAx lib .tvSyn t.n t.coefs (t.mrow * t.mcol) nw) (SynInv lib L t) (fun _ => True) A W ∧
      (∀ x, nrm (Wᵀ *ᵥ x) = nrm x) ∧ (∀ x, ∃ k : Fin (t.mrow * t.mcol), nrm x / √((t.mrow * t.mcol : ℕ) : ℝ) ≤ |(Wᵀ *ᵥ x) k|) ∧
      (∀ v i, (A *ᵥ v) i = img v (ix i)) ∧ (∀ v, imgDct t.two (img v) = Wᵀ *ᵥ v) ∧ (∀ x, ∃ v, img v = x) ∧ (∀ y, img (Aᵀ *ᵥ y) = onBlack ix y) ∧
      (∀ v (i : Fin (t.mrow * t.mcol)), ∃ h, (Wᵀ *ᵥ v) i = v ⟨i, h⟩) ∧
      ∀ v old w, Hist lib w L → ∃ a' w', wcall lib .tvSyn .Mx ⟨t.coefs, fvec v⟩ ⟨t.mrow * t.mcol, old⟩ w = some ((a', ⟨t.mrow * t.mcol, fvec (img v)⟩), w') := by
  obtain ⟨hm, -, -, hi, -⟩ := tv_work hw ht
  have hset : TvSetR (cfgT lib t hm) (idxFun t.n t.idx) 0 0 := ⟨funT_setR hlib hm hi, hr.hv, hr.hh, hr.av0, hr.ah0, hr.dims⟩
  obtain ⟨ix, Q, ok, hQ⟩ : ∃ ix Q, FunsOk (cfgT lib t hm).loc (idxFun t.n t.idx) ix Q ∧ ∀ x, Qᵀ *ᵥ x = imgDct t.two x := funT_ok hlib hm hi
  have hix := (injective_iff ok.hix).1 hinj
  have hc := coefs_zero hr
  have hle : ∀ i : Fin (t.mrow * t.mcol), i.val < t.coefs := fun i => by rw [hc]; exact i.2
  have hge : ∀ i : Fin t.coefs, i.val < t.mrow * t.mcol := fun i => by rw [← hc]; exact i.2
  have hw0 : ∀ v : Fin t.coefs → ℝ, wReal Q 0 0 v = Q *ᵥ fun i => v ⟨i, hle i⟩ := fun v => by
    unfold wReal dictW
    rw [if_neg (lt_irrefl _), if_neg (lt_irrefl _), add_zero, add_zero]
    congr 1
    funext i
    unfold coef
    rw [dif_pos (by have := hle i; omega)]
    congr 1
    exact Fin.ext (by simp)
  have hwt0 : ∀ (x) (i : Fin (t.mrow * t.mcol)), (wtReal Q 0 0 x : Fin t.coefs → ℝ) ⟨i, hle i⟩ = (Qᵀ *ᵥ x) i := fun x i => by
    unfold wtReal
    rw [dif_pos i.2]
  have hQQ : ∀ x, Q *ᵥ (Qᵀ *ᵥ x) = x := fun x => by rw [mulVec_mulVec, mul_eq_one_comm.1 ok.orth, one_mulVec]
  have hww : ∀ x, wReal Q 0 0 (wtReal Q 0 0 x : Fin t.coefs → ℝ) = x := fun x => by
    rw [hw0]
    simp only [hwt0]
    exact hQQ x
  obtain ⟨A, hA, hAt⟩ : ∃ A : Matrix (Fin t.n) (Fin t.coefs) ℝ, (∀ v, A *ᵥ v = gather ix (wReal Q 0 0 v)) ∧ ∀ y, Aᵀ *ᵥ y = wtReal Q 0 0 (scat ix y) :=
    adj_matrix fun v y => (gather_adj ix hix _ _).trans (w_adjoint (p := t.coefs) hset.p_eq Q v _)
  obtain ⟨W, hW, hWt⟩ : ∃ W : Matrix (Fin t.coefs) (Fin (t.mrow * t.mcol)) ℝ, (∀ v, W *ᵥ v = fun i : Fin t.coefs => v ⟨i, hge i⟩) ∧ ∀ x, Wᵀ *ᵥ x = fun i : Fin (t.mrow * t.mcol) => x ⟨i, hle i⟩ :=
    adj_matrix fun v x => by
      unfold dotProduct
      exact Fintype.sum_equiv (finCongr hc) _ _ fun i => rfl
  have hnW : ∀ x, nrm (Wᵀ *ᵥ x) = nrm x := fun x => by
    rw [hWt]
    unfold nrm dotProduct
    congr 1
    exact Fintype.sum_equiv (finCongr hc.symm) _ _ fun i => rfl
  have hk : t.kind = .tvSyn := by unfold SetTv.kind; rw [hsyn]; rfl
  have ufin : ∀ {s : TvBuf Dbl (t.mrow * t.mcol) (cfgT lib t hm).p}, UFin s ↔ ∀ i, (s.u i).IsFin := by
    intro s
    have h0 : 0 + t.mrow * t.mcol ≤ (cfgT lib t hm).p := by
      have : (cfgT lib t hm).p = t.mrow * t.mcol := hc
      omega
    constructor
    · rintro ⟨a, ha⟩ i
      rw [slice_eq 0 h0] at ha
      have hi' : i.val < t.mrow * t.mcol := lt_of_lt_of_eq i.2 hc
      have := congrFun (Option.some.inj ha) ⟨i, hi'⟩
      have e : s.u i = Dbl.fin (a ⟨i, hi'⟩) := by
        rw [← show _ = Dbl.fin (a ⟨i, hi'⟩) from this]
        congr 1
        exact Fin.ext (by simp)
      rw [e]
      trivial
    · intro h
      refine ⟨fun i => (s.u ⟨0 + i, by omega⟩).toReal, ?_⟩
      rw [slice_eq 0 h0]
      congr 1
      funext i
      have := h ⟨0 + i, by omega⟩
      show _ = Dbl.fin _
      cases hh : s.u ⟨0 + i, by omega⟩ <;> rw [hh] at this <;> first | exact congrArg Dbl.fin (by simp only [hh]; rfl) | cases this
  have view : ∀ {w : World Dbl}, SynInv lib L t w → ∃ s : TvBuf Dbl (t.mrow * t.mcol) (cfgT lib t hm).p, BufInv (idxFun t.n t.idx) s.dct ∧ UFin s ∧
      ∀ op a out, ∃ put : TvBuf Dbl (t.mrow * t.mcol) (cfgT lib t hm).p → World Dbl,
        wcall lib t.kind op a out w = (tvAll (cfgT lib t hm) t.syn op a out s).map (fun x => (x.1, put x.2)) ∧ ∀ s', WorkIs (put s') t s'.u := by
    rintro w ⟨hw, u, hu, hf⟩
    obtain ⟨hm', s, hr', -, hwk, hcl⟩ := tv_work hw ht
    refine ⟨s, tvReach_inv (c := cfgT lib t hm) hset.loc.toSet hr', ufin.2 fun i => ?_, hcl⟩
    rw [hwk.unique hu]
    exact hf i
  have key : ∀ {op : Op} {l k : ℕ} {M : Matrix (Fin k) (Fin l) ℝ},
      (∀ (s : TvBuf Dbl (t.mrow * t.mcol) (cfgT lib t hm).p), BufInv (idxFun t.n t.idx) s.dct → UFin s → ∀ (v : Fin l → ℝ) (old : Vec Dbl k),
        ∃ a' s', tvAll (cfgT lib t hm) true op ⟨l, fvec v⟩ ⟨k, old⟩ s = some ((a', ⟨k, fvec (M *ᵥ v)⟩), s') ∧ UFin s') →
      OpIs (some (setNOp lib .tvSyn op l k)) (SynInv lib L t) (fun _ => True) M := by
    intro op l k M hop
    refine ⟨_, rfl, fun v old w _ hw => ?_⟩
    obtain ⟨s, hb, hu, hcl⟩ := view hw
    obtain ⟨a', s', he, hu'⟩ := hop s hb hu v old
    obtain ⟨put, h1, h2⟩ := hcl op ⟨l, fvec v⟩ ⟨k, old⟩
    obtain ⟨v', ha, -, h3, h4⟩ := work_run hw.1 ht h1 (by rw [hsyn]; exact he)
    have hv := (tvAll_arg (c := cfgT lib t hm) hset.loc.toSet he).exact
    rw [ha] at hv
    cases hv
    rw [hk] at h3
    exact ⟨_, h3, h4, _, h2 s', ufin.1 hu'⟩
  refine ⟨ix, A, W, wReal Q 0 0, ok.hix, matrix_one fun y => by rw [← mulVec_mulVec, hA, hAt, hww, gather_scat ix hix],
    ⟨key fun s hb hu v old => ?_, key fun s hb hu v old => ?_, key fun s hb hu v old => ?_, key fun s hb hu v old => ?_, fun _ => trivial, fun _ _ => trivial, rfl, rfl⟩,
    hnW, fun x => ?_, fun v i => by rw [hA]; rfl, fun v => ?_, fun x => ⟨_, hww x⟩, fun y => ?_, fun v i => ⟨hle i, by rw [hWt]⟩, fun v old w hw => ?_⟩
  · obtain ⟨s', h1, h2⟩ := tvAv_work hset ok v s hb
    have h3 := h1.trans (congrArg (fun z => some (⟨fvec z, s'⟩ : TvOut Dbl t.n (t.mrow * t.mcol) (cfgT lib t hm).p)) (hA v).symm)
    exact ⟨_, _, (all_A _ _ _ _).trans (congrArg _ h3), h2⟩
  · obtain ⟨s', h1, h2⟩ := tvAty_work hset ok v old s hb hu
    have h3 := h1.trans (congrArg (fun z => some (⟨fvec z, s'⟩ : TvOut Dbl (cfgT lib t hm).p (t.mrow * t.mcol) (cfgT lib t hm).p)) (hAt v).symm)
    exact ⟨_, _, (all_At _ _ _ _).trans (congrArg _ h3), h2⟩
  · obtain ⟨o, ho, hd⟩ := all_copy (cfgT lib t hm) s (syn := true) (op := .Wz) (Or.inl ⟨rfl, Or.inl rfl⟩) le_rfl hc.ge (fvec v) old
    have e : o = fvec (W *ᵥ v) := by
      unfold dcopy at hd
      rw [slice_full, obind, writeAt_eq 0 (by omega)] at hd
      cases hd
      funext i
      rw [hW, dif_pos ⟨by omega, by have := hge i; omega⟩]
      rfl
    rw [e] at ho
    exact ⟨_, _, ho, hu⟩
  · obtain ⟨o, ho, hd⟩ := all_copy (cfgT lib t hm) s (syn := true) (op := .Wtx) (Or.inl ⟨rfl, Or.inr rfl⟩) hc.ge le_rfl (fvec v) old
    have e : o = fvec (Wᵀ *ᵥ v) := by
      unfold dcopy at hd
      rw [slice_eq 0 (by omega), obind, writeAt_full] at hd
      cases hd
      funext i
      rw [hWt]
      show Dbl.fin _ = Dbl.fin _
      congr 2
      exact Fin.ext (by simp)
    rw [e] at ho
    exact ⟨_, _, ho, hu⟩
  · obtain ⟨i, h⟩ := exists_big (Nat.mul_pos hm.1 hm.2) (Wᵀ *ᵥ x)
    rw [hnW] at h
    exact ⟨i, h⟩
  · rw [← hQ, hw0, mulVec_mulVec, ok.orth, one_mulVec, hWt]
  · rw [hAt, hww]
    funext k
    exact scat_sum ix hix y k
  · obtain ⟨_, s, hr', -, -, hcl⟩ := tv_work hw ht
    obtain ⟨s', h1, -⟩ := tvWv_real hset ok v s (tvReach_inv (c := cfgT lib t hm) hset.loc.toSet hr')
    obtain ⟨put, h2, -⟩ := hcl .Mx ⟨t.coefs, fvec v⟩ ⟨t.mrow * t.mcol, old⟩
    obtain ⟨v', -, h3, -⟩ := work_run hw ht h2 (by rw [hsyn]; exact (all_Mx _ _ _ _).trans (congrArg _ h1))
    rw [hk] at h3
    exact ⟨_, _, h3⟩

end exact
end L1c
