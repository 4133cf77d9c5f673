import Verif.Spec.DctTvMem
import Verif.Proofs.MatRam
import Verif.Proofs.DctTVK
import Verif.Props.Dct

/-! Helper lemmas: the DCT + TV functions on memory compute the functions on vectors. -/

namespace L1c
open Prog Scalar

variable {F : Type} {m p l k : ℕ} {s s' : PState F} {q x y : Ptr}

/-! ## Parts of arrays -/

theorem rng_part {off : ℕ} (h : off + m ≤ p) : Rng (q + (off : Int)) m ⊆ Rng q p := fun a ⟨h1, h2, h3⟩ => by
  refine ⟨h1, ?_, ?_⟩ <;> simp only [Ptr.add_off] at h2 h3 <;> omega

theorem slice_le {off : ℕ} {v : Vec F p} {w : Vec F m} (h : slice m off v = some w) : off + m ≤ p := by
  unfold slice at h
  split at h
  · assumption
  · cases h

theorem writeAt_le {off : ℕ} {w : Vec F m} {v r : Vec F p} (h : writeAt off w v = some r) : off + m ≤ p := by
  unfold writeAt at h
  split at h
  · assumption
  · cases h

theorem HoldsV.part {off : ℕ} {v : Vec F p} {w : Vec F m} (h : HoldsV s q v) (hw : slice m off v = some w) : HoldsV s (q + (off : Int)) w := by
  have hp := slice_le hw
  rw [slice_eq off hp] at hw
  cases hw
  refine ⟨fun i h0 h1 => ?_, fun i => ?_⟩
  · rw [Ptr.add_add]
    exact h.1 _ (by omega) (by omega)
  · rw [Ptr.add_add]
    exact h.2 ⟨off + i, by omega⟩

theorem HoldsV.part0 {v : Vec F p} {w : Vec F m} (h : HoldsV s q v) (hw : slice m 0 v = some w) : HoldsV s q w := by
  have := h.part hw
  rwa [Nat.cast_zero, ptr_zero] at this

/-- the entries from `m` on -/
def Tail (m : ℕ) (s : PState F) (u : Ptr) (v : Vec F p) : Prop := s.mem.Has u p ∧ ∀ i : Fin p, m ≤ (i : ℕ) → s.mem.val (u + ((i : ℕ) : Int)) = v i

theorem HoldsV.tail {v : Vec F p} (h : HoldsV s q v) : Tail m s q v := ⟨h.1, fun i _ => h.2 i⟩

theorem Only.has' {S : Set Ptr} (o : Only S s s') {N : Int} (h : s.mem.Has q N) : s'.mem.Has q N := has_stay h o

theorem entry_out {off : ℕ} {v : Vec F p} {w : Vec F m} {r : Vec F p} (h : writeAt off w v = some r) {i : Fin p} (hi : ¬ (off ≤ (i : ℕ) ∧ (i : ℕ) < off + m)) : r i = v i := by
  rw [writeAt_eq off (writeAt_le h)] at h
  cases h
  exact dif_neg fun hc => hi ⟨hc.1, by omega⟩

theorem entry_in {off : ℕ} {v : Vec F p} {w : Vec F m} {r : Vec F p} (h : writeAt off w v = some r) {i : Fin p} (h0 : off ≤ (i : ℕ)) (h1 : (i : ℕ) < off + m) :
    r i = w ⟨i - off, by omega⟩ := by
  rw [writeAt_eq off (writeAt_le h)] at h
  cases h
  exact dif_pos ⟨h0, by omega⟩

/-- part of an array changed -/
theorem HoldsV.write {off : ℕ} {v r : Vec F p} {w : Vec F m} (h : HoldsV s q v) (hw : HoldsV s' (q + (off : Int)) w) {S : Set Ptr} (o : Only (Rng (q + (off : Int)) m ∪ S) s s')
    (hd : Disjoint (Rng q p) S) (hr : writeAt off w v = some r) : HoldsV s' q r := by
  refine ⟨o.has' h.1, fun i => ?_⟩
  by_cases hi : off ≤ (i : ℕ) ∧ (i : ℕ) < off + m
  · rw [entry_in hr hi.1 hi.2, ← hw.2, Ptr.add_add]
    congr 2
    push_cast
    omega
  · rw [entry_out hr hi, ← h.2]
    refine o.val _ fun hc => ?_
    rcases hc with hc | hc
    · refine hi ?_
      obtain ⟨-, h1, h2⟩ := hc
      simp only [Ptr.add_off] at h1 h2
      omega
    · exact Set.disjoint_left.1 hd (mem_rng_add (by omega) (by omega)) hc

theorem HoldsV.write0 {v r : Vec F p} {w : Vec F m} (h : HoldsV s q v) (hw : HoldsV s' q w) {S : Set Ptr} (o : Only (Rng q m ∪ S) s s') (hd : Disjoint (Rng q p) S)
    (hr : writeAt 0 w v = some r) : HoldsV s' q r := by
  refine h.write (off := 0) ?_ ?_ hd hr
  · rwa [Nat.cast_zero, ptr_zero]
  · rwa [Nat.cast_zero, ptr_zero]

/-- the head and the tail make the array -/
theorem Tail.join {v r : Vec F p} {w : Vec F m} (h : Tail m s q v) (hw : HoldsV s q w) (hr : writeAt 0 w v = some r) : HoldsV s q r := by
  refine ⟨h.1, fun i => ?_⟩
  by_cases hi : (i : ℕ) < m
  · rw [entry_in hr (Nat.zero_le _) (by omega)]
    exact hw.2 ⟨i, hi⟩
  · rw [entry_out hr (by omega)]
    exact h.2 i (by omega)

theorem sep_disj (h : Disjoint (Rng x m) (Rng y m)) : Sep (m : Int) x y := fun _ _ h0 h1 h2 h3 e => Set.disjoint_left.1 h (mem_rng_add h0 h1) (e ▸ mem_rng_add h2 h3)

variable [Scalar F]

theorem exec_vec {K : Kernel F} {w : Vec F m} (hk : KSpec K s.mem (s.mem.setVec x w)) (hx : s.mem.Has x m) :
    ∃ s', CSpec (Cmd.exec K) s () s' ∧ HoldsV s' x w ∧ Only (Rng x m) s s' := by
  have h := setRange_holds (s := s) hx (fun k => if h : k.toNat < m then w ⟨k.toNat, h⟩ else nan) w (fun i => by simp)
  exact ⟨_, cspec_exec hk, h.1, h.2⟩

/-- an image operation on memory computes `f` -/
def PicOp {mrow mcol : ℕ} (K : Ptr → Ptr → Kernel F) (f : Vec F (mrow * mcol) → Vec F (mrow * mcol)) : Prop :=
  ∀ (mem : Mem F) (X D : Ptr) (v : Vec F (mrow * mcol)), HoldsArr mem X v → mem.Has D ((mrow * mcol : ℕ) : Int) → Sep ((mrow * mcol : ℕ) : Int) D X →
    KSpec (K X D) mem (mem.setVec D (f v))

theorem PicOp.run {mrow mcol : ℕ} {K : Ptr → Ptr → Kernel F} {f : Vec F (mrow * mcol) → Vec F (mrow * mcol)} (h : PicOp K f) {v : Vec F (mrow * mcol)} (hx : HoldsV s x v)
    (hy : s.mem.Has y ((mrow * mcol : ℕ) : Int)) (hd : Disjoint (Rng y (mrow * mcol)) (Rng x (mrow * mcol))) :
    ∃ s', CSpec (Cmd.exec (K x y)) s () s' ∧ HoldsV s' y (f v) ∧ Only (Rng y (mrow * mcol)) s s' :=
  exec_vec (h s.mem x y v hx hy (sep_disj hd)) hy

theorem CSpec.opt {β : Type} {g : Bool} {A : Cmd F Unit} {B : Unit → Cmd F β} {s1 s2 : PState F} {r : β} (h1 : CSpec (if g then A else pure ()) s () s1)
    (h2 : CSpec (B ()) s1 r s2) : CSpec (if g then A >>= B else B ()) s r s2 := by
  cases g
  · rw [if_neg Bool.false_ne_true] at h1 ⊢
    cases h1
    exact h2
  · rw [if_pos rfl] at h1 ⊢
    exact h1.bind h2

section term
variable {mrow mcol : ℕ} {c : TvVarM F} {D : Int → Int → F → Ptr → Ptr → Kernel F} {alp : F} {f : Vec F (mrow * mcol) → Vec F (mrow * mcol)}

/-- one of the two difference terms of `Wv`; the result array may be the head of the work array -/
theorem term_run (hr : c.mrow = mrow) (hc : c.mcol = mcol) (hD : PicOp (D mrow mcol alp) f) {off : ℕ} (ho : mrow * mcol ≤ off) {v : Ptr} {vv um um' : Vec F p}
    {w yv : Vec F (mrow * mcol)} (hv : HoldsV s v vv) (hw : slice (mrow * mcol) off vv = some w) (hu : Tail (mrow * mcol) s c.u um)
    (hum : writeAt off (f w) um = some um') (hy : HoldsV s y yv) (d1 : Disjoint (Rng v p) (Rng c.u p)) (d2 : Disjoint (Rng y (mrow * mcol)) (Rng v p))
    (d3 : Disjoint (Rng y (mrow * mcol)) (Rng (c.u + ((mrow * mcol : ℕ) : Int)) (p - mrow * mcol))) :
    ∃ s', CSpec (tvTermM c D alp off v y) s () s' ∧ HoldsV s' v vv ∧ Tail (mrow * mcol) s' c.u um' ∧ HoldsV s' y (vaxpy (lit 1) (f w) yv) ∧
      Only (Rng (c.u + ((mrow * mcol : ℕ) : Int)) (p - mrow * mcol) ∪ Rng y (mrow * mcol)) s s' := by
  have hp := slice_le hw
  have sub : Rng (c.u + (off : Int)) (mrow * mcol) ⊆ Rng (c.u + ((mrow * mcol : ℕ) : Int)) (p - mrow * mcol) := by
    rw [show (off : Int) = ((mrow * mcol : ℕ) : Int) + ((off - mrow * mcol : ℕ) : Int) by omega, ← Ptr.add_add]
    exact rng_part (by omega)
  have hU : s.mem.Has (c.u + (off : Int)) ((mrow * mcol : ℕ) : Int) := fun i h0 h1 => by
    rw [Ptr.add_add]
    exact hu.1 _ (by omega) (by omega)
  obtain ⟨s1, c1, h1, o1⟩ := hD.run (hv.part hw) hU ((d1.mono (rng_part hp) (rng_part hp)).symm)
  have y1 := hy.keep o1 (d3.mono_right sub)
  have v1 := hv.keep o1 (d1.mono_right (rng_part hp))
  obtain ⟨s2, c2, h2, o2⟩ := cmd_map2 (z := y) (fun a b => lit 1 * a + b) (k := daxpyK (mrow * mcol : ℕ) (lit 1) (c.u + (off : Int)) y) rfl h1 y1 y1.1 (NoCross.of_disj (d3.mono_right sub)) (NoCross.refl _ _)
  refine ⟨s2, ?_, v1.keep o2 d2.symm, ⟨o2.has' (o1.has' hu.1), fun i hi => ?_⟩, h2, (o1.mono (sub.trans Set.subset_union_left)).trans (o2.mono Set.subset_union_right) subset_rfl⟩
  · subst hr hc
    exact c1.bind c2
  · have hout : c.u + ((i : ℕ) : Int) ∉ Rng y (mrow * mcol) := fun hm => Set.disjoint_left.1 d3 hm ⟨rfl, by simp; omega, by simp; omega⟩
    rw [o2.val _ hout]
    by_cases hi2 : off ≤ (i : ℕ) ∧ (i : ℕ) < off + mrow * mcol
    · rw [entry_in hum hi2.1 hi2.2, ← h1.2, Ptr.add_add]
      congr 2
      push_cast
      omega
    · rw [entry_out hum hi2, ← hu.2 i hi]
      refine o1.val _ fun hm => hi2 ?_
      obtain ⟨-, a1, a2⟩ := hm
      simp only [Ptr.add_off] at a1 a2
      omega
end term

section set
variable {mrow mcol n : ℕ} {c : TvCfg F mrow mcol n} {loc : DctFunsM F} {b : DctPtr} {u v : Ptr} {idx : Fin n → Int}

theorem img_Dy (d : TvDims c) : PicOp (l1c_Dy mrow mcol c.alp_v) (vDy (mrow := mrow) (mcol := mcol) c.alp_v) := fun _ _ _ _ hx hD hs =>
  refine_Dy d.pos.1 d.fit hx hD hs

theorem img_Dx (d : TvDims c) : PicOp (l1c_Dx mrow mcol c.alp_h) (vDx (mrow := mrow) (mcol := mcol) c.alp_h) := fun _ _ _ _ hx hD hs =>
  refine_Dx d.pos.2 d.fit hx hD hs

theorem img_DyT (d : TvDims c) : PicOp (l1c_DyT mrow mcol c.alp_v) (vDyT (mrow := mrow) (mcol := mcol) c.alp_v) := fun _ _ _ _ hx hD hs =>
  refine_DyT d.fit hx hD hs

theorem img_DxT (d : TvDims c) (h : job c.alp_h = true) : PicOp (l1c_DxT mrow mcol c.alp_h) (vDxT (mrow := mrow) (mcol := mcol) c.alp_h) := fun _ _ _ _ hx hD hs =>
  refine_DxT (d.two (Or.inr h)).2 d.fit hx hD hs

theorem incV_ge (h : job c.alp_v = true) : mrow * mcol ≤ incV (mrow * mcol) c.alp_v := by unfold incV; rw [if_pos h]

theorem incH_ge (h : job c.alp_h = true) : mrow * mcol ≤ incH (mrow * mcol) c.alp_v c.alp_h := by unfold incH; rw [if_pos h]; omega

/-- `Wv`; the result array may be the work array itself -/
theorem wv_run (d : TvDims c) (H : DctImpl loc c.loc (BufAt b) (b.Own (mrow * mcol))) (S : TvSep b u (mrow * mcol) c.p) {vv : Vec F c.p} {yv : Vec F (mrow * mcol)}
    {t : TvBuf F (mrow * mcol) c.p} {o : TvOut F (mrow * mcol) (mrow * mcol) c.p} (hR : TvAt b u t s) (hv : HoldsV s v vv) (hy : HoldsV s y yv)
    (dv : Disjoint (Rng v c.p) (tvOwn b u (mrow * mcol) c.p)) (dy : Disjoint (Rng y (mrow * mcol)) (b.Own (mrow * mcol)))
    (dyv : Disjoint (Rng y (mrow * mcol)) (Rng v c.p)) (dyu : Disjoint (Rng y (mrow * mcol)) (Rng u c.p) ∨ y = u) (e : tvWv c vv t = some o) :
    ∃ s', CSpec (tvWvM (c.varM loc u) v y) s () s' ∧ BufAt b o.buf.dct s' ∧ HoldsV s' v (tvWvArg c vv t) ∧ Tail (mrow * mcol) s' u o.buf.u ∧ HoldsV s' y o.res ∧
      (Disjoint (Rng y (mrow * mcol)) (Rng u c.p) → HoldsV s' u o.buf.u) ∧ Only (Rng v c.p ∪ Rng y (mrow * mcol) ∪ tvOwn b u (mrow * mcol) c.p) s s' := by
  have dvb := dv.mono_right (Set.subset_union_left : b.Own (mrow * mcol) ⊆ tvOwn b u (mrow * mcol) c.p)
  have dvu := dv.mono_right (Set.subset_union_right : Rng u c.p ⊆ tvOwn b u (mrow * mcol) c.p)
  unfold tvWv at e
  obtain ⟨v0, e0, e⟩ := bind_some_iff.1 e
  obtain ⟨o1, e1, e⟩ := bind_some_iff.1 e
  obtain ⟨u1, e2, e⟩ := bind_some_iff.1 e
  obtain ⟨y1, e3, e⟩ := bind_some_iff.1 e
  have hp := slice_le e0
  have hp' : (mrow * mcol) ≤ c.p := by omega
  have e3' := slice_writeAt e2
  rw [e3] at e3'
  cases e3'
  obtain ⟨va, eva⟩ := writeAt_some 0 hp o1.arg vv
  have harg : tvWvArg c vv t = va := by
    unfold tvWvArg
    rw [e0, obind, e1, obind, eva]
    rfl
  rw [harg]
  obtain ⟨u0, eu0⟩ : ∃ w, slice (mrow * mcol) 0 t.u = some w := ⟨_, slice_eq 0 hp _⟩
  have hp0 : ∀ q : Ptr, Rng q (mrow * mcol) ⊆ Rng q c.p := fun q => Rng.le hp' q
  -- Mx
  obtain ⟨s1, c1, R1, a1, a2, o1'⟩ := H.Mx t.dct s v u v0 u0 _ hR.dct (hv.part0 e0) (hR.u.part0 eu0) (dvu.mono (hp0 v) (hp0 u)) (dvb.mono_left (hp0 v))
    (S.u.symm.mono_left (hp0 u)) (Option.map_eq_some_iff.2 ⟨o1, e1, rfl⟩)
  have v1 : HoldsV s1 v va := hv.write0 a1 (S := Rng u (mrow * mcol) ∪ b.Own (mrow * mcol)) (o1'.mono (by rw [Set.union_assoc])) (Set.disjoint_union_right.2 ⟨dvu.mono_right (hp0 u), dvb⟩) eva
  have w1 : HoldsV s1 u u1 := hR.u.write0 a2 (S := Rng v (mrow * mcol) ∪ b.Own (mrow * mcol)) (o1'.mono (by
    rintro a ((h | h) | h)
    · exact Or.inr (Or.inl h)
    · exact Or.inl h
    · exact Or.inr (Or.inr h))) (Set.disjoint_union_right.2 ⟨dvu.symm.mono_right (hp0 v), S.u.symm⟩) e2
  have sl : ∀ off, (mrow * mcol) ≤ off → slice (mrow * mcol) off va = slice (mrow * mcol) off vv := fun off ho => slice_writeAt_ne eva (Or.inl (by omega))
  have d3 : Disjoint (Rng y (mrow * mcol)) (Rng (u + ((mrow * mcol : ℕ) : Int)) (c.p - (mrow * mcol))) := by
    rcases dyu with h | rfl
    · exact h.mono_right (rng_part (by omega))
    · refine Set.disjoint_left.2 fun a ⟨_, _, h1⟩ ⟨_, h2, _⟩ => ?_
      simp only [Ptr.add_off] at h2
      omega
  -- dcopy
  obtain ⟨s2, c2, y2, o2⟩ := cmd_copy (x := u) (y := y) a2 (o1'.has' hy.1) (by
    rcases dyu with h | rfl
    · exact NoCross.of_disj (h.mono_right (hp0 u))
    · exact NoCross.refl _ _)
  have v2 := v1.keep o2 dyv.symm
  have t2 : Tail (mrow * mcol) s2 u u1 := ⟨o2.has' w1.1, fun i hi => by
    rw [← w1.2 i]
    exact o2.val _ fun hm => Set.disjoint_left.1 d3 hm ⟨rfl, by simp; omega, by simp; omega⟩⟩
  have R2 : BufAt b o1.buf s2 := buf_own _ _ _ R1 fun a ha => ⟨o2.val _ fun hm => Set.disjoint_left.1 dy hm ha, by rw [o2.len]⟩
  set T := Rng (u + ((mrow * mcol : ℕ) : Int)) (c.p - (mrow * mcol)) ∪ Rng y (mrow * mcol) with hT
  obtain ⟨⟨u3, y3⟩, e4, e⟩ := bind_some_iff.1 e
  obtain ⟨⟨u4, y4⟩, e5, e⟩ := bind_some_iff.1 e
  cases e
  -- the vertical term
  have step1 : ∃ s3, CSpec (if job c.alp_v then tvTermM (c.varM loc u) l1c_Dy c.alp_v (incV (mrow * mcol) c.alp_v) v y else pure ()) s2 () s3 ∧ HoldsV s3 v va ∧ Tail (mrow * mcol) s3 u u3 ∧
      HoldsV s3 y y3 ∧ Only T s2 s3 ∧ ∀ i : Fin c.p, (i : ℕ) < (mrow * mcol) → u3 i = u1 i := by
    by_cases hj : job c.alp_v = true
    · rw [if_pos hj] at e4
      obtain ⟨w, f1, e4⟩ := bind_some_iff.1 e4
      obtain ⟨ua, f2, e4⟩ := bind_some_iff.1 e4
      obtain ⟨dd, f3, e4⟩ := bind_some_iff.1 e4
      rw [slice_writeAt f2] at f3
      cases f3
      cases e4
      obtain ⟨s3, g1, g2, g3, g4, g5⟩ := term_run (c := c.varM loc u) rfl rfl (img_Dy d) (incV_ge hj) v2 ((sl _ (incV_ge hj)).trans f1) t2 f2 y2 dvu dyv d3
      exact ⟨s3, by rw [if_pos hj]; exact g1, g2, g3, g4, g5, fun i hi => entry_out f2 fun hc => by have := incV_ge hj; omega⟩
    · rw [if_neg hj] at e4
      cases e4
      exact ⟨s2, by rw [if_neg hj]; exact .done _ _, v2, t2, y2, Only.refl _, fun _ _ => rfl⟩
  obtain ⟨s3, c3, v3, t3, y3', o3, k3⟩ := step1
  have step2 : ∃ s4, CSpec (if job c.alp_h then tvTermM (c.varM loc u) l1c_Dx c.alp_h (incH (mrow * mcol) c.alp_v c.alp_h) v y else pure ()) s3 () s4 ∧ HoldsV s4 v va ∧ Tail (mrow * mcol) s4 u u4 ∧
      HoldsV s4 y y4 ∧ Only T s3 s4 ∧ ∀ i : Fin c.p, (i : ℕ) < (mrow * mcol) → u4 i = u3 i := by
    by_cases hj : job c.alp_h = true
    · simp only [if_pos hj] at e5
      obtain ⟨w, f1, e5⟩ := bind_some_iff.1 e5
      obtain ⟨ua, f2, e5⟩ := bind_some_iff.1 e5
      obtain ⟨dd, f3, e5⟩ := bind_some_iff.1 e5
      rw [slice_writeAt f2] at f3
      cases f3
      cases e5
      obtain ⟨s4, g1, g2, g3, g4, g5⟩ := term_run (c := c.varM loc u) rfl rfl (img_Dx d) (incH_ge hj) v3 ((sl _ (incH_ge hj)).trans f1) t3 f2 y3' dvu dyv d3
      exact ⟨s4, by rw [if_pos hj]; exact g1, g2, g3, g4, g5, fun i hi => entry_out f2 fun hc => by have := incH_ge hj; omega⟩
    · simp only [if_neg hj] at e5
      cases e5
      exact ⟨s3, by rw [if_neg hj]; exact .done _ _, v3, t3, y3', Only.refl _, fun _ _ => rfl⟩
  obtain ⟨s4, c4, v4, t4, y4', o4, k4⟩ := step2
  have o34 := o3.trans o4 subset_rfl
  have hTb : Disjoint (b.Own (mrow * mcol)) T := Set.disjoint_union_right.2 ⟨S.u.mono_right (rng_part (by omega)), dy.symm⟩
  refine ⟨s4, c1.bind (c2.bind (CSpec.opt (B := fun _ => _) c3 c4)), buf_own _ _ _ R2 fun a ha => ⟨o34.val _ (Set.disjoint_left.1 hTb ha), by rw [o34.len]⟩, v4, t4, y4', fun hd => ?_, ?_⟩
  · refine ⟨t4.1, fun i => ?_⟩
    by_cases hi : (i : ℕ) < (mrow * mcol)
    · show _ = u4 i
      rw [k4 i hi, k3 i hi, ← w1.2 i]
      have hin : u + ((i : ℕ) : Int) ∈ Rng u c.p := mem_rng_add (by omega) (by omega)
      have hny : u + ((i : ℕ) : Int) ∉ Rng y (mrow * mcol) := fun hm => Set.disjoint_left.1 hd hm hin
      rw [o34.val _ fun hm => ?_, o2.val _ hny]
      rcases hm with ⟨_, hm, _⟩ | hm
      · simp only [Ptr.add_off] at hm
        omega
      · exact hny hm
    · exact t4.2 i (by omega)
  · refine ((o1'.mono ?_).trans (o2.mono ?_) subset_rfl).trans (o34.mono ?_) subset_rfl
    · rintro a ((h | h) | h)
      · exact Or.inl (Or.inl (hp0 v h))
      · exact Or.inr (Or.inr (hp0 u h))
      · exact Or.inr (Or.inl h)
    · exact fun a h => Or.inl (Or.inr h)
    · rintro a (h | h)
      · exact Or.inr (Or.inr (rng_part (by omega) h))
      · exact Or.inl (Or.inr h)

/-- `Wtx`; the argument may be part of the work array -/
theorem wtx_run (hS : DctSet c.loc idx) (d : TvDims c) (H : DctImpl loc c.loc (BufAt b) (b.Own (mrow * mcol))) {xv : Vec F (mrow * mcol)} {vv : Vec F c.p}
    {t : TvBuf F (mrow * mcol) c.p} {o : TvOut F c.p (mrow * mcol) c.p} (hR : BufAt b t.dct s) (hx : HoldsV s x xv) (hv : HoldsV s v vv)
    (dxv : Disjoint (Rng x (mrow * mcol)) (Rng v c.p)) (dx : Disjoint (Rng x (mrow * mcol)) (b.Own (mrow * mcol))) (dv : Disjoint (Rng v c.p) (b.Own (mrow * mcol)))
    (e : tvWtx c xv vv t = some o) :
    ∃ s', CSpec (tvWtxM (c.varM loc u) x v) s () s' ∧ BufAt b o.buf.dct s' ∧ o.buf.u = t.u ∧ HoldsV s' x xv ∧ HoldsV s' v o.res ∧
      Only (Rng x (mrow * mcol) ∪ Rng v c.p ∪ b.Own (mrow * mcol)) s s' := by
  unfold tvWtx at e
  obtain ⟨o1, e1, e⟩ := bind_some_iff.1 e
  obtain ⟨va, e2, e⟩ := bind_some_iff.1 e
  have hp := writeAt_le e2
  have hp0 : ∀ q : Ptr, Rng q (mrow * mcol) ⊆ Rng q c.p := fun q => Rng.le (by omega) q
  obtain ⟨v0, ev0⟩ : ∃ w, slice (mrow * mcol) 0 vv = some w := ⟨_, slice_eq 0 hp _⟩
  obtain ⟨s1, c1, R1, a1, a2, o1'⟩ := H.Mty t.dct s x v xv v0 _ hR hx (hv.part0 ev0) (dxv.mono_right (hp0 v)) dx (dv.mono_left (hp0 v))
    (Option.map_eq_some_iff.2 ⟨o1, e1, rfl⟩)
  have karg : o1.arg = xv := (C25_arguments hS t.dct).2.2.2.1 xv o1 e1
  have x1 : HoldsV s1 x xv := karg ▸ a1
  have v1 : HoldsV s1 v va := hv.write0 a2 (S := Rng x (mrow * mcol) ∪ b.Own (mrow * mcol)) (o1'.mono (by
    rintro a ((h | h) | h)
    · exact Or.inr (Or.inl h)
    · exact Or.inl h
    · exact Or.inr (Or.inr h))) (Set.disjoint_union_right.2 ⟨dxv.symm, dv⟩) e2
  obtain ⟨vb, e3, e⟩ := bind_some_iff.1 e
  obtain ⟨vc, e4, e⟩ := bind_some_iff.1 e
  cases e
  have term : ∀ {K : Ptr → Ptr → Kernel F} {f : Vec F (mrow * mcol) → Vec F (mrow * mcol)}, PicOp K f → ∀ {off : ℕ} {s1 : PState F} {va vb : Vec F c.p}, HoldsV s1 x xv → HoldsV s1 v va →
      writeAt off (f xv) va = some vb → ∃ s2, CSpec (Cmd.exec (K x (v + (off : Int)))) s1 () s2 ∧ HoldsV s2 x xv ∧ HoldsV s2 v vb ∧ Only (Rng v c.p) s1 s2 := by
    intro K f hK off s1 va vb hx hv hw
    have hq := writeAt_le hw
    obtain ⟨s2, g1, g2, g3⟩ := hK.run (y := v + (off : Int)) hx (fun i h0 h1 => by rw [Ptr.add_add]; exact hv.1 _ (by omega) (by omega)) (dxv.symm.mono_left (rng_part hq))
    exact ⟨s2, g1, hx.keep g3 (dxv.mono_right (rng_part hq)), hv.write g2 (S := ∅) (g3.mono (by simp)) (Set.disjoint_empty _) hw, g3.mono (rng_part hq)⟩
  have step1 : ∃ s2, CSpec (if job c.alp_v then Cmd.exec (l1c_DyT mrow mcol c.alp_v x (v + (incV (mrow * mcol) c.alp_v : Int))) else pure ()) s1 () s2 ∧ HoldsV s2 x xv ∧ HoldsV s2 v vb ∧
      Only (Rng v c.p) s1 s2 := by
    by_cases hj : job c.alp_v = true
    · rw [if_pos hj] at e3 ⊢
      exact term (img_DyT d) x1 v1 e3
    · rw [if_neg hj] at e3 ⊢
      cases e3
      exact ⟨s1, .done _ _, x1, v1, Only.refl _⟩
  obtain ⟨s2, c2, x2, v2, o2⟩ := step1
  have step2 : ∃ s3, CSpec (if job c.alp_h then Cmd.exec (l1c_DxT mrow mcol c.alp_h x (v + (incH (mrow * mcol) c.alp_v c.alp_h : Int))) else pure ()) s2 () s3 ∧ HoldsV s3 x xv ∧
      HoldsV s3 v vc ∧ Only (Rng v c.p) s2 s3 := by
    by_cases hj : job c.alp_h = true
    · rw [if_pos hj] at e4 ⊢
      exact term (img_DxT d hj) x2 v2 e4
    · rw [if_neg hj] at e4 ⊢
      cases e4
      exact ⟨s2, .done _ _, x2, v2, Only.refl _⟩
  obtain ⟨s3, c3, x3, v3, o3⟩ := step2
  have o23 := o2.trans o3 subset_rfl
  refine ⟨s3, c1.bind (CSpec.opt (B := fun _ => _) c2 c3), buf_own _ _ _ R1 fun a ha => ⟨o23.val _ fun hm => Set.disjoint_left.1 dv hm ha, by rw [o23.len]⟩, rfl, x3, v3, ?_⟩
  refine (o1'.mono ?_).trans (o23.mono fun a h => Or.inl (Or.inr h)) subset_rfl
  rintro a ((h | h) | h)
  · exact Or.inl (Or.inl h)
  · exact Or.inl (Or.inr (hp0 v h))
  · exact Or.inr h

omit [Scalar F] in
theorem tv_own : OwnData (TvAt (F := F) (m := m) (p := p) b u) (tvOwn b u m p) := fun _ _ _ h h' =>
  ⟨buf_own _ _ _ h.dct fun a ha => h' a (Or.inl ha), ⟨fun k h0 h1 => by
    have := h.u.1 k h0 h1
    have e := (h' (u + k) (Or.inr (mem_rng_add h0 h1))).2
    unfold Mem.Ok at this ⊢
    rwa [e], fun i => by
    rw [(h' _ (Or.inr (mem_rng_add (by omega) (by omega)))).1]
    exact h.u.2 i⟩⟩

/-- every function of the set -/
theorem tv_impl (hS : DctSet c.loc idx) (d : TvDims c) (H : DctImpl loc c.loc (BufAt b) (b.Own (mrow * mcol))) (S : TvSep b u (mrow * mcol) c.p) :
    TvImpl (c.varM loc u) c (TvAt b u) (tvOwn b u (mrow * mcol) c.p) := by
  have hp : mrow * mcol ≤ c.p := by unfold TvCfg.p tvP; omega
  have hp0 : ∀ q : Ptr, Rng q (mrow * mcol) ⊆ Rng q c.p := fun q => Rng.le hp q
  have dctSub : b.Own (mrow * mcol) ⊆ tvOwn b u (mrow * mcol) c.p := Set.subset_union_left
  have uSub : Rng u c.p ⊆ tvOwn b u (mrow * mcol) c.p := Set.subset_union_right
  have keepU : ∀ {l k : ℕ} {x y : Ptr} {s s' : PState F} {w : Vec F c.p}, HoldsV s u w → Only (Rng x l ∪ Rng y k ∪ b.Own (mrow * mcol)) s s' →
      Disjoint (Rng x l) (tvOwn b u (mrow * mcol) c.p) → Disjoint (Rng y k) (tvOwn b u (mrow * mcol) c.p) → HoldsV s' u w := fun h o d1 d2 =>
    h.keep o (Set.disjoint_union_right.2 ⟨Set.disjoint_union_right.2 ⟨(d1.mono_right uSub).symm, (d2.mono_right uSub).symm⟩, S.u.symm⟩)
  refine ⟨?_, ?_, ?_, ?_, ?_, ?_, ?_⟩
  · intro t s x y v old r hR hx hy dxy dx dy e
    obtain ⟨o, e1, rfl⟩ := Option.map_eq_some_iff.1 e
    obtain ⟨s', c1, h1, h2, h3, h4, h5, h6⟩ := wv_run d H S hR hx hy dx (dy.mono_right dctSub) dxy.symm (Or.inl (dy.mono_right uSub)) e1
    exact ⟨s', c1, ⟨h1, h5 (dy.mono_right uSub)⟩, h2, h4, h6⟩
  · intro t s x y v old r hR hx hy dxy dx dy e
    obtain ⟨o, e1, rfl⟩ := Option.map_eq_some_iff.1 e
    obtain ⟨s', c1, h1, h2, h3, h4, h5⟩ := wtx_run (u := u) hS d H hR.dct hx hy dxy (dx.mono_right dctSub) (dy.mono_right dctSub) e1
    exact ⟨s', c1, ⟨h1, h2 ▸ keepU hR.u h5 dx dy⟩, h3, h4, h5.mono (Set.union_subset_union_right _ dctSub)⟩
  · intro t s x y v old r hR hx hy dxy dx dy e
    obtain ⟨o, e1, rfl⟩ := Option.map_eq_some_iff.1 e
    obtain ⟨o1, e2, e3⟩ := bind_some_iff.1 e1
    cases e3
    obtain ⟨s', c1, h1, h2, h3, h4⟩ := H.Rx t.dct s x y v old _ hR.dct hx hy dxy (dx.mono_right dctSub) (dy.mono_right dctSub) (Option.map_eq_some_iff.2 ⟨o1, e2, rfl⟩)
    have karg : o1.arg = v := (C25_arguments hS t.dct).2.2.2.2.1 v o1 e2
    exact ⟨s', c1, ⟨h1, keepU hR.u h4 dx dy⟩, karg ▸ h2, h3, h4.mono (Set.union_subset_union_right _ dctSub)⟩
  · intro t s x y v old r hR hx hy dxy dx dy e
    obtain ⟨o, e1, rfl⟩ := Option.map_eq_some_iff.1 e
    obtain ⟨o1, e2, e3⟩ := bind_some_iff.1 e1
    cases e3
    obtain ⟨s', c1, h1, h2, h3, h4⟩ := H.Rty t.dct s x y v old _ hR.dct hx hy dxy (dx.mono_right dctSub) (dy.mono_right dctSub) (Option.map_eq_some_iff.2 ⟨o1, e2, rfl⟩)
    have karg : o1.arg = v := (C25_arguments hS t.dct).2.2.2.2.2.1 old v o1 e2
    exact ⟨s', c1, ⟨h1, keepU hR.u h4 dx dy⟩, karg ▸ h2, h3, h4.mono (Set.union_subset_union_right _ dctSub)⟩
  · intro t s x y v old r hR hx hy dxy dx dy e
    obtain ⟨o, e1, rfl⟩ := Option.map_eq_some_iff.1 e
    unfold tvAv at e1
    obtain ⟨o1, f1, e1⟩ := bind_some_iff.1 e1
    obtain ⟨u1, f2, e1⟩ := bind_some_iff.1 e1
    obtain ⟨x1, f3, e1⟩ := bind_some_iff.1 e1
    obtain ⟨o2, f4, e1⟩ := bind_some_iff.1 e1
    cases e1
    rw [slice_writeAt f2] at f3
    cases f3
    obtain ⟨u0, eu0⟩ : ∃ w, slice (mrow * mcol) 0 t.u = some w := ⟨_, slice_eq 0 (by omega) _⟩
    obtain ⟨s1, c1, h1, h2, h3, h4, -, h6⟩ := wv_run (y := u) d H S hR hx (hR.u.part0 eu0) dx (S.u.symm.mono_left (hp0 u)) ((dx.mono_right uSub).symm.mono_left (hp0 u)) (Or.inr rfl) f1
    have hu1 : HoldsV s1 u u1 := h3.join h4 f2
    have y1 : HoldsV s1 y old := hy.keep h6 (Set.disjoint_union_right.2 ⟨Set.disjoint_union_right.2 ⟨dxy.symm, dy.mono_right ((hp0 u).trans uSub)⟩, dy⟩)
    obtain ⟨s2, c2, g1, g2, g3, g4⟩ := H.Rx o1.buf.dct s1 u y o1.res old _ h1 h4 y1 ((dy.mono_right uSub).symm.mono_left (hp0 u)) (S.u.symm.mono_left (hp0 u)) (dy.mono_right dctSub)
      (Option.map_eq_some_iff.2 ⟨o2, f4, rfl⟩)
    have karg : o2.arg = o1.res := (C25_arguments hS o1.buf.dct).2.2.2.2.1 _ o2 f4
    obtain ⟨u1', f2'⟩ := writeAt_some 0 (show 0 + mrow * mcol ≤ c.p by omega) o1.res u1
    have hu2 : HoldsV s2 u u1 := by
      have hsame : u1' = u1 := by
        funext i
        by_cases hi : (i : ℕ) < mrow * mcol
        · rw [entry_in f2' (Nat.zero_le _) (by omega), entry_in f2 (Nat.zero_le _) (by omega)]
        · rw [entry_out f2' (by omega)]
      rw [← hsame]
      refine hu1.write0 (karg ▸ g2) (S := Rng y n ∪ b.Own (mrow * mcol)) (g4.mono (by rw [Set.union_assoc])) (Set.disjoint_union_right.2 ⟨(dy.mono_right uSub).symm, S.u.symm⟩) f2'
    refine ⟨s2, c1.bind c2, ⟨g1, hu2⟩, h2.keep g4 ?_, g3, (h6.mono ?_).trans (g4.mono ?_) subset_rfl⟩
    · exact Set.disjoint_union_right.2 ⟨Set.disjoint_union_right.2 ⟨dx.mono_right ((hp0 u).trans uSub), dxy⟩, dx.mono_right dctSub⟩
    · rintro a ((h | h) | h)
      · exact Or.inl (Or.inl h)
      · exact Or.inr (uSub (hp0 u h))
      · exact Or.inr h
    · rintro a ((h | h) | h)
      · exact Or.inr (uSub (hp0 u h))
      · exact Or.inl (Or.inr h)
      · exact Or.inr (dctSub h)
  · intro t s x y v old r hR hx hy dxy dx dy e
    obtain ⟨o, e1, rfl⟩ := Option.map_eq_some_iff.1 e
    unfold tvAty at e1
    obtain ⟨u0, f0, e1⟩ := bind_some_iff.1 e1
    obtain ⟨o1, f1, e1⟩ := bind_some_iff.1 e1
    obtain ⟨u1, f2, e1⟩ := bind_some_iff.1 e1
    obtain ⟨x1, f3, e1⟩ := bind_some_iff.1 e1
    rw [slice_writeAt f2] at f3
    cases f3
    obtain ⟨s1, c1, h1, h2, h3, h4⟩ := H.Rty t.dct s x u v u0 _ hR.dct hx (hR.u.part0 f0) (dx.mono_right ((hp0 u).trans uSub)) (dx.mono_right dctSub) (S.u.symm.mono_left (hp0 u))
      (Option.map_eq_some_iff.2 ⟨o1, f1, rfl⟩)
    have karg : o1.arg = v := (C25_arguments hS t.dct).2.2.2.2.2.1 u0 v o1 f1
    have hu1 : HoldsV s1 u u1 := hR.u.write0 h3 (S := Rng x n ∪ b.Own (mrow * mcol)) (h4.mono (by
      rintro a ((h | h) | h)
      · exact Or.inr (Or.inl h)
      · exact Or.inl h
      · exact Or.inr (Or.inr h))) (Set.disjoint_union_right.2 ⟨(dx.mono_right uSub).symm, S.u.symm⟩) f2
    have y1 : HoldsV s1 y old := hy.keep h4 (Set.disjoint_union_right.2 ⟨Set.disjoint_union_right.2 ⟨dxy.symm, dy.mono_right ((hp0 u).trans uSub)⟩, dy.mono_right dctSub⟩)
    obtain ⟨s2, c2, g1, g2, g3, g4, g5⟩ := wtx_run (u := u) (x := u) (t := ⟨o1.buf, u1⟩) hS d H h1 h3 y1 ((dy.mono_right uSub).symm.mono_left (hp0 u)) (S.u.symm.mono_left (hp0 u))
      (dy.mono_right dctSub) e1
    obtain ⟨u1', f2'⟩ := writeAt_some 0 (show 0 + mrow * mcol ≤ c.p by omega) o1.res u1
    have hu2 : HoldsV s2 u o.buf.u := by
      have hsame : u1' = u1 := by
        funext i
        by_cases hi : (i : ℕ) < mrow * mcol
        · rw [entry_in f2' (Nat.zero_le _) (by omega), entry_in f2 (Nat.zero_le _) (by omega)]
        · rw [entry_out f2' (by omega)]
      rw [g2]
      show HoldsV s2 u u1
      rw [← hsame]
      refine hu1.write0 g3 (S := Rng y c.p ∪ b.Own (mrow * mcol)) (g5.mono (by rw [Set.union_assoc])) (Set.disjoint_union_right.2 ⟨(dy.mono_right uSub).symm, S.u.symm⟩) f2'
    refine ⟨s2, c1.bind c2, ⟨g1, hu2⟩, (karg ▸ h2 : HoldsV s1 x v).keep g5 ?_, g4, (h4.mono ?_).trans (g5.mono ?_) subset_rfl⟩
    · exact Set.disjoint_union_right.2 ⟨Set.disjoint_union_right.2 ⟨dx.mono_right ((hp0 u).trans uSub), dxy⟩, dx.mono_right dctSub⟩
    · rintro a ((h | h) | h)
      · exact Or.inl (Or.inl h)
      · exact Or.inr (uSub (hp0 u h))
      · exact Or.inr (dctSub h)
    · rintro a ((h | h) | h)
      · exact Or.inr (uSub (hp0 u h))
      · exact Or.inl (Or.inr h)
      · exact Or.inr (dctSub h)
  · intro l k t s x y v old r hR hx hy dxy dx dy e
    obtain ⟨w, e1, rfl⟩ := Option.map_eq_some_iff.1 e
    unfold tvIdentity dcopy at e1
    obtain ⟨x0, f1, f2⟩ := bind_some_iff.1 e1
    have hl := slice_le f1
    have hk := writeAt_le f2
    have y0 := Rng.le (show mrow * mcol ≤ k by omega) y
    obtain ⟨s1, c1, h1, o1⟩ := cmd_copy (y := y) (hx.part0 f1) (fun i h0 h1 => hy.1 i h0 (by omega)) (NoCross.of_disj (dxy.symm.mono y0 (Rng.le (by omega) x)))
    exact ⟨s1, c1, tv_own _ _ _ hR fun a ha => ⟨o1.val _ fun hm => Set.disjoint_left.1 dy (y0 hm) ha, by rw [o1.len]⟩, hx.keep o1 (dxy.mono_right y0),
      hy.write0 h1 (S := ∅) (o1.mono (by simp)) (Set.disjoint_empty _) f2, o1.mono fun a h => Or.inl (Or.inr (y0 h))⟩

/-- NESTA's view of the set -/
theorem tvAna_impl (I : TvImpl (c.varM loc u) c (TvAt b u) (tvOwn b u (mrow * mcol) c.p)) :
    NImpl (tvAnaM n (c.varM loc u)) (tvAna c) (TvAt b u) (tvOwn b u (mrow * mcol) c.p) :=
  ⟨rfl, rfl, rfl, I.Rx, I.Rty, I.Wv, I.Wtx, rfl, rfl, rfl⟩

theorem tvSyn_impl (I : TvImpl (c.varM loc u) c (TvAt b u) (tvOwn b u (mrow * mcol) c.p)) :
    NImpl (tvSynM n (c.varM loc u)) (tvSyn c) (TvAt b u) (tvOwn b u (mrow * mcol) c.p) :=
  ⟨rfl, rfl, rfl, I.Av, I.Aty, I.Id _ _, I.Id _ _, rfl, rfl, rfl⟩

end set
end L1c
