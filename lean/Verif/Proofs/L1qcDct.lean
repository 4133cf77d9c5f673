import Verif.Spec.L1qcDct
import Verif.Proofs.NewtonSim
import Verif.Proofs.NewtonFeas
import Verif.Props.World
import Verif.Props.Newton

/-! # Lemmas for the image recovery -/

namespace L1c
open Scalar

variable {F : Type} [Scalar F] {lib : FftwLib F} {L : Sets F} {w w' : World F} {K : Kind} {m n l k : ℕ}

/-- a live DCT set with the transforms `f` -/
structure LiveDct (lib : FftwLib F) (L : Sets F) (K : Kind) (f : DctFuns F m n) (ix : Fin n → Int) : Prop where
  has : L.has K
  set : DctSet f ix
  call : ∀ w, Hist lib w L → ∀ op a out, (wcall lib K op a out w).map (·.1) = (dctOp f op a out DctBuf.fresh).map (·.1)

omit [Scalar F] in
theorem slice_full (v : Vec F k) : slice k 0 v = some v := by
  rw [slice_eq 0 (by omega)]
  congr 1
  funext i
  congr 1
  exact Fin.ext (by simp)

/-- a function of the set, called on arrays of exactly the right lengths -/
theorem setOp_run {f : DctFuns F m n} {ix : Fin n → Int} (H : LiveDct lib L K f ix) (hw : Hist lib w L) {op : Op}
    {g : Vec F l → DctBuf F m → Option (XOut F k l m)} (hop : ∀ a out s, dctOp f op a out s = onArrays g a out s)
    {v : Vec F l} {o : XOut F k l m} (hg : g v DctBuf.fresh = some o) :
    ∃ w', setOp lib K op l k v w = some (o.res, w') ∧ Hist lib w' L := by
  have hc := H.call w hw op ⟨l, v⟩ ⟨k, fun _ => lit 0⟩
  rw [hop] at hc
  have e : onArrays g ⟨l, v⟩ ⟨k, fun _ => lit 0⟩ DctBuf.fresh = some ((⟨l, o.arg⟩, ⟨k, o.res⟩), o.buf) := by
    unfold onArrays
    dsimp only
    rw [slice_full]
    simp only [Option.bind_eq_bind, Option.bind_some, hg, writeAt_full, Option.pure_def]
  rw [e] at hc
  obtain ⟨⟨r, w'⟩, h1, h2⟩ := Option.map_eq_some_iff.1 hc
  dsimp only at h2
  subst h2
  refine ⟨w', ?_, .call K op _ _ hw H.has h1⟩
  unfold setOp
  rw [h1]
  simp only [Option.bind_some, slice_full, Option.map_some]

theorem dctSet_total {f : DctFuns F m n} {ix : Fin n → Int} (h : DctSet f ix) :
    (∀ v, ∃ o, f.Ax v DctBuf.fresh = some o) ∧ (∀ v, ∃ o, f.Aty v DctBuf.fresh = some o) ∧
    (∀ v, ∃ o, f.AtAx v DctBuf.fresh = some o) ∧ ∀ v, ∃ o, f.Mx v DctBuf.fresh = some o := by
  obtain ⟨h1, h2, h3, h4, -⟩ := C25_history h Reach.fresh
  exact ⟨fun v => let ⟨o, _, e, _⟩ := h1 v; ⟨o, e⟩, fun v => let ⟨o, _, e, _⟩ := h2 v; ⟨o, e⟩,
    fun v => let ⟨o, _, e, _⟩ := h3 v; ⟨o, e⟩, fun v => let ⟨o, _, e, _⟩ := h4 v; ⟨o, e⟩⟩

section live
variable {f : DctFuns F m n} {ix : Fin n → Int}

theorem setAx_total (H : LiveDct lib L K f ix) : OpsTotal (fun w => Hist lib w L) (setAx lib K n m) := by
  obtain ⟨t1, t2, t3, -⟩ := dctSet_total H.set
  refine ⟨fun v w hw => ?_, fun v w hw => ?_, fun v w hw => ?_⟩
  · obtain ⟨o, ho⟩ := t1 v
    obtain ⟨w', h1, h2⟩ := setOp_run H hw (op := .Ax) (fun _ _ _ => rfl) ho
    exact ⟨_, _, h1, h2⟩
  · obtain ⟨o, ho⟩ := t2 v
    obtain ⟨w', h1, h2⟩ := setOp_run H hw (op := .Aty) (fun _ _ _ => rfl) ho
    exact ⟨_, _, h1, h2⟩
  · obtain ⟨o, ho⟩ := t3 v
    obtain ⟨w', h1, h2⟩ := setOp_run H hw (op := .AtAx) (fun _ _ _ => rfl) ho
    exact ⟨_, _, h1, h2⟩

/-- the set behaves like its functions without state -/
theorem setAx_sim (H : LiveDct lib L K f ix) : QSim (fun w (_ : Unit) => Hist lib w L) (setAx lib K n m) (pureAx f) := by
  obtain ⟨t1, t2, t3, -⟩ := dctSet_total H.set
  refine ⟨fun v w _ hw => Or.inr ?_, fun v w _ hw => Or.inr ?_, fun v w _ hw => Or.inr ?_⟩
  · obtain ⟨o, ho⟩ := t1 v
    obtain ⟨w', h1, h2⟩ := setOp_run H hw (op := .Ax) (fun _ _ _ => rfl) ho
    exact ⟨_, _, _, h1, by show Option.map _ _ = _; rw [ho]; rfl, h2⟩
  · obtain ⟨o, ho⟩ := t2 v
    obtain ⟨w', h1, h2⟩ := setOp_run H hw (op := .Aty) (fun _ _ _ => rfl) ho
    exact ⟨_, _, _, h1, by show Option.map _ _ = _; rw [ho]; rfl, h2⟩
  · obtain ⟨o, ho⟩ := t3 v
    obtain ⟨w', h1, h2⟩ := setOp_run H hw (op := .AtAx) (fun _ _ _ => rfl) ho
    exact ⟨_, _, _, h1, by show Option.map _ _ = _; rw [ho]; rfl, h2⟩

end live

/-! ## Setup -/

theorem imageFuns_set {mrow mcol n : ℕ} {idx : List Int} {two : Bool} (h : 0 < mrow ∧ 0 < mcol) (hi : IdxOk (mrow * mcol) (idxFun n idx)) :
    DctSet (imageFuns lib mrow mcol n idx two h) (idxFun n idx) := by
  have : NeZero mrow := ⟨h.1.ne'⟩
  have : NeZero mcol := ⟨h.2.ne'⟩
  have : NeZero (mrow * mcol) := ⟨(Nat.mul_pos h.1 h.2).ne'⟩
  unfold imageFuns
  cases two
  · exact .d1 _ _ hi
  · exact .d2 _ _ hi

theorem imageFuns_setR {lib : FftwLib Dbl} (hlib : LibOk lib) {mrow mcol n : ℕ} {idx : List Int} {two : Bool} (h : 0 < mrow ∧ 0 < mcol)
    (hi : IdxOk (mrow * mcol) (idxFun n idx)) : DctSetR (imageFuns lib mrow mcol n idx two h) (idxFun n idx) := by
  have : NeZero mrow := ⟨h.1.ne'⟩
  have : NeZero mcol := ⟨h.2.ne'⟩
  have : NeZero (mrow * mcol) := ⟨(Nat.mul_pos h.1 h.2).ne'⟩
  unfold imageFuns
  cases two
  · exact .d1 _ _ (hlib.f1 _) hi
  · exact .d2 _ _ (hlib.f2 _ _) hi

/-- a successful setup gives a live set; dropping it again restores the other sets -/
theorem setup_live {mrow mcol n : ℕ} {mode : Int} {idx : List Int} {st : Int} {ax : AxFuns F} (h : Hist lib w L) (hl : idx.length = n)
    (hb : ¬ L.busy (twoDim mrow mcol mode)) (hf : FitsInt (mrow * mcol))
    (hs : l1c_setup_dct_transforms n mrow mcol mode idx w = some ((st, some ax), w')) :
    st = L1C_SUCCESS ∧ ∃ (hp : 0 < mrow ∧ 0 < mcol) (L' : Sets F), Hist lib w' L' ∧ IdxOk (mrow * mcol) (idxFun n idx) ∧
      LiveDct lib L' ax.kind (imageFuns lib mrow mcol n idx (twoDim mrow mcol mode) hp) (idxFun n idx) ∧
      L'.drop ax.kind = L.note1 (twoDim mrow mcol mode) L1C_SUCCESS := by
  obtain ⟨c1, -, c3, -, -⟩ := C19_dct_setup hf hs
  have hst : st = L1C_SUCCESS := c3.2 rfl
  have hv : ValidDct n mrow mcol idx := by
    by_contra hv
    have := c1.2 hv
    rw [show ((st, some ax) : Int × Option (AxFuns F)).1 = st from rfl, hst] at this
    exact absurd this (by decide)
  have hp : 0 < mrow ∧ 0 < mcol := ⟨by have := hv.2.1; omega, by have := hv.2.2.1; omega⟩
  subst hst
  have hH := Hist.dct n mrow mcol mode idx h (by simpa using hl) hb hs
  rw [if_pos rfl] at hH
  have hI := hist_inv hH
  refine ⟨rfl, hp, _, hH, ?_⟩
  obtain ⟨R, own, -, hR⟩ := hI
  cases ht : twoDim mrow mcol mode
  · rw [ht] at hb hH hR
    rw [setup_dct_one hv hf ht] at hs
    obtain ⟨-, hr⟩ | ⟨-, -, hr⟩ | ⟨-, -, hr⟩ := dct1_setup_result hs
    · obtain rfl := Option.some.inj (Prod.mk.inj hr).2
      have hd : ((L.addDct n mrow mcol false idx).note1 false L1C_SUCCESS).d1 = some ⟨mrow * mcol, n, idx⟩ := rfl
      obtain ⟨hm, s, -, -, hi⟩ := hR.d1 _ hd
      refine ⟨hi, ⟨?_, imageFuns_set hp hi, fun w1 hw1 op a out => ?_⟩, ?_⟩
      · show Option.isSome _ = true
        rw [hd]; rfl
      · exact ((C31_independent_partial hw1).1 _ hd).2 op a out
      · have hn : L.d1 = none := by
          cases hd1 : L.d1 with
          | none => rfl
          | some c => exact absurd (Or.inl (by rw [if_neg (by decide), hd1]; rfl)) hb
        show Sets.mk none L.d2 L.tv L.mat _ _ = Sets.mk L.d1 L.d2 L.tv L.mat _ _
        rw [hn]; rfl
    · cases (Prod.mk.inj hr).2
    · cases (Prod.mk.inj hr).2
  · rw [ht] at hb hH hR
    rw [setup_dct_two hv hf ht] at hs
    by_cases h5 : ∀ i < 5, w.oracle (w.calls + i) = true
    swap
    · obtain ⟨st, v, k, e, -⟩ := dct2_setup_fail (n : Int).toNat (mrow : Int).toNat (mcol : Int).toNat idx w h5
      rw [e] at hs; cases hs
    obtain ⟨v, e, -⟩ := dct2_setup_ok (n : Int).toNat (mrow : Int).toNat (mcol : Int).toNat idx w h5
    rw [e] at hs
    obtain ⟨hr, -⟩ := Prod.mk.inj (Option.some.inj hs)
    obtain rfl := Option.some.inj (Prod.mk.inj hr).2
    have hd : ((L.addDct n mrow mcol true idx).note1 true L1C_SUCCESS).d2 = some ⟨mrow, mcol, n, idx⟩ := rfl
    obtain ⟨hm, s, -, -, hi⟩ := hR.d2 _ hd
    refine ⟨hi, ⟨?_, imageFuns_set hp hi, fun w1 hw1 op a out => ?_⟩, ?_⟩
    · show Option.isSome _ = true
      rw [hd]; rfl
    · exact ((C31_independent_partial hw1).2.1 _ hd).2 op a out
    · have hn : L.d2 = none := by
        cases hd1 : L.d2 with
        | none => rfl
        | some c => exact absurd (Or.inl (by rw [if_pos rfl, hd1]; rfl)) hb
      show Sets.mk L.d1 none L.tv L.mat _ _ = Sets.mk L.d1 L.d2 L.tv L.mat _ _
      rw [hn]; rfl

/-! ## Running the routine -/

theorem nbind_some {σ α β : Type} {x : NM σ α} {g : α → NM σ β} {s s' : NState σ} {c : β} (h : (x >>= g) s = some (c, s')) :
    ∃ a s1, x s = some (a, s1) ∧ g a s1 = some (c, s') := by
  obtain ⟨⟨a, s1⟩, h1, h2⟩ := Option.bind_eq_some_iff.1 h
  exact ⟨a, s1, h1, h2⟩

theorem nlift_some' {σ α : Type} {o : Option α} {a : α} {s s' : NState σ} (h : (nlift o : NM σ α) s = some (a, s')) :
    o = some a ∧ s = s' := by
  obtain ⟨a', h1, h2⟩ := Option.map_eq_some_iff.1 h
  obtain ⟨rfl, rfl⟩ := Prod.mk.inj h2
  exact ⟨h1, rfl⟩

theorem nrun_some {σ α : Type} {x : OM σ α} {a : α} {s s' : NState σ} (h : nrun x s = some (a, s')) :
    ∃ c, x s.cb = some (a, c) ∧ s' = { s with cb := c } := by
  obtain ⟨⟨a', c⟩, h1, h2⟩ := Option.map_eq_some_iff.1 h
  obtain ⟨rfl, rfl⟩ := Prod.mk.inj h2
  exact ⟨c, h1, rfl⟩

theorem nrun_eq {σ α : Type} {x : OM σ α} {a : α} {s : NState σ} {c : σ} (h : x s.cb = some (a, c)) :
    nrun x s = some (a, { s with cb := c }) := by
  unfold nrun; rw [h]; rfl

theorem npure_some {σ α : Type} {a a' : α} {s s' : NState σ} (h : (pure a : NM σ α) s = some (a', s')) : a = a' ∧ s = s' :=
  Prod.mk.inj (Option.some.inj h)

omit [Scalar F] in
/-- writing the same range twice -/
theorem writeAt_writeAt {p : ℕ} {x y : Vec F m} {v v1 : Vec F p} (h : writeAt 0 x v = some v1) : writeAt 0 y v1 = writeAt 0 y v := by
  by_cases hp : 0 + m ≤ p
  · rw [writeAt_eq 0 hp] at h
    rw [writeAt_eq 0 hp, writeAt_eq 0 hp]
    congr 1
    funext k
    split
    · rfl
    · rename_i hk
      rw [← Option.some.inj h]
      exact dif_neg hk
  · unfold writeAt at h
    rw [if_neg hp] at h
    cases h

/-- transforming back into an array that is long enough -/
theorem mx_call {f : DctFuns F m n} {ix : Fin n → Int} (H : LiveDct lib L K f ix) (hw : Hist lib w L) {x : Vec F m} {o : XOut F m m m}
    (ho : f.Mx x DctBuf.fresh = some o) (out : Arr F) :
    (wcall lib K .Mx ⟨m, x⟩ out w).map (·.1) = (writeAt 0 o.res out.2).map fun y => (⟨m, o.arg⟩, ⟨out.1, y⟩) := by
  rw [H.call w hw]
  show (onArrays f.Mx _ _ _).map _ = _
  unfold onArrays
  dsimp only
  rw [slice_full]
  simp only [Option.bind_eq_bind, Option.bind_some, ho, writeAt_full]
  cases writeAt 0 o.res out.2 <;> rfl

theorem recover_eq {f : DctFuns F m n} {b : Vec F n} {opts prm : QOpts F} {a : XOut F m n m} {u : Vec F m} {r : QOut F n m} {v : Unit}
    {o : XOut F m m m} (h1 : f.Aty b DctBuf.fresh = some a) (h2 : l1qc_newton_init a.res opts = some (u, prm))
    (h3 : l1qc_solve (pureAx f) prm b a.res u () = some (r, v)) (h4 : f.Mx r.x DctBuf.fresh = some o) :
    recover f b opts = some (r.res, o.res) := by
  unfold recover
  refine Option.bind_eq_some_iff.2 ⟨a, h1, Option.bind_eq_some_iff.2 ⟨(u, prm), h2, ?_⟩⟩
  refine Option.bind_eq_some_iff.2 ⟨(r, v), h3, Option.bind_eq_some_iff.2 ⟨o, h4, rfl⟩⟩

section body
variable {f : DctFuns F m n} {ix : Fin n → Int} {b x_out : Arr F} {opts : QOpts F} {s s' : NState (World F)} {out : DctOut F}

theorem body_inv (H : LiveDct lib L K f ix) (hs : s.WF) (hw : Hist lib s.cb L)
    (h : l1qc_dct_body lib K n m b x_out opts s = some (out, s')) :
    s'.live = s.live ∧ Hist lib s'.cb L ∧ s.oracle s.calls = true ∧ ∃ b', slice n 0 b.2 = some b' ∧
      ((∃ res : LBResult F, res.status = L1C_OUT_OF_MEMORY ∧ out = ⟨L1C_OUT_OF_MEMORY, some res, x_out⟩ ∧ ∃ i < 19, s.oracle (s.calls + i) = false) ∨
       ∃ res y, recover f b' opts = some (res, y) ∧
        ((res.status ≠ 0 ∧ out = ⟨res.status, some res, x_out⟩) ∨
         (res.status = 0 ∧ ∃ z, writeAt 0 y x_out.2 = some z ∧ out = ⟨0, some res, ⟨x_out.1, z⟩⟩))) := by
  obtain ⟨-, t2, -, t4⟩ := dctSet_total H.set
  unfold l1qc_dct_body at h
  obtain ⟨b', s1, h1, h⟩ := nbind_some h
  obtain ⟨hb, rfl⟩ := nlift_some' h1
  obtain ⟨eta, s2, h2, h⟩ := nbind_some h
  obtain ⟨a, ha⟩ := t2 b'
  obtain ⟨w1, e1, hw1⟩ := setOp_run H hw (op := .Aty) (fun _ _ _ => rfl) ha
  rw [nrun_eq e1] at h2
  obtain ⟨rfl, rfl⟩ := Prod.mk.inj (Option.some.inj h2)
  obtain ⟨r, s3, h3, h⟩ := nbind_some h
  obtain ⟨hor, hlive, u, prm', hi, hr⟩ := newton_run_inv (s := { s with cb := w1 }) hs h3
  rcases hr with ⟨hf, rfl, hcb⟩ | ⟨-, hsol⟩
  · rw [if_pos (by show L1C_OUT_OF_MEMORY ≠ 0; decide)] at h
    obtain ⟨rfl, rfl⟩ := npure_some h
    exact ⟨hlive, by rw [hcb]; exact hw1, hor, b', hb, Or.inl ⟨_, rfl, rfl, hf⟩⟩
  · obtain ⟨g1, -⟩ | ⟨r', w3, u', g1, g2, g3⟩ := solve_sim (setAx_sim H) prm' b' a.res u w1 () hw1
    · have hsol : l1qc_solve (setAx lib K n m) prm' b' a.res u w1 = some (r, s3.cb) := hsol
      rw [g1] at hsol; cases hsol
    have hsol : l1qc_solve (setAx lib K n m) prm' b' a.res u w1 = some (r, s3.cb) := hsol
    rw [g1] at hsol
    obtain ⟨rfl, rfl⟩ := Prod.mk.inj (Option.some.inj hsol)
    obtain ⟨o, ho⟩ := t4 r'.x
    have hrec : recover f b' opts = some (r'.res, o.res) := by
      exact recover_eq ha hi g2 ho
    by_cases hst : r'.res.status = 0
    · rw [if_neg (not_not.2 hst)] at h
      obtain ⟨x1, s4, h4, h⟩ := nbind_some h
      obtain ⟨hx1, rfl⟩ := nlift_some' h4
      obtain ⟨y, s5, h5, h⟩ := nbind_some h
      obtain ⟨rfl, rfl⟩ := npure_some h
      obtain ⟨w5, h6, rfl⟩ := nrun_some h5
      have hc := mx_call H g3 ho ⟨x_out.1, x1⟩
      have h6' : wcall lib K .Mx ⟨m, r'.x⟩ ⟨x_out.1, x1⟩ s3.cb = some (y, w5) := h6
      rw [h6', writeAt_writeAt hx1] at hc
      obtain ⟨z, hz, hy⟩ := Option.map_eq_some_iff.1 hc.symm
      dsimp only at hz hy
      refine ⟨hlive, .call K .Mx _ _ g3 H.has h6', hor, b', hb, Or.inr ⟨_, _, hrec, Or.inr ⟨hst, z, hz, ?_⟩⟩⟩
      rw [← hy]
    · rw [if_pos hst] at h
      obtain ⟨rfl, rfl⟩ := npure_some h
      exact ⟨hlive, g3, hor, b', hb, Or.inr ⟨_, _, hrec, Or.inl ⟨hst, rfl⟩⟩⟩

/-- the iteration counters of the solver fit into `int` -/
structure CountersFit (prm : QOpts F) : Prop where
  cg0 : 0 ≤ prm.cg_maxiter
  cg1 : prm.cg_maxiter < INT_MAX
  lb : (prm.lbiter.toNat : Int) < INT_MAX
  tot_cg : prm.lbiter.toNat * ((prm.newton_max_iter - 1).toNat * prm.cg_maxiter) ≤ INT_MAX
  tot_nw : prm.lbiter.toNat * (((prm.newton_max_iter - 1).toNat : Int) + 1) ≤ INT_MAX

theorem body_total (H : LiveDct lib L K f ix) (hs : s.WF) (hw : Hist lib s.cb L) (hx : m ≤ x_out.1) (hnm : n ≤ m) {b' : Vec F n}
    (hb : slice n 0 b.2 = some b') {a : XOut F m n m} (ha : f.Aty b' DctBuf.fresh = some a) {u : Vec F m} {prm : QOpts F}
    (hi : l1qc_newton_init a.res opts = some (u, prm)) (hc : CountersFit prm) (ho : s.oracle s.calls = true) :
    ∃ out s', l1qc_dct_body lib K n m b x_out opts s = some (out, s') ∧ s'.live = s.live ∧ Hist lib s'.cb L := by
  obtain ⟨-, -, -, t4⟩ := dctSet_total H.set
  obtain ⟨w1, e1, hw1⟩ := setOp_run H hw (op := .Aty) (fun _ _ _ => rfl) ha
  have hc' := hc
  obtain ⟨t, Lb, rfl, -⟩ := init_opts hi
  obtain ⟨r, s3, h3, hl3, hI3, -⟩ := C51_defined_partial (setAx_total H) hnm (b := b') hi hc'.cg0 hc'.cg1 hc'.lb hc'.tot_cg hc'.tot_nw
    (s := { s with cb := w1 }) hs hw1 ho
  unfold l1qc_dct_body
  rw [nbind (nlift_some hb s), nbind (nrun_eq e1), nbind h3]
  by_cases hst : r.res.status = 0
  · rw [if_neg (not_not.2 hst)]
    obtain ⟨x1, hx1⟩ := writeAt_some 0 (by omega) r.x x_out.2
    rw [nbind (nlift_some hx1 s3)]
    obtain ⟨o, ho⟩ := t4 r.x
    have hcl := mx_call H hI3 ho ⟨x_out.1, x1⟩
    rw [writeAt_writeAt hx1] at hcl
    obtain ⟨z, hz⟩ := writeAt_some 0 (by omega) o.res x_out.2
    rw [hz] at hcl
    obtain ⟨⟨q, w5⟩, h5, -⟩ := Option.map_eq_some_iff.1 hcl
    rw [nbind (nrun_eq (x := fun w => wcall lib K .Mx ⟨m, r.x⟩ ⟨x_out.1, x1⟩ w) h5)]
    exact ⟨_, _, rfl, hl3, .call K .Mx _ _ hI3 H.has h5⟩
  · rw [if_pos hst]
    exact ⟨_, _, rfl, hl3, hI3⟩

end body

/-- what the recovery does once the set is live and both arrays are there, or not -/
def Recovers (f : DctFuns F m n) (b x_out : Arr F) (opts : QOpts F) (out : DctOut F) (oom : Prop) : Prop :=
  ∃ b', slice n 0 b.2 = some b' ∧
    ((∃ res : LBResult F, res.status = L1C_OUT_OF_MEMORY ∧ out = ⟨L1C_OUT_OF_MEMORY, some res, x_out⟩ ∧ oom) ∨
     ∃ res y, recover f b' opts = some (res, y) ∧
      ((res.status ≠ 0 ∧ out = ⟨res.status, some res, x_out⟩) ∨
       (res.status = 0 ∧ ∃ z, writeAt 0 y x_out.2 = some z ∧ out = ⟨0, some res, ⟨x_out.1, z⟩⟩)))

section whole
variable {mrow mcol : ℕ} {mode : Int} {idx : List Int} {b x_out : Arr F} {opts : QOpts F} {s s' : NState (World F)} {out : DctOut F}

theorem erase_two {l : Finset ℕ} {a c : ℕ} (h1 : a ∉ l) (h2 : c ∉ l) (h3 : a ≠ c) : ((insert c (insert a l)).erase c).erase a = l := by
  rw [Finset.erase_insert (by simp [h2, Ne.symm h3]), Finset.erase_insert h1]

/-- how every defined run ends -/
theorem dct_inv (hs : s.WF) (hw : Hist lib s.cb L) (hl : idx.length = n) (hb : ¬ L.busy (twoDim mrow mcol mode))
    (h : l1qc_dct lib mrow mcol x_out n b idx mode opts s = some (out, s')) :
    FitsInt (mrow * mcol) ∧ s'.live = s.live ∧ ∃ r w1, l1c_setup_dct_transforms n mrow mcol mode idx s.cb = some (r, w1) ∧
      ((r.2 = none ∧ out = ⟨L1C_DCT_INIT_FAILURE, none, x_out⟩ ∧ s'.cb = w1) ∨
       (r.2.isSome ∧ r.1 = L1C_SUCCESS ∧ Hist lib s'.cb (L.note1 (twoDim mrow mcol mode) L1C_SUCCESS) ∧ ∃ hp : 0 < mrow ∧ 0 < mcol,
        IdxOk (mrow * mcol) (idxFun n idx) ∧
        (((s.oracle s.calls = false ∨ s.oracle (s.calls + 1) = false) ∧ out = ⟨L1C_OUT_OF_MEMORY, none, x_out⟩) ∨
         (s.oracle s.calls = true ∧ s.oracle (s.calls + 1) = true ∧ s.oracle (s.calls + 2) = true ∧
          Recovers (imageFuns lib mrow mcol n idx (twoDim mrow mcol mode) hp) b x_out opts out (∃ i < 19, s.oracle (s.calls + 2 + i) = false))))) := by
  unfold l1qc_dct at h
  obtain ⟨mt, s0, h0, h⟩ := nbind_some h
  obtain ⟨c0, e0, rfl⟩ := nrun_some h0
  have hf : FitsInt ((mrow : Int) * mcol) := by
    by_contra hc
    unfold wmul at e0
    rw [if_neg hc] at e0
    cases e0
  have e0' : mt = (mrow : Int) * mcol ∧ c0 = s.cb := by
    unfold wmul at e0
    rw [if_pos hf] at e0
    obtain ⟨h1, h2⟩ := Prod.mk.inj (Option.some.inj e0)
    exact ⟨h1.symm, h2.symm⟩
  obtain ⟨rfl, rfl⟩ := e0'
  clear h0 e0
  obtain ⟨r, s1, h1, h⟩ := nbind_some h
  obtain ⟨w1, e1, rfl⟩ := nrun_some h1
  have e1 : l1c_setup_dct_transforms n mrow mcol mode idx s.cb = some (r, w1) := e1
  refine ⟨hf, ?_⟩
  obtain ⟨st, ax⟩ := r
  cases ax with
  | none =>
    dsimp only at h
    obtain ⟨rfl, rfl⟩ := npure_some h
    exact ⟨rfl, _, _, e1, Or.inl ⟨rfl, rfl, rfl⟩⟩
  | some ax =>
    obtain ⟨rfl, hp, L', hH, hi, hlive, hdrop⟩ := setup_live hw hl hb hf e1
    dsimp only at h
    rw [if_neg (by decide)] at h
    have hds : ∀ w2, Hist lib w2 L' → ∀ w3, wdestroy ax.kind w2 = some ((), w3) → Hist lib w3 (L.note1 (twoDim mrow mcol mode) L1C_SUCCESS) := by
      intro w2 hw2 w3 hw3
      rw [← hdrop]
      exact .destroy _ hw2 hlive.has hw3
    have n0 : s.next ∉ s.live := fun hc => absurd (hs _ hc) (lt_irrefl _)
    have n1 : s.next + 1 ∉ s.live := fun hc => absurd (hs _ hc) (by omega)
    cases ho : s.oracle s.calls with
    | false =>
      rw [nbind (nalloc_fail (s := { s with cb := w1 }) ho)] at h
      cases ho1 : s.oracle (s.calls + 1) with
      | false =>
        dsimp only at h
        rw [nbind (nalloc_fail (s := ⟨s.live, s.next, s.calls + 1, s.oracle, w1⟩) ho1)] at h
        rw [if_pos (by simp)] at h
        obtain ⟨o, s2, h2, h⟩ := nbind_some h
        obtain ⟨rfl, rfl⟩ := npure_some h2
        obtain ⟨⟨⟩, s3, h3, h⟩ := nbind_some h
        obtain ⟨w3, e3, rfl⟩ := nrun_some h3
        rw [nbind (show nfree none _ = some ((), _) from rfl), nbind (show nfree none _ = some ((), _) from rfl)] at h
        obtain ⟨rfl, rfl⟩ := npure_some h
        exact ⟨rfl, _, _, e1, Or.inr ⟨rfl, rfl, hds _ hH _ e3, hp, hi, Or.inl ⟨Or.inl rfl, rfl⟩⟩⟩
      | true =>
        dsimp only at h
        rw [nbind (nalloc_ok (s := ⟨s.live, s.next, s.calls + 1, s.oracle, w1⟩) ho1)] at h
        rw [if_pos (by simp)] at h
        obtain ⟨o, s2, h2, h⟩ := nbind_some h
        obtain ⟨rfl, rfl⟩ := npure_some h2
        obtain ⟨⟨⟩, s3, h3, h⟩ := nbind_some h
        obtain ⟨w3, e3, rfl⟩ := nrun_some h3
        rw [nbind (nfree_some (Finset.mem_insert_self _ _)), nbind (show nfree none _ = some ((), _) from rfl)] at h
        obtain ⟨rfl, rfl⟩ := npure_some h
        exact ⟨Finset.erase_insert n0, _, _, e1, Or.inr ⟨rfl, rfl, hds _ hH _ e3, hp, hi, Or.inl ⟨Or.inl rfl, rfl⟩⟩⟩
    | true =>
      rw [nbind (nalloc_ok (s := { s with cb := w1 }) ho)] at h
      cases ho1 : s.oracle (s.calls + 1) with
      | false =>
        dsimp only at h
        rw [nbind (nalloc_fail (s := ⟨insert s.next s.live, s.next + 1, s.calls + 1, s.oracle, w1⟩) ho1)] at h
        rw [if_pos (by simp)] at h
        obtain ⟨o, s2, h2, h⟩ := nbind_some h
        obtain ⟨rfl, rfl⟩ := npure_some h2
        obtain ⟨⟨⟩, s3, h3, h⟩ := nbind_some h
        obtain ⟨w3, e3, rfl⟩ := nrun_some h3
        rw [nbind (show nfree none _ = some ((), _) from rfl), nbind (nfree_some (Finset.mem_insert_self _ _))] at h
        obtain ⟨rfl, rfl⟩ := npure_some h
        exact ⟨Finset.erase_insert n0, _, _, e1, Or.inr ⟨rfl, rfl, hds _ hH _ e3, hp, hi, Or.inl ⟨Or.inr rfl, rfl⟩⟩⟩
      | true =>
        dsimp only at h
        rw [nbind (nalloc_ok (s := ⟨insert s.next s.live, s.next + 1, s.calls + 1, s.oracle, w1⟩) ho1)] at h
        rw [if_neg (by simp)] at h
        obtain ⟨o, s2, h2, h⟩ := nbind_some h
        have hwf : ({ s with cb := w1, live := insert (s.next + 1) (insert s.next s.live), next := s.next + 1 + 1, calls := s.calls + 1 + 1 } :
            NState (World F)).WF := by
          intro c hc
          rcases Finset.mem_insert.1 hc with rfl | hc
          · exact Nat.lt_succ_self _
          rcases Finset.mem_insert.1 hc with rfl | hc
          · show s.next < s.next + 1 + 1; omega
          · have := hs c hc; show c < s.next + 1 + 1; omega
        obtain ⟨k1, k2, kor, k3⟩ := body_inv (f := imageFuns lib mrow mcol n idx (twoDim mrow mcol mode) hp) hlive hwf hH h2
        obtain ⟨⟨⟩, s3, h3, h⟩ := nbind_some h
        obtain ⟨w3, e3, rfl⟩ := nrun_some h3
        dsimp only at k1 h
        have m1 : s.next + 1 ∈ ({ s2 with cb := w3 } : NState (World F)).live := by
          show s.next + 1 ∈ s2.live
          rw [k1]; exact Finset.mem_insert_self _ _
        rw [nbind (nfree_some m1)] at h
        have m2 : s.next ∈ ({ s2 with cb := w3, live := s2.live.erase (s.next + 1) } : NState (World F)).live := by
          show s.next ∈ s2.live.erase (s.next + 1)
          rw [k1]; simp
        rw [nbind (nfree_some m2)] at h
        obtain ⟨rfl, rfl⟩ := npure_some h
        refine ⟨?_, _, _, e1, Or.inr ⟨rfl, rfl, hds _ k2 _ e3, hp, hi, Or.inr ⟨rfl, rfl, kor, k3⟩⟩⟩
        show (s2.live.erase (s.next + 1)).erase s.next = s.live
        rw [k1]
        exact erase_two n0 n1 (by omega)

/-- a run in which the set could be set up is defined, unless the solver has undefined behaviour -/
theorem dct_total (hs : s.WF) (hw : Hist lib s.cb L) (hl : idx.length = n) (hb : ¬ L.busy (twoDim mrow mcol mode))
    (hf : FitsInt (mrow * mcol)) (hp : 0 < mrow ∧ 0 < mcol) {ax : AxFuns F} {st : Int}
    (hset : l1c_setup_dct_transforms n mrow mcol mode idx s.cb = some ((st, some ax), w')) (hx : mrow * mcol ≤ x_out.1)
    (hnm : n ≤ mrow * mcol) {b' : Vec F n} (hb' : slice n 0 b.2 = some b') {a : XOut F (mrow * mcol) n (mrow * mcol)}
    (ha : (imageFuns lib mrow mcol n idx (twoDim mrow mcol mode) hp).Aty b' DctBuf.fresh = some a) {u : Vec F (mrow * mcol)} {prm : QOpts F}
    (hi : l1qc_newton_init a.res opts = some (u, prm)) (hc : CountersFit prm) (ho2 : s.oracle (s.calls + 2) = true) :
    ∃ out s', l1qc_dct lib mrow mcol x_out n b idx mode opts s = some (out, s') := by
  obtain ⟨rfl, hp', L', hH, hi', hlive, hdrop⟩ := setup_live hw hl hb hf hset
  have hds : ∀ w2, Hist lib w2 L' → ∃ w3, wdestroy ax.kind w2 = some ((), w3) := by
    intro w2 hw2
    obtain ⟨w3, h3, -⟩ := C32_destroy_partial hw2 hlive.has
    exact ⟨w3, h3⟩
  have n0 : s.next ∉ s.live := fun hc => absurd (hs _ hc) (lt_irrefl _)
  unfold l1qc_dct
  have e0 : wmul (F := F) (mrow : Int) mcol s.cb = some ((mrow : Int) * mcol, s.cb) := by
    unfold wmul; rw [if_pos hf]
  rw [nbind (nrun_eq e0), nbind (nrun_eq (s := { s with cb := s.cb }) hset)]
  dsimp only
  rw [if_neg (by decide)]
  cases ho : s.oracle s.calls with
  | false =>
    rw [nbind (nalloc_fail (s := ⟨s.live, s.next, s.calls, s.oracle, w'⟩) ho)]
    dsimp only
    obtain ⟨w3, h3⟩ := hds _ hH
    cases ho1 : s.oracle (s.calls + 1) with
    | false =>
      rw [nbind (nalloc_fail (s := ⟨s.live, s.next, s.calls + 1, s.oracle, w'⟩) ho1), if_pos (by simp), nbind (npure _ _), nbind (nrun_eq h3)]
      exact ⟨_, _, rfl⟩
    | true =>
      rw [nbind (nalloc_ok (s := ⟨s.live, s.next, s.calls + 1, s.oracle, w'⟩) ho1), if_pos (by simp), nbind (npure _ _), nbind (nrun_eq h3),
        nbind (nfree_some (Finset.mem_insert_self _ _))]
      exact ⟨_, _, rfl⟩
  | true =>
    rw [nbind (nalloc_ok (s := ⟨s.live, s.next, s.calls, s.oracle, w'⟩) ho)]
    dsimp only
    cases ho1 : s.oracle (s.calls + 1) with
    | false =>
      obtain ⟨w3, h3⟩ := hds _ hH
      rw [nbind (nalloc_fail (s := ⟨insert s.next s.live, s.next + 1, s.calls + 1, s.oracle, w'⟩) ho1), if_pos (by simp), nbind (npure _ _),
        nbind (nrun_eq h3), nbind (show nfree none _ = some ((), _) from rfl), nbind (nfree_some (Finset.mem_insert_self _ _))]
      exact ⟨_, _, rfl⟩
    | true =>
      rw [nbind (nalloc_ok (s := ⟨insert s.next s.live, s.next + 1, s.calls + 1, s.oracle, w'⟩) ho1), if_neg (by simp)]
      have hwf : ({ s with cb := w', live := insert (s.next + 1) (insert s.next s.live), next := s.next + 1 + 1, calls := s.calls + 1 + 1 } :
          NState (World F)).WF := by
        intro c hc
        rcases Finset.mem_insert.1 hc with rfl | hc
        · exact Nat.lt_succ_self _
        rcases Finset.mem_insert.1 hc with rfl | hc
        · show s.next < s.next + 1 + 1; omega
        · have := hs c hc; show c < s.next + 1 + 1; omega
      obtain ⟨out, s2, h2, k1, k2⟩ := body_total (b := b) (x_out := x_out) (opts := opts) hlive hwf hH hx hnm hb' ha hi hc ho2
      obtain ⟨w3, h3⟩ := hds _ k2
      rw [nbind (show l1qc_dct_body lib ax.kind (n : Int).toNat ((mrow : Int) * mcol).toNat b x_out opts
        ⟨insert (s.next + 1) (insert s.next s.live), s.next + 1 + 1, s.calls + 1 + 1, s.oracle, w'⟩ = _ from h2), nbind (nrun_eq h3)]
      dsimp only at k1
      have m1 : s.next + 1 ∈ ({ s2 with cb := w3 } : NState (World F)).live := by
        show s.next + 1 ∈ s2.live
        rw [k1]; exact Finset.mem_insert_self _ _
      rw [nbind (nfree_some m1)]
      have m2 : s.next ∈ ({ s2 with cb := w3, live := s2.live.erase (s.next + 1) } : NState (World F)).live := by
        show s.next ∈ s2.live.erase (s.next + 1)
        rw [k1]; simp
      rw [nbind (nfree_some m2)]
      exact ⟨_, _, rfl⟩

end whole

end L1c
