import Verif.Proofs.Frame
import Verif.Proofs.NestaSet

/-! # Two runs of NESTA with the same inputs, from different states of the library -/

namespace L1c
open Scalar

/-! ## The operators of a DCT-TV set in analysis mode -/

section ops
variable {F : Type} [Scalar F] {mrow mcol n : ℕ} {c : TvCfg F mrow mcol n} {idx : Fin n → Int}

theorem OpOk.agree {m k l n : ℕ} {idx : Fin n → Int} {op : Vec F l → DctBuf F m → Option (XOut F k l m)} (h : OpOk idx op) {x : Vec F l} {s s' : DctBuf F m} {o o'}
    (hs : BufInv idx s) (hs' : BufInv idx s') (ho : op x s = some o) (ho' : op x s' = some o') : o.res = o'.res := by
  obtain ⟨a, b, h1, h2, h3, -⟩ := h.same x s hs
  obtain ⟨a', b', h1', h2', h3', -⟩ := h.same x s' hs'
  rw [h1] at ho
  rw [h1'] at ho'
  rw [h2] at h2'
  cases ho
  cases ho'
  cases h2'
  exact h3.trans h3'.symm

omit [Scalar F] in
theorem writeAt_agree {k p off : ℕ} {x x' : Vec F k} {v v' w w' : Vec F p} (hx : x = x') (hv : v = v') (h : writeAt off x v = some w) (h' : writeAt off x' v' = some w') :
    w = w' := by
  subst hx hv
  exact Option.some.inj (h.symm.trans h')

theorem tvWv_agree (ok : SetOk c.loc idx) {v : Vec F c.p} {s s' : TvBuf F (mrow * mcol) c.p} {o o'} (hs : BufInv idx s.dct) (hs' : BufInv idx s'.dct)
    (ho : tvWv c v s = some o) (ho' : tvWv c v s' = some o') : o.res = o'.res := by
  unfold tvWv at ho ho'
  obtain ⟨v0, e0, ho⟩ := bind_some_iff.1 ho
  obtain ⟨v0', e0', ho'⟩ := bind_some_iff.1 ho'
  obtain rfl : v0 = v0' := Option.some.inj (e0.symm.trans e0')
  obtain ⟨r, e1, ho⟩ := bind_some_iff.1 ho
  obtain ⟨r', e1', ho'⟩ := bind_some_iff.1 ho'
  have hr := ok.Mx.agree hs hs' e1 e1'
  obtain ⟨u, e2, ho⟩ := bind_some_iff.1 ho
  obtain ⟨u', e2', ho'⟩ := bind_some_iff.1 ho'
  obtain ⟨y, e3, ho⟩ := bind_some_iff.1 ho
  obtain ⟨y', e3', ho'⟩ := bind_some_iff.1 ho'
  obtain rfl : y = y' := by
    rw [slice_writeAt e2] at e3
    rw [slice_writeAt e2'] at e3'
    cases e3
    cases e3'
    exact hr
  obtain ⟨⟨u1, y1⟩, e4, ho⟩ := bind_some_iff.1 ho
  obtain ⟨⟨u1', y1'⟩, e4', ho'⟩ := bind_some_iff.1 ho'
  dsimp only at ho ho'
  obtain rfl : y1 = y1' := by
    split at e4
    · rename_i hj
      rw [if_pos hj] at e4'
      obtain ⟨w, g1, e4⟩ := bind_some_iff.1 e4
      obtain ⟨w', g1', e4'⟩ := bind_some_iff.1 e4'
      obtain rfl : w = w' := Option.some.inj (g1.symm.trans g1')
      obtain ⟨z, g2, e4⟩ := bind_some_iff.1 e4
      obtain ⟨z', g2', e4'⟩ := bind_some_iff.1 e4'
      rw [slice_writeAt g2] at e4
      rw [slice_writeAt g2'] at e4'
      cases e4
      cases e4'
      rfl
    · rename_i hj
      rw [if_neg hj] at e4'
      cases e4
      cases e4'
      rfl
  obtain ⟨⟨u2, y2⟩, e5, ho⟩ := bind_some_iff.1 ho
  obtain ⟨⟨u2', y2'⟩, e5', ho'⟩ := bind_some_iff.1 ho'
  dsimp only at ho ho'
  obtain rfl : y2 = y2' := by
    split at e5
    · rename_i hj
      rw [if_pos hj] at e5'
      obtain ⟨w, g1, e5⟩ := bind_some_iff.1 e5
      obtain ⟨w', g1', e5'⟩ := bind_some_iff.1 e5'
      obtain rfl : w = w' := Option.some.inj (g1.symm.trans g1')
      obtain ⟨z, g2, e5⟩ := bind_some_iff.1 e5
      obtain ⟨z', g2', e5'⟩ := bind_some_iff.1 e5'
      rw [slice_writeAt g2] at e5
      rw [slice_writeAt g2'] at e5'
      cases e5
      cases e5'
      rfl
    · rename_i hj
      rw [if_neg hj] at e5'
      cases e5
      cases e5'
      rfl
  cases ho
  cases ho'
  rfl

theorem tvWtx_agree (ok : SetOk c.loc idx) {x : Vec F (mrow * mcol)} {old : Vec F c.p} {s s' : TvBuf F (mrow * mcol) c.p} {o o'} (hs : BufInv idx s.dct)
    (hs' : BufInv idx s'.dct) (ho : tvWtx c x old s = some o) (ho' : tvWtx c x old s' = some o') : o.res = o'.res := by
  unfold tvWtx at ho ho'
  obtain ⟨r, e1, ho⟩ := bind_some_iff.1 ho
  obtain ⟨r', e1', ho'⟩ := bind_some_iff.1 ho'
  have hr := ok.Mty.agree hs hs' e1 e1'
  obtain ⟨u, e2, ho⟩ := bind_some_iff.1 ho
  obtain ⟨u', e2', ho'⟩ := bind_some_iff.1 ho'
  obtain rfl := writeAt_agree hr rfl e2 e2'
  obtain ⟨v1, e3, ho⟩ := bind_some_iff.1 ho
  obtain ⟨v1', e3', ho'⟩ := bind_some_iff.1 ho'
  obtain rfl : v1 = v1' := Option.some.inj (e3.symm.trans e3')
  obtain ⟨v2, e4, ho⟩ := bind_some_iff.1 ho
  obtain ⟨v2', e4', ho'⟩ := bind_some_iff.1 ho'
  obtain rfl : v2 = v2' := Option.some.inj (e4.symm.trans e4')
  cases ho
  cases ho'
  rfl

theorem dctMx_arg {m n : ℕ} {f : DctFuns F m n} {idx : Fin n → Int} (h : DctSet f idx) {x : Vec F m} {s s' : DctBuf F m} {o o'} (ho : f.Mx x s = some o)
    (ho' : f.Mx x s' = some o') : o.arg = o'.arg := by
  cases h with
  | d1 fw idx _ =>
    cases ho
    cases ho'
    rfl
  | d2 fw idx _ =>
    cases ho
    cases ho'
    rfl

theorem tvWvArg_agree (h : DctSet c.loc idx) {v : Vec F c.p} {s s' : TvBuf F (mrow * mcol) c.p} {o o'} (ho : tvWv c v s = some o) (ho' : tvWv c v s' = some o') :
    tvWvArg c v s = tvWvArg c v s' := by
  unfold tvWv at ho ho'
  obtain ⟨v0, e0, ho⟩ := bind_some_iff.1 ho
  obtain ⟨v0', e0', ho'⟩ := bind_some_iff.1 ho'
  obtain rfl : v0 = v0' := Option.some.inj (e0.symm.trans e0')
  obtain ⟨r, e1, ho⟩ := bind_some_iff.1 ho
  obtain ⟨r', e1', ho'⟩ := bind_some_iff.1 ho'
  unfold tvWvArg
  simp only [e0, e1, e1', dctMx_arg h e1 e1', Option.bind_eq_bind, Option.bind_some]

/-- two reachable states of an analysis set: every operator writes the same -/
theorem tvAll_agree (h : DctSet c.loc idx) {s s' : TvBuf F (mrow * mcol) c.p} (hs : TvReach c s) (hs' : TvReach c s') {op : Op} {a out : Arr F} {r r'}
    (ho : tvAll c false op a out s = some r) (ho' : tvAll c false op a out s' = some r') : r.1 = r'.1 := by
  have ok := setOk h
  have i := tvReach_inv h hs
  have i' := tvReach_inv h hs'
  unfold tvAll at ho ho'
  split at ho
  · rename_i hj
    rw [if_pos hj] at ho'
    obtain ⟨z, e, rfl⟩ := Option.map_eq_some_iff.1 ho
    obtain ⟨z', e', rfl⟩ := Option.map_eq_some_iff.1 ho'
    rw [e] at e'
    cases e'
    rfl
  rename_i hj
  rw [if_neg hj] at ho'
  split at ho
  · cases ho
  rename_i hj2
  rw [if_neg hj2] at ho'
  have kR : ∀ {r r'}, (do
      let x ← slice (mrow * mcol) 0 a.2
      let o ← tvRx c x s
      let y ← writeAt 0 o.res out.2
      return ((a, ⟨out.1, y⟩), o.buf) : Option ((Arr F × Arr F) × TvBuf F (mrow * mcol) c.p)) = some r → (do
      let x ← slice (mrow * mcol) 0 a.2
      let o ← tvRx c x s'
      let y ← writeAt 0 o.res out.2
      return ((a, ⟨out.1, y⟩), o.buf) : Option ((Arr F × Arr F) × TvBuf F (mrow * mcol) c.p)) = some r' → r.1 = r'.1 := by
    intro r r' ho ho'
    obtain ⟨x, e1, ho⟩ := bind_some_iff.1 ho
    obtain ⟨x', e1', ho'⟩ := bind_some_iff.1 ho'
    obtain rfl : x = x' := Option.some.inj (e1.symm.trans e1')
    obtain ⟨q, e2, ho⟩ := bind_some_iff.1 ho
    obtain ⟨q', e2', ho'⟩ := bind_some_iff.1 ho'
    unfold tvRx at e2 e2'
    obtain ⟨z, e2, e3⟩ := bind_some_iff.1 e2
    obtain ⟨z', e2', e3'⟩ := bind_some_iff.1 e2'
    have hq := ok.Rx.agree i i' e2 e2'
    cases e3
    cases e3'
    obtain ⟨y, e4, ho⟩ := bind_some_iff.1 ho
    obtain ⟨y', e4', ho'⟩ := bind_some_iff.1 ho'
    obtain rfl := writeAt_agree hq rfl e4 e4'
    cases ho
    cases ho'
    rfl
  have kRt : ∀ {r r'}, (do
      let y ← slice n 0 a.2
      let old ← slice (mrow * mcol) 0 out.2
      let o ← tvRty c y old s
      let x ← writeAt 0 o.res out.2
      return ((a, ⟨out.1, x⟩), o.buf) : Option ((Arr F × Arr F) × TvBuf F (mrow * mcol) c.p)) = some r → (do
      let y ← slice n 0 a.2
      let old ← slice (mrow * mcol) 0 out.2
      let o ← tvRty c y old s'
      let x ← writeAt 0 o.res out.2
      return ((a, ⟨out.1, x⟩), o.buf) : Option ((Arr F × Arr F) × TvBuf F (mrow * mcol) c.p)) = some r' → r.1 = r'.1 := by
    intro r r' ho ho'
    obtain ⟨x, e1, ho⟩ := bind_some_iff.1 ho
    obtain ⟨x', e1', ho'⟩ := bind_some_iff.1 ho'
    obtain rfl : x = x' := Option.some.inj (e1.symm.trans e1')
    obtain ⟨old, e1, ho⟩ := bind_some_iff.1 ho
    obtain ⟨old', e1', ho'⟩ := bind_some_iff.1 ho'
    obtain rfl : old = old' := Option.some.inj (e1.symm.trans e1')
    obtain ⟨q, e2, ho⟩ := bind_some_iff.1 ho
    obtain ⟨q', e2', ho'⟩ := bind_some_iff.1 ho'
    unfold tvRty at e2 e2'
    obtain ⟨z, e2, e3⟩ := bind_some_iff.1 e2
    obtain ⟨z', e2', e3'⟩ := bind_some_iff.1 e2'
    have hq := (ok.Rty old).agree i i' e2 e2'
    cases e3
    cases e3'
    obtain ⟨y, e4, ho⟩ := bind_some_iff.1 ho
    obtain ⟨y', e4', ho'⟩ := bind_some_iff.1 ho'
    obtain rfl := writeAt_agree hq rfl e4 e4'
    cases ho
    cases ho'
    rfl
  cases op
  case Ax => exact kR ho ho'
  case Aty => exact kRt ho ho'
  case Rx => exact kR ho ho'
  case Rty => exact kRt ho ho'
  case Wz =>
    obtain ⟨v, e1, ho⟩ := bind_some_iff.1 ho
    obtain ⟨v', e1', ho'⟩ := bind_some_iff.1 ho'
    obtain rfl : v = v' := Option.some.inj (e1.symm.trans e1')
    obtain ⟨q, e2, ho⟩ := bind_some_iff.1 ho
    obtain ⟨q', e2', ho'⟩ := bind_some_iff.1 ho'
    obtain ⟨w, e3, ho⟩ := bind_some_iff.1 ho
    obtain ⟨w', e3', ho'⟩ := bind_some_iff.1 ho'
    obtain rfl := writeAt_agree (tvWvArg_agree h e2 e2') rfl e3 e3'
    obtain ⟨y, e4, ho⟩ := bind_some_iff.1 ho
    obtain ⟨y', e4', ho'⟩ := bind_some_iff.1 ho'
    obtain rfl := writeAt_agree (tvWv_agree ok i i' e2 e2') rfl e4 e4'
    cases ho
    cases ho'
    rfl
  case Wtx =>
    obtain ⟨v, e1, ho⟩ := bind_some_iff.1 ho
    obtain ⟨v', e1', ho'⟩ := bind_some_iff.1 ho'
    obtain rfl : v = v' := Option.some.inj (e1.symm.trans e1')
    obtain ⟨old, e1, ho⟩ := bind_some_iff.1 ho
    obtain ⟨old', e1', ho'⟩ := bind_some_iff.1 ho'
    obtain rfl : old = old' := Option.some.inj (e1.symm.trans e1')
    obtain ⟨q, e2, ho⟩ := bind_some_iff.1 ho
    obtain ⟨q', e2', ho'⟩ := bind_some_iff.1 ho'
    obtain ⟨y, e4, ho⟩ := bind_some_iff.1 ho
    obtain ⟨y', e4', ho'⟩ := bind_some_iff.1 ho'
    obtain rfl := writeAt_agree (tvWtx_agree ok i i' e2 e2') rfl e4 e4'
    cases ho
    cases ho'
    rfl
  all_goals cases ho

end ops

/-! ## Programs that give the same from related states -/

section sim
variable {F : Type} [Scalar F] {σ α β : Type} {E : σ → σ → Prop} {n m p : ℕ} {ax : NAx F σ n m p}

/-- two defined runs from related operator states give the same and end in related operator states -/
def NS (E : σ → σ → Prop) (x : NM σ α) : Prop := ∀ s q a b s' q', E s.cb q.cb → x s = some (a, s') → x q = some (b, q') → a = b ∧ E s'.cb q'.cb

theorem NS.pure (a : α) : NS E (pure a : NM σ α) := fun s q a1 b1 s' q' hE h h' => by
  obtain ⟨rfl, rfl⟩ := npure_some h
  obtain ⟨rfl, rfl⟩ := npure_some h'
  exact ⟨rfl, hE⟩

theorem NS.nub : NS E (nub : NM σ α) := fun _ _ _ _ _ _ _ h => by cases h

theorem NS.bind {x : NM σ α} {f : α → NM σ β} (hx : NS E x) (hf : ∀ a, NS E (f a)) : NS E (x >>= f) := by
  intro s q a b s' q' hE h h'
  obtain ⟨u, s1, h1, h2⟩ := nbind_some h
  obtain ⟨v, q1, h1', h2'⟩ := nbind_some h'
  obtain ⟨rfl, hE1⟩ := hx _ _ _ _ _ _ hE h1 h1'
  exact hf u _ _ _ _ _ _ hE1 h2 h2'

theorem NS.nlift (o : Option α) : NS E (nlift o : NM σ α) := by
  intro s q a b s' q' hE h h'
  cases o with
  | none => cases h
  | some o =>
    cases h
    cases h'
    exact ⟨rfl, hE⟩

/-- the operators do -/
structure NAgree (E : σ → σ → Prop) (ax : NAx F σ n m p) : Prop where
  Ax : ∀ f, ax.Ax = some f → ∀ x old c d a b c' d', E c d → f x old c = some (a, c') → f x old d = some (b, d') → a = b ∧ E c' d'
  Aty : ∀ f, ax.Aty = some f → ∀ x old c d a b c' d', E c d → f x old c = some (a, c') → f x old d = some (b, d') → a = b ∧ E c' d'
  Wz : ∀ f, ax.Wz = some f → ∀ x old c d a b c' d', E c d → f x old c = some (a, c') → f x old d = some (b, d') → a = b ∧ E c' d'
  Wtx : ∀ f, ax.Wtx = some f → ∀ x old c d a b c' d', E c d → f x old c = some (a, c') → f x old d = some (b, d') → a = b ∧ E c' d'

omit [Scalar F] in
theorem NS.ncall {l k : ℕ} {f : Option (NOp F σ l k)}
    (hf : ∀ g, f = some g → ∀ x old c d a b c' d', E c d → g x old c = some (a, c') → g x old d = some (b, d') → a = b ∧ E c' d')
    (x : Vec F l) (old : Vec F k) : NS E (ncall f x old) := by
  intro s q a b s' q' hE h h'
  cases f with
  | none => cases h
  | some f =>
    obtain ⟨⟨r, c⟩, e, h⟩ := Option.map_eq_some_iff.1 h
    obtain ⟨⟨r', c'⟩, e', h'⟩ := Option.map_eq_some_iff.1 h'
    cases h
    cases h'
    exact hf f rfl _ _ _ _ _ _ _ _ hE e e'

theorem project_sim (K : NAgree E ax) (P : NestaProb F n m p) (xx g : Vec F m) : NS E (l1c_nesta_project ax P xx g) := by
  unfold l1c_nesta_project
  repeat first
    | exact .pure _
    | refine .bind (.nlift _) fun _ => ?_
    | refine .bind (.ncall K.Ax _ _) fun _ => ?_
    | refine .bind (.ncall K.Aty _ _) fun _ => ?_

theorem feval_sim (K : NAgree E ax) (P : NestaProb F n m p) : NS E (l1c_nesta_feval ax P) := by
  unfold l1c_nesta_feval
  repeat first
    | exact .pure _
    | refine .bind (.nlift _) fun _ => ?_
    | refine .bind (.ncall K.Wtx _ _) fun _ => ?_
    | refine .bind (.ncall K.Wz _ _) fun _ => ?_

theorem nsetup_sim (K : NAgree E ax) (P : NestaProb F n m p) (b : Vec F n) (opts : NestaOpts F) : NS E (l1c_nesta_setup ax P b opts) := by
  unfold l1c_nesta_setup
  split
  · exact .pure _
  dsimp only
  repeat first
    | exact .pure _
    | refine .bind (.nlift _) fun _ => ?_
    | refine .bind (.ncall K.Aty _ _) fun _ => ?_
    | refine .bind (.ncall K.Wtx _ _) fun _ => ?_

theorem nbody_sim (K : NAgree E ax) (k : ℕ) (st : NLoop F n m p) : NS E (nestaBody ax k st) := by
  unfold nestaBody
  refine .bind (feval_sim K _) fun _ => .bind (project_sim K _ _ _) fun _ => .bind (project_sim K _ _ _) fun _ => .pure _

theorem inner_sim (K : NAgree E ax) (fuel k : ℕ) (st : NLoop F n m p) : NS E (nestaInner ax fuel k st) := by
  induction fuel generalizing k st with
  | zero => exact .pure _
  | succ fuel ih =>
    unfold nestaInner
    refine .bind (nbody_sim K _ _) fun a => ?_
    dsimp only
    split
    · exact .pure _
    · exact ih _ _

theorem outer_sim (K : NAgree E ax) (bm bt : F) (fuel : ℕ) (iter : Int) (total : ℕ) (P : NestaProb F n m p) :
    NS E (nestaOuter ax bm bt fuel iter total P) := by
  induction fuel generalizing iter total P with
  | zero => unfold nestaOuter; split; exacts [.pure _, .nub]
  | succ fuel ih => exact .bind (.bind (inner_sim K _ _ _) fun _ => .pure _) fun _ => ih _ _ _

/-- two runs of NESTA that get past the requests for memory -/
theorem nesta_sim (K : NAgree E ax) (hm : ¬ ax.Missing) (xk xk' : Vec F m) (b : Vec F n) (opts : NestaOpts F) {s q s' q' : NState σ} {o o' : NestaOut F n m p}
    (hs : s.WF) (hq : q.WF) (as : ∀ i < 10, s.oracle (s.calls + i) = true) (aq : ∀ i < 10, q.oracle (q.calls + i) = true) (hE : E s.cb q.cb)
    (h : l1c_nesta m n xk b ax opts s = some (o, s')) (h' : l1c_nesta m n xk' b ax opts q = some (o', q')) : o = o' ∧ E s'.cb q'.cb := by
  obtain ⟨s1, c1, -, -, e⟩ := nesta_after_setup xk b ax opts s hs as hm
  obtain ⟨q1, d1, -, -, e'⟩ := nesta_after_setup xk' b ax opts q hq aq hm
  rw [e] at h
  rw [e'] at h'
  obtain ⟨⟨⟨st, P, bm, bt⟩, s2⟩, g1, h⟩ := Option.bind_eq_some_iff.1 h
  obtain ⟨⟨⟨st', P', bm', bt'⟩, q2⟩, g1', h'⟩ := Option.bind_eq_some_iff.1 h'
  obtain ⟨e1, hE1⟩ := nsetup_sim K _ _ _ s1 q1 _ _ _ _ (by rw [c1, d1]; exact hE) g1 g1'
  cases e1
  dsimp only at h h'
  split at h
  swap
  · cases h
  split at h'
  swap
  · cases h'
  obtain ⟨⟨⟨P2, T⟩, s3⟩, g2, h⟩ := Option.map_eq_some_iff.1 h
  obtain ⟨⟨⟨P2', T'⟩, q3⟩, g2', h'⟩ := Option.map_eq_some_iff.1 h'
  obtain ⟨e2, hE2⟩ := outer_sim K _ _ _ _ _ _ _ _ _ _ _ _ (by exact hE1) g2 g2'
  cases e2
  cases h
  cases h'
  exact ⟨rfl, hE2⟩

end sim

/-! ## Sets of the library -/

section live
variable {F : Type} [Scalar F] {lib : FftwLib F} {t : SetTv F}

/-- the same set is in use in both states -/
def BothLive (lib : FftwLib F) (t : SetTv F) (w v : World F) : Prop := (∃ L, Hist lib w L ∧ L.tv = some t) ∧ ∃ L, Hist lib v L ∧ L.tv = some t

theorem setNOp_agree (hsyn : t.syn = false) (op : Op) (l k : ℕ) (x : Vec F l) (old : Vec F k) {w v w' v' : World F} {a b : Vec F l × Vec F k} (hE : BothLive lib t w v)
    (h : setNOp lib t.kind op l k x old w = some (a, w')) (h' : setNOp lib t.kind op l k x old v = some (b, v')) : a = b ∧ BothLive lib t w' v' := by
  obtain ⟨⟨L, hw, hL⟩, ⟨L', hv, hL'⟩⟩ := hE
  obtain ⟨hm, s, r1, hi, c1⟩ := tv_view hw hL
  obtain ⟨_, s', r1', -, c1'⟩ := tv_view hv hL'
  unfold setNOp at h h'
  obtain ⟨⟨⟨a1, o1⟩, w1⟩, e, h⟩ := Option.bind_eq_some_iff.1 h
  obtain ⟨⟨⟨a1', o1'⟩, v1⟩, e', h'⟩ := Option.bind_eq_some_iff.1 h'
  have k1 := c1 op ⟨l, x⟩ ⟨k, old⟩
  have k1' := c1' op ⟨l, x⟩ ⟨k, old⟩
  rw [e, Option.map_some] at k1
  rw [e', Option.map_some] at k1'
  obtain ⟨⟨z, u⟩, f1, f2⟩ := Option.map_eq_some_iff.1 k1.symm
  obtain ⟨⟨z', u'⟩, f1', f2'⟩ := Option.map_eq_some_iff.1 k1'.symm
  rw [hsyn] at f1 f1'
  have := tvAll_agree (c := cfgT lib t hm) (funT_set hm hi) r1 r1' f1 f1'
  dsimp only at f2 f2' this
  subst f2 f2'
  cases this
  dsimp only at h h'
  obtain ⟨z, g0, h⟩ := Option.bind_eq_some_iff.1 h
  obtain ⟨z', g0', h'⟩ := Option.bind_eq_some_iff.1 h'
  rw [g0] at g0'
  cases g0'
  obtain ⟨y, g, h⟩ := Option.map_eq_some_iff.1 h
  obtain ⟨y', g', h'⟩ := Option.map_eq_some_iff.1 h'
  cases h
  cases h'
  rw [g] at g'
  cases g'
  exact ⟨rfl, ⟨L, .call _ op _ _ hw (Sets.has_tv hL) e, hL⟩, ⟨L', .call _ op _ _ hv (Sets.has_tv hL') e', hL'⟩⟩

theorem setNAx_agree (hsyn : t.syn = false) (n m p : ℕ) (nw : F) : NAgree (BothLive lib t) (setNAx lib t.kind n m p nw) where
  Ax f hf x old c d a b c' d' hE h h' := by cases hf; exact setNOp_agree hsyn _ _ _ _ _ hE h h'
  Aty f hf x old c d a b c' d' hE h h' := by cases hf; exact setNOp_agree hsyn _ _ _ _ _ hE h h'
  Wz f hf x old c d a b c' d' hE h h' := by cases hf; exact setNOp_agree hsyn _ _ _ _ _ hE h h'
  Wtx f hf x old c d a b c' d' hE h h' := by cases hf; exact setNOp_agree hsyn _ _ _ _ _ hE h h'

end live

end L1c
