import Verif.Spec.NewtonMem
import Verif.Proofs.EnvMem
import Verif.Proofs.CGMem
import Verif.Proofs.NewtonDbl
import Verif.Proofs.NewtonRuns
import Verif.Props.VecMath

/-! Helper lemmas: the l1qc solver on memory follows the solver on vectors. -/

namespace L1c
open Prog Scalar Cmd

variable {σ : Type} {n m : ℕ}

section eval
variable {s : PState Dbl} {p : Ptr} {N : ℕ}

theorem sum_range_holds {v : Vec Dbl N} (h : HoldsV s p v) (g : Dbl → Dbl) : ∑ k ∈ Finset.range N, g (s.mem.val (p + (k : Int))) = ∑ i, g (v i) := by
  rw [Finset.sum_range]
  exact Finset.sum_congr rfl fun i _ => by rw [h.2]

theorem cmd_vcl_sum (hN : FitsInt N) {v : Vec Dbl N} (h : HoldsV s p v) : CSpec (eval (vcl_sum N p)) s (dsum v) s := by
  refine cspec_eval (m := s.mem) ?_
  rw [C04_vcl_sum _ hN _ _ h.1, dsum_eq_sum, Int.toNat_natCast, sum_range_holds h (fun a => a)]

theorem cmd_vcl_logsum (hN : FitsInt N) (a : Dbl) {v : Vec Dbl N} (h : HoldsV s p v) : CSpec (eval (vcl_logsum N a p)) s (dlogsum a v) s := by
  refine cspec_eval (m := s.mem) ?_
  rw [C04_vcl_logsum _ hN _ _ _ h.1, dlogsum_eq_sum, Int.toNat_natCast, sum_range_holds h (fun b => flog (b * a))]

theorem cmd_dasum {F : Type} [Scalar F] {s : PState F} {v : Vec F N} (h : HoldsV s p v) : CSpec (eval (l1c_dnorm1 N p)) s (dasum v) s := by
  refine cspec_eval (m := s.mem) (run_foldV (fun c i => c + fabs (v i)) (lit 0) fun i c => ?_)
  simp only [run_bind, run_load (h.1 ((i : ℕ) : Int) (by omega) (by omega)), Option.bind_some, run_pure, h.2]

theorem cmd_minRatio {F : Type} [Scalar F] {s : PState F} {f d : Vec F N} (h : HoldsV s p f) {dp : Int → Prog F F}
    (hd : ∀ i : Fin N, (dp ((i : ℕ) : Int)).run s.mem = some (d i, s.mem)) : CSpec (eval (minRatioM N p dp)) s (minRatio f d) s := by
  refine cspec_eval (m := s.mem) (run_foldV (fun c i => if flt (lit 0) (d i) then cmin c (-f i / d i) else c) inf fun i c => ?_)
  simp only [run_bind, hd i, Option.bind_some]
  by_cases hc : flt (lit 0) (d i) = true
  · rw [if_pos hc, if_pos hc]
    simp only [run_bind, run_load (h.1 ((i : ℕ) : Int) (by omega) (by omega)), hd i, Option.bind_some, run_pure, h.2]
  · rw [if_neg hc, if_neg hc, run_pure]
end eval

/-- where the arrays are -/
def qLay (q : QPtr) (m : ℕ) (x u : Ptr) : Lay QN QM := ⟨q.pn, q.pm m x u⟩

abbrev QEnv (n m : ℕ) := Env Dbl QN QM n m

/-- the problem record as the vector model has it -/
def toP (V : QEnv n m) (c : QScal Dbl) : QProb Dbl n m where
  b := V.vn .b
  tau := c.tau
  epsilon := c.epsilon
  r := V.vn .r
  fu1 := V.vm .fu1
  fu2 := V.vm .fu2
  fe_val := c.fe_val
  f_val := c.f_val
  w1p := V.vm .w1p
  dx := V.vm .dx
  du := V.vm .du
  sig11 := V.vm .sig11
  sig12 := V.vm .sig12
  ntgu := V.vm .ntgu
  gradf_x := V.vm .gx
  gradf_u := V.vm .gu

/-- the variables of the loops as the vector model has them -/
def toL (V : QEnv n m) (v : QVars Dbl) : QLoop Dbl n m := ⟨V.vm .x, V.vm .u, toP V v.c, v.step, v.l1_prev, v.cg, v.newton⟩

section
variable {axM : QAxM Dbl} {f : QOps Dbl σ n m} {R : σ → PState Dbl → Prop} {Own : Set Ptr} {q : QPtr} {x u : Ptr} {V : QEnv n m} {t : σ}

theorem QImpl.keepOwn (H : QImpl axM f R Own) : KeepOwn R Own := H.A.keep

/-- the objective, at `x, u` or at the trial point -/
theorem f_evalM_spec (H : QImpl axM f R Own) (S : (qLay q m x u).Sep n m Own) (hm : FitsInt m) (c : QScal Dbl) (a b : QM) (ha : a ≠ .fu1 ∧ a ≠ .fu2) (hb : b ≠ .fu1 ∧ b ≠ .fu2) :
    WP (qLay q m x u) R Own (l1qc_f_evalM n m axM q c ((qLay q m x u).pm a) ((qLay q m x u).pm b))
      (fun c' V' t' => l1qc_f_eval f.ax (toP V c) (V.vm a) (V.vm b) t = some (toP V' c', t') ∧ ∀ e, e ≠ .fu1 → e ≠ .fu2 → V'.vm e = V.vm e) V t := by
  have K := H.keepOwn
  have a1 := ha.1
  have b1 := hb.1
  have b2 := hb.2
  unfold l1qc_f_evalM
  refine WP.bind (WP.op_mn S H.A a .r ?_)
  refine WP.bind (WP.map2n S K .b .r .r (fun p q => lit (-1) * p + q) rfl ?_)
  refine WP.bind (WP.map2m S K b a .fu1 (fun p q => lit (-1) * p + q) rfl ?_)
  refine WP.bind (WP.map2m S K a b .fu2 (fun p q => lit (-1) * p + lit (-1) * q) rfl ?_)
  refine WP.bind (WP.eval (fun s hs => cmd_ddot (hs.hn .r) (hs.hn .r)) ?_)
  refine WP.bind (WP.assume ?_)
  refine WP.bind (WP.eval (fun s hs => cmd_vcl_logsum hm _ (hs.hm .fu1)) ?_)
  refine WP.bind (WP.eval (fun s hs => cmd_vcl_logsum hm _ (hs.hm .fu2)) ?_)
  refine WP.bind (WP.eval (fun s hs => cmd_vcl_sum hm (hs.hm b)) ?_)
  refine WP.pure ⟨?_, fun e h1 h2 => ?_⟩
  · simp [l1qc_f_eval, QOps.ax, toP, Env.setm, Env.setn, a1, b1, b2, bind, StateT.bind, pure, StateT.pure]
    exact ⟨rfl, rfl, rfl, rfl, rfl⟩
  · simp [Env.setm, Env.setn, h1, h2]

theorem run_hess {F : Type} {k : Mem F} {fu1 fu2 atr p1 p2 p3 p4 p5 p6 p7 : Ptr} (h1 : k.Ok fu1) (h2 : k.Ok fu2) (h3 : k.Ok atr) (o1 : k.Ok p1) (o2 : k.Ok p2) (o3 : k.Ok p3) (o4 : k.Ok p4)
    (o5 : k.Ok p5) (o6 : k.Ok p6) (o7 : k.Ok p7) (g1 g2 g3 g4 g5 g6 g7 : F → F → F → F) :
    Prog.run (do
      let a ← load fu1
      let b ← load fu2
      let d ← load atr
      store p1 (g1 a b d)
      store p2 (g2 a b d)
      store p3 (g3 a b d)
      store p4 (g4 a b d)
      store p5 (g5 a b d)
      store p6 (g6 a b d)
      store p7 (g7 a b d)) k = some ((), ((((((k.write p1 (g1 (k.val fu1) (k.val fu2) (k.val atr))).write p2 (g2 (k.val fu1) (k.val fu2) (k.val atr))).write p3
        (g3 (k.val fu1) (k.val fu2) (k.val atr))).write p4 (g4 (k.val fu1) (k.val fu2) (k.val atr))).write p5 (g5 (k.val fu1) (k.val fu2) (k.val atr))).write p6
        (g6 (k.val fu1) (k.val fu2) (k.val atr))).write p7 (g7 (k.val fu1) (k.val fu2) (k.val atr))) := by
  simp [run_bind, run_load, run_store, h1, h2, h3, o1, o2, o3, o4, o5, o6, o7]

/-- what the loop over the Hessian terms writes -/
noncomputable def hessW (V : QEnv n m) (c : QScal Dbl) : QM → Option (Vec Dbl m)
  | .gx => some (l1qc_hess_grad (toP V c) (V.vm (.d 2))).1.gradf_x
  | .gu => some (l1qc_hess_grad (toP V c) (V.vm (.d 2))).1.gradf_u
  | .w1p => some (l1qc_hess_grad (toP V c) (V.vm (.d 2))).1.w1p
  | .sig11 => some (l1qc_hess_grad (toP V c) (V.vm (.d 2))).1.sig11
  | .sig12 => some (l1qc_hess_grad (toP V c) (V.vm (.d 2))).1.sig12
  | .ntgu => some (l1qc_hess_grad (toP V c) (V.vm (.d 2))).1.ntgu
  | .d i => if i = 0 then some (l1qc_hess_grad (toP V c) (V.vm (.d 2))).2 else none
  | _ => none

theorem hess_gradM_spec (H : QImpl axM f R Own) (S : (qLay q m x u).Sep n m Own) (c : QScal Dbl) {Q : Unit → QEnv n m → σ → Prop}
    (h : Q () ⟨V.vn, fun a => (hessW V c a).getD (V.vm a)⟩ t) :
    WP (qLay q m x u) R Own (exec (l1qc_hess_gradM m q c (q.DWORK7 0) (q.DWORK7 2))) Q V t := by
  have egu : ∀ i : Int, q.gradf + (i + (m : Int)) = (qLay q m x u).pm .gu + i := fun i => by
    ext <;> simp [qLay, QPtr.pm]
    ring
  unfold l1qc_hess_gradM
  simp only [egu]
  refine WP.multi S H.keepOwn (hessW V c) (fun i h0 h1 => ?_) (fun s hs i => ?_) h
  · refine Foot.bind (Foot.load ⟨.fu1, rfl⟩) fun _ => Foot.bind (Foot.load ⟨.fu2, rfl⟩) fun _ => Foot.bind (Foot.load ⟨.d 2, rfl⟩) fun _ => ?_
    exact Foot.bind (Foot.store ⟨.gx, rfl, rfl⟩) fun _ => Foot.bind (Foot.store ⟨.gu, rfl, rfl⟩) fun _ => Foot.bind (Foot.store ⟨.d 0, rfl, rfl⟩) fun _ =>
      Foot.bind (Foot.store ⟨.w1p, rfl, rfl⟩) fun _ => Foot.bind (Foot.store ⟨.sig11, rfl, rfl⟩) fun _ => Foot.bind (Foot.store ⟨.sig12, rfl, rfl⟩) fun _ => Foot.store ⟨.ntgu, rfl, rfl⟩
  · have ok : ∀ a, s.mem.Ok ((qLay q m x u).pm a + ((i : ℕ) : Int)) := fun a => (hs.hm a).1 _ (by omega) (by omega)
    have hv : ∀ a, s.mem.val ((qLay q m x u).pm a + ((i : ℕ) : Int)) = V.vm a i := fun a => (hs.hm a).2 i
    have hi : ∀ a b, (qLay q m x u).pm a + ((i : ℕ) : Int) = (qLay q m x u).pm b + ((i : ℕ) : Int) ↔ a = b := fun a b =>
      ⟨fun e => (WP.ptr_inj S (by omega) (by omega) (by omega) (by omega) e).1, fun e => by rw [e]⟩
    refine ⟨_, run_hess (ok .fu1) (ok .fu2) (ok (.d 2)) (ok .gx) (ok .gu) (ok (.d 0)) (ok .w1p) (ok .sig11) (ok .sig12) (ok .ntgu) _ _ _ _ _ _ _, ?_⟩
    · intro a v hw
      simp only [Mem.write_val, hi, hv]
      cases a <;> simp only [hessW, Option.some.injEq, reduceCtorEq] at hw <;> try subst hw
      all_goals simp [l1qc_hess_grad, toP]
      split_ifs at hw with h0
      subst h0
      simp only [Option.some.injEq] at hw
      subst hw
      simp [l1qc_hess_grad, toP]


/-- the Hessian callback of the conjugate gradient solver: its private data are those of the operators and the two arrays it reads -/
theorem H11M_opImpl (H : QImpl axM f R Own) (hm : FitsInt m) (a1 a2 : Dbl) {atr sigx : Ptr} {va vs : Vec Dbl m}
    (h1 : Disjoint (Rng atr m) Own) (h2 : Disjoint (Rng sigx m) Own) :
    OpImpl (l1qc_H11pfunM m axM.AtAx a1 a2 atr sigx) (poison (l1qc_H11pfun f.ax ⟨a1, a2, va, vs⟩) id)
      (fun o s => ∃ t, o = some t ∧ R t s ∧ HoldsV s atr va ∧ HoldsV s sigx vs) (Own ∪ (Rng atr m ∪ Rng sigx m)) where
  call o s z y v hR hz hy hzy hzo hyo := by
    obtain ⟨t, rfl, hr, ha, hs⟩ := hR
    rw [Set.disjoint_union_right, Set.disjoint_union_right] at hzo hyo
    obtain ⟨s1, c1, r1, y1, o1⟩ := H.AtA.call t s z y v hr hz hy hzy hzo.1 hyo.1
    have ha1 := ha.keep o1 (Set.disjoint_union_right.2 ⟨hyo.2.1.symm, h1⟩)
    have hs1 := hs.keep o1 (Set.disjoint_union_right.2 ⟨hyo.2.2.symm, h2⟩)
    have hz1 := hz.keep o1 (Set.disjoint_union_right.2 ⟨hzy, hzo.1⟩)
    obtain ⟨s2, c2, y2, o2⟩ := cmd_map2 (fun p q => ddot va v * a2 * p + -a1 * q) (k := l1c_daxpby m (ddot va v * a2) atr (-a1) y) rfl ha1 y1 y1.1
      (NoCross.of_disj hyo.2.1) (NoCross.refl _ _)
    have hs2 := hs1.keep o2 hyo.2.2.symm
    have ha2 := ha1.keep o2 hyo.2.1.symm
    have hz2 := hz1.keep o2 hzy
    have h3 := setRange_holds (s := s2) y2.1 (fun i => s2.mem.val (sigx + i) * s2.mem.val (z + i) + s2.mem.val (y + i))
      (fun i => vs i * v i + (ddot va v * a2 * va i + -a1 * (f.AtA v t).1 i)) (fun i => by rw [hs2.2, hz2.2, y2.2])
    have c3 := cspec_exec (s := s2) (kspec_seq (al := [sigx, z, y]) (C04_vcl_dxMy_pz m hm sigx z y s2.mem hs2.1 hz2.1 y2.1 (NoCross.of_disj hyo.2.2) (NoCross.of_disj hzy.symm)))
    refine ⟨_, (cmd_ddot ha hz).bind (c1.bind (c2.bind c3)), ⟨(f.AtA v t).2, rfl, ?_, ?_, ?_⟩, h3.1, ?_⟩
    · exact H.AtA.stay (H.AtA.stay r1 o2 hyo.1) h3.2 hyo.1
    · exact ha2.keep h3.2 hyo.2.1.symm
    · exact hs2.keep h3.2 hyo.2.2.symm
    · exact ((o1.mono (Set.union_subset_union_right _ Set.subset_union_left)).trans (o2.mono Set.subset_union_left) subset_rfl).trans (h3.2.mono Set.subset_union_left) subset_rfl
  keep o s s' hR ho := by
    obtain ⟨t, rfl, hr, ha, hs⟩ := hR
    refine ⟨t, rfl, H.AtA.keep t s s' hr (ho.mono (Set.compl_subset_compl.2 Set.subset_union_left)), ha.keep ho ?_, hs.keep ho ?_⟩
    · exact Set.disjoint_compl_right_iff_subset.2 fun p hp => Or.inr (Or.inl hp)
    · exact Set.disjoint_compl_right_iff_subset.2 fun p hp => Or.inr (Or.inr hp)

/-- the call of the conjugate gradient solver -/
theorem cgM_spec (H : QImpl axM f R Own) (S : (qLay q m x u).Sep n m Own) (hm : FitsInt m) (a1 a2 : Dbl) {prm : CgParams Dbl} (hmax : prm.max_iter ≤ INT_MAX)
    (hsome : l1qc_cg f.ax ⟨a1, a2, V.vm (.d 2), V.vm (.d 0)⟩ (V.vm .dx) (V.vm .w1p) prm t ≠ none) :
    WP (qLay q m x u) R Own (l1c_cgsolveM m q.dx q.w1p (fun i => q.DWORK7 (i + 3)) (l1qc_H11pfunM m axM.AtAx a1 a2 (q.DWORK7 2) (q.DWORK7 0)) prm)
      (fun res V' t' => l1qc_cg f.ax ⟨a1, a2, V.vm (.d 2), V.vm (.d 0)⟩ (V.vm .dx) (V.vm .w1p) prm t = some ((V'.vm .dx, res), t') ∧ V'.vn = V.vn ∧
        ∀ e, e ≠ .dx → (∀ i, e ≠ .d i) → V'.vm e = V.vm e) V t := fun s hs hr => by
  have dj : ∀ a b : QM, a ≠ b → Disjoint (Rng ((qLay q m x u).pm a) m) (Rng ((qLay q m x u).pm b) m) := S.mm
  have Hop := H11M_opImpl H hm a1 a2 (va := V.vm (.d 2)) (vs := V.vm (.d 0)) (atr := q.DWORK7 2) (sigx := q.DWORK7 0) (S.om (.d 2)) (S.om (.d 0))
  have own : ∀ a : QM, a ≠ .d 2 → a ≠ .d 0 → Disjoint (Rng ((qLay q m x u).pm a) m) (Own ∪ (Rng (q.DWORK7 2) m ∪ Rng (q.DWORK7 0) m)) := fun a h1 h2 =>
    Set.disjoint_union_right.2 ⟨S.om a, Set.disjoint_union_right.2 ⟨dj a (.d 2) h1, dj a (.d 0) h2⟩⟩
  have D : CgSep m q.dx (q.DWORK7 3) (q.DWORK7 4) (q.DWORK7 5) (q.DWORK7 6) (Own ∪ (Rng (q.DWORK7 2) m ∪ Rng (q.DWORK7 0) m)) :=
    ⟨dj .dx (.d 3) (by decide), dj .dx (.d 4) (by decide), dj .dx (.d 5) (by decide), dj .dx (.d 6) (by decide), dj (.d 3) (.d 4) (by decide), dj (.d 3) (.d 5) (by decide), dj (.d 3) (.d 6) (by decide),
      dj (.d 4) (.d 5) (by decide), dj (.d 4) (.d 6) (by decide), dj (.d 5) (.d 6) (by decide), own .dx (by decide) (by decide), own (.d 3) (by decide) (by decide), own (.d 4) (by decide) (by decide),
      own (.d 5) (by decide) (by decide), own (.d 6) (by decide) (by decide)⟩
  have hD : ∀ i < 4, s.mem.Has (q.DWORK7 (i + 3)) m := fun i hi => (hs.hm (.d ⟨i + 3, by omega⟩)).1
  rcases cgsolveM_spec Hop (Dwork := fun i => q.DWORK7 (i + 3)) (b := q.w1p) D (dj .w1p (.d 3) (by decide)) (dj .w1p (.d 4) (by decide)) (dj .w1p (.d 5) (by decide))
    (own .w1p (by decide) (by decide)) (hs.hm .dx) (hs.hm .w1p) hD ⟨t, rfl, hr, hs.hm (.d 2), hs.hm (.d 0)⟩ hmax with ⟨o, s', ho, hc, hx, ⟨t', hcb, hr', -, -⟩, hw⟩ | ⟨ho, -⟩
  · have hw' : Only ((qLay q m x u).All n m ∪ Own) s s' := hw.mono (by
      intro p hp
      simp only [CgW, Set.mem_union] at hp
      rcases hp with hp
      by_cases h : p ∈ Own
      · exact Or.inr h
      refine Or.inl (Or.inr ?_)
      by_cases h0 : p ∈ Rng q.dx m; · exact ⟨.dx, h0⟩
      by_cases h1 : p ∈ Rng (q.DWORK7 3) m; · exact ⟨.d 3, h1⟩
      by_cases h2 : p ∈ Rng (q.DWORK7 4) m; · exact ⟨.d 4, h2⟩
      by_cases h3 : p ∈ Rng (q.DWORK7 5) m; · exact ⟨.d 5, h3⟩
      by_cases h4 : p ∈ Rng (q.DWORK7 6) m; · exact ⟨.d 6, h4⟩
      by_cases h5 : p ∈ Rng (q.DWORK7 2) m; · exact ⟨.d 2, h5⟩
      by_cases h6 : p ∈ Rng (q.DWORK7 0) m; · exact ⟨.d 0, h6⟩
      simp only [Nat.reduceAdd] at hp
      tauto)
    obtain ⟨V', hV, hn', hm'⟩ := hs.change hw
    refine ⟨o.res, V', t', s', hc, hV, hr', hw', ?_, ?_, ?_⟩
    · rw [l1qc_cg, ho]
      simp only [hcb, Option.map_some]
      rw [hV.uniq_m (a := .dx) hx]
    · funext a
      refine hn' a ?_
      simp only [CgW, Set.disjoint_union_right]
      exact ⟨⟨⟨⟨⟨S.nm a .dx, S.nm a (.d 3)⟩, S.nm a (.d 4)⟩, S.nm a (.d 5)⟩, S.nm a (.d 6)⟩, S.on a, S.nm a (.d 2), S.nm a (.d 0)⟩
    · intro e h1 h2
      refine hm' e ?_
      simp only [CgW, Set.disjoint_union_right]
      exact ⟨⟨⟨⟨⟨dj e .dx h1, dj e (.d 3) (h2 _)⟩, dj e (.d 4) (h2 _)⟩, dj e (.d 5) (h2 _)⟩, dj e (.d 6) (h2 _)⟩, S.om e, dj e (.d 2) (h2 _), dj e (.d 0) (h2 _)⟩
  · exact absurd (by rw [l1qc_cg, ho]) hsome


theorem descent_dirM_spec (H : QImpl axM f R Own) (S : (qLay q m x u).Sep n m Own) (hm : FitsInt m) (c : QScal Dbl) {prm : CgParams Dbl} (hmax : prm.max_iter ≤ INT_MAX)
    (hsome : l1qc_descent_dir f.ax (toP V c) prm t ≠ none) :
    WP (qLay q m x u) R Own (l1qc_descent_dirM m axM q c prm)
      (fun r V' t' => l1qc_descent_dir f.ax (toP V c) prm t = some ((r.1, toP V' c, r.2), t') ∧ V'.vm .x = V.vm .x ∧ V'.vm .u = V.vm .u) V t := by
  have K := H.keepOwn
  unfold l1qc_descent_dirM
  refine WP.bind (WP.op_nm S H.At .r (.d 2) (WP.bind (hess_gradM_spec H S c ?_)))
  set V1 := V.setm (.d 2) (f.At (V.vn .r) t).1 with hV1
  set V2 : QEnv n m := ⟨V1.vn, fun a => (hessW V1 c a).getD (V1.vm a)⟩ with hV2
  set t1 := (f.At (V.vn .r) t).2 with ht1
  have eq : l1qc_descent_dir f.ax (toP V c) prm t = (do
      let r ← l1qc_cg f.ax ⟨lit 1 / c.fe_val, lit 1 / (c.fe_val * c.fe_val), V2.vm (.d 2), V2.vm (.d 0)⟩ (V2.vm .dx) (V2.vm .w1p) prm
      if flt (lit (1 / 2)) r.2.cgres then pure (L1C_CGSOLVE_FAILURE, { toP V2 c with dx := r.1 }, r.2)
      else pure (0, { toP V2 c with dx := r.1, du := fun i => (lit 1 / V2.vm .sig11 i) * V2.vm .ntgu i - (V2.vm .sig12 i / V2.vm .sig11 i) * r.1 i }, r.2) : OM σ _) t1 := rfl
  refine WP.bind (WP.mono (cgM_spec H S hm _ _ hmax fun hc => hsome ?_) fun res V3 t3 h3 => ?_)
  · rw [eq]
    simp only [bind, StateT.bind, hc, Option.bind_none]
  · obtain ⟨e3, hn3, hm3⟩ := h3
    have ep : { toP V2 c with dx := V3.vm .dx } = toP V3 c := by
      simp [toP, hn3, hm3]
    have ex : V3.vm .x = V.vm .x := by
      rw [hm3 _ (by decide) (by simp)]
      rfl
    have eu : V3.vm .u = V.vm .u := by
      rw [hm3 _ (by decide) (by simp)]
      rfl
    refine WP.ite (fun hc => WP.pure ⟨?_, ex, eu⟩) fun hc => ?_
    · rw [eq]
      simp only [bind, StateT.bind, e3, Option.bind_some, hc, if_true]
      rw [← ep]
      rfl
    · refine WP.bind (WP.multi S K (fun a => if a = .du then some fun i => (lit 1 / V3.vm .sig11 i) * V3.vm .ntgu i - (V3.vm .sig12 i / V3.vm .sig11 i) * V3.vm .dx i else none)
        (fun i h0 h1 => ?_) (fun s hs i => ?_) (WP.pure ⟨?_, ex, eu⟩))
      · exact Foot.bind (Foot.load ⟨.sig11, rfl⟩) fun _ => Foot.bind (Foot.load ⟨.ntgu, rfl⟩) fun _ => Foot.bind (Foot.load ⟨.sig12, rfl⟩) fun _ =>
          Foot.bind (Foot.load ⟨.sig11, rfl⟩) fun _ => Foot.bind (Foot.load ⟨.dx, rfl⟩) fun _ => Foot.store ⟨.du, rfl, rfl⟩
      · have ok : ∀ a, s.mem.Ok ((qLay q m x u).pm a + ((i : ℕ) : Int)) := fun a => (hs.hm a).1 _ (by omega) (by omega)
        have hv : ∀ a, s.mem.val ((qLay q m x u).pm a + ((i : ℕ) : Int)) = V3.vm a i := fun a => (hs.hm a).2 i
        have o1 : s.mem.Ok (q.sig11 + ((i : ℕ) : Int)) := ok .sig11
        have o2 : s.mem.Ok (q.ntgu + ((i : ℕ) : Int)) := ok .ntgu
        have o3 : s.mem.Ok (q.sig12 + ((i : ℕ) : Int)) := ok .sig12
        have o4 : s.mem.Ok (q.dx + ((i : ℕ) : Int)) := ok .dx
        have o5 : s.mem.Ok (q.du + ((i : ℕ) : Int)) := ok .du
        refine ⟨s.mem.write (q.du + ((i : ℕ) : Int)) ((lit 1 / V3.vm .sig11 i) * V3.vm .ntgu i - (V3.vm .sig12 i / V3.vm .sig11 i) * V3.vm .dx i), ?_, ?_⟩
        · simp only [run_bind, run_load o1, run_load o2, run_load o3, run_load o4, Option.bind_some, run_store o5]
          rw [show s.mem.val (q.sig11 + ((i : ℕ) : Int)) = _ from hv .sig11, show s.mem.val (q.ntgu + ((i : ℕ) : Int)) = _ from hv .ntgu,
            show s.mem.val (q.sig12 + ((i : ℕ) : Int)) = _ from hv .sig12, show s.mem.val (q.dx + ((i : ℕ) : Int)) = _ from hv .dx]
        · intro a v ha
          split_ifs at ha with h
          subst h
          cases ha
          rw [Mem.write_val]
          exact if_pos rfl
      · rw [eq]
        simp only [bind, StateT.bind, e3, Option.bind_some, hc]
        rw [show V2.vm .sig11 = V3.vm .sig11 from (hm3 _ (by decide) (by simp)).symm, show V2.vm .sig12 = V3.vm .sig12 from (hm3 _ (by decide) (by simp)).symm,
          show V2.vm .ntgu = V3.vm .ntgu from (hm3 _ (by decide) (by simp)).symm]
        simp only [Bool.false_eq_true, if_false, pure, StateT.pure, Option.some.injEq, Prod.mk.injEq, true_and, and_true]
        simp [toP, hm3, hn3]

theorem find_max_stepM_spec (H : QImpl axM f R Own) (S : (qLay q m x u).Sep n m Own) (hnm : n ≤ m) (c : QScal Dbl) :
    WP (qLay q m x u) R Own (l1qc_find_max_stepM n m axM q c)
      (fun r V' t' => l1qc_find_max_step f.ax (toP V c) t = some (r, t') ∧ toP V' c = toP V c ∧ V'.vm .x = V.vm .x ∧ V'.vm .u = V.vm .u) V t := by
  unfold l1qc_find_max_stepM
  refine WP.bind (WP.op_head hnm S H.A .dx (.d 0) (by decide) ?_)
  set V1 := V.setm (.d 0) (vput hnm (f.A (V.vm .dx) t).1 (V.vm (.d 0))) with hV1
  have ea : vhead hnm (V1.vm (.d 0)) = (f.A (V.vm .dx) t).1 := by simp [hV1, Env.setm, vhead_vput]
  have hA : ∀ s, (qLay q m x u).Holds s V1 → HoldsV s (q.DWORK7 0) (f.A (V.vm .dx) t).1 := fun s hs => ea ▸ (hs.hm (.d 0)).head hnm
  have hd : ∀ s, (qLay q m x u).Holds s V1 → ∀ i : Fin m, s.mem.Ok (q.dx + ((i : ℕ) : Int)) ∧ s.mem.Ok (q.du + ((i : ℕ) : Int)) ∧ s.mem.val (q.dx + ((i : ℕ) : Int)) = V.vm .dx i ∧
      s.mem.val (q.du + ((i : ℕ) : Int)) = V.vm .du i := fun s hs i =>
    ⟨(hs.hm .dx).1 _ (by omega) (by omega), (hs.hm .du).1 _ (by omega) (by omega), (hs.hm .dx).2 i, (hs.hm .du).2 i⟩
  refine WP.bind (WP.eval (fun s hs => cmd_ddot (hA s hs) (hA s hs)) ?_)
  refine WP.bind (WP.eval (fun s hs => cmd_ddot (hs.hn .r) (hA s hs)) ?_)
  refine WP.bind (WP.eval (fun s hs => cmd_ddot (hs.hn .r) (hs.hn .r)) ?_)
  refine WP.bind (WP.eval (fun s hs => cmd_minRatio (d := fun i => V.vm .dx i - V.vm .du i) (hs.hm .fu1) fun i => ?_) ?_)
  · obtain ⟨o1, o2, e1, e2⟩ := hd s hs i
    simp only [run_bind, run_load o1, run_load o2, Option.bind_some, run_pure, e1, e2]
  refine WP.bind (WP.eval (fun s hs => cmd_minRatio (d := fun i => -V.vm .dx i - V.vm .du i) (hs.hm .fu2) fun i => ?_) ?_)
  · obtain ⟨o1, o2, e1, e2⟩ := hd s hs i
    simp only [run_bind, run_load o1, run_load o2, Option.bind_some, run_pure, e1, e2]
  refine WP.pure ⟨?_, rfl, rfl, rfl⟩
  simp only [l1qc_find_max_step, bind, StateT.bind]
  rw [show f.ax.Ax (toP V c).dx t = some ((f.A (V.vm .dx) t).1, (f.A (V.vm .dx) t).2) from rfl]
  simp only [if_neg (not_lt.2 hnm)]
  rfl

/-- the line search -/
theorem lsLoopM_spec (H : QImpl axM f R Own) (S : (qLay q m x u).Sep n m Own) (hm : FitsInt m) (fx0o g : Dbl) (prm : LSParams Dbl) :
    ∀ (fuel iter : ℕ) (step flin : Dbl) (cb : CbMem (QScal Dbl) Dbl) (V : QEnv n m) (t : σ),
      WP (qLay q m x u) R Own (lsLoopM m x u q.dx q.du (q.DWORK7 0) (q.DWORK7 1) (l1qc_fevalM n m axM q) fx0o g prm fuel iter step flin cb)
        (fun r V' t' => lsLoop (fun step => (vaxpy step (V.vm .dx) (V.vm .x), vaxpy step (V.vm .du) (V.vm .u))) (fun p => l1qc_feval_cb f.ax p.1 p.2) (fun _ => fx0o) g prm
          (V.vm .x, V.vm .u) fuel iter step flin ⟨some (toP V cb.st, t), cb.fx0⟩ = ⟨(V'.vm .x, V'.vm .u), ⟨some (toP V' r.2.st, t'), r.2.fx0⟩, r.1⟩) V t
  | 0, iter, step, flin, cb, V, t => WP.pure rfl
  | fuel + 1, iter, step, flin, cb, V, t => by
    have K := H.keepOwn
    unfold lsLoopM
    refine WP.bind (WP.map2m S K .dx .x (.d 0) (fun a b => step * a + b) rfl ?_)
    refine WP.bind (WP.map2m S K .du .u (.d 1) (fun a b => step * a + b) rfl ?_)
    set V1 := (V.setm (.d 0) fun i => step * V.vm .dx i + V.vm .x i) with hV1
    set V2 := (V1.setm (.d 1) fun i => step * V1.vm .du i + V1.vm .u i) with hV2
    refine WP.bind (WP.bind (WP.mono (f_evalM_spec H S hm cb.st (.d 0) (.d 1) (by decide) (by decide)) fun c' V3 t3 h3 => ?_))
    obtain ⟨h3, k3⟩ := h3
    refine WP.pure ?_
    have kdx : V3.vm .dx = V.vm .dx := k3 _ (by decide) (by decide)
    have kdu : V3.vm .du = V.vm .du := k3 _ (by decide) (by decide)
    have kx : V3.vm .x = V.vm .x := k3 _ (by decide) (by decide)
    have ku : V3.vm .u = V.vm .u := k3 _ (by decide) (by decide)
    have k0 : V3.vm (.d 0) = vaxpy step (V.vm .dx) (V.vm .x) := k3 _ (by decide) (by decide)
    have k1 : V3.vm (.d 1) = vaxpy step (V.vm .du) (V.vm .u) := k3 _ (by decide) (by decide)
    have hf : l1qc_feval_cb f.ax (vaxpy step (V.vm .dx) (V.vm .x)) (vaxpy step (V.vm .du) (V.vm .u)) ⟨some (toP V cb.st, t), cb.fx0⟩ =
        (c'.f_val, ⟨some (toP V3 c', t3), c'.f_val⟩) := by
      have h3' : l1qc_f_eval f.ax (toP V cb.st) (vaxpy step (V.vm .dx) (V.vm .x)) (vaxpy step (V.vm .du) (V.vm .u)) t = some (toP V3 c', t3) := h3
      simp only [l1qc_feval_cb, h3']
      rfl
    have ih := fun fl => lsLoopM_spec H S hm fx0o g prm fuel (iter + 1) (prm.beta * step) fl ⟨c', c'.f_val⟩ V3 t3
    simp only [kdx, kdu, kx, ku] at ih
    unfold lsLoop
    simp only [hf]
    by_cases hn : isNaN c'.f_val = true
    · simp only [hn, if_true]
      exact ih flin
    · simp only [hn, Bool.false_eq_true, if_false]
      refine WP.ite (fun hc => ?_) fun hc => ?_
      · simp only [hc, if_true]
        refine WP.bind (WP.map1m S K (.d 0) .x (fun a => a) rfl ?_)
        refine WP.bind (WP.map1m S K (.d 1) .u (fun a => a) rfl ?_)
        refine WP.pure ?_
        have e0 : V3.vm (.d 0) = fun i => V3.vm (.d 0) i := rfl
        simp only [← k0, ← k1]
        rfl
      · simp only [hc]
        exact ih _


theorem setm_self (V : QEnv n m) (a : QM) : V.setm a (V.vm a) = V := by
  unfold Env.setm
  congr 1
  funext c
  split
  · rename_i h
    rw [h]
  · rfl

theorem warmStartM_spec (H : QImpl axM f R Own) (S : (qLay q m x u).Sep n m Own) (w : Int) (step : Dbl) {Q : Unit → QEnv n m → σ → Prop}
    (h : Q () (V.setm .dx (warmStart w step (V.vm .dx))) t) : WP (qLay q m x u) R Own (warmStartM m w step q.dx) Q V t := by
  unfold warmStartM warmStart at *
  refine WP.ite (fun h0 => ?_) fun h0 => WP.ite (fun h2 => ?_) fun h2 => ?_
  · rw [if_pos h0] at h
    exact WP.map1m S H.keepOwn .dx .dx (fun a => lit 0 * a) rfl h
  · rw [if_neg h0, if_pos h2] at h
    exact WP.map1m S H.keepOwn .dx .dx (fun a => step * a) rfl h
  · rw [if_neg h0, if_neg h2, setm_self] at h
    exact WP.pure h

theorem cintOf_ne {a : Int} {s : σ} (h : ¬ FitsInt a) : (olift (cint a) : OM σ Int) s = none := by
  simp [olift, cint, h]

theorem cintOf_eq {a : Int} {s : σ} (h : FitsInt a) : (olift (cint a) : OM σ Int) s = some (a, s) := by
  simp [olift, cint, h]

theorem newton_bodyM_spec (H : QImpl axM f R Own) (S : (qLay q m x u).Sep n m Own) (hm : FitsInt m) (hnm : n ≤ m) {prm : QOpts Dbl} (hmax : prm.cg_maxiter ≤ INT_MAX) (v : QVars Dbl)
    (hsome : l1qc_newton_body f.ax prm (toL V v) t ≠ none) :
    WP (qLay q m x u) R Own (l1qc_newton_bodyM n m axM q x u prm v) (fun r V' t' => l1qc_newton_body f.ax prm (toL V v) t = some ((toL V' r.1, r.2), t')) V t := by
  unfold l1qc_newton_body at hsome ⊢
  unfold l1qc_newton_bodyM
  refine WP.bind (warmStartM_spec H S _ _ ?_)
  set V1 := V.setm .dx (warmStart prm.warm_start_cg v.step (V.vm .dx)) with hV1
  have e1 : { (toL V v).P with dx := warmStart prm.warm_start_cg (toL V v).step (toL V v).P.dx } = toP V1 v.c := rfl
  rw [e1] at hsome ⊢
  refine WP.bind (WP.mono (descent_dirM_spec H S hm v.c hmax fun hc => hsome ?_) fun d V2 t2 h2 => ?_)
  · simp only [bind, StateT.bind, hc, Option.bind_none]
  obtain ⟨e2, x2, u2⟩ := h2
  have x2' : V2.vm .x = V.vm .x := x2
  have u2' : V2.vm .u = V.vm .u := u2
  simp only [bind, StateT.bind, e2, Option.bind_some] at hsome ⊢
  have hfit : FitsInt (v.cg + d.2.cgiter) := by
    by_contra hc
    refine hsome ?_
    rw [show (toL V v).cg = v.cg from rfl, cintOf_ne hc]
    rfl
  rw [show (toL V v).cg = v.cg from rfl, cintOf_eq hfit] at hsome ⊢
  refine WP.bind (WP.need hfit ?_)
  refine WP.bind (WP.mono (find_max_stepM_spec H S hnm v.c) fun sm V3 t3 h3 => ?_)
  obtain ⟨e3, p3, x3, u3⟩ := h3
  simp only [Option.bind_some, e3] at hsome ⊢
  refine WP.bind (WP.eval (fun s hs => cmd_ddot (hs.hm .gx) (hs.hm .dx)) ?_)
  refine WP.bind (WP.eval (fun s hs => cmd_ddot (hs.hm .gu) (hs.hm .du)) ?_)
  have eg : ddot (V3.vm .gx) (V3.vm .dx) + ddot (V3.vm .gu) (V3.vm .du) = ddot (toP V2 v.c).gradf_x (toP V2 v.c).dx + ddot (toP V2 v.c).gradf_u (toP V2 v.c).du := by
    rw [← p3]
    rfl
  rw [eg]
  set g := ddot (toP V2 v.c).gradf_x (toP V2 v.c).dx + ddot (toP V2 v.c).gradf_u (toP V2 v.c).du with hg
  refine WP.bind (WP.mono (lsLoopM_spec H S hm v.c.f_val g ⟨lit (1 / 100), lit (1 / 2), sm⟩ MAX_LINESEARCH_ITER 1 sm (lit 0) ⟨v.c, v.c.f_val⟩ V3 t3) fun ls V4 t4 h4 => ?_)
  have e4 : l1qc_linesearch f.ax (toL V v).x (toL V v).u (toP V2 v.c) g ⟨lit (1 / 100), lit (1 / 2), sm⟩ t3 =
      some (((V4.vm .x, V4.vm .u), { toP V4 ls.2.st with f_val := ls.2.fx0 }, ls.1), t4) := by
    unfold l1qc_linesearch l1c_linesearch_xu
    rw [← p3, show (toL V v).x = V3.vm .x from (x3.trans x2').symm, show (toL V v).u = V3.vm .u from (u3.trans u2').symm]
    rw [show (toP V3 v.c).dx = V3.vm .dx from rfl, show (toP V3 v.c).du = V3.vm .du from rfl, show (toP V3 v.c).f_val = v.c.f_val from rfl]
    simp only at h4 ⊢
    rw [h4]
    rfl
  simp only [e4, Option.bind_some]
  by_cases hs : 0 < ls.1.status
  · rw [if_pos hs, if_pos hs]
    exact WP.pure rfl
  · rw [if_neg hs, if_neg hs]
    by_cases hl : flt (-g / lit 2) prm.newton_tol = true
    · rw [if_pos hl, if_pos hl]
      exact WP.pure rfl
    · rw [if_neg hl, if_neg hl]
      refine WP.bind (WP.eval (fun s hs => cmd_dasum (hs.hm .x)) (WP.pure rfl))

theorem newton_loopM_spec (H : QImpl axM f R Own) (S : (qLay q m x u).Sep n m Own) (hm : FitsInt m) (hnm : n ≤ m) {prm : QOpts Dbl} (hmax : prm.cg_maxiter ≤ INT_MAX) :
    ∀ (fuel : ℕ) (iter : Int) (v : QVars Dbl) (V : QEnv n m) (t : σ), l1qc_newton_loop f.ax prm fuel iter (toL V v) t ≠ none →
    WP (qLay q m x u) R Own (l1qc_newton_loopM n m axM q x u prm fuel iter v) (fun r V' t' => l1qc_newton_loop f.ax prm fuel iter (toL V v) t = some ((toL V' r.1, r.2), t')) V t
  | 0, iter, v, V, t, _ => WP.pure rfl
  | fuel + 1, iter, v, V, t, hsome => by
    unfold l1qc_newton_loop at hsome ⊢
    unfold l1qc_newton_loopM
    refine WP.bind (WP.mono (newton_bodyM_spec H S hm hnm hmax v fun hc => hsome ?_) fun r V1 t1 h1 => ?_)
    · simp only [bind, StateT.bind, hc, Option.bind_none]
    simp only [bind, StateT.bind, h1, Option.bind_some] at hsome ⊢
    by_cases hr : r.2 = true
    · rw [if_pos hr] at hsome ⊢
      rw [if_pos hr]
      exact WP.pure rfl
    · rw [if_neg hr] at hsome ⊢
      rw [if_neg hr]
      exact newton_loopM_spec H S hm hnm hmax fuel (iter + 1) r.1 V1 t1 hsome

theorem lb_bodyM_spec (H : QImpl axM f R Own) (S : (qLay q m x u).Sep n m Own) (hm : FitsInt m) (hnm : n ≤ m) {prm : QOpts Dbl} (hmax : prm.cg_maxiter ≤ INT_MAX) (v : QVars Dbl)
    (hsome : l1qc_lb_body f.ax prm (toL V v) t ≠ none) :
    WP (qLay q m x u) R Own (l1qc_lb_bodyM n m axM q x u prm v) (fun r V' t' => l1qc_lb_body f.ax prm (toL V v) t = some (toL V' r, t')) V t := by
  unfold l1qc_lb_body at hsome ⊢
  unfold l1qc_lb_bodyM
  refine WP.bind (WP.initm S H.keepOwn .dx (lit 0) ?_)
  refine WP.bind (WP.mono (f_evalM_spec H S hm v.c .x .u (by decide) (by decide)) fun c1 V1 t1 h1 => ?_)
  obtain ⟨e1, k1⟩ := h1
  have e1' : l1qc_f_eval f.ax { (toL V v).P with dx := fun _ => lit 0 } (toL V v).x (toL V v).u t = some (toP V1 c1, t1) := e1
  have kx : (toL V v).x = V1.vm .x := (k1 .x (by decide) (by decide)).symm
  have ku : (toL V v).u = V1.vm .u := (k1 .u (by decide) (by decide)).symm
  simp only [bind, StateT.bind, e1', Option.bind_some] at hsome ⊢
  have el : { toL V v with P := toP V1 c1, l1_prev := inf } = toL V1 { v with c := c1, l1_prev := inf } := by
    simp only [kx, ku]
    rfl
  rw [el] at hsome ⊢
  refine WP.bind (WP.mono (newton_loopM_spec H S hm hnm hmax _ 1 _ V1 t1 fun hc => hsome ?_) fun r V2 t2 h2 => ?_)
  · rw [hc]
    rfl
  rw [h2] at hsome ⊢
  simp only [Option.bind_some] at hsome ⊢
  have hfit : FitsInt (r.1.newton + r.2) := by
    by_contra hc
    refine hsome ?_
    rw [show (toL V2 r.1).newton = r.1.newton from rfl, cintOf_ne hc]
    rfl
  rw [show (toL V2 r.1).newton = r.1.newton from rfl, cintOf_eq hfit]
  exact WP.bind (WP.need hfit (WP.pure rfl))

theorem lb_loopM_spec (H : QImpl axM f R Own) (S : (qLay q m x u).Sep n m Own) (hm : FitsInt m) (hnm : n ≤ m) {prm : QOpts Dbl} (hmax : prm.cg_maxiter ≤ INT_MAX) :
    ∀ (fuel : ℕ) (iter : Int) (v : QVars Dbl) (V : QEnv n m) (t : σ), l1qc_lb_loop f.ax prm fuel iter (toL V v) t ≠ none →
    WP (qLay q m x u) R Own (l1qc_lb_loopM n m axM q x u prm fuel iter v) (fun r V' t' => l1qc_lb_loop f.ax prm fuel iter (toL V v) t = some (toL V' r, t')) V t
  | 0, iter, v, V, t, hsome => by
    unfold l1qc_lb_loop at hsome ⊢
    unfold l1qc_lb_loopM
    by_cases hi : iter ≤ INT_MAX
    · rw [if_pos hi]
      exact WP.bind (WP.need hi (WP.pure rfl))
    · rw [if_neg hi] at hsome
      exact absurd rfl hsome
  | fuel + 1, iter, v, V, t, hsome => by
    unfold l1qc_lb_loop at hsome ⊢
    unfold l1qc_lb_loopM
    refine WP.bind (WP.mono (lb_bodyM_spec H S hm hnm hmax v fun hc => hsome ?_) fun r V1 t1 h1 => ?_)
    · simp only [bind, StateT.bind, hc, Option.bind_none]
    simp only [bind, StateT.bind, h1, Option.bind_some] at hsome ⊢
    exact lb_loopM_spec H S hm hnm hmax fuel (iter + 1) r V1 t1 hsome

/-- everything between the allocations and the clean-up, started with zeroed arrays -/
theorem solveM_spec (H : QImpl axM f R Own) (S : (qLay q m x u).Sep n m Own) (hm : FitsInt m) (hnm : n ≤ m) {prm : QOpts Dbl} (hmax : prm.cg_maxiter ≤ INT_MAX)
    (hz : toP V ⟨prm.tau, prm.epsilon, lit 0, lit 0⟩ = qprobZero (V.vn .b) prm) (hsome : l1qc_solve f.ax prm (V.vn .b) (V.vm .x) (V.vm .u) t ≠ none) :
    WP (qLay q m x u) R Own (l1qc_solveM n m axM q x u prm) (fun r V' t' => ∃ o, l1qc_solve f.ax prm (V.vn .b) (V.vm .x) (V.vm .u) t = some (o, t') ∧ o.res = ⟨dasum o.x, r.2.1, r.2.2, r.1⟩ ∧ o.x = V'.vm .x ∧
      V'.vn .b = V.vn .b) V t := by
  unfold l1qc_solve at hsome ⊢
  unfold l1qc_solveM l1qc_check_feasible_startM
  rw [← hz] at hsome ⊢
  refine WP.bind (WP.bind (WP.op_head hnm S H.A .x (.d 0) (by decide) ?_))
  set V1 := V.setm (.d 0) (vput hnm (f.A (V.vm .x) t).1 (V.vm (.d 0))) with hV1
  set t1 := (f.A (V.vm .x) t).2 with ht1
  have ea : vhead hnm (V1.vm (.d 0)) = (f.A (V.vm .x) t).1 := by simp [hV1, Env.setm, vhead_vput]
  refine WP.bind (WP.setm S H.keepOwn (.d 0) (v := vput hnm (vaxpy (lit (-1)) (V.vn .b) (f.A (V.vm .x) t).1) (V1.vm (.d 0))) (fun s hs => ?_) ?_)
  · have hA : HoldsV s (q.DWORK7 0) (f.A (V.vm .x) t).1 := ea ▸ (hs.hm (.d 0)).head hnm
    obtain ⟨s', c, h, o⟩ := cmd_map2 (fun a b => lit (-1) * a + b) (k := daxpyK n (lit (-1)) q.b (q.DWORK7 0)) rfl (hs.hn .b) hA hA.1
      (NoCross.of_disj ((S.nm .b (.d 0)).symm.mono_left (Rng.le hnm _))) (NoCross.refl _ _)
    exact ⟨s', c, (hs.hm (.d 0)).put hnm h (S := ∅) (o.mono Set.subset_union_left) (Set.disjoint_empty _), o.mono (Rng.le hnm _)⟩
  set V2 := V1.setm (.d 0) (vput hnm (vaxpy (lit (-1)) (V.vn .b) (f.A (V.vm .x) t).1) (V1.vm (.d 0))) with hV2
  have ew : vhead hnm (V2.vm (.d 0)) = vaxpy (lit (-1)) (V.vn .b) (f.A (V.vm .x) t).1 := by simp [hV2, Env.setm, vhead_vput]
  have hw : ∀ s, (qLay q m x u).Holds s V2 → HoldsV s (q.DWORK7 0) (vaxpy (lit (-1)) (V.vn .b) (f.A (V.vm .x) t).1) := fun s hs => ew ▸ (hs.hm (.d 0)).head hnm
  refine WP.bind (WP.eval (fun s hs => cmd_ddot (hw s hs) (hw s hs)) (WP.pure ?_))
  have ec : l1qc_check_feasible_start f.ax (toP V ⟨prm.tau, prm.epsilon, lit 0, lit 0⟩) (V.vm .x) t =
      some (if flt (lit 0) (fsqrt (ddot (vaxpy (lit (-1)) (V.vn .b) (f.A (V.vm .x) t).1) (vaxpy (lit (-1)) (V.vn .b) (f.A (V.vm .x) t).1)) - prm.epsilon) then L1C_INFEASIBLE_START else 0, t1) := by
    simp only [l1qc_check_feasible_start, bind, StateT.bind]
    rw [show f.ax.Ax (V.vm .x) t = some ((f.A (V.vm .x) t).1, t1) from rfl]
    simp only [if_neg (not_lt.2 hnm)]
    rfl
  simp only [bind, StateT.bind, ec, Option.bind_some] at hsome ⊢
  by_cases hb : (if flt (lit 0) (fsqrt (ddot (vaxpy (lit (-1)) (V.vn .b) (f.A (V.vm .x) t).1) (vaxpy (lit (-1)) (V.vn .b) (f.A (V.vm .x) t).1)) - prm.epsilon) = true then L1C_INFEASIBLE_START else 0) ≠ 0
  · rw [if_pos hb]
    simp only [if_pos hb]
    exact WP.pure ⟨_, rfl, rfl, rfl, rfl⟩
  · rw [if_neg hb]
    simp only [if_neg hb] at hsome ⊢
    refine WP.bind (WP.mono (lb_loopM_spec H S hm hnm hmax _ 1 ⟨⟨prm.tau, prm.epsilon, lit 0, lit 0⟩, lit 0, lit 0, 0, 0⟩ V2 t1 fun hc => hsome ?_) fun r V3 t3 h3 => ?_)
    · have hc' : l1qc_lb_loop f.ax prm prm.lbiter.toNat 1 ⟨V.vm .x, V.vm .u, toP V ⟨prm.tau, prm.epsilon, lit 0, lit 0⟩, lit 0, lit 0, 0, 0⟩ t1 = none := hc
      simp only [StateT.bind, hc', bind, Option.bind_none]
    · have h3' : l1qc_lb_loop f.ax prm prm.lbiter.toNat 1 ⟨V.vm .x, V.vm .u, toP V ⟨prm.tau, prm.epsilon, lit 0, lit 0⟩, lit 0, lit 0, 0, 0⟩ t1 = some (toL V3 r, t3) := h3
      simp only [StateT.bind, h3', bind, Option.bind_some]
      have hI := lb_loop_inv (R := fun _ _ => True) ⟨fun _ => trivial, fun _ _ => trivial⟩ ⟨fun _ _ _ _ _ => trivial, fun _ _ _ _ _ => trivial⟩ (fun _ _ _ _ _ => trivial) _ _ _ _ _ _ h3'
      exact WP.pure ⟨_, rfl, rfl, rfl, hI.hb⟩

end

end L1c
