import Verif.Model.CGMem
import Verif.Proofs.MemVec
import Verif.Proofs.CgFloat

/-! Conjugate gradients on memory refine conjugate gradients on vectors. -/

namespace L1c
open Prog Scalar Cmd

variable {F : Type} [Scalar F] {σ : Type} {N : ℕ} {s : PState F}
variable {ax : Ptr → Ptr → Cmd F Unit} {op : Vec F N → σ → Vec F N × σ} {R : σ → PState F → Prop} {Own : Set Ptr}

theorem OpImpl.stay (H : OpImpl ax op R Own) {t : σ} {s s' : PState F} {S : Set Ptr} (h : R t s) (ho : Only S s s') (hd : Disjoint S Own) : R t s' :=
  H.keep t s s' h (ho.mono (Set.subset_compl_iff_disjoint_right.2 hd))

theorem cmd_copyLoop {x z : Ptr} {u : Vec F N} (hx : HoldsV s x u) (hz : s.mem.Has z N) (hd : Disjoint (Rng z N) (Rng x N)) :
    ∃ s', CSpec (Cmd.exec (seqK (copyLoop N x z))) s () s' ∧ HoldsV s' z u ∧ Only (Rng z N) s s' := by
  have h := setRange_holds (s := s) hz (fun i => s.mem.val (x + i)) u (fun i => by rw [hx.2])
  exact ⟨_, cspec_exec (kspec_seq (run_map1 (fun a => a) (by omega) hx.1 hz (NoCross.of_disj hd))), h.1, h.2⟩

/-- the loop on memory follows the loop on vectors -/
theorem loopSt_cg {body : F × F → Cmd F ((F × F) × Bool)} {step : CgState F N → σ → (CgState F N × F) × σ} {tol : F} {hi : Int} (hhi : hi ≤ INT_MAX)
    {Inv : CgState F N → σ → PState F → Prop} {W : Set Ptr}
    (hb : ∀ st t s, Inv st t s → ∃ s', CSpec (body (st.delta, st.best)) s (((step st t).1.1.delta, (step st t).1.1.best), flt (step st t).1.2 tol) s' ∧
      Inv (step st t).1.1 (step st t).2 s' ∧ Only W s s') :
    ∀ (fuel : ℕ) (iter : Int) (st : CgState F N) (t : σ) (s : PState F), 0 ≤ iter → iter ≤ INT_MAX → (hi + 1 - iter).toNat = fuel → Inv st t s →
      (∃ st' k t' s', cgLoop step tol fuel iter st t = some (st', k, t') ∧ CSpec (loopSt hi body iter (st.delta, st.best)) s ((st'.delta, st'.best), k) s' ∧
        Inv st' t' s' ∧ Only W s s') ∨
      (cgLoop step tol fuel iter st t = none ∧ CUB (loopSt hi body iter (st.delta, st.best)) s) := by
  intro fuel
  induction fuel with
  | zero =>
    intro iter st t s h0 h1 hf hI
    refine Or.inl ⟨st, iter, t, s, by unfold cgLoop; rw [if_pos h1], ?_, hI, Only.refl s⟩
    rw [loopSt, if_neg (by omega)]
    exact .done _ _
  | succ fuel ih =>
    intro iter st t s h0 h1 hf hI
    obtain ⟨s1, c1, i1, o1⟩ := hb st t s hI
    have e : cgLoop step tol (fuel + 1) iter st t = if flt (step st t).1.2 tol then some ((step st t).1.1, iter, (step st t).2)
        else cgLoop step tol fuel (iter + 1) (step st t).1.1 (step st t).2 := rfl
    have e2 : loopSt hi body iter (st.delta, st.best) = (body (st.delta, st.best) >>= fun r =>
        if r.2 then pure (r.1, iter) else (need (FitsInt (iter + 1)) >>= fun _ => loopSt hi body (iter + 1) r.1)) := by
      rw [loopSt, if_pos (by omega)]
    rw [e, e2]
    by_cases hbr : flt (step st t).1.2 tol = true
    · rw [if_pos hbr]
      refine Or.inl ⟨_, _, _, s1, rfl, c1.bind ?_, i1, o1⟩
      dsimp only
      rw [hbr, if_pos rfl]
      exact .done _ _
    · rw [if_neg hbr]
      by_cases hI1 : iter + 1 ≤ INT_MAX
      · rcases ih (iter + 1) (step st t).1.1 (step st t).2 s1 (by omega) hI1 (by omega) i1 with ⟨st', k, t', s', a1, a2, a3, a4⟩ | ⟨a1, a2⟩
        · refine Or.inl ⟨st', k, t', s', a1, c1.bind ?_, a3, o1.trans a4 subset_rfl⟩
          dsimp only
          rw [if_neg hbr]
          exact (cspec_need ⟨by unfold INT_MIN; omega, hI1⟩ s1).bind a2
        · refine Or.inr ⟨a1, c1.bind_ub ?_⟩
          dsimp only
          rw [if_neg hbr]
          exact (cspec_need ⟨by unfold INT_MIN; omega, hI1⟩ s1).bind_ub a2
      · have hf0 : fuel = 0 := by omega
        subst hf0
        refine Or.inr ⟨by unfold cgLoop; rw [if_neg hI1], c1.bind_ub ?_⟩
        dsimp only
        rw [if_neg hbr]
        exact (cub_need (fun hc => hI1 hc.2) s1).bind

/-- the arrays of the solver hold its state -/
structure CgMem (R : σ → PState F → Prop) (x r p bestx q : Ptr) (st : CgState F N) (t : σ) (s : PState F) : Prop where
  x : HoldsV s x st.x
  r : HoldsV s r st.r
  p : HoldsV s p st.p
  bestx : HoldsV s bestx st.bestx
  q : s.mem.Has q N
  op : R t s

/-- the arrays the solver writes do not overlap, nor touch the operator's data -/
structure CgSep (N : ℕ) (x r p bestx q : Ptr) (Own : Set Ptr) : Prop where
  xr : Disjoint (Rng x N) (Rng r N)
  xp : Disjoint (Rng x N) (Rng p N)
  xb : Disjoint (Rng x N) (Rng bestx N)
  xq : Disjoint (Rng x N) (Rng q N)
  rp : Disjoint (Rng r N) (Rng p N)
  rb : Disjoint (Rng r N) (Rng bestx N)
  rq : Disjoint (Rng r N) (Rng q N)
  pb : Disjoint (Rng p N) (Rng bestx N)
  pq : Disjoint (Rng p N) (Rng q N)
  bq : Disjoint (Rng bestx N) (Rng q N)
  xo : Disjoint (Rng x N) Own
  ro : Disjoint (Rng r N) Own
  po : Disjoint (Rng p N) Own
  bo : Disjoint (Rng bestx N) Own
  qo : Disjoint (Rng q N) Own

/-- what the solver may change -/
def CgW (N : ℕ) (x r p bestx q : Ptr) (Own : Set Ptr) : Set Ptr := Rng x N ∪ Rng r N ∪ Rng p N ∪ Rng bestx N ∪ Rng q N ∪ Own

section
variable {x r p bestx q : Ptr}

theorem cgW_x : Rng x N ⊆ CgW N x r p bestx q Own := fun a h => by simp only [CgW, Set.mem_union] at h ⊢; tauto
theorem cgW_r : Rng r N ⊆ CgW N x r p bestx q Own := fun a h => by simp only [CgW, Set.mem_union] at h ⊢; tauto
theorem cgW_p : Rng p N ⊆ CgW N x r p bestx q Own := fun a h => by simp only [CgW, Set.mem_union] at h ⊢; tauto
theorem cgW_b : Rng bestx N ⊆ CgW N x r p bestx q Own := fun a h => by simp only [CgW, Set.mem_union] at h ⊢; tauto
theorem cgW_qo : Rng q N ∪ Own ⊆ CgW N x r p bestx q Own := fun a h => by simp only [CgW, Set.mem_union] at h ⊢; tauto
theorem cgW_ro : Rng r N ∪ Own ⊆ CgW N x r p bestx q Own := fun a h => by simp only [CgW, Set.mem_union] at h ⊢; tauto

/-- the residual after a step -/
def cgR (op : Vec F N → σ → Vec F N × σ) (st : CgState F N) (t : σ) : Vec F N := vaxpy (-(st.delta / ddot st.p (op st.p t).1)) (op st.p t).1 st.r

theorem cgBodyM_spec (H : OpImpl ax op R Own) (D : CgSep N x r p bestx q Own) (d0 tol : F) (st : CgState F N) (t : σ) (s : PState F)
    (I : CgMem R x r p bestx q st t s) :
    ∃ s', CSpec (cgBodyM N x r p bestx q ax d0 tol (st.delta, st.best)) s
      (((cgStep op d0 st t).1.1.delta, (cgStep op d0 st t).1.1.best), flt (cgStep op d0 st t).1.2 tol) s' ∧
      CgMem R x r p bestx q (cgStep op d0 st t).1.1 (cgStep op d0 st t).2 s' ∧ Only (CgW N x r p bestx q Own) s s' := by
  obtain ⟨s1, c1, r1, v1, o1⟩ := H.call t s p q st.p I.op I.p I.q D.pq D.po D.qo
  have x1 := I.x.keep o1 (Set.disjoint_union_right.2 ⟨D.xq, D.xo⟩)
  have rr1 := I.r.keep o1 (Set.disjoint_union_right.2 ⟨D.rq, D.ro⟩)
  have p1 := I.p.keep o1 (Set.disjoint_union_right.2 ⟨D.pq, D.po⟩)
  have b1 := I.bestx.keep o1 (Set.disjoint_union_right.2 ⟨D.bq, D.bo⟩)
  have c2 := cmd_ddot p1 v1
  obtain ⟨s3, c3, x3, o3⟩ := cmd_map2 (fun a b => st.delta / ddot st.p (op st.p t).1 * a + b) (k := daxpyK N (st.delta / ddot st.p (op st.p t).1) p x) rfl
    p1 x1 x1.1 (NoCross.of_disj D.xp) (NoCross.refl _ _)
  have rr3 := rr1.keep o3 D.xr.symm
  have p3 := p1.keep o3 D.xp.symm
  have b3 := b1.keep o3 D.xb.symm
  have q3 := v1.keep o3 D.xq.symm
  have R3 := H.stay r1 o3 D.xo
  obtain ⟨s4, c4, r4, o4⟩ := cmd_map2 (fun a b => -(st.delta / ddot st.p (op st.p t).1) * a + b) (k := daxpyK N (-(st.delta / ddot st.p (op st.p t).1)) q r) rfl
    q3 rr3 rr3.1 (NoCross.of_disj D.rq) (NoCross.refl _ _)
  have x4 := x3.keep o4 D.xr
  have p4 := p3.keep o4 D.rp.symm
  have b4 := b3.keep o4 D.rb.symm
  have q4 := q3.keep o4 D.rq.symm
  have R4 := H.stay R3 o4 D.ro
  have c5 := cmd_ddot r4 r4
  obtain ⟨s6, c6, p6, o6⟩ := cmd_map2 (fun a b => lit 1 * a + (ddot (cgR op st t) (cgR op st t) / st.delta) * b)
    (k := l1c_daxpby N (lit 1) r (ddot (cgR op st t) (cgR op st t) / st.delta) p) rfl
    r4 p4 p4.1 (NoCross.of_disj D.rp.symm) (NoCross.refl _ _)
  have x6 := x4.keep o6 D.xp
  have r6 := r4.keep o6 D.rp
  have b6 := b4.keep o6 D.pb.symm
  have q6 := q4.keep o6 D.pq.symm
  have R6 := H.stay R4 o6 D.po
  have o16 : Only (CgW N x r p bestx q Own) s s6 :=
    (((o1.mono cgW_qo).trans (o3.mono cgW_x) subset_rfl).trans (o4.mono cgW_r) subset_rfl).trans (o6.mono cgW_p) subset_rfl
  by_cases hlt : flt (fsqrt (ddot (cgR op st t) (cgR op st t) / d0)) st.best = true
  · have e : cgStep op d0 st t = ((⟨vaxpy (st.delta / ddot st.p (op st.p t).1) st.p st.x, cgR op st t, vaxpby (lit 1) (cgR op st t) (ddot (cgR op st t) (cgR op st t) / st.delta) st.p,
        vaxpy (st.delta / ddot st.p (op st.p t).1) st.p st.x, ddot (cgR op st t) (cgR op st t), fsqrt (ddot (cgR op st t) (cgR op st t) / d0)⟩,
        fsqrt (ddot (cgR op st t) (cgR op st t) / d0)), (op st.p t).2) := if_pos hlt
    obtain ⟨s7, c7, b7, o7⟩ := cmd_map1 (fun a => a) (k := cblas_dcopy N x bestx) rfl x6 b6.1 (NoCross.of_disj D.xb.symm)
    rw [e]
    refine ⟨s7, c1.bind (c2.bind (c3.bind (c4.bind (c5.bind (c6.bind ?_))))), ⟨x6.keep o7 D.xb, r6.keep o7 D.rb, p6.keep o7 D.pb, b7, (q6.keep o7 D.bq.symm).1, H.stay R6 o7 D.bo⟩,
      o16.trans (o7.mono cgW_b) subset_rfl⟩
    refine (if_pos hlt : (if _ then _ else _) = _) ▸ c7.bind (.done _ _)
  · have e : cgStep op d0 st t = ((⟨vaxpy (st.delta / ddot st.p (op st.p t).1) st.p st.x, cgR op st t, vaxpby (lit 1) (cgR op st t) (ddot (cgR op st t) (cgR op st t) / st.delta) st.p,
        st.bestx, ddot (cgR op st t) (cgR op st t), st.best⟩, fsqrt (ddot (cgR op st t) (cgR op st t) / d0)), (op st.p t).2) := if_neg hlt
    rw [e]
    refine ⟨s6, c1.bind (c2.bind (c3.bind (c4.bind (c5.bind (c6.bind ?_))))), ⟨x6, r6, p6, b6, q6.1, R6⟩, o16⟩
    exact (if_neg hlt : (if _ then _ else _) = _) ▸ .done _ _

/-- the whole solver -/
theorem cgsolveM_spec (H : OpImpl ax op R Own) {Dwork : ℕ → Ptr} {b : Ptr} (D : CgSep N x (Dwork 0) (Dwork 1) (Dwork 2) (Dwork 3) Own)
    (b0 : Disjoint (Rng b N) (Rng (Dwork 0) N)) (b1 : Disjoint (Rng b N) (Rng (Dwork 1) N)) (b2 : Disjoint (Rng b N) (Rng (Dwork 2) N)) (bo : Disjoint (Rng b N) Own)
    {u w : Vec F N} (hx : HoldsV s x u) (hb : HoldsV s b w) (hD : ∀ i < 4, s.mem.Has (Dwork i) N) {t : σ} (hR : R t s) {prm : CgParams F} (hmax : prm.max_iter ≤ INT_MAX) :
    (∃ o s', l1c_cgsolve u w op t prm = some o ∧ CSpec (l1c_cgsolveM N x b Dwork ax prm) s o.res s' ∧ HoldsV s' x o.x ∧ R o.cb s' ∧
      Only (CgW N x (Dwork 0) (Dwork 1) (Dwork 2) (Dwork 3) Own) s s') ∨
    (l1c_cgsolve u w op t prm = none ∧ CUB (l1c_cgsolveM N x b Dwork ax prm) s) := by
  have hr := hD 0 (by decide)
  have hp := hD 1 (by decide)
  have hbx := hD 2 (by decide)
  have hq := hD 3 (by decide)
  unfold l1c_cgsolveM
  revert D b0 b1 b2 hr hp hbx hq
  generalize Dwork 0 = r, Dwork 1 = p, Dwork 2 = bestx, Dwork 3 = q
  intro D b0 b1 b2 hr hp hbx hq
  obtain ⟨s1, c1, bx1, o1⟩ := cmd_copyLoop hx hbx D.xb.symm
  have x1 := hx.keep o1 D.xb
  have w1 := hb.keep o1 b2
  have R1 := H.stay hR o1 D.bo
  obtain ⟨s2, c2, R2, r2, o2⟩ := H.call t s1 x r u R1 x1 (o1.has hr) D.xr D.xo D.ro
  have x2 := x1.keep o2 (Set.disjoint_union_right.2 ⟨D.xr, D.xo⟩)
  have w2 := w1.keep o2 (Set.disjoint_union_right.2 ⟨b0, bo⟩)
  have bx2 := bx1.keep o2 (Set.disjoint_union_right.2 ⟨D.rb.symm, D.bo⟩)
  obtain ⟨s3, c3, r3, o3⟩ := cmd_map2 (fun a b => lit 1 * a + -(lit 1) * b) (k := l1c_daxpby N (lit 1) b (-(lit 1)) r) rfl w2 r2 r2.1 (NoCross.of_disj b0.symm) (NoCross.refl _ _)
  have x3 := x2.keep o3 D.xr
  have w3 := w2.keep o3 b0
  have bx3 := bx2.keep o3 D.rb.symm
  have R3 := H.stay R2 o3 D.ro
  obtain ⟨s4, c4, p4, o4⟩ := cmd_map1 (fun a => a) (k := cblas_dcopy N r p) rfl r3 (((o1.has hp) |> o2.has) |> o3.has) (NoCross.of_disj D.rp.symm)
  have x4 := x3.keep o4 D.xp
  have r4 := r3.keep o4 D.rp
  have w4 := w3.keep o4 b1
  have bx4 := bx3.keep o4 D.pb.symm
  have R4 := H.stay R3 o4 D.po
  have c5 := cmd_ddot r4 r4
  have c6 := cmd_ddot w4 w4
  have o14 : Only (CgW N x r p bestx q Own) s s4 :=
    (((o1.mono cgW_b).trans (o2.mono cgW_ro) subset_rfl).trans (o3.mono cgW_r) subset_rfl).trans (o4.mono cgW_p) subset_rfl
  have I : CgMem R x r p bestx q (cgInit op u w t).1 (cgInit op u w t).2 s4 := ⟨x4, r4, p4, bx4, (((o1.has hq) |> o2.has) |> o3.has) |> o4.has, R4⟩
  have e : l1c_cgsolve u w op t prm = (cgLoop (cgStep op (ddot w w)) prm.tol prm.max_iter.toNat 1 (cgInit op u w t).1 (cgInit op u w t).2).map (cgFinish prm) := rfl
  rcases loopSt_cg (hi := prm.max_iter) (tol := prm.tol) hmax (fun st t s I => cgBodyM_spec H D (ddot w w) prm.tol st t s I) prm.max_iter.toNat 1 (cgInit op u w t).1
    (cgInit op u w t).2 s4 (by decide) (by decide) (by omega) I with ⟨st', k, t', s5, a1, a2, a3, a4⟩ | ⟨a1, a2⟩
  · obtain ⟨s6, c8, x6, o6⟩ := cmd_map1 (fun a => a) (k := cblas_dcopy N bestx x) rfl a3.bestx a3.x.1 (NoCross.of_disj D.xb)
    rw [e, a1]
    refine Or.inl ⟨_, s6, rfl, ?_, x6, H.stay a3.op o6 D.xo, (o14.trans a4 subset_rfl).trans (o6.mono cgW_x) subset_rfl⟩
    exact c1.bind (c2.bind (c3.bind (c4.bind (c5.bind (c6.bind (a2.bind (c8.bind (.done _ _))))))))
  · rw [e, a1]
    refine Or.inr ⟨rfl, ?_⟩
    exact c1.bind_ub (c2.bind_ub (c3.bind_ub (c4.bind_ub (c5.bind_ub (c6.bind_ub a2.bind)))))

/-! ### with a preconditioner -/

variable {Minv z : Ptr} {M : Vec F N}

/-- the work array `z` and the preconditioner are apart from the arrays that are written -/
structure PcgSep (N : ℕ) (x Minv r p bestx q z : Ptr) (Own : Set Ptr) : Prop extends CgSep N x r p bestx q Own where
  zx : Disjoint (Rng z N) (Rng x N)
  zr : Disjoint (Rng z N) (Rng r N)
  zp : Disjoint (Rng z N) (Rng p N)
  zb : Disjoint (Rng z N) (Rng bestx N)
  zq : Disjoint (Rng z N) (Rng q N)
  zo : Disjoint (Rng z N) Own
  Mx : Disjoint (Rng Minv N) (Rng x N)
  Mr : Disjoint (Rng Minv N) (Rng r N)
  Mp : Disjoint (Rng Minv N) (Rng p N)
  Mb : Disjoint (Rng Minv N) (Rng bestx N)
  Mq : Disjoint (Rng Minv N) (Rng q N)
  Mo : Disjoint (Rng Minv N) Own
  Mz : Disjoint (Rng Minv N) (Rng z N)

theorem pcgBodyM_spec (H : OpImpl ax op R Own) (D : PcgSep N x Minv r p bestx q z Own) (d0 tol : F) (st : CgState F N) (t : σ) (s : PState F)
    (I : CgMem R x r p bestx q st t s ∧ HoldsV s Minv M ∧ s.mem.Has z N) :
    ∃ s', CSpec (pcgBodyM N x Minv r p bestx q z ax d0 tol (st.delta, st.best)) s
      (((pcgStep op M d0 st t).1.1.delta, (pcgStep op M d0 st t).1.1.best), flt (pcgStep op M d0 st t).1.2 tol) s' ∧
      (CgMem R x r p bestx q (pcgStep op M d0 st t).1.1 (pcgStep op M d0 st t).2 s' ∧ HoldsV s' Minv M ∧ s'.mem.Has z N) ∧
      Only (CgW N x r p bestx q (Own ∪ Rng z N)) s s' := by
  obtain ⟨I, hM, hz⟩ := I
  obtain ⟨s1, c1, r1, v1, o1⟩ := H.call t s p q st.p I.op I.p I.q D.pq D.po D.qo
  have x1 := I.x.keep o1 (Set.disjoint_union_right.2 ⟨D.xq, D.xo⟩)
  have rr1 := I.r.keep o1 (Set.disjoint_union_right.2 ⟨D.rq, D.ro⟩)
  have p1 := I.p.keep o1 (Set.disjoint_union_right.2 ⟨D.pq, D.po⟩)
  have b1 := I.bestx.keep o1 (Set.disjoint_union_right.2 ⟨D.bq, D.bo⟩)
  have M1 := hM.keep o1 (Set.disjoint_union_right.2 ⟨D.Mq, D.Mo⟩)
  have c2 := cmd_ddot p1 v1
  obtain ⟨s3, c3, x3, o3⟩ := cmd_map2 (fun a b => st.delta / ddot st.p (op st.p t).1 * a + b) (k := daxpyK N (st.delta / ddot st.p (op st.p t).1) p x) rfl
    p1 x1 x1.1 (NoCross.of_disj D.xp) (NoCross.refl _ _)
  have rr3 := rr1.keep o3 D.xr.symm
  have p3 := p1.keep o3 D.xp.symm
  have b3 := b1.keep o3 D.xb.symm
  have q3 := v1.keep o3 D.xq.symm
  have M3 := M1.keep o3 D.Mx
  have R3 := H.stay r1 o3 D.xo
  obtain ⟨s4, c4, r4, o4⟩ := cmd_map2 (fun a b => -(st.delta / ddot st.p (op st.p t).1) * a + b) (k := daxpyK N (-(st.delta / ddot st.p (op st.p t).1)) q r) rfl
    q3 rr3 rr3.1 (NoCross.of_disj D.rq) (NoCross.refl _ _)
  have x4 := x3.keep o4 D.xr
  have p4 := p3.keep o4 D.rp.symm
  have b4 := b3.keep o4 D.rb.symm
  have q4 := q3.keep o4 D.rq.symm
  have M4 := M3.keep o4 D.Mr
  have R4 := H.stay R3 o4 D.ro
  obtain ⟨s5, c5, z5, o5⟩ := cmd_map2 (fun a b => a * b) (k := l1c_dxmuly_z N r Minv z) rfl r4 M4 (((o1.has hz) |> o3.has) |> o4.has) (NoCross.of_disj D.zr) (NoCross.of_disj D.Mz.symm)
  have x5 := x4.keep o5 D.zx.symm
  have r5 := r4.keep o5 D.zr.symm
  have p5 := p4.keep o5 D.zp.symm
  have b5 := b4.keep o5 D.zb.symm
  have q5 := q4.keep o5 D.zq.symm
  have M5 := M4.keep o5 D.Mz
  have R5 := H.stay R4 o5 D.zo
  have c5' := cmd_ddot r5 z5
  obtain ⟨s6, c6, p6, o6⟩ := cmd_map2 (fun a b => lit 1 * a + (ddot (cgR op st t) (vmul (cgR op st t) M) / st.delta) * b)
    (k := l1c_daxpby N (lit 1) z (ddot (cgR op st t) (vmul (cgR op st t) M) / st.delta) p) rfl
    z5 p5 p5.1 (NoCross.of_disj D.zp.symm) (NoCross.refl _ _)
  have x6 := x5.keep o6 D.xp
  have r6 := r5.keep o6 D.rp
  have b6 := b5.keep o6 D.pb.symm
  have q6 := q5.keep o6 D.pq.symm
  have z6 := z5.keep o6 D.zp
  have M6 := M5.keep o6 D.Mp
  have R6 := H.stay R5 o6 D.po
  have c6' := cmd_ddot r6 r6
  have hW : CgW N x r p bestx q Own ⊆ CgW N x r p bestx q (Own ∪ Rng z N) := fun a h => by simp only [CgW, Set.mem_union] at h ⊢; tauto
  have hz' : Rng z N ⊆ CgW N x r p bestx q (Own ∪ Rng z N) := fun a h => by simp only [CgW, Set.mem_union] at h ⊢; tauto
  have o16 : Only (CgW N x r p bestx q (Own ∪ Rng z N)) s s6 :=
    ((((o1.mono (cgW_qo.trans hW)).trans (o3.mono cgW_x) subset_rfl).trans (o4.mono cgW_r) subset_rfl).trans (o5.mono hz') subset_rfl).trans (o6.mono cgW_p) subset_rfl
  by_cases hlt : flt (fsqrt (ddot (cgR op st t) (cgR op st t) / d0)) st.best = true
  · have e : pcgStep op M d0 st t = ((⟨vaxpy (st.delta / ddot st.p (op st.p t).1) st.p st.x, cgR op st t,
        vaxpby (lit 1) (vmul (cgR op st t) M) (ddot (cgR op st t) (vmul (cgR op st t) M) / st.delta) st.p,
        vaxpy (st.delta / ddot st.p (op st.p t).1) st.p st.x, ddot (cgR op st t) (vmul (cgR op st t) M), fsqrt (ddot (cgR op st t) (cgR op st t) / d0)⟩,
        fsqrt (ddot (cgR op st t) (cgR op st t) / d0)), (op st.p t).2) := if_pos hlt
    obtain ⟨s7, c7, b7, o7⟩ := cmd_map1 (fun a => a) (k := cblas_dcopy N x bestx) rfl x6 b6.1 (NoCross.of_disj D.xb.symm)
    rw [e]
    refine ⟨s7, c1.bind (c2.bind (c3.bind (c4.bind (c5.bind (c5'.bind (c6.bind (c6'.bind ?_))))))), ⟨⟨x6.keep o7 D.xb, r6.keep o7 D.rb, p6.keep o7 D.pb, b7,
      (q6.keep o7 D.bq.symm).1, H.stay R6 o7 D.bo⟩, M6.keep o7 D.Mb, (z6.keep o7 D.zb).1⟩, o16.trans (o7.mono cgW_b) subset_rfl⟩
    exact (if_pos hlt : (if _ then _ else _) = _) ▸ c7.bind (.done _ _)
  · have e : pcgStep op M d0 st t = ((⟨vaxpy (st.delta / ddot st.p (op st.p t).1) st.p st.x, cgR op st t,
        vaxpby (lit 1) (vmul (cgR op st t) M) (ddot (cgR op st t) (vmul (cgR op st t) M) / st.delta) st.p,
        st.bestx, ddot (cgR op st t) (vmul (cgR op st t) M), st.best⟩, fsqrt (ddot (cgR op st t) (cgR op st t) / d0)), (op st.p t).2) := if_neg hlt
    rw [e]
    refine ⟨s6, c1.bind (c2.bind (c3.bind (c4.bind (c5.bind (c5'.bind (c6.bind (c6'.bind ?_))))))), ⟨⟨x6, r6, p6, b6, q6.1, R6⟩, M6, z6.1⟩, o16⟩
    exact (if_neg hlt : (if _ then _ else _) = _) ▸ .done _ _

theorem pcgsolveM_spec (H : OpImpl ax op R Own) {Dwork : ℕ → Ptr} {b : Ptr} (D : PcgSep N x Minv (Dwork 0) (Dwork 1) (Dwork 2) (Dwork 3) (Dwork 4) Own)
    (b0 : Disjoint (Rng b N) (Rng (Dwork 0) N)) (b1 : Disjoint (Rng b N) (Rng (Dwork 1) N)) (b2 : Disjoint (Rng b N) (Rng (Dwork 2) N))
    (b4 : Disjoint (Rng b N) (Rng (Dwork 4) N)) (bo : Disjoint (Rng b N) Own)
    {u w : Vec F N} (hx : HoldsV s x u) (hb : HoldsV s b w) (hM : HoldsV s Minv M) (hD : ∀ i < 5, s.mem.Has (Dwork i) N) {t : σ} (hR : R t s)
    {prm : CgParams F} (hmax : prm.max_iter ≤ INT_MAX) :
    (∃ o s', l1c_cgsolve_diag_precond u w M op t prm = some o ∧ CSpec (l1c_cgsolve_diag_precondM N x b Minv Dwork ax prm) s o.res s' ∧ HoldsV s' x o.x ∧ R o.cb s' ∧
      HoldsV s' Minv M ∧ Only (CgW N x (Dwork 0) (Dwork 1) (Dwork 2) (Dwork 3) (Own ∪ Rng (Dwork 4) N)) s s') ∨
    (l1c_cgsolve_diag_precond u w M op t prm = none ∧ CUB (l1c_cgsolve_diag_precondM N x b Minv Dwork ax prm) s) := by
  have hr := hD 0 (by decide)
  have hp := hD 1 (by decide)
  have hbx := hD 2 (by decide)
  have hq := hD 3 (by decide)
  have hz := hD 4 (by decide)
  unfold l1c_cgsolve_diag_precondM
  revert D b0 b1 b2 b4 hr hp hbx hq hz
  generalize Dwork 0 = r, Dwork 1 = p, Dwork 2 = bestx, Dwork 3 = q, Dwork 4 = z
  intro D b0 b1 b2 b4 hr hp hbx hq hz
  obtain ⟨s1, c1, bx1, o1⟩ := cmd_copyLoop hx hbx D.xb.symm
  have x1 := hx.keep o1 D.xb
  have w1 := hb.keep o1 b2
  have M1 := hM.keep o1 D.Mb
  have R1 := H.stay hR o1 D.bo
  obtain ⟨s2, c2, R2, r2, o2⟩ := H.call t s1 x r u R1 x1 (o1.has hr) D.xr D.xo D.ro
  have x2 := x1.keep o2 (Set.disjoint_union_right.2 ⟨D.xr, D.xo⟩)
  have w2 := w1.keep o2 (Set.disjoint_union_right.2 ⟨b0, bo⟩)
  have M2 := M1.keep o2 (Set.disjoint_union_right.2 ⟨D.Mr, D.Mo⟩)
  have bx2 := bx1.keep o2 (Set.disjoint_union_right.2 ⟨D.rb.symm, D.bo⟩)
  obtain ⟨s3, c3, r3, o3⟩ := cmd_map2 (fun a b => lit 1 * a + -(lit 1) * b) (k := l1c_daxpby N (lit 1) b (-(lit 1)) r) rfl w2 r2 r2.1 (NoCross.of_disj b0.symm) (NoCross.refl _ _)
  have x3 := x2.keep o3 D.xr
  have w3 := w2.keep o3 b0
  have M3 := M2.keep o3 D.Mr
  have bx3 := bx2.keep o3 D.rb.symm
  have R3 := H.stay R2 o3 D.ro
  obtain ⟨s3', c3', z3', o3'⟩ := cmd_map2 (fun a b => a * b) (k := l1c_dxmuly_z N r Minv z) rfl r3 M3 (((o1.has hz) |> o2.has) |> o3.has) (NoCross.of_disj D.zr) (NoCross.of_disj D.Mz.symm)
  have x3' := x3.keep o3' D.zx.symm
  have r3' := r3.keep o3' D.zr.symm
  have w3' := w3.keep o3' b4
  have M3' := M3.keep o3' D.Mz
  have bx3' := bx3.keep o3' D.zb.symm
  have R3' := H.stay R3 o3' D.zo
  obtain ⟨s4, c4, p4, o4⟩ := cmd_map1 (fun a => a) (k := cblas_dcopy N z p) rfl z3' ((((o1.has hp) |> o2.has) |> o3.has) |> o3'.has) (NoCross.of_disj D.zp.symm)
  have x4 := x3'.keep o4 D.xp
  have r4 := r3'.keep o4 D.rp
  have z4 := z3'.keep o4 D.zp
  have w4 := w3'.keep o4 b1
  have M4 := M3'.keep o4 D.Mp
  have bx4 := bx3'.keep o4 D.pb.symm
  have R4 := H.stay R3' o4 D.po
  have c5 := cmd_ddot r4 z4
  have c6 := cmd_ddot w4 w4
  have hW : CgW N x r p bestx q Own ⊆ CgW N x r p bestx q (Own ∪ Rng z N) := fun a h => by simp only [CgW, Set.mem_union] at h ⊢; tauto
  have hz' : Rng z N ⊆ CgW N x r p bestx q (Own ∪ Rng z N) := fun a h => by simp only [CgW, Set.mem_union] at h ⊢; tauto
  have o14 : Only (CgW N x r p bestx q (Own ∪ Rng z N)) s s4 :=
    ((((o1.mono cgW_b).trans (o2.mono (cgW_ro.trans hW)) subset_rfl).trans (o3.mono cgW_r) subset_rfl).trans (o3'.mono hz') subset_rfl).trans (o4.mono cgW_p) subset_rfl
  have I : CgMem R x r p bestx q (pcgInit op u w M t).1 (pcgInit op u w M t).2 s4 ∧ HoldsV s4 Minv M ∧ s4.mem.Has z N :=
    ⟨⟨x4, r4, p4, bx4, ((((o1.has hq) |> o2.has) |> o3.has) |> o3'.has) |> o4.has, R4⟩, M4, z4.1⟩
  have e : l1c_cgsolve_diag_precond u w M op t prm =
    (cgLoop (pcgStep op M (ddot w w)) prm.tol prm.max_iter.toNat 1 (pcgInit op u w M t).1 (pcgInit op u w M t).2).map (cgFinish prm) := rfl
  rcases loopSt_cg (hi := prm.max_iter) (tol := prm.tol) hmax (fun st t s I => pcgBodyM_spec (M := M) H D (ddot w w) prm.tol st t s I) prm.max_iter.toNat 1 (pcgInit op u w M t).1
    (pcgInit op u w M t).2 s4 (by decide) (by decide) (by omega) I with ⟨st', k, t', s5, a1, a2, ⟨a3, a5, -⟩, a4⟩ | ⟨a1, a2⟩
  · obtain ⟨s6, c8, x6, o6⟩ := cmd_map1 (fun a => a) (k := cblas_dcopy N bestx x) rfl a3.bestx a3.x.1 (NoCross.of_disj D.xb)
    rw [e, a1]
    refine Or.inl ⟨_, s6, rfl, ?_, x6, H.stay a3.op o6 D.xo, a5.keep o6 D.Mx, (o14.trans a4 subset_rfl).trans (o6.mono cgW_x) subset_rfl⟩
    exact c1.bind (c2.bind (c3.bind (c3'.bind (c4.bind (c5.bind (c6.bind (a2.bind (c8.bind (.done _ _)))))))))
  · rw [e, a1]
    refine Or.inr ⟨rfl, ?_⟩
    exact c1.bind_ub (c2.bind_ub (c3.bind_ub (c3'.bind_ub (c4.bind_ub (c5.bind_ub (c6.bind_ub a2.bind))))))

/-! ### the right-hand side passed as the first work array -/

/-- the residual becomes `1*(Ax) - 1*(Ax)` -/
theorem cgsolveM_alias (H : OpImpl ax op R Own) {Dwork : ℕ → Ptr} (D : CgSep N x (Dwork 0) (Dwork 1) (Dwork 2) (Dwork 3) Own)
    {u : Vec F N} (hx : HoldsV s x u) (hD : ∀ i < 4, s.mem.Has (Dwork i) N) {t : σ} (hR : R t s) {prm : CgParams F} (hmax : prm.max_iter < INT_MAX)
    {d : F} (hd : ddot (fun i => lit 1 * (op u t).1 i + -(lit 1) * (op u t).1 i) (fun i => lit 1 * (op u t).1 i + -(lit 1) * (op u t).1 i) = d)
    (hn : ∀ a, flt a (fsqrt (d / d)) = false) :
    ∃ res s', CSpec (l1c_cgsolveM N x (Dwork 0) Dwork ax prm) s res s' ∧ HoldsV s' x u ∧ res.cgres = fsqrt (d / d) := by
  have hr := hD 0 (by decide)
  have hp := hD 1 (by decide)
  have hbx := hD 2 (by decide)
  have hq := hD 3 (by decide)
  unfold l1c_cgsolveM
  revert D hr hp hbx hq
  generalize Dwork 0 = r, Dwork 1 = p, Dwork 2 = bestx, Dwork 3 = q
  intro D hr hp hbx hq
  obtain ⟨s1, c1, bx1, o1⟩ := cmd_copyLoop hx hbx D.xb.symm
  have x1 := hx.keep o1 D.xb
  have R1 := H.stay hR o1 D.bo
  obtain ⟨s2, c2, R2, r2, o2⟩ := H.call t s1 x r u R1 x1 (o1.has hr) D.xr D.xo D.ro
  have x2 := x1.keep o2 (Set.disjoint_union_right.2 ⟨D.xr, D.xo⟩)
  have bx2 := bx1.keep o2 (Set.disjoint_union_right.2 ⟨D.rb.symm, D.bo⟩)
  obtain ⟨s3, c3, r3, o3⟩ := cmd_map2 (fun a b => lit 1 * a + -(lit 1) * b) (k := l1c_daxpby N (lit 1) r (-(lit 1)) r) rfl r2 r2 r2.1 (NoCross.refl _ _) (NoCross.refl _ _)
  have x3 := x2.keep o3 D.xr
  have bx3 := bx2.keep o3 D.rb.symm
  have R3 := H.stay R2 o3 D.ro
  obtain ⟨s4, c4, p4, o4⟩ := cmd_map1 (fun a => a) (k := cblas_dcopy N r p) rfl r3 (((o1.has hp) |> o2.has) |> o3.has) (NoCross.of_disj D.rp.symm)
  have x4 := x3.keep o4 D.xp
  have r4 := r3.keep o4 D.rp
  have bx4 := bx3.keep o4 D.pb.symm
  have R4 := H.stay R3 o4 D.po
  have c5 := cmd_ddot r4 r4
  rw [hd] at c5
  have I : CgMem R x r p bestx q ⟨u, _, _, u, d, fsqrt (d / d)⟩ (op u t).2 s4 := ⟨x4, r4, p4, bx4, (((o1.has hq) |> o2.has) |> o3.has) |> o4.has, R4⟩
  rcases loopSt_cg (hi := prm.max_iter) (tol := prm.tol) hmax.le (fun st t s I => cgBodyM_spec H D d prm.tol st t s I) prm.max_iter.toNat 1 _
    _ s4 (by decide) (by decide) (by omega) I with ⟨st', k, t', s5, a1, a2, a3, a4⟩ | ⟨a1, a2⟩
  · obtain ⟨s6, c8, x6, o6⟩ := cmd_map1 (fun a => a) (k := cblas_dcopy N bestx x) rfl a3.bestx a3.x.1 (NoCross.of_disj D.xb)
    obtain ⟨e1, e2⟩ := cgLoop_keep (fun st s => cgStep_keep op d (x0 := u) hn st s) prm.tol _ _ (op u t).2 rfl rfl a1
    dsimp only at e1 e2
    rw [e2] at x6
    exact ⟨_, s6, c1.bind (c2.bind (c3.bind (c4.bind (c5.bind (c5.bind (a2.bind (c8.bind (.done _ _)))))))), x6, e1⟩
  · obtain ⟨o, ho⟩ := cgLoop_some (cgStep op d) prm.tol prm.max_iter.toNat 1 (by unfold INT_MAX at *; omega) ⟨u, _, _, u, d, fsqrt (d / d)⟩ (op u t).2
    rw [a1] at ho
    cases ho

/-! ### from the specification's form -/

theorem Apart.cg {Dwork : ℕ → Ptr} (h : Apart N x Dwork 4 Own) : CgSep N x (Dwork 0) (Dwork 1) (Dwork 2) (Dwork 3) Own :=
  ⟨h.xw 0 (by decide), h.xw 1 (by decide), h.xw 2 (by decide), h.xw 3 (by decide), h.ww 0 (by decide) 1 (by decide) (by decide),
    h.ww 0 (by decide) 2 (by decide) (by decide), h.ww 0 (by decide) 3 (by decide) (by decide), h.ww 1 (by decide) 2 (by decide) (by decide),
    h.ww 1 (by decide) 3 (by decide) (by decide), h.ww 2 (by decide) 3 (by decide) (by decide), h.xo, h.wo 0 (by decide), h.wo 1 (by decide), h.wo 2 (by decide), h.wo 3 (by decide)⟩

theorem Apart.pcg {Dwork : ℕ → Ptr} (h : Apart N x Dwork 5 Own) (hx : Disjoint (Rng Minv N) (Rng x N)) (hw : ∀ i < 5, Disjoint (Rng Minv N) (Rng (Dwork i) N))
    (ho : Disjoint (Rng Minv N) Own) : PcgSep N x Minv (Dwork 0) (Dwork 1) (Dwork 2) (Dwork 3) (Dwork 4) Own where
  toCgSep := Apart.cg ⟨fun i hi => h.xw i (by omega), fun i hi j hj => h.ww i (by omega) j (by omega), h.xo, fun i hi => h.wo i (by omega)⟩
  zx := (h.xw 4 (by decide)).symm
  zr := h.ww 4 (by decide) 0 (by decide) (by decide)
  zp := h.ww 4 (by decide) 1 (by decide) (by decide)
  zb := h.ww 4 (by decide) 2 (by decide) (by decide)
  zq := h.ww 4 (by decide) 3 (by decide) (by decide)
  zo := h.wo 4 (by decide)
  Mx := hx
  Mr := hw 0 (by decide)
  Mp := hw 1 (by decide)
  Mb := hw 2 (by decide)
  Mq := hw 3 (by decide)
  Mo := ho
  Mz := hw 4 (by decide)

theorem cgW_writes {Dwork : ℕ → Ptr} : CgW N x (Dwork 0) (Dwork 1) (Dwork 2) (Dwork 3) Own ⊆ Writes N x Dwork 4 Own := by
  intro a h
  simp only [CgW, Writes, Set.mem_union, Set.mem_ofPred_eq] at h ⊢
  rcases h with h
  by_cases hx : a ∈ Rng x N
  · exact Or.inl (Or.inl hx)
  by_cases ho : a ∈ Own
  · exact Or.inr ho
  refine Or.inl (Or.inr ?_)
  by_cases h0 : a ∈ Rng (Dwork 0) N
  · exact ⟨0, by decide, h0⟩
  by_cases h1 : a ∈ Rng (Dwork 1) N
  · exact ⟨1, by decide, h1⟩
  by_cases h2 : a ∈ Rng (Dwork 2) N
  · exact ⟨2, by decide, h2⟩
  exact ⟨3, by decide, by tauto⟩

theorem cgW_writes5 {Dwork : ℕ → Ptr} : CgW N x (Dwork 0) (Dwork 1) (Dwork 2) (Dwork 3) (Own ∪ Rng (Dwork 4) N) ⊆ Writes N x Dwork 5 Own := by
  intro a h
  have := cgW_writes h
  simp only [Writes, Set.mem_union, Set.mem_ofPred_eq] at this ⊢
  rcases this with (h | ⟨i, hi, h⟩) | h | h
  · exact Or.inl (Or.inl h)
  · exact Or.inl (Or.inr ⟨i, by omega, h⟩)
  · exact Or.inr h
  · exact Or.inl (Or.inr ⟨4, by decide, h⟩)

/-- multiplication by a stored diagonal -/
theorem diag_opImpl (d : Ptr) (dv : Vec F N) : OpImpl (fun x y => Cmd.exec (l1c_dxmuly_z N x d y)) (fun v (_ : Unit) => (vmul v dv, ())) (fun _ s => HoldsV s d dv) (Rng d N) where
  call t s x y v hR hx hy hxy hxo hyo := by
    obtain ⟨s', c, h, o⟩ := cmd_map2 (fun a b => a * b) (k := l1c_dxmuly_z N x d y) rfl hx hR hy (NoCross.of_disj hxy.symm) (NoCross.of_disj hyo)
    exact ⟨s', c, hR.keep o hyo.symm, h, o.mono Set.subset_union_left⟩
  keep t s s' h o := h.keep o (by rw [Set.disjoint_compl_right_iff_subset])
end

end L1c
