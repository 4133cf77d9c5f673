import Verif.Proofs.DctRam
import Verif.Props.Dct

/-! Helper lemmas: the matrix set on memory, and the transform sets as operators of the solvers. -/

namespace L1c
open Prog Scalar

variable {F : Type} [Scalar F] {n m k l N : ℕ} {s : PState F} {x y A dwork : Ptr}

omit [Scalar F] in
theorem entry_at {Av : Vec F (n * m)} (hA : HoldsV s A Av) (i : Fin n) (j : Fin m) :
    s.mem.Ok (A + (((i : ℕ) : Int) * (m : Int) + ((j : ℕ) : Int))) ∧ s.mem.val (A + (((i : ℕ) : Int) * (m : Int) + ((j : ℕ) : Int))) = entry Av i j := by
  have e : (((i : ℕ) : Int) * (m : Int) + ((j : ℕ) : Int)) = (((finProdFinEquiv (i, j) : Fin (n * m)) : ℕ) : Int) := by
    simp [finProdFinEquiv, mul_comm, add_comm]
  rw [e]
  exact ⟨hA.1 _ (by omega) (by have := (finProdFinEquiv (i, j) : Fin (n * m)).isLt; omega), hA.2 _⟩

theorem rng_mono {p : Ptr} {i j : ℕ} (h : i ≤ j) : Rng p i ⊆ Rng p j := fun a ha => ⟨ha.1, ha.2.1, ha.2.2.trans_le (by omega)⟩

theorem cmd_matAx {Av : Vec F (n * m)} {v : Vec F m} (hA : HoldsV s A Av) (hx : HoldsV s x v) (hy : s.mem.Has y n) (d1 : Disjoint (Rng A (n * m)) (Rng y n))
    (d2 : Disjoint (Rng x m) (Rng y n)) : ∃ s', CSpec (matAxM n m A x y) s () s' ∧ HoldsV s' y (matAx Av v) ∧ Only (Rng y n) s s' := by
  refine cmd_seqGen hy _ fun i M hl hv => ?_
  have hk : ∀ {N : ℕ} {p : Ptr} {u : Vec F N}, HoldsV s p u → Disjoint (Rng p N) (Rng y n) → HoldsV { s with mem := M } p u := by
    intro N p u hp hd
    refine ⟨fun k h0 h1 => ⟨(hp.1 k h0 h1).1, by show _ < (M.len _ : Int); rw [hl]; exact (hp.1 k h0 h1).2⟩, fun j => ?_⟩
    exact (hv _ fun hc => Set.disjoint_left.1 hd (mem_rng_add (by omega) (by omega)) (rng_mono i.isLt.le hc)).trans (hp.2 j)
  have hA' := hk hA d1
  have hx' := hk hx d2
  have hf : (foldUp 0 (m : Int) (lit 0 : F) fun j acc => do
      let a ← load (A + (((i : ℕ) : Int) * (m : Int) + j))
      let v ← load (x + j)
      pure (acc + a * v)).run M = some (matAx Av v i, M) := by
    refine run_foldV (fun c j => c + entry Av i j * v j) (lit 0) fun j c => ?_
    have ea := entry_at hA' i j
    simp only [run_bind, run_load ea.1, Option.bind_some, run_load (hx'.1 ((j : ℕ) : Int) (by omega) (by omega)), run_pure]
    rw [show M.val (x + ((j : ℕ) : Int)) = v j from hx'.2 j, show M.val _ = _ from ea.2]
  rw [run_bind, hf]
  have hyo := hy ((i : ℕ) : Int) (by omega) (by omega)
  exact run_store ⟨hyo.1, by rw [hl]; exact hyo.2⟩

theorem cmd_matAty {Av : Vec F (n * m)} {v : Vec F n} (hA : HoldsV s A Av) (hx : HoldsV s x v) (hy : s.mem.Has y m) (d1 : Disjoint (Rng A (n * m)) (Rng y m))
    (d2 : Disjoint (Rng x n) (Rng y m)) : ∃ s', CSpec (matAtyM n m A x y) s () s' ∧ HoldsV s' y (matAty Av v) ∧ Only (Rng y m) s s' := by
  refine cmd_seqGen hy _ fun j M hl hv => ?_
  have hk : ∀ {N : ℕ} {p : Ptr} {u : Vec F N}, HoldsV s p u → Disjoint (Rng p N) (Rng y m) → HoldsV { s with mem := M } p u := by
    intro N p u hp hd
    refine ⟨fun k h0 h1 => ⟨(hp.1 k h0 h1).1, by show _ < (M.len _ : Int); rw [hl]; exact (hp.1 k h0 h1).2⟩, fun i => ?_⟩
    exact (hv _ fun hc => Set.disjoint_left.1 hd (mem_rng_add (by omega) (by omega)) (rng_mono j.isLt.le hc)).trans (hp.2 i)
  have hA' := hk hA d1
  have hx' := hk hx d2
  have hf : (foldUp 0 (n : Int) (lit 0 : F) fun i acc => do
      let a ← load (A + (i * (m : Int) + ((j : ℕ) : Int)))
      let v ← load (x + i)
      pure (acc + a * v)).run M = some (matAty Av v j, M) := by
    refine run_foldV (fun c i => c + entry Av i j * v i) (lit 0) fun i c => ?_
    have ea := entry_at hA' i j
    simp only [run_bind, run_load ea.1, Option.bind_some, run_load (hx'.1 ((i : ℕ) : Int) (by omega) (by omega)), run_pure]
    rw [show M.val (x + ((i : ℕ) : Int)) = v i from hx'.2 i, show M.val _ = _ from ea.2]
  rw [run_bind, hf]
  have hyo := hy ((j : ℕ) : Int) (by omega) (by omega)
  exact run_store ⟨hyo.1, by rw [hl]; exact hyo.2⟩

omit [Scalar F] in
theorem HoldsV.stay {v : Vec F N} {s' : PState F} {S : Set Ptr} (h : HoldsV s x v) (ho : Only S s s') (hd : Disjoint (Rng x N) S) : HoldsV s' x v :=
  ⟨fun k h0 h1 => ⟨(h.1 k h0 h1).1, by rw [ho.len]; exact (h.1 k h0 h1).2⟩, fun i =>
    (ho.val _ (Set.disjoint_left.1 hd (mem_rng_add (by omega) (by omega)))).trans (h.2 i)⟩

omit [Scalar F] in
theorem has_stay {s' : PState F} {S : Set Ptr} {k : Int} (h : s.mem.Has x k) (ho : Only S s s') : s'.mem.Has x k :=
  fun i h0 h1 => ⟨(h i h0 h1).1, by rw [ho.len]; exact (h i h0 h1).2⟩

omit [Scalar F] in
theorem has_le {j k : Int} (h : s.mem.Has x k) (hjk : j ≤ k) : s.mem.Has x j := fun i h0 h1 => h i h0 (h1.trans_le hjk)

omit [Scalar F] in
theorem mat_own (Av : Vec F (n * m)) : OwnData (σ := Unit) (fun _ s => MatAt A dwork Av s) (matOwn A dwork n m) := by
  rintro t s s' ⟨h1, h2⟩ h
  refine ⟨⟨fun k h0 h3 => ⟨(h1.1 k h0 h3).1, ?_⟩, fun i => ?_⟩, fun k h0 h3 => ⟨(h2 k h0 h3).1, ?_⟩⟩
  · have := (h (A + k) (Or.inl (mem_rng_add h0 h3))).2
    rw [this]; exact (h1.1 k h0 h3).2
  · exact (h _ (Or.inl (mem_rng_add (by omega) (by omega)))).1.trans (h1.2 i)
  · have := (h (dwork + k) (Or.inr (mem_rng_add h0 h3))).2
    rw [this]; exact (h2 k h0 h3).2

omit [Scalar F] in
theorem ownData_keep {σ : Type} {R : σ → PState F → Prop} {Own : Set Ptr} (h : OwnData R Own) (t : σ) (s s' : PState F) (hR : R t s) (ho : Only Ownᶜ s s') : R t s' :=
  h t s s' hR fun a ha => ⟨ho.val a fun hc => hc ha, by rw [ho.len]⟩

theorem mat_impl (Av : Vec F (n * m)) (hd : Disjoint (Rng A (n * m)) (Rng dwork (max n m))) :
    QImpl (matFunsM n m A dwork) (matOps Av) (fun _ s => MatAt A dwork Av s) (matOwn A dwork n m) where
  A := ⟨fun t s x y v hR hx hy d1 d2 d3 => by
      obtain ⟨s', c1, c2, c3⟩ := cmd_matAx hR.1 hx hy (d3.mono_right Set.subset_union_left).symm d1
      exact ⟨s', c1, ⟨hR.1.stay c3 (d3.mono_right Set.subset_union_left).symm, has_stay hR.2 c3⟩, c2, c3.mono Set.subset_union_left⟩, ownData_keep (mat_own Av)⟩
  At := ⟨fun t s x y v hR hx hy d1 d2 d3 => by
      obtain ⟨s', c1, c2, c3⟩ := cmd_matAty hR.1 hx hy (d3.mono_right Set.subset_union_left).symm d1
      exact ⟨s', c1, ⟨hR.1.stay c3 (d3.mono_right Set.subset_union_left).symm, has_stay hR.2 c3⟩, c2, c3.mono Set.subset_union_left⟩, ownData_keep (mat_own Av)⟩
  AtA := ⟨fun t s x y v hR hx hy d1 d2 d3 => by
      have hw : Rng dwork n ⊆ Rng dwork (max n m) := rng_mono (le_max_left n m)
      have hw' : Rng dwork n ⊆ matOwn A dwork n m := hw.trans Set.subset_union_right
      obtain ⟨s1, c1, c2, c3⟩ := cmd_matAx (y := dwork) hR.1 hx (has_le hR.2 (by simp)) (hd.mono_right hw) (d2.mono_right hw')
      have hA1 := hR.1.stay c3 (hd.mono_right hw)
      obtain ⟨s2, e1, e2, e3⟩ := cmd_matAty (x := dwork) hA1 c2 (has_stay hy c3) (d3.mono_right Set.subset_union_left).symm (d3.mono_right hw').symm
      refine ⟨s2, c1.bind e1, ⟨hA1.stay e3 (d3.mono_right Set.subset_union_left).symm, has_stay (has_stay hR.2 c3) e3⟩, e2, ?_⟩
      exact c3.trans (e3.mono Set.subset_union_left) (hw'.trans Set.subset_union_right), ownData_keep (mat_own Av)⟩

/-! ## DCT sets as operators of l1qc -/

section dct
variable {b : DctPtr} {f : DctFuns F m n} {c : DctFunsM F} {idx : Fin n → Int}

omit [Scalar F] in
theorem buf_own : OwnData (BufAt (F := F) (m := m) b) (b.Own m) := by
  rintro t s s' ⟨h1, h2, h3⟩ h
  have key : ∀ {p : Ptr} {v : Vec F m}, Rng p m ⊆ b.Own m → HoldsV s p v → HoldsV s' p v := fun {p v} hs hp =>
    ⟨fun k h0 h1 => ⟨(hp.1 k h0 h1).1, by rw [(h (p + k) (hs (mem_rng_add h0 h1))).2]; exact (hp.1 k h0 h1).2⟩, fun i =>
      (h _ (hs (mem_rng_add (by omega) (by omega)))).1.trans (hp.2 i)⟩
  exact ⟨key (fun a ha => Or.inl (Or.inl ha)) h1, key (fun a ha => Or.inl (Or.inr ha)) h2, key (fun a ha => Or.inr ha) h3⟩

theorem bufs_own : OwnData (σ := Unit) (fun _ s => BufsAt (F := F) b m idx s) (b.Own m) := by
  rintro - s s' ⟨t, h1, h2⟩ h
  exact ⟨t, h1, buf_own t s s' h2 h⟩

/-- an operator of a DCT set that leaves its argument is an operator without state -/
theorem opImpl_of_dct {op : Vec F l → DctBuf F m → Option (XOut F k l m)} {ax : Ptr → Ptr → Cmd F Unit} (H : NOpImpl ax (dctNOp op) (BufAt b) (b.Own m))
    (ok : OpOk idx op) (ka : ∀ s, KeepsArg op s) :
    OpImpl ax (fun v (_ : Unit) => ((((op v DctBuf.fresh).map (·.res)).getD fun _ => lit 0, ()) : Vec F k × Unit)) (fun _ s => BufsAt b m idx s) (b.Own m) := by
  refine ⟨fun _ s x y v hR hx hy d1 d2 d3 => ?_, ownData_keep bufs_own⟩
  obtain ⟨t, ht, hb⟩ := hR
  obtain ⟨o, o', h1, h2, h3, -⟩ := ok.same v t ht
  obtain ⟨s', c1, c2, c3, c4, c5⟩ := H t s x y v (fun i => s.mem.val (y + ((i : ℕ) : Int))) ((o.arg, o.res), o.buf) hb hx ⟨hy, fun _ => rfl⟩ d1 d2 d3 (by
    simp [dctNOp, h1])
  refine ⟨s', c1, ⟨o.buf, ok.keep v t o ht h1, c2⟩, ?_, c5.len, fun a ha => ?_, c5.rest⟩
  · show HoldsV s' y (((op v DctBuf.fresh).map (·.res)).getD fun _ => lit 0)
    rw [h2]
    show HoldsV s' y o'.res
    rw [← h3]
    exact c4
  · by_cases hax : a ∈ Rng x l
    · obtain ⟨i, rfl⟩ : ∃ i : Fin l, a = x + ((i : ℕ) : Int) := by
        refine ⟨⟨(a.off - x.off).toNat, by have := hax.2; omega⟩, Ptr.ext hax.1 ?_⟩
        have := hax.2.1
        simp only [Ptr.add_off]
        omega
      rw [c3.2 i, hx.2 i]
      exact congrFun (ka t v o h1) i
    · exact c5.val a fun hc => hc.elim (fun hc => hc.elim hax fun hc => ha (Or.inl hc)) fun hc => ha (Or.inr hc)

theorem dct_qimpl (S : DctSet f idx) (H : DctImpl c f (BufAt b) (b.Own m)) : QImpl c.q (dctOps f) (fun _ s => BufsAt b m idx s) (b.Own m) where
  A := opImpl_of_dct H.Ax (setOk S).Ax fun s => (C25_arguments S s).1
  At := opImpl_of_dct H.Aty (setOk S).Aty fun s => (C25_arguments S s).2.1
  AtA := opImpl_of_dct H.AtAx (setOk S).AtAx fun s => (C25_arguments S s).2.2.1

end dct

/-! ## Loops that leave an array -/

omit [Scalar F] in
theorem run_store_len {M M' : Mem F} {p : Ptr} {v : F} (h : (store p v).run M = some ((), M')) : M.Ok p ∧ M'.len = M.len := by
  by_cases hp : M.Ok p
  · rw [run_store hp] at h
    cases h
    exact ⟨hp, rfl⟩
  · simp [store, Prog.run, hp] at h

omit [Scalar F] in
/-- a loop of loads and stores that gets through has executed each of its bodies -/
theorem forN_reach {body : Int → Prog F Unit} {L : ℕ → ℕ} (hb : ∀ i (M M' : Mem F), M.len = L → (body i).run M = some ((), M') → M'.len = L) {M M' : Mem F}
    (h0 : M.len = L) (N : ℕ) (h : (Prog.forN 0 body N).run M = some ((), M')) :
    M'.len = L ∧ ∀ j < N, ∃ M1 M2, M1.len = L ∧ (body ((j : ℕ) : Int)).run M1 = some ((), M2) := by
  induction N generalizing M' with
  | zero => cases h; exact ⟨h0, fun j hj => absurd hj (by omega)⟩
  | succ N ih =>
    have h : ((Prog.forN 0 body N) >>= fun _ => body (0 + (N : Int))).run M = some ((), M') := h
    rw [run_bind, Option.bind_eq_some_iff] at h
    obtain ⟨⟨⟨⟩, M1⟩, h1, h2⟩ := h
    obtain ⟨a1, a2⟩ := ih h1
    rw [zero_add] at h2
    refine ⟨hb _ _ _ a1 h2, fun j hj => ?_⟩
    by_cases e : j = N
    · exact e ▸ ⟨M1, M', a1, h2⟩
    · exact a2 j (by omega)

theorem scatter_ub {idx : Int → Int} {i : ℕ} (hi : i < n) (hbad : ¬ s.mem.Ok (x + idx i)) : CUB (scatterM n idx y x : Cmd F Unit) s := by
  refine .kern ?_
  have h : (forUp 0 (n : Int) fun i => do
      let v ← load (y + i)
      store (x + idx i) v : Prog F Unit).run s.mem = none := by
    by_contra hc
    obtain ⟨⟨⟨⟩, M'⟩, h⟩ := Option.ne_none_iff_exists'.1 hc
    unfold forUp at h
    rw [show ((n : Int) - 0).toNat = n by omega] at h
    have step : ∀ (i : Int) (M M' : Mem F), (do let v ← load (y + i); store (x + idx i) v : Prog F Unit).run M = some ((), M') → M.Ok (x + idx i) ∧ M'.len = M.len := by
      intro i M M' hr
      rw [run_bind, Option.bind_eq_some_iff] at hr
      obtain ⟨⟨v, M1⟩, h1, h2⟩ := hr
      have e : M1 = M := by
        by_cases hp : M.Ok (y + i)
        · rw [run_load hp] at h1
          cases h1
          rfl
        · simp [load, Prog.run, hp] at h1
      subst e
      exact run_store_len h2
    obtain ⟨-, h2⟩ := forN_reach (L := s.mem.len) (fun i M M' hl hr => (step i M M' hr).2.trans hl) rfl n h
    obtain ⟨M1, M2, e1, e2⟩ := h2 i hi
    have := (step _ _ _ e2).1
    exact hbad ⟨this.1, by rw [← e1]; exact this.2⟩
  have := kub_seq (al := []) h []
  rwa [List.append_nil] at this

/-! ## A command for every transform -/

/-- read the input array, then write the output array -/
def copyThrough (N : ℕ) (g : Vec F N → Vec F N) (x y : Ptr) : Cmd F Unit := Cmd.exec (seqK do
  let v ← foldUp 0 (N : Int) (fun _ => lit 0 : Vec F N) fun i c => do
    let a ← load (x + i)
    pure fun j => if ((j : ℕ) : Int) = i then a else c j
  forUp 0 (N : Int) fun i => store (y + i) (if h : i.toNat < N then g v ⟨i.toNat, h⟩ else lit 0))

omit [Scalar F] in
theorem foldl_set (v : Vec F N) (L : List (Fin N)) (c : Vec F N) (j : Fin N) :
    L.foldl (fun c (i : Fin N) (j : Fin N) => if ((j : ℕ) : Int) = ((i : ℕ) : Int) then v i else c j) c j = if j ∈ L then v j else c j := by
  induction L generalizing c with
  | nil => rfl
  | cons a L ih =>
    rw [List.foldl_cons, ih]
    by_cases h : j ∈ L
    · simp [h]
    · rw [if_neg h]
      by_cases e : j = a
      · subst e; simp
      · rw [if_neg fun hc => e (Fin.ext (by omega)), if_neg (by simp [e, h])]

theorem copyThrough_spec (g : Vec F N → Vec F N) {v : Vec F N} (hx : HoldsV s x v) (hy : s.mem.Has y N) :
    ∃ s', CSpec (copyThrough N g x y) s () s' ∧ HoldsV s' y (g v) ∧ Only (Rng y N) s s' := by
  have h1 : (foldUp 0 (N : Int) (fun _ => lit 0 : Vec F N) fun i c => do
      let a ← load (x + i)
      pure fun j => if ((j : ℕ) : Int) = i then a else c j).run s.mem = some (v, s.mem) := by
    have := run_foldV (m := s.mem) (fun (c : Vec F N) (i : Fin N) => (fun j => if ((j : ℕ) : Int) = ((i : ℕ) : Int) then v i else c j)) (fun _ => lit 0)
      (body := fun i c => do
        let a ← load (x + i)
        pure fun j => if ((j : ℕ) : Int) = i then a else c j) fun i c => by
      simp only [run_bind, run_load (hx.1 ((i : ℕ) : Int) (by omega) (by omega)), Option.bind_some, run_pure, hx.2 i]
    rw [this]
    congr 2
    funext j
    rw [foldl_set]
    simp
  obtain ⟨M, h2, h3, h4⟩ := run_seqGen (s := s) hy (g v) (body := fun i => store (y + i) (if h : i.toNat < N then g v ⟨i.toNat, h⟩ else lit 0)) fun i M hl _ => by
    have ho := hy ((i : ℕ) : Int) (by omega) (by omega)
    rw [run_store ⟨ho.1, by rw [hl]; exact ho.2⟩]
    simp
  refine ⟨_, cspec_exec (kspec_seq (m' := M) ?_), h3, h4⟩
  rw [run_bind, h1]
  exact h2

theorem copyThrough_impl (fw : Fftw F N) : FftwImpl ⟨copyThrough N fw.fwd, copyThrough N fw.inv⟩ fw :=
  ⟨fun _ _ _ _ hx hy _ => copyThrough_spec _ hx hy, fun _ _ _ _ hx hy _ => copyThrough_spec _ hx hy⟩

end L1c
