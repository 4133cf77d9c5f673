import Verif.Spec.TransMem
import Verif.Proofs.ArrMem
import Verif.Proofs.DctSet

/-! Helper lemmas: the transform sets on memory. -/

namespace L1c
open Prog Scalar

variable {F : Type} {N m n : ℕ} {s : PState F} {x y z : Ptr}

theorem ptr_zero (p : Ptr) : p + (0 : Int) = p := by ext <;> simp

variable [Scalar F]

/-- a sequential loop that writes entry after entry; the body may read entries not yet written and everything outside -/
theorem run_seqGen (hz : s.mem.Has z N) (w : Vec F N) {body : Int → Prog F Unit}
    (hb : ∀ (i : Fin N) (M : Mem F), M.len = s.mem.len → (∀ a, a ∉ Rng z i → M.val a = s.mem.val a) →
      (body ((i : ℕ) : Int)).run M = some ((), M.write (z + ((i : ℕ) : Int)) (w i))) :
    ∃ M, (forUp 0 (N : Int) body).run s.mem = some ((), M) ∧ HoldsV { s with mem := M } z w ∧ Only (Rng z N) s { s with mem := M } := by
  set g : Int → F := fun i => if h : i.toNat < N then w ⟨i.toNat, h⟩ else lit 0 with hg
  have hrun : (forUp 0 (N : Int) body).run s.mem = some ((), s.mem.setRange z N g) := by
    have := run_forUp 0 (N : Int) body (fun k => s.mem.setRange z k g) (fun i h0 h1 => by
      obtain ⟨j, rfl⟩ := Int.eq_ofNat_of_zero_le h0
      have hj : j < N := by omega
      have := hb ⟨j, hj⟩ (s.mem.setRange z (j : Int) g) rfl (fun a ha => Mem.setRange_val_out _ _ _ _ _ ha)
      have eg : g (j : Int) = w ⟨j, hj⟩ := by simp [hg, hj]
      rw [this, ← Mem.setRange_write _ _ _ g h0, eg]) (by omega)
    rwa [Mem.setRange_zero _ _ _ le_rfl] at this
  have h := setRange_holds (s := s) hz g w (fun i => by simp [hg])
  exact ⟨_, hrun, h.1, h.2⟩

theorem cmd_seqGen (hz : s.mem.Has z N) (w : Vec F N) {body : Int → Prog F Unit}
    (hb : ∀ (i : Fin N) (M : Mem F), M.len = s.mem.len → (∀ a, a ∉ Rng z i → M.val a = s.mem.val a) →
      (body ((i : ℕ) : Int)).run M = some ((), M.write (z + ((i : ℕ) : Int)) (w i))) :
    ∃ s', CSpec (Cmd.exec (seqK (forUp 0 (N : Int) body))) s () s' ∧ HoldsV s' z w ∧ Only (Rng z N) s s' := by
  obtain ⟨M, h1, h2, h3⟩ := run_seqGen hz w hb
  exact ⟨_, cspec_exec (kspec_seq h1), h2, h3⟩

omit [Scalar F] in
theorem write_holds {v : Vec F N} (hx : HoldsV s x v) (i : Fin N) (a : F) :
    HoldsV { s with mem := s.mem.write (x + ((i : ℕ) : Int)) a } x (Function.update v i a) ∧ Only (Rng x N) s { s with mem := s.mem.write (x + ((i : ℕ) : Int)) a } := by
  refine ⟨⟨hx.1, fun j => ?_⟩, rfl, fun b hb => ?_, rfl, rfl, rfl, rfl⟩
  · show (s.mem.write _ a).val _ = _
    rw [Mem.write_val]
    by_cases e : j = i
    · subst e
      simp
    · rw [if_neg, Function.update_of_ne e, hx.2]
      intro hc
      have := congrArg Ptr.off hc
      simp at this
      exact e (Fin.ext (by exact_mod_cast this))
  · show (s.mem.write _ a).val b = _
    rw [Mem.write_val, if_neg]
    rintro rfl
    exact hb (mem_rng_add (by omega) (by omega))

section head
variable [NeZero N]

omit [Scalar F] in
theorem head_ok (hx : s.mem.Has x N) : s.mem.Ok x := by
  have := hx 0 le_rfl (by exact_mod_cast Nat.pos_of_ne_zero (NeZero.ne N))
  rwa [ptr_zero] at this

omit [Scalar F] in
theorem head_val {v : Vec F N} (hx : HoldsV s x v) : s.mem.val x = v 0 := by
  have := hx.2 0
  rwa [show (((0 : Fin N) : ℕ) : Int) = 0 by simp, ptr_zero] at this

theorem cmd_store0 {v : Vec F N} (hx : HoldsV s x v) (a : F) :
    ∃ s', CSpec (Cmd.exec (seqK (store x a))) s () s' ∧ HoldsV s' x (Function.update v 0 a) ∧ Only (Rng x N) s s' := by
  have h := write_holds hx 0 a
  rw [show (((0 : Fin N) : ℕ) : Int) = 0 by simp, ptr_zero] at h
  exact ⟨_, cspec_exec (kspec_seq (run_store (head_ok hx.1))), h⟩

theorem cmd_head0 {v : Vec F N} (hx : HoldsV s x v) (f : F → F) :
    ∃ s', CSpec (head0M x f) s () s' ∧ HoldsV s' x (Function.update v 0 (f (v 0))) ∧ Only (Rng x N) s s' := by
  have h := write_holds hx 0 (f (v 0))
  rw [show (((0 : Fin N) : ℕ) : Int) = 0 by simp, ptr_zero] at h
  refine ⟨_, cspec_exec (kspec_seq ?_), h⟩
  simp only [run_bind, run_load (head_ok hx.1), Option.bind_some, run_store (head_ok hx.1), head_val hx]

theorem cmd_load0 {v : Vec F N} (hx : HoldsV s x v) : CSpec (Cmd.eval (load x)) s (v 0) s := by
  refine cspec_eval (m := s.mem) ?_
  rw [run_load (head_ok hx.1), head_val hx]
end head

theorem cmd_scale {v : Vec F N} (hx : HoldsV s x v) (hy : s.mem.Has y N) (hd : NoCross N y x) (a : F) :
    ∃ s', CSpec (scaleM N a x y) s () s' ∧ HoldsV s' y (vscale a v) ∧ Only (Rng y N) s s' :=
  cmd_seqMap (fun b => b * a) hx hy hd rfl

theorem cmd_copy {v : Vec F N} (hx : HoldsV s x v) (hy : s.mem.Has y N) (hd : NoCross N y x) :
    ∃ s', CSpec (Cmd.exec (cblas_dcopy (N : Int) x y)) s () s' ∧ HoldsV s' y v ∧ Only (Rng y N) s s' := cmd_map1 id rfl hx hy hd

theorem cmd_gather {v : Vec F m} {idx : Int → Int} {ix : Fin n → Fin m} (hix : ∀ i : Fin n, ((ix i : ℕ) : Int) = idx ((i : ℕ) : Int)) (hx : HoldsV s x v)
    (hy : s.mem.Has y n) (hd : Disjoint (Rng x m) (Rng y n)) (f : F → F) :
    ∃ s', CSpec (gatherM n idx f x y) s () s' ∧ HoldsV s' y (fun i => f (gather ix v i)) ∧ Only (Rng y n) s s' := by
  refine cmd_seqGen hy _ fun i M hl hM => ?_
  have hx' : M.Has x m := fun j h0 h1 => by have := hx.1 j h0 h1; unfold Mem.Ok at this ⊢; rwa [hl]
  have hy' : M.Ok (y + ((i : ℕ) : Int)) := by have := hy _ (show (0 : Int) ≤ ((i : ℕ) : Int) by omega) (by omega); unfold Mem.Ok at this ⊢; rwa [hl]
  have e : M.val (x + ((ix i : ℕ) : Int)) = v (ix i) := by
    rw [hM _ fun hc => Set.disjoint_left.1 hd (mem_rng_add (by omega) (by omega)) (Rng.le i.2.le _ hc), hx.2]
  rw [← hix i]
  simp only [run_bind, run_load (hx' ((ix i : ℕ) : Int) (by omega) (by omega)), Option.bind_some, run_store hy', e]
  rfl

/-- a sequential loop that writes entries in any order -/
theorem cmd_scatGen {v : Vec F m} (hz : HoldsV s z v) (ix : Fin n → Fin m) (w : Vec F n) {body : Int → Prog F Unit}
    (hb : ∀ (i : Fin n) (M : Mem F), M.len = s.mem.len → (∀ a, a ∉ Rng z m → M.val a = s.mem.val a) →
      (body ((i : ℕ) : Int)).run M = some ((), M.write (z + ((ix i : ℕ) : Int)) (w i))) :
    ∃ s', CSpec (Cmd.exec (seqK (forUp 0 (n : Int) body))) s () s' ∧ HoldsV s' z (scatter ix w v) ∧ Only (Rng z m) s s' := by
  set M : ℕ → Mem F := fun k => ((List.finRange n).take k).foldl (fun M i => M.write (z + ((ix i : ℕ) : Int)) (w i)) s.mem with hM
  set V : ℕ → Vec F m := fun k => ((List.finRange n).take k).foldl (fun x i => Function.update x (ix i) (w i)) v with hV
  have hMs : ∀ j (hj : j < n), M (j + 1) = (M j).write (z + ((ix ⟨j, hj⟩ : ℕ) : Int)) (w ⟨j, hj⟩) := fun j hj => by
    simp only [hM, List.take_add_one, List.foldl_append]
    rw [List.getElem?_eq_getElem (by simpa using hj)]
    simp
  have hVs : ∀ j (hj : j < n), V (j + 1) = Function.update (V j) (ix ⟨j, hj⟩) (w ⟨j, hj⟩) := fun j hj => by
    simp only [hV, List.take_add_one, List.foldl_append]
    rw [List.getElem?_eq_getElem (by simpa using hj)]
    simp
  have inv : ∀ j, j ≤ n → HoldsV { s with mem := M j } z (V j) ∧ Only (Rng z m) s { s with mem := M j } := by
    intro j
    induction j with
    | zero => exact fun _ => ⟨by simpa [hM, hV] using hz, by simpa [hM] using Only.refl s⟩
    | succ j ih =>
      intro hj
      obtain ⟨h1, h2⟩ := ih (by omega)
      have h := write_holds h1 (ix ⟨j, by omega⟩) (w ⟨j, by omega⟩)
      rw [hMs j (by omega), hVs j (by omega)]
      exact ⟨h.1, h2.trans h.2 subset_rfl⟩
  have hrun : (forUp 0 (n : Int) body).run s.mem = some ((), M n) := by
    have := run_forUp 0 (n : Int) body (fun k => M k.toNat) (fun i h0 h1 => by
      obtain ⟨j, rfl⟩ := Int.eq_ofNat_of_zero_le h0
      have hj : j < n := by omega
      rw [show ((j : Int) + 1).toNat = j + 1 by omega, hMs j hj, Int.toNat_natCast]
      exact hb ⟨j, hj⟩ (M j) (inv j hj.le).2.len (inv j hj.le).2.val) (by omega)
    simpa [hM] using this
  have e : V n = scatter ix w v := by
    simp only [hV, scatter]
    rw [List.take_of_length_le (by simp)]
  exact ⟨_, cspec_exec (kspec_seq hrun), e ▸ (inv n le_rfl).1, (inv n le_rfl).2⟩

theorem cmd_scatter {v : Vec F m} {w : Vec F n} {idx : Int → Int} {ix : Fin n → Fin m} (hix : ∀ i : Fin n, ((ix i : ℕ) : Int) = idx ((i : ℕ) : Int))
    (hx : HoldsV s x v) (hy : HoldsV s y w) (hd : Disjoint (Rng y n) (Rng x m)) :
    ∃ s', CSpec (scatterM n idx y x) s () s' ∧ HoldsV s' x (scatter ix w v) ∧ Only (Rng x m) s s' := by
  refine cmd_scatGen hx ix w fun i M hl hM => ?_
  have hx' : M.Ok (x + ((ix i : ℕ) : Int)) := by
    have := hx.1 _ (show (0 : Int) ≤ ((ix i : ℕ) : Int) by omega) (by omega); unfold Mem.Ok at this ⊢; rwa [hl]
  have hy' : M.Ok (y + ((i : ℕ) : Int)) := by have := hy.1 _ (show (0 : Int) ≤ ((i : ℕ) : Int) by omega) (by omega); unfold Mem.Ok at this ⊢; rwa [hl]
  have e : M.val (y + ((i : ℕ) : Int)) = w i := by rw [hM _ fun hc => Set.disjoint_left.1 hd (mem_rng_add (by omega) (by omega)) hc, hy.2]
  rw [← hix i]
  simp only [run_bind, run_load hy', Option.bind_some, run_store hx', e]

theorem cmd_resample {v u : Vec F m} {idx : Int → Int} {ix : Fin n → Fin m} (hix : ∀ i : Fin n, ((ix i : ℕ) : Int) = idx ((i : ℕ) : Int))
    (hx : HoldsV s x v) (hy : HoldsV s y u) (hd : Disjoint (Rng y m) (Rng x m)) (a : F) :
    ∃ s', CSpec (resampleM n idx a y x) s () s' ∧ HoldsV s' x (scatter ix (vscale a (gather ix u)) v) ∧ Only (Rng x m) s s' := by
  refine cmd_scatGen hx ix _ fun i M hl hM => ?_
  have hx' : M.Ok (x + ((ix i : ℕ) : Int)) := by
    have := hx.1 _ (show (0 : Int) ≤ ((ix i : ℕ) : Int) by omega) (by omega); unfold Mem.Ok at this ⊢; rwa [hl]
  have hy' : M.Ok (y + ((ix i : ℕ) : Int)) := by have := hy.1 _ (show (0 : Int) ≤ ((ix i : ℕ) : Int) by omega) (by omega); unfold Mem.Ok at this ⊢; rwa [hl]
  have e : M.val (y + ((ix i : ℕ) : Int)) = u (ix i) := by rw [hM _ fun hc => Set.disjoint_left.1 hd (mem_rng_add (by omega) (by omega)) hc, hy.2]
  rw [← hix i]
  simp only [run_bind, run_load hy', Option.bind_some, run_store hx', e]
  rfl

/-- strided scaling -/
theorem cmd_dscal {v : Vec F m} (hx : HoldsV s x v) {cnt off stride : ℕ} (hs : 0 < stride) (hr : ∀ i < cnt, off + i * stride < m) (a : F) :
    ∃ s', CSpec (dscalM cnt a (x + ((off : ℕ) : Int)) stride) s () s' ∧ HoldsV s' x (dscalAt cnt off stride a v) ∧ Only (Rng x m) s s' := by
  have step : ∀ j, ∀ hj : j < cnt, ∀ M : Mem F, HoldsV { s with mem := M } x (dscalAt j off stride a v) → M.len = s.mem.len →
      ((do let u ← load (x + ((off : ℕ) : Int) + ((j : ℕ) : Int) * (stride : Int)); store (x + ((off : ℕ) : Int) + ((j : ℕ) : Int) * (stride : Int)) (u * a)) : Prog F Unit).run M =
        some ((), M.write (x + ((off + j * stride : ℕ) : Int)) (v ⟨off + j * stride, hr j hj⟩ * a)) := by
    intro j hj M hM hl
    have e : x + ((off : ℕ) : Int) + ((j : ℕ) : Int) * (stride : Int) = x + ((off + j * stride : ℕ) : Int) := by
      rw [Ptr.add_add]; push_cast; rfl
    have ok : M.Ok (x + ((off + j * stride : ℕ) : Int)) := hM.1 _ (by omega) (by have := hr j hj; exact_mod_cast this)
    have ev : M.val (x + ((off + j * stride : ℕ) : Int)) = v ⟨off + j * stride, hr j hj⟩ := by
      have := hM.2 ⟨off + j * stride, hr j hj⟩
      rw [show ({ s with mem := M } : PState F).mem = M from rfl] at this
      rw [this, dscalAt, if_neg]
      rintro ⟨-, -, h3⟩
      simp only [Nat.add_sub_cancel_left, Nat.mul_div_cancel _ hs] at h3
      omega
    rw [e]
    simp only [run_bind, run_load ok, Option.bind_some, run_store ok, ev]
  have next : ∀ j (hj : j < cnt), Function.update (dscalAt j off stride a v) ⟨off + j * stride, hr j hj⟩ (v ⟨off + j * stride, hr j hj⟩ * a) = dscalAt (j + 1) off stride a v := by
    intro j hj
    funext t
    by_cases e : t = ⟨off + j * stride, hr j hj⟩
    · subst e
      simp only [Function.update_self, dscalAt, Nat.add_sub_cancel_left, Nat.mul_mod_left, Nat.mul_div_cancel _ hs]
      rw [if_pos ⟨by omega, trivial, by omega⟩]
    · rw [Function.update_of_ne e]
      simp only [dscalAt]
      by_cases h : off ≤ t.val ∧ (t.val - off) % stride = 0
      · have hne : (t.val - off) / stride ≠ j := fun hc => e (Fin.ext (by
          have := Nat.div_add_mod (t.val - off) stride
          rw [h.2, hc, add_zero, mul_comm] at this
          show t.val = off + j * stride
          omega))
        by_cases h3 : (t.val - off) / stride < j
        · rw [if_pos ⟨h.1, h.2, h3⟩, if_pos ⟨h.1, h.2, by omega⟩]
        · rw [if_neg fun hc => h3 hc.2.2, if_neg fun hc => by have := hc.2.2; omega]
      · rw [if_neg fun hc => h ⟨hc.1, hc.2.1⟩, if_neg fun hc => h ⟨hc.1, hc.2.1⟩]
  have zero : dscalAt 0 off stride a v = v := by
    funext t
    simp [dscalAt]
  have key : ∀ k, k ≤ cnt → ∃ M : Mem F, (forN 0 (fun i => do let u ← load (x + ((off : ℕ) : Int) + i * (stride : Int)); store (x + ((off : ℕ) : Int) + i * (stride : Int)) (u * a)) k).run s.mem =
      some ((), M) ∧ HoldsV { s with mem := M } x (dscalAt k off stride a v) ∧ Only (Rng x m) s { s with mem := M } := by
    intro k
    induction k with
    | zero => exact fun _ => ⟨s.mem, by simp [forN], by rw [zero]; exact hx, Only.refl s⟩
    | succ k ih =>
      intro hk
      obtain ⟨M, h1, h2, h3⟩ := ih (by omega)
      have hw := write_holds h2 ⟨off + k * stride, hr k (by omega)⟩ (v ⟨off + k * stride, hr k (by omega)⟩ * a)
      refine ⟨_, ?_, ?_, h3.trans hw.2 subset_rfl⟩
      · simp only [forN, run_bind, h1, Option.bind_some, zero_add]
        have := step k (by omega) M h2 h3.len
        rwa [run_bind] at this
      · rw [← next k (by omega)]
        exact hw.1
  obtain ⟨M, h1, h2, h3⟩ := key cnt le_rfl
  refine ⟨_, cspec_exec (kspec_seq (m' := M) ?_), h2, h3⟩
  unfold forUp
  simpa using h1

/-! ## Five arrays -/

/-- argument, result and the three buffers -/
inductive XA | x | y | e | dx | dy
  deriving DecidableEq

/-- their lengths -/
def XA.len (l k m : ℕ) : XA → ℕ
  | .x => l
  | .y => k
  | _ => m

/-- their addresses -/
def XA.ptr (x y : Ptr) (b : DctPtr) : XA → Ptr
  | .x => x
  | .y => y
  | .e => b.Ety
  | .dx => b.dx
  | .dy => b.dy

variable {l k : ℕ}

/-- their contents -/
def XA.vals (v : Vec F l) (w : Vec F k) (t : DctBuf F m) : (i : XA) → Vec F (XA.len l k m i)
  | .x => v
  | .y => w
  | .e => t.Ety
  | .dx => t.dx
  | .dy => t.dy

/-- a command that turns the contents `V` into `V'` -/
def Run {ι : Type} (len : ι → ℕ) (ptr : ι → Ptr) (c : Cmd F Unit) (V V' : (i : ι) → Vec F (len i)) : Prop :=
  ∀ s, AHolds len ptr s V → ∃ s', CSpec c s () s' ∧ AHolds len ptr s' V' ∧ Only (AAll len ptr) s s'

namespace Run
variable {ι : Type} {len : ι → ℕ} {ptr : ι → Ptr} {V V' V'' : (i : ι) → Vec F (len i)} {c : Cmd F Unit}

theorem seq {f : Unit → Cmd F Unit} (h : Run len ptr c V V') (h' : Run len ptr (f ()) V' V'') : Run len ptr (c >>= f) V V'' := fun s hs => by
  obtain ⟨s1, c1, h1, o1⟩ := h s hs
  obtain ⟨s2, c2, h2, o2⟩ := h' s1 h1
  exact ⟨s2, c1.bind c2, h2, o1.trans o2 subset_rfl⟩

theorem eval {p : Prog F F} {v : F} {f : F → Cmd F Unit} (hp : ∀ s : PState F, AHolds len ptr s V → CSpec (Cmd.eval p) s v s) (h : Run len ptr (f v) V V') :
    Run len ptr (Cmd.eval p >>= f) V V' := fun s hs => by
  obtain ⟨s1, c1, h1⟩ := h s hs
  exact ⟨s1, (hp s hs).bind c1, h1⟩

theorem assume {al : List Ptr} {f : Unit → Cmd F Unit} (h : Run len ptr (f ()) V V') : Run len ptr (Cmd.assume al >>= f) V V' := fun s hs => by
  obtain ⟨s1, c1, h1⟩ := h s hs
  exact ⟨s1, (cspec_assume al s).bind c1, h1⟩

theorem set [DecidableEq ι] (S : ASep len ptr ∅) (a : ι) {w : Vec F (len a)}
    (hc : ∀ s : PState F, AHolds len ptr s V → ∃ s', CSpec c s () s' ∧ HoldsV s' (ptr a) w ∧ Only (Rng (ptr a) (len a)) s s') :
    Run len ptr c V (Function.update V a w) := fun s hs => by
  obtain ⟨s1, c1, h1, o1⟩ := hc s hs
  refine ⟨s1, c1, hs.set S a le_rfl h1 (o1.mono Set.subset_union_left) ?_ fun i hi => by rw [Function.update_of_ne hi], o1.mono (aall a)⟩
  rw [Function.update_self, vput_full]

theorem congr (h : Run len ptr c V V') (e : V' = V'') : Run len ptr c V V'' := e ▸ h
end Run

omit [Scalar F] in
theorem xa_sep {b : DctPtr} (hb : b.Sep m) (hxy : Disjoint (Rng x l) (Rng y k)) (hx : Disjoint (Rng x l) (b.Own m)) (hy : Disjoint (Rng y k) (b.Own m)) :
    ASep (XA.len l k m) (XA.ptr x y b) ∅ where
  own _ := Set.disjoint_empty _
  dis i j hij := by
    obtain ⟨⟨x1, x2⟩, x3⟩ := (Set.disjoint_union_right.1 hx).imp_left Set.disjoint_union_right.1
    obtain ⟨⟨y1, y2⟩, y3⟩ := (Set.disjoint_union_right.1 hy).imp_left Set.disjoint_union_right.1
    cases i <;> cases j <;> first
      | exact absurd rfl hij
      | assumption
      | exact Disjoint.symm ‹_›
      | exact hb.ex
      | exact hb.ey
      | exact hb.xy
      | exact hb.ex.symm
      | exact hb.ey.symm
      | exact hb.xy.symm

/-- from a run on the five arrays to the contract of an operator -/
theorem nop_of_run {b : DctPtr} (hb : b.Sep m) {ax : Ptr → Ptr → Cmd F Unit} {op : NOp F (DctBuf F m) l k}
    (h : ∀ (x y : Ptr), ASep (XA.len l k m) (XA.ptr x y b) ∅ → ∀ v old t r, op v old t = some r →
      Run (XA.len l k m) (XA.ptr x y b) (ax x y) (XA.vals v old t) (XA.vals r.1.1 r.1.2 r.2)) :
    NOpImpl ax op (BufAt b) (b.Own m) := by
  intro t s x y v old r hR hx hy d1 d2 d3 e
  have hs : AHolds (XA.len l k m) (XA.ptr x y b) s (XA.vals v old t) := by
    intro i
    cases i
    · exact hx
    · exact hy
    · exact hR.Ety
    · exact hR.dx
    · exact hR.dy
  obtain ⟨s', c1, h1, o1⟩ := h x y (xa_sep hb d1 d2 d3) v old t r e s hs
  refine ⟨s', c1, ⟨h1 .e, h1 .dx, h1 .dy⟩, h1 .x, h1 .y, o1.mono ?_⟩
  rintro a ⟨i, hi⟩
  cases i
  · exact Or.inl (Or.inl hi)
  · exact Or.inl (Or.inr hi)
  · exact Or.inr (Or.inl (Or.inl hi))
  · exact Or.inr (Or.inl (Or.inr hi))
  · exact Or.inr (Or.inr hi)

end L1c
