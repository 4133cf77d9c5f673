import Verif.Proofs.MemVec

/-! A collection of disjoint arrays of two lengths, and rules for commands on it. -/

namespace L1c
open Prog Scalar

variable {F : Type} {σ α β ι : Type} {n m : ℕ}

/-- where the arrays are: some of length `n`, some of length `m` -/
structure Lay (α β : Type) where
  pn : α → Ptr
  pm : β → Ptr

/-- their contents -/
structure Env (F α β : Type) (n m : ℕ) where
  vn : α → Vec F n
  vm : β → Vec F m

def Env.setn [DecidableEq α] (V : Env F α β n m) (a : α) (v : Vec F n) : Env F α β n m := { V with vn := fun c => if c = a then v else V.vn c }
def Env.setm [DecidableEq β] (V : Env F α β n m) (a : β) (v : Vec F m) : Env F α β n m := { V with vm := fun c => if c = a then v else V.vm c }

namespace Lay
variable (L : Lay α β)

structure Holds (s : PState F) (V : Env F α β n m) : Prop where
  hn : ∀ a, HoldsV s (L.pn a) (V.vn a)
  hm : ∀ a, HoldsV s (L.pm a) (V.vm a)

structure Sep (n m : ℕ) (Own : Set Ptr) : Prop where
  nn : ∀ a b, a ≠ b → Disjoint (Rng (L.pn a) n) (Rng (L.pn b) n)
  mm : ∀ a b, a ≠ b → Disjoint (Rng (L.pm a) m) (Rng (L.pm b) m)
  nm : ∀ a b, Disjoint (Rng (L.pn a) n) (Rng (L.pm b) m)
  on : ∀ a, Disjoint (Rng (L.pn a) n) Own
  om : ∀ a, Disjoint (Rng (L.pm a) m) Own

/-- all addresses of the arrays -/
def All (n m : ℕ) : Set Ptr := {p | (∃ a, p ∈ Rng (L.pn a) n) ∨ ∃ a, p ∈ Rng (L.pm a) m}

variable {L}

theorem alln (a : α) : Rng (L.pn a) n ⊆ L.All n m := fun _ h => Or.inl ⟨a, h⟩
theorem allm (a : β) : Rng (L.pm a) m ⊆ L.All n m := fun _ h => Or.inr ⟨a, h⟩

/-- after a change confined to `S`, arrays that `S` does not touch are the same and the others have some contents -/
theorem Holds.change {s s' : PState F} {V : Env F α β n m} (h : L.Holds s V) {S : Set Ptr} (o : Only S s s') :
    ∃ V' : Env F α β n m, L.Holds s' V' ∧ (∀ a, Disjoint (Rng (L.pn a) n) S → V'.vn a = V.vn a) ∧ ∀ a, Disjoint (Rng (L.pm a) m) S → V'.vm a = V.vm a := by
  refine ⟨⟨fun a i => s'.mem.val (L.pn a + ((i : ℕ) : Int)), fun a i => s'.mem.val (L.pm a + ((i : ℕ) : Int))⟩,
    ⟨fun a => ⟨o.has (h.hn a).1, fun _ => rfl⟩, fun a => ⟨o.has (h.hm a).1, fun _ => rfl⟩⟩, fun a hd => ?_, fun a hd => ?_⟩
  · funext i
    exact ((h.hn a).keep o hd).2 i
  · funext i
    exact ((h.hm a).keep o hd).2 i

theorem Holds.uniq_m {s : PState F} {V : Env F α β n m} (h : L.Holds s V) {a : β} {v : Vec F m} (hv : HoldsV s (L.pm a) v) : V.vm a = v := by
  funext i
  rw [← (h.hm a).2, hv.2]

theorem Holds.setm [DecidableEq β] {s s' : PState F} {V : Env F α β n m} {Own : Set Ptr} (S : L.Sep n m Own) (h : L.Holds s V) {a : β} {v : Vec F m}
    (hv : HoldsV s' (L.pm a) v) (o : Only (Rng (L.pm a) m ∪ Own) s s') : L.Holds s' (V.setm a v) := by
  refine ⟨fun c => (h.hn c).keep o (Set.disjoint_union_right.2 ⟨S.nm c a, S.on c⟩), fun c => ?_⟩
  by_cases e : c = a
  · subst e
    simpa [Env.setm] using hv
  · simpa [Env.setm, e] using (h.hm c).keep o (Set.disjoint_union_right.2 ⟨S.mm c a e, S.om c⟩)

theorem Holds.setn [DecidableEq α] {s s' : PState F} {V : Env F α β n m} {Own : Set Ptr} (S : L.Sep n m Own) (h : L.Holds s V) {a : α} {v : Vec F n}
    (hv : HoldsV s' (L.pn a) v) (o : Only (Rng (L.pn a) n ∪ Own) s s') : L.Holds s' (V.setn a v) := by
  refine ⟨fun c => ?_, fun c => (h.hm c).keep o (Set.disjoint_union_right.2 ⟨(S.nm a c).symm, S.om c⟩)⟩
  by_cases e : c = a
  · subst e
    simpa [Env.setn] using hv
  · simpa [Env.setn, e] using (h.hn c).keep o (Set.disjoint_union_right.2 ⟨S.nn c a e, S.on c⟩)
end Lay

variable [Scalar F]

/-- the operators' state `R` depends on their own data only -/
def KeepOwn (R : σ → PState F → Prop) (Own : Set Ptr) : Prop := ∀ (t : σ) (s s' : PState F), R t s → Only Ownᶜ s s' → R t s'

/-- started with contents `V` and operators' state `t`, the command runs without undefined behaviour and ends with a result, contents and a
state for which `Q` holds; it changes nothing but the arrays and the operators' data -/
def WP (L : Lay α β) (R : σ → PState F → Prop) (Own : Set Ptr) (c : Cmd F ι) (Q : ι → Env F α β n m → σ → Prop) (V : Env F α β n m) (t : σ) : Prop :=
  ∀ s, L.Holds s V → R t s → ∃ r V' t' s', CSpec c s r s' ∧ L.Holds s' V' ∧ R t' s' ∧ Only (L.All n m ∪ Own) s s' ∧ Q r V' t'

namespace WP
variable {L : Lay α β} {R : σ → PState F → Prop} {Own : Set Ptr} {κ : Type} {V : Env F α β n m} {t : σ}

theorem bind {c : Cmd F ι} {f : ι → Cmd F κ} {Q : κ → Env F α β n m → σ → Prop} (h : WP L R Own c (fun r V' t' => WP L R Own (f r) Q V' t') V t) :
    WP L R Own (c >>= f) Q V t := fun s hs hr => by
  obtain ⟨r, V1, t1, s1, c1, h1, r1, o1, q⟩ := h s hs hr
  obtain ⟨r2, V2, t2, s2, c2, h2, rr2, o2, q2⟩ := q s1 h1 r1
  exact ⟨r2, V2, t2, s2, c1.bind c2, h2, rr2, o1.trans o2 subset_rfl, q2⟩

theorem pure {r : ι} {Q : ι → Env F α β n m → σ → Prop} (h : Q r V t) : WP L R Own (Pure.pure r : Cmd F ι) Q V t :=
  fun s hs hr => ⟨r, V, t, s, .done _ _, hs, hr, Only.refl s, h⟩

theorem mono {c : Cmd F ι} {Q Q' : ι → Env F α β n m → σ → Prop} (h : WP L R Own c Q V t) (hq : ∀ r V' t', Q r V' t' → Q' r V' t') : WP L R Own c Q' V t := fun s hs hr => by
  obtain ⟨r, V1, t1, s1, c1, h1, r1, o1, q⟩ := h s hs hr
  exact ⟨r, V1, t1, s1, c1, h1, r1, o1, hq _ _ _ q⟩

theorem ite {b : Prop} [Decidable b] {c d : Cmd F ι} {Q : ι → Env F α β n m → σ → Prop} (h1 : b → WP L R Own c Q V t) (h2 : ¬ b → WP L R Own d Q V t) :
    WP L R Own (if b then c else d) Q V t := by
  split
  · exact h1 ‹_›
  · exact h2 ‹_›

theorem assume {al : List Ptr} {Q : Unit → Env F α β n m → σ → Prop} (h : Q () V t) : WP L R Own (Cmd.assume al : Cmd F Unit) Q V t :=
  fun s hs hr => ⟨(), V, t, s, cspec_assume al s, hs, hr, Only.refl s, h⟩

theorem need {b : Prop} [Decidable b] (hb : b) {Q : Unit → Env F α β n m → σ → Prop} (h : Q () V t) : WP L R Own (Cmd.need b : Cmd F Unit) Q V t :=
  fun s hs hr => ⟨(), V, t, s, cspec_need hb s, hs, hr, Only.refl s, h⟩

theorem eval {p : Prog F F} {v : F} (hp : ∀ s : PState F, L.Holds s V → CSpec (Cmd.eval p) s v s) {Q : F → Env F α β n m → σ → Prop} (h : Q v V t) : WP L R Own (Cmd.eval p) Q V t :=
  fun s hs hr => ⟨v, V, t, s, hp s hs, hs, hr, Only.refl s, h⟩

theorem setm [DecidableEq β] (S : L.Sep n m Own) (K : KeepOwn R Own) {c : Cmd F Unit} (a : β) {v : Vec F m} (hc : ∀ s : PState F, L.Holds s V → ∃ s', CSpec c s () s' ∧
    HoldsV s' (L.pm a) v ∧ Only (Rng (L.pm a) m) s s') {Q : Unit → Env F α β n m → σ → Prop} (h : Q () (V.setm a v) t) : WP L R Own c Q V t := fun s hs hr => by
  obtain ⟨s', h1, h2, h3⟩ := hc s hs
  exact ⟨(), _, t, s', h1, hs.setm S h2 (h3.mono Set.subset_union_left), K t s s' hr (h3.mono (Set.disjoint_left.1 (S.om a))),
    h3.mono ((Lay.allm a).trans Set.subset_union_left), h⟩

theorem setn [DecidableEq α] (S : L.Sep n m Own) (K : KeepOwn R Own) {c : Cmd F Unit} (a : α) {v : Vec F n} (hc : ∀ s : PState F, L.Holds s V → ∃ s', CSpec c s () s' ∧
    HoldsV s' (L.pn a) v ∧ Only (Rng (L.pn a) n) s s') {Q : Unit → Env F α β n m → σ → Prop} (h : Q () (V.setn a v) t) : WP L R Own c Q V t := fun s hs hr => by
  obtain ⟨s', h1, h2, h3⟩ := hc s hs
  exact ⟨(), _, t, s', h1, hs.setn S h2 (h3.mono Set.subset_union_left), K t s s' hr (h3.mono (Set.disjoint_left.1 (S.on a))),
    h3.mono ((Lay.alln a).trans Set.subset_union_left), h⟩

/-- operator from an `m`-array to an `n`-array -/
theorem op_mn [DecidableEq α] (S : L.Sep n m Own) {ax : Ptr → Ptr → Cmd F Unit} {op : Vec F m → σ → Vec F n × σ} (H : OpImpl ax op R Own) (x : β) (y : α)
    {Q : Unit → Env F α β n m → σ → Prop} (h : Q () (V.setn y (op (V.vm x) t).1) (op (V.vm x) t).2) : WP L R Own (ax (L.pm x) (L.pn y)) Q V t := fun s hs hr => by
  obtain ⟨s', h1, h2, h3, h4⟩ := H.call t s _ _ _ hr (hs.hm x) (hs.hn y).1 (S.nm y x).symm (S.om x) (S.on y)
  exact ⟨(), _, _, s', h1, hs.setn S h3 h4, h2, h4.mono (Set.union_subset_union_left _ (Lay.alln y)), h⟩

theorem op_nm [DecidableEq β] (S : L.Sep n m Own) {ax : Ptr → Ptr → Cmd F Unit} {op : Vec F n → σ → Vec F m × σ} (H : OpImpl ax op R Own) (x : α) (y : β)
    {Q : Unit → Env F α β n m → σ → Prop} (h : Q () (V.setm y (op (V.vn x) t).1) (op (V.vn x) t).2) : WP L R Own (ax (L.pn x) (L.pm y)) Q V t := fun s hs hr => by
  obtain ⟨s', h1, h2, h3, h4⟩ := H.call t s _ _ _ hr (hs.hn x) (hs.hm y).1 (S.nm x y) (S.on x) (S.om y)
  exact ⟨(), _, _, s', h1, hs.setm S h3 h4, h2, h4.mono (Set.union_subset_union_left _ (Lay.allm y)), h⟩
end WP

/-- a vector stored in the first entries of a longer array -/
def vput (_ : n ≤ m) (w : Vec F n) (v : Vec F m) : Vec F m := fun i => if h : (i : ℕ) < n then w ⟨i, h⟩ else v i

/-- the first entries of an array -/
def vhead (hnm : n ≤ m) (v : Vec F m) : Vec F n := fun i => v ⟨i, by omega⟩

omit [Scalar F] in
theorem vhead_vput (hnm : n ≤ m) (w : Vec F n) (v : Vec F m) : vhead hnm (vput hnm w v) = w := by
  funext i
  simp [vhead, vput]

omit [Scalar F] in
theorem HoldsV.head (hnm : n ≤ m) {s : PState F} {p : Ptr} {v : Vec F m} (h : HoldsV s p v) : HoldsV s p (vhead hnm v) :=
  ⟨fun i h0 h1 => h.1 i h0 (by omega), fun i => h.2 ⟨i, by omega⟩⟩

omit [Scalar F] in
theorem Rng.le (hnm : n ≤ m) (p : Ptr) : Rng p n ⊆ Rng p m := fun a h => ⟨h.1, h.2.1, by have := h.2.2; omega⟩

omit [Scalar F] in
theorem HoldsV.put (hnm : n ≤ m) {s s' : PState F} {p : Ptr} {v : Vec F m} {w : Vec F n} (h : HoldsV s p v) (hw : HoldsV s' p w) {S : Set Ptr} (o : Only (Rng p n ∪ S) s s')
    (hd : Disjoint (Rng p m) S) : HoldsV s' p (vput hnm w v) := by
  refine ⟨o.has h.1, fun i => ?_⟩
  by_cases hi : (i : ℕ) < n
  · simp only [vput, dif_pos hi]
    exact hw.2 ⟨i, hi⟩
  · simp only [vput, dif_neg hi]
    rw [o.val, h.2 i]
    rintro (hc | hc)
    · have := hc.2.2
      simp at this
      omega
    · exact Set.disjoint_left.1 hd (mem_rng_add (by omega) (by omega)) hc

/-- operator from an `m`-array into the first `n` entries of an `m`-array -/
theorem WP.op_head [DecidableEq β] {L : Lay α β} {R : σ → PState F → Prop} {Own : Set Ptr} {V : Env F α β n m} {t : σ} (hnm : n ≤ m) (S : L.Sep n m Own) {ax : Ptr → Ptr → Cmd F Unit}
    {op : Vec F m → σ → Vec F n × σ} (H : OpImpl ax op R Own) (x y : β) (hxy : x ≠ y) {Q : Unit → Env F α β n m → σ → Prop}
    (h : Q () (V.setm y (vput hnm (op (V.vm x) t).1 (V.vm y))) (op (V.vm x) t).2) : WP L R Own (ax (L.pm x) (L.pm y)) Q V t := fun s hs hr => by
  obtain ⟨s', h1, h2, h3, h4⟩ := H.call t s _ _ _ hr (hs.hm x) (hs.hm y |>.head hnm).1 ((S.mm x y hxy).mono_right (Rng.le hnm _)) (S.om x) ((S.om y).mono_left (Rng.le hnm _))
  have o := h4.mono (Set.union_subset_union_left Own (Rng.le hnm (L.pm y)))
  exact ⟨(), _, _, s', h1, hs.setm S ((hs.hm y).put hnm h3 h4 (S.om y)) o, h2, o.mono (Set.union_subset_union_left _ (Lay.allm y)), h⟩


namespace WP
variable {L : Lay α β} {R : σ → PState F → Prop} {Own : Set Ptr} {V : Env F α β n m} {t : σ} {Q : Unit → Env F α β n m → σ → Prop}

omit [Scalar F] in
theorem cross_m [DecidableEq β] (S : L.Sep n m Own) (a b : β) : NoCross m (L.pm a) (L.pm b) := by
  by_cases e : a = b
  · subst e
    exact NoCross.refl _ _
  · exact NoCross.of_disj (S.mm a b e)

omit [Scalar F] in
theorem cross_n [DecidableEq α] (S : L.Sep n m Own) (a b : α) : NoCross n (L.pn a) (L.pn b) := by
  by_cases e : a = b
  · subst e
    exact NoCross.refl _ _
  · exact NoCross.of_disj (S.nn a b e)

theorem map2m [DecidableEq β] (S : L.Sep n m Own) (K : KeepOwn R Own) (x y z : β) (f : F → F → F) {k : Kernel F} {al : List Ptr}
    (hk : k = parFor (al := al) 0 m fun i => do let a ← load (L.pm x + i); let b ← load (L.pm y + i); store (L.pm z + i) (f a b))
    (h : Q () (V.setm z fun i => f (V.vm x i) (V.vm y i)) t) : WP L R Own (Cmd.exec k) Q V t :=
  setm S K z (fun _ hs => cmd_map2 f hk (hs.hm x) (hs.hm y) (hs.hm z).1 (cross_m S z x) (cross_m S z y)) h

theorem map2n [DecidableEq α] (S : L.Sep n m Own) (K : KeepOwn R Own) (x y z : α) (f : F → F → F) {k : Kernel F} {al : List Ptr}
    (hk : k = parFor (al := al) 0 n fun i => do let a ← load (L.pn x + i); let b ← load (L.pn y + i); store (L.pn z + i) (f a b))
    (h : Q () (V.setn z fun i => f (V.vn x i) (V.vn y i)) t) : WP L R Own (Cmd.exec k) Q V t :=
  setn S K z (fun _ hs => cmd_map2 f hk (hs.hn x) (hs.hn y) (hs.hn z).1 (cross_n S z x) (cross_n S z y)) h

theorem map1m [DecidableEq β] (S : L.Sep n m Own) (K : KeepOwn R Own) (x z : β) (f : F → F) {k : Kernel F} {al : List Ptr}
    (hk : k = parFor (al := al) 0 m fun i => do let a ← load (L.pm x + i); store (L.pm z + i) (f a))
    (h : Q () (V.setm z fun i => f (V.vm x i)) t) : WP L R Own (Cmd.exec k) Q V t :=
  setm S K z (fun _ hs => cmd_map1 f hk (hs.hm x) (hs.hm z).1 (cross_m S z x)) h

theorem initm [DecidableEq β] (S : L.Sep n m Own) (K : KeepOwn R Own) (z : β) (a : F) (h : Q () (V.setm z fun _ => a) t) :
    WP L R Own (Cmd.exec (l1c_init_vec m (L.pm z) a)) Q V t :=
  setm S K z (fun s hs => by
    have e := setRange_holds (s := s) (hs.hm z).1 (fun _ => a) (fun _ => a) fun _ => rfl
    refine ⟨_, cspec_exec (kspec_elementwise (fun _ => ∅) (fun i _ _ => Foot.store rfl) (fun _ _ _ _ _ _ _ => Set.notMem_empty _) fun i h0 h1 => ?_), e.1, e.2⟩
    exact ⟨_, run_store ((hs.hm z).1 i h0 h1), by rw [Mem.write_val, if_pos rfl]⟩) h

omit [Scalar F] in
theorem ptr_inj (S : L.Sep n m Own) {a b : β} {i j : Int} (h0 : 0 ≤ i) (h1 : i < m) (h2 : 0 ≤ j) (h3 : j < m) (e : L.pm a + i = L.pm b + j) : a = b ∧ i = j := by
  by_cases hab : a = b
  · subst hab
    exact ⟨rfl, by simpa using e⟩
  · exact absurd (e ▸ mem_rng_add h2 h3) (Set.disjoint_left.1 (S.mm a b hab) (mem_rng_add h0 h1))

/-- a parallel loop that, in iteration `i`, rewrites entry `i` of some of the arrays, reading entries `i` only -/
theorem multi (S : L.Sep n m Own) (K : KeepOwn R Own) {body : Int → Prog F Unit} (w : β → Option (Vec F m))
    (hf : ∀ i : Int, 0 ≤ i → i < m → Foot {p | ∃ a, (w a).isSome ∧ p = L.pm a + i} {p | ∃ a, p = L.pm a + i} (body i))
    (hrun : ∀ s, L.Holds s V → ∀ i : Fin m, ∃ k, (body ((i : ℕ) : Int)).run s.mem = some ((), k) ∧
      ∀ a v, w a = some v → k.val (L.pm a + ((i : ℕ) : Int)) = v i)
    (h : Q () ⟨V.vn, fun a => (w a).getD (V.vm a)⟩ t) : WP L R Own (Cmd.exec (parFor 0 m body)) Q V t := fun s hs hr => by
  classical
  let W : Set Ptr := {p | ∃ a, (w a).isSome ∧ p ∈ Rng (L.pm a) m}
  let mem' : Mem F := ⟨s.mem.len, fun p => if hp : ∃ (y : F) (a : β) (v : Vec F m) (i : Fin m), w a = some v ∧ p = L.pm a + ((i : ℕ) : Int) ∧ y = v i then hp.choose else s.mem.val p⟩
  have hin : ∀ (a : β) (v : Vec F m) (i : Fin m), w a = some v → mem'.val (L.pm a + ((i : ℕ) : Int)) = v i := by
    intro a v i hw
    have hp : ∃ (y : F) (a' : β) (v' : Vec F m) (i' : Fin m), w a' = some v' ∧ L.pm a + ((i : ℕ) : Int) = L.pm a' + ((i' : ℕ) : Int) ∧ y = v' i' := ⟨v i, a, v, i, hw, rfl, rfl⟩
    show (if hp : _ then _ else _) = _
    rw [dif_pos hp]
    obtain ⟨a', v', i', h1, h2, h3⟩ := hp.choose_spec
    obtain ⟨e1, e2⟩ := ptr_inj S (by omega) (by omega) (by omega) (by omega) h2
    subst e1
    rw [hw] at h1
    rw [h3, ← Option.some.inj h1, Fin.ext (by omega : (i : ℕ) = i')]
  have hout : ∀ p, p ∉ W → mem'.val p = s.mem.val p := by
    intro p hp
    show (if hp : _ then _ else _) = _
    rw [dif_neg]
    rintro ⟨-, a, v, i, hw, rfl, -⟩
    exact hp ⟨a, by simp [hw], mem_rng_add (by omega) (by omega)⟩
  have hk : KSpec (parFor 0 (m : Int) body) s.mem mem' := by
    refine KSpec.cons (m₁ := mem') (parSpec_of_solo (fun k => {p | ∃ a, (w a).isSome ∧ p = L.pm a + (0 + (k : Int))}) (fun k => {p | ∃ a, p = L.pm a + (0 + (k : Int))})
      (fun i hi => ?_) (fun i j hi hj hij p hp => ?_) (fun i hi => ?_) rfl (fun p hp => ?_)) (.nil _)
    · simp at hi
      exact hf _ (by omega) (by omega)
    · simp at hi hj
      obtain ⟨a, -, rfl⟩ := hp
      refine ⟨?_, ?_⟩
      · rintro ⟨b, -, e⟩
        have := (ptr_inj S (by omega) (by omega) (by omega) (by omega) e).2
        omega
      · rintro ⟨b, e⟩
        have := (ptr_inj S (by omega) (by omega) (by omega) (by omega) e).2
        omega
    · simp at hi
      obtain ⟨k, h1, h2⟩ := hrun s hs ⟨i, hi⟩
      refine ⟨k, by simpa using h1, ?_⟩
      rintro p ⟨a, ha, rfl⟩
      obtain ⟨v, hv⟩ := Option.isSome_iff_exists.1 ha
      have e1 := h2 a v hv
      have e2 := hin a v ⟨i, hi⟩ hv
      simp only [zero_add] at e1 e2 ⊢
      rw [e1, e2]
    · refine hout p ?_
      rintro ⟨a, ha, e1, e2, e3⟩
      refine hp (p.off - (L.pm a).off).toNat (by simp; omega) ⟨a, ha, ?_⟩
      ext
      · exact e1
      · simp
        omega
  have o : Only W s { s with mem := mem' } := ⟨rfl, hout, rfl, rfl, rfl, rfl⟩
  refine ⟨(), ⟨V.vn, fun a => (w a).getD (V.vm a)⟩, t, _, cspec_exec hk, ⟨fun a => (hs.hn a).keep o ?_, fun a => ?_⟩, K t _ _ hr (o.mono ?_), o.mono ?_, h⟩
  · refine Set.disjoint_left.2 fun p hp hq => ?_
    obtain ⟨b, -, hb⟩ := hq
    exact Set.disjoint_left.1 (S.nm a b) hp hb
  · cases ha : w a with
    | some v =>
      refine ⟨(hs.hm a).1, fun i => ?_⟩
      simp only [ha, Option.getD_some]
      exact hin a v i ha
    | none =>
      simp only [ha, Option.getD_none]
      refine (hs.hm a).keep o (Set.disjoint_left.2 fun p hp hq => ?_)
      obtain ⟨b, hb, hb'⟩ := hq
      have : a ≠ b := by
        rintro rfl
        simp [ha] at hb
      exact Set.disjoint_left.1 (S.mm a b this) hp hb'
  · rintro p ⟨a, -, ha⟩ ho
    exact Set.disjoint_left.1 (S.om a) ha ho
  · rintro p ⟨a, -, ha⟩
    exact Or.inl (Lay.allm a ha)
end WP

end L1c
