import Verif.Spec.NestaMem
import Verif.Proofs.EnvMem

/-! Helper lemmas: a collection of disjoint arrays of any lengths, and rules that run a command on memory next to a program on vectors. -/

namespace L1c
open Prog Scalar

variable {F : Type} {σ ι α β : Type}

theorem vhead_full {n : ℕ} (h : n ≤ n) (v : Vec F n) : vhead h v = v := rfl

theorem vput_full {n : ℕ} (h : n ≤ n) (w v : Vec F n) : vput h w v = w := by
  funext i
  simp [vput]

theorem vput_vput {n m : ℕ} (h : n ≤ m) (w w' : Vec F n) (v : Vec F m) : vput h w (vput h w' v) = vput h w v := by
  funext i
  by_cases hi : (i : ℕ) < n <;> simp [vput, hi]

theorem slice_head {n m : ℕ} {v : Vec F m} {r : Vec F n} (h : slice n 0 v = some r) : ∃ hnm : n ≤ m, r = vhead hnm v := by
  unfold slice at h
  split at h
  · rename_i hc
    refine ⟨by omega, ?_⟩
    rw [← Option.some.inj h]
    funext i
    simp [vhead]
  · cases h

theorem writeAt_put {n m : ℕ} {w : Vec F n} {v r : Vec F m} (h : writeAt 0 w v = some r) : ∃ hnm : n ≤ m, r = vput hnm w v := by
  unfold writeAt at h
  split at h
  · rename_i hc
    refine ⟨by omega, ?_⟩
    rw [← Option.some.inj h]
    funext i
    simp [vput]
  · cases h

section
variable (len : ι → ℕ) (ptr : ι → Ptr)

/-- the arrays hold the vectors `V` -/
def AHolds (s : PState F) (V : (i : ι) → Vec F (len i)) : Prop := ∀ i, HoldsV s (ptr i) (V i)

/-- the arrays do not overlap each other or the operators' data -/
structure ASep (Own : Set Ptr) : Prop where
  dis : ∀ i j, i ≠ j → Disjoint (Rng (ptr i) (len i)) (Rng (ptr j) (len j))
  own : ∀ i, Disjoint (Rng (ptr i) (len i)) Own

/-- their addresses -/
def AAll : Set Ptr := {a | ∃ i, a ∈ Rng (ptr i) (len i)}
end

variable {len : ι → ℕ} {ptr : ι → Ptr} {Own : Set Ptr}

theorem aall (i : ι) : Rng (ptr i) (len i) ⊆ AAll len ptr := fun _ h => ⟨i, h⟩

/-- one array changes -/
theorem AHolds.set (S : ASep len ptr Own) {s s' : PState F} {V V' : (i : ι) → Vec F (len i)} (h : AHolds len ptr s V) (a : ι) {k : ℕ} (hk : k ≤ len a) {w : Vec F k}
    (hw : HoldsV s' (ptr a) w) (o : Only (Rng (ptr a) k ∪ Own) s s') (h1 : V' a = vput hk w (V a)) (h2 : ∀ i, i ≠ a → V' i = V i) : AHolds len ptr s' V' := by
  intro i
  by_cases e : i = a
  · subst e
    rw [h1]
    exact (h i).put hk hw o (S.own i)
  · rw [h2 i e]
    exact (h i).keep o (Set.disjoint_union_right.2 ⟨(S.dis i a e).mono_right (Rng.le hk _), S.own i⟩)

/-- two arrays change -/
theorem AHolds.set2 (S : ASep len ptr Own) {s s' : PState F} {V V' : (i : ι) → Vec F (len i)} (h : AHolds len ptr s V) {a c : ι} (hac : a ≠ c) {l k : ℕ} (hl : l ≤ len a)
    (hk : k ≤ len c) {v : Vec F l} {w : Vec F k} (hv : HoldsV s' (ptr a) v) (hw : HoldsV s' (ptr c) w) (o : Only (Rng (ptr a) l ∪ Rng (ptr c) k ∪ Own) s s')
    (h0 : V' a = vput hl v (V a)) (h1 : V' c = vput hk w (V c)) (h2 : ∀ i, i ≠ a → i ≠ c → V' i = V i) : AHolds len ptr s' V' := by
  intro i
  by_cases e : i = a
  · subst e
    rw [h0]
    refine (h i).put hl hv (o.mono (by rw [Set.union_assoc])) (Set.disjoint_union_right.2 ⟨(S.dis i c hac).mono_right (Rng.le hk _), S.own i⟩)
  by_cases e' : i = c
  · subst e'
    rw [h1]
    refine (h i).put hk hw (S := Rng (ptr a) l ∪ Own) (o.mono ?_) (Set.disjoint_union_right.2 ⟨(S.dis i a e).mono_right (Rng.le hl _), S.own i⟩)
    intro x hx
    rcases hx with (hx | hx) | hx
    · exact Or.inr (Or.inl hx)
    · exact Or.inl hx
    · exact Or.inr (Or.inr hx)
  · rw [h2 i e e']
    exact (h i).keep o (Set.disjoint_union_right.2 ⟨Set.disjoint_union_right.2 ⟨(S.dis i a e).mono_right (Rng.le hl _), (S.dis i c e').mono_right (Rng.le hk _)⟩, S.own i⟩)

variable [Scalar F]

omit [Scalar F] in
theorem cmd_bind_pure (c : Cmd F α) : (c >>= fun a => Pure.pure a) = c := by
  show c.bind _ = c
  induction c with
  | done a => rfl
  | kern k c ih => exact congrArg (Cmd.kern k) ih
  | query p c ih => exact congrArg (Cmd.query p) (funext ih)
  | calloc N c ih => exact congrArg (Cmd.calloc N) (funext ih)
  | free p c ih => exact congrArg (Cmd.free p) ih

/-- nothing was allocated or released -/
def SameAlloc (a b : NState σ) : Prop := b.live = a.live ∧ b.next = a.next ∧ b.calls = a.calls ∧ b.oracle = a.oracle

/-- Whenever the program on vectors is defined, so is the command started with the arrays `V` (under every interleaving), the results and
the arrays afterwards are related by `rel`, and nothing but the arrays and the operators' data changes. -/
def Sim (len : ι → ℕ) (ptr : ι → Ptr) (R : σ → PState F → Prop) (Own : Set Ptr) (c : Cmd F α) (V : (i : ι) → Vec F (len i)) (x : NM σ β)
    (rel : α → β → ((i : ι) → Vec F (len i)) → Prop) : Prop :=
  ∀ ns r ns', x ns = some (r, ns') → ∀ s, AHolds len ptr s V → R ns.cb s → ∃ a V' s', CSpec c s a s' ∧ AHolds len ptr s' V' ∧ R ns'.cb s' ∧
    Only (AAll len ptr ∪ Own) s s' ∧ rel a r V' ∧ SameAlloc ns ns'

namespace Sim
variable {R : σ → PState F → Prop} {V V' : (i : ι) → Vec F (len i)} {α' β' : Type} {rel : α → β → ((i : ι) → Vec F (len i)) → Prop}
  {rel' : α' → β' → ((i : ι) → Vec F (len i)) → Prop}

theorem pure {a : α} {b : β} (h : rel a b V) : Sim len ptr R Own (Pure.pure a) V (Pure.pure b) rel := fun ns r ns' e s hs hr => by
  obtain ⟨rfl, rfl⟩ := Prod.mk.inj (Option.some.inj e)
  exact ⟨a, V, s, .done _ _, hs, hr, Only.refl s, h, rfl, rfl, rfl, rfl⟩

theorem nub {c : Cmd F α} : Sim len ptr R Own c V (L1c.nub : NM σ β) rel := fun _ _ _ e => by cases e

theorem mono {c : Cmd F α} {x : NM σ β} {rel2 : α → β → ((i : ι) → Vec F (len i)) → Prop} (h : Sim len ptr R Own c V x rel) (hr : ∀ a b V', rel a b V' → rel2 a b V') :
    Sim len ptr R Own c V x rel2 := fun ns r ns' e s hs hR => by
  obtain ⟨a, V1, s1, c1, h1, r1, o1, q, A⟩ := h ns r ns' e s hs hR
  exact ⟨a, V1, s1, c1, h1, r1, o1, hr _ _ _ q, A⟩

theorem bind {c : Cmd F α} {f : α → Cmd F α'} {x : NM σ β} {g : β → NM σ β'} (h : Sim len ptr R Own c V x rel)
    (k : ∀ a b V', rel a b V' → Sim len ptr R Own (f a) V' (g b) rel') : Sim len ptr R Own (c >>= f) V (x >>= g) rel' := fun ns r ns' e s hs hr => by
  obtain ⟨⟨b, ns1⟩, e1, e2⟩ := Option.bind_eq_some_iff.1 e
  obtain ⟨a, V1, s1, c1, h1, r1, o1, q, A1⟩ := h ns b ns1 e1 s hs hr
  obtain ⟨a2, V2, s2, c2, h2, r2, o2, q2, A2⟩ := k a b V1 q ns1 r ns' e2 s1 h1 r1
  exact ⟨a2, V2, s2, c1.bind c2, h2, r2, o1.trans o2 subset_rfl, q2, A2.1.trans A1.1, A2.2.1.trans A1.2.1, A2.2.2.1.trans A1.2.2.1, A2.2.2.2.trans A1.2.2.2⟩

/-- an access of the vector program -/
theorem lift {γ : Type} {o : Option γ} {c : Cmd F α} {g : γ → NM σ β} (h : ∀ r, o = some r → Sim len ptr R Own c V (g r) rel) :
    Sim len ptr R Own c V (nlift o >>= g) rel := fun ns r ns' e => by
  obtain ⟨⟨b, ns1⟩, e1, e2⟩ := Option.bind_eq_some_iff.1 e
  obtain ⟨r', h1, h2⟩ := Option.map_eq_some_iff.1 e1
  obtain ⟨rfl, rfl⟩ := Prod.mk.inj h2
  exact h r' h1 _ _ _ e2

/-- a command that changes the first `k` entries of one array -/
theorem exec (S : ASep len ptr Own) (K : OwnData R Own) (a : ι) {k : ℕ} (hk : k ≤ len a) (w : Vec F k) {c : Cmd F Unit} {f : Unit → Cmd F α} {x : NM σ β}
    (hc : ∀ s : PState F, AHolds len ptr s V → ∃ s', CSpec c s () s' ∧ HoldsV s' (ptr a) w ∧ Only (Rng (ptr a) k) s s') (h1 : V' a = vput hk w (V a))
    (h2 : ∀ i, i ≠ a → V' i = V i) (h : Sim len ptr R Own (f ()) V' x rel) : Sim len ptr R Own (c >>= f) V x rel := fun ns r ns' e s hs hr => by
  obtain ⟨s1, c1, c2, c3⟩ := hc s hs
  have hr1 : R ns.cb s1 := K _ s s1 hr fun q hq => ⟨c3.val q fun hm => Set.disjoint_left.1 (S.own a) (Rng.le hk _ hm) hq, by rw [c3.len]⟩
  obtain ⟨a2, V2, s2, c2, h2, r2, o2, q2, A2⟩ := h ns r ns' e s1 (hs.set S a hk c2 (c3.mono Set.subset_union_left) h1 h2) hr1
  exact ⟨a2, V2, s2, c1.bind c2, h2, r2, (c3.mono ((Rng.le hk _).trans ((aall a).trans Set.subset_union_left))).trans o2 subset_rfl, q2, A2⟩

theorem eval {p : Prog F F} {v : F} {f : F → Cmd F α} {x : NM σ β} (hp : ∀ s : PState F, AHolds len ptr s V → CSpec (Cmd.eval p) s v s)
    (h : Sim len ptr R Own (f v) V x rel) : Sim len ptr R Own (Cmd.eval p >>= f) V x rel := fun ns r ns' e s hs hr => by
  obtain ⟨a2, V2, s2, c2, h2⟩ := h ns r ns' e s hs hr
  exact ⟨a2, V2, s2, (hp s hs).bind c2, h2⟩

theorem assume {al : List Ptr} {f : Unit → Cmd F α} {x : NM σ β} (h : Sim len ptr R Own (f ()) V x rel) :
    Sim len ptr R Own (Cmd.assume al >>= f) V x rel := fun ns r ns' e s hs hr => by
  obtain ⟨a2, V2, s2, c2, h2⟩ := h ns r ns' e s hs hr
  exact ⟨a2, V2, s2, (cspec_assume al s).bind c2, h2⟩

theorem need {b : Prop} [Decidable b] (hb : b) {f : Unit → Cmd F α} {x : NM σ β} (h : Sim len ptr R Own (f ()) V x rel) :
    Sim len ptr R Own (Cmd.need b >>= f) V x rel := fun ns r ns' e s hs hr => by
  obtain ⟨a2, V2, s2, c2, h2⟩ := h ns r ns' e s hs hr
  exact ⟨a2, V2, s2, (cspec_need hb s).bind c2, h2⟩

/-- a call through a function pointer -/
theorem call (S : ASep len ptr Own) {l k : ℕ} {c : Option (Ptr → Ptr → Cmd F Unit)} {op : Option (NOp F σ l k)} (H : NOptImpl R Own c op) (a d : ι) (had : a ≠ d)
    (hl : l ≤ len a) (hk : k ≤ len d) {v : Vec F l} {old : Vec F k} (hv : v = vhead hl (V a)) (ho : old = vhead hk (V d)) {f : Unit → Cmd F α}
    {g : Vec F l × Vec F k → NM σ β} (V' : Vec F l → Vec F k → (i : ι) → Vec F (len i)) (h0 : ∀ y z, V' y z a = vput hl y (V a)) (h1 : ∀ y z, V' y z d = vput hk z (V d))
    (h2 : ∀ y z i, i ≠ a → i ≠ d → V' y z i = V i) (h : ∀ y z, Sim len ptr R Own (f ()) (V' y z) (g (y, z)) rel) :
    Sim len ptr R Own (callFn c (ptr a) (ptr d) >>= f) V (ncall op v old >>= g) rel := fun ns r ns' e s hs hr => by
  obtain ⟨⟨b, ns1⟩, e1, e2⟩ := Option.bind_eq_some_iff.1 e
  cases op with
  | none => cases e1
  | some op =>
    cases c with
    | none => exact H.elim
    | some c =>
      obtain ⟨⟨⟨y, z⟩, t'⟩, e3, e4⟩ := Option.map_eq_some_iff.1 e1
      obtain ⟨rfl, rfl⟩ := Prod.mk.inj e4
      subst hv ho
      have d1 := (S.dis a d had).mono (Rng.le hl _) (Rng.le hk _)
      obtain ⟨s1, c1, r1, c2, c3, c4⟩ := H ns.cb s (ptr a) (ptr d) _ _ _ hr ((hs a).head hl) ((hs d).head hk) d1 ((S.own a).mono_left (Rng.le hl _))
        ((S.own d).mono_left (Rng.le hk _)) e3
      obtain ⟨a2, V2, s2, k2, g2, r2, o2, q2, A2⟩ := h y z _ r ns' e2 s1 (hs.set2 S had hl hk c2 c3 c4 (h0 y z) (h1 y z) (h2 y z)) r1
      refine ⟨a2, V2, s2, c1.bind k2, g2, r2, (c4.mono ?_).trans o2 subset_rfl, q2, A2⟩
      exact Set.union_subset_union_left _ (Set.union_subset ((Rng.le hl _).trans (aall a)) ((Rng.le hk _).trans (aall d)))

omit [Scalar F] in
theorem cross [DecidableEq ι] (S : ASep len ptr Own) {k : ℕ} (a b : ι) (ha : k ≤ len a) (hb : k ≤ len b) : NoCross k (ptr a) (ptr b) := by
  by_cases e : a = b
  · subst e
    exact NoCross.refl _ _
  · exact NoCross.of_disj ((S.dis a b e).mono (Rng.le ha _) (Rng.le hb _))

/-- element-wise kernel with two inputs, on the first `k` entries -/
theorem map2 [DecidableEq ι] (S : ASep len ptr Own) (K : OwnData R Own) {k : ℕ} (a b z : ι) (ha : k ≤ len a) (hb : k ≤ len b) (hz : k ≤ len z) (f : F → F → F) {kk : Kernel F} {al : List Ptr}
    (hkk : kk = parFor (al := al) 0 k fun i => do let u ← load (ptr a + i); let v ← load (ptr b + i); store (ptr z + i) (f u v)) {g : Unit → Cmd F α} {x : NM σ β}
    (h1 : V' z = vput hz (fun i => f (vhead ha (V a) i) (vhead hb (V b) i)) (V z)) (h2 : ∀ i, i ≠ z → V' i = V i)
    (h : Sim len ptr R Own (g ()) V' x rel) : Sim len ptr R Own (Cmd.exec kk >>= g) V x rel :=
  exec S K z hz _ (fun _ hs => cmd_map2 f hkk ((hs a).head ha) ((hs b).head hb) ((hs z).head hz).1 (cross S z a hz ha) (cross S z b hz hb)) h1 h2 h

/-- element-wise kernel with one input -/
theorem map1 [DecidableEq ι] (S : ASep len ptr Own) (K : OwnData R Own) {k : ℕ} (a z : ι) (ha : k ≤ len a) (hz : k ≤ len z) (f : F → F) {kk : Kernel F} {al : List Ptr}
    (hkk : kk = parFor (al := al) 0 k fun i => do let u ← load (ptr a + i); store (ptr z + i) (f u)) {g : Unit → Cmd F α} {x : NM σ β}
    (h1 : V' z = vput hz (fun i => f (vhead ha (V a) i)) (V z)) (h2 : ∀ i, i ≠ z → V' i = V i)
    (h : Sim len ptr R Own (g ()) V' x rel) : Sim len ptr R Own (Cmd.exec kk >>= g) V x rel :=
  exec S K z hz _ (fun _ hs => cmd_map1 f hkk ((hs a).head ha) ((hs z).head hz).1 (cross S z a hz ha)) h1 h2 h
end Sim

variable {N : ℕ} {s : PState F} {x y z : Ptr}

/-- a constant written to an array -/
theorem cmd_init (hz : s.mem.Has z N) (a : F) : ∃ s', CSpec (Cmd.exec (l1c_init_vec N z a)) s () s' ∧ HoldsV s' z (fun _ : Fin N => a) ∧ Only (Rng z N) s s' := by
  have e := setRange_holds (s := s) hz (fun _ => a) (fun _ => a) fun _ => rfl
  refine ⟨_, cspec_exec (kspec_elementwise (fun _ => ∅) (fun i _ _ => Foot.store rfl) (fun _ _ _ _ _ _ _ => Set.notMem_empty _) fun i h0 h1 => ?_), e.1, e.2⟩
  exact ⟨_, run_store (hz i h0 h1), by rw [Mem.write_val, if_pos rfl]⟩

/-- a sequential loop that rewrites an array from another one or from itself -/
theorem cmd_seqMap (f : F → F) {u : Vec F N} (hx : HoldsV s x u) (hz : s.mem.Has z N) (hd : NoCross N z x) {body : Int → Prog F Unit}
    (hbody : body = fun i => do let a ← load (x + i); store (z + i) (f a)) :
    ∃ s', CSpec (Cmd.exec (seqK (forUp 0 (N : Int) body))) s () s' ∧ HoldsV s' z (fun i => f (u i)) ∧ Only (Rng z N) s s' := by
  subst hbody
  have hrun : (forUp 0 (N : Int) fun i => do let a ← load (x + i); store (z + i) (f a)).run s.mem =
      some ((), s.mem.setRange z N fun i => f (s.mem.val (x + i))) := by
    have := run_forUp 0 (N : Int) (fun i => (do let a ← load (x + i); store (z + i) (f a) : Prog F Unit))
      (fun k => s.mem.setRange z k fun i => f (s.mem.val (x + i))) (fun i h0 h1 => by
        have e : (s.mem.setRange z i fun i => f (s.mem.val (x + i))).val (x + i) = s.mem.val (x + i) := by
          refine Mem.setRange_val_out _ _ _ _ _ fun hc => ?_
          obtain ⟨c1, c2, c3⟩ := hc
          refine hd ((x + i).off - z.off) i (by omega) (by omega) h0 h1 (by omega) ?_
          ext
          · exact c1.symm
          · simp
        have hx' : (s.mem.setRange z i fun i => f (s.mem.val (x + i))).Has x N := hx.1
        have hz' : (s.mem.setRange z i fun i => f (s.mem.val (x + i))).Has z N := hz
        simp only [run_bind, run_load (hx' i h0 h1), Option.bind_some, run_store (hz' i h0 h1), e]
        rw [Mem.setRange_write _ _ _ (fun i => f (s.mem.val (x + i))) h0]) (by omega)
    rwa [Mem.setRange_zero _ _ _ le_rfl] at this
  have h := setRange_holds (s := s) hz (fun i => f (s.mem.val (x + i))) (fun i => f (u i)) (fun i => by rw [hx.2])
  exact ⟨_, cspec_exec (kspec_seq hrun), h.1, h.2⟩

/-- a sequential loop that fills an array with a constant -/
theorem cmd_seqInit (hz : s.mem.Has z N) (a : F) :
    ∃ s', CSpec (Cmd.exec (seqK (forUp 0 (N : Int) fun i => store (z + i) a))) s () s' ∧ HoldsV s' z (fun _ : Fin N => a) ∧ Only (Rng z N) s s' := by
  have hrun : (forUp 0 (N : Int) fun i => store (z + i) a).run s.mem = some ((), s.mem.setRange z N fun _ => a) := by
    have := run_forUp 0 (N : Int) (fun i => (store (z + i) a : Prog F Unit)) (fun k => s.mem.setRange z k fun _ => a) (fun i h0 h1 => by
        have hz' : (s.mem.setRange z i fun _ => a).Has z N := hz
        rw [run_store (hz' i h0 h1), ← Mem.setRange_write _ _ _ (fun _ => a) h0]) (by omega)
    rwa [Mem.setRange_zero _ _ _ le_rfl] at this
  have h := setRange_holds (s := s) hz (fun _ => a) (fun _ => a) (fun i => rfl)
  exact ⟨_, cspec_exec (kspec_seq hrun), h.1, h.2⟩

theorem cmd_dnrm2 {u : Vec F N} (hx : HoldsV s x u) : CSpec (Cmd.eval (cblas_dnrm2 N x)) s (dnrm2 u) s := by
  refine cspec_eval (m := s.mem) ?_
  have h : (cblas_ddot (N : Int) x x).run s.mem = some (ddot u u, s.mem) := by
    refine run_foldV (fun c i => c + u i * u i) (lit 0) fun i c => ?_
    simp only [run_bind, run_load (hx.1 ((i : ℕ) : Int) (by omega) (by omega)), Option.bind_some, run_pure, hx.2]
  simp only [cblas_dnrm2, run_bind, h, Option.bind_some, run_pure]
  rfl

theorem cmd_dnrm2_err {u v : Vec F N} (hx : HoldsV s x u) (hy : HoldsV s y v) : CSpec (Cmd.eval (l1c_dnrm2_err N x y)) s (vnrm2err u v) s := by
  refine cspec_eval (m := s.mem) ?_
  have h : (sqDiffLoop (N : Int) x y).run s.mem = some (ddot (fun i => u i - v i) (fun i => u i - v i), s.mem) := by
    refine run_foldV (fun c i => c + (u i - v i) * (u i - v i)) (lit 0) fun i c => ?_
    simp only [run_bind, run_load (hx.1 ((i : ℕ) : Int) (by omega) (by omega)), run_load (hy.1 ((i : ℕ) : Int) (by omega) (by omega)), Option.bind_some, run_pure, hx.2, hy.2]
  simp only [l1c_dnrm2_err, run_bind, h, Option.bind_some, run_pure]
  rfl

theorem cmd_sum {u : Vec F N} (hx : HoldsV s x u) :
    CSpec (Cmd.eval (foldUp 0 (N : Int) (lit 0) fun i c => do let v ← load (x + i); pure (c + v))) s (dsum u) s := by
  refine cspec_eval (m := s.mem) (run_foldV (fun c i => c + u i) (lit 0) fun i c => ?_)
  simp only [run_bind, run_load (hx.1 ((i : ℕ) : Int) (by omega) (by omega)), Option.bind_some, run_pure, hx.2]

theorem cmd_max {u : Vec F N} (hx : HoldsV s x u) : CSpec (Cmd.eval (l1c_max_vec N x)) s (vmax u) s := by
  refine cspec_eval (m := s.mem) ?_
  unfold l1c_max_vec
  rcases N with _ | N
  · simp [vmax]
  · have e0 : s.mem.val (x + (0 : Int)) = u 0 := by simpa using hx.2 0
    rw [if_neg (by push_cast; omega)]
    simp only [run_bind, run_load (hx.1 0 le_rfl (by push_cast; omega)), Option.bind_some, e0]
    rcases N with _ | N
    · simp [vmax]
    · rw [if_neg (by push_cast; omega)]
      have h := run_foldUp 1 (((N + 1 + 1 : ℕ) : Int)) (u 0) (fun k xmax => do let v ← load (x + k); pure (if flt xmax v then v else xmax))
        (fun k => ((List.finRange (N + 1)).take (k - 1).toNat).foldl (fun xmax i => if flt xmax (u i.succ) then u i.succ else xmax) (u 0)) (fun _ => s.mem)
        (fun k h0 h1 => ?_) (by simp) (by push_cast; omega)
      · rw [h]
        have e : (List.finRange (N + 1)).take ((((N + 1 + 1 : ℕ) : Int) - 1).toNat) = List.finRange (N + 1) := List.take_of_length_le (by simp)
        rw [e]
        rfl
      · obtain ⟨j, rfl⟩ : ∃ j : ℕ, k = j + 1 := ⟨(k - 1).toNat, by omega⟩
        have hj : j < N + 1 := by push_cast at h1; omega
        have hv : s.mem.val (x + ((j : Int) + 1)) = u (Fin.succ ⟨j, hj⟩) := by
          have := hx.2 (Fin.succ ⟨j, hj⟩)
          rw [← this]
          simp
        simp only [run_bind, run_load (hx.1 ((j : Int) + 1) (by omega) (by push_cast at h1 ⊢; omega)), Option.bind_some, run_pure, hv]
        congr 2
        rw [show ((j : Int) + 1 - 1).toNat = j by omega, show ((j : Int) + 1 + 1 - 1).toNat = j + 1 by omega, List.take_add_one, List.foldl_append,
          List.getElem?_eq_getElem (by simpa using hj)]
        simp

end L1c
