import Verif.Proofs.Vcl
import Mathlib.Analysis.InnerProductSpace.PiL2

/-!
# Properties C03–C06: vector kernels of `src/l1c_math.c` and `src/vcl/vcl_math.cpp`

C03 theorems hold for every `Scalar F` (so for IEEE doubles).  `KSpec k m m'` quantifies over every
interleaving of the loop iterations' single memory accesses, excludes undefined behaviour, and
`m.setRange y N f` differs from `m` only in `y[0..N-1]`.
-/

namespace L1c
open Prog Scalar

section C03
variable {F : Type} [Scalar F]

omit [Scalar F] in
theorem C03_init_vec (N : Int) (x : Ptr) (alpha : F) (m : Mem F) (hx : m.Has x N) :
    KSpec (l1c_init_vec N x alpha) m (m.setRange x N fun _ => alpha) := by
  refine kspec_elementwise (fun _ => ∅) (fun i h0 h1 => Foot.store rfl) (fun _ _ _ _ _ _ _ => by simp)
    (fun i h0 h1 => ⟨_, run_store (hx i h0 h1), by simp [Mem.write_val]⟩)

theorem C03_daxpby (N : Int) (alpha beta : F) (x y : Ptr) (m : Mem F)
    (hx : m.Has x N) (hy : m.Has y N) (hyx : NoCross N y x) :
    KSpec (l1c_daxpby N alpha x beta y) m
      (m.setRange y N fun i => alpha * m.val (x + i) + beta * m.val (y + i)) :=
  kspec_map2 (fun a b => alpha * a + beta * b) hx hy hy hyx (NoCross.refl N y)

theorem C03_dxmuly_z (N : Int) (x y z : Ptr) (m : Mem F)
    (hx : m.Has x N) (hy : m.Has y N) (hz : m.Has z N) (hzx : NoCross N z x) (hzy : NoCross N z y) :
    KSpec (l1c_dxmuly_z N x y z) m
      (m.setRange z N fun i => m.val (x + i) * m.val (y + i)) :=
  kspec_map2 (fun a b => a * b) hx hy hz hzx hzy

theorem C03_daxpby_z (N : Int) (alpha beta : F) (x y z : Ptr) (m : Mem F)
    (hx : m.Has x N) (hy : m.Has y N) (hz : m.Has z N) (hzx : NoCross N z x) (hzy : NoCross N z y) :
    KSpec (l1c_daxpby_z N alpha x beta y z) m
      (m.setRange z N fun i => alpha * m.val (x + i) + beta * m.val (y + i)) :=
  kspec_map2 (fun a b => alpha * a + beta * b) hx hy hz hzx hzy

theorem C03_daxpy_z (N : Int) (alpha : F) (x y z : Ptr) (m : Mem F)
    (hx : m.Has x N) (hy : m.Has y N) (hz : m.Has z N) (hzx : NoCross N z x) (hzy : NoCross N z y) :
    KSpec (l1c_daxpy_z N alpha x y z) m
      (m.setRange z N fun i => alpha * m.val (x + i) + m.val (y + i)) :=
  kspec_map2 (fun a b => alpha * a + b) hx hy hz hzx hzy

/-- sequential loop; `x` and `y` may be the same array -/
theorem C03_abs_vec (N : Int) (x y : Ptr) (m : Mem F) (hx : m.Has x N) (hy : m.Has y N)
    (hyx : NoCross N y x) :
    (l1c_abs_vec N x y).run m = some ((), m.setRange y N fun i => fabs (m.val (x + i))) := by
  by_cases hN : 0 ≤ N
  · exact run_map1 fabs hN hx hy hyx
  · rw [Mem.setRange_zero _ _ _ (by omega), l1c_abs_vec, forUp_empty _ _ (by omega)]; rfl

/-- With a zero-length or negative `N` nothing is touched, whatever the pointers are. -/
theorem C03_empty (N : Int) (hN : N ≤ 0) (alpha beta : F) (x y z : Ptr) (m : Mem F) :
    KSpec (l1c_daxpby N alpha x beta y) m m ∧ KSpec (l1c_daxpy_z N alpha x y z) m m ∧
    KSpec (l1c_dxmuly_z N x y z) m m ∧ KSpec (l1c_init_vec N x alpha) m m := by
  have h : ∀ p : Ptr, m.Has p N := fun p i _ _ => by omega
  have c : ∀ p q : Ptr, NoCross N p q := fun p q i j _ _ _ _ _ => by omega
  have e : ∀ (p : Ptr) (f : Int → F), m.setRange p N f = m := fun p f => Mem.setRange_zero _ _ _ hN f
  refine ⟨?_, ?_, ?_, ?_⟩
  · have := C03_daxpby N alpha beta x y m (h _) (h _) (c _ _); rwa [e] at this
  · have := C03_daxpy_z N alpha x y z m (h _) (h _) (h _) (c _ _) (c _ _); rwa [e] at this
  · have := C03_dxmuly_z N x y z m (h _) (h _) (h _) (c _ _) (c _ _); rwa [e] at this
  · have := C03_init_vec N x alpha m (h _); rwa [e] at this

/-- Not vacuous: three 4-element blocks satisfy the hypotheses, also for IEEE doubles. -/
example : ∃ (m : Mem Float) (x y z : Ptr), m.Has x 4 ∧ m.Has y 4 ∧ m.Has z 4 ∧
    NoCross 4 z x ∧ NoCross 4 z y ∧ NoCross 4 y x :=
  ⟨⟨fun _ => 4, fun _ => 1.5⟩, ⟨0, 0⟩, ⟨1, 0⟩, ⟨2, 0⟩,
    by intro i h0 h1; simp [Mem.Ok]; omega, by intro i h0 h1; simp [Mem.Ok]; omega,
    by intro i h0 h1; simp [Mem.Ok]; omega,
    NoCross.of_blk (by decide), NoCross.of_blk (by decide), NoCross.of_blk (by decide)⟩

end C03

section C04
open Finset

theorem sumStep (f : Int → Dbl) (lo i : Int) (h : lo ≤ i) :
    ∑ k ∈ range (i + 1 - lo).toNat, f (lo + k) = ∑ k ∈ range (i - lo).toNat, f (lo + k) + f i := by
  have : (i + 1 - lo).toNat = (i - lo).toNat + 1 := by omega
  rw [this, sum_range_succ]
  congr 2; omega

theorem C04_dsum (N : Int) (x : Ptr) (m : Mem Dbl) (hx : m.Has x N) :
    (l1c_dsum N x).run m = some (∑ k ∈ range N.toNat, m.val (x + (k : Int)), m) := by
  by_cases hN : 0 ≤ N
  · have := run_sum (m := m) (N := N) (lo := 0) (s := (lit 0 : Dbl))
      (body := fun i sum => do let v ← load (x + i); pure (sum + v))
      (fun i => ∑ k ∈ range (i - 0).toNat, m.val (x + (0 + (k : Int)))) hN (by simp [Dbl.zero_eq])
      (fun i h0 h1 => by
        simp only [run_bind, run_load (hx i h0 h1), Option.bind_some, run_pure]
        rw [sumStep (fun i => m.val (x + i)) 0 i h0])
    simp only [sub_zero, zero_add] at this; exact this
  · rw [l1c_dsum, foldUp_empty _ _ (by omega)]
    have : N.toNat = 0 := by omega
    simp [this, Dbl.zero_eq]

theorem C04_dnorm1 (N : Int) (x : Ptr) (m : Mem Dbl) (hx : m.Has x N) :
    (l1c_dnorm1 N x).run m = some (∑ k ∈ range N.toNat, fabs (m.val (x + (k : Int))), m) := by
  by_cases hN : 0 ≤ N
  · have := run_sum (m := m) (N := N) (lo := 0) (s := (lit 0 : Dbl))
      (body := fun i sum => do let v ← load (x + i); pure (sum + fabs v))
      (fun i => ∑ k ∈ range (i - 0).toNat, fabs (m.val (x + (0 + (k : Int))))) hN (by simp [Dbl.zero_eq])
      (fun i h0 h1 => by
        simp only [run_bind, run_load (hx i h0 h1), Option.bind_some, run_pure]
        rw [sumStep (fun i => fabs (m.val (x + i))) 0 i h0])
    simp only [sub_zero, zero_add] at this; exact this
  · rw [l1c_dnorm1, cblas_dasum, foldUp_empty _ _ (by omega)]
    have : N.toNat = 0 := by omega
    simp [this, Dbl.zero_eq]

theorem run_chunk (alpha : Dbl) (x : Ptr) (m : Mem Dbl) (l : List Int) (h : ∀ i ∈ l, m.Ok (x + i))
    (s : Dbl) :
    (l.foldlM (fun total i => do
      let v ← load (x + i)
      pure (total + flog (alpha * v))) s).run m
      = some (s + (l.map fun i => flog (alpha * m.val (x + i))).sum, m) := by
  induction l generalizing s with
  | nil => simp
  | cons i l ih =>
    simp only [List.foldlM_cons, run_bind, run_load (h i (by simp)), Option.bind_some, run_pure,
      List.map_cons, List.sum_cons]
    rw [ih (fun j hj => h j (by simp [hj])), add_assoc]

/-- The reduction gives the same sum for **every** distribution of the iterations over threads. -/
theorem C04_dlogsum (N : Int) (sched : List (List Int)) (hs : ValidSched N sched) (alpha : Dbl)
    (x : Ptr) (m : Mem Dbl) (hx : m.Has x N) :
    (l1c_dlogsum sched alpha x).run m
      = some (∑ k ∈ range N.toNat, flog (alpha * m.val (x + (k : Int))), m) := by
  have hok : ∀ i ∈ sched.flatten, m.Ok (x + i) := by
    intro i hi
    have := (hs.mem_iff).1 hi
    simp only [List.mem_map, List.mem_range] at this
    obtain ⟨k, hk, rfl⟩ := this
    exact hx _ (by simp) (by simp only [Int.ofNat_eq_natCast]; omega)
  have key : ∀ (l : List (List Int)), (∀ i ∈ l.flatten, m.Ok (x + i)) → ∀ s : Dbl,
      (l.foldlM (fun total chunk => do
        let t ← dlogsumChunk alpha x chunk
        pure (total + t)) s).run m
      = some (s + (l.flatten.map fun i => flog (alpha * m.val (x + i))).sum, m) := by
    intro l
    induction l with
    | nil => intro _ s; simp
    | cons c l ih =>
      intro h s
      have hc : (dlogsumChunk alpha x c).run m = _ :=
        run_chunk alpha x m c (fun i hi => h i (by simp [hi])) (lit 0)
      simp only [List.foldlM_cons, run_bind, hc, Option.bind_some, run_pure]
      rw [ih (fun i hi => h i (List.mem_flatten.2 (by
        obtain ⟨l', h1, h2⟩ := List.mem_flatten.1 hi; exact ⟨l', by simp [h1], h2⟩)))]
      simp only [List.flatten_cons, List.map_append, List.sum_append, Dbl.zero_add']
      rw [add_assoc]
  rw [l1c_dlogsum, key _ hok]
  rw [Dbl.zero_add', (hs.map _).sum_eq, List.map_map, Finset.sum_range]
  congr 2
  rw [← List.sum_ofFn, List.ofFn_eq_map]
  congr 1
  rw [← List.map_coe_finRange_eq_range, List.map_map]
  rfl

theorem sum_four (f : Int → Dbl) (b : Int) (h : 0 ≤ b) :
    ∑ k ∈ range (4 * (b + 1)).toNat, f k
      = ∑ k ∈ range (4 * b).toNat, f k + ((f (4 * b) + f (4 * b + 1)) + (f (4 * b + 2) + f (4 * b + 3))) := by
  have e : (4 * (b + 1)).toNat = (4 * b).toNat + 1 + 1 + 1 + 1 := by omega
  have e0 : (((4 * b).toNat : ℕ) : Int) = 4 * b := by omega
  rw [e, sum_range_succ, sum_range_succ, sum_range_succ, sum_range_succ]
  push_cast
  rw [e0]
  simp only [add_assoc]

/-- lane sums of a blocked loop -/
theorem lanes (f : Int → Dbl) (s : Vec4 Dbl) (t : Dbl) (b : Int) (h : s.hadd = t) :
    (s.map₂ (fun u v => u + v) ⟨f (4 * b), f (4 * b + 1), f (4 * b + 2), f (4 * b + 3)⟩).hadd
      = t + ((f (4 * b) + f (4 * b + 1)) + (f (4 * b + 2) + f (4 * b + 3))) := by
  subst h
  simp only [Vec4.hadd, Vec4.map₂]
  ac_rfl

/-- The blocked loop (4 lanes) plus scalar tail computes the plain sum. -/
theorem blocked_sum (N : Int) (hfit : FitsInt N) (x : Ptr) (m : Mem Dbl) (hx : m.Has x N)
    (g : Dbl → Dbl) :
    (do let sum_vec ← foldUp 0 (blocks N) (⟨lit 0, lit 0, lit 0, lit 0⟩ : Vec4 Dbl) fun b s => do
            let xvec ← load4 (x + 4 * b)
            pure (s.map₂ (fun t v => t + g v) xvec)
        let total ← foldUp (tailStart N) N (lit 0) fun i t => do
            let v ← load (x + i)
            pure (t + g v)
        pure (total + sum_vec.hadd)).run m
      = some (∑ k ∈ range N.toNat, g (m.val (x + (k : Int))), m) := by
  by_cases hN : 0 ≤ N
  · rw [blocks_eq N hfit, tailStart_eq N hfit hN]
    -- blocked part: track the horizontal sum
    have hb : ∃ s : Vec4 Dbl, (foldUp 0 (N / 4) (⟨lit 0, lit 0, lit 0, lit 0⟩ : Vec4 Dbl) fun b s => do
            let xvec ← load4 (x + 4 * b)
            pure (s.map₂ (fun t v => t + g v) xvec)).run m = some (s, m) ∧
        s.hadd = ∑ k ∈ range (4 * (N / 4)).toNat, g (m.val (x + (k : Int))) := by
      have key : ∀ K : Nat, (K : Int) ≤ N / 4 → ∃ s : Vec4 Dbl,
          (foldN 0 (fun b s => do
            let xvec ← load4 (x + 4 * b)
            pure (s.map₂ (fun t v => t + g v) xvec)) (⟨lit 0, lit 0, lit 0, lit 0⟩ : Vec4 Dbl) K).run m
            = some (s, m) ∧
          s.hadd = ∑ k ∈ range (4 * (K : Int)).toNat, g (m.val (x + (k : Int))) := by
        intro K
        induction K with
        | zero =>
          intro _
          refine ⟨_, rfl, ?_⟩
          show ((0 : Dbl) + 0) + (0 + 0) = _
          simp
        | succ K ih =>
          intro hK
          obtain ⟨s, h1, h2⟩ := ih (by push_cast at hK; omega)
          refine ⟨s.map₂ (fun t v => t + g v) ⟨m.val (x + 4 * (K : Int)), m.val (x + (4 * (K : Int) + 1)),
            m.val (x + (4 * (K : Int) + 2)), m.val (x + (4 * (K : Int) + 3))⟩, ?_, ?_⟩
          · simp only [foldN, run_bind, h1, Option.bind_some, zero_add]
            rw [run_load4 hx (by omega) (by push_cast at hK; omega)]
            rfl
          · have := lanes (fun i => g (m.val (x + i))) s _ K h2
            push_cast
            rw [sum_four (fun i => g (m.val (x + i))) K (by omega), ← this]
            rfl
      have := key (N / 4 - 0).toNat (by omega)
      obtain ⟨s, h1, h2⟩ := this
      refine ⟨s, h1, ?_⟩
      rw [h2]
      congr 2; congr 1; omega
    obtain ⟨s, h1, h2⟩ := hb
    have ht := run_sum (m := m) (N := N) (lo := 4 * (N / 4)) (s := (lit 0 : Dbl))
      (body := fun i t => do let v ← load (x + i); pure (t + g v))
      (fun i => ∑ k ∈ range (i - 4 * (N / 4)).toNat, g (m.val (x + (4 * (N / 4) + (k : Int)))))
      (by omega) (by simp [Dbl.zero_eq])
      (fun i h0 h1 => by
        simp only [run_bind, run_load (hx i (by omega) h1), Option.bind_some, run_pure]
        rw [sumStep (fun i => g (m.val (x + i))) (4 * (N / 4)) i h0])
    simp only [run_bind, h1, Option.bind_some, ht, run_pure, h2]
    congr 2
    have e : N.toNat = (4 * (N / 4)).toNat + (N - 4 * (N / 4)).toNat := by omega
    have e0 : (((4 * (N / 4)).toNat : ℕ) : Int) = 4 * (N / 4) := by omega
    rw [e, sum_range_add, add_comm]
    push_cast
    rw [e0]
  · rw [blocks_eq N hfit, tailStart_neg N hfit (by omega), foldUp_empty _ _ (by omega),
      foldUp_empty _ _ (by omega)]
    have : N.toNat = 0 := by omega
    simp only [run_bind, run_pure, Option.bind_some, this, range_zero, sum_empty]
    congr 2
    show (0 : Dbl) + ((0 + 0) + (0 + 0)) = 0
    simp

theorem C04_vcl_sum (N : Int) (hfit : FitsInt N) (x : Ptr) (m : Mem Dbl) (hx : m.Has x N) :
    (vcl_sum N x).run m = some (∑ k ∈ range N.toNat, m.val (x + (k : Int)), m) :=
  blocked_sum N hfit x m hx id

theorem C04_vcl_logsum (N : Int) (hfit : FitsInt N) (alpha : Dbl) (x : Ptr) (m : Mem Dbl)
    (hx : m.Has x N) :
    (vcl_logsum N alpha x).run m
      = some (∑ k ∈ range N.toNat, flog (m.val (x + (k : Int)) * alpha), m) :=
  blocked_sum N hfit x m hx (fun v => flog (v * alpha))

/-- `z[i] = x[i]*y[i] + z[i]` for exactly the first `N` entries; any scalar type. -/
theorem C04_vcl_dxMy_pz {F : Type} [Scalar F] (N : Int) (hfit : FitsInt N) (x y z : Ptr) (m : Mem F)
    (hx : m.Has x N) (hy : m.Has y N) (hz : m.Has z N) (hzx : NoCross N z x) (hzy : NoCross N z y) :
    (vcl_dxMy_pz N x y z).run m = some ((), m.setRange z N fun i =>
      m.val (x + i) * m.val (y + i) + m.val (z + i)) := by
  set f : Int → F := fun i => m.val (x + i) * m.val (y + i) + m.val (z + i) with hf
  by_cases hN : 0 ≤ N
  · -- reads at index ≥ k are not affected by the first k writes
    have rdv : ∀ (w : Ptr), NoCross N z w → ∀ k i : Int, 0 ≤ k → k ≤ i → i < N →
        (m.setRange z k f).val (w + i) = m.val (w + i) := by
      intro w hw k i hk hki hi
      apply Mem.setRange_val_out
      rintro ⟨h2, h3, h4⟩
      simp only [Ptr.add_blk, Ptr.add_off] at h2 h3 h4
      refine hw (w.off + i - z.off) i (by omega) (by omega) (by omega) hi (by omega) ?_
      ext
      · simp [h2]
      · simp
    rw [vcl_dxMy_pz, blocks_eq N hfit, tailStart_eq N hfit hN]
    have h1 := run_forUp 0 (N / 4) (fun b => do
        let xv ← load4 (x + 4 * b)
        let yv ← load4 (y + 4 * b)
        let zv ← load4 (z + 4 * b)
        store4 (z + 4 * b) ⟨xv.a * yv.a + zv.a, xv.b * yv.b + zv.b, xv.c * yv.c + zv.c, xv.d * yv.d + zv.d⟩)
      (fun b => m.setRange z (4 * b) f) (fun b h0 h1 => by
        have hx' : (m.setRange z (4 * b) f).Has x N := hx
        have hy' : (m.setRange z (4 * b) f).Has y N := hy
        have hz' : (m.setRange z (4 * b) f).Has z N := hz
        simp only [run_bind, run_load4 hx' h0 (by omega), run_load4 hy' h0 (by omega),
          run_load4 hz' h0 (by omega), Option.bind_some]
        rw [rdv x hzx _ _ (by omega) le_rfl (by omega), rdv x hzx _ _ (by omega) (by omega) (by omega),
          rdv x hzx _ _ (by omega) (by omega) (by omega), rdv x hzx _ _ (by omega) (by omega) (by omega),
          rdv y hzy _ _ (by omega) le_rfl (by omega), rdv y hzy _ _ (by omega) (by omega) (by omega),
          rdv y hzy _ _ (by omega) (by omega) (by omega), rdv y hzy _ _ (by omega) (by omega) (by omega),
          rdv z (NoCross.refl N z) _ _ (by omega) le_rfl (by omega),
          rdv z (NoCross.refl N z) _ _ (by omega) (by omega) (by omega),
          rdv z (NoCross.refl N z) _ _ (by omega) (by omega) (by omega),
          rdv z (NoCross.refl N z) _ _ (by omega) (by omega) (by omega)]
        rw [run_store4 hz' h0 (by omega)]
        dsimp only
        have w := Mem.setRange_write m z (4 * b) f (by omega)
        have w1 := Mem.setRange_write m z (4 * b + 1) f (by omega)
        have w2 := Mem.setRange_write m z (4 * b + 1 + 1) f (by omega)
        have w3 := Mem.setRange_write m z (4 * b + 1 + 1 + 1) f (by omega)
        rw [show 4 * b + 1 + 1 = 4 * b + 2 by ring] at *
        rw [show 4 * b + 2 + 1 = 4 * b + 3 by ring] at *
        rw [show 4 * (b + 1) = 4 * b + 3 + 1 by ring, ← w3, ← w2, ← w1, ← w])
      (by omega)
    have h2 := run_forUp (4 * (N / 4)) N (fun i => do
        let a ← load (x + i)
        let b ← load (y + i)
        let c ← load (z + i)
        store (z + i) (a * b + c)) (fun i => m.setRange z i f) (fun i h0 h1 => by
        have hx' : (m.setRange z i f).Ok (x + i) := hx i (by omega) h1
        have hy' : (m.setRange z i f).Ok (y + i) := hy i (by omega) h1
        have hz' : (m.setRange z i f).Ok (z + i) := hz i (by omega) h1
        simp only [run_bind, run_load hx', run_load hy', run_load hz', run_store hz', Option.bind_some]
        rw [rdv x hzx _ _ (by omega) le_rfl h1, rdv y hzy _ _ (by omega) le_rfl h1,
          rdv z (NoCross.refl N z) _ _ (by omega) le_rfl h1,
          ← Mem.setRange_write _ _ _ f (by omega)]) (by omega)
    rw [show 4 * (0 : Int) = 0 by ring, Mem.setRange_zero _ _ 0 le_rfl] at h1
    simp only [run_bind, h1, Option.bind_some, h2]
  · rw [vcl_dxMy_pz, blocks_eq N hfit, tailStart_neg N hfit (by omega), forUp_empty _ _ (by omega),
      forUp_empty _ _ (by omega), Mem.setRange_zero _ _ _ (by omega)]
    rfl

/-- Not vacuous: 7 elements split over three threads in a mixed-up order. -/
example : ValidSched 7 [[6, 0, 3], [], [1, 5], [4, 2]] := by unfold ValidSched; decide

end C04

section C05

theorem C05_nonpos {F : Type} [Scalar F] (n : Int) (hn : n ≤ 0) (x : Ptr) (m : Mem F) :
    (l1c_max_vec n x).run m = some (nan, m) := by
  rw [l1c_max_vec, if_pos hn]; rfl

/-- `C05`: for `n ≥ 1` the result is NaN iff `x[0]` is; otherwise it is an element of `x`, and is `≥`
every element that is not NaN. -/
theorem C05_max_vec (n : Int) (hn : 1 ≤ n) (x : Ptr) (m : Mem Dbl) (hx : m.Has x n) :
    ∃ v, (l1c_max_vec n x).run m = some (v, m) ∧
      (v = Dbl.nan ↔ m.val x = Dbl.nan) ∧
      (∃ i, 0 ≤ i ∧ i < n ∧ v = m.val (x + i)) ∧
      (m.val x ≠ Dbl.nan → ∀ i, 0 ≤ i → i < n → m.val (x + i) ≠ Dbl.nan → Dbl.Le (m.val (x + i)) v) := by
  have h0 := hx 0 le_rfl (by omega)
  have trans : ∀ a b c : Dbl, Dbl.Le a b → Dbl.Lt b c → Dbl.Le a c := by
    intro a b c; cases a <;> cases b <;> cases c <;> simp [Dbl.Le, Dbl.Lt]
    intro h1 h2; linarith
  have refl : ∀ a : Dbl, a ≠ .nan → Dbl.Le a a := by intro a; cases a <;> simp [Dbl.Le]
  have total : ∀ a b : Dbl, a ≠ .nan → b ≠ .nan → ¬ Dbl.Lt a b → Dbl.Le b a := by
    intro a b; cases a <;> cases b <;> simp [Dbl.Le, Dbl.Lt]
  have ltnan : ∀ a b : Dbl, Dbl.Lt a b → a ≠ .nan ∧ b ≠ .nan := by
    intro a b; cases a <;> cases b <;> simp [Dbl.Lt]
  -- invariant of the loop after visiting indices < k
  let P : Int → Dbl → Prop := fun k v =>
    (v = Dbl.nan ↔ m.val x = Dbl.nan) ∧ (∃ i, 0 ≤ i ∧ i < k ∧ v = m.val (x + i)) ∧
    (m.val x ≠ Dbl.nan → ∀ i, 0 ≤ i → i < k → m.val (x + i) ≠ Dbl.nan → Dbl.Le (m.val (x + i)) v)
  have P1 : P 1 (m.val x) := by
    refine ⟨Iff.rfl, ⟨0, le_rfl, by omega, by simp⟩, fun hne i hi0 hi1 hi => ?_⟩
    have : i = 0 := by omega
    subst this; simp only [Ptr.add_zero] at hi ⊢; exact refl _ hi
  have loop : ∀ k : Nat, (k : Int) ≤ n - 1 → ∃ v,
      (foldN 1 (fun k xmax => do
        let v ← load (x + k)
        pure (if flt xmax v then v else xmax)) (m.val x) k).run m = some (v, m) ∧ P (1 + k) v := by
    intro k
    induction k with
    | zero => intro _; exact ⟨_, rfl, by simpa using P1⟩
    | succ k ih =>
      intro hk
      obtain ⟨v, h1, h2, ⟨j, hj0, hj1, hj⟩, h4⟩ := ih (by push_cast at hk; omega)
      refine ⟨if flt v (m.val (x + (1 + (k : Int)))) then m.val (x + (1 + (k : Int))) else v, ?_, ?_⟩
      · simp only [foldN, run_bind, h1, Option.bind_some,
          run_load (hx (1 + (k : Int)) (by omega) (by push_cast at hk; omega)), run_pure]
      · by_cases hlt : Dbl.Lt v (m.val (x + (1 + (k : Int))))
        · rw [if_pos ((Dbl.flt_iff _ _).2 hlt)]
          have hn' := ltnan _ _ hlt
          have hx0 : m.val x ≠ Dbl.nan := fun e => hn'.1 (h2.2 e)
          refine ⟨⟨fun e => absurd e hn'.2, fun e => absurd e hx0⟩,
            ⟨1 + k, by omega, by push_cast; omega, rfl⟩, fun hne i hi0 hi1 hi => ?_⟩
          by_cases e : i = 1 + (k : Int)
          · subst e; exact refl _ hi
          · exact trans _ _ _ (h4 hne i hi0 (by push_cast at hi1; omega) hi) hlt
        · rw [if_neg (fun h => hlt ((Dbl.flt_iff _ _).1 h))]
          refine ⟨h2, ⟨j, hj0, by push_cast; omega, hj⟩, fun hne i hi0 hi1 hi => ?_⟩
          by_cases e : i = 1 + (k : Int)
          · subst e; exact total _ _ (fun e => hne (h2.1 e)) hi hlt
          · exact h4 hne i hi0 (by push_cast at hi1; omega) hi
  obtain ⟨v, h1, h2⟩ := loop (n - 1).toNat (by omega)
  have e : (1 : Int) + ((n - 1).toNat : Int) = n := by omega
  rw [e] at h2
  refine ⟨v, ?_, h2⟩
  rw [l1c_max_vec, if_neg (by omega)]
  have hl : (load (x + (0 : Int)) : Prog Dbl Dbl).run m = some (m.val x, m) := by
    rw [run_load h0]; simp
  simp only [run_bind, hl, Option.bind_some]
  by_cases hn1 : n = 1
  · subst hn1
    simp [foldN] at h1
    simp [h1]
  · rw [if_neg hn1]; exact h1

/-- NaN-free data: the result is the maximum. -/
theorem C05_max_vec_finite (n : Int) (hn : 1 ≤ n) (x : Ptr) (m : Mem Dbl) (hx : m.Has x n)
    (a : Int → ℝ) (ha : ∀ i, 0 ≤ i → i < n → m.val (x + i) = Dbl.fin (a i)) :
    ∃ r, (l1c_max_vec n x).run m = some (Dbl.fin r, m) ∧ (∃ i, 0 ≤ i ∧ i < n ∧ r = a i) ∧
      ∀ i, 0 ≤ i → i < n → a i ≤ r := by
  obtain ⟨v, h1, _, ⟨j, hj0, hj1, hj⟩, h4⟩ := C05_max_vec n hn x m hx
  rw [ha j hj0 hj1] at hj
  subst hj
  refine ⟨a j, h1, ⟨j, hj0, hj1, rfl⟩, fun i hi0 hi1 => ?_⟩
  have := h4 (by have := ha 0 le_rfl (by omega); simp at this; simp [this]) i hi0 hi1
    (by rw [ha i hi0 hi1]; simp)
  rw [ha i hi0 hi1] at this
  simpa [Dbl.Le] using this

example : (∃ (m : Mem Dbl) (x : Ptr), m.Has x 3 ∧ m.val x ≠ Dbl.nan ∧ m.val (x + (1 : Int)) = Dbl.nan) :=
  ⟨⟨fun _ => 3, fun p => if p.off = 1 then .nan else .fin 2⟩, ⟨0, 0⟩,
    by intro i h0 h1; simp [Mem.Ok]; omega, by simp, by simp⟩

end C05

section C06
open Finset

/-- a real vector stored at `p` -/
def HoldsVec (m : Mem Dbl) (p : Ptr) {n : ℕ} (a : EuclideanSpace ℝ (Fin n)) : Prop :=
  m.Has p n ∧ ∀ i : Fin n, m.val (p + ((i : ℕ) : Int)) = Dbl.fin (a i)

theorem finSum (n : ℕ) (g : ℕ → Dbl) (r : ℕ → ℝ) (h : ∀ i < n, g i = Dbl.fin (r i)) :
    ∑ k ∈ range n, g k = Dbl.fin (∑ k ∈ range n, r k) := by
  induction n with
  | zero => simp [Dbl.zero_eq]
  | succ n ih =>
    rw [sum_range_succ, sum_range_succ, ih (fun i hi => h i (by omega)), h n (by omega), Dbl.fin_add]

theorem run_sqDiff {n : ℕ} {m : Mem Dbl} {x y : Ptr} {a b : EuclideanSpace ℝ (Fin n)}
    (hx : HoldsVec m x a) (hy : HoldsVec m y b) :
    (sqDiffLoop n x y).run m = some (Dbl.fin (dist a b ^ 2), m) := by
  have h := run_sum (m := m) (N := n) (lo := 0) (s := (lit 0 : Dbl))
    (body := fun i nrm => do
      let a ← load (x + i)
      let b ← load (y + i)
      let diff := a - b
      pure (nrm + diff * diff))
    (fun i => ∑ k ∈ range (i - 0).toNat,
      (m.val (x + (0 + (k : Int))) - m.val (y + (0 + (k : Int)))) * (m.val (x + (0 + (k : Int))) - m.val (y + (0 + (k : Int)))))
    (by omega) (by simp [Dbl.zero_eq])
    (fun i h0 h1 => by
      simp only [run_bind, run_load (hx.1 i h0 h1), run_load (hy.1 i h0 h1), Option.bind_some, run_pure]
      rw [sumStep (fun i => (m.val (x + i) - m.val (y + i)) * (m.val (x + i) - m.val (y + i))) 0 i h0])
  rw [sqDiffLoop, h]
  congr 2
  simp only [sub_zero, Int.toNat_natCast, zero_add]
  rw [finSum n _ (fun k => if hk : k < n then (a ⟨k, hk⟩ - b ⟨k, hk⟩) ^ 2 else 0)]
  · congr 1
    rw [EuclideanSpace.dist_eq, Real.sq_sqrt (Finset.sum_nonneg fun _ _ => sq_nonneg _), sum_range]
    refine Finset.sum_congr rfl fun i _ => ?_
    simp [Real.dist_eq, sq_abs]
  · intro k hk
    rw [hx.2 ⟨k, hk⟩, hy.2 ⟨k, hk⟩]
    simp [hk, sq]

theorem run_ddot_self {n : ℕ} {m : Mem Dbl} {y : Ptr} {b : EuclideanSpace ℝ (Fin n)}
    (hy : HoldsVec m y b) :
    (cblas_ddot n y y).run m = some (Dbl.fin (‖b‖ ^ 2), m) := by
  have h := run_sum (m := m) (N := n) (lo := 0) (s := (lit 0 : Dbl))
    (body := fun i s => do
      let a ← load (y + i)
      let b ← load (y + i)
      pure (s + a * b))
    (fun i => ∑ k ∈ range (i - 0).toNat, (m.val (y + (0 + (k : Int))) * m.val (y + (0 + (k : Int)))))
    (by omega) (by simp [Dbl.zero_eq])
    (fun i h0 h1 => by
      simp only [run_bind, run_load (hy.1 i h0 h1), Option.bind_some, run_pure]
      rw [sumStep (fun i => m.val (y + i) * m.val (y + i)) 0 i h0])
  rw [cblas_ddot, h]
  congr 2
  simp only [sub_zero, Int.toNat_natCast, zero_add]
  rw [finSum n _ (fun k => if hk : k < n then (b ⟨k, hk⟩) ^ 2 else 0)]
  · congr 1
    rw [EuclideanSpace.norm_eq, Real.sq_sqrt (Finset.sum_nonneg fun _ _ => sq_nonneg _), sum_range]
    refine Finset.sum_congr rfl fun i _ => ?_
    simp [sq_abs]
  · intro k hk
    rw [hy.2 ⟨k, hk⟩]
    simp [hk, sq]

/-- `C06`: `l1c_dnrm2_err` is the Euclidean distance. -/
theorem C06_dnrm2_err {n : ℕ} {m : Mem Dbl} {x y : Ptr} {a b : EuclideanSpace ℝ (Fin n)}
    (hx : HoldsVec m x a) (hy : HoldsVec m y b) :
    (l1c_dnrm2_err n x y).run m = some (Dbl.fin (dist a b), m) := by
  simp only [l1c_dnrm2_err, run_bind, run_sqDiff hx hy, Option.bind_some, run_pure]
  rw [Dbl.fsqrt_fin (sq_nonneg _), Real.sqrt_sq dist_nonneg]

/-- `C06`: `l1c_dnrm2_rel_err` is `‖x-y‖/‖y‖`, `+inf` for `y = 0 ≠ x`, NaN for `x = y = 0`. -/
theorem C06_dnrm2_rel_err {n : ℕ} {m : Mem Dbl} {x y : Ptr} {a b : EuclideanSpace ℝ (Fin n)}
    (hx : HoldsVec m x a) (hy : HoldsVec m y b) :
    (l1c_dnrm2_rel_err n x y).run m = some
      (if b ≠ 0 then Dbl.fin (dist a b / ‖b‖) else if a ≠ 0 then Dbl.pinf else Dbl.nan, m) := by
  simp only [l1c_dnrm2_rel_err, run_bind, run_sqDiff hx hy, run_ddot_self hy, Option.bind_some, run_pure]
  congr 2
  by_cases hb : b = 0
  · subst hb
    by_cases ha : a = 0
    · subst ha; simp [Dbl.zero_div_zero]
    · have : 0 < dist a 0 ^ 2 := by have := dist_pos.2 ha; positivity
      rw [norm_zero, zero_pow two_ne_zero, Dbl.pos_div_zero this]
      simp [ha]; rfl
  · have hb' : ‖b‖ ≠ 0 := by simpa using hb
    rw [if_pos hb, Dbl.fin_div (by positivity), Dbl.fsqrt_fin (by positivity), ← div_pow,
      Real.sqrt_sq (by positivity)]

/-- The metric axioms, for the values the function actually returns. -/
theorem C06_metric {n : ℕ} {m : Mem Dbl} {x y z : Ptr} {a b c : EuclideanSpace ℝ (Fin n)}
    (hx : HoldsVec m x a) (hy : HoldsVec m y b) (hz : HoldsVec m z c) :
    ∃ dxy dyx dxz dyz : ℝ,
      (l1c_dnrm2_err n x y).run m = some (Dbl.fin dxy, m) ∧
      (l1c_dnrm2_err n y x).run m = some (Dbl.fin dyx, m) ∧
      (l1c_dnrm2_err n x z).run m = some (Dbl.fin dxz, m) ∧
      (l1c_dnrm2_err n y z).run m = some (Dbl.fin dyz, m) ∧
      0 ≤ dxy ∧ dxy = dyx ∧ dxz ≤ dxy + dyz ∧ (dxy = 0 ↔ ∀ i, a i = b i) :=
  ⟨_, _, _, _, C06_dnrm2_err hx hy, C06_dnrm2_err hy hx, C06_dnrm2_err hx hz, C06_dnrm2_err hy hz,
    dist_nonneg, dist_comm _ _, dist_triangle _ _ _, by
      rw [dist_eq_zero]
      exact ⟨fun h i => by rw [h], fun h => PiLp.ext h⟩⟩

example : ∃ (m : Mem Dbl) (x y : Ptr) (a b : EuclideanSpace ℝ (Fin 2)), HoldsVec m x a ∧ HoldsVec m y b ∧
    a ≠ b ∧ b ≠ 0 :=
  ⟨⟨fun _ => 2, fun p => .fin p.blk⟩, ⟨1, 0⟩, ⟨2, 0⟩, WithLp.toLp 2 fun _ => 1, WithLp.toLp 2 fun _ => 2,
    ⟨by intro i h0 h1; simp [Mem.Ok] at *; omega, by intro i; simp⟩,
    ⟨by intro i h0 h1; simp [Mem.Ok] at *; omega, by intro i; simp⟩,
    fun h => by have := congrFun (congrArg WithLp.ofLp h) 0; norm_num at this,
    fun h => by have := congrFun (congrArg WithLp.ofLp h) 0; norm_num at this⟩

end C06

end L1c
