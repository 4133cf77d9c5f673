import Verif.Model.TV
import Verif.Spec.Image
import Verif.Proofs.MathK

/-! Evaluation of the TV kernels under every interleaving. -/

namespace L1c
open Prog Scalar

variable {F : Type}

theorem idx_bound {n m i j : ℕ} (hi : i < n) (hj : j < m) : i * m + j < n * m := by
  calc i * m + j < i * m + m := by omega
    _ = (i + 1) * m := by ring
    _ ≤ n * m := Nat.mul_le_mul_right m hi

theorem Mem.Has.row {mem : Mem F} {p : Ptr} {n m i : ℕ} (h : mem.Has p ((n * m : ℕ) : Int)) (hi : i < n) :
    mem.Has (p + ((i * m : ℕ) : Int)) m := by
  intro j h0 h1
  rw [Ptr.add_add]
  have : (i * m + j.toNat : ℕ) < n * m := idx_bound hi (by omega)
  refine h _ (by omega) ?_
  have : ((i * m + j.toNat : ℕ) : Int) < ((n * m : ℕ) : Int) := by exact_mod_cast this
  push_cast at *; omega

theorem Mem.setImg_pix (mem : Mem F) (p : Ptr) (n m : ℕ) (f : ℕ → ℕ → F) {i j : ℕ} (hi : i < n) (hj : j < m) :
    (mem.setImg p n m f).pix p m i j = f i j := by
  unfold Mem.setImg Mem.pix
  rw [Mem.setRange_val_in _ _ _ _ _ (by omega) (by exact_mod_cast idx_bound hi hj)]
  have hm : 0 < m := by omega
  have h1 : (i * m + j) / m = i := by
    rw [mul_comm, Nat.mul_add_div hm, Nat.div_eq_of_lt hj, add_zero]
  have h2 : (i * m + j) % m = j := by
    rw [mul_comm, Nat.mul_add_mod, Nat.mod_eq_of_lt hj]
  simp only [Int.toNat_natCast, h1, h2]

@[simp] theorem Mem.setImg_has (mem : Mem F) (p n m f q k) :
    (mem.setImg p n m f).Has q k ↔ mem.Has q k := Iff.rfl
@[simp] theorem Mem.setImg_len (mem : Mem F) (p n m f) : (mem.setImg p n m f).len = mem.len := rfl

theorem Mem.setImg_pix_out (mem : Mem F) (p q : Ptr) (n m : ℕ) (f : ℕ → ℕ → F) {i j : ℕ} (hi : i < n)
    (hj : j < m) (hs : Sep ((n * m : ℕ) : Int) p q) :
    (mem.setImg p n m f).pix q m i j = mem.pix q m i j := by
  unfold Mem.setImg Mem.pix
  apply Mem.setRange_val_out
  rintro ⟨h1, h2, h3⟩
  have hb : ((i * m + j : ℕ) : Int) < ((n * m : ℕ) : Int) := by exact_mod_cast idx_bound hi hj
  refine hs ((q + ((i * m + j : ℕ) : Int)).off - p.off) ((i * m + j : ℕ) : Int) (by omega) (by omega)
    (by omega) hb ?_
  ext
  · simpa using h1.symm
  · simp

theorem Mem.setImg_congr (mem : Mem F) (p : Ptr) (n m : ℕ) (f g : ℕ → ℕ → F)
    (h : ∀ i < n, ∀ j < m, f i j = g i j) : mem.setImg p n m f = mem.setImg p n m g := by
  unfold Mem.setImg
  apply Mem.setRange_congr
  intro k h0 h1
  have hk : k.toNat < n * m := by omega
  have hm : 0 < m := by
    rcases Nat.eq_zero_or_pos m with rfl | h
    · simp at hk
    · exact h
  exact h _ (by rw [Nat.div_lt_iff_lt_mul hm]; exact hk) _ (Nat.mod_lt _ hm)

/-- set a single already written entry again -/
theorem Mem.setRange_overwrite (m : Mem F) (p : Ptr) (n k : Int) (f g : Int → F) (v : F)
    (h0 : 0 ≤ k) (h1 : k < n) (hg : ∀ i, 0 ≤ i → i < n → g i = if i = k then v else f i) :
    (m.setRange p n f).write (p + k) v = m.setRange p n g := by
  ext a
  · rfl
  · rw [Mem.write_val]
    by_cases h : a = p + k
    · subst h
      rw [if_pos rfl, Mem.setRange_val_in _ _ _ _ _ h0 h1, hg k h0 h1, if_pos rfl]
    · rw [if_neg h]
      simp only [Mem.setRange]
      split
      · rename_i hc
        rw [hg _ (by omega) (by omega), if_neg]
        intro e
        apply h
        ext
        · simpa using hc.1
        · simp; omega
      · rfl

/-- **Row-parallel loops.** Iteration `i` turns row `i` of `out` into `g i` and touches nothing else. -/
theorem kspec_rows {n m : ℕ} {body : Int → Prog F Unit} {mem : Mem F} {out : Ptr} {g : ℕ → ℕ → F}
    (R : Set Ptr) (hR : ∀ k < n * m, out + ((k : ℕ) : Int) ∉ R)
    (hfoot : ∀ i < n, Foot {a | ∃ j < m, a = out + ((i * m + j : ℕ) : Int)} R (body (i : Int)))
    (hrun : ∀ i < n, (body (i : Int)).run mem =
      some ((), mem.setRange (out + ((i * m : ℕ) : Int)) m fun j => g i j.toNat)) :
    KSpec (parFor 0 n body) mem (mem.setImg out n m g) := by
  have inj : ∀ {i i' j j' : ℕ}, j < m → j' < m → i * m + j = i' * m + j' → i = i' ∧ j = j' := by
    intro i i' j j' hj hj' e
    have hm : 0 < m := by omega
    have h1 := congrArg (· / m) e
    have h2 := congrArg (· % m) e
    simp only [mul_comm _ m, Nat.mul_add_div hm, Nat.mul_add_mod, Nat.div_eq_of_lt hj,
      Nat.div_eq_of_lt hj', Nat.mod_eq_of_lt hj, Nat.mod_eq_of_lt hj'] at h1 h2
    exact ⟨by omega, h2⟩
  refine KSpec.cons (m₁ := mem.setImg out n m g) (parSpec_of_solo
    (fun i => {a | ∃ j < m, a = out + ((i * m + j : ℕ) : Int)})
    (fun _ => R)
    (fun i hi => ?_) (fun i i' hi hi' hne a ha => ?_) (fun i hi => ?_) rfl (fun a ha => ?_)) (.nil _)
  · simp only [sub_zero, Int.toNat_natCast] at hi
    simpa using hfoot i hi
  · simp only [sub_zero, Int.toNat_natCast] at hi hi'
    obtain ⟨j, hj, rfl⟩ := ha
    refine ⟨?_, ?_⟩
    · rintro ⟨j', hj', e⟩
      rw [Ptr.add_inj] at e
      exact hne (inj hj hj' (by exact_mod_cast e)).1
    · exact hR _ (idx_bound hi hj)
  · simp only [sub_zero, Int.toNat_natCast] at hi
    refine ⟨mem.setRange (out + ((i * m : ℕ) : Int)) m fun j => g i j.toNat, ?_, ?_⟩
    · have := hrun i hi
      simpa only [zero_add] using this
    rintro a ⟨j, hj, rfl⟩
    have h1 : (mem.setImg out n m g).val (out + ((i * m + j : ℕ) : Int)) = g i j :=
      Mem.setImg_pix mem out n m g hi hj
    rw [h1]
    have e : out + ((i * m + j : ℕ) : Int) = out + ((i * m : ℕ) : Int) + (j : Int) := by
      rw [Ptr.add_add]; push_cast; rfl
    rw [e, Mem.setRange_val_in _ _ _ _ _ (by omega) (by omega)]
    simp
  · apply Mem.setRange_val_out
    rintro ⟨h1, h2, h3⟩
    have hm : 0 < m := by
      rcases Nat.eq_zero_or_pos m with rfl | h
      · simp at h3; omega
      · exact h
    have hk : (a.off - out.off).toNat < n * m := by omega
    refine ha ((a.off - out.off).toNat / m) (by
      simp only [sub_zero, Int.toNat_natCast]; rw [Nat.div_lt_iff_lt_mul hm]; exact hk) ?_
    refine ⟨(a.off - out.off).toNat % m, Nat.mod_lt _ hm, ?_⟩
    have : (a.off - out.off).toNat / m * m + (a.off - out.off).toNat % m = (a.off - out.off).toNat :=
      Nat.div_add_mod' _ _
    rw [this]
    ext
    · simpa using h1
    · simp; omega

variable [Scalar F]

/-- forward difference of a single row: `dx[0..n-2]`, then 0 -/
def dRow (alpha : F) (m : ℕ) (x : ℕ → F) (j : ℕ) : F :=
  if j + 1 < m then alpha * (x (j + 1) - x j) else lit 0

/-- transposed difference of a single row -/
def dRowT (alpha : F) (m : ℕ) (x : ℕ → F) (j : ℕ) : F :=
  if j + 1 = m then alpha * x (m - 2)
  else if j = 0 then -alpha * x 0
  else alpha * (x (j - 1) - x j)

/-- second difference of a single row -/
def dRow2 (alpha : F) (m : ℕ) (x : ℕ → F) (j : ℕ) : F :=
  if j + 1 = m then alpha * alpha * (x (m - 1) - x (m - 2))
  else if j = 0 then alpha * alpha * (x 0 - x 1)
  else alpha * alpha * (-x (j - 1) + lit 2 * x j - x (j + 1))

omit [Scalar F] in
/-- reads of `x` are not affected by writes to `dx` -/
theorem setRange_read {mem : Mem F} {x dx : Ptr} {n k i : Int} {f : Int → F} (hs : Sep n dx x)
    (hk : k ≤ n) (h0 : 0 ≤ i) (h1 : i < n) : (mem.setRange dx k f).val (x + i) = mem.val (x + i) := by
  apply Mem.setRange_val_out
  rintro ⟨h2, h3, h4⟩
  simp only [Ptr.add_blk, Ptr.add_off] at h2 h3 h4
  refine hs (x.off + i - dx.off) i (by omega) (by omega) h0 h1 ?_
  ext
  · simp [h2]
  · simp

theorem run_ddiff {m : ℕ} (hm : 1 ≤ m) {alpha : F} {x dx : Ptr} {mem : Mem F} (hx : mem.Has x m)
    (hd : mem.Has dx m) (hs : Sep m dx x) :
    (ddiff_z m alpha x dx).run mem = some ((), mem.setRange dx m fun j =>
      dRow alpha m (fun k => mem.val (x + (k : Int))) j.toNat) := by
  set f : Int → F := fun j => dRow alpha m (fun k => mem.val (x + (k : Int))) j.toNat with hf
  have h1 := run_forUp 1 m (fun i => do
      let a ← load (x + i)
      let b ← load (x + (i - 1))
      store (dx + (i - 1)) (alpha * (a - b)))
    (fun i => mem.setRange dx (i - 1) f) (fun i h0 h1 => by
      have o1 : (mem.setRange dx (i - 1) f).Ok (x + i) := hx i (by omega) (by omega)
      have o2 : (mem.setRange dx (i - 1) f).Ok (x + (i - 1)) := hx _ (by omega) (by omega)
      have o3 : (mem.setRange dx (i - 1) f).Ok (dx + (i - 1)) := hd _ (by omega) (by omega)
      simp only [run_bind, run_load o1, run_load o2, run_store o3, Option.bind_some]
      rw [setRange_read hs (by omega) (by omega) h1, setRange_read hs (by omega) (by omega) (by omega)]
      have e : f (i - 1) = alpha * (mem.val (x + i) - mem.val (x + (i - 1))) := by
        simp only [hf, dRow]
        rw [if_pos (by omega)]
        have e1 : (((i - 1).toNat + 1 : ℕ) : Int) = i := by omega
        have e2 : (((i - 1).toNat : ℕ) : Int) = i - 1 := by omega
        rw [e1, e2]
      rw [← e, Mem.setRange_write _ _ _ f (by omega)]
      congr 3; omega) (by omega)
  simp only [sub_self] at h1
  rw [Mem.setRange_zero _ _ 0 le_rfl] at h1
  have o : (mem.setRange dx ((m : Int) - 1) f).Ok (dx + ((m : Int) - 1)) := hd _ (by omega) (by omega)
  simp only [ddiff_z, run_bind, h1, Option.bind_some, run_store o]
  have e : f ((m : Int) - 1) = lit 0 := by
    simp only [hf, dRow]; rw [if_neg (by omega)]
  rw [← e, Mem.setRange_write _ _ _ f (by omega)]
  congr 3; omega

theorem run_ddiffT {m : ℕ} (hm : 2 ≤ m) {alpha : F} {x dx : Ptr} {mem : Mem F} (hx : mem.Has x m)
    (hd : mem.Has dx m) (hs : Sep m dx x) :
    (ddiffT_z m alpha x dx).run mem = some ((), mem.setRange dx m fun j =>
      dRowT alpha m (fun k => mem.val (x + (k : Int))) j.toNat) := by
  -- the loop writes `f`, the last statement overwrites entry m-1
  set f : Int → F := fun j => if j = 0 then -alpha * mem.val (x + (0 : Int)) else
    alpha * (mem.val (x + (j - 1)) - mem.val (x + j)) with hf
  have h0 : (mem.write (dx + (0 : Int)) (-alpha * mem.val (x + (0 : Int)))) = mem.setRange dx 1 f := by
    have := Mem.setRange_write mem dx 0 f le_rfl
    rw [Mem.setRange_zero _ _ 0 le_rfl] at this
    rw [← this.trans (by norm_num : mem.setRange dx (0 + 1) f = mem.setRange dx 1 f)]
    simp [hf]
  have h1 := run_forUp 1 m (fun i => do
      let a ← load (x + (i - 1))
      let b ← load (x + i)
      store (dx + i) (alpha * (a - b)))
    (fun i => mem.setRange dx i f) (fun i h0 h1 => by
      have o1 : (mem.setRange dx i f).Ok (x + i) := hx i (by omega) (by omega)
      have o2 : (mem.setRange dx i f).Ok (x + (i - 1)) := hx _ (by omega) (by omega)
      have o3 : (mem.setRange dx i f).Ok (dx + i) := hd _ (by omega) (by omega)
      simp only [run_bind, run_load o1, run_load o2, run_store o3, Option.bind_some]
      rw [setRange_read hs (by omega) (by omega) h1, setRange_read hs (by omega) (by omega) (by omega)]
      have e : f i = alpha * (mem.val (x + (i - 1)) - mem.val (x + i)) := by
        simp only [hf]; rw [if_neg (by omega)]
      rw [← e, Mem.setRange_write _ _ _ f (by omega)]) (by omega)
  have o1 : mem.Ok (x + (0 : Int)) := hx 0 le_rfl (by omega)
  have o2 : mem.Ok (dx + (0 : Int)) := hd 0 le_rfl (by omega)
  have o3 : (mem.setRange dx m f).Ok (x + ((m : Int) - 2)) := hx _ (by omega) (by omega)
  have o4 : (mem.setRange dx m f).Ok (dx + ((m : Int) - 1)) := hd _ (by omega) (by omega)
  simp only [ddiffT_z, run_bind, run_load o1, run_store o2, Option.bind_some, h0, h1, run_load o3,
    run_store o4]
  rw [setRange_read hs le_rfl (by omega) (by omega)]
  rw [Mem.setRange_overwrite mem dx m (m - 1) f _ _ (by omega) (by omega)]
  intro i hi0 hi1
  simp only [dRowT, hf]
  by_cases e : i = (m : Int) - 1
  · rw [if_pos (by omega), if_pos e]
    congr 3; omega
  · rw [if_neg (by omega), if_neg e]
    by_cases e0 : i = 0
    · subst e0; simp
    · rw [if_neg (by omega), if_neg e0]
      have e1 : ((i.toNat - 1 : ℕ) : Int) = i - 1 := by omega
      have e2 : ((i.toNat : ℕ) : Int) = i := by omega
      rw [e1, e2]

theorem run_ddiff2 {m : ℕ} (hm : 2 ≤ m) {alpha : F} {x dx : Ptr} {mem : Mem F} (hx : mem.Has x m)
    (hd : mem.Has dx m) (hs : Sep m dx x) :
    (ddiff2_z m alpha x dx).run mem = some ((), mem.setRange dx m fun j =>
      dRow2 alpha m (fun k => mem.val (x + (k : Int))) j.toNat) := by
  set f : Int → F := fun j => dRow2 alpha m (fun k => mem.val (x + (k : Int))) j.toNat with hf
  have h0 : (mem.write (dx + (0 : Int)) (alpha * alpha * (mem.val (x + (0 : Int)) - mem.val (x + (1 : Int)))))
      = mem.setRange dx 1 f := by
    have := Mem.setRange_write mem dx 0 f le_rfl
    rw [Mem.setRange_zero _ _ 0 le_rfl] at this
    rw [← this.trans (by norm_num : mem.setRange dx (0 + 1) f = mem.setRange dx 1 f)]
    simp only [hf, dRow2]
    rw [if_neg (by omega), if_pos (by simp)]
    simp
  have h1 := run_forUp 1 ((m : Int) - 1) (fun i => do
      let a ← load (x + (i - 1))
      let b ← load (x + i)
      let c ← load (x + (i + 1))
      store (dx + i) (alpha * alpha * (-a + lit 2 * b - c)))
    (fun i => mem.setRange dx i f) (fun i h0 h1 => by
      have o1 : (mem.setRange dx i f).Ok (x + i) := hx i (by omega) (by omega)
      have o2 : (mem.setRange dx i f).Ok (x + (i - 1)) := hx _ (by omega) (by omega)
      have o3 : (mem.setRange dx i f).Ok (x + (i + 1)) := hx _ (by omega) (by omega)
      have o4 : (mem.setRange dx i f).Ok (dx + i) := hd _ (by omega) (by omega)
      simp only [run_bind, run_load o1, run_load o2, run_load o3, run_store o4, Option.bind_some]
      rw [setRange_read hs (by omega) (by omega) (by omega), setRange_read hs (by omega) (by omega) (by omega),
        setRange_read hs (by omega) (by omega) (by omega)]
      have e : f i = alpha * alpha * (-mem.val (x + (i - 1)) + lit 2 * mem.val (x + i) - mem.val (x + (i + 1))) := by
        simp only [hf, dRow2]; rw [if_neg (by omega), if_neg (by omega)]
        have e1 : ((i.toNat - 1 : ℕ) : Int) = i - 1 := by omega
        have e2 : ((i.toNat : ℕ) : Int) = i := by omega
        have e3 : ((i.toNat + 1 : ℕ) : Int) = i + 1 := by omega
        rw [e1, e2, e3]
      rw [← e, Mem.setRange_write _ _ _ f (by omega)]) (by omega)
  have o0 : mem.Ok (x + (0 : Int)) := hx 0 le_rfl (by omega)
  have o1 : mem.Ok (x + (1 : Int)) := hx 1 (by omega) (by omega)
  have o2 : mem.Ok (dx + (0 : Int)) := hd 0 le_rfl (by omega)
  have o3 : (mem.setRange dx ((m : Int) - 1) f).Ok (x + ((m : Int) - 1)) := hx _ (by omega) (by omega)
  have o4 : (mem.setRange dx ((m : Int) - 1) f).Ok (x + ((m : Int) - 2)) := hx _ (by omega) (by omega)
  have o5 : (mem.setRange dx ((m : Int) - 1) f).Ok (dx + ((m : Int) - 1)) := hd _ (by omega) (by omega)
  simp only [ddiff2_z, run_bind, run_load o0, run_load o1, run_store o2, Option.bind_some, h0, h1,
    run_load o3, run_load o4, run_store o5]
  rw [setRange_read hs (by omega) (by omega) (by omega), setRange_read hs (by omega) (by omega) (by omega)]
  have e : f ((m : Int) - 1) = alpha * alpha * (mem.val (x + ((m : Int) - 1)) - mem.val (x + ((m : Int) - 2))) := by
    simp only [hf, dRow2]; rw [if_pos (by omega)]
    have e1 : ((m - 1 : ℕ) : Int) = (m : Int) - 1 := by omega
    have e2 : ((m - 2 : ℕ) : Int) = (m : Int) - 2 := by omega
    rw [e1, e2]
  rw [← e, Mem.setRange_write _ _ _ f (by omega)]
  congr 3; omega


omit [Scalar F] in
theorem parFor_shift (lo hi : Int) (body : Int → Prog F Unit) :
    parFor lo hi body = parFor 0 (hi - lo) (fun i => body (lo + i)) := by
  simp [parFor]

theorem fits_row {n m i : ℕ} (hfit : FitsInt ((n : Int) * m)) (hi : i ≤ n) : FitsInt ((i : Int) * m) := by
  have h : (i : Int) * m ≤ (n : Int) * m := by
    have : i * m ≤ n * m := Nat.mul_le_mul_right m hi
    exact_mod_cast this
  have h0 : (0 : Int) ≤ (i : Int) * m := by positivity
  unfold FitsInt at *
  refine ⟨?_, le_trans h hfit.2⟩
  have : INT_MIN ≤ 0 := by unfold INT_MIN; norm_num
  omega

omit [Scalar F] in
theorem Sep.row {n m i : ℕ} {p q : Ptr} (hs : Sep ((n * m : ℕ) : Int) p q) (hi : i < n) :
    Sep m (p + ((i * m : ℕ) : Int)) (q + ((i * m : ℕ) : Int)) := by
  intro a b h0 h1 h2 h3
  rw [Ptr.add_add, Ptr.add_add]
  have k1 : ((i * m + a.toNat : ℕ) : Int) < ((n * m : ℕ) : Int) := by exact_mod_cast idx_bound hi (by omega)
  have k2 : ((i * m + b.toNat : ℕ) : Int) < ((n * m : ℕ) : Int) := by exact_mod_cast idx_bound hi (by omega)
  refine hs _ _ (by positivity) ?_ (by positivity) ?_ <;> push_cast at * <;> omega

section foot
variable {n m i : ℕ} {p q : Ptr}

theorem mem_W {k : Int} (h0 : 0 ≤ k) (h1 : k < m) :
    p + (((i * m : ℕ) : Int) + k) ∈ {a | ∃ j < m, a = p + ((i * m + j : ℕ) : Int)} :=
  ⟨k.toNat, by omega, by push_cast; rw [Int.toNat_of_nonneg h0]⟩

theorem mem_R (hi : i < n) {k : Int} (h0 : 0 ≤ k) (h1 : k < m) :
    p + (((i * m : ℕ) : Int) + k) ∈ {a | ∃ k < n * m, a = p + ((k : ℕ) : Int)} :=
  ⟨i * m + k.toNat, idx_bound hi (by omega), by push_cast; rw [Int.toNat_of_nonneg h0]⟩

theorem foot_ddiff (hm : 1 ≤ m) (hi : i < n) (alpha : F) :
    Foot {a | ∃ j < m, a = q + ((i * m + j : ℕ) : Int)} {a | ∃ k < n * m, a = p + ((k : ℕ) : Int)}
      (ddiff_z m alpha (p + ((i * m : ℕ) : Int)) (q + ((i * m : ℕ) : Int))) := by
  simp only [ddiff_z, Ptr.add_add]
  refine Foot.bind (Foot.forUp fun k h0 h1 => ?_) fun _ => Foot.store (mem_W (by omega) (by omega))
  exact Foot.bind (Foot.load (mem_R hi (by omega) (by omega))) fun _ =>
    Foot.bind (Foot.load (mem_R hi (by omega) (by omega))) fun _ =>
      Foot.store (mem_W (by omega) (by omega))

theorem foot_ddiffT (hm : 2 ≤ m) (hi : i < n) (alpha : F) :
    Foot {a | ∃ j < m, a = q + ((i * m + j : ℕ) : Int)} {a | ∃ k < n * m, a = p + ((k : ℕ) : Int)}
      (ddiffT_z m alpha (p + ((i * m : ℕ) : Int)) (q + ((i * m : ℕ) : Int))) := by
  simp only [ddiffT_z, Ptr.add_add]
  refine Foot.bind (Foot.load (mem_R hi (by omega) (by omega))) fun _ =>
    Foot.bind (Foot.store (mem_W (by omega) (by omega))) fun _ =>
    Foot.bind (Foot.forUp fun k h0 h1 => ?_) fun _ =>
    Foot.bind (Foot.load (mem_R hi (by omega) (by omega))) fun _ => Foot.store (mem_W (by omega) (by omega))
  exact Foot.bind (Foot.load (mem_R hi (by omega) (by omega))) fun _ =>
    Foot.bind (Foot.load (mem_R hi (by omega) (by omega))) fun _ =>
      Foot.store (mem_W (by omega) (by omega))

theorem foot_ddiff2 (hm : 2 ≤ m) (hi : i < n) (alpha : F) :
    Foot {a | ∃ j < m, a = q + ((i * m + j : ℕ) : Int)} {a | ∃ k < n * m, a = p + ((k : ℕ) : Int)}
      (ddiff2_z m alpha (p + ((i * m : ℕ) : Int)) (q + ((i * m : ℕ) : Int))) := by
  simp only [ddiff2_z, Ptr.add_add]
  refine Foot.bind (Foot.load (mem_R hi (by omega) (by omega))) fun _ =>
    Foot.bind (Foot.load (mem_R hi (by omega) (by omega))) fun _ =>
    Foot.bind (Foot.store (mem_W (by omega) (by omega))) fun _ =>
    Foot.bind (Foot.forUp fun k h0 h1 => ?_) fun _ =>
    Foot.bind (Foot.load (mem_R hi (by omega) (by omega))) fun _ =>
    Foot.bind (Foot.load (mem_R hi (by omega) (by omega))) fun _ => Foot.store (mem_W (by omega) (by omega))
  exact Foot.bind (Foot.load (mem_R hi (by omega) (by omega))) fun _ =>
    Foot.bind (Foot.load (mem_R hi (by omega) (by omega))) fun _ =>
    Foot.bind (Foot.load (mem_R hi (by omega) (by omega))) fun _ =>
      Foot.store (mem_W (by omega) (by omega))
end foot

section kernels
variable {n m : ℕ} {alpha : F} {X D : Ptr} {mem : Mem F}

omit [Scalar F] in
/-- a row operator applied to every row in parallel -/
theorem kspec_rowop {op : Int → F → Ptr → Ptr → Prog F Unit} {g : (ℕ → F) → ℕ → F}
    (hfit : FitsInt ((n : Int) * m))
    (hX : mem.Has X ((n * m : ℕ) : Int)) (hD : mem.Has D ((n * m : ℕ) : Int))
    (hs : Sep ((n * m : ℕ) : Int) D X)
    (hfoot : ∀ i < n, Foot {a | ∃ j < m, a = D + ((i * m + j : ℕ) : Int)} {a | ∃ k < n * m, a = X + ((k : ℕ) : Int)}
      (op m alpha (X + ((i * m : ℕ) : Int)) (D + ((i * m : ℕ) : Int))))
    (hrun : ∀ x dx : Ptr, mem.Has x m → mem.Has dx m → Sep m dx x →
      (op m alpha x dx).run mem = some ((), mem.setRange dx m fun j => g (fun k => mem.val (x + (k : Int))) j.toNat)) :
    KSpec (parFor 0 n fun i_row => do
      assert (FitsInt (i_row * (m : Int)))
      op m alpha (X + i_row * (m : Int)) (D + i_row * (m : Int))) mem
      (mem.setImg D n m fun i j => g (mem.pix X m i) j) := by
  refine kspec_rows (g := fun i j => g (mem.pix X m i) j) {a | ∃ k < n * m, a = X + ((k : ℕ) : Int)}
    (fun k hk => ?_) (fun i hi => ?_) (fun i hi => ?_)
  · rintro ⟨l, hl, e⟩
    exact hs _ _ (by omega) (by exact_mod_cast hk) (by omega) (by exact_mod_cast hl) e
  · refine Foot.bind (Foot.assert _) fun _ => ?_
    have := hfoot i hi
    push_cast at this ⊢
    exact this
  · have := hrun (X + ((i * m : ℕ) : Int)) (D + ((i * m : ℕ) : Int)) (hX.row hi) (hD.row hi) (hs.row hi)
    rw [run_bind, run_assert (fits_row hfit hi.le)]
    simp only [Option.bind_some]
    have e : ((i : Int) * m) = ((i * m : ℕ) : Int) := by push_cast; rfl
    rw [e, this]
    congr 3
    funext j
    congr 1
    funext k
    simp only [Mem.pix, Ptr.add_add]
    push_cast; rfl

theorem kspec_Dx (hm : 1 ≤ m) (hfit : FitsInt ((n : Int) * m))
    (hX : mem.Has X ((n * m : ℕ) : Int)) (hD : mem.Has D ((n * m : ℕ) : Int))
    (hs : Sep ((n * m : ℕ) : Int) D X) :
    KSpec (l1c_Dx n m alpha X D) mem (mem.setImg D n m fun i j => dRow alpha m (mem.pix X m i) j) :=
  kspec_rowop (op := ddiff_z) (g := dRow alpha m) hfit hX hD hs (fun _ hi => foot_ddiff hm hi alpha)
    (fun _ _ hx hd hs => run_ddiff hm hx hd hs)

theorem kspec_DxT (hm : 2 ≤ m) (hfit : FitsInt ((n : Int) * m))
    (hX : mem.Has X ((n * m : ℕ) : Int)) (hD : mem.Has D ((n * m : ℕ) : Int))
    (hs : Sep ((n * m : ℕ) : Int) D X) :
    KSpec (l1c_DxT n m alpha X D) mem (mem.setImg D n m fun i j => dRowT alpha m (mem.pix X m i) j) :=
  kspec_rowop (op := ddiffT_z) (g := dRowT alpha m) hfit hX hD hs (fun _ hi => foot_ddiffT hm hi alpha)
    (fun _ _ hx hd hs => run_ddiffT hm hx hd hs)

theorem kspec_DxTDx (hm : 2 ≤ m) (hfit : FitsInt ((n : Int) * m))
    (hX : mem.Has X ((n * m : ℕ) : Int)) (hD : mem.Has D ((n * m : ℕ) : Int))
    (hs : Sep ((n * m : ℕ) : Int) D X) :
    KSpec (l1c_DxTDx n m alpha X D) mem (mem.setImg D n m fun i j => dRow2 alpha m (mem.pix X m i) j) :=
  kspec_rowop (op := ddiff2_z) (g := dRow2 alpha m) hfit hX hD hs (fun _ hi => foot_ddiff2 hm hi alpha)
    (fun _ _ hx hd hs => run_ddiff2 hm hx hd hs)

/-! ### column operators -/

/-- one row of the first loop of `l1c_Dy` -/
theorem run_dyRow {r w : Int} (hw : 0 ≤ w) (hX : ∀ k, r ≤ k → k < r + w + w → mem.Ok (X + k))
    (hD : ∀ k, r ≤ k → k < r + w → mem.Ok (D + k))
    (hs : ∀ k l, r ≤ k → k < r + w → r ≤ l → l < r + w + w → D + k ≠ X + l) :
    (forUp r (r + w) fun col => do
      let a ← load (X + (col + w))
      let b ← load (X + col)
      store (D + col) (alpha * (a - b))).run mem = some ((), mem.setRange (D + r) w fun j =>
        alpha * (mem.val (X + (r + j + w)) - mem.val (X + (r + j)))) := by
  set f : Int → F := fun j => alpha * (mem.val (X + (r + j + w)) - mem.val (X + (r + j))) with hf
  have hrd : ∀ c k, r ≤ k → k < r + w + w → c ≤ w →
      (mem.setRange (D + r) c f).val (X + k) = mem.val (X + k) := by
    intro c k h0 h1 hc
    apply Mem.setRange_val_out
    rintro ⟨h2, h3, h4⟩
    simp only [Ptr.add_blk, Ptr.add_off] at h2 h3 h4
    refine hs (X.off + k - D.off) k (by omega) (by omega) h0 h1 ?_
    ext
    · simp [h2]
    · simp
  have h1 := run_forUp r (r + w) (fun col => do
      let a ← load (X + (col + w))
      let b ← load (X + col)
      store (D + col) (alpha * (a - b)))
    (fun col => mem.setRange (D + r) (col - r) f) (fun k h0 h1 => by
      have o1 : (mem.setRange (D + r) (k - r) f).Ok (X + (k + w)) := hX _ (by omega) (by omega)
      have o2 : (mem.setRange (D + r) (k - r) f).Ok (X + k) := hX _ (by omega) (by omega)
      have o3 : (mem.setRange (D + r) (k - r) f).Ok (D + k) := hD _ (by omega) (by omega)
      simp only [run_bind, run_load o1, run_load o2, run_store o3, Option.bind_some]
      rw [hrd _ _ (by omega) (by omega) (by omega), hrd _ _ (by omega) (by omega) (by omega)]
      have e : f (k - r) = alpha * (mem.val (X + (k + w)) - mem.val (X + k)) := by
        simp only [hf]
        have : r + (k - r) = k := by ring
        rw [this]
      have e2 : D + k = D + r + (k - r) := by rw [Ptr.add_add]; congr 1; ring
      rw [← e, e2, Mem.setRange_write _ _ _ f (by omega)]
      congr 3; ring) (by omega)
  simp only [sub_self, add_sub_cancel_left] at h1
  rwa [Mem.setRange_zero _ _ 0 le_rfl] at h1

theorem kspec_Dy (hn : 1 ≤ n) (hfit : FitsInt ((n : Int) * m))
    (hX : mem.Has X ((n * m : ℕ) : Int)) (hD : mem.Has D ((n * m : ℕ) : Int))
    (hs : Sep ((n * m : ℕ) : Int) D X) :
    KSpec (l1c_Dy n m alpha X D) mem (mem.setImg D n m fun i j =>
      if i + 1 < n then alpha * (mem.pix X m (i + 1) j - mem.pix X m i j) else lit 0) := by
  obtain ⟨n, rfl⟩ : ∃ n', n = n' + 1 := ⟨n - 1, by omega⟩
  have hnm : (n * m : ℕ) ≤ (n + 1) * m := Nat.mul_le_mul_right m (by omega)
  have hnm' : (n + 1) * m = n * m + m := by ring
  have hnm'Z : (((n + 1) * m : ℕ) : Int) = ((n * m : ℕ) : Int) + m := by rw [hnm']; push_cast; rfl
  set g : ℕ → ℕ → F := fun i j => alpha * (mem.pix X m (i + 1) j - mem.pix X m i j) with hg
  have hrow : ∀ i < n, ((i * m : ℕ) : Int) + m ≤ ((n * m : ℕ) : Int) := by
    intro i hi
    have : (i + 1) * m ≤ n * m := Nat.mul_le_mul_right m hi
    have h2 : i * m + m ≤ n * m := by linarith
    exact_mod_cast h2
  -- phase 1
  have h1 : KSpec (parFor 0 (n : Int) fun row => do
      assert (FitsInt ((row + 1) * (m : Int)))
      forUp (row * (m : Int)) ((row + 1) * (m : Int)) fun col => do
        let a ← load (X + (col + (m : Int)))
        let b ← load (X + col)
        store (D + col) (alpha * (a - b))) mem (mem.setImg D n m g) := by
    refine kspec_rows (g := g) {a | ∃ k < (n + 1) * m, a = X + ((k : ℕ) : Int)}
      (fun k hk => ?_) (fun i hi => ?_) (fun i hi => ?_)
    · rintro ⟨l, hl, e⟩
      exact hs _ _ (by omega) (by exact_mod_cast hk.trans_le hnm) (by omega) (by exact_mod_cast hl) e
    · have e1 : ((i : Int) + 1) * (m : Int) = ((i * m : ℕ) : Int) + m := by push_cast; ring
      have e0 : ((i : Int)) * (m : Int) = ((i * m : ℕ) : Int) := by push_cast; ring
      refine Foot.bind (Foot.assert _) fun _ => ?_
      rw [e1, e0]
      refine Foot.forUp fun k h0 h1 => ?_
      have hk : k = ((i * m : ℕ) : Int) + (k - ((i * m : ℕ) : Int)) := by ring
      have hk' : k + (m : Int) = (((i + 1) * m : ℕ) : Int) + (k - ((i * m : ℕ) : Int)) := by push_cast; ring
      refine Foot.bind (Foot.load ?_) fun _ => Foot.bind (Foot.load ?_) fun _ => Foot.store ?_
      · rw [hk']; exact mem_R (by omega) (by omega) (by omega)
      · rw [hk]; exact mem_R (by omega) (by omega) (by omega)
      · rw [hk]; exact mem_W (by omega) (by omega)
    · have e1 : ((i : Int) + 1) * (m : Int) = ((i * m : ℕ) : Int) + m := by push_cast; ring
      have e0 : ((i : Int)) * (m : Int) = ((i * m : ℕ) : Int) := by push_cast; ring
      have hfit' : FitsInt (((i : Int) + 1) * (m : Int)) := by
        have := fits_row (i := i + 1) hfit (by omega)
        push_cast at this; exact this
      have hr := hrow i hi
      rw [run_bind, run_assert hfit', Option.bind_some, e1, e0,
        run_dyRow (by omega) (fun k h0 h1 => hX k (by omega) (by omega))
          (fun k h0 h1 => hD k (by omega) (by omega))
          (fun k l h0 h1 h2 h3 => hs k l (by omega) (by omega) (by omega) (by omega))]
      congr 2
      refine Mem.setRange_congr _ _ _ _ _ fun j h0 h1 => ?_
      simp only [hg, Mem.pix]
      have a1 : (((i + 1) * m + j.toNat : ℕ) : Int) = ((i * m : ℕ) : Int) + j + m := by
        push_cast; rw [Int.toNat_of_nonneg h0]; ring
      have a2 : ((i * m + j.toNat : ℕ) : Int) = ((i * m : ℕ) : Int) + j := by
        push_cast; rw [Int.toNat_of_nonneg h0]
      rw [a1, a2]
  have h2 : KSpec (seqK (assert (FitsInt (((n + 1 : ℕ) : Int) * (m : Int))))) (mem.setImg D n m g)
      (mem.setImg D n m g) := kspec_seq (run_assert hfit _)
  have e3 : (((n + 1 : ℕ) : Int) - 1) * (m : Int) = ((n * m : ℕ) : Int) := by push_cast; ring
  have e4 : ((n + 1 : ℕ) : Int) * (m : Int) = ((n * m : ℕ) : Int) + m := by push_cast; ring
  have h3 : KSpec (parFor ((n * m : ℕ) : Int) (((n * m : ℕ) : Int) + m) fun i => store (D + i) (lit 0))
      (mem.setImg D n m g) ((mem.setImg D n m g).setRange (D + ((n * m : ℕ) : Int)) m fun _ => lit 0) := by
    rw [parFor_shift, add_sub_cancel_left]
    refine kspec_elementwise (fun _ => ∅) (fun i h0 h1 => ?_) (fun i j h0 h1 h2 h3 h4 => by simp)
      (fun i h0 h1 => ?_)
    · rw [← Ptr.add_add]; exact Foot.store rfl
    · have o : (mem.setImg D n m g).Ok (D + (((n * m : ℕ) : Int) + i)) := hD _ (by omega) (by omega)
      exact ⟨_, run_store o, by rw [Ptr.add_add]; simp [Mem.write_val]⟩
  have h123 := (h1.append h2).append h3
  have e5 : (((n + 1 : ℕ) : Int) - 1) = (n : Int) := by push_cast; ring
  unfold l1c_Dy
  rw [e3, e5]
  rw [← e4] at h123
  convert h123 using 1
  -- the two descriptions of the final memory agree
  ext a
  · rfl
  · by_cases hin : a.blk = D.blk ∧ D.off ≤ a.off ∧ a.off < D.off + (((n + 1) * m : ℕ) : Int)
    · obtain ⟨hb, h0, h1⟩ := hin
      have hm : 0 < m := by
        rcases Nat.eq_zero_or_pos m with rfl | h
        · simp at h1; omega
        · exact h
      obtain ⟨k, hk⟩ : ∃ k : ℕ, a = D + (k : Int) :=
        ⟨(a.off - D.off).toNat, by ext <;> simp [hb]; omega⟩
      subst hk
      simp only [Ptr.add_off] at h1
      have hk : k < (n + 1) * m := by omega
      have hk' : (k : Int) < (((n + 1) * m : ℕ) : Int) := by exact_mod_cast hk
      rw [Mem.setImg, Mem.setRange_val_in _ _ _ _ _ (by omega) hk']
      simp only [Int.toNat_natCast]
      by_cases hlt : k < n * m
      · have : k / m < n := by rw [Nat.div_lt_iff_lt_mul hm]; exact hlt
        rw [if_pos (by omega), Mem.setRange_val_out, Mem.setImg,
          Mem.setRange_val_in _ _ _ _ _ (by omega) (by exact_mod_cast hlt)]
        · simp [hg]
        · simp only [Ptr.add_blk, Ptr.add_off]; omega
      · have : ¬ k / m + 1 < n + 1 := by
          rw [not_lt, Nat.succ_le_succ_iff, Nat.le_div_iff_mul_le hm]; omega
        rw [if_neg this]
        have ek : D + (k : Int) = D + ((n * m : ℕ) : Int) + ((k : Int) - ((n * m : ℕ) : Int)) := by
          rw [Ptr.add_add]; congr 1; ring
        rw [ek, Mem.setRange_val_in _ _ _ _ _ (by omega) (by omega)]
    · rw [Mem.setImg, Mem.setRange_val_out _ _ _ _ _ hin, Mem.setRange_val_out, Mem.setImg,
        Mem.setRange_val_out]
      · rintro ⟨h1, h2, h3⟩; exact hin ⟨h1, h2, by omega⟩
      · simp only [Ptr.add_blk, Ptr.add_off]
        rintro ⟨h1, h2, h3⟩; exact hin ⟨h1, by omega, by omega⟩

/-- stencil of `l1c_DyT` -/
def dColT (alpha : F) (n : ℕ) (A : ℕ → ℕ → F) (i j : ℕ) : F :=
  alpha * ((if i = 0 then lit 0 else A (i - 1) j) - (if i + 1 < n then A i j else lit 0))

/-- stencil of `l1c_DyTDy` -/
def dCol2 (alpha : F) (n : ℕ) (A : ℕ → ℕ → F) (i j : ℕ) : F :=
  alpha * alpha * (-(if i = 0 then lit 0 else A (i - 1) j)
    + (if i = 0 ∨ i + 1 = n then A i j else lit 2 * A i j)
    - (if i + 1 < n then A (i + 1) j else lit 0))

theorem kspec_DyT (hfit : FitsInt ((n : Int) * m))
    (hX : mem.Has X ((n * m : ℕ) : Int)) (hD : mem.Has D ((n * m : ℕ) : Int))
    (hs : Sep ((n * m : ℕ) : Int) D X) :
    KSpec (l1c_DyT n m alpha X D) mem (mem.setImg D n m (dColT alpha n (mem.pix X m))) := by
  have enm : (n : Int) * (m : Int) = ((n * m : ℕ) : Int) := by push_cast; rfl
  have en1 : ((n : Int) - 1) * (m : Int) = ((n * m : ℕ) : Int) - m := by push_cast; ring
  refine KSpec.append (kspec_seq (run_assert hfit mem)) ?_
  rw [enm, en1]
  refine kspec_elementwise (fun _ => {a | ∃ k, 0 ≤ k ∧ k < ((n * m : ℕ) : Int) ∧ a = X + k})
    (fun i h0 h1 => ?_) (fun i j h0 h1 h2 h3 h4 => ?_) (fun i h0 h1 => ?_)
  · refine Foot.bind ?_ fun _ => Foot.bind ?_ fun _ => Foot.store rfl
    · split
      · exact Foot.load ⟨_, by omega, by omega, rfl⟩
      · exact Foot.pure _
    · split
      · exact Foot.pure _
      · exact Foot.load ⟨_, by omega, by omega, rfl⟩
  · rintro ⟨k, hk0, hk1, e⟩
    exact hs i k h0 h1 hk0 hk1 e
  · have hm : 0 < m := by
      rcases Nat.eq_zero_or_pos m with rfl | h
      · simp at h1; omega
      · exact h
    obtain ⟨k, rfl⟩ : ∃ k : ℕ, i = k := ⟨i.toNat, by omega⟩
    have hk : k < n * m := by exact_mod_cast h1
    have hdm := Nat.div_add_mod' k m
    have hlast : (k : Int) < ((n * m : ℕ) : Int) - m ↔ k / m + 1 < n := by
      rw [← Nat.add_one_le_iff (n := k / m + 1), show k / m + 1 + 1 = (k + m) / m + 1 by
        rw [Nat.add_div_right _ hm], Nat.add_one_le_iff, Nat.div_lt_iff_lt_mul hm]
      omega
    have hfirst : (k : Int) < m ↔ k / m = 0 := by
      rw [Nat.div_eq_zero_iff]; omega
    have o1 : mem.Ok (X + (k : Int)) := hX _ h0 h1
    have oD : mem.Ok (D + (k : Int)) := hD _ h0 h1
    refine ⟨mem.write (D + (k : Int)) (dColT alpha n (mem.pix X m) (k / m) (k % m)), ?_, ?_⟩
    · have hA : ∀ v : F, (if k / m + 1 < n then load (X + (k : Int)) else pure (lit 0) : Prog F F).run mem
          = some (if k / m + 1 < n then mem.pix X m (k / m) (k % m) else lit 0, mem) := by
        intro _
        split
        · rw [run_load o1, Mem.pix, hdm]
        · rfl
      have hB : (if k / m = 0 then pure (lit 0) else load (X + ((k : Int) - (m : Int))) : Prog F F).run mem
          = some (if k / m = 0 then lit 0 else mem.pix X m (k / m - 1) (k % m), mem) := by
        by_cases hz : k / m = 0
        · rw [if_pos hz, if_pos hz]; rfl
        · rw [if_neg hz, if_neg hz]
          have hge : ¬ (k : Int) < m := by rw [hfirst]; exact hz
          rw [run_load (hX _ (by omega) (by omega)), Mem.pix]
          have : ((((k / m - 1) * m + k % m : ℕ)) : Int) = (k : Int) - m := by
            have h2 : m ≤ k / m * m := Nat.le_mul_of_pos_left m (Nat.pos_of_ne_zero hz)
            have : (k / m - 1) * m = k / m * m - m := by rw [Nat.sub_mul, one_mul]
            omega
          rw [this]
      simp only [hlast, hfirst]
      simp only [run_bind, hA (lit 0), hB, Option.bind_some, run_store oD]
      rfl
    · simp [Mem.write_val]

theorem kspec_DyTDy (hfit : FitsInt ((n : Int) * m))
    (hX : mem.Has X ((n * m : ℕ) : Int)) (hD : mem.Has D ((n * m : ℕ) : Int))
    (hs : Sep ((n * m : ℕ) : Int) D X) :
    KSpec (l1c_DyTDy n m alpha X D) mem (mem.setImg D n m (dCol2 alpha n (mem.pix X m))) := by
  have enm : (n : Int) * (m : Int) = ((n * m : ℕ) : Int) := by push_cast; rfl
  have en1 : (m : Int) * ((n : Int) - 1) - 1 = ((n * m : ℕ) : Int) - m - 1 := by push_cast; ring
  refine KSpec.append (kspec_seq (run_assert hfit mem)) ?_
  rw [enm, en1]
  refine kspec_elementwise (fun _ => {a | ∃ k, 0 ≤ k ∧ k < ((n * m : ℕ) : Int) ∧ a = X + k})
    (fun i h0 h1 => ?_) (fun i j h0 h1 h2 h3 h4 => ?_) (fun i h0 h1 => ?_)
  · refine Foot.bind ?_ fun _ => Foot.bind ?_ fun _ => Foot.bind ?_ fun _ => Foot.store rfl
    · split
      · exact Foot.pure _
      · exact Foot.load ⟨_, by omega, by omega, rfl⟩
    · split
      · exact Foot.load ⟨_, by omega, by omega, rfl⟩
      · exact Foot.bind (Foot.load ⟨_, by omega, by omega, rfl⟩) fun _ => Foot.pure _
    · split
      · exact Foot.load ⟨_, by omega, by omega, rfl⟩
      · exact Foot.pure _
  · rintro ⟨k, hk0, hk1, e⟩
    exact hs i k h0 h1 hk0 hk1 e
  · have hm : 0 < m := by
      rcases Nat.eq_zero_or_pos m with rfl | h
      · simp at h1; omega
      · exact h
    obtain ⟨k, rfl⟩ : ∃ k : ℕ, i = k := ⟨i.toNat, by omega⟩
    have hk : k < n * m := by exact_mod_cast h1
    have hkn : k / m < n := by rw [Nat.div_lt_iff_lt_mul hm]; exact hk
    have hdm := Nat.div_add_mod' k m
    have hlast : (k : Int) < ((n * m : ℕ) : Int) - m ↔ k / m + 1 < n := by
      rw [← Nat.add_one_le_iff (n := k / m + 1), show k / m + 1 + 1 = (k + m) / m + 1 by
        rw [Nat.add_div_right _ hm], Nat.add_one_le_iff, Nat.div_lt_iff_lt_mul hm]
      omega
    have hlast' : (k : Int) > ((n * m : ℕ) : Int) - m - 1 ↔ k / m + 1 = n := by
      constructor
      · intro h
        by_contra hc
        have := hlast.2 (by omega)
        omega
      · intro h
        by_contra hc
        have := hlast.1 (by omega)
        omega
    have hfirst : (k : Int) < m ↔ k / m = 0 := by
      rw [Nat.div_eq_zero_iff]; omega
    have o1 : mem.Ok (X + (k : Int)) := hX _ h0 h1
    have oD : mem.Ok (D + (k : Int)) := hD _ h0 h1
    have hpix : mem.pix X m (k / m) (k % m) = mem.val (X + (k : Int)) := by rw [Mem.pix, hdm]
    refine ⟨mem.write (D + (k : Int)) (dCol2 alpha n (mem.pix X m) (k / m) (k % m)), ?_, ?_⟩
    · have hA : (if k / m + 1 < n then load (X + ((k : Int) + (m : Int))) else pure (lit 0) : Prog F F).run mem
          = some (if k / m + 1 < n then mem.pix X m (k / m + 1) (k % m) else lit 0, mem) := by
        by_cases hz : k / m + 1 < n
        · rw [if_pos hz, if_pos hz]
          have hge := hlast.2 hz
          rw [run_load (hX _ (by omega) (by omega)), Mem.pix]
          have : ((((k / m + 1) * m + k % m : ℕ)) : Int) = (k : Int) + m := by
            have : (k / m + 1) * m = k / m * m + m := by ring
            omega
          rw [this]
        · rw [if_neg hz, if_neg hz]; rfl
      have hB : (if k / m = 0 then pure (lit 0) else load (X + ((k : Int) - (m : Int))) : Prog F F).run mem
          = some (if k / m = 0 then lit 0 else mem.pix X m (k / m - 1) (k % m), mem) := by
        by_cases hz : k / m = 0
        · rw [if_pos hz, if_pos hz]; rfl
        · rw [if_neg hz, if_neg hz]
          have hge : ¬ (k : Int) < m := by rw [hfirst]; exact hz
          rw [run_load (hX _ (by omega) (by omega)), Mem.pix]
          have : ((((k / m - 1) * m + k % m : ℕ)) : Int) = (k : Int) - m := by
            have h2 : m ≤ k / m * m := Nat.le_mul_of_pos_left m (Nat.pos_of_ne_zero hz)
            have : (k / m - 1) * m = k / m * m - m := by rw [Nat.sub_mul, one_mul]
            omega
          rw [this]
      have hC : (if k / m = 0 ∨ k / m + 1 = n then load (X + (k : Int)) else
            load (X + (k : Int)) >>= fun a => pure (lit 2 * a) : Prog F F).run mem
          = some (if k / m = 0 ∨ k / m + 1 = n then mem.pix X m (k / m) (k % m)
              else lit 2 * mem.pix X m (k / m) (k % m), mem) := by
        split
        · rw [run_load o1, hpix]
        · rw [run_bind, run_load o1, hpix]; rfl
      simp only [hlast, hfirst, hlast']
      simp only [run_bind, hA, hB, hC, Option.bind_some, run_store oD]
      rfl
    · simp [Mem.write_val]
end kernels

end L1c
