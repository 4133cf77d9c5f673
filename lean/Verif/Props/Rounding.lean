import Verif.Proofs.Rounding
import Verif.Proofs.Binary64
import Verif.Props.VecMath

/-!
# Property C71: rounding errors of the vector kernels

`M : FpModel F` is any arithmetic with unit roundoff `M.u` and underflow unit `M.w`; `M.gam k = (1+u)^k - 1`.  IEEE binary64 is one
(`b64Model`, `u = 2^-53`, `w = 2^-1075`).  Every theorem is about the value the kernel returns when that value is finite.
-/

namespace L1c
open Prog Scalar Finset

section
variable {F : Type} [Scalar F] (M : FpModel F)

/-- plain sum: at most `N` roundings per term -/
theorem C71_dsum (N : Int) (x : Ptr) (m : Mem F) (hx : m.Has x N) :
    ∃ s, (l1c_dsum N x).run m = some (s, m) ∧ (M.fin s →
      |M.val s - ∑ k ∈ range N.toNat, M.val (m.val (x + (k : Int)))| ≤ M.gam N.toNat * ∑ k ∈ range N.toNat, |M.val (m.val (x + (k : Int)))|) := by
  obtain ⟨s, h1, h2⟩ := run_sum_within (M := M) (N := N) (m := m) (body := fun i sum => do let v ← load (x + i); pure (sum + v))
    (fun k => m.val (x + (k : Int))) (fun k => M.val (m.val (x + (k : Int)))) (fun k => |M.val (m.val (x + (k : Int)))|) 0 0
    (fun k hk t => by simp only [run_bind, run_load (hx k (by omega) hk), Option.bind_some, run_pure])
    (fun k _ _ => FpModel.Within.exact _)
  exact ⟨s, h1, fun hf => by simpa using (h2 hf).2⟩

/-- 1-norm; absolute values are exact -/
theorem C71_dnorm1 (N : Int) (x : Ptr) (m : Mem F) (hx : m.Has x N) :
    ∃ s, (l1c_dnorm1 N x).run m = some (s, m) ∧ (M.fin s →
      |M.val s - (∑ k ∈ range N.toNat, |M.val (m.val (x + (k : Int)))| )| ≤ M.gam N.toNat * ∑ k ∈ range N.toNat, |M.val (m.val (x + (k : Int)))|) := by
  obtain ⟨s, h1, h2⟩ := run_sum_within (M := M) (N := N) (m := m) (body := fun i sum => do let v ← load (x + i); pure (sum + fabs v))
    (fun k => fabs (m.val (x + (k : Int)))) (fun k => |M.val (m.val (x + (k : Int)))|) (fun k => |M.val (m.val (x + (k : Int)))|) 0 0
    (fun k hk t => by simp only [run_bind, run_load (hx k (by omega) hk), Option.bind_some, run_pure])
    (fun k _ hf => FpModel.Within.abs _ hf)
  exact ⟨s, h1, fun hf => by simpa using (h2 hf).2⟩

/-- inner product -/
theorem C71_ddot (N : Int) (x y : Ptr) (m : Mem F) (hx : m.Has x N) (hy : m.Has y N) :
    ∃ s, (cblas_ddot N x y).run m = some (s, m) ∧ (M.fin s →
      |M.val s - ∑ k ∈ range N.toNat, M.val (m.val (x + (k : Int))) * M.val (m.val (y + (k : Int)))| ≤
        M.gam (1 + N.toNat) * ∑ k ∈ range N.toNat, |M.val (m.val (x + (k : Int))) * M.val (m.val (y + (k : Int)))| +
          (1 + M.u) ^ (1 + N.toNat) * (N.toNat * M.w)) := by
  obtain ⟨s, h1, h2⟩ := run_sum_within (M := M) (N := N) (m := m)
    (body := fun i s => do let a ← load (x + i); let b ← load (y + i); pure (s + a * b))
    (fun k => m.val (x + (k : Int)) * m.val (y + (k : Int))) (fun k => M.val (m.val (x + (k : Int))) * M.val (m.val (y + (k : Int))))
    (fun k => |M.val (m.val (x + (k : Int))) * M.val (m.val (y + (k : Int)))|) 1 1
    (fun k hk t => by simp only [run_bind, run_load (hx k (by omega) hk), run_load (hy k (by omega) hk), Option.bind_some, run_pure])
    (fun k _ hf => FpModel.Within.mul _ _ hf)
  exact ⟨s, h1, fun hf => by simpa using (h2 hf).2⟩

/-- distance of two vectors -/
theorem C71_dnrm2_err (N : Int) (x y : Ptr) (m : Mem F) (hx : m.Has x N) (hy : m.Has y N) :
    ∃ s, (l1c_dnrm2_err N x y).run m = some (s, m) ∧ (M.fin s →
      |M.val s - √(∑ k ∈ range N.toNat, (M.val (m.val (x + (k : Int))) - M.val (m.val (y + (k : Int)))) ^ 2)| ≤
        M.gam (N.toNat + 4) * √(∑ k ∈ range N.toNat, (M.val (m.val (x + (k : Int))) - M.val (m.val (y + (k : Int)))) ^ 2) +
          (1 + M.u) * √((1 + M.u) ^ (N.toNat + 3) * (N.toNat * M.w))) := by
  obtain ⟨s, h1, h2⟩ := run_sum_within (M := M) (N := N) (m := m)
    (body := fun i nrm => do let a ← load (x + i); let b ← load (y + i); let diff := a - b; pure (nrm + diff * diff))
    (fun k => (m.val (x + (k : Int)) - m.val (y + (k : Int))) * (m.val (x + (k : Int)) - m.val (y + (k : Int))))
    (fun k => (M.val (m.val (x + (k : Int))) - M.val (m.val (y + (k : Int)))) ^ 2)
    (fun k => (M.val (m.val (x + (k : Int))) - M.val (m.val (y + (k : Int)))) ^ 2) 3 1
    (fun k hk t => by simp only [run_bind, run_load (hx k (by omega) hk), run_load (hy k (by omega) hk), Option.bind_some, run_pure])
    (fun k _ hf => FpModel.Within.sqdiff _ _ hf)
  refine ⟨fsqrt s, ?_, fun hf => ?_⟩
  · have : (sqDiffLoop N x y).run m = some (s, m) := h1
    simp only [l1c_dnrm2_err, run_bind, this, Option.bind_some, run_pure]
  · have := FpModel.Within.sqrt (h2 (M.sqrt hf).1) hf
    rw [show 3 + N.toNat = N.toNat + 3 by ring, one_mul] at this
    exact this

/-- four-lane sum: about `N/4` roundings per term -/
theorem C71_vcl_sum (N : Int) (hfit : FitsInt N) (x : Ptr) (m : Mem F) (hx : m.Has x N) :
    ∃ s, (vcl_sum N x).run m = some (s, m) ∧ (M.fin s →
      |M.val s - ∑ k ∈ range N.toNat, M.val (m.val (x + (k : Int)))| ≤
        M.gam (max (N.toNat / 4 + 2) (N.toNat % 4) + 1) * ∑ k ∈ range N.toNat, |M.val (m.val (x + (k : Int)))|) := by
  obtain ⟨s, h1, h2⟩ := blocked_within (M := M) N hfit x m hx id
  exact ⟨s, h1, fun hf => by simpa using (h2 hf).2⟩

/-- four-lane sum of logarithms, relative to the computed logarithms -/
theorem C71_vcl_logsum (N : Int) (hfit : FitsInt N) (alpha : F) (x : Ptr) (m : Mem F) (hx : m.Has x N) :
    ∃ s, (vcl_logsum N alpha x).run m = some (s, m) ∧ (M.fin s →
      |M.val s - ∑ k ∈ range N.toNat, M.val (flog (m.val (x + (k : Int)) * alpha))| ≤
        M.gam (max (N.toNat / 4 + 2) (N.toNat % 4) + 1) * ∑ k ∈ range N.toNat, |M.val (flog (m.val (x + (k : Int)) * alpha))|) := by
  obtain ⟨s, h1, h2⟩ := blocked_within (M := M) N hfit x m hx (fun v => flog (v * alpha))
  exact ⟨s, h1, fun hf => by simpa using (h2 hf).2⟩

/-- threaded sum of logarithms, for every distribution of the iterations over threads in which no thread has more than `L` of them -/
theorem C71_dlogsum (N : Int) (sched : List (List Int)) (hs : ValidSched N sched) (L : ℕ) (hL : ∀ c ∈ sched, c.length ≤ L) (alpha : F)
    (x : Ptr) (m : Mem F) (hx : m.Has x N) :
    ∃ s, (l1c_dlogsum sched alpha x).run m = some (s, m) ∧ (M.fin s →
      |M.val s - ∑ k ∈ range N.toNat, M.val (flog (alpha * m.val (x + (k : Int))))| ≤
        M.gam (L + sched.length) * ∑ k ∈ range N.toNat, |M.val (flog (alpha * m.val (x + (k : Int))))|) := by
  have hok : ∀ i ∈ sched.flatten, m.Ok (x + i) := by
    intro i hi
    have := (hs.mem_iff).1 hi
    simp only [List.mem_map, List.mem_range] at this
    obtain ⟨k, hk, rfl⟩ := this
    exact hx _ (by simp) (by simp only [Int.ofNat_eq_natCast]; omega)
  have key : ∀ f : Int → ℝ, (sched.flatten.map f).sum = ∑ k ∈ range N.toNat, f (k : Int) := by
    intro f
    rw [(hs.map f).sum_eq, List.map_map, Finset.sum_range, ← List.sum_ofFn, List.ofFn_eq_map]
    congr 1
    rw [← List.map_coe_finRange_eq_range, List.map_map]
    rfl
  obtain ⟨t, h1, h2⟩ := sched_within (M := M) alpha x m L sched hL hok 0 (lit 0) 0 0 (fun _ => FpModel.Within.zero.mono (Nat.zero_le _) le_rfl)
  refine ⟨t, h1, fun hf => ?_⟩
  have := (h2 hf).2
  rw [key (fun i => M.val (flog (alpha * m.val (x + i)))), key (fun i => |M.val (flog (alpha * m.val (x + i)))|)] at this
  simpa using this

/-- `z = alpha*x + beta*y`, every interleaving: each finite component is right up to two roundings per product -/
theorem C71_daxpby_z (N : Int) (alpha beta : F) (x y z : Ptr) (m : Mem F) (hx : m.Has x N) (hy : m.Has y N) (hz : m.Has z N)
    (hzx : NoCross N z x) (hzy : NoCross N z y) :
    ∃ m', KSpec (l1c_daxpby_z N alpha x beta y z) m m' ∧ ∀ i, 0 ≤ i → i < N → M.fin (m'.val (z + i)) →
      |M.val (m'.val (z + i)) - (M.val alpha * M.val (m.val (x + i)) + M.val beta * M.val (m.val (y + i)))| ≤
        M.gam 2 * (|M.val alpha * M.val (m.val (x + i))| + |M.val beta * M.val (m.val (y + i))|) + (1 + M.u) ^ 2 * (2 * M.w) := by
  refine ⟨_, C03_daxpby_z N alpha beta x y z m hx hy hz hzx hzy, fun i h0 h1 hf => ?_⟩
  rw [Mem.setRange_val_in _ _ _ _ _ h0 h1] at hf ⊢
  obtain ⟨fa, fb, -⟩ := M.add hf
  have := (FpModel.Within.add (FpModel.Within.mul _ _ fa) (FpModel.Within.mul _ _ fb) hf).2
  simpa using this

/-- any order of summation whatever (a BLAS may choose its own): the number of roundings is the depth of the order -/
theorem C71_any_order (t : SumTree F) (hf : M.fin t.eval) :
    |M.val t.eval - (t.leaves.map M.val).sum| ≤ M.gam t.depth * (t.leaves.map fun a => |M.val a|).sum := by
  simpa using (FpModel.Within.tree t hf).2

/-- two orders of the same terms -/
theorem C71_orders_agree (t t' : SumTree F) (hp : t.leaves.Perm t'.leaves) (hf : M.fin t.eval) (hf' : M.fin t'.eval) :
    |M.val t.eval - M.val t'.eval| ≤ (M.gam t.depth + M.gam t'.depth) * (t.leaves.map fun a => |M.val a|).sum := by
  have h1 := C71_any_order M t hf
  have h2 := C71_any_order M t' hf'
  rw [← (hp.map M.val).sum_eq, ← (hp.map fun a => |M.val a|).sum_eq] at h2
  have := abs_sub_le (M.val t.eval) (t.leaves.map M.val).sum (M.val t'.eval)
  rw [abs_sub_comm (M.val t'.eval)] at h2
  linarith

end

/-! ## binary64 -/

/-- the plain and the four-lane sum of `N` binary64 numbers, compared -/
theorem C71_binary64 (N : Int) (hfit : FitsInt N) (x : Ptr) (m : Mem B64) (hx : m.Has x N) :
    ∃ s t, (l1c_dsum N x).run m = some (s, m) ∧ (vcl_sum N x).run m = some (t, m) ∧ (s.IsFin → t.IsFin →
      |s.toReal - t.toReal| ≤ (((1 + 2 ^ (-53 : ℤ)) ^ N.toNat - 1) + ((1 + 2 ^ (-53 : ℤ)) ^ (max (N.toNat / 4 + 2) (N.toNat % 4) + 1) - 1)) *
        ∑ k ∈ range N.toNat, |(m.val (x + (k : Int))).toReal|) := by
  obtain ⟨s, h1, h2⟩ := C71_dsum b64Model N x m hx
  obtain ⟨t, h3, h4⟩ := C71_vcl_sum b64Model N hfit x m hx
  refine ⟨s, t, h1, h3, fun hs ht => ?_⟩
  have a := h2 hs
  have b := h4 ht
  have := abs_sub_le s.toReal (∑ k ∈ range N.toNat, (m.val (x + (k : Int))).toReal) t.toReal
  rw [abs_sub_comm] at b
  rw [add_mul]
  exact this.trans (add_le_add a b)

theorem rnd_of_int (x : ℝ) (n : ℤ) (hx : 0 ≤ x) (h : x / ulp x = n) : rnd x = x := by
  unfold rnd rndPos
  rw [if_neg (not_lt.2 hx), h, rne_int, ← h, div_mul_cancel₀ _ (ulp_pos x).ne']

theorem ulp_nat (n e : ℕ) (h : Nat.log 2 n = e) : ulp (n : ℝ) = 2 ^ max ((e : ℤ) - 52) (-1074) := by
  unfold ulp
  rw [Int.log_natCast, h]

theorem rnd_one : rnd 1 = 1 := by
  refine rnd_of_int 1 (2 ^ 52) (by norm_num) ?_
  have := ulp_nat 1 0 (by norm_num)
  norm_num at this
  rw [this]
  norm_num

/-- `2^53` -/
abbrev big : ℝ := 9007199254740992

theorem log_big (d : ℕ) (hd : d ≤ 2) : Nat.log 2 (9007199254740992 + d) = 53 :=
  Nat.log_eq_of_pow_le_of_lt_pow (by norm_num) (by norm_num; omega)

theorem ulp_big (d : ℕ) (hd : d ≤ 2) : ulp (big + d) = 2 := by
  have := ulp_nat _ _ (log_big d hd)
  push_cast at this
  rw [show big + (d : ℝ) = 9007199254740992 + (d : ℝ) from rfl, this]
  norm_num

theorem rnd_big : rnd big = big := by
  have h := ulp_big 0 (by norm_num)
  norm_num at h
  exact rnd_of_int _ 4503599627370496 (by norm_num) (by rw [h]; norm_num)

theorem rnd_big2 : rnd (big + 2) = big + 2 := by
  have h := ulp_big 2 le_rfl
  push_cast at h
  exact rnd_of_int _ 4503599627370497 (by norm_num) (by rw [h]; norm_num)

theorem rnd_two : rnd 2 = 2 := by
  have := ulp_nat 2 1 (Nat.log_eq_of_pow_le_of_lt_pow (by norm_num) (by norm_num))
  push_cast at this
  refine rnd_of_int 2 (2 ^ 52) (by norm_num) ?_
  rw [this]
  norm_num

/-- a tie, broken to even -/
theorem rnd_big1 : rnd (big + 1) = big := by
  have h := ulp_big 1 (by norm_num)
  push_cast at h
  unfold rnd rndPos
  rw [if_neg (by norm_num), h]
  have hf : ⌊(big + 1) / 2⌋ = 4503599627370496 := by
    rw [Int.floor_eq_iff]
    norm_num
  have : rne ((big + 1) / 2) = 4503599627370496 := by
    unfold rne
    rw [hf, if_neg (by norm_num), if_neg (by norm_num), if_pos (by decide)]
  rw [this]
  norm_num

namespace B64

/-- a real as a binary64 number -/
noncomputable abbrev ofReal (r : ℝ) : B64 := of (Dbl.fin r)

theorem ofReal_val {r : ℝ} (h : rnd r = r) (hb : |r| < 2 ^ (1024 : ℤ)) : (ofReal r).1 = Dbl.fin r := by
  show Dbl.round (Dbl.fin r) = _
  simp only [Dbl.round, h]
  rw [if_pos hb]

theorem ofReal_add {a b : ℝ} (ha : (ofReal a).1 = Dbl.fin a) (hb : (ofReal b).1 = Dbl.fin b) : ofReal a + ofReal b = ofReal (a + b) := by
  show of ((ofReal a).1 + (ofReal b).1) = _
  rw [ha, hb, Dbl.fin_add]

theorem ofReal_congr {a b : ℝ} (h : rnd a = rnd b) (ha : 0 < a) (hb : 0 < b) : ofReal a = ofReal b := by
  refine Subtype.ext ?_
  show Dbl.round (Dbl.fin a) = Dbl.round (Dbl.fin b)
  simp only [Dbl.round, h, ha, hb, if_true]

end B64

/-- four numbers `2^53, 0, 1, 1` -/
noncomputable def bigMem : Mem B64 := ⟨fun _ => 4, fun p => if p.off = 0 then B64.ofReal big else if p.off = 1 then lit 0 else B64.ofReal 1⟩

/-- In binary64 the two sums are *not* equal: for `2^53, 0, 1, 1` the plain loop returns `2^53` and the four-lane one `2^53 + 2`.
Also shows that the hypotheses of `C71_dsum`, `C71_vcl_sum` and `C71_binary64` can be met with rounding really taking place. -/
theorem C71_exact_false : bigMem.Has ⟨0, 0⟩ 4 ∧ ∃ s t, (l1c_dsum 4 ⟨0, 0⟩).run bigMem = some (s, bigMem) ∧
    (vcl_sum 4 ⟨0, 0⟩).run bigMem = some (t, bigMem) ∧ s.IsFin ∧ t.IsFin ∧ s.toReal = 2 ^ 53 ∧ t.toReal = 2 ^ 53 + 2 := by
  have hz : (lit 0 : B64) = B64.ofReal 0 := by
    show B64.of (Dbl.fin ((0 : ℚ) : ℝ)) = _
    simp
  have lim : (9007199254740994 : ℝ) < 2 ^ (1024 : ℤ) :=
    lt_of_lt_of_le (show (9007199254740994 : ℝ) < 2 ^ (54 : ℤ) by norm_num) (zpow_le_zpow_right₀ (by norm_num) (by norm_num))
  have v0 := B64.ofReal_val rnd_zero (by rw [abs_zero]; positivity)
  have v1 := B64.ofReal_val rnd_one (by rw [abs_one]; exact lt_trans (by norm_num) lim)
  have v2 := B64.ofReal_val rnd_two (by rw [abs_of_pos (by norm_num)]; exact lt_trans (by norm_num) lim)
  have vb := B64.ofReal_val rnd_big (by rw [abs_of_pos (by norm_num)]; exact lt_trans (by norm_num) lim)
  have vb2 := B64.ofReal_val rnd_big2 (by rw [abs_of_pos (by norm_num)]; exact lt_of_le_of_lt (by norm_num) lim)
  have hH : bigMem.Has ⟨0, 0⟩ 4 := by
    intro i h0 h1
    simp only [Mem.Ok, bigMem, Ptr.add_off]
    omega
  have tie : B64.ofReal (big + 1) = B64.ofReal big := B64.ofReal_congr (by rw [rnd_big1, rnd_big]) (by norm_num) (by norm_num)
  have a1 : B64.ofReal 0 + B64.ofReal big = B64.ofReal big := by rw [B64.ofReal_add v0 vb, zero_add]
  have a2 : B64.ofReal big + B64.ofReal 0 = B64.ofReal big := by rw [B64.ofReal_add vb v0, add_zero]
  have a3 : B64.ofReal big + B64.ofReal 1 = B64.ofReal big := by rw [B64.ofReal_add vb v1, tie]
  have a4 : B64.ofReal 0 + B64.ofReal 1 = B64.ofReal 1 := by rw [B64.ofReal_add v0 v1, zero_add]
  have a5 : B64.ofReal 1 + B64.ofReal 1 = B64.ofReal 2 := by rw [B64.ofReal_add v1 v1]; norm_num
  have a6 : B64.ofReal big + B64.ofReal 2 = B64.ofReal (big + 2) := B64.ofReal_add vb v2
  have a7 : B64.ofReal 0 + B64.ofReal (big + 2) = B64.ofReal (big + 2) := by rw [B64.ofReal_add v0 vb2, zero_add]
  have a8 : B64.ofReal 0 + B64.ofReal 0 = B64.ofReal 0 := by rw [B64.ofReal_add v0 v0, zero_add]
  have l : ∀ i : Int, 0 ≤ i → i < 4 → (load ((⟨0, 0⟩ : Ptr) + i) : Prog B64 B64).run bigMem = some (bigMem.val ((⟨0, 0⟩ : Ptr) + i), bigMem) :=
    fun i h0 h1 => run_load (hH i h0 h1)
  have c0 : bigMem.val ((⟨0, 0⟩ : Ptr) + (0 : Int)) = B64.ofReal big := by simp [bigMem]
  have c1 : bigMem.val ((⟨0, 0⟩ : Ptr) + (1 : Int)) = B64.ofReal 0 := by simp [bigMem, hz]
  have c2 : bigMem.val ((⟨0, 0⟩ : Ptr) + (2 : Int)) = B64.ofReal 1 := by simp [bigMem]
  have c3 : bigMem.val ((⟨0, 0⟩ : Ptr) + (3 : Int)) = B64.ofReal 1 := by simp [bigMem]
  refine ⟨hH, B64.ofReal big, B64.ofReal (big + 2), ?_, ?_, ?_, ?_, ?_, ?_⟩
  · simp only [l1c_dsum, foldUp, show ((4 : Int) - 0).toNat = 0 + 1 + 1 + 1 + 1 from rfl, foldN, run_bind, run_pure, Option.bind_some]
    rw [show (0 : Int) + ((0 : ℕ) : Int) = 0 from rfl, show (0 : Int) + ((0 + 1 : ℕ) : Int) = 1 from rfl,
      show (0 : Int) + ((0 + 1 + 1 : ℕ) : Int) = 2 from rfl, show (0 : Int) + ((0 + 1 + 1 + 1 : ℕ) : Int) = 3 from rfl]
    simp only [l 0 le_rfl (by norm_num), l 1 (by norm_num) (by norm_num), l 2 (by norm_num) (by norm_num), l 3 (by norm_num) (by norm_num),
      Option.bind_some, c0, c1, c2, c3, hz, a1, a2, a3]
  · rw [vcl_sum, blocks_eq 4 (by decide), tailStart_eq 4 (by decide) (by norm_num)]
    simp only [foldUp, show ((4 : Int) / 4 - 0).toNat = 0 + 1 from rfl, show ((4 : Int) - 4 * (4 / 4)).toNat = 0 from rfl, foldN, run_bind,
      run_pure, Option.bind_some]
    rw [show (0 : Int) + ((0 : ℕ) : Int) = 0 from rfl, run_load4 hH (by norm_num) (by norm_num)]
    have c0' : bigMem.val ((⟨0, 0⟩ : Ptr) + 4 * (0 : Int)) = B64.ofReal big := c0
    have c1' : bigMem.val ((⟨0, 0⟩ : Ptr) + (4 * (0 : Int) + 1)) = B64.ofReal 0 := c1
    have c2' : bigMem.val ((⟨0, 0⟩ : Ptr) + (4 * (0 : Int) + 2)) = B64.ofReal 1 := c2
    have c3' : bigMem.val ((⟨0, 0⟩ : Ptr) + (4 * (0 : Int) + 3)) = B64.ofReal 1 := c3
    simp only [Option.bind_some, Vec4.map₂, Vec4.hadd, hz, c0', c1', c2', c3', a1, a2, a4, a5, a6, a7, a8]
  · exact (B64.val_fin vb).1
  · exact (B64.val_fin vb2).1
  · rw [(B64.val_fin vb).2]; norm_num
  · rw [(B64.val_fin vb2).2]; norm_num

/-- the hypotheses on a distribution over threads: three iterations, two threads -/
example : ValidSched 3 [[2, 0], [1]] ∧ ∀ c ∈ [[(2 : Int), 0], [1]], c.length ≤ 2 := by
  constructor
  · unfold ValidSched
    decide
  · decide

/-- two different orders of the same three terms -/
example (a b c : B64) : ((SumTree.leaf a).add ((SumTree.leaf b).add (SumTree.leaf c))).leaves.Perm
    (((SumTree.leaf a).add (SumTree.leaf b)).add (SumTree.leaf c)).leaves := by
  simp [SumTree.leaves]

end L1c
