import Verif.Spec.Rounding
import Verif.Proofs.Vcl
import Mathlib.Algebra.BigOperators.Group.List.Basic

/-! # Propagation of rounding errors through sums -/

namespace L1c
open Scalar Prog

variable {F : Type} [Scalar F] (M : FpModel F)

namespace FpModel

/-- `s` is the exact value `S` up to `k` roundings of terms with total size `A`, `c` of which could underflow -/
def Within (k c : ℕ) (s : F) (S A : ℝ) : Prop :=
  |S| ≤ A ∧ |M.val s - S| ≤ M.gam k * A + (1 + M.u) ^ k * (c * M.w)

variable {M}

theorem one_le (k : ℕ) : 1 ≤ (1 + M.u) ^ k := one_le_pow₀ (by linarith [M.u_nonneg])

theorem gam_nonneg (k : ℕ) : 0 ≤ M.gam k := by
  unfold gam
  linarith [one_le (M := M) k]

theorem gam_mono {k l : ℕ} (h : k ≤ l) : M.gam k ≤ M.gam l := by
  unfold gam
  linarith [pow_le_pow_right₀ (show 1 ≤ 1 + M.u by linarith [M.u_nonneg]) h]

theorem Within.mono {k l c d : ℕ} {s : F} {S A : ℝ} (h : M.Within k c s S A) (hk : k ≤ l) (hc : c ≤ d) : M.Within l d s S A := by
  refine ⟨h.1, h.2.trans ?_⟩
  have hA : 0 ≤ A := (abs_nonneg _).trans h.1
  have h1 := mul_le_mul_of_nonneg_right (gam_mono (M := M) hk) hA
  have h2 : (1 + M.u) ^ k ≤ (1 + M.u) ^ l := pow_le_pow_right₀ (by linarith [M.u_nonneg]) hk
  have h3 : (c * M.w : ℝ) ≤ d * M.w := mul_le_mul_of_nonneg_right (by exact_mod_cast hc) M.w_nonneg
  have h4 : 0 ≤ (c * M.w : ℝ) := mul_nonneg (by positivity) M.w_nonneg
  have h5 : (1 + M.u) ^ k * (c * M.w) ≤ (1 + M.u) ^ l * (d * M.w) := mul_le_mul h2 h3 h4 (by linarith [one_le (M := M) l])
  linarith

theorem Within.exact (s : F) : M.Within 0 0 s (M.val s) |M.val s| := by
  refine ⟨le_rfl, ?_⟩
  simp [gam]

theorem Within.zero : M.Within 0 0 (lit 0) 0 0 := by
  refine ⟨by simp, ?_⟩
  simp [gam, M.zero]

/-- one rounding of a number that is itself only known approximately -/
theorem Within.round {k c : ℕ} {s : F} {t S A δ : ℝ} (h1 : |S| ≤ A) (h2 : |t - S| ≤ M.gam k * A + (1 + M.u) ^ k * (c * M.w)) (hd : |δ| ≤ M.u)
    (hs : M.val s = t * (1 + δ)) : M.Within (k + 1) c s S A := by
  refine ⟨h1, ?_⟩
  have h3 : |t| ≤ A + (M.gam k * A + (1 + M.u) ^ k * (c * M.w)) := by
    have := abs_sub_abs_le_abs_sub t S
    linarith
  have h4 : |M.val s - S| ≤ |t - S| + |t| * M.u := by
    rw [hs, show t * (1 + δ) - S = (t - S) + t * δ by ring]
    refine (abs_add_le _ _).trans ?_
    rw [abs_mul]
    have := mul_le_mul_of_nonneg_left hd (abs_nonneg t)
    linarith
  have h5 := mul_le_mul_of_nonneg_right h3 M.u_nonneg
  have e : M.gam (k + 1) * A + (1 + M.u) ^ (k + 1) * (c * M.w) =
      (M.gam k * A + (1 + M.u) ^ k * (c * M.w)) + (A + (M.gam k * A + (1 + M.u) ^ k * (c * M.w))) * M.u := by
    unfold gam
    ring
  rw [e]
  linarith

theorem Within.add {k c d : ℕ} {a b : F} {S T A B : ℝ} (ha : M.Within k c a S A) (hb : M.Within k d b T B) (hf : M.fin (a + b)) :
    M.Within (k + 1) (c + d) (a + b) (S + T) (A + B) := by
  obtain ⟨-, -, δ, hd, hv⟩ := M.add hf
  refine Within.round (t := M.val a + M.val b) ((abs_add_le _ _).trans (add_le_add ha.1 hb.1)) ?_ hd hv
  rw [show M.val a + M.val b - (S + T) = (M.val a - S) + (M.val b - T) by ring]
  refine (abs_add_le _ _).trans ((add_le_add ha.2 hb.2).trans (le_of_eq ?_))
  push_cast
  ring

theorem Within.mul (a b : F) (hf : M.fin (a * b)) : M.Within 1 1 (a * b) (M.val a * M.val b) |M.val a * M.val b| := by
  obtain ⟨-, -, δ, η, hd, he, hv⟩ := M.mul hf
  refine ⟨le_rfl, ?_⟩
  rw [hv, show M.val a * M.val b * (1 + δ) + η - M.val a * M.val b = M.val a * M.val b * δ + η by ring]
  refine (abs_add_le _ _).trans ?_
  rw [abs_mul (M.val a * M.val b)]
  have h1 := mul_le_mul_of_nonneg_left hd (abs_nonneg (M.val a * M.val b))
  have h2 := mul_nonneg M.u_nonneg M.w_nonneg
  unfold gam
  push_cast
  nlinarith

theorem Within.abs (a : F) (hf : M.fin (Scalar.fabs a)) : M.Within 0 0 (Scalar.fabs a) |M.val a| |M.val a| := by
  refine ⟨by rw [abs_abs], ?_⟩
  rw [(M.fabs hf).2]
  simp [gam]

/-- the square of a difference -/
theorem Within.sqdiff (a b : F) (hf : M.fin ((a - b) * (a - b))) :
    M.Within 3 1 ((a - b) * (a - b)) ((M.val a - M.val b) ^ 2) ((M.val a - M.val b) ^ 2) := by
  obtain ⟨h1, -, δ, η, hd, he, hv⟩ := M.mul hf
  obtain ⟨-, -, ε, hε, hv'⟩ := M.sub h1
  set D := (M.val a - M.val b) ^ 2 with hD
  have hD0 : 0 ≤ D := sq_nonneg _
  refine ⟨by rw [abs_of_nonneg hD0], ?_⟩
  have e : M.val ((a - b) * (a - b)) - D = D * ((1 + ε) ^ 2 * (1 + δ) - 1) + η := by
    rw [hv, hv', hD]; ring
  rw [e]
  have h3 : |(1 + ε) ^ 2 * (1 + δ) - 1| ≤ M.gam 3 := by
    have hu := M.u_nonneg
    have e : (1 + ε) ^ 2 * (1 + δ) - 1 = ε + ε + ε * ε + δ + 2 * (ε * δ) + ε * ε * δ := by ring
    have b1 : |ε * ε| ≤ M.u * M.u := by rw [abs_mul]; exact mul_le_mul hε hε (abs_nonneg _) hu
    have b2 : |ε * δ| ≤ M.u * M.u := by rw [abs_mul]; exact mul_le_mul hε hd (abs_nonneg _) hu
    have b3 : |ε * ε * δ| ≤ M.u * M.u * M.u := by rw [abs_mul]; exact mul_le_mul b1 hd (abs_nonneg _) (mul_nonneg hu hu)
    have g : M.gam 3 = 3 * M.u + 3 * (M.u * M.u) + M.u * M.u * M.u := by unfold gam; ring
    rw [e, g, abs_le]
    rw [abs_le] at hε hd b1 b2 b3
    constructor <;> linarith [hε.1, hε.2, hd.1, hd.2, b1.1, b1.2, b2.1, b2.2, b3.1, b3.2]
  refine (abs_add_le _ _).trans ?_
  rw [abs_mul, abs_of_nonneg hD0]
  have h4 := mul_le_mul_of_nonneg_left h3 hD0
  have h5 := mul_le_mul_of_nonneg_right (one_le (M := M) 3) M.w_nonneg
  push_cast
  linarith

/-- square root of a nonnegative sum -/
theorem Within.sqrt {k c : ℕ} {s : F} {S : ℝ} (h : M.Within k c s S S) (hf : M.fin (fsqrt s)) :
    |M.val (fsqrt s) - √S| ≤ M.gam (k + 1) * √S + (1 + M.u) * √((1 + M.u) ^ k * (c * M.w)) := by
  obtain ⟨-, h0, δ, hd, hv⟩ := M.sqrt hf
  have hS : 0 ≤ S := (abs_nonneg _).trans h.1
  set ε := M.gam k with hε
  set e := (1 + M.u) ^ k * (c * M.w) with he
  have hε0 : 0 ≤ ε := gam_nonneg k
  have he0 : 0 ≤ e := mul_nonneg (by linarith [one_le (M := M) k]) (mul_nonneg (by positivity) M.w_nonneg)
  have h2 := abs_le.1 h.2
  have r1 := Real.sq_sqrt hS
  have r2 := Real.sq_sqrt he0
  have r3 := Real.sqrt_nonneg S
  have r4 := Real.sqrt_nonneg e
  have key : |√(M.val s) - √S| ≤ ε * √S + √e := by
    rw [abs_le]
    constructor
    · have : (1 - ε) * √S - √e ≤ √(M.val s) := by
        rcases le_or_gt ((1 - ε) * √S) (√e) with hn | hp
        · linarith [Real.sqrt_nonneg (M.val s)]
        · refine Real.le_sqrt_of_sq_le ?_
          have hε1 : ε < 1 := by
            by_contra hc
            have : (1 - ε) * √S ≤ 0 := mul_nonpos_of_nonpos_of_nonneg (by linarith) r3
            linarith
          have a1 : √e * √e ≤ (1 - ε) * √S * √e := mul_le_mul_of_nonneg_right hp.le r4
          have a2 : (1 - ε) ^ 2 * S ≤ (1 - ε) * S := by
            refine mul_le_mul_of_nonneg_right ?_ hS
            nlinarith
          have a3 : ((1 - ε) * √S - √e) ^ 2 = (1 - ε) ^ 2 * (√S) ^ 2 - 2 * ((1 - ε) * √S * √e) + (√e) ^ 2 := by ring
          rw [a3, r1, r2]
          have a4 : √e * √e = e := by rw [← sq, r2]
          linarith [h2.1]
      linarith
    · have : √(M.val s) ≤ (1 + ε) * √S + √e := by
        rw [Real.sqrt_le_iff]
        refine ⟨by positivity, ?_⟩
        have a3 : ((1 + ε) * √S + √e) ^ 2 = (1 + ε) ^ 2 * (√S) ^ 2 + 2 * ((1 + ε) * √S * √e) + (√e) ^ 2 := by ring
        rw [a3, r1, r2]
        have a1 : 0 ≤ (1 + ε) * √S * √e := by positivity
        have a2 : (1 + ε) * S ≤ (1 + ε) ^ 2 * S := mul_le_mul_of_nonneg_right (by nlinarith) hS
        linarith [h2.2]
      linarith
  have h4 : |M.val (fsqrt s) - √S| ≤ (1 + M.u) * |√(M.val s) - √S| + M.u * √S := by
    rw [hv, show √(M.val s) * (1 + δ) - √S = (1 + δ) * (√(M.val s) - √S) + δ * √S by ring]
    refine (abs_add_le _ _).trans ?_
    rw [abs_mul, abs_mul, abs_of_nonneg r3]
    have b1 : |1 + δ| ≤ 1 + M.u := (abs_add_le _ _).trans (by rw [abs_one]; linarith)
    have b2 := mul_le_mul_of_nonneg_right b1 (abs_nonneg (√(M.val s) - √S))
    have b3 := mul_le_mul_of_nonneg_right hd r3
    linarith
  have h5 := mul_le_mul_of_nonneg_left key (show 0 ≤ 1 + M.u by linarith [M.u_nonneg])
  have e1 : M.gam (k + 1) = (1 + M.u) * ε + M.u := by rw [hε]; unfold gam; ring
  rw [e1]
  linarith

/-- every order of summation -/
theorem Within.tree (t : SumTree F) (hf : M.fin t.eval) : M.Within t.depth 0 t.eval (t.leaves.map M.val).sum (t.leaves.map fun a => |M.val a|).sum := by
  induction t with
  | leaf a => simpa [SumTree.eval, SumTree.depth, SumTree.leaves] using Within.exact (M := M) a
  | add l r ihl ihr =>
    obtain ⟨fl, fr, -⟩ := M.add (show M.fin (l.eval + r.eval) from hf)
    have := Within.add ((ihl fl).mono (le_max_left l.depth r.depth) le_rfl) ((ihr fr).mono (le_max_right l.depth r.depth) le_rfl) hf
    simpa [SumTree.eval, SumTree.depth, SumTree.leaves] using this

end FpModel

omit [Scalar F] in
/-- read-only accumulation loop with an invariant -/
theorem run_fold_inv {γ : Type} {N lo : Int} {m : Mem F} {s : γ} {body : Int → γ → Prog F γ} (P : ℕ → γ → Prop) (h0 : P 0 s)
    (h : ∀ (k : ℕ) t, lo + k < N → P k t → ∃ t', (body (lo + k) t).run m = some (t', m) ∧ P (k + 1) t') :
    ∃ t, (foldUp lo N s body).run m = some (t, m) ∧ P (N - lo).toNat t := by
  have key : ∀ k : ℕ, (k : Int) ≤ max (N - lo) 0 → ∃ t, (foldN lo body s k).run m = some (t, m) ∧ P k t := by
    intro k
    induction k with
    | zero => exact fun _ => ⟨s, rfl, h0⟩
    | succ k ih =>
      intro hk
      obtain ⟨t, h1, h2⟩ := ih (by omega)
      obtain ⟨t', h3, h4⟩ := h k t (by omega) h2
      exact ⟨t', by simp only [foldN, run_bind, h1, Option.bind_some, h3], h4⟩
  exact key _ (by omega)

/-- a sum of `N` terms, each within `j` roundings and one underflow (`c = 1`) or none (`c = 0`) -/
theorem run_sum_within {M : FpModel F} {N : Int} {m : Mem F} {body : Int → F → Prog F F} (g : ℕ → F) (G B : ℕ → ℝ) (j c : ℕ)
    (hb : ∀ k : ℕ, (k : Int) < N → ∀ t, (body k t).run m = some (t + g k, m))
    (hg : ∀ k : ℕ, (k : Int) < N → M.fin (g k) → M.Within j c (g k) (G k) (B k)) :
    ∃ s, (foldUp 0 N (lit 0) body).run m = some (s, m) ∧ (M.fin s → M.Within (j + N.toNat) (c * N.toNat) s (∑ k ∈ Finset.range N.toNat, G k)
      (∑ k ∈ Finset.range N.toNat, B k)) := by
  obtain ⟨t, h1, h2⟩ := run_fold_inv (N := N) (lo := 0) (m := m) (s := (lit 0 : F)) (body := body)
    (fun k s => M.fin s → M.Within (j + k) (c * k) s (∑ k ∈ Finset.range k, G k) (∑ k ∈ Finset.range k, B k))
    (fun _ => by simpa using FpModel.Within.zero.mono (Nat.zero_le j) (Nat.zero_le 0)) (fun k t hk ih => by
      rw [zero_add] at hk
      refine ⟨t + g k, by rw [zero_add]; exact hb k hk t, fun hf => ?_⟩
      obtain ⟨ft, fg, -⟩ := M.add hf
      have := FpModel.Within.add (ih ft) ((hg k hk fg).mono (Nat.le_add_right j k) le_rfl) hf
      rw [Finset.sum_range_succ, Finset.sum_range_succ]
      exact this)
  rw [sub_zero] at h2
  exact ⟨t, h1, h2⟩

theorem sum_quads (G : ℕ → ℝ) (b : ℕ) :
    ∑ k ∈ Finset.range (4 * b), G k = (∑ i ∈ Finset.range b, G (4 * i) + ∑ i ∈ Finset.range b, G (4 * i + 1)) +
      (∑ i ∈ Finset.range b, G (4 * i + 2) + ∑ i ∈ Finset.range b, G (4 * i + 3)) := by
  induction b with
  | zero => simp
  | succ b ih =>
    rw [show 4 * (b + 1) = 4 * b + 1 + 1 + 1 + 1 by ring, Finset.sum_range_succ, Finset.sum_range_succ, Finset.sum_range_succ,
      Finset.sum_range_succ, ih]
    simp only [Finset.sum_range_succ]
    ring

/-- the blocked sum (four lanes, then a scalar tail) -/
theorem blocked_within {M : FpModel F} (N : Int) (hfit : FitsInt N) (x : Ptr) (m : Mem F) (hx : m.Has x N) (g : F → F) :
    ∃ s, (do
        let sum_vec ← foldUp 0 (blocks N) (⟨lit 0, lit 0, lit 0, lit 0⟩ : Vec4 F) fun b s => do
            let xvec ← load4 (x + 4 * b)
            pure (s.map₂ (fun t v => t + g v) xvec)
        let total ← foldUp (tailStart N) N (lit 0) fun i t => do
            let v ← load (x + i)
            pure (t + g v)
        pure (total + sum_vec.hadd) : Prog F F).run m = some (s, m) ∧
      (M.fin s → M.Within (max (N.toNat / 4 + 2) (N.toNat % 4) + 1) 0 s (∑ k ∈ Finset.range N.toNat, M.val (g (m.val (x + (k : Int)))))
        (∑ k ∈ Finset.range N.toNat, |M.val (g (m.val (x + (k : Int))))|)) := by
  set G : ℕ → ℝ := fun k => M.val (g (m.val (x + (k : Int)))) with hG
  have lane : ∀ (j b : ℕ) (t : F), (M.fin t → M.Within b 0 t (∑ i ∈ Finset.range b, G (4 * i + j)) (∑ i ∈ Finset.range b, |G (4 * i + j)|)) →
      M.fin (t + g (m.val (x + (4 * (b : Int) + (j : Int))))) →
      M.Within (b + 1) 0 (t + g (m.val (x + (4 * (b : Int) + (j : Int))))) (∑ i ∈ Finset.range (b + 1), G (4 * i + j))
        (∑ i ∈ Finset.range (b + 1), |G (4 * i + j)|) := by
    intro j b t ih hf
    obtain ⟨ft, fg, -⟩ := M.add hf
    have := FpModel.Within.add (ih ft) ((FpModel.Within.exact (M := M) (g (m.val (x + (4 * (b : Int) + (j : Int)))))).mono (Nat.zero_le b) le_rfl) hf
    rw [Finset.sum_range_succ, Finset.sum_range_succ]
    simpa [hG] using this
  by_cases hN : 0 ≤ N
  · rw [blocks_eq N hfit, tailStart_eq N hfit hN]
    obtain ⟨s, h1, h2⟩ := run_fold_inv (N := N / 4) (lo := 0) (m := m) (s := (⟨lit 0, lit 0, lit 0, lit 0⟩ : Vec4 F))
      (body := fun b s => do
            let xvec ← load4 (x + 4 * b)
            pure (s.map₂ (fun t v => t + g v) xvec))
      (fun b s =>
        (M.fin s.a → M.Within b 0 s.a (∑ i ∈ Finset.range b, G (4 * i + 0)) (∑ i ∈ Finset.range b, |G (4 * i + 0)|)) ∧
        (M.fin s.b → M.Within b 0 s.b (∑ i ∈ Finset.range b, G (4 * i + 1)) (∑ i ∈ Finset.range b, |G (4 * i + 1)|)) ∧
        (M.fin s.c → M.Within b 0 s.c (∑ i ∈ Finset.range b, G (4 * i + 2)) (∑ i ∈ Finset.range b, |G (4 * i + 2)|)) ∧
        (M.fin s.d → M.Within b 0 s.d (∑ i ∈ Finset.range b, G (4 * i + 3)) (∑ i ∈ Finset.range b, |G (4 * i + 3)|)))
      (by simpa using fun _ => FpModel.Within.zero (M := M)) (fun b s hb ih => by
        rw [zero_add] at hb
        refine ⟨s.map₂ (fun t v => t + g v) ⟨m.val (x + 4 * (b : Int)), m.val (x + (4 * (b : Int) + 1)),
            m.val (x + (4 * (b : Int) + 2)), m.val (x + (4 * (b : Int) + 3))⟩, ?_, ?_, ?_, ?_, ?_⟩
        · simp only [run_bind, zero_add]
          rw [run_load4 hx (by omega) (by omega)]
          rfl
        · have := lane 0 b s.a ih.1
          simp only [Nat.cast_zero, add_zero] at this ⊢
          exact this
        · exact lane 1 b s.b ih.2.1
        · exact lane 2 b s.c ih.2.2.1
        · exact lane 3 b s.d ih.2.2.2)
    obtain ⟨t, h3, h4⟩ := run_fold_inv (N := N) (lo := 4 * (N / 4)) (m := m) (s := (lit 0 : F))
      (body := fun i t => do let v ← load (x + i); pure (t + g v))
      (fun k t => M.fin t → M.Within k 0 t (∑ i ∈ Finset.range k, G (4 * (N.toNat / 4) + i)) (∑ i ∈ Finset.range k, |G (4 * (N.toNat / 4) + i)|))
      (by simpa using fun _ => FpModel.Within.zero (M := M)) (fun k t hk ih => by
        refine ⟨t + g (m.val (x + (4 * (N / 4) + (k : Int)))), by
          simp only [run_bind, run_load (hx _ (by omega) hk), Option.bind_some, run_pure], fun hf => ?_⟩
        obtain ⟨ft, fg, -⟩ := M.add hf
        have := FpModel.Within.add (ih ft) ((FpModel.Within.exact (M := M) (g (m.val (x + (4 * (N / 4) + (k : Int)))))).mono (Nat.zero_le k) le_rfl) hf
        rw [Finset.sum_range_succ, Finset.sum_range_succ]
        have e : M.val (g (m.val (x + (4 * (N / 4) + (k : Int))))) = G (4 * (N.toNat / 4) + k) := by
          rw [hG]
          have : (4 * (N / 4) + (k : Int)) = ((4 * (N.toNat / 4) + k : ℕ) : Int) := by omega
          simp only [this]
        rw [e] at this
        exact this)
    refine ⟨t + s.hadd, by simp only [run_bind, h1, Option.bind_some, h3, run_pure], fun hf => ?_⟩
    have eb : (N / 4 - 0).toNat = N.toNat / 4 := by omega
    have et : (N - 4 * (N / 4)).toNat = N.toNat % 4 := by omega
    rw [eb] at h2
    rw [et] at h4
    obtain ⟨ft, fs, -⟩ := M.add hf
    obtain ⟨f1, f2, -⟩ := M.add (show M.fin ((s.a + s.b) + (s.c + s.d)) from fs)
    obtain ⟨fa, fb, -⟩ := M.add f1
    obtain ⟨fc, fd, -⟩ := M.add f2
    have w1 := FpModel.Within.add (h2.1 fa) (h2.2.1 fb) f1
    have w2 := FpModel.Within.add (h2.2.2.1 fc) (h2.2.2.2 fd) f2
    have w3 := FpModel.Within.add w1 w2 fs
    have w4 := FpModel.Within.add ((h4 ft).mono (le_max_right (N.toNat / 4 + 2) _) le_rfl) (w3.mono (le_max_left _ (N.toNat % 4)) le_rfl) hf
    have eN : N.toNat = 4 * (N.toNat / 4) + N.toNat % 4 := by omega
    have key : ∀ H : ℕ → ℝ, ∑ k ∈ Finset.range N.toNat, H k = ∑ i ∈ Finset.range (N.toNat % 4), H (4 * (N.toNat / 4) + i) +
        ((∑ i ∈ Finset.range (N.toNat / 4), H (4 * i + 0) + ∑ i ∈ Finset.range (N.toNat / 4), H (4 * i + 1)) +
          (∑ i ∈ Finset.range (N.toNat / 4), H (4 * i + 2) + ∑ i ∈ Finset.range (N.toNat / 4), H (4 * i + 3))) := by
      intro H
      conv_lhs => rw [eN]
      rw [Finset.sum_range_add, sum_quads, add_comm]
      rfl
    have k1 := key G
    have k2 := key (fun k => |G k|)
    rw [k1, k2]
    exact w4
  · rw [blocks_eq N hfit, tailStart_neg N hfit (by omega), foldUp_empty _ _ (by omega), foldUp_empty _ _ (by omega)]
    have e : N.toNat = 0 := by omega
    refine ⟨_, rfl, fun hf => ?_⟩
    have hz := FpModel.Within.zero (M := M)
    obtain ⟨ft, fs, -⟩ := M.add hf
    obtain ⟨f1, f2, -⟩ := M.add (show M.fin (((lit 0 : F) + lit 0) + (lit 0 + lit 0)) from fs)
    have w := FpModel.Within.add (hz.mono (Nat.zero_le 2) le_rfl) (FpModel.Within.add (FpModel.Within.add hz hz f1) (FpModel.Within.add hz hz f2) fs) hf
    simp only [add_zero] at w
    simpa [e, Vec4.hadd] using w

/-- one thread's share of a reduction -/
theorem chunk_within {M : FpModel F} (alpha : F) (x : Ptr) (m : Mem F) (l : List Int) (h : ∀ i ∈ l, m.Ok (x + i)) (k : ℕ) (s : F) (S A : ℝ)
    (hs : M.fin s → M.Within k 0 s S A) :
    ∃ t, (l.foldlM (fun total i => do
      let v ← load (x + i)
      pure (total + flog (alpha * v))) s).run m = some (t, m) ∧
      (M.fin t → M.Within (k + l.length) 0 t (S + (l.map fun i => M.val (flog (alpha * m.val (x + i)))).sum)
        (A + (l.map fun i => |M.val (flog (alpha * m.val (x + i)))|).sum)) := by
  induction l generalizing s k S A with
  | nil => exact ⟨s, rfl, by simpa using hs⟩
  | cons i l ih =>
    obtain ⟨t, h1, h2⟩ := ih (fun j hj => h j (by simp [hj])) (k + 1) (s + flog (alpha * m.val (x + i)))
      (S + M.val (flog (alpha * m.val (x + i)))) (A + |M.val (flog (alpha * m.val (x + i)))|) (fun hf => by
        obtain ⟨ft, -, -⟩ := M.add hf
        exact FpModel.Within.add (hs ft) ((FpModel.Within.exact _).mono (Nat.zero_le k) le_rfl) hf)
    refine ⟨t, ?_, fun hf => ?_⟩
    · simp only [List.foldlM_cons, run_bind, run_load (h i (by simp)), Option.bind_some, run_pure]
      exact h1
    · have := h2 hf
      simp only [List.map_cons, List.sum_cons, List.length_cons]
      rw [show k + (l.length + 1) = k + 1 + l.length by ring, ← add_assoc S, ← add_assoc A]
      exact this

/-- the reduction over all threads; no thread has more than `L` iterations -/
theorem sched_within {M : FpModel F} (alpha : F) (x : Ptr) (m : Mem F) (L : ℕ) (sched : List (List Int)) (hL : ∀ c ∈ sched, c.length ≤ L)
    (h : ∀ i ∈ sched.flatten, m.Ok (x + i)) (k : ℕ) (s : F) (S A : ℝ) (hs : M.fin s → M.Within (L + k) 0 s S A) :
    ∃ t, (sched.foldlM (fun total chunk => do
        let t ← dlogsumChunk alpha x chunk
        pure (total + t)) s).run m = some (t, m) ∧
      (M.fin t → M.Within (L + k + sched.length) 0 t (S + (sched.flatten.map fun i => M.val (flog (alpha * m.val (x + i)))).sum)
        (A + (sched.flatten.map fun i => |M.val (flog (alpha * m.val (x + i)))|).sum)) := by
  induction sched generalizing s k S A with
  | nil => exact ⟨s, rfl, by simpa using hs⟩
  | cons c l ih =>
    obtain ⟨r, h1, h2⟩ := chunk_within (M := M) alpha x m c (fun i hi => h i (by simp [hi])) 0 (lit 0) 0 0 (fun _ => FpModel.Within.zero)
    obtain ⟨t, h3, h4⟩ := ih (fun c' hc => hL c' (by simp [hc])) (fun i hi => h i (by
        rw [List.flatten_cons]; exact List.mem_append_right _ hi)) (k + 1) (s + r)
      (S + (0 + (c.map fun i => M.val (flog (alpha * m.val (x + i)))).sum)) (A + (0 + (c.map fun i => |M.val (flog (alpha * m.val (x + i)))|).sum))
      (fun hf => by
        obtain ⟨fs, fr, -⟩ := M.add hf
        exact FpModel.Within.add (hs fs) ((h2 fr).mono (by have := hL c (by simp); omega) le_rfl) hf)
    refine ⟨t, ?_, fun hf => ?_⟩
    · have h1' : (dlogsumChunk alpha x c).run m = some (r, m) := h1
      simp only [List.foldlM_cons, run_bind, h1', Option.bind_some, run_pure]
      exact h3
    · have := h4 hf
      simp only [List.flatten_cons, List.map_append, List.sum_append, List.length_cons, zero_add] at this ⊢
      rw [show L + k + (l.length + 1) = L + (k + 1) + l.length by ring, ← add_assoc S, ← add_assoc A]
      exact this

end L1c
