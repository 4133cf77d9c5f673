import Verif.Proofs.BregmanMain
import Verif.Proofs.TvRound

/-! # TV denoising in floating-point arithmetic: change of sign and NaN pixels -/

namespace L1c
open Scalar

/-- arithmetic that is symmetric under change of sign -/
structure SignLaws (F : Type) [Scalar F] : Prop where
  neg_neg : ∀ a : F, - -a = a
  zero : -(lit 0 : F) = lit 0
  add : ∀ a b : F, -a + -b = -(a + b)
  sub : ∀ a b : F, -a - -b = -(a - b)
  mul_neg : ∀ a b : F, a * -b = -(a * b)
  neg_mul : ∀ a b : F, -a * b = -(a * b)
  shrink : ∀ {g : F}, flt g (lit 0) = false → ∀ x, shrinkVal g (-x) = -shrinkVal g x

section
variable {F : Type} [Scalar F] {n m : ℕ} {mu lam : F}

theorem gsPix_neg (L : SignLaws F) (rhs u : FImg F) (i j : ℕ) :
    gsPix n m mu lam (fun i j => -rhs i j) (fun i j => -u i j) i j = -gsPix n m mu lam rhs u i j := by
  unfold gsPix
  split_ifs <;> simp only [L.add, L.neg_mul]

theorem gsState_neg (L : SignLaws F) (rhs u : FImg F) (k : ℕ) :
    gsState n m mu lam (fun i j => -rhs i j) (fun i j => -u i j) k = fun i j => -gsState n m mu lam rhs u k i j := by
  induction k with
  | zero => rfl
  | succ k ih =>
    funext a b
    simp only [gsState, ih, upd2, gsPix_neg L]
    split_ifs <;> rfl

theorem gsIter_neg (L : SignLaws F) (rhs u : FImg F) (k : ℕ) :
    (gsSweep n m mu lam fun i j => -rhs i j)^[k] (fun i j => -u i j) = fun i j => -(gsSweep n m mu lam rhs)^[k] u i j := by
  induction k with
  | zero => rfl
  | succ k ih => rw [Function.iterate_succ_apply', Function.iterate_succ_apply', ih, gsSweep, gsState_neg L, gsSweep]

/-- all parts of the state negated -/
def BState.neg (s : BState F) : BState F :=
  ⟨fun i j => -s.u i j, fun i j => -s.dx i j, fun i j => -s.dy i j, fun i j => -s.bx i j, fun i j => -s.bY i j⟩

theorem dRowT_neg (L : SignLaws F) (x : ℕ → F) (j : ℕ) : dRowT lam m (fun j => -x j) j = -dRowT lam m x j := by
  unfold dRowT
  split_ifs <;> simp only [L.mul_neg, L.sub]

theorem dColT_neg (L : SignLaws F) (A : FImg F) (i j : ℕ) : dColT lam n (fun i j => -A i j) i j = -dColT lam n A i j := by
  have h := L.sub
  unfold dColT
  rw [← L.mul_neg, ← L.sub]
  congr 2 <;> split_ifs <;> first | rfl | exact L.zero.symm

theorem rhs_neg (L : SignLaws F) (f : FImg F) (s : BState F) :
    rhsF n m mu lam (fun i j => -f i j) s.neg = fun i j => -rhsF n m mu lam f s i j := by
  funext i j
  unfold rhsF BState.neg
  simp only [L.add, L.mul_neg, dRowT_neg L, dColT_neg L]

theorem gxF_neg (L : SignLaws F) (u b : FImg F) (i j : ℕ) : gxF m (fun i j => -u i j) (fun i j => -b i j) i j = -gxF m u b i j := by
  unfold gxF dRow
  rw [L.mul_neg, ← L.add]
  congr 1
  split_ifs
  · simp only [L.sub, L.mul_neg]
  · exact L.zero.symm

theorem gyF_neg (L : SignLaws F) (u b : FImg F) (i j : ℕ) : gyF n (fun i j => -u i j) (fun i j => -b i j) i j = -gyF n u b i j := by
  unfold gyF
  rw [L.mul_neg, ← L.add]
  congr 1
  split_ifs
  · simp only [L.sub, L.mul_neg]
  · exact L.zero.symm

theorem next_neg (L : SignLaws F) (hg : flt (lit 1 / lam) (lit 0) = false) (jac : ℕ) (f : FImg F) (s : BState F) :
    bregNext n m mu lam jac (fun i j => -f i j) s.neg = (bregNext n m mu lam jac f s).neg := by
  have e : (gsSweep n m mu lam (rhsF n m mu lam (fun i j => -f i j) s.neg))^[jac] s.neg.u =
      fun i j => -(gsSweep n m mu lam (rhsF n m mu lam f s))^[jac] s.u i j := by
    rw [rhs_neg L]
    exact gsIter_neg L _ _ _
  unfold bregNext
  simp only [e]
  unfold BState.neg
  simp only [gxF_neg L, gyF_neg L, L.shrink hg, L.add]

theorem iter_neg (L : SignLaws F) (hg : flt (lit 1 / lam) (lit 0) = false) (jac : ℕ) (f : FImg F) (k : ℕ) :
    bregIter n m mu lam jac (fun i j => -f i j) k = (bregIter n m mu lam jac f k).neg := by
  induction k with
  | zero => simp only [bregIter, BState.neg, L.zero]
  | succ k ih => rw [bregIter, ih, next_neg L hg, bregIter]

theorem brk_neg (L : SignLaws F) (hg : flt (lit 1 / lam) (lit 0) = false) (tol : F) (jac : ℕ) (f : FImg F) (k : ℕ) :
    bregBrk n m mu lam tol jac f k = bregBrk n m mu lam tol jac (fun i j => -f i j) k := by
  have eo : bregOld n m mu lam jac (fun i j => -f i j) k = fun i j => -bregOld n m mu lam jac f k i j := by
    cases k with
    | zero => simp only [bregOld, L.zero]
    | succ k => simp only [bregOld, iter_neg L hg, BState.neg]
  unfold bregBrk relErrF
  rw [iter_neg L hg, eo]
  simp only [BState.neg, L.sub, L.neg_mul, L.mul_neg, L.neg_neg]

/-! ## NaN -/

/-- `N` is contagious: any operation of the denoising on an `N` argument gives `N`, except comparisons, which are false -/
structure NanLaws (N : F → Prop) : Prop where
  add : ∀ {a b}, N a ∨ N b → N (a + b)
  sub : ∀ {a b}, N a ∨ N b → N (a - b)
  mul : ∀ {a b}, N a ∨ N b → N (a * b)
  div : ∀ {a b}, N a ∨ N b → N (a / b)
  sqrt : ∀ {a}, N a → N (fsqrt a)
  flt : ∀ {a} (b), N a → flt a b = false

variable {N : F → Prop}

theorem gsPix_nan_rhs (L : NanLaws N) {rhs : FImg F} (u : FImg F) {i j : ℕ} (h : N (rhs i j)) : N (gsPix n m mu lam rhs u i j) := by
  unfold gsPix
  split_ifs <;> exact L.mul (Or.inl (L.add (Or.inl h)))

/-- a pixel with a NaN neighbour becomes NaN -/
theorem gsPix_nan_nb (L : NanLaws N) (rhs : FImg F) {u : FImg F} {i j : ℕ}
    (h : (j + 1 < m ∧ N (u i (j + 1))) ∨ (0 < j ∧ N (u i (j - 1))) ∨ (i + 1 < n ∧ N (u (i + 1) j)) ∨ (0 < i ∧ N (u (i - 1) j))) :
    N (gsPix n m mu lam rhs u i j) := by
  have key : ∀ {s r c : F}, N s → N ((r + s * lam) * c) := fun hs => L.mul (Or.inl (L.add (Or.inr (L.mul (Or.inl hs)))))
  have l : ∀ {a b : F}, N a → N (a + b) := fun h => L.add (Or.inl h)
  have r : ∀ {a b : F}, N b → N (a + b) := fun h => L.add (Or.inr h)
  unfold gsPix
  rcases h with ⟨h1, h⟩ | ⟨h1, h⟩ | ⟨h1, h⟩ | ⟨h1, h⟩ <;> split_ifs <;> refine key ?_ <;>
    first | omega | exact l h | exact r h | exact l (l h) | exact l (r h) | exact l (l (l h)) | exact l (l (r h))

theorem idx_inj {a b c d : ℕ} (hb : b < m) (hd : d < m) (h : a * m + b = c * m + d) : a = c ∧ b = d := by
  have h1 : (a * m + b) / m = (c * m + d) / m := by rw [h]
  have h2 : (a * m + b) % m = (c * m + d) % m := by rw [h]
  have hm : 0 < m := by omega
  rw [Nat.mul_comm a, Nat.mul_comm c, Nat.mul_add_div hm, Nat.mul_add_div hm, Nat.div_eq_of_lt hb, Nat.div_eq_of_lt hd] at h1
  rw [Nat.mul_comm a, Nat.mul_comm c, Nat.mul_add_mod, Nat.mul_add_mod, Nat.mod_eq_of_lt hb, Nat.mod_eq_of_lt hd] at h2
  exact ⟨by omega, h2⟩

/-- before its turn a pixel is unchanged -/
theorem gsState_before (rhs u : FImg F) {a b k : ℕ} (hb : b < m) (hk : k ≤ a * m + b) : gsState n m mu lam rhs u k a b = u a b := by
  induction k with
  | zero => rfl
  | succ k ih =>
    simp only [gsState, upd2]
    rw [if_neg, ih (by omega)]
    rintro ⟨h1, h2⟩
    have := Nat.div_add_mod k m
    rw [← h1, ← h2, Nat.mul_comm] at this
    omega

/-- after its turn a pixel keeps its value -/
theorem gsState_after (rhs u : FImg F) {a b k : ℕ} (hb : b < m) (hk : a * m + b < k) :
    gsState n m mu lam rhs u k a b = gsPix n m mu lam rhs (gsState n m mu lam rhs u (a * m + b)) a b := by
  induction k with
  | zero => omega
  | succ k ih =>
    rcases Nat.lt_succ_iff_lt_or_eq.1 hk with h | h
    · simp only [gsState, upd2]
      rw [if_neg, ih h]
      rintro ⟨h1, h2⟩
      have := Nat.div_add_mod k m
      rw [← h1, ← h2, Nat.mul_comm] at this
      omega
    · subst h
      rw [gsState_succ _ _ hb]
      simp [upd2]

/-- the pixels reached from `(p, q)` with `t` steps to the left or up, and any number to the right or down -/
def NanReach (n m p q t : ℕ) (a b : ℕ) : Prop := a < n ∧ b < m ∧ (p - a) + (q - b) ≤ t

theorem sweep_quadrant (L : NanLaws N) (hn : 2 ≤ n) (hm : 2 ≤ m) {p q : ℕ} {rhs : FImg F} (hr : N (rhs p q)) (u : FImg F) {a b : ℕ}
    (ha : a < n) (hb : b < m) (hpa : p ≤ a) (hqb : q ≤ b) : N (gsSweep n m mu lam rhs u a b) := by
  have hk : ∀ {a b}, a < n → b < m → a * m + b < n * m := fun {a b} h1 h2 => by
    have := Nat.mul_le_mul_right m h1
    rw [Nat.succ_mul] at this
    omega
  obtain ⟨x, rfl⟩ := Nat.exists_eq_add_of_le hpa
  induction x generalizing b with
  | zero =>
    obtain ⟨y, rfl⟩ := Nat.exists_eq_add_of_le hqb
    induction y with
    | zero =>
      unfold gsSweep
      rw [gsState_after _ _ hb (hk ha hb)]
      exact gsPix_nan_rhs L _ hr
    | succ y ih =>
      have hb' : q + y < m := by omega
      have := ih hb' (by omega)
      unfold gsSweep at this ⊢
      rw [gsState_after _ _ hb (hk ha hb)]
      refine gsPix_nan_nb L _ (Or.inr (Or.inl ⟨by omega, ?_⟩))
      rw [show q + (y + 1) - 1 = q + y by omega, gsState_after _ _ hb' (by omega)]
      rwa [gsState_after _ _ hb' (hk ha hb')] at this
  | succ x ih =>
    have ha' : p + x < n := by omega
    have := ih hb hqb ha' (by omega)
    unfold gsSweep at this ⊢
    rw [gsState_after _ _ hb (hk ha hb)]
    refine gsPix_nan_nb L _ (Or.inr (Or.inr (Or.inr ⟨by omega, ?_⟩)))
    rw [show p + (x + 1) - 1 = p + x by omega, gsState_after _ _ hb (by nlinarith)]
    rwa [gsState_after _ _ hb (hk ha' hb)] at this

theorem sweep_reach (L : NanLaws N) (hn : 2 ≤ n) (hm : 2 ≤ m) {p q t : ℕ} (hp : p < n) (hq : q < m) {rhs u : FImg F} (hr : N (rhs p q))
    (hu : ∀ a b, NanReach n m p q t a b → N (u a b)) {a b : ℕ} (h : NanReach n m p q (t + 1) a b) : N (gsSweep n m mu lam rhs u a b) := by
  obtain ⟨ha, hb, hd⟩ := h
  have hk : a * m + b < n * m := by
    have := Nat.mul_le_mul_right m ha
    rw [Nat.succ_mul] at this
    omega
  by_cases h1 : p ≤ a
  · by_cases h2 : q ≤ b
    · exact sweep_quadrant L hn hm hr u ha hb h1 h2
    · unfold gsSweep
      rw [gsState_after _ _ hb hk]
      refine gsPix_nan_nb L _ (Or.inl ⟨by omega, ?_⟩)
      rw [gsState_before _ _ (by omega) (by omega)]
      exact hu _ _ ⟨ha, by omega, by omega⟩
  · unfold gsSweep
    rw [gsState_after _ _ hb hk]
    refine gsPix_nan_nb L _ (Or.inr (Or.inr (Or.inl ⟨by omega, ?_⟩)))
    rw [gsState_before _ _ hb (by nlinarith)]
    exact hu _ _ ⟨by omega, hb, by omega⟩

/-- `t` sweeps spread NaN by `t` steps to the left and up -/
theorem sweeps_reach (L : NanLaws N) (hn : 2 ≤ n) (hm : 2 ≤ m) {p q t : ℕ} (hp : p < n) (hq : q < m) {rhs u : FImg F} (hr : N (rhs p q))
    (hu : ∀ a b, NanReach n m p q t a b → N (u a b)) (k : ℕ) {a b : ℕ} (h : NanReach n m p q (t + k) a b) : N ((gsSweep n m mu lam rhs)^[k] u a b) := by
  induction k generalizing a b with
  | zero => exact hu _ _ h
  | succ k ih =>
    rw [Function.iterate_succ_apply']
    exact sweep_reach L hn hm hp hq hr (fun a b h => ih h) h

theorem rhs_nan (L : NanLaws N) {f : FImg F} (s : BState F) {p q : ℕ} (hf : N (f p q)) : N (rhsF n m mu lam f s p q) :=
  L.add (Or.inr (L.mul (Or.inr (L.add (Or.inr (L.mul (Or.inr hf)))))))

theorem next_u (jac : ℕ) (f : FImg F) (s : BState F) : (bregNext n m mu lam jac f s).u = (gsSweep n m mu lam (rhsF n m mu lam f s))^[jac] s.u := rfl

/-- the NaN pixel stays NaN -/
theorem iter_nan_pixel (L : NanLaws N) (hn : 2 ≤ n) (hm : 2 ≤ m) {p q : ℕ} (hp : p < n) (hq : q < m) {f : FImg F} (hf : N (f p q)) (jac k : ℕ) :
    N ((bregIter n m mu lam jac f k).u p q) := by
  induction k with
  | zero => exact hf
  | succ k ih =>
    rw [bregIter, next_u]
    cases jac with
    | zero => exact ih
    | succ j =>
      rw [Function.iterate_succ_apply']
      exact sweep_quadrant L hn hm (rhs_nan L _ hf) _ hp hq le_rfl le_rfl

/-- after `jac*k` sweeps, at least one -/
theorem iter_nan (L : NanLaws N) (hn : 2 ≤ n) (hm : 2 ≤ m) {p q : ℕ} (hp : p < n) (hq : q < m) {f : FImg F} (hf : N (f p q)) {jac : ℕ} (hj : 1 ≤ jac)
    (k : ℕ) {a b : ℕ} (h : NanReach n m p q (jac * (k + 1) - 1) a b) : N ((bregIter n m mu lam jac f (k + 1)).u a b) := by
  induction k generalizing a b with
  | zero =>
    rw [bregIter, next_u]
    obtain ⟨j, rfl⟩ := Nat.exists_eq_add_of_le hj
    rw [Nat.add_comm, Function.iterate_add_apply, Function.iterate_one]
    refine sweeps_reach (t := 0) L hn hm hp hq (rhs_nan L _ hf) (fun a b h => ?_) j (by
      have e : (1 + j) * (0 + 1) - 1 = 0 + j := by omega
      rwa [e] at h)
    obtain ⟨h1, h2, h3⟩ := h
    exact sweep_quadrant L hn hm (rhs_nan L _ hf) _ h1 h2 (by omega) (by omega)
  | succ k ih =>
    rw [bregIter, next_u]
    refine sweeps_reach (t := jac * (k + 1) - 1) L hn hm hp hq (rhs_nan L _ hf) (fun a b h => ih h) jac ?_
    have e : jac * (k + 1 + 1) - 1 = jac * (k + 1) - 1 + jac := by
      have : 1 ≤ jac * (k + 1) := Nat.mul_pos hj (by omega)
      rw [Nat.mul_succ]
      omega
    rwa [e] at h

theorem sumF_nan (L : NanLaws N) {g : ℕ → F} {k K : ℕ} (hk : k < K) (h : N (g k)) : N (sumF g K) := by
  induction K with
  | zero => omega
  | succ K ih =>
    rcases Nat.lt_succ_iff_lt_or_eq.1 hk with h1 | h1
    · exact L.add (Or.inl (ih h1))
    · subst h1
      exact L.add (Or.inr h)

/-- the stopping test never succeeds -/
theorem brk_nan (L : NanLaws N) (hn : 2 ≤ n) (hm : 2 ≤ m) {p q : ℕ} (hp : p < n) (hq : q < m) {f : FImg F} (hf : N (f p q)) (tol : F) (jac k : ℕ) :
    bregBrk n m mu lam tol jac f k = false := by
  refine L.flt _ (L.sqrt (L.div (Or.inl ?_)))
  have hk : p * m + q < n * m := by
    have := Nat.mul_le_mul_right m hp
    rw [Nat.succ_mul] at this
    omega
  refine sumF_nan L hk ?_
  have e1 : (p * m + q) / m = p := by rw [Nat.mul_comm, Nat.mul_add_div (by omega), Nat.div_eq_of_lt hq, add_zero]
  have e2 : (p * m + q) % m = q := by rw [Nat.mul_comm, Nat.mul_add_mod, Nat.mod_eq_of_lt hq]
  rw [e1, e2]
  have h := iter_nan_pixel (mu := mu) (lam := lam) L hn hm hp hq hf jac (k + 1)
  exact L.mul (Or.inl (L.sub (Or.inl h)))

end

/-! ## the laws for binary64 -/

namespace Dbl

theorem neg_neg' (a : Dbl) : - -a = a := by
  cases a <;> first | rfl | simp

theorem infMul_neg (r : ℝ) : infMul (-r) = -infMul r := by
  unfold infMul
  rcases lt_trichotomy r 0 with h | h | h
  · rw [if_neg (by linarith), if_pos (by linarith), if_neg h.ne, if_neg (by linarith)]; rfl
  · subst h; simp
  · rw [if_neg (by linarith), if_neg (by linarith), if_neg h.ne', if_pos h]; rfl

theorem neg_add (a b : Dbl) : -a + -b = -(a + b) := by
  cases a <;> cases b <;> first | rfl | (simp only [fin_neg, fin_add]; congr 1; ring)

theorem neg_sub (a b : Dbl) : -a - -b = -(a - b) := by
  cases a <;> cases b <;> first | rfl | (simp only [fin_neg, fin_sub]; congr 1; ring)

theorem mul_neg (a b : Dbl) : a * -b = -(a * b) := by
  cases a <;> cases b <;> first
    | rfl
    | exact infMul_neg _
    | (rename_i r; show infMul r = -infMul (-r); rw [infMul_neg, neg_neg'])
    | (simp only [fin_neg, fin_mul]; congr 1; ring1)

theorem neg_mul (a b : Dbl) : -a * b = -(a * b) := by
  cases a <;> cases b <;> first
    | rfl
    | exact infMul_neg _
    | (rename_i r; show infMul r = -infMul (-r); rw [infMul_neg, neg_neg'])
    | (simp only [fin_neg, fin_mul]; congr 1; ring1)

theorem round_neg (d : Dbl) : (-d).round = -d.round := by
  cases d with
  | fin r =>
    simp only [fin_neg, round]
    rw [rnd_neg, abs_neg]
    split_ifs with h1 h2 h3 h3
    · rw [fin_neg]
    · linarith
    · rfl
    · rfl
    · have : r = 0 := by linarith
      rw [this, rnd_zero, abs_zero] at h1
      exact absurd (by positivity) h1
  | _ => rfl

end Dbl

namespace B64

theorem neg_val (a : B64) : (-a).1 = -a.1 := by
  obtain ⟨d, hd⟩ := a
  cases d with
  | fin r =>
    have h := eq_fin (neg_fin (a := ⟨.fin r, hd⟩) trivial).1
    rw [(neg_fin (a := ⟨.fin r, hd⟩) trivial).2] at h
    rw [h]
    rfl
  | _ => rfl

theorem of_neg (d : Dbl) : of (-d) = -of d := by
  refine Subtype.ext ?_
  rw [neg_val]
  exact Dbl.round_neg d

theorem neg_neg (a : B64) : - -a = a := by
  refine Subtype.ext ?_
  rw [neg_val, neg_val, Dbl.neg_neg']

theorem neg_zero : -(lit 0 : B64) = lit 0 := by
  refine Subtype.ext ?_
  have h := eq_fin lit_zero.1
  rw [lit_zero.2] at h
  rw [neg_val, h, Dbl.fin_neg, _root_.neg_zero]

theorem neg_add (a b : B64) : -a + -b = -(a + b) := by
  show of ((-a).1 + (-b).1) = -of (a.1 + b.1)
  rw [neg_val, neg_val, Dbl.neg_add, of_neg]

theorem neg_sub (a b : B64) : -a - -b = -(a - b) := by
  show of ((-a).1 - (-b).1) = -of (a.1 - b.1)
  rw [neg_val, neg_val, Dbl.neg_sub, of_neg]

theorem mul_neg (a b : B64) : a * -b = -(a * b) := by
  show of (a.1 * (-b).1) = -of (a.1 * b.1)
  rw [neg_val, Dbl.mul_neg, of_neg]

theorem neg_mul (a b : B64) : -a * b = -(a * b) := by
  show of ((-a).1 * b.1) = -of (a.1 * b.1)
  rw [neg_val, Dbl.neg_mul, of_neg]

theorem fabs_neg (a : B64) : fabs (-a) = fabs a := by
  refine Subtype.ext ?_
  show fabs (-a).1 = fabs a.1
  rw [neg_val]
  cases a.1 <;> first | rfl | (show Dbl.fin _ = Dbl.fin _; rw [abs_neg])

theorem zero_val : (lit 0 : B64).1 = Dbl.fin 0 := by
  have h := eq_fin lit_zero.1
  rwa [lit_zero.2] at h

theorem lit_neg : (lit (-1) : B64) = -lit 1 := by
  refine Subtype.ext ?_
  rw [neg_val, eq_fin lit_neg_one.1, eq_fin lit_one.1, lit_neg_one.2, lit_one.2, Dbl.fin_neg]

/-- nothing is left of zero or NaN -/
theorem shrunk_zero {g x : B64} (hg : flt g (lit 0) = false) (hx : x.1 = Dbl.fin 0 ∨ x.1 = Dbl.nan) : cmax (fabs x - g) (lit 0) = lit 0 := by
  unfold cmax
  rw [if_neg]
  show ¬ (Scalar.flt (lit 0 : B64).1 (Dbl.round (fabs x.1 - g.1)) = true)
  rw [zero_val]
  have hg' : Scalar.flt g.1 (Dbl.fin 0) = false := by rw [← zero_val]; exact hg
  rcases hx with h | h <;> rw [h]
  · revert hg'
    obtain ⟨d, hd⟩ := g
    cases d with
    | fin r =>
      intro hg'
      have hr : ¬ r < 0 := fun c => by
        rw [(Dbl.flt_fin r 0).2 c] at hg'
        exact Bool.noConfusion hg'
      show ¬ (Scalar.flt (Dbl.fin 0) (Dbl.round (Dbl.fin (|0| + -r))) = true)
      simp only [Dbl.round, abs_zero, zero_add]
      split_ifs with h1 h2
      · rw [Dbl.flt_fin, rnd_neg]
        have := rnd_nonneg (not_lt.1 hr)
        linarith
      · exact absurd h2 (by linarith [not_lt.1 hr])
      · rw [Dbl.flt_iff]; exact fun h => h
    | pinf => intro _; rw [Dbl.flt_iff]; exact fun h => h
    | ninf =>
      intro hg'
      rw [(Dbl.flt_iff Dbl.ninf (Dbl.fin 0)).2 trivial] at hg'
      exact Bool.noConfusion hg'
    | nan => intro _; rw [Dbl.flt_iff]; exact fun h => h
  · rw [Dbl.flt_iff]
    exact fun h => h

theorem shrink_neg {g : B64} (hg : flt g (lit 0) = false) (x : B64) : shrinkVal g (-x) = -shrinkVal g x := by
  by_cases hx : x.1 = Dbl.fin 0 ∨ x.1 = Dbl.nan
  · have hx' : (-x).1 = Dbl.fin 0 ∨ (-x).1 = Dbl.nan := by
      rw [neg_val]
      rcases hx with h | h <;> rw [h]
      · left; rw [Dbl.fin_neg, _root_.neg_zero]
      · right; rfl
    have z : ∀ a : B64, dsign a * (lit 0 : B64) = lit 0 := fun a => by
      have h1 : (lit 1 * lit 0 : B64) = lit 0 := by
        refine Subtype.ext ?_
        show Dbl.round ((lit 1 : B64).1 * (lit 0 : B64).1) = _
        rw [zero_val, eq_fin lit_one.1, lit_one.2, Dbl.fin_mul, mul_zero]
        show Dbl.round (Dbl.fin 0) = _
        simp only [Dbl.round, rnd_zero, abs_zero]
        rw [if_pos (by positivity)]
      unfold dsign
      split_ifs
      · exact h1
      · rw [lit_neg, neg_mul, h1, neg_zero]
    unfold shrinkVal
    rw [shrunk_zero hg hx, shrunk_zero hg hx', z, z, neg_zero]
  · have hd : dsign (-x) = -dsign x := by
      unfold dsign
      have e1 : fle (lit 0) (-x) = Scalar.fle (Dbl.fin 0) (-x.1) := by
        show Scalar.fle (lit 0 : B64).1 (-x).1 = _
        rw [zero_val, neg_val]
      have e2 : fle (lit 0) x = Scalar.fle (Dbl.fin 0) x.1 := by
        show Scalar.fle (lit 0 : B64).1 x.1 = _
        rw [zero_val]
      rw [e1, e2]
      clear e1 e2
      push Not at hx
      obtain ⟨d, hd⟩ := x
      simp only at hx ⊢
      cases d with
      | fin r =>
        have hr : r ≠ 0 := fun c => hx.1 (by rw [c])
        rw [Dbl.fin_neg]
        simp only [Dbl.fle_fin]
        rcases lt_or_gt_of_ne hr with h | h
        · rw [if_pos (by linarith), if_neg (by linarith), lit_neg, neg_neg]
        · rw [if_neg (by linarith), if_pos h.le, lit_neg]
      | pinf => rw [if_neg, if_pos, lit_neg] <;> rw [Dbl.fle_iff] <;> first | trivial | exact fun h => h
      | ninf => rw [if_pos, if_neg, lit_neg, neg_neg] <;> rw [Dbl.fle_iff] <;> first | trivial | exact fun h => h
      | nan => exact absurd rfl hx.2
    unfold shrinkVal
    rw [hd, fabs_neg, neg_mul]

theorem signLaws : SignLaws B64 := ⟨neg_neg, neg_zero, neg_add, neg_sub, mul_neg, neg_mul, shrink_neg⟩

theorem nanLaws : NanLaws (fun a : B64 => a.1 = Dbl.nan) where
  add {a b} h := by
    show Dbl.round (a.1 + b.1) = _
    rcases h with h | h <;> rw [h]
    · rfl
    · cases a.1 <;> rfl
  sub {a b} h := by
    show Dbl.round (a.1 - b.1) = _
    rcases h with h | h <;> rw [h]
    · rfl
    · cases a.1 <;> rfl
  mul {a b} h := by
    show Dbl.round (a.1 * b.1) = _
    rcases h with h | h <;> rw [h]
    · rfl
    · cases a.1 <;> rfl
  div {a b} h := by
    show Dbl.round (a.1 / b.1) = _
    rcases h with h | h <;> rw [h]
    · rfl
    · cases a.1 <;> rfl
  sqrt {a} h := by
    show Dbl.round (fsqrt a.1) = _
    rw [h]
    rfl
  flt {a} b h := by
    show Scalar.flt a.1 b.1 = _
    rw [h, Bool.eq_false_iff, Ne, Dbl.flt_iff]
    exact fun h => h

end B64
end L1c
