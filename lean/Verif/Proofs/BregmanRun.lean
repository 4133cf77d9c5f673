import Verif.Proofs.BregmanK

/-! Helper lemmas: a whole run of `l1c_breg_anistropic_TV`, for any scalar arithmetic. -/

namespace L1c
open Prog Scalar

variable {F : Type} [Scalar F] {n m : ℕ}

/-! ### functional description -/

/-- variables carried from one outer iteration to the next -/
@[ext] structure BState (F : Type) where
  (u dx dy bx bY : FImg F)

/-- right-hand side of the linear system -/
def rhsF (n m : ℕ) (mu lam : F) (f : FImg F) (s : BState F) : FImg F := fun i j =>
  dRowT lam m (fun j => -s.bx i j + s.dx i j) j
    + lit 1 * (dColT lam n (fun i j => -s.bY i j + s.dy i j) i j + mu * f i j)

/-- `Dx u + bx` -/
def gxF (m : ℕ) (u b : FImg F) : FImg F := fun i j => dRow (lit 1) m (u i) j + lit 1 * b i j
/-- `Dy u + by` -/
def gyF (n : ℕ) (u b : FImg F) : FImg F := fun i j =>
  (if i + 1 < n then lit 1 * (u (i + 1) j - u i j) else lit 0) + lit 1 * b i j

/-- one outer iteration -/
def bregNext (n m : ℕ) (mu lam : F) (jac : ℕ) (f : FImg F) (s : BState F) : BState F :=
  let u := (gsSweep n m mu lam (rhsF n m mu lam f s))^[jac] s.u
  let gx := gxF m u s.bx
  let gy := gyF n u s.bY
  { u := u
    dx := fun i j => shrinkVal (lit 1 / lam) (gx i j)
    dy := fun i j => shrinkVal (lit 1 / lam) (gy i j)
    bx := fun i j => -shrinkVal (lit 1 / lam) (gx i j) + gx i j
    bY := fun i j => -shrinkVal (lit 1 / lam) (gy i j) + gy i j }

/-- left-to-right sum -/
def sumF (g : ℕ → F) : ℕ → F
  | 0 => lit 0
  | k + 1 => sumF g k + g k

/-- value of `l1c_dnrm2_rel_err` on two images -/
def relErrF (n m : ℕ) (A B : FImg F) : F :=
  fsqrt (sumF (fun k => (A (k / m) (k % m) - B (k / m) (k % m)) * (A (k / m) (k % m) - B (k / m) (k % m))) (n * m)
    / sumF (fun k => B (k / m) (k % m) * B (k / m) (k % m)) (n * m))

/-- the state after `k` outer iterations -/
def bregIter (n m : ℕ) (mu lam : F) (jac : ℕ) (f : FImg F) : ℕ → BState F
  | 0 => ⟨f, fun _ _ => lit 0, fun _ _ => lit 0, fun _ _ => lit 0, fun _ _ => lit 0⟩
  | k + 1 => bregNext n m mu lam jac f (bregIter n m mu lam jac f k)

/-- contents of `uk_1` after `k` outer iterations -/
def bregOld (n m : ℕ) (mu lam : F) (jac : ℕ) (f : FImg F) : ℕ → FImg F
  | 0 => fun _ _ => lit 0
  | k + 1 => (bregIter n m mu lam jac f (k + 1)).u

/-- does iteration `k` (counted from 0) end in `break`? -/
def bregBrk (n m : ℕ) (mu lam tol : F) (jac : ℕ) (f : FImg F) (k : ℕ) : Bool :=
  flt (relErrF n m (bregIter n m mu lam jac f (k + 1)).u (bregOld n m mu lam jac f k)) tol

/-! ### kernels on `HoldsF` -/

section
variable {mem : Mem F} {X D : Ptr} {A : FImg F} {alpha : F}

theorem kF_Dx (hm : 1 ≤ m) (hfit : FitsInt ((n : Int) * m)) (hX : HoldsF mem X n m A)
    (hD : mem.Has D ((n * m : ℕ) : Int)) (hs : Sep ((n * m : ℕ) : Int) D X) :
    KSpec (l1c_Dx n m alpha X D) mem (mem.setImg D n m fun i j => dRow alpha m (A i) j) := by
  have := kspec_Dx (alpha := alpha) hm hfit hX.1 hD hs
  rwa [Mem.setImg_congr _ D _ _ _ (fun i j => dRow alpha m (A i) j)] at this
  intro i hi j hj
  unfold dRow
  split
  · rw [hX.2 i hi j hj, hX.2 i hi (j + 1) (by omega)]
  · rfl

theorem kF_DxT (hm : 2 ≤ m) (hfit : FitsInt ((n : Int) * m)) (hX : HoldsF mem X n m A)
    (hD : mem.Has D ((n * m : ℕ) : Int)) (hs : Sep ((n * m : ℕ) : Int) D X) :
    KSpec (l1c_DxT n m alpha X D) mem (mem.setImg D n m fun i j => dRowT alpha m (A i) j) := by
  have := kspec_DxT (alpha := alpha) hm hfit hX.1 hD hs
  rwa [Mem.setImg_congr _ D _ _ _ (fun i j => dRowT alpha m (A i) j)] at this
  intro i hi j hj
  unfold dRowT
  rw [hX.2 i hi j hj, hX.2 i hi (m - 2) (by omega), hX.2 i hi 0 (by omega), hX.2 i hi (j - 1) (by omega)]

theorem kF_Dy (hn : 1 ≤ n) (hfit : FitsInt ((n : Int) * m)) (hX : HoldsF mem X n m A)
    (hD : mem.Has D ((n * m : ℕ) : Int)) (hs : Sep ((n * m : ℕ) : Int) D X) :
    KSpec (l1c_Dy n m alpha X D) mem (mem.setImg D n m fun i j =>
      if i + 1 < n then alpha * (A (i + 1) j - A i j) else lit 0) := by
  have := kspec_Dy (alpha := alpha) hn hfit hX.1 hD hs
  rwa [Mem.setImg_congr _ D _ _ _ (fun i j => if i + 1 < n then alpha * (A (i + 1) j - A i j) else lit 0)] at this
  intro i hi j hj
  split
  · rw [hX.2 i hi j hj, hX.2 (i + 1) (by omega) j hj]
  · rfl

theorem kF_DyT (hfit : FitsInt ((n : Int) * m)) (hX : HoldsF mem X n m A)
    (hD : mem.Has D ((n * m : ℕ) : Int)) (hs : Sep ((n * m : ℕ) : Int) D X) :
    KSpec (l1c_DyT n m alpha X D) mem (mem.setImg D n m (dColT alpha n A)) := by
  have := kspec_DyT (alpha := alpha) hfit hX.1 hD hs
  rwa [Mem.setImg_congr _ D _ _ _ (dColT alpha n A)] at this
  intro i hi j hj
  unfold dColT
  rw [hX.2 i hi j hj]
  have e1 : (if i = 0 then (lit 0 : F) else mem.pix X m (i - 1) j) = if i = 0 then lit 0 else A (i - 1) j := by
    split
    · rfl
    · exact hX.2 _ (by omega) j hj
  rw [e1]

theorem run_sumF {g : ℕ → F} {N : ℕ} {body : Int → F → Prog F F}
    (h : ∀ k < N, ∀ s, (body (k : Int) s).run mem = some (s + g k, mem)) :
    (foldUp 0 (N : Int) (lit 0) body).run mem = some (sumF g N, mem) := by
  have := run_sum (m := mem) (N := N) (lo := 0) (s := (lit 0 : F)) (body := body) (fun i => sumF g i.toNat)
    (by omega) rfl (fun i h0 h1 => by
      obtain ⟨k, rfl⟩ : ∃ k : ℕ, i = k := ⟨i.toNat, by omega⟩
      rw [h k (by omega), show ((k : Int) + 1).toNat = k + 1 by omega]; rfl)
  simpa using this

omit [Scalar F] in
theorem HoldsF.flat {P : Ptr} (hX : HoldsF mem P n m A) {k : ℕ} (hk : k < n * m) :
    mem.Ok (P + (k : Int)) ∧ mem.val (P + (k : Int)) = A (k / m) (k % m) := by
  refine ⟨hX.1 _ (by omega) (by exact_mod_cast hk), ?_⟩
  have hm : 0 < m := by
    rcases Nat.eq_zero_or_pos m with rfl | h
    · simp at hk
    · exact h
  rw [← hX.2 _ (by rw [Nat.div_lt_iff_lt_mul hm]; exact hk) _ (Nat.mod_lt _ hm)]
  unfold Mem.pix
  rw [Nat.div_add_mod']

theorem run_relErr {Y : Ptr} {B : FImg F} (hX : HoldsF mem X n m A) (hY : HoldsF mem Y n m B) :
    (l1c_dnrm2_rel_err ((n : Int) * m) X Y).run mem = some (relErrF n m A B, mem) := by
  have e : (n : Int) * m = ((n * m : ℕ) : Int) := by push_cast; rfl
  have h1 : (cblas_ddot ((n * m : ℕ) : Int) Y Y).run mem
      = some (sumF (fun k => B (k / m) (k % m) * B (k / m) (k % m)) (n * m), mem) :=
    run_sumF fun k hk s => by
      simp only [run_bind, run_load (hY.flat hk).1, (hY.flat hk).2, Option.bind_some, run_pure]
  have h2 : (sqDiffLoop ((n * m : ℕ) : Int) X Y).run mem
      = some (sumF (fun k => (A (k / m) (k % m) - B (k / m) (k % m)) * (A (k / m) (k % m) - B (k / m) (k % m))) (n * m), mem) :=
    run_sumF fun k hk s => by
      simp only [run_bind, run_load (hX.flat hk).1, (hX.flat hk).2, run_load (hY.flat hk).1, (hY.flat hk).2,
        Option.bind_some, run_pure]
  rw [e]
  simp only [l1c_dnrm2_rel_err, run_bind, h1, h2, Option.bind_some, run_pure]
  rfl
end

/-! ### the ten arrays -/

/-- index of each array: 0 uk, 1 f, 2 uk_1, 3 d_x, 4 d_y, 5 b_x, 6 b_y, 7 dwork1, 8 dwork2, 9 rhs -/
def toBuf (P : Fin 10 → Ptr) : BregBuf := ⟨P 0, P 1, P 2, P 3, P 4, P 5, P 6, P 7, P 8, P 9⟩

/-- pairwise disjoint arrays -/
def SepAll (n m : ℕ) (P : Fin 10 → Ptr) : Prop := ∀ a b, a ≠ b → Sep ((n * m : ℕ) : Int) (P a) (P b)

def HoldsAll (mem : Mem F) (P : Fin 10 → Ptr) (n m : ℕ) (A : Fin 10 → FImg F) : Prop := ∀ a, HoldsF mem (P a) n m (A a)

/-- nothing outside the arrays changes -/
def FrameB (P : Fin 10 → Ptr) (n m : ℕ) (mem mem' : Mem F) : Prop :=
  mem'.len = mem.len ∧ ∀ q, (∀ a, ∀ k < n * m, q ≠ P a + ((k : ℕ) : Int)) → mem'.val q = mem.val q

omit [Scalar F] in
theorem FrameB.refl (P : Fin 10 → Ptr) (mem : Mem F) : FrameB P n m mem mem := ⟨rfl, fun _ _ => rfl⟩
omit [Scalar F] in
theorem FrameB.trans {P : Fin 10 → Ptr} {a b c : Mem F} (h : FrameB P n m a b) (h' : FrameB P n m b c) : FrameB P n m a c :=
  ⟨h'.1.trans h.1, fun q hq => (h'.2 q hq).trans (h.2 q hq)⟩

/-- the kernel turns contents `A` into contents `A'` -/
def Tr (P : Fin 10 → Ptr) (n m : ℕ) (k : Kernel F) (A A' : Fin 10 → FImg F) : Prop :=
  ∀ mem, HoldsAll mem P n m A → ∃ mem', KSpec k mem mem' ∧ HoldsAll mem' P n m A' ∧ FrameB P n m mem mem'

omit [Scalar F] in
theorem Tr.append {P : Fin 10 → Ptr} {k k' : Kernel F} {A B C : Fin 10 → FImg F} (h : Tr P n m k A B)
    (h' : Tr P n m k' B C) : Tr P n m (k ++ k') A C := by
  intro mem hm
  obtain ⟨m1, a, b, c⟩ := h mem hm
  obtain ⟨m2, d, e, f⟩ := h' m1 b
  exact ⟨m2, a.append d, e, c.trans f⟩

omit [Scalar F] in
theorem Tr.of_set {P : Fin 10 → Ptr} (hS : SepAll n m P) {k : Kernel F} {A : Fin 10 → FImg F} (d : Fin 10) (g : FImg F)
    (h : ∀ mem, HoldsAll mem P n m A → KSpec k mem (mem.setImg (P d) n m g)) : Tr P n m k A (Function.update A d g) := by
  intro mem hm
  refine ⟨_, h mem hm, fun a => ?_, rfl, fun q hq => ?_⟩
  · by_cases e : a = d
    · subst e; rw [Function.update_self]; exact holdsF_setImg (hm a).1
    · rw [Function.update_of_ne e]; exact (hm a).setImg (hS d a (Ne.symm e))
  · apply Mem.setRange_val_out
    rintro ⟨h1, h2, h3⟩
    refine hq d (q.off - (P d).off).toNat (by omega) ?_
    ext
    · simpa using h1
    · simp; omega

section
variable {P : Fin 10 → Ptr} {A A' : Fin 10 → FImg F} {X Y : FImg F} {mu lam tol : F}

theorem tr_mxpy (hS : SepAll n m P) (x y z : Fin 10) (hx : z ≠ x) (hy : z ≠ y) (eX : A x = X) (eY : A y = Y)
    (e : Function.update A z (fun i j => -X i j + Y i j) = A') :
    Tr P n m (breg_mxpy_z ((n : Int) * m) (P x) (P y) (P z)) A A' := by
  subst eX eY e
  exact .of_set hS z _ fun _ h => kspec_img2 (fun a b => -a + b) (h x) (h y) (h z).1 (hS z x hx).noCross (hS z y hy).noCross

theorem tr_axpy (hS : SepAll n m P) (alpha : F) (x y : Fin 10) (hx : y ≠ x) (eX : A x = X) (eY : A y = Y)
    (e : Function.update A y (fun i j => Y i j + alpha * X i j) = A') :
    Tr P n m (cblas_daxpy ((n : Int) * m) alpha (P x) (P y)) A A' := by
  subst eX eY e
  exact .of_set hS y _ fun _ h => kspec_img2 (fun a b => b + alpha * a) (h x) (h y) (h y).1 (hS y x hx).noCross (NoCross.refl _ _)

omit [Scalar F] in
theorem tr_copy (hS : SepAll n m P) (x y : Fin 10) (hx : y ≠ x) (eX : A x = X) (e : Function.update A y X = A') :
    Tr P n m (cblas_dcopy ((n : Int) * m) (P x) (P y) : Kernel F) A A' := by
  subst eX e
  exact .of_set hS y _ fun _ h => kspec_img1 (fun a => a) (h x) (h y).1 (hS y x hx).noCross

theorem tr_shrink (hS : SepAll n m P) (gamma : F) (x y : Fin 10) (hx : y ≠ x) (eX : A x = X)
    (e : Function.update A y (fun i j => shrinkVal gamma (X i j)) = A') :
    Tr P n m (breg_shrink1 ((n : Int) * m) (P x) (P y) gamma) A A' := by
  subst eX e
  exact .of_set hS y _ fun _ h => kspec_img1 (shrinkVal gamma) (h x) (h y).1 (hS y x hx).noCross

theorem tr_gs (hn : 2 ≤ n) (hm : 2 ≤ m) (hS : SepAll n m P) (eX : A 9 = X) (eY : A 0 = Y)
    (e : Function.update A 0 (gsSweep n m mu lam X Y) = A') :
    Tr P n m (seqK (breg_anis_guass_seidel n m (P 0) (P 9) mu lam)) A A' := by
  subst eX eY e
  exact .of_set hS 0 _ fun _ h => kspec_seq (run_gs hn hm (h 0) (h 9) (hS 0 9 (by decide)))

theorem tr_Dx (hm : 1 ≤ m) (hfit : FitsInt ((n : Int) * m)) (hS : SepAll n m P) (alpha : F) (x y : Fin 10) (hx : y ≠ x)
    (eX : A x = X) (e : Function.update A y (fun i j => dRow alpha m (X i) j) = A') :
    Tr P n m (l1c_Dx n m alpha (P x) (P y)) A A' := by
  subst eX e
  exact .of_set hS y _ fun _ h => kF_Dx hm hfit (h x) (h y).1 (hS y x hx)

theorem tr_DxT (hm : 2 ≤ m) (hfit : FitsInt ((n : Int) * m)) (hS : SepAll n m P) (alpha : F) (x y : Fin 10) (hx : y ≠ x)
    (eX : A x = X) (e : Function.update A y (fun i j => dRowT alpha m (X i) j) = A') :
    Tr P n m (l1c_DxT n m alpha (P x) (P y)) A A' := by
  subst eX e
  exact .of_set hS y _ fun _ h => kF_DxT hm hfit (h x) (h y).1 (hS y x hx)

theorem tr_Dy (hn : 1 ≤ n) (hfit : FitsInt ((n : Int) * m)) (hS : SepAll n m P) (alpha : F) (x y : Fin 10) (hx : y ≠ x)
    (eX : A x = X) (e : Function.update A y (fun i j => if i + 1 < n then alpha * (X (i + 1) j - X i j) else lit 0) = A') :
    Tr P n m (l1c_Dy n m alpha (P x) (P y)) A A' := by
  subst eX e
  exact .of_set hS y _ fun _ h => kF_Dy hn hfit (h x) (h y).1 (hS y x hx)

theorem tr_DyT (hfit : FitsInt ((n : Int) * m)) (hS : SepAll n m P) (alpha : F) (x y : Fin 10) (hx : y ≠ x)
    (eX : A x = X) (e : Function.update A y (dColT alpha n X) = A') :
    Tr P n m (l1c_DyT n m alpha (P x) (P y)) A A' := by
  subst eX e
  exact .of_set hS y _ fun _ h => kF_DyT hfit (h x) (h y).1 (hS y x hx)

variable {u f u1 dx dy bx bY w1 w2 r : FImg F}

/-- `breg_anis_rhs` -/
theorem tr_rhs (hm : 2 ≤ m) (hfit : FitsInt ((n : Int) * m)) (hS : SepAll n m P) :
    ∃ w1' w2', Tr P n m (breg_anis_rhs n m (P 1) (P 3) (P 5) (P 4) (P 6) (P 9) mu lam (P 7) (P 8))
      ![u, f, u1, dx, dy, bx, bY, w1, w2, r]
      ![u, f, u1, dx, dy, bx, bY, w1', w2', rhsF n m mu lam f ⟨u, dx, dy, bx, bY⟩] := by
  have t0 : Tr P n m (seqK (assert (FitsInt ((n : Int) * m)))) ![u, f, u1, dx, dy, bx, bY, w1, w2, r]
      ![u, f, u1, dx, dy, bx, bY, w1, w2, r] :=
    fun mem h => ⟨mem, kspec_seq (run_assert hfit mem), h, FrameB.refl _ _⟩
  have t1 := tr_mxpy (A := ![u, f, u1, dx, dy, bx, bY, w1, w2, r])
    (A' := ![u, f, u1, dx, dy, bx, bY, fun i j => -bY i j + dy i j, w2, r])
    hS 6 4 7 (by decide) (by decide) rfl rfl (by funext a; fin_cases a <;> rfl)
  have t2 := tr_DyT (A := ![u, f, u1, dx, dy, bx, bY, fun i j => -bY i j + dy i j, w2, r])
    (A' := ![u, f, u1, dx, dy, bx, bY, fun i j => -bY i j + dy i j, dColT lam n (fun i j => -bY i j + dy i j), r])
    hfit hS lam 7 8 (by decide) rfl (by funext a; fin_cases a <;> rfl)
  have t3 := tr_mxpy (A := ![u, f, u1, dx, dy, bx, bY, fun i j => -bY i j + dy i j, dColT lam n (fun i j => -bY i j + dy i j), r])
    (A' := ![u, f, u1, dx, dy, bx, bY, fun i j => -bx i j + dx i j, dColT lam n (fun i j => -bY i j + dy i j), r])
    hS 5 3 7 (by decide) (by decide) rfl rfl (by funext a; fin_cases a <;> rfl)
  have t4 := tr_DxT (A := ![u, f, u1, dx, dy, bx, bY, fun i j => -bx i j + dx i j, dColT lam n (fun i j => -bY i j + dy i j), r])
    (A' := ![u, f, u1, dx, dy, bx, bY, fun i j => -bx i j + dx i j, dColT lam n (fun i j => -bY i j + dy i j),
      fun i j => dRowT lam m (fun j => -bx i j + dx i j) j])
    hm hfit hS lam 7 9 (by decide) rfl (by funext a; fin_cases a <;> rfl)
  have t5 := tr_axpy (A := ![u, f, u1, dx, dy, bx, bY, fun i j => -bx i j + dx i j, dColT lam n (fun i j => -bY i j + dy i j),
      fun i j => dRowT lam m (fun j => -bx i j + dx i j) j])
    (A' := ![u, f, u1, dx, dy, bx, bY, fun i j => -bx i j + dx i j,
      fun i j => dColT lam n (fun i j => -bY i j + dy i j) i j + mu * f i j,
      fun i j => dRowT lam m (fun j => -bx i j + dx i j) j])
    hS mu 1 8 (by decide) rfl rfl (by funext a; fin_cases a <;> rfl)
  have t6 := tr_axpy (A := ![u, f, u1, dx, dy, bx, bY, fun i j => -bx i j + dx i j,
      fun i j => dColT lam n (fun i j => -bY i j + dy i j) i j + mu * f i j,
      fun i j => dRowT lam m (fun j => -bx i j + dx i j) j])
    (A' := ![u, f, u1, dx, dy, bx, bY, fun i j => -bx i j + dx i j,
      fun i j => dColT lam n (fun i j => -bY i j + dy i j) i j + mu * f i j,
      rhsF n m mu lam f ⟨u, dx, dy, bx, bY⟩])
    hS (lit 1) 8 9 (by decide) rfl rfl (by funext a; fin_cases a <;> rfl)
  exact ⟨_, _, ((((((t0.append t1).append t2).append t3).append t4).append t5).append t6)⟩

/-- everything after the convergence measure -/
theorem tr_tail (hn : 2 ≤ n) (hm : 2 ≤ m) (hfit : FitsInt ((n : Int) * m)) (hS : SepAll n m P) :
    ∃ w1' w2', Tr P n m (bregTail n m (toBuf P) lam)
      ![u, f, u1, dx, dy, bx, bY, w1, w2, r]
      ![u, f, u, fun i j => shrinkVal (lit 1 / lam) (gxF m u bx i j), fun i j => shrinkVal (lit 1 / lam) (gyF n u bY i j),
        fun i j => -shrinkVal (lit 1 / lam) (gxF m u bx i j) + gxF m u bx i j,
        fun i j => -shrinkVal (lit 1 / lam) (gyF n u bY i j) + gyF n u bY i j, w1', w2', r] := by
  have t0 := tr_Dx (A := ![u, f, u1, dx, dy, bx, bY, w1, w2, r])
    (A' := ![u, f, u1, dx, dy, bx, bY, fun i j => dRow (lit 1) m (u i) j, w2, r])
    (show 1 ≤ m by omega) hfit hS (lit 1) 0 7 (by decide) rfl (by funext a; fin_cases a <;> rfl)
  have t1 := tr_axpy (A := ![u, f, u1, dx, dy, bx, bY, fun i j => dRow (lit 1) m (u i) j, w2, r])
    (A' := ![u, f, u1, dx, dy, bx, bY, gxF m u bx, w2, r])
    hS (lit 1) 5 7 (by decide) rfl rfl (by funext a; fin_cases a <;> rfl)
  have t2 := tr_Dy (A := ![u, f, u1, dx, dy, bx, bY, gxF m u bx, w2, r])
    (A' := ![u, f, u1, dx, dy, bx, bY, gxF m u bx, fun i j => if i + 1 < n then lit 1 * (u (i + 1) j - u i j) else lit 0, r])
    (show 1 ≤ n by omega) hfit hS (lit 1) 0 8 (by decide) rfl (by funext a; fin_cases a <;> rfl)
  have t3 := tr_axpy (A := ![u, f, u1, dx, dy, bx, bY, gxF m u bx, fun i j => if i + 1 < n then lit 1 * (u (i + 1) j - u i j) else lit 0, r])
    (A' := ![u, f, u1, dx, dy, bx, bY, gxF m u bx, gyF n u bY, r])
    hS (lit 1) 6 8 (by decide) rfl rfl (by funext a; fin_cases a <;> rfl)
  have t4 := tr_shrink (A := ![u, f, u1, dx, dy, bx, bY, gxF m u bx, gyF n u bY, r])
    (A' := ![u, f, u1, fun i j => shrinkVal (lit 1 / lam) (gxF m u bx i j), dy, bx, bY, gxF m u bx, gyF n u bY, r])
    hS (lit 1 / lam) 7 3 (by decide) rfl (by funext a; fin_cases a <;> rfl)
  have t5 := tr_shrink (A := ![u, f, u1, fun i j => shrinkVal (lit 1 / lam) (gxF m u bx i j), dy, bx, bY, gxF m u bx, gyF n u bY, r])
    (A' := ![u, f, u1, fun i j => shrinkVal (lit 1 / lam) (gxF m u bx i j), fun i j => shrinkVal (lit 1 / lam) (gyF n u bY i j),
      bx, bY, gxF m u bx, gyF n u bY, r])
    hS (lit 1 / lam) 8 4 (by decide) rfl (by funext a; fin_cases a <;> rfl)
  have t6 := tr_mxpy (A := ![u, f, u1, fun i j => shrinkVal (lit 1 / lam) (gxF m u bx i j), fun i j => shrinkVal (lit 1 / lam) (gyF n u bY i j),
      bx, bY, gxF m u bx, gyF n u bY, r])
    (A' := ![u, f, u1, fun i j => shrinkVal (lit 1 / lam) (gxF m u bx i j), fun i j => shrinkVal (lit 1 / lam) (gyF n u bY i j),
      fun i j => -shrinkVal (lit 1 / lam) (gxF m u bx i j) + gxF m u bx i j, bY, gxF m u bx, gyF n u bY, r])
    hS 3 7 5 (by decide) (by decide) rfl rfl (by funext a; fin_cases a <;> rfl)
  have t7 := tr_mxpy (A := ![u, f, u1, fun i j => shrinkVal (lit 1 / lam) (gxF m u bx i j), fun i j => shrinkVal (lit 1 / lam) (gyF n u bY i j),
      fun i j => -shrinkVal (lit 1 / lam) (gxF m u bx i j) + gxF m u bx i j, bY, gxF m u bx, gyF n u bY, r])
    (A' := ![u, f, u1, fun i j => shrinkVal (lit 1 / lam) (gxF m u bx i j), fun i j => shrinkVal (lit 1 / lam) (gyF n u bY i j),
      fun i j => -shrinkVal (lit 1 / lam) (gxF m u bx i j) + gxF m u bx i j,
      fun i j => -shrinkVal (lit 1 / lam) (gyF n u bY i j) + gyF n u bY i j, gxF m u bx, gyF n u bY, r])
    hS 4 8 6 (by decide) (by decide) rfl rfl (by funext a; fin_cases a <;> rfl)
  have t8 := tr_copy (A := ![u, f, u1, fun i j => shrinkVal (lit 1 / lam) (gxF m u bx i j), fun i j => shrinkVal (lit 1 / lam) (gyF n u bY i j),
      fun i j => -shrinkVal (lit 1 / lam) (gxF m u bx i j) + gxF m u bx i j,
      fun i j => -shrinkVal (lit 1 / lam) (gyF n u bY i j) + gyF n u bY i j, gxF m u bx, gyF n u bY, r])
    (A' := ![u, f, u, fun i j => shrinkVal (lit 1 / lam) (gxF m u bx i j), fun i j => shrinkVal (lit 1 / lam) (gyF n u bY i j),
      fun i j => -shrinkVal (lit 1 / lam) (gxF m u bx i j) + gxF m u bx i j,
      fun i j => -shrinkVal (lit 1 / lam) (gyF n u bY i j) + gyF n u bY i j, gxF m u bx, gyF n u bY, r])
    hS 0 2 (by decide) rfl (by funext a; fin_cases a <;> rfl)
  exact ⟨_, _, ((((((((t0.append t1).append t2).append t3).append t4).append t5).append t6).append t7).append t8)⟩

/-! ### loops -/

/-- the command turns contents `A` into contents `A'` and returns `a` -/
def CTr {α : Type} (P : Fin 10 → Ptr) (n m : ℕ) (c : Cmd F α) (A : Fin 10 → FImg F) (a : α) (A' : Fin 10 → FImg F) : Prop :=
  ∀ s : PState F, HoldsAll s.mem P n m A → ∃ mem', CSpec c s a { s with mem := mem' } ∧ HoldsAll mem' P n m A' ∧
    FrameB P n m s.mem mem'

theorem CTr.bind {α β : Type} {c : Cmd F α} {g : α → Cmd F β} {B C : Fin 10 → FImg F} {a : α} {b : β} (h : CTr P n m c A a B)
    (h' : CTr P n m (g a) B b C) : CTr P n m (c >>= g) A b C := by
  intro s hs
  obtain ⟨m1, h1, h2, h3⟩ := h s hs
  obtain ⟨m2, h4, h5, h6⟩ := h' { s with mem := m1 } h2
  exact ⟨m2, h1.bind h4, h5, h3.trans h6⟩

theorem CTr.pure {α : Type} (a : α) : CTr P n m (Pure.pure a : Cmd F α) A a A :=
  fun s h => ⟨s.mem, .done a s, h, FrameB.refl _ _⟩

theorem Tr.exec {k : Kernel F} (h : Tr P n m k A A') : CTr P n m (Cmd.exec k) A () A' := by
  intro s hs
  obtain ⟨m1, h1, h2, h3⟩ := h s.mem hs
  exact ⟨m1, cspec_exec h1, h2, h3⟩

/-- `for` loops: `k` iterations are done before, each leads from contents satisfying `T k` to contents
satisfying `T (k+1)` -/
theorem ctr_loopLe {hi : Int} {body : Int → Cmd F Bool} (T : ℕ → (Fin 10 → FImg F) → Prop) (brk : ℕ → Bool)
    (hb : ∀ (k : ℕ) A (i : Int), T k A → ∃ A', T (k + 1) A' ∧ CTr P n m (body i) A (brk k) A')
    (hmax : hi < INT_MAX) (k : ℕ) (d : ℕ) (hd : hi + 1 - (k + 1) = d) (hA : T k A) :
    ∃ K i A', T K A' ∧ CTr P n m (Cmd.loopLe hi body (k + 1)) A i A' ∧ k ≤ K ∧ K ≤ k + d ∧
      ((K = k + d ∧ i = K + 1 ∧ ∀ l, k ≤ l → l < K → brk l = false) ∨
       (k < K ∧ i = K ∧ brk (K - 1) = true ∧ ∀ l, k ≤ l → l < K - 1 → brk l = false)) := by
  induction d generalizing k A with
  | zero =>
    rw [Cmd.loopLe, if_neg (by omega)]
    exact ⟨k, (k : Int) + 1, A, hA, CTr.pure _, le_rfl, le_rfl, Or.inl ⟨rfl, rfl, fun l _ _ => by omega⟩⟩
  | succ d ih =>
    rw [Cmd.loopLe, if_pos (by omega)]
    obtain ⟨A', hA', hb'⟩ := hb k A (k + 1) hA
    by_cases hk : brk k = true
    · refine ⟨k + 1, (k : Int) + 1, A', hA', ?_, by omega, by omega,
        Or.inr ⟨by omega, by push_cast; rfl, by simpa using hk, fun l _ _ => by omega⟩⟩
      refine hb'.bind ?_
      rw [hk, if_pos rfl]
      exact CTr.pure _
    · have hk' : brk k = false := by simpa using hk
      obtain ⟨K, i, B, hB, h1, h2, h3, h4⟩ := ih (k + 1) (by push_cast; omega) hA'
      refine ⟨K, i, B, hB, ?_, by omega, by omega, ?_⟩
      · refine hb'.bind ?_
        rw [hk', if_neg (by simp)]
        have : CTr P n m (Cmd.need (FitsInt ((k : Int) + 1 + 1))) A' () A' := fun s hs =>
          ⟨s.mem, cspec_need (by unfold FitsInt INT_MIN; constructor <;> omega) s, hs, FrameB.refl _ _⟩
        refine this.bind ?_
        exact_mod_cast h1
      · rcases h4 with ⟨g1, g2, g3⟩ | ⟨g1, g2, g3, g4⟩
        · refine Or.inl ⟨by omega, g2, fun l q1 q2 => ?_⟩
          rcases Nat.eq_or_lt_of_le q1 with rfl | q
          · exact hk'
          · exact g3 l q q2
        · refine Or.inr ⟨by omega, g2, g3, fun l q1 q2 => ?_⟩
          rcases Nat.eq_or_lt_of_le q1 with rfl | q
          · exact hk'
          · exact g4 l q q2

/-- the smoother sweeps -/
theorem ctr_sweeps (hn : 2 ≤ n) (hm : 2 ≤ m) (hS : SepAll n m P) {jac : Int} (hj : jac < INT_MAX) :
    ∃ i, CTr P n m (bregSweeps n m (toBuf P) mu lam jac) ![u, f, u1, dx, dy, bx, bY, w1, w2, r] i
      ![(gsSweep n m mu lam r)^[jac.toNat] u, f, u1, dx, dy, bx, bY, w1, w2, r] := by
  by_cases h0 : jac < 1
  · refine ⟨1, ?_⟩
    unfold bregSweeps
    rw [Cmd.loopLe, if_neg (by omega), show jac.toNat = 0 by omega]
    exact CTr.pure _
  · obtain ⟨K, i, B, hB, h1, -, h2, h3⟩ := ctr_loopLe (P := P) (n := n) (m := m) (hi := jac)
      (A := ![u, f, u1, dx, dy, bx, bY, w1, w2, r])
      (body := fun _ => do
        Cmd.exec (seqK (breg_anis_guass_seidel n m (toBuf P).uk (toBuf P).rhs mu lam))
        Pure.pure false) (fun k A => A = ![(gsSweep n m mu lam r)^[k] u, f, u1, dx, dy, bx, bY, w1, w2, r]) (fun _ => false)
      (fun k A i hA => ⟨_, rfl, hA ▸ ((tr_gs hn hm hS rfl rfl (by
        funext a
        fin_cases a
        · show gsSweep n m mu lam r ((gsSweep n m mu lam r)^[k] u) = (gsSweep n m mu lam r)^[k + 1] u
          exact (Function.iterate_succ_apply' _ _ _).symm
        all_goals rfl)).exec).bind (CTr.pure false)⟩) hj 0 jac.toNat (by omega) rfl
    have hK : K = jac.toNat := by
      rcases h3 with ⟨g, -⟩ | ⟨-, -, g, -⟩
      · omega
      · simp at g
    subst hK hB
    refine ⟨i, ?_⟩
    unfold bregSweeps
    simpa using h1

/-- one outer iteration -/
theorem ctr_body (hn : 2 ≤ n) (hm : 2 ≤ m) (hfit : FitsInt ((n : Int) * m)) (hS : SepAll n m P) {jac : Int} (hj : jac < INT_MAX)
    (s : BState F) :
    ∃ w1' w2' r', CTr P n m (bregBody n m (toBuf P) mu lam tol jac) ![s.u, f, u1, s.dx, s.dy, s.bx, s.bY, w1, w2, r]
      (flt (relErrF n m (bregNext n m mu lam jac.toNat f s).u u1) tol)
      ![(bregNext n m mu lam jac.toNat f s).u, f, (bregNext n m mu lam jac.toNat f s).u, (bregNext n m mu lam jac.toNat f s).dx,
        (bregNext n m mu lam jac.toNat f s).dy, (bregNext n m mu lam jac.toNat f s).bx, (bregNext n m mu lam jac.toNat f s).bY,
        w1', w2', r'] := by
  obtain ⟨a1, a2, h1⟩ := tr_rhs (P := P) (u := s.u) (f := f) (u1 := u1) (dx := s.dx) (dy := s.dy) (bx := s.bx) (bY := s.bY)
    (w1 := w1) (w2 := w2) (r := r) (mu := mu) (lam := lam) hm hfit hS
  obtain ⟨i, h2⟩ := ctr_sweeps (P := P) (u := s.u) (f := f) (u1 := u1) (dx := s.dx) (dy := s.dy) (bx := s.bx) (bY := s.bY)
    (w1 := a1) (w2 := a2) (r := rhsF n m mu lam f s) (mu := mu) (lam := lam) hn hm hS hj
  obtain ⟨c1, c2, h3⟩ := tr_tail (P := P) (u := (bregNext n m mu lam jac.toNat f s).u) (f := f) (u1 := u1) (dx := s.dx) (dy := s.dy)
    (bx := s.bx) (bY := s.bY) (w1 := a1) (w2 := a2) (r := rhsF n m mu lam f s) (lam := lam) hn hm hfit hS
  refine ⟨c1, c2, rhsF n m mu lam f s, ?_⟩
  unfold bregBody
  refine h1.exec.bind (h2.bind (CTr.bind (fun q hq => ⟨q.mem, cspec_assume _ q, hq, FrameB.refl _ _⟩) (CTr.bind (a := relErrF n m (bregNext n m mu lam jac.toNat f s).u u1) ?_ (h3.exec.bind (CTr.pure _)))))
  intro q hq
  exact ⟨q.mem, cspec_eval (run_relErr (hq 0) (hq 2)), hq, FrameB.refl _ _⟩

/-- the copy and the outer loop -/
theorem ctr_loop (hn : 2 ≤ n) (hm : 2 ≤ m) (hfit : FitsInt ((n : Int) * m)) (hS : SepAll n m P) {max_iter jac : Int}
    (hmax : max_iter < INT_MAX) (hj : jac < INT_MAX) (u0 : FImg F) :
    ∃ K i A', CTr P n m (bregLoop n m (toBuf P) mu lam tol max_iter jac)
        ![u0, f, fun _ _ => lit 0, fun _ _ => lit 0, fun _ _ => lit 0, fun _ _ => lit 0, fun _ _ => lit 0,
          fun _ _ => lit 0, fun _ _ => lit 0, fun _ _ => lit 0] i A' ∧
      A' 0 = (bregIter n m mu lam jac.toNat f K).u ∧ A' 1 = f ∧ K ≤ max_iter.toNat ∧
      ((K = max_iter.toNat ∧ i = K + 1 ∧ ∀ l < K, bregBrk n m mu lam tol jac.toNat f l = false) ∨
       (0 < K ∧ i = K ∧ bregBrk n m mu lam tol jac.toNat f (K - 1) = true ∧
        ∀ l < K - 1, bregBrk n m mu lam tol jac.toNat f l = false)) := by
  have t0 : Tr P n m (cblas_dcopy ((n : Int) * m) (P 1) (P 0)) ![u0, f, fun _ _ => lit 0, fun _ _ => lit 0, fun _ _ => lit 0, fun _ _ => lit 0, fun _ _ => lit 0,
          fun _ _ => lit 0, fun _ _ => lit 0, fun _ _ => lit 0]
      ![f, f, fun _ _ => lit 0, fun _ _ => lit 0, fun _ _ => lit 0, fun _ _ => lit 0, fun _ _ => lit 0,
          fun _ _ => lit 0, fun _ _ => lit 0, fun _ _ => lit 0] :=
    tr_copy hS 1 0 (by decide) rfl (by funext a; fin_cases a <;> rfl)
  by_cases h0 : max_iter < 1
  · refine ⟨0, 1, ![f, f, fun _ _ => lit 0, fun _ _ => lit 0, fun _ _ => lit 0, fun _ _ => lit 0, fun _ _ => lit 0,
          fun _ _ => lit 0, fun _ _ => lit 0, fun _ _ => lit 0], ?_, rfl, rfl, by omega, Or.inl ⟨by omega, by simp, fun l h => by omega⟩⟩
    unfold bregLoop
    refine t0.exec.bind ?_
    rw [Cmd.loopLe, if_neg (by omega)]
    exact CTr.pure _
  · obtain ⟨K, i, B, ⟨w1, w2, r, hB⟩, h1, -, h2, h3⟩ := ctr_loopLe (P := P) (n := n) (m := m) (hi := max_iter)
      (A := ![f, f, fun _ _ => lit 0, fun _ _ => lit 0, fun _ _ => lit 0, fun _ _ => lit 0, fun _ _ => lit 0,
          fun _ _ => lit 0, fun _ _ => lit 0, fun _ _ => lit 0])
      (body := fun _ => bregBody n m (toBuf P) mu lam tol jac)
      (fun k A => ∃ w1 w2 r, A = ![(bregIter n m mu lam jac.toNat f k).u, f, bregOld n m mu lam jac.toNat f k,
        (bregIter n m mu lam jac.toNat f k).dx, (bregIter n m mu lam jac.toNat f k).dy, (bregIter n m mu lam jac.toNat f k).bx,
        (bregIter n m mu lam jac.toNat f k).bY, w1, w2, r]) (bregBrk n m mu lam tol jac.toNat f)
      (by
        rintro k A i ⟨w1, w2, r, rfl⟩
        obtain ⟨w1', w2', r', h⟩ := ctr_body (P := P) (mu := mu) (lam := lam) (tol := tol) (f := f) (w1 := w1) (w2 := w2) (r := r)
          (u1 := bregOld n m mu lam jac.toNat f k) hn hm hfit hS hj (bregIter n m mu lam jac.toNat f k)
        exact ⟨_, ⟨w1', w2', r', rfl⟩, h⟩) hmax 0 max_iter.toNat (by omega) ⟨_, _, _, rfl⟩
    refine ⟨K, i, B, ?_, by rw [hB]; rfl, by rw [hB]; rfl, by omega, ?_⟩
    · unfold bregLoop
      refine t0.exec.bind ?_
      simpa using h1
    · rcases h3 with ⟨g1, g2, g3⟩ | ⟨g1, g2, g3, g4⟩
      · exact Or.inl ⟨by omega, g2, fun l hl => g3 l (by omega) hl⟩
      · exact Or.inr ⟨g1, g2, g3, fun l hl => g4 l (by omega) hl⟩

end

end L1c
