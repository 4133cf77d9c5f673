import Verif.Proofs.BregmanFin
import Verif.Proofs.BregmanUB
import Mathlib.Tactic.IntervalCases

/-!
# Properties of TV denoising (`C33`–`C37`)

`P : Fin 10 → Ptr` names the arrays of `l1c_breg_anistropic_TV` in the order
`uk, f, uk_1, d_x, d_y, b_x, b_y, dwork1, dwork2, rhs` (see `toBuf`).
-/

namespace L1c
open Prog Scalar

/-! ## C33 -/

/-- The shrink step: every entry of the result is the unique minimiser of `gamma*|d| + (d-x)^2/2` and moves the
entry by at most `gamma`; nothing else changes.  `x` and `d` may be the same array. -/
theorem C33_shrink {N : ℕ} {gamma : ℝ} (hg : 0 ≤ gamma) (mem : Mem Dbl) (X D : Ptr) (x : ℕ → ℝ)
    (hX : mem.Has X N) (hx : ∀ k : ℕ, k < N → mem.val (X + (k : Int)) = Dbl.fin (x k)) (hD : mem.Has D N)
    (hs : NoCross N D X) :
    ∃ (mem' : Mem Dbl) (d : ℕ → ℝ), KSpec (breg_shrink1 N X D (Dbl.fin gamma)) mem mem' ∧ mem'.len = mem.len ∧
      (∀ p, (∀ k : ℕ, k < N → p ≠ D + (k : Int)) → mem'.val p = mem.val p) ∧
      ∀ k : ℕ, k < N → mem'.val (D + (k : Int)) = Dbl.fin (d k) ∧ |d k - x k| ≤ gamma ∧
        (∀ e, shrinkObj gamma (x k) (d k) ≤ shrinkObj gamma (x k) e) ∧
        ∀ e, shrinkObj gamma (x k) e ≤ shrinkObj gamma (x k) (d k) → e = d k := by
  refine ⟨_, fun k => shrinkR gamma (x k), kspec_map1 (shrinkVal (Dbl.fin gamma)) hX hD hs, rfl, ?_, ?_⟩
  · exact fun p hp => setRange_frame _ _ _ _ hp
  · intro k hk
    obtain ⟨a, b⟩ := shrinkR_spec hg (x k)
    have st := shrinkObj_strong a b
    refine ⟨?_, by rwa [abs_sub_comm] at a, fun e => ?_, fun e he => ?_⟩
    · rw [Mem.setRange_val_in _ _ _ _ _ (by omega) (by exact_mod_cast hk), hx k hk, shrinkVal_fin]
    · have := st e; have := sq_nonneg (e - shrinkR gamma (x k)); linarith
    · have h1 := st e
      have h2 : (e - shrinkR gamma (x k)) ^ 2 = 0 := le_antisymm (by linarith) (sq_nonneg _)
      have := pow_eq_zero_iff (n := 2) (by norm_num) |>.1 h2
      linarith

example : ∃ (mem : Mem Dbl) (X D : Ptr) (x : ℕ → ℝ), mem.Has X (3 : ℕ) ∧ mem.Has D (3 : ℕ) ∧ NoCross (3 : ℕ) D X ∧
    (∀ k : ℕ, k < 3 → mem.val (X + (k : Int)) = Dbl.fin (x k)) ∧ x 2 = 2 := by
  refine ⟨⟨fun _ => 3, fun p => Dbl.fin p.off⟩, ⟨0, 0⟩, ⟨1, 0⟩, fun k => k, ?_, ?_, ?_, ?_, by norm_num⟩
  · intro i h0 h1; exact ⟨by simpa using h0, by simpa using h1⟩
  · intro i h0 h1; exact ⟨by simpa using h0, by simpa using h1⟩
  · exact (Sep.of_blk (by simp)).noCross
  · intro k _; simp

/-! ## C34 -/

section
variable {n m : ℕ} {mu lam : ℝ} {U R : Ptr} {u rhs : Img} {mem : Mem Dbl}

/-- A Gauss–Seidel sweep on finite data is safe, touches only `u`, leaves finite data, leaves `u` unchanged iff `u`
solves `(mu + lam DxT Dx + lam DyT Dy) u = rhs`, and contracts the max-norm distance to every solution by
`4 lam/(mu+4 lam)`. -/
theorem C34_gauss_seidel (hn : 2 ≤ n) (hm : 2 ≤ m) (hmu : 0 < mu) (hlam : 0 < lam)
    (hU : HoldsImg mem U n m u) (hR : HoldsImg mem R n m rhs) (hs : Sep ((n * m : ℕ) : Int) U R) :
    ∃ mem' u', (breg_anis_guass_seidel n m U R (Dbl.fin mu) (Dbl.fin lam)).run mem = some ((), mem') ∧
      mem'.len = mem.len ∧ (∀ p, (∀ k : ℕ, k < n * m → p ≠ U + (k : Int)) → mem'.val p = mem.val p) ∧
      HoldsImg mem' U n m u' ∧
      (ImgEq n m u' u ↔ SolvesTV n m mu lam rhs u) ∧
      ∀ us E, SolvesTV n m mu lam rhs us → ImgNear n m E u us → ImgNear n m (4 * lam / (mu + 4 * lam) * E) u' us := by
  refine ⟨_, gsSweepR n m mu lam rhs u, run_gs hn hm (holdsImg_iff.1 hU) (holdsImg_iff.1 hR) hs, rfl, ?_, ?_, ?_, ?_⟩
  · exact fun p hp => setRange_frame _ _ _ _ hp
  · exact (holdsF_setImg hU.1).toImg
      (gsSweep_fin hn hm hmu hlam.le (fun _ _ _ _ => rfl) (fun _ _ _ _ => rfl))
  · rw [solves_iff_pix]; exact gsSweepR_fixed_iff hmu hlam.le
  · intro us E hus hE
    exact gsSweepR_near hmu hlam ((solves_iff_pix _ _ _ _ _ _).1 hus) hE

/-- That equation has exactly one solution. -/
theorem C34_unique_solution (hmu : 0 < mu) (hlam : 0 ≤ lam) (rhs : Img) :
    ∃ us, SolvesTV n m mu lam rhs us ∧ ∀ v, SolvesTV n m mu lam rhs v → ImgEq n m v us := by
  obtain ⟨us, h⟩ := solves_exists (n := n) (m := m) hmu hlam rhs
  exact ⟨us, h, fun v hv => solves_unique hmu hlam hv h⟩

/-- `k` sweeps, run one after the other, bring every pixel within `(4 lam/(mu+4 lam))^k * E` of the solution. -/
theorem C34_sweeps (hn : 2 ≤ n) (hm : 2 ≤ m) (hmu : 0 < mu) (hlam : 0 < lam)
    (hU : HoldsImg mem U n m u) (hR : HoldsImg mem R n m rhs) (hs : Sep ((n * m : ℕ) : Int) U R)
    {us : Img} (hus : SolvesTV n m mu lam rhs us) {E : ℝ} (hE : ImgNear n m E u us) (k : ℕ) :
    ∃ mem' u', (forUp 0 k fun _ => breg_anis_guass_seidel n m U R (Dbl.fin mu) (Dbl.fin lam)).run mem = some ((), mem') ∧
      HoldsImg mem' U n m u' ∧ ImgNear n m ((4 * lam / (mu + 4 * lam)) ^ k * E) u' us := by
  set g := gsSweep n m (Dbl.fin mu) (Dbl.fin lam) (fun i j => Dbl.fin (rhs i j)) with hg
  set M : Int → Mem Dbl := fun i => mem.setImg U n m (g^[i.toNat] (fun i j => Dbl.fin (u i j))) with hM
  have h0 : M 0 = mem := Mem.setImg_self (holdsImg_iff.1 hU)
  have hstep : ∀ i : Int, 0 ≤ i → i < k →
      (breg_anis_guass_seidel n m U R (Dbl.fin mu) (Dbl.fin lam)).run (M i) = some ((), M (i + 1)) := by
    intro i h0 _
    have := run_gs (mu := Dbl.fin mu) (lambda := Dbl.fin lam) hn hm
      (holdsF_setImg (A := g^[i.toNat] (fun i j => Dbl.fin (u i j))) hU.1) ((holdsImg_iff.1 hR).setImg hs) hs
    rw [setImg_setImg] at this
    rw [hM, this]
    beta_reduce
    rw [show (i + 1).toNat = i.toNat + 1 by omega, Function.iterate_succ_apply']
  have hrun := run_forUp 0 k (fun _ => breg_anis_guass_seidel n m U R (Dbl.fin mu) (Dbl.fin lam)) M hstep (by omega)
  rw [h0] at hrun
  refine ⟨_, (gsSweepR n m mu lam rhs)^[k] u, hrun, ?_, iterate_near hmu hlam hus hE k⟩
  exact (holdsF_setImg hU.1).toImg (gsIter_fin hn hm hmu hlam.le (fun _ _ _ _ => rfl) (fun _ _ _ _ => rfl) k)

/-- `hess_inv_diag` followed by one Jacobi sweep: safe under every schedule, and `u` is unchanged iff it solves the
same equation. -/
theorem C34_jacobi (hn : 2 ≤ n) (hm : 2 ≤ m) (hfit : FitsInt ((n : Int) * m)) (hmu : 0 < mu) (hlam : 0 < lam) {W D : Ptr}
    (hU : HoldsImg mem U n m u) (hR : HoldsImg mem R n m rhs) (hW : mem.Has W ((n * m : ℕ) : Int))
    (hD : mem.Has D ((n * m : ℕ) : Int))
    (hWU : Sep ((n * m : ℕ) : Int) W U) (hWR : Sep ((n * m : ℕ) : Int) W R) (hWD : Sep ((n * m : ℕ) : Int) W D)
    (hUD : Sep ((n * m : ℕ) : Int) U D) (hRD : Sep ((n * m : ℕ) : Int) R D) :
    ∃ mem₁ mem' u', (hess_inv_diag n m (Dbl.fin mu) (Dbl.fin lam) D).run mem = some ((), mem₁) ∧
      KSpec (breg_anis_jacobi n m U W R D (Dbl.fin lam)) mem₁ mem' ∧ HoldsImg mem' U n m u' ∧
      (ImgEq n m u' u ↔ SolvesTV n m mu lam rhs u) ∧
      ∀ us E, SolvesTV n m mu lam rhs us → ImgNear n m E u us → ImgNear n m (4 * lam / (mu + 4 * lam) * E) u' us := by
  refine ⟨_, _, gsPixR n m mu lam rhs u, run_hess_inv_diag hn hm hD,
    kspec_jacobi (by omega) hm hfit ((holdsImg_iff.1 hU).setImg hUD.symm) ((holdsImg_iff.1 hR).setImg hRD.symm)
      (holdsF_setImg hD) hW hWU hWR hWD hUD, ?_, ?_, ?_⟩
  · refine HoldsF.toImg (holdsF_setImg (show Mem.Has _ _ _ from hU.1)) fun i hi j hj => ?_
    exact jacobi_fin hn hm hmu hlam.le (fun _ _ _ _ => rfl) (fun _ _ _ _ => rfl) hi hj
  · rw [solves_iff_pix]
    exact ⟨fun h i hi j hj => (gsPixR_eq_iff hmu hlam.le i j).1 (h i hi j hj),
      fun h i hi j hj => (gsPixR_eq_iff hmu hlam.le i j).2 (h i hi j hj)⟩
  · intro us E hus hE i hi j hj
    exact gsPixR_near hmu hlam ((solves_iff_pix _ _ _ _ _ _).1 hus) hE hi hj

/-- `breg_hess_eval` applies the operator of that equation. -/
theorem C34_hess_eval (hn : 2 ≤ n) (hm : 2 ≤ m) (hfit : FitsInt ((n : Int) * m)) {X Y W1 W2 : Ptr}
    (hX : HoldsImg mem X n m u) (hY : mem.Has Y ((n * m : ℕ) : Int)) (h1 : mem.Has W1 ((n * m : ℕ) : Int))
    (h2 : mem.Has W2 ((n * m : ℕ) : Int))
    (s1X : Sep ((n * m : ℕ) : Int) W1 X) (s2X : Sep ((n * m : ℕ) : Int) W2 X) (s12 : Sep ((n * m : ℕ) : Int) W2 W1)
    (sYX : NoCross ((n * m : ℕ) : Int) Y X) (sY1 : Sep ((n * m : ℕ) : Int) Y W1) (sY2 : Sep ((n * m : ℕ) : Int) Y W2) :
    ∃ mem' y, KSpec (breg_hess_eval n m X Y (Dbl.fin mu) (Dbl.fin lam) W1 W2) mem mem' ∧ HoldsImg mem' Y n m y ∧
      SolvesTV n m mu lam y u := by
  refine ⟨_, pixOp n m mu lam u, kspec_hess_eval (by omega) hm hfit (holdsImg_iff.1 hX) hY h1 h2 s1X s2X s12 sYX sY1 sY2,
    ?_, (solves_iff_pix _ _ _ _ _ _).2 fun _ _ _ _ => rfl⟩
  refine HoldsF.toImg (holdsF_setImg (show Mem.Has _ _ _ from hY)) fun i hi j hj => ?_
  exact hess_fin hn hm hfit hX h1 s1X hi hj

end

/-- memory whose block `b` is a `2 × 2` image -/
noncomputable def demo22 (A : ℕ → Img) : Mem Dbl :=
  ⟨fun _ => 4, fun p => Dbl.fin (A p.blk (p.off.toNat / 2) (p.off.toNat % 2))⟩

theorem demo22_holds (A : ℕ → Img) (b : ℕ) : HoldsImg (demo22 A) ⟨b, 0⟩ 2 2 (A b) := by
  refine ⟨fun i h0 h1 => ⟨by simpa using h0, by simpa [demo22] using h1⟩, fun i hi j hj => ?_⟩
  have e1 : (i * 2 + j) / 2 = i := by omega
  have e2 : (i * 2 + j) % 2 = j := by omega
  have e3 : ((i : Int) * 2 + j).toNat = i * 2 + j := by omega
  simp [Mem.pix, demo22, e1, e2, e3]

example : ∃ (mem : Mem Dbl) (U R W D : Ptr) (u rhs : Img), HoldsImg mem U 2 2 u ∧ HoldsImg mem R 2 2 rhs ∧
    mem.Has W ((2 * 2 : ℕ) : Int) ∧ mem.Has D ((2 * 2 : ℕ) : Int) ∧ Sep ((2 * 2 : ℕ) : Int) W U ∧
    Sep ((2 * 2 : ℕ) : Int) W R ∧ Sep ((2 * 2 : ℕ) : Int) W D ∧ Sep ((2 * 2 : ℕ) : Int) U D ∧
    Sep ((2 * 2 : ℕ) : Int) R D ∧ Sep ((2 * 2 : ℕ) : Int) U R ∧ FitsInt ((2 : Int) * 2) ∧ u 0 1 ≠ rhs 0 1 :=
  ⟨demo22 fun b i j => b + i * j, ⟨0, 0⟩, ⟨1, 0⟩, ⟨2, 0⟩, ⟨3, 0⟩, _, _, demo22_holds _ 0, demo22_holds _ 1,
    (demo22_holds _ 2).1, (demo22_holds _ 3).1, Sep.of_blk (by simp), Sep.of_blk (by simp), Sep.of_blk (by simp),
    Sep.of_blk (by simp), Sep.of_blk (by simp), Sep.of_blk (by simp), by unfold FitsInt INT_MAX INT_MIN; norm_num, by norm_num⟩

/-! ## C35 -/

/-- One outer iteration on finite data terminates without undefined behaviour; if it leaves `u`, `d` and `b`
unchanged then `u` is the unique minimiser of `||Dx u||_1 + ||Dy u||_1 + mu/2 ||u - f||^2`. -/
theorem C35_stationary_is_minimiser {n m : ℕ} (hn : 2 ≤ n) (hm : 2 ≤ m) (hfit : FitsInt ((n : Int) * m))
    {mu lam : ℝ} (hmu : 0 < mu) (hlam : 0 < lam) {jac : Int} (hj : 1 ≤ jac) (hj' : jac < INT_MAX) (tol : Dbl)
    {P : Fin 10 → Ptr} (hS : SepAll n m P) {s : PState Dbl} {f u dx dy bx bY : Img}
    (hu : HoldsImg s.mem (P 0) n m u) (hf : HoldsImg s.mem (P 1) n m f)
    (hdx : HoldsImg s.mem (P 3) n m dx) (hdy : HoldsImg s.mem (P 4) n m dy)
    (hbx : HoldsImg s.mem (P 5) n m bx) (hbY : HoldsImg s.mem (P 6) n m bY)
    (h2 : s.mem.Has (P 2) ((n * m : ℕ) : Int)) (h7 : s.mem.Has (P 7) ((n * m : ℕ) : Int))
    (h8 : s.mem.Has (P 8) ((n * m : ℕ) : Int)) (h9 : s.mem.Has (P 9) ((n * m : ℕ) : Int)) :
    ∃ b s', CSpec (bregBody n m (toBuf P) (Dbl.fin mu) (Dbl.fin lam) tol jac) s b s' ∧
      (HoldsImg s'.mem (P 0) n m u → HoldsImg s'.mem (P 3) n m dx → HoldsImg s'.mem (P 4) n m dy →
       HoldsImg s'.mem (P 5) n m bx → HoldsImg s'.mem (P 6) n m bY →
        (∀ v, tvObj n m mu f u ≤ tvObj n m mu f v) ∧
        ∀ v, tvObj n m mu f v ≤ tvObj n m mu f u → ImgEq n m v u) := by
  set r : BStateR := ⟨u, dx, dy, bx, bY⟩ with hr
  set S : BState Dbl := ⟨fun i j => Dbl.fin (u i j), fun i j => Dbl.fin (dx i j), fun i j => Dbl.fin (dy i j),
    fun i j => Dbl.fin (bx i j), fun i j => Dbl.fin (bY i j)⟩ with hSd
  obtain ⟨w1', w2', r', hc⟩ := ctr_body (P := P) (mu := Dbl.fin mu) (lam := Dbl.fin lam) (tol := tol)
    (f := fun i j => Dbl.fin (f i j)) (u1 := s.mem.pix (P 2) m) (w1 := s.mem.pix (P 7) m) (w2 := s.mem.pix (P 8) m)
    (r := s.mem.pix (P 9) m) hn hm hfit hS hj' S
  have hall : HoldsAll s.mem P n m ![S.u, fun i j => Dbl.fin (f i j), s.mem.pix (P 2) m, S.dx, S.dy, S.bx, S.bY,
      s.mem.pix (P 7) m, s.mem.pix (P 8) m, s.mem.pix (P 9) m] := by
    intro a
    fin_cases a
    exacts [hu, hf, ⟨h2, fun _ _ _ _ => rfl⟩, hdx, hdy, hbx, hbY, ⟨h7, fun _ _ _ _ => rfl⟩, ⟨h8, fun _ _ _ _ => rfl⟩,
      ⟨h9, fun _ _ _ _ => rfl⟩]
  obtain ⟨mem', hrun, hA, -⟩ := hc s hall
  have hR : IsRS n m S r := ⟨fun _ _ _ _ => rfl, fun _ _ _ _ => rfl, fun _ _ _ _ => rfl, fun _ _ _ _ => rfl, fun _ _ _ _ => rfl⟩
  have hN := next_fin hn hm hmu hlam jac.toNat (f := f) (fF := fun i j => Dbl.fin (f i j)) (fun _ _ _ _ => rfl) hR
  refine ⟨_, _, hrun, fun e0 e3 e4 e5 e6 => ?_⟩
  have same : ∀ {p : Ptr} {A : FImg Dbl} {R R' : Img}, HoldsImg mem' p n m R → HoldsF mem' p n m A → IsR n m A R' → ImgEq n m R' R := by
    intro p A R R' h1 h2 h3 i hi j hj
    have := (h3 i hi j hj).symm.trans ((h2.2 i hi j hj).symm.trans (h1.2 i hi j hj))
    exact Dbl.fin_injective this
  have hfix : SameR n m (bregNextR n m mu lam jac.toNat f r) r :=
    ⟨same e0 (hA 0) hN.u, same e3 (hA 3) hN.dx, same e4 (hA 4) hN.dy, same e5 (hA 5) hN.bx, same e6 (hA 6) hN.bY⟩
  have st := fixed_strong hmu hlam (by omega) hfix
  refine ⟨fun v => ?_, fun v hv => strong_unique hmu st hv⟩
  have := st v
  have h0 := mul_nonneg (by linarith : (0 : ℝ) ≤ mu / 2) (normSq2_nonneg n m (fun i j => v i j - u i j))
  exact le_trans (le_add_of_nonneg_right h0) this

/-! ## C36 -/

/-- Every call on images of at least 2×2 pixels (any arithmetic, any tolerance) ends with status 0 after
`K ≤ max(0,max_iter)` outer iterations, `uk` holding iterate `K`; the loop stops before `max_iter` only because the
relative change fell below `tol`.  With `max_iter ≤ 0` the output is `f`. -/
theorem C36_terminates {F : Type} [Scalar F] {s : PState F} (hw : s.WF) {n m : ℕ} {uk f : Ptr} {mu tol : F}
    {max_iter jac : Int} {u0 f0 : FImg F} (hn : 2 ≤ n) (hm : 2 ≤ m) (hfit : FitsInt ((n : Int) * m))
    (hu : HoldsF s.mem uk n m u0) (hf : HoldsF s.mem f n m f0) (hsep : Sep ((n * m : ℕ) : Int) uk f)
    (hmax : max_iter < INT_MAX) (hj : jac < INT_MAX) (hor : ∀ k < 8, s.oracle (s.calls + k) = true) :
    ∃ (K : ℕ) (i : Int) (s' : PState F), CSpec (l1c_breg_anistropic_TV n m uk f mu tol max_iter jac) s (0, i) s' ∧
      (K : Int) ≤ max 0 max_iter ∧ HoldsF s'.mem uk n m (bregIter n m mu (lit 2 * mu) jac.toNat f0 K).u ∧
      ((K : Int) = max 0 max_iter ∨
        flt (relErrF n m (bregIter n m mu (lit 2 * mu) jac.toNat f0 K).u (bregOld n m mu (lit 2 * mu) jac.toNat f0 (K - 1))) tol = true) ∧
      (max_iter ≤ 0 → HoldsF s'.mem uk n m f0) := by
  obtain ⟨K, i, s', h1, -, -, h4, -, h6, h7⟩ := cspec_breg (mu := mu) (tol := tol) hw hn hm hfit hu hf hsep hmax hj hor
  refine ⟨K, i, s', h1, by omega, h4, ?_, fun h => ?_⟩
  · rcases h7 with ⟨h, -⟩ | ⟨h0, -, hb, -⟩
    · left; omega
    · right
      unfold bregBrk at hb
      rwa [Nat.sub_add_cancel h0] at hb
  · obtain rfl : K = 0 := by omega
    exact h4

/-- Starting from any finite state, an outer iteration leaves finite `u`, `d`, `b` with every entry of the Bregman
variables `b_x`, `b_y` at most `1/lam` in absolute value.  (Before the first iteration they are 0.) -/
theorem C36_bregman_variables_bounded {n m : ℕ} (hn : 2 ≤ n) (hm : 2 ≤ m) (hfit : FitsInt ((n : Int) * m))
    {mu lam : ℝ} (hmu : 0 < mu) (hlam : 0 < lam) {jac : Int} (hj' : jac < INT_MAX) (tol : Dbl)
    {P : Fin 10 → Ptr} (hS : SepAll n m P) {s : PState Dbl} {f u dx dy bx bY : Img}
    (hu : HoldsImg s.mem (P 0) n m u) (hf : HoldsImg s.mem (P 1) n m f)
    (hdx : HoldsImg s.mem (P 3) n m dx) (hdy : HoldsImg s.mem (P 4) n m dy)
    (hbx : HoldsImg s.mem (P 5) n m bx) (hbY : HoldsImg s.mem (P 6) n m bY)
    (h2 : s.mem.Has (P 2) ((n * m : ℕ) : Int)) (h7 : s.mem.Has (P 7) ((n * m : ℕ) : Int))
    (h8 : s.mem.Has (P 8) ((n * m : ℕ) : Int)) (h9 : s.mem.Has (P 9) ((n * m : ℕ) : Int)) :
    ∃ b s' u' dx' dy' bx' bY', CSpec (bregBody n m (toBuf P) (Dbl.fin mu) (Dbl.fin lam) tol jac) s b s' ∧
      HoldsImg s'.mem (P 0) n m u' ∧ HoldsImg s'.mem (P 1) n m f ∧ HoldsImg s'.mem (P 3) n m dx' ∧
      HoldsImg s'.mem (P 4) n m dy' ∧ HoldsImg s'.mem (P 5) n m bx' ∧ HoldsImg s'.mem (P 6) n m bY' ∧
      ∀ i < n, ∀ j < m, |bx' i j| ≤ 1 / lam ∧ |bY' i j| ≤ 1 / lam := by
  set r : BStateR := ⟨u, dx, dy, bx, bY⟩ with hr
  set S : BState Dbl := ⟨fun i j => Dbl.fin (u i j), fun i j => Dbl.fin (dx i j), fun i j => Dbl.fin (dy i j),
    fun i j => Dbl.fin (bx i j), fun i j => Dbl.fin (bY i j)⟩ with hSd
  obtain ⟨w1', w2', r', hc⟩ := ctr_body (P := P) (mu := Dbl.fin mu) (lam := Dbl.fin lam) (tol := tol)
    (f := fun i j => Dbl.fin (f i j)) (u1 := s.mem.pix (P 2) m) (w1 := s.mem.pix (P 7) m) (w2 := s.mem.pix (P 8) m)
    (r := s.mem.pix (P 9) m) hn hm hfit hS hj' S
  have hall : HoldsAll s.mem P n m ![S.u, fun i j => Dbl.fin (f i j), s.mem.pix (P 2) m, S.dx, S.dy, S.bx, S.bY,
      s.mem.pix (P 7) m, s.mem.pix (P 8) m, s.mem.pix (P 9) m] := by
    intro a
    fin_cases a
    exacts [hu, hf, ⟨h2, fun _ _ _ _ => rfl⟩, hdx, hdy, hbx, hbY, ⟨h7, fun _ _ _ _ => rfl⟩, ⟨h8, fun _ _ _ _ => rfl⟩,
      ⟨h9, fun _ _ _ _ => rfl⟩]
  obtain ⟨mem', hrun, hA, -⟩ := hc s hall
  have hR : IsRS n m S r := ⟨fun _ _ _ _ => rfl, fun _ _ _ _ => rfl, fun _ _ _ _ => rfl, fun _ _ _ _ => rfl, fun _ _ _ _ => rfl⟩
  have hN := next_fin hn hm hmu hlam jac.toNat (f := f) (fF := fun i j => Dbl.fin (f i j)) (fun _ _ _ _ => rfl) hR
  exact ⟨_, _, _, _, _, _, _, hrun, (hA 0).toImg hN.u, (hA 1), (hA 3).toImg hN.dx, (hA 4).toImg hN.dy,
    (hA 5).toImg hN.bx, (hA 6).toImg hN.bY, fun i _ j _ => next_bounded hlam i j⟩

/-- On a finite image with `mu > 0` the returned image is finite, and a constant image is returned unchanged. -/
theorem C36_finite_and_constant {s : PState Dbl} (hw : s.WF) {n m : ℕ} {uk f : Ptr} {mu : ℝ} {tol : Dbl}
    {max_iter jac : Int} {u0 : FImg Dbl} {f0 : Img} (hn : 2 ≤ n) (hm : 2 ≤ m) (hfit : FitsInt ((n : Int) * m)) (hmu : 0 < mu)
    (hu : HoldsF s.mem uk n m u0) (hf : HoldsImg s.mem f n m f0) (hsep : Sep ((n * m : ℕ) : Int) uk f)
    (hmax : max_iter < INT_MAX) (hj : jac < INT_MAX) (hor : ∀ k < 8, s.oracle (s.calls + k) = true) :
    ∃ i s' u, CSpec (l1c_breg_anistropic_TV n m uk f (Dbl.fin mu) tol max_iter jac) s (0, i) s' ∧
      HoldsImg s'.mem uk n m u ∧ ∀ c, (∀ i j, f0 i j = c) → ImgEq n m u f0 := by
  obtain ⟨K, i, s', h1, -, -, h4, -⟩ := cspec_breg (mu := Dbl.fin mu) (tol := tol) hw hn hm hfit hu (holdsImg_iff.1 hf) hsep hmax hj hor
  have e2 : (lit 2 : Dbl) * Dbl.fin mu = Dbl.fin (2 * mu) := by rw [Dbl.lit_eq, Dbl.fin_mul]; norm_num
  rw [e2] at h4
  have hit := iter_fin (lam := 2 * mu) hn hm hmu (by linarith) jac.toNat (f := f0) (fF := fun i j => Dbl.fin (f0 i j)) (fun _ _ _ _ => rfl) K
  refine ⟨i, s', _, h1, h4.toImg hit.u, fun c hc => ?_⟩
  obtain rfl : f0 = fun _ _ => c := by funext i j; exact hc i j
  exact (const_iter hmu (by linarith) c K).u

/-! ## C37 -/

/-- Images of at least 2×2 pixels: every call is free of undefined behaviour, writes (among the caller's memory)
only the `n*m` entries of `uk`, and frees everything it allocated.  If all eight allocations are served the status is
0, otherwise it is `L1C_OUT_OF_MEMORY` and no caller memory changes.
Missing for the full claim: images with one row or one column and `max_iter = INT_MAX`, where the claim is false
(see the theorems below). -/
theorem C37_safe_no_leak_partial {F : Type} [Scalar F] {s : PState F} (hw : s.WF) {n m : ℕ} {uk f : Ptr} {mu tol : F}
    {max_iter jac : Int} {u0 f0 : FImg F} (hn : 2 ≤ n) (hm : 2 ≤ m) (hfit : FitsInt ((n : Int) * m))
    (hu : HoldsF s.mem uk n m u0) (hf : HoldsF s.mem f n m f0) (hsep : Sep ((n * m : ℕ) : Int) uk f)
    (hmax : max_iter < INT_MAX) (hj : jac < INT_MAX) :
    ∃ st i s', CSpec (l1c_breg_anistropic_TV n m uk f mu tol max_iter jac) s (st, i) s' ∧
      ¬ CUB (l1c_breg_anistropic_TV n m uk f mu tol max_iter jac) s ∧
      s'.live = s.live ∧ s'.mem.len = s.mem.len ∧
      (∀ p : Ptr, p.blk < s.next → (∀ k : ℕ, k < n * m → p ≠ uk + (k : Int)) → s'.mem.val p = s.mem.val p) ∧
      (st = 0 ∨ st = L1C_OUT_OF_MEMORY) ∧
      (st = L1C_OUT_OF_MEMORY ↔ ∃ k < 8, s.oracle (s.calls + k) = false) ∧
      (st = L1C_OUT_OF_MEMORY → ∀ p : Ptr, p.blk < s.next → s'.mem.val p = s.mem.val p) := by
  have hpos : (0 : Int) ≤ (n : Int) * m := by positivity
  have hne : (0 : Int) ≠ L1C_OUT_OF_MEMORY := by unfold L1C_OUT_OF_MEMORY; norm_num
  by_cases hor : ∀ k < 8, s.oracle (s.calls + k) = true
  · obtain ⟨K, i, s', h1, h2, h3, -, h5, -⟩ := cspec_breg (mu := mu) (tol := tol) hw hn hm hfit hu hf hsep hmax hj hor
    refine ⟨0, i, s', h1, h1.safe, h2, h3, h5, .inl rfl, ⟨fun h => absurd h hne, ?_⟩, fun h => absurd h hne⟩
    rintro ⟨k, hk, e⟩; rw [hor k hk] at e; cases e
  · obtain ⟨s', h1, h2, h3, h4⟩ := cspec_breg_oom (uk := uk) (f := f) (mu := mu) (tol := tol) (max_iter := max_iter) (jac := jac) hw hfit
      (fun c => hor c.1)
    refine ⟨_, 0, s', h1, h1.safe, h2, h3, fun p hp _ => h4 p hp, .inr rfl, ⟨fun _ => ?_, fun _ => rfl⟩, fun _ p hp => h4 p hp⟩
    push Not at hor
    obtain ⟨k, hk, e⟩ := hor
    exact ⟨k, hk, by simpa using e⟩

/-- Any size whose product fits in `int` (also negative): when an allocation is refused, the status is
`L1C_OUT_OF_MEMORY`, nothing leaks and no caller memory changes. -/
theorem C37_oom {F : Type} [Scalar F] {s : PState F} (hw : s.WF) {n m : Int} {uk f : Ptr} {mu tol : F} {max_iter jac : Int}
    (hfit : FitsInt (n * m)) (hno : (∃ k < 8, s.oracle (s.calls + k) = false) ∨ n * m < 0) :
    ∃ s', CSpec (l1c_breg_anistropic_TV n m uk f mu tol max_iter jac) s (L1C_OUT_OF_MEMORY, 0) s' ∧
      s'.live = s.live ∧ s'.mem.len = s.mem.len ∧ ∀ p : Ptr, p.blk < s.next → s'.mem.val p = s.mem.val p := by
  refine cspec_breg_oom hw hfit ?_
  rintro ⟨h1, h2⟩
  rcases hno with ⟨k, hk, e⟩ | h
  · rw [h1 k hk] at e; cases e
  · omega

/-- False for one column: every successful-allocation call with `max_iter ≥ 1` reads outside a work array. -/
theorem C37_one_column_ub {F : Type} [Scalar F] {s : PState F} (hw : s.WF) {n : ℕ} {uk f : Ptr} (mu tol : F)
    {max_iter : Int} (jac : Int) {u0 f0 : FImg F} (hn : 1 ≤ n) (hfit : FitsInt ((n : Int) * (1 : ℕ)))
    (hu : HoldsF s.mem uk n 1 u0) (hf : HoldsF s.mem f n 1 f0) (hsep : Sep ((n * 1 : ℕ) : Int) uk f)
    (hmax : 1 ≤ max_iter) (hor : ∀ k < 8, s.oracle (s.calls + k) = true) :
    CUB (l1c_breg_anistropic_TV n (1 : ℕ) uk f mu tol max_iter jac) s := by
  obtain ⟨P, s8, e0, e1, hnew, hS, hold, -, -, -, hub⟩ := breg_setup hw mu tol max_iter jac (by omega) hfit hu hf hsep hor
  refine hub (cub_bregLoop_first hS hmax s8 hold fun mem' hA hlen => ?_)
  unfold bregBody
  refine CUB.bind (cub_exec ?_)
  obtain ⟨-, h7, h7'⟩ := hnew 7 (by decide)
  exact kub_rhs_one_col hn hfit hS hA h7 (by show mem'.len _ = n; rw [hlen, h7', mul_one])

/-- False for one row: if the caller's output block ends after the `m` pixels, every successful-allocation call with
`max_iter ≥ 1` and at least one smoother sweep reads past its end. -/
theorem C37_one_row_ub {F : Type} [Scalar F] {s : PState F} (hw : s.WF) {m : ℕ} {uk f : Ptr} (mu tol : F)
    {max_iter jac : Int} {u0 f0 : FImg F} (hm : 2 ≤ m) (hfit : FitsInt (((1 : ℕ) : Int) * m))
    (hu : HoldsF s.mem uk 1 m u0) (hf : HoldsF s.mem f 1 m f0) (hsep : Sep ((1 * m : ℕ) : Int) uk f)
    (hend : s.mem.len uk.blk = uk.off.toNat + m)
    (hmax : 1 ≤ max_iter) (hj : 1 ≤ jac) (hor : ∀ k < 8, s.oracle (s.calls + k) = true) :
    CUB (l1c_breg_anistropic_TV (1 : ℕ) m uk f mu tol max_iter jac) s := by
  have hb : uk.blk < s.next := blk_old hw (by omega) hu.1
  have hoff : 0 ≤ uk.off := by simpa using (hu.1 0 le_rfl (by push_cast; omega)).1
  obtain ⟨P, s8, e0, e1, hnew, hS, hold, hlen8, -, -, hub⟩ := breg_setup hw mu tol max_iter jac (by omega) hfit hu hf hsep hor
  refine hub (cub_bregLoop_first hS hmax s8 hold fun mem' hA hlen => ?_)
  unfold bregBody
  obtain ⟨w1', w2', hr⟩ := tr_rhs (P := P) (u := f0) (f := f0) (u1 := fun _ _ => lit 0) (dx := fun _ _ => lit 0) (dy := fun _ _ => lit 0)
    (bx := fun _ _ => lit 0) (bY := fun _ _ => lit 0) (w1 := fun _ _ => lit 0) (w2 := fun _ _ => lit 0) (r := fun _ _ => lit 0)
    (mu := mu) (lam := lit 2 * mu) hm hfit hS
  obtain ⟨m2, hx1, hx2, hx3⟩ := hr.exec { s8 with mem := mem' } hA
  refine hx1.bind_ub (CUB.bind ?_)
  unfold bregSweeps
  rw [Cmd.loopLe, if_pos (by omega)]
  refine CUB.bind (CUB.bind (cub_exec ?_))
  have hrun : (breg_anis_guass_seidel ((1 : ℕ) : Int) m (P 0) (P 9) mu (lit 2 * mu)).run m2 = none := by
    have h0 := (hx2 0).1; have h9 := (hx2 9).1
    rw [one_mul] at h0 h9
    refine run_gs_one_row hm h0 h9 ?_ _
    rintro ⟨-, hbad⟩
    rw [hx3.1, Ptr.add_blk, Ptr.add_off] at hbad
    have : mem'.len (P 0).blk = uk.off.toNat + m := by rw [hlen, e0, hlen8 _ hb, hend]
    rw [this, e0] at hbad
    omega
  have := kub_seq (al := []) hrun []
  rwa [List.append_nil] at this

/-- False when `n*m` overflows `int`. -/
theorem C37_overflow_ub {F : Type} [Scalar F] (s : PState F) {n m : Int} (h : ¬ FitsInt (n * m)) (uk f : Ptr) (mu tol : F)
    (max_iter jac : Int) : CUB (l1c_breg_anistropic_TV n m uk f mu tol max_iter jac) s := by
  unfold l1c_breg_anistropic_TV
  exact CUB.bind (cub_need h s)

/-- False for `max_iter = INT_MAX` when the test never succeeds (here: `tol` is NaN): the loop counter overflows. -/
theorem C37_int_max_ub {s : PState Dbl} (hw : s.WF) {n m : ℕ} {uk f : Ptr} (mu : Dbl) {jac : Int} {u0 f0 : FImg Dbl}
    (hn : 2 ≤ n) (hm : 2 ≤ m) (hfit : FitsInt ((n : Int) * m)) (hu : HoldsF s.mem uk n m u0) (hf : HoldsF s.mem f n m f0)
    (hsep : Sep ((n * m : ℕ) : Int) uk f) (hj : jac < INT_MAX) (hor : ∀ k < 8, s.oracle (s.calls + k) = true) :
    CUB (l1c_breg_anistropic_TV n m uk f mu Dbl.nan INT_MAX jac) s := by
  obtain ⟨P, s8, e0, e1, -, hS, hold, -, -, -, hub⟩ := breg_setup hw mu Dbl.nan INT_MAX jac (Nat.mul_pos (by omega) (by omega)) hfit hu hf hsep hor
  exact hub (cub_loop hn hm hfit hS hj (fun l => by unfold bregBrk; simp) s8 hold)

/-! ### the hypotheses can be met -/

/-- caller state: two images of size `n × m`, in blocks 0 and 1, nothing else -/
noncomputable def demoP (n m : ℕ) : PState Dbl where
  mem := ⟨fun b => if b < 2 then n * m else 0, fun p => Dbl.fin p.off⟩
  live := fun b => decide (b < 2)
  next := 2
  calls := 0
  oracle := fun _ => true

theorem demoP_ok (n m : ℕ) : (demoP n m).WF ∧ HoldsImg (demoP n m).mem ⟨0, 0⟩ n m (fun i j => ((i * m + j : ℕ) : ℝ)) ∧
    HoldsImg (demoP n m).mem ⟨1, 0⟩ n m (fun i j => ((i * m + j : ℕ) : ℝ)) ∧
    Sep ((n * m : ℕ) : Int) (⟨0, 0⟩ : Ptr) ⟨1, 0⟩ ∧ ∀ k < 8, (demoP n m).oracle ((demoP n m).calls + k) = true := by
  refine ⟨fun b hb => ?_, ⟨fun i h0 h1 => ⟨by simpa using h0, by simpa [demoP] using h1⟩, fun i hi j hj => by simp [Mem.pix, demoP]⟩,
    ⟨fun i h0 h1 => ⟨by simpa using h0, by simpa [demoP] using h1⟩, fun i hi j hj => by simp [Mem.pix, demoP]⟩,
    Sep.of_blk (by simp), fun k _ => rfl⟩
  have : 2 ≤ b := hb
  simp [demoP]; omega

/-- `C36`, `C37`: a 3×4 image, and the counterexamples on 5×1 and 1×4 images -/
example : ∃ (s : PState Dbl) (i : Int) (s' : PState Dbl) (u : Img),
    CSpec (l1c_breg_anistropic_TV (3 : ℕ) (4 : ℕ) ⟨0, 0⟩ ⟨1, 0⟩ (Dbl.fin 1) (Dbl.fin (1/100)) 50 2) s (0, i) s' ∧ HoldsImg s'.mem ⟨0, 0⟩ 3 4 u := by
  obtain ⟨a, b, c, d, e⟩ := demoP_ok 3 4
  obtain ⟨i, s', u, h1, h2, -⟩ := C36_finite_and_constant (mu := 1) (tol := Dbl.fin (1/100)) (max_iter := 50) (jac := 2) a (by norm_num) (by norm_num)
    (by unfold FitsInt INT_MAX INT_MIN; norm_num) one_pos (holdsImg_iff.1 b) c d (by unfold INT_MAX; norm_num) (by unfold INT_MAX; norm_num) e
  exact ⟨_, i, s', u, h1, h2⟩

example : ∃ s : PState Dbl, CUB (l1c_breg_anistropic_TV (5 : ℕ) (1 : ℕ) ⟨0, 0⟩ ⟨1, 0⟩ (Dbl.fin 1) (Dbl.fin (1/100)) 50 2) s := by
  obtain ⟨a, b, c, d, e⟩ := demoP_ok 5 1
  exact ⟨_, C37_one_column_ub a _ _ _ (by norm_num) (by unfold FitsInt INT_MAX INT_MIN; norm_num) (holdsImg_iff.1 b) (holdsImg_iff.1 c) d
    (by norm_num) e⟩

example : ∃ s : PState Dbl, CUB (l1c_breg_anistropic_TV (1 : ℕ) (4 : ℕ) ⟨0, 0⟩ ⟨1, 0⟩ (Dbl.fin 1) (Dbl.fin (1/100)) 50 2) s := by
  obtain ⟨a, b, c, d, e⟩ := demoP_ok 1 4
  exact ⟨_, C37_one_row_ub a _ _ (by norm_num) (by unfold FitsInt INT_MAX INT_MIN; norm_num) (holdsImg_iff.1 b) (holdsImg_iff.1 c) d
    (by simp [demoP]) (by norm_num) (by norm_num) e⟩

/-- `C35`: a non-constant stationary state.  `f` is `0 4 / 0 4`, `mu = 1`, `lam = 2`; `u` is `1 3 / 1 3`. -/
example : ∃ (P : Fin 10 → Ptr) (s : PState Dbl) (f u dx dy bx bY : Img), SepAll 2 2 P ∧
    HoldsImg s.mem (P 0) 2 2 u ∧ HoldsImg s.mem (P 1) 2 2 f ∧ HoldsImg s.mem (P 3) 2 2 dx ∧ HoldsImg s.mem (P 4) 2 2 dy ∧
    HoldsImg s.mem (P 5) 2 2 bx ∧ HoldsImg s.mem (P 6) 2 2 bY ∧ s.mem.Has (P 2) ((2 * 2 : ℕ) : Int) ∧
    SameR 2 2 (bregNextR 2 2 1 2 1 f ⟨u, dx, dy, bx, bY⟩) ⟨u, dx, dy, bx, bY⟩ ∧ u 0 0 ≠ u 0 1 := by
  set A : ℕ → Img := fun b => match b with
    | 0 => fun _ j => if j = 0 then 1 else 3
    | 1 => fun _ j => if j = 0 then 0 else 4
    | 3 => fun _ j => if j = 0 then 2 else 0
    | 5 => fun _ j => if j = 0 then 1 / 2 else 0
    | _ => fun _ _ => 0 with hA
  refine ⟨fun a => ⟨a, 0⟩, ⟨demo22 A, fun b => decide (b < 10), 10, 0, fun _ => true⟩, A 1, A 0, A 3, A 4, A 5, A 6, ?_,
    demo22_holds A 0, demo22_holds A 1, demo22_holds A 3, demo22_holds A 4, demo22_holds A 5, demo22_holds A 6, (demo22_holds A 2).1, ?_, ?_⟩
  · intro a b hab
    exact Sep.of_blk fun h => hab (Fin.ext h)
  · have hu : ImgEq 2 2 ((gsSweepR 2 2 1 2 (rhsR 2 2 1 2 (A 1) ⟨A 0, A 3, A 4, A 5, A 6⟩))^[1] (A 0)) (A 0) := by
      rw [Function.iterate_one, gsSweepR_fixed_iff one_pos (by norm_num)]
      intro i hi j hj
      interval_cases i <;> interval_cases j <;>
        (simp [pixOp, nbSum, nbCnt, rhsR, gradXT, gradYT, adjRow, hA]; norm_num)
    have gx := gradX_eqOn hu
    have gy := gradY_eqOn hu
    refine ⟨hu, ?_, ?_, ?_, ?_⟩ <;> intro i hi j hj
    · show shrinkR _ (gradX 1 2 _ i j + _) = _
      rw [gx i hi j hj]
      interval_cases i <;> interval_cases j <;> (simp [shrinkR, gradX, hA]; try norm_num)
    · show shrinkR _ (gradY 1 2 _ i j + _) = _
      rw [gy i hi j hj]
      interval_cases i <;> interval_cases j <;> (simp [shrinkR, gradY, hA]; try norm_num)
    · show (gradX 1 2 _ i j + _) - shrinkR _ (gradX 1 2 _ i j + _) = _
      rw [gx i hi j hj]
      interval_cases i <;> interval_cases j <;> (simp [shrinkR, gradX, hA]; try norm_num)
    · show (gradY 1 2 _ i j + _) - shrinkR _ (gradY 1 2 _ i j + _) = _
      rw [gy i hi j hj]
      interval_cases i <;> interval_cases j <;> (simp [shrinkR, gradY, hA]; try norm_num)
  · simp [hA]

/-- `C34_sweeps` and `C34_hess_eval` on the `2 × 2` images above: five sweeps bring the image closer to the solution. -/
example : ∃ us E mem' u', SolvesTV 2 2 1 2 (fun i j => ((1 : ℕ) : ℝ) + i * j) us ∧ ImgNear 2 2 E (fun i j => ((0 : ℕ) : ℝ) + i * j) us ∧
    (forUp 0 (5 : ℕ) fun _ => breg_anis_guass_seidel (2 : ℕ) (2 : ℕ) ⟨0, 0⟩ ⟨1, 0⟩ (Dbl.fin 1) (Dbl.fin 2)).run (demo22 fun b i j => b + i * j) = some ((), mem') ∧
    HoldsImg mem' ⟨0, 0⟩ 2 2 u' ∧ ImgNear 2 2 ((4 * 2 / (1 + 4 * 2)) ^ 5 * E) u' us := by
  obtain ⟨us, hus, -⟩ := C34_unique_solution (n := 2) (m := 2) (mu := 1) (lam := 2) one_pos zero_le_two fun i j => ((1 : ℕ) : ℝ) + i * j
  have hE : ImgNear 2 2 (∑ i ∈ Finset.range 2, ∑ j ∈ Finset.range 2, |((0 : ℕ) : ℝ) + i * j - us i j|) (fun i j => ((0 : ℕ) : ℝ) + i * j) us := by
    intro i hi j hj
    refine le_trans ?_ (Finset.single_le_sum (fun a _ => Finset.sum_nonneg fun b _ => abs_nonneg (((0 : ℕ) : ℝ) + a * b - us a b)) (Finset.mem_range.2 hi))
    exact Finset.single_le_sum (f := fun b : ℕ => |((0 : ℕ) : ℝ) + i * b - us i b|) (fun b _ => abs_nonneg _) (Finset.mem_range.2 hj)
  obtain ⟨mem', u', h1, h2, h3⟩ := C34_sweeps (n := 2) (m := 2) le_rfl le_rfl one_pos two_pos (demo22_holds (fun b i j => b + i * j) 0)
    (demo22_holds (fun b i j => b + i * j) 1) (Sep.of_blk (by simp)) hus hE 5
  exact ⟨us, _, mem', u', hus, hE, h1, h2, h3⟩

example : ∃ mem' y, KSpec (breg_hess_eval (2 : ℕ) (2 : ℕ) ⟨0, 0⟩ ⟨1, 0⟩ (Dbl.fin 1) (Dbl.fin 2) ⟨2, 0⟩ ⟨3, 0⟩) (demo22 fun b i j => b + i * j) mem' ∧
    HoldsImg mem' ⟨1, 0⟩ 2 2 y ∧ SolvesTV 2 2 1 2 y fun i j => ((0 : ℕ) : ℝ) + i * j :=
  C34_hess_eval le_rfl le_rfl (by unfold FitsInt INT_MAX INT_MIN; norm_num) (demo22_holds (fun b i j => b + i * j) 0) (demo22_holds _ 1).1 (demo22_holds _ 2).1
    (demo22_holds _ 3).1 (Sep.of_blk (by simp)) (Sep.of_blk (by simp)) (Sep.of_blk (by simp)) (Sep.of_blk (by simp)).noCross (Sep.of_blk (by simp))
    (Sep.of_blk (by simp))

/-- The failing cases of C37: a refused request, a negative number of pixels, a number of pixels that is no `int`, and
`INT_MAX` iterations with a tolerance that never stops them. -/
example : ∃ s', CSpec (l1c_breg_anistropic_TV 3 4 ⟨0, 0⟩ ⟨1, 0⟩ (Dbl.fin 1) (Dbl.fin 1) 50 2) { demoP 3 4 with oracle := fun k => k != 5 }
    (L1C_OUT_OF_MEMORY, 0) s' ∧ s'.live = (demoP 3 4).live :=
  let ⟨s', h, h', _⟩ := C37_oom (s := { demoP 3 4 with oracle := fun k => k != 5 }) (demoP_ok 3 4).1 (n := 3) (m := 4)
    (by unfold FitsInt INT_MAX INT_MIN; norm_num) (Or.inl ⟨5, by norm_num, rfl⟩)
  ⟨s', h, h'⟩

example : ∃ s', CSpec (l1c_breg_anistropic_TV (-2) 3 ⟨0, 0⟩ ⟨1, 0⟩ (Dbl.fin 1) (Dbl.fin 1) 50 2) (demoP 3 4) (L1C_OUT_OF_MEMORY, 0) s' :=
  let ⟨s', h, _⟩ := C37_oom (demoP_ok 3 4).1 (n := -2) (m := 3) (by unfold FitsInt INT_MAX INT_MIN; norm_num) (Or.inr (by norm_num))
  ⟨s', h⟩

example : CUB (l1c_breg_anistropic_TV 65536 65536 ⟨0, 0⟩ ⟨1, 0⟩ (Dbl.fin 1) (Dbl.fin 1) 50 2) (demoP 3 4) :=
  C37_overflow_ub _ (by unfold FitsInt INT_MAX INT_MIN; norm_num) _ _ _ _ _ _

example : CUB (l1c_breg_anistropic_TV (3 : ℕ) (4 : ℕ) ⟨0, 0⟩ ⟨1, 0⟩ (Dbl.fin 1) Dbl.nan INT_MAX 2) (demoP 3 4) := by
  obtain ⟨a, b, c, d, e⟩ := demoP_ok 3 4
  exact C37_int_max_ub a _ (by norm_num) (by norm_num) (by unfold FitsInt INT_MAX INT_MIN; norm_num) (holdsImg_iff.1 b) (holdsImg_iff.1 c) d
    (by unfold INT_MAX; norm_num) e

/-- `C36_bregman_variables_bounded` on ten separate `2 × 2` images. -/
example : ∃ b s', CSpec (bregBody (2 : ℕ) (2 : ℕ) (toBuf fun a : Fin 10 => ⟨a, 0⟩) (Dbl.fin 1) (Dbl.fin 2) (Dbl.fin 0) 2)
    ⟨demo22 fun b i j => b + i * j, fun b => decide (b < 10), 10, 0, fun _ => true⟩ b s' := by
  have hA : ∀ a : Fin 10, HoldsImg (demo22 fun b i j => b + i * j) ⟨(a : ℕ), 0⟩ 2 2 fun i j => ((a : ℕ) : ℝ) + i * j :=
    fun a => demo22_holds (fun b i j => b + i * j) a
  obtain ⟨b, s', -, -, -, -, -, h, -⟩ := C36_bregman_variables_bounded (n := 2) (m := 2) le_rfl le_rfl (by unfold FitsInt INT_MAX INT_MIN; norm_num) (mu := 1) (lam := 2)
    one_pos two_pos (jac := 2) (by unfold INT_MAX; norm_num) (Dbl.fin 0) (P := fun a : Fin 10 => (⟨(a : ℕ), 0⟩ : Ptr))
    (fun a b hab => Sep.of_blk fun h => hab (Fin.ext h)) (s := ⟨demo22 fun b i j => b + i * j, fun b => decide (b < 10), 10, 0, fun _ => true⟩)
    (hA 0) (hA 1) (hA 3) (hA 4) (hA 5) (hA 6) (hA 2).1 (hA 7).1 (hA 8).1 (hA 9).1
  exact ⟨b, s', h⟩

end L1c
