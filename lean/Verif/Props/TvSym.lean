import Verif.Props.BregmanConv
import Verif.Proofs.TvSym

/-!
# TV denoising under scaling, change of sign and change of brightness (`C83`)

Exact arithmetic, images of at least 2×2 pixels, any number of inner sweeps.
-/

namespace L1c
open Prog Scalar Finset

variable {n m : ℕ} {mu : ℝ} {jac : Int}

/-- a run of the library function from a caller state, as the iterates of the real iteration -/
theorem run_real (hn : 2 ≤ n) (hm : 2 ≤ m) (hfit : FitsInt ((n : Int) * m)) (hmu : 0 < mu) (hj : jac < INT_MAX) {max_iter : Int} (hmax : max_iter < INT_MAX) (tol : Dbl)
    {s : PState Dbl} {uk f : Ptr} {f0 : Img} (hr : TVReady s n m uk f f0) :
    ∃ (K : ℕ) (i : Int) (s' : PState Dbl), CSpec (l1c_breg_anistropic_TV n m uk f (Dbl.fin mu) tol max_iter jac) s (0, i) s' ∧
      HoldsImg s'.mem uk n m (bregIterR n m mu (2 * mu) jac.toNat f0 K).u ∧ K ≤ max_iter.toNat ∧
      ((K = max_iter.toNat ∧ i = K + 1 ∧ ∀ l < K, bregBrk n m (Dbl.fin mu) (Dbl.fin (2 * mu)) tol jac.toNat (fun i j => Dbl.fin (f0 i j)) l = false) ∨
       (0 < K ∧ i = K ∧ bregBrk n m (Dbl.fin mu) (Dbl.fin (2 * mu)) tol jac.toNat (fun i j => Dbl.fin (f0 i j)) (K - 1) = true ∧
        ∀ l < K - 1, bregBrk n m (Dbl.fin mu) (Dbl.fin (2 * mu)) tol jac.toNat (fun i j => Dbl.fin (f0 i j)) l = false)) := by
  obtain ⟨hw, ⟨u0, hu⟩, hf, hsep, hor⟩ := hr
  obtain ⟨K, i, s', h1, -, -, h4, -, h6, h7⟩ := cspec_breg (mu := Dbl.fin mu) (tol := tol) hw hn hm hfit hu (holdsImg_iff.1 hf) hsep hmax hj hor
  have e2 : (lit 2 : Dbl) * Dbl.fin mu = Dbl.fin (2 * mu) := by rw [Dbl.lit_eq, Dbl.fin_mul]; norm_num
  rw [e2] at h4 h7
  have hit := iter_fin (lam := 2 * mu) hn hm hmu (by linarith) jac.toNat (f := f0) (fF := fun i j => Dbl.fin (f0 i j)) (fun _ _ _ _ => rfl) K
  exact ⟨K, i, s', h1, h4.toImg hit.u, h6, h7⟩

/-- the old image of the real iteration -/
noncomputable def oldR (n m : ℕ) (mu lam : ℝ) (jac : ℕ) (f : Img) : ℕ → Img
  | 0 => fun _ _ => 0
  | k + 1 => (bregIterR n m mu lam jac f (k + 1)).u

theorem old_fin (hn : 2 ≤ n) (hm : 2 ≤ m) {lam : ℝ} (hmu : 0 < mu) (hlam : 0 < lam) (jac : ℕ) (f0 : Img) (k : ℕ) :
    IsR n m (bregOld n m (Dbl.fin mu) (Dbl.fin lam) jac (fun i j => Dbl.fin (f0 i j)) k) (oldR n m mu lam jac f0 k) := by
  cases k with
  | zero => exact fun _ _ _ _ => by unfold bregOld oldR; rw [Dbl.lit_eq, Rat.cast_zero]
  | succ k => exact (iter_fin hn hm hmu hlam jac (fun _ _ _ _ => rfl) (k + 1)).u

/-- Scaling the image by `c` and dividing `mu` by `|c|` scales the returned image by `c`, after the same number of
iterations; `c = -1` is the negative of the image. -/
theorem C83_scale (hn : 2 ≤ n) (hm : 2 ≤ m) (hfit : FitsInt ((n : Int) * m)) (hmu : 0 < mu) (hj : jac < INT_MAX) {max_iter : Int} (hmax : max_iter < INT_MAX)
    (tol : Dbl) {c : ℝ} (hc : c ≠ 0) (f0 : Img) {s s2 : PState Dbl} {uk f uk2 f2 : Ptr} (hr : TVReady s n m uk f f0) (hr2 : TVReady s2 n m uk2 f2 fun i j => c * f0 i j) :
    ∃ (u : Img) (i : Int) (s' s2' : PState Dbl),
      CSpec (l1c_breg_anistropic_TV n m uk f (Dbl.fin mu) tol max_iter jac) s (0, i) s' ∧ HoldsImg s'.mem uk n m u ∧
      CSpec (l1c_breg_anistropic_TV n m uk2 f2 (Dbl.fin (mu / |c|)) tol max_iter jac) s2 (0, i) s2' ∧ HoldsImg s2'.mem uk2 n m fun i j => c * u i j := by
  have ha : (0 : ℝ) < |c| := abs_pos.2 hc
  have hmu2 : 0 < mu / |c| := by positivity
  obtain ⟨K, i, s', h1, h2, h3, h4⟩ := run_real hn hm hfit hmu hj hmax tol hr
  obtain ⟨K2, i2, s2', g1, g2, g3, g4⟩ := run_real hn hm hfit hmu2 hj hmax tol hr2
  have e : ∀ k, (bregIterR n m (mu / |c|) (2 * (mu / |c|)) jac.toNat (fun i j => c * f0 i j) k).u = fun i j => c * (bregIterR n m mu (2 * mu) jac.toNat f0 k).u i j := fun k => by
    have := bregIterR_affine (n := n) (m := m) (t := 0) hmu (by linarith : 0 < 2 * mu) hc jac.toNat f0 k
    simp only [add_zero] at this
    rw [← mul_div_assoc, this]
  have eo : ∀ k, oldR n m (mu / |c|) (2 * (mu / |c|)) jac.toNat (fun i j => c * f0 i j) k = fun i j => c * oldR n m mu (2 * mu) jac.toNat f0 k i j := fun k => by
    cases k with
    | zero => unfold oldR; simp
    | succ k => exact e (k + 1)
  have hb : ∀ l, bregBrk n m (Dbl.fin mu) (Dbl.fin (2 * mu)) tol jac.toNat (fun i j => Dbl.fin (f0 i j)) l
      = bregBrk n m (Dbl.fin (mu / |c|)) (Dbl.fin (2 * (mu / |c|))) tol jac.toNat (fun i j => Dbl.fin (c * f0 i j)) l := fun l => by
    have k1 := (iter_fin hn hm hmu2 (lam := 2 * (mu / |c|)) (by linarith) jac.toNat (f := fun i j => c * f0 i j) (fF := fun i j => Dbl.fin (c * f0 i j)) (fun _ _ _ _ => rfl) (l + 1)).u
    have k2 := old_fin hn hm hmu2 (lam := 2 * (mu / |c|)) (by linarith) jac.toNat (fun i j => c * f0 i j) l
    rw [e] at k1
    rw [eo] at k2
    unfold bregBrk
    rw [relErrF_scale hc (by omega) (iter_fin hn hm hmu (by linarith) jac.toNat (f := f0) (fun _ _ _ _ => rfl) (l + 1)).u (old_fin hn hm hmu (by linarith) jac.toNat f0 l) k1 k2]
  obtain ⟨rfl, rfl⟩ := stop_same hb h4 h3 g4 g3
  exact ⟨_, i, s', s2', h1, h2, g1, e K ▸ g2⟩

/-- With the stopping test off (`tol ≤ 0`), adding a constant to the image adds it to the returned image. -/
theorem C83_offset_partial (hn : 2 ≤ n) (hm : 2 ≤ m) (hfit : FitsInt ((n : Int) * m)) (hmu : 0 < mu) (hj : jac < INT_MAX) {max_iter : Int} (hmax : max_iter < INT_MAX)
    {tol : ℝ} (htol : tol ≤ 0) (c : ℝ) (f0 : Img) {s s2 : PState Dbl} {uk f uk2 f2 : Ptr} (hr : TVReady s n m uk f f0) (hr2 : TVReady s2 n m uk2 f2 fun i j => f0 i j + c) :
    ∃ (u : Img) (i : Int) (s' s2' : PState Dbl),
      CSpec (l1c_breg_anistropic_TV n m uk f (Dbl.fin mu) (Dbl.fin tol) max_iter jac) s (0, i) s' ∧ HoldsImg s'.mem uk n m u ∧
      CSpec (l1c_breg_anistropic_TV n m uk2 f2 (Dbl.fin mu) (Dbl.fin tol) max_iter jac) s2 (0, i) s2' ∧ HoldsImg s2'.mem uk2 n m fun i j => u i j + c := by
  obtain ⟨K, i, s', h1, h2, h3, h4⟩ := run_real hn hm hfit hmu hj hmax (Dbl.fin tol) hr
  obtain ⟨K2, i2, s2', g1, g2, g3, g4⟩ := run_real hn hm hfit hmu hj hmax (Dbl.fin tol) hr2
  obtain ⟨rfl, rfl⟩ := stop_same (fun l => by unfold bregBrk relErrF; rw [not_lt_nonpos _ htol, not_lt_nonpos _ htol]) h4 h3 g4 g3
  refine ⟨_, i, s', s2', h1, h2, g1, ?_⟩
  have := bregIterR_affine (n := n) (m := m) (c := 1) (t := c) hmu (by linarith : 0 < 2 * mu) one_ne_zero jac.toNat f0 K
  simp only [abs_one, div_one, one_mul] at this
  rw [this] at g2
  exact g2

theorem brk_zero (hn : 2 ≤ n) (hm : 2 ≤ m) {lam : ℝ} (hmu : 0 < mu) (hlam : 0 < lam) (jac : ℕ) (f0 : Img) (tol : ℝ) :
    bregBrk n m (Dbl.fin mu) (Dbl.fin lam) (Dbl.fin tol) jac (fun i j => Dbl.fin (f0 i j)) 0 = false := by
  unfold bregBrk
  rw [relErrF_fin (by omega) (iter_fin hn hm hmu hlam jac (f := f0) (fun _ _ _ _ => rfl) (0 + 1)).u (old_fin hn hm hmu hlam jac f0 0)]
  unfold oldR
  simp only [mul_zero, Finset.sum_const_zero, Dbl.fin_div', if_true]
  unfold Dbl.infMul
  split_ifs
  · rw [show fsqrt Dbl.nan = Dbl.nan from rfl]; simp
  · rw [Bool.eq_false_iff, Ne, Dbl.flt_iff]; exact fun h => h
  · rw [show fsqrt Dbl.ninf = Dbl.nan from rfl]; simp

theorem sum_pix (g : ℕ → ℕ → ℝ) (hm : 0 < m) : ∑ k ∈ range (n * m), g (k / m) (k % m) = ∑ i ∈ range n, ∑ j ∈ range m, g i j := by
  induction n with
  | zero => simp
  | succ n ih =>
    rw [Nat.succ_mul, sum_range_add, ih, sum_range_succ]
    congr 1
    refine sum_congr rfl fun j hj => ?_
    have hj := mem_range.1 hj
    rw [Nat.mul_comm n m, Nat.mul_add_div hm, Nat.div_eq_of_lt hj, Nat.mul_add_mod, Nat.mod_eq_of_lt hj, add_zero]

theorem brk_one (hn : 2 ≤ n) (hm : 2 ≤ m) {lam : ℝ} (hmu : 0 < mu) (hlam : 0 < lam) (jac : ℕ) (f0 : Img) {tol : ℝ} (htol : 0 < tol)
    (hB : 0 < normSq2 n m (bregIterR n m mu lam jac f0 1).u) :
    bregBrk n m (Dbl.fin mu) (Dbl.fin lam) (Dbl.fin tol) jac (fun i j => Dbl.fin (f0 i j)) 1 = true ↔
      dist2 n m (bregIterR n m mu lam jac f0 2).u (bregIterR n m mu lam jac f0 1).u < tol ^ 2 * normSq2 n m (bregIterR n m mu lam jac f0 1).u := by
  unfold bregBrk
  rw [relErrF_fin (by omega) (iter_fin hn hm hmu hlam jac (f := f0) (fun _ _ _ _ => rfl) (1 + 1)).u (old_fin hn hm hmu hlam jac f0 1)]
  unfold oldR
  set u1 := (bregIterR n m mu lam jac f0 1).u
  set u2 := (bregIterR n m mu lam jac f0 2).u
  have e1 := sum_pix (n := n) (m := m) (fun i j => (u2 i j - u1 i j) * (u2 i j - u1 i j)) (by omega)
  have e2 := sum_pix (n := n) (m := m) (fun i j => u1 i j * u1 i j) (by omega)
  have e1' : ∑ i ∈ range n, ∑ j ∈ range m, (u2 i j - u1 i j) * (u2 i j - u1 i j) = dist2 n m u2 u1 := rfl
  have e2' : ∑ i ∈ range n, ∑ j ∈ range m, u1 i j * u1 i j = normSq2 n m u1 := rfl
  simp only [zero_add] at *
  rw [show (∑ k ∈ range (n * m), (u2 (k / m) (k % m) - u1 (k / m) (k % m)) * (u2 (k / m) (k % m) - u1 (k / m) (k % m))) = dist2 n m u2 u1 from e1.trans e1',
    show (∑ k ∈ range (n * m), u1 (k / m) (k % m) * u1 (k / m) (k % m)) = normSq2 n m u1 from e2.trans e2']
  have h0 : 0 ≤ dist2 n m u2 u1 := normSq2_nonneg n m _
  rw [Dbl.fin_div hB.ne', Dbl.fsqrt_fin', if_neg (not_lt.2 (div_nonneg h0 hB.le)), Dbl.flt_fin, Real.sqrt_lt' htol, div_lt_iff₀ hB]

theorem bright_run (hn : 2 ≤ n) (hm : 2 ≤ m) (hfit : FitsInt ((n : Int) * m)) (hmu : 0 < mu) (hj : jac < INT_MAX) {tol : ℝ} (htol : 0 < tol) (f0 : Img) :
    ∃ c0 : ℝ, ∀ c, c0 ≤ c → ∀ max_iter : Int, 2 ≤ max_iter → max_iter < INT_MAX → ∀ (s2 : PState Dbl) (uk2 f2 : Ptr),
      TVReady s2 n m uk2 f2 (fun i j => f0 i j + c) → ∃ (i2 : Int) (s2' : PState Dbl),
        CSpec (l1c_breg_anistropic_TV n m uk2 f2 (Dbl.fin mu) (Dbl.fin tol) max_iter jac) s2 (0, i2) s2' ∧
        HoldsImg s2'.mem uk2 n m fun i j => (bregIterR n m mu (2 * mu) jac.toNat f0 2).u i j + c := by
  have hlam : 0 < 2 * mu := by linarith
  set u1 := (bregIterR n m mu (2 * mu) jac.toNat f0 1).u with hu1
  set u2 := (bregIterR n m mu (2 * mu) jac.toNat f0 2).u with hu2
  refine ⟨-u1 0 0 + dist2 n m u2 u1 / tol ^ 2 + 1, fun c hc max_iter h2 hmax s2 uk2 f2 hr2 => ?_⟩
  have hA0 : 0 ≤ dist2 n m u2 u1 := normSq2_nonneg n m _
  have hA : 0 ≤ dist2 n m u2 u1 / tol ^ 2 := by positivity
  have e : ∀ k, (bregIterR n m mu (2 * mu) jac.toNat (fun i j => f0 i j + c) k).u = fun i j => (bregIterR n m mu (2 * mu) jac.toNat f0 k).u i j + c := fun k => by
    have := bregIterR_affine (n := n) (m := m) (c := 1) (t := c) hmu hlam one_ne_zero jac.toNat f0 k
    simp only [abs_one, div_one, one_mul] at this
    exact congrArg BStateR.u this
  have hB : dist2 n m u2 u1 / tol ^ 2 + 1 ≤ normSq2 n m (bregIterR n m mu (2 * mu) jac.toNat (fun i j => f0 i j + c) 1).u := by
    rw [e, normSq2_eq]
    have k1 : (u1 0 0 + c) ^ 2 ≤ ∑ j ∈ range m, (u1 0 j + c) ^ 2 :=
      single_le_sum (f := fun j => (u1 0 j + c) ^ 2) (fun j _ => sq_nonneg _) (mem_range.2 (show 0 < m by omega))
    have k2 : ∑ j ∈ range m, (u1 0 j + c) ^ 2 ≤ ∑ i ∈ range n, ∑ j ∈ range m, (u1 i j + c) ^ 2 :=
      single_le_sum (f := fun i => ∑ j ∈ range m, (u1 i j + c) ^ 2) (fun i _ => sum_nonneg fun j _ => sq_nonneg _) (mem_range.2 (show 0 < n by omega))
    nlinarith
  have hb1 : bregBrk n m (Dbl.fin mu) (Dbl.fin (2 * mu)) (Dbl.fin tol) jac.toNat (fun i j => Dbl.fin (f0 i j + c)) 1 = true := by
    refine (brk_one hn hm hmu hlam jac.toNat (fun i j => f0 i j + c) htol (by linarith)).2 ?_
    have : dist2 n m (bregIterR n m mu (2 * mu) jac.toNat (fun i j => f0 i j + c) 2).u (bregIterR n m mu (2 * mu) jac.toNat (fun i j => f0 i j + c) 1).u = dist2 n m u2 u1 := by
      rw [e, e]
      unfold dist2
      simp only [add_sub_add_right_eq_sub]
      rfl
    rw [this]
    have h3 := mul_lt_mul_of_pos_left (lt_of_lt_of_le (lt_add_one _) hB) (by positivity : 0 < tol ^ 2)
    rwa [mul_div_cancel₀ _ (by positivity)] at h3
  have hb0 := brk_zero hn hm hmu hlam jac.toNat (fun i j => f0 i j + c) tol
  obtain ⟨K2, i2, s2', g1, g2, g3, g4⟩ := run_real hn hm hfit hmu hj hmax (Dbl.fin tol) hr2
  obtain rfl : K2 = 2 := by
    rcases g4 with ⟨h, -, h'⟩ | ⟨h0, -, h, h'⟩
    · have := h' 1 (by omega)
      rw [hb1] at this
      cases this
    · rcases Nat.lt_trichotomy K2 2 with hk | hk | hk
      · obtain rfl : K2 = 1 := by omega
        rw [hb0] at h
        cases h
      · exact hk
      · have := h' 1 (by omega)
        rw [hb1] at this
        cases this
  refine ⟨i2, s2', g1, ?_⟩
  rw [e] at g2
  exact g2

/-- With the stopping test on, this is false of every image: if it is made bright enough, the call stops after two iterations,
however many are allowed and however small the tolerance is. -/
theorem C83_bright_stops (hn : 2 ≤ n) (hm : 2 ≤ m) (hfit : FitsInt ((n : Int) * m)) (hmu : 0 < mu) (hj : jac < INT_MAX) {tol : ℝ} (htol : 0 < tol) (f0 : Img) :
    ∃ c0 : ℝ, ∀ c, c0 ≤ c → ∀ max_iter : Int, 2 ≤ max_iter → max_iter < INT_MAX → ∀ (s s2 : PState Dbl) (uk f uk2 f2 : Ptr), TVReady s n m uk f f0 →
      TVReady s2 n m uk2 f2 (fun i j => f0 i j + c) → ∃ (u : Img) (i i2 : Int) (s' s2' : PState Dbl),
        CSpec (l1c_breg_anistropic_TV n m uk f (Dbl.fin mu) (Dbl.fin 0) 2 jac) s (0, i) s' ∧ HoldsImg s'.mem uk n m u ∧
        CSpec (l1c_breg_anistropic_TV n m uk2 f2 (Dbl.fin mu) (Dbl.fin tol) max_iter jac) s2 (0, i2) s2' ∧ HoldsImg s2'.mem uk2 n m fun i j => u i j + c := by
  obtain ⟨c0, h⟩ := bright_run hn hm hfit hmu hj htol f0
  refine ⟨c0, fun c hc max_iter h2 hmax s s2 uk f uk2 f2 hr hr2 => ?_⟩
  obtain ⟨i2, s2', g1, g2⟩ := h c hc max_iter h2 hmax s2 uk2 f2 hr2
  obtain ⟨K, i, s', a1, a2, a3, a4⟩ := run_real hn hm hfit hmu hj (max_iter := 2) (by unfold INT_MAX; norm_num) (Dbl.fin 0) hr
  obtain rfl : K = 2 := by
    rcases a4 with ⟨h, -⟩ | ⟨-, -, h, -⟩
    · exact h
    · unfold bregBrk relErrF at h
      rw [not_lt_nonpos _ le_rfl] at h
      cases h
  exact ⟨_, i, i2, s', s2', a1, a2, g1, g2⟩

/-- a state of the caller in which a given image is stored -/
noncomputable def imgP (n m : ℕ) (f0 : Img) : PState Dbl where
  mem := ⟨fun b => if b < 2 then n * m else 0, fun p => Dbl.fin (f0 (p.off.toNat / m) (p.off.toNat % m))⟩
  live := fun b => decide (b < 2)
  next := 2
  calls := 0
  oracle := fun _ => true

theorem imgP_ready (n m : ℕ) (f0 : Img) : TVReady (imgP n m f0) n m ⟨0, 0⟩ ⟨1, 0⟩ f0 := by
  have hp : ∀ b < 2, HoldsImg (imgP n m f0).mem ⟨b, 0⟩ n m f0 := fun b hb => by
    refine ⟨fun i h0 h1 => ⟨by simpa using h0, by simpa [imgP, Nat.lt_succ_iff.1 hb] using h1⟩, fun i hi j hj => ?_⟩
    have e : ((i : Int) * m + j).toNat = m * i + j := by rw [show (i : Int) * m + j = ((m * i + j : ℕ) : Int) by push_cast; ring]; exact Int.toNat_natCast _
    simp [Mem.pix, imgP, e, Nat.mul_add_div (by omega : 0 < m), Nat.div_eq_of_lt hj, Nat.mod_eq_of_lt hj]
  refine ⟨fun b hb => ?_, ⟨_, holdsImg_iff.1 (hp 0 (by norm_num))⟩, hp 1 (by norm_num), Sep.of_blk (by simp), fun k _ => rfl⟩
  have : 2 ≤ b := hb
  simp [imgP]; omega

/-- Adding a constant to the image does not always add it to the result: for the 2×2 image with one bright pixel, three iterations and
a tolerance of 1/10 the bright version ends up elsewhere. -/
theorem C83_offset_false : ∃ c : ℝ, ∀ (s s2 : PState Dbl) (uk f uk2 f2 : Ptr), TVReady s 2 2 uk f spotImg → TVReady s2 2 2 uk2 f2 (fun i j => spotImg i j + c) →
    ∃ (w w2 : Img) (i i2 : Int) (s' s2' : PState Dbl),
      CSpec (l1c_breg_anistropic_TV (2 : ℕ) (2 : ℕ) uk f (Dbl.fin 1) (Dbl.fin (1 / 10)) 3 1) s (0, i) s' ∧ HoldsImg s'.mem uk 2 2 w ∧
      CSpec (l1c_breg_anistropic_TV (2 : ℕ) (2 : ℕ) uk2 f2 (Dbl.fin 1) (Dbl.fin (1 / 10)) 3 1) s2 (0, i2) s2' ∧ HoldsImg s2'.mem uk2 2 2 w2 ∧ w2 0 0 ≠ w 0 0 + c := by
  have hfit : FitsInt (((2 : ℕ) : Int) * (2 : ℕ)) := by unfold FitsInt INT_MAX INT_MIN; norm_num
  have hI : (1 : Int) < INT_MAX := by unfold INT_MAX; norm_num
  obtain ⟨c0, h⟩ := bright_run (n := 2) (m := 2) (mu := 1) (jac := 1) le_rfl le_rfl hfit one_pos hI (tol := 1 / 10) (by norm_num) spotImg
  refine ⟨c0, fun s s2 uk f uk2 f2 hr hr2 => ?_⟩
  obtain ⟨i2, s2', h3, h4⟩ := h c0 le_rfl 3 (by norm_num) (by unfold INT_MAX; norm_num) s2 uk2 f2 hr2
  obtain ⟨K, j, s3, g1, g2, g3, g4⟩ := run_real (n := 2) (m := 2) (mu := 1) (jac := 1) le_rfl le_rfl hfit one_pos hI (max_iter := 3) (by unfold INT_MAX; norm_num) (Dbl.fin (1 / 10)) hr
  have two : (2 : ℝ) * 1 = 2 := by norm_num
  rw [two] at g2 g4 h4
  have hb0 := brk_zero (n := 2) (m := 2) (mu := 1) (lam := 2) le_rfl le_rfl one_pos two_pos 1 spotImg (1 / 10)
  have v1 := spot_one
  have v2 := spot_two
  have hB : normSq2 2 2 (bregIterR 2 2 1 2 1 spotImg 1).u = 889 / 15625 := by
    rw [normSq2_eq]
    simp only [sum_range_succ, sum_range_zero, v1.u00, v1.u01, v1.u10, v1.u11]
    norm_num
  have hD : dist2 2 2 (bregIterR 2 2 1 2 1 spotImg 2).u (bregIterR 2 2 1 2 1 spotImg 1).u = 98776 / 9765625 := by
    unfold dist2
    rw [normSq2_eq]
    simp only [sum_range_succ, sum_range_zero, v1.u00, v1.u01, v1.u10, v1.u11, v2.u00, v2.u01, v2.u10, v2.u11]
    norm_num
  have hb1 : bregBrk 2 2 (Dbl.fin 1) (Dbl.fin 2) (Dbl.fin (1 / 10)) 1 (fun i j => Dbl.fin (spotImg i j)) 1 = false := by
    rw [Bool.eq_false_iff, Ne, brk_one le_rfl le_rfl one_pos two_pos 1 spotImg (by norm_num) (by rw [hB]; norm_num), hB, hD]
    norm_num
  obtain rfl : K = 3 := by
    have g3 : K ≤ 3 := g3
    rcases g4 with ⟨h, -⟩ | ⟨h0, -, h, -⟩
    · exact h
    · rcases (by omega : K = 1 ∨ K = 2 ∨ K = 3) with rfl | rfl | rfl
      · exact absurd (h.symm.trans hb0) (by simp)
      · exact absurd (h.symm.trans hb1) (by simp)
      · rfl
  refine ⟨_, _, j, i2, s3, s2', g1, g2, h3, h4, ?_⟩
  have e1 : (bregIterR 2 2 1 2 1 spotImg 2).u 0 0 = 21 / 125 := v2.u00
  have e2 : (bregIterR 2 2 1 2 1 spotImg 3).u 0 0 = 577 / 3125 := spot_three
  show (bregIterR 2 2 1 2 1 spotImg 2).u 0 0 + c0 ≠ (bregIterR 2 2 1 2 1 spotImg 3).u 0 0 + c0
  rw [e1, e2]
  norm_num

/-- `C83`: a 3×4 image, its double, its negative and a brighter one -/
example (f0 : Img) : ∃ (u : Img) (i : Int) (s' s2' : PState Dbl),
    CSpec (l1c_breg_anistropic_TV (3 : ℕ) (4 : ℕ) ⟨0, 0⟩ ⟨1, 0⟩ (Dbl.fin 1) (Dbl.fin (1 / 100)) 50 2) (imgP 3 4 f0) (0, i) s' ∧ HoldsImg s'.mem ⟨0, 0⟩ 3 4 u ∧
    CSpec (l1c_breg_anistropic_TV (3 : ℕ) (4 : ℕ) ⟨0, 0⟩ ⟨1, 0⟩ (Dbl.fin (1 / |(-2)|)) (Dbl.fin (1 / 100)) 50 2) (imgP 3 4 fun i j => -2 * f0 i j) (0, i) s2' ∧
    HoldsImg s2'.mem ⟨0, 0⟩ 3 4 fun i j => -2 * u i j :=
  C83_scale (by norm_num) (by norm_num) (by unfold FitsInt INT_MAX INT_MIN; norm_num) one_pos (by unfold INT_MAX; norm_num) (by unfold INT_MAX; norm_num) _ (by norm_num) f0
    (imgP_ready 3 4 f0) (imgP_ready 3 4 _)

example (f0 : Img) (c : ℝ) : ∃ (u : Img) (i : Int) (s' s2' : PState Dbl),
    CSpec (l1c_breg_anistropic_TV (3 : ℕ) (4 : ℕ) ⟨0, 0⟩ ⟨1, 0⟩ (Dbl.fin 1) (Dbl.fin 0) 50 2) (imgP 3 4 f0) (0, i) s' ∧ HoldsImg s'.mem ⟨0, 0⟩ 3 4 u ∧
    CSpec (l1c_breg_anistropic_TV (3 : ℕ) (4 : ℕ) ⟨0, 0⟩ ⟨1, 0⟩ (Dbl.fin 1) (Dbl.fin 0) 50 2) (imgP 3 4 fun i j => f0 i j + c) (0, i) s2' ∧
    HoldsImg s2'.mem ⟨0, 0⟩ 3 4 fun i j => u i j + c :=
  C83_offset_partial (by norm_num) (by norm_num) (by unfold FitsInt INT_MAX INT_MIN; norm_num) one_pos (by unfold INT_MAX; norm_num) (by unfold INT_MAX; norm_num) le_rfl c f0
    (imgP_ready 3 4 f0) (imgP_ready 3 4 _)

/-- the caller states of `C83_offset_false` -/
example (c : ℝ) : TVReady (imgP 2 2 spotImg) 2 2 ⟨0, 0⟩ ⟨1, 0⟩ spotImg ∧ TVReady (imgP 2 2 fun i j => spotImg i j + c) 2 2 ⟨0, 0⟩ ⟨1, 0⟩ fun i j => spotImg i j + c :=
  ⟨imgP_ready 2 2 _, imgP_ready 2 2 _⟩

end L1c
