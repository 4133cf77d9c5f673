import Verif.Props.Bregman
import Verif.Proofs.BregmanConv
import Mathlib.Topology.Algebra.InfiniteSum.Real

/-!
# Convergence of TV denoising (`C73`)

Exact arithmetic, images of at least 2×2 pixels, at least ten inner sweeps per iteration.
-/

namespace L1c
open Prog Scalar Finset

/-- A caller state from which `l1c_breg_anistropic_TV` may be called: `f` holds the finite image `f0`, `uk` is a
separate array of the same size, and the eight work arrays can be allocated. -/
structure TVReady (s : PState Dbl) (n m : ℕ) (uk f : Ptr) (f0 : Img) : Prop where
  wf : s.WF
  out : ∃ u0, HoldsF s.mem uk n m u0
  inp : HoldsImg s.mem f n m f0
  sep : Sep ((n * m : ℕ) : Int) uk f
  mem : ∀ k < 8, s.oracle (s.calls + k) = true

/-- `20 TV(f)² + 5 n m / mu²`, with `TV(f)` the sum of the absolute differences of neighbouring pixels -/
noncomputable def tvBudget (n m : ℕ) (mu : ℝ) (f : Img) : ℝ :=
  20 * (norm1 n m (gradX 1 m f) + norm1 n m (gradY 1 n f)) ^ 2 + 5 * (n * m) / mu ^ 2

/-- squared distance of two images -/
noncomputable def dist2 (n m : ℕ) (u v : Img) : ℝ := normSq2 n m fun i j => u i j - v i j

theorem not_lt_nonpos (y : Dbl) {t : ℝ} (ht : t ≤ 0) : flt (fsqrt y) (Dbl.fin t) = false := by
  rw [Bool.eq_false_iff, Ne]
  cases y with
  | fin a =>
    rw [Dbl.fsqrt_fin']
    split
    · simp
    · rw [Dbl.flt_fin]
      have := Real.sqrt_nonneg a
      linarith
  | pinf => rw [Dbl.flt_iff]; exact fun h => h.elim
  | ninf => rw [show fsqrt Dbl.ninf = Dbl.nan from rfl]; simp
  | nan => simp

variable {n m : ℕ} {mu : ℝ} {jac : Int}

/-- The images returned by `l1c_breg_anistropic_TV` run through a sequence `u 0, u 1, …` that does not depend on
`max_iter` and `tol`; with `tol ≤ 0` the call with `max_iter = K` returns `u K`.  The objective has a minimiser `us`
(unique, with quadratic growth), the squared errors of `u 1, u 2, …` have a sum of at most `tvBudget`, and `u K`
converges to `us`. -/
theorem C73_converges (hn : 2 ≤ n) (hm : 2 ≤ m) (hfit : FitsInt ((n : Int) * m)) (hmu : 0 < mu) (f0 : Img)
    (h10 : 10 ≤ jac) (hj : jac < INT_MAX) :
    ∃ (us : Img) (u : ℕ → Img),
      (∀ v, tvObj n m mu f0 us + mu / 2 * dist2 n m v us ≤ tvObj n m mu f0 v) ∧
      (∀ s uk f, TVReady s n m uk f f0 → ∀ max_iter tol, max_iter < INT_MAX →
        ∃ K i s', CSpec (l1c_breg_anistropic_TV n m uk f (Dbl.fin mu) tol max_iter jac) s (0, i) s' ∧
          HoldsImg s'.mem uk n m (u K) ∧ K ≤ max_iter.toNat ∧ (∀ t ≤ 0, tol = Dbl.fin t → K = max_iter.toNat)) ∧
      (∀ K, ∑ k ∈ range K, dist2 n m (u (k + 1)) us ≤ tvBudget n m mu f0) ∧
      Filter.Tendsto (fun K => dist2 n m (u K) us) Filter.atTop (nhds 0) := by
  obtain ⟨us, bx, bY, hS⟩ := saddle_exists n m hmu (by linarith : 0 < 2 * mu) f0
  have hsum : ∀ K, ∑ k ∈ range K, dist2 n m (bregIterR n m mu (2 * mu) jac.toNat f0 (k + 1)).u us ≤ tvBudget n m mu f0 := fun K =>
    (err_sum hmu (by omega) hS K).trans (start_bound hmu hS)
  refine ⟨us, fun K => (bregIterR n m mu (2 * mu) jac.toNat f0 K).u, hS.strong, ?_, hsum, ?_⟩
  · rintro s uk f ⟨hw, ⟨u0, hu⟩, hf, hsep, hor⟩ max_iter tol hmax
    obtain ⟨K, i, s', h1, -, -, h4, -, h6, h7⟩ := cspec_breg (mu := Dbl.fin mu) (tol := tol) hw hn hm hfit hu (holdsImg_iff.1 hf) hsep hmax hj hor
    have e2 : (lit 2 : Dbl) * Dbl.fin mu = Dbl.fin (2 * mu) := by rw [Dbl.lit_eq, Dbl.fin_mul]; norm_num
    rw [e2] at h4
    have hit := iter_fin (lam := 2 * mu) hn hm hmu (by linarith) jac.toNat (f := f0) (fF := fun i j => Dbl.fin (f0 i j)) (fun _ _ _ _ => rfl) K
    refine ⟨K, i, s', h1, h4.toImg hit.u, h6, ?_⟩
    rintro t ht rfl
    rcases h7 with h7 | ⟨-, -, h7, -⟩
    · exact h7.1
    · unfold bregBrk relErrF at h7
      rw [not_lt_nonpos _ ht] at h7
      cases h7
  · rw [← Filter.tendsto_add_atTop_iff_nat 1]
    exact (summable_of_sum_range_le (fun k => normSq2_nonneg n m _) hsum).tendsto_atTop_zero

/-- minimisers of the objective are equal on the image -/
theorem C73_minimiser_unique (hn : 2 ≤ n) (hm : 2 ≤ m) (hfit : FitsInt ((n : Int) * m)) (hmu : 0 < mu) (f0 : Img) :
    ∃ us : Img, (∀ v, tvObj n m mu f0 us ≤ tvObj n m mu f0 v) ∧
      ∀ v, (∀ w, tvObj n m mu f0 v ≤ tvObj n m mu f0 w) → ImgEq n m v us := by
  obtain ⟨us, -, h, -⟩ := C73_converges (jac := 10) hn hm hfit hmu f0 le_rfl (by unfold INT_MAX; norm_num)
  refine ⟨us, fun v => ?_, fun v hv => strong_unique hmu h (hv us)⟩
  have h1 := h v
  have h2 := mul_nonneg (half_pos hmu).le (normSq2_nonneg n m fun i j => v i j - us i j)
  unfold dist2 at h1
  linarith

theorem dist2_congr {u v v' : Img} (h : ImgEq n m v v') : dist2 n m u v = dist2 n m u v' := by
  unfold dist2 normSq2
  exact inner2_eqOn (fun i hi j hj => by rw [h i hi j hj]) fun i hi j hj => by rw [h i hi j hj]

/-- For all but at most `tvBudget/eps` values of `max_iter`, the call with `tol ≤ 0` returns an image whose squared
distance to the minimiser is at most `eps`. -/
theorem C73_few_inaccurate (hn : 2 ≤ n) (hm : 2 ≤ m) (hfit : FitsInt ((n : Int) * m)) (hmu : 0 < mu) (f0 : Img)
    (h10 : 10 ≤ jac) (hj : jac < INT_MAX) {us : Img} (hus : ∀ v, tvObj n m mu f0 us ≤ tvObj n m mu f0 v) (eps : ℝ) :
    ∃ bad : Finset Int, (bad.card : ℝ) * eps ≤ tvBudget n m mu f0 ∧
      ∀ s uk f, TVReady s n m uk f f0 → ∀ max_iter, 0 < max_iter → max_iter < INT_MAX → max_iter ∉ bad → ∀ t ≤ 0,
        ∃ i s' w, CSpec (l1c_breg_anistropic_TV n m uk f (Dbl.fin mu) (Dbl.fin t) max_iter jac) s (0, i) s' ∧
          HoldsImg s'.mem uk n m w ∧ dist2 n m w us ≤ eps := by
  obtain ⟨us', u, h1, h2, h3, -⟩ := C73_converges hn hm hfit hmu f0 h10 hj
  have he : ImgEq n m us us' := strong_unique hmu h1 (hus us')
  obtain ⟨N, hN⟩ : ∃ N : ℕ, (N : Int) = INT_MAX := ⟨INT_MAX.toNat, Int.toNat_of_nonneg (by unfold INT_MAX; norm_num)⟩
  set B := (range N).filter fun k => eps < dist2 n m (u (k + 1)) us' with hB
  have hc : (B.card : ℝ) * eps ≤ tvBudget n m mu f0 := by
    calc (B.card : ℝ) * eps = ∑ k ∈ B, eps := by rw [sum_const, nsmul_eq_mul]
      _ ≤ ∑ k ∈ B, dist2 n m (u (k + 1)) us' := sum_le_sum fun k hk => (mem_filter.1 hk).2.le
      _ ≤ ∑ k ∈ range N, dist2 n m (u (k + 1)) us' :=
          sum_le_sum_of_subset_of_nonneg (filter_subset _ _) fun k _ _ => normSq2_nonneg n m _
      _ ≤ _ := h3 N
  refine ⟨B.image fun k : ℕ => (k : Int) + 1, ?_, ?_⟩
  · rw [card_image_of_injective _ (fun a b h => by simpa using h)]; exact hc
  · intro s uk f hr max_iter hp hmax hnb t ht
    obtain ⟨K, i, s', g1, g2, -, g4⟩ := h2 s uk f hr max_iter (Dbl.fin t) hmax
    refine ⟨i, s', u K, g1, g2, ?_⟩
    rw [g4 t ht rfl, dist2_congr he]
    by_contra hcon
    push Not at hcon
    refine hnb (mem_image.2 ⟨max_iter.toNat - 1, mem_filter.2 ⟨mem_range.2 (by omega), ?_⟩, by omega⟩)
    rwa [show max_iter.toNat - 1 + 1 = max_iter.toNat by omega]

/-- Within a budget of `N` iterations some `max_iter ≤ N` gives a squared error of at most `tvBudget/N`. -/
theorem C73_rate (hn : 2 ≤ n) (hm : 2 ≤ m) (hfit : FitsInt ((n : Int) * m)) (hmu : 0 < mu) (f0 : Img)
    (h10 : 10 ≤ jac) (hj : jac < INT_MAX) {us : Img} (hus : ∀ v, tvObj n m mu f0 us ≤ tvObj n m mu f0 v)
    {N : ℕ} (hN : 1 ≤ N) (hN' : (N : Int) < INT_MAX) :
    ∃ max_iter : Int, 1 ≤ max_iter ∧ max_iter ≤ N ∧ ∀ s uk f, TVReady s n m uk f f0 → ∀ t ≤ 0,
      ∃ i s' w, CSpec (l1c_breg_anistropic_TV n m uk f (Dbl.fin mu) (Dbl.fin t) max_iter jac) s (0, i) s' ∧
        HoldsImg s'.mem uk n m w ∧ dist2 n m w us ≤ tvBudget n m mu f0 / N := by
  obtain ⟨us', u, h1, h2, h3, -⟩ := C73_converges hn hm hfit hmu f0 h10 hj
  have he : ImgEq n m us us' := strong_unique hmu h1 (hus us')
  have hNp : (0 : ℝ) < N := by exact_mod_cast hN
  obtain ⟨k, hk, hle⟩ : ∃ k ∈ range N, dist2 n m (u (k + 1)) us' ≤ tvBudget n m mu f0 / N := by
    by_contra hcon
    push Not at hcon
    have := sum_lt_sum_of_nonempty ⟨0, mem_range.2 hN⟩ hcon
    rw [sum_const, card_range, nsmul_eq_mul, mul_div_cancel₀ _ hNp.ne'] at this
    exact absurd (h3 N) (not_le.2 this)
  have hk := mem_range.1 hk
  refine ⟨k + 1, by omega, by omega, fun s uk f hr t ht => ?_⟩
  obtain ⟨K, i, s', g1, g2, -, g4⟩ := h2 s uk f hr (k + 1) (Dbl.fin t) (by omega)
  refine ⟨i, s', u K, g1, g2, ?_⟩
  rw [g4 t ht rfl, dist2_congr he]
  exact hle

/-- `C73`: a 3×4 ramp, ten sweeps, a budget of 1000 iterations -/
example : ∃ (us : Img) (max_iter : Int) (i : Int) (s' : PState Dbl) (w : Img),
    (∀ v, tvObj 3 4 1 (fun i j => ((i * 4 + j : ℕ) : ℝ)) us ≤ tvObj 3 4 1 (fun i j => ((i * 4 + j : ℕ) : ℝ)) v) ∧ max_iter ≤ 1000 ∧
    CSpec (l1c_breg_anistropic_TV (3 : ℕ) (4 : ℕ) ⟨0, 0⟩ ⟨1, 0⟩ (Dbl.fin 1) (Dbl.fin 0) max_iter 10) (demoP 3 4) (0, i) s' ∧
    HoldsImg s'.mem ⟨0, 0⟩ 3 4 w ∧ dist2 3 4 w us ≤ tvBudget 3 4 1 (fun i j => ((i * 4 + j : ℕ) : ℝ)) / (1000 : ℕ) := by
  obtain ⟨a, b, c, d, e⟩ := demoP_ok 3 4
  have hfit : FitsInt (((3 : ℕ) : Int) * (4 : ℕ)) := by unfold FitsInt INT_MAX INT_MIN; norm_num
  obtain ⟨us, hus, -⟩ := C73_minimiser_unique (n := 3) (m := 4) (mu := 1) (by norm_num) (by norm_num) hfit one_pos fun i j => ((i * 4 + j : ℕ) : ℝ)
  obtain ⟨mi, -, h2, h3⟩ := C73_rate (n := 3) (m := 4) (jac := 10) (by norm_num) (by norm_num) hfit one_pos _ le_rfl (by unfold INT_MAX; norm_num) hus
    (N := 1000) (by norm_num) (by unfold INT_MAX; norm_num)
  obtain ⟨i, s', w, g⟩ := h3 (demoP 3 4) ⟨0, 0⟩ ⟨1, 0⟩ ⟨a, ⟨_, holdsImg_iff.1 b⟩, c, d, e⟩ 0 le_rfl
  exact ⟨us, mi, i, s', w, hus, h2, g⟩

end L1c
