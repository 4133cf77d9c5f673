import Verif.Proofs.DctTvMem
import Verif.Proofs.NestaSet
import Verif.Props.NestaEnd
import Verif.Props.NestaRam

/-! Helper lemmas: NESTA with the DCT + TV functions that take vectors and buffers as arguments. -/

namespace L1c
open Scalar Matrix

section total
variable {F : Type} [Scalar F] {mrow mcol n : ℕ} {c : TvCfg F mrow mcol n} {idx : Fin n → Int}

/-- the functions of the analysis set are defined in all states in which the DCT buffers are as after setup -/
theorem tvAna_total (S : DctSet c.loc idx) : (tvAna c).Total fun t => BufInv idx t.dct where
  Ax := ⟨_, rfl, fun x old t ht => by
    obtain ⟨o, ho⟩ := tvRx_some (c := c) (setOk S) ht x
    refine ⟨_, _, congrArg (Option.map _) ho, ?_⟩
    unfold tvRx at ho
    obtain ⟨o', h1, h2⟩ := bind_some_iff.1 ho
    cases h2
    exact (setOk S).Rx.keep _ _ _ ht h1⟩
  Aty := ⟨_, rfl, fun x old t ht => by
    obtain ⟨o, ho⟩ := tvRty_some (c := c) (setOk S) ht x old
    refine ⟨_, _, congrArg (Option.map _) ho, ?_⟩
    unfold tvRty at ho
    obtain ⟨o', h1, h2⟩ := bind_some_iff.1 ho
    cases h2
    exact ((setOk S).Rty old).keep _ _ _ ht h1⟩
  Wz := ⟨_, rfl, fun x old t ht => by
    obtain ⟨o, ho⟩ := tvWv_some (c := c) (setOk S) ht x
    exact ⟨_, _, congrArg (Option.map _) ho, tvWv_keep (setOk S) ht ho⟩⟩
  Wtx := ⟨_, rfl, fun x old t ht => by
    obtain ⟨o, ho⟩ := tvWtx_some (c := c) (setOk S) ht x old
    exact ⟨_, _, congrArg (Option.map _) ho, tvWtx_keep (setOk S) ht ho⟩⟩

omit [Scalar F] in
theorem tvId_total {σ : Type} {l k m : ℕ} (hl : m ≤ l) (hk : m ≤ k) (v : Vec F l) (old : Vec F k) (t : σ) : ∃ r, tvIdN m v old t = some (r, t) := by
  obtain ⟨w, hw⟩ := writeAt_some 0 (show 0 + m ≤ k by omega) (fun i : Fin m => v ⟨0 + i, by omega⟩) old
  refine ⟨(v, w), ?_⟩
  unfold tvIdN tvIdentity dcopy
  rw [slice_eq 0 (by omega), obind, hw]
  rfl

/-- and those of the synthesis set -/
theorem tvSyn_total (S : DctSet c.loc idx) : (tvSyn c).Total fun t => BufInv idx t.dct where
  Ax := ⟨_, rfl, fun x old t ht => by
    obtain ⟨o, ho⟩ := tvAv_some (c := c) (setOk S) ht x
    refine ⟨_, _, congrArg (Option.map _) ho, ?_⟩
    unfold tvAv at ho
    obtain ⟨o1, f1, e1⟩ := bind_some_iff.1 ho
    obtain ⟨u1, f2, e1⟩ := bind_some_iff.1 e1
    obtain ⟨x1, f3, e1⟩ := bind_some_iff.1 e1
    obtain ⟨o2, f4, e1⟩ := bind_some_iff.1 e1
    cases e1
    exact (setOk S).Rx.keep _ _ _ (tvWv_keep (setOk S) ht f1) f4⟩
  Aty := ⟨_, rfl, fun x old t ht => by
    obtain ⟨o, ho⟩ := tvAty_some (c := c) (setOk S) ht x old
    refine ⟨_, _, congrArg (Option.map _) ho, ?_⟩
    unfold tvAty at ho
    obtain ⟨u0, f0, e1⟩ := bind_some_iff.1 ho
    obtain ⟨o1, f1, e1⟩ := bind_some_iff.1 e1
    obtain ⟨u1, f2, e1⟩ := bind_some_iff.1 e1
    obtain ⟨x1, f3, e1⟩ := bind_some_iff.1 e1
    exact tvWtx_keep (setOk S) (((setOk S).Rty u0).keep _ _ _ ht f1) e1⟩
  Wz := ⟨_, rfl, fun x old t ht => by
    obtain ⟨r, h⟩ := tvId_total (m := mrow * mcol) le_rfl (show mrow * mcol ≤ c.p by unfold TvCfg.p tvP; omega) x old t
    exact ⟨_, _, h, ht⟩⟩
  Wtx := ⟨_, rfl, fun x old t ht => by
    obtain ⟨r, h⟩ := tvId_total (m := mrow * mcol) (show mrow * mcol ≤ c.p by unfold TvCfg.p tvP; omega) le_rfl x old t
    exact ⟨_, _, h, ht⟩⟩
end total

section real
variable {mrow mcol n : ℕ} {c : TvCfg Dbl mrow mcol n} {idx : Fin n → Int} {av ah : ℝ} {two : Bool} {ix : Fin n → Fin (mrow * mcol)}
  {Q : Matrix (Fin (mrow * mcol)) (Fin (mrow * mcol)) ℝ}

/-- the analysis set computes the sampling, the dictionary and their transposes -/
theorem tvAna_real (hset : TvSetR c idx av ah) (ok : FunsOk c.loc idx ix Q) (hm : 0 < mrow * mcol) (hQ : ∀ x, Qᵀ *ᵥ x = imgDct two x)
    (hinj : Function.Injective ix) :
    ∃ (A : Matrix (Fin n) (Fin (mrow * mcol)) ℝ) (W : Matrix (Fin (mrow * mcol)) (Fin c.p) ℝ),
      (∀ x i, (A *ᵥ x) i = x (ix i)) ∧ A * Aᵀ = 1 ∧ Realises (tvAna c) (fun t => BufInv idx t.dct) Dbl.IsFin A W ∧
      (∀ x : Fin (mrow * mcol) → ℝ, x ≠ 0 → ∃ k : Fin c.p, k.val < mrow * mcol ∧ (Wᵀ *ᵥ x) k ≠ 0) ∧
      tvNormW true c.alp_v c.alp_h = .fin (√(1 + 4 * av ^ 2 + 4 * ah ^ 2)) ∧
      (∀ v, nrm (W *ᵥ v) ≤ √(1 + 4 * av ^ 2 + 4 * ah ^ 2) * nrm v) ∧
      (∀ y, Aᵀ *ᵥ y = onBlack ix y) ∧ c.p = anaCoefs (mrow * mcol) av ah ∧
      (∀ x, ∑ k, |(Wᵀ *ᵥ x) k| = anaCost two av ah x) ∧ (∀ x, nrm x ≤ nrm (Wᵀ *ᵥ x)) ∧
      ∀ x, ∃ k : Fin c.p, k.val < mrow * mcol ∧ nrm x / √((mrow * mcol : ℕ) : ℝ) ≤ |(Wᵀ *ᵥ x) k| := by
  obtain ⟨A, hA, hAt⟩ := adj_matrix (gather_adj ix hinj)
  obtain ⟨W, hW, hWt⟩ : ∃ W : Matrix (Fin (mrow * mcol)) (Fin c.p) ℝ, (∀ v, W *ᵥ v = wReal Q av ah v) ∧ ∀ x, Wᵀ *ᵥ x = wtReal Q av ah x :=
    adj_matrix (w_adjoint (p := c.p) hset.p_eq Q)
  have nrm_Qt : ∀ x, nrm (Qᵀ *ᵥ x) = nrm x := fun x => by
    unfold nrm
    rw [← mulVec_adj, mulVec_mulVec, mul_eq_one_comm.1 ok.orth, one_mulVec]
  have hpos : (0 : ℝ) < 1 + 4 * av ^ 2 + 4 * ah ^ 2 := by positivity
  refine ⟨A, W, fun x i => by rw [hA]; rfl, matrix_one fun v => by rw [← mulVec_mulVec, hA, hAt, gather_scat ix hinj],
    ⟨⟨_, rfl, fun v old s _ hb => ?_⟩, ⟨_, rfl, fun v old s hd hb => ?_⟩, ⟨_, rfl, fun v old s _ hb => ?_⟩, ⟨_, rfl, fun v old s _ hb => ?_⟩, fun _ => trivial, ?_, rfl, rfl⟩,
    fun x hx => ?_, ?_, fun v => ?_, fun y => ?_, hset.p_eq, fun x => ?_, fun x => ?_, fun x => ?_⟩
  · obtain ⟨b, h1, h2⟩ := ok.Rx v s.dct hb
    refine ⟨⟨b, s.u⟩, ?_, h2⟩
    unfold tvRxN tvRx
    rw [h1, hA]
    rfl
  · have ho : old = fvec fun i => (old i).toReal := funext fun i => by
      have := hd i
      show _ = Dbl.fin _
      dsimp only
      cases h : old i <;> rw [h] at this <;> first | rfl | cases this
    obtain ⟨b, h1, h2⟩ := ok.Rty (fun i => (old i).toReal) v s.dct hb
    rw [← ho] at h1
    refine ⟨⟨b, s.u⟩, ?_, h2⟩
    unfold tvRtyN tvRty
    dsimp only at h1
    rw [h1, hAt]
    rfl
  · obtain ⟨s', h1, h2⟩ := tvWv_real hset ok v s hb
    refine ⟨s', ?_, h2⟩
    have harg : tvWvArg c (fvec v) s = fvec v := by
      have := (ArgKept.exact (a := ⟨c.p, fvec v⟩) ⟨_, rfl, tvWvArg_arg hset.loc.toSet (fvec v) s⟩)
      exact eq_of_heq (Sigma.mk.inj this).2
    unfold tvWvN
    rw [h1, harg, hW]
    rfl
  · obtain ⟨s', h1, h2, -⟩ := tvWtx_real hset ok v old s hb
    refine ⟨s', ?_, h2⟩
    unfold tvWtxN
    rw [h1, hWt]
    rfl
  · intro x hx
    cases x <;> trivial
  · have hne : Qᵀ *ᵥ x ≠ 0 := fun h0 => hx (by
      have : Q *ᵥ (Qᵀ *ᵥ x) = x := by rw [mulVec_mulVec, mul_eq_one_comm.1 ok.orth, one_mulVec]
      rw [← this, h0, mulVec_zero])
    obtain ⟨i, hi'⟩ := Function.ne_iff.1 hne
    have hlt : 0 + i.val < c.p := by have := tvP_zero (mrow * mcol) c.alp_v c.alp_h; have := i.2; unfold TvCfg.p; omega
    refine ⟨⟨0 + i.val, hlt⟩, by simp, ?_⟩
    have := congrFun (coef_wt0 hset.p_eq Q x) i
    unfold coef at this
    rw [dif_pos hlt] at this
    rw [hWt]
    refine fun h0 => hi' (this.symm.trans h0)
  · rw [hset.hv, hset.hh]
    unfold tvNormW
    rw [if_pos rfl]
    simp only [Dbl.lit_eq, Dbl.fin_mul, Dbl.fin_add, Rat.cast_one, Rat.cast_ofNat]
    have e : (1 : ℝ) + 4 * av * av + 4 * ah * ah = 1 + 4 * av ^ 2 + 4 * ah ^ 2 := by ring
    rw [e, Dbl.fsqrt_fin hpos.le]
  · rw [hW]
    unfold nrm
    rw [← Real.sqrt_mul hpos.le]
    exact Real.sqrt_le_sqrt (w_norm hset.p_eq ok.orth hset.av0 hset.ah0 v)
  · rw [hAt]
    funext k
    exact scat_sum ix hinj y k
  · have := wt_l1 hset Q x
    simp only [hWt]
    refine this.trans ?_
    rw [hQ]
    unfold anaCost
    congr 1
    · congr 1
      split
      · rfl
      · rw [le_antisymm (not_lt.1 ‹_›) hset.av0, zero_mul, zero_mul]
    · split
      · rfl
      · rw [le_antisymm (not_lt.1 ‹_›) hset.ah0, zero_mul, zero_mul]
  · rw [← nrm_Qt x]
    refine Real.sqrt_le_sqrt ?_
    rw [← coef_wt0 hset.p_eq Q x, hWt]
    exact coef_sq hset.p_eq (wtReal Q av ah x)
  · obtain ⟨i, hi'⟩ := exists_big hm (Qᵀ *ᵥ x)
    rw [nrm_Qt x] at hi'
    have hlt : 0 + i.val < c.p := by have := tvP_zero (mrow * mcol) c.alp_v c.alp_h; have := i.2; unfold TvCfg.p; omega
    refine ⟨⟨0 + i.val, hlt⟩, by simp, ?_⟩
    have := congrFun (coef_wt0 hset.p_eq Q x) i
    unfold coef at this
    rw [dif_pos hlt] at this
    rw [hWt]
    exact hi'.trans (le_of_eq (congrArg abs this.symm))

/-- NESTA with these functions -/
theorem tvAna_near (hset : TvSetR c idx av ah) (ok : FunsOk c.loc idx ix Q) (hm : 0 < mrow * mcol) (hQ : ∀ x, Qᵀ *ᵥ x = imgDct two x)
    (hinj : Function.Injective ix) {s : NState (TvBuf Dbl (mrow * mcol) c.p)} (hwf : s.WF) (hI : BufInv idx s.cb.dct) {b : Fin n → ℝ}
    {sigma mu : ℝ} {tol : Dbl} {N : Int} (xk : Vec Dbl (mrow * mcol)) (hN : N < INT_MAX) (hal : ∀ i < 11, s.oracle (s.calls + i) = true)
    (hs : 0 < sigma) (hN1 : 1 ≤ N) (hmu : 0 < mu) (hb0 : b ≠ 0) {q : ℕ} (hq : q = 1 ∨ (q = 10000 ∧ ∃ t ≤ 0, tol = Dbl.fin t)) :
    ∃ (y : Fin (mrow * mcol) → ℝ) (out : NestaOut Dbl n (mrow * mcol) c.p) (s' : NState (TvBuf Dbl (mrow * mcol) c.p)),
      l1c_nesta ((mrow * mcol : ℕ) : Int) n xk (fvec b) (tvAna c) ⟨.fin sigma, .fin mu, tol, N⟩ s = some (out, s') ∧ out.status = L1C_SUCCESS ∧ out.xk = fvec y ∧
      NearlyBest two av ah ix b sigma (anaGap q (mrow * mcol) av ah mu (anaCost two av ah (onBlack ix b)) √(∑ i, b i ^ 2) N.toNat) y := by
  obtain ⟨A, W, h2, h3, R, h5, h6, h7, h8, h9, h10, h11, h12⟩ := tvAna_real hset ok hm hQ hinj
  have hK : (tvAna c).norm_W = .fin (√(1 + 4 * av ^ 2 + 4 * ah ^ 2)) := h6
  have hK0 : 0 < √(1 + 4 * av ^ 2 + 4 * ah ^ 2) := by positivity
  have hres : ∀ y : Fin (mrow * mcol) → ℝ, nrm (b - A *ᵥ y) = √(∑ i, (y (ix i) - b i) ^ 2) := fun y => by
    unfold nrm
    congr 1
    refine Finset.sum_congr rfl fun i _ => ?_
    rw [Pi.sub_apply, h2 y i]
    ring
  have hx : Aᵀ *ᵥ b ≠ 0 := fun hc => hb0 (by
    have : (A * Aᵀ) *ᵥ b = 0 := by rw [← mulVec_mulVec, hc, mulVec_zero]
    rwa [h3, one_mulVec] at this)
  have hnb : nrm (Aᵀ *ᵥ b) = √(∑ i, b i ^ 2) := by
    unfold nrm
    have : (A *ᵥ (Aᵀ *ᵥ b)) ⬝ᵥ b = (Aᵀ *ᵥ b) ⬝ᵥ (Aᵀ *ᵥ b) := mulVec_adj A _ _
    rw [← this, mulVec_mulVec, h3, one_mulVec]
    congr 1
    exact Finset.sum_congr rfl fun i _ => (sq _).symm
  obtain ⟨j, hj, hj'⟩ := h5 _ hx
  obtain ⟨M, hM, hM0, hM1⟩ := vmax_fvec (Nat.pos_of_ne_zero fun h => by rw [h] at j; exact j.elim0) (absHead (mrow * mcol) (Wᵀ *ᵥ (Aᵀ *ᵥ b)))
  have hMS : M ≤ ∑ i, |(Wᵀ *ᵥ (Aᵀ *ᵥ b)) i| := by
    obtain ⟨i, hi⟩ := hM1
    rw [hi]
    refine le_trans ?_ (Finset.single_le_sum (f := fun i => |(Wᵀ *ᵥ (Aᵀ *ᵥ b)) i|) (fun _ _ => abs_nonneg _) (Finset.mem_univ i))
    unfold absHead
    split
    · exact le_rfl
    · exact le_abs_self _
  have hMl : nrm (Aᵀ *ᵥ b) / √((mrow * mcol : ℕ) : ℝ) ≤ M := by
    obtain ⟨i, hi1, hi2⟩ := h12 (Aᵀ *ᵥ b)
    refine hi2.trans (le_trans ?_ (hM0 i))
    unfold absHead
    rw [if_pos hi1]
  have hrk' : (0 : ℝ) < ((mrow * mcol : ℕ) : ℝ) := by exact_mod_cast hm
  have hl : 0 < min mu (9 / 10 * (nrm (Aᵀ *ᵥ b) / √((mrow * mcol : ℕ) : ℝ))) := lt_min hmu (by have := nrm_pos hx; positivity)
  obtain ⟨y, out, s', e, e1, e2, e3, e4⟩ := C67_steps R h3 (b := b) (opts := ⟨.fin sigma, .fin mu, tol, N⟩) (a := 1) (q := q)
    (l := min mu (9 / 10 * (nrm (Aᵀ *ᵥ b) / √((mrow * mcol : ℕ) : ℝ)))) (U := max mu (∑ i, |(Wᵀ *ᵥ (Aᵀ *ᵥ b)) i|)) rfl hs rfl hmu hq hK hK0 (Wt_bound hK0.le h7) one_pos
    (fun x => by rw [one_mul]; exact h11 x) hM hl ((min_le_right _ _).trans (by linarith)) (min_le_left _ _)
    (le_trans (by have := hl.trans_le ((min_le_right _ _).trans (mul_le_mul_of_nonneg_left hMl (by norm_num))); linarith) (le_max_right _ _)) (le_max_left _ _)
    hN1 hN xk s hI hwf hal
  refine ⟨y, out, s', e, e1, e2, ?_, fun v hv => ?_⟩
  · rw [← hres]; exact e3
  · have := e4 v (by show nrm (b - A *ᵥ v) ≤ sigma; rw [hres]; exact hv)
    rw [h10, h10, h10, hnb, h8, div_one, add_assoc] at this
    unfold anaGap
    rw [← h9]
    exact this
end real
end L1c
