import Verif.Props.L1qcDct
import Verif.Props.NewtonConv

/-!
# The image recovered from DCT samples is nearly optimal (`C70`)
-/

namespace L1c
open Scalar Matrix

/-! ## Helpers -/

section real
variable {m n : ℕ} {f : DctFuns Dbl m n} {idx : Fin n → Int} {ix : Fin n → Fin m} {Q : Matrix (Fin m) (Fin m) ℝ}

theorem sampled_transpose (hinj : Function.Injective ix) (y : Fin n → ℝ) : (Q.submatrix ix id)ᵀ *ᵥ y = Qᵀ *ᵥ scat ix y := by
  have hs : ∀ r, scat ix y r = ∑ i, if ix i = r then y i else 0 := fun r => by
    by_cases h : ∃ i, ix i = r
    · obtain ⟨i, rfl⟩ := h
      rw [Finset.sum_eq_single i (fun j _ hj => if_neg fun hc => hj (hinj hc)) (fun hc => absurd (Finset.mem_univ i) hc), if_pos rfl]
      exact congrFun (gather_scat ix hinj y) i
    · rw [scat_out ix y r (fun i hi => h ⟨i, hi⟩)]
      exact (Finset.sum_eq_zero fun i _ => if_neg fun hi => h ⟨i, hi⟩).symm
  funext t
  show ∑ i, Q (ix i) t * y i = ∑ r, Q r t * scat ix y r
  simp only [hs, Finset.mul_sum]
  rw [Finset.sum_comm]
  refine Finset.sum_congr rfl fun i _ => ?_
  rw [Finset.sum_eq_single (ix i) (fun r _ hr => by rw [if_neg (Ne.symm hr), mul_zero]) (fun hc => absurd (Finset.mem_univ _) hc), if_pos rfl]

theorem pureAx_real (h : DctSetR f idx) (ok : FunsOk f idx ix Q) (hinj : Function.Injective ix) :
    QReal (pureAx f) (fun _ => True) (Q.submatrix ix id) := by
  obtain ⟨t1, t2, t3, -⟩ := dctSet_total h.toSet
  refine ⟨fun s _ v => ?_, fun s _ v => ?_, fun s _ v => ?_⟩
  · obtain ⟨o, ho⟩ := t1 v
    refine ⟨o.res, (), by show Option.map _ _ = _; rw [ho]; rfl, trivial, ?_⟩
    rintro x rfl
    obtain ⟨s2, h2⟩ := ok.Ax.gives h _ Reach.fresh x
    rw [h2] at ho
    cases ho
    rw [sampled_mulVec]
  · obtain ⟨o, ho⟩ := t2 v
    refine ⟨o.res, (), by show Option.map _ _ = _; rw [ho]; rfl, trivial, ?_⟩
    rintro x rfl
    obtain ⟨s2, h2⟩ := ok.Aty.gives h _ Reach.fresh x
    rw [h2] at ho
    cases ho
    rw [sampled_transpose hinj]
  · obtain ⟨o, ho⟩ := t3 v
    refine ⟨o.res, (), by show Option.map _ _ = _; rw [ho]; rfl, trivial, ?_⟩
    rintro x rfl
    obtain ⟨s2, h2⟩ := ok.AtAx.gives h _ Reach.fresh x
    rw [h2] at ho
    cases ho
    rw [← mulVec_mulVec, sampled_mulVec, sampled_transpose hinj]

/-- the start `Aᵀb` fits the samples exactly -/
theorem start_fits (ok : FunsOk f idx ix Q) (hinj : Function.Injective ix) (b : Fin n → ℝ) :
    Q.submatrix ix id *ᵥ (Qᵀ *ᵥ scat ix b) = b := by
  rw [sampled_mulVec, mulVec_mulVec, mul_eq_one_comm.1 ok.orth, one_mulVec, gather_scat ix hinj]

/-- sampling has norm one -/
theorem sampled_transpose_nrm (ok : FunsOk f idx ix Q) (hinj : Function.Injective ix) (v : Fin n → ℝ) : nrm ((Q.submatrix ix id)ᵀ *ᵥ v) = nrm v := by
  have h : (Q.submatrix ix id)ᵀ *ᵥ v ⬝ᵥ (Q.submatrix ix id)ᵀ *ᵥ v = v ⬝ᵥ v := by
    rw [dot_mulVec_T, sampled_transpose hinj, start_fits ok hinj]
  unfold nrm
  rw [h]

end real

theorem nodup_inj {n : ℕ} {idx : List Int} (hl : idx.length = n) (hd : idx.Nodup) : Function.Injective (idxFun n idx) := by
  intro i j hij
  have h3 : ∀ k : Fin n, idxFun n idx k = idx[k.val]'(by omega) := fun k => by
    unfold idxFun
    simp [hl]
  rw [h3, h3] at hij
  exact Fin.ext ((List.Nodup.getElem_inj_iff hd).1 hij)

/-! ## C70 -/

variable {lib : FftwLib Dbl} {Ls : Sets Dbl}
variable {mrow mcol n : ℕ} {mode : Int} {idx : List Int} {b : Fin n → ℝ} {x_out : Arr Dbl} {opts : QOpts Dbl} {s s' : NState (World Dbl)} {out : DctOut Dbl}

/-- A run of the image recovery that returns 0, on distinct sample positions, data that are not all zero, and with the options of
`C69_near_optimal`: the image is the inverse DCT `M eta` of coefficients `eta`, its samples match the data within `epsilon`, and no image whose
samples do so has DCT coefficients with a 1-norm smaller by more than `3 mu lbtol`.  `X` is the 1-norm of the DCT coefficients of the data
on a black background. -/
theorem C70_near_optimal (hlib : LibOk lib) (hs : s.WF) (hw : Hist lib s.cb Ls) (hl : idx.length = n) (hd : idx.Nodup)
    (hb : ¬ Ls.busy (twoDim mrow mcol mode)) (hb0 : b ≠ 0) {eps lbtol mu tol : ℝ} (he : opts.epsilon = Dbl.fin eps) (heps : 0 < eps)
    (hm : 2 * ((mrow * mcol : ℕ) : Int) + 1 ≤ INT_MAX)
    (hauto : opts.lbiter = 0) (hl1 : opts.lbtol = Dbl.fin lbtol) (hl0 : 0 < lbtol) (hlm : lbtol < 2 * (mrow * mcol : ℕ) + 1)
    (hmu : opts.mu = Dbl.fin mu) (hmu1 : 1 < mu) (htol : opts.newton_tol = Dbl.fin tol) (htol0 : 0 < tol)
    (hsharp : 32 * (2 * (mrow * mcol : ℕ) + 1) * tol ≤ lbtol) (hD : Downhill opts (mrow * mcol))
    (hl1t : ¬ Dbl.Lt (.fin 0) opts.l1_tol) (hc1 : opts.cg_maxiter < INT_MAX) {X : ℝ}
    (hX : ∀ hp (x0 : Fin (mrow * mcol) → ℝ) a, (imageFuns lib mrow mcol n idx (twoDim mrow mcol mode) hp).Aty (fvec b) DctBuf.fresh = some a →
      a.res = fvec x0 → ∑ i, |x0 i| = X)
    {L : ℕ} (hL : (autoBarrier (mrow * mcol) lbtol mu X).toNat = L) (hlb : (L : Int) < INT_MAX)
    (hcg : L * ((opts.newton_max_iter - 1).toNat * opts.cg_maxiter) ≤ INT_MAX)
    (hnt : L * (((opts.newton_max_iter - 1).toNat : Int) + 1) ≤ INT_MAX)
    (hcgt : ∀ k, L = k + 1 → ¬ Dbl.Lt (.fin (cgLimit (mrow * mcol) 1 eps mu (eps ^ 2 / 2) X k)) opts.cg_tol)
    (hK : ∀ k, L = k + 1 → EnoughNewton (mrow * mcol) eps mu tol (eps ^ 2 / 2) X k (opts.newton_max_iter - 1).toNat)
    (h : l1qc_dct lib mrow mcol x_out n ⟨n, fvec b⟩ idx mode opts s = some (out, s')) (h0 : out.status = 0) :
    ∃ (hp : 0 < mrow ∧ 0 < mcol) (M : (Fin (mrow * mcol) → ℝ) → Fin (mrow * mcol) → ℝ) (eta : Fin (mrow * mcol) → ℝ)
      (hlen : out.x_out.1 = x_out.1) (hi : ∀ i : Fin n, (idxFun n idx i).toNat < mrow * mcol),
      Gives (imageFuns lib mrow mcol n idx (twoDim mrow mcol mode) hp) (imageFuns lib mrow mcol n idx (twoDim mrow mcol mode) hp).Mx M ∧
      (∀ k : Fin x_out.1, out.x_out.2 (Fin.cast hlen.symm k) = if hk : k.val < mrow * mcol then Dbl.fin (M eta ⟨k.val, hk⟩) else x_out.2 k) ∧
      √(∑ i, (M eta ⟨(idxFun n idx i).toNat, hi i⟩ - b i) ^ 2) < eps ∧
      ∀ z, √(∑ i, (M z ⟨(idxFun n idx i).toNat, hi i⟩ - b i) ^ 2) ≤ eps → ∑ i, |eta i| ≤ ∑ i, |z i| + 3 * (mu * lbtol) := by
  obtain ⟨-, ⟨rfl, -⟩ | ⟨hp, hi, ⟨h1, -⟩ | ⟨b', res, y, hb', hr, h1, h2, ⟨h3, -⟩ | ⟨h3, -, hlen, h4⟩⟩⟩⟩ := C53_outcome_partial hs hw hl hb h
  · exact absurd h0 (by show ¬ L1C_DCT_INIT_FAILURE = 0; decide)
  · exact absurd (h1.symm.trans h0) (by decide)
  · exact absurd (h2.symm.trans h0) h3
  have hR := imageFuns_setR hlib (two := twoDim mrow mcol mode) hp hi
  obtain ⟨ix, Q, ok⟩ := funsOk hR
  dsimp only at hb'
  rw [slice_full] at hb'
  cases hb'
  have hinj := (injective_iff ok.hix).1 (nodup_inj hl hd)
  have hnm : n ≤ mrow * mcol := by simpa using Fintype.card_le_of_injective ix hinj
  obtain ⟨a, u, prm, r, v, o, e1, e2, e3, e4, e5⟩ := recover_inv hr
  obtain ⟨s1, g1⟩ := ok.Aty.gives hR _ Reach.fresh b
  have hXe := hX hp _ _ g1 rfl
  rw [g1] at e1
  cases e1
  have hfit := start_fits ok hinj b
  have hx0 : Qᵀ *ᵥ scat ix b ≠ 0 := fun hc => hb0 (by rw [← hfit, hc, mulVec_zero])
  have hres : Q.submatrix ix id *ᵥ (Qᵀ *ᵥ scat ix b) - b = 0 := by rw [hfit, sub_self]
  obtain ⟨out', sc, x', r1, -, r3, r4, r5⟩ := C69_auto (pureAx_real hR ok hinj) hnm (b := b) (eps := eps) (prm := opts) hx0 hm hauto hl1 hl0 hlm hmu hmu1
    he (by rw [hres]; simpa [nrm] using heps) htol htol0 hsharp hD (a := 1) zero_le_one
    (fun v => by rw [one_mul]; exact (sampled_transpose_nrm ok hinj v).le) hl1t hc1 (L := L) (by rw [hXe]; exact hL) hlb hcg hnt (s := ()) trivial e2
    (fun k hk => by
      have := hcgt k hk
      rw [hres, zero_dotProduct, sub_zero, hXe]
      exact this)
    (fun k hk => by
      have := hK k hk
      rw [hres, zero_dotProduct, sub_zero, hXe]
      exact this)
  obtain ⟨rfl, -⟩ := Prod.mk.inj (Option.some.inj (e3.symm.trans r1))
  obtain ⟨s2, g2⟩ := ok.Mx.gives hR _ Reach.fresh x'
  rw [r3, g2] at e4
  cases e4
  obtain ⟨rfl, rfl⟩ := Prod.mk.inj e5
  have hi' : ∀ i : Fin n, (idxFun n idx i).toNat < mrow * mcol := fun i => by have := hi i; omega
  have e : ∀ i, (⟨(idxFun n idx i).toNat, hi' i⟩ : Fin (mrow * mcol)) = ix i := fun i => Fin.ext (by
    show (idxFun n idx i).toNat = (ix i : ℕ)
    rw [← ok.hix i]; rfl)
  have hn : ∀ z, √(∑ i, ((Q *ᵥ z) ⟨(idxFun n idx i).toNat, hi' i⟩ - b i) ^ 2) = nrm (Q.submatrix ix id *ᵥ z - b) := fun z => by
    unfold nrm
    refine congrArg Real.sqrt (Finset.sum_congr rfl fun i _ => ?_)
    rw [e i, sampled_mulVec]
    simp only [Pi.sub_apply, gather]
    ring
  refine ⟨hp, _, x', hlen, hi', ok.Mx.gives hR, h4, ?_, fun z hz => r5 z ?_⟩
  · rw [hn]; exact r4
  · rw [← hn]; exact hz

/-- instance: one pixel with value `1/2`, `epsilon = 1` -/
theorem C70_instance : ∃ out s' v, l1qc_dct refLib 1 1 ⟨1, fun _ => .fin 0⟩ 1 ⟨1, fvec ![1 / 2]⟩ [0] DCT1 convOpts exWorld = some (out, s') ∧
    out.status = 0 ∧ out.x_out.2 = (fun _ => .fin v) ∧ |v| ≤ 3 / 10 := by
  have hf : FitsInt ((1 : ℕ) * (1 : ℕ)) := by unfold FitsInt INT_MAX INT_MIN; norm_num
  have hi : IdxOk (1 * 1) (idxFun 1 [0]) := by intro i; fin_cases i; simp [idxFun]
  have hwf : exWorld.WF := fun a h => by cases h
  have hp1 : 0 < 1 ∧ 0 < 1 := ⟨one_pos, one_pos⟩
  have hR := imageFuns_setR refLib_ok (two := twoDim (1 : ℕ) (1 : ℕ) DCT1) (mrow := 1) (mcol := 1) hp1 hi
  obtain ⟨ix, Q, ok⟩ := funsOk hR
  have hinj : Function.Injective ix := fun i j _ => Subsingleton.elim i j
  have : Subsingleton (Fin (1 * 1)) := inferInstanceAs (Subsingleton (Fin 1))
  have hsum : ∀ g : Fin (1 * 1) → ℝ, ∑ i, g i = g 0 := fun g => Fin.sum_univ_one g
  have hQ : |Q 0 0| = 1 := by
    have h := congrFun (congrFun ok.orth 0) 0
    simp only [mul_apply, hsum, transpose_apply, one_apply_eq] at h
    have h2 := abs_mul_abs_self (Q 0 0)
    have h3 := abs_nonneg (Q 0 0)
    nlinarith
  have hval : ∀ (v : Fin (1 * 1) → ℝ), |(Qᵀ *ᵥ v) 0| = |v 0| := fun v => by
    have e : (Qᵀ *ᵥ v) 0 = Q 0 0 * v 0 := hsum fun i => Qᵀ 0 i * v i
    rw [e, abs_mul, hQ, one_mul]
  have hval' : ∀ (v : Fin (1 * 1) → ℝ), |(Q *ᵥ v) 0| = |v 0| := fun v => by
    have e : (Q *ᵥ v) 0 = Q 0 0 * v 0 := hsum fun i => Q 0 i * v i
    rw [e, abs_mul, hQ, one_mul]
  have hsc : scat ix (![1 / 2] : Fin 1 → ℝ) 0 = 1 / 2 := by
    have h := congrFun (gather_scat ix hinj (![1 / 2] : Fin 1 → ℝ)) 0
    have e : ix 0 = 0 := Subsingleton.elim _ _
    unfold gather at h
    rw [e] at h
    simpa using h
  have hXe : ∑ i, |(Qᵀ *ᵥ scat ix (![1 / 2] : Fin 1 → ℝ)) i| = 1 / 2 := by
    rw [hsum, hval, hsc, abs_of_pos (by norm_num)]
  have hne : Qᵀ *ᵥ scat ix (![1 / 2] : Fin 1 → ℝ) ≠ 0 := fun hc => by
    rw [hc] at hXe
    simp at hXe
  obtain ⟨s1, e1⟩ := ok.Aty.gives hR _ Reach.fresh (![1 / 2] : Fin 1 → ℝ)
  obtain ⟨out, s', h, -⟩ : ∃ out s', l1qc_dct refLib (1 : ℕ) (1 : ℕ) ⟨1, fun _ => .fin 0⟩ (1 : ℕ) ⟨1, fvec ![1 / 2]⟩ [0] DCT1 convOpts exWorld = some (out, s') ∧
      s'.live = exWorld.live := by
    refine C53_defined_partial (n := 1) (mrow := 1) (mcol := 1) hwf exWorld_hist (not_busy_empty _) hf rfl hp1 (Or.inr (Or.inl rfl))
      (le_refl 1) (by norm_num) (slice_full _) ?_ rfl
    intro a ha
    rw [e1] at ha
    cases ha
    obtain ⟨u, -, hu⟩ := init_fin hne (by decide)
    have hu := hu convOpts
    rw [if_pos (show convOpts.lbiter = 0 from rfl), show convOpts.lbtol = Dbl.fin (1 / 100) from rfl, show convOpts.mu = Dbl.fin 10 from rfl,
      init_auto_arg _ (by norm_num) (by norm_num), ceilInt_fin] at hu
    have hc : ⌈lbR (Qᵀ *ᵥ scat ix (![1 / 2] : Fin 1 → ℝ)) (1 / 100) 10⌉ = 2 := by
      have := conv_barrier
      rw [← hXe] at this
      exact this
    rw [hc, if_pos (by decide), Option.map_some] at hu
    exact ⟨_, _, hu, ⟨by show (0 : Int) ≤ 1; decide, by show (1 : Int) < INT_MAX; decide, by show ((2 : Int).toNat : Int) < INT_MAX; decide, conv_cg, conv_nt⟩⟩
  have hset : ∃ ax w', l1c_setup_dct_transforms (1 : ℕ) (1 : ℕ) (1 : ℕ) DCT1 [0] exWorld.cb = some ((L1C_SUCCESS, some ax), w') := by
    obtain ⟨ax, w', e, -⟩ := C19_accepts (w := exWorld.cb) (n := (1 : ℕ)) (mrow := (1 : ℕ)) (mcol := (1 : ℕ)) (dct_mode := DCT1) hf
      (show ValidDct _ _ _ [0] by unfold ValidDct; simp) (fun _ _ => rfl)
    exact ⟨ax, w', e⟩
  obtain ⟨ax, w', hset⟩ := hset
  have h0 : out.status = 0 := by
    obtain ⟨-, ⟨-, st, w', hst, e⟩ | ⟨hp, hi, ⟨-, -, i, -, h1⟩ | ⟨b', res, y, hb', hr, h1, h2, -⟩⟩⟩ :=
      C53_outcome_partial (n := 1) (mrow := 1) (mcol := 1) hwf exWorld_hist rfl (not_busy_empty _) h
    · rw [hset] at e; cases e
    · cases h1
    · dsimp only at hb'
      rw [slice_full] at hb'
      cases hb'
      rcases recover_real hR ok (opts := convOpts) (eps := 1) rfl hr with ⟨g, -⟩ | ⟨g, -⟩
      · rw [gather_scat ix hinj, sub_self] at g
        exact absurd g (by simp [nrm])
      · exact h2.trans g
  obtain ⟨hp, M, eta, hlen, hi', hM, hpix, -, hopt⟩ := C70_near_optimal (n := 1) (mrow := 1) (mcol := 1) (b := ![1 / 2]) (opts := convOpts) (eps := 1) (lbtol := 1 / 100)
    (mu := 10) (tol := 1 / 10000) (X := 1 / 2) (L := 2) refLib_ok hwf exWorld_hist rfl (by simp) (not_busy_empty _)
    (fun hc => by simpa using congrFun hc 0) rfl one_pos (by decide) rfl rfl (by norm_num) (by norm_num) rfl (by norm_num) rfl (by norm_num)
    (by norm_num) conv_downhill (by show ¬ ((0 : ℝ) < 0); norm_num) (by show (1 : Int) < INT_MAX; decide)
    (by
      intro hp x0 a ha hx0
      rw [e1] at ha
      cases ha
      rw [← fvec_injective hx0]
      exact hXe)
    (by rw [show (1 * 1 : ℕ) = 1 from rfl, conv_barrier]; rfl) (by decide) conv_cg conv_nt
    (fun k _ => tol_mono (cgLimit_nonneg one_pos zero_le_one (by norm_num) k) (by show ¬ ((0 : ℝ) < 0); norm_num))
    (by
      intro k hk
      obtain rfl : k = 1 := by omega
      exact conv_enough (by norm_num)) h h0
  have hMQ : ∀ z, M z = Q *ᵥ z := fun z => by
    obtain ⟨s2, g2⟩ := ok.Mx.gives hR _ Reach.fresh z
    obtain ⟨s3, g3⟩ := hM _ Reach.fresh z
    rw [g2] at g3
    exact (fvec_injective (congrArg XOut.res (Option.some.inj g3))).symm
  refine ⟨out, s', M eta 0, h, h0, ?_, ?_⟩
  · funext k
    have h1 := hpix (Fin.cast hlen k)
    rw [dif_pos (Fin.cast hlen k).isLt] at h1
    refine h1.trans ?_
    congr 2
    exact Subsingleton.elim _ _
  · have h1 := hopt 0 (by
      rw [Fin.sum_univ_one, hMQ, mulVec_zero, Pi.zero_apply, Real.sqrt_le_iff]
      norm_num)
    rw [hsum, hsum] at h1
    rw [hMQ, hval']
    simp only [Pi.zero_apply, abs_zero] at h1
    linarith

end L1c
