import Verif.Proofs.NestaSet
import Verif.Base.Binary64

/-!
# What operators do to their argument (C25, continued)

`Props/Dct.lean` treats the operators of one DCT set.  Here: any operator of any kind of set, called through its function
pointers after any history of setups, calls and destroys.
-/

namespace L1c
open Scalar

section generic
variable {F : Type} [Scalar F] {lib : FftwLib F} {w w' : World F} {L : Sets F} {m n k l mrow mcol : ℕ}

/-- **C25**, arguments, for every kind of operator set and every scalar type: whatever was set up, called and destroyed
before, a call of any operator of a live set leaves its argument array as it was, except that entry 0 may be multiplied
and divided by `sqrt 2`.
*Missing from the full property:* entry 0 unchanged; that is false, see `C25_argument_overflow_false`. -/
theorem C25_argument_any_set_partial (h : Hist lib w L) {K : Kind} (hK : L.has K) {op : Op} {a out a' out' : Arr F}
    (hc : wcall lib K op a out w = some ((a', out'), w')) : ArgKept a a' := by
  obtain ⟨R, own, hI, hR⟩ := hist_inv h
  have tv : ∀ t, L.tv = some t → wcallT lib t.syn op a out w = some ((a', out'), w') → ArgKept a a' := by
    intro t ht hc
    obtain ⟨hm, s, hr, hv, hre, hi⟩ := hR.tv t ht
    obtain ⟨put, e, -⟩ := wcallT_eq hI hv hr hm lib op a out
    rw [e] at hc
    obtain ⟨⟨q, b⟩, hq, e⟩ := Option.map_eq_some_iff.1 hc
    have := tvAll_arg (c := cfgT lib t hm) (funT_set hm hi) hq
    cases e
    exact this
  cases K with
  | d1 =>
    obtain ⟨c, hc1⟩ := Option.isSome_iff_exists.1 hK
    obtain ⟨hm, s, hr, hre, hi⟩ := hR.d1 c hc1
    have h1 := hI.s1
    rw [hr] at h1
    have hset : DctSet (fun1 lib c.m c.n c.idx hm) (idxFun c.n c.idx) := by
      have : NeZero c.m := ⟨hm.ne'⟩
      exact .d1 _ _ hi
    have hc : wcall1 lib op a out w = _ := hc
    rw [wcall1_eq h1 hm] at hc
    obtain ⟨⟨q, b⟩, hq, e⟩ := Option.map_eq_some_iff.1 hc
    have := dctOp_arg hset hq
    cases e
    exact this
  | d2 =>
    obtain ⟨c, hc1⟩ := Option.isSome_iff_exists.1 hK
    obtain ⟨hm, s, hr, hre, hi⟩ := hR.d2 c hc1
    have h1 := hI.s2
    rw [hr] at h1
    have hset : DctSet (fun2 lib c.mrow c.mcol c.n c.idx hm) (idxFun c.n c.idx) := by
      have : NeZero c.mrow := ⟨hm.1.ne'⟩
      have : NeZero c.mcol := ⟨hm.2.ne'⟩
      exact .d2 _ _ hi
    have hc : wcall2 lib op a out w = _ := hc
    rw [wcall2_eq h1 hm] at hc
    obtain ⟨⟨q, b⟩, hq, e⟩ := Option.map_eq_some_iff.1 hc
    have := dctOp_arg hset hq
    cases e
    exact this
  | tvSyn =>
    obtain ⟨t, ht, hs⟩ := hK
    exact tv t ht (by rw [hs]; exact hc)
  | tvAna =>
    obtain ⟨t, ht, hs⟩ := hK
    exact tv t ht (by rw [hs]; exact hc)
  | mat =>
    obtain ⟨c, hc1⟩ := Option.isSome_iff_exists.1 hK
    obtain ⟨d, hr⟩ := hR.mat c hc1
    have h1 := hI.sm
    rw [hr] at h1
    obtain ⟨b, -, e⟩ := wcallM_eq h1 op a out
    have hc : wcallM op a out w = _ := hc
    rw [e] at hc
    obtain ⟨⟨q, b⟩, hq, e⟩ := Option.map_eq_some_iff.1 hc
    have := matOp_arg hq
    cases e
    exact this

end generic

/-- **C25**, arguments, in exact arithmetic (with infinities and NaN): a call of any operator of any live set leaves its
argument array exactly as it was. -/
theorem C25_argument_exact {lib : FftwLib Dbl} {w w' : World Dbl} {L : Sets Dbl} (h : Hist lib w L) {K : Kind} (hK : L.has K)
    {op : Op} {a out a' out' : Arr Dbl} (hc : wcall lib K op a out w = some ((a', out'), w')) : a' = a :=
  (C25_argument_any_set_partial h hK hc).exact

/-- the hypotheses hold, for the operator that does scale its argument: `Wz` of a live analysis set is defined on every argument -/
example (lib : FftwLib Dbl) : ∃ w L, ∃ t : SetTv Dbl, Hist lib w L ∧ L.has .tvAna ∧ ∀ (v : Vec Dbl t.coefs) (old : Vec Dbl (t.mrow * t.mcol)),
    ∃ r w', wcall lib .tvAna .Wz ⟨_, v⟩ ⟨_, old⟩ w = some (r, w') := by
  obtain ⟨w, L, t, h, ht, hs, -⟩ := hist_tv_example lib
  refine ⟨w, L, t, h, ⟨t, ht, hs⟩, fun v old => ?_⟩
  obtain ⟨hm, s, hre, hi, hc⟩ := tv_view h ht
  have hset := funT_set (lib := lib) hm hi
  obtain ⟨o, ho⟩ := tvWv_some (c := cfgT lib t hm) (setOk hset) (tvReach_inv (c := cfgT lib t hm) hset hre) v
  have e := hc .Wz ⟨(cfgT lib t hm).p, v⟩ ⟨_, old⟩
  have hk : t.kind = .tvAna := by unfold SetTv.kind; rw [hs]; rfl
  rw [hk, hs, all_Wz (cfgT lib t hm) s v old, ho] at e
  obtain ⟨⟨r, w'⟩, h1, -⟩ := Option.map_eq_some_iff.1 e
  exact ⟨r, w', h1⟩

/-- **C25 is false** of arguments in binary64: multiplying by `sqrt 2` can overflow.  On every 1-D set, in every state, `Mx` turns
the first entry of the finite argument `(1.5 * 2^1023, 0, …)` into an infinity. -/
theorem C25_argument_overflow_false {m n : ℕ} [NeZero m] (fw : Fftw B64 m) (idx : Fin n → Int) (s : DctBuf B64 m) :
    ∃ (x : Vec B64 m) (o : _), (∀ i, (x i).IsFin) ∧ (dct1Funs fw idx).Mx x s = some o ∧ ¬ (o.arg 0).IsFin := by
  have hu : u64 ≤ 1 / 100 := by unfold u64; norm_num
  have hsmall : ∀ x : ℝ, 1 ≤ x → (2 : ℝ) ^ (-1022 : ℤ) ≤ |x| := by
    intro x hx
    refine le_trans ?_ (hx.trans (le_abs_self x))
    rw [zpow_neg]
    exact inv_le_one_of_one_le₀ (one_le_zpow₀ (by norm_num) (by norm_num))
  obtain ⟨B, hB4, hB⟩ : ∃ B : ℝ, 4 ≤ B ∧ ∀ y : ℝ, y < 2 ^ (1024 : ℤ) ↔ y < 2 * B := by
    refine ⟨2 ^ (1023 : ℤ), ?_, fun y => ?_⟩
    · exact le_trans (by norm_num) (zpow_le_zpow_right₀ (a := (2 : ℝ)) (by norm_num) (show (2 : ℤ) ≤ 1023 by norm_num))
    · rw [← zpow_one_add₀ (by norm_num)]; norm_num
  -- rounding above 1
  have up : ∀ x : ℝ, 1 ≤ x → x * (99 / 100) ≤ rnd x ∧ rnd x ≤ x * (101 / 100) := by
    intro x hx
    obtain ⟨δ, hδ, e⟩ := rnd_normal_err (hsmall x hx)
    have := abs_le.1 (hδ.trans hu)
    rw [e]
    constructor <;> nlinarith
  have fin_of : ∀ x : ℝ, 1 ≤ x → x ≤ 3 / 2 * B → (B64.of (Dbl.fin x)).1 = Dbl.fin (rnd x) := by
    intro x h1 h2
    have := up x h1
    show (if |rnd x| < 2 ^ (1024 : ℤ) then _ else _) = _
    rw [if_pos]
    rw [hB, abs_lt]
    constructor <;> linarith
  have big_of : ∀ x : ℝ, 2.04 * B ≤ x → (B64.of (Dbl.fin x)).1 = Dbl.pinf := by
    intro x h2
    have := up x (by linarith)
    have hp : 0 < x := by linarith
    have hn : ¬ |rnd x| < 2 * B := by
      rw [not_lt]
      refine le_trans ?_ (le_abs_self _)
      linarith
    show (if |rnd x| < 2 ^ (1024 : ℤ) then _ else if 0 < x then _ else _) = _
    rw [if_neg (fun h => hn ((hB _).1 h)), if_pos hp]
  have h2 := up 2 (by norm_num)
  have hl2 : ((lit 2 : B64)).1 = Dbl.fin (rnd 2) := by
    have e : (lit 2 : Dbl) = Dbl.fin 2 := by show Dbl.fin _ = _; norm_num
    show (B64.of (lit 2)).1 = _
    rw [e, fin_of 2 (by norm_num) (by linarith)]
  have hs1 : 1.4 ≤ Real.sqrt (rnd 2) := Real.le_sqrt_of_sq_le (by nlinarith)
  have hs2 : Real.sqrt (rnd 2) ≤ 1.5 := Real.sqrt_le_iff.2 ⟨by norm_num, by nlinarith⟩
  have hr2 : ∃ r : ℝ, 1.38 ≤ r ∧ (root2 : B64).1 = Dbl.fin r := by
    have e : (fsqrt (Dbl.fin (rnd 2)) : Dbl) = Dbl.fin (Real.sqrt (rnd 2)) := by
      rw [Dbl.fsqrt_fin (by linarith)]
    refine ⟨rnd (Real.sqrt (rnd 2)), ?_, ?_⟩
    · have := (up _ (by linarith : 1 ≤ Real.sqrt (rnd 2))).1
      linarith
    · show (B64.of (fsqrt (lit 2 : B64).1)).1 = _
      rw [hl2, e, fin_of _ (by linarith) (by linarith)]
  obtain ⟨r, hr, er⟩ := hr2
  have hx0 : (B64.of (Dbl.fin (3 / 2 * B))).1 = Dbl.fin (rnd (3 / 2 * B)) := fin_of _ (by linarith) le_rfl
  have hx1 := up (3 / 2 * B) (by linarith)
  have hz : (B64.of (Dbl.fin 0)).1 = Dbl.fin 0 := by
    show (if |rnd 0| < 2 ^ (1024 : ℤ) then _ else _) = _
    rw [rnd_zero, if_pos (by rw [hB, abs_zero]; linarith)]
  refine ⟨fun i => if i = 0 then B64.of (Dbl.fin (3 / 2 * B)) else B64.of (Dbl.fin 0), _, ?_, rfl, ?_⟩
  · intro i
    show Dbl.IsFin _
    simp only
    split
    · rw [hx0]; trivial
    · rw [hz]; trivial
  · have e : ∀ x : Vec B64 m, ∀ o, (dct1Funs fw idx).Mx x s = some o → o.arg 0 = x 0 * root2 / root2 := by
      intro x o ho
      have ho : dct_Mx (dct1Cfg fw idx) x s = _ := ho
      unfold dct_Mx at ho; cases ho
      simp only
      rw [Function.update_self, Function.update_self]
    rw [e _ _ rfl]
    simp only [if_true]
    have m1 : (B64.of (Dbl.fin (3 / 2 * B)) * root2 : B64).1 = Dbl.pinf := by
      show (B64.of ((B64.of (Dbl.fin (3 / 2 * B))).1 * (root2 : B64).1)).1 = _
      rw [hx0, er, Dbl.fin_mul]
      have : 2.04 * B ≤ rnd (3 / 2 * B) * r := by nlinarith [hx1.1]
      exact big_of _ this
    have m2 : (B64.of (Dbl.fin (3 / 2 * B)) * root2 / root2 : B64).1 = Dbl.pinf := by
      show (B64.of ((B64.of (Dbl.fin (3 / 2 * B)) * root2 : B64).1 / (root2 : B64).1)).1 = _
      rw [m1, er]
      have : (Dbl.pinf / Dbl.fin r : Dbl) = Dbl.pinf := by
        show (if (0 : ℝ) ≤ r then Dbl.pinf else Dbl.ninf) = _
        rw [if_pos (by linarith)]
      rw [this]; rfl
    show ¬ Dbl.IsFin (B64.of (Dbl.fin (3 / 2 * B)) * root2 / root2 : B64).1
    rw [m2]
    exact id

end L1c
