import Verif.Proofs.DctK

/-! # Facts about whole operator sets: buffers stay usable, results do not depend on them -/

namespace L1c
open Scalar Matrix

variable {m n k l : ℕ}

/-! ## Reachable buffers -/

section generic
variable {F : Type} [Scalar F]

/-- an operator keeps the buffer invariant, does not fail, and its result ignores the buffers -/
structure OpOk (idx : Fin n → Int) (op : Vec F l → DctBuf F m → Option (XOut F k l m)) : Prop where
  keep : ∀ x s o, BufInv idx s → op x s = some o → BufInv idx o.buf
  same : ∀ x s, BufInv idx s → ∃ o o', op x s = some o ∧ op x DctBuf.fresh = some o' ∧ o.res = o'.res ∧ o.arg = o'.arg

theorem opOk_const {idx : Fin n → Int} {op : Vec F l → DctBuf F m → Option (XOut F k l m)}
    (h : ∀ x, ∃ r a, ∀ s, ∃ dx dy, op x s = some ⟨r, a, ⟨s.Ety, dx, dy⟩⟩) : OpOk idx op := by
  refine ⟨fun x s o hs ho => ?_, fun x s _ => ?_⟩
  · obtain ⟨r, a, h⟩ := h x
    obtain ⟨dx, dy, h⟩ := h s
    rw [h] at ho; cases ho
    exact hs
  · obtain ⟨r, a, h⟩ := h x
    obtain ⟨dx, dy, h1⟩ := h s
    obtain ⟨dx', dy', h2⟩ := h DctBuf.fresh
    exact ⟨_, _, h1, h2, rfl, rfl⟩

theorem opOk_scatter {idx : Fin n → Int} {ix : Fin n → Fin m} (hix : ∀ i, ((ix i : ℕ) : Int) = idx i)
    {op : Vec F l → DctBuf F m → Option (XOut F k l m)}
    (h : ∀ x, ∃ y a, ∃ r : Vec F m → Vec F k, ∃ q : Vec F m → Vec F m, ∀ s, ∃ dy,
      op x s = some ⟨r (scatter ix y s.Ety), a, ⟨scatter ix y s.Ety, q (scatter ix y s.Ety), dy⟩⟩) : OpOk idx op := by
  refine ⟨fun x s o hs ho => ?_, fun x s hs => ?_⟩
  · obtain ⟨y, a, r, q, h⟩ := h x
    obtain ⟨dy, h⟩ := h s
    rw [h] at ho; cases ho
    exact bufInv_scatter hix hs _ _ _
  · obtain ⟨y, a, r, q, h⟩ := h x
    obtain ⟨dy, h1⟩ := h s
    obtain ⟨dy', h2⟩ := h DctBuf.fresh
    refine ⟨_, _, h1, h2, ?_, rfl⟩
    show r _ = r _
    rw [scatter_buf hix hs, scatter_buf hix (bufInv_fresh idx)]

structure SetOk (f : DctFuns F m n) (idx : Fin n → Int) : Prop where
  Ax : OpOk idx f.Ax
  Aty : OpOk idx f.Aty
  AtAx : OpOk idx f.AtAx
  Mx : OpOk idx f.Mx
  Mty : OpOk idx f.Mty
  Rx : OpOk idx f.Rx
  Rty : ∀ old, OpOk idx fun y => f.Rty y old

theorem setOk {f : DctFuns F m n} {idx : Fin n → Int} (h : DctSet f idx) : SetOk f idx := by
  cases h with
  | d1 fw idx hidx =>
    obtain ⟨ix, hr, hix⟩ := resolve_eq hidx
    have hres : resolve m (dct1Cfg fw idx).idx = some ix := hr
    refine ⟨opOk_const fun x => ?_, opOk_scatter hix fun y => ?_, opOk_scatter hix fun x => ?_,
      opOk_const fun x => ?_, opOk_const fun x => ?_, opOk_const fun x => ?_, fun old => opOk_const fun x => ?_⟩
    · refine ⟨vscale (dct1Cfg fw idx).root (gather ix (fw.inv (Function.update x 0 (x 0 * root2)))),
        Function.update (Function.update x 0 (x 0 * root2)) 0 (x 0),
        fun s => ⟨s.dx, fw.inv (Function.update x 0 (x 0 * root2)), ?_⟩⟩
      show dct_EMx (dct1Cfg fw idx) x s = _
      unfold dct_EMx; rw [hres]; rfl
    · refine ⟨y, y, fun e => vscale (dct1Cfg fw idx).root (Function.update (fw.fwd e) 0 (fw.fwd e 0 / root2)),
        fun e => Function.update (fw.fwd e) 0 (fw.fwd e 0 / root2), fun s => ⟨s.dy, ?_⟩⟩
      show dct_MtEty (dct1Cfg fw idx) y s = _
      unfold dct_MtEty; rw [hres]; rfl
    · refine ⟨vscale (dct1Cfg fw idx).root (gather ix (fw.inv (Function.update x 0 (x 0 * root2)))),
        Function.update (Function.update x 0 (x 0 * root2)) 0 (x 0), fun e => vscale (dct1Cfg fw idx).root (Function.update (fw.fwd e) 0 (fw.fwd e 0 / root2)),
        fun e => Function.update (fw.fwd e) 0 (fw.fwd e 0 / root2),
        fun s => ⟨fw.inv (Function.update x 0 (x 0 * root2)), ?_⟩⟩
      show dct_MtEt_EMx (dct1Cfg fw idx) x s = _
      unfold dct_MtEt_EMx; rw [hres]; rfl
    · exact ⟨_, _, fun s => ⟨s.dx, s.dy, rfl⟩⟩
    · exact ⟨_, _, fun s => ⟨s.dx, s.dy, rfl⟩⟩
    · refine ⟨gather ix x, x, fun s => ⟨s.dx, s.dy, ?_⟩⟩
      show dct_Ex (dct1Cfg fw idx) x s = _
      unfold dct_Ex; rw [hres]; rfl
    · refine ⟨scatter ix x (vscale (lit 0) old), x, fun s => ⟨s.dx, s.dy, ?_⟩⟩
      show dct_Ety (dct1Cfg fw idx) x old s = _
      unfold dct_Ety; rw [hres]; rfl
  | @d2 mrow mcol _ _ _ fw idx hidx =>
    obtain ⟨ix, hr, hix⟩ := resolve_eq hidx
    have hres : resolve (mrow * mcol) (dct2Cfg fw idx).idx = some ix := hr
    refine ⟨opOk_const fun x => ?_, opOk_scatter hix fun y => ?_, opOk_scatter hix fun x => ?_,
      opOk_const fun x => ?_, opOk_const fun x => ?_, opOk_const fun x => ?_, fun old => opOk_const fun x => ?_⟩
    · refine ⟨vscale (dct2Cfg fw idx).root (gather ix (fw.inv (dct2Pre x))), x,
        fun s => ⟨dct2Pre x, fw.inv (dct2Pre x), ?_⟩⟩
      show dct2_EMx (dct2Cfg fw idx) x s = _
      unfold dct2_EMx; rw [hres]; rfl
    · refine ⟨y, y, fun e => dct2Post (vscale (dct2Cfg fw idx).root (fw.fwd e)), fun e => fw.fwd e, fun s => ⟨s.dy, ?_⟩⟩
      show dct2_MtEty (dct2Cfg fw idx) y s = _
      unfold dct2_MtEty; rw [hres]; rfl
    · refine ⟨vscale (dct2Cfg fw idx).root (gather ix (fw.inv (dct2Pre x))), x,
        fun e => dct2Post (vscale (dct2Cfg fw idx).root (fw.fwd e)), fun e => fw.fwd e,
        fun s => ⟨fw.inv (dct2Pre x), ?_⟩⟩
      show dct2_MtEt_EMx (dct2Cfg fw idx) x s = _
      unfold dct2_MtEt_EMx; rw [hres]; rfl
    · exact ⟨_, _, fun s => ⟨_, s.dy, rfl⟩⟩
    · exact ⟨_, _, fun s => ⟨s.dx, s.dy, rfl⟩⟩
    · refine ⟨gather ix x, x, fun s => ⟨s.dx, s.dy, ?_⟩⟩
      show dct_Ex (dct2Cfg fw idx) x s = _
      unfold dct_Ex; rw [hres]; rfl
    · refine ⟨scatter ix x (vscale (lit 0) old), x, fun s => ⟨s.dx, s.dy, ?_⟩⟩
      show dct_Ety (dct2Cfg fw idx) x old s = _
      unfold dct_Ety; rw [hres]; rfl

theorem reach_inv {f : DctFuns F m n} {idx : Fin n → Int} (h : DctSet f idx) {s : DctBuf F m} (hs : Reach f s) :
    BufInv idx s := by
  have ok := setOk h
  induction hs with
  | fresh => exact bufInv_fresh idx
  | @call s s' c _ hc ih =>
    cases c <;> simp only [DctCall.run, Option.map_eq_some_iff] at hc <;> obtain ⟨o, ho, rfl⟩ := hc
    · exact ok.Ax.keep _ _ _ ih ho
    · exact ok.Aty.keep _ _ _ ih ho
    · exact ok.AtAx.keep _ _ _ ih ho
    · exact ok.Mx.keep _ _ _ ih ho
    · exact ok.Mty.keep _ _ _ ih ho
    · exact ok.Rx.keep _ _ _ ih ho
    · exact (ok.Rty _).keep _ _ _ ih ho

end generic

/-! ## Exact arithmetic -/

theorem DctSetR.toSet {f : DctFuns Dbl m n} {idx : Fin n → Int} (h : DctSetR f idx) : DctSet f idx := by
  cases h with
  | d1 fw idx _ hi => exact .d1 fw idx hi
  | d2 fw idx _ hi => exact .d2 fw idx hi

theorem funsOk {f : DctFuns Dbl m n} {idx : Fin n → Int} (h : DctSetR f idx) : ∃ ix Q, FunsOk f idx ix Q := by
  cases h with
  | d1 fw idx hf hi => obtain ⟨ix, hr, hix⟩ := resolve_eq hi; exact ⟨ix, _, dct1_ok hf hr hix⟩
  | d2 fw idx hf hi => obtain ⟨ix, hr, hix⟩ := resolve_eq hi; exact ⟨ix, _, dct2_ok hf hr hix⟩

theorem Computes.gives {f : DctFuns Dbl m n} {idx : Fin n → Int} (h : DctSetR f idx)
    {op : Vec Dbl l → DctBuf Dbl m → Option (XOut Dbl k l m)} {g : (Fin l → ℝ) → (Fin k → ℝ)}
    (hc : Computes idx op g) : Gives f op g := by
  intro s hs x
  obtain ⟨s', h1, _⟩ := hc x s (reach_inv h.toSet hs)
  exact ⟨s', h1⟩

theorem injective_iff {idx : Fin n → Int} {ix : Fin n → Fin m} (hix : ∀ i, ((ix i : ℕ) : Int) = idx i) :
    Function.Injective idx ↔ Function.Injective ix := by
  constructor
  · intro h a b hab; exact h (by rw [← hix, ← hix, hab])
  · intro h a b hab; rw [← hix, ← hix] at hab; exact h (Fin.ext (by exact_mod_cast hab))

theorem mulVec_adj {n m : ℕ} (Q : Matrix (Fin n) (Fin m) ℝ) (x : Fin m → ℝ) (y : Fin n → ℝ) :
    (Q *ᵥ x) ⬝ᵥ y = x ⬝ᵥ (Qᵀ *ᵥ y) := by
  rw [dotProduct_comm, dotProduct_mulVec, ← mulVec_transpose, dotProduct_comm]

end L1c
