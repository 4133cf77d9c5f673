import Verif.Proofs.DctSet

/-! Helper lemmas: DCT sets on buffers with any contents. -/

namespace L1c
open Scalar

variable {m n : ℕ} {F : Type} [Scalar F]

/-- the part of the operators that touches the first buffer -/
theorem set_parts {f : DctFuns F m n} {idx : Fin n → Int} (S : DctSet f idx) {ix : Fin n → Fin m} (hix : ∀ i, ((ix i : ℕ) : Int) = idx i) :
    (∀ y t, ∃ o o', f.Aty y t = some o ∧ f.Mty (scatter ix y t.Ety) DctBuf.fresh = some o' ∧ o.res = o'.res ∧ o.arg = y ∧ o.buf.Ety = scatter ix y t.Ety) ∧
    (∀ x t, ∃ o y, f.AtAx x t = some o ∧ o.buf.Ety = scatter ix y t.Ety) ∧
    (∀ x t, ∃ o o', f.Ax x t = some o ∧ f.Ax x DctBuf.fresh = some o' ∧ o.res = o'.res ∧ o.arg = o'.arg ∧ o.buf.Ety = t.Ety) ∧
    (∀ x t o, f.Mx x t = some o → o.buf.Ety = t.Ety) ∧ (∀ x t o, f.Mty x t = some o → o.buf.Ety = t.Ety) ∧ (∀ x t o, f.Rx x t = some o → o.buf.Ety = t.Ety) ∧
    (∀ x old t o, f.Rty x old t = some o → o.buf.Ety = t.Ety) := by
  cases S with
  | d1 fw idx hidx =>
    obtain ⟨ix', hr, hix'⟩ := resolve_eq hidx
    obtain rfl : ix' = ix := funext fun i => Fin.ext (by have := hix i; have := hix' i; omega)
    have hres : resolve m (dct1Cfg fw idx).idx = some ix' := hr
    refine ⟨fun y t => ?_, fun x t => ?_, fun x t => ?_, fun x t o h => ?_, fun x t o h => ?_, fun x t o h => ?_, fun x old t o h => ?_⟩
    · have e : dct_MtEty (dct1Cfg fw idx) y t = some ⟨vscale (dct1Cfg fw idx).root (Function.update (fw.fwd (scatter ix' y t.Ety)) 0 (fw.fwd (scatter ix' y t.Ety) 0 / root2)), y,
          ⟨scatter ix' y t.Ety, Function.update (fw.fwd (scatter ix' y t.Ety)) 0 (fw.fwd (scatter ix' y t.Ety) 0 / root2), t.dy⟩⟩ := by
        unfold dct_MtEty; rw [hres]; rfl
      exact ⟨_, _, e, rfl, rfl, rfl, rfl⟩
    · have e : ∃ r a dx dy, dct_MtEt_EMx (dct1Cfg fw idx) x t =
          some ⟨r, a, ⟨scatter ix' (vscale (dct1Cfg fw idx).root (gather ix' (fw.inv (Function.update x 0 (x 0 * root2))))) t.Ety, dx, dy⟩⟩ := by
        unfold dct_MtEt_EMx; rw [hres]; exact ⟨_, _, _, _, rfl⟩
      obtain ⟨r, a, dx, dy, e⟩ := e
      exact ⟨_, _, e, rfl⟩
    · have e : ∀ t, dct_EMx (dct1Cfg fw idx) x t = some ⟨vscale (dct1Cfg fw idx).root (gather ix' (fw.inv (Function.update x 0 (x 0 * root2)))),
          Function.update (Function.update x 0 (x 0 * root2)) 0 (x 0), { t with dy := fw.inv (Function.update x 0 (x 0 * root2)) }⟩ := by
        intro t; unfold dct_EMx; rw [hres]; rfl
      exact ⟨_, _, e t, e _, rfl, rfl, rfl⟩
    · cases h; rfl
    · cases h; rfl
    · have h : dct_Ex (dct1Cfg fw idx) x t = some o := h
      unfold dct_Ex at h; rw [hres] at h; cases h; rfl
    · have h : dct_Ety (dct1Cfg fw idx) x old t = some o := h
      unfold dct_Ety at h; rw [hres] at h; cases h; rfl
  | @d2 mrow mcol _ _ _ fw idx hidx =>
    obtain ⟨ix', hr, hix'⟩ := resolve_eq hidx
    obtain rfl : ix' = ix := funext fun i => Fin.ext (by have := hix i; have := hix' i; omega)
    have hres : resolve (mrow * mcol) (dct2Cfg fw idx).idx = some ix' := hr
    refine ⟨fun y t => ?_, fun x t => ?_, fun x t => ?_, fun x t o h => ?_, fun x t o h => ?_, fun x t o h => ?_, fun x old t o h => ?_⟩
    · have e : dct2_MtEty (dct2Cfg fw idx) y t = some ⟨dct2Post (vscale (dct2Cfg fw idx).root (fw.fwd (scatter ix' y t.Ety))), y,
          ⟨scatter ix' y t.Ety, fw.fwd (scatter ix' y t.Ety), t.dy⟩⟩ := by
        unfold dct2_MtEty; rw [hres]; rfl
      exact ⟨_, _, e, rfl, rfl, rfl, rfl⟩
    · have e : ∃ r a dx dy, dct2_MtEt_EMx (dct2Cfg fw idx) x t = some ⟨r, a, ⟨scatter ix' (vscale (dct2Cfg fw idx).root (gather ix' (fw.inv (dct2Pre x)))) t.Ety, dx, dy⟩⟩ := by
        unfold dct2_MtEt_EMx; rw [hres]; exact ⟨_, _, _, _, rfl⟩
      obtain ⟨r, a, dx, dy, e⟩ := e
      exact ⟨_, _, e, rfl⟩
    · have e : ∀ t, dct2_EMx (dct2Cfg fw idx) x t = some ⟨vscale (dct2Cfg fw idx).root (gather ix' (fw.inv (dct2Pre x))), x, { t with dx := dct2Pre x, dy := fw.inv (dct2Pre x) }⟩ := by
        intro t; unfold dct2_EMx; rw [hres]; rfl
      exact ⟨_, _, e t, e _, rfl, rfl, rfl⟩
    · cases h; rfl
    · cases h; rfl
    · have h : dct_Ex (dct2Cfg fw idx) x t = some o := h
      unfold dct_Ex at h; rw [hres] at h; cases h; rfl
    · have h : dct_Ety (dct2Cfg fw idx) x old t = some o := h
      unfold dct_Ety at h; rw [hres] at h; cases h; rfl

open Classical in
/-- the entries at unsampled positions -/
noncomputable def offSample (ix : Fin n → Fin m) (e : Fin m → ℝ) : Fin m → ℝ := fun p => if ∃ i, ix i = p then 0 else e p

theorem scatter_split (ix : Fin n → Fin m) (y : Fin n → ℝ) (e : Fin m → ℝ) : scatter ix y e = scat ix y + offSample ix e := by
  funext p
  rw [Pi.add_apply]
  unfold offSample
  by_cases h : ∃ i, ix i = p
  · rw [if_pos h, add_zero]
    refine foldl_update_indep ix y _ e 0 p fun hc => ?_
    obtain ⟨i, hi⟩ := h
    exact absurd hi (hc i (List.mem_finRange i))
  · rw [if_neg h, scat_out ix y p fun i hi => h ⟨i, hi⟩, zero_add]
    exact scatter_out ix y e p fun i hi => h ⟨i, hi⟩

end L1c
