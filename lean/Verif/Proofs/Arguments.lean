import Verif.Props.DctTV
import Verif.Spec.World

/-! # What operators do to their argument array -/

namespace L1c
open Scalar

variable {F : Type} [Scalar F] {m n k l mrow mcol : ℕ}

/-- the array `a'` is `a`, except that entry 0 may have been multiplied and divided by `sqrt 2` -/
def ArgKept (a a' : Arr F) : Prop :=
  ∃ v : Vec F a.1, a' = ⟨a.1, v⟩ ∧ ∀ i, v i = a.2 i ∨ i.val = 0 ∧ v i = a.2 i * root2 / root2

theorem ArgKept.refl (a : Arr F) : ArgKept a a := ⟨a.2, rfl, fun _ => .inl rfl⟩

theorem argKept_write {a : Arr F} {x y : Vec F l} {v : Vec F a.1} (hx : slice l 0 a.2 = some x)
    (hy : ∀ i, y i = x i ∨ i.val = 0 ∧ y i = x i * root2 / root2) (hv : writeAt 0 y a.2 = some v) : ArgKept a ⟨a.1, v⟩ := by
  refine ⟨v, rfl, fun i => ?_⟩
  by_cases hp : 0 + l ≤ a.1
  · rw [slice_eq 0 hp] at hx
    rw [writeAt_eq 0 hp] at hv
    cases hx
    cases hv
    simp only
    split
    · rename_i h
      have hc : (⟨0 + (i.val - 0), by omega⟩ : Fin a.1) = i := Fin.ext (by simp)
      rcases hy ⟨i.val - 0, h.2⟩ with e | ⟨e0, e⟩
      · left; rw [e]; simp only [hc]
      · right; refine ⟨by simpa using e0, ?_⟩; rw [e]; simp only [hc]
    · exact .inl rfl
  · rw [slice, dif_neg hp] at hx; cases hx

theorem onArrays_arg {f : Vec F l → DctBuf F m → Option (XOut F k l m)} {a out : Arr F} {s s' : DctBuf F m}
    {r : Arr F × Arr F} (hf : ∀ x o, f x s = some o → ∀ i, o.arg i = x i ∨ i.val = 0 ∧ o.arg i = x i * root2 / root2)
    (h : onArrays f a out s = some (r, s')) : ArgKept a r.1 := by
  unfold onArrays at h
  obtain ⟨x, hx, h⟩ := bind_some_iff.1 h
  obtain ⟨o, ho, h⟩ := bind_some_iff.1 h
  obtain ⟨v, hv, h⟩ := bind_some_iff.1 h
  obtain ⟨y, -, h⟩ := bind_some_iff.1 h
  cases h
  exact argKept_write hx (hf x o ho) hv

theorem copyArr_arg {a out : Arr F} {r : Arr F × Arr F} (h : copyArr m a out = some r) : ArgKept a r.1 := by
  unfold copyArr at h
  obtain ⟨v, -, rfl⟩ := Option.map_eq_some_iff.1 h
  exact .refl a

theorem dctOp_arg {f : DctFuns F m n} {idx : Fin n → Int} (hf : DctSet f idx) {op : Op} {a out : Arr F} {s s' : DctBuf F m}
    {r : Arr F × Arr F} (h : dctOp f op a out s = some (r, s')) : ArgKept a r.1 := by
  obtain ⟨h1, h2, h3, h4, h5, h6, h7⟩ := C25_arguments hf s
  cases op
  case Ax => exact onArrays_arg (fun x o ho i => .inl (congrFun (h1 x o ho) i)) h
  case Aty => exact onArrays_arg (fun x o ho i => .inl (congrFun (h2 x o ho) i)) h
  case AtAx => exact onArrays_arg (fun x o ho i => .inl (congrFun (h3 x o ho) i)) h
  case Mx => exact onArrays_arg h7 h
  case Mty => exact onArrays_arg (fun x o ho i => .inl (congrFun (h4 x o ho) i)) h
  case Rx => exact onArrays_arg (fun x o ho i => .inl (congrFun (h5 x o ho) i)) h
  case Rty =>
    obtain ⟨old, -, h⟩ := bind_some_iff.1 h
    exact onArrays_arg (fun x o ho i => .inl (congrFun (h6 old x o ho) i)) h
  all_goals
    obtain ⟨q, hq, e⟩ := Option.map_eq_some_iff.1 h
    cases e
    exact copyArr_arg hq

theorem tvWvArg_arg {c : TvCfg F mrow mcol n} {idx : Fin n → Int} (hf : DctSet c.loc idx) (v : Vec F c.p)
    (s : TvBuf F (mrow * mcol) c.p) (i : Fin c.p) :
    tvWvArg c v s i = v i ∨ i.val = 0 ∧ tvWvArg c v s i = v i * root2 / root2 := by
  unfold tvWvArg
  generalize hg : (do
    let v0 ← slice (mrow * mcol) 0 v
    let o ← c.loc.Mx v0 s.dct
    writeAt 0 o.arg v : Option (Vec F c.p)) = g
  cases g with
  | none => exact .inl rfl
  | some u =>
    obtain ⟨v0, h0, hg⟩ := bind_some_iff.1 hg
    obtain ⟨o, ho, hg⟩ := bind_some_iff.1 hg
    obtain ⟨u', e, hu⟩ := argKept_write (a := ⟨c.p, v⟩) h0 ((C25_arguments hf s.dct).2.2.2.2.2.2 v0 o ho) hg
    cases e
    exact hu i

theorem tvAll_arg {c : TvCfg F mrow mcol n} {idx : Fin n → Int} (hf : DctSet c.loc idx) {syn : Bool} {op : Op} {a out : Arr F}
    {s s' : TvBuf F (mrow * mcol) c.p} {r : Arr F × Arr F} (h : tvAll c syn op a out s = some (r, s')) : ArgKept a r.1 := by
  unfold tvAll at h
  split at h
  · obtain ⟨q, hq, e⟩ := Option.map_eq_some_iff.1 h
    cases e
    exact copyArr_arg hq
  split at h
  · cases h
  cases op <;> cases syn <;> simp only [tvOp] at h
  all_goals first
    | cases h
    | (obtain ⟨v, hv, h⟩ := bind_some_iff.1 h
       obtain ⟨o, -, h⟩ := bind_some_iff.1 h
       obtain ⟨a', ha, h⟩ := bind_some_iff.1 h
       obtain ⟨y, -, h⟩ := bind_some_iff.1 h
       cases h
       first
       | exact argKept_write hv (tvWvArg_arg hf v s) ha
       | exact .refl a)
    | (obtain ⟨v, -, h⟩ := bind_some_iff.1 h
       obtain ⟨o, -, h⟩ := bind_some_iff.1 h
       obtain ⟨y, -, h⟩ := bind_some_iff.1 h
       cases h
       exact .refl a)

theorem matOp_arg {N M : ℕ} {A : Arr F} {op : Op} {a out : Arr F} {d d' : Vec F (max N M)} {r : Arr F × Arr F}
    (h : matOp N M A op a out d = some (r, d')) : ArgKept a r.1 := by
  unfold matOp at h
  obtain ⟨B, -, h⟩ := bind_some_iff.1 h
  cases op <;> simp only at h
  all_goals first
    | (obtain ⟨q, hq, e⟩ := Option.map_eq_some_iff.1 h
       cases e
       exact copyArr_arg hq)
    | (obtain ⟨x, -, h⟩ := bind_some_iff.1 h
       obtain ⟨y, -, h⟩ := bind_some_iff.1 h
       first
       | (cases h; exact .refl a)
       | (obtain ⟨z, -, h⟩ := bind_some_iff.1 h
          cases h
          exact .refl a))

/-- in exact arithmetic the argument is left as it was -/
theorem ArgKept.exact {a a' : Arr Dbl} (h : ArgKept a a') : a' = a := by
  obtain ⟨v, rfl, hv⟩ := h
  have : v = a.2 := by
    funext i
    rcases hv i with e | ⟨-, e⟩
    · exact e
    · rw [e, Dbl.mul_div_root2]
  rw [this]

end L1c
