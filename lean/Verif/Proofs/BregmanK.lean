import Verif.Model.Bregman
import Verif.Proofs.MathK
import Verif.Proofs.TVK

/-! Helper lemmas: what the kernels of `src/bregman.c` do to memory, for any scalar arithmetic. -/

namespace L1c
open Prog Scalar

variable {F : Type}

/-- image with entries of type `F` -/
abbrev FImg (F : Type) := ℕ → ℕ → F

/-- the image `A` is stored at `p` -/
def HoldsF (mem : Mem F) (p : Ptr) (n m : ℕ) (A : FImg F) : Prop :=
  mem.Has p ((n * m : ℕ) : Int) ∧ ∀ i < n, ∀ j < m, mem.pix p m i j = A i j

theorem Mem.setImg_self {mem : Mem F} {p : Ptr} {n m : ℕ} {A : FImg F} (h : HoldsF mem p n m A) :
    mem.setImg p n m A = mem := by
  ext a
  · rfl
  · unfold Mem.setImg
    simp only [Mem.setRange]
    split
    · rename_i hc
      obtain ⟨h1, h2, h3⟩ := hc
      have hk : (a.off - p.off).toNat < n * m := by omega
      have hm : 0 < m := by
        rcases Nat.eq_zero_or_pos m with rfl | h
        · simp at hk
        · exact h
      rw [← h.2 _ (by rw [Nat.div_lt_iff_lt_mul hm]; exact hk) _ (Nat.mod_lt _ hm)]
      unfold Mem.pix
      rw [Nat.div_add_mod']
      congr 1
      ext
      · simpa using h1.symm
      · simp; omega
    · rfl

theorem holdsF_setImg {mem : Mem F} {p : Ptr} {n m : ℕ} {A : FImg F} (h : mem.Has p ((n * m : ℕ) : Int)) :
    HoldsF (mem.setImg p n m A) p n m A := ⟨h, fun _ hi _ hj => Mem.setImg_pix _ _ _ _ _ hi hj⟩

theorem HoldsF.setImg {mem : Mem F} {D X : Ptr} {n m : ℕ} {A B : FImg F} (h : HoldsF mem X n m A)
    (hs : Sep ((n * m : ℕ) : Int) D X) : HoldsF (mem.setImg D n m B) X n m A :=
  ⟨h.1, fun i hi j hj => by rw [Mem.setImg_pix_out _ _ _ _ _ _ hi hj hs]; exact h.2 i hi j hj⟩

theorem Sep.noCross {N : Int} {p q : Ptr} (h : Sep N p q) : NoCross N p q :=
  fun i j h0 h1 h2 h3 _ => h i j h0 h1 h2 h3

theorem setRange_eq_setImg (mem : Mem F) (p : Ptr) (n m : ℕ) (g : Int → F) (A : FImg F)
    (h : ∀ i < n, ∀ j < m, g ((i * m + j : ℕ) : Int) = A i j) :
    mem.setRange p ((n * m : ℕ) : Int) g = mem.setImg p n m A := by
  unfold Mem.setImg
  apply Mem.setRange_congr
  intro k h0 h1
  have hk : k.toNat < n * m := by omega
  have hm : 0 < m := by
    rcases Nat.eq_zero_or_pos m with rfl | h
    · simp at hk
    · exact h
  rw [← h _ (by rw [Nat.div_lt_iff_lt_mul hm]; exact hk) _ (Nat.mod_lt _ hm), Nat.div_add_mod']
  congr 1; omega

section
variable {n m : ℕ} {mem : Mem F}

theorem kspec_img1 {x y : Ptr} {al : List Ptr} {A : FImg F} (f : F → F) (hx : HoldsF mem x n m A)
    (hy : mem.Has y ((n * m : ℕ) : Int)) (hs : NoCross ((n * m : ℕ) : Int) y x) :
    KSpec (parFor (al := al) 0 ((n : Int) * m) fun i => do let a ← load (x + i); store (y + i) (f a)) mem
      (mem.setImg y n m fun i j => f (A i j)) := by
  have := kspec_map1 (al := al) f hx.1 hy hs
  rw [setRange_eq_setImg mem y n m _ (fun i j => f (A i j))] at this
  · simpa using this
  · intro i hi j hj; rw [← hx.2 i hi j hj]; rfl

theorem kspec_img2 {x y z : Ptr} {al : List Ptr} {A B : FImg F} (f : F → F → F) (hx : HoldsF mem x n m A) (hy : HoldsF mem y n m B)
    (hz : mem.Has z ((n * m : ℕ) : Int)) (hs : NoCross ((n * m : ℕ) : Int) z x) (hs' : NoCross ((n * m : ℕ) : Int) z y) :
    KSpec (parFor (al := al) 0 ((n : Int) * m) fun i => do
        let a ← load (x + i); let b ← load (y + i); store (z + i) (f a b)) mem
      (mem.setImg z n m fun i j => f (A i j) (B i j)) := by
  have := kspec_map2 (al := al) f hx.1 hy.1 hz hs hs'
  rw [setRange_eq_setImg mem z n m _ (fun i j => f (A i j) (B i j))] at this
  · simpa using this
  · intro i hi j hj; rw [← hx.2 i hi j hj, ← hy.2 i hi j hj]; rfl
end

variable [Scalar F] {n m : ℕ} {mem : Mem F} {mu lambda : F}

/-! ### Gauss–Seidel -/

/-- image with one pixel replaced -/
def upd2 (A : FImg F) (i j : ℕ) (v : F) : FImg F := fun a b => if a = i ∧ b = j then v else A a b

/-- `1.0 / (mu + k*lambda)` -/
def gsInv (mu lambda : F) (k : ℚ) : F := lit 1 / (mu + lit k * lambda)

/-- the value a Gauss–Seidel sweep stores in pixel `(i,j)`, from the current image `u` -/
def gsPix (n m : ℕ) (mu lambda : F) (rhs u : FImg F) (i j : ℕ) : F :=
  if i = 0 then
    if j = 0 then (rhs i j + (u i (j + 1) + u (i + 1) j) * lambda) * gsInv mu lambda 2
    else if j + 1 = m then (rhs i j + (u i (j - 1) + u (i + 1) j) * lambda) * gsInv mu lambda 2
    else (rhs i j + (u i (j + 1) + u i (j - 1) + u (i + 1) j) * lambda) * gsInv mu lambda 3
  else if i + 1 = n then
    if j = 0 then (rhs i j + (u i (j + 1) + u (i - 1) j) * lambda) * gsInv mu lambda 2
    else if j + 1 = m then (rhs i j + (u i (j - 1) + u (i - 1) j) * lambda) * gsInv mu lambda 2
    else (rhs i j + (u i (j + 1) + u i (j - 1) + u (i - 1) j) * lambda) * gsInv mu lambda 3
  else
    if j = 0 then (rhs i j + (u i (j + 1) + u (i + 1) j + u (i - 1) j) * lambda) * gsInv mu lambda 3
    else if j + 1 = m then (rhs i j + (u i (j - 1) + u (i + 1) j + u (i - 1) j) * lambda) * gsInv mu lambda 3
    else (rhs i j + (u i (j + 1) + u i (j - 1) + u (i + 1) j + u (i - 1) j) * lambda) * gsInv mu lambda 4

/-- the image after the first `k` pixels (row-major) have been updated in place -/
def gsState (n m : ℕ) (mu lambda : F) (rhs u : FImg F) : ℕ → FImg F
  | 0 => u
  | k + 1 => upd2 (gsState n m mu lambda rhs u k) (k / m) (k % m)
      (gsPix n m mu lambda rhs (gsState n m mu lambda rhs u k) (k / m) (k % m))

/-- the image after a full sweep -/
def gsSweep (n m : ℕ) (mu lambda : F) (rhs u : FImg F) : FImg F := gsState n m mu lambda rhs u (n * m)

theorem gsState_succ (rhs u : FImg F) {i j : ℕ} (hj : j < m) :
    gsState n m mu lambda rhs u (i * m + j + 1) = upd2 (gsState n m mu lambda rhs u (i * m + j)) i j
      (gsPix n m mu lambda rhs (gsState n m mu lambda rhs u (i * m + j)) i j) := by
  have hm : 0 < m := by omega
  have h1 : (i * m + j) / m = i := by rw [mul_comm, Nat.mul_add_div hm, Nat.div_eq_of_lt hj, add_zero]
  have h2 : (i * m + j) % m = j := by rw [mul_comm, Nat.mul_add_mod, Nat.mod_eq_of_lt hj]
  rw [gsState, h1, h2]

omit [Scalar F] in
theorem setImg_upd2 (mem : Mem F) (U : Ptr) (A : FImg F) (v : F) {i j : ℕ} (hi : i < n) (hj : j < m) :
    (mem.setImg U n m A).write (U + ((i * m + j : ℕ) : Int)) v = mem.setImg U n m (upd2 A i j v) := by
  unfold Mem.setImg
  refine Mem.setRange_overwrite _ _ _ _ _ _ _ (by positivity) (by exact_mod_cast idx_bound hi hj) fun k h0 h1 => ?_
  have hm : 0 < m := by omega
  unfold upd2
  by_cases h : k = ((i * m + j : ℕ) : Int)
  · subst h
    have h1 : (i * m + j) / m = i := by rw [mul_comm, Nat.mul_add_div hm, Nat.div_eq_of_lt hj, add_zero]
    have h2 : (i * m + j) % m = j := by rw [mul_comm, Nat.mul_add_mod, Nat.mod_eq_of_lt hj]
    rw [if_pos rfl]
    simp only [Int.toNat_natCast, h1, h2, and_self, if_true]
  · rw [if_neg h, if_neg]
    rintro ⟨rfl, rfl⟩
    rw [Nat.div_add_mod'] at h
    omega

section
variable {U R : Ptr} {rhs A : FImg F} (hU : mem.Has U ((n * m : ℕ) : Int)) (hR : HoldsF mem R n m rhs)
  (hs : Sep ((n * m : ℕ) : Int) U R)
include hU

omit [Scalar F] in
theorem load_img {i j : ℕ} (hi : i < n) (hj : j < m) {p : Int} (hp : p = ((i * m + j : ℕ) : Int)) :
    (load (U + p) : Prog F F).run (mem.setImg U n m A) = some (A i j, mem.setImg U n m A) := by
  subst hp
  rw [run_load (show (mem.setImg U n m A).Ok _ from hU _ (by positivity) (by exact_mod_cast idx_bound hi hj))]
  congr 2
  exact Mem.setImg_pix mem U n m A hi hj

include hR hs

omit [Scalar F] hU in
theorem load_rhs {i j : ℕ} (hi : i < n) (hj : j < m) {p : Int} (hp : p = ((i * m + j : ℕ) : Int)) :
    (load (R + p) : Prog F F).run (mem.setImg U n m A) = some (rhs i j, mem.setImg U n m A) := by
  subst hp
  rw [run_load (show (mem.setImg U n m A).Ok _ from hR.1 _ (by positivity) (by exact_mod_cast idx_bound hi hj))]
  congr 2
  exact ((hR.setImg (B := A) hs).2 i hi j hj)

omit [Scalar F] hR hs in
theorem store_img {i j : ℕ} (hi : i < n) (hj : j < m) {p : Int} (hp : p = ((i * m + j : ℕ) : Int)) (v : F) :
    (store (U + p) v).run (mem.setImg U n m A) = some ((), mem.setImg U n m (upd2 A i j v)) := by
  subst hp
  rw [run_store (show (mem.setImg U n m A).Ok _ from hU _ (by positivity) (by exact_mod_cast idx_bound hi hj)),
    setImg_upd2 _ _ _ _ hi hj]

theorem run_gs2 {i j ia ja ib jb : ℕ} {p a b : Int} {c : F} (hi : i < n) (hj : j < m) (hia : ia < n) (hja : ja < m)
    (hib : ib < n) (hjb : jb < m) (hp : p = ((i * m + j : ℕ) : Int)) (ha : a = ((ia * m + ja : ℕ) : Int))
    (hb : b = ((ib * m + jb : ℕ) : Int)) :
    (gs2 U R p a b lambda c).run (mem.setImg U n m A) = some ((), mem.setImg U n m
      (upd2 A i j ((rhs i j + (A ia ja + A ib jb) * lambda) * c))) := by
  unfold gs2
  simp only [run_bind, load_rhs hR hs hi hj hp, load_img hU hia hja ha, load_img hU hib hjb hb, Option.bind_some,
    store_img hU hi hj hp]

theorem run_gs3 {i j ia ja ib jb id jd : ℕ} {p a b d : Int} {c : F} (hi : i < n) (hj : j < m) (hia : ia < n)
    (hja : ja < m) (hib : ib < n) (hjb : jb < m) (hid : id < n) (hjd : jd < m) (hp : p = ((i * m + j : ℕ) : Int))
    (ha : a = ((ia * m + ja : ℕ) : Int)) (hb : b = ((ib * m + jb : ℕ) : Int)) (hd : d = ((id * m + jd : ℕ) : Int)) :
    (gs3 U R p a b d lambda c).run (mem.setImg U n m A) = some ((), mem.setImg U n m
      (upd2 A i j ((rhs i j + (A ia ja + A ib jb + A id jd) * lambda) * c))) := by
  unfold gs3
  simp only [run_bind, load_rhs hR hs hi hj hp, load_img hU hia hja ha, load_img hU hib hjb hb, load_img hU hid hjd hd,
    Option.bind_some, store_img hU hi hj hp]

theorem run_gs4 {i j ia ja ib jb id jd ie je : ℕ} {p a b d e : Int} {c : F} (hi : i < n) (hj : j < m) (hia : ia < n)
    (hja : ja < m) (hib : ib < n) (hjb : jb < m) (hid : id < n) (hjd : jd < m) (hie : ie < n) (hje : je < m)
    (hp : p = ((i * m + j : ℕ) : Int))
    (ha : a = ((ia * m + ja : ℕ) : Int)) (hb : b = ((ib * m + jb : ℕ) : Int)) (hd : d = ((id * m + jd : ℕ) : Int))
    (he : e = ((ie * m + je : ℕ) : Int)) :
    (gs4 U R p a b d e lambda c).run (mem.setImg U n m A) = some ((), mem.setImg U n m
      (upd2 A i j ((rhs i j + (A ia ja + A ib jb + A id jd + A ie je) * lambda) * c))) := by
  unfold gs4
  simp only [run_bind, load_rhs hR hs hi hj hp, load_img hU hia hja ha, load_img hU hib hjb hb, load_img hU hid hjd hd,
    load_img hU hie hje he, Option.bind_some, store_img hU hi hj hp]

end

/-- What a Gauss–Seidel sweep does to memory. -/
theorem run_gs {U R : Ptr} {rhs u : FImg F} (hn : 2 ≤ n) (hm : 2 ≤ m) (hU : HoldsF mem U n m u)
    (hR : HoldsF mem R n m rhs) (hs : Sep ((n * m : ℕ) : Int) U R) :
    (breg_anis_guass_seidel n m U R mu lambda).run mem
      = some ((), mem.setImg U n m (gsSweep n m mu lambda rhs u)) := by
  obtain ⟨n, rfl⟩ : ∃ n', n = n' + 2 := ⟨n - 2, by omega⟩
  obtain ⟨m, rfl⟩ : ∃ m', m = m' + 2 := ⟨m - 2, by omega⟩
  set S := gsState (n + 2) (m + 2) mu lambda rhs u with hS
  set M : ℕ → Mem F := fun k => mem.setImg U (n + 2) (m + 2) (S k) with hM
  have h0 : mem = M 0 := by rw [hM]; exact (Mem.setImg_self hU).symm
  have step : ∀ i j, j < m + 2 → M (i * (m + 2) + j + 1) = mem.setImg U (n + 2) (m + 2)
      (upd2 (S (i * (m + 2) + j)) i j (gsPix (n + 2) (m + 2) mu lambda rhs (S (i * (m + 2) + j)) i j)) := by
    intro i j hj; simp only [hM, hS]; rw [gsState_succ rhs u hj]
  have hU' := hU.1
  -- the nine kinds of pixels
  have tl : (gs2 U R (0 * ((m + 2 : ℕ) : Int) + 0) (0 * ((m + 2 : ℕ) : Int) + 0 + 1) ((0 + 1) * ((m + 2 : ℕ) : Int) + 0)
      lambda (gsInv mu lambda 2)).run (M 0) = some ((), M 1) := by
    have := step 0 0 (by omega)
    rw [show (0 * (m + 2) + 0 + 1) = 1 by omega] at this
    rw [this, hM]
    rw [run_gs2 (i := 0) (j := 0) (ia := 0) (ja := 1) (ib := 1) (jb := 0) hU' hR hs (by omega) (by omega) (by omega)
      (by omega) (by omega) (by omega) (by push_cast; ring) (by push_cast; ring) (by push_cast; ring)]
    simp [gsPix]
  have tr : (gs2 U R (0 * ((m + 2 : ℕ) : Int) + (((m + 2 : ℕ) : Int) - 1)) (0 * ((m + 2 : ℕ) : Int) + (((m + 2 : ℕ) : Int) - 1) - 1)
      ((0 + 1) * ((m + 2 : ℕ) : Int) + (((m + 2 : ℕ) : Int) - 1))
      lambda (gsInv mu lambda 2)).run (M (m + 1)) = some ((), M (m + 2)) := by
    have := step 0 (m + 1) (by omega)
    rw [show (0 * (m + 2) + (m + 1) + 1) = m + 2 by omega] at this
    rw [this, hM]
    rw [run_gs2 (i := 0) (j := m + 1) (ia := 0) (ja := m) (ib := 1) (jb := m + 1) hU' hR hs (by omega) (by omega) (by omega)
      (by omega) (by omega) (by omega) (by push_cast; ring) (by push_cast; ring) (by push_cast; ring)]
    simp [gsPix]
  have top : ∀ j : Int, 1 ≤ j → j < ((m + 2 : ℕ) : Int) - 1 →
      (gs3 U R (0 * ((m + 2 : ℕ) : Int) + j) (0 * ((m + 2 : ℕ) : Int) + j + 1) (0 * ((m + 2 : ℕ) : Int) + j - 1)
        ((0 + 1) * ((m + 2 : ℕ) : Int) + j) lambda (gsInv mu lambda 3)).run (M j.toNat) = some ((), M (j + 1).toNat) := by
    intro j h1 h2
    obtain ⟨k, rfl⟩ : ∃ k : ℕ, j = k + 1 := ⟨(j - 1).toNat, by omega⟩
    have := step 0 (k + 1) (by push_cast at h2; omega)
    rw [show (0 * (m + 2) + (k + 1) + 1) = k + 2 by omega] at this
    rw [show ((k : Int) + 1 + 1).toNat = k + 2 by omega, show ((k : Int) + 1).toNat = k + 1 by omega, this, hM]
    rw [run_gs3 (i := 0) (j := k + 1) (ia := 0) (ja := k + 2) (ib := 0) (jb := k) (id := 1) (jd := k + 1) hU' hR hs (by omega)
      (by push_cast at h2; omega) (by omega)
      (by push_cast at h2; omega) (by omega) (by push_cast at h2; omega) (by omega) (by push_cast at h2; omega)
      (by push_cast; ring) (by push_cast; ring) (by push_cast; ring) (by push_cast; ring)]
    have e : k ≠ m := by push_cast at h2; omega
    simp [gsPix, e]
  have ml : ∀ i : ℕ, 1 ≤ i → i < n + 1 →
      (gs3 U R ((i : Int) * ((m + 2 : ℕ) : Int) + 0) ((i : Int) * ((m + 2 : ℕ) : Int) + 0 + 1) (((i : Int) + 1) * ((m + 2 : ℕ) : Int) + 0)
        (((i : Int) - 1) * ((m + 2 : ℕ) : Int) + 0) lambda (gsInv mu lambda 3)).run (M (i * (m + 2)))
        = some ((), M (i * (m + 2) + 1)) := by
    intro i h1 h2
    obtain ⟨k, rfl⟩ : ∃ k : ℕ, i = k + 1 := ⟨i - 1, by omega⟩
    have := step (k + 1) 0 (by omega)
    rw [add_zero] at this
    rw [this, hM]
    rw [run_gs3 (i := k + 1) (j := 0) (ia := k + 1) (ja := 1) (ib := k + 2) (jb := 0) (id := k) (jd := 0) hU' hR hs (by omega)
      (by omega) (by omega) (by omega) (by omega) (by omega) (by omega) (by omega)
      (by push_cast; ring) (by push_cast; ring) (by push_cast; ring) (by push_cast; ring)]
    have e : k ≠ n := by omega
    simp [gsPix, e]
  have mr : ∀ i : ℕ, 1 ≤ i → i < n + 1 →
      (gs3 U R ((i : Int) * ((m + 2 : ℕ) : Int) + (((m + 2 : ℕ) : Int) - 1)) ((i : Int) * ((m + 2 : ℕ) : Int) + (((m + 2 : ℕ) : Int) - 1) - 1)
        (((i : Int) + 1) * ((m + 2 : ℕ) : Int) + (((m + 2 : ℕ) : Int) - 1))
        (((i : Int) - 1) * ((m + 2 : ℕ) : Int) + (((m + 2 : ℕ) : Int) - 1)) lambda (gsInv mu lambda 3)).run (M (i * (m + 2) + (m + 1)))
        = some ((), M ((i + 1) * (m + 2))) := by
    intro i h1 h2
    obtain ⟨k, rfl⟩ : ∃ k : ℕ, i = k + 1 := ⟨i - 1, by omega⟩
    have := step (k + 1) (m + 1) (by omega)
    rw [show (k + 1) * (m + 2) + (m + 1) + 1 = (k + 1 + 1) * (m + 2) by ring] at this
    rw [this, hM]
    rw [run_gs3 (i := k + 1) (j := m + 1) (ia := k + 1) (ja := m) (ib := k + 2) (jb := m + 1) (id := k) (jd := m + 1) hU' hR hs (by omega)
      (by omega) (by omega) (by omega) (by omega) (by omega) (by omega) (by omega)
      (by push_cast; ring) (by push_cast; ring) (by push_cast; ring) (by push_cast; ring)]
    have e : k ≠ n := by omega
    simp [gsPix, e]
  have mm : ∀ i : ℕ, 1 ≤ i → i < n + 1 → ∀ j : Int, 1 ≤ j → j < ((m + 2 : ℕ) : Int) - 1 →
      (gs4 U R ((i : Int) * ((m + 2 : ℕ) : Int) + j) ((i : Int) * ((m + 2 : ℕ) : Int) + j + 1) ((i : Int) * ((m + 2 : ℕ) : Int) + j - 1)
        (((i : Int) + 1) * ((m + 2 : ℕ) : Int) + j) (((i : Int) - 1) * ((m + 2 : ℕ) : Int) + j)
        lambda (gsInv mu lambda 4)).run (M (i * (m + 2) + j.toNat)) = some ((), M (i * (m + 2) + (j + 1).toNat)) := by
    intro i h1 h2 j h3 h4
    obtain ⟨k, rfl⟩ : ∃ k : ℕ, i = k + 1 := ⟨i - 1, by omega⟩
    obtain ⟨l, rfl⟩ : ∃ l : ℕ, j = l + 1 := ⟨(j - 1).toNat, by omega⟩
    have := step (k + 1) (l + 1) (by push_cast at h4; omega)
    rw [show ((l : Int) + 1 + 1).toNat = l + 1 + 1 by omega, show ((l : Int) + 1).toNat = l + 1 by omega,
      show (k + 1) * (m + 2) + (l + 1 + 1) = (k + 1) * (m + 2) + (l + 1) + 1 by ring]
    rw [this, hM]
    rw [run_gs4 (i := k + 1) (j := l + 1) (ia := k + 1) (ja := l + 2) (ib := k + 1) (jb := l) (id := k + 2) (jd := l + 1)
      (ie := k) (je := l + 1) hU' hR hs (by omega)
      (by push_cast at h4; omega) (by omega) (by push_cast at h4; omega) (by omega) (by push_cast at h4; omega) (by omega)
      (by push_cast at h4; omega) (by omega) (by push_cast at h4; omega)
      (by push_cast; ring) (by push_cast; ring) (by push_cast; ring) (by push_cast; ring) (by push_cast; ring)]
    have e : k ≠ n := by omega
    have e' : l ≠ m := by push_cast at h4; omega
    simp [gsPix, e, e']
  have bl : (gs2 U R ((((n + 2 : ℕ) : Int) - 1) * ((m + 2 : ℕ) : Int) + 0) ((((n + 2 : ℕ) : Int) - 1) * ((m + 2 : ℕ) : Int) + 0 + 1)
      ((((n + 2 : ℕ) : Int) - 1 - 1) * ((m + 2 : ℕ) : Int) + 0)
      lambda (gsInv mu lambda 2)).run (M ((n + 1) * (m + 2))) = some ((), M ((n + 1) * (m + 2) + 1)) := by
    have := step (n + 1) 0 (by omega)
    rw [add_zero] at this
    rw [this, hM]
    rw [run_gs2 (i := n + 1) (j := 0) (ia := n + 1) (ja := 1) (ib := n) (jb := 0) hU' hR hs (by omega) (by omega) (by omega)
      (by omega) (by omega) (by omega) (by push_cast; ring) (by push_cast; ring) (by push_cast; ring)]
    simp [gsPix]
  have bot : ∀ j : Int, 1 ≤ j → j < ((m + 2 : ℕ) : Int) - 1 →
      (gs3 U R ((((n + 2 : ℕ) : Int) - 1) * ((m + 2 : ℕ) : Int) + j) ((((n + 2 : ℕ) : Int) - 1) * ((m + 2 : ℕ) : Int) + j + 1)
        ((((n + 2 : ℕ) : Int) - 1) * ((m + 2 : ℕ) : Int) + j - 1)
        ((((n + 2 : ℕ) : Int) - 1 - 1) * ((m + 2 : ℕ) : Int) + j) lambda (gsInv mu lambda 3)).run (M ((n + 1) * (m + 2) + j.toNat))
        = some ((), M ((n + 1) * (m + 2) + (j + 1).toNat)) := by
    intro j h3 h4
    obtain ⟨l, rfl⟩ : ∃ l : ℕ, j = l + 1 := ⟨(j - 1).toNat, by omega⟩
    have := step (n + 1) (l + 1) (by push_cast at h4; omega)
    rw [show ((l : Int) + 1 + 1).toNat = l + 1 + 1 by omega, show ((l : Int) + 1).toNat = l + 1 by omega,
      show (n + 1) * (m + 2) + (l + 1 + 1) = (n + 1) * (m + 2) + (l + 1) + 1 by ring]
    rw [this, hM]
    rw [run_gs3 (i := n + 1) (j := l + 1) (ia := n + 1) (ja := l + 2) (ib := n + 1) (jb := l) (id := n) (jd := l + 1)
      hU' hR hs (by omega)
      (by push_cast at h4; omega) (by omega) (by push_cast at h4; omega) (by omega) (by push_cast at h4; omega) (by omega)
      (by push_cast at h4; omega)
      (by push_cast; ring) (by push_cast; ring) (by push_cast; ring) (by push_cast; ring)]
    have e' : l ≠ m := by push_cast at h4; omega
    simp [gsPix, e']
  have br : (gs2 U R ((((n + 2 : ℕ) : Int) - 1) * ((m + 2 : ℕ) : Int) + (((m + 2 : ℕ) : Int) - 1))
      ((((n + 2 : ℕ) : Int) - 1) * ((m + 2 : ℕ) : Int) + (((m + 2 : ℕ) : Int) - 1) - 1)
      ((((n + 2 : ℕ) : Int) - 1 - 1) * ((m + 2 : ℕ) : Int) + (((m + 2 : ℕ) : Int) - 1))
      lambda (gsInv mu lambda 2)).run (M ((n + 1) * (m + 2) + (m + 1))) = some ((), M ((n + 2) * (m + 2))) := by
    have := step (n + 1) (m + 1) (by omega)
    rw [show (n + 1) * (m + 2) + (m + 1) + 1 = (n + 2) * (m + 2) by ring] at this
    rw [this, hM]
    rw [run_gs2 (i := n + 1) (j := m + 1) (ia := n + 1) (ja := m) (ib := n) (jb := m + 1) hU' hR hs (by omega) (by omega) (by omega)
      (by omega) (by omega) (by omega) (by push_cast; ring) (by push_cast; ring) (by push_cast; ring)]
    simp [gsPix]
  -- the three loops
  have ltop := run_forUp 1 (((m + 2 : ℕ) : Int) - 1) (fun j => gs3 U R (0 * ((m + 2 : ℕ) : Int) + j) (0 * ((m + 2 : ℕ) : Int) + j + 1)
      (0 * ((m + 2 : ℕ) : Int) + j - 1) ((0 + 1) * ((m + 2 : ℕ) : Int) + j) lambda (gsInv mu lambda 3)) (fun j => M j.toNat) top
      (by push_cast; omega)
  have lrow := fun (i : ℕ) h1 h2 => run_forUp 1 (((m + 2 : ℕ) : Int) - 1) (fun j => gs4 U R ((i : Int) * ((m + 2 : ℕ) : Int) + j)
      ((i : Int) * ((m + 2 : ℕ) : Int) + j + 1) ((i : Int) * ((m + 2 : ℕ) : Int) + j - 1)
      (((i : Int) + 1) * ((m + 2 : ℕ) : Int) + j) (((i : Int) - 1) * ((m + 2 : ℕ) : Int) + j) lambda (gsInv mu lambda 4))
      (fun j => M (i * (m + 2) + j.toNat)) (mm i h1 h2) (by push_cast; omega)
  have lbot := run_forUp 1 (((m + 2 : ℕ) : Int) - 1) (fun j => gs3 U R ((((n + 2 : ℕ) : Int) - 1) * ((m + 2 : ℕ) : Int) + j)
      ((((n + 2 : ℕ) : Int) - 1) * ((m + 2 : ℕ) : Int) + j + 1)
      ((((n + 2 : ℕ) : Int) - 1) * ((m + 2 : ℕ) : Int) + j - 1) ((((n + 2 : ℕ) : Int) - 1 - 1) * ((m + 2 : ℕ) : Int) + j)
      lambda (gsInv mu lambda 3)) (fun j => M ((n + 1) * (m + 2) + j.toNat)) bot (by push_cast; omega)
  have e1 : (((m + 2 : ℕ) : Int) - 1).toNat = m + 1 := by omega
  have lmid := run_forUp 1 (((n + 2 : ℕ) : Int) - 1) (fun i => do
      gs3 U R (i * ((m + 2 : ℕ) : Int) + 0) (i * ((m + 2 : ℕ) : Int) + 0 + 1) ((i + 1) * ((m + 2 : ℕ) : Int) + 0)
        ((i - 1) * ((m + 2 : ℕ) : Int) + 0) lambda (gsInv mu lambda 3)
      forUp 1 (((m + 2 : ℕ) : Int) - 1) fun j =>
        gs4 U R (i * ((m + 2 : ℕ) : Int) + j) (i * ((m + 2 : ℕ) : Int) + j + 1) (i * ((m + 2 : ℕ) : Int) + j - 1)
          ((i + 1) * ((m + 2 : ℕ) : Int) + j) ((i - 1) * ((m + 2 : ℕ) : Int) + j) lambda (gsInv mu lambda 4)
      gs3 U R (i * ((m + 2 : ℕ) : Int) + (((m + 2 : ℕ) : Int) - 1)) (i * ((m + 2 : ℕ) : Int) + (((m + 2 : ℕ) : Int) - 1) - 1)
        ((i + 1) * ((m + 2 : ℕ) : Int) + (((m + 2 : ℕ) : Int) - 1))
        ((i - 1) * ((m + 2 : ℕ) : Int) + (((m + 2 : ℕ) : Int) - 1)) lambda (gsInv mu lambda 3))
      (fun i => M (i.toNat * (m + 2))) (fun i h1 h2 => by
        obtain ⟨k, rfl⟩ : ∃ k : ℕ, i = k := ⟨i.toNat, by omega⟩
        have g1 : 1 ≤ k := by omega
        have g2 : k < n + 1 := by push_cast at h2; omega
        have l := lrow k g1 g2
        simp only [e1, Int.toNat_one] at l
        simp only [run_bind, Int.toNat_natCast, ml k g1 g2, Option.bind_some, l, mr k g1 g2,
          show ((k : Int) + 1).toNat = k + 1 by omega]) (by push_cast; omega)
  have e2 : (((n + 2 : ℕ) : Int) - 1).toNat = n + 1 := by omega
  simp only [e1, e2, Int.toNat_one, one_mul] at ltop lbot lmid
  unfold gsSweep
  show _ = some ((), M ((n + 2) * (m + 2)))
  rw [h0]
  unfold breg_anis_guass_seidel
  simp only [gsInv] at *
  simp only [run_bind, tl, Option.bind_some, ltop, tr, lmid, bl, lbot, br]


/-! ### Jacobi -/

omit [Scalar F] in
theorem mix_step (mem : Mem F) (U : Ptr) (A B : FImg F) {i j : ℕ} (hj : j < m) :
    mem.setImg U n m (upd2 (fun a b => if a * m + b < i * m + j then B a b else A a b) i j (B i j))
      = mem.setImg U n m (fun a b => if a * m + b < i * m + j + 1 then B a b else A a b) := by
  apply Mem.setImg_congr
  intro a _ b hb
  unfold upd2
  by_cases h : a = i ∧ b = j
  · obtain ⟨rfl, rfl⟩ := h; simp
  · rw [if_neg h]
    beta_reduce
    have : a * m + b ≠ i * m + j := by
      intro e
      have hm : 0 < m := by omega
      have e1 : (a * m + b) / m = a := by rw [mul_comm, Nat.mul_add_div hm, Nat.div_eq_of_lt hb, add_zero]
      have e2 : (i * m + j) / m = i := by rw [mul_comm, Nat.mul_add_div hm, Nat.div_eq_of_lt hj, add_zero]
      have : a = i := by rw [← e1, ← e2, e]
      subst this
      exact h ⟨rfl, by omega⟩
    by_cases h2 : a * m + b < i * m + j
    · rw [if_pos h2, if_pos (by omega)]
    · rw [if_neg h2, if_neg (by omega)]

omit [Scalar F] in
theorem mix_zero (mem : Mem F) (U : Ptr) (A B : FImg F) :
    mem.setImg U n m (fun a b => if a * m + b < 0 then B a b else A a b) = mem.setImg U n m A := by
  simp

omit [Scalar F] in
theorem mix_end (mem : Mem F) (U : Ptr) (A B : FImg F) :
    mem.setImg U n m (fun a b => if a * m + b < n * m then B a b else A a b) = mem.setImg U n m B := by
  apply Mem.setImg_congr
  intro a ha b hb
  rw [if_pos (idx_bound ha hb)]

/-- number of neighbours of a pixel -/
def nbCount (n m : ℕ) (i j : ℕ) : ℚ :=
  if (i = 0 ∨ i + 1 = n) ∧ (j = 0 ∨ j + 1 = m) then 2
  else if (i = 0 ∨ i + 1 = n) ∨ (j = 0 ∨ j + 1 = m) then 3 else 4

/-- what `hess_inv_diag` stores -/
def diagF (n m : ℕ) (mu lambda : F) : FImg F := fun i j => gsInv mu lambda (nbCount n m i j)

/-- What `hess_inv_diag` does to memory. -/
theorem run_hess_inv_diag {D : Ptr} (hn : 2 ≤ n) (hm : 2 ≤ m) (hD : mem.Has D ((n * m : ℕ) : Int)) :
    (hess_inv_diag n m mu lambda D).run mem = some ((), mem.setImg D n m (diagF n m mu lambda)) := by
  obtain ⟨n, rfl⟩ : ∃ n', n = n' + 2 := ⟨n - 2, by omega⟩
  obtain ⟨m, rfl⟩ : ∃ m', m = m' + 2 := ⟨m - 2, by omega⟩
  set A : FImg F := mem.pix D (m + 2) with hA
  have h0 : mem.setImg D (n + 2) (m + 2) A = mem := Mem.setImg_self ⟨hD, fun _ _ _ _ => rfl⟩
  set M : ℕ → Mem F := fun k => mem.setImg D (n + 2) (m + 2)
    (fun a b => if a * (m + 2) + b < k then diagF (n + 2) (m + 2) mu lambda a b else A a b) with hM
  have step : ∀ i j : ℕ, i < n + 2 → j < m + 2 → ∀ p : Int, p = ((i * (m + 2) + j : ℕ) : Int) → ∀ v : F,
      v = diagF (n + 2) (m + 2) mu lambda i j →
      (store (D + p) v).run (M (i * (m + 2) + j)) = some ((), M (i * (m + 2) + j + 1)) := by
    intro i j hi hj p hp v hv
    subst hv
    rw [hM]; beta_reduce
    rw [store_img hD hi hj hp, mix_step _ _ _ _ hj]
  have tl := step 0 0 (by omega) (by omega) 0 (by simp) (gsInv mu lambda 2) (by simp [diagF, nbCount])
  have tr := step 0 (m + 1) (by omega) (by omega) (((m + 2 : ℕ) : Int) - 1) (by push_cast; ring) (gsInv mu lambda 2)
    (by simp [diagF, nbCount])
  have bl := step (n + 1) 0 (by omega) (by omega) ((((n + 2 : ℕ) : Int) - 1) * ((m + 2 : ℕ) : Int)) (by push_cast; ring)
    (gsInv mu lambda 2) (by simp [diagF, nbCount])
  have br := step (n + 1) (m + 1) (by omega) (by omega) (((m + 2 : ℕ) : Int) * ((n + 2 : ℕ) : Int) - 1) (by push_cast; ring)
    (gsInv mu lambda 2) (by simp [diagF, nbCount])
  have ltop := run_forUp 1 (((m + 2 : ℕ) : Int) - 1) (fun j => store (D + (0 * ((m + 2 : ℕ) : Int) + j)) (gsInv mu lambda 3))
    (fun j => M j.toNat) (fun j h1 h2 => by
      obtain ⟨l, rfl⟩ : ∃ l : ℕ, j = l + 1 := ⟨(j - 1).toNat, by omega⟩
      have e' : l ≠ m := by push_cast at h2; omega
      have := step 0 (l + 1) (by omega) (by push_cast at h2; omega) (0 * ((m + 2 : ℕ) : Int) + ((l : Int) + 1)) (by push_cast; ring)
        (gsInv mu lambda 3) (by simp [diagF, nbCount, e'])
      rw [show ((l : Int) + 1 + 1).toNat = 0 * (m + 2) + (l + 1) + 1 by omega, show ((l : Int) + 1).toNat = 0 * (m + 2) + (l + 1) by omega]
      exact this) (by push_cast; omega)
  have lrow : ∀ i : ℕ, 1 ≤ i → i < n + 1 → _ := fun (i : ℕ) g1 g2 => run_forUp 1 (((m + 2 : ℕ) : Int) - 1)
    (fun j => store (D + ((i : Int) * ((m + 2 : ℕ) : Int) + j)) (gsInv mu lambda 4))
    (fun j => M (i * (m + 2) + j.toNat)) (fun j h1 h2 => by
      obtain ⟨l, rfl⟩ : ∃ l : ℕ, j = l + 1 := ⟨(j - 1).toNat, by omega⟩
      have e' : l ≠ m := by push_cast at h2; omega
      have e1 : i ≠ 0 := by omega
      have e2 : i ≠ n + 1 := by omega
      have := step i (l + 1) (by omega) (by push_cast at h2; omega) ((i : Int) * ((m + 2 : ℕ) : Int) + ((l : Int) + 1)) (by push_cast; ring)
        (gsInv mu lambda 4) (by simp [diagF, nbCount, e', e1, e2])
      rw [show ((l : Int) + 1 + 1).toNat = (l + 1) + 1 by omega, show ((l : Int) + 1).toNat = (l + 1) by omega]
      exact this) (by push_cast; omega)
  have e1 : (((m + 2 : ℕ) : Int) - 1).toNat = m + 1 := by omega
  have e2 : (((n + 2 : ℕ) : Int) - 1).toNat = n + 1 := by omega
  have lmid := run_forUp 1 (((n + 2 : ℕ) : Int) - 1) (fun k => do
      store (D + k * ((m + 2 : ℕ) : Int)) (gsInv mu lambda 3)
      forUp 1 (((m + 2 : ℕ) : Int) - 1) fun j => store (D + (k * ((m + 2 : ℕ) : Int) + j)) (gsInv mu lambda 4)
      store (D + (k * ((m + 2 : ℕ) : Int) + max 1 (((m + 2 : ℕ) : Int) - 1))) (gsInv mu lambda 3))
      (fun i => M (i.toNat * (m + 2))) (fun i h1 h2 => by
        obtain ⟨k, rfl⟩ : ∃ k : ℕ, i = k := ⟨i.toNat, by omega⟩
        have g1 : 1 ≤ k := by omega
        have g2 : k < n + 1 := by push_cast at h2; omega
        have l := lrow k g1 g2
        have e3 : k ≠ 0 := by omega
        have e4 : k ≠ n + 1 := by omega
        have a := step k 0 (by omega) (by omega) ((k : Int) * ((m + 2 : ℕ) : Int)) (by push_cast; ring) (gsInv mu lambda 3)
          (by simp [diagF, nbCount, e3, e4])
        have b := step k (m + 1) (by omega) (by omega) ((k : Int) * ((m + 2 : ℕ) : Int) + max 1 (((m + 2 : ℕ) : Int) - 1))
          (by rw [max_eq_right (by push_cast; omega)]; push_cast; ring) (gsInv mu lambda 3)
          (by simp [diagF, nbCount, e3, e4])
        rw [show k * (m + 2) + (m + 1) + 1 = (k + 1) * (m + 2) by ring] at b
        simp only [e1, Int.toNat_one] at l
        simp only [add_zero] at a
        simp only [run_bind, Int.toNat_natCast, a, Option.bind_some, l, b,
          show ((k : Int) + 1).toNat = k + 1 by omega]) (by push_cast; omega)
  have lbot := run_forUp ((((n + 2 : ℕ) : Int) - 1) * ((m + 2 : ℕ) : Int) + 1) (((m + 2 : ℕ) : Int) * ((n + 2 : ℕ) : Int) - 1)
    (fun j => store (D + j) (gsInv mu lambda 3)) (fun j => M j.toNat) (fun j h1 h2 => by
      obtain ⟨l, rfl⟩ : ∃ l : ℕ, j = (((n + 1) * (m + 2) + (l + 1) : ℕ) : Int) :=
        ⟨(j - ((((n + 2 : ℕ) : Int) - 1) * ((m + 2 : ℕ) : Int) + 1)).toNat, by
          push_cast at *; rw [Int.toNat_of_nonneg (by linarith)]; ring⟩
      have h2' : l + 1 < m + 1 := by
        push_cast at h2
        have : ((m : Int) + 2) * (n + 2) - 1 = (n + 1) * (m + 2) + (m + 1) := by ring
        rw [this] at h2
        have := (add_lt_add_iff_left _).1 h2
        omega
      have e' : l ≠ m := by omega
      have := step (n + 1) (l + 1) (by omega) (by omega) (((n + 1) * (m + 2) + (l + 1) : ℕ) : Int) rfl
        (gsInv mu lambda 3) (by simp [diagF, nbCount, e'])
      rw [show ((((n + 1) * (m + 2) + (l + 1) : ℕ) : Int) + 1).toNat = (n + 1) * (m + 2) + (l + 1) + 1 by omega, Int.toNat_natCast]
      exact this) (by push_cast; nlinarith)
  have e3 : ((((n + 2 : ℕ) : Int) - 1) * ((m + 2 : ℕ) : Int) + 1) = (((n + 1) * (m + 2) + 1 : ℕ) : Int) := by push_cast; ring
  have e4 : (((m + 2 : ℕ) : Int) * ((n + 2 : ℕ) : Int) - 1).toNat = (n + 1) * (m + 2) + (m + 1) := by
    have : ((m + 2 : ℕ) : Int) * ((n + 2 : ℕ) : Int) - 1 = (((n + 1) * (m + 2) + (m + 1) : ℕ) : Int) := by push_cast; ring
    rw [this, Int.toNat_natCast]
  rw [e3] at lbot
  simp only [e4, Int.toNat_natCast] at lbot
  rw [← e3] at lbot
  simp only [e1, e2, Int.toNat_one, one_mul, zero_mul, zero_add] at ltop lmid tl tr bl br
  simp only [add_zero] at bl
  have hend : M ((n + 2) * (m + 2)) = mem.setImg D (n + 2) (m + 2) (diagF (n + 2) (m + 2) mu lambda) := mix_end _ _ _ _
  have hstart : M 0 = mem := by rw [hM]; beta_reduce; rw [mix_zero, h0]
  rw [← hend]
  rw [show (n + 1) * (m + 2) + (m + 1) + 1 = (n + 2) * (m + 2) by ring] at br
  rw [← hstart]
  unfold hess_inv_diag
  simp only [gsInv] at *
  simp only [zero_mul, zero_add, run_bind, tl, Option.bind_some, ltop, tr, lmid, bl, lbot, br, show m + 1 + 1 = m + 2 from rfl]

/-- `dwork` after the first loop of `breg_anis_jacobi` -/
def jacW1 (n : ℕ) (lambda : F) (rhs u : FImg F) : FImg F := fun i j =>
  rhs i j - lambda * (-(if i = 0 then lit 0 else u (i - 1) j) - (if i + 1 < n then u (i + 1) j else lit 0))

/-- `dwork` after the second loop -/
def jacW2 (n m : ℕ) (lambda : F) (rhs u : FImg F) : FImg F := fun i j =>
  if j = 0 then jacW1 n lambda rhs u i j + lambda * u i (j + 1)
  else if j + 1 = m then jacW1 n lambda rhs u i j + -lambda * (-u i (j - 1))
  else jacW1 n lambda rhs u i j + -lambda * (-u i (j - 1) - u i (j + 1))

/-- What a Jacobi sweep does to memory. -/
theorem kspec_jacobi {U W R D : Ptr} {rhs u d : FImg F} (hn : 1 ≤ n) (hm : 2 ≤ m) (hfit : FitsInt ((n : Int) * m))
    (hU : HoldsF mem U n m u)
    (hR : HoldsF mem R n m rhs) (hD : HoldsF mem D n m d) (hW : mem.Has W ((n * m : ℕ) : Int))
    (hWU : Sep ((n * m : ℕ) : Int) W U) (hWR : Sep ((n * m : ℕ) : Int) W R) (hWD : Sep ((n * m : ℕ) : Int) W D)
    (hUD : Sep ((n * m : ℕ) : Int) U D) :
    KSpec (breg_anis_jacobi n m U W R D lambda) mem
      ((mem.setImg W n m (jacW2 n m lambda rhs u)).setImg U n m fun i j => d i j * jacW2 n m lambda rhs u i j) := by
  have hin : ∀ {i j : ℕ}, i < n → j < m → ∀ {p : Int}, p = ((i * m + j : ℕ) : Int) → ∀ B : FImg F,
      (load (U + p) : Prog F F).run (mem.setImg W n m B) = some (u i j, mem.setImg W n m B) :=
    fun hi hj p hp B => load_rhs hU hWU hi hj hp
  have hir : ∀ {i j : ℕ}, i < n → j < m → ∀ {p : Int}, p = ((i * m + j : ℕ) : Int) → ∀ B : FImg F,
      (load (R + p) : Prog F F).run (mem.setImg W n m B) = some (rhs i j, mem.setImg W n m B) :=
    fun hi hj p hp B => load_rhs hR hWR hi hj hp
  set A : FImg F := mem.pix W m with hA
  have h0 : mem.setImg W n m A = mem := Mem.setImg_self ⟨hW, fun _ _ _ _ => rfl⟩
  have enm : (n : Int) * m = ((n * m : ℕ) : Int) := by push_cast; rfl
  -- first loop
  have l1 := run_forUp 0 ((n : Int) * m) (fun i => do
      let ui_min_m ← (if i < (m : Int) then pure (lit 0) else load (U + (i - (m : Int))) : Prog F F)
      let ui_p_m ← (if i < (n : Int) * m - m then load (U + (i + (m : Int))) else pure (lit 0) : Prog F F)
      let r ← load (R + i)
      store (W + i) (r - lambda * (-ui_min_m - ui_p_m)))
      (fun k => mem.setImg W n m (fun a b => if a * m + b < k.toNat then jacW1 n lambda rhs u a b else A a b))
      (fun k h1 h2 => by
        rw [enm] at h2
        have hk : k.toNat < n * m := by omega
        have hm0 : 0 < m := by omega
        obtain ⟨i, j, hi, hj, hij⟩ : ∃ i j, i < n ∧ j < m ∧ k.toNat = i * m + j :=
          ⟨k.toNat / m, k.toNat % m, by rw [Nat.div_lt_iff_lt_mul hm0]; exact hk, Nat.mod_lt _ hm0, (Nat.div_add_mod' _ _).symm⟩
        have hk' : k = ((i * m + j : ℕ) : Int) := by omega
        rw [show (k + 1).toNat = i * m + j + 1 by omega, hij]
        have hc1 : k < (m : Int) ↔ i = 0 := by
          rw [hk']; push_cast
          constructor
          · intro h
            by_contra hne
            have : (m : Int) ≤ i * m := by
              have : 1 * m ≤ i * m := Nat.mul_le_mul_right m (by omega)
              rw [one_mul] at this; exact_mod_cast this
            omega
          · rintro rfl; simp; exact hj
        have hc2 : k < (n : Int) * m - m ↔ i + 1 < n := by
          rw [hk']; push_cast
          constructor
          · intro h
            by_contra hne
            have : i + 1 = n := by omega
            subst this
            push_cast at h
            have : ((i : Int) + 1) * m - m = i * m := by ring
            omega
          · intro h
            have : ((i + 2) * m : ℕ) ≤ n * m := Nat.mul_le_mul_right m (by omega)
            have h' : ((i : Int) + 2) * m ≤ n * m := by exact_mod_cast this
            have e : ((i : Int) + 2) * m = i * m + m + m := by ring
            omega
        have r1 : ((if k < (m : Int) then pure (lit 0) else load (U + (k - (m : Int))) : Prog F F)).run (mem.setImg W n m
            (fun a b => if a * m + b < i * m + j then jacW1 n lambda rhs u a b else A a b)) = some (if i = 0 then lit 0 else u (i - 1) j,
            mem.setImg W n m (fun a b => if a * m + b < i * m + j then jacW1 n lambda rhs u a b else A a b)) := by
          by_cases h : i = 0
          · rw [if_pos (hc1.2 h), if_pos h]; rfl
          · rw [if_neg (fun c => h (hc1.1 c)), if_neg h]
            obtain ⟨i, rfl⟩ : ∃ i', i = i' + 1 := ⟨i - 1, by omega⟩
            exact hin (i := i) (by omega) hj (by rw [hk']; push_cast; ring) _
        have r2 : ((if k < (n : Int) * m - m then load (U + (k + (m : Int))) else pure (lit 0) : Prog F F)).run (mem.setImg W n m
            (fun a b => if a * m + b < i * m + j then jacW1 n lambda rhs u a b else A a b)) = some (if i + 1 < n then u (i + 1) j else lit 0,
            mem.setImg W n m (fun a b => if a * m + b < i * m + j then jacW1 n lambda rhs u a b else A a b)) := by
          by_cases h : i + 1 < n
          · rw [if_pos (hc2.2 h), if_pos h]
            exact hin h hj (by rw [hk']; push_cast; ring) _
          · rw [if_neg (fun c => h (hc2.1 c)), if_neg h]; rfl
        simp only [run_bind, r1, r2, Option.bind_some, hir hi hj hk']
        rw [store_img hW hi hj hk']
        rw [show (rhs i j - lambda * (-(if i = 0 then lit 0 else u (i - 1) j) - (if i + 1 < n then u (i + 1) j else lit 0)))
          = jacW1 n lambda rhs u i j from rfl, mix_step _ _ _ _ hj]) (by positivity)
  rw [enm] at l1
  simp only [Int.toNat_natCast, Int.toNat_zero] at l1
  rw [mix_zero, mix_end, h0] at l1
  -- second loop
  set B := jacW1 n lambda rhs u with hB
  set C := jacW2 n m lambda rhs u with hC
  set M : ℕ → Mem F := fun k => mem.setImg W n m (fun a b => if a * m + b < k then C a b else B a b) with hM
  have rdW : ∀ {i j : ℕ}, i < n → j < m → ∀ {p : Int}, p = ((i * m + j : ℕ) : Int) →
      (load (W + p) : Prog F F).run (M (i * m + j)) = some (B i j, M (i * m + j)) := by
    intro i j hi hj p hp
    rw [hM]; beta_reduce
    rw [load_img hW hi hj hp]
    simp
  have wrW : ∀ {i j : ℕ}, i < n → j < m → ∀ {p : Int}, p = ((i * m + j : ℕ) : Int) → ∀ v, v = C i j →
      (store (W + p) v).run (M (i * m + j)) = some ((), M (i * m + j + 1)) := by
    intro i j hi hj p hp v hv
    subst hv
    rw [hM]; beta_reduce
    rw [store_img hW hi hj hp, mix_step _ _ _ _ hj]
  have rdU : ∀ {i j : ℕ}, i < n → j < m → ∀ {p : Int}, p = ((i * m + j : ℕ) : Int) → ∀ k,
      (load (U + p) : Prog F F).run (M k) = some (u i j, M k) := fun hi hj p hp k => hin hi hj hp _
  have lrow : ∀ i : ℕ, i < n → _ := fun (i : ℕ) hi => run_forUp ((i : Int) * m + 1) (((i : Int) + 1) * m - 1) (fun j => do
        let d ← load (W + j)
        let a ← load (U + (j - 1))
        let b ← load (U + (j + 1))
        store (W + j) (d + -lambda * (-a - b))) (fun j => M j.toNat) (fun j h1 h2 => by
      obtain ⟨l, rfl⟩ : ∃ l : ℕ, j = ((i * m + (l + 1) : ℕ) : Int) := ⟨(j - ((i : Int) * m + 1)).toNat, by
          push_cast at *; rw [Int.toNat_of_nonneg (by linarith)]; ring⟩
      have h2' : l + 2 < m := by
        push_cast at h2
        have : ((i : Int) + 1) * m - 1 = i * m + (m - 1) := by ring
        rw [this] at h2
        have := (add_lt_add_iff_left _).1 h2
        omega
      rw [show (((i * m + (l + 1) : ℕ) : Int) + 1).toNat = i * m + (l + 1) + 1 by omega, Int.toNat_natCast]
      simp only [run_bind, rdW hi (show l + 1 < m by omega) rfl, Option.bind_some,
        rdU hi (show l < m by omega) (p := ((i * m + (l + 1) : ℕ) : Int) - 1) (by push_cast; ring),
        rdU hi (show l + 2 < m by omega) (p := ((i * m + (l + 1) : ℕ) : Int) + 1) (by push_cast; ring)]
      refine wrW hi (by omega) rfl _ ?_
      have e : l + 1 + 1 ≠ m := by omega
      simp [hC, jacW2, e, hB]) (by
        have : ((i : Int) + 1) * m = i * m + m := by ring
        omega)
  have l2 := run_forUp 0 (n : Int) (fun i => do
      let d ← load (W + i * (m : Int))
      let r ← load (U + (i * (m : Int) + 1))
      store (W + i * (m : Int)) (d + lambda * r)
      forUp (i * (m : Int) + 1) ((i + 1) * (m : Int) - 1) fun j => do
        let d ← load (W + j)
        let a ← load (U + (j - 1))
        let b ← load (U + (j + 1))
        store (W + j) (d + -lambda * (-a - b))
      let j := max (i * (m : Int) + 1) ((i + 1) * (m : Int) - 1)
      let d ← load (W + j)
      let a ← load (U + (j - 1))
      store (W + j) (d + -lambda * (-a))) (fun i => M (i.toNat * m)) (fun i h1 h2 => by
    obtain ⟨k, rfl⟩ : ∃ k : ℕ, i = k := ⟨i.toNat, by omega⟩
    have hk : k < n := by omega
    have l := lrow k hk
    have e1 : ((k : Int) * m + 1).toNat = k * m + 1 := by
      rw [show ((k : Int) * m + 1) = ((k * m + 1 : ℕ) : Int) by push_cast; ring, Int.toNat_natCast]
    have e2 : (((k : Int) + 1) * m - 1) = ((k * m + (m - 1) : ℕ) : Int) := by
      push_cast [Nat.cast_sub (show 1 ≤ m by omega)]; ring
    rw [e1, e2, Int.toNat_natCast, ← e2] at l
    have e3 : max ((k : Int) * m + 1) (((k : Int) + 1) * m - 1) = ((k * m + (m - 1) : ℕ) : Int) := by
      rw [e2, max_eq_right]; rw [show (k : Int) * m + 1 = ((k * m + 1 : ℕ) : Int) by push_cast; ring]; exact_mod_cast (by omega : k * m + 1 ≤ k * m + (m - 1))
    have rd0 := rdW hk (show 0 < m by omega) (p := (k : Int) * m) (by push_cast; ring)
    have wr0 := wrW hk (show 0 < m by omega) (p := (k : Int) * m) (by push_cast; ring) (B k 0 + lambda * u k 1) (by
      simp [hC, jacW2, hB])
    rw [add_zero] at rd0 wr0
    have wre := wrW hk (show m - 1 < m by omega) (p := ((k * m + (m - 1) : ℕ) : Int)) rfl
      (B k (m - 1) + -lambda * (-u k (m - 2))) (by
        have g1 : m - 1 ≠ 0 := by omega
        have g2 : m - 1 + 1 = m := by omega
        have g3 : m - 1 - 1 = m - 2 := by omega
        simp [hC, jacW2, hB, g1, g2, g3])
    rw [show k * m + (m - 1) + 1 = (k + 1) * m by
      have : (k + 1) * m = k * m + m := by ring
      omega] at wre
    simp only [run_bind, Int.toNat_natCast, rd0, Option.bind_some, rdU hk (show 1 < m by omega) (p := (k : Int) * m + 1) (by push_cast; ring),
      wr0, l, e3, rdW hk (show m - 1 < m by omega) (p := ((k * m + (m - 1) : ℕ) : Int)) rfl,
      rdU hk (show m - 2 < m by omega) (p := ((k * m + (m - 1) : ℕ) : Int) - 1) (by
        push_cast [Nat.cast_sub (show 1 ≤ m by omega), Nat.cast_sub (show 2 ≤ m by omega)]; ring),
      wre, show ((k : Int) + 1).toNat = k + 1 by omega]) (by positivity)
  simp only [Int.toNat_zero, zero_mul, Int.toNat_natCast] at l2
  have hz : M 0 = mem.setImg W n m B := mix_zero _ _ _ _
  have he : M (n * m) = mem.setImg W n m C := mix_end _ _ _ _
  rw [hz, he] at l2
  rw [← enm] at l1
  refine KSpec.append (m₁ := mem.setImg W n m C) (kspec_seq ?_) ?_
  · simp only [run_bind, run_assert hfit, Option.bind_some, l1, l2]
  · exact kspec_img2 (· * ·) (hD.setImg hWD) (holdsF_setImg hW) hU.1 hUD.noCross hWU.symm.noCross

/-- What `breg_hess_eval` does to memory. -/
theorem kspec_hess_eval {X Y W1 W2 : Ptr} {x : FImg F} (hn : 1 ≤ n) (hm : 2 ≤ m) (hfit : FitsInt ((n : Int) * m))
    (hX : HoldsF mem X n m x) (hY : mem.Has Y ((n * m : ℕ) : Int)) (h1 : mem.Has W1 ((n * m : ℕ) : Int))
    (h2 : mem.Has W2 ((n * m : ℕ) : Int))
    (s1X : Sep ((n * m : ℕ) : Int) W1 X) (s2X : Sep ((n * m : ℕ) : Int) W2 X) (s12 : Sep ((n * m : ℕ) : Int) W2 W1)
    (sYX : NoCross ((n * m : ℕ) : Int) Y X) (sY1 : Sep ((n * m : ℕ) : Int) Y W1) (sY2 : Sep ((n * m : ℕ) : Int) Y W2) :
    KSpec (breg_hess_eval n m X Y mu lambda W1 W2) mem
      (((mem.setImg W1 n m (dCol2 (lit 1) n x)).setImg W2 n m (fun i j => dRow2 (lit 1) m (x i) j)).setImg Y n m
        fun i j => mu * x i j + lambda * dCol2 (lit 1) n x i j + lambda * dRow2 (lit 1) m (x i) j) := by
  unfold breg_hess_eval
  have a : KSpec (l1c_DyTDy n m (lit 1) X W1) mem (mem.setImg W1 n m (dCol2 (lit 1) n x)) := by
    have := kspec_DyTDy (alpha := (lit 1 : F)) hfit hX.1 h1 s1X
    rwa [Mem.setImg_congr _ _ _ _ _ (dCol2 (lit 1) n x)] at this
    intro i hi j hj
    unfold dCol2
    rw [hX.2 i hi j hj]
    have e1 : (if i = 0 then (lit 0 : F) else mem.pix X m (i - 1) j) = if i = 0 then lit 0 else x (i - 1) j := by
      split
      · rfl
      · exact hX.2 _ (by omega) j hj
    have e2 : (if i + 1 < n then mem.pix X m (i + 1) j else (lit 0 : F)) = if i + 1 < n then x (i + 1) j else lit 0 := by
      split
      · exact hX.2 _ (by omega) j hj
      · rfl
    rw [e1, e2]
  have hX1 := hX.setImg (B := dCol2 (lit 1) n x) s1X
  have b : KSpec (l1c_DxTDx n m (lit 1) X W2) (mem.setImg W1 n m (dCol2 (lit 1) n x))
      ((mem.setImg W1 n m (dCol2 (lit 1) n x)).setImg W2 n m (fun i j => dRow2 (lit 1) m (x i) j)) := by
    have := kspec_DxTDx (alpha := (lit 1 : F)) hm hfit hX1.1 (D := W2) h2 s2X
    rwa [Mem.setImg_congr _ W2 _ _ _ (fun i j => dRow2 (lit 1) m (x i) j)] at this
    intro i hi j hj
    unfold dRow2
    rw [hX1.2 i hi j hj, hX1.2 i hi 0 (by omega), hX1.2 i hi 1 (by omega), hX1.2 i hi (m - 1) (by omega), hX1.2 i hi (m - 2) (by omega),
      hX1.2 i hi (j - 1) (by omega)]
    split
    · rfl
    · split
      · rfl
      · rw [hX1.2 i hi (j + 1) (by omega)]
  refine (a.append b).append (kspec_seq ?_)
  set M := ((mem.setImg W1 n m (dCol2 (lit 1) n x)).setImg W2 n m (fun i j => dRow2 (lit 1) m (x i) j)) with hM
  have hXM : HoldsF M X n m x := hX1.setImg s2X
  have h1M : HoldsF M W1 n m (dCol2 (lit 1) n x) := (holdsF_setImg h1).setImg s12
  have h2M : HoldsF M W2 n m (fun i j => dRow2 (lit 1) m (x i) j) := holdsF_setImg h2
  have l := run_forUp 0 ((n : Int) * m) (fun i => do
      let xi ← load (X + i)
      let d1 ← load (W1 + i)
      let d2 ← load (W2 + i)
      store (Y + i) (mu * xi + lambda * d1 + lambda * d2))
      (fun k => M.setRange Y k fun i => mu * M.val (X + i) + lambda * M.val (W1 + i) + lambda * M.val (W2 + i)) (fun k g1 g2 => by
    have g2' : k < ((n * m : ℕ) : Int) := by push_cast; exact g2
    have rd : ∀ {P : Ptr}, NoCross ((n * m : ℕ) : Int) Y P → M.Has P ((n * m : ℕ) : Int) → ∀ f : Int → F,
        (load (P + k) : Prog F F).run (M.setRange Y k f) = some (M.val (P + k), M.setRange Y k f) := by
      intro P hP hh f
      rw [run_load (show (M.setRange Y k f).Ok _ from hh k g1 g2')]
      congr 2
      apply Mem.setRange_val_out
      rintro ⟨q1, q2, q3⟩
      simp only [Ptr.add_blk, Ptr.add_off] at q1 q2 q3
      refine hP (P.off + k - Y.off) k (by omega) (by omega) g1 g2' (by omega) ?_
      ext
      · simp [q1]
      · simp
    simp only [run_bind, rd sYX hXM.1, rd sY1.noCross h1M.1, rd sY2.noCross h2M.1, Option.bind_some]
    rw [run_store (show (M.setRange Y k _).Ok _ from hY k g1 g2')]
    rw [Mem.setRange_write _ _ _ (fun i => mu * M.val (X + i) + lambda * M.val (W1 + i) + lambda * M.val (W2 + i)) g1]) (by positivity)
  rw [Mem.setRange_zero _ _ _ le_rfl] at l
  rw [l]
  congr 2
  rw [show (n : Int) * m = ((n * m : ℕ) : Int) by push_cast; rfl]
  apply setRange_eq_setImg
  intro i hi j hj
  rw [← hXM.2 i hi j hj, ← h1M.2 i hi j hj]
  have := h2M.2 i hi j hj
  beta_reduce at this
  rw [← this]
  rfl

end L1c
