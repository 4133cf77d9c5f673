import Verif.Model.Dct
import Mathlib.Analysis.SpecialFunctions.Trigonometric.Basic

/-!
# Specification side of the transforms

`redft10`, `redft01` are the formulas of the FFTW manual ("1d Real-even DFTs"); multi-dimensional r2r
transforms are the separable product.  `FftwOk1/2` say that the two plans compute them on finite data.
-/

namespace L1c

variable {m n mrow mcol k l : ℕ}

/-- FFTW_REDFT10: `Y_k = 2 Σ_j X_j cos(π (j + 1/2) k / n)` -/
noncomputable def redft10 (x : Fin m → ℝ) : Fin m → ℝ := fun k =>
  2 * ∑ j : Fin m, x j * Real.cos (Real.pi * ((j : ℝ) + 1 / 2) * k / m)

/-- FFTW_REDFT01: `Y_k = X_0 + 2 Σ_{j≥1} X_j cos(π j (k + 1/2) / n)` -/
noncomputable def redft01 [NeZero m] (x : Fin m → ℝ) : Fin m → ℝ := fun k =>
  x 0 + 2 * ∑ j : Fin m, if j = 0 then 0 else x j * Real.cos (Real.pi * (j : ℝ) * ((k : ℝ) + 1 / 2) / m)

/-- row-major pixel `(i, j)` of an image -/
def px (i : Fin mrow) (j : Fin mcol) : Fin (mrow * mcol) := finProdFinEquiv (i, j)

/-- apply a 1-D transform along rows and another along columns -/
def sep2 (f : (Fin mrow → ℝ) → Fin mrow → ℝ) (g : (Fin mcol → ℝ) → Fin mcol → ℝ)
    (x : Fin (mrow * mcol) → ℝ) : Fin (mrow * mcol) → ℝ := fun t =>
  f (fun i => g (fun j => x (px i j)) (finProdFinEquiv.symm t).2) (finProdFinEquiv.symm t).1

structure FftwOk1 [NeZero m] (fw : Fftw Dbl m) : Prop where
  fwd : ∀ x, fw.fwd (fvec x) = fvec (redft10 x)
  inv : ∀ x, fw.inv (fvec x) = fvec (redft01 x)

structure FftwOk2 [NeZero mrow] [NeZero mcol] (fw : Fftw Dbl (mrow * mcol)) : Prop where
  fwd : ∀ x, fw.fwd (fvec x) = fvec (sep2 redft10 redft10 x)
  inv : ∀ x, fw.inv (fvec x) = fvec (sep2 redft01 redft01 x)

/-- what is known about the persistent buffers between calls: nothing but zeros outside the sampled pixels -/
def BufInv {F : Type} [Scalar F] (idx : Fin n → Int) (s : DctBuf F m) : Prop :=
  ∀ t : Fin m, (∀ i, idx i ≠ (t : Int)) → s.Ety t = Scalar.lit 0

/-- A library operator computes the real function `f` on finite data, whatever earlier calls left in the
buffers, leaves its argument unchanged and keeps the buffers usable. -/
def Computes (idx : Fin n → Int) (op : Vec Dbl l → DctBuf Dbl m → Option (XOut Dbl k l m))
    (f : (Fin l → ℝ) → (Fin k → ℝ)) : Prop :=
  ∀ x s, BufInv idx s → ∃ s', op (fvec x) s = some ⟨fvec (f x), fvec x, s'⟩ ∧ BufInv idx s'

/-- the sample indices a setup function accepts -/
def IdxOk (m : ℕ) (idx : Fin n → Int) : Prop := ∀ i, 0 ≤ idx i ∧ idx i < (m : Int)

/-! ## Clients of a transform set -/

/-- one call of an operator by a client -/
inductive DctCall (F : Type) (m n : ℕ) where
  | Ax (x : Vec F m)
  | Aty (y : Vec F n)
  | AtAx (x : Vec F m)
  | Mx (x : Vec F m)
  | Mty (y : Vec F m)
  | Rx (x : Vec F m)
  | Rty (y : Vec F n) (old : Vec F m)

/-- the buffers after a call -/
def DctCall.run {F : Type} (f : DctFuns F m n) : DctCall F m n → DctBuf F m → Option (DctBuf F m)
  | .Ax x, s => (f.Ax x s).map (·.buf)
  | .Aty y, s => (f.Aty y s).map (·.buf)
  | .AtAx x, s => (f.AtAx x s).map (·.buf)
  | .Mx x, s => (f.Mx x s).map (·.buf)
  | .Mty y, s => (f.Mty y s).map (·.buf)
  | .Rx x, s => (f.Rx x s).map (·.buf)
  | .Rty y old, s => (f.Rty y old s).map (·.buf)

/-- buffer states a client can produce after setup, by any sequence of calls with any data -/
inductive Reach {F : Type} [Scalar F] (f : DctFuns F m n) : DctBuf F m → Prop
  | fresh : Reach f DctBuf.fresh
  | call {s s'} (c : DctCall F m n) : Reach f s → c.run f s = some s' → Reach f s'

/-- the operator sets the two setup functions build from an accepted index list -/
inductive DctSet {F : Type} [Scalar F] : {m n : ℕ} → DctFuns F m n → (Fin n → Int) → Prop
  | d1 {m n : ℕ} [NeZero m] (fw : Fftw F m) (idx : Fin n → Int) : IdxOk m idx → DctSet (dct1Funs fw idx) idx
  | d2 {mrow mcol n : ℕ} [NeZero mrow] [NeZero mcol] (fw : Fftw F (mrow * mcol)) (idx : Fin n → Int) :
      IdxOk (mrow * mcol) idx → DctSet (dct2Funs fw idx) idx

/-- the same in exact arithmetic with FFTW plans that compute the documented transforms -/
inductive DctSetR : {m n : ℕ} → DctFuns Dbl m n → (Fin n → Int) → Prop
  | d1 {m n : ℕ} [NeZero m] (fw : Fftw Dbl m) (idx : Fin n → Int) : FftwOk1 fw → IdxOk m idx →
      DctSetR (dct1Funs fw idx) idx
  | d2 {mrow mcol n : ℕ} [NeZero mrow] [NeZero mcol] (fw : Fftw Dbl (mrow * mcol)) (idx : Fin n → Int) :
      FftwOk2 fw → IdxOk (mrow * mcol) idx → DctSetR (dct2Funs fw idx) idx

/-- In every reachable state the operator maps real data `x` to `g x`, without undefined behaviour and with
the argument array unchanged. -/
def Gives (f : DctFuns Dbl m n) (op : Vec Dbl l → DctBuf Dbl m → Option (XOut Dbl k l m))
    (g : (Fin l → ℝ) → (Fin k → ℝ)) : Prop :=
  ∀ s, Reach f s → ∀ x, ∃ s', op (fvec x) s = some ⟨fvec (g x), fvec x, s'⟩

end L1c
