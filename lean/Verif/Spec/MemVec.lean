import Verif.Base.Cmd
import Verif.Base.Vec

/-!
# Vectors in memory, changes confined to a set of addresses, operators on memory (specification)
-/

namespace L1c

variable {F : Type} {σ : Type} {N : ℕ}

/-- the addresses of `N` doubles starting at `p` -/
def Rng (p : Ptr) (N : ℕ) : Set Ptr := {a | a.blk = p.blk ∧ p.off ≤ a.off ∧ a.off < p.off + N}

/-- the vector `v` is stored at `p`, inside its block -/
def HoldsV (s : PState F) (p : Ptr) (v : Vec F N) : Prop := s.mem.Has p N ∧ ∀ i : Fin N, s.mem.val (p + ((i : ℕ) : Int)) = v i

/-- from `s` to `s'` nothing changed but the doubles at the addresses `S`: no allocation, no release -/
structure Only (S : Set Ptr) (s s' : PState F) : Prop where
  len : s'.mem.len = s.mem.len
  val : ∀ a, a ∉ S → s'.mem.val a = s.mem.val a
  rest : s'.live = s.live ∧ s'.next = s.next ∧ s'.calls = s.calls ∧ s'.oracle = s.oracle

/-- the array `x`, the first `n` work arrays and the operator's own data do not overlap -/
structure Apart (N : ℕ) (x : Ptr) (Dwork : ℕ → Ptr) (n : ℕ) (Own : Set Ptr) : Prop where
  xw : ∀ i < n, Disjoint (Rng x N) (Rng (Dwork i) N)
  ww : ∀ i < n, ∀ j < n, i ≠ j → Disjoint (Rng (Dwork i) N) (Rng (Dwork j) N)
  xo : Disjoint (Rng x N) Own
  wo : ∀ i < n, Disjoint (Rng (Dwork i) N) Own

/-- everything a solver call may write: the result, `n` work arrays and the operator's own data -/
def Writes (N : ℕ) (x : Ptr) (Dwork : ℕ → Ptr) (n : ℕ) (Own : Set Ptr) : Set Ptr := Rng x N ∪ {a | ∃ i < n, a ∈ Rng (Dwork i) N} ∪ Own

variable [Scalar F]

/-- The command `ax in out` computes the operator `op` in memory: it reads `in`, fills `out`, and changes nothing else but its own
data at the addresses `Own`, on which alone its state (described by `R`) depends. -/
structure OpImpl {K L : ℕ} (ax : Ptr → Ptr → Cmd F Unit) (op : Vec F K → σ → Vec F L × σ) (R : σ → PState F → Prop) (Own : Set Ptr) : Prop where
  call : ∀ (t : σ) (s : PState F) (x y : Ptr) (v : Vec F K), R t s → HoldsV s x v → s.mem.Has y L → Disjoint (Rng x K) (Rng y L) →
    Disjoint (Rng x K) Own → Disjoint (Rng y L) Own →
    ∃ s', CSpec (ax x y) s () s' ∧ R (op v t).2 s' ∧ HoldsV s' y (op v t).1 ∧ Only (Rng y L ∪ Own) s s'
  keep : ∀ (t : σ) (s s' : PState F), R t s → Only Ownᶜ s s' → R t s'

end L1c
