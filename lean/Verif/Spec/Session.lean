import Verif.Spec.World
import Verif.Spec.Options
import Verif.Spec.NestaBindings

/-!
# Specification of sessions

A session is what happens to the library in one Matlab or Python process: any number of calls of its functions, one after the
other, with any arguments and any result.
-/

namespace L1c

variable {F : Type} [Scalar F]

/-- the number of pixels of the image a call of `nesta_dctTV` from Python returns -/
def PyNestaOut.pixels : PyNestaOut F → ℕ
  | .exc _ => 0
  | .ret _ _ rows cols _ _ => (rows * cols).toNat

/-- One call from Matlab or Python takes the library from the first state to the last; the number between them is that of the pixels `nesta_dctTV` returned to
Python, 0 for other calls.  Everything outside the library (memory, Python objects, what the requests for memory will give) may be in any state; only, no block or
object exists yet under a number that will be used for a new one. -/
inductive Call (lib : FftwLib F) : World F → ℕ → World F → Prop
  | py_l1qc {s s' : NState (PyState F)} {out : PyOut F} (args : List (PyVal F)) (kw : List (String × PyVal F)) :
      (∀ b ∈ s.live, b < s.next) → (∀ o, s.cb.next ≤ o → s.cb.refs o = 0) → (kw.map (·.1)).Nodup → py_l1qc_call lib args kw s = some (out, s') → Call lib s.cb.w 0 s'.cb.w
  | py_nesta {s s' : NState (PyState F)} {out : PyNestaOut F} (args : List (PyVal F)) (kw : List (String × PyVal F)) :
      (∀ b ∈ s.live, b < s.next) → (∀ o, s.cb.next ≤ o → s.cb.refs o = 0) → (kw.map (·.1)).Nodup → (∀ a, PyNestaGood args kw a → a.opts.n_continue < INT_MAX) →
      py_nesta_call lib args kw s = some (out, s') → Call lib s.cb.w out.pixels s'.cb.w
  | mex_l1qc {s s' : NState (World F)} {out : MexOut F} (junk : ℕ → F) (nlhs : ℕ) (prhs : List (MxVal F)) :
      (∀ b ∈ s.live, b < s.next) → l1qc_dct_mex lib junk nlhs prhs s = some (out, s') → Call lib s.cb 0 s'.cb
  | mex_nesta {s s' : NState (World F)} {out : NestaMexOut F} (junk : ℕ → F) (nlhs : ℕ) (prhs : List (MxVal F)) (mode : Option (Option String)) :
      (∀ b ∈ s.live, b < s.next) → (∀ c, NestaMexGood prhs mode c → c.opts.n_continue < INT_MAX) →
      nesta_dctTV_mex lib junk nlhs prhs mode s = some (out, s') → Call lib s.cb 0 s'.cb

/-- `w` is the state of the library after some calls, in which `nesta_dctTV` returned `v` pixels to Python altogether -/
inductive Session (lib : FftwLib F) : ℕ → World F → Prop
  | start (oracle : ℕ → Bool) (junk : ℕ → ℕ → F) : Session lib 0 (World.init oracle junk false)
  | call {v k : ℕ} {w w' : World F} : Session lib v w → Call lib w k w' → Session lib (v + k) w'

/-- the library holds an array of `k` numbers at `b` -/
def Holds (w : World F) (b k : ℕ) : Prop := ∃ v : Vec F k, w.obj b = some (.arr ⟨k, v⟩)

end L1c
