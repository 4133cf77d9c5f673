import Verif.Model.Options
import Verif.Spec.NestaBindings

/-!
# Which options a caller has chosen
-/

namespace L1c
open Scalar

variable {F : Type} [Scalar F]

/-! ## Matlab -/

/-- the pairs `args` choose the value `v` for the parameter `name`: it is the last value given under a name that stands for the
parameter, or the default when none is given -/
def Chosen (d : List (String × MxFld F)) (resolve : String → Option String) (args : List (String × MxFld F)) (name : String) (v : MxFld F) : Prop :=
  (∃ pre n suf, args = pre ++ (n, v) :: suf ∧ resolve n = some name ∧ ∀ x ∈ suf, resolve x.1 ≠ some name) ∨
  ((∀ x ∈ args, resolve x.1 ≠ some name) ∧ (name, v) ∈ d)

/-- they choose the number `x` -/
def ChosenNum (d : List (String × MxFld F)) (resolve : String → Option String) (args : List (String × MxFld F)) (name : String) (x : F) : Prop :=
  ∃ k, Chosen d resolve args name (.num ⟨true, 1, 1, k, fun _ => x⟩)

/-- they choose a number that is cut to the integer `z` -/
def ChosenInt (d : List (String × MxFld F)) (resolve : String → Option String) (args : List (String × MxFld F)) (name : String) (z : Int) : Prop :=
  ∃ x, ChosenNum d resolve args name x ∧ castInt x = some z

/-- the options chosen with `l1qc_dct_opts(args{:})` -/
def L1qcChosen (resolve : String → Option String) (args : List (String × MxFld F)) (o : QOpts F) : Prop :=
  ChosenNum l1qcDefaults resolve args "epsilon" o.epsilon ∧ ChosenNum l1qcDefaults resolve args "mu" o.mu ∧
  ChosenNum l1qcDefaults resolve args "lbtol" o.lbtol ∧ ChosenNum l1qcDefaults resolve args "tau" o.tau ∧
  ChosenInt l1qcDefaults resolve args "lbiter" o.lbiter ∧ ChosenNum l1qcDefaults resolve args "newton_tol" o.newton_tol ∧
  ChosenInt l1qcDefaults resolve args "newton_max_iter" o.newton_max_iter ∧ ChosenNum l1qcDefaults resolve args "l1_tol" o.l1_tol ∧
  ChosenNum l1qcDefaults resolve args "cgtol" o.cg_tol ∧ ChosenInt l1qcDefaults resolve args "cgmaxiter" o.cg_maxiter ∧
  ChosenInt l1qcDefaults resolve args "warm_start_cg" o.warm_start_cg ∧ ∃ v, ChosenInt l1qcDefaults resolve args "verbose" v

/-- the options chosen with `nesta_opts(args{:})` -/
def NestaChosen (resolve : String → Option String) (args : List (String × MxFld F)) (o : NestaOpts F) (alp_v alp_h : F) (dct_mode : Int) (analysis : Bool) : Prop :=
  ChosenNum nestaDefaults resolve args "sigma" o.sigma ∧ ChosenNum nestaDefaults resolve args "mu" o.mu ∧ ChosenNum nestaDefaults resolve args "tol" o.tol ∧
  ChosenInt nestaDefaults resolve args "n_continue" o.n_continue ∧ ChosenNum nestaDefaults resolve args "alpha_v" alp_v ∧
  ChosenNum nestaDefaults resolve args "alpha_h" alp_h ∧ ChosenInt nestaDefaults resolve args "dct_mode" dct_mode ∧
  (∃ v, ChosenInt nestaDefaults resolve args "verbose" v) ∧
  Chosen nestaDefaults resolve args "bp_mode" (.str (if analysis then "analysis" else "synthesis"))

/-- the first four arguments of `l1qc_dct` and `nesta_dctTV` describe an image with samples: its size, and as many numbers as positions,
fewer than pixels -/
def MexImage (a0 a1 a2 a3 : MxVal F) (mrow mcol : Int) (b pix_idx : Arr F) : Prop :=
  (∃ r0 r1, IsMxScalar a0 r0 ∧ castInt r0 = some mrow ∧ IsMxScalar a1 r1 ∧ castInt r1 = some mcol) ∧ IsMxVector a2 b ∧ IsMxVector a3 pix_idx ∧
  FitsInt (mrow * mcol) ∧ 0 < mrow ∧ 0 < mcol ∧ b.1 = pix_idx.1 ∧ (b.1 : Int) < mrow * mcol

/-- `inputParser` takes a name for a parameter only if the name is an abbreviation of it, up to case -/
def Abbreviates (resolve : String → Option String) : Prop :=
  ∀ n p, resolve n = some p → n.toList.map Char.toLower <+: p.toList.map Char.toLower

/-! ## Python -/

/-- the caller gives `v` for parameter number `i` called `name`, by position or by name -/
def PyGiven (args : List (PyVal F)) (kw : List (String × PyVal F)) (i : ℕ) (name : String) (v : PyVal F) : Prop :=
  args[i]? = some v ∨ (args.length ≤ i ∧ (name, v) ∈ kw)

/-- the parameter is a number, `dflt` if not given -/
def PyNum (args : List (PyVal F)) (kw : List (String × PyVal F)) (i : ℕ) (name : String) (dflt x : F) : Prop :=
  (∃ v, PyGiven args kw i name v ∧ (v.num = some (.inr x) ∨ ∃ z : Int, v.num = some (.inl z) ∧ x = lit z)) ∨ ((∀ v, ¬ PyGiven args kw i name v) ∧ x = dflt)

/-- the parameter is an integer that a C `int` can hold, `dflt` if not given -/
def PyInteger (args : List (PyVal F)) (kw : List (String × PyVal F)) (i : ℕ) (name : String) (dflt z : Int) : Prop :=
  (∃ v, PyGiven args kw i name v ∧ v.num = some (.inl z) ∧ FitsInt z) ∨ ((∀ v, ¬ PyGiven args kw i name v) ∧ z = dflt)

/-- `n` arguments at least are given by position, and every keyword is the name of a parameter that is not given by position;
`names` are the names of the parameters from number `n` on -/
def PyNames (n : ℕ) (names : List String) (args : List (PyVal F)) (kw : List (String × PyVal F)) : Prop :=
  n ≤ args.length ∧ args.length ≤ n + names.length ∧ ∀ p ∈ kw, ∃ j, names[j]? = some p.1 ∧ args.length ≤ n + j

/-- `l1qc_dct(mrow, mcol, b, pix_idx, epsilon=0.01, mu=10, lbtol=1e-3, newton_tol=1e-3, newton_max_iter=50, verbose=0, l1_tol=1e-5, cgtol=1e-8,
cgmaxiter=200, dct_mode=1)` is called with values that make up `a` -/
structure PyL1qcGood (args : List (PyVal F)) (kw : List (String × PyVal F)) (a : PyL1qcArgs F) : Prop where
  names : PyNames 4 ["epsilon", "mu", "lbtol", "newton_tol", "newton_max_iter", "verbose", "l1_tol", "cgtol", "cgmaxiter", "dct_mode"] args kw
  sizes : ∃ r c b p rest, args = r :: c :: b :: p :: rest ∧ r.num = some (.inl a.mrow) ∧ FitsInt a.mrow ∧ c.num = some (.inl a.mcol) ∧ FitsInt a.mcol ∧
    a.b = b.dbl ∧ a.pix_idx = p.ints
  epsilon : PyNum args kw 4 "epsilon" (lit 0.01) a.opts.epsilon
  mu : PyNum args kw 5 "mu" (lit 10) a.opts.mu
  lbtol : PyNum args kw 6 "lbtol" (lit 1e-3) a.opts.lbtol
  newton_tol : PyNum args kw 7 "newton_tol" (lit 1e-3) a.opts.newton_tol
  newton_max_iter : PyInteger args kw 8 "newton_max_iter" 50 a.opts.newton_max_iter
  verbose : ∃ v, PyInteger args kw 9 "verbose" 0 v
  l1_tol : PyNum args kw 10 "l1_tol" (lit 1e-5) a.opts.l1_tol
  cg_tol : PyNum args kw 11 "cgtol" (lit 1e-8) a.opts.cg_tol
  cg_maxiter : PyInteger args kw 12 "cgmaxiter" 200 a.opts.cg_maxiter
  dct_mode : PyInteger args kw 13 "dct_mode" 1 a.dct_mode
  fixed : a.opts.tau = lit 0 ∧ a.opts.lbiter = 0 ∧ a.opts.warm_start_cg = 0

/-- `nesta_dctTV(mrow, mcol, b, pix_idx, alpha_v=0, alpha_h=0, sigma=0.01, mu=1e-5, tol=1e-5, n_continue=5, verbose=5, dct_mode=1, bp_mode=1)` is
called with values that make up `a` -/
structure PyNestaGood (args : List (PyVal F)) (kw : List (String × PyVal F)) (a : PyNestaArgs F) : Prop where
  names : PyNames 4 ["alpha_v", "alpha_h", "sigma", "mu", "tol", "n_continue", "verbose", "dct_mode", "bp_mode"] args kw
  sizes : ∃ r c b p rest, args = r :: c :: b :: p :: rest ∧ r.num = some (.inl a.mrow) ∧ FitsInt a.mrow ∧ c.num = some (.inl a.mcol) ∧ FitsInt a.mcol ∧
    a.b = b.dbl ∧ a.pix_idx = p.ints
  alpha_v : PyNum args kw 4 "alpha_v" (lit 0) a.alpha_v
  alpha_h : PyNum args kw 5 "alpha_h" (lit 0) a.alpha_h
  sigma : PyNum args kw 6 "sigma" (lit 0.01) a.opts.sigma
  mu : PyNum args kw 7 "mu" (lit 1e-5) a.opts.mu
  tol : PyNum args kw 8 "tol" (lit 1e-5) a.opts.tol
  n_continue : PyInteger args kw 9 "n_continue" 5 a.opts.n_continue
  verbose : ∃ v, PyInteger args kw 10 "verbose" 5 v
  dct_mode : PyInteger args kw 11 "dct_mode" 1 a.dct_mode
  bp_mode : PyInteger args kw 12 "bp_mode" 1 a.bp_mode

/-- `breg_anistropic_TV(f, mu=10, tol=0.001, max_iter=1000, max_jac_iter=1)` is called with these values -/
structure PyBregGood (args : List (PyVal F)) (kw : List (String × PyVal F)) (f : PyVal F) (mu tol : F) (max_iter max_jac_iter : Int) : Prop where
  names : PyNames 1 ["mu", "tol", "max_iter", "max_jac_iter"] args kw
  f : args[0]? = some f
  mu : PyNum args kw 1 "mu" (lit 10) mu
  tol : PyNum args kw 2 "tol" (lit 0.001) tol
  max_iter : PyInteger args kw 3 "max_iter" 1000 max_iter
  max_jac_iter : PyInteger args kw 4 "max_jac_iter" 1 max_jac_iter

end L1c
