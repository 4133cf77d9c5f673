import Verif.Model.Bregman
import Verif.Model.Json

/-!
# The Python script `L1c.py`

`BRAnsTV` (interfaces/python/L1c.py:7-40) calls the shared library through `ctypes`.

* Names of the library: functions with external linkage of the files that src/CMakeLists.txt:3-21 lists; `static` ones are not exported.
* `c_int` keeps the low 32 bits of a Python integer; `ndpointer` checks type, number of dimensions and layout of an array but not its length.
* Python integers are exact.  `lam` is a number; other argument types are not modelled, nor is the printed time.
* An array that nobody refers to any more is released; an array that is returned stays.
-/

namespace L1c
open Prog Scalar Cmd

variable {F : Type} [Scalar F]

/-- functions with external linkage in src/*.c and src/vcl/vcl_math.cpp -/
def libl1cNames : List String :=
  ["l1c_Dx", "l1c_DxT", "l1c_DxTDx", "l1c_Dy", "l1c_DyT", "l1c_DyTDy", "breg_get_functions", "l1c_breg_anistropic_TV", "l1c_cgsolve",
    "l1c_cgsolve_diag_precond", "check_opennblas_pthreads", "l1c_dct1_setup", "l1c_dct2_setup", "l1c_setup_dct_transforms",
    "l1c_setup_dctTV_transforms", "print_vec", "load_file_as_text", "load_file_to_json", "extract_json_int", "extract_json_double",
    "extract_json_double_array", "extract_json_int_array", "get_file_length", "l1c_replace_printf", "__l1c_daxpby", "l1c_init_vec", "l1c_dxmuly_z",
    "l1c_daxpby_z", "l1c_daxpy_z", "l1c_dnorm1", "l1c_dsum", "l1c_dlogsum", "l1c_dnrm2_rel_err", "l1c_max_vec", "l1c_abs_vec", "l1c_dnrm2_err",
    "l1c_malloc_double", "l1c_free_double", "l1c_calloc_double", "l1c_calloc_double_2D", "l1c_malloc_double_2D", "l1c_free_double_2D", "l1qc_dct",
    "_l1c_l1qc_f_eval", "_l1c_l1qc_H11pfun", "_l1c_l1qc_hess_grad", "_l1c_l1qc_descent_dir", "_l1c_l1qc_find_max_step", "_l1c_l1qc_newton_init",
    "_l1c_l1qc_check_feasible_start", "_l1c_l1qcProb_new", "_l1c_l1qcProb_delete", "l1c_l1qc_newton", "l1c_linesearch_xu", "l1c_linesearch",
    "l1c_setup_matrix_transforms", "_l1c_new_fmean_fifo", "_l1c_push_fmeans_fifo", "_l1c_mean_fmean_fifo", "_l1c_NestaProb_new",
    "l1c_free_nesta_problem", "l1c_nesta_project", "l1c_nesta_feval", "l1c_nesta_setup", "l1c_nesta", "vcl_logsum", "vcl_sum", "vcl_dxMy_pz"]

/-- a NumPy array as `ndpointer` sees it -/
structure NdArr where
  /-- element type `double` -/
  dbl : Bool
  ndim : ℕ
  /-- C contiguous -/
  contig : Bool
  data : Ptr

/-- how `BRAnsTV` ends -/
inductive ScriptOut
  | raised (kind : String)
  /-- `uk_out`: an array of `n*m` numbers -/
  | array (p : Ptr)
  deriving DecidableEq

/-- `BRAnsTV`, interfaces/python/L1c.py:7-40.  `names` are the functions of the library, `loaded` says whether `load_library` finds it. -/
def brAnsTV (names : List String) (loaded : Bool) (x : NdArr) (n m : Int) (lam : F) (max_iter max_jac_iter : Int) : Cmd F ScriptOut :=
  if loaded = false then pure (.raised "OSError")
  else if "breg_anistropic_TV" ∉ names then pure (.raised "AttributeError")
  else if n * m < 0 then pure (.raised "ValueError")
  else do
    let uk_out ← callocC (n * m)
    match uk_out with
    | none => pure (.raised "MemoryError")
    | some uk =>
      if ¬ (x.dbl = true ∧ x.ndim = 1 ∧ x.contig = true) then do
        freeC (some uk)
        pure (.raised "ArgumentError")
      else do
        let stat ← l1c_breg_anistropic_TV (toCInt n) (toCInt m) uk x.data lam (lit (1 / 1000)) (toCInt max_iter) (toCInt max_jac_iter)
        if stat.1 > 0 then do
          freeC (some uk)
          pure (.raised "Exception")
        else pure (.array uk)

end L1c
