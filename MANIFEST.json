{
 "claims": [
  {
   "property": "C01",
   "status": "proved",
   "theorems": [
    "L1c.C01_malloc_2D",
    "L1c.C01_calloc_2D",
    "L1c.C01_free_2D",
    "L1c.C01_free_null"
   ],
   "note": "malloc, calloc and free of 2-D tables against an arbitrary allocator; UB excluded"
  },
  {
   "property": "C02",
   "status": "proved",
   "theorems": [
    "L1c.C02_malloc",
    "L1c.C02_calloc"
   ],
   "note": "size computation modulo 2^64, every int N"
  },
  {
   "property": "C03",
   "status": "proved",
   "theorems": [
    "L1c.C03_init_vec",
    "L1c.C03_daxpby",
    "L1c.C03_dxmuly_z",
    "L1c.C03_daxpby_z",
    "L1c.C03_daxpy_z",
    "L1c.C03_abs_vec",
    "L1c.C03_empty"
   ],
   "note": "every element-wise kernel, any interleaving of the parallel loop, any scalar type"
  },
  {
   "property": "C04",
   "status": "proved",
   "theorems": [
    "L1c.C04_dsum",
    "L1c.C04_dnorm1",
    "L1c.C04_dlogsum",
    "L1c.C04_vcl_sum",
    "L1c.C04_vcl_logsum",
    "L1c.C04_vcl_dxMy_pz"
   ],
   "note": "reductions equal the mathematical sums for every length and split of the work"
  },
  {
   "property": "C05",
   "status": "proved",
   "theorems": [
    "L1c.C05_nonpos",
    "L1c.C05_max_vec",
    "L1c.C05_max_vec_finite"
   ],
   "note": "maximum, NaN behaviour and n<=0, for all vectors of extended doubles"
  },
  {
   "property": "C06",
   "status": "proved",
   "theorems": [
    "L1c.C06_dnrm2_err",
    "L1c.C06_dnrm2_rel_err",
    "L1c.C06_metric"
   ],
   "note": "both error norms, metric axioms, aliasing"
  },
  {
   "property": "C07",
   "status": "proved",
   "theorems": [
    "L1c.C07_Dx",
    "L1c.C07_Dy",
    "L1c.C07_setImg_meaning"
   ],
   "note": "l1c_Dx and l1c_Dy for every shape, scalar type and interleaving"
  },
  {
   "property": "C08",
   "status": "proved",
   "theorems": [
    "L1c.C08_x",
    "L1c.C08_y"
   ],
   "note": "adjoint identity on the images the kernels actually write"
  },
  {
   "property": "C09",
   "status": "partial",
   "theorems": [
    "L1c.C09_x",
    "L1c.C09_y_partial",
    "L1c.C09_y_one_row_false"
   ],
   "note": "rows proved in full; columns proved for n>=2; false for n=1 (C09_y_one_row_false)"
  },
  {
   "property": "C10",
   "status": "proved",
   "theorems": [
    "L1c.C10_norm"
   ],
   "note": "all four operators"
  },
  {
   "property": "C11",
   "status": "partial",
   "theorems": [
    "L1c.C11_safe_partial",
    "L1c.C11_safe_one_column",
    "L1c.C11_one_column_ub",
    "L1c.C11_overflow_ub"
   ],
   "note": "safe for m>=2 (and Dx, Dy, DyT, DyTDy for m=1); DxT and DxTDx proved to read out of bounds for m=1"
  },
  {
   "property": "C12",
   "status": "proved",
   "theorems": [
    "L1c.C12_cgsolve"
   ],
   "note": "Over exact arithmetic with inf/NaN; breakdown (division by zero) is covered: the solver then keeps the best earlier iterate."
  },
  {
   "property": "C13",
   "status": "proved",
   "theorems": [
    "L1c.C13_cgsolve",
    "L1c.C13_precond",
    "L1c.C13_early_stop"
   ],
   "note": "Any arithmetic, any operator; max_iter < INT_MAX (for INT_MAX the counter overflows if no test passes)."
  },
  {
   "property": "C14",
   "status": "proved",
   "theorems": [
    "L1c.C14_orthogonal",
    "L1c.C14_solves"
   ],
   "note": "Orthogonality/conjugacy by induction; exact solution after N steps."
  },
  {
   "property": "C15",
   "status": "partial",
   "theorems": [
    "L1c.C15_precond_partial",
    "L1c.C15_precond_false"
   ],
   "note": "False as stated: C15_precond_false. Exact characterisation of what is reported in C15_precond_partial."
  },
  {
   "property": "C16",
   "status": "partial",
   "theorems": [
    "L1c.C16_zero_rhs_false",
    "L1c.C16_zero_rhs_partial"
   ],
   "note": "False as stated: C16_zero_rhs_false (every operator). Holds only when A x0 = 0 already."
  },
  {
   "property": "C17",
   "status": "proved",
   "theorems": [
    "L1c.C17_linesearch_xu",
    "L1c.C17_evaluations",
    "L1c.C17_decrease"
   ],
   "note": "Any arithmetic and any callback."
  },
  {
   "property": "C18",
   "status": "partial",
   "theorems": [
    "L1c.C18_linesearch_xu",
    "L1c.C18_linesearch_partial",
    "L1c.C18_linesearch_false"
   ],
   "note": "Proved for l1c_linesearch_xu; false for l1c_linesearch (C18_linesearch_false), which holds only for callbacks leaving *fx0 alone."
  },
  {
   "property": "C19",
   "status": "proved",
   "theorems": [
    "L1c.C19_dct_setup",
    "L1c.C19_accepts",
    "L1c.C19_rejects"
   ],
   "note": "In any state and for any allocation outcome; acceptance, rejection and reported sizes."
  },
  {
   "property": "C20",
   "status": "partial",
   "theorems": [
    "L1c.C20_image_overflow_false",
    "L1c.C20_no_overflow_false",
    "L1c.C20_tv_no_overflow_false",
    "L1c.C20_no_overflow_partial"
   ],
   "note": "False: every positive size pair with a product beyond INT_MAX overflows (C20_no_overflow_false). No undefined behaviour from program start otherwise."
  },
  {
   "property": "C21",
   "status": "proved",
   "theorems": [
    "L1c.C21_orthonormal",
    "L1c.C21_basis_1d",
    "L1c.C21_basis_2d"
   ],
   "note": "1-D and 2-D, every size and index list, in exact arithmetic with FFTW plans that compute the documented transforms; includes that the basis is the DCT-II cosine basis."
  },
  {
   "property": "C22",
   "status": "partial",
   "theorems": [
    "L1c.C22_samples",
    "L1c.C22_adjoint_iff",
    "L1c.C22_adjoint_partial"
   ],
   "note": "Adjoint exactly when the index list has no repetition (iff proved); setup accepts repetitions, so the full claim is false."
  },
  {
   "property": "C23",
   "status": "proved",
   "theorems": [
    "L1c.C23_dct",
    "L1c.C23_matrix"
   ],
   "note": "DCT sets and matrix set, bit-for-bit for every scalar type."
  },
  {
   "property": "C24",
   "status": "partial",
   "theorems": [
    "L1c.C24_rows_orthonormal_iff",
    "L1c.C24_rows_orthonormal_partial"
   ],
   "note": "Ax(Aty y) = y for all y exactly when the index list has no repetition (iff proved); setup accepts repetitions, so the full claim is false."
  },
  {
   "property": "C25",
   "status": "partial",
   "theorems": [
    "L1c.C25_argument_any_set_partial",
    "L1c.C25_argument_exact",
    "L1c.C25_argument_overflow_false",
    "L1c.C25_history",
    "L1c.C25_arguments",
    "L1c.C25_argument_Mx"
   ],
   "note": "Results: every scalar type, any call history (C25_history). Arguments: exact arithmetic, any operator of any kind of set after any history (C25_argument_exact, C25_argument_Mx); for every scalar type all operators but 1-D Mx and the DCT-TV dictionary operators leave the argument alone and those turn entry 0 into x0*sqrt2/sqrt2 (C25_arguments, C25_argument_any_set_partial). The argument part is false in binary64, where that product can overflow to infinity (C25_argument_overflow_false)."
  },
  {
   "property": "C26",
   "status": "partial",
   "theorems": [
    "L1c.C26_dictionary",
    "L1c.C26_lengths",
    "L1c.C26_analysis_partial",
    "L1c.C26_synthesis_partial",
    "L1c.C26_ready_after_Av",
    "L1c.C26_synthesis_identity_false",
    "L1c.C26_identity",
    "L1c.C26_reported_sizes"
   ],
   "note": "Dictionary W/Wt: adjoint and equal to [M, av*Dv, ah*Dh] for all weight combinations and call histories. A/At adjoint for distinct indices. False in synthesis mode with a positive weight: Wz/Wtx copy only mrow*mcol of the advertised entries (C26_synthesis_identity_false)."
  },
  {
   "property": "C27",
   "status": "partial",
   "theorems": [
    "L1c.C27_analysis",
    "L1c.C27_identity",
    "L1c.C27_matrix_false"
   ],
   "note": "Proved for DCT-TV analysis, DCT and weight-free synthesis; false for matrix sets, which advertise 0 (C27_matrix_false)."
  },
  {
   "property": "C28",
   "status": "partial",
   "theorems": [
    "L1c.C28_accepts_only_valid",
    "L1c.C28_rejects_partial",
    "L1c.C28_live_set_unchanged_false"
   ],
   "note": "Acceptance only for valid arguments proved. Second half false: a rejected call changes sizes used by a live DCT-TV set (C28_live_set_unchanged_false); DCT and matrix sets are unaffected."
  },
  {
   "property": "C29",
   "status": "partial",
   "theorems": [
    "L1c.C29_actual_regulariser",
    "L1c.C29_constant_image_false",
    "L1c.C29_partial"
   ],
   "note": "False for every positive weight: constant images get TV part 2|a| per line (C29_constant_image_false). Exact value of the regulariser proved."
  },
  {
   "property": "C30",
   "status": "proved",
   "theorems": [
    "L1c.C30_products",
    "L1c.C30_adjoint",
    "L1c.C30_setup",
    "L1c.C30_calls"
   ],
   "note": "Products, adjointness, composition and setup checks."
  },
  {
   "property": "C31",
   "status": "partial",
   "theorems": [
    "L1c.C31_independent_partial",
    "L1c.C31_independent_false",
    "L1c.C31_threads_false"
   ],
   "note": "False for two sets of one module in use at the same time and for threaded builds. Proved for every history with at most one set per module in use, including failing setups and sets that are forgotten without being destroyed."
  },
  {
   "property": "C32",
   "status": "partial",
   "theorems": [
    "L1c.C32_no_leak_false",
    "L1c.C32_no_double_free_false",
    "L1c.C32_two_sets_false",
    "L1c.C32_no_leak_partial",
    "L1c.C32_destroy_partial",
    "L1c.C32_setup_partial"
   ],
   "note": "False: leak in failing 2-D setup, double destroy after out-of-memory in 1-D setup, double free with two sets. Proved for all histories with at most one set per module in use; the absence of leaks where no set was forgotten and no 2-D setup failed."
  },
  {
   "property": "C33",
   "status": "proved",
   "theorems": [
    "L1c.C33_shrink"
   ],
   "note": "Exact arithmetic on finite data, every interleaving; the frame (nothing else written) is included."
  },
  {
   "property": "C34",
   "status": "proved",
   "theorems": [
    "L1c.C34_gauss_seidel",
    "L1c.C34_unique_solution",
    "L1c.C34_sweeps",
    "L1c.C34_jacobi",
    "L1c.C34_hess_eval"
   ],
   "note": "Gauss-Seidel, Jacobi and the operator, on the memory the code writes; existence and uniqueness of the solution proved."
  },
  {
   "property": "C35",
   "status": "proved",
   "theorems": [
    "L1c.C35_stationary_is_minimiser"
   ],
   "note": "Any lam > 0 (the code uses 2 mu). Strong minimum, hence unique."
  },
  {
   "property": "C36",
   "status": "proved",
   "theorems": [
    "L1c.C36_terminates",
    "L1c.C36_bregman_variables_bounded",
    "L1c.C36_finite_and_constant"
   ],
   "note": "Termination and counts in any arithmetic; bounds and constants in exact arithmetic. Assumes images of at least 2x2 pixels and max_iter, max_jac_iter < INT_MAX (C37 shows why)."
  },
  {
   "property": "C37",
   "status": "partial",
   "theorems": [
    "L1c.C37_safe_no_leak_partial",
    "L1c.C37_oom",
    "L1c.C37_one_column_ub",
    "L1c.C37_one_row_ub",
    "L1c.C37_overflow_ub",
    "L1c.C37_int_max_ub"
   ],
   "note": "Proved for images of at least 2x2 pixels; false for one column, one row, overflowing n*m and max_iter = INT_MAX (undefined behaviour proved)."
  },
  {
   "property": "C38",
   "status": "proved",
   "theorems": [
    "L1c.C38_projection"
   ],
   "note": "Exact arithmetic; unique minimiser over all feasible points."
  },
  {
   "property": "C39",
   "status": "partial",
   "theorems": [
    "L1c.C39_feasible_partial",
    "L1c.C39_no_steps_partial",
    "L1c.C39_norm_zero_not_finite",
    "L1c.C39_zero_data_not_finite",
    "L1c.C39_false"
   ],
   "note": "Proved for nonzero norm_W and data with a positive start value, any tolerance and stopping pattern; false for b = 0 and for norm_W = 0 (every matrix transform set): success with no finite entry, proved in general."
  },
  {
   "property": "C40",
   "status": "proved",
   "theorems": [
    "L1c.C40_objective",
    "L1c.C40_lipschitz"
   ],
   "note": "Value is the smoothed 1-norm (a maximum over the dual ball), gradient is the Frechet derivative, Lipschitz bound for any norm bound of W."
  },
  {
   "property": "C41",
   "status": "partial",
   "theorems": [
    "L1c.C41_start_partial",
    "L1c.C41_start_false",
    "L1c.C41_schedule_partial",
    "L1c.C41_final_partial"
   ],
   "note": "Start value proved for p <= m and refuted for p > m; geometric schedule and exact end values for data with a positive start value."
  },
  {
   "property": "C42",
   "status": "proved",
   "theorems": [
    "L1c.C42_window",
    "L1c.C42_empty",
    "L1c.C42_stopping"
   ],
   "note": "All lists of extended doubles, and the stopping test of the iteration uses it."
  },
  {
   "property": "C43",
   "status": "partial",
   "theorems": [
    "L1c.C43_invalid",
    "L1c.C43_out_of_memory",
    "L1c.C43_inconsistent_leaks",
    "L1c.C43_window_unchecked",
    "L1c.C43_success_partial",
    "L1c.C43_no_ub_partial",
    "L1c.C43_work_array_overrun"
   ],
   "note": "Any arithmetic, any operators. False: missing operators leak ten blocks, the window allocation is unchecked, n > max(m,p) overruns a work array; everything else proved."
  },
  {
   "property": "C44",
   "status": "proved",
   "theorems": [
    "L1c.C44_rate"
   ],
   "note": "Exact arithmetic, every bound on the number of iterations, against every feasible point."
  },
  {
   "property": "C45",
   "status": "proved",
   "theorems": [
    "L1c.C45_objective_and_gradient",
    "L1c.C45_newton_system"
   ],
   "note": "Frechet derivative of the barrier; the operator handed to the linear solver is symmetric positive definite; an exact solve gives the full Newton system, and the solver is exact for m iterations with tolerance 0 from a zero start."
  },
  {
   "property": "C46",
   "status": "proved",
   "theorems": [
    "L1c.C46_descent_direction",
    "L1c.C46_barrier_does_not_grow"
   ],
   "note": "Exact solve, and additionally any successful solve from a zero start; barrier does not grow."
  },
  {
   "property": "C47",
   "status": "proved",
   "theorems": [
    "L1c.C47_max_step",
    "L1c.C47_run_stays_strict"
   ],
   "note": "The step bound, and whole runs stay strictly feasible."
  },
  {
   "property": "C48",
   "status": "proved",
   "theorems": [
    "L1c.C48_feasible_or_unchanged"
   ],
   "note": "Every defined run, with only partial correctness of Ax assumed; out of memory is the only other report for an infeasible start."
  },
  {
   "property": "C49",
   "status": "partial",
   "theorems": [
    "L1c.C49_gap",
    "L1c.C49_weights_partial"
   ],
   "note": "The gap bound and the final stored weight hold; the last barrier problem actually solved has a weight mu times smaller and always misses the tolerance."
  },
  {
   "property": "C50",
   "status": "partial",
   "theorems": [
    "L1c.C50_status_and_count_partial",
    "L1c.C50_overcount_false",
    "L1c.C50_failure_not_reported_false",
    "L1c.C50_witness_false"
   ],
   "note": "Possible status codes and bounds on the reported count proved. False: failures of the linear solver and the line search are not reported (boundary start returns status 0 with x unchanged); the count is too large by up to one per barrier iteration."
  },
  {
   "property": "C51",
   "status": "partial",
   "theorems": [
    "L1c.C51_no_leak_partial",
    "L1c.C51_defined_partial",
    "L1c.C51_first_alloc_failure_false",
    "L1c.C51_more_rows_false"
   ],
   "note": "No leak on any defined run; defined whenever the first allocation succeeds, n <= m, operators total, counters fit. False: failure of the first allocation and n > m are undefined."
  },
  {
   "property": "C52",
   "status": "partial",
   "theorems": [
    "L1c.C52_start_partial",
    "L1c.C52_defined_partial",
    "L1c.C52_zero_start_false",
    "L1c.C52_zero_start_not_strict_false"
   ],
   "note": "Every nonzero start. False for the zero start: undefined conversion, or u = 0 and infinite weight."
  },
  {
   "property": "C53",
   "status": "partial",
   "theorems": [
    "L1c.C53_outcome_partial",
    "L1c.C53_status_partial",
    "L1c.C53_released_partial",
    "L1c.C53_released_false",
    "L1c.C53_rejects_partial",
    "L1c.C53_defined_partial",
    "L1c.C53_first_alloc_failure_false",
    "L1c.C53_more_samples_false",
    "L1c.C53_zero_data_false",
    "L1c.C53_example"
   ],
   "note": "Every defined run, any history and any pattern of failing allocations: the four outcomes, x_out written iff 0, own arrays released, state usable afterwards. Missing/false: 2-D transform setup failures leak, first solver allocation refused, more samples than pixels, all-zero data with automatic iteration count, overflowing sizes (all shown)."
  },
  {
   "property": "C54",
   "status": "proved",
   "theorems": [
    "L1c.C54_nested",
    "L1c.C54_sequence"
   ],
   "note": ""
  },
  {
   "property": "C55",
   "status": "partial",
   "theorems": [
    "L1c.C55_matlab_partial",
    "L1c.C55_arguments",
    "L1c.C55_accepts",
    "L1c.C55_rejects",
    "L1c.C55_fraction_false",
    "L1c.C55_nan_false",
    "L1c.C55_overflow_false",
    "L1c.C55_example",
    "L1c.C55_python_partial",
    "L1c.C55_python_length_false",
    "L1c.C55_python_overflow_false"
   ],
   "note": "Matlab and Python l1qc_dct: every defined call reaches the library only with arguments meeting its preconditions, or ends in an error; integers in range accepted as k-1, integers out of range refused. False, shown: a fraction above mrow*mcol is cut off and accepted; NaN, huge numbers and overflowing sizes are undefined; lengths over 2^31-1 are cut to int."
  },
  {
   "property": "C56",
   "status": "partial",
   "theorems": [
    "L1c.C56_arguments",
    "L1c.C56_outcome_partial",
    "L1c.C56_shape_false",
    "L1c.C56_leak_false",
    "L1c.C56_rejects",
    "L1c.C56_overflow_false",
    "L1c.C56_objective_iff"
   ],
   "note": "Complete outcome when the two buffers are allocated. False, shown: the returned matrix has rows and columns swapped; the denoised problem is the one of the caller exactly for square images; a buffer leaks when only one is allocated; images with more pixels than an int are undefined."
  },
  {
   "property": "C57",
   "status": "partial",
   "theorems": [
    "L1c.C57_outcome_partial",
    "L1c.C57_document_partial",
    "L1c.C57_loads_partial",
    "L1c.C57_parse_failure_reported_false",
    "L1c.C57_buffer_released_false",
    "L1c.C57_two_gib_false",
    "L1c.C57_pipe_false",
    "L1c.C57_four_gib_false"
   ],
   "note": "Complete outcome description for every defined call. Missing/false, each with a theorem: unparsable text is reported as success with a NULL document, the buffer of an empty or short file leaks, 2 GiB files and pipes are undefined, files over 4 GiB are truncated silently."
  },
  {
   "property": "C58",
   "status": "partial",
   "theorems": [
    "L1c.C58_Rty_keeps_nan",
    "L1c.C58_Aty_uninitialised",
    "L1c.C58_Wtx_partial"
   ],
   "note": "False for Rty (NaN survives) and synthesis-mode Aty (uninitialised work array); proved for Wtx in any arithmetic and for all operators on finite memory (C26)."
  },
  {
   "property": "C59",
   "status": "proved",
   "theorems": [
    "L1c.C59_same_result",
    "L1c.C59_recovers",
    "L1c.C59_never_infeasible"
   ],
   "note": "Feasibility and reported norm in exact arithmetic with the documented FFTW transforms; independence of history for any arithmetic."
  },
  {
   "property": "C60",
   "status": "partial",
   "theorems": [
    "L1c.C60_number",
    "L1c.C60_array_partial",
    "L1c.C60_array_refused",
    "L1c.C60_int_array_partial",
    "L1c.C60_int_array_oom_false",
    "L1c.C60_mixed_array_false"
   ],
   "note": "Numbers in full; arrays whose elements are numbers. False: elements of another type are delivered as 0 with status 0; the int array writes through NULL when memory is refused."
  },
  {
   "property": "C61",
   "status": "partial",
   "theorems": [
    "L1c.C61_matlab_false",
    "L1c.C61_python",
    "L1c.C61_example"
   ],
   "note": "Python in full. False for Matlab, shown: after a failed setup the uninitialised buffer is returned without an error."
  },
  {
   "property": "C62",
   "status": "partial",
   "theorems": [
    "L1c.C62_memory",
    "L1c.C62_references_partial",
    "L1c.C62_references_false"
   ],
   "note": "C memory in full; references after a failed call, except when the result tuple itself cannot be made. False, shown: after every success image and dictionary keep one reference too many."
  },
  {
   "property": "C63",
   "status": "partial",
   "theorems": [
    "L1c.C63_outcome_partial",
    "L1c.C63_rejects",
    "L1c.C63_leak_false",
    "L1c.C63_overflow_false",
    "L1c.C63_finite_and_constant"
   ],
   "note": "Complete outcome when the two buffers are allocated; refusals. False, shown: a buffer leaks when only one of the two is allocated; sizes whose product exceeds an int are undefined."
  },
  {
   "property": "C64",
   "status": "partial",
   "theorems": [
    "L1c.C64_arguments",
    "L1c.C64_accepts",
    "L1c.C64_memory",
    "L1c.C64_outcome_partial",
    "L1c.C64_defined_partial",
    "L1c.C64_leak_false",
    "L1c.C64_calloc_false",
    "L1c.C64_synthesis_false"
   ],
   "note": "Accepted arguments (both directions), complete outcome, memory. False, shown: the set stays alive when one of the two arrays allocated after the setup cannot be had; the index array is used unchecked; synthesis with a positive weight always fails and blames the indices."
  },
  {
   "property": "C65",
   "status": "partial",
   "theorems": [
    "L1c.C65_outcome_partial",
    "L1c.C65_never_released_false",
    "L1c.C65_reference_false",
    "L1c.C65_synthesis_false",
    "L1c.C65_returns"
   ],
   "note": "Complete outcome of every defined call; when a call returns. False, shown: the set is never destroyed; the array keeps one reference too many; synthesis with a positive weight gives zeros without an exception."
  },
  {
   "property": "C66",
   "status": "partial",
   "theorems": [
    "L1c.C66_matlab_partial",
    "L1c.C66_matlab_zero_false",
    "L1c.C66_matlab_returns",
    "L1c.C66_python_partial",
    "L1c.C66_python_zero_false"
   ],
   "note": "Proved for exact arithmetic, both interfaces, with existence of the result. False, shown: if all samples vanish the image has no finite entry although the status is 0."
  },
  {
   "property": "C67",
   "status": "proved",
   "theorems": [
    "L1c.C67_steps",
    "L1c.C67_optimality",
    "L1c.C67_minimiser",
    "L1c.C67_full_length",
    "L1c.C67_closed"
   ],
   "note": "Exact arithmetic. Existence of a minimiser and a bound on its size for dictionaries that separate points, full length of the inner loops for nonpositive tolerance, a closed bound for one continuation step and one for any number of steps (`C67_steps`)."
  },
  {
   "property": "C68",
   "status": "proved",
   "theorems": [
    "L1c.C68_bounded_below",
    "L1c.C68_step",
    "L1c.C68_loop"
   ],
   "note": "Exact arithmetic. Lower bound on the maximal step, acceptance after at most one halving, decrease per step, lower bound of the objective, iteration bound."
  },
  {
   "property": "C69",
   "status": "proved",
   "theorems": [
    "L1c.C69_solve",
    "L1c.C69_auto",
    "L1c.C69_near_optimal",
    "L1c.C69_instance"
   ],
   "note": "Exact arithmetic. The limit on cg_tol (`cgLimit`) is positive but shrinks exponentially with the distance of the start from the central path; the iteration bound is explicit but far larger than the default newton_max_iter; `C69_instance` runs the theorem on a concrete problem."
  },
  {
   "property": "C70",
   "status": "proved",
   "theorems": [
    "L1c.C70_near_optimal",
    "L1c.C70_instance"
   ],
   "note": "Exact arithmetic, real transform set, cg_tol below `cgLimit`; `C70_instance` is a complete run."
  },
  {
   "property": "C71",
   "status": "proved",
   "theorems": [
    "L1c.C71_dsum",
    "L1c.C71_dnorm1",
    "L1c.C71_ddot",
    "L1c.C71_dnrm2_err",
    "L1c.C71_vcl_sum",
    "L1c.C71_vcl_logsum",
    "L1c.C71_dlogsum",
    "L1c.C71_daxpby_z",
    "L1c.C71_any_order",
    "L1c.C71_orders_agree",
    "L1c.C71_binary64",
    "L1c.C71_exact_false"
   ],
   "note": "Any arithmetic with the laws `FpModel`; `b64Model` proves them for round-to-nearest-even binary64 with subnormals and overflow. Fused multiply-add is not covered. `C71_exact_false` shows rounding really makes the two sums differ."
  },
  {
   "property": "C72",
   "status": "partial",
   "theorems": [
    "L1c.C72_outcome_partial",
    "L1c.C72_runs",
    "L1c.C72_failure_reported_false",
    "L1c.C72_short_data_false",
    "L1c.C72_released_false"
   ],
   "note": "False of the code in three ways, each proved: a failed recovery still exits with 0 (`C72_failure_reported_false`), an unreadable file leaves the text buffer allocated (`C72_released_false`), `pix_idx` longer than `b` is read past the end of `b` (`C72_short_data_false`). `C72_outcome_partial` gives the rest for every defined run; `C72_runs` says the program is defined exactly when the recovery is."
  },
  {
   "property": "C73",
   "status": "proved",
   "theorems": [
    "L1c.C73_converges",
    "L1c.C73_minimiser_unique",
    "L1c.C73_few_inaccurate",
    "L1c.C73_rate"
   ],
   "note": "Exact arithmetic, at least ten sweeps per iteration; convergence with fewer sweeps (the default of the bindings is 1) is not shown. The minimiser and its multipliers come from the dual problem over a compact box."
  },
  {
   "property": "C74",
   "status": "proved",
   "theorems": [
    "L1c.C74_rate",
    "L1c.C74_iterations",
    "L1c.C74_precond",
    "L1c.C74_solved_start",
    "L1c.C74_enough"
   ],
   "note": "Exact arithmetic. `C74_solved_start` shows that the exception (exact start) is real: every test then compares with a NaN. The preconditioned solver compares its first residual in another norm (C15), so its bound is on the reported figure."
  },
  {
   "property": "C75",
   "status": "partial",
   "theorems": [
    "L1c.C75_l1qc_names",
    "L1c.C75_nesta_names",
    "L1c.C75_l1qc_partial",
    "L1c.C75_nesta_partial",
    "L1c.C75_dct_mode_false",
    "L1c.C75_mode_false",
    "L1c.C75_synthesys_false",
    "L1c.C75_breg_optional_false",
    "L1c.C75_l1qc_default",
    "L1c.C75_nesta_default",
    "L1c.C75_documented_false"
   ],
   "note": "False in two points, each proved: `dct_mode` is accepted by `l1qc_dct_opts` and ignored (`C75_dct_mode_false`); documentation differs from the code (`C75_documented_false` for the default of l1_tol, `C75_mode_false`, `C75_synthesys_false`, `C75_breg_optional_false`). The rest holds as an equivalence. Options passed as a struct to inputParser are not modelled."
  },
  {
   "property": "C76",
   "status": "partial",
   "theorems": [
    "L1c.C76_l1qc",
    "L1c.C76_nesta",
    "L1c.C76_breg",
    "L1c.C76_type_error",
    "L1c.C76_calls",
    "L1c.C76_same_defaults_false"
   ],
   "note": "Signatures in full, as equivalences. The last sentence is false (`C76_same_defaults_false`). Integers beyond the range of double, for which Python raises, count as rounded."
  },
  {
   "property": "C77",
   "status": "partial",
   "theorems": [
    "L1c.C77_outcome_partial",
    "L1c.C77_references_false",
    "L1c.C77_leak_false",
    "L1c.C77_rejects",
    "L1c.C77_converges"
   ],
   "note": "False of the references and of memory in one case, each proved: the returned array has a reference too many (`C77_references_false`), and when only one of the two buffers is granted it is never released (`C77_leak_false`). `C77_outcome_partial` covers the calls whose two buffers are granted; the rest is in the other theorems."
  },
  {
   "property": "C78",
   "status": "proved",
   "theorems": [
    "L1c.C78_python",
    "L1c.C78_python_returns",
    "L1c.C78_matlab",
    "L1c.C78_matlab_returns"
   ],
   "note": "Exact arithmetic. The hypothesis on the options is `SharpOpts` (it excludes the defaults, whose l1_tol is positive and whose cgtol exceeds the guaranteed limit); a concrete call from each interface is shown to satisfy it. Objects of the Python interpreter are subject of C62."
  },
  {
   "property": "C79",
   "status": "proved",
   "theorems": [
    "L1c.C79_matlab",
    "L1c.C79_matlab_returns",
    "L1c.C79_python",
    "L1c.C79_python_returns"
   ],
   "note": "Exact arithmetic. The line variation is the one the code computes (see C29, where it differs from total variation at the borders). With a positive tolerance the guaranteed number of iterations per step is one, so the bound is weak then. The same call from each interface is shown to be at most 0.06 above the optimum."
  },
  {
   "property": "C80",
   "status": "partial",
   "theorems": [
    "L1c.C80_matlab_partial",
    "L1c.C80_matlab_returns_partial",
    "L1c.C80_python_partial",
    "L1c.C80_python_returns_partial",
    "L1c.C80_memory_false",
    "L1c.C80_python_memory_false",
    "L1c.C80_memory_instance",
    "L1c.C80_python_false"
   ],
   "note": "False in two ways, each proved: Python returns the DCT of the image instead of the image (`C80_python_false`, `C80_python_partial`), and if fresh memory holds NaN the result has no finite entry (`C80_memory_false`, `C80_python_memory_false`, `C80_memory_instance`). Proved for Matlab when fresh memory holds finite numbers. Exact arithmetic."
  },
  {
   "property": "C81",
   "status": "partial",
   "theorems": [
    "L1c.C81_usable",
    "L1c.C81_same_l1qc",
    "L1c.C81_keeps",
    "L1c.C81_leaves",
    "L1c.C81_memory_false",
    "L1c.C81_oracle",
    "L1c.C81_l1qc_python",
    "L1c.C81_l1qc_matlab",
    "L1c.C81_nesta_python",
    "L1c.C81_nesta_matlab",
    "L1c.C81_unbounded_false"
   ],
   "note": "False for memory: every image nesta_dctTV returns to Python leaves four arrays of at least its size in the library for good (`C81_leaves`, `C81_keeps`, `C81_memory_false`, `C81_unbounded_false`). The rest is proved: usable after any calls (`C81_usable`), same results (`C81_same_l1qc`), success and near-optimality at any point of any session (`C81_l1qc_python`, `C81_l1qc_matlab`, `C81_nesta_python`, `C81_nesta_matlab`, exact arithmetic). Calls of nesta_dctTV with n_continue = INT_MAX are excluded (counter overflow)."
  },
  {
   "property": "C82",
   "status": "partial",
   "theorems": [
    "L1c.C82_python",
    "L1c.C82_matlab",
    "L1c.C82_interfaces",
    "L1c.C82_synthesis_false"
   ],
   "note": "Proved in analysis mode, for Python, for Matlab and between the two. False in synthesis mode (`C82_synthesis_false`: the transforms read an array nothing was written to). Calls with n_continue = INT_MAX are excluded (counter overflow); Python arrays longer than INT_MAX are excluded."
  },
  {
   "property": "C83",
   "status": "partial",
   "theorems": [
    "L1c.C83_scale",
    "L1c.C83_offset_partial",
    "L1c.C83_bright_stops",
    "L1c.C83_offset_false"
   ],
   "note": "Scaling and sign in full (C83_scale). Brightness only with the stopping test off (C83_offset_partial); with it on the claim is false: every image made bright enough is returned after two iterations (C83_bright_stops), with a concrete image on which the results differ (C83_offset_false). Exact arithmetic."
  },
  {
   "property": "C84",
   "status": "proved",
   "theorems": [
    "L1c.C84_matlab",
    "L1c.C84_python"
   ],
   "note": "Both interfaces, any sessions, both calls assumed to return (C81 says when they do). Exact arithmetic. Sign and mirror images are claimed without TV terms only: setup takes absolute values of the DCT coefficients only, and the differences are not mirror symmetric."
  },
  {
   "property": "C85",
   "status": "proved",
   "theorems": [
    "L1c.C85_library",
    "L1c.C85_python",
    "L1c.C85_matlab"
   ],
   "note": "C function, Python and Matlab (two outputs), any sessions, both calls assumed to return an image with status 0 (C78 and C81 say when they do). Exact arithmetic; cg_maxiter = INT_MAX is excluded (counter overflow). Scaling is not claimed: the first barrier weight is max((2m+1)/norm, 1), which does not scale."
  },
  {
   "property": "C86",
   "status": "proved",
   "theorems": [
    "L1c.C86_python_one_image",
    "L1c.C86_python_two_images",
    "L1c.C86_average_and_range",
    "L1c.C86_two_images",
    "L1c.C86_mirrored",
    "L1c.C86_transposed"
   ],
   "note": "C function and (except mirrored and transposed images) Python, with tol <= 0 and at least ten sweeps, exact arithmetic. All but B/eps values of max_iter, with B = tvBudget (C73) for one image and the sum of both for two; for mirrored and transposed images twice B. Nothing is claimed for the excluded values of max_iter, nor for runs stopped by tol > 0."
  },
  {
   "property": "C87",
   "status": "proved",
   "theorems": [
    "L1c.C87_one_weight",
    "L1c.C87_two_weights"
   ],
   "note": "C function with tol <= 0 and at least ten sweeps, exact arithmetic; all but B/eps values of max_iter as in C86. Two weights: B is the sum for both."
  },
  {
   "property": "C88",
   "status": "proved",
   "theorems": [
    "L1c.C88_Dx",
    "L1c.C88_Dy",
    "L1c.C88_back_meaning",
    "L1c.C88_DxT",
    "L1c.C88_DyT",
    "L1c.C88_DxTDx",
    "L1c.C88_DyTDy",
    "L1c.C88_Dx_unit",
    "L1c.C88_Dy_unit",
    "L1c.C88_shrink",
    "L1c.C88_second_difference_false"
   ],
   "note": "Bounds are for pixels whose computed value is finite. No contraction of a*b+c. The sign of zero is not modelled. C88_second_difference_false shows that the exact identity of C09 does not carry over to binary64."
  },
  {
   "property": "C89",
   "status": "proved",
   "theorems": [
    "L1c.C89_negative",
    "L1c.C89_negation"
   ],
   "note": "The model has one zero, so equality is up to the sign of zero. The squared norm from BLAS is modelled as summed in order; both runs sum the same squares. For negative mu the threshold is negative and the symmetry is not claimed."
  },
  {
   "property": "C90",
   "status": "proved",
   "theorems": [
    "L1c.C90_nan_pixel",
    "L1c.C90_whole_image"
   ],
   "note": "Holds for every NaN payload: the model has one NaN."
  },
  {
   "property": "C91",
   "status": "proved",
   "theorems": [
    "L1c.C91_cg",
    "L1c.C91_pcg",
    "L1c.C91_nesta"
   ],
   "note": "Up to the sign of zero (the model has one zero). With TV terms the start value of NESTA depends on the sign of the samples (C41_start_false) and the symmetry is not claimed. l1qc is not claimed: it sums three terms in an order that the change of sign exchanges."
  },
  {
   "property": "C92",
   "status": "proved",
   "theorems": [
    "L1c.C92_nan",
    "L1c.C92_tiny",
    "L1c.C92_huge"
   ],
   "note": "Complete for NaN; for tiny and huge data from the zero start. BLAS inner products are modelled as summed in order; the conclusion holds for any order since all terms vanish or one overflows. FMA or scaled summation inside BLAS is not modelled."
  },
  {
   "property": "C93",
   "status": "proved",
   "theorems": [
    "L1c.C93_cgsolve",
    "L1c.C93_precond",
    "L1c.C93_solves",
    "L1c.C93_in_place",
    "L1c.C93_overlap_false"
   ],
   "note": "cblas_daxpy is the loop y[i] = a*x[i] + y[i]; BLAS calls are loops in any order of the elements (dcopy, daxpy) or in index order (ddot). Operators that allocate are outside OpImpl."
  },
  {
   "property": "C94",
   "status": "proved",
   "theorems": [
    "L1c.C94_refines",
    "L1c.C94_out_of_memory",
    "L1c.C94_first_alloc_failure_false",
    "L1c.C94_defined",
    "L1c.C94_feasible_or_unchanged"
   ],
   "note": "Exact arithmetic (vector sums in any order give the same value there). Stated for runs of the solver on values that are defined; C94_defined gives conditions on the options under which they are. Failure of the first allocation is undefined behaviour (C94_first_alloc_failure_false, the defect of C51). Operators that allocate are outside OpImpl; messages (verbosity) are not modelled."
  },
  {
   "property": "C95",
   "status": "partial",
   "theorems": [
    "L1c.C95_refines",
    "L1c.C95_out_of_memory",
    "L1c.C95_inconsistent_leaks",
    "L1c.C95_window_alloc_false",
    "L1c.C95_defined",
    "L1c.C95_feasible"
   ],
   "note": "C95_refines, C95_out_of_memory, C95_defined and C95_feasible are complete; what is missing is false of the code: with missing operators ten blocks leak (C95_inconsistent_leaks) and a failing eleventh allocation is undefined behaviour (C95_window_alloc_false), the defects of C43. Stated for runs of NESTA on values that are defined; C95_defined gives conditions under which they are. Vector sums are sequential (exact arithmetic gives the same value in any order). Operators that allocate are outside NOpImpl; messages are not modelled."
  },
  {
   "property": "C96",
   "status": "proved",
   "theorems": [
    "L1c.C96_dct1",
    "L1c.C96_dct2",
    "L1c.C96_matrix",
    "L1c.C96_dct_stateless",
    "L1c.C96_index_out_of_range_false",
    "L1c.C96_matrix_solved"
   ],
   "note": "The sample positions are a function from int to int, not an array in memory (no function here writes it). FFTW commands are assumed to fill the output with the transform of the input and to change nothing else (FftwImpl); for every transform such a command exists (copyThrough_impl). Setup and destroy are in Model/World. Overlap of the argument with the result or the scratch buffers is excluded."
  },
  {
   "property": "C97",
   "status": "partial",
   "theorems": [
    "L1c.C97_persists",
    "L1c.C97_independent_partial",
    "L1c.C97_adjoint_iff_partial",
    "L1c.C97_zero_data_false",
    "L1c.C97_never_adjoint_false"
   ],
   "note": "False of the code as FFTW documents its planner: C97_adjoint_iff_partial gives the exact condition, C97_zero_data_false and C97_never_adjoint_false the consequences; C97_independent_partial is the part that holds, C97_persists that nothing clears the left-overs. Exact arithmetic for the adjoint, any scalar type for the other two. All other properties of the DCT sets (C21-C25 and those built on them) assume that planning leaves zeros at the unsampled positions."
  },
  {
   "property": "C98",
   "status": "partial",
   "theorems": [
    "L1c.C98_rejects",
    "L1c.C98_overflow_false",
    "L1c.C98_leak_false",
    "L1c.C98_recovered",
    "L1c.C98_out_of_memory_partial",
    "L1c.C98_first_alloc_failure_false",
    "L1c.C98_recovers"
   ],
   "note": "C98_recovered and C98_recovers are complete for granted requests; C98_out_of_memory_partial covers refused requests except the leak of the two-dimensional setup (C98_leak_false) and the undefined first request of the solver (C98_first_alloc_failure_false). C98_overflow_false: the size product. FFTW plans are blocks of length 0 and planning leaves the buffers alone (C97 says what happens otherwise); no DCT set existed before the call."
  },
  {
   "property": "C99",
   "status": "partial",
   "theorems": [
    "L1c.C99_functions",
    "L1c.C99_analysis_call",
    "L1c.C99_synthesis_call",
    "L1c.C99_analysis_defined_partial",
    "L1c.C99_synthesis_defined_partial",
    "L1c.C99_defined_false",
    "L1c.C99_near_best"
   ],
   "note": "False when the eleventh request (the stopping window) is the first to be refused: C99_defined_false; the _defined_partial theorems exclude that case. C99_functions and C99_near_best are complete. FFTW commands are assumed to fill the output with the transform of the input. The argument and the result must not overlap each other or the data of the set; the weights are two doubles, not addresses."
  },
  {
   "property": "C100",
   "status": "partial",
   "theorems": [
    "L1c.C100_rejects",
    "L1c.C100_overflow_false",
    "L1c.C100_result",
    "L1c.C100_out_of_memory_partial",
    "L1c.C100_leak_false",
    "L1c.C100_setup_leak_false",
    "L1c.C100_last_request_false",
    "L1c.C100_synthesis_false",
    "L1c.C100_near_best"
   ],
   "note": "False of the code for some refused requests (C100_leak_false, C100_setup_leak_false, C100_last_request_false), for overflowing sizes (C100_overflow_false) and for synthesis mode with a positive weight (C100_synthesis_false); C100_out_of_memory_partial covers the other refused requests. C100_rejects, C100_result and C100_near_best are complete. Parsing, the index conversion and pix_idx, and mxCreateDoubleMatrix are not part of this model (C64 has them on values). FFTW commands are assumed to fill the output with the transform of the input and the planner to leave the arrays alone."
  },
  {
   "property": "C101",
   "status": "partial",
   "theorems": [
    "L1c.C101_name_false",
    "L1c.C101_outcome_partial",
    "L1c.C101_short_false",
    "L1c.C101_count_false",
    "L1c.C101_denoises"
   ],
   "note": "False of the code: against the library built from src/ every call raises (C101_name_false). C101_outcome_partial and C101_denoises hold for a library that has the name; C101_short_false and C101_count_false show what the script does not check. Other Python types for the numbers and the text printed are not modelled; memory kept alive by a traceback is taken to be released."
  },
  {
   "property": "C102",
   "status": "partial",
   "theorems": [
    "L1c.C102_common_data",
    "L1c.C102_as_alone",
    "L1c.C102_denoise",
    "L1c.C102_shared_set_false",
    "L1c.C102_shared_set_wrong"
   ],
   "note": "C102_common_data is the general theorem (C102_as_alone without common data), C102_denoise the denoiser. For threads that share a transform set the claim is false of the code: C102_shared_set_false, C102_shared_set_wrong. The allocator is taken to be thread safe (each caller draws block names from a pool of its own)."
  },
  {
   "property": "C103",
   "status": "partial",
   "theorems": [
    "L1c.C103_l1qc_rejects",
    "L1c.C103_l1qc_overflow_false",
    "L1c.C103_l1qc_no_array",
    "L1c.C103_l1qc",
    "L1c.C103_l1qc_out_of_memory_partial",
    "L1c.C103_l1qc_recovers",
    "L1c.C103_nesta_rejects",
    "L1c.C103_nesta_no_array",
    "L1c.C103_nesta_no_set",
    "L1c.C103_nesta",
    "L1c.C103_nesta_synthesis_false",
    "L1c.C103_nesta_near_best_partial"
   ],
   "note": "C103_l1qc, C103_l1qc_recovers and C103_nesta, C103_nesta_near_best_partial are the main theorems. Release of memory is false of nesta_dctTV (seven new blocks in C103_nesta and C103_nesta_near_best_partial, one of them the result), synthesis with weights is false (C103_nesta_synthesis_false), sizes whose product overflows are undefined (C103_l1qc_overflow_false). Refused requests inside l1qc_dct: C103_l1qc_out_of_memory_partial, missing the cases of C98_leak_false and C98_first_alloc_failure_false."
  },
  {
   "property": "C104",
   "status": "partial",
   "theorems": [
    "L1c.C104_vectors",
    "L1c.C104_differences",
    "L1c.C104_in_place_false",
    "L1c.C104_call",
    "L1c.C104_denoise",
    "L1c.C104_matrix_shared",
    "L1c.C104_matrix_AtAx_false",
    "L1c.C104_dct_Aty_false"
   ],
   "note": "C104_vectors (exact condition), C104_differences, C104_call (every call described by a CSpec), C104_denoise and C104_matrix_shared are the positive part. False of the code: C104_in_place_false (the parameters are `restrict`, so such a call is outside the contract), C104_matrix_AtAx_false, C104_dct_Aty_false. Reductions (dlogsum) are modelled by the value for any partition into partial sums, not as memory accesses."
  },
  {
   "property": "C105",
   "status": "partial",
   "theorems": [
    "L1c.C105_rejects",
    "L1c.C105_overflow_false",
    "L1c.C105_no_array",
    "L1c.C105_bad_position",
    "L1c.C105_nan_position_false",
    "L1c.C105_result",
    "L1c.C105_failure_not_reported_false",
    "L1c.C105_first_request_false",
    "L1c.C105_recovers"
   ],
   "note": "C105_result and C105_recovers are the main theorems; C105_rejects, C105_no_array, C105_bad_position cover the errors. False of the code: C105_failure_not_reported_false (uninitialised memory is returned when the solver runs out of memory), the two leaked blocks when Matlab cannot allocate the result (in C105_result), C105_nan_position_false, C105_overflow_false, C105_first_request_false."
  },
  {
   "property": "C106",
   "status": "partial",
   "theorems": [
    "L1c.C106_tv",
    "L1c.C106_tv_unaligned_false",
    "L1c.C106_l1qc_newton",
    "L1c.C106_l1qc_start_unaligned_false",
    "L1c.C106_image_recovery",
    "L1c.C106_image_output_false",
    "L1c.C106_nesta_window_false",
    "L1c.C106_nesta_data_unaligned_false",
    "L1c.C106_nesta_partial",
    "L1c.C106_operators",
    "L1c.C106_python",
    "L1c.C106_matlab",
    "L1c.C106_matlab_tv",
    "L1c.C106_python_tv",
    "L1c.C106_python_nesta_false",
    "L1c.C106_matlab_nesta_partial",
    "L1c.C106_python_nesta_partial",
    "L1c.C106_matlab_nesta_false",
    "L1c.C106_python_nesta_call_false"
   ],
   "note": "C106_tv, C106_l1qc_newton, C106_image_recovery, C106_python, C106_matlab, C106_python_tv, C106_matlab_tv and C106_operators are the positive part, C106_nesta_partial what remains for NESTA (C106_python_nesta_partial, C106_matlab_nesta_partial from the bindings, where the arrays of the caller may be anywhere). False of the code: C106_nesta_window_false (for every caller; C106_python_nesta_call_false and C106_matlab_nesta_false for whole calls from Python and Matlab), C106_nesta_data_unaligned_false, C106_tv_unaligned_false, C106_l1qc_start_unaligned_false, C106_image_output_false (for an FFTW that does not accept the array). Addresses of blocks are given from outside and every promise of a routine is counted when the loop or function is entered."
  },
  {
   "property": "C107",
   "status": "partial",
   "theorems": [
    "L1c.C107_repeated",
    "L1c.C107_interfaces",
    "L1c.C107_exact",
    "L1c.C107_all_pixels_false",
    "L1c.C107_nesta"
   ],
   "note": "C107_interfaces (C, Python and Matlab, l1qc_dct, whenever the recovery of the data is defined), C107_exact (exact arithmetic: always defined and successful), C107_repeated (two C processes) and C107_nesta (every arithmetic). False of the code: C107_all_pixels_false."
  },
  {
   "property": "C108",
   "status": "partial",
   "theorems": [
    "L1c.C108_symmetric",
    "L1c.C108_nonneg",
    "L1c.C108_equal",
    "L1c.C108_zero_false",
    "L1c.C108_zero_partial",
    "L1c.C108_zero_iff",
    "L1c.C108_rel_equal",
    "L1c.C108_rel_small_false",
    "L1c.C108_rel_large_false",
    "L1c.C108_rel_huge_false"
   ],
   "note": "C108_symmetric, C108_nonneg, C108_equal, C108_rel_equal, C108_zero_iff and C108_zero_partial are the positive part. False of the code: C108_zero_false, C108_rel_small_false, C108_rel_large_false, C108_rel_huge_false. The sign of zero is not modelled."
  },
  {
   "property": "C109",
   "status": "partial",
   "theorems": [
    "L1c.C109_black_iff",
    "L1c.C109_python_black_iff",
    "L1c.C109_matlab_black_iff",
    "L1c.C109_python_large_false",
    "L1c.C109_matlab_large_false",
    "L1c.C109_zero_weight_false",
    "L1c.C109_two_iterations",
    "L1c.C109_black_false",
    "L1c.C109_stop_partial",
    "L1c.C109_small_weight_false",
    "L1c.C109_large_weight_false"
   ],
   "note": "C109_two_iterations, C109_stop_partial and the result in C109_black_false are the positive part; C109_black_iff gives the exact range of weights for which a black image stays black, and C109_python_black_iff and C109_matlab_black_iff carry it over to the interfaces. False of the code: the stopping test ends the run on a black image (C109_black_false), and a black image stays black for every positive weight (C109_small_weight_false), and a large weight gives a finite result (C109_large_weight_false, C109_python_large_false, C109_matlab_large_false: NaN for every image from 2^1023 on), and weight zero is rejected (C109_zero_weight_false)."
  }
 ]
}