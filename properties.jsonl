{"id": "C01", "title": "2-D allocation is all-or-nothing", "statement": "l1c_malloc_double_2D / l1c_calloc_double_2D either return a table of exactly nrow freshly allocated, pairwise distinct live blocks (each able to hold ncol doubles, and zero filled for calloc), or return NULL and leave the set of live blocks exactly as it was; l1c_free_double_2D of a returned table restores the set of live blocks to what it was before the allocation, never freeing a block twice.", "quantifier": "for every nrow >= 0 and ncol, and every pattern of allocator successes and failures (any allocation may fail)", "why_tests_cant": "the failure can strike at any of nrow+1 allocations; the repo's own TODO says the inner-malloc failure path is untested", "anchors": ["src/l1c_memory.c: l1c_malloc_double_2D, l1c_calloc_double_2D, l1c_free_double_2D"]}
{"id": "C02", "title": "No undersized buffers from sign or size wrap-around", "statement": "If l1c_malloc_double(N) or l1c_calloc_double(N) returns non-NULL for N >= 0 the block really holds N doubles (the byte count never wraps), and for every negative N the request is above any allocatable size, so NULL is returned.", "quantifier": "for every int N and every allocator that never serves more than PTRDIFF_MAX bytes", "why_tests_cant": "2^32 values of N crossed with allocator behaviour", "anchors": ["src/l1c_memory.c: l1c_malloc_double, l1c_calloc_double"]}
{"id": "C03", "title": "Element-wise vector kernels are exact per index, stay in their buffers and are schedule independent", "statement": "l1c_init_vec, l1c_daxpby, l1c_daxpy_z, l1c_daxpby_z, l1c_dxmuly_z, l1c_abs_vec write exactly their documented value at every index 0..N-1 of the output, modify nothing else, never access memory out of bounds, and produce that same result under every interleaving of the OpenMP threads.", "quantifier": "for every N, every scalar and vector contents (any scalar arithmetic, including IEEE), every interleaving of loop iterations at single read/write granularity", "why_tests_cant": "thread interleavings are not controllable from a unit test; a data race can stay hidden for years", "anchors": ["src/l1c_math.c: l1c_init_vec, l1c_daxpby, l1c_daxpy_z, l1c_daxpby_z, l1c_dxmuly_z, l1c_abs_vec"]}
{"id": "C04", "title": "Reductions do not depend on lanes or threads", "statement": "l1c_dsum, l1c_dlogsum, l1c_dnorm1 and the vectorised vcl_sum, vcl_logsum, vcl_dxMy_pz return the mathematical sum of exactly the N elements: the 4-lane blocking plus scalar tail, and any partition of the loop among threads, give the same value, and they read exactly the first N elements of their arguments.", "quantifier": "for every N (including N not a multiple of 4 and N <= 0), every vector, every split into thread chunks, in exact arithmetic extended with inf and NaN", "why_tests_cant": "tail handling and chunking depend on N mod 4 and on thread count; tests sample a few N", "anchors": ["src/vcl/vcl_math.cpp: vcl_sum, vcl_logsum, vcl_dxMy_pz", "src/l1c_math.c: l1c_dsum, l1c_dlogsum, l1c_dnorm1"]}
{"id": "C05", "title": "l1c_max_vec is the maximum", "statement": "For n >= 1 and NaN-free data l1c_max_vec returns an element of the vector that is >= every element; it returns NaN for n <= 0; with NaN data the result is NaN exactly when the first element is NaN.", "quantifier": "for every n and every vector over the extended doubles", "why_tests_cant": "must hold for every ordering of values and NaN placement", "anchors": ["src/l1c_math.c: l1c_max_vec"]}
{"id": "C06", "title": "Error norms are metrics", "statement": "l1c_dnrm2_err(n,x,y) is the Euclidean distance (0 iff x and y agree on the first n entries, symmetric, triangle inequality) and l1c_dnrm2_rel_err is that distance divided by the norm of y; for y = 0 it is +inf when x differs from y and NaN when x = y = 0.", "quantifier": "for every n and all vectors (exact arithmetic with inf/NaN)", "why_tests_cant": "universally quantified over real vectors; degenerate denominators are easily missed", "anchors": ["src/l1c_math.c: l1c_dnrm2_err, l1c_dnrm2_rel_err"]}
{"id": "C07", "title": "Difference operators compute the documented stencil", "statement": "l1c_Dx / l1c_Dy on an n by m row-major image write alpha times the forward difference along the row / column, 0 in the last column / row, for every pixel, write nothing else, perform no out-of-bounds access and give the same result under every thread interleaving.", "quantifier": "for every n >= 1, m >= 1 with n*m representable, every image, every alpha, any scalar arithmetic, every thread interleaving", "why_tests_cant": "tests use one or two image sizes; boundary rows/columns and schedules cannot be enumerated", "anchors": ["src/TV.c: l1c_Dx, l1c_Dy, ddiff_z"]}
{"id": "C08", "title": "Transposed difference operators are the adjoints", "statement": "<Dx u, v> = <u, DxT v> and <Dy u, v> = <u, DyT v> for l1c_Dx/l1c_DxT and l1c_Dy/l1c_DyT with the same alpha.", "quantifier": "for every image size with m >= 2 (resp. n >= 1), all images u, v, all real alpha", "why_tests_cant": "a bilinear identity over all vectors and all sizes; tests compare against stored data for fixed sizes", "anchors": ["src/TV.c: l1c_Dx, l1c_DxT, l1c_Dy, l1c_DyT"]}
{"id": "C09", "title": "Second-difference operators are the normal operators", "statement": "l1c_DxTDx equals l1c_DxT after l1c_Dx and l1c_DyTDy equals l1c_DyT after l1c_Dy.", "quantifier": "for every image size, image and real alpha", "why_tests_cant": "all sizes; the boundary case of a one-row image differs and no test covers it", "anchors": ["src/TV.c: l1c_DxTDx, l1c_DyTDy, ddiff2_z"]}
{"id": "C10", "title": "Difference operators are bounded by 2|alpha|", "statement": "The 2-norm of Dx u, Dy u, DxT u and DyT u is at most 2|alpha| times the 2-norm of u.", "quantifier": "for every size, image and real alpha", "why_tests_cant": "an operator-norm bound is a statement about all vectors; step sizes in NESTA rely on it", "anchors": ["src/TV.c: l1c_Dx, l1c_Dy, l1c_DxT, l1c_DyT", "src/dct_tv_transforms.c: l1c_setup_dctTV_transforms"]}
{"id": "C11", "title": "Difference operators are memory safe on every image shape", "statement": "Calling any l1c_D* operator on an n by m image with buffers of n*m doubles never accesses memory outside the buffers.", "quantifier": "for every n >= 1, m >= 1", "why_tests_cant": "single-row / single-column images are never exercised; the accesses are silent in C", "anchors": ["src/TV.c: ddiff_z, ddiffT_z, ddiff2_z, l1c_Dy, l1c_DyT, l1c_DyTDy"]}
{"id": "C12", "title": "CG reports the residual of the vector it returns and never makes things worse", "statement": "On return from l1c_cgsolve, cgres equals ||b - A x||/||b|| of the returned x, and is no larger than that of the initial guess and of every iterate visited.", "quantifier": "for every symmetric or non-symmetric linear operator, every b != 0, every initial guess, every max_iter and tolerance (exact arithmetic extended by inf and NaN, with breakdown allowed)", "why_tests_cant": "must hold for all operators including indefinite ones and along every iteration history", "anchors": ["src/cgsolve.c: l1c_cgsolve"]}
{"id": "C13", "title": "CG iteration accounting and operator-call budget", "statement": "l1c_cgsolve and l1c_cgsolve_diag_precond always terminate, apply the operator at most max_iter + 1 times, and report a cgiter in 1..max_iter for max_iter >= 1; if cgiter < max_iter the loop stopped because the residual test passed.", "quantifier": "for every operator, right-hand side and scalar arithmetic including NaN results", "why_tests_cant": "termination for all inputs, including those that produce NaN", "anchors": ["src/cgsolve.c: l1c_cgsolve, l1c_cgsolve_diag_precond"]}
{"id": "C14", "title": "CG solves SPD systems exactly in at most N steps", "statement": "For a symmetric positive definite operator on R^N and exact arithmetic, residuals are pairwise orthogonal and search directions pairwise A-conjugate, so with max_iter >= N the x returned by l1c_cgsolve satisfies A x = b, unless it stopped earlier because the reported residual was already below a positive tolerance.", "quantifier": "for every N, every SPD operator, every b != 0 and initial guess", "why_tests_cant": "a statement about all SPD operators of all dimensions", "anchors": ["src/cgsolve.c: l1c_cgsolve"]}
{"id": "C15", "title": "Preconditioned CG reports the residual of the vector it returns", "statement": "On return from l1c_cgsolve_diag_precond, cgres equals ||b - A x||/||b|| for the returned x and that residual is the smallest among visited iterates.", "quantifier": "for every SPD operator, positive diagonal preconditioner, b, initial guess and iteration budget", "why_tests_cant": "the initial comparison value uses a different norm than the loop, which only shows for particular preconditioners", "anchors": ["src/cgsolve.c: l1c_cgsolve_diag_precond"]}
{"id": "C16", "title": "CG with zero right-hand side and nonzero initial guess", "statement": "With b = 0, l1c_cgsolve given enough iterations returns a solution of A x = 0, like for any other right-hand side.", "quantifier": "for every operator and initial guess x0", "why_tests_cant": "needs the 0-divisor branch followed through all iterations", "anchors": ["src/cgsolve.c: l1c_cgsolve"]}
{"id": "C17", "title": "Line search either decreases the objective or changes nothing", "statement": "l1c_linesearch_xu returns status 0 only if the objective at the new point is a non-NaN value f <= f0 + alpha*step*g, where step is s times a power of beta with exponent < 32, the new point is exactly (x + step*dx, u + step*du), and the reported objective is f; otherwise status is 1 and x and u are bit-for-bit unchanged; the objective is evaluated at most 32 times and steps are tried from largest exponent 0 up, the first acceptable one is taken.", "quantifier": "for every objective function (including ones returning NaN or inf, or writing to the caller's f0 storage), every vector, every parameter, any floating-point arithmetic", "why_tests_cant": "quantifies over all objective functions", "anchors": ["src/linesearch.c: l1c_linesearch_xu"]}
{"id": "C18", "title": "Line search tolerates objectives that overwrite f0", "statement": "The sufficient-decrease test compares against the objective value on entry even when the objective callback overwrites the memory fx0 points to.", "quantifier": "for every objective callback that writes its value to the fx0 location (as the l1qc solver does)", "why_tests_cant": "depends on aliasing between callback state and an in/out argument", "anchors": ["src/linesearch.c: l1c_linesearch_xu, l1c_linesearch", "src/l1qc_newton.c: l1c_l1qc_newton"]}
{"id": "C19", "title": "DCT setup accepts exactly the valid argument sets", "statement": "l1c_setup_dct_transforms reports success only if n, mrow, mcol are positive and every pix_idx is in 0..mrow*mcol-1, reports L1C_INVALID_ARGUMENT otherwise, and never reports L1C_INCONSISTENT_ARGUMENTS; the accepted transform has n measurements of a mrow*mcol signal.", "quantifier": "for all n, mrow, mcol with mrow*mcol representable, every index list, every dct mode value and every allocation outcome", "why_tests_cant": "all integer argument combinations", "anchors": ["src/dct_transforms.c: l1c_setup_dct_transforms, check_pix_idx"]}
{"id": "C20", "title": "DCT setup size arithmetic does not overflow", "statement": "l1c_setup_dct_transforms and l1qc_dct never evaluate an overflowing mrow*mcol.", "quantifier": "for all positive int mrow, mcol", "why_tests_cant": "needs products above 2^31", "anchors": ["src/dct_transforms.c: l1c_setup_dct_transforms", "src/l1qc_dct.c: l1qc_dct"]}
{"id": "C21", "title": "The DCT basis is orthonormal", "statement": "For the 1-D and 2-D DCT transform sets, Mty(Mx(x)) = x, Mx(Mty(y)) = y, <Mx x, y> = <x, Mty y>, and Mx, Mty preserve the 2-norm.", "quantifier": "for every signal length m >= 1 (every mrow, mcol >= 1 in 2-D) and all real vectors", "why_tests_cant": "an identity over all sizes and vectors; wrong scaling of one row/column or size-dependent scaling could pass a few sizes", "anchors": ["src/dct1.c: dct_Mx, dct_Mty", "src/dct2.c: dct2_Mx, dct2_Mty"]}
{"id": "C22", "title": "Measurement operator and its transpose are adjoint", "statement": "<Ax x, y> = <x, Aty y> for the transform sets built by l1c_setup_dct_transforms.", "quantifier": "for every signal size, every accepted index list, all real vectors", "why_tests_cant": "depends on the index list (repeated indices) for all vectors", "anchors": ["src/dct1.c: dct_EMx, dct_MtEty, dct_Ety", "src/dct2.c: dct2_EMx, dct2_MtEty, dct2_Ety"]}
{"id": "C23", "title": "AtAx is Aty after Ax", "statement": "For the DCT transform sets and the matrix transform set AtAx(x) equals Aty(Ax(x)).", "quantifier": "for every size, index list (matrix) and real vector", "why_tests_cant": "the fused implementation is separate code; equality needed for all inputs", "anchors": ["src/dct1.c: dct_MtEt_EMx", "src/dct2.c: dct2_MtEt_EMx_new", "src/matrix_transforms.c: AtAx"]}
{"id": "C24", "title": "Measurement rows are orthonormal", "statement": "Ax(Aty(y)) = y for the DCT transform sets (the assumption NESTA's projection makes).", "quantifier": "for every size, every accepted index list, all y", "why_tests_cant": "fails only for repeated indices, which setup accepts", "anchors": ["src/dct1.c", "src/dct2.c", "src/nesta.c: l1c_nesta_project"]}
{"id": "C25", "title": "Transforms are history independent", "statement": "The result of Ax, Aty, AtAx, Mx, Mty depends only on the argument of that call, not on the sequence of earlier calls to any of the functions of the same transform set, and the argument vectors are unchanged afterwards.", "quantifier": "for every sequence of calls (any length, any order, any vectors)", "why_tests_cant": "the implementation keeps persistent scratch buffers that are only partly rewritten; all call histories must be considered", "anchors": ["src/dct1.c: dct_Ety_sparse, dct_MtEty, dct_MtEt_EMx", "src/dct2.c: dct2_Ety_sparse"]}
{"id": "C26", "title": "DCT-TV dictionary operators are adjoint and correctly shaped", "statement": "For sets from l1c_setup_dctTV_transforms, <Wz z, x> = <z, Wtx x> and <Ax x, y> = <x, Aty y>, with the lengths advertised in n, m, p, q, in both analysis and synthesis mode and for every combination of zero/nonzero alp_v, alp_h.", "quantifier": "for every accepted argument set and all real vectors", "why_tests_cant": "2 modes x 4 weight patterns x all sizes x all vectors", "anchors": ["src/dct_tv_transforms.c: Wv, Wtx, Av, Aty, Identity, l1c_setup_dctTV_transforms"]}
{"id": "C27", "title": "norm_W bounds the dictionary norm", "statement": "||Wz z|| <= norm_W * ||z|| for every transform set the library can build, so that norm_W^2/mu is a valid Lipschitz constant for NESTA.", "quantifier": "for every transform set and every real z", "why_tests_cant": "operator-norm bound over all vectors", "anchors": ["src/dct_tv_transforms.c: l1c_setup_dctTV_transforms", "src/matrix_transforms.c: l1c_setup_matrix_transforms"]}
{"id": "C28", "title": "DCT-TV setup validation", "statement": "l1c_setup_dctTV_transforms succeeds only for n, mrow, mcol > 0, nonnegative weights, mrow, mcol > 2 whenever a weight is positive, and in-range indices; a rejected call leaves the behaviour of a previously set up, still live transform set unchanged.", "quantifier": "for all argument values and all previously live transform sets", "why_tests_cant": "all argument values; interaction of a failing call with earlier state", "anchors": ["src/dct_tv_transforms.c: l1c_setup_dctTV_transforms"]}
{"id": "C29", "title": "Analysis-mode regulariser is DCT + TV", "statement": "In analysis mode ||Wtx x||_1 equals ||DCT x||_1 + alp_v*||vertical differences of x||_1 + alp_h*||horizontal differences of x||_1, as the public documentation states; in particular constant images have zero TV part.", "quantifier": "for every image and weights", "why_tests_cant": "about all images; the boundary terms of the transposed operator are easy to miss", "anchors": ["src/dct_tv_transforms.c: Wtx", "include/l1c.h", "interfaces/python/l1cPy.c: nesta_dctTV doc string"]}
{"id": "C30", "title": "Matrix transforms are a matrix and its transpose", "statement": "After l1c_setup_matrix_transforms with an n by m row-major A: Ax computes the matrix-vector product, Aty the transposed product, AtAx their composition, for n,m > 0, and invalid sizes are rejected with L1C_INVALID_ARGUMENT.", "quantifier": "for all n, m, A and all vectors", "why_tests_cant": "all matrices and sizes", "anchors": ["src/matrix_transforms.c"]}
{"id": "C31", "title": "Independent transform sets do not interfere", "statement": "Functions of a transform set keep computing the operator they were set up for even if another transform set is set up (or fails to set up) later.", "quantifier": "for every sequence of setups, uses and destroys", "why_tests_cant": "all interleavings of lifecycles", "anchors": ["src/matrix_transforms.c: globals", "src/dct1.c: globals", "src/dct2.c: globals", "src/dct_tv_transforms.c: globals"]}
{"id": "C32", "title": "Transform setup/destroy is leak free and never double frees", "statement": "Over any sequence of setup (succeeding or failing at any allocation) and destroy calls following the documented protocol (destroy once per successful setup), no block or plan is freed twice, and when no set is live nothing remains allocated.", "quantifier": "for every call sequence and every allocation/plan failure point", "why_tests_cant": "every crash point of every setup in every history", "anchors": ["src/dct1.c: dct1_setup, dct_destroy", "src/dct2.c: dct2_setup, dct2_destroy", "src/matrix_transforms.c"]}
{"id": "C33", "title": "Shrinkage is the proximal operator", "statement": "The shrink step used in TV denoising returns, at every entry, the unique minimiser of gamma*|d| + (d - x)^2/2, is schedule independent, and d - x is bounded by gamma in absolute value.", "quantifier": "for every gamma >= 0 and every vector, every thread interleaving", "why_tests_cant": "all reals; minimiser over all candidate d", "anchors": ["src/bregman.c: breg_shrink1"]}
{"id": "C34", "title": "The inner linear solver solves the right equation", "statement": "A sweep of the smoother leaves u unchanged iff (mu + lam*DxT Dx + lam*DyT Dy) u = rhs, and every sweep contracts the max-norm error to that unique solution by the factor 4lam/(mu+4lam) or better; the same fixed points hold for the Jacobi variant.", "quantifier": "for every n, m >= 2, mu > 0, lam > 0, rhs and starting u", "why_tests_cant": "about all iterates; the code has 9 boundary cases", "anchors": ["src/bregman.c: breg_anis_guass_seidel, breg_anis_jacobi, hess_inv_diag, breg_hess_eval"]}
{"id": "C35", "title": "TV denoising stops at a minimiser", "statement": "If an iteration of l1c_breg_anistropic_TV leaves its state unchanged, the image u minimises ||Dx u||_1 + ||Dy u||_1 + mu/2*||u - f||^2, and it is the unique minimiser.", "quantifier": "for every image size >= 2x2, image f, mu > 0 and number of smoother sweeps >= 1, compared with every competing image", "why_tests_cant": "optimality against all competitors", "anchors": ["src/bregman.c: l1c_breg_anistropic_TV"]}
{"id": "C36", "title": "TV denoising terminates, respects max_iter and keeps its dual variable bounded", "statement": "l1c_breg_anistropic_TV performs at most max(0,max_iter) outer iterations, returns f itself when max_iter <= 0, and throughout the run the internal Bregman variables stay within 1/lam in absolute value; a constant image is returned unchanged.", "quantifier": "for every image, parameters and run length", "why_tests_cant": "invariant over every iteration of every run", "anchors": ["src/bregman.c: l1c_breg_anistropic_TV"]}
{"id": "C37", "title": "TV denoising is memory safe and leak free", "statement": "l1c_breg_anistropic_TV accesses only the n*m entries of its buffers, returns L1C_OUT_OF_MEMORY exactly when an allocation failed (leaving the output untouched), and frees everything it allocated on every path.", "quantifier": "for every image shape, every allocation failure pattern", "why_tests_cant": "2^8 failure patterns x all shapes; small shapes are not checked by the C API", "anchors": ["src/bregman.c: l1c_breg_anistropic_TV"]}
{"id": "C38", "title": "NESTA's projection step is the exact constrained minimiser", "statement": "When A A^T = I and sigma > 0, the projection step returns the unique minimiser of (L/(2mu))*||x - xx||^2 + <g, x> over all x with ||Ax - b|| <= sigma; in particular its output satisfies the constraint.", "quantifier": "for every A with orthonormal rows, b, xx, g and positive parameters, against every feasible competitor", "why_tests_cant": "optimality over an infinite feasible set", "anchors": ["src/nesta.c: l1c_nesta_project"]}
{"id": "C39", "title": "NESTA's answer satisfies the measurement constraint", "statement": "Whenever l1c_nesta returns success the returned x satisfies ||Ax - b|| <= sigma.", "quantifier": "for every transform set with A A^T = I, b, positive sigma, mu, tol and every n_continue, whatever iterations the stopping tests select", "why_tests_cant": "an invariant of every run of the nested iteration", "anchors": ["src/nesta.c: l1c_nesta"]}
{"id": "C40", "title": "NESTA's smoothed objective", "statement": "The smoothed objective value f satisfies f <= ||Wtx x||_1 <= f + p*mu/2, f >= 0, and the gradient it reports is the true gradient; gradients are Lipschitz with constant norm_W^2/mu.", "quantifier": "for every x, every dictionary W and mu > 0", "why_tests_cant": "calculus statement over all x", "anchors": ["src/nesta.c: l1c_nesta_feval"]}
{"id": "C41", "title": "NESTA continuation reaches the requested accuracy", "statement": "After n_continue continuation steps the smoothing parameter and tolerance are exactly the requested mu and tol, the schedule is geometric, and the starting smoothing value is 0.9 times the largest absolute entry of Wtx(Aty(b)).", "quantifier": "for every n_continue >= 1, mu, tol > 0 and data", "why_tests_cant": "all parameter values; the starting value covers entries beyond the signal length", "anchors": ["src/nesta.c: l1c_nesta_setup, l1c_nesta"]}
{"id": "C42", "title": "The stopping window averages the last 10 objective values", "statement": "The reference value used by NESTA's stopping test is the mean of the last min(k,10) recorded objective values after k recordings (undefined, i.e. NaN, for k = 0).", "quantifier": "for every sequence of recordings of every length", "why_tests_cant": "ring-buffer behaviour over all histories", "anchors": ["src/nesta.c: _l1c_new_fmean_fifo, _l1c_push_fmeans_fifo, _l1c_mean_fmean_fifo"]}
{"id": "C43", "title": "NESTA status and resource behaviour", "statement": "l1c_nesta returns L1C_INVALID_ARGUMENT for mismatching sizes, L1C_INCONSISTENT_ARGUMENTS if an operator is missing, L1C_OUT_OF_MEMORY if memory runs out, 0 otherwise; performs at most n_continue*10000 inner iterations; and releases all memory it allocated on every path.", "quantifier": "for every argument set and allocation failure pattern", "why_tests_cant": "every failure point", "anchors": ["src/nesta.c: l1c_nesta, l1c_nesta_setup, l1c_NestaProb_new, l1c_free_nesta_problem"]}
{"id": "C44", "title": "NESTA inner iteration has the accelerated rate", "statement": "With exact arithmetic, A A^T = I and norm_W >= ||W||, after k inner iterations of a continuation step the smoothed objective at the feasible point y_k is within 2*L*||x* - xo||^2/(mu*(k+1)*(k+2)) of the minimum over the feasible set.", "quantifier": "for every problem, every k", "why_tests_cant": "asymptotic rate for all problems", "anchors": ["src/nesta.c: l1c_nesta"]}
{"id": "C45", "title": "l1qc objective, gradient and Newton system agree", "statement": "The gradient used by the l1qc solver is the derivative of its objective at every strictly feasible point, the reduced Newton operator is symmetric positive definite, and the computed (dx, du) solves the full Newton system of that objective whenever the linear solve is exact.", "quantifier": "for every A, b, strictly feasible (x,u), tau, eps > 0", "why_tests_cant": "calculus/linear algebra over all points", "anchors": ["src/l1qc_newton.c: _l1c_l1qc_f_eval, _l1c_l1qc_hess_grad, _l1c_l1qc_H11pfun, _l1c_l1qc_descent_dir"]}
{"id": "C46", "title": "l1qc search direction is a descent direction", "statement": "If the Newton system is solved exactly and the gradient is not zero, the directional derivative passed to the line search is strictly negative.", "quantifier": "for every strictly feasible point", "why_tests_cant": "all points, all data", "anchors": ["src/l1qc_newton.c: _l1c_l1qc_descent_dir, l1c_l1qc_newton"]}
{"id": "C47", "title": "Maximum step keeps every constraint strict", "statement": "Starting from a strictly feasible point, every step length in [0, s_max] computed by the l1qc solver keeps -u < x < u and ||Ax - b|| < eps, and 0 < s_max <= 0.99.", "quantifier": "for every A, b, strictly feasible (x,u) and every direction (dx,du)", "why_tests_cant": "all directions, including ones with A dx = 0", "anchors": ["src/l1qc_newton.c: _l1c_l1qc_find_max_step"]}
{"id": "C48", "title": "l1qc never returns an infeasible answer", "statement": "If l1c_l1qc_newton returns status 0 the returned x satisfies ||Ax - b|| <= eps; an infeasible start (||Ax-b|| > eps) is reported as L1C_INFEASIBLE_START with x unchanged.", "quantifier": "for every A, b, start x without NaN, parameters, and whatever the inner CG solver and line search return", "why_tests_cant": "invariant over all Newton/log-barrier iterations and all inner solver outcomes", "anchors": ["src/l1qc_newton.c: l1c_l1qc_newton, _l1c_l1qc_check_feasible_start", "src/linesearch.c: l1c_linesearch_xu"]}
{"id": "C49", "title": "Log-barrier duality gap", "statement": "At a stationary point of the barrier objective with weight tau the value sum(u) exceeds the l1-norm of every feasible point by at most (2m+1)/tau, and the automatic number of barrier iterations makes the final weight satisfy (2m+1)/tau <= lbtol.", "quantifier": "for every problem, tau > 0, mu > 1, lbtol > 0", "why_tests_cant": "duality bound over all feasible competitors; ceil arithmetic over all parameters", "anchors": ["src/l1qc_newton.c: _l1c_l1qc_newton_init, l1c_l1qc_newton"]}
{"id": "C50", "title": "l1qc status codes and iteration accounting", "statement": "l1c_l1qc_newton's status is nonzero whenever the run failed (CG failure, line-search failure, infeasible start, out of memory), and total_newton_iter is the number of Newton iterations performed, at most newton_max_iter per barrier step.", "quantifier": "for every run", "why_tests_cant": "all runs with any inner outcome", "anchors": ["src/l1qc_newton.c: l1c_l1qc_newton"]}
{"id": "C51", "title": "l1qc memory behaviour", "statement": "l1c_l1qc_newton frees everything it allocates and touches only memory it owns, for every allocation failure point and every n, m.", "quantifier": "for every allocation failure pattern and sizes", "why_tests_cant": "failure injection at each allocation; sizes n > m", "anchors": ["src/l1qc_newton.c: l1c_l1qc_newton, _l1c_l1qcProb_new, _l1c_l1qcProb_delete, _l1c_l1qc_find_max_step"]}
{"id": "C52", "title": "l1qc starting point is strictly feasible for the barrier", "statement": "The automatically chosen u satisfies -u < x < u strictly, and the automatically chosen tau and barrier iteration count are well defined (finite, no undefined conversion).", "quantifier": "for every starting x", "why_tests_cant": "the all-zero start is special", "anchors": ["src/l1qc_newton.c: _l1c_l1qc_newton_init"]}
{"id": "C53", "title": "l1qc_dct writes its output iff it succeeds", "statement": "l1qc_dct returns 0 exactly when x_out has been overwritten with the inverse-DCT of the solver result; on every failure x_out is untouched, the status is DCT_INIT_FAILURE / OUT_OF_MEMORY / the solver's status, and everything allocated has been released.", "quantifier": "for every argument set, allocation failure pattern and solver outcome", "why_tests_cant": "all failure points", "anchors": ["src/l1qc_dct.c: l1qc_dct"]}
{"id": "C54", "title": "Logger replacement returns the previous handler", "statement": "l1c_replace_printf installs the new handler and returns the one that was installed before, so that any nesting of replace/restore pairs ends with the original handler.", "quantifier": "for every sequence of replacements", "why_tests_cant": "all histories", "anchors": ["src/l1c_logging.c: l1c_replace_printf"]}
{"id": "C55", "title": "Bindings convert sample indices correctly", "statement": "The Matlab bindings turn 1-based indices into 0-based ones, reject any index outside 1..mrow*mcol, and never pass an out-of-range index to the solver; the Python binding accepts only arguments for which the C preconditions (sizes, modes) hold.", "quantifier": "for every index vector and mode value", "why_tests_cant": "all index vectors", "anchors": ["interfaces/mex/l1qc_dct_mex.c", "interfaces/mex/nesta_dctTV_mex.c", "interfaces/python/l1cPy.c"]}
{"id": "C56", "title": "Matlab TV denoising treats the image with its own shape", "statement": "breg_anistropic_TV from Matlab returns an image of the same shape as its input, and denoising uses the true horizontal/vertical neighbours.", "quantifier": "for every image shape", "why_tests_cant": "non-square shapes", "anchors": ["interfaces/mex/breg_anistropic_TV_mex.c: mexFunction"]}
{"id": "C57", "title": "JSON loading reports failure", "statement": "load_file_to_json returns success only if a parsed document is available to the caller, and releases the file buffer on every path.", "quantifier": "for every file content and I/O outcome", "why_tests_cant": "every failure point", "anchors": ["src/json_utils.c: load_file_to_json, load_file_as_text"]}
{"id": "C58", "title": "Outputs do not depend on what memory held before", "statement": "The operators of the DCT and DCT-TV transform sets give results determined by their input vector alone: neither the previous contents of the output array nor uninitialised work memory of the library influence them.", "quantifier": "for every transform set, call history, input vector, previous output contents and initial work memory", "why_tests_cant": "needs particular garbage (NaN) in memory", "anchors": ["src/dct1.c: dct_Ety", "src/dct2.c: dct2_Ety", "src/dct_tv_transforms.c: Wtx, Aty"]}
{"id": "C59", "title": "A recovered image fits its samples, whatever ran before", "statement": "Whenever l1qc_dct returns 0 the image is finite, is the inverse DCT of coefficients whose 1-norm is the reported one, and its values at the sampled pixels differ from the data by at most epsilon in the 2-norm; with distinct sample positions and epsilon >= 0 the call never refuses for an infeasible start; and the result depends on the arguments alone, not on earlier calls or on the allocator.", "quantifier": "for every image size, sample set, data vector, option set with finite epsilon, call history and allocation pattern", "why_tests_cant": "continuous inputs and unbounded histories", "anchors": ["src/l1qc_dct.c: l1qc_dct", "src/l1qc_newton.c: l1c_l1qc_newton", "src/dct1.c", "src/dct2.c"]}
{"id": "C60", "title": "Reading fields of a JSON document", "statement": "Extracting a number (double or int) or an array of numbers by name returns 0 exactly when the document has a field of that name and type, and then delivers exactly the value, or the array length and every element in order in a new block; otherwise it returns 1, delivers nothing and leaves nothing allocated. Refused memory is reported as 1.", "quantifier": "for every JSON document, field name, array length and allocation outcome", "why_tests_cant": "the space of documents is unbounded; failing allocations are not reachable in the test suite", "anchors": ["src/json_utils.c: extract_json_int, extract_json_double, extract_json_double_array, extract_json_int_array"]}
{"id": "C61", "title": "Bindings deliver an image only when the solver succeeded", "statement": "A call of l1qc_dct from Python or Matlab returns an image only if the library reported success, and then exactly the image the library recovered, in the shape asked for, with its result record; every failure reaches the caller as an error.", "quantifier": "for every argument list, prior history and pattern of failing allocations", "why_tests_cant": "failures of memory and of the solver inside a binding are not reachable from the test scripts", "anchors": ["interfaces/python/l1cPy.c: _l1qc_dct", "interfaces/mex/l1qc_dct_mex.c: mexFunction"]}
{"id": "C62", "title": "Python binding releases what it takes", "statement": "After a call of l1qc_dct from Python, successful or not, all C memory the call allocated is freed and every reference it took is dropped; the returned image and dictionary are referred to by the returned tuple only.", "quantifier": "for every argument list and pattern of failing allocations", "why_tests_cant": "reference leaks do not change results; failing allocations are not exercised", "anchors": ["interfaces/python/l1cPy.c: _l1qc_dct"]}
{"id": "C63", "title": "TV denoising from Python keeps the shape, reports failures and releases memory", "statement": "breg_anistropic_TV from Python returns an array of the input's shape holding what the library computes for that image (for positive mu and real data: real numbers, and a constant image unchanged), or raises an exception; nothing else happens, and after the call all C memory it took is freed.", "quantifier": "for every array, parameters and pattern of failing allocations", "why_tests_cant": "failing allocations and large sizes are not exercised", "anchors": ["interfaces/python/l1cPy.c: _breg_anistropic_TV", "src/bregman.c: l1c_breg_anistropic_TV"]}
{"id": "C64", "title": "NESTA from Matlab: accepted arguments, outcomes and memory", "statement": "nesta_dctTV called from Matlab accepts exactly a pair of sizes, samples, a 1-based index array of the same length and a complete option structure, fewer samples than pixels; everything else is an error before anything happens. An accepted call returns either an image of the given shape with status 0, the transform set being destroyed again, or an error naming the cause (bad index, no memory, failed FFT planning); in either case all memory the call took is released and the library is as before.", "quantifier": "for every argument list, option structure, history of the transform library and pattern of failing allocations", "why_tests_cant": "failing allocations and misuse from Matlab are not exercised by any test", "anchors": ["interfaces/mex/nesta_dctTV_mex.c: mexFunction", "interfaces/mex/l1c_mex_utils.c"]}
{"id": "C65", "title": "NESTA from Python: outcomes, references and memory", "statement": "A call of nesta_dctTV from Python ends with an exception or with a tuple of an array of the given shape and the status; an exception leaves memory and references as they were. The transform set is destroyed before the call ends, the array is referred to by the tuple only, and a failure of the solver raises an exception.", "quantifier": "for every argument list, history of the transform library and pattern of failing allocations", "why_tests_cant": "leaks do not change results; failing allocations are not exercised", "anchors": ["interfaces/python/l1cPy.c: _nesta_dctTV"]}
{"id": "C66", "title": "An image recovered by NESTA from Matlab or Python fits its samples", "statement": "Whenever nesta_dctTV in analysis mode returns an image with status 0, its values are finite numbers and at the sampled pixels they differ from the samples by at most sigma in the Euclidean norm; and with valid arguments and enough memory it does return one. Pixels are counted from 1 in Matlab and from 0 in Python.", "quantifier": "for every image size, set of distinct pixels, samples, weights, sigma > 0, mu > 0 and number of continuation steps, after any history of calls", "why_tests_cant": "continuous data and unbounded sizes; the index convention differs between the two interfaces", "anchors": ["interfaces/mex/nesta_dctTV_mex.c: mexFunction", "interfaces/python/l1cPy.c: _nesta_dctTV", "src/nesta.c: l1c_nesta", "src/dct_tv_transforms.c: l1c_setup_dctTV_transforms"]}
{"id": "C67", "title": "The point NESTA returns is nearly optimal", "statement": "When l1c_nesta succeeds on real data, the 1-norm of W^T x at the returned x exceeds that at every other point meeting the measurement constraint by at most p*mu/2 (the smoothing error) plus an explicit error that decays with the number k of iterations of the last continuation step, of order d^2 L/(mu k^2) + d sqrt(pL)/k with d the distance from that step's start to a minimiser. With a tolerance that is not positive each continuation step makes exactly 10000 iterations, so the bound depends on the arguments only; for any tolerance and any number of continuation steps there is such a bound too, by following the size of the points from step to step.", "quantifier": "for every sampling operator with orthonormal rows, every dictionary of norm at most norm_W, all data with a positive start value, all mu > 0, sigma > 0, tolerances and step counts", "why_tests_cant": "tests compare with stored results of one problem; a bound against every feasible point cannot be tested", "anchors": ["src/nesta.c: l1c_nesta", "src/nesta.c: l1c_nesta_project", "src/nesta.c: l1c_nesta_feval"]}
{"id": "C68", "title": "Every Newton step of the l1qc solver makes guaranteed progress, so the inner loop converges", "statement": "From a strictly feasible point, one Newton iteration of l1c_l1qc_newton moves to a strictly feasible point at which tau times the barrier objective is smaller by at least a fixed multiple of min(lambda^2, lambda), lambda^2 being tau times the decrease rate along the direction; the line search never fails; the iteration is the last one exactly if lambda^2/(2 tau) is below newton_tol or the relative change of the 1-norm is below l1_tol. The objective is bounded below by an explicit number, so with the 1-norm test off the loop ends at the decrement test within an explicit number of iterations.", "quantifier": "for every measurement matrix, data, epsilon, weight tau > 0 and strictly feasible point; conjugate gradients cold-started with at least m iterations allowed and cg_tol <= 1/2; every newton_tol > 0", "why_tests_cant": "tests follow one path of iterates; that no start can stall the line search or loop without progress is a statement about all of them", "anchors": ["src/l1qc_newton.c: l1c_l1qc_newton", "src/l1qc_newton.c: _l1c_l1qc_descent_dir", "src/l1qc_newton.c: _l1c_l1qc_find_max_step", "src/linesearch.c: l1c_linesearch_xu"]}
{"id": "C69", "title": "l1qc returns a nearly optimal vector", "statement": "With lbiter = 0 (automatic), cg_tol at most an explicit positive limit (exact inner solves in particular), the 1-norm test off, newton_tol at most lbtol/(32(2m+1)) and newton_max_iter above an explicit bound, l1c_l1qc_newton started at a nonzero strictly feasible x returns status 0 and a vector that satisfies the measurement constraint and whose 1-norm exceeds that of no vector satisfying it by more than 3 mu lbtol.", "quantifier": "for every measurement matrix, data, epsilon, lbtol, mu > 1 and nonzero strictly feasible start, with allocations that succeed", "why_tests_cant": "tests compare against stored optima of a few problems; the bound is against every feasible vector of every problem", "anchors": ["src/l1qc_newton.c: l1c_l1qc_newton", "src/l1qc_newton.c: _l1c_l1qc_newton_init"]}
{"id": "C70", "title": "The image recovered from DCT samples is nearly the sparsest one that fits", "statement": "When l1qc_dct returns 0 on distinct sample positions and data that are not all zero, with the options of C69, the recovered image fits the samples within epsilon and the 1-norm of its DCT coefficients exceeds that of no image fitting the samples within epsilon by more than 3 mu lbtol. The start the routine computes itself always satisfies the conditions of C69.", "quantifier": "for every image size and both DCT variants, sample set, data, epsilon > 0, lbtol, mu > 1, whatever the program did before with the transforms", "why_tests_cant": "tests compare with stored results; the bound is against every image fitting the samples", "anchors": ["src/l1qc_dct.c: l1qc_dct", "src/l1qc_newton.c: l1c_l1qc_newton", "src/dct1.c", "src/dct2.c"]}
{"id": "C71", "title": "Sums, inner products and distances are accurate up to rounding, in any order and on any number of threads", "statement": "In rounded arithmetic with unit roundoff u, when the result is finite: l1c_dsum, l1c_dnorm1 and the inner product differ from the exact values of the stored numbers by at most ((1+u)^k - 1) times the sum of the absolute terms (plus an underflow term for products), with k = N, N and N+1; the four-lane sums of vcl_math take k about N/4; the threaded l1c_dlogsum takes k = iterations per thread plus number of threads, relative to the computed logarithms; l1c_dnrm2_err has relative error (1+u)^(N+4) - 1 plus an underflow term; each component of l1c_daxpby_z takes k = 2. Any order of additions takes k = its depth. IEEE binary64 satisfies the assumptions with u = 2^-53. Exact agreement of the two sums is false in binary64.", "quantifier": "for every length, contents, distribution over threads, order of additions and arithmetic satisfying the rounding laws", "why_tests_cant": "tests compare with a tolerance on a few vectors; the bound is on every vector and schedule, including cancellation and subnormal numbers", "anchors": ["src/l1c_math.c: l1c_dsum, l1c_dnorm1, l1c_dlogsum, l1c_dnrm2_err, l1c_daxpby_z", "src/vcl/vcl_math.cpp: vcl_sum, vcl_logsum"]}
{"id": "C72", "title": "The example program reports failure and gives everything back", "statement": "A run of the example program l1qc_dct_c exits with 0 exactly when the file was read, its document has the arrays b and pix_idx and the number mtot, memory was there and the recovery on them succeeded; otherwise it exits with another value. In every case it closes the file and releases all memory and all transform state. Whatever the document holds, nothing outside the arrays is read.", "quantifier": "for every file, every document, every pattern of allocation failures", "why_tests_cant": "no test runs the example; failures of fopen, malloc and the FFT setup cannot be provoked one by one", "anchors": ["examples/c/l1qc_dct_c.c: main", "src/json_utils.c", "src/l1qc_dct.c: l1qc_dct"]}
{"id": "C73", "title": "TV denoising converges to the minimiser", "statement": "With at least ten inner sweeps the images l1c_breg_anistropic_TV returns for max_iter = 1, 2, 3, ... (tol <= 0) converge to the unique minimiser of ||Dx u||_1 + ||Dy u||_1 + mu/2 ||u-f||^2. The squared distances of all of them to the minimiser add up to at most B = 20 TV(f)^2 + 5nm/mu^2; so all but B/eps values of max_iter give a squared error of at most eps, and among the first N some value gives at most B/N. A call with any tol and max_iter returns an element of the same sequence.", "quantifier": "for every finite image of at least 2 x 2 pixels, mu > 0, max_jac_iter >= 10, in exact arithmetic with allocations that succeed", "why_tests_cant": "tests run a fixed number of iterations on one image and compare with a stored result; convergence is about all iteration counts and images", "anchors": ["src/bregman.c: l1c_breg_anistropic_TV", "src/bregman.c: breg_anis_guass_seidel", "src/bregman.c: breg_shrink1"]}
{"id": "C74", "title": "Conjugate gradients converge at the rate given by the condition number", "statement": "For a symmetric operator with eigenvalues between lo > 0 and hi, the residual of the vector l1c_cgsolve returns is at most f(k) = 2 sqrt(hi/lo) ((sqrt hi - sqrt lo)/(sqrt hi + sqrt lo))^k times the initial one for every k up to the reported cgiter. If the start is not already a solution and f(k) times the initial residual is below tol ||b|| for some 1 <= k <= max_iter, the call performs at most k iterations and reports a residual below tol; k about sqrt(hi/lo)/2 log(2 sqrt(hi/lo)/theta) makes f(k) <= theta. For l1c_cgsolve_diag_precond the same holds of the reported figure and the number of iterations, with eigenvalues relative to the preconditioner and the extra factor sqrt(wmax/wmin). A start that solves the system exactly is returned with residual 0 after the whole budget of iterations.", "quantifier": "for every operator with that spectrum, right-hand side b != 0, start, tolerance, budget below INT_MAX, in exact arithmetic", "why_tests_cant": "tests run a few systems; the bound is on the whole family of operators of a given condition number and on every iteration count", "anchors": ["src/cgsolve.c: l1c_cgsolve", "src/cgsolve.c: l1c_cgsolve_diag_precond"]}
{"id": "C75", "title": "Options chosen in Matlab reach the solvers", "statement": "The structs built by l1qc_dct_opts and nesta_opts have every field that l1qc_dct and nesta_dctTV read. The builders accept exactly the pairs whose names stand for one of their parameters; a call with such a struct passes the checks exactly when the other arguments describe a sampled image and every chosen value is a number (of int size where an integer is wanted), and the solver gets for each option the last value given for it, or the default. The defaults are those of the documentation, and every accepted option has its effect.", "quantifier": "for every list of name-value pairs, every way names are resolved, every other argument", "why_tests_cant": "tests build a handful of structs; the claim is about every combination of options, in two programs in different languages that must agree on names", "anchors": ["interfaces/mex/l1qc_dct_opts.m", "interfaces/mex/nesta_opts.m", "interfaces/mex/l1qc_dct_mex.c", "interfaces/mex/nesta_dctTV_mex.c"]}
{"id": "C76", "title": "Python calls follow their signatures", "statement": "l1qc_dct, nesta_dctTV and breg_anistropic_TV accept a call exactly when it fits their signature: the required arguments by position, each option by position or by name but not both, no other names, numbers where numbers and ints where ints are wanted. The run then uses the values given and the stated defaults for the rest. Any other call raises TypeError and changes nothing. The defaults are those of the Matlab interface.", "quantifier": "for every list of positional arguments and every dictionary of keyword arguments", "why_tests_cant": "tests try some calls; the claim is about every mixture of positional and keyword arguments", "anchors": ["interfaces/python/l1cPy.c: _l1qc_dct", "interfaces/python/l1cPy.c: _nesta_dctTV", "interfaces/python/l1cPy.c: _breg_anistropic_TV"]}
{"id": "C77", "title": "TV denoising from Python, from the call to the returned array", "statement": "breg_anistropic_TV(f, ...) either raises an exception, exactly when its arguments do not fit, f is not a two-dimensional array of at least 3 x 3 numbers or memory runs out, or returns a new array of the shape of f holding the denoised image. It leaves f as it is, releases all memory it allocated and keeps no reference. With max_jac_iter >= 10 and tol <= 0 the returned images converge to the unique minimiser of the total-variation objective as max_iter grows.", "quantifier": "for every call, every image whose size fits an int, every pattern of failing allocations, every interleaving of the parallel loops; convergence in exact arithmetic with mu > 0", "why_tests_cant": "reference counts and failing allocations are invisible to a test that looks at the returned array; convergence is about all iteration counts", "anchors": ["interfaces/python/l1cPy.c: _breg_anistropic_TV", "src/bregman.c: l1c_breg_anistropic_TV"]}
{"id": "C78", "title": "Image recovery from Python and Matlab, from the call to the returned image", "statement": "l1qc_dct called from Python or Matlab with valid distinct positions, data that are not all zero, enough memory and options that ask for a reachable accuracy (cgtol below an explicit positive limit, sharp Newton test, enough Newton iterations) returns an image of the requested shape with status 0, whose samples match the data within epsilon and whose DCT coefficients have a 1-norm at most 3 mu lbtol above that of any image matching the data within epsilon. Nothing it allocated stays allocated.", "quantifier": "for every image size, data, set of positions, options of that kind and earlier history of calls, in exact arithmetic", "why_tests_cant": "tests compare a few recovered images with stored ones; optimality is a statement about all images that match the data", "anchors": ["interfaces/python/l1cPy.c: _l1qc_dct", "interfaces/mex/l1qc_dct_mex.c: mexFunction", "src/l1qc_dct.c: l1qc_dct", "src/l1qc_newton.c: l1c_l1qc_newton"]}
{"id": "C79", "title": "Image recovery by NESTA from Python and Matlab is nearly optimal", "statement": "nesta_dctTV in analysis mode, called from Python or Matlab with valid distinct pixels, samples that are not all zero, sigma > 0, mu > 0, at least one continuation step and enough memory, returns an image of the requested shape with status 0 that fits the samples within sigma, and the sum of the 1-norm of its DCT and the weighted line variations exceeds that of any image fitting the samples within sigma by at most an explicit number. The number depends on the size, the weights, mu, the samples, the number of steps and how many iterations a step makes for sure (10000 if tol <= 0, one otherwise).", "quantifier": "for every image size, set of distinct pixels, samples, weights, sigma, mu, tolerance, number of steps and DCT mode, and every earlier history of calls, in exact arithmetic", "why_tests_cant": "tests compare a few recovered images with stored ones; optimality is a statement about all images that fit the samples", "anchors": ["interfaces/python/l1cPy.c: _nesta_dctTV", "interfaces/mex/nesta_dctTV_mex.c: mexFunction", "src/nesta.c: l1c_nesta", "src/dct_tv_transforms.c: l1c_setup_dctTV_transforms"]}
{"id": "C80", "title": "NESTA in synthesis mode without total variation recovers a nearly optimal image", "statement": "nesta_dctTV in synthesis mode without total-variation weights, called from Python or Matlab with valid distinct pixels, samples that are not all zero, sigma > 0, mu > 0, at least one continuation step and enough memory, returns an image of the requested shape with status 0 that fits the samples within sigma and whose DCT has a 1-norm at most an explicit number above that of any image fitting the samples, as in analysis mode. What the allocated memory held before does not matter.", "quantifier": "for every image size, set of distinct pixels, samples, sigma, mu, tolerance, number of steps and DCT mode, every earlier history of calls and every content of fresh memory, in exact arithmetic", "why_tests_cant": "tests never call synthesis mode through an interface, and fresh memory usually holds zeros in a test", "anchors": ["interfaces/python/l1cPy.c: _nesta_dctTV", "interfaces/mex/nesta_dctTV_mex.c: mexFunction", "src/nesta.c: l1c_nesta", "src/dct_tv_transforms.c: l1c_setup_dctTV_transforms"]}
{"id": "C81", "title": "Any sequence of interface calls leaves the library usable, without influence on later results and without growing", "statement": "After any sequence of calls of l1qc_dct and nesta_dctTV from Python and Matlab, with any arguments and however each call ended, the next call behaves as in a new process: with valid arguments and enough memory it returns, its result is as good as in a new process, and for l1qc_dct from Python it is the same image and record. The memory the library holds between calls does not grow with the number of calls.", "quantifier": "for every finite sequence of calls of the four functions, every argument list, every pattern of failing memory requests, every FFTW, and for the sameness part every arithmetic", "why_tests_cant": "tests make a few calls per process with fixed arguments; a leak of a few arrays per call or a dependence on stale file-scope variables does not show", "anchors": ["interfaces/python/l1cPy.c: _l1qc_dct, _nesta_dctTV", "interfaces/mex/l1qc_dct_mex.c: mexFunction", "interfaces/mex/nesta_dctTV_mex.c: mexFunction", "src/dct.c: l1c_dct1_setup, dct_destroy", "src/dct2.c: l1c_dct2_setup, dct2_destroy", "src/dct_tv_transforms.c: l1c_setup_dctTV_transforms"]}
{"id": "C82", "title": "The image NESTA returns depends on the arguments of the call only", "statement": "Two calls of nesta_dctTV with the same arguments, from Matlab or Python, made at any point of any two sessions, with any contents of newly allocated memory, return the same image (unless memory runs out); and Matlab and Python return the same image for the same data (pixels counted from 1 and from 0). This holds bit for bit, in any arithmetic, in both modes.", "quantifier": "all arguments (both modes), all pairs of sessions (any earlier calls with any results), all allocator behaviours and memory contents, every scalar type", "why_tests_cant": "The property compares two executions for all pairs of histories, and the stale buffers that would carry influence depend on every earlier call and on the allocator; a test process usually gets zeroed memory and a fresh library.", "anchors": ["src/nesta.c:363-463", "src/dct_tv_transforms.c:186-239", "interfaces/python/l1cPy.c:334-472", "interfaces/mex/nesta_dctTV_mex.c:22-169"]}
{"id": "C83", "title": "TV denoising commutes with scaling, change of sign and change of brightness", "statement": "If the image is multiplied by c != 0 and mu divided by |c|, l1c_breg_anistropic_TV returns c times the image it returned before, after the same number of iterations (c = -1: the negative of an image gives the negative of the result). If a constant is added to every pixel, the result has the same constant added.", "quantifier": "all images of at least 2x2 real pixels, all mu > 0, tolerances, iteration limits, numbers of sweeps, factors c and constants, all caller states", "why_tests_cant": "Metamorphic relations over a continuum of images and parameters; rounding hides them in floating-point tests, and a violation through the stopping rule only appears for particular combinations of brightness and tolerance.", "anchors": ["src/bregman.c:232-301", "src/bregman.c:303-325", "src/bregman.c:354-435", "src/l1c_math.c: l1c_dnrm2_rel_err"]}
{"id": "C84", "title": "NESTA respects sample order, scaling, sign and mirror images", "statement": "nesta_dctTV in analysis mode, from Python or Matlab: listing the samples (with their pixels) in another order does not change the image; multiplying samples, sigma and mu by c > 0 multiplies the image by c. Without TV terms (alpha_v = alpha_h = 0), negated samples give the negated image, and samples taken at the mirrored pixels give the mirrored image (upside down or left-right with the 2-D DCT; turned by half a turn with the 1-D DCT, which runs over the whole image).", "quantifier": "all image sizes, all lists of distinct pixels, all sample values that are not all zero, sigma, mu > 0, tolerances, continuation counts >= 1 (up to INT_MAX - 1), all c > 0, all permutations, all sessions before the two calls", "why_tests_cant": "Relations between two whole runs over a continuum of inputs; in floating point they only hold up to rounding, so a test needs a tolerance that hides real violations, and the early stopping window makes the iteration counts data dependent.", "anchors": ["src/nesta.c:192-232", "src/nesta.c:237-257", "src/nesta.c:272-325", "src/nesta.c:363-462", "interfaces/mex/nesta_dctTV_mex.c", "interfaces/python/l1cPy.c"]}
{"id": "C85", "title": "The l1qc image recovery respects sample order, sign and mirror images", "statement": "l1qc_dct, from C, Python or Matlab: listing the samples (with their pixels) in another order does not change the recovered image; negated samples give the negated image; samples taken at the mirrored pixels give the mirrored image (upside down or left-right with the 2-D DCT, turned by half a turn with the 1-D DCT). The result record (1-norm, total Newton iterations, total conjugate-gradient iterations, status) is the same as before.", "quantifier": "all image sizes, all lists of distinct pixels, all samples that are not all zero, epsilon > 0, mu > 0, and all other options (tolerances, iteration limits, cold or warm start), all pairs of sessions and memory behaviours in which both calls return, in exact arithmetic", "why_tests_cant": "A metamorphic relation between two runs of a nested iteration (log barrier, Newton, line search, conjugate gradients) for all data and options; a test compares a few images, within rounding, and a lost symmetry in a stopping test or in the step length would show only as a different iteration count.", "anchors": ["src/l1qc_dct.c: l1qc_dct", "src/l1qc_newton.c: l1c_l1qc_newton", "src/cgsolve.c: l1c_cgsolve", "interfaces/python/l1cPy.c", "interfaces/mex/l1qc_dct_mex.c"]}
{"id": "C86", "title": "TV denoising keeps the average, range, order and distances of images", "statement": "l1c_breg_anistropic_TV with tol <= 0, so that max_iter iterations are run. For every eps > 0, except for at most B/eps values of max_iter (B is an explicit number computed from the image and mu): the sum of the pixels is that of the noisy image up to sqrt(n m eps); no pixel leaves the range of the noisy image by more than sqrt(eps); if one noisy image is nowhere brighter than another, the same holds for the results up to 2 sqrt(eps); two results are not farther apart (Euclidean distance) than the noisy images plus 2 sqrt(eps); an image mirrored upside down or left to right, or transposed, gives the mirrored or transposed result up to 2 sqrt(eps). For statements about two images B is the sum for both. Average, range, order and distance also hold for the arrays returned to Python.", "quantifier": "all images of at least 2x2 real pixels (3x3 from Python), all mu > 0, eps > 0, at least ten sweeps, all caller states, tol <= 0, all 0 < max_iter < INT_MAX outside of the excluded values; exact arithmetic", "why_tests_cant": "A statement about the limit of an iteration for a continuum of images; tests see single images, and the excluded iteration counts cannot be told from a slow convergence.", "anchors": ["src/bregman.c:232-301", "src/bregman.c:354-435"]}
{"id": "C87", "title": "What the weight mu does in TV denoising", "statement": "l1c_breg_anistropic_TV with tol <= 0, so that max_iter iterations are run. For every eps > 0, except for at most B/eps values of max_iter (B is an explicit number computed from the image and mu): no pixel is changed by more than 4/mu + sqrt(eps); the total variation does not grow by more than 4 sqrt(n m eps); if mu times the sum of the absolute deviations from the average is at most 1, every pixel is the average up to sqrt(eps); a larger mu gives a result that is nearer to the noisy image (Euclidean distance, up to 2 sqrt(eps)) and has more total variation (up to 8 sqrt(n m eps)).", "quantifier": "all images of at least 2x2 real pixels, all mu > 0 (pairs 0 < mu < mu'), eps > 0, at least ten sweeps, all caller states, tol <= 0, all 0 < max_iter < INT_MAX outside of the excluded values; exact arithmetic", "why_tests_cant": "A statement about the limit of an iteration, for a continuum of images and weights; a test compares single outputs with a tuned tolerance.", "anchors": ["src/bregman.c:232-301", "src/bregman.c:354-435"]}
{"id": "C88", "title": "Rounding errors of the image difference kernels and of shrinkage", "statement": "In rounded arithmetic (IEEE binary64 is one instance) every finite pixel computed by l1c_Dx, l1c_Dy, l1c_DxT and l1c_DyT is the exact value up to two roundings and one underflow, relative to the exact value; a pixel of l1c_DxTDx and l1c_DyTDy is exact up to five roundings relative to the sum of the absolute values of the pixels it is made of. In binary64 with weight 1 (the only one the denoising uses) l1c_Dx and l1c_Dy give the correctly rounded difference: zero exactly between equal pixels, otherwise of the right sign. The shrinkage step never overflows and gives the correctly rounded soft threshold: zero exactly within the threshold, never larger than its argument, and in the order of its arguments. In binary64 DxTDx is not exactly DxT after Dx (row -2^53, 1, 0).", "quantifier": "all image sizes (at least 2 columns for DxT, DxTDx, at least 2 rows for DyTDy), weights and finite pixels, all thread interleavings, every arithmetic with the laws of FpModel and FpSign; binary64 for the second half", "why_tests_cant": "Rounding depends on every bit of the data; tests compare with a tolerance on a few images and cannot show a bound for all.", "anchors": ["src/TV.c:49-283", "src/bregman.c:62-73"]}
{"id": "C89", "title": "TV denoising of a negative is the negative, bit for bit", "statement": "In IEEE binary64, with mu greater than zero, l1c_breg_anistropic_TV on the negative of an image returns exactly the negative of the image it returns for the original, with the same return code and iteration count, for any tolerance, iteration limit and number of sweeps, also when pixels are infinite or NaN and when operations overflow.", "quantifier": "all images of at least 2x2 pixels that fit an int, all binary64 pixel values, mu > 0, tolerances, iteration limits and sweeps below INT_MAX, all caller states where allocation succeeds", "why_tests_cant": "Rounding, overflow and the stopping test would have to agree on every bit for every image; a test compares a few pairs.", "anchors": ["src/bregman.c:39-73", "src/bregman.c:88-337", "src/bregman.c:354-440", "src/TV.c:49-283"]}
{"id": "C90", "title": "A NaN pixel switches off the stopping test and spreads over the image", "statement": "In IEEE binary64, for nonzero mu, if any pixel of the image given to l1c_breg_anistropic_TV is NaN, the call still reports success, runs exactly max_iter iterations whatever the tolerance, and returns an image that is NaN at that pixel and at every pixel whose distance to the left plus distance upward from it is less than the total number of sweeps (pixels to the right and below included); with n+m-1 sweeps in total every returned pixel is NaN.", "quantifier": "all images of at least 2x2 pixels that fit an int with a NaN anywhere, all nonzero mu, tolerances, iteration limits and sweeps below INT_MAX, all caller states where allocation succeeds", "why_tests_cant": "A test sees one position, one size and one number of sweeps.", "anchors": ["src/bregman.c:88-337", "src/bregman.c:354-440"]}
{"id": "C91", "title": "The solvers map negated data to the negated answer, bit for bit", "statement": "In IEEE binary64: l1c_cgsolve and l1c_cgsolve_diag_precond, given the negated right-hand side and negated start vector, return exactly the negated solution with the same residual, iteration count, operator calls and definedness, for every operator that commutes with change of sign. l1c_nesta with at most as many dictionary coefficients as unknowns (no TV terms), given negated samples, returns exactly the negated image with the same status, iteration count and memory state, for all operators that overwrite their output and commute with change of sign, for every pattern of failing allocations and missing operators.", "quantifier": "all sizes, all binary64 data including infinities and NaN, all parameters, all operators with private state that commute with change of sign, all allocation outcomes", "why_tests_cant": "Every intermediate rounding and every data-dependent stopping test must agree; tests sample a few vectors and compare with a tolerance.", "anchors": ["src/cgsolve.c:63-310", "src/nesta.c:192-463"]}
{"id": "C92", "title": "Conjugate gradients returns its start vector when the squared data leave the range of double", "statement": "In IEEE binary64: if the right-hand side contains a NaN, l1c_cgsolve and l1c_cgsolve_diag_precond run all max_iter iterations and return the start vector unchanged with residual NaN, whatever the operator, start vector and tolerance. From the zero start, with an operator mapping zero to zero, l1c_cgsolve does the same if all entries are at most 2^-538 in size (their squares underflow), even for the identity operator, and it returns zero with residual NaN if an entry has size at least 2^512 or is infinite (its square overflows).", "quantifier": "all sizes, operators with private state, tolerances, iteration limits below INT_MAX, all such right-hand sides", "why_tests_cant": "Needs extreme data; the failure is silent (no status is returned) and independent of the operator, which no finite set of systems shows.", "anchors": ["src/cgsolve.c:63-161", "src/cgsolve.c:206-310"]}
{"id": "C93", "title": "Conjugate gradients on the caller's arrays: the result, what is written, and which arrays may overlap", "statement": "l1c_cgsolve and l1c_cgsolve_diag_precond are run on memory, with an operator callback that is any command on memory computing a function of its input and of private data. If x, the work arrays and the operator's data do not overlap, and b overlaps none of the work arrays but possibly the fourth nor the operator's data, then under every interleaving of the parallel loops the call is free of undefined behaviour, leaves in x and in the result struct exactly what the solver on values computes, keeps the preconditioner, and writes to nothing but x, the work arrays and the operator's data. So with a symmetric positive definite operator in exact arithmetic the array x ends up holding the solution, and b is unchanged if it is apart. b may be the array x itself (in-place call). It may not be the first work array: then every call returns its start vector and reports NaN.", "quantifier": "all sizes, memory contents, placements of the arrays in memory meeting the stated conditions, operators with private state, parameters with max_iter < INT_MAX, arithmetics (no law assumed, except C93_solves and C93_overlap_false in exact arithmetic), interleavings", "why_tests_cant": "Tests pass separately allocated arrays. Overlap rules are not documented; a test can try one layout, not all.", "anchors": ["src/cgsolve.c:63-161", "src/cgsolve.c:206-310", "include/l1c.h"]}
{"id": "C94", "title": "The l1qc solver on the caller's arrays: result, memory written, allocations released", "statement": "l1c_l1qc_newton is run on memory, with its nineteen allocations and their release, and with operator callbacks that are any commands on memory computing functions of their input and of private data. If n <= m and x, b and the operators' data are in allocated blocks and do not overlap, and the first allocation succeeds, then under every interleaving of the parallel loops and for every pattern of failing allocations the call is free of undefined behaviour whenever the solver on values is, returns exactly what that computes (status, counters, 1-norm), leaves its vector in x, keeps b and all other memory of the caller, and releases every block it allocated. If a later allocation fails, L1C_OUT_OF_MEMORY is returned and the caller's memory is untouched. In exact arithmetic, with a forward operator that computes a matrix, status 0 means that the vector in x satisfies the constraint. If the first allocation fails, the behaviour is undefined.", "quantifier": "all sizes, operators with private state, memory contents, options, allocator answers and interleavings", "why_tests_cant": "The number of schedules, operators and failure patterns is unbounded; stale work arrays, swapped buffers or overlapping work space are visible only for particular data, and a missing release only for particular failures.", "anchors": ["src/l1qc_newton.c:31-598", "src/linesearch.c:10-90", "src/cgsolve.c:59-250", "src/l1c_memory.c:68-136"]}
{"id": "C95", "title": "NESTA on the caller's arrays: result, memory written, allocations released", "statement": "l1c_nesta is run on memory, with its eleven allocations and their release, and with operator callbacks that are any commands on memory computing functions of their input, of the old contents of their output and of private data (they may change their input). If x, b and the operators' data are in allocated blocks and b does not overlap the operators' data, then under every interleaving of the parallel loops and for every pattern of failing allocations the call is free of undefined behaviour whenever NESTA on values is, returns exactly its status and leaves exactly its vector in x, even if x overlaps b. Every block it allocated is released, except that ten blocks stay when an operator is missing. On any failure all memory of the caller is untouched; on success only x, the operators' data, and b as far as the adjoint operator changes its input, can change. In exact arithmetic with orthonormal rows the vector in x is within sigma of the data. If the eleventh allocation fails, the behaviour is undefined.", "quantifier": "all sizes, operators with private state, memory contents, options, allocator answers, interleavings and scalar types", "why_tests_cant": "The number of schedules, operators and failure patterns is unbounded; stale work arrays, swapped buffers, overlapping work space or a wrapped window pointer are visible only for particular data, and a missing release only for particular failures.", "anchors": ["src/nesta.c:40-463", "src/l1c_memory.c:20-60", "src/l1c_math.c:20-202"]}
{"id": "C96", "title": "The library's transforms on memory: results, arguments, scratch buffers, nothing else written", "statement": "All functions of the 1-D and 2-D DCT sets and the products of matrix sets are run on memory, one load or store at a time, with FFTW as any command that fills its output array with the transform of its input. Each leaves in the result array exactly the value the function on vectors has, the argument array and the scratch buffers as the function on vectors leaves them, and changes no other double in memory; no access leaves a block when the sample positions are in range. Ax, Aty and AtAx of a DCT set return the same values whatever earlier calls left in the scratch buffers and do not change their argument. With a position outside the scratch buffer Aty has undefined behaviour. The l1qc solver run on memory with a matrix set ends with a point satisfying the matrix's constraint or the unchanged start, with the matrix and the data intact and everything it allocated released.", "quantifier": "all sizes, matrices, sample positions (repeated ones too), vectors, buffer contents, memory layouts without overlap, allocator answers, interleavings and scalar types", "why_tests_cant": "An index error in a scatter, gather or matrix loop, a stale buffer or a clobbered argument shows only for particular positions, shapes and layouts; tests see neither writes outside the arrays nor dependence on leftover buffer contents.", "anchors": ["src/dct1.c:177-340", "src/dct2.c:207-367", "src/matrix_transforms.c:37-134"]}
{"id": "C97", "title": "A freshly set-up DCT set works whatever FFTW's planner leaves in the arrays", "statement": "Setup zeroes the scratch arrays and then plans two FFTW transforms on them with FFTW_PATIENT, which by FFTW's documentation overwrites both arrays. The functions of the set should compute the same maps whatever the planner leaves there. This holds for Ax, Mx, Mty, Rx and Rty. It is false for Aty and AtAx: with distinct sample positions Aty is the adjoint of Ax exactly when the planner leaves zeros at all positions that are not sampled; otherwise Aty maps zero data to a vector of the length of the left-overs, and no sequence of calls repairs this.", "quantifier": "all sizes, both dimensions, sample positions, buffer contents and call sequences", "why_tests_cant": "Whether it fails depends on the FFTW build and the machine (FFTW happens to zero the arrays before timing in current versions), so tests on one machine pass.", "anchors": ["src/dct1.c:103-131", "src/dct1.c:240-315", "src/dct2.c:128-161", "src/dct2.c:275-342"]}
{"id": "C98", "title": "Image recovery on raw memory does what its specification says and releases what it takes", "statement": "A call of the image recovery, run on memory with all its scratch buffers, work arrays and the solver's arrays, returns the status and record of the stateless recovery, leaves the recovered image in the output on success and the output untouched otherwise, changes no other memory of the caller, releases everything, under every thread schedule, also when the output overlaps the measurements; in exact arithmetic the image matches the samples within epsilon. A refused memory request is reported and changes nothing. False: a refused request during a two-dimensional setup leaks, a refused first request of the solver is undefined, and so is an image size whose product overflows.", "quantifier": "all image sizes, positions, measurements, options, memory contents and layouts, allocator answers and thread schedules", "why_tests_cant": "Depends on every allocator answer and interleaving and on all memory the routine does not own; a run shows one of them.", "anchors": ["src/l1qc_dct.c:30-96", "src/dct1.c:94-175", "src/dct2.c:117-205", "src/dct_transforms.c:42-80", "src/l1qc_newton.c:436-658"]}
{"id": "C99", "title": "The DCT + total-variation transforms and NESTA with them, on raw memory", "statement": "Each function of a DCT + total-variation set, run on memory on parts of arrays and with a work array shared by all functions, leaves exactly the values of its definition on vectors in argument, result, buffers and work array and changes nothing else, under every thread schedule. NESTA with such a set, in analysis and synthesis mode, is defined, reports exactly the refused memory requests and releases what it took; in exact arithmetic the image it leaves in analysis mode fits the samples within sigma and costs at most a computable gap more than any image that fits, whatever the output and work arrays contained. False: if the eleventh memory request is the first to be refused, the behaviour is undefined.", "quantifier": "all image sizes, weights, positions, data, options, memory contents and layouts, allocator answers and thread schedules; distinct positions and exact arithmetic for the cost bound", "why_tests_cant": "A test sees one layout and one schedule; stale values in the shared work array and writes into a neighbouring part of an array show only for particular sizes and contents.", "anchors": ["src/dct_tv_transforms.c:173-239", "src/nesta.c:363-463", "src/TV.c:40-220"]}
{"id": "C100", "title": "NESTA from Matlab, from the caller's samples to the caller's image, on raw memory", "statement": "After argument parsing, the Matlab function for total-variation recovery in analysis mode returns NESTA's status, leaves NESTA's vector in the output array, changes nothing else of the caller's memory and releases everything, whatever fresh memory contained and under every thread schedule; in exact arithmetic the image fits the samples within sigma and costs at most a computable gap more than any image that fits. Bad sizes, weights or indices are refused with no effect. Refused memory is reported. False: if the array for the unknowns or the copy of the samples is refused, six blocks stay allocated; a failed two-dimensional DCT setup leaks; if only the last request is refused, or sizes overflow int, the behaviour is undefined; synthesis mode with a positive weight is always refused.", "quantifier": "all sizes, weights, modes, positions, samples, options, memory contents and layouts, answers of the allocator and of the planner, and thread schedules; distinct positions and exact arithmetic for the cost bound", "why_tests_cant": "Tests do not refuse single allocations, do not look at leaked blocks and get fresh memory full of zeros.", "anchors": ["interfaces/mex/nesta_dctTV_mex.c:120-156", "src/dct_tv_transforms.c:62-176", "src/l1c_memory.c:9-23"]}
{"id": "C101", "title": "The Python script L1c.py denoises images through ctypes", "statement": "BRAnsTV(x, n, m, lam, max_iter, max_jac_iter) returns a new array of n*m numbers holding an iterate of the TV denoising loop (tolerance 0.001), changes none of the caller's memory, leaves nothing else allocated, and raises exactly when memory is refused; in exact arithmetic the returned images belong to a sequence that converges to the minimiser of the documented objective. False as the code stands: the script looks up a function name that the library does not have, so every call raises. With a library that has the name, the statement holds for arrays of n*m doubles and counts that fit an int; shorter arrays are read behind their end, and counts are reduced modulo 2^32, so that max_iter = 2^32 returns the noisy image as a success.", "quantifier": "All libraries (lists of names), all argument values, images of at least 2x2 pixels, all memory states and refused allocations; exact arithmetic for the limit only.", "why_tests_cant": "No test calls the script, and against the built library it cannot get past the name lookup; a test with a patched name would not see reads behind short arrays or 2^32 iterations.", "anchors": ["interfaces/python/L1c.py:7-40", "src/bregman.c:354-435", "src/CMakeLists.txt:3-21"]}
{"id": "C102", "title": "Library calls made by several threads at the same time", "statement": "Any number of threads may call library functions at the same time, each with memory of its own and possibly common data that no call writes: no execution is undefined, every call returns what it returns when made alone, leaves its memory as when made alone, and no other memory changes. In particular this holds for any number of TV denoising calls of any sizes, with any allocations refused to any of them, also when they denoise the same image. False when the threads use one transform set: there is an execution of two simultaneous Ax calls of a 1-D DCT set, for all sizes, sample positions and arguments, in which the first thread receives the samples of the second thread's argument; with all positions sampled that is wrong whenever the arguments differ.", "quantifier": "every finite family of calls, every memory and allocator behaviour, every interleaving of single memory accesses of all callers and of the threads inside their parallel loops", "why_tests_cant": "Races depend on the schedule; a test sees a handful of the possible interleavings, and most runs of the broken case look right.", "anchors": ["src/bregman.c:354-435", "src/dct1.c:24-34", "src/dct1.c:215-238", "src/dct2.c:24-36", "src/dct_tv_transforms.c:24-35", "src/matrix_transforms.c:13-16", "src/l1c_memory.c:22-55"]}
{"id": "C103", "title": "Image recovery from Python, from the converted arguments to the returned array, on raw memory", "statement": "Called from Python with documented arguments, l1qc_dct and nesta_dctTV touch only memory they own: under every schedule the caller's arrays and all other memory are unchanged, the returned array is a new block of exactly mrow*mcol numbers holding what the solver computes on plain vectors, wrong arguments raise ValueError with nothing changed, and refused memory raises an exception. With exact arithmetic and all requests granted the l1qc image fits its samples within epsilon, and the NESTA image (analysis) fits within sigma and is nearly optimal. After l1qc_dct nothing stays allocated but the returned array. False for nesta_dctTV: every call that gets as far as NESTA leaves six blocks (the transform set) allocated for good; and in synthesis mode with a total-variation weight it returns a black image.", "quantifier": "all sizes, samples, positions, options, prior memory contents, contents of fresh memory, allocator answers and interleavings", "why_tests_cant": "Memory growth and stray writes show up only in long runs or under tools; a test fixes sizes, one allocator behaviour and one schedule.", "anchors": ["interfaces/python/l1cPy.c:94-238", "interfaces/python/l1cPy.c:334-473", "interfaces/python/l1cPy.c:508-541", "src/l1qc_dct.c:30-96", "src/dct_tv_transforms.c:62-176", "src/nesta.c:363-463"]}
{"id": "C104", "title": "No data races", "statement": "Two threads never access one array element at the same time with one of them writing, neither inside a call nor between calls. Inside: in the parallel vector routines a race is possible exactly if the output array overlaps an input other than element for element; the difference operators have none on separate arrays; no library call that is otherwise defined has one. Between: any number of threads may denoise (also one common image) and may use Ax and Aty of one matrix transform set, with results in separate arrays, without a race and with correct results. False for the vertical difference in place with three or more rows, for AtAx of one matrix set called by two threads, and for Aty of one DCT set called by two threads.", "quantifier": "all lengths, sizes, contents and positions of arrays, all schedules of all threads, any number of callers", "why_tests_cant": "A race shows only under some schedules and usually leaves correct-looking results; tests run a few schedules.", "anchors": ["src/l1c_math.c:14-108", "src/TV.c:108-283", "src/bregman.c:62-89", "src/l1qc_newton.c:125-150", "src/matrix_transforms.c:86-132", "src/dct1.c:240-269", "src/dct2.c:275-296"]}
{"id": "C105", "title": "Image recovery from Matlab, from the arrays of the workspace to the returned array, on raw memory", "statement": "Called from Matlab with parsed arguments, l1qc_dct touches only memory it owns: under every schedule the caller's arrays and all other memory are unchanged, the returned array is a new block of exactly mrow*mcol numbers holding what the solver computes on plain vectors with the one-dimensional transform, wrong sizes and integer positions outside of the image end with an error and nothing left, and so does a refused work array. With exact arithmetic and all requests granted the image fits its samples within epsilon whatever fresh memory contains. After a call that returns nothing stays allocated but the returned array. False: a solver that ran out of memory is not an error, the call returns what the allocator left in memory and only the status in the optional second result tells; a refused output array leaves two blocks allocated; a NaN position, an overflowing product of the sizes and a refused first request of the solver are undefined behaviour.", "quantifier": "all image shapes, samples, positions, options, contents of fresh memory, allocator behaviours and thread schedules", "why_tests_cant": "needs every allocation failure, arbitrary contents of uninitialised memory and all interleavings", "anchors": ["interfaces/mex/l1qc_dct_mex.c:63-189", "src/l1qc_dct.c:30-96"]}
{"id": "C106", "title": "Addresses promised to the compiler as multiples of 64 are multiples of 64", "statement": "The library tells the compiler that many arrays start at a multiple of 64 bytes; where that is untrue the behaviour is undefined. TV denoising keeps all such promises if the output array is so aligned (the input image may be anywhere), the l1qc solver if the start array is, image recovery from DCT samples if FFTW accepts the output array (the samples may be anywhere), and all transform sets on aligned arrays; image recovery and TV denoising from Python and Matlab keep them for every caller, since the bindings copy. False: TV denoising with an output array that is not aligned, l1qc with such a start, image recovery when FFTW does not accept the output, NESTA with a data array that is not aligned; and NESTA for every caller, because its window of objective values comes from plain malloc: no successful call, from C, Python or Matlab, keeps its promises when that block is not at a multiple of 64.", "quantifier": "all sizes, contents, parameters, options and operators; all addresses of blocks; all schedules; all answers of the allocator; all runs", "why_tests_cant": "On common machines an address that is a multiple of 16 but not of 64 goes unnoticed until the compiler uses the promise; tests see one compiler and the few addresses one allocator returns.", "anchors": ["src/nesta.c:45-54", "src/nesta.c:402", "src/l1c_math.c", "src/bregman.c", "src/dct1.c:179-315", "src/l1c_memory.c:10-36", "src/l1qc_dct.c:30-96", "src/vcl/vcl_math.cpp:22-49"]}
{"id": "C107", "title": "The recovered image depends on the samples, not on the language or the process", "statement": "l1qc_dct with the one-dimensional transform called from C, Python and Matlab, and nesta_dctTV (analysis) from Python and Matlab, with the same samples, positions, weights and options deliver the same numbers and the same status, in every process: whatever else is in memory, wherever arrays lie, whatever fresh memory contains, however threads interleave and however FFTW computes the same transforms. In exact arithmetic the calls of l1qc_dct succeed and the common image fits the samples within epsilon; NESTA succeeds in every arithmetic. When l1qc_dct fails Python raises an exception and Matlab gets an array of uninitialised numbers. False: with as many samples as pixels Python returns an image and Matlab refuses the call.", "quantifier": "all sizes, samples, positions, weights, options; all pairs and triples of processes (memory, addresses, contents of fresh memory); all schedules; all allocation requests granted", "why_tests_cant": "A test compares the bindings on a few images in one process layout; a dependence on uninitialised memory, addresses or timing shows rarely.", "anchors": ["interfaces/python/l1cPy.c:94-245", "interfaces/python/l1cPy.c:334-500", "interfaces/mex/l1qc_dct_mex.c:63-189", "interfaces/mex/nesta_dctTV_mex.c:95-160", "src/l1qc_dct.c:30-96", "src/nesta.c:360-460"]}
{"id": "C108", "title": "The error norms in binary64: exact for equal arrays, blind below 2^-538 and above 2^512", "statement": "In IEEE binary64 l1c_dnrm2_err gives the same bits when its arguments are exchanged, is never negative, is exactly 0 for equal arrays of finite numbers (also when their squares overflow), NaN for equal arrays with an infinite or NaN entry, and is 0 exactly when every computed difference is finite with a square of at most 2^-1075; then all entries are finite and differ by less than 2^-537. l1c_dnrm2_rel_err is exactly 0 for equal arrays of finite numbers with an entry of size at least 2^-537. False: distance 0 means equal (every pair of arrays with differences up to 2^-538 has distance 0); the relative error between nonzero arrays is a number (it is infinite or NaN whenever all entries of the reference are at most 2^-538 in size, so that no tolerance is met, and NaN between equal ones); relative error 0 means close (with a reference entry of size 2^512 or more it is 0 for every array at a finite computed distance, and NaN when that distance overflows).", "quantifier": "all lengths, all contents with infinities and NaN unless stated finite, any position of the arrays in memory", "why_tests_cant": "Tests use numbers of moderate size, where squares neither underflow nor overflow; that the result is the same for all lengths and contents outside that range needs a proof over the rounding rules.", "anchors": ["src/l1c_math.c:136-153", "src/l1c_math.c:186-202", "src/bregman.c:386-411"]}
{"id": "C109", "title": "The stopping test of TV denoising in binary64: first iteration and black images", "statement": "In IEEE binary64 l1c_breg_anistropic_TV carries out at least two iterations whenever max_iter is at least two, for every image (infinities and NaN included), every mu, every tolerance (infinite ones included) and every number of sweeps. If K and K+1 iterations give the same image, with finite pixels and one of size at least 2^-537, every positive tolerance ends the run after at most K+1 iterations. A black (all zero) image is returned exactly, with status 0, for exactly those positive mu with 5*mu above 2^-1024 and mu below 2^1023; the Python and Matlab functions return black for the same weights and NaN, without an error, for all other positive ones. False: the iteration stops as soon as the image no longer changes (for a black image the change is measured as NaN, so that all max_iter iterations are carried out whatever the tolerance); a black image is returned black for every positive mu (for 5*mu up to 2^-1024 every returned pixel is NaN, with status 0); a finite image gives a finite result for every large mu (from 2^1023 on every returned pixel of every image is NaN, with status 0, also from Python and Matlab); weight zero is rejected (every returned pixel of every image is NaN, with status 0).", "quantifier": "all image sizes from 2 by 2 on, all max_iter and max_jac_iter below INT_MAX, all tolerances, any position of the arrays in memory", "why_tests_cant": "A test sees a correct black image either way and does not count iterations; that no tolerance and no weight ends the run needs a proof over the rounding rules.", "anchors": ["src/bregman.c:354-435", "src/l1c_math.c:136-153", "interfaces/python/l1cPy.c:275-331", "interfaces/mex/breg_anistropic_TV_mex.c:27-85"]}
