# Formal model of L1c: design and trusted base

This file was written before the proofs and is kept current.  The properties are in
`properties.jsonl`, the theorems for each one in `MANIFEST.json`, the experiments
with wrong programs in `seeded/LOG.jsonl`.

## 1. Layout

| directory | content |
|---|---|
| `lean/Verif/Base/` | scalars, memory, programs with explicit undefined behaviour, interleavings, allocator |
| `lean/Verif/Model/` | the model, function by function; every definition cites file and lines of `/repo` |
| `lean/Verif/Spec/` | small specifications that do not use the model's helpers |
| `lean/Verif/Proofs/` | helper lemmas |
| `lean/Verif/Props/` | the property theorems `Cnn_...`, each with an example that its hypotheses can be met |

Naming: `_partial` marks a theorem that proves less than the property says; the
docstring says what is missing.  `_false`, `_ub` and a few descriptive names
(listed in section 6) mark theorems showing that the property fails: they
prove the opposite, for concrete data or for a whole class of inputs.

## 2. Modelling decisions

**Scalars** (`Base/Scalar`).  The C `double` is a type `F` with a class `Scalar F` that has
the operations C uses (`+ - * /`, `fabs`, `sqrt`, `log`, `exp`, comparisons, `isnan`,
conversion to `int`, decimal literals) and *no laws*.  A theorem for every
`Scalar F` uses no arithmetic fact at all, so it holds for IEEE binary64 with
rounding.  Theorems that need arithmetic use the instance `Dbl`: real numbers plus
`+inf`, `-inf`, `NaN`, exact arithmetic with the IEEE rules for special values
(`x/0`, `0/0`, `inf-inf`, `log` of 0 and of negative numbers, comparisons with NaN
false).  `Dbl` does not model rounding, overflow of finite values, or the sign of zero.
Claims about "exact arithmetic" below mean `Dbl`.  `B64` (`Base/Binary64`) is IEEE
binary64 with round-to-nearest-even, subnormals and overflow, without the sign of zero;
C71 uses it.  That the machine's `double` is `B64` is an assumption.

**Memory** (`Base/Mem`, `Base/Heap`).  Pointers are (block, signed offset); a block has a
length.  Reads and writes outside a block are *undefined behaviour*, a distinct outcome
(`none`), and so are signed overflow where sizes are multiplied or counters
incremented, out-of-range conversions from floating point to `int`, and use or free of dead or uninitialised pointers.

**Programs and threads** (`Base/Par`, `Base/Cmd`).  Kernels (vector arithmetic, TV operators, Bregman
kernels) are programs of single memory reads and writes.  An OpenMP `parallel for` is a
list of bodies, one thread per iteration; its semantics is *every interleaving
of single reads and writes*, which includes every OpenMP schedule.
A data race (two threads about to access one address, one of them writing) is undefined behaviour; since the proved
routines have none, C's guarantee for race-free programs makes interleavings the whole of their behaviour.

**Vectors** (`Base/Vec`).  Solvers (CG, line search, Newton, NESTA, DCT) work on `Vec F n = Fin n → F`; for CG, l1qc and NESTA second models on memory (`Model/CGMem`, `Model/NewtonMem`, `Model/NestaMem`) are proved equal (C93, C94, C95), and so are the DCT and matrix sets (`Model/TransMem`, C96).
For TV and Bregman the memory programs are proved to compute the vector functions (`Proofs/TVVec`,
`Proofs/TVK`, `Proofs/BregmanK`); for the others the arrays of the C code are vectors from the start, and
indices outside them cannot be written down.  Where an array could be too short in the C code
(NESTA's work arrays, l1qc with n > m, slices of caller arrays) the model checks the
length explicitly and the outcome is undefined behaviour.

**Allocation.**  The allocator is an arbitrary oracle deciding, request by request, whether memory is granted.  Live
blocks are tracked; leaks and double frees are observable.

**Alignment.**  Parallel loops and commands carry the pointers that the code promises to be 64-byte aligned (`__builtin_assume_aligned`, aligned vector loads).  Addresses of
blocks are arbitrary; plain `malloc` and the aligned allocators share one model operation, and theorems that need aligned fresh blocks say so (`FreshAligned`).

**Transform sets** (`Model/World`).  The module variables of `dct1.c`, `dct2.c`, `dct_tv_transforms.c` and
`matrix_transforms.c` are one state `World`.  Setups, destroys and calls through the function table act on it.  `Hist lib w L`
(Spec/World) says that `w` is reachable by some history of client calls after which the sets `L` are live.  Setups in it may fail
in any way, sets may be forgotten without being destroyed, and at most one set per module is in use at a time.

**Solvers with callbacks** (`NM σ`, `Model/Newton`, `Model/Nesta`).  A state monad with the allocator and an arbitrary
state `σ` of the operators; an operator may read what its output array held before, may fail (undefined
behaviour), and is only assumed to be correct in states satisfying an invariant.  Instantiated with the real transform sets
(`σ = World`) for `l1qc_dct` and the bindings.  NESTA's operators may also change their argument array (as the 1-D DCT does, C25); the argument afterwards is
stored back where the C code's array is used again.  Newton's operators are assumed not to; the ones it is used with do not (C25).

**External libraries.**  BLAS routines by their mathematical definition in the scalar type; in particular
`dscal` with factor 0 multiplies (a library that clears instead would not show the failures C58 and `C80_memory_false`); FFTW `REDFT10`/`REDFT01`
by the formulas of the FFTW manual (`LibOk`), with the manual's guarantee that these
transforms preserve their input; a library `refLib` satisfying this is constructed.  cJSON as the documents it returns, the
Python and Matlab C interfaces as described in `Model/Bindings` (full real arrays of double class or another class, dimensions, reference counts, errors that do not return; sparse and complex Matlab arrays are not modelled), `inputParser` and `PyArg_ParseTupleAndKeywords` in `Model/Options`, libc files as contents with possible failures.

## 3. Trusted base

* The Lean 4.33.0 kernel and the axioms `propext`, `Classical.choice`, `Quot.sound`.  No theorem in `Props` depends on any other
  axiom; there is no `sorry`, `native_decide`, `bv_decide` or own axiom.
* That the model transcribes the C text (line references at each definition).
* The behaviour of BLAS, FFTW, cJSON, libc, the Python and Matlab C interfaces, and OpenMP barriers as described above.
* Compiler correctness.

## 4. What is modelled, what is not

Modelled: all of `src/*.c` and `src/vcl/vcl_math.cpp` except what is listed next; `interfaces/mex/*.c`; the three functions of
`interfaces/python/l1cPy.c` with their argument parsing; `interfaces/mex/l1qc_dct_opts.m` and `nesta_opts.m`; `interfaces/python/L1c.py`; `examples/c/l1qc_dct_c.c`.

Not modelled: rounding (except in C71, C88–C92, C108 and C109, and that theorems for every `Scalar F` hold with it); contraction into fused multiply-add; timing; printed text (report functions, `print_vec`);
`check_pthreads.c`; how an alignment promise is used by the compiler (C106 says when promises are kept); the choice of SIMD width in
`vcl_math.cpp` (the lane and tail loops are modelled for every width); module initialisation of the Python module; NumPy's conversion of its
arguments (the model starts from the converted array or its failure); the build system; the tests.

## 5. Method per property

For each property: what is modelled, how it is proved.  "Any arithmetic" means every `Scalar F`.

* **C01** `l1c_memory.c` 2-D tables against the allocator oracle; induction over rows. Any failure pattern, all blocks returned.
* **C02** Size computation modulo 2^64 for every `int`; arithmetic on naturals.
* **C03** Element-wise kernels as interleaved programs; a general non-interference theorem plus evaluation of one body. Any arithmetic.
* **C04** Lane and tail loops and OpenMP reductions over `Dbl`, for every length, lane count and split; induction.
* **C05** Maximum loop over `Dbl`, NaN behaviour included; induction.
* **C06** Both error norms as programs, then the metric axioms over the reals.
* **C07** TV kernels as interleaved programs, frame included. Any arithmetic, every shape.
* **C08** Summation by parts on the images the kernels write.
* **C09** Composite kernels equal the composition; **false** for one-row images, where the combined kernel gives a² X instead of 0 (`C09_y_one_row_false`).
* **C10** Norm bounds of the four operators over the reals.
* **C11** Every read and write in bounds for at least two columns; **false** for one column, two kernels read out of bounds (`C11_one_column_ub`), and for overflowing sizes (`C11_overflow_ub`).
* **C12** CG as a state machine with an arbitrary linear operator over `Dbl`; invariant: reported residual is that of the returned vector, never worse than the start.
* **C13** Status, iteration count and early stop. Any arithmetic; `max_iter` below the largest `int`.
* **C14** Classical conjugacy induction over the reals, transferred to the model; exact solution after N steps.
* **C15** **False** (`C15_precond_false`): the preconditioned solver measures in another norm. What it reports is characterised exactly.
* **C16** **False** (`C16_zero_rhs_false`): b = 0 divides by zero for every operator.
* **C17** Line search with an arbitrary stateful objective; induction on the trial counter. Any arithmetic.
* **C18** True for `l1c_linesearch_xu`; **false** for `l1c_linesearch` when the callback overwrites its reference value (`C18_linesearch_false`).
* **C19** DCT setup in any state of the library and for any allocation outcome.
* **C20** **False**: every pair of positive sizes with product above 2^31-1 overflows (three theorems); otherwise no undefined behaviour from program start.
* **C21** Trigonometric orthogonality proved from Mathlib; the basis is the DCT-II basis, 1-D and 2-D.
* **C22** Adjoint exactly when no index is repeated (`C22_adjoint_iff`); setup accepts repetitions.
* **C23** AtAx equals Aty after Ax, bit for bit. Any arithmetic.
* **C24** Ax (Aty y) = y exactly when no index is repeated.
* **C25** Induction over call histories; arguments unchanged up to the scaling of entry 0 in 1-D Mx and in DCT-TV operators that use it, for any set and any history (`Props/Arguments`). Negation in `B64`: the scaling overflows.
* **C26** The dictionary is [M, av Dv, ah Dh] and its transpose, for all weights and histories; reported sizes. **False** in synthesis mode with a positive weight: identity copies too few entries (`C26_synthesis_identity_false`).
* **C27** Norm bound of the dictionary; **false** for matrix sets, which advertise 0 (`C27_matrix_false`).
* **C28** Setup accepts valid arguments only; **false**: a refused setup changes sizes a live set uses (`C28_live_set_unchanged_false`).
* **C29** **False** for every positive weight: the operator has boundary terms, constant images are penalised (`C29_constant_image_false`); the exact regulariser is given.
* **C30** Matrix sets: products, adjoint, setup checks, calls after any history.
* **C31** One live set per module: proved; two sets of one module or threads: **false** (`C31_independent_false`, `C31_threads_false`).
* **C32** Leaks and double frees over all histories; **false** in three situations (`C32_*_false`).
* **C33** Shrinkage kernel over `Dbl`, every interleaving, frame.
* **C34** Sweeps and operator on the memory the code writes; existence and uniqueness of the solution.
* **C35** Convex analysis over the reals; strong minimum.
* **C36** Whole algorithm as a state machine; termination in any arithmetic, bounds and constants in exact arithmetic.
* **C37** Safety and release for at least 2 by 2 pixels; **false** for one row or column, overflowing sizes, largest iteration count (four `_ub` theorems).
* **C38** Lagrange multiplier argument; unique minimiser over the feasible set.
* **C39** Every iterate is feasible (induction over both loops). **False** for b = 0 and norm_W = 0: status 0 without a finite entry (`C39_*_not_finite`, `C39_false`).
* **C40** Smoothed 1-norm as a maximum over the dual ball; Fréchet derivative and Lipschitz bound.
* **C41** Start value proved for p <= m, **false** for p > m (`C41_start_false`); geometric schedule.
* **C42** Ring buffer refines "the last ten values".
* **C43** Memory and definedness for any arithmetic and operators. **False**: leak when an operator is missing (`C43_inconsistent_leaks`), unchecked window (`C43_window_unchecked`), overrun for n > max(m,p) (`C43_work_array_overrun`).
* **C44** Nesterov estimate-sequence proof on the model.
* **C45** Barrier function, its derivative, the operator passed to CG, the complete Newton system.
* **C46** Positive definiteness, descent, barrier does not grow.
* **C47** Step bound; invariant of whole runs.
* **C48** Every defined run: feasible or unchanged.
* **C49** Duality gap; weights stored. The last problem solved has a weight mu times smaller (`C49_weights_partial`).
* **C50** Status codes and counts. **False**: failures inside are not reported, the count is too large (`C50_*_false`).
* **C51** No leak; definedness. **False**: first allocation failing and n > m are undefined (`C51_*_false`).
* **C52** Start point strictly inside for nonzero starts; **false** for zero (`C52_zero_*_false`).
* **C53** `l1qc_dct` over the real transform sets: four outcomes. **False** parts: `C53_*_false`.
* **C54** Two-line state machine; sequences of replacements.
* **C55** Matlab and Python argument checking of `l1qc_dct`. **False** for fractions, NaN, huge sizes and lengths (`C55_*_false`).
* **C56** TV denoising from Matlab. **False**: shape swapped, leak, overflow (`C56_*_false`); the right problem exactly for square images (`C56_objective_iff`).
* **C57** File loading with failing libc calls. **False** for unparsable text, short files, 2 GiB, pipes, 4 GiB (`C57_*_false`).
* **C58** **False** for Rty and synthesis Aty (`C58_Rty_keeps_nan`, `C58_Aty_uninitialised`); proved for Wtx.
* **C59** l1qc_dct end to end with the documented FFTW transforms: result feasible; independent of history (any arithmetic).
* **C60** JSON field extraction; **false** for arrays with elements of another type and for int arrays without memory (`C60_*_false`).
* **C61** Python in full; **false** for Matlab after a failed setup (`C61_matlab_false`).
* **C62** C memory in full; **false** for references after success (`C62_references_false`).
* **C63** TV denoising from Python; **false**: leak, overflow (`C63_*_false`).
* **C64** NESTA from Matlab over the real transform sets; accepted arguments in both directions, all outcomes. **False**: leak, unchecked array, synthesis (`C64_*_false`).
* **C65** NESTA from Python with reference counts. **False**: set never destroyed, extra reference, failure not raised (`C65_*_false`).
* **C66** A live analysis set realises a sampling matrix and a dictionary (`Proofs/NestaSet`), so C39 applies to the bindings. **False** for vanishing samples (`C66_*_zero_false`).
* **C67** The rate of C44 is for `y_k`; here also `z_k` (never further from a minimiser than the start) and the mix `x_k` that is returned, by convexity and a Lipschitz bound. The inner loop cannot stop early with tolerance <= 0 because the window mean is nonnegative. Minimiser by compactness. Several steps: each ends in a point whose norm is bounded through its cost, by induction over the steps.
* **C68** Self-concordance by hand: along a direction the barrier is a sum of `-log(1 - t r_k)`, where the rates `r_k` have square sum = squared Newton decrement; gives the step to the boundary, the accepted step and the decrease. Loop by induction on the fuel.
* **C69** Progress bound carried over the barrier iterations (`startBound`), then one Newton step at decrement <= 1/4 gives the gap. The linear systems may be solved inexactly: below the barrier level reached, slacks are bounded above and below (`slack_bounds`), which bounds the effect of the residual (`resid_small`). The decrement test divides by tau: when 2 tau newton_tol >= 1 it ensures nothing, hence the hypothesis on newton_tol.
* **C70** C69 for the operators of the live transform set (`pureAx_real`) from the start `A^T b`, carried through `C53_outcome_partial`.
* **C71** Standard model of rounded arithmetic (`Spec/Rounding`), one error predicate carried through the loops as an invariant, for every schedule and every tree of additions; binary64 is constructed in `Base/Binary64` and proved to satisfy the model; a concrete binary64 run shows exact agreement is false.
* **C72** `Model/Example`: main of the example over the models of json_utils and l1qc_dct, one allocator, files and transform state as client state. Every defined run is inverted step by step, the releases are matched with the requests; three witnesses show the full statement false.
* **C73** Sweeps act on the residual by a positive operator; pixelwise Cauchy-Schwarz with its row and column sums gives a Euclidean contraction. A Lyapunov function of d, b, the residual and the last change of d-b then decreases by a tenth of the squared error per iteration. Existence of minimiser and multipliers: dual least squares on a box. Not shown for fewer than ten sweeps.
* **C74** The iterates minimise the energy norm over start plus span of the directions; the residual polynomial of the optimum is compared with the scaled Chebyshev polynomial, built by its three-term recurrence in the operator and bounded by an energy identity (no spectral theorem). The stop rule is read off the loop trace of C13/C15.
* **C75** `inputParser` as a fold over the pairs, with an abstract name resolution; composed with the gateways of C55/C64 into one equivalence. **False**: `dct_mode` ignored, documentation wrong (`C75_*_false`).
* **C76** `PyArg_ParseTupleAndKeywords` for the three signatures; equivalence with a relational reading of the signature. **False**: defaults differ from Matlab (`C76_same_defaults_false`).
* **C77** `_breg_anistropic_TV` as a memory program with reference counts on top; composes C76, C63 and C73. **False** of references and of one allocation failure (`C77_references_false`, `C77_leak_false`).
* **C78** Composes C76 or C55 (arguments), C53 (definedness), C69/C70 (optimality); evaluation of the whole call. Two instances: the same three-pixel call from Python and from Matlab.
* **C79** Composes C76 or C64 (arguments), C65/C66 (definedness), the explicit matrices of a live analysis set (orthonormal DCT and differences) and C67 for several steps. The cost is specified without the set: `anaCost`. Two instances: the same three-pixel call from Python and Matlab.
* **C80** As C79, with the matrices of a live synthesis set; the invariant of NESTA now includes the contents of the work array of the transforms (`SynInv`), because `Aty` reads it before writing. Negations: entries that are not finite stay so through NESTA (`nesta_stuck`), for every FFTW that does not turn NaN into numbers (`NanStrict`); a two-pixel Python call.
* **C81** Sessions (`Spec/Session.lean`) are sequences of calls with any arguments; everything outside the library may change between calls. Induction: each call takes a client history with nothing in use to one with nothing in use (`call_quiet`), where sets that were not destroyed count as forgotten. The memory part follows arrays through every routine (`Proofs/Frame.lean`: operators only overwrite, setups only add, destroys only remove what the call itself made).
* **C82** Two runs of the same program from library states in which the same set is in use (`Proofs/NestaSim.lean`): every operator of an analysis set gives the same in all reachable buffer states (`tvAll_agree`), so by induction over the loops both runs compute the same records (`nesta_sim`). The interfaces are reduced to such runs by C64, C65 and C81. Negation for synthesis mode from C80.
* **C83** Model/Bregman. Props/TvSym; the real iteration of Proofs/BregmanFin is equivariant under u -> c u + t (Proofs/TvSym), and the relative stopping test under u -> c u. False for brightness with tol > 0: `C83_bright_stops`, `C83_offset_false` (2x2 image, three exact iterations).
* **C84** Model/Nesta, NestaSetup and both bindings. Props/NestaSym; the real iteration of Proofs/NestaRun is equivariant under a pair of signed permutations of pixels and coefficients and a scale (`SymR`, `nesta_sym` in Proofs/NestaSym); the explicit DCT of C80 under mirroring only changes signs (Proofs/NestaMirror). Spec/NestaSym says what a mirrored pixel is.
* **C85** Model/Newton, L1qcDct, Dct and both bindings. Props/L1qcSym; two-run simulation of the solver in Proofs/NewtonSym and NewtonSymLoop (`QSym`, `solve_pair`): gradient, Hessian system, CG iterates, maximal step, line search, stopping tests and barrier weights of the second run are those of the first up to the signs of the coefficients. Mirroring by the explicit DCT of C80.
* **C86** Model/Bregman. Spec/TvShape, Proofs/TvShape, Props/TvShape, Props/PyTvShape: the minimiser of the objective keeps average and range, is monotone and non-expansive (shift by a constant, pixelwise minimum and maximum, quadratic growth) and follows mirrored and transposed images; C73_few_inaccurate carries this to the returned images.
* **C87** Model/Bregman. Proofs/TvMu, Props/TvMu: minimisers compared with one pixel changed, with the constant average image, and for two weights; C73_few_inaccurate carries this to the returned images.
* **C88** Model/TV, Model/Bregman. Spec/TvRound: real difference operators, soft threshold, `FpSign`. Proofs/Binary64Order: rounding to binary64 is monotone and idempotent. Proofs/TvRound, Props/TvRound: error propagation on top of the kernel refinements of C07.
* **C89** Model/Bregman at binary64. Proofs/TvFloat: every operation used commutes with negation (`SignLaws`), lifted through pixel update, sweep, iteration and stopping test; with the generic run theorem of Proofs/BregmanMain. Props/TvFloat.
* **C90** Model/Bregman at binary64. Proofs/TvFloat: NaN is contagious (`NanLaws`); induction over the pixel order of a sweep and over the sweeps. Props/TvFloat.
* **C91** Model/CG, Model/Nesta at binary64. Proofs/OddSolve: `OddLaws`; equation of runs for CG, relation of runs (`RelN`: both undefined, or same state and related results) for NESTA. Props/FloatSolve.
* **C92** Model/CG at binary64. Proofs/CgFloat: invariant of the loop when nothing compares below the best residual; underflow and overflow of squares. Props/FloatSolve.
* **C93** Model/CGMem: the two solvers as commands on memory. Spec/MemVec: vectors in memory, changes confined to a set, operators on memory. Proofs/MemVec, Proofs/CGMem: the loop on memory follows the loop on values, with UB exactly where the latter has none. Props/CGMem.
* **C94** Model/NewtonMem: every function of `l1qc_newton.c` as a command on memory, with allocation and clean-up. Spec/NewtonMem: the arrays by name, operators on memory, obligations of the caller. Proofs/EnvMem: rules for commands on a collection of disjoint arrays of two lengths; Proofs/NewtonRam: each function follows its vector model; Proofs/AllocList: series of allocations; Proofs/NewtonFull: the whole function. Props/NewtonRam.
* **C95** Model/NestaMem: every function of `nesta.c` as a command on memory, with allocation and clean-up. Spec/NestaMem: operators on memory, obligations of the caller. Proofs/ArrMem: rules for commands on a family of disjoint arrays that follow a program on vectors (`Sim`); Proofs/NestaRam: each function follows its vector model; Proofs/NestaFull: the whole function. Props/NestaRam. False of the code: release on every path (ten blocks leak when an operator is missing), and definedness when the window cannot be allocated.
* **C96** Model/TransMem: every function of the DCT and matrix sets as a command on memory. Spec/TransMem: contract of the FFTW commands, buffers in memory, sets as operators of the solvers. Proofs/TransMem: rules for scatter, gather and in-place loops over a family of disjoint arrays; Proofs/DctRam, Proofs/MatRam: each function follows its vector model. Props/TransRam; C96_matrix_solved composes with C94, C48 and C30.
* **C97** The vector model of the DCT sets with arbitrary initial buffers (Props/Planner, Proofs/Planner). Aty is Mty after a scatter into the old buffer contents, so in exact arithmetic it adds the transform of the left-overs. False of the code under the documented behaviour of FFTW_PATIENT planning; exact condition, consequence and persistence are proved.
* **C98** Model/L1qcDctMem puts src/l1qc_dct.c and the setup and destruction of DCT sets on memory, with the transforms of Model/TransMem and the solver of Model/NewtonMem. Specification: `recover` (no memory) through `imageFuns`; caller contract `ImageCall`. Proved from C94 and C96 by tracking the list of live blocks (`Ext`). 26 requests are made in all.
* **C99** Model/DctTvMem runs the functions of src/dct_tv_transforms.c on memory, on top of Model/TransMem and the image kernels; Spec/DctTvMem gives them as operators on vectors. Proved by splitting the work array into head and tail (`Tail`), so that the same lemma covers `Wv` into a separate array and into the work array itself. NESTA by C95, the cost bound by C67.
* **C100** Model/NestaMexMem is lines 120-156 of interfaces/mex/nesta_dctTV_mex.c with `l1c_setup_dctTV_transforms`, on memory; `mallocC junk` returns a block with arbitrary contents. Proved by composing the allocation invariant `Ext` (new lemma `Ext.trans`) with C98 for the DCT set, C99 for the functions and C95 for NESTA; the theorems quantify over the junk.
* **C101** Model/PyScript is `BRAnsTV` with the list of names the library exports, the checks of `ndpointer`, the 32-bit wrap of `c_int` and the allocation of the result; the library function is the one of C36/C37/C73. Proved by running the guard and composing with `cspec_breg`; the out-of-bounds read by the interleaving that starts with the first missing pixel.
* **C102** Model/Concurrent runs a family of commands on one memory: a step is one memory access of one thread of one caller, or one allocator call. Proved by an invariant per caller (the rest of its call, restricted to its blocks, is still described by its `CSpec`), preserved by its own steps by the definition of `CSpec`/`ParSpec` and by others because they change other blocks only; common blocks are covered by the syntactic condition `Cmd.Spares` (no write and no free there), proved of the denoiser. The denoiser instance bounds its allocator calls statically (`AllocLe`). The counterexample runs thread 1 up to the write of the common buffer, thread 2 completely, then the rest of thread 1.
* **C103** Model/PyMem runs the two Python functions on memory after argument conversion; the data of the returned numpy array is one new block. Proved by putting the array for the image (and the copy of the samples) in front of C98 and of the steps of C100 (`PyImageCall.inner`, `pyMexAt`), then the copy and the releases. `NewBlocks` counts what stays allocated.
* **C104** `Race` (Base/Par) and `Sys.Race` (Model/Concurrent) are part of undefined behaviour (`IsUB`, `Sys.Bad`), so every theorem of the form `KSpec`, `CSpec` or `¬ KUB` excludes them. Proved in one place: threads with disjoint footprints do not race (`ParInv.notUB`), callers touch only their own and common blocks and do not write the latter (`CallInv.reads`, `CallInv.writes`). Races are shown by running each of two threads up to its conflicting access (`Steps.pre`).
* **C105** Model/MexMem runs lines 63-71 and 114-189 of interfaces/mex/l1qc_dct_mex.c on memory; the positions are read from the Matlab array one by one, `x_ours` starts with arbitrary contents, and a refused output array leaves the function at once. Proved by putting the two arrays and the conversion of the positions (`mexIndicesM_spec`, which refines `mexIndices` of C55) in front of C98, then the copy and the releases.
* **C106** Loops carry the list of pointers that the code promises to be aligned (`Phase.al`, Base/Par), functions that promise before other work begin with `Cmd.assume`; the aligned loads of `vcl_math.cpp` count as promises. Addresses are a function from blocks to bytes. A broken promise (`CMis`, Spec/Align) is some execution that comes to a promise about a pointer that is not aligned. Kept: `Cmd.KeepsAlign`, a predicate on commands for any answers of memory and allocator, sound for all executions. Broken: `Cmd.MustMis`, every path breaks a promise or ends with another result. What FFTW accepts is a parameter.
* **C107** Props/SameImage, from C98, C100, C103 and C105: each interface delivers the image of the recovery on plain vectors. For NESTA two runs from different buffers and start arrays are compared with the simulation of C82 (Proofs/NestaSim), now for the set on vectors that the memory model refines.
* **C108** The loops of `l1c_dnrm2_err` and `l1c_dnrm2_rel_err` over `B64`; sums of squares in order, with invariants at least c, or infinite, or NaN that every rounded addition keeps; squares round to 0 exactly up to 2^-1075 (ties to even), which gives the exact condition for distance 0 (`C108_zero_iff`), and from 2^1024 on to infinity.
* **C109** Props/TvZero, TvBlack: the previous image starts as zero, so its sum of squares is 0 and the quotient is infinite or NaN (`over_zero`); on a black image all arrays stay 0, with the factors of the sweep shown finite; for very small weights these factors overflow, and zero times infinity is NaN (invariant: all entries zero or NaN); for very large weights twice the weight overflows and is multiplied with the zero start of the auxiliary images; the exact lower bound of the weight uses that small multiples of the smallest number are exact, and that one NaN in the first corner fills the image in one sweep; Python and Matlab via the outcome theorems of C63 and C56.

No property is out of reach of the model (`not_applicable` is not used).  Properties that are false of the code keep a
`_partial` theorem for the part that holds.

## 6. Defects of the code found by the proofs

Each is a theorem about the model, with the name given; where the statement is general it covers every such input.

* Transform sets: two live sets of one module share state (`C31_independent_false`); failing 2-D setup leaks, a failing 1-D setup destroys the plans of an
  earlier set a second time (`C32_*`); a refused DCT-TV setup damages a live set (`C28_live_set_unchanged_false`); repeated indices break adjointness
  (`C22_adjoint_iff`, `C24_rows_orthonormal_iff`); `Rty` keeps NaN from its output array, synthesis `Aty` reads uninitialised memory (`C58_*`);
  `norm_W = 0` for matrix sets (`C27_matrix_false`); sizes overflow `int` (`C20_*`).
* `Aty` and `AtAx` of the DCT sets work only if FFTW_PATIENT planning leaves zeros in the array it plans on, which the FFTW manual does not promise (`C97_*_false`).
* The 1-D `Mx` (and DCT-TV operators built on it) scales entry 0 of its argument and scales it back: large entries come back infinite (`C25_argument_overflow_false`).
* Synthesis mode: `Aty` reads uninitialised memory, NaN there makes every result NaN (`C58_Aty_uninitialised`, `C80_memory_false`).
* TV kernels: one-row and one-column images (`C09_y_one_row_false`, `C11_one_column_ub`).
* TV denoising: the stopping test is relative to the image itself, so a bright enough image is returned after two iterations (`C83_bright_stops`).
* CG: zero right-hand side divides by zero (`C16_zero_rhs_false`); an exact start spends the whole iteration budget (`C74_solved_start`); data so small or large that their squares underflow or
  overflow are answered with the start vector (`C92_tiny`, `C92_huge`).
* Error norms: squares are not scaled, so below 2^-538 different arrays have distance 0 and the relative error is never a number, and above 2^512 it is 0 between distant arrays (`C108_*_false`).
* TV denoising: on a black image the stopping test never holds, so all iterations are carried out (`C109_black_false`); with a weight up to 2^-1028 it becomes NaN (`C109_small_weight_false`). With a weight from 2^1023 on every image becomes NaN (`C109_large_weight_false`). Weight zero is accepted and gives NaN for every image (`C109_zero_weight_false`). The exact range in which a black image stays black is in `C109_black_iff`.
* TV denoising: one NaN pixel switches the stopping test off and makes the whole image NaN, with status 0 (`C90_whole_image`).
* Alignment: TV denoising promises that the output array is 64-byte aligned, which the documentation says only of `l1qc_newton` (the bindings copy; `C106_tv_unaligned_false`); image recovery lets FFTW, whose plans are made for aligned
  arrays without `FFTW_UNALIGNED`, write into the array of the caller (`C106_image_output_false`).
* Line search: reference value read after the callback may have changed it (`C18_linesearch_false`).
* NESTA: zero data or `norm_W = 0` give status 0 and no finite entry (`C39_zero_data_not_finite`, `C39_norm_zero_not_finite`); wrong start value when p > m
  (`C41_start_false`); ten blocks leak when an operator is missing; window allocation unchecked; overrun when n > max(m, p) (`C43_*`); the window is promised to be
  64-byte aligned but comes from plain `malloc`, and the data array of the caller must be aligned too (`C106_nesta_*_false`).
* l1qc Newton: a start on the boundary returns status 0 with x unchanged, failed inner solves are not reported, iteration count too large (`C50_*`); last barrier weight short
  by a factor mu (`C49_weights_partial`); undefined behaviour when the first allocation fails or n > m (`C51_*`) and for a zero start (`C52_*`).
* `l1qc_dct`: all-zero data with automatic iteration count, more samples than pixels, failing first allocation are undefined (`C53_*`).
* JSON: parse failure reported as success, leaks, large files (`C57_*`), mixed arrays, NULL write (`C60_*`).
* Matlab: image returned uninitialised after failed setup (`C61_matlab_false`); swapped shape (`C56_shape_false`); leaks and unchecked allocations (`C56_leak_false`, `C64_leak_false`,
  `C64_calloc_false`); synthesis mode with weights never works (`C64_synthesis_false`); `dct_mode` ignored by `l1qc_dct`, documentation wrong (`C75_*_false`).
* Threads that share a transform set get each other's data: the buffers are file-scope variables (`C102_shared_set_false`, `C31_threads_false`).
* The script `L1c.py` calls a function that the library does not have, so it always raises; with the name repaired it would not check the length of the array or the range of the counts (`C101_*_false`).
* Python: references leak after every successful call (`C62_references_false`, `C65_reference_false`, `C77_references_false`), a buffer when the second is refused (`C77_leak_false`); the NESTA set is never destroyed (`C65_never_released_false`); NESTA failures return zeros without an
  exception (`C65_synthesis_false`); the transform set is never destroyed, so memory grows with every call (`C81_memory_false`, `C81_unbounded_false`); in synthesis mode the DCT of the image is returned instead of the image (`C80_python_false`); lengths cut to `int` (`C55_python_length_false`).

## 7. How the theorems were tested

`seeded/LOG.jsonl` has one line per wrong program.  In a copy outside this repository one definition of the model was changed; then everything was rebuilt, each lemma
or theorem whose proof no longer checked was replaced by a stub, and the property theorems depending on a stub were collected.  "Failed" in the log
means: not proved any more, because its own proof or that of a lemma it uses broke.  It does not by itself mean that the statement is refuted.  When a claim became
false and every theorem for it still checked, the theorem was tightened (column `theorems_tightened`).
