# Design of the symmetrix model and proofs

Source under study: `/repo` (wcwitt/symmetrix).  The code is read, not run.

## 1. Trusted base

* The Lean 4.33.0 kernel.
* Axioms: every property theorem depends on at most `propext`, `Classical.choice`, `Quot.sound`
  (checked with `#print axioms`, see `Verif/Audit.lean`).  No own axioms, no `sorry`, no
  `native_decide`, no `bv_decide`.
* The reading of the C++/Python sources into the model (each definition cites file and lines).
* **Floating point is idealised**: `double` becomes a field element (`ℝ`, or any field `K` when nothing
  analytic is needed).  Rounding, overflow, NaN and infinities are outside the model
  (rounding in the spline classes is the subject of C98, `Model/RoundedSpline.lean`; C101 is about the evaluator in any arithmetic,
  C102 about its rounding errors and C103 about its history, `Model/Num.lean`).  Where the code
  divides, the theorem carries the hypothesis that the divisor is non-zero.  Exceptions: equalities between
  two runs (C05–C07, C106, C114), which in the model also hold at a zero normalisation, where the model's quotient is 0 and the code's is
  infinite or NaN; there they say nothing about the code.
* `int` is idealised to `ℕ`/`ℤ` (no overflow), except in C97 (`Model/IntIndex.lean`), C110 (`Model/Kokkos/IntIndex.lean`), C120 (`Model/LammpsInts.lean`), C121 (`Model/Kokkos/PairInts.lean`), C122 (`Model/ToolsInt.lean`) and C123 (`Model/PartsInt.lean`), which are about overflow in
  `mace.cpp`, `mace_kokkos.cpp`, the two pair styles, the first two functions of `tools.cpp`, and the polynomial (except its constructor),
  perceptron and spline classes.
* External code, replaced by parameters or by its documented contract:
  BLAS (`gemm`, `gemv`, `ddot`, `dcopy`: modelled as strided loops over flat buffers),
  sphericart (a function returning harmonics and their gradients; correctness of the gradients is a
  hypothesis), `std::sort` (any sorted permutation: unstable), `std::map`/`std::set` (sorted, unique keys,
  `insert` keeps the first), `std::next_permutation` (modelled as its standard algorithm), JSON text and file
  system (not modelled: JSON values are written and read, not characters), Kokkos (kernels are programs of the parallel language of
  section 2a; KokkosBlas/KokkosBatched `gemm`, `dot` and the device harmonics by their contracts), LAMMPS core (neighbour lists, communication plan, atom map are inputs), NumPy
  `bincount`, neighbour-list library (its output is an input, with its contract as hypothesis).

Modelled code (file, parts) and what is left out:

| source | modelled | not modelled |
|--------|----------|--------------|
| `libsymmetrix/source/cubic_spline.cpp`, `cubic_spline_set.cpp` | all functions | - |
| `cubic_spline_kokkos.cpp`, `cubic_spline_set_kokkos.cpp` | all functions | what `Kokkos::realloc` does with a missing extent (C119: an arbitrary number) |
| `zbl.hpp/.cpp` | all functions | - |
| `multivariate_polynomial.cpp` | constructor, all evaluation functions | - |
| `multivariate_polynomial_kokkos.cpp` | all functions (`KokkosBlas::dot` by its contract) | - |
| `multilayer_perceptron.cpp` | constructor, all evaluation functions | - |
| `tools.cpp/.hpp` | all functions named in C28-C33; `int` overflow of the first two (C122) | - |
| `mace.cpp` | `load_from_json` from the parsed JSON values on, all `compute_*`/`reverse_*` passes, `compute_node_energies_forces` | JSON text |
| `pair_symmetrix_mace.cpp` | `settings`, `coeff`, the three `compute_*` modes (communication: LAMMPS' message plan is an input), pack/unpack functions, `allocate`, `init_one`, `init_style`, constructor, destructor (`Model/LammpsLife.lean`: mode, message size, memory) | the error/log output |
| `tools_kokkos.hpp` | all functions, with one memory (C55) and with separate memories of host and device (C124) | - |
| `tools_kokkos.cpp` | all functions (C125); the contract of Kokkos (started once, never after its end, views only while it runs) is assumed | settings of `Kokkos::initialize`, output |
| `mace_kokkos.cpp` | `load_from_json` from the parsed JSON values on (tables, folded splines, coupling tables), all `compute_*`/`reverse_*` kernels, `compute_node_energies_forces` | JSON text; vector lanes (every team/thread range has lanes of its own as threads) |
| `multilayer_perceptron_kokkos.cpp` | all functions | - |
| `symmetrix/source/cpp/*.cpp` (bindings) | conversion of array arguments; attributes of `MACE`, `MACEKokkos` | registration of functions; `H0_weights` |
| `radial_function_set_kokkos.cpp`, `zbl_kokkos.*` | all functions | code between `#if 0` and `#endif` |
| `pair_symmetrix_mace_kokkos.cpp` | `coeff`, the eight pack/unpack functions, `compute_no_domain_decomposition`, `compute_no_mpi_message_passing`, `compute_mpi_message_passing` | dual views other than those of the atoms (C126) and `k_eatom` (C118); `Kokkos::Bitset` as counters (`set` = atomic increment; an index out of range is a failure, Kokkos ignores it) |
| `spherical_harmonic.cpp` | all functions, with `std::assoc_legendre` and sphericart as parameters | - |
| `extract_mace_data.py` | `extract_mace_data` from the loaded model to the dictionary `output`; parsing of `species` | `remove_pt_head` for models with several heads, `torch`/`e3nn`/`mace` themselves (the record `Torch` of weights and the contract `TorchOk`), `CubicSpline` (values at the points; derivatives are a parameter), `np.linalg.inv` (contract `InvOk`), correlation other than 3 |
| `cli/extract_mace.py` | choice of elements, default name | `--head`, `--output` |
| `symmetrix_calc.py` | `__init__`, `calculate` with the classes `MACE` and `MACEKokkos` | single precision |

## 2. Modelling conventions

* Buffers are `List K`; every read is `l[i]? : Option K` and every write is checked, so an out-of-range
  access makes the whole computation `none` (undefined behaviour / exception is a distinct outcome).
  Theorems of the form `run ... = some out` therefore include memory safety.
* `vector::resize` keeps old contents (`resize`), `std::fill` overwrites; so stale data are visible in the model.
* Loops are `loop n body : σ → Option σ`, executing `body 0, body 1, ...` in order; the running edge
  counter `ij` of the C++ loops is part of the loop state.
* Flat index expressions are copied literally from the source.
* Specifications (`Verif/Spec`) are written without buffers, flat indices or loops (finite sums, `HasDerivAt`,
  `List.Perm`, ...), and do not mention model functions.

Layout of `lean/Verif`: `Base` (buffers, loops and their proof rules), `Model` (code), `Spec` (independent
specifications), `Lemmas` (helper proofs), `Props` (property theorems, one file per area, with `example`s of
non-vacuity), `Audit` (axiom print-outs).

## 2a. Parallel kernels

`Base/Par.lean` defines programs over numbered buffers: reading, writing, atomic addition, undefined behaviour and a parallel
composition of n threads with a join that receives the threads' results.  `Step` interleaves single memory operations of the threads
in any order (nested parallel compositions included); `Outcome p m o` says that some complete interleaving ends in `o`
(`none` if an operation is out of bounds).  This is the sequentially consistent semantics; for programs free of data races it is what the
C++/Kokkos memory model guarantees.  `RaceFree` is defined by separating the cells a thread writes, reads and adds to atomically;
`outcome_unique` proves that race-free programs have one outcome, `run_outcome` that it is that of executing the threads one after
the other.  `C48_lost_update` shows that the semantics is not vacuous: plain additions to a shared cell have two outcomes.

A `Launcher` picks any outcome for each launch; `Env` contains launchers for both value types, the division of `parallel_scan` into blocks
and the contents of uninitialised memory.  All Kokkos theorems quantify over `Env`; `Launcher.adequate` proves that every
outcome of a program is picked by some launcher.  `Base/Local.lean` and `Base/Atomic.lean` contain proof rules that establish the
outcome and the race freedom of a kernel together.

Views are `(extents, row-major data)` with checked access (`Base/View.lean`); a rank or extent mismatch is `none`.

## 3. Properties: what is modelled and how it is proved

| id | model | proof idea |
|----|-------|-----------|
| C01 | all passes of `mace.cpp` on flat buffers | each forward pass refines a finite-sum formula; each reverse pass is shown to be the transpose of the derivative of its forward pass; chain rule over a one-parameter curve of bond vectors |
| C02 | same | `run = some _` from well-formedness by the loop rules |
| C03 | same, with arbitrary initial buffers | output lists are equal because both equal the formula |
| C04 | same | refinement (C04) : formulas |
| C05 | same | sums over a node's edges are permutation invariant; forces as in C106 |
| C06 | same | reindexing of finite sums; forces as in C106 (no assumption on the harmonics) |
| C07 | same | formula of node i mentions two-hop data only; forces of separate systems as in C106 |
| C08-C11 | `CubicSpline` | algebra on the coefficient formula; one-sided derivatives glued at the nodes; `static_cast<int>` modelled as truncation toward zero |
| C12 | `CubicSplineSet` | slot-wise equality with C08's spline; out-of-range = `none` |
| C13 | `CubicSplineKokkos` | violated by the code: negation with witness, partial theorem for the range that is safe |
| C14-C17 | `ZBL` scalar functions | calculus over `ℝ`; envelope factorised through its derivative |
| C18 | `compute_ZBL` | loop rules |
| C19-C23, C57 | `MultivariatePolynomial`, `_two_part_partitions` | construction modelled with arbitrary tie-breaks; invariant "value of node = product over its variables"; reverse sweep invariant |
| C24-C27 | `MultilayerPerceptron` | induction on layers; chain rule |
| C28-C33 | `tools.cpp/.hpp` | induction; permutation/nodup/sortedness |
| C34 | index formula | arithmetic; enumeration order of the extraction script |
| C35-C36 | `settings`, `coeff` | decision logic |
| C37 | edge construction | list filter; count pass equals fill pass |
| C38-C40 | force/virial accumulation | finite sums, chain rule |
| C41-C42 | pack/unpack | index arithmetic, adjointness |
| C44 | `compute_no_mpi_message_passing` on every process | every process evaluates the stages on local + halo nodes; corresponding nodes have equal surroundings, hence equal features and energies; forces and virial: the derivatives of equal energies along consistent displacements agree, test displacements pick out force components and virial |
| C43 | `compute_mpi_message_passing` on all processes with forward/reverse communication | as C44; forward communication copies features to ghosts, reverse communication is its transpose; violated for non-identity `ilist`: negation and partial |
| C45 | `eatom` update | violated for non-identity `ilist`: negation and partial |
| C46-C47 | `Symmetrix.calculate` | violated for isolated atoms: negation and partial |
| C48 | kernels of the Kokkos evaluator as parallel programs | race freedom by the rules of `Base/Local`; scans over any blocks |
| C49 | `compute_R0`, `compute_A0`, folded splines of the loading | linearity of splines in their tables; reordering of finite sums |
| C50 | coupling tables of the loading, `compute_Phi1` | the table loop is related step by step to the CPU's nested loops; equal sums |
| C51 | whole evaluator with arbitrary previous buffers | rows beyond the current system are overwritten with zero or never read |
| C62 | `MACEKokkos` and `MACE` from the same file | both refine the same formulas (`Spec`) |
| C63 | the eight communication functions | disjoint cells; atomic additions; host loops equal the CPU loops on the contiguous data |
| C64-C65 | `compute_no_domain_decomposition` of the Kokkos pair style: graph-building kernels, reductions, atomic force and virial sums | each kernel refines a formula over disjoint cells or atomic additions; same graph and sums as the CPU style; derivatives by C39/C40 |
| C66 | `eatom` update of the Kokkos pair style | violated by the second call: negation and partial |
| C67 | graph building of the Kokkos pair style, any list order | violated for non-identity `ilist`: negation and partial |
| C68-C69 | `compute_no_mpi_message_passing` of the Kokkos pair style: marking of ghosts, scan, graph kernels, stages on local and on all nodes | the marked ghosts are the `halo` of C44 in increasing order; the stages on a part of the nodes refine the formulas of C44's evaluation; division by C44 |
| C70-C72 | `compute_mpi_message_passing` of the Kokkos pair style on all processes: first layer, sorting of `H1`, forward communication, second layer, reverse communication, first layer backwards; which of the two `H1` views share their allocation | both styles refine the same formulas (`mpiOut`, `mpiAdj`); division by C43; the sorting kernel reads and writes one view after the first call: counterexample of C43 and a race for lists in another order |
| C73-C75 | `multivariate_polynomial_kokkos.cpp` | copy kernels have one outcome, equal to the CPU loop; host loops equal the CPU loops; the table of monomials determines the direct evaluators; an explicit interleaving with a lost update |
| C76-C77 | `Symmetrix.calculate` with `MACEKokkos` | C62 and the exact sizes of the containers after a call (`Lemmas/Kokkos/Sizes.lean`); an explicit history of two structures |
| C78-C79 | `extract_mace_data`, composed with `load_from_json` and the evaluators | reference network `Spec/Torch.lean` layer by layer without fused weights; `Lemmas/Extract`: dictionaries as polynomials, coupling table as sum, tables per pair, then equality of every layer; C04 and C62 for the evaluators |
| C80 | loops over pairs of elements | violated for repeated elements: negation with an explicit model, and partial for distinct ones |
| C81-C82 | `U_sparse`, polynomials; `compute_lme`, `compute_lelm1lm2`, coupling table | value of a dictionary as polynomial is additive under `Dict.add`; the table collects each nonzero coefficient once (injectivity of `lme`) |
| C83-C84 | `cubic_spline_kokkos.cpp`, `cubic_spline_set_kokkos.cpp` as classes | the kernels have one outcome, the coefficients of the CPU spline; violated with separate memories: negation and partial |
| C85 | `multilayer_perceptron_kokkos.cpp` as a class with history | layer by layer: rows beyond the batch are never read; violated with separate memories: negation and partial |
| C86 | `py::array_t<T>` arguments of the bindings (`data()`, `size()`) | positions in C order; violated for other layouts: exact characterisation |
| C87 | as C56, C39, C40 | torque, symmetry of the virial; stress and virial give the derivative under every deformation |
| C88 | positions, also with pairs exactly at the cutoff (sharp cut of the neighbour list, rounding aside) | C39 and C40 assume no listed pair at the cutoff; here this assumption is replaced by tables ending with value and slope zero at the cutoff. Files written by the extraction script end 1e-12 beyond the cutoff (C54) with values and slopes that are zero only up to rounding, so the theorems describe them up to a jump of that size |
| C89 | `output` of `extract_mace_data.py` with its keys, `json.dump`, nlohmann `operator[]`/`get` in both `load_from_json` | reading each key of the written object, then: the loaders use the functions of `File` only at written indices; composed with C79 |
| C90 | `load_from_json` on any JSON object | successful reading implies every key is there; violated for the polynomial coefficients |
| C91 | the contract with LAMMPS behind `compute_no_mpi_message_passing` and `compute_mpi_message_passing` (`Spec/Domain.lean`) | geometric: images as (atom, translation); triangle inequality and the skin; sharpness with a row of three atoms |
| C92 | `allocate`, flags of `coeff`, `init_one`, `init_style` (`Model/LammpsInit.lean`) | case analysis; violated twice (rounding by `std::to_string`, neighbour cutoff of an earlier pair style) |
| C93 | `coeff` and `mace_types[type-1]` | with C36; violated for fewer symbols than types |
| C94 | `extract_mace_data` followed by `compute_node_energies_forces` | both networks equal the reference network (C79), which depends on atomic numbers only; forces by uniqueness of the derivative |
| C95 | `CubicSpline` with what the script tabulates (`Spec/Slopes.lean` says what scipy's slopes are) | Hermite remainder by repeated Rolle; the slope system is diagonally dominant, consistent to third order by Simpson's rule |
| C96 | `extract_mace_data` followed by `compute_node_energies_forces`, number of spline points to infinity | the reference network is a continuously differentiable function of the values of radial functions and harmonics on the edges; C95 gives convergence of values and derivatives; C79 identifies the evaluator with it |
| C97 | every `int` expression of `compute_node_energies_forces` and what it calls in `mace.cpp`, `evaluate_derivs`, `compute_ZBL` (`Model/IntIndex.lean`) | expressions as terms, every intermediate result compared with `2^31`; loops run over the same ranges as the code |
| C98 | the arithmetic of `cubic_spline.cpp`, `cubic_spline_set.cpp`, `radial_function_set_kokkos.cpp` with a rounding after every operation (`Model/RoundedSpline.lean`) | rounding is any function with relative error `u`; IEEE rounding to nearest with `p` bits is an instance; errors tracked by `Near`; pieces meeting in a node differ little next to it |
| C99 | loop over `species`, `cli/extract_mace.py` (`Model/Species.lean`) | Python's `int` as a parser on characters; the script uses the list only after sorting; joining with `-` can be undone |
| C100 | `Symmetrix.__init__` (`Model/Calculator.lean`) | case analysis; violated: `species` has no default, temporary file not flushed |
| C101 | `mace.cpp`, `cubic_spline*.cpp`, `zbl.cpp`, `multivariate_polynomial.cpp`, `multilayer_perceptron.cpp` once more, over any type with any operations (`Model/Num.lean`) | a relation between a family of runs and one exact run, carried through every loop and stage (`Lemmas/Num`); with the relation that holds for all numbers it says: the runs succeed together and have equal buffer sizes; the exact run succeeds by C02 for short bonds |
| C102 | as C101, with an arithmetic on real numbers that is accurate up to `δ` (`Spec/NumAccuracy.lean`) | the relation of C101 with "converges to" (`Lemmas/Num/Converge.lean`): a sequence of runs with `δ → 0` converges to the exact run, stage by stage; where a rounded number selects an interval or a branch, both sides agree in the limit. Rounding to `p` bits is accurate (`Lemmas/Num/Rounded.lean`). `C102_exact` ties `Model/Num.lean` to `Model/MACE.lean`: with exact operations they are the same function |
| C103 | as C101; two runs of the same call from two states with a common history of loading (`NumHist`) | relation "equal on the part written so far" (`Lemmas/Num/Two.lean`, `Same*.lean`): every stage of `compute` writes its output from the arguments and from outputs of earlier stages only, or zeroes it before accumulating; the node buffers of polynomials and readout are overwritten before they are read |
| C104 | stages of `Model/MACE.lean` called one by one, buffers and weights arbitrary (`Spec/Stages.lean`: `IsGrad`, `IsMinusGradX`, `Transposed`) | each forward stage on the line `x + τ d` is an explicit table (stage specs of C01), differentiated at `τ = 0`, and paired with the table the reverse stage leaves (the transpositions of C02); normalisation stages with `unscaled` curves (`Lemmas/MACE/StageGrad.lean`, `StageGeom.lean`) |
| C105 | `reverseA1Scaled` with `zero_dxyz` | as C104 for files with the normalisation; without it the early return leaves old forces (`C105_violated`) |
| C106 | `Covers` (`Lemmas/MACE/Cover.lean`) and `Cell`, `Neighbours`, `SameCrystal` (`Spec/Crystal.lean`) | each sum over the edges of a node, outgoing and incoming, is carried over by the bijection of edges, stage by stage up to the forces; the bijection maps the pair (a, b, s) to (φ a, φ b, τ b + s B − τ a) (`Lemmas/ASE/Crystal.lean`) |
| C107 | `Moves`, `Newton`, `kinetic`, `momentum` (`Props/Motion.lean`), `IsSphDiff` (`Spec/Motion.lean`) | chain rule along curves (`Lemmas/MACE/Motion.lean`); pairs crossing the cutoff as in C88, the derivative depends only on positions, velocities and the bonds at the time, hence equals the one along the straight line (`Lemmas/Lammps/Motion.lean`); zero derivative on an interval |
| C108 | stages of `Model/Kokkos/Eval.lean` called one by one; `Holds1/2/3`: the first rows of a view are a row-major vector (`Props/KokkosStages.lean`) | the stage specifications of both evaluators name the same functions; flags and too short views reduced to the case without (`Lemmas/Kokkos/StageFlags.lean`: `prepared`, `preparedF`) |
| C109 | `A1ScaledCallsAgree` | for files with the normalisation the calls agree iff the forces are zero before (`C109_default_call_partial`, `C109_only_if_zero`) |
| C110 | `Model/Kokkos/IntIndex.lean`, `FileFitsK`, `SysFitsK` (`Spec/IntFits.lean`) | as C97; every bound is a league size or an extent computed for every input, therefore an equivalence (`C110_exact`) |
| C111 | `Attr`, `setAttr`, `getAttr` of both classes (`Model/Kokkos/Attributes.lean`) | `set_kokkos_view` keeps the first complete rows; equivalence `C111_exact` |
| C112 | `HistA` (evaluations and assignments in any order), `Covered` | the invariant of the evaluator (`StOkK`) survives covered assignments; `Doomed` kernels (`Lemmas/Kokkos/Doomed.lean`) fail in every interleaving |
| C113 | `Computes`: the six ways a call can add energy and forces; `NewtonBy`, `Free`, `angular` (`Props/Conservation.lean`) | every way reduced to the CPU style in one process (C43, C44, C64, C69, C71), then C107; angular momentum from the symmetric virial (C87), images excluded |
| C114 | as C06, C07, C106 (`Renumbered`, `SameEnv`, `Sys.join`, `Covers`, `SameCrystal`) for `Kokkos.compute` and `calculateK` (`Props/KokkosSame.lean`) | containers of both classes agree element by element (C62, C76), then C06, C07, C106 |
| C115 | `Enough` (`Model/LammpsLife.lean`, `Props/LammpsLife.lean`) | invariants of the command interpreter; `packForward` needs the whole buffer (`packForward_needs`) |
| C116 | `n ≤ b` (room per atom in the buffers) | order of `settings`, `coeff` as in `PairHybrid` (assumed) |
| C117 | multisets of blocks before and after | invariant `Owns`: which blocks the pointers hold |
| C118 | `energy`; `EatomHist` (any calls) (`Model/Kokkos/PairEatom.lean`, `Props/KokkosEatom.lean`) | from C66; the host array is only ever written by `create_kokkos` |
| C119 | coefficients of `SetK.mk?` (`Model/Kokkos/SplineSetViews.lean`, `Props/SplineSetViews.lean`) | `Doomed`; kernels with disjoint writes (`Lc`) |
| C120 | every `int` expression of `pair_symmetrix_mace.cpp:194-744` with those of the evaluator's functions called (`Model/LammpsInts.lean`); `SysIn`, `FileFits`, `SysFits` | as C97; equivalences by splitting the sequence of evaluations (`seq_iff`, `each_iff`) |
| C121 | every `int` expression of `pair_symmetrix_mace_kokkos.cpp:221-1175` with those of the evaluator's functions called (`Model/Kokkos/PairInts.lean`); `FileFitsK`, `SysFitsK`, `GhostFitsK` | as C120; the conjunction of the stages is that of `computeInts` plus messages; facts split into those of the first layer (all nodes) and of the second (local nodes) |
| C122 | `Nat.choose`, `List.sum`; any order and grouping of the additions (`Tree`, `Sums`) (`Model/ToolsInt.lean`, `Props/ToolsInt.lean`) | induction on the row; on the tree of additions |
| C123 | sizes of the arrays each class stores (`Model/PartsInt.lean`, `Props/PartsInt.lean`) | exact limit of every function; violated by the perceptron: negation and partial |
| C124 | the one-memory results of C55 (`Model/Kokkos/Spaces.lean`, `Props/KokkosSpaces.lean`) | host code on a mirror simulates the code on one view (`Runs`); then the copies |
| C125 | contract of Kokkos as a state machine (`Model/Kokkos/Runtime.lean`, `Props/KokkosRuntime.lean`) | invariant `Fine` over all sequences of operations; after `_finalize_kokkos` exact condition for an abort; violated: negation and partial |
| C126 | what LAMMPS wrote last (`now`, `After`), C64 (`Model/Kokkos/PairDual.lean`, `Props/KokkosDual.lean`) | `sync` makes the arrays current, `modified` the note; tags and map do not enter with ghosts or messages; violated on the host: negation and partial |
| C127 | the sent rows, sums with an arbitrary addition (`Model/Kokkos/CommPrec.lean`, `Props/KokkosPrec.lean`) | executions are orders of threads with one access each; loop nests are the lexicographic order; assumed of `float`/`double`: conversion there and back is the identity (`Exact`), and for host sums that rounding twice is innocuous (`Innocuous`; 53 ≥ 2·24+2 bits). LAMMPS lists no atom twice in one swap, so the result does not depend on the order (`Nodup`); otherwise `C127_reverse_repeated` |
| C58 | `compute_node_energies_forces` | polynomials without constant term vanish at zero features |
| C52 | `compute_Y` | chain rule for the coordinate permutation |
| C53 | `real_sph_harm_xyz` | azimuth; violated on a half-plane |
| C54 | table of `extract_mace_data.py` | violated: negation and partial |
| C59-C60 | `spherical_harmonic.cpp` | exponentials, Gamma function; batch loop index arithmetic |
| C61 | table of `extract_mace_data.py` | violated (shift 1e-12): negation and partial |
| C55 | `tools_kokkos.hpp` | index arithmetic |
| C56 | `MACE` and `MACEKokkos`, energies and forces | equivariance layer by layer in the formulas of C04 from relations between the separate weights and the matrices `D`; forces by differentiating the invariant energy |

Findings and partial results are recorded in section 4 as they are established.

## 4. Findings

Violations in the unchanged code, each with a Lean witness:

* C10: `CubicSpline::evaluate` does not throw for `-h < r < 0`: `static_cast<int>` truncates toward zero, so the
  first cubic is extrapolated (`C10_violated_negative_r`).
* C13: the Kokkos spline's range checks allow reads beyond the table (`C13_violated`).
* C22: repeated monomials: the constructor's `std::map::insert` keeps only the first coefficient, so `evaluate`
  and `evaluate_simple` disagree (`C22_violated`).
* C57: `evaluate_batch` with `batch_size = 0` leaves empty buffers, so a later `evaluate` writes out of bounds
  (`C57_violated`).
* C27: an MLP input shorter than `shape[0]` is completed with entries of the previous input, because `evaluate` resizes
  (keeping contents) and copies without a length check (`C27_violated`).
* C36: the Kokkos `coeff` accepts elements which the model lacks (species -1) and writes past the end of its view when there
  are more LAMMPS types than model elements (`C36_kokkos_violated`).
* C43: `compute_mpi_message_passing` sorts the first-layer features by atom ("sort local H1 contributions by i"), but
  `compute_H2`, `compute_readouts` and `reverse_H1` take row `ii` for node `ii`: for `ilist[ii] != ii` the self-connection and
  the readouts use the features of another atom, so the total energy is wrong (`C43_violated`).
* C45: `eatom[ii]` is indexed by the position in `ilist` instead of the atom (`C45_violated`); lists out of natural order occur
  e.g. under `pair_style hybrid`.
* C46: `num_nodes = np.max(i_list) + 1` in the ASE calculator: isolated atoms after the last bonded one are missing from
  `energies` and their reference energies from `energy`; with no neighbours at all `np.max` raises (`C46_violated`).
* C53: `sgn(y)*acos(x/rho)` is 0 on the half-plane `y = 0, x < 0`, so `sph_harm_xyz`/`real_sph_harm_xyz` use azimuth 0 instead
  of pi there (`C53_violated`).
* C54: the grid of the radial tables runs from 1e-12 to `r_cut`, but the evaluator takes it to start at 0: a neighbour with
  `r_cut - 1e-12 <= r < r_cut` is outside the table; `CubicSplineSet` then reads past its end, `CubicSpline` throws
  (`C54_violated`).
* C61: for the same reason all tabulated functions are shifted by 1e-12 (`C61_violated`).

* C62: a correlation of more than three factors makes `MACEKokkos::load_from_json` write out of bounds (`monomials` views have
  three columns), while `MACE` loads the file (`long_monomial_load`).
* C63: the host functions `unpack_forward_comm` and `unpack_reverse_comm` of the Kokkos pair style fill a mirror made by
  `create_mirror_view` (no copy of the contents) and copy the whole mirror back: with separate memories every other row of
  `H1`/`H1_adj` is lost (`C63_host_separate`).
* C66: the Kokkos pair style calls `ev_init(eflag, vflag, 0)` (LAMMPS then leaves the per-atom arrays to the style), re-creates `k_eatom`
  only when it is too small and adds the energies to it: from the second call on `eatom` contains the sum over the calls
  (`C66_violated`).
* C67: in single-process mode the Kokkos pair style stores the local index of the neighbour's original as node number, without the
  `ii_from_i` step of the CPU style: for `ilist[ii] != ii` the graph is wrong (`C67_violated`).
* C71: as C43: in mpi_message_passing mode the Kokkos style mixes list positions and atom indices; for `ilist[ii] != ii` energies are wrong
  from the first call (`C71_violated`).
* C72: `mace->H1 = H1` copies the view's handle. From the second call on the "Sort H1" kernel reads and writes the same allocation; for
  `ilist[ii] != ii` one thread overwrites what another still has to read (`C72_shared`, `C72_sort_violated`).
* C73: `MultivariatePolynomialKokkos` of a polynomial without terms: `nodes` has rows of length 0, into which the constructor writes; with
  separate memories the host loops over `edges` and `node_values` access device memory (`C73_violated`).
* C74: `h_monomials`/`h_nodes` are made by `create_mirror_view` (no copy of the -1 written by `deep_copy`): with separate memories short
  monomials are padded with variable 0 (`C74_violated`).
* C75: `evaluate_gradient_simple` adds to `g` from several threads without atomics (`C75_violated`).
* C77: with the default `use_kokkos=True` the result `energies` of a structure is too long (ends in zeros) if the same calculator has
  treated a larger structure before; `calculate` truncates `node_forces` but not `node_energies` (`C77_violated`).  Energy, forces and
  stress are right (`C76_kokkos_calculator`).

Noticed in the Kokkos code, without theorem: `cubic_spline_set_kokkos.cpp:63` and the conversion functions for rank 2 and 3 do not check lengths;
`radial_function_set_kokkos.cpp` has no range checks (distances beyond the table read out of bounds); bodies of `TeamThreadRange`
loops with side effects assume one vector lane; `MultilayerPerceptronKokkos::evaluate` does not fence; the Kokkos pair style
sizes `H1` by `inum + nghost` in message-passing mode but indexes it by atom; `d_eatom(ii)` is indexed by list position.
* C80: if an element is named twice in `species`, `extract_mace_data` writes more radial tables than there are pairs of types (each `a_i`
  loops over both copies of a smaller or equal element), and the evaluators read tables of other pairs: for `1,6,1` two carbon atoms use the
  table of H and C (`C80_violated`, `C80_violated_witness`).  The file loads without an error.

* C83: `CubicSplineKokkos::evaluate*` read `create_mirror_view(c)` without copying `c` into it: with separate memories all values are
  those of an uninitialised (zero) table (`C83_violated`).
* C85: `MultilayerPerceptronKokkos::evaluate` calls `SerialGemv` on the host with device views (`C85_violated`); in shared memory it does
  not wait for the activation kernel before the next host call (the model runs kernels to their end).
* C86: the bindings take `py::array_t<T>` without `py::array::c_style` and use `data()` and `size()`: slices with steps, transposed and
  reversed arrays are read wrongly or out of bounds (`C86_violated`); exactly the C-contiguous layouts are read right (`C86_exact`); results
  for an output of another element type go to a temporary copy (`C86_lost_output`).
* C84, without theorem: the span overload of `evaluate_derivs` copies `values` twice instead of `derivs` (lines 248-249, visible
  with separate memories only).
* C92: `init_style` passes the communication cutoff through `std::to_string`, which keeps six decimals and may round down
  (`r_cut = 5.0000001`, skin 2: 12 instead of 12.0000002), and compares with `comm->get_comm_cutoff()`, which still contains the
  neighbour cutoff of the pair style used in a previous run and shrinks afterwards (`C92_violated`; relies on the order
  `Force::init`, `Neighbor::init` in LAMMPS, which is not part of the repository).  In both cases a ghost may lack a neighbour.
* C93: `pair_coeff` with fewer symbols than types is accepted, `compute` then reads `mace_types` out of bounds (`C93_violated`).
* C97: `M1_grad.resize(num_nodes*num_channels*num_lm*num_channels)` (mace.cpp:764) has a factor `num_channels` too many (reading and
  writing use `num_nodes*num_lm*num_channels` entries): with 128 channels and `l_max = 3` the product overflows at 8192 atoms
  (`C97_violated`), and up to there 128 times the memory needed is allocated.  Offsets of pairs overflow from about 4.2 million pairs on
  (`C97_overflow_edges`).
* C98: next to the end of a table the rounded quotient `r/h` can be the number of intervals although `r` is smaller: `CubicSpline` throws,
  `CubicSplineSet` and `RadialFunctionSetKokkos` read past the table (`C98_violated`: spacing `0.1`, eleven nodes, `r = 1.0`).
* C100: `Symmetrix(pytorch_file)` without `species` raises `TypeError`, because `extract_mace_data` has no default for it, although `None`
  and `[]` mean all elements there; `MACE(fout.name)` reads the temporary file before it is flushed, which works only because the text is longer
  than the buffer (`C100_violated`).
* C105: `reverse_A1_scaled` returns before clearing the forces when the file has no normalisation of the second layer, although its flag
  (default true, used by the Python binding) asks for it (`C105_violated`). The library's own callers pass `false`.
* C109: `MACE::reverse_A1_scaled` clears the forces by default, `MACEKokkos::reverse_A1_scaled` has no such flag and always adds to them; the
  Python bindings of the two therefore differ when the forces are not zero before the call (`C109_violated`).
* C110: `3*num*num_lm` in `compute_Y` overflows from 44739243 pairs on (`l_max = 3`), `num_nodes*num_channels` in `compute_H2` from 2^24
  atoms on (128 channels) (`C110_violated`).
* C111: the setters of `MACEKokkos` divide the size of the array by the size of a row and silently drop what is left (`C111_violated`).
* C112: the setters of `R0` and `R1` of `MACEKokkos` do not resize `R0_deriv`, `R1_deriv`; `compute_R0` and `compute_R1` reallocate both only if
  the first is too small, so the next evaluation with at most that many pairs writes beyond the second view (`C112_fails`, `C112_violated`).
* C115: only `coeff` sets `comm_forward`, `comm_reverse`; `pair_style symmetrix/mace no_mpi_message_passing`, `pair_coeff`,
  `pair_style symmetrix/mace mpi_message_passing` (LAMMPS then calls `settings` of the same object, assumed) leaves them 0, and the packed
  message is larger than the buffer (`C115_violated`, `C115_overrun`).  `settings` stores a mode before it rejects it; a program that catches
  the error then calls a `compute` that does nothing (`C115_rejected_violated`).
* C116: `PairHybrid` (assumed) takes the message size after `settings`, before `coeff`: 1024 from the CPU constructor, 0 from the Kokkos
  constructor; a model with 9·128 numbers per atom does not fit (`C116_violated`).
* C118: with separate memories (GPU) `k_eatom.modify` is not followed by `sync`; the array LAMMPS reads stays zero (`C118_host_zero`,
  `C118_violated`).
* C119: `Kokkos::realloc(c, num_nodes-1, num_splines)` on a view of rank 3 (`cubic_spline_set_kokkos.cpp:63`): the kernel writes out of
  range for every table (`C119_violated`).
* C120: ghosts count in sizes that are computed in `int`: `(nlocal+nghost)*num_LM*num_channels` with message passing (`C120_mpi_violated`),
  `M0_grad` of local and ghost nodes without (`C120_noMpi_violated`), though the local atoms alone fit.
* C121: the same in the Kokkos pair style at larger sizes: the length `n*num_LM*num_channels` of a message is an `int` (`C121_mpi_violated`),
  and the pairs of ghosts count in the sizes of the harmonics (`C121_noMpi_violated`).
* C122: `_sum` of numbers of both signs can overflow in a partial sum though the sum is an `int` (`C122_sum_violated`).
* C123: `MultilayerPerceptron` computes `shape.back()*shape[i]` also for the last layer, whose derivatives are never used; from 46341
  outputs on this overflows (`C123_perceptron_violated`).
* C125: `_kokkos_is_initialized` is false after `_finalize_kokkos`, so that the next calculator starts Kokkos a second time, which aborts;
  nor does anything keep evaluators from outliving `_finalize_kokkos` (`C125_violated`, exact condition `C125_finalize`).
* C126: `symmetrix/mace/kk/host` is a class of its own only in builds with a GPU, where it passes arrays of the host to kernels that run on the
  device (`Kokkos::TeamPolicy<>` without a space): undefined unless the memory is shared (`C126_violated`).  Moreover only the array of the
  atom map is synchronised, not the hash (a hypothesis of `C126_single_partial`).
* C90: `M0_weights[std::to_string(a)][...]` on a `std::map` inserts an empty vector for a missing key, and the polynomial constructor
  reads beyond it (`C90_violated`); the constructor's own comment asks for a check of the sizes.

Noticed, outside the model: `Symmetrix.__init__` writes JSON into a `NamedTemporaryFile` and opens it by name without
flushing (harmless as long as the text is longer than the buffer, which CPython then writes through); it also takes every
`RuntimeError` of the loader, also a missing key, for "not a JSON file".
