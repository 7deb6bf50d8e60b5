{"id": "C01", "title": "Forces are the exact negative energy gradient", "statement": "After MACE::compute_node_energies_forces, entry 3*e+a of node_forces equals minus the partial derivative of the sum of node_energies with respect to component a of the bond vector of edge e (with r the length of that vector).", "quantifier": "all well-formed models (any number of elements, channels, l_max, L_max, paths, weights, with or without ZBL and density scaling), all graphs, all bond vectors of positive length inside the spline table", "why_tests_cant": "finite-difference tests sample a few configurations of two models up to a tolerance; a missing adjoint term that vanishes on them goes unnoticed", "anchors": ["libsymmetrix/source/mace.cpp:MACE::compute_node_energies_forces", "libsymmetrix/source/mace.cpp:MACE::reverse_A0", "libsymmetrix/source/mace.cpp:MACE::reverse_Phi1", "libsymmetrix/source/mace.cpp:MACE::reverse_H2", "libsymmetrix/source/mace.cpp:MACE::reverse_A0_scaled"]}
{"id": "C02", "title": "Evaluator never leaves its buffers", "statement": "For a well-formed model and graph, compute_node_energies_forces performs no out-of-range array access and throws no exception, whatever the sizes left in its buffers by earlier calls.", "quantifier": "all well-formed models, all graphs and coordinates with 0 < r < h*(n-1), all prior buffer contents and sizes", "why_tests_cant": "out-of-range reads are silent in C++ and depend on sizes; tests use a handful of sizes", "anchors": ["libsymmetrix/source/mace.cpp:MACE::compute_node_energies_forces", "libsymmetrix/source/mace.cpp:MACE::compute_A0", "libsymmetrix/source/mace.cpp:MACE::compute_Phi1", "libsymmetrix/source/mace.cpp:MACE::compute_M1"]}
{"id": "C03", "title": "Evaluator results do not depend on history", "statement": "Calling compute_node_energies_forces on one evaluator object gives the same node_energies and node_forces as calling it on a freshly loaded object, after any sequence of earlier calls.", "quantifier": "all well-formed models, all inputs, all earlier contents of every member buffer", "why_tests_cant": "requires quantifying over all previous call sequences and stale buffer contents", "anchors": ["libsymmetrix/source/mace.cpp:MACE::compute_node_energies_forces", "libsymmetrix/source/mace.cpp:MACE::compute_readouts", "libsymmetrix/source/mace.cpp:MACE::reverse_Phi1"]}
{"id": "C04", "title": "Node energies are the documented two-layer network", "statement": "node_energies[i] equals atomic energy + ZBL sum over the neighbours + linear readout of H1 + MLP readout of H2, where A0, M0, H1, Phi1, A1, M1, H2 are the mathematical sums given in the MACE definition (written without flat indices, buffers or loops).", "quantifier": "all well-formed models, all graphs, all coordinates inside the spline table, all nodes", "why_tests_cant": "index arithmetic errors can cancel for the tested l_max/L_max/channel numbers", "anchors": ["libsymmetrix/source/mace.cpp:MACE::compute_A0", "libsymmetrix/source/mace.cpp:MACE::compute_M0", "libsymmetrix/source/mace.cpp:MACE::compute_H1", "libsymmetrix/source/mace.cpp:MACE::compute_Phi1", "libsymmetrix/source/mace.cpp:MACE::compute_A1", "libsymmetrix/source/mace.cpp:MACE::compute_M1", "libsymmetrix/source/mace.cpp:MACE::compute_H2", "libsymmetrix/source/mace.cpp:MACE::compute_readouts"]}
{"id": "C05", "title": "Neighbour order does not matter", "statement": "Reordering the neighbours of any atom leaves every node energy unchanged.", "quantifier": "all well-formed models, all graphs, all reorderings of each atom's neighbour list", "why_tests_cant": "number of orders is factorial; only the exact-arithmetic statement can be universal", "anchors": ["libsymmetrix/source/mace.cpp:MACE::compute_A0", "libsymmetrix/source/mace.cpp:MACE::compute_Phi1", "libsymmetrix/source/mace.cpp:MACE::compute_A0_scaled"]}
{"id": "C06", "title": "Relabelling atoms relabels energies", "statement": "Renumbering the atoms (permuting node_types, neighbour lists and neighbour indices consistently) permutes node_energies the same way and leaves the total unchanged.", "quantifier": "all well-formed models, all graphs, all permutations of atoms", "why_tests_cant": "factorially many permutations, unbounded system size", "anchors": ["libsymmetrix/source/mace.cpp:MACE::compute_node_energies_forces"]}
{"id": "C07", "title": "Energy is local", "statement": "The energy of atom i depends only on its own neighbour list and the neighbour lists of its neighbours: two systems that agree on these give the same node_energies entry; in particular the energies of two non-interacting systems evaluated together are those evaluated separately.", "quantifier": "all well-formed models, all pairs of graphs agreeing on the two-hop environment of an atom", "why_tests_cant": "an unwanted dependence on a distant atom needs an adversarial configuration", "anchors": ["libsymmetrix/source/mace.cpp:MACE::compute_Phi1", "libsymmetrix/source/mace.cpp:MACE::compute_node_energies_forces"]}
{"id": "C08", "title": "Spline passes through its data", "statement": "CubicSpline::evaluate and evaluate_deriv at the i-th node position h*i return exactly nodal_values[i] and nodal_derivs[i], and approach the data of node i+1 at the right end of interval i.", "quantifier": "all h>0, all node data with at least two nodes, all interior node indices", "why_tests_cant": "unbounded table sizes and values", "anchors": ["libsymmetrix/source/cubic_spline.cpp:CubicSpline::evaluate", "libsymmetrix/source/cubic_spline.cpp:CubicSpline::generate_coefficients"]}
{"id": "C09", "title": "Spline derivative is the derivative of the spline", "statement": "For every r strictly inside the table, evaluate_deriv returns (f(r), f'(r)) where f is the function computed by evaluate; in particular f is continuously differentiable across the nodes; evaluate_deriv_divided returns f'(r)/r.", "quantifier": "all h>0, all node data, all r with 0 < r < h*(n-1), including the nodes themselves", "why_tests_cant": "derivative at the nodes is a two-sided limit; tests check random points", "anchors": ["libsymmetrix/source/cubic_spline.cpp:CubicSpline::evaluate_deriv", "libsymmetrix/source/cubic_spline.cpp:CubicSpline::evaluate_deriv_divided"]}
{"id": "C10", "title": "Spline bounds check", "statement": "CubicSpline::evaluate throws for r < 0 and for r >= h*(n-1), and for every other r reads only inside the coefficient table.", "quantifier": "all h>0, all table sizes, all real r", "why_tests_cant": "boundary cases over a continuum; the unchanged code accepts -h < r < 0", "anchors": ["libsymmetrix/source/cubic_spline.cpp:CubicSpline::evaluate"]}
{"id": "C11", "title": "Spline reproduces cubic polynomials", "statement": "If the node data come from a polynomial of degree at most three, evaluate returns that polynomial's value and evaluate_deriv its derivative everywhere in the table.", "quantifier": "all cubic polynomials, all h>0, all table sizes, all r in the table", "why_tests_cant": "unbounded family", "anchors": ["libsymmetrix/source/cubic_spline.cpp:CubicSpline::generate_coefficients"]}
{"id": "C12", "title": "Spline set equals its member splines", "statement": "CubicSplineSet::evaluate and evaluate_derivs write into slot j exactly what a CubicSpline built from the j-th data would return, and access memory outside the table for r >= h*(n-1) or r <= -h instead of reporting an error.", "quantifier": "all h>0, numbers of splines and nodes, data, and real r", "why_tests_cant": "unbounded sizes; interleaved coefficient layout", "anchors": ["libsymmetrix/source/cubic_spline_set.cpp:CubicSplineSet::evaluate", "libsymmetrix/source/cubic_spline_set.cpp:CubicSplineSet::evaluate_derivs"]}
{"id": "C13", "title": "Kokkos spline range checks are safe", "statement": "CubicSplineKokkos evaluate, evaluate_deriv and evaluate_deriv_divided never read beyond the coefficient table.", "quantifier": "all table sizes, all r >= 0", "why_tests_cant": "out-of-range reads return plausible numbers; the unchanged code violates this", "anchors": ["libsymmetrix/source/cubic_spline_kokkos.cpp:CubicSplineKokkos::evaluate_deriv", "libsymmetrix/source/cubic_spline_kokkos.cpp:CubicSplineKokkos::evaluate_deriv_divided"]}
{"id": "C14", "title": "ZBL gradient is the derivative of ZBL energy", "statement": "ZBL::compute_gradient(Zu,Zv,r) is the derivative in r of ZBL::compute(Zu,Zv,r) at every r>0, including the cutoff r = R_u+R_v where the envelope switches off.", "quantifier": "all parameters a_exp, a_prefactor, c, covalent radii, envelope powers p>=1, all species, all r>0", "why_tests_cant": "continuum of r, and the cutoff point is a single point no random test hits", "anchors": ["libsymmetrix/source/zbl.cpp:ZBL::compute", "libsymmetrix/source/zbl.cpp:ZBL::compute_gradient"]}
{"id": "C15", "title": "ZBL is symmetric and has compact support", "statement": "ZBL::compute and compute_gradient are unchanged when the two species are swapped, and are exactly zero for r at or beyond the sum of the covalent radii.", "quantifier": "all parameters, species, r", "why_tests_cant": "continuum", "anchors": ["libsymmetrix/source/zbl.cpp:ZBL::compute", "libsymmetrix/source/zbl.cpp:ZBL::compute_envelope"]}
{"id": "C16", "title": "ZBL envelope goes smoothly from one to zero", "statement": "compute_envelope is 1 at r=0, lies in [0,1], never increases with r and is C1 (compute_envelope_gradient is its derivative) for all r>0.", "quantifier": "all r_max>0, integer p>=1, r>=0", "why_tests_cant": "continuum of r and unbounded p", "anchors": ["libsymmetrix/source/zbl.cpp:ZBL::compute_envelope", "libsymmetrix/source/zbl.cpp:ZBL::compute_envelope_gradient"]}
{"id": "C17", "title": "ZBL is repulsive", "statement": "With non-negative prefactors c and positive screening length, ZBL::compute is >= 0 and compute_gradient is <= 0 for every r>0, so the pair force never attracts.", "quantifier": "all parameters with c>=0, a>0, p>=1, positive charges, all r>0", "why_tests_cant": "continuum", "anchors": ["libsymmetrix/source/zbl.cpp:ZBL::compute", "libsymmetrix/source/zbl.cpp:ZBL::compute_gradient"]}
{"id": "C18", "title": "compute_ZBL accumulates exactly the pair sum", "statement": "compute_ZBL adds to node_energies[i] the sum of compute over atom i's neighbours and to node_forces of each edge minus gradient times the unit bond vector, leaving other entries untouched, and stays inside its buffers.", "quantifier": "all graphs, all prior output contents", "why_tests_cant": "arbitrary sizes and prior contents", "anchors": ["libsymmetrix/source/zbl.cpp:ZBL::compute_ZBL"]}
{"id": "C19", "title": "Polynomial value is the sum of its terms", "statement": "MultivariatePolynomial::evaluate returns sum_i coefficients[i] * prod_j x[monomials[i][j]] when the monomials are pairwise different, non-empty and use valid variable numbers, whatever their order, whatever the order std::sort leaves equal elements in, and whatever earlier evaluations (single ones, or batches of at least one input) left in the object.", "quantifier": "all numbers of variables, all coefficient lists, all lists of distinct non-empty in-range monomials in any order, all x, all sort tie-breaks", "why_tests_cant": "evaluation uses a generated product graph whose shape depends on the monomial set", "anchors": ["libsymmetrix/source/multivariate_polynomial.cpp:MultivariatePolynomial::MultivariatePolynomial", "libsymmetrix/source/multivariate_polynomial.cpp:MultivariatePolynomial::evaluate", "libsymmetrix/source/tools.cpp:_two_part_partitions"]}
{"id": "C20", "title": "Polynomial gradient is exact", "statement": "MultivariatePolynomial::evaluate_gradient returns the value above and the vector of its partial derivatives.", "quantifier": "same as for the value, all x", "why_tests_cant": "reverse accumulation over an arbitrary graph; tests use six monomials", "anchors": ["libsymmetrix/source/multivariate_polynomial.cpp:MultivariatePolynomial::evaluate_gradient", "libsymmetrix/source/multivariate_polynomial.cpp:MultivariatePolynomial::backward_pass"]}
{"id": "C21", "title": "Polynomial batch evaluation equals repeated single evaluation", "statement": "evaluate_batch on B stacked inputs returns, for each input, the value and gradient evaluate_gradient returns for it.", "quantifier": "all batch sizes B>=0, all polynomials of the kind above, all inputs, all earlier object states", "why_tests_cant": "transposed buffer layout for arbitrary batch sizes", "anchors": ["libsymmetrix/source/multivariate_polynomial.cpp:MultivariatePolynomial::evaluate_batch"]}
{"id": "C22", "title": "Recursive and simple polynomial evaluators agree", "statement": "evaluate/evaluate_gradient agree with evaluate_simple/evaluate_gradient_simple on every polynomial the constructor accepts, including ones with repeated monomials.", "quantifier": "all polynomials accepted by the constructor, all x", "why_tests_cant": "tests never repeat a monomial; the unchanged code disagrees there", "anchors": ["libsymmetrix/source/multivariate_polynomial.cpp:MultivariatePolynomial::evaluate_simple", "libsymmetrix/source/multivariate_polynomial.cpp:MultivariatePolynomial::evaluate_gradient_simple"]}
{"id": "C23", "title": "Polynomial construction yields a valid product graph", "statement": "Construction from distinct non-empty in-range monomials terminates without invalid accesses, and yields nodes whose first num_variables entries are the variables and in which each other node is the product of two strictly earlier nodes; num_auxiliary_nodes counts exactly the nodes that are neither variables nor input monomials.", "quantifier": "all monomial lists of this kind, all sort tie-breaks", "why_tests_cant": "unbounded family of monomial sets; iteration over a set modified inside the loop", "anchors": ["libsymmetrix/source/multivariate_polynomial.cpp:MultivariatePolynomial::MultivariatePolynomial"]}
{"id": "C24", "title": "MLP output is the network function", "statement": "MultilayerPerceptron::evaluate returns W_L s(W_{L-1} ... s(W_1 x)) with s(x)=scale*x*sigmoid(x).", "quantifier": "all layer shapes with at least two layers, all weights of matching size, all inputs of length shape[0], all earlier object states", "why_tests_cant": "arbitrary depth and width", "anchors": ["libsymmetrix/source/multilayer_perceptron.cpp:MultilayerPerceptron::evaluate"]}
{"id": "C25", "title": "MLP gradient is the exact Jacobian", "statement": "evaluate_gradient returns the output above and the row-major Jacobian of the outputs with respect to the inputs.", "quantifier": "all shapes, weights, inputs", "why_tests_cant": "arbitrary depth; tests use finite differences at one point", "anchors": ["libsymmetrix/source/multilayer_perceptron.cpp:MultilayerPerceptron::evaluate_gradient"]}
{"id": "C26", "title": "MLP batch evaluation equals repeated single evaluation", "statement": "evaluate_batch and evaluate_gradient_batch return the concatenation of the single-sample results.", "quantifier": "all batch sizes, shapes, weights, inputs, earlier object states", "why_tests_cant": "arbitrary sizes", "anchors": ["libsymmetrix/source/multilayer_perceptron.cpp:MultilayerPerceptron::evaluate_batch", "libsymmetrix/source/multilayer_perceptron.cpp:MultilayerPerceptron::evaluate_gradient_batch"]}
{"id": "C27", "title": "MLP evaluation has no memory", "statement": "The result of evaluating a MultilayerPerceptron depends only on the input given, also when the input is shorter than shape[0].", "quantifier": "all inputs, all earlier calls", "why_tests_cant": "needs all call histories; the unchanged code violates it for short inputs", "anchors": ["libsymmetrix/source/multilayer_perceptron.cpp:MultilayerPerceptron::evaluate"]}
{"id": "C28", "title": "Binomial coefficients", "statement": "_binomial_coefficient(n,k) is the number of k-element subsets of an n-element set for 0<=k<=n and 0 for other k (mathematical integers).", "quantifier": "all integers n>=0 and k", "why_tests_cant": "infinite domain", "anchors": ["libsymmetrix/source/tools.cpp:_binomial_coefficient"]}
{"id": "C29", "title": "_partitions lists every set partition once", "statement": "For a non-empty list of distinct integers, _partitions returns every partition of the set into non-empty blocks exactly once (blocks in order of their first element, elements in input order) and in order of increasing number of blocks.", "quantifier": "all non-empty lists of distinct integers, all sort tie-breaks", "why_tests_cant": "Bell-number growth; test counts results up to 7 elements only", "anchors": ["libsymmetrix/source/tools.cpp:_partitions"]}
{"id": "C30", "title": "_two_part_partitions lists every two-block partition once", "statement": "For every list, _two_part_partitions returns exactly the splittings of the list positions into two non-empty blocks, each once, 2^(n-1)-1 in total.", "quantifier": "all integer lists including repeated values", "why_tests_cant": "exponential growth; used by the polynomial builder for every monomial", "anchors": ["libsymmetrix/source/tools.cpp:_two_part_partitions"]}
{"id": "C31", "title": "_permutations lists all permutations in lexicographic order", "statement": "_permutations(n) is the strictly lexicographically increasing list of all n! permutations of 0..n-1.", "quantifier": "all n>=0", "why_tests_cant": "factorial growth", "anchors": ["libsymmetrix/source/tools.cpp:_permutations"]}
{"id": "C32", "title": "_combinations lists all pairs", "statement": "_combinations(set,2) lists exactly the pairs (set[i],set[j]) with i<j in lexicographic order of (i,j); any other k is rejected.", "quantifier": "all lists and all k", "why_tests_cant": "infinite domain", "anchors": ["libsymmetrix/source/tools.cpp:_combinations"]}
{"id": "C33", "title": "_product family is the Cartesian product", "statement": "_product returns exactly the tuples choosing one element from each input, in lexicographic order of positions with the last varying fastest; _product_repeat and _generate_indices are the corresponding special cases, with max^dim tuples for the latter.", "quantifier": "all lists of lists", "why_tests_cant": "infinite domain", "anchors": ["libsymmetrix/source/tools.hpp:_product", "libsymmetrix/source/tools.cpp:_product_repeat", "libsymmetrix/source/tools.cpp:_generate_indices"]}
{"id": "C34", "title": "Species-pair index is a bijection on unordered pairs", "statement": "The index used to select the radial spline of a species pair is symmetric in the two species, below N(N+1)/2, and different for different unordered pairs, enumerating them in the order in which the extraction script writes the tables.", "quantifier": "all numbers N of species, all species pairs", "why_tests_cant": "all N at once; integer division in the formula", "anchors": ["libsymmetrix/source/mace.cpp:MACE::compute_R0", "symmetrix/source/symmetrix/extract_mace_data.py:extract_mace_data"]}
{"id": "C35", "title": "pair_style argument handling", "statement": "pair_style symmetrix/mace accepts exactly: no argument, or one of the three mode names, and rejects no_domain_decomposition on more than one process; the chosen mode is as documented and multi-process runs never end up in single-process mode.", "quantifier": "all argument lists, all process counts", "why_tests_cant": "all strings and process counts", "anchors": ["pair_symmetrix/pair_symmetrix_mace.cpp:PairSymmetrixMACE::settings", "pair_symmetrix/pair_symmetrix_mace_kokkos.cpp:PairSymmetrixMACEKokkos::settings"]}
{"id": "C36", "title": "pair_coeff maps LAMMPS types to the right model species", "statement": "After a successful pair_coeff, LAMMPS type t is mapped to the model species whose atomic number is that of the t-th element symbol; an unknown symbol or an element the model lacks is an error.", "quantifier": "all element lists, all models; CPU and Kokkos pair styles", "why_tests_cant": "all element lists; the Kokkos style silently maps missing elements to -1", "anchors": ["pair_symmetrix/pair_symmetrix_mace.cpp:PairSymmetrixMACE::coeff", "pair_symmetrix/pair_symmetrix_mace_kokkos.cpp:PairSymmetrixMACEKokkos::coeff"]}
{"id": "C37", "title": "Edge lists are exactly the pairs inside the cutoff", "statement": "The graph handed to the evaluator contains, for each listed atom in order, exactly the neighbours with squared distance below r_cut^2, with matching counts, types, displacement vectors and distances; the buffers are filled completely and never overrun.", "quantifier": "all neighbour lists, positions, cutoffs", "why_tests_cant": "two separate passes (count, fill) must agree on every input", "anchors": ["pair_symmetrix/pair_symmetrix_mace.cpp:PairSymmetrixMACE::compute_no_domain_decomposition", "pair_symmetrix/pair_symmetrix_mace_kokkos.cpp:PairSymmetrixMACEKokkos::compute_no_domain_decomposition"]}
{"id": "C38", "title": "Total force is zero", "statement": "The forces the LAMMPS pair styles and the ASE calculator add to the atoms sum to zero.", "quantifier": "all edge lists and all edge forces", "why_tests_cant": "must hold for every graph, in exact arithmetic", "anchors": ["pair_symmetrix/pair_symmetrix_mace.cpp:PairSymmetrixMACE::compute_no_domain_decomposition", "symmetrix/source/symmetrix/symmetrix_calc.py:Symmetrix.calculate"]}
{"id": "C39", "title": "Atomic forces are position gradients", "statement": "In the single-process pair style and the ASE calculator, the force on each atom is minus the derivative of the total energy with respect to its position, given that each edge force is minus the derivative with respect to the edge vector.", "quantifier": "all graphs including periodic self-images and multiple images of one pair", "why_tests_cant": "chain rule over every graph; sign conventions", "anchors": ["pair_symmetrix/pair_symmetrix_mace.cpp:PairSymmetrixMACE::compute_no_domain_decomposition", "symmetrix/source/symmetrix/symmetrix_calc.py:Symmetrix.calculate"]}
{"id": "C40", "title": "Virial and stress are the strain derivative", "statement": "The six virial components are minus the derivative of the energy under the corresponding symmetric strain of all edge vectors, and the ASE stress times volume equals the strain derivative.", "quantifier": "all graphs, all strains", "why_tests_cant": "continuum", "anchors": ["pair_symmetrix/pair_symmetrix_mace.cpp:PairSymmetrixMACE::compute_no_domain_decomposition", "symmetrix/source/symmetrix/symmetrix_calc.py:Symmetrix.calculate"]}
{"id": "C41", "title": "Forward communication copies H1 exactly", "statement": "pack_forward_comm followed by unpack_forward_comm reproduces the features of each sent atom in the ghost slots first..first+n-1 and changes nothing else; the message length equals comm_forward times n.", "quantifier": "all send lists, sizes, feature arrays", "why_tests_cant": "all lists incl. repeats and empty messages", "anchors": ["pair_symmetrix/pair_symmetrix_mace.cpp:PairSymmetrixMACE::pack_forward_comm", "pair_symmetrix/pair_symmetrix_mace.cpp:PairSymmetrixMACE::unpack_forward_comm"]}
{"id": "C42", "title": "Reverse communication is the adjoint of forward communication", "statement": "pack_reverse_comm followed by unpack_reverse_comm adds each ghost's adjoint to its owner, and is the transpose of forward communication; so gradients flow back exactly.", "quantifier": "all send lists including repeated atoms, all adjoint arrays", "why_tests_cant": "repeats in the send list are rare in tests", "anchors": ["pair_symmetrix/pair_symmetrix_mace.cpp:PairSymmetrixMACE::pack_reverse_comm", "pair_symmetrix/pair_symmetrix_mace.cpp:PairSymmetrixMACE::unpack_reverse_comm"]}
{"id": "C43", "title": "Domain-decomposed run equals single-domain run", "statement": "In mpi_message_passing mode, the energies, forces (collected from ghosts) and virials of all processes add up to those of the single-process mode on the undecomposed system, and each atom has the same energy, for every decomposition, every communication plan filling the ghosts and every order of the local atom list.", "quantifier": "all decompositions, all ghost assignments, all ilist orders", "why_tests_cant": "all decompositions at once; the unchanged code needs ilist[ii]=ii", "anchors": ["pair_symmetrix/pair_symmetrix_mace.cpp:PairSymmetrixMACE::compute_mpi_message_passing"]}
{"id": "C44", "title": "Ghost-recompute mode equals single-domain run", "statement": "In no_mpi_message_passing mode, the energy of every local atom equals that in the undecomposed system when ghosts cover two cutoffs, and the energies, forces (collected from ghosts) and virials of all processes add up to those of the single-process mode.", "quantifier": "all decompositions with sufficient ghosts", "why_tests_cant": "all decompositions at once", "anchors": ["pair_symmetrix/pair_symmetrix_mace.cpp:PairSymmetrixMACE::compute_no_mpi_message_passing"]}
{"id": "C45", "title": "Per-atom energies go to the right atom", "statement": "With per-atom energies requested, eatom[i] increases by the model energy of atom i.", "quantifier": "all orders of the local atom list", "why_tests_cant": "the unchanged code indexes by list position; correct only when ilist[ii]=ii", "anchors": ["pair_symmetrix/pair_symmetrix_mace.cpp:PairSymmetrixMACE::compute_no_domain_decomposition"]}
{"id": "C46", "title": "ASE calculator covers every atom", "statement": "The ASE calculator's energy includes every atom of the structure and its energies array has one entry per atom, also for structures with isolated atoms or no neighbours at all.", "quantifier": "all structures", "why_tests_cant": "the unchanged code drops trailing isolated atoms and fails when there is no pair", "anchors": ["symmetrix/source/symmetrix/symmetrix_calc.py:Symmetrix.calculate"]}
{"id": "C47", "title": "ASE neighbour counts are right for symmetric neighbour lists", "statement": "The neighbour counts passed to the evaluator (computed from the second-atom column) equal the number of list entries of each first atom, so the evaluator sees the graph the neighbour list describes.", "quantifier": "all symmetric (full) neighbour lists sorted by first atom", "why_tests_cant": "all lists; fails silently for half lists", "anchors": ["symmetrix/source/symmetrix/symmetrix_calc.py:Symmetrix.calculate"]}
{"id": "C48", "title": "Parallel accumulation is schedule independent", "statement": "Results accumulated with Kokkos::atomic_add or reductions are the same for every interleaving of the additions, and first_neigh offsets reproduce the sequential edge numbering.", "quantifier": "all graphs, all schedules (orders of additions)", "why_tests_cant": "exponentially many schedules", "anchors": ["libsymmetrix/source/mace_kokkos.cpp:MACEKokkos::reverse_Phi1", "libsymmetrix/source/radial_function_set_kokkos.cpp", "pair_symmetrix/pair_symmetrix_mace_kokkos.cpp:PairSymmetrixMACEKokkos::unpack_reverse_comm_kokkos"]}
{"id": "C49", "title": "Kokkos first layer equals CPU first layer", "statement": "MACEKokkos, which folds the H0 and A0 weights into the radial splines at load time, produces the same A0 as MACE.", "quantifier": "all models, graphs, coordinates", "why_tests_cant": "weight folding is linear algebra over all sizes", "anchors": ["libsymmetrix/source/mace_kokkos.cpp:MACEKokkos::compute_R0", "libsymmetrix/source/mace_kokkos.cpp:MACEKokkos::compute_A0", "libsymmetrix/source/mace_kokkos.cpp:MACEKokkos::load_from_json"]}
{"id": "C50", "title": "Kokkos second-layer tables equal CPU loops", "statement": "The lm1/lm2/path tables used by MACEKokkos for Phi1 enumerate the same terms in the same numbering as the nested loops of MACE, so Phi1 agrees.", "quantifier": "all path lists", "why_tests_cant": "all l_max, L_max and path lists", "anchors": ["libsymmetrix/source/mace_kokkos.cpp:MACEKokkos::compute_Phi1", "libsymmetrix/source/mace.cpp:MACE::compute_Phi1"]}
{"id": "C51", "title": "Grow-only buffers do not leak", "statement": "In the Kokkos evaluator, whose buffers only grow, the energies and forces of a call are unaffected by larger earlier calls, and summing the whole node_energies container gives the energy of the current system.", "quantifier": "all histories of system sizes", "why_tests_cant": "all call histories", "anchors": ["libsymmetrix/source/mace_kokkos.cpp:MACEKokkos::compute_node_energies_forces", "symmetrix/source/symmetrix/symmetrix_calc.py:Symmetrix.calculate"]}
{"id": "C52", "title": "Coordinate shuffle keeps gradients consistent", "statement": "compute_Y evaluates harmonics at (z,x,y) and un-shuffles the gradient so that Y_grad component a is the derivative of Y with respect to coordinate a of the original bond vector.", "quantifier": "all bond vectors, all harmonics supplied by the library", "why_tests_cant": "continuum", "anchors": ["libsymmetrix/source/mace.cpp:MACE::compute_Y"]}
{"id": "C53", "title": "Real spherical harmonics accept every direction", "statement": "real_sph_harm_xyz uses the true azimuth of (x,y) for every direction.", "quantifier": "all directions off the z axis", "why_tests_cant": "the unchanged code is wrong exactly on the half-plane y=0, x<0", "anchors": ["libsymmetrix/source/spherical_harmonic.cpp:real_sph_harm_xyz"]}
{"id": "C54", "title": "Every neighbour inside the cutoff is inside the radial table", "statement": "For tables written by the extraction script, every edge with 0 < r < r_cut falls inside the spline table.", "quantifier": "all cutoffs, table sizes, r", "why_tests_cant": "violation interval has width 1e-12", "anchors": ["symmetrix/source/symmetrix/extract_mace_data.py:extract_mace_data", "libsymmetrix/source/cubic_spline_set.cpp:CubicSplineSet::evaluate_derivs"]}
{"id": "C55", "title": "View conversions round-trip", "statement": "Converting nested vectors to Kokkos views and back is the identity for rectangular data, with row-major element order.", "quantifier": "all rectangular 1-, 2- and 3-dimensional data", "why_tests_cant": "all sizes", "anchors": ["libsymmetrix/source/tools_kokkos.hpp:toKokkosView", "libsymmetrix/source/tools_kokkos.hpp:view2vector"]}
{"id": "C56", "title": "Rotation invariance", "statement": "If the harmonics transform by matrices D_l under a rotation (or reflection) and the model weights satisfy the corresponding intertwining relations, every node energy is unchanged and every edge force is rotated when all bond vectors are rotated; for MACE and MACEKokkos.", "quantifier": "all rotations, graphs, models satisfying the relations", "why_tests_cant": "continuous group, all systems", "anchors": ["libsymmetrix/source/mace.cpp:MACE::compute_node_energies_forces"]}
{"id": "C57", "title": "Polynomial objects survive an empty batch", "statement": "After MultivariatePolynomial::evaluate_batch with batch_size 0, evaluate and evaluate_gradient still work.", "quantifier": "all polynomials, all inputs", "why_tests_cant": "needs a particular call order with an empty batch; the invalid access is silent", "anchors": ["libsymmetrix/source/multivariate_polynomial.cpp:MultivariatePolynomial::evaluate_batch", "libsymmetrix/source/multivariate_polynomial.cpp:MultivariatePolynomial::evaluate"]}
{"id": "C58", "title": "Isolated atoms have their reference energy", "statement": "An atom without neighbours is assigned exactly the isolated-atom energy of its element: messages, readouts and pair repulsion contribute nothing.", "quantifier": "all models, all systems with isolated atoms, all histories of the evaluator object", "why_tests_cant": "continuum of weights; any additive constant in a readout would break it only for particular models", "anchors": ["libsymmetrix/source/mace.cpp:MACE::compute_node_energies_forces"]}
{"id": "C59", "title": "Complex harmonics obey the conjugation rule", "statement": "sph_harm(l,-m) = (-1)^m conj sph_harm(l,m), including the Gamma-function normalisation used for negative m.", "quantifier": "all l, |m| <= l, all angles, every associated Legendre function", "why_tests_cant": "continuum of angles; the negative-m branch is a separate formula", "anchors": ["libsymmetrix/source/spherical_harmonic.cpp:sph_harm"]}
{"id": "C60", "title": "Real and complex harmonics are consistent", "statement": "Converting real_sph_harm values by the formula of sphericart_sph_harm gives back sph_harm, and sphericart_complex applies that formula to every (sample, l, m) without accessing memory outside its arrays.", "quantifier": "all l, m, angles; all batch sizes and l_max", "why_tests_cant": "phase conventions differ by branch; index arithmetic with negative m", "anchors": ["libsymmetrix/source/spherical_harmonic.cpp:real_sph_harm", "libsymmetrix/source/spherical_harmonic.cpp:sphericart_sph_harm"]}
{"id": "C61", "title": "Radial table abscissae agree with the evaluator", "statement": "The evaluator returns, at distance r = k*h, the radial function at r.", "quantifier": "all cutoffs, table sizes, radial functions, nodes", "why_tests_cant": "the offset is 1e-12", "anchors": ["symmetrix/source/symmetrix/extract_mace_data.py:extract_mace_data", "libsymmetrix/source/cubic_spline.cpp:CubicSpline::evaluate"]}
{"id": "C62", "title": "Kokkos evaluator equals CPU evaluator", "statement": "On the same model file and the same input, MACEKokkos and MACE return the same node energies and edge forces, for every interleaving of the threads of every kernel, every division of the scans into blocks, every content of uninitialised memory and every history of earlier calls.", "quantifier": "all valid model files, graphs, bond vectors within the tables, schedules, histories", "why_tests_cant": "two code bases with different data layouts and algorithms; exponentially many schedules; continuum of weights and coordinates", "anchors": ["libsymmetrix/source/mace_kokkos.cpp:MACEKokkos::compute_node_energies_forces", "libsymmetrix/source/mace_kokkos.cpp:MACEKokkos::load_from_json", "libsymmetrix/source/mace.cpp:MACE::compute_node_energies_forces"]}
{"id": "C63", "title": "Communication functions of the Kokkos pair style", "statement": "pack/unpack_forward_comm_kokkos copy the feature rows of the sent atoms to the ghost atoms and change nothing else; pack/unpack_reverse_comm_kokkos add the ghost rows to the rows of their owners, for every interleaving of the threads, also when an atom is listed several times. The host versions do the same as the CPU pair style when the views are in memory accessible to the host; otherwise they overwrite the rest of the view.", "quantifier": "all numbers of atoms, channels, lists, buffers, schedules", "why_tests_cant": "index arithmetic over three dimensions; concurrent additions to the same row; the failure needs a device with separate memory", "anchors": ["pair_symmetrix/pair_symmetrix_mace_kokkos.cpp:PairSymmetrixMACEKokkos::unpack_reverse_comm_kokkos", "pair_symmetrix/pair_symmetrix_mace_kokkos.cpp:PairSymmetrixMACEKokkos::unpack_forward_comm"]}
{"id": "C64", "title": "Kokkos pair style equals CPU pair style, single process", "statement": "With a neighbour list in natural order, compute_no_domain_decomposition of symmetrix/mace/kk adds the same energy, forces and virial as the CPU style, for every interleaving of the threads of every kernel (graph building, evaluation, force and virial reductions), every division of the scans, every content of uninitialised memory, every earlier history and every content of the grow-only buffers.", "quantifier": "all valid model files, atoms, periodic images, neighbour lists in natural order, flags, accumulators, schedules, histories", "why_tests_cant": "exponentially many schedules of concurrent additions to the same force; continuum of coordinates; buffers of earlier, larger systems", "anchors": ["pair_symmetrix/pair_symmetrix_mace_kokkos.cpp:PairSymmetrixMACEKokkos::compute_no_domain_decomposition", "pair_symmetrix/pair_symmetrix_mace.cpp:PairSymmetrixMACE::compute_no_domain_decomposition"]}
{"id": "C65", "title": "Kokkos pair style: forces and virial are derivatives", "statement": "In single-process mode the force added to an atom by symmetrix/mace/kk is minus the derivative of the energy it adds, the neighbour selection included; atoms outside the list get nothing; the virial is minus the strain derivative.", "quantifier": "all valid model files, configurations off the cutoff, lists in natural order, schedules, histories", "why_tests_cant": "finite differences sample finitely many configurations and one schedule each", "anchors": ["pair_symmetrix/pair_symmetrix_mace_kokkos.cpp:PairSymmetrixMACEKokkos::compute_no_domain_decomposition"]}
{"id": "C66", "title": "Kokkos pair style: per-atom energies", "statement": "After a call that tallies per-atom energies, eatom(i) is the energy of atom i.", "quantifier": "all systems and sequences of calls", "why_tests_cant": "the first call is right; only later calls differ", "anchors": ["pair_symmetrix/pair_symmetrix_mace_kokkos.cpp:PairSymmetrixMACEKokkos::compute_no_domain_decomposition"]}
{"id": "C67", "title": "Kokkos pair style: graph for every neighbour list order", "statement": "The graph handed to the evaluator in single-process mode is that of the periodic system, whatever the order of ilist.", "quantifier": "all atoms, valid neighbour lists in any order", "why_tests_cant": "standard lists are in natural order; only skip lists of hybrid styles are not", "anchors": ["pair_symmetrix/pair_symmetrix_mace_kokkos.cpp:PairSymmetrixMACEKokkos::compute_no_domain_decomposition"]}
{"id": "C68", "title": "Kokkos pair style equals CPU pair style, no_mpi_message_passing", "statement": "compute_no_mpi_message_passing of symmetrix/mace/kk adds the same energy, forces and virial as the CPU style on every process: the ghosts found by concurrent bit setting and a scan are those the CPU style finds with sets, neighbour numbers and evaluation agree. Lists in any order, every interleaving, every division of the scans, every earlier history and buffer content.", "quantifier": "all valid model files, atoms, ghosts, neighbour lists, flags, accumulators, schedules, histories", "why_tests_cant": "exponentially many schedules; ghost selection by concurrent marking; buffers left by larger systems; continuum of coordinates", "anchors": ["pair_symmetrix/pair_symmetrix_mace_kokkos.cpp:PairSymmetrixMACEKokkos::compute_no_mpi_message_passing", "pair_symmetrix/pair_symmetrix_mace.cpp:PairSymmetrixMACE::compute_no_mpi_message_passing"]}
{"id": "C69", "title": "Kokkos pair style: domain decomposition without message passing", "statement": "For any division of a system among processes the energies, forces (collected from all images) and virials computed by symmetrix/mace/kk in no_mpi_message_passing mode add up to those of the whole system in one process, and every single atom gets the same energy.", "quantifier": "all divisions whose ghosts cover two cutoffs, all numbers of processes, configurations, schedules and histories of every process", "why_tests_cant": "divisions, schedules and configurations are unbounded; tests compare a few process grids", "anchors": ["pair_symmetrix/pair_symmetrix_mace_kokkos.cpp:PairSymmetrixMACEKokkos::compute_no_mpi_message_passing"]}
{"id": "C70", "title": "Kokkos pair style equals CPU pair style, mpi_message_passing", "statement": "compute_mpi_message_passing of symmetrix/mace/kk adds the same energy, forces and virial as the CPU style on every process, with features and adjoints exchanged by the same communication plan, for lists in natural order; also when the pair style's H1 and the evaluator's H1 are one allocation, as they are after the first call.", "quantifier": "all valid model files, divisions, communication plans, numbers of processes, flags, accumulators, schedules of every process, histories of calls on different divisions", "why_tests_cant": "aliasing of views depends on the sizes in earlier calls; exponentially many schedules; continuum of coordinates", "anchors": ["pair_symmetrix/pair_symmetrix_mace_kokkos.cpp:PairSymmetrixMACEKokkos::compute_mpi_message_passing", "pair_symmetrix/pair_symmetrix_mace.cpp:PairSymmetrixMACE::compute_mpi_message_passing"]}
{"id": "C71", "title": "Kokkos pair style: domain decomposition with message passing", "statement": "For any division of a system among processes the energies, forces (collected from all images) and virials computed by symmetrix/mace/kk in mpi_message_passing mode add up to those of the whole system in one process, and every single atom gets the same energy.", "quantifier": "all divisions, communication plans, neighbour list orders, configurations, schedules and histories of every process", "why_tests_cant": "divisions, plans, schedules and configurations are unbounded; standard neighbour lists are in natural order", "anchors": ["pair_symmetrix/pair_symmetrix_mace_kokkos.cpp:PairSymmetrixMACEKokkos::compute_mpi_message_passing"]}
{"id": "C72", "title": "Kokkos pair style: sorting of features by atom", "statement": "The kernel that moves the features from list position to atom index leaves every local atom with the features of its node, in every schedule, whatever the order of ilist and whether or not source and destination are one allocation.", "quantifier": "all lists, sizes, features, schedules", "why_tests_cant": "the race shows only for lists out of order, from the second call on, and depends on the schedule", "anchors": ["pair_symmetrix/pair_symmetrix_mace_kokkos.cpp:PairSymmetrixMACEKokkos::compute_mpi_message_passing"]}
{"id": "C73", "title": "Kokkos polynomials: evaluation through the product graph", "statement": "MultivariatePolynomialKokkos::evaluate returns the value of the polynomial and evaluate_gradient the value and all partial derivatives, in every execution space, in every interleaving of the copy kernels and after every history of calls.", "quantifier": "all polynomials with pairwise different monomials, inputs, memory spaces, schedules, histories", "why_tests_cant": "polynomials and schedules are unbounded; the zero polynomial and devices with their own memory are not in the tests", "anchors": ["libsymmetrix/source/multivariate_polynomial_kokkos.cpp:MultivariatePolynomialKokkos::evaluate", "libsymmetrix/source/multivariate_polynomial_kokkos.cpp:MultivariatePolynomialKokkos::evaluate_gradient", "libsymmetrix/source/multivariate_polynomial_kokkos.cpp:MultivariatePolynomialKokkos::MultivariatePolynomialKokkos"]}
{"id": "C74", "title": "Kokkos polynomials: direct evaluation", "statement": "MultivariatePolynomialKokkos::evaluate_simple returns the value of the polynomial in every execution space and every schedule.", "quantifier": "all polynomials, inputs, memory spaces, schedules", "why_tests_cant": "the failure needs a device with separate memory and monomials of different lengths", "anchors": ["libsymmetrix/source/multivariate_polynomial_kokkos.cpp:MultivariatePolynomialKokkos::evaluate_simple"]}
{"id": "C75", "title": "Kokkos polynomials: direct evaluation of the gradient", "statement": "MultivariatePolynomialKokkos::evaluate_gradient_simple returns the value and all partial derivatives in every schedule.", "quantifier": "all polynomials, inputs, schedules", "why_tests_cant": "lost updates depend on the schedule; serial back ends never show them", "anchors": ["libsymmetrix/source/multivariate_polynomial_kokkos.cpp:MultivariatePolynomialKokkos::evaluate_gradient_simple"]}
{"id": "C76", "title": "ASE calculator with the Kokkos evaluator equals the CPU one", "statement": "With use_kokkos=True (the default) Symmetrix.calculate returns the energy, forces and stress it returns with use_kokkos=False, whatever was calculated before with the same calculator and for every interleaving of the threads; the forces are minus the derivative of the energy.", "quantifier": "all models, structures, neighbour lists, histories of both calculators, schedules", "why_tests_cant": "containers keep their size from earlier structures; schedules and histories are unbounded", "anchors": ["symmetrix/source/symmetrix/symmetrix_calc.py:Symmetrix.calculate", "symmetrix/source/cpp/mace_kokkos.cpp:bind_mace_kokkos", "libsymmetrix/source/mace_kokkos.cpp:MACEKokkos::compute_node_energies_forces"]}
{"id": "C77", "title": "ASE calculator with the Kokkos evaluator: energies of the atoms", "statement": "With use_kokkos=True the result 'energies' has the entries it has with use_kokkos=False, one per node of the current structure, whatever was calculated before with the same calculator.", "quantifier": "all models, structures, neighbour lists, histories, schedules", "why_tests_cant": "needs a smaller structure after a larger one with the same calculator", "anchors": ["symmetrix/source/symmetrix/symmetrix_calc.py:Symmetrix.calculate", "libsymmetrix/source/mace_kokkos.cpp:MACEKokkos::compute_node_energies_forces"]}
{"id": "C78", "title": "Extraction script: the file has the shape the evaluators need", "statement": "For distinct requested elements extract_mace_data succeeds exactly if the model contains all of them and the matrix of the first linear map can be inverted; the file then lists the requested elements (all elements of the model if none is requested) in increasing order and its tables have the sizes and indices with which MACE and MACEKokkos load and run without access out of bounds.", "quantifier": "all PyTorch models with l_max = 3, channels, elements, requests, spline points", "why_tests_cant": "the script is run by users for their own models; tests use single files already extracted", "anchors": ["symmetrix/source/symmetrix/extract_mace_data.py:extract_mace_data"]}
{"id": "C79", "title": "Extraction script and evaluators compute the PyTorch network", "statement": "The energies that MACE and MACEKokkos compute from the extracted file are the energies of the PyTorch network whose radial functions (and edge densities) are replaced by the cubic splines through their tables: all fused weights, path normalisations, reordered coupling coefficients, inverse matrices, scale and shift cancel exactly.", "quantifier": "all PyTorch models with l_max = 3 (with or without edge densities and pair repulsion), elements, structures, histories, schedules", "why_tests_cant": "a comparison for a few models and structures cannot show that every fused product is right for all weights", "anchors": ["symmetrix/source/symmetrix/extract_mace_data.py:extract_mace_data", "libsymmetrix/source/mace.cpp:MACE::load_from_json", "libsymmetrix/source/mace_kokkos.cpp:MACEKokkos::load_from_json"]}
{"id": "C80", "title": "Extraction script: radial tables at the positions of the pairs of types", "statement": "The radial table at the position where the evaluators look up a pair of types is that of the two elements, for every list of requested elements.", "quantifier": "all PyTorch models, lists of requested elements", "why_tests_cant": "needs a request that names an element twice; the result is a file that loads and gives wrong energies", "anchors": ["symmetrix/source/symmetrix/extract_mace_data.py:extract_mace_data"]}
{"id": "C81", "title": "Extraction script: polynomials equal the symmetric contractions", "statement": "For every element, component, channel and argument the polynomial written to the file has the value of the symmetric contractions of the PyTorch model up to order three.", "quantifier": "all coupling tensors (entries zero or above the script's threshold), weights, arguments", "why_tests_cant": "equality of polynomials at all arguments; tests evaluate finitely many", "anchors": ["symmetrix/source/symmetrix/extract_mace_data.py:extract_mace_data"]}
{"id": "C82", "title": "Extraction script: coupling table equals the tensor product", "statement": "For every output component of every path the sum over the table of coupling coefficients in the file is the tensor product conv_tp of the second interaction, for all node features, harmonics and weights.", "quantifier": "all tensor products with paths sorted by output, inputs, channels", "why_tests_cant": "equality for all inputs of a function probed by the script at unit vectors only", "anchors": ["symmetrix/source/symmetrix/extract_mace_data.py:extract_mace_data"]}
{"id": "C83", "title": "Kokkos cubic spline class equals the CPU class", "statement": "CubicSplineKokkos built from node values and derivatives returns what CubicSpline returns: evaluate everywhere including exceptions, the derivative evaluators inside the table, for every execution order of the constructor's kernel and every memory layout of the device.", "quantifier": "all node data, arguments, execution orders; shared and separate memories", "why_tests_cant": "tests run on a host backend, where a mirror view is the view itself", "anchors": ["libsymmetrix/source/cubic_spline_kokkos.cpp:CubicSplineKokkos"]}
{"id": "C84", "title": "Kokkos spline set: every overload equals the single splines", "statement": "Inside the table every overload of CubicSplineSetKokkos (view, span, batch; values, derivatives) writes into slot j what the j-th single CPU spline returns and leaves all other cells alone, for every execution order.", "quantifier": "all node data, arguments, batch sizes, previous buffer contents, execution orders", "why_tests_cant": "race freedom and untouched cells for all sizes and schedules", "anchors": ["libsymmetrix/source/cubic_spline_set_kokkos.cpp:CubicSplineSetKokkos"]}
{"id": "C85", "title": "Kokkos perceptron class: values and gradients", "statement": "MultilayerPerceptronKokkos::evaluate and evaluate_gradient write for each row of the batch the first output of the network and its gradient, whatever calls with other batch sizes came before, in every execution order and memory layout.", "quantifier": "all shapes, weights, batches, histories of calls, execution orders; shared and separate memories", "why_tests_cant": "needs arbitrary histories (resized buffers) and gradients for all inputs; tests run on a host backend", "anchors": ["libsymmetrix/source/multilayer_perceptron_kokkos.cpp:MultilayerPerceptronKokkos"]}
{"id": "C86", "title": "Python bindings read and write the elements of the array argument", "statement": "A function called through the bindings reads the elements of an array argument in C order, and results written to an output argument appear in the caller's array in C order.", "quantifier": "all array layouts (offset, shape, strides), contents, element types", "why_tests_cant": "tests pass freshly made contiguous float64 arrays; slices and transposes are read wrongly without an error", "anchors": ["symmetrix/source/cpp/mace.cpp", "symmetrix/source/cpp/cubic_spline_set.cpp", "symmetrix/source/cpp/multilayer_perceptron.cpp", "symmetrix/source/cpp/utilities_kokkos.hpp"]}
{"id": "C87", "title": "No net torque and symmetric virial", "statement": "When the model file and the harmonics respect rotations, the forces exert no net torque and the virial is symmetric, so the six stress or virial components returned determine the derivative of the energy under every deformation, not only symmetric ones.", "quantifier": "all rotation-respecting model files, systems inside the tables, histories, execution orders, deformations", "why_tests_cant": "an identity between sums of forces for all configurations; tests check single structures up to rounding", "anchors": ["libsymmetrix/source/mace.cpp:compute_node_energies_forces", "libsymmetrix/source/mace_kokkos.cpp:compute_node_energies_forces", "symmetrix/source/symmetrix/symmetrix_calc.py:Symmetrix.calculate", "pair_symmetrix/pair_symmetrix_mace.cpp:compute_no_domain_decomposition"]}
{"id": "C88", "title": "Smooth energy when pairs cross the cutoff", "statement": "When the tables end with the value zero at the cutoff, the energy is a continuous function of the positions, also where pairs enter or leave the cutoff; when the last slopes are zero as well, forces and virial are the derivatives of the energy also at configurations with pairs exactly at the cutoff.", "quantifier": "all such model files, systems, neighbour lists, positions, directions", "why_tests_cant": "configurations with pairs exactly at the cutoff have measure zero; a jump shows only as energy drift of long runs", "anchors": ["pair_symmetrix/pair_symmetrix_mace.cpp:compute_no_domain_decomposition", "libsymmetrix/source/mace.cpp:compute_node_energies_forces"]}
{"id": "C89", "title": "The loaders read from the JSON file what the script wrote", "statement": "For every set of tables the extraction script can produce, loading the written JSON file (CPU and Kokkos) gives the evaluator built from those tables, the same ZBL parameters and the same cutoff: keys, nesting, integer keys as text, element counts and optional parts agree.", "quantifier": "all tables, element lists, channels, optional parts (ZBL, densities)", "why_tests_cant": "script and loaders are in two languages with some forty keys each; tests convert a few models, always with the same optional parts", "anchors": ["symmetrix/source/symmetrix/extract_mace_data.py:extract_mace_data", "symmetrix/source/symmetrix/cli/extract_mace.py:main", "libsymmetrix/source/mace.cpp:load_from_json", "libsymmetrix/source/mace_kokkos.cpp:load_from_json"]}
{"id": "C90", "title": "Incomplete JSON files are rejected", "statement": "A JSON file in which an entry is missing that the evaluator needs is rejected with an exception; it is never loaded with invented values or undefined behaviour.", "quantifier": "all JSON objects lacking a needed entry", "why_tests_cant": "tests load complete files only", "anchors": ["libsymmetrix/source/mace.cpp:load_from_json", "libsymmetrix/source/mace_kokkos.cpp:load_from_json", "libsymmetrix/source/multivariate_polynomial.cpp:MultivariatePolynomial"]}
{"id": "C91", "title": "Ghosts up to the communication cutoff make the divided runs valid", "statement": "If every process holds all images that were closer than the communication cutoff to one of its atoms when the lists were built, and no atom has since moved by more than half the skin, then every atom the pair style treats as a node sees exactly what the atom it is an image of sees on one process: for mpi_message_passing with r_cut + skin, for no_mpi_message_passing with 2 r_cut + skin, and no smaller cutoff is enough there.", "quantifier": "all positions, periodic cells, divisions among processes, neighbour lists, displacements within the skin", "why_tests_cant": "a ghost without one of its neighbours shows only for special positions of atoms relative to the process boundaries, and changes energies slightly", "anchors": ["pair_symmetrix/pair_symmetrix_mace.cpp:compute_no_mpi_message_passing", "pair_symmetrix/pair_symmetrix_mace.cpp:compute_mpi_message_passing", "pair_symmetrix/pair_symmetrix_mace.cpp:init_style"]}
{"id": "C92", "title": "Initialisation of the pair style establishes what compute needs", "statement": "init_style refuses to run without an atom map or with newton off, requests a full neighbour list (with ghosts exactly for no_mpi_message_passing), and leaves a communication cutoff of at least 2 r_cut + skin in that mode; init_one returns the model cutoff for every pair of types after pair_coeff and an error before.", "quantifier": "all LAMMPS settings (atom map, newton, communication and neighbour cutoffs, skin), model cutoffs, modes, numbers of types", "why_tests_cant": "depends on settings left by earlier commands of the input script; tests use one script", "anchors": ["pair_symmetrix/pair_symmetrix_mace.cpp:init_style", "pair_symmetrix/pair_symmetrix_mace.cpp:init_one", "pair_symmetrix/pair_symmetrix_mace.cpp:allocate", "pair_symmetrix/pair_symmetrix_mace_kokkos.cpp:init_style"]}
{"id": "C93", "title": "Every atom type has a species", "statement": "After a pair_coeff command that was accepted, the type of every atom is mapped to a species of the model; a command with too few element symbols is an error.", "quantifier": "all numbers of types, element lists, models", "why_tests_cant": "reading beyond the end of a vector goes unnoticed in tests", "anchors": ["pair_symmetrix/pair_symmetrix_mace.cpp:coeff", "pair_symmetrix/pair_symmetrix_mace_kokkos.cpp:coeff"]}
{"id": "C94", "title": "Results do not depend on which other elements were extracted", "statement": "Two files extracted from one PyTorch model for different sets of elements give the same node energies and forces for every structure whose elements both contain.", "quantifier": "all models, element sets, structures, histories of the two evaluators", "why_tests_cant": "tests convert a model for one set of elements and compare with PyTorch there; tables per pair of elements, element indices and weights sliced by element change with the set", "anchors": ["symmetrix/source/symmetrix/extract_mace_data.py:extract_mace_data", "libsymmetrix/source/mace.cpp:compute_node_energies_forces"]}
{"id": "C95", "title": "Accuracy of the cubic splines", "statement": "The spline built from tabulated values and slopes reproduces a function with bounded fourth derivative up to B h^4/384 plus the errors of the table, its derivative up to B h^3/24 plus those; the slopes the extraction script stores (scipy's spline, not-a-knot at the start, zero slope at the cutoff) exist, are unique and third-order accurate, so the evaluators use the radial functions up to 29/384 B h^4 and their derivatives up to B h^3/3, with distances shifted by the script's 1e-12.", "quantifier": "all grids with at least three nodes, functions with bounded fourth derivative, distances inside the table", "why_tests_cant": "tests compare a few distances with a tolerance; order of accuracy and a uniform bound are statements about all functions and step sizes", "anchors": ["libsymmetrix/source/cubic_spline.cpp:CubicSpline", "libsymmetrix/source/cubic_spline.cpp:evaluate_deriv", "symmetrix/source/symmetrix/extract_mace_data.py:extract_mace_data"]}
{"id": "C96", "title": "Refining the tables converges to the PyTorch model", "statement": "For every structure and every accuracy there is a number of spline points from which on the energies and forces of the evaluator made of the extracted file are that close to the energies of the PyTorch network and to minus their gradient (with distances shifted by 1e-12), whatever the evaluator computed before.", "quantifier": "all PyTorch models with smooth radial functions of zero slope at the cutoff, element sets, structures inside the cutoff, accuracies, histories of the evaluator", "why_tests_cant": "tests compare one model with one number of points; convergence is a statement about a limit", "anchors": ["symmetrix/source/symmetrix/extract_mace_data.py:extract_mace_data", "libsymmetrix/source/mace.cpp:compute_node_energies_forces"]}
{"id": "C97", "title": "Sizes and offsets computed in int do not overflow", "statement": "No expression of type int for the size of a buffer or an offset into one overflows in compute_node_energies_forces, for models and systems whose buffers are addressable.", "quantifier": "all model files, numbers of atoms, numbers of pairs, neighbour lists", "why_tests_cant": "needs systems of thousands to millions of atoms or pairs; tests are small", "anchors": ["libsymmetrix/source/mace.cpp:compute_node_energies_forces", "libsymmetrix/source/mace.cpp:compute_M1", "libsymmetrix/source/mace.cpp:compute_R0", "libsymmetrix/source/cubic_spline_set.cpp:evaluate_derivs"]}
{"id": "C98", "title": "Splines in rounded arithmetic", "statement": "For every distance inside the table the spline classes, computing in double (or storing and summing in float), read coefficients of the table and return value and derivative of the Hermite spline up to a fixed multiple of the rounding error times the number of nodes, also where rounding of r/h selects a neighbouring interval.", "quantifier": "all tables, spacings, distances; all roundings with small relative error, in particular IEEE rounding to nearest", "why_tests_cant": "the interval chosen by a rounded quotient is wrong only for isolated distances next to nodes; tests do not hit them", "anchors": ["libsymmetrix/source/cubic_spline.cpp:evaluate", "libsymmetrix/source/cubic_spline.cpp:evaluate_deriv", "libsymmetrix/source/cubic_spline_set.cpp:evaluate_derivs", "libsymmetrix/source/radial_function_set_kokkos.cpp:evaluate"]}
{"id": "C99", "title": "Elements for the extraction by number or symbol, in any order", "statement": "Naming elements by atomic number, decimal text or chemical symbol, mixed and in any order, gives the file for those atomic numbers; no list means all elements of the model; text that is neither a number nor a symbol and elements the model lacks are rejected; two runs of the command on one model with the same default output name write the same data.", "quantifier": "all lists of numbers and texts, models", "why_tests_cant": "infinitely many spellings and orders; a collision of default names needs two particular runs", "anchors": ["symmetrix/source/symmetrix/extract_mace_data.py:extract_mace_data", "symmetrix/source/symmetrix/cli/extract_mace.py:main"]}
{"id": "C100", "title": "Construction of the ASE calculator", "statement": "The calculator holds an evaluator of the requested kind and precision with the data of the JSON file, or, for a PyTorch model, with the data which the extraction script gives for the chosen elements (all elements of the model if none are chosen).", "quantifier": "all build options, arguments and file contents", "why_tests_cant": "tests use one model with explicit elements; whether the temporary file is complete when it is read depends on the length of the text", "anchors": ["symmetrix/source/symmetrix/symmetrix_calc.py:__init__"]}
{"id": "C101", "title": "No invalid access in any floating-point arithmetic", "statement": "Loading a well-formed file and evaluating inputs whose rounded lengths fall into intervals of the tables makes no access outside a buffer and throws no exception, whatever the arithmetic does: with any rounding, overflow, NaNs in positions or weights, harmonics of any value, and whatever the buffers held before.", "quantifier": "all number types and operations on them (no laws assumed), files, inputs, histories of the evaluator", "why_tests_cant": "tests run with ordinary numbers; accesses that depend on a NaN or an infinity are not exercised", "anchors": ["libsymmetrix/source/mace.cpp:compute_node_energies_forces", "libsymmetrix/source/mace.cpp:load_from_json", "libsymmetrix/source/zbl.cpp:compute_ZBL", "libsymmetrix/source/cubic_spline_set.cpp:evaluate_derivs"]}
{"id": "C102", "title": "Rounding errors of energies and forces tend to zero", "statement": "For a well-formed file and any finite sequence of calls away from the edges of the tables, the energies and forces of an object computing in floating point come arbitrarily close to those of the exact evaluation when the accuracy of the operations, of the stored numbers and of the input increases: for every tolerance there is an accuracy (a number of significant bits) from which on all calls succeed and all results are within the tolerance, also for bond lengths at nodes of the tables and at the cutoff of the pair repulsion.", "quantifier": "all model files, sequences of calls, inputs, tolerances; all arithmetics whose operations have small relative or absolute errors, any order of summation in BLAS", "why_tests_cant": "a result that jumps at isolated inputs (a branch or table interval selected by a rounded number) is not met by test inputs; tests compare at one precision", "anchors": ["libsymmetrix/source/mace.cpp:compute_node_energies_forces", "libsymmetrix/source/mace.cpp:load_from_json", "libsymmetrix/source/zbl.cpp:compute_ZBL", "libsymmetrix/source/cubic_spline_set.cpp:evaluate_derivs"]}
{"id": "C103", "title": "Old contents of buffers never reach a result, in any floating-point arithmetic", "statement": "In floating point, too, energies and forces of a call depend only on the model file and the arguments of the call: they are the same numbers, bit for bit, on a fresh object, after any earlier calls with other numbers of atoms and bonds, and with any old contents of the work buffers, NaNs and infinities included (0*NaN is not 0, so multiplying by zero or relying on beta=0 of a product that reads its output would not do).", "quantifier": "all number types and operations on them (no laws assumed), files, histories, buffer contents, inputs", "why_tests_cant": "stale values show only for particular sequences of sizes, and only if the memory happens to hold something else than zero", "anchors": ["libsymmetrix/source/mace.cpp:compute_node_energies_forces", "libsymmetrix/source/mace.cpp:compute_A0", "libsymmetrix/source/mace.cpp:reverse_A1", "libsymmetrix/source/multilayer_perceptron.cpp:evaluate_gradient", "libsymmetrix/source/multivariate_polynomial.cpp:evaluate_gradient"]}
{"id": "C104", "title": "Every reverse stage is the derivative of its forward stage", "statement": "Called on its own (as the Python bindings and pair styles do), each reverse stage of the evaluator delivers the exact transposed derivative of its forward stage: for any contents of the input buffer and any weights of the outputs, the adjoint buffer holds the gradient of the weighted sum of the outputs, the forces receive minus the gradient in the bond vectors, accumulating stages add it to the old content or to zeros as their flag says, and readouts store the gradient of the summed energies.", "quantifier": "all model files, neighbour lists (ghost neighbours included), geometries inside the tables, buffer contents, weights, flags", "why_tests_cant": "a finite-difference test checks one random buffer within tolerances; an error that cancels in the composition, or an unread entry, goes unnoticed", "anchors": ["libsymmetrix/source/mace.cpp:reverse_M0", "libsymmetrix/source/mace.cpp:reverse_H1", "libsymmetrix/source/mace.cpp:reverse_Phi1", "libsymmetrix/source/mace.cpp:reverse_A1", "libsymmetrix/source/mace.cpp:reverse_M1", "libsymmetrix/source/mace.cpp:reverse_H2", "libsymmetrix/source/mace.cpp:reverse_A0", "libsymmetrix/source/mace.cpp:reverse_A0_scaled", "libsymmetrix/source/mace.cpp:reverse_A1_scaled", "symmetrix/source/cpp/mace.cpp:reverse_A0"]}
{"id": "C105", "title": "reverse_A1_scaled clears the forces when told to", "statement": "After reverse_A1_scaled with zero_dxyz (the default, and what the Python binding does) the forces are those of this stage, whatever they were before.", "quantifier": "all model files, geometries, buffer contents", "why_tests_cant": "the test runs the stage only with a model that has the normalisation", "anchors": ["libsymmetrix/source/mace.cpp:reverse_A1_scaled", "symmetrix/source/cpp/mace.cpp:reverse_A1_scaled"]}
{"id": "C106", "title": "Results belong to the structure, not to the cell that describes it", "statement": "Two descriptions of the same (partly) periodic structure - atoms moved by lattice vectors, other cell vectors, supercells - give, with the lists of all pairs within a cutoff, the same energy and force for every atom and its images, total energies in the ratio of the numbers of atoms, and the same stress. In terms of the evaluator: if each node of one graph has the incoming and outgoing edges of its image in another, energies and forces are those of the images.", "quantifier": "all model files, structures with any periodic directions, pairs of descriptions, cutoffs, neighbour lists sorted by the first atom, object histories", "why_tests_cant": "one compares a few supercells within a tolerance; small cells, where an atom is its own neighbour or two images of one atom are neighbours of the same atom, are rarely among them", "anchors": ["symmetrix/source/symmetrix/symmetrix_calc.py:calculate", "libsymmetrix/source/mace.cpp:MACE::compute_node_energies_forces"]}
{"id": "C107", "title": "Conservation laws of molecular dynamics", "statement": "With files whose tables end at the cutoff with value and slope zero, the forces of the pair style do, along every differentiable motion of the atoms (images moving with their originals), exactly the work by which the energy it reports decreases - also at the moments when pairs enter or leave the cutoff. Hence along every solution of Newton's equations with these forces kinetic energy plus reported energy is constant, and so is the total momentum. The same holds for the evaluator: its summed energies change at the rate minus force times velocity along every differentiable motion of the bond vectors.", "quantifier": "all model files, neighbour lists, motions (not only straight lines), masses, times, object histories", "why_tests_cant": "a drift of the energy in a simulation mixes the error of the time step with errors of the forces; wrong forces in rare configurations (pair at the cutoff) show only as slow drift", "anchors": ["libsymmetrix/source/mace.cpp:MACE::compute_node_energies_forces", "pair_symmetrix/pair_symmetrix_mace.cpp:PairSymmetrixMACE::compute_no_domain_decomposition"]}
{"id": "C108", "title": "Every stage of MACEKokkos equals the stage of MACE", "statement": "Called on its own (as the Python bindings and the pair style do), each forward and each reverse stage of MACEKokkos delivers the numbers of the corresponding stage of MACE for the same contents of the buffers it reads - whatever these are, in every interleaving of the threads, whatever the output views held before and however many rows they have, for every setting of the flags; adjoint and force views that are too short are enlarged first.", "quantifier": "all model files, neighbour lists (ghost neighbours included), geometries inside the tables, buffer contents, old view contents and sizes, flags, thread schedules, contents of uninitialised memory", "why_tests_cant": "the tests compare whole evaluations; errors of a stage that only show for buffers a full evaluation never produces, or with views grown by earlier calls, stay hidden", "anchors": ["libsymmetrix/source/mace_kokkos.cpp:reverse_H2", "libsymmetrix/source/mace_kokkos.cpp:reverse_Phi1", "libsymmetrix/source/mace_kokkos.cpp:compute_M0", "libsymmetrix/source/mace_kokkos.cpp:reverse_M0", "libsymmetrix/source/mace_kokkos.cpp:compute_A1", "libsymmetrix/source/mace_kokkos.cpp:compute_readouts", "symmetrix/source/cpp/mace_kokkos.cpp:reverse_Phi1"]}
{"id": "C109", "title": "The call reverse_A1_scaled does the same in MACE and MACEKokkos", "statement": "The call of reverse_A1_scaled the Python bindings make leaves the same forces in MACE and MACEKokkos.", "quantifier": "all model files, geometries, buffer contents, forces before the call", "why_tests_cant": "tests clear the forces before", "anchors": ["libsymmetrix/source/mace.hpp:reverse_A1_scaled", "libsymmetrix/source/mace_kokkos.cpp:reverse_A1_scaled", "symmetrix/source/cpp/mace.cpp:reverse_A1_scaled", "symmetrix/source/cpp/mace_kokkos.cpp:reverse_A1_scaled"]}
{"id": "C110", "title": "Sizes and offsets MACEKokkos computes in int do not overflow", "statement": "No expression of type int in MACEKokkos::compute_node_energies_forces (sizes of views, league sizes of the kernels, offsets into flat views, running sums of the numbers of neighbours, pair indices) exceeds 2^31-1.", "quantifier": "all model files, numbers of atoms, neighbour lists", "why_tests_cant": "overflow needs systems far larger than the tests use", "anchors": ["libsymmetrix/source/mace_kokkos.cpp:compute_Y", "libsymmetrix/source/mace_kokkos.cpp:compute_Phi1", "libsymmetrix/source/mace_kokkos.cpp:reverse_Phi1", "libsymmetrix/source/mace_kokkos.cpp:compute_H2", "libsymmetrix/source/radial_function_set_kokkos.cpp:evaluate", "libsymmetrix/source/zbl_kokkos.cpp:compute_ZBL"]}
{"id": "C111", "title": "Attributes read as assigned", "statement": "For every attribute (node_energies, R0, A0, ..., H2_adj) of the Python classes MACE and MACEKokkos: after evaluator.x = array, evaluator.x is array and every other attribute is unchanged; after a stage, the attribute begins with the results of the stage.", "quantifier": "all attributes, states, arrays of every length", "why_tests_cant": "tests only assign arrays of the right size", "anchors": ["symmetrix/source/cpp/mace_kokkos.cpp:bind_mace_kokkos", "symmetrix/source/cpp/mace.cpp:bind_mace", "symmetrix/source/cpp/utilities_kokkos.hpp:set_kokkos_view", "libsymmetrix/source/tools_kokkos.hpp:view2vector"]}
{"id": "C112", "title": "Assigning attributes does not affect later evaluations", "statement": "After any sequence of evaluations and assignments of attributes, compute_node_energies_forces of MACE and of MACEKokkos succeeds and returns the energies and forces of the input.", "quantifier": "all sequences of evaluations and assignments, all inputs", "why_tests_cant": "buffers grow only when one of a pair of views is too small; the sequences that separate the pair are not tested", "anchors": ["libsymmetrix/source/mace_kokkos.cpp:compute_R0", "libsymmetrix/source/mace_kokkos.cpp:compute_R1", "symmetrix/source/cpp/mace_kokkos.cpp:bind_mace_kokkos"]}
{"id": "C113", "title": "Conservation laws for both pair styles in all modes", "statement": "Whatever computes the forces - the CPU or the Kokkos pair style, in one process or divided among processes in the mode with or without message passing, with any history and any interleaving of threads, changing from step to step - the same atoms get the same energy and forces; along every solution of Newton's equations with these forces kinetic plus reported energy and the total momentum are constant, and for a model that respects rotations the angular momentum of a free cluster is constant, too. (With message passing, and for the Kokkos style in one process, for neighbour lists that list the atoms in the order 0, 1, ...: for others C43, C64 and C71 apply.)", "quantifier": "all model files, systems, divisions, communication plans, object histories, thread schedules, motions, masses, times", "why_tests_cant": "a simulation shows drift only after many steps, mixed with the error of the time step; changes of the division during a run are not controlled by a test", "anchors": ["pair_symmetrix/pair_symmetrix_mace.cpp:PairSymmetrixMACE::compute_mpi_message_passing", "pair_symmetrix/pair_symmetrix_mace.cpp:PairSymmetrixMACE::compute_no_mpi_message_passing", "pair_symmetrix/pair_symmetrix_mace_kokkos.cpp:compute_no_domain_decomposition", "libsymmetrix/source/mace_kokkos.cpp:compute_node_energies_forces"]}
{"id": "C114", "title": "What must not change the results of MACEKokkos", "statement": "Energies and forces of MACEKokkos and results of the calculator using it: renumbering the atoms (and reordering each neighbour list) renumbers them; the energy of an atom depends only on its environment and those of its neighbours; two systems in one call give what two calls give; a graph that covers another gets the energies and edge forces of the images; the same crystal described with another cell gets the same forces and stress and n times the energy.", "quantifier": "all model files, systems, geometries inside the tables, renumberings, coverings, cells, object histories, thread schedules", "why_tests_cant": "tests evaluate a few fixed structures; views that keep rows of earlier, larger systems are not varied", "anchors": ["libsymmetrix/source/mace_kokkos.cpp:compute_node_energies_forces", "symmetrix/source/symmetrix/__init__.py:Symmetrix.calculate"]}
{"id": "C115", "title": "Messages are dimensioned for the mode in use, whatever the order of commands", "statement": "After any sequence of pair_style and pair_coeff commands accepted by LAMMPS, the message size announced to LAMMPS (comm_forward, comm_reverse) suffices for the mode compute uses, and compute has a function to call; a rejected command leaves a usable object.", "quantifier": "all sequences of commands, arguments, numbers of processes, models, both pair styles", "why_tests_cant": "tests use one pair_style and one pair_coeff in this order", "anchors": ["pair_symmetrix/pair_symmetrix_mace.cpp:PairSymmetrixMACE::settings", "pair_symmetrix/pair_symmetrix_mace.cpp:PairSymmetrixMACE::coeff", "pair_symmetrix/pair_symmetrix_mace.cpp:PairSymmetrixMACE::compute", "pair_symmetrix/pair_symmetrix_mace_kokkos.cpp:settings", "pair_symmetrix/pair_symmetrix_mace_kokkos.cpp:coeff"]}
{"id": "C116", "title": "Messages fit the buffers when the pair style is part of a hybrid style", "statement": "As part of pair_style hybrid or hybrid/overlay, in the mode with message passing, the numbers sent per atom are at most what the buffers, dimensioned when the styles are created, have room for.", "quantifier": "all models, arguments, numbers of processes, other styles, both pair styles", "why_tests_cant": "no test uses hybrid styles", "anchors": ["pair_symmetrix/pair_symmetrix_mace.cpp:PairSymmetrixMACE::PairSymmetrixMACE", "pair_symmetrix/pair_symmetrix_mace_kokkos.cpp:PairSymmetrixMACEKokkos", "pair_symmetrix/pair_symmetrix_mace.cpp:PairSymmetrixMACE::coeff"]}
{"id": "C117", "title": "Memory of the pair styles is released exactly once", "statement": "Construct a pair style, use it with any sequence of pair_coeff (successful or not) and steps with or without per-atom energies for systems of varying size, destroy it: no block is released twice or without having been allocated, and none remains allocated.", "quantifier": "all sequences of uses, sizes, both pair styles", "why_tests_cant": "leaks and double releases show up in sequences the tests do not run, and not as wrong numbers", "anchors": ["pair_symmetrix/pair_symmetrix_mace.cpp:PairSymmetrixMACE::~PairSymmetrixMACE", "pair_symmetrix/pair_symmetrix_mace.cpp:PairSymmetrixMACE::allocate", "pair_symmetrix/pair_symmetrix_mace_kokkos.cpp:~PairSymmetrixMACEKokkos", "pair_symmetrix/pair_symmetrix_mace_kokkos.cpp:compute_no_domain_decomposition"]}
{"id": "C118", "title": "LAMMPS reads the per-atom energies of the Kokkos pair style", "statement": "After a step with per-atom energies, the array on the host from which LAMMPS takes them holds the energies of the atoms, also if host and device have separate memories.", "quantifier": "all model files, systems, thread schedules, shared and separate memories", "why_tests_cant": "tests run with one memory", "anchors": ["pair_symmetrix/pair_symmetrix_mace_kokkos.cpp:compute_no_domain_decomposition", "pair_symmetrix/pair_symmetrix_mace_kokkos.cpp:compute_mpi_message_passing", "pair_symmetrix/pair_symmetrix_mace_kokkos.cpp:compute_no_mpi_message_passing"]}
{"id": "C119", "title": "CubicSplineSetKokkos from views equals the one from vectors", "statement": "The constructor of CubicSplineSetKokkos from views with the values and derivatives succeeds and gives the coefficients of the constructor from vectors.", "quantifier": "all tables, thread schedules", "why_tests_cant": "no test calls this constructor", "anchors": ["libsymmetrix/source/cubic_spline_set_kokkos.cpp:CubicSplineSetKokkos"]}
{"id": "C120", "title": "Sizes and offsets the CPU pair style computes in int do not overflow", "statement": "In no mode does an int expression of PairSymmetrixMACE (edge counts, sizes of the vectors, offsets 3*ij, offsets into the features of local and ghost atoms, lengths of messages) or of the functions of the evaluator it calls overflow; the pair style sets no tighter limit than the evaluator for the local atoms.", "quantifier": "all model files, numbers of local and ghost atoms, pairs, messages, three modes", "why_tests_cant": "overflow needs systems far larger than those of the tests, and ghosts enter the limits", "anchors": ["pair_symmetrix/pair_symmetrix_mace.cpp:PairSymmetrixMACE::compute_no_domain_decomposition", "pair_symmetrix/pair_symmetrix_mace.cpp:PairSymmetrixMACE::compute_mpi_message_passing", "pair_symmetrix/pair_symmetrix_mace.cpp:PairSymmetrixMACE::compute_no_mpi_message_passing", "pair_symmetrix/pair_symmetrix_mace.cpp:PairSymmetrixMACE::pack_forward_comm"]}
{"id": "C121", "title": "Sizes and offsets the Kokkos pair style computes in int do not overflow", "statement": "In no mode does an int expression of PairSymmetrixMACEKokkos (numbers of neighbours and pairs, scans, sizes of views, offsets 3*ij, offsets into message buffers, lengths of messages) or of the functions of the evaluator it calls overflow; the pair style sets no tighter limit than the evaluator for the local atoms.", "quantifier": "all model files, numbers of local and ghost atoms, pairs, messages, three modes", "why_tests_cant": "overflow needs systems far larger than those of the tests, and ghosts and messages enter the limits", "anchors": ["pair_symmetrix/pair_symmetrix_mace_kokkos.cpp:compute_no_domain_decomposition", "pair_symmetrix/pair_symmetrix_mace_kokkos.cpp:compute_mpi_message_passing", "pair_symmetrix/pair_symmetrix_mace_kokkos.cpp:compute_no_mpi_message_passing", "pair_symmetrix/pair_symmetrix_mace_kokkos.cpp:pack_forward_comm_kokkos"]}
{"id": "C122", "title": "Integer helpers return the exact value whenever it fits an int", "statement": "_binomial_coefficient(n,k) is the binomial coefficient whenever that is an int, so no intermediate result overflows before the value does; _sum(v) is the sum of v whenever that is an int, in whatever order and grouping std::reduce adds.", "quantifier": "all n, k, all vectors, all orders and groupings of additions", "why_tests_cant": "tests use small numbers; the order of std::reduce depends on the library", "anchors": ["libsymmetrix/source/tools.cpp:_binomial_coefficient", "libsymmetrix/source/tools.cpp:_sum"]}
{"id": "C123", "title": "Sizes and offsets inside the polynomial, perceptron and spline classes do not overflow", "statement": "No int expression of the evaluation functions of MultivariatePolynomial, of MultilayerPerceptron, CubicSpline, CubicSplineSet, sphericart_complex or of the constructor of MultilayerPerceptronKokkos overflows if the arrays that are stored and used have fewer than 2^31 elements.", "quantifier": "all polynomials, network shapes, tables, batch sizes", "why_tests_cant": "overflow needs sizes far larger than those of the tests", "anchors": ["libsymmetrix/source/multivariate_polynomial.cpp:MultivariatePolynomial::evaluate_batch", "libsymmetrix/source/multilayer_perceptron.cpp:MultilayerPerceptron::MultilayerPerceptron", "libsymmetrix/source/multilayer_perceptron.cpp:MultilayerPerceptron::evaluate_gradient_batch", "libsymmetrix/source/cubic_spline.cpp:CubicSpline::generate_coefficients", "libsymmetrix/source/cubic_spline_set.cpp:CubicSplineSet::CubicSplineSet", "libsymmetrix/source/multilayer_perceptron_kokkos.cpp:MultilayerPerceptronKokkos"]}
{"id": "C124", "title": "Conversions between vectors and views are right with separate host and device memories", "statement": "toKokkosView, view2vector and set_kokkos_view, the monomial tables of load_from_json and the call of sphericart in compute_Y never touch device memory from the host, leave all other allocations unchanged, and give the same contents whether the default memory space is the host's or a separate device memory; unused entries of the monomial tables are -1 whatever the uninitialised allocation held.", "quantifier": "all vectors, extents, earlier contents of the memories, one and two memories", "why_tests_cant": "tests run with one memory, where a forgotten copy has no effect", "anchors": ["libsymmetrix/source/tools_kokkos.hpp:toKokkosView", "libsymmetrix/source/tools_kokkos.hpp:view2vector", "libsymmetrix/source/tools_kokkos.hpp:set_kokkos_view", "libsymmetrix/source/mace_kokkos.cpp:compute_Y", "libsymmetrix/source/mace_kokkos.cpp:load_from_json"]}
{"id": "C125", "title": "The Kokkos runtime is started once, before the first view, and never after its end", "statement": "Any sequence of creating calculators (with or without Kokkos, whose file loads or not), calls of generate_view, starts of Kokkos after asking _kokkos_is_initialized, calls of _finalize_kokkos while Kokkos runs, and releases of objects keeps the contract of Kokkos: one start if anything needs it and none otherwise, views allocated and released only while it runs. generate_view gives -(i+1) and modify_view doubles every element, in every order of threads.", "quantifier": "all sequences of operations, all sizes, all orders of threads", "why_tests_cant": "tests start Kokkos once and never end it", "anchors": ["libsymmetrix/source/tools_kokkos.cpp:_init_kokkos", "libsymmetrix/source/tools_kokkos.cpp:_finalize_kokkos", "libsymmetrix/source/tools_kokkos.cpp:_kokkos_is_initialized", "libsymmetrix/source/tools_kokkos.cpp:generate_view", "libsymmetrix/source/tools_kokkos.cpp:modify_view", "symmetrix/source/symmetrix/symmetrix_calc.py:Symmetrix.__init__"]}
{"id": "C126", "title": "Kokkos pair style: kernels work on what LAMMPS wrote last, and LAMMPS gets their forces, on device and host", "statement": "Whichever copy (device or host) of positions, types, tags, atom map and forces LAMMPS wrote last, each mode of each variant of symmetrix/mace/kk (default, /device, /host) computes with those contents and never with an outdated copy; afterwards the copies are consistent, everything but the forces is unchanged, and code on the host that asks for the forces finds those of the kernels, which are those of the CPU pair style.", "quantifier": "all states of the copies, one and two memories, all three modes, all variants", "why_tests_cant": "tests do not run LAMMPS with a GPU; with one memory a missing sync or modified has no effect", "anchors": ["pair_symmetrix/pair_symmetrix_mace_kokkos.cpp:PairSymmetrixMACEKokkos::compute", "pair_symmetrix/pair_symmetrix_mace_kokkos.cpp:compute_no_domain_decomposition", "pair_symmetrix/pair_symmetrix_mace_kokkos.cpp:compute_mpi_message_passing", "pair_symmetrix/pair_symmetrix_mace_kokkos.cpp:compute_no_mpi_message_passing"]}
{"id": "C127", "title": "Messages of the single-precision Kokkos pair style lose nothing", "statement": "In symmetrix/mace/float32/kk features and adjoints are floats and message buffers doubles. With any number types in which a float survives the conversion to double and back, and with additions that need not be associative: the ghost rows of the receiver become exactly the listed rows of the sender; every listed adjoint becomes the single-precision sum of itself and the sent one, for every order of the threads (of itself and all sent ones, one after the other, if an atom is listed repeatedly; then only their order depends on the threads); nothing else changes and no access is out of bounds. The host variants (memory shared) do the same, their sums being formed in double and rounded; these are the same sums if rounding twice is innocuous.", "quantifier": "all number types with exact conversion, all sizes, all send lists, all orders of threads", "why_tests_cant": "tests run neither several ranks nor single precision; conversions are implicit in the code", "anchors": ["pair_symmetrix/pair_symmetrix_mace_kokkos.cpp:pack_forward_comm_kokkos", "pair_symmetrix/pair_symmetrix_mace_kokkos.cpp:unpack_forward_comm_kokkos", "pair_symmetrix/pair_symmetrix_mace_kokkos.cpp:pack_reverse_comm_kokkos", "pair_symmetrix/pair_symmetrix_mace_kokkos.cpp:unpack_reverse_comm_kokkos", "pair_symmetrix/pair_symmetrix_mace_kokkos.cpp:unpack_reverse_comm"]}
