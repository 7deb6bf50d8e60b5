{
 "claims": [
  {
   "property": "C01",
   "status": "proved",
   "theorems": [
    "Verif.Props.C01_forces_are_minus_gradient"
   ],
   "note": "Over the reals; harmonics and their gradient are parameters (IsSphGrad). Every well-formed file and input, every object history; loading from the file included."
  },
  {
   "property": "C02",
   "status": "proved",
   "theorems": [
    "Verif.Props.C02_no_invalid_access"
   ],
   "note": ""
  },
  {
   "property": "C03",
   "status": "proved",
   "theorems": [
    "Verif.Props.C03_history_independent"
   ],
   "note": "History: complete calls, arbitrary buffer contents, arbitrary evaluations of the owned polynomial and network objects."
  },
  {
   "property": "C04",
   "status": "proved",
   "theorems": [
    "Verif.Props.C04_node_energies"
   ],
   "note": ""
  },
  {
   "property": "C05",
   "status": "proved",
   "theorems": [
    "Verif.Props.C05_neighbour_order"
   ],
   "note": ""
  },
  {
   "property": "C06",
   "status": "proved",
   "theorems": [
    "Verif.Props.C06_relabelling"
   ],
   "note": ""
  },
  {
   "property": "C07",
   "status": "proved",
   "theorems": [
    "Verif.Props.C07_locality",
    "Verif.Props.C07_separate_systems"
   ],
   "note": ""
  },
  {
   "property": "C08",
   "status": "proved",
   "theorems": [
    "Verif.Props.C08_interpolates",
    "Verif.Props.C08_constructs",
    "Verif.Props.C08_right_end"
   ],
   "note": "value and derivative at every node but the last, and left limits at the right end of every interval"
  },
  {
   "property": "C09",
   "status": "proved",
   "theorems": [
    "Verif.Props.C09_derivative"
   ],
   "note": ""
  },
  {
   "property": "C10",
   "status": "partial",
   "theorems": [
    "Verif.Props.C10_bounds_partial",
    "Verif.Props.C10_violated_negative_r"
   ],
   "note": "the code does not throw for -h < r < 0 (truncation toward zero); exact throwing set proved"
  },
  {
   "property": "C11",
   "status": "proved",
   "theorems": [
    "Verif.Props.C11_reproduces_cubics"
   ],
   "note": ""
  },
  {
   "property": "C12",
   "status": "proved",
   "theorems": [
    "Verif.Props.C12_set_equals_members"
   ],
   "note": ""
  },
  {
   "property": "C13",
   "status": "partial",
   "theorems": [
    "Verif.Props.C13_kokkos_bounds_partial",
    "Verif.Props.C13_violated"
   ],
   "note": "violated by the code: exact out-of-bounds ranges proved"
  },
  {
   "property": "C14",
   "status": "proved",
   "theorems": [
    "Verif.Props.C14_formula",
    "Verif.Props.C14_gradient"
   ],
   "note": "over the reals"
  },
  {
   "property": "C15",
   "status": "proved",
   "theorems": [
    "Verif.Props.C15_symmetric",
    "Verif.Props.C15_compact_support"
   ],
   "note": ""
  },
  {
   "property": "C16",
   "status": "proved",
   "theorems": [
    "Verif.Props.C16_envelope"
   ],
   "note": ""
  },
  {
   "property": "C17",
   "status": "proved",
   "theorems": [
    "Verif.Props.C17_repulsive"
   ],
   "note": ""
  },
  {
   "property": "C18",
   "status": "proved",
   "theorems": [
    "Verif.Props.C18_accumulates"
   ],
   "note": ""
  },
  {
   "property": "C19",
   "status": "proved",
   "theorems": [
    "Verif.Props.C19_value"
   ],
   "note": "any commutative ring; all call histories and sort tie-breaks"
  },
  {
   "property": "C20",
   "status": "proved",
   "theorems": [
    "Verif.Props.C20_gradient"
   ],
   "note": "over the reals"
  },
  {
   "property": "C21",
   "status": "proved",
   "theorems": [
    "Verif.Props.C21_batch"
   ],
   "note": ""
  },
  {
   "property": "C22",
   "status": "partial",
   "theorems": [
    "Verif.Props.C22_simple_agrees_partial",
    "Verif.Props.C22_violated"
   ],
   "note": "violated by the code for repeated monomials (std::map::insert keeps the first coefficient); agreement proved for distinct monomials"
  },
  {
   "property": "C23",
   "status": "proved",
   "theorems": [
    "Verif.Props.C23_graph"
   ],
   "note": ""
  },
  {
   "property": "C24",
   "status": "proved",
   "theorems": [
    "Verif.Props.C24_value"
   ],
   "note": "Over the reals with Real.exp; all matching shapes with at least two layers, every call history (inputs of any length, any batch size)."
  },
  {
   "property": "C25",
   "status": "proved",
   "theorems": [
    "Verif.Props.C25_jacobian"
   ],
   "note": "Each Jacobian row pairs with every direction to the derivative of that output (HasDerivAt)."
  },
  {
   "property": "C26",
   "status": "proved",
   "theorems": [
    "Verif.Props.C26_batch"
   ],
   "note": "evaluate_batch and evaluate_gradient_batch against the single functions on any reachable object; batch size 0 included."
  },
  {
   "property": "C27",
   "status": "partial",
   "theorems": [
    "Verif.Props.C27_no_memory_partial",
    "Verif.Props.C27_violated"
   ],
   "note": "Holds for inputs of full length; refuted for shorter inputs, which reuse entries of the previous input."
  },
  {
   "property": "C28",
   "status": "proved",
   "theorems": [
    "Verif.Props.C28_binomial"
   ],
   "note": ""
  },
  {
   "property": "C29",
   "status": "proved",
   "theorems": [
    "Verif.Props.C29_partitions",
    "Verif.Props.C29_partitions_nil"
   ],
   "note": ""
  },
  {
   "property": "C30",
   "status": "proved",
   "theorems": [
    "Verif.Props.C30_two_part_partitions"
   ],
   "note": ""
  },
  {
   "property": "C31",
   "status": "proved",
   "theorems": [
    "Verif.Props.C31_permutations"
   ],
   "note": "std::next_permutation modelled as its standard algorithm."
  },
  {
   "property": "C32",
   "status": "proved",
   "theorems": [
    "Verif.Props.C32_combinations"
   ],
   "note": ""
  },
  {
   "property": "C33",
   "status": "proved",
   "theorems": [
    "Verif.Props.C33_product",
    "Verif.Props.C33_product_repeat",
    "Verif.Props.C33_generate_indices"
   ],
   "note": ""
  },
  {
   "property": "C34",
   "status": "proved",
   "theorems": [
    "Verif.Props.C34_pair_index"
   ],
   "note": ""
  },
  {
   "property": "C35",
   "status": "proved",
   "theorems": [
    "Verif.Props.C35_settings",
    "Verif.Props.C35_never_single"
   ],
   "note": ""
  },
  {
   "property": "C36",
   "status": "partial",
   "theorems": [
    "Verif.Props.C36_pair_coeff",
    "Verif.Props.C36_elements",
    "Verif.Props.C36_kokkos_partial",
    "Verif.Props.C36_kokkos_violated"
   ],
   "note": "CPU pair style: proved. Kokkos pair style: violated (missing elements accepted, overrun of mace_types with more types than model elements); agreement proved otherwise."
  },
  {
   "property": "C37",
   "status": "proved",
   "theorems": [
    "Verif.Props.C37_bonds",
    "Verif.Props.C37_single",
    "Verif.Props.C37_mpi",
    "Verif.Props.C37_no_mpi"
   ],
   "note": "CPU pair style, all three modes."
  },
  {
   "property": "C38",
   "status": "proved",
   "theorems": [
    "Verif.Props.C38_lammps",
    "Verif.Props.C38_ase"
   ],
   "note": "LAMMPS force loops (all modes share them) and the ASE calculator; all edge forces."
  },
  {
   "property": "C39",
   "status": "proved",
   "theorems": [
    "Verif.Props.C39_lammps",
    "Verif.Props.C39_ase"
   ],
   "note": "Single-process LAMMPS mode, with the neighbour selection at the moved positions; ASE calculator with the CPU evaluator, list of pairs fixed."
  },
  {
   "property": "C40",
   "status": "proved",
   "theorems": [
    "Verif.Props.C40_lammps",
    "Verif.Props.C40_ase"
   ],
   "note": "Single-process LAMMPS mode; ASE calculator with the CPU evaluator; full_3x3_to_voigt_6_stress by its documented contract."
  },
  {
   "property": "C41",
   "status": "proved",
   "theorems": [
    "Verif.Props.C41_forward"
   ],
   "note": "CPU pair style."
  },
  {
   "property": "C42",
   "status": "proved",
   "theorems": [
    "Verif.Props.C42_reverse",
    "Verif.Props.C42_transpose"
   ],
   "note": "CPU pair style."
  },
  {
   "property": "C43",
   "status": "partial",
   "theorems": [
    "Verif.Props.C43_mpi_partial",
    "Verif.Props.C43_violated"
   ],
   "note": "Violated when ilist is not in natural order (features sorted by atom, read by list position). Proved for natural order, all divisions and communication plans: energies, per-atom energies, forces, virial."
  },
  {
   "property": "C44",
   "status": "proved",
   "theorems": [
    "Verif.Props.C44_no_mpi"
   ],
   "note": "Forces and virial with nonzero scales; atoms, lists, identities of ghosts are inputs of the model."
  },
  {
   "property": "C45",
   "status": "partial",
   "theorems": [
    "Verif.Props.C45_eatom_partial",
    "Verif.Props.C45_violated"
   ],
   "note": "Violated: eatom is indexed by list position, not by atom; correct for lists in natural order."
  },
  {
   "property": "C46",
   "status": "partial",
   "theorems": [
    "Verif.Props.C46_energies_partial",
    "Verif.Props.C46_violated"
   ],
   "note": "Violated: num_nodes = max(i_list)+1 drops isolated atoms at the end, and an empty list raises an exception. Proved: exactly which energies are reported and what is missing; right if the last atom has a neighbour."
  },
  {
   "property": "C47",
   "status": "proved",
   "theorems": [
    "Verif.Props.C47_graph"
   ],
   "note": ""
  },
  {
   "property": "C48",
   "status": "proved",
   "theorems": [
    "Verif.Props.C48_race_free",
    "Verif.Props.C48_every_interleaving",
    "Verif.Props.C48_reduction",
    "Verif.Props.C48_schedule_independent",
    "Verif.Props.C48_first_neigh",
    "Verif.Props.C48_i_list",
    "Verif.Props.C48_lost_update",
    "Verif.Props.C63_reverse"
   ],
   "note": "Sums in the idealised arithmetic. Sequentially consistent interleavings; C48_lost_update shows that the semantics distinguishes atomic from plain additions."
  },
  {
   "property": "C49",
   "status": "proved",
   "theorems": [
    "Verif.Props.C49_first_layer"
   ],
   "note": ""
  },
  {
   "property": "C50",
   "status": "proved",
   "theorems": [
    "Verif.Props.C50_tables",
    "Verif.Props.C50_second_layer"
   ],
   "note": ""
  },
  {
   "property": "C51",
   "status": "proved",
   "theorems": [
    "Verif.Props.C51_grow_only_buffers"
   ],
   "note": ""
  },
  {
   "property": "C52",
   "status": "proved",
   "theorems": [
    "Verif.Props.C52_harmonics_gradient"
   ],
   "note": ""
  },
  {
   "property": "C53",
   "status": "partial",
   "theorems": [
    "Verif.Props.C53_angles_partial",
    "Verif.Props.C53_violated"
   ],
   "note": "Violated for y = 0, x < 0 (azimuth 0 instead of pi); correct for every other direction off the z axis."
  },
  {
   "property": "C54",
   "status": "partial",
   "theorems": [
    "Verif.Props.C54_covers_partial",
    "Verif.Props.C54_violated"
   ],
   "note": "Violated: the table step is (r_cut-1e-12)/(n-1), so the table ends 1e-12 below the cutoff."
  },
  {
   "property": "C55",
   "status": "proved",
   "theorems": [
    "Verif.Props.C55_roundtrip1",
    "Verif.Props.C55_roundtrip2",
    "Verif.Props.C55_roundtrip3",
    "Verif.Props.C55_roundtrip_back",
    "Verif.Props.C55_set_view"
   ],
   "note": "Host and device memory are one memory in the model."
  },
  {
   "property": "C56",
   "status": "proved",
   "theorems": [
    "Verif.Props.C56_rotation_invariance",
    "Verif.Props.C56_rotation_invariance_kokkos"
   ],
   "note": "The transformation of the external harmonics and the relations between the weights are hypotheses; an example file meets them for every orthogonal matrix."
  },
  {
   "property": "C57",
   "status": "partial",
   "theorems": [
    "Verif.Props.C57_violated",
    "Verif.Props.C57_batch_after_empty_partial"
   ],
   "note": "violated by the code: the buffers are resized to zero; later batches are still correct"
  },
  {
   "property": "C58",
   "status": "proved",
   "theorems": [
    "Verif.Props.C58_isolated"
   ],
   "note": ""
  },
  {
   "property": "C59",
   "status": "proved",
   "theorems": [
    "Verif.Props.C59_conjugation"
   ],
   "note": ""
  },
  {
   "property": "C60",
   "status": "proved",
   "theorems": [
    "Verif.Props.C60_real_complex",
    "Verif.Props.C60_batch"
   ],
   "note": ""
  },
  {
   "property": "C61",
   "status": "partial",
   "theorems": [
    "Verif.Props.C61_nodes_partial",
    "Verif.Props.C61_violated"
   ],
   "note": "Violated: values are shifted by 1e-12 (the table starts at 1e-12, the evaluator assumes 0)."
  },
  {
   "property": "C62",
   "status": "proved",
   "theorems": [
    "Verif.Props.C62_kokkos_equals_cpu"
   ],
   "note": "Model files that MACEKokkos can load (FileOkK: monomials with at most three factors, splines of one length)."
  },
  {
   "property": "C63",
   "status": "proved",
   "theorems": [
    "Verif.Props.C63_forward",
    "Verif.Props.C63_reverse",
    "Verif.Props.C63_host",
    "Verif.Props.C63_host_separate"
   ],
   "note": "The failure of the host versions with separate memories is part of the statement (C63_host_separate)."
  },
  {
   "property": "C64",
   "status": "proved",
   "theorems": [
    "Verif.Props.C64_pair_equals_cpu"
   ],
   "note": "Lists in natural order (see C67). LAMMPS' atoms, list and map are inputs; per-atom energies are added, not assigned (see C66)."
  },
  {
   "property": "C65",
   "status": "proved",
   "theorems": [
    "Verif.Props.C65_pair_forces"
   ],
   "note": "Lists in natural order, off the cutoff, nonzero scales."
  },
  {
   "property": "C66",
   "status": "partial",
   "theorems": [
    "Verif.Props.C66_eatom_partial",
    "Verif.Props.C66_violated"
   ],
   "note": "Violated: with ev_init(eflag,vflag,0) LAMMPS does not zero eatom and the style re-creates the storage only when it is too small, so d_eatom(ii) += accumulates over calls. Proved: the content after a call is the old content plus the energies."
  },
  {
   "property": "C67",
   "status": "partial",
   "theorems": [
    "Verif.Props.C67_graph_partial",
    "Verif.Props.C67_violated"
   ],
   "note": "Violated: neighbours are numbered by local index, nodes by list position. Proved: the graph handed over for any order, and its correctness in natural order."
  },
  {
   "property": "C68",
   "status": "proved",
   "theorems": [
    "Verif.Props.C68_no_mpi_equals_cpu"
   ],
   "note": "Any list order. Per-atom energies are added, not assigned (see C66). Out-of-range bits of Kokkos::Bitset are modelled as failures."
  },
  {
   "property": "C69",
   "status": "proved",
   "theorems": [
    "Verif.Props.C69_no_mpi_division"
   ],
   "note": "Forces and virial with nonzero scales, as C44."
  },
  {
   "property": "C70",
   "status": "proved",
   "theorems": [
    "Verif.Props.C70_mpi_equals_cpu"
   ],
   "note": "Lists in natural order. Per-atom energies are added, not assigned (see C66)."
  },
  {
   "property": "C71",
   "status": "partial",
   "theorems": [
    "Verif.Props.C71_mpi_division_partial",
    "Verif.Props.C71_violated"
   ],
   "note": "Missing: lists in another order; violated there already at the first call (self-connections and readouts use the features of another atom, as in the CPU style, C43)."
  },
  {
   "property": "C72",
   "status": "partial",
   "theorems": [
    "Verif.Props.C72_sort_partial",
    "Verif.Props.C72_shared",
    "Verif.Props.C72_sort_violated"
   ],
   "note": "Proved for any order when the views are different and in natural order when they are one. After the first call they are one (mace->H1 = H1) until one is reallocated; for other orders the kernel then has a race and loses features."
  },
  {
   "property": "C73",
   "status": "partial",
   "theorems": [
    "Verif.Props.C73_graph_partial",
    "Verif.Props.C73_violated"
   ],
   "note": "Memory accessible from the host, at least one term (or no variable). Violated otherwise: the zero polynomial's constructor writes into rows without entries; with separate memories the host loops over the edges access device memory."
  },
  {
   "property": "C74",
   "status": "partial",
   "theorems": [
    "Verif.Props.C74_simple_partial",
    "Verif.Props.C74_violated"
   ],
   "note": "Memory accessible from the host. Violated for separate memories: the padding -1 is not in the mirror that is copied back."
  },
  {
   "property": "C75",
   "status": "partial",
   "theorems": [
    "Verif.Props.C75_gradient_simple_partial",
    "Verif.Props.C75_violated"
   ],
   "note": "Value in every schedule; gradient for threads one after the other, or monomials without common variables. Violated otherwise: additions without atomicity, a legal schedule loses one."
  },
  {
   "property": "C76",
   "status": "proved",
   "theorems": [
    "Verif.Props.C76_kokkos_calculator",
    "Verif.Props.C76_forces"
   ],
   "note": "Double precision. Stress: equal to that of the CPU calculator, for which C40 is proved."
  },
  {
   "property": "C77",
   "status": "partial",
   "theorems": [
    "Verif.Props.C77_energies_partial",
    "Verif.Props.C77_violated"
   ],
   "note": "The energies followed by zeros up to the size of the largest earlier structure; right if no earlier structure had more nodes. Violated for a smaller structure after a larger one: the array is too long."
  },
  {
   "property": "C78",
   "status": "proved",
   "theorems": [
    "Verif.Props.C78_file_shape"
   ],
   "note": "PyTorch model as a record of weights fulfilling TorchOk; single head; correlation 3."
  },
  {
   "property": "C79",
   "status": "proved",
   "theorems": [
    "Verif.Props.C79_network",
    "Verif.Props.C79_evaluators"
   ],
   "note": "Reference network: the documented formulas of mace-torch/e3nn (Spec/Torch.lean); derivatives of scipy's spline and numpy's inverse are parameters (contract InvOk)."
  },
  {
   "property": "C80",
   "status": "partial",
   "theorems": [
    "Verif.Props.C80_pair_tables_partial",
    "Verif.Props.C80_violated",
    "Verif.Props.C80_violated_witness"
   ],
   "note": "Right for distinct elements. Violated if an element is requested twice: too many tables, later pairs read the table of another pair."
  },
  {
   "property": "C81",
   "status": "proved",
   "theorems": [
    "Verif.Props.C81_contractions"
   ],
   "note": "Entries of the coupling tensors zero or above 1e-12."
  },
  {
   "property": "C82",
   "status": "proved",
   "theorems": [
    "Verif.Props.C82_tensor_product"
   ],
   "note": "Tensor product by its formula with coefficients zero or above 1e-12, paths sorted by output."
  },
  {
   "property": "C83",
   "status": "partial",
   "theorems": [
    "Verif.Props.C83_spline_class_partial",
    "Verif.Props.C83_violated"
   ],
   "note": "Proved for shared memory. Violated with separate memories: the mirror of the coefficients is never filled."
  },
  {
   "property": "C84",
   "status": "proved",
   "theorems": [
    "Verif.Props.C84_spline_set_class"
   ],
   "note": "Constructor from vectors; span overloads in shared memory."
  },
  {
   "property": "C85",
   "status": "partial",
   "theorems": [
    "Verif.Props.C85_mlp_class_partial",
    "Verif.Props.C85_violated"
   ],
   "note": "Proved for shared memory. Violated with separate memories: evaluate calls SerialGemv on the host with device views."
  },
  {
   "property": "C86",
   "status": "partial",
   "theorems": [
    "Verif.Props.C86_arguments_partial",
    "Verif.Props.C86_violated",
    "Verif.Props.C86_exact",
    "Verif.Props.C86_lost_output"
   ],
   "note": "Right for C-contiguous arrays of the right element type, and exactly for those."
  },
  {
   "property": "C87",
   "status": "proved",
   "theorems": [
    "Verif.Props.C87_symmetric_virial",
    "Verif.Props.C87_symmetric_virial_kokkos",
    "Verif.Props.C87_torque_ase",
    "Verif.Props.C87_stress_ase",
    "Verif.Props.C87_virial_lammps"
   ],
   "note": "Hypothesis: the equivariance conditions of C56 for every rotation; torque for systems without periodic images."
  },
  {
   "property": "C88",
   "status": "proved",
   "theorems": [
    "Verif.Props.C88_continuous",
    "Verif.Props.C88_forces",
    "Verif.Props.C88_virial"
   ],
   "note": "Single-process mode. Hypothesis on the file: tables end with value zero (and slope zero) exactly at the cutoff."
  },
  {
   "property": "C89",
   "status": "proved",
   "theorems": [
    "Verif.Props.C89_cpu",
    "Verif.Props.C89_kokkos",
    "Verif.Props.C89_keys",
    "Verif.Props.C89_script_to_evaluators"
   ],
   "note": "JSON values, not characters; numbers exact."
  },
  {
   "property": "C90",
   "status": "partial",
   "theorems": [
    "Verif.Props.C90_missing_keys_partial",
    "Verif.Props.C90_violated"
   ],
   "note": "Top-level keys are required. Violated for polynomial coefficients: std::map::operator[] supplies empty vectors, which the constructor reads out of bounds."
  },
  {
   "property": "C91",
   "status": "proved",
   "theorems": [
    "Verif.Props.C91_no_mpi",
    "Verif.Props.C91_mpi",
    "Verif.Props.C91_two_cutoffs_needed"
   ],
   "note": "What LAMMPS provides is stated geometrically: images within the communication cutoff of a local atom at the rebuild, complete neighbour lists."
  },
  {
   "property": "C92",
   "status": "partial",
   "theorems": [
    "Verif.Props.C92_init_one",
    "Verif.Props.C92_requests",
    "Verif.Props.C92_cutoff_partial",
    "Verif.Props.C92_run_partial",
    "Verif.Props.C92_violated"
   ],
   "note": "Violated: std::to_string rounds the cutoff to six decimals, possibly down; the check uses the neighbour cutoff of a previous pair style."
  },
  {
   "property": "C93",
   "status": "partial",
   "theorems": [
    "Verif.Props.C93_types_partial",
    "Verif.Props.C93_violated"
   ],
   "note": "Violated: the number of symbols is not compared with the number of types."
  },
  {
   "property": "C94",
   "status": "proved",
   "theorems": [
    "Verif.Props.C94_elements"
   ],
   "note": "As C79: PyTorch model as a record fulfilling TorchOk. Elements of each set distinct; the structures are described with the type numbers of each file."
  },
  {
   "property": "C95",
   "status": "proved",
   "theorems": [
    "Verif.Props.C95_spline_error",
    "Verif.Props.C95_slopes",
    "Verif.Props.C95_extracted"
   ],
   "note": "Exact arithmetic. scipy's CubicSpline is described by Spec/Slopes.lean (external library, not verified)."
  },
  {
   "property": "C96",
   "status": "proved",
   "theorems": [
    "Verif.Props.C96_energies",
    "Verif.Props.C96_forces"
   ],
   "note": "As C79: PyTorch model as a record fulfilling TorchOk; scipy's slopes as in C95; exact arithmetic. Edges inside the tables."
  },
  {
   "property": "C97",
   "status": "partial",
   "theorems": [
    "Verif.Props.C97_fits_partial",
    "Verif.Props.C97_overflow_nodes",
    "Verif.Props.C97_overflow_edges",
    "Verif.Props.C97_violated"
   ],
   "note": "No overflow when the listed products are below 2^31. Violated: the size of M1_grad contains num_channels twice, so 8192 atoms with 128 channels and l_max 3 overflow; likewise about 4.2 million pairs. Insides of BLAS, sphericart, polynomials, perceptron not included."
  },
  {
   "property": "C98",
   "status": "partial",
   "theorems": [
    "Verif.Props.C98_formats",
    "Verif.Props.C98_exact",
    "Verif.Props.C98_cubic_partial",
    "Verif.Props.C98_radial_partial",
    "Verif.Props.C98_violated"
   ],
   "note": "Accurate and inside the table for distances below its end by more than the relative rounding error. Violated next to the end: 1.0/0.1 rounds to 10 though 1 is below ten times the stored 0.1; CubicSpline throws, the unchecked classes read past the table. No fused multiply-add, overflow or underflow."
  },
  {
   "property": "C99",
   "status": "proved",
   "theorems": [
    "Verif.Props.C99_spellings",
    "Verif.Props.C99_accepted",
    "Verif.Props.C99_rejected",
    "Verif.Props.C99_command",
    "Verif.Props.C99_names"
   ],
   "note": "int and str entries, ASCII text of at most 4300 digits; ASE's table of symbols written out. Models with several heads (--head is not part of the default name) not included."
  },
  {
   "property": "C100",
   "status": "partial",
   "theorems": [
    "Verif.Props.C100_class",
    "Verif.Props.C100_conversion_partial",
    "Verif.Props.C100_violated"
   ],
   "note": "Violated: without species the conversion raises TypeError (no default value); the temporary file is read before it is flushed, so a JSON text that fits into the io buffer (8192) is missing. Behaviour of CPython's buffered writer is part of the model; texts above 2 GB excluded."
  },
  {
   "property": "C101",
   "status": "proved",
   "theorems": [
    "Verif.Props.C101_any_arithmetic"
   ],
   "note": "Number type and operations arbitrary (IEEE double with infinities and NaNs is an instance); index of a length = static_cast<int>(r/h) in that arithmetic, for which being inside the tables is the hypothesis. Inside of BLAS and sphericart not included; int does not overflow."
  },
  {
   "property": "C102",
   "status": "proved",
   "theorems": [
    "Verif.Props.C102_convergence",
    "Verif.Props.C102_rounded",
    "Verif.Props.C102_bits",
    "Verif.Props.C102_exact"
   ],
   "note": "Numbers are reals, operations approximate (relative and absolute error, nothing said above 1/delta; IEEE rounding with p bits and unlimited exponents is an instance). Harmonics external, continuous and approximated at the bond vectors. Normalisations not zero. No rate of convergence."
  },
  {
   "property": "C103",
   "status": "proved",
   "theorems": [
    "Verif.Props.C103_history",
    "Verif.Props.C103_calls"
   ],
   "note": "Arithmetic as in C101; equality of numbers of the type, i.e. bits for IEEE numbers. BLAS, libm and sphericart are functions of their operands (no run-to-run variation of the summation order). Serial class MACE."
  },
  {
   "property": "C104",
   "status": "proved",
   "theorems": [
    "Verif.Props.C104_buffers",
    "Verif.Props.C104_H2",
    "Verif.Props.C104_readouts",
    "Verif.Props.C104_A0",
    "Verif.Props.C104_A0_scaled",
    "Verif.Props.C104_Phi1",
    "Verif.Props.C104_A1_scaled"
   ],
   "note": "Exact arithmetic; harmonics external with their gradient; geometry strictly inside the tables; normalisations not zero. Buffer sizes as the stages leave them. Serial class MACE."
  },
  {
   "property": "C105",
   "status": "partial",
   "theorems": [
    "Verif.Props.C105_clears_partial",
    "Verif.Props.C105_violated"
   ],
   "note": "Violated for files without A1_scaled: the stage returns before clearing, and old forces stay. The library itself and the pair styles call it with zero_dxyz = false."
  },
  {
   "property": "C106",
   "status": "proved",
   "theorems": [
    "Verif.Props.C106_covering",
    "Verif.Props.C106_crystal"
   ],
   "note": "Exact arithmetic. That ASE delivers the list of all pairs within the cutoff, with vectors to the images, is a hypothesis (`Cell.Neighbours`; the symmetry of the list is derived from it). Last atom of each description with a neighbour (C46)."
  },
  {
   "property": "C107",
   "status": "proved",
   "theorems": [
    "Verif.Props.C107_evaluator",
    "Verif.Props.C107_power",
    "Verif.Props.C107_energy",
    "Verif.Props.C107_momentum"
   ],
   "note": "Exact arithmetic and exact solutions of the equations of motion; the time integrator of LAMMPS is not modelled. The list stays valid during the time considered. Files as in C88."
  },
  {
   "property": "C108",
   "status": "proved",
   "theorems": [
    "Verif.Props.C108_M0",
    "Verif.Props.C108_M1",
    "Verif.Props.C108_H1",
    "Verif.Props.C108_A1",
    "Verif.Props.C108_H2",
    "Verif.Props.C108_readouts",
    "Verif.Props.C108_A0",
    "Verif.Props.C108_A0_scaled",
    "Verif.Props.C108_A1_scaled",
    "Verif.Props.C108_Phi1"
   ],
   "note": "Exact arithmetic; views in one memory space. The reverse stage follows its forward stage (it reads the values that stage stored). compute_R0, compute_R1, compute_Y are part of the forward stage of A0 and Phi1. reverse_A1_scaled compared with zero_dxyz = false for MACE (see C109)."
  },
  {
   "property": "C109",
   "status": "partial",
   "theorems": [
    "Verif.Props.C109_default_call_partial",
    "Verif.Props.C109_only_if_zero",
    "Verif.Props.C109_violated"
   ],
   "note": "Violated: MACE clears the forces (zero_dxyz = true by default), MACEKokkos has no such flag and adds to them; for files with the normalisation the calls agree exactly for forces that are zero before. The library's own callers pass zero_dxyz = false."
  },
  {
   "property": "C110",
   "status": "partial",
   "theorems": [
    "Verif.Props.C110_fits_partial",
    "Verif.Props.C110_exact",
    "Verif.Props.C110_wider",
    "Verif.Props.C110_violated"
   ],
   "note": "Violated for large systems, exact bounds: 3 E (l_max+1)^2, N (l_max+1)^2, N (L_max+1)^2, N x coupling channels, N C below 2^31 (E pairs, N atoms, C channels). Every input within the bounds of MACE (C97) is within these."
  },
  {
   "property": "C111",
   "status": "partial",
   "theorems": [
    "Verif.Props.C111_cpu",
    "Verif.Props.C111_kokkos_reads",
    "Verif.Props.C111_kokkos_partial",
    "Verif.Props.C111_exact",
    "Verif.Props.C111_reads_results",
    "Verif.Props.C111_violated"
   ],
   "note": "Violated by MACEKokkos exactly for arrays that do not consist of complete rows: the setters divide the size by the width and drop the rest. MACE: proved."
  },
  {
   "property": "C112",
   "status": "partial",
   "theorems": [
    "Verif.Props.C112_cpu",
    "Verif.Props.C112_kokkos_partial",
    "Verif.Props.C112_fails",
    "Verif.Props.C112_violated"
   ],
   "note": "Violated by MACEKokkos: assigning R0 (or R1) resizes it but not the view of the derivatives; compute_R0 tests only R0 and then writes beyond the other view. All other assignments, and MACE: proved."
  },
  {
   "property": "C113",
   "status": "proved",
   "theorems": [
    "Verif.Props.C113_same",
    "Verif.Props.C113_energy",
    "Verif.Props.C113_momentum",
    "Verif.Props.C113_angular"
   ],
   "note": "Exact arithmetic. Energy: tables ending with value and slope zero at the cutoff (as C107); momentum and angular momentum: any tables. Neighbour list fixed between two rebuilds. In the mode with message passing, and for the Kokkos style in one process, lists in natural order (hypotheses of C43, C64, C71; violated otherwise, see there)."
  },
  {
   "property": "C114",
   "status": "proved",
   "theorems": [
    "Verif.Props.C114_relabelling",
    "Verif.Props.C114_locality",
    "Verif.Props.C114_separate_systems",
    "Verif.Props.C114_covering",
    "Verif.Props.C114_crystal"
   ],
   "note": "Exact arithmetic; views in one memory space; normalisations as the file states (zero allowed, x/0 = 0 as in C62). Neighbour order alone: relabelling with the identity. Calculator: hypotheses of C106."
  },
  {
   "property": "C115",
   "status": "partial",
   "theorems": [
    "Verif.Props.C115_coeff",
    "Verif.Props.C115_scripts_partial",
    "Verif.Props.C115_exact",
    "Verif.Props.C115_overrun",
    "Verif.Props.C115_violated",
    "Verif.Props.C115_rejected_violated"
   ],
   "note": "Violated: pair_style symmetrix/mace mpi_message_passing after pair_coeff leaves the message size zero, because only coeff sets it (C115_exact says when exactly); a rejected mode is stored and compute then does nothing. Scripts that end with pair_coeff: proved. What LAMMPS does with a repeated pair_style is an assumption, LAMMPS is not in the repository."
  },
  {
   "property": "C116",
   "status": "partial",
   "theorems": [
    "Verif.Props.C116_hybrid_partial",
    "Verif.Props.C116_violated"
   ],
   "note": "Violated: hybrid styles dimension the buffers before pair_coeff; the constructor announces 1024 (CPU) or nothing (Kokkos). Suffices exactly for models with at most 1024 numbers per atom, resp. what another style asks for. Order of calls in PairHybrid is an assumption."
  },
  {
   "property": "C117",
   "status": "proved",
   "theorems": [
    "Verif.Props.C117_memory"
   ],
   "note": "setflag, cutsq, eatom, k_eatom. Assumed of LAMMPS: ev_init, destroy_kokkos, destructor of Pair (see the model). Steps need a model that was loaded."
  },
  {
   "property": "C118",
   "status": "partial",
   "theorems": [
    "Verif.Props.C118_shared_partial",
    "Verif.Props.C118_host_zero",
    "Verif.Props.C118_shared_same",
    "Verif.Props.C118_violated"
   ],
   "note": "Violated with separate memories: the device array is marked modified but never synchronised, LAMMPS reads zeros always (C118_host_zero). With one memory the energies arrive (first call; later calls: C66)."
  },
  {
   "property": "C119",
   "status": "partial",
   "theorems": [
    "Verif.Props.C119_functor_partial",
    "Verif.Props.C119_fails",
    "Verif.Props.C119_violated"
   ],
   "note": "Violated: the constructor states two of the three extents of the coefficient view, in the wrong order, so the kernel writes out of range for every table. The functor itself is right on a view of the right extents."
  },
  {
   "property": "C120",
   "status": "partial",
   "theorems": [
    "Verif.Props.C120_single",
    "Verif.Props.C120_mpi_partial",
    "Verif.Props.C120_noMpi_partial",
    "Verif.Props.C120_noMpi_overflow",
    "Verif.Props.C120_noMpi_violated",
    "Verif.Props.C120_mpi_violated"
   ],
   "note": "Without domain decomposition the pair style overflows exactly when the evaluator does (C120_single, no bounds assumed). Violated with ghosts: they count in H1 (mpi_message_passing) and in M0_grad (no_mpi_message_passing). If the products of C97 fit, the exact further limits are proved. Inner BLAS and LAMMPS itself are left out."
  },
  {
   "property": "C121",
   "status": "partial",
   "theorems": [
    "Verif.Props.C121_single",
    "Verif.Props.C121_mpi",
    "Verif.Props.C121_noMpi",
    "Verif.Props.C121_noMpi_partial",
    "Verif.Props.C121_mpi_partial",
    "Verif.Props.C121_mpi_violated",
    "Verif.Props.C121_noMpi_violated"
   ],
   "note": "Exact limits in all three modes: without domain decomposition those of the evaluator (C121_single); with message passing also the number of atoms and the length of each message, but not ghosts times features (C121_mpi, nothing assumed to fit); with ghost nodes the first layer counts all nodes and pairs, the second only local ones (C121_noMpi). Violated by long messages and by the pairs of ghosts. The insides of Kokkos and LAMMPS are left out."
  },
  {
   "property": "C122",
   "status": "partial",
   "theorems": [
    "Verif.Props.C122_binomial",
    "Verif.Props.C122_binomial_outside",
    "Verif.Props.C122_sum_value",
    "Verif.Props.C122_sum_partial",
    "Verif.Props.C122_sum_nonneg",
    "Verif.Props.C122_orders",
    "Verif.Props.C122_sum_violated",
    "Verif.Props.C122_binomial_34"
   ],
   "note": "The binomial coefficient overflows exactly if its value is no int. Violated by _sum with mixed signs (C122_sum_violated: the sum fits, a partial sum does not); exact for numbers that are not negative (C122_sum_nonneg), and if the absolute values add up to less than 2^31 (C122_sum_partial)."
  },
  {
   "property": "C123",
   "status": "partial",
   "theorems": [
    "Verif.Props.C123_polynomial",
    "Verif.Props.C123_perceptron",
    "Verif.Props.C123_perceptron_partial",
    "Verif.Props.C123_perceptron_violated",
    "Verif.Props.C123_perceptron_kokkos",
    "Verif.Props.C123_spline",
    "Verif.Props.C123_spline_set",
    "Verif.Props.C123_sphericart"
   ],
   "note": "Exact limits of every class. Violated by MultilayerPerceptron: the constructor and the gradients multiply the number of outputs by itself for derivatives of the last layer that are never used (C123_perceptron_violated); with one output no further limit (C123_perceptron_partial). The constructor of MultivariatePolynomial is left out."
  },
  {
   "property": "C124",
   "status": "proved",
   "theorems": [
    "Verif.Props.C124_via_mirror",
    "Verif.Props.C124_to_view1",
    "Verif.Props.C124_to_view2",
    "Verif.Props.C124_to_view3",
    "Verif.Props.C124_to_vector",
    "Verif.Props.C124_set_view",
    "Verif.Props.C124_pad_table",
    "Verif.Props.C124_harmonics"
   ],
   "note": "Memories as numbered allocations with a space; host access to device memory is undefined. Results are those of the one-memory model (C55), with one memory and with two."
  },
  {
   "property": "C125",
   "status": "partial",
   "theorems": [
    "Verif.Props.C125_once_partial",
    "Verif.Props.C125_finalize",
    "Verif.Props.C125_init",
    "Verif.Props.C125_violated",
    "Verif.Props.C125_views"
   ],
   "note": "Without _finalize_kokkos (and _init_kokkos only after asking) the contract of Kokkos is kept (C125_once_partial). Violated after _finalize_kokkos: a new calculator starts Kokkos again, and evaluators may outlive it (C125_violated); exact conditions in C125_finalize and C125_init. The contract of Kokkos itself is assumed."
  },
  {
   "property": "C126",
   "status": "partial",
   "theorems": [
    "Verif.Props.C126_single_partial",
    "Verif.Props.C126_noMpi_partial",
    "Verif.Props.C126_mpi_partial",
    "Verif.Props.C126_equals_cpu_partial",
    "Verif.Props.C126_violated"
   ],
   "note": "Proved for kernels that can reach the arrays (default and /device, or one memory). Violated by /host in builds with a GPU and two memories: no call works (C126_violated). With MAP_HASH it is assumed that LAMMPS itself keeps the hash current, since the code synchronises only the array. Neighbour lists and message buffers are assumed current; k_eatom is C118."
  },
  {
   "property": "C127",
   "status": "proved",
   "theorems": [
    "Verif.Props.C127_forward",
    "Verif.Props.C127_reverse",
    "Verif.Props.C127_pack",
    "Verif.Props.C127_reverse_repeated",
    "Verif.Props.C127_host_forward",
    "Verif.Props.C127_host_reverse"
   ],
   "note": "Numbers are opaque; exact conversion (Exact) and innocuous double rounding (Innocuous, only for the comparison of host and device sums) are hypotheses, true for IEEE float and double apart from NaN payloads. Executions are orders of threads, each thread making one access. Host variants with separate memory: C63_host_separate."
  }
 ]
}