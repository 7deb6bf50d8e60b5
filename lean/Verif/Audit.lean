import Verif.Props.ASE
import Verif.Props.Attributes
import Verif.Props.Bindings
import Verif.Props.Conservation
import Verif.Props.Crystal
import Verif.Props.Cutoff
import Verif.Props.Domain
import Verif.Props.Elements
import Verif.Props.Extract
import Verif.Props.ExtractExample
import Verif.Props.ExtractMACE
import Verif.Props.Harmonics
import Verif.Props.IntIndex
import Verif.Props.Json
import Verif.Props.Kokkos
import Verif.Props.KokkosASE
import Verif.Props.KokkosDual
import Verif.Props.KokkosEatom
import Verif.Props.KokkosInt
import Verif.Props.KokkosMLP
import Verif.Props.KokkosPair
import Verif.Props.KokkosPairInts
import Verif.Props.KokkosPairMpi
import Verif.Props.KokkosPairNoMpi
import Verif.Props.KokkosPolynomial
import Verif.Props.KokkosPrec
import Verif.Props.KokkosRuntime
import Verif.Props.KokkosSame
import Verif.Props.KokkosSched
import Verif.Props.KokkosSpaces
import Verif.Props.KokkosSplines
import Verif.Props.KokkosStages
import Verif.Props.KokkosTools
import Verif.Props.Lammps
import Verif.Props.LammpsForces
import Verif.Props.LammpsInit
import Verif.Props.LammpsInts
import Verif.Props.LammpsLife
import Verif.Props.LammpsMpi
import Verif.Props.LammpsNoMpi
import Verif.Props.Limit
import Verif.Props.LimitForces
import Verif.Props.MACE
import Verif.Props.MACEExample
import Verif.Props.MLP
import Verif.Props.Motion
import Verif.Props.Num
import Verif.Props.NumHistory
import Verif.Props.NumLimit
import Verif.Props.PartsInt
import Verif.Props.Polynomial
import Verif.Props.Rotation
import Verif.Props.Rounding
import Verif.Props.Species
import Verif.Props.Spline
import Verif.Props.SplineError
import Verif.Props.SplineSetViews
import Verif.Props.Stages
import Verif.Props.Tools
import Verif.Props.ToolsInt
import Verif.Props.Torque
import Verif.Props.ZBL

/-! Axioms of every property theorem (printed during the build). -/

#print axioms Verif.Props.C01_forces_are_minus_gradient
#print axioms Verif.Props.C02_no_invalid_access
#print axioms Verif.Props.C03_history_independent
#print axioms Verif.Props.C04_node_energies
#print axioms Verif.Props.C05_neighbour_order
#print axioms Verif.Props.C06_relabelling
#print axioms Verif.Props.C07_locality
#print axioms Verif.Props.C07_separate_systems
#print axioms Verif.Props.C08_interpolates
#print axioms Verif.Props.C08_constructs
#print axioms Verif.Props.C08_right_end
#print axioms Verif.Props.C09_derivative
#print axioms Verif.Props.C10_bounds_partial
#print axioms Verif.Props.C10_violated_negative_r
#print axioms Verif.Props.C11_reproduces_cubics
#print axioms Verif.Props.C12_set_equals_members
#print axioms Verif.Props.C13_kokkos_bounds_partial
#print axioms Verif.Props.C13_violated
#print axioms Verif.Props.C14_formula
#print axioms Verif.Props.C14_gradient
#print axioms Verif.Props.C15_symmetric
#print axioms Verif.Props.C15_compact_support
#print axioms Verif.Props.C16_envelope
#print axioms Verif.Props.C17_repulsive
#print axioms Verif.Props.C18_accumulates
#print axioms Verif.Props.C19_value
#print axioms Verif.Props.C20_gradient
#print axioms Verif.Props.C21_batch
#print axioms Verif.Props.C22_simple_agrees_partial
#print axioms Verif.Props.C22_violated
#print axioms Verif.Props.C23_graph
#print axioms Verif.Props.C24_value
#print axioms Verif.Props.C25_jacobian
#print axioms Verif.Props.C26_batch
#print axioms Verif.Props.C27_no_memory_partial
#print axioms Verif.Props.C27_violated
#print axioms Verif.Props.C28_binomial
#print axioms Verif.Props.C29_partitions
#print axioms Verif.Props.C29_partitions_nil
#print axioms Verif.Props.C30_two_part_partitions
#print axioms Verif.Props.C31_permutations
#print axioms Verif.Props.C32_combinations
#print axioms Verif.Props.C33_product
#print axioms Verif.Props.C33_product_repeat
#print axioms Verif.Props.C33_generate_indices
#print axioms Verif.Props.C34_pair_index
#print axioms Verif.Props.C35_settings
#print axioms Verif.Props.C35_never_single
#print axioms Verif.Props.C36_pair_coeff
#print axioms Verif.Props.C36_elements
#print axioms Verif.Props.C36_kokkos_partial
#print axioms Verif.Props.C36_kokkos_violated
#print axioms Verif.Props.C37_bonds
#print axioms Verif.Props.C37_single
#print axioms Verif.Props.C37_mpi
#print axioms Verif.Props.C37_no_mpi
#print axioms Verif.Props.C38_lammps
#print axioms Verif.Props.C38_ase
#print axioms Verif.Props.C39_lammps
#print axioms Verif.Props.C39_ase
#print axioms Verif.Props.C40_lammps
#print axioms Verif.Props.C40_ase
#print axioms Verif.Props.C41_forward
#print axioms Verif.Props.C42_reverse
#print axioms Verif.Props.C42_transpose
#print axioms Verif.Props.C43_mpi_partial
#print axioms Verif.Props.C43_violated
#print axioms Verif.Props.C44_no_mpi
#print axioms Verif.Props.C45_eatom_partial
#print axioms Verif.Props.C45_violated
#print axioms Verif.Props.C46_energies_partial
#print axioms Verif.Props.C46_violated
#print axioms Verif.Props.C47_graph
#print axioms Verif.Props.C48_race_free
#print axioms Verif.Props.C48_every_interleaving
#print axioms Verif.Props.C48_reduction
#print axioms Verif.Props.C48_schedule_independent
#print axioms Verif.Props.C48_first_neigh
#print axioms Verif.Props.C48_i_list
#print axioms Verif.Props.C48_lost_update
#print axioms Verif.Props.C63_reverse
#print axioms Verif.Props.C49_first_layer
#print axioms Verif.Props.C50_tables
#print axioms Verif.Props.C50_second_layer
#print axioms Verif.Props.C51_grow_only_buffers
#print axioms Verif.Props.C52_harmonics_gradient
#print axioms Verif.Props.C53_angles_partial
#print axioms Verif.Props.C53_violated
#print axioms Verif.Props.C54_covers_partial
#print axioms Verif.Props.C54_violated
#print axioms Verif.Props.C55_roundtrip1
#print axioms Verif.Props.C55_roundtrip2
#print axioms Verif.Props.C55_roundtrip3
#print axioms Verif.Props.C55_roundtrip_back
#print axioms Verif.Props.C55_set_view
#print axioms Verif.Props.C56_rotation_invariance
#print axioms Verif.Props.C56_rotation_invariance_kokkos
#print axioms Verif.Props.C57_violated
#print axioms Verif.Props.C57_batch_after_empty_partial
#print axioms Verif.Props.C58_isolated
#print axioms Verif.Props.C59_conjugation
#print axioms Verif.Props.C60_real_complex
#print axioms Verif.Props.C60_batch
#print axioms Verif.Props.C61_nodes_partial
#print axioms Verif.Props.C61_violated
#print axioms Verif.Props.C62_kokkos_equals_cpu
#print axioms Verif.Props.C63_forward
#print axioms Verif.Props.C63_reverse
#print axioms Verif.Props.C63_host
#print axioms Verif.Props.C63_host_separate
#print axioms Verif.Props.C64_pair_equals_cpu
#print axioms Verif.Props.C65_pair_forces
#print axioms Verif.Props.C66_eatom_partial
#print axioms Verif.Props.C66_violated
#print axioms Verif.Props.C67_graph_partial
#print axioms Verif.Props.C67_violated
#print axioms Verif.Props.C68_no_mpi_equals_cpu
#print axioms Verif.Props.C69_no_mpi_division
#print axioms Verif.Props.C70_mpi_equals_cpu
#print axioms Verif.Props.C71_mpi_division_partial
#print axioms Verif.Props.C71_violated
#print axioms Verif.Props.C72_sort_partial
#print axioms Verif.Props.C72_shared
#print axioms Verif.Props.C72_sort_violated
#print axioms Verif.Props.C73_graph_partial
#print axioms Verif.Props.C73_violated
#print axioms Verif.Props.C74_simple_partial
#print axioms Verif.Props.C74_violated
#print axioms Verif.Props.C75_gradient_simple_partial
#print axioms Verif.Props.C75_violated
#print axioms Verif.Props.C76_kokkos_calculator
#print axioms Verif.Props.C76_forces
#print axioms Verif.Props.C77_energies_partial
#print axioms Verif.Props.C77_violated
#print axioms Verif.Props.C78_file_shape
#print axioms Verif.Props.C79_network
#print axioms Verif.Props.C79_evaluators
#print axioms Verif.Props.C80_pair_tables_partial
#print axioms Verif.Props.C80_violated
#print axioms Verif.Props.C80_violated_witness
#print axioms Verif.Props.C81_contractions
#print axioms Verif.Props.C82_tensor_product
#print axioms Verif.Props.C83_spline_class_partial
#print axioms Verif.Props.C83_violated
#print axioms Verif.Props.C84_spline_set_class
#print axioms Verif.Props.C85_mlp_class_partial
#print axioms Verif.Props.C85_violated
#print axioms Verif.Props.C86_arguments_partial
#print axioms Verif.Props.C86_violated
#print axioms Verif.Props.C86_exact
#print axioms Verif.Props.C86_lost_output
#print axioms Verif.Props.C87_symmetric_virial
#print axioms Verif.Props.C87_symmetric_virial_kokkos
#print axioms Verif.Props.C87_torque_ase
#print axioms Verif.Props.C87_stress_ase
#print axioms Verif.Props.C87_virial_lammps
#print axioms Verif.Props.C88_continuous
#print axioms Verif.Props.C88_forces
#print axioms Verif.Props.C88_virial
#print axioms Verif.Props.C89_cpu
#print axioms Verif.Props.C89_kokkos
#print axioms Verif.Props.C89_keys
#print axioms Verif.Props.C89_script_to_evaluators
#print axioms Verif.Props.C90_missing_keys_partial
#print axioms Verif.Props.C90_violated
#print axioms Verif.Props.C91_no_mpi
#print axioms Verif.Props.C91_mpi
#print axioms Verif.Props.C91_two_cutoffs_needed
#print axioms Verif.Props.C92_init_one
#print axioms Verif.Props.C92_requests
#print axioms Verif.Props.C92_cutoff_partial
#print axioms Verif.Props.C92_run_partial
#print axioms Verif.Props.C92_violated
#print axioms Verif.Props.C93_types_partial
#print axioms Verif.Props.C93_violated
#print axioms Verif.Props.C94_elements
#print axioms Verif.Props.C95_spline_error
#print axioms Verif.Props.C95_slopes
#print axioms Verif.Props.C95_extracted
#print axioms Verif.Props.C96_energies
#print axioms Verif.Props.C96_forces
#print axioms Verif.Props.C97_fits_partial
#print axioms Verif.Props.C97_overflow_nodes
#print axioms Verif.Props.C97_overflow_edges
#print axioms Verif.Props.C97_violated
#print axioms Verif.Props.C98_formats
#print axioms Verif.Props.C98_exact
#print axioms Verif.Props.C98_cubic_partial
#print axioms Verif.Props.C98_radial_partial
#print axioms Verif.Props.C98_violated
#print axioms Verif.Props.C99_spellings
#print axioms Verif.Props.C99_accepted
#print axioms Verif.Props.C99_rejected
#print axioms Verif.Props.C99_command
#print axioms Verif.Props.C99_names
#print axioms Verif.Props.C100_class
#print axioms Verif.Props.C100_conversion_partial
#print axioms Verif.Props.C100_violated
#print axioms Verif.Props.C101_any_arithmetic
#print axioms Verif.Props.C102_convergence
#print axioms Verif.Props.C102_rounded
#print axioms Verif.Props.C102_bits
#print axioms Verif.Props.C102_exact
#print axioms Verif.Props.C103_history
#print axioms Verif.Props.C103_calls
#print axioms Verif.Props.C104_buffers
#print axioms Verif.Props.C104_H2
#print axioms Verif.Props.C104_readouts
#print axioms Verif.Props.C104_A0
#print axioms Verif.Props.C104_A0_scaled
#print axioms Verif.Props.C104_Phi1
#print axioms Verif.Props.C104_A1_scaled
#print axioms Verif.Props.C105_clears_partial
#print axioms Verif.Props.C105_violated
#print axioms Verif.Props.C106_covering
#print axioms Verif.Props.C106_crystal
#print axioms Verif.Props.C107_evaluator
#print axioms Verif.Props.C107_power
#print axioms Verif.Props.C107_energy
#print axioms Verif.Props.C107_momentum
#print axioms Verif.Props.C108_M0
#print axioms Verif.Props.C108_M1
#print axioms Verif.Props.C108_H1
#print axioms Verif.Props.C108_A1
#print axioms Verif.Props.C108_H2
#print axioms Verif.Props.C108_readouts
#print axioms Verif.Props.C108_A0
#print axioms Verif.Props.C108_A0_scaled
#print axioms Verif.Props.C108_A1_scaled
#print axioms Verif.Props.C108_Phi1
#print axioms Verif.Props.C109_default_call_partial
#print axioms Verif.Props.C109_only_if_zero
#print axioms Verif.Props.C109_violated
#print axioms Verif.Props.C110_fits_partial
#print axioms Verif.Props.C110_exact
#print axioms Verif.Props.C110_wider
#print axioms Verif.Props.C110_violated
#print axioms Verif.Props.C111_cpu
#print axioms Verif.Props.C111_kokkos_reads
#print axioms Verif.Props.C111_kokkos_partial
#print axioms Verif.Props.C111_exact
#print axioms Verif.Props.C111_reads_results
#print axioms Verif.Props.C111_violated
#print axioms Verif.Props.C112_cpu
#print axioms Verif.Props.C112_kokkos_partial
#print axioms Verif.Props.C112_fails
#print axioms Verif.Props.C112_violated
#print axioms Verif.Props.C113_same
#print axioms Verif.Props.C113_energy
#print axioms Verif.Props.C113_momentum
#print axioms Verif.Props.C113_angular
#print axioms Verif.Props.C114_relabelling
#print axioms Verif.Props.C114_locality
#print axioms Verif.Props.C114_separate_systems
#print axioms Verif.Props.C114_covering
#print axioms Verif.Props.C114_crystal
#print axioms Verif.Props.C115_coeff
#print axioms Verif.Props.C115_scripts_partial
#print axioms Verif.Props.C115_exact
#print axioms Verif.Props.C115_overrun
#print axioms Verif.Props.C115_violated
#print axioms Verif.Props.C115_rejected_violated
#print axioms Verif.Props.C116_hybrid_partial
#print axioms Verif.Props.C116_violated
#print axioms Verif.Props.C117_memory
#print axioms Verif.Props.C118_shared_partial
#print axioms Verif.Props.C118_host_zero
#print axioms Verif.Props.C118_shared_same
#print axioms Verif.Props.C118_violated
#print axioms Verif.Props.C119_functor_partial
#print axioms Verif.Props.C119_fails
#print axioms Verif.Props.C119_violated
#print axioms Verif.Props.C120_single
#print axioms Verif.Props.C120_mpi_partial
#print axioms Verif.Props.C120_noMpi_partial
#print axioms Verif.Props.C120_noMpi_overflow
#print axioms Verif.Props.C120_noMpi_violated
#print axioms Verif.Props.C120_mpi_violated
#print axioms Verif.Props.C121_single
#print axioms Verif.Props.C121_mpi
#print axioms Verif.Props.C121_noMpi
#print axioms Verif.Props.C121_noMpi_partial
#print axioms Verif.Props.C121_mpi_partial
#print axioms Verif.Props.C121_mpi_violated
#print axioms Verif.Props.C121_noMpi_violated
#print axioms Verif.Props.C122_binomial
#print axioms Verif.Props.C122_binomial_outside
#print axioms Verif.Props.C122_sum_value
#print axioms Verif.Props.C122_sum_partial
#print axioms Verif.Props.C122_sum_nonneg
#print axioms Verif.Props.C122_orders
#print axioms Verif.Props.C122_sum_violated
#print axioms Verif.Props.C122_binomial_34
#print axioms Verif.Props.C123_polynomial
#print axioms Verif.Props.C123_perceptron
#print axioms Verif.Props.C123_perceptron_partial
#print axioms Verif.Props.C123_perceptron_violated
#print axioms Verif.Props.C123_perceptron_kokkos
#print axioms Verif.Props.C123_spline
#print axioms Verif.Props.C123_spline_set
#print axioms Verif.Props.C123_sphericart
#print axioms Verif.Props.C124_via_mirror
#print axioms Verif.Props.C124_to_view1
#print axioms Verif.Props.C124_to_view2
#print axioms Verif.Props.C124_to_view3
#print axioms Verif.Props.C124_to_vector
#print axioms Verif.Props.C124_set_view
#print axioms Verif.Props.C124_pad_table
#print axioms Verif.Props.C124_harmonics
#print axioms Verif.Props.C125_once_partial
#print axioms Verif.Props.C125_finalize
#print axioms Verif.Props.C125_init
#print axioms Verif.Props.C125_violated
#print axioms Verif.Props.C125_views
#print axioms Verif.Props.C126_single_partial
#print axioms Verif.Props.C126_noMpi_partial
#print axioms Verif.Props.C126_mpi_partial
#print axioms Verif.Props.C126_equals_cpu_partial
#print axioms Verif.Props.C126_violated
#print axioms Verif.Props.C127_forward
#print axioms Verif.Props.C127_reverse
#print axioms Verif.Props.C127_pack
#print axioms Verif.Props.C127_reverse_repeated
#print axioms Verif.Props.C127_host_forward
#print axioms Verif.Props.C127_host_reverse
