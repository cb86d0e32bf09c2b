{
 "claims": [
  {
   "property": "C01",
   "status": "proved",
   "theorems": [
    "Verif.Props.C01_index_bijective",
    "Verif.Props.C01_strides"
   ],
   "note": "Bijection and strides for every size."
  },
  {
   "property": "C02",
   "status": "partial",
   "theorems": [
    "Verif.Props.C02_copyInternalCells_partial",
    "Verif.Props.C02_short_buffer_is_overrun"
   ],
   "note": "Proved when the destination holds at least as many values as there are interior cells; the code does not check this, and the overrun is exhibited."
  },
  {
   "property": "C03",
   "status": "partial",
   "theorems": [
    "Verif.Props.C03_linear_combination",
    "Verif.Props.C03_linear_combination_mismatch",
    "Verif.Props.C03_add_partial",
    "Verif.Props.C03_add_no_size_check",
    "Verif.Props.C03_sub_mul_div",
    "Verif.Props.C03_scalar",
    "Verif.Props.C03_power",
    "Verif.Props.C03_volume_partial"
   ],
   "note": "All operations proved with their size check, except += which has none (mismatch reads out of bounds, exhibited)."
  },
  {
   "property": "C04",
   "status": "partial",
   "theorems": [
    "Verif.Props.C04_setVolume_partial",
    "Verif.Props.C04_ghost_widths_differ"
   ],
   "note": "Equal ghost widths only; with different widths the copy reads out of bounds or shifts (exhibited)."
  },
  {
   "property": "C05",
   "status": "partial",
   "theorems": [
    "Verif.Props.C05_setVolume_coarse_partial",
    "Verif.Props.C05_3d_constant_halved",
    "Verif.Props.C05_ghosts_misaligned"
   ],
   "note": "1D and 2D interior averages when the target's ghost width is twice the source's; the 3D average divides by 16 (exhibited) and equal ghost widths are misaligned (exhibited)."
  },
  {
   "property": "C06",
   "status": "proved",
   "theorems": [
    "Verif.Props.C06_total_variation",
    "Verif.Props.C06_total_variation_direction"
   ],
   "note": "Isotropic (1D/2D, 3D refused) and directional total variation."
  },
  {
   "property": "C07",
   "status": "proved",
   "theorems": [
    "Verif.Props.C07_periodic",
    "Verif.Props.C07_message_passing_sides_untouched"
   ],
   "note": "Any ghost width, including edges and corners; sides owned by message passing are left alone."
  },
  {
   "property": "C08",
   "status": "proved",
   "theorems": [
    "Verif.Props.C08_neumann",
    "Verif.Props.C08_wide_ghost_layer_takes_stale_value"
   ],
   "note": "Ghost width up to the interior size, as in the quantifier; a wider layer takes a stale value (exhibited)."
  },
  {
   "property": "C09",
   "status": "proved",
   "theorems": [
    "Verif.Props.C09_value_at_boundary"
   ],
   "note": "Both lookups."
  },
  {
   "property": "C10",
   "status": "proved",
   "theorems": [
    "Verif.Props.C10_balance",
    "Verif.Props.C10_conservation",
    "Verif.Props.C10_conservation_after_periodic_boundary",
    "Verif.Props.C10_line_reconstructions_fit"
   ],
   "note": "Balance for arbitrary ghost data, zero for periodic ghost data, and the composition with the periodic boundary condition."
  },
  {
   "property": "C11",
   "status": "proved",
   "theorems": [
    "Verif.Props.C11_split_equals_whole",
    "Verif.Props.C11_small_subdomain_overruns"
   ],
   "note": "Needs at least as many interior cells as ghost cells per active direction; the overrun below that is exhibited."
  },
  {
   "property": "C12",
   "status": "partial",
   "theorems": [
    "Verif.Props.C12_inner_phase_reads_no_ghost_cell",
    "Verif.Props.C12_inner_phase_value_independent_partial",
    "Verif.Props.C12_none_and_weno_read_ghost_cells"
   ],
   "note": "ENO and the limiter reconstructions read no ghost cell in the inner phase. For none/WENO the resulting values are independent of a fixed ghost content, but the reads race with the exchange (exhibited)."
  },
  {
   "property": "C13",
   "status": "partial",
   "theorems": [
    "Verif.Props.C13_euler_consistency_partial",
    "Verif.Props.C13_euler_hll_inconsistent_at_sonic_states",
    "Verif.Props.C13_scalar_consistency_partial",
    "Verif.Props.C13_linear_roe_inconsistent"
   ],
   "note": "Scalar: all but linear 'roe' (witness). Euler: all but hll/hll3 at exactly sonic states (witness)."
  },
  {
   "property": "C14",
   "status": "proved",
   "theorems": [
    "Verif.Props.C14_uniform_state_is_steady"
   ],
   "note": "Every flux, reconstruction and grid."
  },
  {
   "property": "C15",
   "status": "proved",
   "theorems": [
    "Verif.Props.C15_burgers",
    "Verif.Props.C15_buckley_leverett",
    "Verif.Props.C15_monotone"
   ],
   "note": "Godunov fluxes equal the exact Riemann flux (min/max over the interval) for Burgers and Buckley-Leverett, and are monotone."
  },
  {
   "property": "C16",
   "status": "proved",
   "theorems": [
    "Verif.Props.C16_rusanov_monotone",
    "Verif.Props.C16_wave_speed_is_characteristic_speed"
   ],
   "note": "Rusanov flux monotone in both arguments for all scalar equations; wave speed is |f'|."
  },
  {
   "property": "C17",
   "status": "proved",
   "theorems": [
    "Verif.Props.C17_entropy_conservative",
    "Verif.Props.C17_only_burgers",
    "Verif.Props.C17_potential_is_not_the_one_of_the_other_equations"
   ],
   "note": "Two-point entropy conservative flux for Burgers satisfies the identity with the code's potential."
  },
  {
   "property": "C18",
   "status": "partial",
   "theorems": [
    "Verif.Props.C18_fourth_order_consistent_symmetric",
    "Verif.Props.C18_sixth_order_consistent_symmetric_partial",
    "Verif.Props.C18_fourth_order_wave_speed",
    "Verif.Props.C18_sixth_order_wave_speed",
    "Verif.Props.C18_fourth_order",
    "Verif.Props.C18_sixth_order_partial",
    "Verif.Props.C18_fourth_order_entropy_conservative",
    "Verif.Props.C18_sixth_order_entropy_conservative_partial",
    "Verif.Props.C18_sixth_order_as_called_is_not_second_order"
   ],
   "note": "4th order combination fully proved. The 6th order combination is proved for the intended stencil; the code's 6-argument vec constructor drops the last component, so as called it is not even second order (witness theorem)."
  },
  {
   "property": "C19",
   "status": "proved",
   "theorems": [
    "Verif.Props.C19_round_trip",
    "Verif.Props.C19_admissible"
   ],
   "note": "All dimensions."
  },
  {
   "property": "C20",
   "status": "proved",
   "theorems": [
    "Verif.Props.C20_potential",
    "Verif.Props.C20_entropy_pair"
   ],
   "note": "Identity with the reported potential, and the entropy variables/flux are the gradient pair of -rho s/(gamma-1)."
  },
  {
   "property": "C21",
   "status": "partial",
   "theorems": [
    "Verif.Props.C21_one_dimension",
    "Verif.Props.C21_two_dimensions_partial",
    "Verif.Props.C21_three_dimensions_partial",
    "Verif.Props.C21_two_dimensions_direction_one_fails",
    "Verif.Props.C21_three_dimensions_other_directions_fail"
   ],
   "note": "Holds in direction 0. In directions 1 and 2 the columns are returned in the rotated frame, so they are not eigenvectors (witnesses); proved for the columns rotated back."
  },
  {
   "property": "C22",
   "status": "partial",
   "theorems": [
    "Verif.Props.C22_one_dimension",
    "Verif.Props.C22_two_dimensions",
    "Verif.Props.C22_three_dimensions_partial",
    "Verif.Props.C22_three_dimensions_fails",
    "Verif.Props.C22_three_dimensions_fails_in_x"
   ],
   "note": "Full in 1D and 2D. In 3D the z momentum flux is set to zero and direction 2 has no branch: exact defect proved, with witnesses."
  },
  {
   "property": "C23",
   "status": "partial",
   "theorems": [
    "Verif.Props.C23_hll_partial",
    "Verif.Props.C23_hll_fails_when_left_speed_is_zero",
    "Verif.Props.C23_hll3_partial",
    "Verif.Props.C23_hll3_used_branch"
   ],
   "note": "HLL exact except when the left speed is exactly zero (witness). HLL3: Rankine-Hugoniot across all three waves when the estimates are ordered; used branch always well defined."
  },
  {
   "property": "C24",
   "status": "partial",
   "theorems": [
    "Verif.Props.C24_dissipative_at_faces",
    "Verif.Props.C24_conservative_partial",
    "Verif.Props.C24_entropy_not_produced",
    "Verif.Props.C24_one_ghost_cell_is_not_conservative"
   ],
   "note": "Dissipation at every computed face and for the operator as a whole; conservation for ghost width r+2. The width the code asks for is one short: proved counterexample with the reconstruction none. The sign property of the concrete ENO reconstruction is C66."
  },
  {
   "property": "C25",
   "status": "proved",
   "theorems": [
    "Verif.Props.C25_minmod",
    "Verif.Props.C25_mc"
   ],
   "note": "minmod and MC, all real triples: face values between the cell and the neighbour on that side, averaging to the cell value, flat at local extrema."
  },
  {
   "property": "C26",
   "status": "partial",
   "theorems": [
    "Verif.Props.C26_stays_in_bounds",
    "Verif.Props.C26_stencil_contains_cell",
    "Verif.Props.C26_exact_on_polynomials_partial",
    "Verif.Props.C26_order_one_is_undefined",
    "Verif.Props.C26_refines_record"
   ],
   "note": "Orders 2-4: stays in bounds, stencil contains the cell, exact on polynomials of degree < k, refinement of the stored divided difference loops to a pure record. Order 1 proved undefined (empty array)."
  },
  {
   "property": "C27",
   "status": "partial",
   "theorems": [
    "Verif.Props.C27_order_two",
    "Verif.Props.C27_higher_orders_partial",
    "Verif.Props.C27_fails_at_a_step"
   ],
   "note": "Order 2 proved; orders 3 and 4 partial; violation at a step proved by witness."
  },
  {
   "property": "C28",
   "status": "proved",
   "theorems": [
    "Verif.Props.C28_convex_combination",
    "Verif.Props.C28_constants",
    "Verif.Props.C28_full_order",
    "Verif.Props.C28_specialised_agrees"
   ],
   "note": "Orders 2 and 3: positive weights summing to one over the interpolating polynomials, constants, degree 2k-2 exactness for linear weights, WENO2 equals the general order 2 scheme. Real arithmetic."
  },
  {
   "property": "C29",
   "status": "proved",
   "theorems": [
    "Verif.Props.C29_positive_face_states"
   ],
   "note": "All dimensions, real arithmetic; neighbours need non-zero density so that their velocities exist."
  },
  {
   "property": "C30",
   "status": "proved",
   "theorems": [
    "Verif.Props.C30_textbook_scheme",
    "Verif.Props.C30_modelled_solver"
   ],
   "note": "Abstract right hand side (any operator on the interior values), and instantiated with the modelled boundary conditions and conserved system."
  },
  {
   "property": "C31",
   "status": "proved",
   "theorems": [
    "Verif.Props.C31_convex_invariants",
    "Verif.Props.C31_convex_functionals"
   ],
   "note": "For convex sets and for convex functionals."
  },
  {
   "property": "C32",
   "status": "proved",
   "theorems": [
    "Verif.Props.C32_cfl_and_adjusters",
    "Verif.Props.C32_positive",
    "Verif.Props.C32_one_time_step_per_step"
   ],
   "note": "CFL bound, adjusters, positivity, and one time step per step."
  },
  {
   "property": "C33",
   "status": "partial",
   "theorems": [
    "Verif.Props.C33_directional_scaling_partial",
    "Verif.Props.C33_fails_for_cells_that_are_not_cubes"
   ],
   "note": "Proved for equal cell lengths in the active directions; the code uses dx for all directions, counterexample proved."
  },
  {
   "property": "C34",
   "status": "proved",
   "theorems": [
    "Verif.Props.C34_one_step",
    "Verif.Props.C34_n_steps",
    "Verif.Props.C34_no_writer_after_failed_check",
    "Verif.Props.C34_whole_run"
   ],
   "note": "One step, n steps, failed check."
  },
  {
   "property": "C35",
   "status": "proved",
   "theorems": [
    "Verif.Props.C35_boundary_current",
    "Verif.Props.C35_whole_simulation"
   ],
   "note": "Stated as independence from the right hand side outside outputs of the boundary conditions."
  },
  {
   "property": "C36",
   "status": "partial",
   "theorems": [
    "Verif.Props.C36_terminates",
    "Verif.Props.C36_ends_at_end_time_partial",
    "Verif.Props.C36_overshoots_without_writer"
   ],
   "note": "Termination proved; arrival exactly at the end time proved with one fixed interval writer (C36) and with any number of outputs (C86); counterexample without."
  },
  {
   "property": "C37",
   "status": "partial",
   "theorems": [
    "Verif.Props.C37_fixed_interval_partial",
    "Verif.Props.C37_fails_for_delayed_initial_save"
   ],
   "note": "Proved for the combinations the configuration produces; counterexample for the delayed initial save."
  },
  {
   "property": "C38",
   "status": "partial",
   "theorems": [
    "Verif.Props.C38_coarse_graining_partial",
    "Verif.Props.C38_fails_for_overlapping_clusters"
   ],
   "note": "Proved for clusters that do not overlap; counterexample otherwise."
  },
  {
   "property": "C39",
   "status": "partial",
   "theorems": [
    "Verif.Props.C39_time_average_partial",
    "Verif.Props.C39_fails_without_step_in_window",
    "Verif.Props.C39_fails_with_snapshots"
   ],
   "note": "Proved when a call falls inside the window; undefined behaviour otherwise, and wrong average with snapshots."
  },
  {
   "property": "C40",
   "status": "partial",
   "theorems": [
    "Verif.Props.Functionals.C40_identity_partial",
    "Verif.Props.Functionals.C40_moment_partial",
    "Verif.Props.Functionals.C40_bounded_variation_partial",
    "Verif.Props.Functionals.C40_legendre_partial",
    "Verif.Props.Functionals.C40_legendre_pointwise_partial",
    "Verif.Props.Functionals.C40_log_entropy_partial",
    "Verif.Props.Functionals.C40_structure_base_ignores_weight",
    "Verif.Props.Functionals.C40_structure_cube_keeps_last_call",
    "Verif.Props.Functionals.C40_fails_for_structure_base",
    "Verif.Props.Functionals.C40_fails_for_structure_cube",
    "Verif.Props.Functionals.C40_fails_without_call",
    "Verif.Props.Functionals.C40_fails_with_snapshots"
   ],
   "note": "Proved for identity, moment, bv, legendre, legendre_pointwise and log_entropy; false for structure_base and structure_cube, for runs without any call, and with numberOfSnapshots (counterexamples proved). Real arithmetic; boost's legendre_p is a parameter."
  },
  {
   "property": "C41",
   "status": "partial",
   "theorems": [
    "Verif.Props.Queue.C41_queue_of_one_partial",
    "Verif.Props.Queue.C41_count",
    "Verif.Props.Queue.C41_progress",
    "Verif.Props.Queue.C41_pop_gives_last_push",
    "Verif.Props.Queue.C41_fails_for_larger_queues",
    "Verif.Props.Queue.C41_size_zero_never_writes"
   ],
   "note": "Holds for queues of size one (every interleaving), counts and progress for all sizes; false for every size of two or more."
  },
  {
   "property": "C42",
   "status": "proved",
   "theorems": [
    "Verif.Props.Output.C42_names_differ",
    "Verif.Props.Output.C42_snapshots_never_overwrite"
   ],
   "note": ""
  },
  {
   "property": "C43",
   "status": "partial",
   "theorems": [
    "Verif.Props.Output.C43_serial_layout_partial",
    "Verif.Props.Output.C43_serial_iff",
    "Verif.Props.Output.C43_parallel_equals_serial_partial",
    "Verif.Props.Output.C43_parallel_fails_unless_square",
    "Verif.Props.Output.C43_parallel_differs_for_flat_parts",
    "Verif.Props.Output.C43_hdf5_parallel_keeps_one_part"
   ],
   "note": "Serial layout in closed form, right exactly for one-dimensional grids; parallel equals serial when exchanged sizes agree, exception otherwise."
  },
  {
   "property": "C44",
   "status": "proved",
   "theorems": [
    "Verif.Props.Parallel.C44_rank_to_position_and_back",
    "Verif.Props.Parallel.C44_position_to_rank_and_back",
    "Verif.Props.Parallel.C44_positions_differ",
    "Verif.Props.Parallel.C44_wraps_around"
   ],
   "note": "Proved for every process grid with at least one process per direction."
  },
  {
   "property": "C45",
   "status": "partial",
   "theorems": [
    "Verif.Props.Parallel.C45_tiles_partial",
    "Verif.Props.Parallel.C45_cells",
    "Verif.Props.Parallel.C45_rejects",
    "Verif.Props.Parallel.C45_negative_process_counts_are_accepted"
   ],
   "note": "Real arithmetic. Precondition: at least one process per direction; negative counts are accepted by the code (witness C45_negative_process_counts_are_accepted)."
  },
  {
   "property": "C46",
   "status": "partial",
   "theorems": [
    "Verif.Props.Parallel.C46_symmetric_partial",
    "Verif.Props.Parallel.C46_physical_boundaries",
    "Verif.Props.Parallel.C46_fails_for_mixed_boundaries"
   ],
   "note": "Both sides of a direction have the same boundary condition, as the configuration reader always produces; the grid class also accepts mixed ones, for which symmetry fails (C46_fails_for_mixed_boundaries)."
  },
  {
   "property": "C47",
   "status": "proved",
   "theorems": [
    "Verif.Props.Parallel.C47_messages_match",
    "Verif.Props.Parallel.C47_partners_exist"
   ],
   "note": "Message matching for every process grid, number of variables and boundary configuration; posts of all ranks modelled as lists."
  },
  {
   "property": "C48",
   "status": "partial",
   "theorems": [
    "Verif.Props.Parallel.C48_segments",
    "Verif.Props.Parallel.C48_ghost_cells_partial",
    "Verif.Props.Parallel.C48_fails_for_thin_subdomains",
    "Verif.Props.Parallel.C48_corner_cells_depend_on_the_order"
   ],
   "note": "Segments proved in full; delivery proved for every schedule of reads and writes when subdomains are at least as wide as the ghost layer; counterexample for thinner subdomains. Missing: corner ghost cells (order dependent, counterexample proved), volumes with one y layer and several z layers."
  },
  {
   "property": "C49",
   "status": "partial",
   "theorems": [
    "Verif.Props.Parallel.C49_parallel_equals_serial_partial",
    "Verif.Props.Parallel.C49_fails_for_flat_parts"
   ],
   "note": "One evaluation of the right hand side and the time step, for every state, flux, process grid and message order, when parts are at least as wide as the ghost layer and keep the dimension of the grid; counterexample for flat parts. Missing: thinner or flatter parts (false)."
  },
  {
   "property": "C50",
   "status": "proved",
   "theorems": [
    "Verif.Props.UQ.C50_samples_are_partitioned",
    "Verif.Props.UQ.C50_every_number_once",
    "Verif.Props.UQ.C50_uneven_is_rejected"
   ],
   "note": "For process counts below 2^64 (int in the code); MPI_Comm_split ordering is trusted."
  },
  {
   "property": "C51",
   "status": "partial",
   "theorems": [
    "Verif.Props.UQ.C51_value_depends_on_sample_partial",
    "Verif.Props.UQ.C51_every_distribution_partial",
    "Verif.Props.UQ.C51_fails_for_two_parameters",
    "Verif.Props.UQ.C51_fails_for_other_orders"
   ],
   "note": "Closed form when at most one parameter uses the generator and samples are taken in increasing order (as the program does), for every distribution over processes. False for two random parameters and for other orders: negations proved."
  },
  {
   "property": "C52",
   "status": "partial",
   "theorems": [
    "Verif.Props.UQ.C52_bounds_are_overwritten",
    "Verif.Props.UQ.C52_uniform_in_bounds_partial",
    "Verif.Props.UQ.C52_equidistant_partial",
    "Verif.Props.UQ.C52_fails",
    "Verif.Props.UQ.C52_fails_for_later_samples"
   ],
   "note": "False: bounds of the configuration are always overwritten (proved for every configuration, with witness). Proved for the bounds actually used: uniform values lie in them, equidistant values are midpoints (sample numbers below N; false beyond)."
  },
  {
   "property": "C53",
   "status": "partial",
   "theorems": [
    "Verif.Props.Stats.C53_mean_partial",
    "Verif.Props.Stats.C53_second_moment_partial",
    "Verif.Props.Stats.C53_one_point_moment_partial",
    "Verif.Props.Stats.C53_bounded_variation_partial",
    "Verif.Props.Stats.C53_functional_identity_partial",
    "Verif.Props.Stats.C53_functional_bounded_variation_partial",
    "Verif.Props.Stats.C53_functional_legendre_partial",
    "Verif.Props.Stats.C53_functional_legendre_pointwise_partial",
    "Verif.Props.Stats.C53_functional_log_entropy_partial",
    "Verif.Props.Stats.C53_functional_structure_base_partial",
    "Verif.Props.Stats.C53_structure_basic_partial",
    "Verif.Props.Stats.C53_structure_cube_partial",
    "Verif.Props.Stats.C53_structure_two_points_partial",
    "Verif.Props.Stats.C53_assignment_irrelevant",
    "Verif.Props.Stats.C53_bv_direction_keeps_last_sample",
    "Verif.Props.Stats.C53_fails_for_bv_direction",
    "Verif.Props.Stats.C53_functional_structure_cube_keeps_last_sample",
    "Verif.Props.Stats.C53_fails_for_functional_structure_cube",
    "Verif.Props.Stats.C53_fails_for_functional_moment"
   ],
   "note": "Every additive statistic is proved equal to the mean over samples for any assignment; BoundedVariationDirection, FunctionalStatistics with StructureCube and with Moment violate it (witnesses)."
  },
  {
   "property": "C54",
   "status": "proved",
   "theorems": [
    "Verif.Props.Stats.C54_mean_variance"
   ],
   "note": "Exact real arithmetic."
  },
  {
   "property": "C55",
   "status": "partial",
   "theorems": [
    "Verif.Props.StatsTimes.C55_same_times_partial",
    "Verif.Props.StatsTimes.C55_fails_in_double"
   ],
   "note": "Proved in exact arithmetic for every step history and number of samples; false in double precision (witness)."
  },
  {
   "property": "C56",
   "status": "proved",
   "theorems": [
    "Verif.Props.C56_visits_each_shift_once",
    "Verif.Props.C56_structure_cube"
   ],
   "note": "Each shift of max norm h is visited once; the cube structure function equals the sum over shifts and interior cells."
  },
  {
   "property": "C57",
   "status": "partial",
   "theorems": [
    "Verif.Props.C57_structure_basic_partial",
    "Verif.Props.C57_basic_fails_with_mixed_boundaries",
    "Verif.Props.C57_structure_base_partial",
    "Verif.Props.C57_base_fails_with_ghost_cells",
    "Verif.Props.C57_two_points_partial",
    "Verif.Props.C57_two_points_fails_in_two_directions",
    "Verif.Props.C57_two_points_fails_with_ghost_cells",
    "Verif.Props.C57_zero_for_constant_data"
   ],
   "note": "Positive for equal boundary conditions / no ghost cells / one direction; the code violates the general statement, witnesses proved."
  },
  {
   "property": "C58",
   "status": "partial",
   "theorems": [
    "Verif.Props.C58_low_degrees_partial",
    "Verif.Props.C58_fails_for_every_higher_degree",
    "Verif.Props.C58_supported_degrees",
    "Verif.Props.C58_parity_partial"
   ],
   "note": "Degrees 0 and 1 and parity hold; every higher degree is wrong."
  },
  {
   "property": "C59",
   "status": "proved",
   "theorems": [
    "Verif.Props.C59_fast_power",
    "Verif.Props.C59_dispatch"
   ],
   "note": "Fast power and its dispatch equal the real power."
  },
  {
   "property": "C60",
   "status": "partial",
   "theorems": [
    "Verif.Props.C60_vectors_partial",
    "Verif.Props.C60_six_components_partial",
    "Verif.Props.C60_six_components_fail",
    "Verif.Props.C60_dot",
    "Verif.Props.C60_matrix_vector",
    "Verif.Props.C60_matrix_product",
    "Verif.Props.C60_transpose",
    "Verif.Props.C60_identity",
    "Verif.Props.C60_normalized"
   ],
   "note": "Matrices and vectors up to five components proved; vec6 loses its last component."
  },
  {
   "property": "C61",
   "status": "partial",
   "theorems": [
    "Verif.Props.C61_value_round_trip",
    "Verif.Props.C61_list_round_trip_partial",
    "Verif.Props.C61_fails_for_the_empty_list"
   ],
   "note": "Round trip for lists with at least one word; the empty list fails."
  },
  {
   "property": "C62",
   "status": "proved",
   "theorems": [
    "Verif.Props.C62_called_once_per_cell",
    "Verif.Props.C62_initial_data",
    "Verif.Props.C62_script_array",
    "Verif.Props.C62_script_array_exact"
   ],
   "note": "Each interior cell evaluated once at its midpoint; unit cell length in inactive directions; script arrays address exactly the interior cells."
  },
  {
   "property": "C63",
   "status": "partial",
   "theorems": [
    "Verif.Props.C63_each_cell_once",
    "Verif.Props.C63_internal_cells_once",
    "Verif.Props.C63_neighbours_partial",
    "Verif.Props.C63_fails_without_margin",
    "Verif.Props.C63_internal_direction_partial",
    "Verif.Props.C63_default_layer_fails"
   ],
   "note": "Visits each cell of the region once; true neighbours when the margin is at least one; witnesses for zero margin and the default ghost layer."
  },
  {
   "property": "C64",
   "status": "partial",
   "theorems": [
    "Verif.Props.C64_check_partial",
    "Verif.Props.C64_fails_for_bad_ghost_cells",
    "Verif.Props.C64_ghosts_after_boundary_conditions",
    "Verif.Props.C64_scalar_admissible",
    "Verif.Props.C64_euler_admissible",
    "Verif.Props.C64_max_wave_speed_partial",
    "Verif.Props.C64_euler_max_wave_speed",
    "Verif.Props.C64_max_wave_speed_ignores_nan"
   ],
   "note": "Proved when ghost cells are copies of interior cells (true after boundary conditions); witnesses for bad ghost cells and NaN."
  },
  {
   "property": "C65",
   "status": "proved",
   "theorems": [
    "Verif.Props.C65_registering_twice_fails",
    "Verif.Props.C65_creator_is_the_registered_one",
    "Verif.Props.C65_parameters"
   ],
   "note": "For every history."
  },
  {
   "property": "C66",
   "status": "partial",
   "theorems": [
    "Verif.Props.C66_sign_property_partial",
    "Verif.Props.C66_diffusion_with_order_two_partial",
    "Verif.Props.C66_fails_for_order_three",
    "Verif.Props.C66_fails_for_order_four",
    "Verif.Props.C66_fails_in_other_directions"
   ],
   "note": "Proved for order 2 in the first direction (all data), composed with the diffusion operator; false for orders 3, 4 and for the other directions (counterexamples proved at any distance from the boundary)."
  },
  {
   "property": "C67",
   "status": "partial",
   "theorems": [
    "Verif.Props.C67_contains_partial",
    "Verif.Props.C67_fails_for_names_with_dots"
   ],
   "note": "Names without dots."
  },
  {
   "property": "C68",
   "status": "proved",
   "theorems": [
    "Verif.Props.C68_converts_every_cell"
   ],
   "note": "For all sizes and contents."
  },
  {
   "property": "C69",
   "status": "partial",
   "theorems": [
    "Verif.Props.CudaBoundary.C69_boundary_equals_processor_partial",
    "Verif.Props.CudaBoundary.C69_fails_for_volumes_flat_in_y",
    "Verif.Props.CudaBoundary.C69_no_size_check"
   ],
   "note": "All interleavings of the kernels of all sides give the result of the processor loops, for volumes whose number of dimensions is what getDimensions says; violated for volumes flat in y only."
  },
  {
   "property": "C70",
   "status": "partial",
   "theorems": [
    "Verif.Props.CudaMemory.C70_with_area",
    "Verif.Props.CudaMemory.C70_with_scalar",
    "Verif.Props.CudaMemory.C70_linear_combination",
    "Verif.Props.CudaMemory.C70_powers",
    "Verif.Props.CudaMemory.C70_sizes_are_checked",
    "Verif.Props.CudaMemory.C70_host_operand_is_not_refused",
    "Verif.Props.CudaMemory.C70_total_variation_partial",
    "Verif.Props.CudaMemory.C70_total_variation_direction_partial",
    "Verif.Props.CudaMemory.C70_total_variation_fails_in_one_dimension",
    "Verif.Props.CudaMemory.C70_direction_refused_in_three_dimensions"
   ],
   "note": "Element-wise operations for any interleaving and aliasing; total variation in two dimensions and along directions; violated in one dimension (out-of-bounds read) and by missing host check."
  },
  {
   "property": "C71",
   "status": "partial",
   "theorems": [
    "Verif.Props.CudaCellComputer.C71_extra_variables",
    "Verif.Props.CudaCellComputer.C71_max_wave_speed_partial",
    "Verif.Props.CudaCellComputer.C71_wave_speed_depends_on_order",
    "Verif.Props.CudaCellComputer.C71_verdict_iff_some_cell",
    "Verif.Props.CudaCellComputer.C71_constraints_partial",
    "Verif.Props.CudaCellComputer.C71_constraints_fail"
   ],
   "note": "extra variables for every interleaving; the wave speed for cells without NaN; the constraints are combined with the maximum, so the answer is wrong as soon as one cell is good (counterexample)"
  },
  {
   "property": "C72",
   "status": "proved",
   "theorems": [
    "Verif.Props.CudaNetFlux.C72_net_flux",
    "Verif.Props.CudaNetFlux.C72_same_as_processor",
    "Verif.Props.CudaNetFlux.C72_right_hand_side",
    "Verif.Props.CudaNetFlux.C72_reconstructions_apply",
    "Verif.Props.CudaNetFlux.C72_negative_wave_speeds_differ"
   ],
   "note": "Flux kernels, zeroing, combination and the reduction of the wave speeds in any interleaving / order; equality with the processor for one region and for the whole right hand side. Preconditions: non-empty region, nonnegative wave speeds, equal sizes."
  },
  {
   "property": "C73",
   "status": "partial",
   "theorems": [
    "Verif.Props.CudaRecon.C73_none",
    "Verif.Props.CudaRecon.C73_fixed_stencil_partial",
    "Verif.Props.CudaRecon.C73_single_layer",
    "Verif.Props.CudaRecon.C73_eno"
   ],
   "note": "no reconstruction, fixed stencils and ENO in any interleaving; violated with a single interior layer in a direction of the grid, where the fixed stencil kernels read outside (C73_single_layer)"
  },
  {
   "property": "C74",
   "status": "partial",
   "theorems": [
    "Verif.Props.CudaHalo.C74_same_messages",
    "Verif.Props.CudaHalo.C74_packs",
    "Verif.Props.CudaHalo.C74_unpacks",
    "Verif.Props.CudaHalo.C74_exchange_partial",
    "Verif.Props.CudaHalo.C74_ghost_cells_partial",
    "Verif.Props.CudaHalo.C74_corner_cells_race",
    "Verif.Props.CudaHalo.C74_fails_for_consecutive_exchanges",
    "Verif.Props.CudaHalo.C74_waiting_is_enough"
   ],
   "note": "Packing and unpacking on the card move exactly the elements of the message types, in every interleaving; one exchange over all ranks has only outcomes the exchange on the processors has. False for exchanges that follow each other (send buffers are reused without waiting), proved with a witness; partial: one exchange, volumes that are not flat in y only."
  },
  {
   "property": "C75",
   "status": "partial",
   "theorems": [
    "Verif.Props.CudaTecno.C75_eno_reconstruction",
    "Verif.Props.CudaTecno.C75_no_reconstruction",
    "Verif.Props.CudaTecno.C75_second_kernel_partial",
    "Verif.Props.CudaTecno.C75_right_values_never_computed",
    "Verif.Props.CudaTecno.C75_burgers_partial",
    "Verif.Props.CudaTecno.C75_fails",
    "Verif.Props.CudaTecno.C75_total_changes",
    "Verif.Props.CudaTecno.C75_race"
   ],
   "note": "See the theorems: reconstruction equal, second kernel equal where the coefficients agree, the sum over directions for Burgers; counterexamples for values, totals and a race."
  },
  {
   "property": "C76",
   "status": "partial",
   "theorems": [
    "Verif.Props.CudaFunctionals.C76_identity",
    "Verif.Props.CudaFunctionals.C76_legendre_pointwise_partial",
    "Verif.Props.CudaFunctionals.C76_legendre_fails_for_higher_degrees",
    "Verif.Props.CudaFunctionals.C76_legendre_fails_from_degree_twelve",
    "Verif.Props.CudaFunctionals.C76_legendre_fails_for_rejected_grids",
    "Verif.Props.CudaFunctionals.C76_log_entropy",
    "Verif.Props.CudaFunctionals.C76_structure_cube"
   ],
   "note": "Identity, logarithmic entropy and structure cube: equal in every interleaving. Pointwise Legendre: degrees 0 and 1 on accepted grids; the other cases are false (counterexamples proved)."
  },
  {
   "property": "C77",
   "status": "partial",
   "theorems": [
    "Verif.Props.CudaStructure.C77_structure_cube",
    "Verif.Props.CudaStructure.C77_structure_basic_partial",
    "Verif.Props.CudaStructure.C77_basic_fails_for_exponent_zero",
    "Verif.Props.CudaStructure.C77_basic_fails_with_ghost_cells"
   ],
   "note": "Cube statistics equal. Directional statistics: equal without ghost cells and for nonzero exponents; both other cases are false (counterexamples proved)."
  },
  {
   "property": "C78",
   "status": "proved",
   "theorems": [
    "Verif.Props.WholeRun.C78_run_conserves"
   ],
   "note": "Whole run of the modelled solver, exact arithmetic; any flux, reconstruction, integrator, writers and adjusters."
  },
  {
   "property": "C79",
   "status": "proved",
   "theorems": [
    "Verif.Props.WholeRun.C79_run_uniform"
   ],
   "note": "Both boundary conditions, any number of steps."
  },
  {
   "property": "C80",
   "status": "partial",
   "theorems": [
    "Verif.Props.WholeRun.C80_buckley_leverett_partial",
    "Verif.Props.WholeRun.C80_fails_for_buckley_leverett_godunov",
    "Verif.Props.RunBounds.C80_program_partial",
    "Verif.Props.RunCombined.C80_fails_for_godunov4",
    "Verif.Props.RunCombined.C80_fails_for_tecno4",
    "Verif.Props.RunFourth.C80_fails_for_rungekutta4",
    "Verif.Props.RunFourth.C80_fails_for_cells_that_are_not_cubes",
    "Verif.Props.WholeRun.C80_no_new_extrema_partial",
    "Verif.Props.WholeRun.C80_fails_for_buckley_leverett",
    "Verif.Props.WholeRun.C80_fails_for_central",
    "Verif.Props.WholeRun.C80_fails_for_tecno1"
   ],
   "note": "Proved for Burgers, cubic and linear with rusanov, godunov, roe and upwind, cubic cells, forward Euler and Runge-Kutta 2 and 3, and Runge-Kutta 4 for the linear equation (not its flux roe); for Buckley-Leverett with rusanov and godunov and data on one side of one half (C80_buckley_leverett_partial), false with data on both sides (C80_fails_for_buckley_leverett, ..._godunov); false for central, tecno1, tecno4, tecno6, godunov4, godunov6 and for Runge-Kutta 4 with the cubic equation; missing: higher order reconstructions."
  },
  {
   "property": "C81",
   "status": "partial",
   "theorems": [
    "Verif.Props.WholeRun.C81_buckley_leverett_partial",
    "Verif.Props.WholeRun.C81_fails_for_buckley_leverett_godunov",
    "Verif.Props.RunBounds.C81_program_partial",
    "Verif.Props.RunCombined.C81_fails_for_tecno4",
    "Verif.Props.WholeRun.C81_variation_diminishing_partial",
    "Verif.Props.WholeRun.C81_fails_for_buckley_leverett",
    "Verif.Props.WholeRun.C81_fails_for_central",
    "Verif.Props.WholeRun.C81_fails_for_tecno1"
   ],
   "note": "As C80; one dimension; both boundary conditions; false for central (C81_fails_for_central), tecno1, tecno4 and tecno6 (C81_fails_for_tecno4) and Buckley-Leverett with data on both sides of one half."
  },
  {
   "property": "C82",
   "status": "partial",
   "theorems": [
    "Verif.Props.WholeRun.C82_buckley_leverett_partial",
    "Verif.Props.RunBounds.C82_program_partial",
    "Verif.Props.WholeRun.C82_limited_no_new_extrema_partial"
   ],
   "note": "As C80, reconstructions mm and mc, CFL number at most 1/2; Buckley-Leverett with data on one side of one half (C82_buckley_leverett_partial)."
  },
  {
   "property": "C83",
   "status": "partial",
   "theorems": [
    "Verif.Props.Factories.C83_as_described",
    "Verif.Props.Factories.C83_no_choice",
    "Verif.Props.Factories.C83_components_partial",
    "Verif.Props.Factories.C83_accepts_too_many_directions"
   ],
   "note": "Configurations are accepted exactly when all names are offered, and then give the simulator they describe. Partial because a grid with more directions than the Euler equation is accepted (counterexample), so the components of the momentum exist only under that condition."
  },
  {
   "property": "C84",
   "status": "partial",
   "theorems": [
    "Verif.Props.Factories.C84_right_hand_side_partial",
    "Verif.Props.Factories.C84_wide_is_needed",
    "Verif.Props.Factories.C84_flat_in_y",
    "Verif.Props.Factories.C84_card_partial",
    "Verif.Props.Factories.C84_card_last_cells",
    "Verif.Props.Factories.C84_diffusion_partial",
    "Verif.Props.Factories.C84_diffusion_too_narrow"
   ],
   "note": "On the processor under the exact condition Wide, on the card also when the diffusion operator asks for no more ghost cells than the flux; diffusion with one more ghost cell than asked for. Each missing case has a counterexample."
  },
  {
   "property": "C85",
   "status": "partial",
   "theorems": [
    "Verif.Props.Setup.C85_as_described",
    "Verif.Props.Setup.C85_no_choice",
    "Verif.Props.Setup.C85_otherwise_refused_partial",
    "Verif.Props.Setup.C85_unknown_option",
    "Verif.Props.Setup.C85_short_vector"
   ],
   "note": "The readers of SimulatorSetup.cpp are shown equivalent to a description of the file; partial because vectors with fewer than three words are undefined behaviour (C85_short_vector). XML parsing, conversion of text to numbers and the constructors of writers and functionals are parameters."
  },
  {
   "property": "C86",
   "status": "partial",
   "theorems": [
    "Verif.Props.RunSetup.C86_output_partial",
    "Verif.Props.RunSetup.C86_kinds",
    "Verif.Props.RunSetup.C86_average_without_snapshots",
    "Verif.Props.RunSetup.C86_average_of_a_constant",
    "Verif.Props.RunSetup.C86_integral_of_a_constant",
    "Verif.Props.RunSetup.C86_window_after_the_end"
   ],
   "note": "Proved for any number of outputs without snapshots, one of which saves at the end time; counterexamples for time averages without and with snapshots and for windows after the end."
  },
  {
   "property": "C87",
   "status": "partial",
   "theorems": [
    "Verif.Props.RunSetup.C87_finalised_once_partial",
    "Verif.Props.RunSetup.C87_functionals_not_finalised"
   ],
   "note": "Proved for writers of solutions; files of functionals are never finalised (C87_functionals_not_finalised)."
  },
  {
   "property": "C88",
   "status": "partial",
   "theorems": [
    "Verif.Props.EulerRun.C88_positive_partial",
    "Verif.Props.EulerRun.C88_hll3_partial",
    "Verif.Props.EulerRun.C88_fails_for_central",
    "Verif.Props.EulerRun.C88_fails_for_hll3",
    "Verif.Props.EulerStages.C88_stages_partial",
    "Verif.Props.EulerStages.C88_fails_for_rungekutta2",
    "Verif.Props.RunBounds.C88_program_partial"
   ],
   "note": "First order runs with the flux hll and forward Euler, CFL number below one, cubes as cells, any dimension, periodic or Neumann boundaries; the check never refuses such a run. Runge-Kutta 2 and 3: small CFL numbers (explicit bound), grid and equation of the same dimension. hll3: one dimension, CFL number below one half, gamma at most 2. Missing: Runge-Kutta 4, tecno fluxes, higher order reconstructions; false for central, for hll3 in two dimensions and for Runge-Kutta 2 with usual CFL numbers on a grid with fewer dimensions than the equation (negations proved)."
  },
  {
   "property": "C89",
   "status": "partial",
   "theorems": [
    "Verif.Props.EntropyRun.C89_entropy_conserved_partial",
    "Verif.Props.EntropyRun.C89_entropy_dissipated_partial",
    "Verif.Props.EntropyRun.C89_fails_for_tecno6"
   ],
   "note": "tecno1 and tecno4 of Burgers (up to 3D) and Euler (1D, 2D), reconstruction none, periodic boundary: rate of the total entropy is zero, with the diffusion operator (r+2 ghost cells, sign property) not positive; false for tecno6 (C89_fails_for_tecno6), Euler 3D excluded because of C22"
  },
  {
   "property": "C90",
   "status": "partial",
   "theorems": [
    "Verif.Props.UQRun.C90_statistics_partial",
    "Verif.Props.UQRun.C90_moments",
    "Verif.Props.UQRun.C90_functionals",
    "Verif.Props.UQRun.C90_fails_for_windows",
    "Verif.Props.UQRun.C90_no_samples"
   ],
   "note": "For every configuration, number of samples and number of processes dividing it the modelled program ends and writes the averages (mean and variance) of the solutions at the save times. Missing: more than one parameter using the random number generator, statistics in windows of time (false, C90_fails_for_windows), zero samples (undefined behaviour, C90_no_samples), several processes per sample; the conditions of C86."
  },
  {
   "property": "C91",
   "status": "partial",
   "theorems": [
    "Verif.Props.UQSetup.C91_as_described_partial",
    "Verif.Props.UQSetup.C91_otherwise_refused_partial",
    "Verif.Props.UQSetup.C91_undefined_number",
    "Verif.Props.UQSetup.C91_statistic_dropped",
    "Verif.Props.UQSetup.C91_parameters",
    "Verif.Props.UQSetup.C91_fails_for_bounds"
   ],
   "note": "Proved for files without bounds of the parameters and with times for all statistics; the three negations show why. XML parsing, conversions of numbers, creators of statistics and library distributions are parameters of the model."
  },
  {
   "property": "C92",
   "status": "partial",
   "theorems": [
    "Verif.Props.IntegratedStatistics.C92_riemann_sums",
    "Verif.Props.IntegratedStatistics.C92_integrals_partial",
    "Verif.Props.IntegratedStatistics.C92_fails"
   ],
   "note": "What the statistic computes is proved for all inputs (C92_riemann_sums). It is the average of the integrals if the window starts at or before time 0 and does not end inside a time step; for windows that start later it is not (C92_fails)."
  },
  {
   "property": "C93",
   "status": "partial",
   "theorems": [
    "Verif.Props.ParallelSim.C93_run_partial",
    "Verif.Props.ParallelSim.C93_fails_for_euler"
   ],
   "note": "Whole runs, any integrator, writers, adjusters and any order of messages in every substep. Partial: preconditions of C49, and the check of states must depend on the cells of the grid alone; C93_fails_for_euler shows that the check of unfilled ghost cells refuses a 3D Euler run on two processes that one process finishes."
  },
  {
   "property": "C94",
   "status": "partial",
   "theorems": [
    "Verif.Props.Views.C94_views",
    "Verif.Props.Views.C94_missing",
    "Verif.Props.Views.C94_kernels",
    "Verif.Props.Views.C94_all_volumes",
    "Verif.Props.Views.C94_static_partial",
    "Verif.Props.Views.C94_fails_for_energy"
   ],
   "note": "Views are found by name for any volume with the variables of the equation (C94_views), otherwise making them throws (C94_missing); kernels on volumes refine kernels on fields with vector values, including undefined behaviour (C94_kernels), and all volumes of the right names and one size are covered (C94_all_volumes). Partial: get<number>() is right except for the energy of the Euler equations in one dimension, where it gives the density (C94_fails_for_energy)."
  },
  {
   "property": "C95",
   "status": "partial",
   "theorems": [
    "Verif.Props.PyConfig.C95_round_trip",
    "Verif.Props.PyConfig.C95_run_partial",
    "Verif.Props.PyConfig.C95_comments",
    "Verif.Props.PyConfig.C95_uq_without_parameters",
    "Verif.Props.PyConfig.C95_renames",
    "Verif.Props.PyConfig.C95_repeated",
    "Verif.Props.PyConfig.C95_empty_item",
    "Verif.Props.PyConfig.C95_configuration_not_run"
   ],
   "note": "Round trip for every element and file of a described form; comments, uq without parameters, empty repeated elements fail, repeated elements are renamed or lost, a dictionary configuration is never run (negations proved)."
  },
  {
   "property": "C96",
   "status": "partial",
   "theorems": [
    "Verif.Props.PyRun.C96_arguments",
    "Verif.Props.PyRun.C96_combined_arguments",
    "Verif.Props.PyRun.C96_grid_partial",
    "Verif.Props.PyRun.C96_corner_lost",
    "Verif.Props.PyRun.C96_corners_lost",
    "Verif.Props.PyRun.C96_initial_data_partial",
    "Verif.Props.PyRun.C96_initial_parameters_fail",
    "Verif.Props.PyRun.C96_temporary_file_left",
    "Verif.Props.PyRun.C96_defaults"
   ],
   "note": "All arguments for every combination, with and without a base file; grid with two of three arguments, parameters of initial data and removal of the temporary file are wrong in the code (negations proved)."
  },
  {
   "property": "C97",
   "status": "proved",
   "theorems": [
    "Verif.Props.C97_shift"
   ],
   "note": "Any reconstruction, flux and integrator; exceptions and writer calls included."
  },
  {
   "property": "C98",
   "status": "partial",
   "theorems": [
    "Verif.Props.C98_burgers_partial",
    "Verif.Props.C98_fails_for_eno",
    "Verif.Props.C98_euler_partial",
    "Verif.Props.C98_fails_for_hll"
   ],
   "note": "Burgers: central, rusanov, godunov, roe; Euler: central, tecno1; reconstructions none, mm, mc, weno2, weno3. False for hll (left speed exactly zero) and for ENO (ties); counterexamples proved."
  },
  {
   "property": "C99",
   "status": "partial",
   "theorems": [
    "Verif.Props.C99_scalar",
    "Verif.Props.C99_euler_partial",
    "Verif.Props.C99_fails_for_tecno1"
   ],
   "note": "Scalar equations in full; Euler: hll, hll3, central, tecno1 in 2D, all reconstructions. False for tecno1 in 3D; counterexample proved."
  },
  {
   "property": "C100",
   "status": "partial",
   "theorems": [
    "Verif.Props.Plugin.C100_writer_partial",
    "Verif.Props.Plugin.C100_writer_never_deletes",
    "Verif.Props.Plugin.C100_writer_needs_create",
    "Verif.Props.Plugin.C100_distribution",
    "Verif.Props.Plugin.C100_qmc_partial",
    "Verif.Props.Plugin.C100_qmc_deletes_parameters_first",
    "Verif.Props.Plugin.C100_writer_without_communicator",
    "Verif.Props.Plugin.C100_failed_construction_keeps_objects",
    "Verif.Props.Plugin.C100_fails_for_repeated_entries",
    "Verif.Props.Plugin.C100_example_library"
   ],
   "note": "Proved for every library, configuration and sequence of calls: a plug-in distribution receives exactly the documented calls and its answers are returned (C100_distribution); a writer likewise except that its data is never deleted (C100_writer_partial, C100_writer_never_deletes); quasi Monte Carlo generators except that the parameters are deleted before the data (C100_qmc_partial, C100_qmc_deletes_parameters_first). Further counterexamples: NONE as creating function, no communicator, exception in the constructor, repeated entries. The example library writes exactly the interior cells. Assumed: functions have the type the program imports them with; sizes fit into int."
  },
  {
   "property": "C101",
   "status": "partial",
   "theorems": [
    "Verif.Props.Report.C101_loads",
    "Verif.Props.Report.C101_attributes_partial",
    "Verif.Props.Report.C101_text_used_partial",
    "Verif.Props.Report.C101_fails_for_similar_names",
    "Verif.Props.Report.C101_configuration_partial",
    "Verif.Props.Report.C101_fails_for_repeated_entries"
   ],
   "note": "For all sequences of loads and states of the disk: loads give the first text (C101_loads); attributes hold exactly these texts for names without _dash/_DOT (partial), entries of configurations without repeated keys (partial); counterexamples for the rest."
  },
  {
   "property": "C102",
   "status": "partial",
   "theorems": [
    "Verif.Props.PyInit.C102_samples_isolated",
    "Verif.Props.PyInit.C102_parameters_partial",
    "Verif.Props.PyInit.C102_gamma_is_a_function",
    "Verif.Props.PyInit.C102_argument_hides_parameter"
   ],
   "note": "C102_samples_isolated is complete for programs that use only the names set for them; parameters are seen except those named like objects of math or numpy (partial), with counterexamples for gamma and x."
  },
  {
   "property": "C103",
   "status": "proved",
   "theorems": [
    "Verif.Props.PyScript.C103_every_output",
    "Verif.Props.PyScript.C103_kept_arrays_change",
    "Verif.Props.PyScript.C103_failing_script",
    "Verif.Props.PyScript.C103_larger_solution_is_undefined"
   ],
   "note": "Complete for runs without exceptions and with solutions of one size; further theorems show what happens to kept arrays, with exceptions, and with a larger solution."
  },
  {
   "property": "C104",
   "status": "partial",
   "theorems": [
    "Verif.Props.Timer.C104_times",
    "Verif.Props.Timer.C104_percentages_partial",
    "Verif.Props.Timer.C104_fails_for_the_setup",
    "Verif.Props.Timer.C104_fails_without_timers",
    "Verif.Props.Timer.C104_threads_race",
    "Verif.Props.Timer.C104_run_report",
    "Verif.Props.Timer.C104_report_files",
    "Verif.Props.Timer.C104_threads_of_a_step"
   ],
   "note": "Times: complete. Percentages: for programs inside one outermost block whose blocks of a group are not nested; counterexamples for the setup of alsuqcli, for programs built without timers and for threads. Run report: complete for the entries named."
  },
  {
   "property": "C105",
   "status": "partial",
   "theorems": [
    "Verif.Props.Standalone.C105_reads",
    "Verif.Props.Standalone.C105_round_trip",
    "Verif.Props.Standalone.C105_round_trip_parallel",
    "Verif.Props.Standalone.C105_mean_partial",
    "Verif.Props.Standalone.C105_samples",
    "Verif.Props.Standalone.C105_samples_lost",
    "Verif.Props.Standalone.C105_boundary_condition_ignored",
    "Verif.Props.Standalone.C105_other_types_read_as_zero",
    "Verif.Props.Standalone.C105_more_dimensions_refused",
    "Verif.Props.Standalone.C105_two_dimensions_undefined"
   ],
   "note": "Proved: which grids are accepted, the value of every cell, the round trip with the serial and the parallel writer, and the mean over all samples for periodic structure functions if the number of processors divides the number of samples. False for other numbers of processors, for the boundary condition option, for other types and for two-dimensional files (undefined behaviour)."
  },
  {
   "property": "C106",
   "status": "partial",
   "theorems": [
    "Verif.Props.SampleFiles.C106_files_partial",
    "Verif.Props.SampleFiles.C106_saves_partial",
    "Verif.Props.SampleFiles.C106_every_step",
    "Verif.Props.SampleFiles.C106_every_step_one_process",
    "Verif.Props.SampleFiles.C106_old_file"
   ],
   "note": "Proved: for all numbers of samples and processes, the files of samples that make the same number of writes, in particular of runs with a number of saves (with the conditions of C86). False without a number of saves: mismatched collective calls, missing files, wrong times, mixing with files of earlier runs (counterexamples)."
  },
  {
   "property": "C107",
   "status": "partial",
   "theorems": [
    "Verif.Props.Devices.C107_even_partial",
    "Verif.Props.Devices.C107_own_card_partial",
    "Verif.Props.Devices.C107_fails_for_other_launchers",
    "Verif.Props.Devices.C107_failures_move_to_the_first_card",
    "Verif.Props.Devices.C107_undefined_for_large_values",
    "Verif.Props.Devices.C107_spelling"
   ],
   "note": "Even distribution proved for processes started by Open MPI when all CUDA calls succeed; other launchers and failing calls refuted."
  },
  {
   "property": "C108",
   "status": "partial",
   "theorems": [
    "Verif.Props.Table.C108_partial",
    "Verif.Props.Table.C108_comments_are_refused",
    "Verif.Props.Table.C108_fails_for_diffusion",
    "Verif.Props.Table.C108_fails_for_white_space",
    "Verif.Props.Table.C108_fails_for_comments"
   ],
   "note": "Proved for files in which the six options are plain texts that come before other elements of the same names; refuted for a diffusion before the reconstruction, white space and comments."
  },
  {
   "property": "C109",
   "status": "partial",
   "theorems": [
    "Verif.Props.ScalarOutput.C109_file_partial",
    "Verif.Props.ScalarOutput.C109_buckley_leverett_partial",
    "Verif.Props.ScalarOutput.C109_bounded_speeds_partial"
   ],
   "note": "Proved from the configuration file to the output for the fluxes, reconstructions, integrators and grids of C80 and C82, including Buckley-Leverett with data on one side of one half, and without the bounds of the values for every configuration of the linear equation and Buckley-Leverett. Missing: the other fluxes, reconstructions and integrators for Burgers and the cubic equation (bounds false for some, C80), diffusion, graphics cards, outputs with snapshots (C86)."
  },
  {
   "property": "C110",
   "status": "partial",
   "theorems": [
    "Verif.Props.UQOutput.C110_statistics_read",
    "Verif.Props.UQOutput.C110_file_partial",
    "Verif.Props.UQOutput.C110_buckley_leverett_partial",
    "Verif.Props.UQOutput.C110_bounded_speeds_partial",
    "Verif.Props.UQOutput.C110_bounds",
    "Verif.Props.UQOutput.C110_initial_data"
   ],
   "note": "Proved from the configuration file to the written statistics for the configurations of C109 with mean, variance and moments at fixed intervals, on every number of processes dividing the number of samples. Missing: what C109 leaves out, the other statistics, windows of time (false, C90), more than one parameter with random numbers, several processes per sample."
  },
  {
   "property": "C111",
   "status": "partial",
   "theorems": [
    "Verif.Props.WriterParams.C111_samples_partial",
    "Verif.Props.WriterParams.C111_own_sample_partial",
    "Verif.Props.WriterParams.C111_fails_without_samples"
   ],
   "note": "Proved for runs with samples. False for runs without samples on several processes: C111_fails_without_samples."
  },
  {
   "property": "C112",
   "status": "partial",
   "theorems": [
    "Verif.Props.Plotting.C112_one_process_partial",
    "Verif.Props.Plotting.C112_raises",
    "Verif.Props.Plotting.C112_one_column_partial",
    "Verif.Props.Plotting.C112_fails_for_columns"
   ],
   "note": "Proved on one process. On several processes the script raises an exception (C112_raises) and mirrors the columns (C112_fails_for_columns); with one column the first picture is right."
  },
  {
   "property": "C113",
   "status": "partial",
   "theorems": [
    "Verif.Props.Registration.C113_starts",
    "Verif.Props.Registration.C113_lookup",
    "Verif.Props.Registration.C113_portable_partial",
    "Verif.Props.Registration.C113_fails_on_cards",
    "Verif.Props.Registration.C113_structure_surface_unusable"
   ],
   "note": "Proved for the lookup; the names on cards are fewer than on the processor (C113_fails_on_cards) and structure_surface always throws (C113_structure_surface_unusable)."
  },
  {
   "property": "C114",
   "status": "partial",
   "theorems": [
    "Verif.Props.NewClass.C114_nothing_lost",
    "Verif.Props.NewClass.C114_creates",
    "Verif.Props.NewClass.C114_nested",
    "Verif.Props.NewClass.C114_header_text",
    "Verif.Props.NewClass.C114_includes_header_partial",
    "Verif.Props.NewClass.C114_distinct",
    "Verif.Props.NewClass.C114_include_lost",
    "Verif.Props.NewClass.C114_half_done",
    "Verif.Props.NewClass.C114_name_begins_with_library"
   ],
   "note": "The line with #include only for namespaces whose names do not end in include (false otherwise, C114_include_lost); not all or nothing (C114_half_done)."
  },
  {
   "property": "C115",
   "status": "partial",
   "theorems": [
    "Verif.Props.Examples.C115_layers",
    "Verif.Props.Examples.C115_interfaces_partial",
    "Verif.Props.Examples.C115_fails_for_signed_numbers",
    "Verif.Props.Examples.C115_one_number",
    "Verif.Props.Examples.C115_three_dimensions_partial",
    "Verif.Props.Examples.C115_fails_in_three_dimensions",
    "Verif.Props.Examples.C115_all_at_once_partial",
    "Verif.Props.Examples.C115_points_partial",
    "Verif.Props.Examples.C115_fails_points",
    "Verif.Props.Examples.C115_fails_several_processes",
    "Verif.Props.Examples.C115_fails_tube",
    "Verif.Props.Examples.C115_cloud",
    "Verif.Props.Examples.C115_sod",
    "Verif.Props.Examples.C115_scalar",
    "Verif.Props.Examples.C115_brownian_partial",
    "Verif.Props.Examples.C115_fails_brownian",
    "Verif.Props.Examples.C115_vortex_partial",
    "Verif.Props.Examples.C115_fails_vortex",
    "Verif.Props.Examples.C115_vortex_cells",
    "Verif.Props.Examples.C115_taylor_green",
    "Verif.Props.Examples.C115_fails_taylor_green",
    "Verif.Props.Examples.C115_richtmyer_meshkov_partial",
    "Verif.Props.Examples.C115_circle"
   ],
   "note": "Proved: the layers in two dimensions, with one number, the cloud, the shock tube, the Taylor-Green vortex, the scalar data and the circle with twenty numbers. Partial, with counterexamples: interfaces for numbers of both signs and in three dimensions, the tube, the points of the data filled in at once, the centre of the vortex, symmetry of the Taylor-Green pressure, Brownian data for numbers above one. Not modelled: examples/fractional_brownian (another package)."
  },
  {
   "property": "C116",
   "status": "partial",
   "theorems": [
    "Verif.Props.Brownian.C116_displaced",
    "Verif.Props.Brownian.C116_numbers",
    "Verif.Props.Brownian.C116_deviation",
    "Verif.Props.Brownian.C116_initial_partial",
    "Verif.Props.Brownian.C116_fails_large",
    "Verif.Props.Brownian.C116_fails_not_square",
    "Verif.Props.Brownian.C116_far_ends",
    "Verif.Props.Brownian.C116_fails_periodic",
    "Verif.Props.Brownian.C116_fails_several_processes"
   ],
   "note": "Proved for grids whose size is a power of two: displacement from the field of half the size, a separate number for each point, the exact number of numbers, the deviation. Partial: square grids of up to 1024 cells on one process only; counterexamples for periodicity, other shapes and sizes, and several processes."
  },
  {
   "property": "C117",
   "status": "partial",
   "theorems": [
    "Verif.Props.C117_linear_partial",
    "Verif.Props.C117_sign_partial",
    "Verif.Props.C117_fails_for_linear_roe",
    "Verif.Props.C117_euler_partial",
    "Verif.Props.C117_fails_for_weno"
   ],
   "note": "Linear equation: all fluxes, none/mm/mc/ENO; sign for linear and cubic: all reconstructions, all fluxes but roe of the linear equation (false); Euler: central, hll, hll3 with none/mm/mc/ENO. False for WENO (C117_fails_for_weno). Missing: tecno1 and wenof2 of the Euler equations."
  },
  {
   "property": "C118",
   "status": "partial",
   "theorems": [
    "Verif.Props.C118_length",
    "Verif.Props.C118_scalar_partial",
    "Verif.Props.C118_fails_for_tecno1",
    "Verif.Props.C118_euler_partial"
   ],
   "note": "C118_length is complete for any equation and scheme; C118_scalar_partial and C118_euler_partial add the units of the values. False for WENO (C117_fails_for_weno) and tecno1 of Burgers (C118_fails_for_tecno1); missing: tecno1 and wenof2 of the Euler equations."
  },
  {
   "property": "C119",
   "status": "partial",
   "theorems": [
    "Verif.Props.FirstSave.C119_initial_partial",
    "Verif.Props.FirstSave.C119_ignored_with_coarse_saves",
    "Verif.Props.FirstSave.C119_ignored_without_saves",
    "Verif.Props.FirstSave.C119_ignored_by_functionals",
    "Verif.Props.FirstSave.C119_statistics",
    "Verif.Props.FirstSave.C119_fails"
   ],
   "note": "Holds for writers with a number of saves and no coarse saves, and for statistics with a number of saves. Fails for the other writers and for functionals, which write the initial data whatever the setting says: C119_fails is a concrete configuration, and the theorems C119_ignored_* say this for all of them (time windows excepted)."
  },
  {
   "property": "C120",
   "status": "partial",
   "theorems": [
    "Verif.Props.PyPlot.C120_line_partial",
    "Verif.Props.PyPlot.C120_line_misplaced",
    "Verif.Props.PyPlot.C120_mesh_partial",
    "Verif.Props.PyPlot.C120_mesh_misplaced",
    "Verif.Props.PyPlot.C120_third_direction_lost",
    "Verif.Props.PyPlot.C120_first_direction_needed",
    "Verif.Props.PyPlot.C120_fails"
   ],
   "note": "All values are drawn in their order (C120_line_partial, C120_mesh_partial), but not at the midpoints: C120_fails is a witness with two cells, C120_line_misplaced and C120_mesh_misplaced give the displacement for all runs."
  }
 ]
}