{
 "claims": [
  {
   "property": "C01",
   "status": "proved",
   "theorems": [
    "Ryujin.C01_newton_bracket_decreasing",
    "Ryujin.C01_newton_bracket_increasing",
    "Ryujin.C01_newton_exact_on_quadratics",
    "Ryujin.C01_newton_nested"
   ],
   "note": "Nesting for all inputs; bracketing for every 3-convex or 3-concave function in exact arithmetic (eps = 0), both signs; exactness on quadratics."
  },
  {
   "property": "C02",
   "status": "proved",
   "theorems": [
    "Ryujin.Aeos.C02_aeos_limit_range",
    "Ryujin.Euler.C02_euler_limit_no_needless_limiting",
    "Ryujin.Euler.C02_euler_limit_range",
    "Ryujin.Scalar.C02_scalar_limit_no_needless_limiting",
    "Ryujin.Scalar.C02_scalar_limit_range",
    "Ryujin.ShallowWater.C02_sw_limit_le_depthLimit",
    "Ryujin.ShallowWater.C02_sw_limit_needless_limiting_violation",
    "Ryujin.ShallowWater.C02_sw_limit_no_needless_limiting_partial",
    "Ryujin.ShallowWater.C02_sw_limit_range"
   ],
   "note": "All four equations: t_min <= t <= t_max for every SIMD width, every lane, every number of Newton iterations. In addition: no needless limiting (Euler, scalar, shallow water with at least one stage on); C02_sw_limit_needless_limiting_violation shows that the shallow water limiter returns t_min for every input when both stages are off."
  },
  {
   "property": "C03",
   "status": "proved",
   "theorems": [
    "Ryujin.Aeos.C03_aeos_limit_density",
    "Ryujin.Euler.C03_euler_limit_density"
   ],
   "note": "Density of U + t P in [rho_min, rho_max] for Euler and AEOS, all lanes, all iteration counts, all eps."
  },
  {
   "property": "C04",
   "status": "partial",
   "theorems": [
    "Ryujin.Scalar.C04_scalar_limit_bounds_partial",
    "Ryujin.Scalar.C04_scalar_limit_bounds_relaxed",
    "Ryujin.Scalar.C04_scalar_limit_violation"
   ],
   "note": "Proved for u_max >= 0 (or exact arithmetic); the claim is false for u_max < 0 because eps * u_max is negative: C04_scalar_limit_violation exhibits a violation."
  },
  {
   "property": "C05",
   "status": "proved",
   "theorems": [
    "Ryujin.ShallowWater.C05_sw_limit_depth",
    "Ryujin.ShallowWater.C05_sw_limit_dry",
    "Ryujin.ShallowWater.C05_sw_limit_nonneg"
   ],
   "note": "All limiter configurations, all lanes, all eps."
  },
  {
   "property": "C06",
   "status": "proved",
   "theorems": [
    "Ryujin.Aeos.C06_aeos_bounds",
    "Ryujin.Euler.C06_euler_bounds",
    "Ryujin.Scalar.C06_scalar_bounds",
    "Ryujin.ShallowWater.C06_sw_bounds"
   ],
   "note": "All four equations."
  },
  {
   "property": "C07",
   "status": "partial",
   "theorems": [
    "Ryujin.Aeos.C07_aeos_accumulate_exact",
    "Ryujin.Aeos.C07_aeos_accumulate_perm",
    "Ryujin.Aeos.C07_aeos_combine",
    "Ryujin.Aeos.C07_aeos_combine_admits_partial",
    "Ryujin.Aeos.C07_aeos_combine_admits_violation",
    "Ryujin.Euler.C07_euler_accumulate_exact",
    "Ryujin.Euler.C07_euler_accumulate_perm",
    "Ryujin.Euler.C07_euler_combine",
    "Ryujin.Scalar.C07_scalar_accumulate_exact",
    "Ryujin.Scalar.C07_scalar_accumulate_perm",
    "Ryujin.Scalar.C07_scalar_combine",
    "Ryujin.ShallowWater.C07_sw_accumulate_bounds",
    "Ryujin.ShallowWater.C07_sw_accumulate_perm",
    "Ryujin.ShallowWater.C07_sw_combine_admits_partial",
    "Ryujin.ShallowWater.C07_sw_combine_violation"
   ],
   "note": "Euler and scalar in full. The AEOS combination does not admit every admitted state (C07_aeos_combine_admits_violation), and the shallow water combination mixes up the kinetic energy bound with the depth bound (C07_sw_combine_violation)."
  },
  {
   "property": "C08",
   "status": "proved",
   "theorems": [
    "Ryujin.Aeos.C08_aeos_indicator",
    "Ryujin.Aeos.C08_aeos_indicator_constant",
    "Ryujin.Aeos.C08_aeos_indicator_denominator_pos",
    "Ryujin.Euler.C08_euler_indicator",
    "Ryujin.Euler.C08_euler_indicator_constant",
    "Ryujin.Euler.C08_euler_indicator_denominator_pos",
    "Ryujin.Scalar.C08_scalar_indicator",
    "Ryujin.Scalar.C08_scalar_indicator_constant",
    "Ryujin.Scalar.C08_scalar_indicator_denominator_pos",
    "Ryujin.ShallowWater.C08_sw_indicator",
    "Ryujin.ShallowWater.C08_sw_indicator_constant"
   ],
   "note": "Scalar, shallow water, Euler and Euler with an arbitrary equation of state."
  },
  {
   "property": "C09",
   "status": "partial",
   "theorems": [
    "Ryujin.Aeos.C09_aeos_characteristic",
    "Ryujin.Euler.C09_euler_characteristic",
    "Ryujin.Euler.C09_euler_nonneg",
    "Ryujin.Scalar.C09_scalar_burgers_convex",
    "Ryujin.Scalar.C09_scalar_characteristic",
    "Ryujin.Scalar.C09_scalar_entropy",
    "Ryujin.Scalar.C09_scalar_kpp_violation",
    "Ryujin.Scalar.C09_scalar_nonneg",
    "Ryujin.Scalar.C09_scalar_roe_convex",
    "Ryujin.Scalar.C09_scalar_roe_separated",
    "Ryujin.ShallowWater.C09_sw_characteristic",
    "Ryujin.ShallowWater.C09_sw_characteristic_wet"
   ],
   "note": "Scalar, shallow water, Euler and Euler with an arbitrary equation of state; violated for the non-convex KPP flux when the states are closer than 2 delta (C09_scalar_kpp_violation)."
  },
  {
   "property": "C10",
   "status": "partial",
   "theorems": [
    "Ryujin.Aeos.C10_aeos_swap_partial",
    "Ryujin.Aeos.C10_aeos_swap_violation",
    "Ryujin.Euler.C10_euler_swap",
    "Ryujin.Scalar.C10_scalar_swap",
    "Ryujin.ShallowWater.C10_sw_swap"
   ],
   "note": "Scalar, shallow water, Euler; arbitrary equation of state for different pressures, gamma <= 5/3 or strict bounds with p_infty = 0; violated for equal pressures otherwise (C10_aeos_swap_violation)."
  },
  {
   "property": "C11",
   "status": "proved",
   "theorems": [
    "Ryujin.Hyp.C11_diagonal",
    "Ryujin.Hyp.C11_step_tau",
    "Ryujin.Hyp.C11_tau_max",
    "Ryujin.Hyp.C11_viscosity",
    "Ryujin.Hyp.C11_viscosity_nonneg",
    "Ryujin.Hyp.C11_viscosity_symmetric_one_rank"
   ],
   "note": "Symmetry and lower bound for every mesh, SIMD grouping, distribution over ranks and stale matrix content, given the reversal symmetry C10; diagonal, tau_max (least element) and positivity."
  },
  {
   "property": "C12",
   "status": "proved",
   "theorems": [
    "Ryujin.C12_bounded_work",
    "Ryujin.C12_never_increases",
    "Ryujin.C12_no_deadlock",
    "Ryujin.C12_reduction_is_minimum",
    "Ryujin.C12_schedule_independent"
   ],
   "note": "All thread counts, local values, schedules and failures; sequentially consistent atomics. Also lock freedom: at most n(n+2) non-spurious steps."
  },
  {
   "property": "C13",
   "status": "partial",
   "theorems": [
    "Ryujin.C13_aeos_step_conserves",
    "Ryujin.C13_euler_step_conserves",
    "Ryujin.C13_scalar_random_violation",
    "Ryujin.C13_scalar_step_conserves",
    "Ryujin.C13_sw_step_conserves_depth",
    "Ryujin.Euler.C13_euler_solver_conserves",
    "Ryujin.Hyp.C13_step_conserves",
    "Ryujin.Hyp.C13_step_conserves_of_symmetric"
   ],
   "note": "Every description with antisymmetric fluxes and symmetric viscosity; instances for all four equations, all components (shallow water: depth). For the Euler equations also with the Riemann solver of the code (C13_euler_solver_conserves, no Newton iterations). Violated for the scalar equation with random entropies on several ranks: C13_scalar_random_violation."
  },
  {
   "property": "C14",
   "status": "proved",
   "theorems": [
    "Ryujin.Hyp.C14_low_order_convex"
   ],
   "note": "Central fluxes (Euler, AEOS, scalar); assumes that no viscosity is positive but below 100 min()."
  },
  {
   "property": "C15",
   "status": "proved",
   "theorems": [
    "Ryujin.Hyp.C15_limited_update"
   ],
   "note": "Zero, one or two passes (the code allows no more)."
  },
  {
   "property": "C16",
   "status": "proved",
   "theorems": [
    "Ryujin.Scalar.C16_scalar_maximum_principle"
   ],
   "note": "All fluxes with Roe domination (C09), cG local, dG global; non-negative values or eps = 0."
  },
  {
   "property": "C17",
   "status": "partial",
   "theorems": [
    "Ryujin.Euler.C17_boundary_row_violation",
    "Ryujin.Hyp.C17_unlimited_step_interior",
    "Ryujin.Hyp.C17_unlimited_step_no_stages",
    "Ryujin.Hyp.C17_unlimited_step_partial"
   ],
   "note": "Exact formula: the code misses the diagonal correction P_ii; equal to the high-order update without stages and for interior rows. C17_boundary_row_violation: with stages, rows at the boundary are not the high-order update although no coefficient is limited."
  },
  {
   "property": "C18",
   "status": "proved",
   "theorems": [
    "Ryujin.Hyp.C18_violations_reported",
    "Ryujin.Hyp.C18_warn_returns"
   ],
   "note": ""
  },
  {
   "property": "C19",
   "status": "proved",
   "theorems": [
    "Ryujin.Integrator.C19_erk_11",
    "Ryujin.Integrator.C19_erk_22",
    "Ryujin.Integrator.C19_erk_33",
    "Ryujin.Integrator.C19_erk_43",
    "Ryujin.Integrator.C19_erk_54",
    "Ryujin.Integrator.C19_imex_aborts",
    "Ryujin.Integrator.C19_ssprk_22",
    "Ryujin.Integrator.C19_ssprk_33",
    "Ryujin.Integrator.C19_stage_times",
    "Ryujin.Integrator.C19_strang"
   ],
   "note": "All 13 schemes: tableaux, orders, Strang splitting, stage times; imex_22 and imex_33 always abort in the code (C19_imex_aborts)."
  },
  {
   "property": "C20",
   "status": "proved",
   "theorems": [
    "Ryujin.Integrator.C20_hyperbolic_no_overshoot",
    "Ryujin.Integrator.C20_hyperbolic_progress",
    "Ryujin.Integrator.C20_no_overshoot",
    "Ryujin.Integrator.C20_progress"
   ],
   "note": "All schemes and recovery strategies; instantiated with the model of HyperbolicModule::step. Also positivity of the step."
  },
  {
   "property": "C21",
   "status": "proved",
   "theorems": [
    "Ryujin.Integrator.C21_boundary_applied_twice_violation",
    "Ryujin.Integrator.C21_history_free",
    "Ryujin.Integrator.C21_hyperbolic_no_restart_escapes",
    "Ryujin.Integrator.C21_no_recovery",
    "Ryujin.Integrator.C21_no_restart_escapes",
    "Ryujin.Integrator.C21_none_aborts",
    "Ryujin.Integrator.C21_recovery_clean"
   ],
   "note": "All failure patterns and schemes. C21_boundary_applied_twice_violation shows that the second application of the boundary conditions is visible at a corner with two slip conditions."
  },
  {
   "property": "C22",
   "status": "proved",
   "theorems": [
    "Ryujin.Integrator.C22_hyperbolic_no_stale_reads",
    "Ryujin.Integrator.C22_no_stale_reads",
    "Ryujin.Integrator.C22_prepared",
    "Ryujin.Integrator.C22_result",
    "Ryujin.Integrator.C22_slots"
   ],
   "note": "All schemes; instantiated with the model of HyperbolicModule::step."
  },
  {
   "property": "C23",
   "status": "proved",
   "theorems": [
    "Ryujin.TimeLoop.C23_catches_up",
    "Ryujin.TimeLoop.C23_consecutive",
    "Ryujin.TimeLoop.C23_exactly_when_due",
    "Ryujin.TimeLoop.C23_in_order",
    "Ryujin.TimeLoop.C23_never_early"
   ],
   "note": "All runs, granularities and step sequences; outputs counted per file name."
  },
  {
   "property": "C24",
   "status": "proved",
   "theorems": [
    "Ryujin.TimeLoop.C24_integrator_no_overshoot",
    "Ryujin.TimeLoop.C24_no_overshoot",
    "Ryujin.TimeLoop.C24_not_early",
    "Ryujin.TimeLoop.C24_terminates"
   ],
   "note": "Termination bound, final time and no overshoot; real arithmetic, so the roundoff relaxation 10 eps is a parameter."
  },
  {
   "property": "C25",
   "status": "partial",
   "theorems": [
    "Ryujin.TimeLoop.C25_adaptation_repeated_violation",
    "Ryujin.TimeLoop.C25_analytic_checkpoint_violation",
    "Ryujin.TimeLoop.C25_at_zero",
    "Ryujin.TimeLoop.C25_integrator_restartable",
    "Ryujin.TimeLoop.C25_resume_partial",
    "Ryujin.TimeLoop.C25_state_vector"
   ],
   "note": "Equivalence of resumed and uninterrupted runs without error computation and before any mesh adaptation. C25_analytic_checkpoint_violation: with error computation the analytic state is checkpointed. C25_adaptation_repeated_violation: a restart repeats past mesh adaptations. deal.II serialisation of scalar vectors and meshes is trusted."
  },
  {
   "property": "C26",
   "status": "partial",
   "theorems": [
    "Ryujin.TimeLoop.C26_crash_partial",
    "Ryujin.TimeLoop.C26_mixed_sets_violation",
    "Ryujin.TimeLoop.C26_second_crash_violation",
    "Ryujin.TimeLoop.C26_uninterrupted"
   ],
   "note": "Every file of the last good checkpoint survives one crash; a usable set survives unless the crash falls between the renames (C26_mixed_sets_violation) or follows another crash (C26_second_crash_violation)."
  },
  {
   "property": "C27",
   "status": "proved",
   "theorems": [
    "Ryujin.Multi.C27_add",
    "Ryujin.Multi.C27_extract",
    "Ryujin.Multi.C27_insert",
    "Ryujin.Multi.C27_partitioner",
    "Ryujin.Multi.C27_round_trip",
    "Ryujin.Multi.C27_vectorised_add",
    "Ryujin.Multi.C27_vectorised_read",
    "Ryujin.Multi.C27_vectorised_write",
    "Ryujin.Multi.C27_write_read"
   ],
   "note": "All data, all indices, any number of components and SIMD length; partitioner for every owned range and ghost interval set. Floating point storage is an arbitrary type."
  },
  {
   "property": "C28",
   "status": "proved",
   "theorems": [
    "Ryujin.Sparse.C28_columns",
    "Ryujin.Sparse.C28_in_bounds",
    "Ryujin.Sparse.C28_no_aliasing",
    "Ryujin.Sparse.C28_read_in",
    "Ryujin.Sparse.C28_reinit_some_iff",
    "Ryujin.Sparse.C28_row_length",
    "Ryujin.Sparse.C28_vectorised_read",
    "Ryujin.Sparse.C28_vectorised_write",
    "Ryujin.Sparse.C28_write_read"
   ],
   "note": "Layout of the SIMD sparse matrix: row lengths, columns, bounds, absence of aliasing, write/read consistency, vectorised and scalar access agree, read_in."
  },
  {
   "property": "C29",
   "status": "proved",
   "theorems": [
    "Ryujin.Sparse.C29_symmetric",
    "Ryujin.Sparse.C29_transposed",
    "Ryujin.Sparse.C29_transposed_vectorised"
   ],
   "note": "Transposed access, scalar and vectorised; symmetric pattern."
  },
  {
   "property": "C30",
   "status": "partial",
   "theorems": [
    "Ryujin.Sparse.C30_ghost_rows_partial",
    "Ryujin.Sparse.C30_messages_match_partial",
    "Ryujin.Sparse.C30_owned_rows",
    "Ryujin.Sparse.C30_setup_assertion",
    "Ryujin.Sparse.C30_setup_compatible",
    "Ryujin.Sparse.C30_setup_consistent",
    "Ryujin.Sparse.C30_setup_minimal",
    "Ryujin.Sparse.C30_stale_diagonal_violation",
    "Ryujin.Sparse.C30_unmatched_receive_violation"
   ],
   "note": "Every entry of every ghost row, all ranks and layouts, except the diagonal of ghost rows whose owner has no ghosts of the receiver (C30_stale_diagonal_violation); ranks without ghosts send nothing (C30_unmatched_receive_violation). The assumptions on partitioners and pattern are proved for the set-up in C30_setup_*."
  },
  {
   "property": "C31",
   "status": "proved",
   "theorems": [
    "Ryujin.Renumbering.C31_consistent_stride_range",
    "Ryujin.Renumbering.C31_export_indices_first",
    "Ryujin.Renumbering.C31_inconsistent_strides_last",
    "Ryujin.Renumbering.C31_internal_range"
   ],
   "note": "Both renumbering passes and both range scans, for every pattern, set of exported indices and group size."
  },
  {
   "property": "C32",
   "status": "partial",
   "theorems": [
    "Ryujin.Renumbering.C32_constrained_partial",
    "Ryujin.Renumbering.C32_straddling_violation",
    "Ryujin.Renumbering.C32_unconstrained"
   ],
   "note": "Without constraints the property holds; with constraints it holds when no import interval straddles the internal range. C32_straddling_violation shows that the code as written fails otherwise."
  },
  {
   "property": "C33",
   "status": "proved",
   "theorems": [
    "Ryujin.C33_created_once",
    "Ryujin.C33_no_deadlock",
    "Ryujin.C33_retry",
    "Ryujin.C33_same_value",
    "Ryujin.C33_throw_leaves_uninitialised"
   ],
   "note": "All thread counts, schedules, throwing creators and constructors; reset() only while no thread is inside, as documented."
  },
  {
   "property": "C34",
   "status": "proved",
   "theorems": [
    "Ryujin.C34_all_computed",
    "Ryujin.C34_all_signalled",
    "Ryujin.C34_exported_before_payload",
    "Ryujin.C34_needs_ascending_order",
    "Ryujin.C34_payload_once",
    "Ryujin.C34_start_recorded"
   ],
   "note": "All thread counts, schedules and distributions of the indices in ascending order per thread (OpenMP static or monotonic schedules); C34_needs_ascending_order shows that this is needed."
  },
  {
   "property": "C35",
   "status": "partial",
   "theorems": [
    "Ryujin.Eos.C35_aeos_initial_state",
    "Ryujin.Eos.C35_aeos_roundtrip",
    "Ryujin.Euler.C35_euler_roundtrip",
    "Ryujin.ShallowWater.C35_sw_roundtrip_partial",
    "Ryujin.ShallowWater.C35_sw_roundtrip_violation"
   ],
   "note": "Euler in full; shallow water above the dry threshold, violated below it (C35_sw_roundtrip_violation). Arbitrary equation of state in full, including the pressure of initial states."
  },
  {
   "property": "C36",
   "status": "proved",
   "theorems": [
    "Ryujin.Euler.C36_euler_no_slip",
    "Ryujin.Euler.C36_euler_slip",
    "Ryujin.Euler.C36_euler_slip_internal_energy",
    "Ryujin.ShallowWater.C36_sw_no_slip",
    "Ryujin.ShallowWater.C36_sw_slip"
   ],
   "note": "Euler and shallow water."
  },
  {
   "property": "C37",
   "status": "proved",
   "theorems": [
    "Ryujin.Euler.C37_euler_dynamic",
    "Ryujin.Euler.C37_euler_riemann_characteristic",
    "Ryujin.ShallowWater.C37_sw_dynamic",
    "Ryujin.ShallowWater.C37_sw_riemann_characteristic"
   ],
   "note": "Euler and shallow water, both characteristics, plus the case distinction of the dynamic boundary condition."
  },
  {
   "property": "C38",
   "status": "partial",
   "theorems": [
    "Ryujin.Assembly.C38_assembled_partial",
    "Ryujin.ShallowWater.C38_bounds",
    "Ryujin.ShallowWater.C38_high_order_front_violation",
    "Ryujin.ShallowWater.C38_high_order_partial",
    "Ryujin.ShallowWater.C38_limiter",
    "Ryujin.ShallowWater.C38_low_order_partial",
    "Ryujin.ShallowWater.C38_run_partial",
    "Ryujin.ShallowWater.C38_step_partial",
    "Ryujin.ShallowWater.C38_thin_film_violation",
    "Ryujin.ShallowWater.C38_walls"
   ],
   "note": "Low-order update, limiter, bounds and complete step for every lake with wet nodes above the mollification threshold and dry nodes; unlimited high-order update away from wet/dry fronts (C38_high_order_front_violation shows it fails there). C38_thin_film_violation: films thinner than the threshold are not preserved. C38_run_partial, C38_assembled_partial: complete runs with any explicit scheme between walls, also on matrices assembled from a finite element space."
  },
  {
   "property": "C39",
   "status": "proved",
   "theorems": [
    "Ryujin.ShallowWater.C39_sw_friction"
   ],
   "note": "For every step size, also for dry states."
  },
  {
   "property": "C40",
   "status": "proved",
   "theorems": [
    "Ryujin.ShallowWater.C40_sw_star_state"
   ],
   "note": "For all states, wet and dry."
  },
  {
   "property": "C41",
   "status": "proved",
   "theorems": [
    "Ryujin.TimeLoop.C41_adaptation_schedule"
   ],
   "note": "Fresh runs with non-negative time steps. Restarts repeat adaptations, see C25."
  },
  {
   "property": "C42",
   "status": "proved",
   "theorems": [
    "Ryujin.Configuration.C42_drivers",
    "Ryujin.Configuration.C42_exactly_one",
    "Ryujin.Configuration.C42_never_two"
   ],
   "note": "All lists of registered drivers and parameter values, including time loops that throw; all registration orders of the drivers in the repository."
  },
  {
   "property": "C43",
   "status": "proved",
   "theorems": [
    "Ryujin.Configuration.C43_round_trip",
    "Ryujin.Configuration.C43_tables"
   ],
   "note": "All strings, all unambiguous tables; the seven declared tables are shown to be unambiguous and complete."
  },
  {
   "property": "C44",
   "status": "proved",
   "theorems": [
    "Ryujin.Configuration.C44_check",
    "Ryujin.Configuration.C44_denotes_unique",
    "Ryujin.Configuration.C44_extracted"
   ],
   "note": "All selections and name lists. Component-wise copies are C27; values are those on locally owned degrees of freedom."
  },
  {
   "property": "C45",
   "status": "partial",
   "theorems": [
    "Ryujin.Postprocessor.C45_bounds",
    "Ryujin.Postprocessor.C45_history_partial",
    "Ryujin.Postprocessor.C45_history_violation",
    "Ryujin.Postprocessor.C45_minimum",
    "Ryujin.Postprocessor.C45_monotone",
    "Ryujin.Postprocessor.C45_output",
    "Ryujin.Postprocessor.C45_output_range",
    "Ryujin.Postprocessor.C45_range",
    "Ryujin.Postprocessor.C45_schlieren",
    "Ryujin.Postprocessor.C45_sign"
   ],
   "note": "All vectors, ranks, bounds and factors beta >= 0. Independence of earlier calls fails on meshes with constrained rows: C45_history_violation."
  },
  {
   "property": "C46",
   "status": "proved",
   "theorems": [
    "Ryujin.Quantities.C46_affine",
    "Ryujin.Quantities.C46_between",
    "Ryujin.Quantities.C46_gap_violation",
    "Ryujin.Quantities.C46_instantaneous",
    "Ryujin.Quantities.C46_repeated_zero_violation",
    "Ryujin.Quantities.C46_spatial_average",
    "Ryujin.Quantities.C46_time_average",
    "Ryujin.Quantities.C46_time_loop",
    "Ryujin.Quantities.C46_time_loop_no_error"
   ],
   "note": "All histories of samples, write-outs and resets with at most one sample at time zero, which every run of the time loop with positive steps satisfies (C46_time_loop). Spatial averages for all distributions of points over ranks."
  },
  {
   "property": "C47",
   "status": "partial",
   "theorems": [
    "Ryujin.InitialValues.C47_direction2",
    "Ryujin.InitialValues.C47_direction3_concrete_violation",
    "Ryujin.InitialValues.C47_direction3_partial",
    "Ryujin.InitialValues.C47_direction3_violation",
    "Ryujin.InitialValues.C47_initial_state",
    "Ryujin.InitialValues.C47_inverse",
    "Ryujin.InitialValues.C47_isometry",
    "Ryujin.InitialValues.C47_normalized"
   ],
   "note": "Inverse, isometry and preservation of thermodynamic quantities in dimensions 2 and 3 for all directions; the direction is mapped to the x axis in 2D, and in 3D exactly in the cases of C47_direction3_partial: otherwise C47_direction3_violation."
  },
  {
   "property": "C48",
   "status": "partial",
   "theorems": [
    "Ryujin.BoundaryMap.C48_coupling_pairs",
    "Ryujin.BoundaryMap.C48_coupling_pairs_nodup",
    "Ryujin.BoundaryMap.C48_double_count_violation",
    "Ryujin.BoundaryMap.C48_ids",
    "Ryujin.BoundaryMap.C48_local",
    "Ryujin.BoundaryMap.C48_mass_ge",
    "Ryujin.BoundaryMap.C48_merger",
    "Ryujin.BoundaryMap.C48_nonempty",
    "Ryujin.BoundaryMap.C48_normal_length",
    "Ryujin.BoundaryMap.C48_order_partial",
    "Ryujin.BoundaryMap.C48_order_violation",
    "Ryujin.BoundaryMap.C48_single_entry_partial",
    "Ryujin.BoundaryMap.C48_slip_corner"
   ],
   "note": "Everything but \"counted once, separated, order independent\" in full; these hold when contributions of one id are pairwise within 60 degrees, and fail in general (C48_double_count_violation, C48_order_violation)."
  },
  {
   "property": "C49",
   "status": "proved",
   "theorems": [
    "Ryujin.Eos.C49_gamma_gt_one",
    "Ryujin.Eos.C49_nasg_exact",
    "Ryujin.Eos.C49_polytropic_exact",
    "Ryujin.Eos.C49_surrogate_gamma",
    "Ryujin.Eos.C49_surrogate_pressure",
    "Ryujin.Eos.C49_vdw_gamma"
   ],
   "note": "Both directions, plus exactness for the Noble-Abel stiffened and polytropic gases and gamma > 1 for the van der Waals gas."
  },
  {
   "property": "C50",
   "status": "partial",
   "theorems": [
    "Ryujin.Eos.C50_cycle0",
    "Ryujin.Eos.C50_cycle1",
    "Ryujin.Eos.C50_cycle1_order",
    "Ryujin.Eos.C50_early_exchange_violation",
    "Ryujin.Eos.C50_exchange_complete",
    "Ryujin.Eos.C50_offset_violation",
    "Ryujin.Eos.C50_scalar_variant",
    "Ryujin.Eos.C50_vector_variant_partial",
    "Ryujin.Eos.C50_vector_variant_zero_partial"
   ],
   "note": "The variant per degree of freedom is proved in full, including the start of the ghost exchange and the minimum over the stencil in any processing order. The vector variant is right only for ranges starting at zero; violated for [n_internal, n_owned) (C50_offset_violation, C50_early_exchange_violation)."
  },
  {
   "property": "C51",
   "status": "partial",
   "theorems": [
    "Ryujin.Eos.C51_array",
    "Ryujin.Eos.C51_initial_pressure",
    "Ryujin.Eos.C51_jwl_partial",
    "Ryujin.Eos.C51_jwl_violation",
    "Ryujin.Eos.C51_nasg",
    "Ryujin.Eos.C51_polytropic",
    "Ryujin.Eos.C51_vdw"
   ],
   "note": "Polytropic, Noble-Abel stiffened, van der Waals in full; Jones-Wilkins-Lee for q_0 = 0, violated otherwise (C51_jwl_violation)."
  },
  {
   "property": "C52",
   "status": "proved",
   "theorems": [
    "Ryujin.Euler.C52_euler_eigenvectors",
    "Ryujin.Euler.C52_euler_flux",
    "Ryujin.Euler.C52_euler_flux_antisymmetric",
    "Ryujin.Euler.C52_euler_flux_consistent",
    "Ryujin.Euler.C52_euler_flux_galilei",
    "Ryujin.Euler.C52_euler_flux_jacobian",
    "Ryujin.Euler.C52_euler_flux_rotation"
   ],
   "note": "Flux formula, antisymmetry, rotations, Galilei boosts; the linearised eigenvectors are left and right eigenvectors of the derivative of the flux, biorthonormal."
  },
  {
   "property": "C53",
   "status": "partial",
   "theorems": [
    "Ryujin.Aeos.C53_aeos_limit_entropy_partial",
    "Ryujin.Euler.C53_euler_limit_entropy_partial",
    "Ryujin.Euler.C53_euler_limit_positivity_partial",
    "Ryujin.Euler.C53_euler_limit_relaxation_violation",
    "Ryujin.Euler.C53_euler_limit_relaxed_partial"
   ],
   "note": "Exact minimum principle proved for exact arithmetic (eps = 0). Violated for eps > 0 (C53_euler_limit_relaxation_violation): the limiter accepts updates whose entropy, enlarged by the factor 1 + vacuum_small eps, exceeds the bound; C53_euler_limit_relaxed_partial gives the principle up to this factor for accepted updates. Missing: the relaxed principle for the iterates of the quadratic Newton method with eps > 0."
  },
  {
   "property": "C54",
   "status": "partial",
   "theorems": [
    "Ryujin.Aeos.C54_aeos_rho_max_partial",
    "Ryujin.Aeos.C54_aeos_rho_max_violation"
   ],
   "note": "Holds without relaxation; violated with relaxation (C54_aeos_rho_max_violation)."
  },
  {
   "property": "C55",
   "status": "partial",
   "theorems": [
    "Ryujin.ShallowWater.C55_sw_limit_kinetic_partial",
    "Ryujin.ShallowWater.C55_sw_limit_velocity_partial",
    "Ryujin.ShallowWater.C55_sw_wrong_derivative"
   ],
   "note": "Exact arithmetic (eps = 0); C55_sw_wrong_derivative documents that the derivative used by the code is wrong."
  },
  {
   "property": "C56",
   "status": "proved",
   "theorems": [
    "Ryujin.ShallowWater.C56_sw_h_star_bound",
    "Ryujin.ShallowWater.C56_sw_max_wavespeed"
   ],
   "note": "All wet states."
  },
  {
   "property": "C57",
   "status": "proved",
   "theorems": [
    "Ryujin.Integrator.C57_hyperbolic_conserves",
    "Ryujin.Integrator.C57_schemes_conserve"
   ],
   "note": "All schemes; instance for the hyperbolic module on closed meshes."
  },
  {
   "property": "C58",
   "status": "proved",
   "theorems": [
    "Ryujin.Integrator.C58_schemes_invariant",
    "Ryujin.Integrator.C58_strang_violation"
   ],
   "note": "Explicit schemes; C58_strang_violation for the Strang schemes."
  },
  {
   "property": "C59",
   "status": "proved",
   "theorems": [
    "Ryujin.Hyp.C59_step_congr",
    "Ryujin.Hyp.C59_step_congr_cG"
   ],
   "note": "All descriptions, meshes with symmetric stencil; dG: for a fixed row schedule of step 5."
  },
  {
   "property": "C60",
   "status": "proved",
   "theorems": [
    "Ryujin.Aeos.C60_aeos_no_false_alarm",
    "Ryujin.Aeos.C60_aeos_success_density",
    "Ryujin.Aeos.C60_aeos_violation_density",
    "Ryujin.Aeos.C60_aeos_violation_entropy",
    "Ryujin.Euler.C60_euler_no_false_alarm",
    "Ryujin.Euler.C60_euler_success_density",
    "Ryujin.Euler.C60_euler_unreported_violation",
    "Ryujin.Euler.C60_euler_violation_density",
    "Ryujin.Euler.C60_euler_violation_entropy",
    "Ryujin.Scalar.C60_scalar_no_false_alarm",
    "Ryujin.Scalar.C60_scalar_success_iff",
    "Ryujin.ShallowWater.C60_sw_success_depth",
    "Ryujin.ShallowWater.C60_sw_violation_depth"
   ],
   "note": "Four limiters; C60_euler_unreported_violation: the early exit skips the entropy check. Shallow water: depth part of the flag."
  },
  {
   "property": "C61",
   "status": "partial",
   "theorems": [
    "Ryujin.Quantities.C61_adaptation_loses_samples_violation",
    "Ryujin.Quantities.C61_series_header_violation",
    "Ryujin.Quantities.C61_series_partial"
   ],
   "note": "Proved without mesh adaptation; adaptation discards unwritten samples, and only the first space averaged manifold gets a fresh file with a header."
  },
  {
   "property": "C62",
   "status": "partial",
   "theorems": [
    "Ryujin.Eos.C62_jwl_default_violation",
    "Ryujin.Eos.C62_jwl_offset_violation",
    "Ryujin.Eos.C62_jwl_partial",
    "Ryujin.Eos.C62_nasg",
    "Ryujin.Eos.C62_polytropic",
    "Ryujin.Eos.C62_vdw"
   ],
   "note": "Polytropic, Noble-Abel stiffened, van der Waals in full; Jones-Wilkins-Lee only for omega = 1, q_0 = 0, violated for the default parameters (C62_jwl_default_violation)."
  },
  {
   "property": "C63",
   "status": "partial",
   "theorems": [
    "Ryujin.Eos.C63_jwl",
    "Ryujin.Eos.C63_polytropic_iff",
    "Ryujin.Eos.C63_stale_heat_capacity_violation",
    "Ryujin.Eos.C63_thermal_partial"
   ],
   "note": "Jones-Wilkins-Lee in full; the other three if cv = R/(gamma-1), which a parameter file with other constants violates (C63_stale_heat_capacity_violation)."
  },
  {
   "property": "C64",
   "status": "partial",
   "theorems": [
    "Ryujin.Euler.C64_euler_wave_speed_gamma_violation",
    "Ryujin.Euler.C64_euler_wave_speed_mixed_partial",
    "Ryujin.Euler.C64_euler_wave_speed_mixed_violation",
    "Ryujin.Euler.C64_euler_wave_speed_partial"
   ],
   "note": "Proved for two shocks or two rarefactions, 1 < gamma <= 5/3 and eps = 0; false for one shock and one rarefaction (C64_euler_wave_speed_mixed_violation) and for gamma = 3 (C64_euler_wave_speed_gamma_violation)."
  },
  {
   "property": "C65",
   "status": "proved",
   "theorems": [
    "Ryujin.Euler.C65_euler_bar_admissible",
    "Ryujin.Euler.C65_euler_low_order_admissible",
    "Ryujin.Euler.C65_euler_step_density"
   ],
   "note": "All gamma > 1, eps >= 0, lanes and Newton iterations, with the Riemann solver and limiter of the code. Hypotheses on the mesh: positive masses, row sums of c_ij zero, skew symmetry off the boundary, no viscosity that is positive but below 100 min(); relaxation radius < 1."
  },
  {
   "property": "C66",
   "status": "partial",
   "theorems": [
    "Ryujin.Euler.C66_euler_bar_entropy",
    "Ryujin.Euler.C66_euler_dominates_partial",
    "Ryujin.Euler.C66_euler_exact_solution_exists"
   ],
   "note": "Minimum principle in full for wave speeds that bound the exact ones; the solver provides such speeds for two rarefactions or vacuum (all gamma), two shocks or a star pressure below the failsafe pressure (gamma <= 5/3, eps = 0)."
  },
  {
   "property": "C67",
   "status": "partial",
   "theorems": [
    "Ryujin.Euler.C67_euler_step_invariant_domain_partial"
   ],
   "note": "Full step, exact arithmetic (eps = 0 in the limiter), under the assumption that the wave speeds of the pairs bound the exact ones (C64/C66); the code violates this assumption for some pairs with one shock and one rarefaction."
  },
  {
   "property": "C68",
   "status": "partial",
   "theorems": [
    "Ryujin.Aeos.C68_aeos_wave_speed_partial",
    "Ryujin.Aeos.C68_aeos_wave_speed_violation"
   ],
   "note": "Both modes, all gamma_i, gamma_j > 1 and covolumes: p_infty = 0, or a solution with at most one shock. Violated for p_infty > 0 and two shocks (C68_aeos_wave_speed_violation)."
  },
  {
   "property": "C69",
   "status": "partial",
   "theorems": [
    "Ryujin.Aeos.C69_aeos_bar_admissible",
    "Ryujin.Aeos.C69_aeos_bar_admissible_exact",
    "Ryujin.Aeos.C69_aeos_dominates_partial"
   ],
   "note": "Everything for p_infty = 0 (both modes, all covolumes and gases); for p_infty > 0 under the assumption that the speed bounds the exact ones, which holds unless the exact solution has two shocks (C69_aeos_dominates_partial, C68_aeos_wave_speed_violation)."
  },
  {
   "property": "C70",
   "status": "partial",
   "theorems": [
    "Ryujin.Aeos.C70_aeos_covolume_violation",
    "Ryujin.Aeos.C70_aeos_low_order_admissible",
    "Ryujin.Aeos.C70_aeos_step_density",
    "Ryujin.Aeos.C70_aeos_step_invariant_domain_partial"
   ],
   "note": "Density for cG and dG in full; invariant domain for cG in exact arithmetic, with b = 0, or relaxation off, or the relaxed density bound below the covolume (the code does not ensure the latter: C70_aeos_covolume_violation). For p_infty > 0 the wave speeds are assumed to bound the exact ones."
  },
  {
   "property": "C71",
   "status": "proved",
   "theorems": [
    "Ryujin.NavierStokes.C71_density"
   ],
   "note": "All outcomes, all solvers."
  },
  {
   "property": "C72",
   "status": "partial",
   "theorems": [
    "Ryujin.NavierStokes.C72_angular_momentum",
    "Ryujin.NavierStokes.C72_energy_defect",
    "Ryujin.NavierStokes.C72_momentum",
    "Ryujin.NavierStokes.C72_rigid_motion",
    "Ryujin.NavierStokes.C72_total_energy"
   ],
   "note": "Exact solution of the two systems (C72_energy_defect states the error otherwise), unit slip normals (the code normalises up to a rounding constant, C48_normal_length), slip normals at one degree of freedom pairwise orthogonal; false otherwise (C75_oblique_edge_violation)."
  },
  {
   "property": "C73",
   "status": "partial",
   "theorems": [
    "Ryujin.NavierStokes.C73_constraint_violation",
    "Ryujin.NavierStokes.C73_minimum_partial",
    "Ryujin.NavierStokes.C73_nonnegative",
    "Ryujin.NavierStokes.C73_nonobtuse_accepted",
    "Ryujin.NavierStokes.C73_nonobtuse_minimum",
    "Ryujin.NavierStokes.C73_raise"
   ],
   "note": "Minimum in full for meshes without constraints and for nonobtuse meshes; nonnegativity and the exception strategy in full; violated with constraints (C73_constraint_violation)."
  },
  {
   "property": "C74",
   "status": "partial",
   "theorems": [
    "Ryujin.NavierStokes.C74_energy_unique",
    "Ryujin.NavierStokes.C74_step_completes",
    "Ryujin.NavierStokes.C74_velocity_unique"
   ],
   "note": "Slip normals of unit length and pairwise orthogonal at one degree of freedom."
  },
  {
   "property": "C75",
   "status": "partial",
   "theorems": [
    "Ryujin.NavierStokes.C75_dirichlet",
    "Ryujin.NavierStokes.C75_kinetic_energy",
    "Ryujin.NavierStokes.C75_oblique_edge_violation",
    "Ryujin.NavierStokes.C75_walls"
   ],
   "note": "Exact solution of the systems; slip normals of unit length and pairwise orthogonal at one degree of freedom; violated otherwise (C75_oblique_edge_violation)."
  },
  {
   "property": "C76",
   "status": "proved",
   "theorems": [
    "Ryujin.NavierStokes.C76_steady"
   ],
   "note": "For the exact solution of the two systems, unit slip normals pairwise orthogonal at a degree of freedom."
  },
  {
   "property": "C77",
   "status": "partial",
   "theorems": [
    "Ryujin.Euler.C77_euler_newton_accuracy_partial",
    "Ryujin.Euler.C77_euler_newton_monotone",
    "Ryujin.Euler.C77_euler_rarefactions_exact"
   ],
   "note": "Monotonicity and exactness for rarefactions in full; the accuracy statement for gamma <= 5/3, exact arithmetic and a sound start interval."
  },
  {
   "property": "C78",
   "status": "proved",
   "theorems": [
    "Ryujin.InitialValues.C78_perturbation_off",
    "Ryujin.InitialValues.C78_perturbation_positive",
    "Ryujin.InitialValues.C78_perturbation_size",
    "Ryujin.InitialValues.C78_perturbation_violation"
   ],
   "note": "The internal energy is not protected, which the statement excludes: C78_perturbation_violation."
  },
  {
   "property": "C79",
   "status": "proved",
   "theorems": [
    "Ryujin.InitialStates.C79_isentropic_vortex",
    "Ryujin.InitialStates.C79_smooth_wave",
    "Ryujin.InitialStates.C79_smooth_wave_eos"
   ],
   "note": "Vortex: (gamma-1) beta^2 e < 8 gamma pi^2, which the default parameters satisfy. Smooth wave: polytropic, Noble-Abel stiffened, van der Waals and JWL (without offset) equations of state meet the hypotheses (C79_smooth_wave_eos)."
  },
  {
   "property": "C80",
   "status": "partial",
   "theorems": [
    "Ryujin.InitialStates.C80_leblanc_defect",
    "Ryujin.InitialStates.C80_leblanc_partial",
    "Ryujin.InitialStates.C80_rarefaction"
   ],
   "note": "Rarefaction in full. LeBlanc uses decimal constants: the defects are bounded by 1e-16 and 1e-19 (C80_leblanc_defect)."
  },
  {
   "property": "C81",
   "status": "partial",
   "theorems": [
    "Ryujin.InitialStates.C81_icf_like_partial",
    "Ryujin.InitialStates.C81_icf_like_violation",
    "Ryujin.InitialStates.C81_shock_entropy",
    "Ryujin.InitialStates.C81_shock_front",
    "Ryujin.InitialStates.C81_shock_front_polytropic",
    "Ryujin.InitialStates.C81_shock_front_violation"
   ],
   "note": "Euler system and polytropic gas in full; violated with covolume (C81_shock_front_violation) and for the icf like state with gamma different from 7/5 (C81_icf_like_violation)."
  },
  {
   "property": "C82",
   "status": "partial",
   "theorems": [
    "Ryujin.InitialStates.C82_noh_inner",
    "Ryujin.InitialStates.C82_noh_outer",
    "Ryujin.InitialStates.C82_noh_shock",
    "Ryujin.InitialStates.C82_noh_violation"
   ],
   "note": "Behind the shock, at the shock and ahead of it, with an exact criterion; violated for reference velocity other than 1 in dimension >= 2 (C82_noh_violation). The number tiny added to the radius is taken to be 0 ahead of the shock."
  },
  {
   "property": "C84",
   "status": "partial",
   "theorems": [
    "Ryujin.InitialStates.C84_becker_admissible",
    "Ryujin.InitialStates.C84_becker_limits",
    "Ryujin.InitialStates.C84_becker_nan_violation",
    "Ryujin.InitialStates.C84_becker_root_finder",
    "Ryujin.InitialStates.C84_becker_root_finder_ends",
    "Ryujin.InitialStates.C84_becker_solution",
    "Ryujin.InitialStates.C84_becker_velocity"
   ],
   "note": "Exact root, uniqueness, limits and admissibility in full. The root finder ends (C84_becker_root_finder_ends) with the accuracy of C84_becker_root_finder; violated: C84_becker_nan_violation (exact arithmetic; with rounding the event is as unlikely as hitting one floating point number)."
  },
  {
   "property": "C85",
   "status": "proved",
   "theorems": [
    "Ryujin.InitialStates.C85_ramp_up",
    "Ryujin.InitialStates.C85_ramp_up_admissible",
    "Ryujin.InitialStates.C85_ramp_up_convex"
   ],
   "note": ""
  },
  {
   "property": "C83",
   "status": "partial",
   "theorems": [
    "Ryujin.ShallowWaterStates.C83_paraboloid_1d",
    "Ryujin.ShallowWaterStates.C83_paraboloid_1d_dry",
    "Ryujin.ShallowWaterStates.C83_paraboloid_1d_violation",
    "Ryujin.ShallowWaterStates.C83_paraboloid_2d",
    "Ryujin.ShallowWaterStates.C83_ritter",
    "Ryujin.ShallowWaterStates.C83_smooth_vortex",
    "Ryujin.ShallowWaterStates.C83_smooth_vortex_violation"
   ],
   "note": "Exact criteria at wet points, dry interior, continuity of the dam break. At the wet/dry front nothing is claimed. Violated for the 1D paraboloid with friction (C83_paraboloid_1d_violation) and for the travelling vortex with bathymetry (C83_smooth_vortex_violation)."
  },
  {
   "property": "C86",
   "status": "partial",
   "theorems": [
    "Ryujin.ShallowWaterStates.C86_bump_jump_violation",
    "Ryujin.ShallowWaterStates.C86_bump_subsonic",
    "Ryujin.ShallowWaterStates.C86_bump_transcritical_partial",
    "Ryujin.ShallowWaterStates.C86_bump_transcritical_violation",
    "Ryujin.ShallowWaterStates.C86_sloping_friction",
    "Ryujin.ShallowWaterStates.C86_three_bumps",
    "Ryujin.ShallowWaterStates.C86_three_bumps_dam"
   ],
   "note": "Sloping friction, subsonic bump and three bumps in full; transcritical bump up to the jump and behind the bump; violated between the jump at 11.7 and the end of the bump (C86_bump_transcritical_violation) and at the jump (C86_bump_jump_violation). Whether the two sides of the jump satisfy the jump conditions is not treated."
  },
  {
   "property": "C87",
   "status": "proved",
   "theorems": [
    "Ryujin.Assembly.C87_assembled_closed",
    "Ryujin.Assembly.C87_assembled_rowSum",
    "Ryujin.Assembly.C87_assembled_wellFormed",
    "Ryujin.Assembly.C87_euler_conserves",
    "Ryujin.Assembly.C87_incidence",
    "Ryujin.Assembly.C87_integration_by_parts",
    "Ryujin.Assembly.C87_linear_exact",
    "Ryujin.Assembly.C87_lumped_pos",
    "Ryujin.Assembly.C87_mass_inverse",
    "Ryujin.Assembly.C87_mass_matrix",
    "Ryujin.Assembly.C87_row_sum",
    "Ryujin.Assembly.C87_skew",
    "Ryujin.Assembly.C87_stencil_complete",
    "Ryujin.Assembly.C87_total_mass"
   ],
   "note": "Skew symmetry and integration by parts for meshes without hanging nodes (for dG the code requires this); the other statements for arbitrary constraints. deal.II (shape values, quadrature, constraints) enters through the hypotheses Consistent and Conforming. Conservation for the Riemann solver without Newton iterations."
  },
  {
   "property": "C88",
   "status": "partial",
   "theorems": [
    "Ryujin.Aeos.C88_aeos_admissible",
    "Ryujin.Euler.C88_euler_entropy",
    "Ryujin.Prepare.C88_aeos",
    "Ryujin.Prepare.C88_dynamic_violation",
    "Ryujin.Prepare.C88_euler",
    "Ryujin.Prepare.C88_euler_admissible",
    "Ryujin.Prepare.C88_interior",
    "Ryujin.Prepare.C88_last",
    "Ryujin.Prepare.C88_local",
    "Ryujin.Prepare.C88_oblique_violation",
    "Ryujin.Prepare.C88_order",
    "Ryujin.Prepare.C88_scalar",
    "Ryujin.Prepare.C88_shallow_water",
    "Ryujin.Prepare.C88_walls"
   ],
   "note": "Proved for orthogonal or parallel walls and for the stated class of dynamic data; violated for oblique edges in 3D (C88_oblique_violation) and for fast outflow data at dynamic boundaries (C88_dynamic_violation). The admissibility statement is given for the Euler equations and for any equation of state (C88_aeos_admissible); C88_euler_entropy: the pass also keeps lower bounds of the specific entropy. For the pass itself the entries of the boundary map are arbitrary; how they are computed is C48."
  },
  {
   "property": "C89",
   "status": "proved",
   "theorems": [
    "Ryujin.Aeos.C89_aeos_entropy_flux",
    "Ryujin.Aeos.C89_aeos_harten_gradient",
    "Ryujin.Aeos.C89_aeos_indicator_vanishes",
    "Ryujin.Aeos.C89_aeos_numerator",
    "Ryujin.Euler.C89_euler_entropy_flux",
    "Ryujin.Euler.C89_euler_harten_gradient",
    "Ryujin.Euler.C89_euler_indicator_vanishes",
    "Ryujin.Euler.C89_euler_internal_energy_gradient",
    "Ryujin.Euler.C89_euler_mathematical_gradient",
    "Ryujin.Euler.C89_euler_numerator",
    "Ryujin.Scalar.C89_scalar_indicator_vanishes",
    "Ryujin.Scalar.C89_scalar_numerator",
    "Ryujin.Scalar.C89_scalar_numerator_limit",
    "Ryujin.ShallowWater.C89_sw_entropy_flux",
    "Ryujin.ShallowWater.C89_sw_gradient",
    "Ryujin.ShallowWater.C89_sw_indicator_vanishes",
    "Ryujin.ShallowWater.C89_sw_numerator"
   ],
   "note": "The limit is for a fixed stencil scaled to a point (c_ij ~ h^a, m_i ~ h^(a+1))."
  },
  {
   "property": "C91",
   "status": "proved",
   "theorems": [
    "Ryujin.ShallowWater.C91_open_boundary_violation",
    "Ryujin.ShallowWater.C91_sw_closed_basin",
    "Ryujin.ShallowWater.C91_sw_low_order_depth",
    "Ryujin.ShallowWater.C91_sw_step_depth_default",
    "Ryujin.ShallowWater.C91_sw_step_depth_nonneg"
   ],
   "note": "For the parameter ranges in the statement; outside of them C91_open_boundary_violation shows that the low-order depth can be negative. Exact arithmetic."
  },
  {
   "property": "C90",
   "status": "proved",
   "theorems": [
    "Ryujin.Assembly.C90_assembled_aeos",
    "Ryujin.Assembly.C90_assembled_conserves",
    "Ryujin.Assembly.C90_assembled_depth",
    "Ryujin.Assembly.C90_assembled_euler",
    "Ryujin.Assembly.C90_assembled_scalar",
    "Ryujin.Assembly.C90_assembled_water",
    "Ryujin.Integrator.C90_forward_euler_invariant",
    "Ryujin.Integrator.C90_hyperbolic_run_conserves",
    "Ryujin.Integrator.C90_one_rank_run_conserves",
    "Ryujin.Integrator.C90_precomputed_invariant",
    "Ryujin.Integrator.C90_run_conserves",
    "Ryujin.Integrator.C90_run_invariant",
    "Ryujin.Scalar.C90_scalar_accepted_step",
    "Ryujin.Scalar.C90_scalar_never_rejected",
    "Ryujin.Scalar.C90_scalar_run",
    "Ryujin.ShallowWater.C90_sw_run_depth"
   ],
   "note": "Exact arithmetic (eps = 0 in the scalar limiter for accepted updates). An exception of the boundary pass ends the run. Degrees of freedom without stencil (constrained) are excluded. C90_assembled_*: the same for the matrices OfflineData assembles from a finite element space (consistent quadrature data and conforming faces as hypotheses)."
  },
  {
   "property": "C92",
   "status": "partial",
   "theorems": [
    "Ryujin.Aeos.C92_aeos_boundary",
    "Ryujin.Aeos.C92_aeos_pressure_jwl_negative",
    "Ryujin.Aeos.C92_aeos_pressure_noble_abel",
    "Ryujin.Aeos.C92_aeos_pressure_polytropic",
    "Ryujin.Aeos.C92_aeos_pressure_van_der_waals",
    "Ryujin.Aeos.C92_aeos_run_partial",
    "Ryujin.Assembly.C92_assembled_aeos_partial",
    "Ryujin.Assembly.C92_assembled_euler_partial",
    "Ryujin.Euler.C92_euler_boundary",
    "Ryujin.Euler.C92_euler_run_partial"
   ],
   "note": "Exact arithmetic in the limiter; the states in the run must satisfy: no viscosity lost to the regularisation (resolved), wave speeds dominate (C64). No constrained degrees of freedom. C92_assembled_euler_partial: the same on the matrices OfflineData assembles. C92_aeos_run_partial, C92_assembled_aeos_partial: gases with any equation of state whose shifted pressure is positive on admissible states (C92_aeos_pressure_*: the polytropic gas, the Noble-Abel stiffened gas and the van der Waals gas with covolume are of that kind, the Jones-Wilkins-Lee gas with its default parameters is not). C92_euler_boundary, C92_aeos_boundary: the boundary pass satisfies the hypotheses of these theorems for walls, inflow and do-nothing boundaries, and for the Euler equations at dynamic boundaries."
  },
  {
   "property": "C93",
   "status": "partial",
   "theorems": [
    "Ryujin.Aeos.C93_aeos_run_flat_walls",
    "Ryujin.Aeos.C93_aeos_run_walls",
    "Ryujin.Assembly.C93_assembled_aeos_flat_walls",
    "Ryujin.Assembly.C93_assembled_aeos_walls",
    "Ryujin.Assembly.C93_assembled_euler_flat_walls",
    "Ryujin.Assembly.C93_assembled_euler_walls",
    "Ryujin.Assembly.C93_assembled_flat",
    "Ryujin.Assembly.C93_assembled_normal",
    "Ryujin.Assembly.C93_assembled_water_flat_walls",
    "Ryujin.BoundaryMap.C93_boundary_map",
    "Ryujin.BoundaryMap.C93_nodal_normals",
    "Ryujin.C93_aeos_flat_walls",
    "Ryujin.C93_aeos_walls",
    "Ryujin.C93_euler_flat_walls",
    "Ryujin.C93_euler_walls",
    "Ryujin.C93_scalar_balance",
    "Ryujin.C93_sw_flat_walls",
    "Ryujin.Euler.C93_curved_wall_violation",
    "Ryujin.Hyp.C93_balance",
    "Ryujin.Integrator.C93_euler_run_flat_walls",
    "Ryujin.Integrator.C93_euler_run_walls",
    "Ryujin.Integrator.C93_sw_run_flat_walls"
   ],
   "note": "Balance law and walls proved for updates without stages on all boundaries and for all explicit schemes on flat walls; C93_curved_wall_violation: with stages (e.g. weight -1) mass is not conserved at curved walls. Exact slip conditions need exactly unit normals (C48 with eps = 0). Viscosity symmetric as in C11. C93_assembled_euler_walls: the same with matrices and boundary map both assembled from the finite element space. C93_aeos_run_*, C93_assembled_aeos_*: the same for every equation of state."
  },
  {
   "property": "C94",
   "status": "partial",
   "theorems": [
    "Ryujin.GeoTiff.C94_bathymetry",
    "Ryujin.GeoTiff.C94_continuous",
    "Ryujin.GeoTiff.C94_degenerate_violation",
    "Ryujin.GeoTiff.C94_lake",
    "Ryujin.GeoTiff.C94_outside_partial",
    "Ryujin.GeoTiff.C94_outside_violation",
    "Ryujin.GeoTiff.C94_outside_wrapping",
    "Ryujin.GeoTiff.C94_pixel",
    "Ryujin.GeoTiff.C94_range",
    "Ryujin.GeoTiff.C94_rejects",
    "Ryujin.GeoTiff.C94_saturating_violation",
    "Ryujin.GeoTiff.C94_slope",
    "Ryujin.GeoTiff.C94_state"
   ],
   "note": "Everything inside of the image proved; outside C94_outside_violation (undefined behaviour left of and above the image; with the conversion of x86-64 an exception, C94_outside_wrapping), C94_degenerate_violation. Exact arithmetic; GDAL is represented by the data it delivers."
  },
  {
   "property": "C95",
   "status": "partial",
   "theorems": [
    "Ryujin.InitialStates.C95_aeos_function_violation",
    "Ryujin.InitialStates.C95_aeos_initial",
    "Ryujin.InitialStates.C95_aeos_initial2",
    "Ryujin.InitialStates.C95_astro_jet",
    "Ryujin.InitialStates.C95_astro_jet_1d_violation",
    "Ryujin.InitialStates.C95_contrast",
    "Ryujin.InitialStates.C95_euler_admissible",
    "Ryujin.InitialStates.C95_euler_initial",
    "Ryujin.InitialStates.C95_euler_initial2",
    "Ryujin.InitialStates.C95_euler_primitive",
    "Ryujin.InitialStates.C95_four_states",
    "Ryujin.InitialStates.C95_function",
    "Ryujin.InitialStates.C95_radial",
    "Ryujin.InitialStates.C95_three_states",
    "Ryujin.InitialStates.C95_uniform",
    "Ryujin.ShallowWaterStates.C95_circular_dam_violation",
    "Ryujin.ShallowWaterStates.C95_hou",
    "Ryujin.ShallowWaterStates.C95_hou_lake",
    "Ryujin.ShallowWaterStates.C95_soliton",
    "Ryujin.ShallowWaterStates.C95_sw_contrast",
    "Ryujin.ShallowWaterStates.C95_sw_function",
    "Ryujin.ShallowWaterStates.C95_tank",
    "Ryujin.ShallowWaterStates.C95_tank_base",
    "Ryujin.ShallowWaterStates.C95_tank_names",
    "Ryujin.ShallowWaterStates.C95_tank_obstacle",
    "Ryujin.ShallowWaterStates.C95_tank_rectangle"
   ],
   "note": "C95_aeos_function_violation, C95_astro_jet_1d_violation and C95_circular_dam_violation are the cases in which the code differs from the documentation; the rest is proved."
  },
  {
   "property": "C96",
   "status": "partial",
   "theorems": [
    "Ryujin.Transfinite.C96_boundary",
    "Ryujin.Transfinite.C96_conforming",
    "Ryujin.Transfinite.C96_coons",
    "Ryujin.Transfinite.C96_corners",
    "Ryujin.Transfinite.C96_faces",
    "Ryujin.Transfinite.C96_flat",
    "Ryujin.Transfinite.C96_flat3",
    "Ryujin.Transfinite.C96_gordon",
    "Ryujin.Transfinite.C96_lines",
    "Ryujin.Transfinite.C96_threshold_violation",
    "Ryujin.Transfinite.C96_vertices"
   ],
   "note": "Two dimensions exact. Three dimensions exact where no weight is in (0, 1e-13), C96_threshold_violation shows that constants are not reproduced otherwise, C96_gordon and C96_faces bound the deviation. Exact arithmetic."
  },
  {
   "property": "C97",
   "status": "partial",
   "theorems": [
    "Ryujin.Transfinite.C97_accurate",
    "Ryujin.Transfinite.C97_affine",
    "Ryujin.Transfinite.C97_best_estimate_violation",
    "Ryujin.Transfinite.C97_chart",
    "Ryujin.Transfinite.C97_exception",
    "Ryujin.Transfinite.C97_mean",
    "Ryujin.Transfinite.C97_rows",
    "Ryujin.Transfinite.C97_sound",
    "Ryujin.Transfinite.C97_twenty_violation"
   ],
   "note": "C97_twenty_violation (more than 20 candidates) and C97_best_estimate_violation (unreachable exit) are the deviations; the size of the last correction in pull_back is not bounded for general maps (exact for affine cells). Exact arithmetic, dim == spacedim."
  },
  {
   "property": "C98",
   "status": "partial",
   "theorems": [
    "Ryujin.Airfoil.C98_clone",
    "Ryujin.Airfoil.C98_extruded",
    "Ryujin.Airfoil.C98_extruded_violation",
    "Ryujin.Airfoil.C98_grading_extrapolation",
    "Ryujin.Airfoil.C98_grading_layers",
    "Ryujin.Airfoil.C98_grading_partial",
    "Ryujin.Airfoil.C98_grading_violation",
    "Ryujin.Airfoil.C98_length",
    "Ryujin.Airfoil.C98_profile",
    "Ryujin.Airfoil.C98_psi_join",
    "Ryujin.Airfoil.C98_psi_samples",
    "Ryujin.Airfoil.C98_pull_push",
    "Ryujin.Airfoil.C98_push_pull",
    "Ryujin.Airfoil.C98_refined_vertex",
    "Ryujin.Airfoil.C98_single_point_violation",
    "Ryujin.Airfoil.C98_trailing_edge"
   ],
   "note": "Violated: C98_grading_violation (offsets of 1e-14 in both directions), C98_single_point_violation, C98_extruded_violation. The chart statements are exact; the spline is an arbitrary interpolant. The construction of the coarse mesh of the airfoil is not modelled."
  },
  {
   "property": "C99",
   "status": "partial",
   "theorems": [
    "Ryujin.Airfoil.C99_camber",
    "Ryujin.Airfoil.C99_samples",
    "Ryujin.Airfoil.C99_section",
    "Ryujin.Airfoil.C99_symmetric",
    "Ryujin.Airfoil.C99_thickness",
    "Ryujin.Airfoil.C99_trailing_edge_violation",
    "Ryujin.Airfoil.C99_unsorted_violation",
    "Ryujin.Airfoil.C99_validation_violation"
   ],
   "note": "Violated: C99_unsorted_violation, C99_trailing_edge_violation (debug assertion), C99_validation_violation."
  },
  {
   "property": "C100",
   "status": "partial",
   "theorems": [
    "Ryujin.Geometries.C100_airfoil",
    "Ryujin.Geometries.C100_airfoil_extruded",
    "Ryujin.Geometries.C100_airfoil_long_violation",
    "Ryujin.Geometries.C100_cylinder",
    "Ryujin.Geometries.C100_periodic",
    "Ryujin.Geometries.C100_rectangle",
    "Ryujin.Geometries.C100_rectangle_small_violation",
    "Ryujin.Geometries.C100_rectangle_swapped_violation",
    "Ryujin.Geometries.C100_step",
    "Ryujin.Geometries.C100_step_conforming_violation",
    "Ryujin.Geometries.C100_step_corner",
    "Ryujin.Geometries.C100_step_short_violation",
    "Ryujin.Geometries.C100_tank",
    "Ryujin.Geometries.C100_tank_defaults_violation",
    "Ryujin.Geometries.C100_wall",
    "Ryujin.Geometries.C100_wall_documentation_violation"
   ],
   "note": "Violated: C100_rectangle_swapped_violation, C100_rectangle_small_violation, C100_wall_documentation_violation, C100_step_conforming_violation, C100_step_short_violation, C100_tank_defaults_violation, C100_airfoil_long_violation. Faces are those of the coarse mesh deal.II creates from the given subdivisions; the merging and flattening done by deal.II is not modelled. Disk, annulus and reader have constant ids and are left out."
  },
  {
   "property": "C101",
   "status": "partial",
   "theorems": [
    "Ryujin.ErrorNorms.C101_consolidated",
    "Ryujin.ErrorNorms.C101_cubic_violation",
    "Ryujin.ErrorNorms.C101_definite",
    "Ryujin.ErrorNorms.C101_exact",
    "Ryujin.ErrorNorms.C101_l2_exact",
    "Ryujin.ErrorNorms.C101_normalized",
    "Ryujin.ErrorNorms.C101_norms",
    "Ryujin.ErrorNorms.C101_partition",
    "Ryujin.ErrorNorms.C101_quadrature",
    "Ryujin.ErrorNorms.C101_unknown",
    "Ryujin.ErrorNorms.C101_vanishing_component_violation"
   ],
   "note": "Violated: C101_vanishing_component_violation (default settings) and C101_cubic_violation. deal.II (integrate_difference, norms of vectors, MPI reductions) is represented by its documented formulas; division by zero yields no finite number."
  },
  {
   "property": "C102",
   "status": "partial",
   "theorems": [
    "Ryujin.VtuOutput.C102_complete",
    "Ryujin.VtuOutput.C102_curved_violation",
    "Ryujin.VtuOutput.C102_file_names",
    "Ryujin.VtuOutput.C102_ghost_violation",
    "Ryujin.VtuOutput.C102_only_intersecting",
    "Ryujin.VtuOutput.C102_planes",
    "Ryujin.VtuOutput.C102_selection"
   ],
   "note": "Violated: C102_curved_violation and C102_ghost_violation (the latter takes DataOut to write every cell the selection yields)."
  },
  {
   "property": "C104",
   "status": "partial",
   "theorems": [
    "Ryujin.C104_aeos_partial",
    "Ryujin.C104_aeos_run_partial",
    "Ryujin.C104_aeos_violation",
    "Ryujin.C104_dG_order_violation",
    "Ryujin.C104_euler",
    "Ryujin.C104_scalar",
    "Ryujin.C104_sw",
    "Ryujin.Hyp.C104_euler_run",
    "Ryujin.Hyp.C104_scalar_run",
    "Ryujin.Hyp.C104_sw_run"
   ],
   "note": "Violated for the discontinuous ansatz: C104_dG_order_violation (the positive theorems take the same row order then), and for the arbitrary equation of state: C104_aeos_violation (neighbours of equal pressure with surrogate gamma above 5/3 and bounds that are not strict; the positive theorems for this equation exclude that case, see Spec.Exchangeable). Not covered: random entropies, SIMD groups with a joint Newton iteration. Runs of the Euler equations: as long as vectors handed to a step have positive density and internal energy (the program with an assertion, guarded)."
  },
  {
   "property": "C105",
   "status": "partial",
   "theorems": [
    "Ryujin.C105_aeos_axes_partial",
    "Ryujin.C105_aeos_boundary",
    "Ryujin.C105_aeos_run_partial",
    "Ryujin.C105_euler_axes",
    "Ryujin.C105_euler_rotation_violation",
    "Ryujin.C105_euler_symmetric",
    "Ryujin.C105_sw",
    "Ryujin.C105_sw_symmetric",
    "Ryujin.Euler.C105_euler_boundary",
    "Ryujin.Hyp.C105_euler_run",
    "Ryujin.Hyp.C105_euler_symmetric_run",
    "Ryujin.Hyp.C105_sw_run",
    "Ryujin.Hyp.C105_sw_symmetric_run",
    "Ryujin.ShallowWater.C105_sw_boundary"
   ],
   "note": "Violated: C105_euler_rotation_violation (indicator). For the arbitrary equation of state the states satisfy Spec.Exchangeable (see C104_aeos_violation). Not covered: SIMD groups with a joint Newton iteration. The scalar equations have no frame dependent unknown. Runs of the Euler equations: as long as vectors handed to a step have positive density and internal energy (guarded)."
  },
  {
   "property": "C103",
   "status": "proved",
   "theorems": [
    "Ryujin.Aeos.C103_aeos",
    "Ryujin.Aeos.C103_aeos_boundary",
    "Ryujin.Assembly.C103_assembled_aeos",
    "Ryujin.Assembly.C103_assembled_euler",
    "Ryujin.Assembly.C103_assembled_water",
    "Ryujin.C103_aeos_run",
    "Ryujin.C103_euler_run",
    "Ryujin.C103_scalar_run",
    "Ryujin.C103_sw_run",
    "Ryujin.Euler.C103_euler",
    "Ryujin.Euler.C103_euler_boundary",
    "Ryujin.Euler.C103_euler_returns",
    "Ryujin.Scalar.C103_scalar",
    "Ryujin.Scalar.C103_scalar_returns",
    "Ryujin.ShallowWater.C103_sw",
    "Ryujin.ShallowWater.C103_sw_boundary",
    "Ryujin.ShallowWater.C103_sw_returns"
   ],
   "note": "Preservation holds for every grouping into SIMD lanes; the theorems *_returns (no rejection) are for one lane per call, and for Euler require a relaxation radius of at most one; exact arithmetic. For an arbitrary equation of state that a step is not rejected is not covered; what steps return is (C103_aeos_run). C103_assembled_*: runs on matrices assembled from a finite element space."
  },
  {
   "property": "C106",
   "status": "partial",
   "theorems": [
    "Ryujin.Hyp.C106_dg_violation",
    "Ryujin.Hyp.C106_domain_partial",
    "Ryujin.Integrator.C106_aeos_run_partial",
    "Ryujin.Integrator.C106_plain_run_partial",
    "Ryujin.Integrator.C106_run_partial"
   ],
   "note": "Violated for discontinuous elements: C106_dg_violation. The theorems are for two steps, or two complete runs of any number of steps (C106_run_partial, with C106_plain_run_partial and C106_aeos_run_partial for the equations of the code and their boundary conditions), returning the same step sizes (the size itself is a minimum over the whole mesh). twin_exists shows that such pairs of runs exist for every two initial vectors. Runs are those of the explicit schemes: the implicit parabolic solve couples all degrees of freedom."
  },
  {
   "property": "C107",
   "status": "partial",
   "theorems": [
    "Ryujin.Aeos.C107_aeos_run_partial",
    "Ryujin.Hyp.Mpi.C107_dg_partial",
    "Ryujin.Hyp.Mpi.C107_dg_violation",
    "Ryujin.Hyp.Mpi.C107_prepare",
    "Ryujin.Hyp.Mpi.C107_run_partial",
    "Ryujin.Hyp.Mpi.C107_step_partial",
    "Ryujin.Hyp.Mpi.C107_time_step_partial"
   ],
   "note": "Violated for discontinuous elements: C107_dg_violation; C107_dg_partial says that the bounds are the only difference. Exact arithmetic, no parabolic part; an exchange takes place after all rows have been written (C26, C31, C50 treat the actual start of the exchange). In the theorems on time steps and runs no boundary condition throws."
  },
  {
   "property": "C108",
   "status": "partial",
   "theorems": [
    "Ryujin.FastPow.C108_accuracy_partial",
    "Ryujin.FastPow.C108_base_one",
    "Ryujin.FastPow.C108_base_zero",
    "Ryujin.FastPow.C108_error_bound_partial",
    "Ryujin.FastPow.C108_lower_bias_violation",
    "Ryujin.FastPow.C108_upper_bias_violation"
   ],
   "note": "Violated: C108_upper_bias_violation, C108_lower_bias_violation (systematic error and ignored bias). C108_accuracy_partial: exponents of modulus at most 0.99; C108_error_bound_partial: modulus at most 1000 with an error growing with the exponent. Exact arithmetic (rounding of the single precision operations is not modelled), results between 2^-119 and 2^119."
  },
  {
   "property": "C109",
   "status": "partial",
   "theorems": [
    "Ryujin.NavierStokes.C109_energy_diagonal",
    "Ryujin.NavierStokes.C109_mass_diagonal",
    "Ryujin.NavierStokes.C109_mass_diagonal_block",
    "Ryujin.NavierStokes.C109_slip_negative_violation",
    "Ryujin.NavierStokes.C109_velocity_diagonal_partial",
    "Ryujin.NavierStokes.C109_velocity_preconditioner_partial"
   ],
   "note": "Violated: C109_slip_negative_violation (oblique slip normals). C109_velocity_diagonal_partial requires slip normals in coordinate directions; C109_energy_diagonal and C109_mass_diagonal hold for all boundary maps. Level operators have no constraints, as in the code."
  },
  {
   "property": "C110",
   "status": "partial",
   "theorems": [
    "Ryujin.Progress.C110_eta_constant_rate",
    "Ryujin.Progress.C110_eta_converges",
    "Ryujin.Progress.C110_eta_defined",
    "Ryujin.Progress.C110_eta_printed",
    "Ryujin.Progress.C110_eta_undefined_violation",
    "Ryujin.Progress.C110_first_eta_violation",
    "Ryujin.Progress.C110_header_width",
    "Ryujin.Progress.C110_resumed_run_violation",
    "Ryujin.Progress.C110_since_last_report",
    "Ryujin.Progress.C110_whole_run"
   ],
   "note": "Violated: C110_resumed_run_violation, C110_first_eta_violation, C110_eta_undefined_violation. C110_since_last_report and C110_whole_run: step size, rate and cycles per second; formatting of numbers is not modelled."
  },
  {
   "property": "C111",
   "status": "partial",
   "theorems": [
    "Ryujin.Hyp.Threads.C111_completes",
    "Ryujin.Hyp.Threads.C111_dg_data_race_violation",
    "Ryujin.Hyp.Threads.C111_dg_race_violation",
    "Ryujin.Hyp.Threads.C111_one_process_partial",
    "Ryujin.Hyp.Threads.C111_race_free_partial",
    "Ryujin.Hyp.Threads.C111_step_partial",
    "Ryujin.Hyp.Threads.C111_threads_partial"
   ],
   "note": "Violated for discontinuous elements: C111_dg_data_race_violation, C111_dg_race_violation. Sequentially consistent interleavings of single accesses to entries, exact arithmetic; in floating point the only reduction over threads is a minimum (C12). The preparation of the state vector and the parabolic solver are not part of the model of threads."
  },
  {
   "property": "C112",
   "status": "partial",
   "theorems": [
    "Ryujin.Eos.Threads.C112_cycle0",
    "Ryujin.Eos.Threads.C112_cycle1",
    "Ryujin.Eos.Threads.C112_data_race_violation",
    "Ryujin.Eos.Threads.C112_minimum"
   ],
   "note": "Violated: C112_data_race_violation (formally undefined behaviour in C++; harmless for sequentially consistent accesses to single numbers by C112_cycle1). The variant of cycle 0 with one call on whole vectors is C50."
  },
  {
   "property": "C113",
   "status": "partial",
   "theorems": [
    "Ryujin.Quantities.Files.C113_boundary_points",
    "Ryujin.Quantities.Files.C113_file_names",
    "Ryujin.Quantities.Files.C113_instantaneous",
    "Ryujin.Quantities.Files.C113_points",
    "Ryujin.Quantities.Files.C113_points_of_rank",
    "Ryujin.Quantities.Files.C113_same_name_violation",
    "Ryujin.Quantities.Files.C113_time_averages",
    "Ryujin.Quantities.Files.C113_time_series",
    "Ryujin.Quantities.Files.C113_time_series_adapted"
   ],
   "note": "Violated: C113_same_name_violation. Formatting of numbers is not modelled; the points of a boundary manifold are the filtered entries of the boundary map (C113_boundary_points, see C48 for the boundary map)."
  },
  {
   "property": "C114",
   "status": "partial",
   "theorems": [
    "Ryujin.Discretize.C114_adaptation_partial",
    "Ryujin.Discretize.C114_ansatz",
    "Ryujin.Discretize.C114_distortion_violation",
    "Ryujin.Discretize.C114_geometry",
    "Ryujin.Discretize.C114_number_of_cells",
    "Ryujin.Discretize.C114_quadrature",
    "Ryujin.Discretize.C114_random_adaptation_violation",
    "Ryujin.Discretize.C114_reproducible",
    "Ryujin.Discretize.C114_resume_partial"
   ],
   "note": "Violated: C114_distortion_violation, C114_random_adaptation_violation. The smoothing of flags by deal.II is not modelled; quadratures in one direction (tensor products); marking on one MPI rank (on several ranks every rank draws indicators for the cells it knows of, with the same seed)."
  },
  {
   "property": "C115",
   "status": "partial",
   "theorems": [
    "Ryujin.Skeleton.C115_dg_violation",
    "Ryujin.Skeleton.C115_low_order_violation",
    "Ryujin.Skeleton.C115_run_partial",
    "Ryujin.Skeleton.C115_step_partial"
   ],
   "note": "Holds for continuous elements and one or two limiter passes. Violated for zero limiter passes (C115_low_order_violation) and for discontinuous elements (C115_dg_violation): there the incidence matrix makes the high order graph viscosity nonzero."
  },
  {
   "property": "C116",
   "status": "partial",
   "theorems": [
    "Ryujin.NavierStokes.C116_admissible_partial",
    "Ryujin.NavierStokes.C116_conserves_partial",
    "Ryujin.NavierStokes.C116_extrapolation_violation",
    "Ryujin.NavierStokes.C116_parabolic_admissible",
    "Ryujin.NavierStokes.C116_wall_velocity_partial",
    "Ryujin.NavierStokes.C116_walls_partial"
   ],
   "note": "Violated: C116_extrapolation_violation (the parabolic sub step of the Strang schemes with the extrapolation that follows it). Exact linear solves (C72_energy_defect gives the defect otherwise); C116_walls_partial: walls for imex_11 and strang_ssprk_33_cn; C116_wall_velocity_partial: the wall conditions hold after every parabolic sub step; C116_admissible_partial: imex_11 and the conditions of C92 on the hyperbolic part. Symmetric viscosity as in C11."
  },
  {
   "property": "C117",
   "status": "partial",
   "theorems": [
    "Ryujin.Eos.Sesame.C117_arguments_violation",
    "Ryujin.Eos.Sesame.C117_available",
    "Ryujin.Eos.Sesame.C117_ideal_gas",
    "Ryujin.Eos.Sesame.C117_inverse",
    "Ryujin.Eos.Sesame.C117_missing_throws",
    "Ryujin.Eos.Sesame.C117_not_implemented_violation",
    "Ryujin.Eos.Sesame.C117_outside_violation",
    "Ryujin.Eos.Sesame.C117_precomputed_pressures",
    "Ryujin.Eos.Sesame.C117_second_parse_violation",
    "Ryujin.Eos.Sesame.C117_values"
   ],
   "note": "Violated: C117_arguments_violation (documented in a note), C117_outside_violation, C117_not_implemented_violation, C117_second_parse_violation. EOSPAC is represented by the values and error codes it returns; calls from one thread (C33 treats the guard for several threads)."
  },
  {
   "property": "C118",
   "status": "partial",
   "theorems": [
    "Ryujin.Program.C118_dimension_rejected",
    "Ryujin.Program.C118_dimension_text",
    "Ryujin.Program.C118_file",
    "Ryujin.Program.C118_never_wrong",
    "Ryujin.Program.C118_parameter_file",
    "Ryujin.Program.C118_ranks",
    "Ryujin.Program.C118_ranks_violation",
    "Ryujin.Program.C118_template_name",
    "Ryujin.Program.C118_templates"
   ],
   "note": "Violated in one corner: C118_ranks_violation (executable named like a template: rank zero waits forever at the barrier); C118_ranks holds for all other names. ParameterHandler and ParameterAcceptor are represented by lists of entries with declarations; the time loop itself by the entries it declares and whether it completes. The order of the callbacks and what each driver instantiates is C42."
  },
  {
   "property": "C119",
   "status": "partial",
   "theorems": [
    "Ryujin.Rounded.C119_complete_step",
    "Ryujin.Rounded.C119_exact_aeos",
    "Ryujin.Rounded.C119_exact_euler",
    "Ryujin.Rounded.C119_exact_scalar",
    "Ryujin.Rounded.C119_exact_shallow",
    "Ryujin.Rounded.C119_first_round",
    "Ryujin.Rounded.C119_limit",
    "Ryujin.Rounded.C119_low_order",
    "Ryujin.Rounded.C119_no_warning",
    "Ryujin.Rounded.C119_positive",
    "Ryujin.Rounded.C119_second_round",
    "Ryujin.Rounded.C119_violation",
    "Ryujin.Rounded.C119_window",
    "Ryujin.RoundedShallow.C119_shallow_water_complete_step"
   ],
   "note": "Violated to the last bit: C119_violation. Overflow, underflow (denormals are flushed to zero) and NaN are not modelled. Only the density, water depth or scalar quantity; rounding errors in the entropy and the kinetic energy are not analysed (over-approximated by arbitrary values, which do not influence the theorems); for those of the low-order update see C119_low_order (equations whose low-order update is Model/RoundedStep, that is not shallow water). C119_complete_step and C119_shallow_water_complete_step are about steps 4 to 6 as a whole; that the low-order update is within the bounds of the limiter is a hypothesis there. Bounds from below are nonnegative."
  },
  {
   "property": "C120",
   "status": "partial",
   "theorems": [
    "Ryujin.Rounded.C120_last_step",
    "Ryujin.Rounded.C120_no_overshoot",
    "Ryujin.Rounded.C120_not_early",
    "Ryujin.Rounded.C120_stuck_violation",
    "Ryujin.Rounded.C120_terminates",
    "Ryujin.Rounded.C120_tick_violation"
   ],
   "note": "Violated: C120_tick_violation, C120_stuck_violation. Rounding in double precision before rounding to float is modelled by one rounding. The step size of the CFL condition is arbitrary."
  },
  {
   "property": "C121",
   "status": "partial",
   "theorems": [
    "Ryujin.Aeos.C121_aeos_limit",
    "Ryujin.Euler.C121_euler_limit",
    "Ryujin.Euler.C121_euler_one_pass",
    "Ryujin.Euler.C121_euler_riemann",
    "Ryujin.Euler.C121_euler_riemann_start",
    "Ryujin.Euler.C121_euler_success",
    "Ryujin.Euler.C121_euler_success_group",
    "Ryujin.Euler.C121_success_violation",
    "Ryujin.Euler.C121_violation",
    "Ryujin.Hyp.C121_one_pass",
    "Ryujin.Scalar.C121_scalar_limit",
    "Ryujin.ShallowWater.C121_sw_limit"
   ],
   "note": "Violated as an equality: C121_violation, C121_success_violation. Missing: more than one limiter pass (the second pass starts from states that already differ by the bound of C121_euler_one_pass), shallow water with both stages of the limiter switched on (C121_sw_limit has one of them off). Exact arithmetic."
  },
  {
   "property": "C122",
   "status": "partial",
   "theorems": [
    "Ryujin.Scalar.C122_burgers",
    "Ryujin.Scalar.C122_convex_violation",
    "Ryujin.Scalar.C122_default_expression",
    "Ryujin.Scalar.C122_difference_quotient",
    "Ryujin.Scalar.C122_dimension_violation",
    "Ryujin.Scalar.C122_expression",
    "Ryujin.Scalar.C122_expression_join",
    "Ryujin.Scalar.C122_function",
    "Ryujin.Scalar.C122_kpp",
    "Ryujin.Scalar.C122_kpp_three",
    "Ryujin.Scalar.C122_precomputed",
    "Ryujin.Scalar.C122_precomputed_total",
    "Ryujin.Scalar.C122_quadratic",
    "Ryujin.Scalar.C122_roe",
    "Ryujin.Scalar.C122_selection",
    "Ryujin.Scalar.C122_sharp"
   ],
   "note": "Violated: C122_dimension_violation, C122_convex_violation. muParser is an arbitrary partial function from strings to real functions; exact arithmetic (with the default step size of 1e-10 rounding errors of the difference quotient dominate). The random number generator shared by the threads is not part of the model, its numbers are arbitrary."
  },
  {
   "property": "C123",
   "status": "partial",
   "theorems": [
    "Ryujin.Rounded.C123_aeos_component",
    "Ryujin.Rounded.C123_assembled",
    "Ryujin.Rounded.C123_assembled_exact",
    "Ryujin.Rounded.C123_assembled_relative",
    "Ryujin.Rounded.C123_conservation",
    "Ryujin.Rounded.C123_conservation_linear",
    "Ryujin.Rounded.C123_constrained",
    "Ryujin.Rounded.C123_euler_component",
    "Ryujin.Rounded.C123_exact_correction",
    "Ryujin.Rounded.C123_exact_low",
    "Ryujin.Rounded.C123_exact_pass",
    "Ryujin.Rounded.C123_exact_rhs",
    "Ryujin.Rounded.C123_exact_step",
    "Ryujin.Rounded.C123_scalar_component",
    "Ryujin.RoundedShallow.C123_shallow_water",
    "Ryujin.RoundedShallow.C123_shallow_water_assembled",
    "Ryujin.RoundedShallow.C123_shallow_water_assembled_exact",
    "Ryujin.RoundedShallow.C123_shallow_water_constrained",
    "Ryujin.RoundedShallow.C123_shallow_water_exact_correction",
    "Ryujin.RoundedShallow.C123_shallow_water_exact_low",
    "Ryujin.RoundedShallow.C123_shallow_water_exact_pass",
    "Ryujin.RoundedShallow.C123_shallow_water_exact_rhs",
    "Ryujin.RoundedShallow.C123_shallow_water_exact_step",
    "Ryujin.RoundedShallow.C123_shallow_water_linear"
   ],
   "note": "Steps 4 to 7 for one component. C123_assembled and C123_assembled_relative include matrices that are not exactly antisymmetric or symmetric. C123_shallow_water is the theorem for the water depth of the shallow water equations, over arbitrary bathymetry and with friction. C123_shallow_water_assembled includes matrices that are not exactly antisymmetric or symmetric there. Missing: boundary conditions. Runs are C125. Overflow, underflow and NaN are not modelled."
  },
  {
   "property": "C124",
   "status": "partial",
   "theorems": [
    "Ryujin.Rounded.C124_complete_step",
    "Ryujin.Rounded.C124_complete_step_double",
    "Ryujin.Rounded.C124_density",
    "Ryujin.Rounded.C124_density_assembled",
    "Ryujin.Rounded.C124_double",
    "Ryujin.Rounded.C124_time_step",
    "Ryujin.RoundedShallow.C124_shallow_water",
    "Ryujin.RoundedShallow.C124_shallow_water_complete_step",
    "Ryujin.RoundedShallow.C124_shallow_water_complete_step_double",
    "Ryujin.RoundedShallow.C124_shallow_water_double",
    "Ryujin.RoundedShallow.C124_shallow_water_star",
    "Ryujin.RoundedShallow.C124_shallow_water_star_exact",
    "Ryujin.RoundedShallow.C124_shallow_water_star_nonneg"
   ],
   "note": "The wave speeds enter as a hypothesis on the stored viscosities (rounding errors in the Riemann solver are not analysed). C124_density_assembled and C124_double include row sums of c_ij that do not vanish exactly. C124_shallow_water, C124_shallow_water_star and C124_shallow_water_double are the theorems for the water depth, including the rounding errors of the equilibrated states. C124_complete_step and C124_shallow_water_complete_step: the result of the complete step with two passes of the limiter is positive. Overflow, underflow and NaN are not modelled."
  },
  {
   "property": "C125",
   "status": "partial",
   "theorems": [
    "Ryujin.Rounded.C125_exact",
    "Ryujin.Rounded.C125_run",
    "Ryujin.Rounded.C125_run_assembled",
    "Ryujin.Rounded.C125_run_linear",
    "Ryujin.Rounded.C125_step",
    "Ryujin.Rounded.C125_step_assembled",
    "Ryujin.RoundedShallow.C125_shallow_water_exact",
    "Ryujin.RoundedShallow.C125_shallow_water_run",
    "Ryujin.RoundedShallow.C125_shallow_water_run_linear",
    "Ryujin.RoundedShallow.C125_shallow_water_step"
   ],
   "note": "As C123 (scalar equations, Euler equations with either equation of state and, in C125_shallow_water_*, the water depth of the shallow water equations; C125_run_assembled includes matrices that are antisymmetric or symmetric up to a relative error); schemes with parabolic part are not treated. A coefficient like 2./3. is rounded once (for float it is rounded twice). Overflow, underflow and NaN are not modelled."
  },
  {
   "property": "C126",
   "status": "partial",
   "theorems": [
    "Ryujin.Eos.C126_access",
    "Ryujin.Eos.C126_constants",
    "Ryujin.Eos.C126_default",
    "Ryujin.Eos.C126_formulas",
    "Ryujin.Eos.C126_inconsistent_violation",
    "Ryujin.Eos.C126_lanes",
    "Ryujin.Eos.C126_last",
    "Ryujin.Eos.C126_selection",
    "Ryujin.Eos.C126_sesame_name_violation",
    "Ryujin.Eos.C126_unknown_variable",
    "Ryujin.Formulas.C126_brackets",
    "Ryujin.Formulas.C126_precedence"
   ],
   "note": "Violated: C126_sesame_name_violation, C126_inconsistent_violation. muParser is represented by a parser of the same grammar (four operations, brackets, minus sign, decimal numbers without exponent, sqrt, exp, abs)."
  },
  {
   "property": "C127",
   "status": "partial",
   "theorems": [
    "Ryujin.TimeLoop.C127_conservation",
    "Ryujin.TimeLoop.C127_depth",
    "Ryujin.TimeLoop.C127_euler_partial",
    "Ryujin.TimeLoop.C127_invariant",
    "Ryujin.TimeLoop.C127_scalar"
   ],
   "note": "Mesh adaptation and output of an analytic solution are excluded. Maximum principle for steps accepted with violations raising an exception; depths and Euler states for the forward Euler scheme, the latter with the side conditions of C92 (eps = 0, resolved viscosities, dominating wave speeds). Exact arithmetic; for rounding errors see C125."
  },
  {
   "property": "C128",
   "status": "partial",
   "theorems": [
    "Ryujin.Adaptation.C128_coarsening_violation",
    "Ryujin.Adaptation.C128_constrained_violation",
    "Ryujin.Adaptation.C128_convex",
    "Ryujin.Adaptation.C128_degree_two_violation",
    "Ryujin.Adaptation.C128_euler_admissible",
    "Ryujin.Adaptation.C128_interpolates",
    "Ryujin.Adaptation.C128_refinement_conserves",
    "Ryujin.Adaptation.C128_refinement_same_function",
    "Ryujin.Adaptation.C128_stale_after_step"
   ],
   "note": "Violated: C128_constrained_violation with C128_stale_after_step, C128_coarsening_violation, C128_degree_two_violation. Elements of degree one on cells that are affine images of the unit cube; one process; dealii::SolutionTransfer is represented by what it documents."
  },
  {
   "property": "C129",
   "status": "partial",
   "theorems": [
    "Ryujin.Annulus.C129_covered_removed",
    "Ryujin.Annulus.C129_large_violation",
    "Ryujin.Annulus.C129_next_cell_violation",
    "Ryujin.Annulus.C129_obtuse_violation",
    "Ryujin.Annulus.C129_outside_kept",
    "Ryujin.Annulus.C129_uncovered_kept"
   ],
   "note": "Violated: C129_next_cell_violation (default parameters), C129_large_violation, C129_obtuse_violation. Proved: covered cells are removed, cells beyond the angle by the tolerance and cells outside of the ring are kept for outer radii of at most 3."
  },
  {
   "property": "C130",
   "status": "proved",
   "theorems": [
    "Ryujin.SimdAccess.C130_assemble",
    "Ryujin.SimdAccess.C130_gather",
    "Ryujin.SimdAccess.C130_loops",
    "Ryujin.SimdAccess.C130_read",
    "Ryujin.SimdAccess.C130_tensor_ext",
    "Ryujin.SimdAccess.C130_tensor_lane",
    "Ryujin.SimdAccess.C130_unaligned",
    "Ryujin.SimdAccess.C130_width",
    "Ryujin.SimdAccess.C130_write"
   ],
   "note": "Release builds. The number of internal rows is a multiple of the number of lanes (C31); C130_unaligned shows that this is needed."
  },
  {
   "property": "C131",
   "status": "partial",
   "theorems": [
    "Ryujin.InitialValues.C131_choice",
    "Ryujin.InitialValues.C131_circular_dam_break_violation",
    "Ryujin.InitialValues.C131_default",
    "Ryujin.InitialValues.C131_euler",
    "Ryujin.InitialValues.C131_euler2",
    "Ryujin.InitialValues.C131_euler3",
    "Ryujin.InitialValues.C131_lake_at_rest",
    "Ryujin.InitialValues.C131_order",
    "Ryujin.InitialValues.C131_perturbed",
    "Ryujin.InitialValues.C131_precomputed",
    "Ryujin.InitialValues.C131_rejected",
    "Ryujin.InitialValues.C131_values"
   ],
   "note": "Violated: C131_circular_dam_break_violation (a class that is never put on the list). Everything else proved; dealii::VectorTools::interpolate is represented by the mean of the evaluations at the support point, ghost entries and the poisoning in debug builds are not modelled. C131_lake_at_rest in two dimensions."
  },
  {
   "property": "C132",
   "status": "proved",
   "theorems": [
    "Ryujin.Airfoil.C132_names",
    "Ryujin.Airfoil.C132_shape",
    "Ryujin.Airfoil.C132_tables",
    "Ryujin.Airfoil.C132_trailing_edge"
   ],
   "note": "The tables are finite data; the names, splines, centres and lengths range over all possibilities. Decimal literals are taken as exact fractions."
  }
 ]
}