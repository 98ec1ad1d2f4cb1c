'Ryujin.C01_newton_bracket_decreasing' depends on axioms: [propext, Classical.choice, Quot.sound]
'Ryujin.C01_newton_bracket_increasing' depends on axioms: [propext, Classical.choice, Quot.sound]
'Ryujin.C01_newton_exact_on_quadratics' depends on axioms: [propext, Classical.choice, Quot.sound]
'Ryujin.C01_newton_nested' depends on axioms: [propext, Classical.choice, Quot.sound]
'Ryujin.Aeos.C02_aeos_limit_range' depends on axioms: [propext, Classical.choice, Quot.sound]
'Ryujin.Euler.C02_euler_limit_no_needless_limiting' depends on axioms: [propext, Classical.choice, Quot.sound]
'Ryujin.Euler.C02_euler_limit_range' depends on axioms: [propext, Classical.choice, Quot.sound]
'Ryujin.Scalar.C02_scalar_limit_no_needless_limiting' depends on axioms: [propext, Classical.choice, Quot.sound]
'Ryujin.Scalar.C02_scalar_limit_range' depends on axioms: [propext, Classical.choice, Quot.sound]
'Ryujin.ShallowWater.C02_sw_limit_le_depthLimit' depends on axioms: [propext, Classical.choice, Quot.sound]
'Ryujin.ShallowWater.C02_sw_limit_needless_limiting_violation' depends on axioms: [propext,
 Classical.choice,
 Quot.sound]
'Ryujin.ShallowWater.C02_sw_limit_no_needless_limiting_partial' depends on axioms: [propext,
 Classical.choice,
 Quot.sound]
'Ryujin.ShallowWater.C02_sw_limit_range' depends on axioms: [propext, Classical.choice, Quot.sound]
'Ryujin.Aeos.C03_aeos_limit_density' depends on axioms: [propext, Classical.choice, Quot.sound]
'Ryujin.Euler.C03_euler_limit_density' depends on axioms: [propext, Classical.choice, Quot.sound]
'Ryujin.Scalar.C04_scalar_limit_bounds_partial' depends on axioms: [propext, Classical.choice, Quot.sound]
'Ryujin.Scalar.C04_scalar_limit_bounds_relaxed' depends on axioms: [propext, Classical.choice, Quot.sound]
'Ryujin.Scalar.C04_scalar_limit_violation' depends on axioms: [propext, Classical.choice, Quot.sound]
'Ryujin.ShallowWater.C05_sw_limit_depth' depends on axioms: [propext, Classical.choice, Quot.sound]
'Ryujin.ShallowWater.C05_sw_limit_dry' depends on axioms: [propext, Classical.choice, Quot.sound]
'Ryujin.ShallowWater.C05_sw_limit_nonneg' depends on axioms: [propext, Classical.choice, Quot.sound]
'Ryujin.Aeos.C06_aeos_bounds' depends on axioms: [propext, Classical.choice, Quot.sound]
'Ryujin.Euler.C06_euler_bounds' depends on axioms: [propext, Classical.choice, Quot.sound]
'Ryujin.Scalar.C06_scalar_bounds' depends on axioms: [propext, Classical.choice, Quot.sound]
'Ryujin.ShallowWater.C06_sw_bounds' depends on axioms: [propext, Classical.choice, Quot.sound]
'Ryujin.Aeos.C07_aeos_accumulate_exact' depends on axioms: [propext, Classical.choice, Quot.sound]
'Ryujin.Aeos.C07_aeos_accumulate_perm' depends on axioms: [propext, Classical.choice, Quot.sound]
'Ryujin.Aeos.C07_aeos_combine' depends on axioms: [propext, Classical.choice, Quot.sound]
'Ryujin.Aeos.C07_aeos_combine_admits_partial' depends on axioms: [propext, Classical.choice, Quot.sound]
'Ryujin.Aeos.C07_aeos_combine_admits_violation' depends on axioms: [propext, Classical.choice, Quot.sound]
'Ryujin.Euler.C07_euler_accumulate_exact' depends on axioms: [propext, Classical.choice, Quot.sound]
'Ryujin.Euler.C07_euler_accumulate_perm' depends on axioms: [propext, Classical.choice, Quot.sound]
'Ryujin.Euler.C07_euler_combine' depends on axioms: [propext, Classical.choice, Quot.sound]
'Ryujin.Scalar.C07_scalar_accumulate_exact' depends on axioms: [propext, Classical.choice, Quot.sound]
'Ryujin.Scalar.C07_scalar_accumulate_perm' depends on axioms: [propext, Classical.choice, Quot.sound]
'Ryujin.Scalar.C07_scalar_combine' depends on axioms: [propext, Classical.choice, Quot.sound]
'Ryujin.ShallowWater.C07_sw_accumulate_bounds' depends on axioms: [propext, Classical.choice, Quot.sound]
'Ryujin.ShallowWater.C07_sw_accumulate_perm' depends on axioms: [propext, Classical.choice, Quot.sound]
'Ryujin.ShallowWater.C07_sw_combine_admits_partial' depends on axioms: [propext, Classical.choice, Quot.sound]
'Ryujin.ShallowWater.C07_sw_combine_violation' depends on axioms: [propext, Classical.choice, Quot.sound]
'Ryujin.Aeos.C08_aeos_indicator' depends on axioms: [propext, Classical.choice, Quot.sound]
'Ryujin.Aeos.C08_aeos_indicator_constant' depends on axioms: [propext, Classical.choice, Quot.sound]
'Ryujin.Aeos.C08_aeos_indicator_denominator_pos' depends on axioms: [propext, Classical.choice, Quot.sound]
'Ryujin.Euler.C08_euler_indicator' depends on axioms: [propext, Classical.choice, Quot.sound]
'Ryujin.Euler.C08_euler_indicator_constant' depends on axioms: [propext, Classical.choice, Quot.sound]
'Ryujin.Euler.C08_euler_indicator_denominator_pos' depends on axioms: [propext, Classical.choice, Quot.sound]
'Ryujin.Scalar.C08_scalar_indicator' depends on axioms: [propext, Classical.choice, Quot.sound]
'Ryujin.Scalar.C08_scalar_indicator_constant' depends on axioms: [propext, Classical.choice, Quot.sound]
'Ryujin.Scalar.C08_scalar_indicator_denominator_pos' depends on axioms: [propext, Classical.choice, Quot.sound]
'Ryujin.ShallowWater.C08_sw_indicator' depends on axioms: [propext, Classical.choice, Quot.sound]
'Ryujin.ShallowWater.C08_sw_indicator_constant' depends on axioms: [propext, Classical.choice, Quot.sound]
'Ryujin.Aeos.C09_aeos_characteristic' depends on axioms: [propext, Classical.choice, Quot.sound]
'Ryujin.Euler.C09_euler_characteristic' depends on axioms: [propext, Classical.choice, Quot.sound]
'Ryujin.Euler.C09_euler_nonneg' depends on axioms: [propext, Classical.choice, Quot.sound]
'Ryujin.Scalar.C09_scalar_burgers_convex' depends on axioms: [propext, Classical.choice, Quot.sound]
'Ryujin.Scalar.C09_scalar_characteristic' depends on axioms: [propext, Classical.choice, Quot.sound]
'Ryujin.Scalar.C09_scalar_entropy' depends on axioms: [propext, Classical.choice, Quot.sound]
'Ryujin.Scalar.C09_scalar_kpp_violation' depends on axioms: [propext, Classical.choice, Quot.sound]
'Ryujin.Scalar.C09_scalar_nonneg' depends on axioms: [propext, Classical.choice, Quot.sound]
'Ryujin.Scalar.C09_scalar_roe_convex' depends on axioms: [propext, Classical.choice, Quot.sound]
'Ryujin.Scalar.C09_scalar_roe_separated' depends on axioms: [propext, Classical.choice, Quot.sound]
'Ryujin.ShallowWater.C09_sw_characteristic' depends on axioms: [propext, Classical.choice, Quot.sound]
'Ryujin.ShallowWater.C09_sw_characteristic_wet' depends on axioms: [propext, Classical.choice, Quot.sound]
'Ryujin.Aeos.C10_aeos_swap_partial' depends on axioms: [propext, Classical.choice, Quot.sound]
'Ryujin.Aeos.C10_aeos_swap_violation' depends on axioms: [propext, Classical.choice, Quot.sound]
'Ryujin.Euler.C10_euler_swap' depends on axioms: [propext, Classical.choice, Quot.sound]
'Ryujin.Scalar.C10_scalar_swap' depends on axioms: [propext, Classical.choice, Quot.sound]
'Ryujin.ShallowWater.C10_sw_swap' depends on axioms: [propext, Classical.choice, Quot.sound]
'Ryujin.Hyp.C11_diagonal' depends on axioms: [propext, Classical.choice, Quot.sound]
'Ryujin.Hyp.C11_step_tau' depends on axioms: [propext, Classical.choice, Quot.sound]
'Ryujin.Hyp.C11_tau_max' depends on axioms: [propext, Classical.choice, Quot.sound]
'Ryujin.Hyp.C11_viscosity' depends on axioms: [propext, Classical.choice, Quot.sound]
'Ryujin.Hyp.C11_viscosity_nonneg' depends on axioms: [propext, Classical.choice, Quot.sound]
'Ryujin.Hyp.C11_viscosity_symmetric_one_rank' depends on axioms: [propext, Classical.choice, Quot.sound]
'Ryujin.C12_bounded_work' depends on axioms: [propext, Classical.choice, Quot.sound]
'Ryujin.C12_never_increases' depends on axioms: [propext, Classical.choice, Quot.sound]
'Ryujin.C12_no_deadlock' depends on axioms: [propext, Classical.choice, Quot.sound]
'Ryujin.C12_reduction_is_minimum' depends on axioms: [propext, Classical.choice, Quot.sound]
'Ryujin.C12_schedule_independent' depends on axioms: [propext, Classical.choice, Quot.sound]
'Ryujin.C13_aeos_step_conserves' depends on axioms: [propext, Classical.choice, Quot.sound]
'Ryujin.C13_euler_step_conserves' depends on axioms: [propext, Classical.choice, Quot.sound]
'Ryujin.C13_scalar_random_violation' depends on axioms: [propext, Classical.choice, Quot.sound]
'Ryujin.C13_scalar_step_conserves' depends on axioms: [propext, Classical.choice, Quot.sound]
'Ryujin.C13_sw_step_conserves_depth' depends on axioms: [propext, Classical.choice, Quot.sound]
'Ryujin.Euler.C13_euler_solver_conserves' depends on axioms: [propext, Classical.choice, Quot.sound]
'Ryujin.Hyp.C13_step_conserves' depends on axioms: [propext, Classical.choice, Quot.sound]
'Ryujin.Hyp.C13_step_conserves_of_symmetric' depends on axioms: [propext, Classical.choice, Quot.sound]
'Ryujin.Hyp.C14_low_order_convex' depends on axioms: [propext, Classical.choice, Quot.sound]
'Ryujin.Hyp.C15_limited_update' depends on axioms: [propext, Classical.choice, Quot.sound]
'Ryujin.Scalar.C16_scalar_maximum_principle' depends on axioms: [propext, Classical.choice, Quot.sound]
'Ryujin.Euler.C17_boundary_row_violation' depends on axioms: [propext, Classical.choice, Quot.sound]
'Ryujin.Hyp.C17_unlimited_step_interior' depends on axioms: [propext, Classical.choice, Quot.sound]
'Ryujin.Hyp.C17_unlimited_step_no_stages' depends on axioms: [propext, Classical.choice, Quot.sound]
'Ryujin.Hyp.C17_unlimited_step_partial' depends on axioms: [propext, Classical.choice, Quot.sound]
'Ryujin.Hyp.C18_violations_reported' depends on axioms: [propext, Classical.choice, Quot.sound]
'Ryujin.Hyp.C18_warn_returns' depends on axioms: [propext, Classical.choice, Quot.sound]
'Ryujin.Integrator.C19_erk_11' depends on axioms: [propext, Classical.choice, Quot.sound]
'Ryujin.Integrator.C19_erk_22' depends on axioms: [propext, Classical.choice, Quot.sound]
'Ryujin.Integrator.C19_erk_33' depends on axioms: [propext, Classical.choice, Quot.sound]
'Ryujin.Integrator.C19_erk_43' depends on axioms: [propext, Classical.choice, Quot.sound]
'Ryujin.Integrator.C19_erk_54' depends on axioms: [propext, Classical.choice, Quot.sound]
'Ryujin.Integrator.C19_imex_aborts' depends on axioms: [propext, Classical.choice, Quot.sound]
'Ryujin.Integrator.C19_ssprk_22' depends on axioms: [propext, Classical.choice, Quot.sound]
'Ryujin.Integrator.C19_ssprk_33' depends on axioms: [propext, Classical.choice, Quot.sound]
'Ryujin.Integrator.C19_stage_times' depends on axioms: [propext, Classical.choice, Quot.sound]
'Ryujin.Integrator.C19_strang' depends on axioms: [propext, Classical.choice, Quot.sound]
'Ryujin.Integrator.C20_hyperbolic_no_overshoot' depends on axioms: [propext, Classical.choice, Quot.sound]
'Ryujin.Integrator.C20_hyperbolic_progress' depends on axioms: [propext, Classical.choice, Quot.sound]
'Ryujin.Integrator.C20_no_overshoot' depends on axioms: [propext, Classical.choice, Quot.sound]
'Ryujin.Integrator.C20_progress' depends on axioms: [propext, Classical.choice, Quot.sound]
'Ryujin.Integrator.C21_boundary_applied_twice_violation' depends on axioms: [propext, Classical.choice, Quot.sound]
'Ryujin.Integrator.C21_history_free' depends on axioms: [propext, Classical.choice, Quot.sound]
'Ryujin.Integrator.C21_hyperbolic_no_restart_escapes' depends on axioms: [propext, Classical.choice, Quot.sound]
'Ryujin.Integrator.C21_no_recovery' depends on axioms: [propext, Classical.choice, Quot.sound]
'Ryujin.Integrator.C21_no_restart_escapes' depends on axioms: [propext, Classical.choice, Quot.sound]
'Ryujin.Integrator.C21_none_aborts' depends on axioms: [propext, Classical.choice, Quot.sound]
'Ryujin.Integrator.C21_recovery_clean' depends on axioms: [propext, Classical.choice, Quot.sound]
'Ryujin.Integrator.C22_hyperbolic_no_stale_reads' depends on axioms: [propext, Classical.choice, Quot.sound]
'Ryujin.Integrator.C22_no_stale_reads' depends on axioms: [propext, Classical.choice, Quot.sound]
'Ryujin.Integrator.C22_prepared' depends on axioms: [propext, Classical.choice, Quot.sound]
'Ryujin.Integrator.C22_result' depends on axioms: [propext, Classical.choice, Quot.sound]
'Ryujin.Integrator.C22_slots' depends on axioms: [propext, Classical.choice, Quot.sound]
'Ryujin.TimeLoop.C23_catches_up' depends on axioms: [propext, Classical.choice, Quot.sound]
'Ryujin.TimeLoop.C23_consecutive' depends on axioms: [propext, Classical.choice, Quot.sound]
'Ryujin.TimeLoop.C23_exactly_when_due' depends on axioms: [propext, Classical.choice, Quot.sound]
'Ryujin.TimeLoop.C23_in_order' depends on axioms: [propext, Classical.choice, Quot.sound]
'Ryujin.TimeLoop.C23_never_early' depends on axioms: [propext, Classical.choice, Quot.sound]
'Ryujin.TimeLoop.C24_integrator_no_overshoot' depends on axioms: [propext, Classical.choice, Quot.sound]
'Ryujin.TimeLoop.C24_no_overshoot' depends on axioms: [propext, Classical.choice, Quot.sound]
'Ryujin.TimeLoop.C24_not_early' depends on axioms: [propext, Classical.choice, Quot.sound]
'Ryujin.TimeLoop.C24_terminates' depends on axioms: [propext, Classical.choice, Quot.sound]
'Ryujin.TimeLoop.C25_adaptation_repeated_violation' depends on axioms: [propext, Classical.choice, Quot.sound]
'Ryujin.TimeLoop.C25_analytic_checkpoint_violation' depends on axioms: [propext, Classical.choice, Quot.sound]
'Ryujin.TimeLoop.C25_at_zero' depends on axioms: [propext, Classical.choice, Quot.sound]
'Ryujin.TimeLoop.C25_integrator_restartable' depends on axioms: [propext, Classical.choice, Quot.sound]
'Ryujin.TimeLoop.C25_resume_partial' depends on axioms: [propext, Classical.choice, Quot.sound]
'Ryujin.TimeLoop.C25_state_vector' depends on axioms: [propext, Classical.choice, Quot.sound]
'Ryujin.TimeLoop.C26_crash_partial' depends on axioms: [propext, Quot.sound]
'Ryujin.TimeLoop.C26_mixed_sets_violation' depends on axioms: [propext, Classical.choice, Quot.sound]
'Ryujin.TimeLoop.C26_second_crash_violation' depends on axioms: [propext]
'Ryujin.TimeLoop.C26_uninterrupted' depends on axioms: [propext, Classical.choice, Quot.sound]
'Ryujin.Multi.C27_add' depends on axioms: [propext, Classical.choice, Quot.sound]
'Ryujin.Multi.C27_extract' depends on axioms: [propext, Classical.choice, Quot.sound]
'Ryujin.Multi.C27_insert' depends on axioms: [propext, Classical.choice, Quot.sound]
'Ryujin.Multi.C27_partitioner' depends on axioms: [propext, Classical.choice, Quot.sound]
'Ryujin.Multi.C27_round_trip' depends on axioms: [propext, Classical.choice, Quot.sound]
'Ryujin.Multi.C27_vectorised_add' depends on axioms: [propext, Classical.choice, Quot.sound]
'Ryujin.Multi.C27_vectorised_read' depends on axioms: [propext]
'Ryujin.Multi.C27_vectorised_write' depends on axioms: [propext, Classical.choice, Quot.sound]
'Ryujin.Multi.C27_write_read' depends on axioms: [propext, Classical.choice, Quot.sound]
'Ryujin.Sparse.C28_columns' depends on axioms: [propext, Classical.choice, Quot.sound]
'Ryujin.Sparse.C28_in_bounds' depends on axioms: [propext, Classical.choice, Quot.sound]
'Ryujin.Sparse.C28_no_aliasing' depends on axioms: [propext, Classical.choice, Quot.sound]
'Ryujin.Sparse.C28_read_in' depends on axioms: [propext, Classical.choice, Quot.sound]
'Ryujin.Sparse.C28_reinit_some_iff' depends on axioms: [propext, Quot.sound]
'Ryujin.Sparse.C28_row_length' depends on axioms: [propext, Classical.choice, Quot.sound]
'Ryujin.Sparse.C28_vectorised_read' depends on axioms: [propext, Classical.choice, Quot.sound]
'Ryujin.Sparse.C28_vectorised_write' depends on axioms: [propext, Classical.choice, Quot.sound]
'Ryujin.Sparse.C28_write_read' depends on axioms: [propext, Classical.choice, Quot.sound]
'Ryujin.Sparse.C29_symmetric' depends on axioms: [propext, Classical.choice, Quot.sound]
'Ryujin.Sparse.C29_transposed' depends on axioms: [propext, Classical.choice, Quot.sound]
'Ryujin.Sparse.C29_transposed_vectorised' depends on axioms: [propext, Classical.choice, Quot.sound]
'Ryujin.Sparse.C30_ghost_rows_partial' depends on axioms: [propext, Classical.choice, Quot.sound]
'Ryujin.Sparse.C30_messages_match_partial' depends on axioms: [propext, Classical.choice, Quot.sound]
'Ryujin.Sparse.C30_owned_rows' depends on axioms: [propext, Classical.choice, Quot.sound]
'Ryujin.Sparse.C30_setup_assertion' depends on axioms: [propext, Classical.choice, Quot.sound]
'Ryujin.Sparse.C30_setup_compatible' depends on axioms: [propext, Classical.choice, Quot.sound]
'Ryujin.Sparse.C30_setup_consistent' depends on axioms: [propext, Classical.choice, Quot.sound]
'Ryujin.Sparse.C30_setup_minimal' depends on axioms: [propext, Classical.choice, Quot.sound]
'Ryujin.Sparse.C30_stale_diagonal_violation' depends on axioms: [propext, Classical.choice, Quot.sound]
'Ryujin.Sparse.C30_unmatched_receive_violation' depends on axioms: [propext, Classical.choice, Quot.sound]
'Ryujin.Renumbering.C31_consistent_stride_range' depends on axioms: [propext, Classical.choice, Quot.sound]
'Ryujin.Renumbering.C31_export_indices_first' depends on axioms: [propext, Classical.choice, Quot.sound]
'Ryujin.Renumbering.C31_inconsistent_strides_last' depends on axioms: [propext, Classical.choice, Quot.sound]
'Ryujin.Renumbering.C31_internal_range' depends on axioms: [propext, Classical.choice, Quot.sound]
'Ryujin.Renumbering.C32_constrained_partial' depends on axioms: [propext, Quot.sound]
'Ryujin.Renumbering.C32_straddling_violation' depends on axioms: [propext]
'Ryujin.Renumbering.C32_unconstrained' depends on axioms: [propext, Classical.choice, Quot.sound]
'Ryujin.C33_created_once' depends on axioms: [propext, Classical.choice, Quot.sound]
'Ryujin.C33_no_deadlock' depends on axioms: [propext, Classical.choice, Quot.sound]
'Ryujin.C33_retry' depends on axioms: [propext, Classical.choice, Quot.sound]
'Ryujin.C33_same_value' depends on axioms: [propext, Classical.choice, Quot.sound]
'Ryujin.C33_throw_leaves_uninitialised' depends on axioms: [propext, Classical.choice, Quot.sound]
'Ryujin.C34_all_computed' depends on axioms: [propext, Classical.choice, Quot.sound]
'Ryujin.C34_all_signalled' depends on axioms: [propext, Classical.choice, Quot.sound]
'Ryujin.C34_exported_before_payload' depends on axioms: [propext, Classical.choice, Quot.sound]
'Ryujin.C34_needs_ascending_order' depends on axioms: [propext, Classical.choice, Quot.sound]
'Ryujin.C34_payload_once' depends on axioms: [propext, Classical.choice, Quot.sound]
'Ryujin.C34_start_recorded' depends on axioms: [propext, Classical.choice, Quot.sound]
'Ryujin.Eos.C35_aeos_initial_state' depends on axioms: [propext, Classical.choice, Quot.sound]
'Ryujin.Eos.C35_aeos_roundtrip' depends on axioms: [propext, Classical.choice, Quot.sound]
'Ryujin.Euler.C35_euler_roundtrip' depends on axioms: [propext, Classical.choice, Quot.sound]
'Ryujin.ShallowWater.C35_sw_roundtrip_partial' depends on axioms: [propext, Classical.choice, Quot.sound]
'Ryujin.ShallowWater.C35_sw_roundtrip_violation' depends on axioms: [propext, Classical.choice, Quot.sound]
'Ryujin.Euler.C36_euler_no_slip' depends on axioms: [propext, Classical.choice, Quot.sound]
'Ryujin.Euler.C36_euler_slip' depends on axioms: [propext, Classical.choice, Quot.sound]
'Ryujin.Euler.C36_euler_slip_internal_energy' depends on axioms: [propext, Classical.choice, Quot.sound]
'Ryujin.ShallowWater.C36_sw_no_slip' depends on axioms: [propext, Classical.choice, Quot.sound]
'Ryujin.ShallowWater.C36_sw_slip' depends on axioms: [propext, Classical.choice, Quot.sound]
'Ryujin.Euler.C37_euler_dynamic' depends on axioms: [propext, Classical.choice, Quot.sound]
'Ryujin.Euler.C37_euler_riemann_characteristic' depends on axioms: [propext, Classical.choice, Quot.sound]
'Ryujin.ShallowWater.C37_sw_dynamic' depends on axioms: [propext, Classical.choice, Quot.sound]
'Ryujin.ShallowWater.C37_sw_riemann_characteristic' depends on axioms: [propext, Classical.choice, Quot.sound]
'Ryujin.Assembly.C38_assembled_partial' depends on axioms: [propext, Classical.choice, Quot.sound]
'Ryujin.ShallowWater.C38_bounds' depends on axioms: [propext, Classical.choice, Quot.sound]
'Ryujin.ShallowWater.C38_high_order_front_violation' depends on axioms: [propext, Classical.choice, Quot.sound]
'Ryujin.ShallowWater.C38_high_order_partial' depends on axioms: [propext, Classical.choice, Quot.sound]
'Ryujin.ShallowWater.C38_limiter' depends on axioms: [propext, Classical.choice, Quot.sound]
'Ryujin.ShallowWater.C38_low_order_partial' depends on axioms: [propext, Classical.choice, Quot.sound]
'Ryujin.ShallowWater.C38_run_partial' depends on axioms: [propext, Classical.choice, Quot.sound]
'Ryujin.ShallowWater.C38_step_partial' depends on axioms: [propext, Classical.choice, Quot.sound]
'Ryujin.ShallowWater.C38_thin_film_violation' depends on axioms: [propext, Classical.choice, Quot.sound]
'Ryujin.ShallowWater.C38_walls' depends on axioms: [propext, Classical.choice, Quot.sound]
'Ryujin.ShallowWater.C39_sw_friction' depends on axioms: [propext, Classical.choice, Quot.sound]
'Ryujin.ShallowWater.C40_sw_star_state' depends on axioms: [propext, Classical.choice, Quot.sound]
'Ryujin.TimeLoop.C41_adaptation_schedule' depends on axioms: [propext, Classical.choice, Quot.sound]
'Ryujin.Configuration.C42_drivers' depends on axioms: [propext, Classical.choice, Quot.sound]
'Ryujin.Configuration.C42_exactly_one' depends on axioms: [propext, Classical.choice, Quot.sound]
'Ryujin.Configuration.C42_never_two' depends on axioms: [propext, Classical.choice, Quot.sound]
'Ryujin.Configuration.C43_round_trip' depends on axioms: [propext, Classical.choice, Quot.sound]
'Ryujin.Configuration.C43_tables' depends on axioms: [propext, Classical.choice, Quot.sound]
'Ryujin.Configuration.C44_check' depends on axioms: [propext, Classical.choice, Quot.sound]
'Ryujin.Configuration.C44_denotes_unique' depends on axioms: [propext, Classical.choice, Quot.sound]
'Ryujin.Configuration.C44_extracted' depends on axioms: [propext, Classical.choice, Quot.sound]
'Ryujin.Postprocessor.C45_bounds' depends on axioms: [propext, Classical.choice, Quot.sound]
'Ryujin.Postprocessor.C45_history_partial' depends on axioms: [propext, Classical.choice, Quot.sound]
'Ryujin.Postprocessor.C45_history_violation' depends on axioms: [propext, Classical.choice, Quot.sound]
'Ryujin.Postprocessor.C45_minimum' depends on axioms: [propext, Classical.choice, Quot.sound]
'Ryujin.Postprocessor.C45_monotone' depends on axioms: [propext, Classical.choice, Quot.sound]
'Ryujin.Postprocessor.C45_output' depends on axioms: [propext, Classical.choice, Quot.sound]
'Ryujin.Postprocessor.C45_output_range' depends on axioms: [propext, Classical.choice, Quot.sound]
'Ryujin.Postprocessor.C45_range' depends on axioms: [propext, Classical.choice, Quot.sound]
'Ryujin.Postprocessor.C45_schlieren' depends on axioms: [propext, Classical.choice, Quot.sound]
'Ryujin.Postprocessor.C45_sign' depends on axioms: [propext, Classical.choice, Quot.sound]
'Ryujin.Quantities.C46_affine' depends on axioms: [propext, Classical.choice, Quot.sound]
'Ryujin.Quantities.C46_between' depends on axioms: [propext, Classical.choice, Quot.sound]
'Ryujin.Quantities.C46_gap_violation' depends on axioms: [propext, Classical.choice, Quot.sound]
'Ryujin.Quantities.C46_instantaneous' depends on axioms: [propext, Classical.choice, Quot.sound]
'Ryujin.Quantities.C46_repeated_zero_violation' depends on axioms: [propext, Classical.choice, Quot.sound]
'Ryujin.Quantities.C46_spatial_average' depends on axioms: [propext, Classical.choice, Quot.sound]
'Ryujin.Quantities.C46_time_average' depends on axioms: [propext, Classical.choice, Quot.sound]
'Ryujin.Quantities.C46_time_loop' depends on axioms: [propext, Classical.choice, Quot.sound]
'Ryujin.Quantities.C46_time_loop_no_error' depends on axioms: [propext, Classical.choice, Quot.sound]
'Ryujin.InitialValues.C47_direction2' depends on axioms: [propext, Classical.choice, Quot.sound]
'Ryujin.InitialValues.C47_direction3_concrete_violation' depends on axioms: [propext, Classical.choice, Quot.sound]
'Ryujin.InitialValues.C47_direction3_partial' depends on axioms: [propext, Classical.choice, Quot.sound]
'Ryujin.InitialValues.C47_direction3_violation' depends on axioms: [propext, Classical.choice, Quot.sound]
'Ryujin.InitialValues.C47_initial_state' depends on axioms: [propext, Classical.choice, Quot.sound]
'Ryujin.InitialValues.C47_inverse' depends on axioms: [propext, Classical.choice, Quot.sound]
'Ryujin.InitialValues.C47_isometry' depends on axioms: [propext, Classical.choice, Quot.sound]
'Ryujin.InitialValues.C47_normalized' depends on axioms: [propext, Classical.choice, Quot.sound]
'Ryujin.BoundaryMap.C48_coupling_pairs' depends on axioms: [propext, Classical.choice, Quot.sound]
'Ryujin.BoundaryMap.C48_coupling_pairs_nodup' depends on axioms: [propext, Classical.choice, Quot.sound]
'Ryujin.BoundaryMap.C48_double_count_violation' depends on axioms: [propext, Classical.choice, Quot.sound]
'Ryujin.BoundaryMap.C48_ids' depends on axioms: [propext, Classical.choice, Quot.sound]
'Ryujin.BoundaryMap.C48_local' depends on axioms: [propext, Classical.choice, Quot.sound]
'Ryujin.BoundaryMap.C48_mass_ge' depends on axioms: [propext, Classical.choice, Quot.sound]
'Ryujin.BoundaryMap.C48_merger' depends on axioms: [propext, Classical.choice, Quot.sound]
'Ryujin.BoundaryMap.C48_nonempty' depends on axioms: [propext, Classical.choice, Quot.sound]
'Ryujin.BoundaryMap.C48_normal_length' depends on axioms: [propext, Classical.choice, Quot.sound]
'Ryujin.BoundaryMap.C48_order_partial' depends on axioms: [propext, Classical.choice, Quot.sound]
'Ryujin.BoundaryMap.C48_order_violation' depends on axioms: [propext, Classical.choice, Quot.sound]
'Ryujin.BoundaryMap.C48_single_entry_partial' depends on axioms: [propext, Classical.choice, Quot.sound]
'Ryujin.BoundaryMap.C48_slip_corner' depends on axioms: [propext, Classical.choice, Quot.sound]
'Ryujin.Eos.C49_gamma_gt_one' depends on axioms: [propext, Classical.choice, Quot.sound]
'Ryujin.Eos.C49_nasg_exact' depends on axioms: [propext, Classical.choice, Quot.sound]
'Ryujin.Eos.C49_polytropic_exact' depends on axioms: [propext, Classical.choice, Quot.sound]
'Ryujin.Eos.C49_surrogate_gamma' depends on axioms: [propext, Classical.choice, Quot.sound]
'Ryujin.Eos.C49_surrogate_pressure' depends on axioms: [propext, Classical.choice, Quot.sound]
'Ryujin.Eos.C49_vdw_gamma' depends on axioms: [propext, Classical.choice, Quot.sound]
'Ryujin.Eos.C50_cycle0' depends on axioms: [propext, Classical.choice, Quot.sound]
'Ryujin.Eos.C50_cycle1' depends on axioms: [propext, Classical.choice, Quot.sound]
'Ryujin.Eos.C50_cycle1_order' depends on axioms: [propext, Classical.choice, Quot.sound]
'Ryujin.Eos.C50_early_exchange_violation' depends on axioms: [propext, Classical.choice, Quot.sound]
'Ryujin.Eos.C50_exchange_complete' depends on axioms: [propext, Classical.choice, Quot.sound]
'Ryujin.Eos.C50_offset_violation' depends on axioms: [propext, Classical.choice, Quot.sound]
'Ryujin.Eos.C50_scalar_variant' depends on axioms: [propext, Classical.choice, Quot.sound]
'Ryujin.Eos.C50_vector_variant_partial' depends on axioms: [propext, Classical.choice, Quot.sound]
'Ryujin.Eos.C50_vector_variant_zero_partial' depends on axioms: [propext, Classical.choice, Quot.sound]
'Ryujin.Eos.C51_array' depends on axioms: [propext, Classical.choice, Quot.sound]
'Ryujin.Eos.C51_initial_pressure' depends on axioms: [propext, Classical.choice, Quot.sound]
'Ryujin.Eos.C51_jwl_partial' depends on axioms: [propext, Classical.choice, Quot.sound]
'Ryujin.Eos.C51_jwl_violation' depends on axioms: [propext, Classical.choice, Quot.sound]
'Ryujin.Eos.C51_nasg' depends on axioms: [propext, Classical.choice, Quot.sound]
'Ryujin.Eos.C51_polytropic' depends on axioms: [propext, Classical.choice, Quot.sound]
'Ryujin.Eos.C51_vdw' depends on axioms: [propext, Classical.choice, Quot.sound]
'Ryujin.Euler.C52_euler_eigenvectors' depends on axioms: [propext, Classical.choice, Quot.sound]
'Ryujin.Euler.C52_euler_flux' depends on axioms: [propext, Classical.choice, Quot.sound]
'Ryujin.Euler.C52_euler_flux_antisymmetric' depends on axioms: [propext, Classical.choice, Quot.sound]
'Ryujin.Euler.C52_euler_flux_consistent' depends on axioms: [propext, Classical.choice, Quot.sound]
'Ryujin.Euler.C52_euler_flux_galilei' depends on axioms: [propext, Classical.choice, Quot.sound]
'Ryujin.Euler.C52_euler_flux_jacobian' depends on axioms: [propext, Classical.choice, Quot.sound]
'Ryujin.Euler.C52_euler_flux_rotation' depends on axioms: [propext, Classical.choice, Quot.sound]
'Ryujin.Aeos.C53_aeos_limit_entropy_partial' depends on axioms: [propext, Classical.choice, Quot.sound]
'Ryujin.Euler.C53_euler_limit_entropy_partial' depends on axioms: [propext, Classical.choice, Quot.sound]
'Ryujin.Euler.C53_euler_limit_positivity_partial' depends on axioms: [propext, Classical.choice, Quot.sound]
'Ryujin.Euler.C53_euler_limit_relaxation_violation' depends on axioms: [propext, Classical.choice, Quot.sound]
'Ryujin.Euler.C53_euler_limit_relaxed_partial' depends on axioms: [propext, Classical.choice, Quot.sound]
'Ryujin.Aeos.C54_aeos_rho_max_partial' depends on axioms: [propext, Classical.choice, Quot.sound]
'Ryujin.Aeos.C54_aeos_rho_max_violation' depends on axioms: [propext, Classical.choice, Quot.sound]
'Ryujin.ShallowWater.C55_sw_limit_kinetic_partial' depends on axioms: [propext, Classical.choice, Quot.sound]
'Ryujin.ShallowWater.C55_sw_limit_velocity_partial' depends on axioms: [propext, Classical.choice, Quot.sound]
'Ryujin.ShallowWater.C55_sw_wrong_derivative' depends on axioms: [propext, Classical.choice, Quot.sound]
'Ryujin.ShallowWater.C56_sw_h_star_bound' depends on axioms: [propext, Classical.choice, Quot.sound]
'Ryujin.ShallowWater.C56_sw_max_wavespeed' depends on axioms: [propext, Classical.choice, Quot.sound]
'Ryujin.Integrator.C57_hyperbolic_conserves' depends on axioms: [propext, Classical.choice, Quot.sound]
'Ryujin.Integrator.C57_schemes_conserve' depends on axioms: [propext, Classical.choice, Quot.sound]
'Ryujin.Integrator.C58_schemes_invariant' depends on axioms: [propext, Classical.choice, Quot.sound]
'Ryujin.Integrator.C58_strang_violation' depends on axioms: [propext, Classical.choice, Quot.sound]
'Ryujin.Hyp.C59_step_congr' depends on axioms: [propext, Classical.choice, Quot.sound]
'Ryujin.Hyp.C59_step_congr_cG' depends on axioms: [propext, Classical.choice, Quot.sound]
'Ryujin.Aeos.C60_aeos_no_false_alarm' depends on axioms: [propext, Classical.choice, Quot.sound]
'Ryujin.Aeos.C60_aeos_success_density' depends on axioms: [propext, Classical.choice, Quot.sound]
'Ryujin.Aeos.C60_aeos_violation_density' depends on axioms: [propext, Classical.choice, Quot.sound]
'Ryujin.Aeos.C60_aeos_violation_entropy' depends on axioms: [propext, Classical.choice, Quot.sound]
'Ryujin.Euler.C60_euler_no_false_alarm' depends on axioms: [propext, Classical.choice, Quot.sound]
'Ryujin.Euler.C60_euler_success_density' depends on axioms: [propext, Classical.choice, Quot.sound]
'Ryujin.Euler.C60_euler_unreported_violation' depends on axioms: [propext, Classical.choice, Quot.sound]
'Ryujin.Euler.C60_euler_violation_density' depends on axioms: [propext, Classical.choice, Quot.sound]
'Ryujin.Euler.C60_euler_violation_entropy' depends on axioms: [propext, Classical.choice, Quot.sound]
'Ryujin.Scalar.C60_scalar_no_false_alarm' depends on axioms: [propext, Classical.choice, Quot.sound]
'Ryujin.Scalar.C60_scalar_success_iff' depends on axioms: [propext, Classical.choice, Quot.sound]
'Ryujin.ShallowWater.C60_sw_success_depth' depends on axioms: [propext, Classical.choice, Quot.sound]
'Ryujin.ShallowWater.C60_sw_violation_depth' depends on axioms: [propext, Classical.choice, Quot.sound]
'Ryujin.Quantities.C61_adaptation_loses_samples_violation' depends on axioms: [propext, Classical.choice, Quot.sound]
'Ryujin.Quantities.C61_series_header_violation' depends on axioms: [propext, Classical.choice, Quot.sound]
'Ryujin.Quantities.C61_series_partial' depends on axioms: [propext, Classical.choice, Quot.sound]
'Ryujin.Eos.C62_jwl_default_violation' depends on axioms: [propext, Classical.choice, Quot.sound]
'Ryujin.Eos.C62_jwl_offset_violation' depends on axioms: [propext, Classical.choice, Quot.sound]
'Ryujin.Eos.C62_jwl_partial' depends on axioms: [propext, Classical.choice, Quot.sound]
'Ryujin.Eos.C62_nasg' depends on axioms: [propext, Classical.choice, Quot.sound]
'Ryujin.Eos.C62_polytropic' depends on axioms: [propext, Classical.choice, Quot.sound]
'Ryujin.Eos.C62_vdw' depends on axioms: [propext, Classical.choice, Quot.sound]
'Ryujin.Eos.C63_jwl' depends on axioms: [propext, Classical.choice, Quot.sound]
'Ryujin.Eos.C63_polytropic_iff' depends on axioms: [propext, Classical.choice, Quot.sound]
'Ryujin.Eos.C63_stale_heat_capacity_violation' depends on axioms: [propext, Classical.choice, Quot.sound]
'Ryujin.Eos.C63_thermal_partial' depends on axioms: [propext, Classical.choice, Quot.sound]
'Ryujin.Euler.C64_euler_wave_speed_gamma_violation' depends on axioms: [propext, Classical.choice, Quot.sound]
'Ryujin.Euler.C64_euler_wave_speed_mixed_partial' depends on axioms: [propext, Classical.choice, Quot.sound]
'Ryujin.Euler.C64_euler_wave_speed_mixed_violation' depends on axioms: [propext, Classical.choice, Quot.sound]
'Ryujin.Euler.C64_euler_wave_speed_partial' depends on axioms: [propext, Classical.choice, Quot.sound]
'Ryujin.Euler.C65_euler_bar_admissible' depends on axioms: [propext, Classical.choice, Quot.sound]
'Ryujin.Euler.C65_euler_low_order_admissible' depends on axioms: [propext, Classical.choice, Quot.sound]
'Ryujin.Euler.C65_euler_step_density' depends on axioms: [propext, Classical.choice, Quot.sound]
'Ryujin.Euler.C66_euler_bar_entropy' depends on axioms: [propext, Classical.choice, Quot.sound]
'Ryujin.Euler.C66_euler_dominates_partial' depends on axioms: [propext, Classical.choice, Quot.sound]
'Ryujin.Euler.C66_euler_exact_solution_exists' depends on axioms: [propext, Classical.choice, Quot.sound]
'Ryujin.Euler.C67_euler_step_invariant_domain_partial' depends on axioms: [propext, Classical.choice, Quot.sound]
'Ryujin.Aeos.C68_aeos_wave_speed_partial' depends on axioms: [propext, Classical.choice, Quot.sound]
'Ryujin.Aeos.C68_aeos_wave_speed_violation' depends on axioms: [propext, Classical.choice, Quot.sound]
'Ryujin.Aeos.C69_aeos_bar_admissible' depends on axioms: [propext, Classical.choice, Quot.sound]
'Ryujin.Aeos.C69_aeos_bar_admissible_exact' depends on axioms: [propext, Classical.choice, Quot.sound]
'Ryujin.Aeos.C69_aeos_dominates_partial' depends on axioms: [propext, Classical.choice, Quot.sound]
'Ryujin.Aeos.C70_aeos_covolume_violation' depends on axioms: [propext, Classical.choice, Quot.sound]
'Ryujin.Aeos.C70_aeos_low_order_admissible' depends on axioms: [propext, Classical.choice, Quot.sound]
'Ryujin.Aeos.C70_aeos_step_density' depends on axioms: [propext, Classical.choice, Quot.sound]
'Ryujin.Aeos.C70_aeos_step_invariant_domain_partial' depends on axioms: [propext, Classical.choice, Quot.sound]
'Ryujin.NavierStokes.C71_density' depends on axioms: [propext, Classical.choice, Quot.sound]
'Ryujin.NavierStokes.C72_angular_momentum' depends on axioms: [propext, Classical.choice, Quot.sound]
'Ryujin.NavierStokes.C72_energy_defect' depends on axioms: [propext, Classical.choice, Quot.sound]
'Ryujin.NavierStokes.C72_momentum' depends on axioms: [propext, Classical.choice, Quot.sound]
'Ryujin.NavierStokes.C72_rigid_motion' depends on axioms: [propext, Classical.choice, Quot.sound]
'Ryujin.NavierStokes.C72_total_energy' depends on axioms: [propext, Classical.choice, Quot.sound]
'Ryujin.NavierStokes.C73_constraint_violation' depends on axioms: [propext, Classical.choice, Quot.sound]
'Ryujin.NavierStokes.C73_minimum_partial' depends on axioms: [propext, Classical.choice, Quot.sound]
'Ryujin.NavierStokes.C73_nonnegative' depends on axioms: [propext, Classical.choice, Quot.sound]
'Ryujin.NavierStokes.C73_nonobtuse_accepted' depends on axioms: [propext, Classical.choice, Quot.sound]
'Ryujin.NavierStokes.C73_nonobtuse_minimum' depends on axioms: [propext, Classical.choice, Quot.sound]
'Ryujin.NavierStokes.C73_raise' depends on axioms: [propext, Classical.choice, Quot.sound]
'Ryujin.NavierStokes.C74_energy_unique' depends on axioms: [propext, Classical.choice, Quot.sound]
'Ryujin.NavierStokes.C74_step_completes' depends on axioms: [propext, Classical.choice, Quot.sound]
'Ryujin.NavierStokes.C74_velocity_unique' depends on axioms: [propext, Classical.choice, Quot.sound]
'Ryujin.NavierStokes.C75_dirichlet' depends on axioms: [propext, Classical.choice, Quot.sound]
'Ryujin.NavierStokes.C75_kinetic_energy' depends on axioms: [propext, Classical.choice, Quot.sound]
'Ryujin.NavierStokes.C75_oblique_edge_violation' depends on axioms: [propext, Classical.choice, Quot.sound]
'Ryujin.NavierStokes.C75_walls' depends on axioms: [propext, Classical.choice, Quot.sound]
'Ryujin.NavierStokes.C76_steady' depends on axioms: [propext, Classical.choice, Quot.sound]
'Ryujin.Euler.C77_euler_newton_accuracy_partial' depends on axioms: [propext, Classical.choice, Quot.sound]
'Ryujin.Euler.C77_euler_newton_monotone' depends on axioms: [propext, Classical.choice, Quot.sound]
'Ryujin.Euler.C77_euler_rarefactions_exact' depends on axioms: [propext, Classical.choice, Quot.sound]
'Ryujin.InitialValues.C78_perturbation_off' depends on axioms: [propext, Classical.choice, Quot.sound]
'Ryujin.InitialValues.C78_perturbation_positive' depends on axioms: [propext, Classical.choice, Quot.sound]
'Ryujin.InitialValues.C78_perturbation_size' depends on axioms: [propext, Classical.choice, Quot.sound]
'Ryujin.InitialValues.C78_perturbation_violation' depends on axioms: [propext, Classical.choice, Quot.sound]
'Ryujin.InitialStates.C79_isentropic_vortex' depends on axioms: [propext, Classical.choice, Quot.sound]
'Ryujin.InitialStates.C79_smooth_wave' depends on axioms: [propext, Classical.choice, Quot.sound]
'Ryujin.InitialStates.C79_smooth_wave_eos' depends on axioms: [propext, Classical.choice, Quot.sound]
'Ryujin.InitialStates.C80_leblanc_defect' depends on axioms: [propext, Classical.choice, Quot.sound]
'Ryujin.InitialStates.C80_leblanc_partial' depends on axioms: [propext, Classical.choice, Quot.sound]
'Ryujin.InitialStates.C80_rarefaction' depends on axioms: [propext, Classical.choice, Quot.sound]
'Ryujin.InitialStates.C81_icf_like_partial' depends on axioms: [propext, Classical.choice, Quot.sound]
'Ryujin.InitialStates.C81_icf_like_violation' depends on axioms: [propext, Classical.choice, Quot.sound]
'Ryujin.InitialStates.C81_shock_entropy' depends on axioms: [propext, Classical.choice, Quot.sound]
'Ryujin.InitialStates.C81_shock_front' depends on axioms: [propext, Classical.choice, Quot.sound]
'Ryujin.InitialStates.C81_shock_front_polytropic' depends on axioms: [propext, Classical.choice, Quot.sound]
'Ryujin.InitialStates.C81_shock_front_violation' depends on axioms: [propext, Classical.choice, Quot.sound]
'Ryujin.InitialStates.C82_noh_inner' depends on axioms: [propext, Classical.choice, Quot.sound]
'Ryujin.InitialStates.C82_noh_outer' depends on axioms: [propext, Classical.choice, Quot.sound]
'Ryujin.InitialStates.C82_noh_shock' depends on axioms: [propext, Classical.choice, Quot.sound]
'Ryujin.InitialStates.C82_noh_violation' depends on axioms: [propext, Classical.choice, Quot.sound]
'Ryujin.InitialStates.C84_becker_admissible' depends on axioms: [propext, Classical.choice, Quot.sound]
'Ryujin.InitialStates.C84_becker_limits' depends on axioms: [propext, Classical.choice, Quot.sound]
'Ryujin.InitialStates.C84_becker_nan_violation' depends on axioms: [propext, Classical.choice, Quot.sound]
'Ryujin.InitialStates.C84_becker_root_finder' depends on axioms: [propext, Classical.choice, Quot.sound]
'Ryujin.InitialStates.C84_becker_root_finder_ends' depends on axioms: [propext, Classical.choice, Quot.sound]
'Ryujin.InitialStates.C84_becker_solution' depends on axioms: [propext, Classical.choice, Quot.sound]
'Ryujin.InitialStates.C84_becker_velocity' depends on axioms: [propext, Classical.choice, Quot.sound]
'Ryujin.InitialStates.C85_ramp_up' depends on axioms: [propext, Classical.choice, Quot.sound]
'Ryujin.InitialStates.C85_ramp_up_admissible' depends on axioms: [propext, Classical.choice, Quot.sound]
'Ryujin.InitialStates.C85_ramp_up_convex' depends on axioms: [propext, Classical.choice, Quot.sound]
'Ryujin.ShallowWaterStates.C83_paraboloid_1d' depends on axioms: [propext, Classical.choice, Quot.sound]
'Ryujin.ShallowWaterStates.C83_paraboloid_1d_dry' depends on axioms: [propext, Classical.choice, Quot.sound]
'Ryujin.ShallowWaterStates.C83_paraboloid_1d_violation' depends on axioms: [propext, Classical.choice, Quot.sound]
'Ryujin.ShallowWaterStates.C83_paraboloid_2d' depends on axioms: [propext, Classical.choice, Quot.sound]
'Ryujin.ShallowWaterStates.C83_ritter' depends on axioms: [propext, Classical.choice, Quot.sound]
'Ryujin.ShallowWaterStates.C83_smooth_vortex' depends on axioms: [propext, Classical.choice, Quot.sound]
'Ryujin.ShallowWaterStates.C83_smooth_vortex_violation' depends on axioms: [propext, Classical.choice, Quot.sound]
'Ryujin.ShallowWaterStates.C86_bump_jump_violation' depends on axioms: [propext, Classical.choice, Quot.sound]
'Ryujin.ShallowWaterStates.C86_bump_subsonic' depends on axioms: [propext, Classical.choice, Quot.sound]
'Ryujin.ShallowWaterStates.C86_bump_transcritical_partial' depends on axioms: [propext, Classical.choice, Quot.sound]
'Ryujin.ShallowWaterStates.C86_bump_transcritical_violation' depends on axioms: [propext, Classical.choice, Quot.sound]
'Ryujin.ShallowWaterStates.C86_sloping_friction' depends on axioms: [propext, Classical.choice, Quot.sound]
'Ryujin.ShallowWaterStates.C86_three_bumps' depends on axioms: [propext, Classical.choice, Quot.sound]
'Ryujin.ShallowWaterStates.C86_three_bumps_dam' depends on axioms: [propext, Classical.choice, Quot.sound]
'Ryujin.Assembly.C87_assembled_closed' depends on axioms: [propext, Classical.choice, Quot.sound]
'Ryujin.Assembly.C87_assembled_rowSum' depends on axioms: [propext, Classical.choice, Quot.sound]
'Ryujin.Assembly.C87_assembled_wellFormed' depends on axioms: [propext, Classical.choice, Quot.sound]
'Ryujin.Assembly.C87_euler_conserves' depends on axioms: [propext, Classical.choice, Quot.sound]
'Ryujin.Assembly.C87_incidence' depends on axioms: [propext, Classical.choice, Quot.sound]
'Ryujin.Assembly.C87_integration_by_parts' depends on axioms: [propext, Classical.choice, Quot.sound]
'Ryujin.Assembly.C87_linear_exact' depends on axioms: [propext, Classical.choice, Quot.sound]
'Ryujin.Assembly.C87_lumped_pos' depends on axioms: [propext, Classical.choice, Quot.sound]
'Ryujin.Assembly.C87_mass_inverse' depends on axioms: [propext, Classical.choice, Quot.sound]
'Ryujin.Assembly.C87_mass_matrix' depends on axioms: [propext, Classical.choice, Quot.sound]
'Ryujin.Assembly.C87_row_sum' depends on axioms: [propext, Classical.choice, Quot.sound]
'Ryujin.Assembly.C87_skew' depends on axioms: [propext, Classical.choice, Quot.sound]
'Ryujin.Assembly.C87_stencil_complete' depends on axioms: [propext, Classical.choice, Quot.sound]
'Ryujin.Assembly.C87_total_mass' depends on axioms: [propext, Classical.choice, Quot.sound]
'Ryujin.Aeos.C88_aeos_admissible' depends on axioms: [propext, Classical.choice, Quot.sound]
'Ryujin.Euler.C88_euler_entropy' depends on axioms: [propext, Classical.choice, Quot.sound]
'Ryujin.Prepare.C88_aeos' depends on axioms: [propext, Classical.choice, Quot.sound]
'Ryujin.Prepare.C88_dynamic_violation' depends on axioms: [propext, Classical.choice, Quot.sound]
'Ryujin.Prepare.C88_euler' depends on axioms: [propext, Classical.choice, Quot.sound]
'Ryujin.Prepare.C88_euler_admissible' depends on axioms: [propext, Classical.choice, Quot.sound]
'Ryujin.Prepare.C88_interior' depends on axioms: [propext, Classical.choice, Quot.sound]
'Ryujin.Prepare.C88_last' depends on axioms: [propext, Classical.choice, Quot.sound]
'Ryujin.Prepare.C88_local' depends on axioms: [propext, Classical.choice, Quot.sound]
'Ryujin.Prepare.C88_oblique_violation' depends on axioms: [propext, Classical.choice, Quot.sound]
'Ryujin.Prepare.C88_order' depends on axioms: [propext, Classical.choice, Quot.sound]
'Ryujin.Prepare.C88_scalar' depends on axioms: [propext, Classical.choice, Quot.sound]
'Ryujin.Prepare.C88_shallow_water' depends on axioms: [propext, Classical.choice, Quot.sound]
'Ryujin.Prepare.C88_walls' depends on axioms: [propext, Classical.choice, Quot.sound]
'Ryujin.Aeos.C89_aeos_entropy_flux' depends on axioms: [propext, Classical.choice, Quot.sound]
'Ryujin.Aeos.C89_aeos_harten_gradient' depends on axioms: [propext, Classical.choice, Quot.sound]
'Ryujin.Aeos.C89_aeos_indicator_vanishes' depends on axioms: [propext, Classical.choice, Quot.sound]
'Ryujin.Aeos.C89_aeos_numerator' depends on axioms: [propext, Classical.choice, Quot.sound]
'Ryujin.Euler.C89_euler_entropy_flux' depends on axioms: [propext, Classical.choice, Quot.sound]
'Ryujin.Euler.C89_euler_harten_gradient' depends on axioms: [propext, Classical.choice, Quot.sound]
'Ryujin.Euler.C89_euler_indicator_vanishes' depends on axioms: [propext, Classical.choice, Quot.sound]
'Ryujin.Euler.C89_euler_internal_energy_gradient' depends on axioms: [propext, Classical.choice, Quot.sound]
'Ryujin.Euler.C89_euler_mathematical_gradient' depends on axioms: [propext, Classical.choice, Quot.sound]
'Ryujin.Euler.C89_euler_numerator' depends on axioms: [propext, Classical.choice, Quot.sound]
'Ryujin.Scalar.C89_scalar_indicator_vanishes' depends on axioms: [propext, Classical.choice, Quot.sound]
'Ryujin.Scalar.C89_scalar_numerator' depends on axioms: [propext, Classical.choice, Quot.sound]
'Ryujin.Scalar.C89_scalar_numerator_limit' depends on axioms: [propext, Classical.choice, Quot.sound]
'Ryujin.ShallowWater.C89_sw_entropy_flux' depends on axioms: [propext, Classical.choice, Quot.sound]
'Ryujin.ShallowWater.C89_sw_gradient' depends on axioms: [propext, Classical.choice, Quot.sound]
'Ryujin.ShallowWater.C89_sw_indicator_vanishes' depends on axioms: [propext, Classical.choice, Quot.sound]
'Ryujin.ShallowWater.C89_sw_numerator' depends on axioms: [propext, Classical.choice, Quot.sound]
'Ryujin.ShallowWater.C91_open_boundary_violation' depends on axioms: [propext, Classical.choice, Quot.sound]
'Ryujin.ShallowWater.C91_sw_closed_basin' depends on axioms: [propext, Classical.choice, Quot.sound]
'Ryujin.ShallowWater.C91_sw_low_order_depth' depends on axioms: [propext, Classical.choice, Quot.sound]
'Ryujin.ShallowWater.C91_sw_step_depth_default' depends on axioms: [propext, Classical.choice, Quot.sound]
'Ryujin.ShallowWater.C91_sw_step_depth_nonneg' depends on axioms: [propext, Classical.choice, Quot.sound]
'Ryujin.Assembly.C90_assembled_aeos' depends on axioms: [propext, Classical.choice, Quot.sound]
'Ryujin.Assembly.C90_assembled_conserves' depends on axioms: [propext, Classical.choice, Quot.sound]
'Ryujin.Assembly.C90_assembled_depth' depends on axioms: [propext, Classical.choice, Quot.sound]
'Ryujin.Assembly.C90_assembled_euler' depends on axioms: [propext, Classical.choice, Quot.sound]
'Ryujin.Assembly.C90_assembled_scalar' depends on axioms: [propext, Classical.choice, Quot.sound]
'Ryujin.Assembly.C90_assembled_water' depends on axioms: [propext, Classical.choice, Quot.sound]
'Ryujin.Integrator.C90_forward_euler_invariant' depends on axioms: [propext, Classical.choice, Quot.sound]
'Ryujin.Integrator.C90_hyperbolic_run_conserves' depends on axioms: [propext, Classical.choice, Quot.sound]
'Ryujin.Integrator.C90_one_rank_run_conserves' depends on axioms: [propext, Classical.choice, Quot.sound]
'Ryujin.Integrator.C90_precomputed_invariant' depends on axioms: [propext, Classical.choice, Quot.sound]
'Ryujin.Integrator.C90_run_conserves' depends on axioms: [propext, Classical.choice, Quot.sound]
'Ryujin.Integrator.C90_run_invariant' depends on axioms: [propext, Classical.choice, Quot.sound]
'Ryujin.Scalar.C90_scalar_accepted_step' depends on axioms: [propext, Classical.choice, Quot.sound]
'Ryujin.Scalar.C90_scalar_never_rejected' depends on axioms: [propext, Classical.choice, Quot.sound]
'Ryujin.Scalar.C90_scalar_run' depends on axioms: [propext, Classical.choice, Quot.sound]
'Ryujin.ShallowWater.C90_sw_run_depth' depends on axioms: [propext, Classical.choice, Quot.sound]
'Ryujin.Aeos.C92_aeos_boundary' depends on axioms: [propext, Classical.choice, Quot.sound]
'Ryujin.Aeos.C92_aeos_pressure_jwl_negative' depends on axioms: [propext, Classical.choice, Quot.sound]
'Ryujin.Aeos.C92_aeos_pressure_noble_abel' depends on axioms: [propext, Classical.choice, Quot.sound]
'Ryujin.Aeos.C92_aeos_pressure_polytropic' depends on axioms: [propext, Classical.choice, Quot.sound]
'Ryujin.Aeos.C92_aeos_pressure_van_der_waals' depends on axioms: [propext, Classical.choice, Quot.sound]
'Ryujin.Aeos.C92_aeos_run_partial' depends on axioms: [propext, Classical.choice, Quot.sound]
'Ryujin.Assembly.C92_assembled_aeos_partial' depends on axioms: [propext, Classical.choice, Quot.sound]
'Ryujin.Assembly.C92_assembled_euler_partial' depends on axioms: [propext, Classical.choice, Quot.sound]
'Ryujin.Euler.C92_euler_boundary' depends on axioms: [propext, Classical.choice, Quot.sound]
'Ryujin.Euler.C92_euler_run_partial' depends on axioms: [propext, Classical.choice, Quot.sound]
'Ryujin.Aeos.C93_aeos_run_flat_walls' depends on axioms: [propext, Classical.choice, Quot.sound]
'Ryujin.Aeos.C93_aeos_run_walls' depends on axioms: [propext, Classical.choice, Quot.sound]
'Ryujin.Assembly.C93_assembled_aeos_flat_walls' depends on axioms: [propext, Classical.choice, Quot.sound]
'Ryujin.Assembly.C93_assembled_aeos_walls' depends on axioms: [propext, Classical.choice, Quot.sound]
'Ryujin.Assembly.C93_assembled_euler_flat_walls' depends on axioms: [propext, Classical.choice, Quot.sound]
'Ryujin.Assembly.C93_assembled_euler_walls' depends on axioms: [propext, Classical.choice, Quot.sound]
'Ryujin.Assembly.C93_assembled_flat' depends on axioms: [propext, Classical.choice, Quot.sound]
'Ryujin.Assembly.C93_assembled_normal' depends on axioms: [propext, Classical.choice, Quot.sound]
'Ryujin.Assembly.C93_assembled_water_flat_walls' depends on axioms: [propext, Classical.choice, Quot.sound]
'Ryujin.BoundaryMap.C93_boundary_map' depends on axioms: [propext, Classical.choice, Quot.sound]
'Ryujin.BoundaryMap.C93_nodal_normals' depends on axioms: [propext, Classical.choice, Quot.sound]
'Ryujin.C93_aeos_flat_walls' depends on axioms: [propext, Classical.choice, Quot.sound]
'Ryujin.C93_aeos_walls' depends on axioms: [propext, Classical.choice, Quot.sound]
'Ryujin.C93_euler_flat_walls' depends on axioms: [propext, Classical.choice, Quot.sound]
'Ryujin.C93_euler_walls' depends on axioms: [propext, Classical.choice, Quot.sound]
'Ryujin.C93_scalar_balance' depends on axioms: [propext, Classical.choice, Quot.sound]
'Ryujin.C93_sw_flat_walls' depends on axioms: [propext, Classical.choice, Quot.sound]
'Ryujin.Euler.C93_curved_wall_violation' depends on axioms: [propext, Classical.choice, Quot.sound]
'Ryujin.Hyp.C93_balance' depends on axioms: [propext, Classical.choice, Quot.sound]
'Ryujin.Integrator.C93_euler_run_flat_walls' depends on axioms: [propext, Classical.choice, Quot.sound]
'Ryujin.Integrator.C93_euler_run_walls' depends on axioms: [propext, Classical.choice, Quot.sound]
'Ryujin.Integrator.C93_sw_run_flat_walls' depends on axioms: [propext, Classical.choice, Quot.sound]
'Ryujin.GeoTiff.C94_bathymetry' depends on axioms: [propext, Classical.choice, Quot.sound]
'Ryujin.GeoTiff.C94_continuous' depends on axioms: [propext, Classical.choice, Quot.sound]
'Ryujin.GeoTiff.C94_degenerate_violation' depends on axioms: [propext, Classical.choice, Quot.sound]
'Ryujin.GeoTiff.C94_lake' depends on axioms: [propext, Classical.choice, Quot.sound]
'Ryujin.GeoTiff.C94_outside_partial' depends on axioms: [propext, Classical.choice, Quot.sound]
'Ryujin.GeoTiff.C94_outside_violation' depends on axioms: [propext, Classical.choice, Quot.sound]
'Ryujin.GeoTiff.C94_outside_wrapping' depends on axioms: [propext, Classical.choice, Quot.sound]
'Ryujin.GeoTiff.C94_pixel' depends on axioms: [propext, Classical.choice, Quot.sound]
'Ryujin.GeoTiff.C94_range' depends on axioms: [propext, Classical.choice, Quot.sound]
'Ryujin.GeoTiff.C94_rejects' depends on axioms: [propext, Classical.choice, Quot.sound]
'Ryujin.GeoTiff.C94_saturating_violation' depends on axioms: [propext, Classical.choice, Quot.sound]
'Ryujin.GeoTiff.C94_slope' depends on axioms: [propext, Classical.choice, Quot.sound]
'Ryujin.GeoTiff.C94_state' depends on axioms: [propext, Classical.choice, Quot.sound]
'Ryujin.InitialStates.C95_aeos_function_violation' depends on axioms: [propext, Classical.choice, Quot.sound]
'Ryujin.InitialStates.C95_aeos_initial' depends on axioms: [propext, Classical.choice, Quot.sound]
'Ryujin.InitialStates.C95_aeos_initial2' depends on axioms: [propext, Classical.choice, Quot.sound]
'Ryujin.InitialStates.C95_astro_jet' depends on axioms: [propext, Classical.choice, Quot.sound]
'Ryujin.InitialStates.C95_astro_jet_1d_violation' depends on axioms: [propext, Classical.choice, Quot.sound]
'Ryujin.InitialStates.C95_contrast' depends on axioms: [propext, Classical.choice, Quot.sound]
'Ryujin.InitialStates.C95_euler_admissible' depends on axioms: [propext, Classical.choice, Quot.sound]
'Ryujin.InitialStates.C95_euler_initial' depends on axioms: [propext, Classical.choice, Quot.sound]
'Ryujin.InitialStates.C95_euler_initial2' depends on axioms: [propext, Classical.choice, Quot.sound]
'Ryujin.InitialStates.C95_euler_primitive' depends on axioms: [propext, Classical.choice, Quot.sound]
'Ryujin.InitialStates.C95_four_states' depends on axioms: [propext, Classical.choice, Quot.sound]
'Ryujin.InitialStates.C95_function' depends on axioms: [propext, Classical.choice, Quot.sound]
'Ryujin.InitialStates.C95_radial' depends on axioms: [propext, Classical.choice, Quot.sound]
'Ryujin.InitialStates.C95_three_states' depends on axioms: [propext, Classical.choice, Quot.sound]
'Ryujin.InitialStates.C95_uniform' depends on axioms: [propext, Classical.choice, Quot.sound]
'Ryujin.ShallowWaterStates.C95_circular_dam_violation' depends on axioms: [propext, Classical.choice, Quot.sound]
'Ryujin.ShallowWaterStates.C95_hou' depends on axioms: [propext, Classical.choice, Quot.sound]
'Ryujin.ShallowWaterStates.C95_hou_lake' depends on axioms: [propext, Classical.choice, Quot.sound]
'Ryujin.ShallowWaterStates.C95_soliton' depends on axioms: [propext, Classical.choice, Quot.sound]
'Ryujin.ShallowWaterStates.C95_sw_contrast' depends on axioms: [propext, Classical.choice, Quot.sound]
'Ryujin.ShallowWaterStates.C95_sw_function' depends on axioms: [propext, Classical.choice, Quot.sound]
'Ryujin.ShallowWaterStates.C95_tank' depends on axioms: [propext, Classical.choice, Quot.sound]
'Ryujin.ShallowWaterStates.C95_tank_base' depends on axioms: [propext, Classical.choice, Quot.sound]
'Ryujin.ShallowWaterStates.C95_tank_names' depends on axioms: [propext, Classical.choice, Quot.sound]
'Ryujin.ShallowWaterStates.C95_tank_obstacle' depends on axioms: [propext, Classical.choice, Quot.sound]
'Ryujin.ShallowWaterStates.C95_tank_rectangle' depends on axioms: [propext, Classical.choice, Quot.sound]
'Ryujin.Transfinite.C96_boundary' depends on axioms: [propext, Classical.choice, Quot.sound]
'Ryujin.Transfinite.C96_conforming' depends on axioms: [propext, Classical.choice, Quot.sound]
'Ryujin.Transfinite.C96_coons' depends on axioms: [propext, Classical.choice, Quot.sound]
'Ryujin.Transfinite.C96_corners' depends on axioms: [propext, Classical.choice, Quot.sound]
'Ryujin.Transfinite.C96_faces' depends on axioms: [propext, Classical.choice, Quot.sound]
'Ryujin.Transfinite.C96_flat' depends on axioms: [propext, Classical.choice, Quot.sound]
'Ryujin.Transfinite.C96_flat3' depends on axioms: [propext, Classical.choice, Quot.sound]
'Ryujin.Transfinite.C96_gordon' depends on axioms: [propext, Classical.choice, Quot.sound]
'Ryujin.Transfinite.C96_lines' depends on axioms: [propext, Classical.choice, Quot.sound]
'Ryujin.Transfinite.C96_threshold_violation' depends on axioms: [propext, Classical.choice, Quot.sound]
'Ryujin.Transfinite.C96_vertices' depends on axioms: [propext, Classical.choice, Quot.sound]
'Ryujin.Transfinite.C97_accurate' depends on axioms: [propext, Classical.choice, Quot.sound]
'Ryujin.Transfinite.C97_affine' depends on axioms: [propext, Classical.choice, Quot.sound]
'Ryujin.Transfinite.C97_best_estimate_violation' depends on axioms: [propext, Classical.choice, Quot.sound]
'Ryujin.Transfinite.C97_chart' depends on axioms: [propext, Classical.choice, Quot.sound]
'Ryujin.Transfinite.C97_exception' depends on axioms: [propext, Classical.choice, Quot.sound]
'Ryujin.Transfinite.C97_mean' depends on axioms: [propext, Classical.choice, Quot.sound]
'Ryujin.Transfinite.C97_rows' depends on axioms: [propext, Classical.choice, Quot.sound]
'Ryujin.Transfinite.C97_sound' depends on axioms: [propext, Classical.choice, Quot.sound]
'Ryujin.Transfinite.C97_twenty_violation' depends on axioms: [propext, Classical.choice, Quot.sound]
'Ryujin.Airfoil.C98_clone' depends on axioms: [propext, Classical.choice, Quot.sound]
'Ryujin.Airfoil.C98_extruded' depends on axioms: [propext, Classical.choice, Quot.sound]
'Ryujin.Airfoil.C98_extruded_violation' depends on axioms: [propext, Classical.choice, Quot.sound]
'Ryujin.Airfoil.C98_grading_extrapolation' depends on axioms: [propext, Classical.choice, Quot.sound]
'Ryujin.Airfoil.C98_grading_layers' depends on axioms: [propext, Classical.choice, Quot.sound]
'Ryujin.Airfoil.C98_grading_partial' depends on axioms: [propext, Classical.choice, Quot.sound]
'Ryujin.Airfoil.C98_grading_violation' depends on axioms: [propext, Classical.choice, Quot.sound]
'Ryujin.Airfoil.C98_length' depends on axioms: [propext, Classical.choice, Quot.sound]
'Ryujin.Airfoil.C98_profile' depends on axioms: [propext, Classical.choice, Quot.sound]
'Ryujin.Airfoil.C98_psi_join' depends on axioms: [propext, Classical.choice, Quot.sound]
'Ryujin.Airfoil.C98_psi_samples' depends on axioms: [propext, Classical.choice, Quot.sound]
'Ryujin.Airfoil.C98_pull_push' depends on axioms: [propext, Classical.choice, Quot.sound]
'Ryujin.Airfoil.C98_push_pull' depends on axioms: [propext, Classical.choice, Quot.sound]
'Ryujin.Airfoil.C98_refined_vertex' depends on axioms: [propext, Classical.choice, Quot.sound]
'Ryujin.Airfoil.C98_single_point_violation' depends on axioms: [propext, Classical.choice, Quot.sound]
'Ryujin.Airfoil.C98_trailing_edge' depends on axioms: [propext, Classical.choice, Quot.sound]
'Ryujin.Airfoil.C99_camber' depends on axioms: [propext, Classical.choice, Quot.sound]
'Ryujin.Airfoil.C99_samples' depends on axioms: [propext, Classical.choice, Quot.sound]
'Ryujin.Airfoil.C99_section' depends on axioms: [propext, Classical.choice, Quot.sound]
'Ryujin.Airfoil.C99_symmetric' depends on axioms: [propext, Classical.choice, Quot.sound]
'Ryujin.Airfoil.C99_thickness' depends on axioms: [propext, Classical.choice, Quot.sound]
'Ryujin.Airfoil.C99_trailing_edge_violation' depends on axioms: [propext, Classical.choice, Quot.sound]
'Ryujin.Airfoil.C99_unsorted_violation' depends on axioms: [propext, Classical.choice, Quot.sound]
'Ryujin.Airfoil.C99_validation_violation' depends on axioms: [propext, Classical.choice, Quot.sound]
'Ryujin.Geometries.C100_airfoil' depends on axioms: [propext, Classical.choice, Quot.sound]
'Ryujin.Geometries.C100_airfoil_extruded' depends on axioms: [propext, Classical.choice, Quot.sound]
'Ryujin.Geometries.C100_airfoil_long_violation' depends on axioms: [propext, Classical.choice, Quot.sound]
'Ryujin.Geometries.C100_cylinder' depends on axioms: [propext, Classical.choice, Quot.sound]
'Ryujin.Geometries.C100_periodic' depends on axioms: [propext, Classical.choice, Quot.sound]
'Ryujin.Geometries.C100_rectangle' depends on axioms: [propext, Classical.choice, Quot.sound]
'Ryujin.Geometries.C100_rectangle_small_violation' depends on axioms: [propext, Classical.choice, Quot.sound]
'Ryujin.Geometries.C100_rectangle_swapped_violation' depends on axioms: [propext, Classical.choice, Quot.sound]
'Ryujin.Geometries.C100_step' depends on axioms: [propext, Classical.choice, Quot.sound]
'Ryujin.Geometries.C100_step_conforming_violation' depends on axioms: [propext, Classical.choice, Quot.sound]
'Ryujin.Geometries.C100_step_corner' depends on axioms: [propext, Classical.choice, Quot.sound]
'Ryujin.Geometries.C100_step_short_violation' depends on axioms: [propext, Classical.choice, Quot.sound]
'Ryujin.Geometries.C100_tank' depends on axioms: [propext, Classical.choice, Quot.sound]
'Ryujin.Geometries.C100_tank_defaults_violation' depends on axioms: [propext, Classical.choice, Quot.sound]
'Ryujin.Geometries.C100_wall' depends on axioms: [propext, Classical.choice, Quot.sound]
'Ryujin.Geometries.C100_wall_documentation_violation' depends on axioms: [propext, Classical.choice, Quot.sound]
'Ryujin.ErrorNorms.C101_consolidated' depends on axioms: [propext, Classical.choice, Quot.sound]
'Ryujin.ErrorNorms.C101_cubic_violation' depends on axioms: [propext, Classical.choice, Quot.sound]
'Ryujin.ErrorNorms.C101_definite' depends on axioms: [propext, Classical.choice, Quot.sound]
'Ryujin.ErrorNorms.C101_exact' depends on axioms: [propext, Classical.choice, Quot.sound]
'Ryujin.ErrorNorms.C101_l2_exact' depends on axioms: [propext, Classical.choice, Quot.sound]
'Ryujin.ErrorNorms.C101_normalized' depends on axioms: [propext, Classical.choice, Quot.sound]
'Ryujin.ErrorNorms.C101_norms' depends on axioms: [propext, Classical.choice, Quot.sound]
'Ryujin.ErrorNorms.C101_partition' depends on axioms: [propext, Classical.choice, Quot.sound]
'Ryujin.ErrorNorms.C101_quadrature' depends on axioms: [propext, Classical.choice, Quot.sound]
'Ryujin.ErrorNorms.C101_unknown' depends on axioms: [propext, Classical.choice, Quot.sound]
'Ryujin.ErrorNorms.C101_vanishing_component_violation' depends on axioms: [propext, Classical.choice, Quot.sound]
'Ryujin.VtuOutput.C102_complete' depends on axioms: [propext, Classical.choice, Quot.sound]
'Ryujin.VtuOutput.C102_curved_violation' depends on axioms: [propext, Classical.choice, Quot.sound]
'Ryujin.VtuOutput.C102_file_names' depends on axioms: [propext, Classical.choice, Quot.sound]
'Ryujin.VtuOutput.C102_ghost_violation' depends on axioms: [propext, Classical.choice, Quot.sound]
'Ryujin.VtuOutput.C102_only_intersecting' depends on axioms: [propext, Classical.choice, Quot.sound]
'Ryujin.VtuOutput.C102_planes' depends on axioms: [propext, Classical.choice, Quot.sound]
'Ryujin.VtuOutput.C102_selection' depends on axioms: [propext, Classical.choice, Quot.sound]
'Ryujin.C104_aeos_partial' depends on axioms: [propext, Classical.choice, Quot.sound]
'Ryujin.C104_aeos_run_partial' depends on axioms: [propext, Classical.choice, Quot.sound]
'Ryujin.C104_aeos_violation' depends on axioms: [propext, Classical.choice, Quot.sound]
'Ryujin.C104_dG_order_violation' depends on axioms: [propext, Classical.choice, Quot.sound]
'Ryujin.C104_euler' depends on axioms: [propext, Classical.choice, Quot.sound]
'Ryujin.C104_scalar' depends on axioms: [propext, Classical.choice, Quot.sound]
'Ryujin.C104_sw' depends on axioms: [propext, Classical.choice, Quot.sound]
'Ryujin.Hyp.C104_euler_run' depends on axioms: [propext, Classical.choice, Quot.sound]
'Ryujin.Hyp.C104_scalar_run' depends on axioms: [propext, Classical.choice, Quot.sound]
'Ryujin.Hyp.C104_sw_run' depends on axioms: [propext, Classical.choice, Quot.sound]
'Ryujin.C105_aeos_axes_partial' depends on axioms: [propext, Classical.choice, Quot.sound]
'Ryujin.C105_aeos_boundary' depends on axioms: [propext, Classical.choice, Quot.sound]
'Ryujin.C105_aeos_run_partial' depends on axioms: [propext, Classical.choice, Quot.sound]
'Ryujin.C105_euler_axes' depends on axioms: [propext, Classical.choice, Quot.sound]
'Ryujin.C105_euler_rotation_violation' depends on axioms: [propext, Classical.choice, Quot.sound]
'Ryujin.C105_euler_symmetric' depends on axioms: [propext, Classical.choice, Quot.sound]
'Ryujin.C105_sw' depends on axioms: [propext, Classical.choice, Quot.sound]
'Ryujin.C105_sw_symmetric' depends on axioms: [propext, Classical.choice, Quot.sound]
'Ryujin.Euler.C105_euler_boundary' depends on axioms: [propext, Classical.choice, Quot.sound]
'Ryujin.Hyp.C105_euler_run' depends on axioms: [propext, Classical.choice, Quot.sound]
'Ryujin.Hyp.C105_euler_symmetric_run' depends on axioms: [propext, Classical.choice, Quot.sound]
'Ryujin.Hyp.C105_sw_run' depends on axioms: [propext, Classical.choice, Quot.sound]
'Ryujin.Hyp.C105_sw_symmetric_run' depends on axioms: [propext, Classical.choice, Quot.sound]
'Ryujin.ShallowWater.C105_sw_boundary' depends on axioms: [propext, Classical.choice, Quot.sound]
'Ryujin.Aeos.C103_aeos' depends on axioms: [propext, Classical.choice, Quot.sound]
'Ryujin.Aeos.C103_aeos_boundary' depends on axioms: [propext, Classical.choice, Quot.sound]
'Ryujin.Assembly.C103_assembled_aeos' depends on axioms: [propext, Classical.choice, Quot.sound]
'Ryujin.Assembly.C103_assembled_euler' depends on axioms: [propext, Classical.choice, Quot.sound]
'Ryujin.Assembly.C103_assembled_water' depends on axioms: [propext, Classical.choice, Quot.sound]
'Ryujin.C103_aeos_run' depends on axioms: [propext, Classical.choice, Quot.sound]
'Ryujin.C103_euler_run' depends on axioms: [propext, Classical.choice, Quot.sound]
'Ryujin.C103_scalar_run' depends on axioms: [propext, Classical.choice, Quot.sound]
'Ryujin.C103_sw_run' depends on axioms: [propext, Classical.choice, Quot.sound]
'Ryujin.Euler.C103_euler' depends on axioms: [propext, Classical.choice, Quot.sound]
'Ryujin.Euler.C103_euler_boundary' depends on axioms: [propext, Classical.choice, Quot.sound]
'Ryujin.Euler.C103_euler_returns' depends on axioms: [propext, Classical.choice, Quot.sound]
'Ryujin.Scalar.C103_scalar' depends on axioms: [propext, Classical.choice, Quot.sound]
'Ryujin.Scalar.C103_scalar_returns' depends on axioms: [propext, Classical.choice, Quot.sound]
'Ryujin.ShallowWater.C103_sw' depends on axioms: [propext, Classical.choice, Quot.sound]
'Ryujin.ShallowWater.C103_sw_boundary' depends on axioms: [propext, Classical.choice, Quot.sound]
'Ryujin.ShallowWater.C103_sw_returns' depends on axioms: [propext, Classical.choice, Quot.sound]
'Ryujin.Hyp.C106_dg_violation' depends on axioms: [propext, Classical.choice, Quot.sound]
'Ryujin.Hyp.C106_domain_partial' depends on axioms: [propext, Classical.choice, Quot.sound]
'Ryujin.Integrator.C106_aeos_run_partial' depends on axioms: [propext, Classical.choice, Quot.sound]
'Ryujin.Integrator.C106_plain_run_partial' depends on axioms: [propext, Classical.choice, Quot.sound]
'Ryujin.Integrator.C106_run_partial' depends on axioms: [propext, Classical.choice, Quot.sound]
'Ryujin.Aeos.C107_aeos_run_partial' depends on axioms: [propext, Classical.choice, Quot.sound]
'Ryujin.Hyp.Mpi.C107_dg_partial' depends on axioms: [propext, Classical.choice, Quot.sound]
'Ryujin.Hyp.Mpi.C107_dg_violation' depends on axioms: [propext, Classical.choice, Quot.sound]
'Ryujin.Hyp.Mpi.C107_prepare' depends on axioms: [propext, Classical.choice, Quot.sound]
'Ryujin.Hyp.Mpi.C107_run_partial' depends on axioms: [propext, Classical.choice, Quot.sound]
'Ryujin.Hyp.Mpi.C107_step_partial' depends on axioms: [propext, Classical.choice, Quot.sound]
'Ryujin.Hyp.Mpi.C107_time_step_partial' depends on axioms: [propext, Classical.choice, Quot.sound]
'Ryujin.FastPow.C108_accuracy_partial' depends on axioms: [propext, Classical.choice, Quot.sound]
'Ryujin.FastPow.C108_base_one' depends on axioms: [propext, Classical.choice, Quot.sound]
'Ryujin.FastPow.C108_base_zero' depends on axioms: [propext, Classical.choice, Quot.sound]
'Ryujin.FastPow.C108_error_bound_partial' depends on axioms: [propext, Classical.choice, Quot.sound]
'Ryujin.FastPow.C108_lower_bias_violation' depends on axioms: [propext, Classical.choice, Quot.sound]
'Ryujin.FastPow.C108_upper_bias_violation' depends on axioms: [propext, Classical.choice, Quot.sound]
'Ryujin.NavierStokes.C109_energy_diagonal' depends on axioms: [propext, Classical.choice, Quot.sound]
'Ryujin.NavierStokes.C109_mass_diagonal' depends on axioms: [propext, Classical.choice, Quot.sound]
'Ryujin.NavierStokes.C109_mass_diagonal_block' depends on axioms: [propext, Classical.choice, Quot.sound]
'Ryujin.NavierStokes.C109_slip_negative_violation' depends on axioms: [propext, Classical.choice, Quot.sound]
'Ryujin.NavierStokes.C109_velocity_diagonal_partial' depends on axioms: [propext, Classical.choice, Quot.sound]
'Ryujin.NavierStokes.C109_velocity_preconditioner_partial' depends on axioms: [propext, Classical.choice, Quot.sound]
'Ryujin.Progress.C110_eta_constant_rate' depends on axioms: [propext, Classical.choice, Quot.sound]
'Ryujin.Progress.C110_eta_converges' depends on axioms: [propext, Classical.choice, Quot.sound]
'Ryujin.Progress.C110_eta_defined' depends on axioms: [propext, Classical.choice, Quot.sound]
'Ryujin.Progress.C110_eta_printed' depends on axioms: [propext, Classical.choice, Quot.sound]
'Ryujin.Progress.C110_eta_undefined_violation' depends on axioms: [propext, Classical.choice, Quot.sound]
'Ryujin.Progress.C110_first_eta_violation' depends on axioms: [propext, Classical.choice, Quot.sound]
'Ryujin.Progress.C110_header_width' depends on axioms: [propext, Quot.sound]
'Ryujin.Progress.C110_resumed_run_violation' depends on axioms: [propext, Classical.choice, Quot.sound]
'Ryujin.Progress.C110_since_last_report' depends on axioms: [propext, Classical.choice, Quot.sound]
'Ryujin.Progress.C110_whole_run' depends on axioms: [propext, Classical.choice, Quot.sound]
'Ryujin.Hyp.Threads.C111_completes' depends on axioms: [propext, Classical.choice, Quot.sound]
'Ryujin.Hyp.Threads.C111_dg_data_race_violation' depends on axioms: [propext, Classical.choice, Quot.sound]
'Ryujin.Hyp.Threads.C111_dg_race_violation' depends on axioms: [propext, Classical.choice, Quot.sound]
'Ryujin.Hyp.Threads.C111_one_process_partial' depends on axioms: [propext, Classical.choice, Quot.sound]
'Ryujin.Hyp.Threads.C111_race_free_partial' depends on axioms: [propext, Classical.choice, Quot.sound]
'Ryujin.Hyp.Threads.C111_step_partial' depends on axioms: [propext, Classical.choice, Quot.sound]
'Ryujin.Hyp.Threads.C111_threads_partial' depends on axioms: [propext, Classical.choice, Quot.sound]
'Ryujin.Eos.Threads.C112_cycle0' depends on axioms: [propext, Classical.choice, Quot.sound]
'Ryujin.Eos.Threads.C112_cycle1' depends on axioms: [propext, Classical.choice, Quot.sound]
'Ryujin.Eos.Threads.C112_data_race_violation' depends on axioms: [propext, Classical.choice, Quot.sound]
'Ryujin.Eos.Threads.C112_minimum' depends on axioms: [propext, Classical.choice, Quot.sound]
'Ryujin.Quantities.Files.C113_boundary_points' depends on axioms: [propext, Classical.choice, Quot.sound]
'Ryujin.Quantities.Files.C113_file_names' depends on axioms: [propext, Classical.choice, Quot.sound]
'Ryujin.Quantities.Files.C113_instantaneous' depends on axioms: [propext, Classical.choice, Quot.sound]
'Ryujin.Quantities.Files.C113_points' depends on axioms: [propext, Classical.choice, Quot.sound]
'Ryujin.Quantities.Files.C113_points_of_rank' depends on axioms: [propext, Classical.choice, Quot.sound]
'Ryujin.Quantities.Files.C113_same_name_violation' depends on axioms: [propext, Classical.choice, Quot.sound]
'Ryujin.Quantities.Files.C113_time_averages' depends on axioms: [propext, Classical.choice, Quot.sound]
'Ryujin.Quantities.Files.C113_time_series' depends on axioms: [propext, Classical.choice, Quot.sound]
'Ryujin.Quantities.Files.C113_time_series_adapted' depends on axioms: [propext, Classical.choice, Quot.sound]
'Ryujin.Discretize.C114_adaptation_partial' depends on axioms: [propext, Classical.choice, Quot.sound]
'Ryujin.Discretize.C114_ansatz' depends on axioms: [propext]
'Ryujin.Discretize.C114_distortion_violation' depends on axioms: [propext, Classical.choice, Quot.sound]
'Ryujin.Discretize.C114_geometry' depends on axioms: [propext, Classical.choice, Quot.sound]
'Ryujin.Discretize.C114_number_of_cells' depends on axioms: [propext, Classical.choice, Quot.sound]
'Ryujin.Discretize.C114_quadrature' depends on axioms: [propext, Classical.choice, Quot.sound]
'Ryujin.Discretize.C114_random_adaptation_violation' depends on axioms: [propext, Classical.choice, Quot.sound]
'Ryujin.Discretize.C114_reproducible' depends on axioms: [propext, Classical.choice, Quot.sound]
'Ryujin.Discretize.C114_resume_partial' depends on axioms: [propext, Classical.choice, Quot.sound]
'Ryujin.Skeleton.C115_dg_violation' depends on axioms: [propext, Classical.choice, Quot.sound]
'Ryujin.Skeleton.C115_low_order_violation' depends on axioms: [propext, Classical.choice, Quot.sound]
'Ryujin.Skeleton.C115_run_partial' depends on axioms: [propext, Classical.choice, Quot.sound]
'Ryujin.Skeleton.C115_step_partial' depends on axioms: [propext, Classical.choice, Quot.sound]
'Ryujin.NavierStokes.C116_admissible_partial' depends on axioms: [propext, Classical.choice, Quot.sound]
'Ryujin.NavierStokes.C116_conserves_partial' depends on axioms: [propext, Classical.choice, Quot.sound]
'Ryujin.NavierStokes.C116_extrapolation_violation' depends on axioms: [propext, Classical.choice, Quot.sound]
'Ryujin.NavierStokes.C116_parabolic_admissible' depends on axioms: [propext, Classical.choice, Quot.sound]
'Ryujin.NavierStokes.C116_wall_velocity_partial' depends on axioms: [propext, Classical.choice, Quot.sound]
'Ryujin.NavierStokes.C116_walls_partial' depends on axioms: [propext, Classical.choice, Quot.sound]
'Ryujin.Eos.Sesame.C117_arguments_violation' depends on axioms: [propext, Classical.choice, Quot.sound]
'Ryujin.Eos.Sesame.C117_available' depends on axioms: [propext, Classical.choice, Quot.sound]
'Ryujin.Eos.Sesame.C117_ideal_gas' depends on axioms: [propext, Classical.choice, Quot.sound]
'Ryujin.Eos.Sesame.C117_inverse' depends on axioms: [propext, Classical.choice, Quot.sound]
'Ryujin.Eos.Sesame.C117_missing_throws' depends on axioms: [propext, Classical.choice, Quot.sound]
'Ryujin.Eos.Sesame.C117_not_implemented_violation' depends on axioms: [propext, Classical.choice, Quot.sound]
'Ryujin.Eos.Sesame.C117_outside_violation' depends on axioms: [propext, Classical.choice, Quot.sound]
'Ryujin.Eos.Sesame.C117_precomputed_pressures' depends on axioms: [propext, Classical.choice, Quot.sound]
'Ryujin.Eos.Sesame.C117_second_parse_violation' depends on axioms: [propext, Classical.choice, Quot.sound]
'Ryujin.Eos.Sesame.C117_values' depends on axioms: [propext, Classical.choice, Quot.sound]
'Ryujin.Program.C118_dimension_rejected' depends on axioms: [propext, Classical.choice, Quot.sound]
'Ryujin.Program.C118_dimension_text' depends on axioms: [propext, Classical.choice, Quot.sound]
'Ryujin.Program.C118_file' depends on axioms: [propext, Classical.choice, Quot.sound]
'Ryujin.Program.C118_never_wrong' depends on axioms: [propext, Classical.choice, Quot.sound]
'Ryujin.Program.C118_parameter_file' depends on axioms: [propext, Classical.choice, Quot.sound]
'Ryujin.Program.C118_ranks' depends on axioms: [propext, Classical.choice, Quot.sound]
'Ryujin.Program.C118_ranks_violation' depends on axioms: [propext, Classical.choice, Quot.sound]
'Ryujin.Program.C118_template_name' depends on axioms: [propext, Classical.choice, Quot.sound]
'Ryujin.Program.C118_templates' depends on axioms: [propext, Classical.choice, Quot.sound]
'Ryujin.Rounded.C119_complete_step' depends on axioms: [propext, Classical.choice, Quot.sound]
'Ryujin.Rounded.C119_exact_aeos' depends on axioms: [propext, Classical.choice, Quot.sound]
'Ryujin.Rounded.C119_exact_euler' depends on axioms: [propext, Classical.choice, Quot.sound]
'Ryujin.Rounded.C119_exact_scalar' depends on axioms: [propext, Classical.choice, Quot.sound]
'Ryujin.Rounded.C119_exact_shallow' depends on axioms: [propext, Classical.choice, Quot.sound]
'Ryujin.Rounded.C119_first_round' depends on axioms: [propext, Classical.choice, Quot.sound]
'Ryujin.Rounded.C119_limit' depends on axioms: [propext, Classical.choice, Quot.sound]
'Ryujin.Rounded.C119_low_order' depends on axioms: [propext, Classical.choice, Quot.sound]
'Ryujin.Rounded.C119_no_warning' depends on axioms: [propext, Classical.choice, Quot.sound]
'Ryujin.Rounded.C119_positive' depends on axioms: [propext, Classical.choice, Quot.sound]
'Ryujin.Rounded.C119_second_round' depends on axioms: [propext, Classical.choice, Quot.sound]
'Ryujin.Rounded.C119_violation' depends on axioms: [propext, Classical.choice, Quot.sound]
'Ryujin.Rounded.C119_window' depends on axioms: [propext, Classical.choice, Quot.sound]
'Ryujin.RoundedShallow.C119_shallow_water_complete_step' depends on axioms: [propext, Classical.choice, Quot.sound]
'Ryujin.Rounded.C120_last_step' depends on axioms: [propext, Classical.choice, Quot.sound]
'Ryujin.Rounded.C120_no_overshoot' depends on axioms: [propext, Classical.choice, Quot.sound]
'Ryujin.Rounded.C120_not_early' depends on axioms: [propext, Classical.choice, Quot.sound]
'Ryujin.Rounded.C120_stuck_violation' depends on axioms: [propext, Classical.choice, Quot.sound]
'Ryujin.Rounded.C120_terminates' depends on axioms: [propext, Classical.choice, Quot.sound]
'Ryujin.Rounded.C120_tick_violation' depends on axioms: [propext, Classical.choice, Quot.sound]
'Ryujin.Aeos.C121_aeos_limit' depends on axioms: [propext, Classical.choice, Quot.sound]
'Ryujin.Euler.C121_euler_limit' depends on axioms: [propext, Classical.choice, Quot.sound]
'Ryujin.Euler.C121_euler_one_pass' depends on axioms: [propext, Classical.choice, Quot.sound]
'Ryujin.Euler.C121_euler_riemann' depends on axioms: [propext, Classical.choice, Quot.sound]
'Ryujin.Euler.C121_euler_riemann_start' depends on axioms: [propext, Classical.choice, Quot.sound]
'Ryujin.Euler.C121_euler_success' depends on axioms: [propext, Classical.choice, Quot.sound]
'Ryujin.Euler.C121_euler_success_group' depends on axioms: [propext, Classical.choice, Quot.sound]
'Ryujin.Euler.C121_success_violation' depends on axioms: [propext, Classical.choice, Quot.sound]
'Ryujin.Euler.C121_violation' depends on axioms: [propext, Classical.choice, Quot.sound]
'Ryujin.Hyp.C121_one_pass' depends on axioms: [propext, Classical.choice, Quot.sound]
'Ryujin.Scalar.C121_scalar_limit' depends on axioms: [propext, Classical.choice, Quot.sound]
'Ryujin.ShallowWater.C121_sw_limit' depends on axioms: [propext, Classical.choice, Quot.sound]
'Ryujin.Scalar.C122_burgers' depends on axioms: [propext, Classical.choice, Quot.sound]
'Ryujin.Scalar.C122_convex_violation' depends on axioms: [propext, Classical.choice, Quot.sound]
'Ryujin.Scalar.C122_default_expression' depends on axioms: [propext, Classical.choice, Quot.sound]
'Ryujin.Scalar.C122_difference_quotient' depends on axioms: [propext, Classical.choice, Quot.sound]
'Ryujin.Scalar.C122_dimension_violation' depends on axioms: [propext, Classical.choice, Quot.sound]
'Ryujin.Scalar.C122_expression' depends on axioms: [propext, Quot.sound]
'Ryujin.Scalar.C122_expression_join' depends on axioms: [propext, Quot.sound]
'Ryujin.Scalar.C122_function' depends on axioms: [propext, Classical.choice, Quot.sound]
'Ryujin.Scalar.C122_kpp' depends on axioms: [propext, Classical.choice, Quot.sound]
'Ryujin.Scalar.C122_kpp_three' depends on axioms: [propext, Classical.choice, Quot.sound]
'Ryujin.Scalar.C122_precomputed' depends on axioms: [propext, Classical.choice, Quot.sound]
'Ryujin.Scalar.C122_precomputed_total' depends on axioms: [propext, Classical.choice, Quot.sound]
'Ryujin.Scalar.C122_quadratic' depends on axioms: [propext, Classical.choice, Quot.sound]
'Ryujin.Scalar.C122_roe' depends on axioms: [propext, Classical.choice, Quot.sound]
'Ryujin.Scalar.C122_selection' depends on axioms: [propext, Classical.choice, Quot.sound]
'Ryujin.Scalar.C122_sharp' depends on axioms: [propext, Classical.choice, Quot.sound]
'Ryujin.Rounded.C123_aeos_component' depends on axioms: [propext, Classical.choice, Quot.sound]
'Ryujin.Rounded.C123_assembled' depends on axioms: [propext, Classical.choice, Quot.sound]
'Ryujin.Rounded.C123_assembled_exact' depends on axioms: [propext, Classical.choice, Quot.sound]
'Ryujin.Rounded.C123_assembled_relative' depends on axioms: [propext, Classical.choice, Quot.sound]
'Ryujin.Rounded.C123_conservation' depends on axioms: [propext, Classical.choice, Quot.sound]
'Ryujin.Rounded.C123_conservation_linear' depends on axioms: [propext, Classical.choice, Quot.sound]
'Ryujin.Rounded.C123_constrained' depends on axioms: [propext, Classical.choice, Quot.sound]
'Ryujin.Rounded.C123_euler_component' depends on axioms: [propext, Classical.choice, Quot.sound]
'Ryujin.Rounded.C123_exact_correction' depends on axioms: [propext, Classical.choice, Quot.sound]
'Ryujin.Rounded.C123_exact_low' depends on axioms: [propext, Classical.choice, Quot.sound]
'Ryujin.Rounded.C123_exact_pass' depends on axioms: [propext, Classical.choice, Quot.sound]
'Ryujin.Rounded.C123_exact_rhs' depends on axioms: [propext, Classical.choice, Quot.sound]
'Ryujin.Rounded.C123_exact_step' depends on axioms: [propext, Classical.choice, Quot.sound]
'Ryujin.Rounded.C123_scalar_component' depends on axioms: [propext, Classical.choice, Quot.sound]
'Ryujin.RoundedShallow.C123_shallow_water' depends on axioms: [propext, Classical.choice, Quot.sound]
'Ryujin.RoundedShallow.C123_shallow_water_assembled' depends on axioms: [propext, Classical.choice, Quot.sound]
'Ryujin.RoundedShallow.C123_shallow_water_assembled_exact' depends on axioms: [propext, Classical.choice, Quot.sound]
'Ryujin.RoundedShallow.C123_shallow_water_constrained' depends on axioms: [propext, Classical.choice, Quot.sound]
'Ryujin.RoundedShallow.C123_shallow_water_exact_correction' depends on axioms: [propext, Classical.choice, Quot.sound]
'Ryujin.RoundedShallow.C123_shallow_water_exact_low' depends on axioms: [propext, Classical.choice, Quot.sound]
'Ryujin.RoundedShallow.C123_shallow_water_exact_pass' depends on axioms: [propext, Classical.choice, Quot.sound]
'Ryujin.RoundedShallow.C123_shallow_water_exact_rhs' depends on axioms: [propext, Classical.choice, Quot.sound]
'Ryujin.RoundedShallow.C123_shallow_water_exact_step' depends on axioms: [propext, Classical.choice, Quot.sound]
'Ryujin.RoundedShallow.C123_shallow_water_linear' depends on axioms: [propext, Classical.choice, Quot.sound]
'Ryujin.Rounded.C124_complete_step' depends on axioms: [propext, Classical.choice, Quot.sound]
'Ryujin.Rounded.C124_complete_step_double' depends on axioms: [propext, Classical.choice, Quot.sound]
'Ryujin.Rounded.C124_density' depends on axioms: [propext, Classical.choice, Quot.sound]
'Ryujin.Rounded.C124_density_assembled' depends on axioms: [propext, Classical.choice, Quot.sound]
'Ryujin.Rounded.C124_double' depends on axioms: [propext, Classical.choice, Quot.sound]
'Ryujin.Rounded.C124_time_step' depends on axioms: [propext, Classical.choice, Quot.sound]
'Ryujin.RoundedShallow.C124_shallow_water' depends on axioms: [propext, Classical.choice, Quot.sound]
'Ryujin.RoundedShallow.C124_shallow_water_complete_step' depends on axioms: [propext, Classical.choice, Quot.sound]
'Ryujin.RoundedShallow.C124_shallow_water_complete_step_double' depends on axioms: [propext,
 Classical.choice,
 Quot.sound]
'Ryujin.RoundedShallow.C124_shallow_water_double' depends on axioms: [propext, Classical.choice, Quot.sound]
'Ryujin.RoundedShallow.C124_shallow_water_star' depends on axioms: [propext, Classical.choice, Quot.sound]
'Ryujin.RoundedShallow.C124_shallow_water_star_exact' depends on axioms: [propext, Classical.choice, Quot.sound]
'Ryujin.RoundedShallow.C124_shallow_water_star_nonneg' depends on axioms: [propext, Classical.choice, Quot.sound]
'Ryujin.Rounded.C125_exact' depends on axioms: [propext, Classical.choice, Quot.sound]
'Ryujin.Rounded.C125_run' depends on axioms: [propext, Classical.choice, Quot.sound]
'Ryujin.Rounded.C125_run_assembled' depends on axioms: [propext, Classical.choice, Quot.sound]
'Ryujin.Rounded.C125_run_linear' depends on axioms: [propext, Classical.choice, Quot.sound]
'Ryujin.Rounded.C125_step' depends on axioms: [propext, Classical.choice, Quot.sound]
'Ryujin.Rounded.C125_step_assembled' depends on axioms: [propext, Classical.choice, Quot.sound]
'Ryujin.RoundedShallow.C125_shallow_water_exact' depends on axioms: [propext, Classical.choice, Quot.sound]
'Ryujin.RoundedShallow.C125_shallow_water_run' depends on axioms: [propext, Classical.choice, Quot.sound]
'Ryujin.RoundedShallow.C125_shallow_water_run_linear' depends on axioms: [propext, Classical.choice, Quot.sound]
'Ryujin.RoundedShallow.C125_shallow_water_step' depends on axioms: [propext, Classical.choice, Quot.sound]
'Ryujin.Eos.C126_access' depends on axioms: [propext, Classical.choice, Quot.sound]
'Ryujin.Eos.C126_constants' depends on axioms: [propext, Classical.choice, Quot.sound]
'Ryujin.Eos.C126_default' depends on axioms: [propext, Classical.choice, Quot.sound]
'Ryujin.Eos.C126_formulas' depends on axioms: [propext, Classical.choice, Quot.sound]
'Ryujin.Eos.C126_inconsistent_violation' depends on axioms: [propext, Classical.choice, Quot.sound]
'Ryujin.Eos.C126_lanes' depends on axioms: [propext, Classical.choice, Quot.sound]
'Ryujin.Eos.C126_last' depends on axioms: [propext, Classical.choice, Quot.sound]
'Ryujin.Eos.C126_selection' depends on axioms: [propext, Classical.choice, Quot.sound]
'Ryujin.Eos.C126_sesame_name_violation' depends on axioms: [propext, Classical.choice, Quot.sound]
'Ryujin.Eos.C126_unknown_variable' depends on axioms: [propext, Classical.choice, Quot.sound]
'Ryujin.Formulas.C126_brackets' depends on axioms: [propext, Quot.sound]
'Ryujin.Formulas.C126_precedence' depends on axioms: [propext, Quot.sound]
'Ryujin.TimeLoop.C127_conservation' depends on axioms: [propext, Classical.choice, Quot.sound]
'Ryujin.TimeLoop.C127_depth' depends on axioms: [propext, Classical.choice, Quot.sound]
'Ryujin.TimeLoop.C127_euler_partial' depends on axioms: [propext, Classical.choice, Quot.sound]
'Ryujin.TimeLoop.C127_invariant' depends on axioms: [propext, Classical.choice, Quot.sound]
'Ryujin.TimeLoop.C127_scalar' depends on axioms: [propext, Classical.choice, Quot.sound]
'Ryujin.Adaptation.C128_coarsening_violation' depends on axioms: [propext, Classical.choice, Quot.sound]
'Ryujin.Adaptation.C128_constrained_violation' depends on axioms: [propext, Classical.choice, Quot.sound]
'Ryujin.Adaptation.C128_convex' depends on axioms: [propext, Classical.choice, Quot.sound]
'Ryujin.Adaptation.C128_degree_two_violation' depends on axioms: [propext, Classical.choice, Quot.sound]
'Ryujin.Adaptation.C128_euler_admissible' depends on axioms: [propext, Classical.choice, Quot.sound]
'Ryujin.Adaptation.C128_interpolates' depends on axioms: [propext, Classical.choice, Quot.sound]
'Ryujin.Adaptation.C128_refinement_conserves' depends on axioms: [propext, Classical.choice, Quot.sound]
'Ryujin.Adaptation.C128_refinement_same_function' depends on axioms: [propext, Classical.choice, Quot.sound]
'Ryujin.Adaptation.C128_stale_after_step' depends on axioms: [propext, Classical.choice, Quot.sound]
'Ryujin.Annulus.C129_covered_removed' depends on axioms: [propext, Classical.choice, Quot.sound]
'Ryujin.Annulus.C129_large_violation' depends on axioms: [propext, Classical.choice, Quot.sound]
'Ryujin.Annulus.C129_next_cell_violation' depends on axioms: [propext, Classical.choice, Quot.sound]
'Ryujin.Annulus.C129_obtuse_violation' depends on axioms: [propext, Classical.choice, Quot.sound]
'Ryujin.Annulus.C129_outside_kept' depends on axioms: [propext, Classical.choice, Quot.sound]
'Ryujin.Annulus.C129_uncovered_kept' depends on axioms: [propext, Classical.choice, Quot.sound]
'Ryujin.SimdAccess.C130_assemble' depends on axioms: [propext, Quot.sound]
'Ryujin.SimdAccess.C130_gather' depends on axioms: [propext, Quot.sound]
'Ryujin.SimdAccess.C130_loops' depends on axioms: [propext, Classical.choice, Quot.sound]
'Ryujin.SimdAccess.C130_read' depends on axioms: [propext, Quot.sound]
'Ryujin.SimdAccess.C130_tensor_ext' depends on axioms: [Quot.sound]
'Ryujin.SimdAccess.C130_tensor_lane' depends on axioms: [propext, Quot.sound]
'Ryujin.SimdAccess.C130_unaligned' depends on axioms: [propext, Classical.choice, Quot.sound]
'Ryujin.SimdAccess.C130_width' depends on axioms: [propext, Classical.choice, Quot.sound]
'Ryujin.SimdAccess.C130_write' depends on axioms: [propext, Classical.choice, Quot.sound]
'Ryujin.InitialValues.C131_choice' depends on axioms: [propext, Classical.choice, Quot.sound]
'Ryujin.InitialValues.C131_circular_dam_break_violation' depends on axioms: [propext, Classical.choice, Quot.sound]
'Ryujin.InitialValues.C131_default' depends on axioms: [propext, Classical.choice, Quot.sound]
'Ryujin.InitialValues.C131_euler' depends on axioms: [propext, Classical.choice, Quot.sound]
'Ryujin.InitialValues.C131_euler2' depends on axioms: [propext, Classical.choice, Quot.sound]
'Ryujin.InitialValues.C131_euler3' depends on axioms: [propext, Classical.choice, Quot.sound]
'Ryujin.InitialValues.C131_lake_at_rest' depends on axioms: [propext, Classical.choice, Quot.sound]
'Ryujin.InitialValues.C131_order' depends on axioms: [propext, Classical.choice, Quot.sound]
'Ryujin.InitialValues.C131_perturbed' depends on axioms: [propext, Classical.choice, Quot.sound]
'Ryujin.InitialValues.C131_precomputed' depends on axioms: [propext, Classical.choice, Quot.sound]
'Ryujin.InitialValues.C131_rejected' depends on axioms: [propext, Classical.choice, Quot.sound]
'Ryujin.InitialValues.C131_values' depends on axioms: [propext, Classical.choice, Quot.sound]
'Ryujin.Airfoil.C132_names' depends on axioms: [propext, Classical.choice, Quot.sound]
'Ryujin.Airfoil.C132_shape' depends on axioms: [propext, Classical.choice, Quot.sound]
'Ryujin.Airfoil.C132_tables' depends on axioms: [propext, Classical.choice, Quot.sound]
'Ryujin.Airfoil.C132_trailing_edge' depends on axioms: [propext, Classical.choice, Quot.sound]
