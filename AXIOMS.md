# Axioms of the property theorems

Printed by `#print axioms` for every theorem named in MANIFEST.json (all in the namespace `Cyphus`). The levels are
explained in DESIGN.md: G = every arithmetic (no laws assumed), G + NaNLaws = every arithmetic in which NaN propagates, F = every
floating-point arithmetic with rounding (or doubles), X = exact real numbers with NaN and infinities, R = a statement about real numbers, matrices or constants
(or about code without numbers).

| theorem | level | file | axioms |
|---|---|---|---|
| `C01_builder_last_write_wins_dp5` | G | Verif/Props/Builder.lean | propext, Quot.sound |
| `C01_builder_last_write_wins_radau` | G | Verif/Props/Builder.lean | propext, Quot.sound |
| `C02_initial_state_dp5` | G | Verif/Props/Builder.lean | none |
| `C02_initial_state_radau` | G | Verif/Props/Builder.lean | none |
| `C03_tolerances_radau` | X | Verif/Props/Jacobian.lean | propext, Classical.choice, Quot.sound |
| `C04_ignored_options_dp5` | G | Verif/Props/Ignored.lean | propext, Classical.choice, Quot.sound |
| `C04_ignored_options_radau` | G | Verif/Props/Ignored.lean | propext, Quot.sound |
| `C04_first_step_size` | G | Verif/Props/Ignored.lean | none |
| `C05_step_result` | G | Verif/Props/Run.lean | propext, Quot.sound |
| `C05_integrate_dp5` | G | Verif/Props/Run.lean | propext, Quot.sound |
| `C05_integrate_radau` | G | Verif/Props/Run.lean | propext, Quot.sound |
| `C06_history_append_only_dp5` | G | Verif/Props/Run.lean | propext, Quot.sound |
| `C06_history_append_only_radau` | G | Verif/Props/Run.lean | propext, Quot.sound |
| `C07_one_point_per_step_dp5` | G | Verif/Props/Run.lean | propext, Quot.sound |
| `C07_one_point_per_accept_radau` | G | Verif/Props/Run.lean | propext, Classical.choice, Quot.sound |
| `C07_points_are_accepts_radau` | G | Verif/Props/Run.lean | propext, Classical.choice, Quot.sound |
| `C08_solution_iterators` | G | Verif/Props/Run.lean | propext, Quot.sound |
| `C08_solution_iterators_points` | G | Verif/Props/Run.lean | propext, Quot.sound |
| `C09_iterator_misses_last_dp5` | G | Verif/Props/Run.lean | propext, Quot.sound |
| `C09_iterator_misses_last_radau` | G | Verif/Props/Run.lean | propext, Classical.choice, Quot.sound |
| `C09_for_loop_is_integrate_dp5` | G | Verif/Props/Run.lean | propext, Quot.sound |
| `C09_for_loop_is_integrate_radau` | G | Verif/Props/Run.lean | propext, Quot.sound |
| `C10_return_codes_dp5` | G | Verif/Props/Run.lean | propext, Quot.sound |
| `C10_return_codes_radau` | G | Verif/Props/Run.lean | propext, Quot.sound |
| `C11_max_steps_dp5` | G | Verif/Props/Run.lean | propext, Classical.choice, Quot.sound |
| `C11_max_steps_radau` | G | Verif/Props/Run.lean | propext, Classical.choice, Quot.sound |
| `C12_step_terminates_radau` | G | Verif/Props/Run.lean | propext, Classical.choice, Quot.sound |
| `C12_integrate_terminates_radau` | G | Verif/Props/Run.lean | propext, Classical.choice, Quot.sound |
| `C13_step_returns_dp5` | X | Verif/Props/DP5Exact.lean | propext, Classical.choice, Quot.sound |
| `C13_integrate_returns_dp5` | X | Verif/Props/DP5Exact.lean | propext, Classical.choice, Quot.sound |
| `C14_nan_never_returns_dp5` | G + NaNLaws | Verif/Props/DP5Hang.lean | propext, Quot.sound |
| `C14_dimension_zero_never_returns_dp5` | G + NaNLaws | Verif/Props/DP5Hang.lean | propext, Quot.sound |
| `C14_integrate_never_returns_dp5` | G + NaNLaws | Verif/Props/DP5Hang.lean | propext, Quot.sound |
| `C14_dt_less_than_min_ineffective_dp5` | X | Verif/Props/DP5Hang.lean | propext, Classical.choice, Quot.sound |
| `C15_recorded_steps_dp5` | X | Verif/Props/DP5Exact.lean | propext, Classical.choice, Quot.sound |
| `C15_step_unique` | R | Verif/Props/DP5Exact.lean | propext, Classical.choice, Quot.sound |
| `C15_float_step_dp5` | G | Verif/Props/DP5Float.lean | propext, Quot.sound |
| `C16_recorded_errors_dp5` | X | Verif/Props/DP5Exact.lean | propext, Classical.choice, Quot.sound |
| `C16_float_step_dp5` | G | Verif/Props/DP5Float.lean | propext, Quot.sound |
| `C16_error_estimate_radau` | X | Verif/Props/RadauStep.lean | propext, Classical.choice, Quot.sound |
| `C17_rejected_attempt_dp5` | G | Verif/Props/Stats.lean | propext, Quot.sound |
| `C17_rejected_attempt_radau` | G | Verif/Props/Stats.lean | propext, Quot.sound |
| `C18_row_sums` | R | Verif/Props/Tableau.lean | propext, Classical.choice, Quot.sound |
| `C18_order_five` | R | Verif/Props/Tableau.lean | propext, Classical.choice, Quot.sound |
| `C18_not_order_six` | R | Verif/Props/Tableau.lean | propext, Classical.choice, Quot.sound |
| `C18_embedded_order_four` | R | Verif/Props/Tableau.lean | propext, Classical.choice, Quot.sound |
| `C18_embedded_not_order_five` | R | Verif/Props/Tableau.lean | propext, Classical.choice, Quot.sound |
| `C18_published` | R | Verif/Props/Tableau.lean | propext, Classical.choice, Quot.sound |
| `C18_fsal` | R | Verif/Props/Tableau.lean | propext, Classical.choice, Quot.sound |
| `C19_polynomial_step` | R | Verif/Props/DP5Algebra.lean | propext, Classical.choice, Quot.sound |
| `C19_polynomial_run_dp5` | X | Verif/Props/DP5Algebra.lean | propext, Classical.choice, Quot.sound |
| `C19_cubic_never_rejected_dp5` | X | Verif/Props/DP5Algebra.lean | propext, Classical.choice, Quot.sound |
| `C20_linear_step` | R | Verif/Props/DP5Algebra.lean | propext, Classical.choice, Quot.sound |
| `C20_linear_error` | R | Verif/Props/DP5Algebra.lean | propext, Classical.choice, Quot.sound |
| `C20_linear_run_dp5` | X | Verif/Props/DP5Algebra.lean | propext, Classical.choice, Quot.sound |
| `C21_linear_invariants_dp5` | X | Verif/Props/DP5Exact.lean | propext, Classical.choice, Quot.sound |
| `C22_equilibria_dp5` | X | Verif/Props/DP5Exact.lean | propext, Classical.choice, Quot.sound |
| `C23_time_translation_dp5` | X | Verif/Props/DP5Symmetry.lean | propext, Classical.choice, Quot.sound |
| `C23_time_translation_integrate_dp5` | X | Verif/Props/DP5Symmetry.lean | propext, Classical.choice, Quot.sound |
| `C24_times_increase_dp5` | X | Verif/Props/DP5Exact.lean | propext, Classical.choice, Quot.sound |
| `C25_success_dp5` | X | Verif/Props/DP5Exact.lean | propext, Classical.choice, Quot.sound |
| `C25_success_always_dp5` | X | Verif/Props/DP5Exact.lean | propext, Classical.choice, Quot.sound |
| `C25_success_radau` | X | Verif/Props/RadauControl.lean | propext, Classical.choice, Quot.sound |
| `C26_first_step_wrong_direction_dp5` | X | Verif/Props/DP5Control.lean | propext, Classical.choice, Quot.sound |
| `C26_moves_away_dp5` | X | Verif/Props/DP5Control.lean | propext, Classical.choice, Quot.sound |
| `C26_max_iters_dp5` | X | Verif/Props/DP5Control.lean | propext, Classical.choice, Quot.sound |
| `C27_step_ratio_dp5` | X | Verif/Props/DP5Control.lean | propext, Classical.choice, Quot.sound |
| `C27_step_ratio_radau` | X | Verif/Props/RadauControl.lean | propext, Classical.choice, Quot.sound |
| `C28_dtmax_dp5` | X | Verif/Props/DP5Control.lean | propext, Classical.choice, Quot.sound |
| `C28_step_taken_dp5` | X | Verif/Props/DP5Control.lean | propext, Classical.choice, Quot.sound |
| `C28_first_step_ignores_dtmax_dp5` | X | Verif/Props/DP5Control.lean | propext, Classical.choice, Quot.sound |
| `C28_dtmax_radau` | X | Verif/Props/RadauControl.lean | propext, Classical.choice, Quot.sound |
| `C29_no_growth_after_reject_dp5` | X | Verif/Props/DP5Control.lean | propext, Classical.choice, Quot.sound |
| `C29_no_growth_after_reject_radau` | X | Verif/Props/RadauControl.lean | propext, Classical.choice, Quot.sound |
| `C30_calls_in_span_dp5` | X | Verif/Props/DP5Exact.lean | propext, Classical.choice, Quot.sound |
| `C31_statistics_dp5` | G | Verif/Props/Stats.lean | propext, Quot.sound |
| `C31_attempts_dp5` | G | Verif/Props/Stats.lean | propext, Quot.sound |
| `C31_function_evals_dp5` | G | Verif/Props/Stats.lean | propext, Quot.sound |
| `C32_statistics_radau` | G | Verif/Props/Stats.lean | propext, Classical.choice, Quot.sound |
| `C32_user_calls_radau` | G | Verif/Props/Stats.lean | propext, Quot.sound |
| `C33_after_success_dp5` | X | Verif/Props/DP5Control.lean | propext, Classical.choice, Quot.sound |
| `C33_after_success_radau` | X | Verif/Props/RadauControl.lean | propext, Classical.choice, Quot.sound |
| `C34_real_solve` | R | Verif/Props/LinearSolve.lean | propext, Classical.choice, Quot.sound |
| `C34_nonsingular` | R | Verif/Props/LinearSolve.lean | propext, Classical.choice, Quot.sound |
| `C35_real_code` | R | Verif/Props/LinearSolve.lean | propext, Classical.choice, Quot.sound |
| `C35_singular_reported_ok` | R | Verif/Props/LinearSolve.lean | propext, Classical.choice, Quot.sound |
| `C35_empty` | R | Verif/Props/LinearSolve.lean | propext, Classical.choice, Quot.sound |
| `C36_pivoting` | R | Verif/Props/LinearSolve.lean | propext, Classical.choice, Quot.sound |
| `C37_complex_solve` | R | Verif/Props/LinearSolve.lean | propext, Classical.choice, Quot.sound |
| `C37_nonsingular` | R | Verif/Props/LinearSolve.lean | propext, Classical.choice, Quot.sound |
| `C38_complex_code` | R | Verif/Props/LinearSolve.lean | propext, Classical.choice, Quot.sound |
| `C39_hessenberg_solve` | R | Verif/Props/LinearSolve.lean | propext, Classical.choice, Quot.sound |
| `C39_hessenberg_code` | R | Verif/Props/LinearSolve.lean | propext, Classical.choice, Quot.sound |
| `C40_solhc_wrong` | R | Verif/Props/LinearSolve.lean | propext, Classical.choice, Quot.sound |
| `C40_dechc_with_solc` | R | Verif/Props/LinearSolve.lean | propext, Classical.choice, Quot.sound |
| `C41_difference_quotients` | G | Verif/Props/Jacobian.lean | propext, Classical.choice, Quot.sound |
| `C41_user_jacobian` | G | Verif/Props/Jacobian.lean | none |
| `C41_absorbed_increment` | G | Verif/Props/Jacobian.lean | propext, Classical.choice, Quot.sound |
| `C41_run_radau` | G | Verif/Props/Jacobian.lean | propext, Quot.sound |
| `C41_affine_exact` | X | Verif/Props/Jacobian.lean | propext, Classical.choice, Quot.sound |
| `C41_affine_run_radau` | X | Verif/Props/Jacobian.lean | propext, Classical.choice, Quot.sound |
| `C42_time_derivative_zero` | X | Verif/Props/Jacobian.lean | propext, Classical.choice, Quot.sound |
| `C43_published_method` | R | Verif/Props/RadauStep.lean | propext, Classical.choice, Quot.sound |
| `C43_constants` | R | Verif/Props/RadauStep.lean | propext, Classical.choice, Quot.sound |
| `C43_newton_pass_radau` | X | Verif/Props/RadauStep.lean | propext, Classical.choice, Quot.sound |
| `C43_fixed_point` | R | Verif/Props/RadauStep.lean | propext, Classical.choice, Quot.sound |
| `C43_linear` | R | Verif/Props/RadauStep.lean | propext, Classical.choice, Quot.sound |
| `C44_stale_radau` | X | Verif/Props/RadauStale.lean | propext, Classical.choice, Quot.sound |
| `C44_decompositions_radau` | X | Verif/Props/RadauStep.lean | propext, Classical.choice, Quot.sound |
| `C44_undisturbed_radau` | X | Verif/Props/RadauStep.lean | propext, Classical.choice, Quot.sound |
| `C45_previous_point_dp5` | G | Verif/Props/Stats.lean | propext, Quot.sound |
| `C45_previous_recorded_point_dp5` | G | Verif/Props/Stats.lean | propext, Classical.choice, Quot.sound |
| `C45_uprev_stale_radau` | G | Verif/Props/Stats.lean | propext, Quot.sound |
| `C45_tprev_radau` | G | Verif/Props/Stats.lean | propext, Classical.choice, Quot.sound |
| `C46_dense_output_dp5` | X | Verif/Props/DP5Dense.lean | propext, Classical.choice, Quot.sound |
| `C46_dense_polynomial_dp5` | X | Verif/Props/DP5Dense.lean | propext, Classical.choice, Quot.sound |
| `C47_dense_output_radau` | X | Verif/Props/RadauStep.lean | propext, Classical.choice, Quot.sound |
| `C47_ends_radau` | X | Verif/Props/RadauStep.lean | propext, Classical.choice, Quot.sound |
| `C48_max_stiff_zero_dp5` | G | Verif/Props/Ignored.lean | propext, Quot.sound |
| `C48_max_stiff_zero_panics_dp5` | G | Verif/Props/Ignored.lean | propext, Quot.sound |
| `C48_max_stiff_irrelevant_dp5` | G | Verif/Props/Ignored.lean | propext, Classical.choice, Quot.sound |
| `C48_never_stiff` | G | Verif/Props/Ignored.lean | propext, Quot.sound |
| `C49_callback_runs_after_step` | G | Verif/Props/Stats.lean | propext, Quot.sound |
| `C49_recorded_before_callback_dp5` | G | Verif/Props/Stats.lean | propext, Quot.sound |
| `C50_stale_derivative_dp5` | X | Verif/Props/DP5Callback.lean | propext, Classical.choice, Quot.sound |
| `C50_correct_if` | R | Verif/Props/DP5Callback.lean | propext, Classical.choice, Quot.sound |
| `C50_ball_position` | R | Verif/Props/DP5Callback.lean | propext, Classical.choice, Quot.sound |
| `C51_invariant_subspace_radau` | X | Verif/Props/RadauInvariant.lean | propext, Classical.choice, Quot.sound |
| `C51_linear_invariants_general_radau` | X | Verif/Props/RadauInvariant.lean | propext, Classical.choice, Quot.sound |
| `C51_linear_invariants_radau` | X | Verif/Props/RadauInvariant.lean | propext, Classical.choice, Quot.sound |
| `C52_equilibrium_radau` | X | Verif/Props/RadauInvariant.lean | propext, Classical.choice, Quot.sound |
| `C53_no_newton_iterations_radau` | G | Verif/Props/Stats.lean | propext, Quot.sound |
| `C53_integrate_radau` | G | Verif/Props/Stats.lean | propext, Classical.choice, Quot.sound |
| `C54_build_ok_iff` | R | Verif/Props/DaeBuild.lean | propext, Classical.choice, Quot.sound |
| `C54_index_error_iff` | R | Verif/Props/DaeBuild.lean | propext |
| `C54_result` | R | Verif/Props/DaeBuild.lean | propext |
| `C54_m2_ignored` | R | Verif/Props/DaeBuild.lean | none |
| `C54_bad_second_order_params_accepted` | R | Verif/Props/DaeBuild.lean | none |
| `C54_default_mass_bandwidths_rejected` | R | Verif/Props/DaeBuild.lean | propext, Classical.choice, Quot.sound |
| `C54_last_write_wins` | R | Verif/Props/DaeBuild.lean | propext, Quot.sound |
| `C55_rodas_build_panics` | G | Verif/Props/Builder.lean | none |
| `C56_first_proposal_dp5` | X | Verif/Props/DP5Control.lean | propext, Classical.choice, Quot.sound |
| `C57_relabelling_dp5` | X | Verif/Props/DP5Symmetry.lean | propext, Classical.choice, Quot.sound |
| `C57_relabelling_integrate_dp5` | X | Verif/Props/DP5Symmetry.lean | propext, Classical.choice, Quot.sound |
| `C58_times_increase_radau` | X | Verif/Props/RadauControl.lean | propext, Classical.choice, Quot.sound |
| `C59_calls_in_span_radau` | X | Verif/Props/RadauControl.lean | propext, Classical.choice, Quot.sound |
| `C60_difference_quotients` | R | Verif/Props/RadauDecay.lean | propext, Classical.choice, Quot.sound |
| `C60_stability_function_radau` | X | Verif/Props/RadauStability.lean | propext, Classical.choice, Quot.sound |
| `C60_decay_radau` | X | Verif/Props/RadauStability.lean | propext, Classical.choice, Quot.sound |
| `C60_stability_function` | R | Verif/Props/RadauStability.lean | propext, Classical.choice, Quot.sound |
| `C60_published` | R | Verif/Props/RadauStability.lean | propext, Classical.choice, Quot.sound |
| `C61_linear_convergence_radau` | X | Verif/Props/RadauStability.lean | propext, Classical.choice, Quot.sound |
| `C62_double_final_time_dp5` | F (doubles) | Verif/Props/Double.lean | propext, Classical.choice, Quot.sound |
| `C62_double_beyond_dp5` | F (doubles) | Verif/Props/Double.lean | propext, Classical.choice, Quot.sound |
| `C62_double_final_time_radau` | F (doubles) | Verif/Props/DoubleRadau.lean | propext, Classical.choice, Quot.sound |
| `C62_final_time_dp5` | G | Verif/Props/FinalTime.lean | propext, Quot.sound |
| `C62_final_time_radau` | G | Verif/Props/FinalTime.lean | propext, Classical.choice, Quot.sound |
| `C63_float_step_dp5` | F | Verif/Props/DP5Rounding.lean | propext, Classical.choice, Quot.sound |
| `C63_float_run_dp5` | F | Verif/Props/DP5Rounding.lean | propext, Classical.choice, Quot.sound |
| `C63_double_run_dp5` | F (doubles) | Verif/Props/Double.lean | propext, Classical.choice, Quot.sound |
| `C64_double_run_radau` | F (doubles) | Verif/Props/DoubleRadau.lean | propext, Classical.choice, Quot.sound |
| `C64_float_step_radau` | F | Verif/Props/RadauRounding.lean | propext, Classical.choice, Quot.sound |
| `C64_float_run_radau` | F | Verif/Props/RadauRounding.lean | propext, Classical.choice, Quot.sound |
| `C65_finite_dp5` | X | Verif/Props/Finite.lean | propext, Classical.choice, Quot.sound |
| `C65_finite_radau` | X | Verif/Props/Finite.lean | propext, Classical.choice, Quot.sound |
| `C65_never_finite_radau` | X | Verif/Props/Finite.lean | propext, Classical.choice, Quot.sound |
| `C66_dec_pivots` | G | Verif/Props/Pivots.lean | propext, Classical.choice, Quot.sound |
| `C66_decc_pivots` | G | Verif/Props/Pivots.lean | propext, Classical.choice, Quot.sound |
| `C66_sol_in_range` | G | Verif/Props/Pivots.lean | propext, Quot.sound |
| `C66_solc_in_range` | G | Verif/Props/Pivots.lean | propext, Quot.sound |
| `C66_pivots_radau` | G | Verif/Props/Pivots.lean | propext, Classical.choice, Quot.sound |
| `C67_zero_reltol_radau` | X | Verif/Props/ZeroTol.lean | propext, Classical.choice, Quot.sound |
| `C67_zero_abstol_radau` | X | Verif/Props/ZeroTol.lean | propext, Classical.choice, Quot.sound |
| `C67_zero_abstol_dp5` | X | Verif/Props/ZeroTol.lean | propext, Classical.choice, Quot.sound |
| `C67_zero_abstol_build_dp5` | X | Verif/Props/ZeroTol.lean | propext, Classical.choice, Quot.sound |
| `C68_local_order_dp5` | R | Verif/Props/Convergence.lean | propext, Classical.choice, Quot.sound |
| `C68_global_dp5` | X | Verif/Props/Convergence.lean | propext, Classical.choice, Quot.sound |
| `C68_order_five_dp5` | X | Verif/Props/Convergence.lean | propext, Classical.choice, Quot.sound |
| `C68_dtmax_dp5` | X | Verif/Props/Convergence.lean | propext, Classical.choice, Quot.sound |
| `C69_success_bounded_dp5` | X | Verif/Props/Success.lean | propext, Classical.choice, Quot.sound |
| `C69_success_smooth_dp5` | X | Verif/Props/Success.lean | propext, Classical.choice, Quot.sound |
| `C70_dense_dp5` | G | Verif/Props/Prefix.lean | propext, Quot.sound |
| `C70_dense_radau` | G | Verif/Props/Prefix.lean | propext, Quot.sound |
| `C70_max_steps_dp5` | G | Verif/Props/Prefix.lean | propext, Quot.sound |
| `C70_max_steps_radau` | G | Verif/Props/Prefix.lean | propext, Classical.choice, Quot.sound |
| `C71_longer_span_dp5` | F | Verif/Props/Prefix.lean | propext, Classical.choice, Quot.sound |
| `C71_longer_span_radau` | F | Verif/Props/Prefix.lean | propext, Classical.choice, Quot.sound |
| `C71_double_dp5` | F (doubles) | Verif/Props/Prefix.lean | propext, Classical.choice, Quot.sound |
| `C71_double_radau` | F (doubles) | Verif/Props/Prefix.lean | propext, Classical.choice, Quot.sound |
| `C72_decb_tridiagonal` | G | Verif/Props/Banded.lean | propext, Classical.choice, Quot.sound |
| `C72_solb_panics` | G | Verif/Props/Banded.lean | propext, Classical.choice, Quot.sound |
| `C72_solbc_panics` | G | Verif/Props/Banded.lean | propext, Classical.choice, Quot.sound |
| `C72_solbc_single` | G | Verif/Props/Banded.lean | propext, Quot.sound |
| `C72_decbc_tridiagonal` | G | Verif/Props/Banded.lean | propext, Classical.choice, Quot.sound |
| `C72_banded_wrong` | R | Verif/Props/Banded.lean | propext, Classical.choice, Quot.sound |
| `C72_banded_complex_wrong` | R | Verif/Props/Banded.lean | propext, Classical.choice, Quot.sound |
| `C72_elmhes_wrong` | R | Verif/Props/Banded.lean | propext, Classical.choice, Quot.sound |
| `C73_integrate_dp5` | X | Verif/Props/Adaptive.lean | propext, Classical.choice, Quot.sound |
| `C73_steps_dp5` | X | Verif/Props/Adaptive.lean | propext, Classical.choice, Quot.sound |
| `C74_step_sizes_radau` | X | Verif/Props/RadauLaw.lean | propext, Classical.choice, Quot.sound |
| `C75_dense_order_dp5` | X | Verif/Props/DenseConvergence.lean | propext, Classical.choice, Quot.sound |
| `C75_dense_dtmax_dp5` | X | Verif/Props/DenseConvergence.lean | propext, Classical.choice, Quot.sound |
| `C76_newton_count_radau` | X | Verif/Props/RadauStart.lean | propext, Classical.choice, Quot.sound |
| `C76_newton_start_radau` | X | Verif/Props/RadauStart.lean | propext, Classical.choice, Quot.sound |
| `C77_global_radau` | X | Verif/Props/RadauConverge.lean | propext, Classical.choice, Quot.sound |
| `C77_order_radau` | X | Verif/Props/RadauConverge.lean | propext, Classical.choice, Quot.sound |
| `C77_one_pass_radau` | X | Verif/Props/RadauConverge.lean | propext, Classical.choice, Quot.sound |
| `C77_undisturbed_radau` | X | Verif/Props/RadauConverge.lean | propext, Classical.choice, Quot.sound |
| `C77_dtmax_radau` | X | Verif/Props/RadauConverge.lean | propext, Classical.choice, Quot.sound |
| `C78_double_dp5` | F (doubles) | Verif/Props/DP5Double.lean | propext, Classical.choice, Quot.sound |
| `C78_order_double_dp5` | F (doubles) | Verif/Props/DP5Double.lean | propext, Classical.choice, Quot.sound |
| `C79_success_radau` | X | Verif/Props/RadauSuccess.lean | propext, Classical.choice, Quot.sound |
| `C80_algorithm_radau` | X | Verif/Props/RadauAlgorithm.lean | propext, Classical.choice, Quot.sound |
| `C80_success_radau` | X | Verif/Props/RadauAlgorithm.lean | propext, Classical.choice, Quot.sound |
| `C80_deterministic` | X | Verif/Props/RadauAlgorithm.lean | propext, Classical.choice, Quot.sound |
| `C80_follows_radau` | X | Verif/Props/RadauAlgorithm.lean | propext, Classical.choice, Quot.sound |
| `C81_local_dp5` | G | Verif/Props/Local.lean | propext, Quot.sound |
| `C81_local_radau` | G | Verif/Props/Local.lean | propext, Quot.sound |
| `C81_outside_span_dp5` | F (doubles) | Verif/Props/Local.lean | propext, Classical.choice, Quot.sound |
| `C81_outside_span_radau` | F (doubles) | Verif/Props/Local.lean | propext, Classical.choice, Quot.sound |
| `C82_backward_radau` | X | Verif/Props/RadauBack.lean | propext, Classical.choice, Quot.sound |
| `C82_wrong_way_radau` | X | Verif/Props/RadauBack.lean | propext, Classical.choice, Quot.sound |
| `C83_never_singular_radau` | X | Verif/Props/RadauSingular.lean | propext, Classical.choice, Quot.sound |
| `C83_dissipative_radau` | X | Verif/Props/RadauSingular.lean | propext, Classical.choice, Quot.sound |
| `C83_codes_radau` | R | Verif/Props/RadauSingular.lean | propext, Classical.choice, Quot.sound |
| `C84_units_dp5` | X | Verif/Props/Units.lean | propext, Classical.choice, Quot.sound |
| `C84_units_radau` | X | Verif/Props/Units.lean | propext, Classical.choice, Quot.sound |
| `C84_sign_double_dp5` | F (doubles) | Verif/Props/Units.lean | propext, Classical.choice, Quot.sound |
| `C84_sign_double_radau` | F (doubles) | Verif/Props/Units.lean | propext, Classical.choice, Quot.sound |
| `C85_steps_radau` | X | Verif/Props/RadauSymmetry.lean | propext, Classical.choice, Quot.sound |
| `C85_success_radau` | X | Verif/Props/RadauSymmetry.lean | propext, Classical.choice, Quot.sound |
| `C85_length_radau` | X | Verif/Props/RadauSymmetry.lean | propext, Classical.choice, Quot.sound |
| `C85_difference_quotients` | R | Verif/Props/RadauSymmetry.lean | propext, Classical.choice, Quot.sound |
| `C86_decay_step` | R | Verif/Props/DP5Decay.lean | propext, Classical.choice, Quot.sound |
| `C86_decay_dp5` | X | Verif/Props/DP5Decay.lean | propext, Classical.choice, Quot.sound |
| `C86_default_tolerances` | X | Verif/Props/DP5Decay.lean | propext, Classical.choice, Quot.sound |
| `C87_tolerance_dp5` | X | Verif/Props/DP5Tolerance.lean | propext, Classical.choice, Quot.sound |
| `C87_default_tolerances` | X | Verif/Props/DP5Tolerance.lean | propext, Classical.choice, Quot.sound |
| `C88_diffusion_dp5` | X | Verif/Props/DP5Diffusion.lean | propext, Classical.choice, Quot.sound |
| `C88_dissipative_dp5` | X | Verif/Props/DP5Dissipative.lean | propext, Classical.choice, Quot.sound |
| `C88_absolute_dp5` | X | Verif/Props/DP5Dissipative.lean | propext, Classical.choice, Quot.sound |
| `C88_apriori_dp5` | X | Verif/Props/DP5Dissipative.lean | propext, Classical.choice, Quot.sound |
| `C88_success_dp5` | X | Verif/Props/DP5Dissipative.lean | propext, Classical.choice, Quot.sound |
| `C89_rodas_order` | R | Verif/Props/RodasOrder.lean | propext, Classical.choice, Quot.sound |
