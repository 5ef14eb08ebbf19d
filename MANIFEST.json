{
 "claims": [
  {
   "property": "C01",
   "status": "proved",
   "theorems": [
    "Cyphus.C01_builder_last_write_wins_dp5",
    "Cyphus.C01_builder_last_write_wins_radau"
   ],
   "note": "builder, all setters, build: G, induction on the list of setters"
  },
  {
   "property": "C02",
   "status": "proved",
   "theorems": [
    "Cyphus.C02_initial_state_dp5",
    "Cyphus.C02_initial_state_radau"
   ],
   "note": "build, new_cache of both algorithms: G, computation"
  },
  {
   "property": "C03",
   "status": "proved",
   "theorems": [
    "Cyphus.C03_tolerances_radau"
   ],
   "note": "Radau5 new_cache: X, real powers"
  },
  {
   "property": "C04",
   "status": "proved",
   "theorems": [
    "Cyphus.C04_ignored_options_dp5",
    "Cyphus.C04_ignored_options_radau",
    "Cyphus.C04_first_step_size"
   ],
   "note": "all of both algorithms: G, simulation relation \"equal up to the ignored fields\" preserved by every function"
  },
  {
   "property": "C05",
   "status": "proved",
   "theorems": [
    "Cyphus.C05_step_result",
    "Cyphus.C05_integrate_dp5",
    "Cyphus.C05_integrate_radau"
   ],
   "note": "step, integrate: G, induction on fuel"
  },
  {
   "property": "C06",
   "status": "proved",
   "theorems": [
    "Cyphus.C06_history_append_only_dp5",
    "Cyphus.C06_history_append_only_radau"
   ],
   "note": ""
  },
  {
   "property": "C07",
   "status": "proved",
   "theorems": [
    "Cyphus.C07_one_point_per_step_dp5",
    "Cyphus.C07_one_point_per_accept_radau",
    "Cyphus.C07_points_are_accepts_radau"
   ],
   "note": ""
  },
  {
   "property": "C08",
   "status": "proved",
   "theorems": [
    "Cyphus.C08_solution_iterators",
    "Cyphus.C08_solution_iterators_points"
   ],
   "note": "solution iterators as state machines: G, induction"
  },
  {
   "property": "C09",
   "status": "proved",
   "theorems": [
    "Cyphus.C09_iterator_misses_last_dp5",
    "Cyphus.C09_iterator_misses_last_radau",
    "Cyphus.C09_for_loop_is_integrate_dp5",
    "Cyphus.C09_for_loop_is_integrate_radau"
   ],
   "note": "integrator iterators as state machines: G, induction on the run"
  },
  {
   "property": "C10",
   "status": "proved",
   "theorems": [
    "Cyphus.C10_return_codes_dp5",
    "Cyphus.C10_return_codes_radau"
   ],
   "note": "step of both algorithms: G, invariant"
  },
  {
   "property": "C11",
   "status": "proved",
   "theorems": [
    "Cyphus.C11_max_steps_dp5",
    "Cyphus.C11_max_steps_radau"
   ],
   "note": "step, integrate: G, counter invariants"
  },
  {
   "property": "C12",
   "status": "proved",
   "theorems": [
    "Cyphus.C12_step_terminates_radau",
    "Cyphus.C12_integrate_terminates_radau"
   ],
   "note": "Radau5 step with Newton and decomposition loops: G, measure max_steps - steps, bounds for inner loops"
  },
  {
   "property": "C13",
   "status": "proved",
   "theorems": [
    "Cyphus.C13_step_returns_dp5",
    "Cyphus.C13_integrate_returns_dp5"
   ],
   "note": "DP5 step: X, geometric decrease of dt, error estimate O(dt) for bounded right-hand sides"
  },
  {
   "property": "C14",
   "status": "proved",
   "theorems": [
    "Cyphus.C14_nan_never_returns_dp5",
    "Cyphus.C14_dimension_zero_never_returns_dp5",
    "Cyphus.C14_integrate_never_returns_dp5",
    "Cyphus.C14_dt_less_than_min_ineffective_dp5"
   ],
   "note": "DP5 step: G + NaNLaws, every attempt is rejected"
  },
  {
   "property": "C15",
   "status": "proved",
   "theorems": [
    "Cyphus.C15_recorded_steps_dp5",
    "Cyphus.C15_step_unique",
    "Cyphus.C15_float_step_dp5"
   ],
   "note": ""
  },
  {
   "property": "C16",
   "status": "proved",
   "theorems": [
    "Cyphus.C16_recorded_errors_dp5",
    "Cyphus.C16_float_step_dp5",
    "Cyphus.C16_error_estimate_radau"
   ],
   "note": ""
  },
  {
   "property": "C17",
   "status": "proved",
   "theorems": [
    "Cyphus.C17_rejected_attempt_dp5",
    "Cyphus.C17_rejected_attempt_radau"
   ],
   "note": "attempts of both algorithms: G, frame property"
  },
  {
   "property": "C18",
   "status": "proved",
   "theorems": [
    "Cyphus.C18_row_sums",
    "Cyphus.C18_order_five",
    "Cyphus.C18_not_order_six",
    "Cyphus.C18_embedded_order_four",
    "Cyphus.C18_embedded_not_order_five",
    "Cyphus.C18_published",
    "Cyphus.C18_fsal"
   ],
   "note": "DP5 constants: R, all rooted trees up to order 5, order 6 fails"
  },
  {
   "property": "C19",
   "status": "proved",
   "theorems": [
    "Cyphus.C19_polynomial_step",
    "Cyphus.C19_polynomial_run_dp5",
    "Cyphus.C19_cubic_never_rejected_dp5"
   ],
   "note": ""
  },
  {
   "property": "C20",
   "status": "proved",
   "theorems": [
    "Cyphus.C20_linear_step",
    "Cyphus.C20_linear_error",
    "Cyphus.C20_linear_run_dp5"
   ],
   "note": ""
  },
  {
   "property": "C21",
   "status": "proved",
   "theorems": [
    "Cyphus.C21_linear_invariants_dp5"
   ],
   "note": ""
  },
  {
   "property": "C22",
   "status": "proved",
   "theorems": [
    "Cyphus.C22_equilibria_dp5"
   ],
   "note": ""
  },
  {
   "property": "C23",
   "status": "proved",
   "theorems": [
    "Cyphus.C23_time_translation_dp5",
    "Cyphus.C23_time_translation_integrate_dp5"
   ],
   "note": ""
  },
  {
   "property": "C24",
   "status": "proved",
   "theorems": [
    "Cyphus.C24_times_increase_dp5"
   ],
   "note": ""
  },
  {
   "property": "C25",
   "status": "proved",
   "theorems": [
    "Cyphus.C25_success_dp5",
    "Cyphus.C25_success_always_dp5",
    "Cyphus.C25_success_radau"
   ],
   "note": ""
  },
  {
   "property": "C26",
   "status": "proved",
   "theorems": [
    "Cyphus.C26_first_step_wrong_direction_dp5",
    "Cyphus.C26_moves_away_dp5",
    "Cyphus.C26_max_iters_dp5"
   ],
   "note": "DP5 runs with tfinal < t0: X, invariant"
  },
  {
   "property": "C27",
   "status": "proved",
   "theorems": [
    "Cyphus.C27_step_ratio_dp5",
    "Cyphus.C27_step_ratio_radau"
   ],
   "note": ""
  },
  {
   "property": "C28",
   "status": "proved",
   "theorems": [
    "Cyphus.C28_dtmax_dp5",
    "Cyphus.C28_step_taken_dp5",
    "Cyphus.C28_first_step_ignores_dtmax_dp5",
    "Cyphus.C28_dtmax_radau"
   ],
   "note": ""
  },
  {
   "property": "C29",
   "status": "proved",
   "theorems": [
    "Cyphus.C29_no_growth_after_reject_dp5",
    "Cyphus.C29_no_growth_after_reject_radau"
   ],
   "note": ""
  },
  {
   "property": "C30",
   "status": "proved",
   "theorems": [
    "Cyphus.C30_calls_in_span_dp5"
   ],
   "note": ""
  },
  {
   "property": "C31",
   "status": "proved",
   "theorems": [
    "Cyphus.C31_statistics_dp5",
    "Cyphus.C31_attempts_dp5",
    "Cyphus.C31_function_evals_dp5"
   ],
   "note": ""
  },
  {
   "property": "C32",
   "status": "proved",
   "theorems": [
    "Cyphus.C32_statistics_radau",
    "Cyphus.C32_user_calls_radau"
   ],
   "note": ""
  },
  {
   "property": "C33",
   "status": "proved",
   "theorems": [
    "Cyphus.C33_after_success_dp5",
    "Cyphus.C33_after_success_radau"
   ],
   "note": "both algorithms: X"
  },
  {
   "property": "C34",
   "status": "proved",
   "theorems": [
    "Cyphus.C34_real_solve",
    "Cyphus.C34_nonsingular"
   ],
   "note": ""
  },
  {
   "property": "C35",
   "status": "proved",
   "theorems": [
    "Cyphus.C35_real_code",
    "Cyphus.C35_singular_reported_ok",
    "Cyphus.C35_empty"
   ],
   "note": ""
  },
  {
   "property": "C36",
   "status": "proved",
   "theorems": [
    "Cyphus.C36_pivoting"
   ],
   "note": ""
  },
  {
   "property": "C37",
   "status": "proved",
   "theorems": [
    "Cyphus.C37_complex_solve",
    "Cyphus.C37_nonsingular"
   ],
   "note": ""
  },
  {
   "property": "C38",
   "status": "proved",
   "theorems": [
    "Cyphus.C38_complex_code"
   ],
   "note": ""
  },
  {
   "property": "C39",
   "status": "proved",
   "theorems": [
    "Cyphus.C39_hessenberg_solve",
    "Cyphus.C39_hessenberg_code"
   ],
   "note": "dech, solh: R, band invariant"
  },
  {
   "property": "C40",
   "status": "proved",
   "theorems": [
    "Cyphus.C40_solhc_wrong",
    "Cyphus.C40_dechc_with_solc"
   ],
   "note": "dechc, solhc: R, counterexample family; the pair works with the other solver"
  },
  {
   "property": "C41",
   "status": "proved",
   "theorems": [
    "Cyphus.C41_difference_quotients",
    "Cyphus.C41_user_jacobian",
    "Cyphus.C41_absorbed_increment",
    "Cyphus.C41_run_radau",
    "Cyphus.C41_affine_exact",
    "Cyphus.C41_affine_run_radau"
   ],
   "note": ""
  },
  {
   "property": "C42",
   "status": "proved",
   "theorems": [
    "Cyphus.C42_time_derivative_zero"
   ],
   "note": ""
  },
  {
   "property": "C43",
   "status": "proved",
   "theorems": [
    "Cyphus.C43_published_method",
    "Cyphus.C43_constants",
    "Cyphus.C43_newton_pass_radau",
    "Cyphus.C43_fixed_point",
    "Cyphus.C43_linear"
   ],
   "note": "newton, linear_solve, constants: X, a pass solves the transformed system; R, accuracy of the constants"
  },
  {
   "property": "C44",
   "status": "proved",
   "theorems": [
    "Cyphus.C44_stale_radau",
    "Cyphus.C44_decompositions_radau",
    "Cyphus.C44_undisturbed_radau"
   ],
   "note": "Radau5 step: X, which step size and Jacobian the factorization belongs to; run with a stale factorization"
  },
  {
   "property": "C45",
   "status": "proved",
   "theorems": [
    "Cyphus.C45_previous_point_dp5",
    "Cyphus.C45_previous_recorded_point_dp5",
    "Cyphus.C45_uprev_stale_radau",
    "Cyphus.C45_tprev_radau"
   ],
   "note": "both algorithms: G, invariants"
  },
  {
   "property": "C46",
   "status": "proved",
   "theorems": [
    "Cyphus.C46_dense_output_dp5",
    "Cyphus.C46_dense_polynomial_dp5"
   ],
   "note": ""
  },
  {
   "property": "C47",
   "status": "proved",
   "theorems": [
    "Cyphus.C47_dense_output_radau",
    "Cyphus.C47_ends_radau"
   ],
   "note": ""
  },
  {
   "property": "C48",
   "status": "proved",
   "theorems": [
    "Cyphus.C48_max_stiff_zero_dp5",
    "Cyphus.C48_max_stiff_zero_panics_dp5",
    "Cyphus.C48_max_stiff_irrelevant_dp5",
    "Cyphus.C48_never_stiff"
   ],
   "note": "DP5 prepare_next_step: G"
  },
  {
   "property": "C49",
   "status": "proved",
   "theorems": [
    "Cyphus.C49_callback_runs_after_step",
    "Cyphus.C49_recorded_before_callback_dp5"
   ],
   "note": ""
  },
  {
   "property": "C50",
   "status": "proved",
   "theorems": [
    "Cyphus.C50_stale_derivative_dp5",
    "Cyphus.C50_correct_if",
    "Cyphus.C50_ball_position"
   ],
   "note": ""
  },
  {
   "property": "C51",
   "status": "proved",
   "theorems": [
    "Cyphus.C51_invariant_subspace_radau",
    "Cyphus.C51_linear_invariants_general_radau",
    "Cyphus.C51_linear_invariants_radau"
   ],
   "note": ""
  },
  {
   "property": "C52",
   "status": "proved",
   "theorems": [
    "Cyphus.C52_equilibrium_radau"
   ],
   "note": ""
  },
  {
   "property": "C53",
   "status": "proved",
   "theorems": [
    "Cyphus.C53_no_newton_iterations_radau",
    "Cyphus.C53_integrate_radau"
   ],
   "note": "Radau5 runs: G"
  },
  {
   "property": "C54",
   "status": "proved",
   "theorems": [
    "Cyphus.C54_build_ok_iff",
    "Cyphus.C54_index_error_iff",
    "Cyphus.C54_result",
    "Cyphus.C54_m2_ignored",
    "Cyphus.C54_bad_second_order_params_accepted",
    "Cyphus.C54_default_mass_bandwidths_rejected",
    "Cyphus.C54_last_write_wins"
   ],
   "note": "dae/problem.rs: decision logic"
  },
  {
   "property": "C55",
   "status": "proved",
   "theorems": [
    "Cyphus.C55_rodas_build_panics"
   ],
   "note": "rodas/algorithm.rs: G, computation"
  },
  {
   "property": "C56",
   "status": "proved",
   "theorems": [
    "Cyphus.C56_first_proposal_dp5"
   ],
   "note": ""
  },
  {
   "property": "C57",
   "status": "proved",
   "theorems": [
    "Cyphus.C57_relabelling_dp5",
    "Cyphus.C57_relabelling_integrate_dp5"
   ],
   "note": ""
  },
  {
   "property": "C58",
   "status": "proved",
   "theorems": [
    "Cyphus.C58_times_increase_radau"
   ],
   "note": ""
  },
  {
   "property": "C59",
   "status": "proved",
   "theorems": [
    "Cyphus.C59_calls_in_span_radau"
   ],
   "note": ""
  },
  {
   "property": "C60",
   "status": "proved",
   "theorems": [
    "Cyphus.C60_difference_quotients",
    "Cyphus.C60_stability_function_radau",
    "Cyphus.C60_decay_radau",
    "Cyphus.C60_stability_function",
    "Cyphus.C60_published"
   ],
   "note": "Radau5 step on linear problems: X + complex analysis of the stability function, uniform in the number of Newton passes"
  },
  {
   "property": "C61",
   "status": "proved",
   "theorems": [
    "Cyphus.C61_linear_convergence_radau"
   ],
   "note": "Radau5 runs on linear problems: X, telescoping of C60"
  },
  {
   "property": "C62",
   "status": "proved",
   "theorems": [
    "Cyphus.C62_double_final_time_dp5",
    "Cyphus.C62_double_beyond_dp5",
    "Cyphus.C62_double_final_time_radau",
    "Cyphus.C62_final_time_dp5",
    "Cyphus.C62_final_time_radau"
   ],
   "note": "both algorithms: G, invariant \"the step marked as the last one ends at tfinal\"; F (doubles) for exactness and its failure"
  },
  {
   "property": "C63",
   "status": "proved",
   "theorems": [
    "Cyphus.C63_float_step_dp5",
    "Cyphus.C63_float_run_dp5",
    "Cyphus.C63_double_run_dp5"
   ],
   "note": "DP5 runs: F, invariant over attempts with monotone rounding; doubles"
  },
  {
   "property": "C64",
   "status": "proved",
   "theorems": [
    "Cyphus.C64_double_run_radau",
    "Cyphus.C64_float_step_radau",
    "Cyphus.C64_float_run_radau"
   ],
   "note": "Radau5 runs: F, invariant over attempts, decompositions and Newton iterations with monotone rounding; doubles"
  },
  {
   "property": "C65",
   "status": "proved",
   "theorems": [
    "Cyphus.C65_finite_dp5",
    "Cyphus.C65_finite_radau",
    "Cyphus.C65_never_finite_radau"
   ],
   "note": "DP5, Radau5 runs: X, finiteness propagated backwards from the accepted error (DP5) or increment norm (Radau5, through sol/solc with the pivots of C66)"
  },
  {
   "property": "C66",
   "status": "proved",
   "theorems": [
    "Cyphus.C66_dec_pivots",
    "Cyphus.C66_decc_pivots",
    "Cyphus.C66_sol_in_range",
    "Cyphus.C66_solc_in_range",
    "Cyphus.C66_pivots_radau"
   ],
   "note": "dec, decc, sol, solc, Radau5 runs: G, invariant of the pivot vectors; relational argument for the solves"
  },
  {
   "property": "C67",
   "status": "proved",
   "theorems": [
    "Cyphus.C67_zero_reltol_radau",
    "Cyphus.C67_zero_abstol_radau",
    "Cyphus.C67_zero_abstol_dp5",
    "Cyphus.C67_zero_abstol_build_dp5"
   ],
   "note": "Radau5 runs, DP5 step(): X, the scale of the norm stays NaN or zero, resp. invariant over attempts"
  },
  {
   "property": "C68",
   "status": "proved",
   "theorems": [
    "Cyphus.C68_local_order_dp5",
    "Cyphus.C68_global_dp5",
    "Cyphus.C68_order_five_dp5",
    "Cyphus.C68_dtmax_dp5"
   ],
   "note": "DP5 runs: X + R, Taylor expansion of the stages around the solution (local error of order six), Lipschitz bound of the step on a compact tube, discrete Gronwall along the recorded points"
  },
  {
   "property": "C69",
   "status": "proved",
   "theorems": [
    "Cyphus.C69_success_bounded_dp5",
    "Cyphus.C69_success_smooth_dp5"
   ],
   "note": "DP5 runs: X, invariant: every step but the last is at least d, because the error estimate is at most h M / abstol; on smooth problems the states stay in the tube of C68"
  },
  {
   "property": "C70",
   "status": "proved",
   "theorems": [
    "Cyphus.C70_dense_dp5",
    "Cyphus.C70_dense_radau",
    "Cyphus.C70_max_steps_dp5",
    "Cyphus.C70_max_steps_radau"
   ],
   "note": "both integrators: G, relation between two runs: a step commutes with replacing dense, the dense coefficients and max_steps unless the limit is hit (Proofs/Cut.lean)"
  },
  {
   "property": "C71",
   "status": "proved",
   "theorems": [
    "Cyphus.C71_longer_span_dp5",
    "Cyphus.C71_longer_span_radau",
    "Cyphus.C71_double_dp5",
    "Cyphus.C71_double_radau"
   ],
   "note": "both integrators: F (so also doubles), the same relation with tfinal replaced, as long as neither run clamps a step; rounding is monotone, so the test is false for the later end as well"
  },
  {
   "property": "C72",
   "status": "proved",
   "theorems": [
    "Cyphus.C72_decb_tridiagonal",
    "Cyphus.C72_solb_panics",
    "Cyphus.C72_solbc_panics",
    "Cyphus.C72_solbc_single",
    "Cyphus.C72_decbc_tridiagonal",
    "Cyphus.C72_banded_wrong",
    "Cyphus.C72_banded_complex_wrong",
    "Cyphus.C72_elmhes_wrong"
   ],
   "note": "decb, solb, decbc, solbc, elmhes (Linalg/Banded.lean): G, invariant of the outer loop for tridiagonal matrices; R for 2 × 2 and 3 × 3 matrices"
  },
  {
   "property": "C73",
   "status": "proved",
   "theorems": [
    "Cyphus.C73_integrate_dp5",
    "Cyphus.C73_steps_dp5"
   ],
   "note": "integrate, step of DormandPrince5 against the transition system Spec/Adaptive.lean: X, simulation in both directions"
  },
  {
   "property": "C74",
   "status": "proved",
   "theorems": [
    "Cyphus.C74_step_sizes_radau"
   ],
   "note": "Radau5 step, step_size_control against the rules of Spec/RadauLaw.lean: X, invariant over attempts (each failed attempt is one of the published reductions), memory of the controller as an invariant over calls"
  },
  {
   "property": "C75",
   "status": "proved",
   "theorems": [
    "Cyphus.C75_dense_order_dp5",
    "Cyphus.C75_dense_dtmax_dp5"
   ],
   "note": "prepare_dense, dense_output of DormandPrince5 over runs: X + R, Taylor expansion of the stages (uniform local error of order five of the continuous extension), its Lipschitz bound in the state, and C68"
  },
  {
   "property": "C76",
   "status": "proved",
   "theorems": [
    "Cyphus.C76_newton_count_radau",
    "Cyphus.C76_newton_start_radau"
   ],
   "note": "newton, step, step_size_control of Radau5 over runs: X, the passes of the last iteration counted along the loop, the starting values followed back to the accepted attempt of the call before, interpolation by the stored divided differences"
  },
  {
   "property": "C77",
   "status": "proved",
   "theorems": [
    "Cyphus.C77_global_radau",
    "Cyphus.C77_order_radau",
    "Cyphus.C77_one_pass_radau",
    "Cyphus.C77_undisturbed_radau",
    "Cyphus.C77_dtmax_radau"
   ],
   "note": "Radau5 over forward runs: X + R, Taylor expansion of the solution in the collocation equations (stage order three, order five up to the digits of the constants), contraction of the simplified Newton iteration for small steps with any bounded Jacobian, bounds for the starting values along the run (C76), discrete Gronwall; the order of the step count m of passes is the order proved, the steps of C44 with a stale factorization are excluded"
  },
  {
   "property": "C78",
   "status": "proved",
   "theorems": [
    "Cyphus.C78_double_dp5",
    "Cyphus.C78_order_double_dp5"
   ],
   "note": "DP5 forward runs in double precision: F for the concrete doubles B64: error of each rounded operation (Proofs/Round64), of the decimal and quotient coefficients, of the arguments, stages and new state of a step (Proofs/DP5Round: one step is within 2 (t' - t) D + E of the exact one), then the discrete Gronwall argument of C68; the step length is taken as the difference of the recorded times, so the rounding of the times enters through the Lipschitz constant in time"
  },
  {
   "property": "C79",
   "status": "proved",
   "theorems": [
    "Cyphus.C79_success_radau"
   ],
   "note": "Radau5 forward runs with use_ext_col = false and quot2 < quot1, conditions in Spec/RadauSuccess.lean: X, invariant over calls: every step but the last is at least d. A step up to hs converges in one pass with a small error (Proofs/RadauTry), so it is accepted and does not shrink; a failed attempt shrinks the step by a factor between two bounds. Not covered: kept factorizations and extrapolated starting values, where a Newton failure is retried with the old factors"
  },
  {
   "property": "C80",
   "status": "proved",
   "theorems": [
    "Cyphus.C80_algorithm_radau",
    "Cyphus.C80_success_radau",
    "Cyphus.C80_deterministic",
    "Cyphus.C80_follows_radau"
   ],
   "note": "new_cache, step and everything it calls, of Radau5 over runs; specification Spec/RadauAlgorithm.lean: X, refinement: a relation between the integrator and the abstract state is kept by every attempt (Proofs/RadauTrial) and every Newton pass (Proofs/RadauSim), then induction over the calls; the transition system is deterministic (Proofs/RadauDet). Three departures of the code from the published algorithm are part of the specification, marked (*): caljac is never set to true in the source, and src/radau/newton.rs:170 tests if caljac where the other failure branches test if !caljac"
  },
  {
   "property": "C81",
   "status": "proved",
   "theorems": [
    "Cyphus.C81_local_dp5",
    "Cyphus.C81_local_radau",
    "Cyphus.C81_outside_span_dp5",
    "Cyphus.C81_outside_span_radau"
   ],
   "note": "all functions of both algorithms that call user code, build, step, integrate; specification Spec/Local.lean: G and F: each function commutes with the exchange of the user functions provided they agree at the calls it adds to the trace (Proofs/Local), composed along the code, fuel induction for the loops; with C63 and C64 for double precision. No callback"
  },
  {
   "property": "C82",
   "status": "proved",
   "theorems": [
    "Cyphus.C82_backward_radau",
    "Cyphus.C82_wrong_way_radau"
   ],
   "note": "Radau5 runs with tfinal < t0: X: within a call of step every attempted step is the first one times a factor in (0, 1] (Proofs/RadauBack, either direction); then an invariant over the calls. quot1 = 1 is needed: with quot1 > 1 the proposal may pass tfinal and the test for the last step does not catch it"
  },
  {
   "property": "C83",
   "status": "proved",
   "theorems": [
    "Cyphus.C83_never_singular_radau",
    "Cyphus.C83_dissipative_radau",
    "Cyphus.C83_codes_radau"
   ],
   "note": "Radau5, whole runs; Spec/Dissipative.lean (matrices without growing modes): X for SingularMatrix: the step stays positive through newton, rejectStep and the proposals (invariant Fit at the loop head), the cached Jacobian is the one at some recorded point, and γ/h − J, (α + iβ)/h − J are regular for h > 0, so the factorisations succeed; G for the other codes, from the four ways the loop ends"
  },
  {
   "property": "C84",
   "status": "proved",
   "theorems": [
    "Cyphus.C84_units_dp5",
    "Cyphus.C84_units_radau",
    "Cyphus.C84_sign_double_dp5",
    "Cyphus.C84_sign_double_radau"
   ],
   "note": "Both solvers, whole runs; Spec/Units.lean (the changed problem, what users see): X for c ≠ 0, double precision for c = -1: every function of the model commutes with the change of units (Proofs/Units.lean, Proofs/UnitsDP5.lean) in any arithmetic with the laws Scaling/Scaling2, which are proved for X and for the change of sign in B64; the finite-difference Jacobian of Radau5 is not homogeneous (its increments have an absolute part), hence the user's Jacobian"
  },
  {
   "property": "C85",
   "status": "proved",
   "theorems": [
    "Cyphus.C85_steps_radau",
    "Cyphus.C85_success_radau",
    "Cyphus.C85_length_radau",
    "Cyphus.C85_difference_quotients"
   ],
   "note": "Whole forward runs of Radau5, both sides; Spec/Symmetry.lean (the coordinates): X: the textbook algorithm of C80 commutes with the change of coordinates (Proofs/RadauSymmetry.lean: eigenvalues, Newton passes, norms, extrapolation, error estimates, controller), it is deterministic, and both runs follow it (C80). Pivoting may differ in the two runs, but not the solutions of the linear systems. Not claimed: that both runs fail alike, since the smallest step size depends on the absolute time and the defect of the LU routine (C35) on the first column of the matrix; the hypothesis FirstNotEigen excludes the latter. For DormandPrince5 see C23 and C57"
  },
  {
   "property": "C86",
   "status": "proved",
   "theorems": [
    "Cyphus.C86_decay_step",
    "Cyphus.C86_decay_dp5",
    "Cyphus.C86_default_tolerances"
   ],
   "note": "Forward runs of DP5 on u_i' = -lam_i (u_i - g_i) with any rates: X: the stability polynomial R and the polynomial Q of the error estimate (C20) satisfy abs R ≤ 1 or 0.65 abs R ≤ Q on the whole negative axis (expansions with nonnegative coefficients on [0, 3.3] and [3.3, ∞)); with the error test of C16 one accepted step cannot leave the bound; induction over the recorded states. Only diagonal problems: coupled ones are in C88"
  },
  {
   "property": "C87",
   "status": "proved",
   "theorems": [
    "Cyphus.C87_tolerance_dp5",
    "Cyphus.C87_default_tolerances"
   ],
   "note": "As C86; the exact solution is Spec.relax (shown to solve the equation): X: 0.65 abs (R(x) - exp(-x)) ≤ Q(x) for all x ≥ 0 (alternating Taylor bounds of the exponential), so the true error of a step is at most its estimate / 0.65; the error test of C16, the bound of C86 and induction over the recorded states. Only diagonal problems; coupled ones, in another norm, are in C88"
  },
  {
   "property": "C88",
   "status": "proved",
   "theorems": [
    "Cyphus.C88_diffusion_dp5",
    "Cyphus.C88_dissipative_dp5",
    "Cyphus.C88_absolute_dp5",
    "Cyphus.C88_apriori_dp5",
    "Cyphus.C88_success_dp5"
   ],
   "note": "Forward runs of DP5 on u' = -A (u - g) with w · A w ≥ 0; y is any solution of the equation with y t0 = u0: X: in the error estimate (C20) the terms of degree 5, 6, 7 in hA have signs such that its scalar product with the middle one bounds (13/40000) ‖(hA)^6 w‖; the step is the Taylor polynomial of degree 5 plus (hA)^6 w / 600; the Taylor polynomial differs from the exact solution by at most ‖(hA)^6 w‖ / 720 more than at the beginning of the step (energy estimate); induction over the recorded states. For symmetric A: orthonormal eigenvectors and the inequality of C87 in each of them"
  },
  {
   "property": "C89",
   "status": "proved",
   "theorems": [
    "Cyphus.C89_rodas_order"
   ],
   "note": "rodas/constants.rs (Rodas/Constants.lean) as decimals: Spec/Rosenbrock.lean (order conditions, transformed form); the inverse of the matrix of the C is given and checked, the conditions are evaluated by the kernel over the whole table. How the constants are combined into stages is not in the code and taken from the literature. BET2P to BET4P and the constants D21 to D35 of the continuous extension are not covered"
  }
 ]
}