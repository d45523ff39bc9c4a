# Axioms of the property theorems

Generated by `tools/axioms.py` (`Lean.collectAxioms`). Every other declaration of the library is subject to the same three axioms;
`vcheck` replays all of them in the kernel.

| theorem | axioms |
|---|---|
| `PyEMD.EMD.C01_reconstruction` | `Classical.choice`, `Quot.sound`, `propext` |
| `PyEMD.EMD.C02_row_lengths` | `Classical.choice`, `Quot.sound`, `propext` |
| `PyEMD.EMD.C03_rows_vs_stored` | `Classical.choice`, `Quot.sound`, `propext` |
| `PyEMD.EMD.C04_counterexample` | `Classical.choice`, `Quot.sound`, `propext` |
| `PyEMD.EMD.C04_imfs_and_trend_partial` | `Classical.choice`, `Quot.sound`, `propext` |
| `PyEMD.EMD.C04_trend_error_iff` | `Classical.choice`, `Quot.sound`, `propext` |
| `PyEMD.EMD.C05_accessors_after_success` | `Classical.choice`, `Quot.sound`, `propext` |
| `PyEMD.EMD.C05_accessors_before_success` | `Classical.choice`, `Quot.sound`, `propext` |
| `PyEMD.EMD.C06_history_independent` | `Classical.choice`, `Quot.sound`, `propext` |
| `PyEMD.EMD.C07_max_imf_bound` | `Classical.choice`, `Quot.sound`, `propext` |
| `PyEMD.EMD.C07_max_imf_terminates` | `Classical.choice`, `Quot.sound`, `propext` |
| `PyEMD.EMD.C08_sift_bound` | `Classical.choice`, `Quot.sound`, `propext` |
| `PyEMD.EMD.C08_sift_terminates` | `Classical.choice`, `Quot.sound`, `propext` |
| `PyEMD.EMD.C09_fixe_exact` | `Classical.choice`, `Quot.sound`, `propext` |
| `PyEMD.EMD.C10_exit_condition` | `Classical.choice`, `Quot.sound`, `propext` |
| `PyEMD.EMD.C11_few_extrema` | `Classical.choice`, `Quot.sound`, `propext` |
| `PyEMD.EMD.C12_simple_ignores_time` | `Classical.choice`, `Quot.sound`, `propext` |
| `PyEMD.EMD.C12_wrong_length` | `Classical.choice`, `Quot.sound`, `propext` |
| `PyEMD.EMD.C13_affine_time` | `Classical.choice`, `Quot.sound`, `propext` |
| `PyEMD.EMD.C14_negation` | `Classical.choice`, `Quot.sound`, `propext` |
| `PyEMD.Ieee.C14_floating_point` | `Classical.choice`, `Quot.sound`, `propext` |
| `PyEMD.EMD.C15_characterised` | `Classical.choice`, `Quot.sound`, `propext` |
| `PyEMD.EMD.C15_counterexample` | `Classical.choice`, `Quot.sound`, `propext` |
| `PyEMD.EMD.C15_exact_partial` | `Classical.choice`, `Quot.sound`, `propext` |
| `PyEMD.EMD.C16_alternate` | `Classical.choice`, `Quot.sound`, `propext` |
| `PyEMD.EMD.C17_zero_crossings` | `Classical.choice`, `Quot.sound`, `propext` |
| `PyEMD.EMD.C18_affine` | `Classical.choice`, `Quot.sound`, `propext` |
| `PyEMD.EMD.C18_neg` | `Classical.choice`, `Quot.sound`, `propext` |
| `PyEMD.EMD.C19_characterised` | `Classical.choice`, `Quot.sound`, `propext` |
| `PyEMD.EMD.C19_counterexample` | `Classical.choice`, `Quot.sound`, `propext` |
| `PyEMD.EMD.C19_exact_partial` | `Classical.choice`, `Quot.sound`, `propext` |
| `PyEMD.EMD.C20_counterexample` | `Classical.choice`, `Quot.sound`, `propext` |
| `PyEMD.EMD.C20_monotone_emd` | `Classical.choice`, `Quot.sound`, `propext` |
| `PyEMD.EMD.C20_monotone_simple` | `Classical.choice`, `Quot.sound`, `propext` |
| `PyEMD.EMD.C20_rising_emd_partial` | `Classical.choice`, `Quot.sound`, `propext` |
| `PyEMD.EMD.C20_strict_parabolic_partial` | `Classical.choice`, `Quot.sound`, `propext` |
| `PyEMD.EMD.C21_knots` | `Classical.choice`, `Quot.sound`, `propext` |
| `PyEMD.EMD.C22_nbsym_zero` | `Classical.choice`, `Quot.sound`, `propext` |
| `PyEMD.EMD.C22_no_exception` | `Classical.choice`, `Quot.sound`, `propext` |
| `PyEMD.EMD.C22_returns` | `Classical.choice`, `Quot.sound`, `propext` |
| `PyEMD.EMD.C23_detected` | `Classical.choice`, `Quot.sound`, `propext` |
| `PyEMD.EMD.C23_envelopes` | `Classical.choice`, `Quot.sound`, `propext` |
| `PyEMD.EMD.C23_knots` | `Classical.choice`, `Quot.sound`, `propext` |
| `PyEMD.EMD.C23_staircase` | `Classical.choice`, `Quot.sound`, `propext` |
| `PyEMD.C24_linear` | `Classical.choice`, `Quot.sound`, `propext` |
| `PyEMD.C24_natural_spline` | `Classical.choice`, `Quot.sound`, `propext` |
| `PyEMD.C24_reproduces_lines` | `Classical.choice`, `Quot.sound`, `propext` |
| `PyEMD.EMD.C25_assertion_iff` | `Classical.choice`, `Quot.sound`, `propext` |
| `PyEMD.EMD.C25_normalize_time` | `Classical.choice`, `Quot.sound`, `propext` |
| `PyEMD.Utils.C26_counterexample` | `Classical.choice`, `Quot.sound`, `propext` |
| `PyEMD.Utils.C26_default` | `Classical.choice`, `Quot.sound`, `propext` |
| `PyEMD.Utils.C26_empty` | `Classical.choice`, `Quot.sound`, `propext` |
| `PyEMD.Utils.C26_float_iff` | `Classical.choice`, `Quot.sound`, `propext` |
| `PyEMD.Utils.C26_float_partial` | `Classical.choice`, `Quot.sound`, `propext` |
| `PyEMD.Utils.C26_integer_partial` | `Classical.choice`, `Quot.sound`, `propext` |
| `PyEMD.Utils.C27_float` | `Classical.choice`, `Quot.sound`, `propext` |
| `PyEMD.Utils.C27_integer` | `Classical.choice`, `Quot.sound`, `propext` |
| `PyEMD.Utils.C27_other` | `Classical.choice`, `Quot.sound`, `propext` |
| `PyEMD.Utils.C28_common_type_holds` | `Classical.choice`, `Quot.sound`, `propext` |
| `PyEMD.Utils.C28_lossy` | `Classical.choice`, `Quot.sound`, `propext` |
| `PyEMD.Utils.C28_same_type` | `Classical.choice`, `Quot.sound`, `propext` |
| `PyEMD.Utils.C28_symmetric` | `propext` |
| `PyEMD.Utils.C28_values_kept` | `Classical.choice`, `Quot.sound`, `propext` |
| `PyEMD.EMD.C29_end_condition` | `Classical.choice`, `Quot.sound`, `propext` |
| `PyEMD.EMD.C29_monotone` | `Quot.sound`, `propext` |
| `PyEMD.EMD.C29_stops_exactly` | `Classical.choice`, `Quot.sound`, `propext` |
| `PyEMD.EMD.C30_check_imf` | `Classical.choice`, `Quot.sound`, `propext` |
| `PyEMD.EMD.C30_monotone` | `Classical.choice`, `Quot.sound`, `propext` |
| `PyEMD.EEMD.C31_averages` | `Classical.choice`, `Quot.sound`, `propext` |
| `PyEMD.EEMD.C32_ensemble_count` | `Classical.choice`, `Quot.sound`, `propext` |
| `PyEMD.EEMD.C33_separate_trends` | `Classical.choice`, `Quot.sound`, `propext` |
| `PyEMD.EEMD.C34_residue` | `Classical.choice`, `Quot.sound`, `propext` |
| `PyEMD.EEMD.C35_counterexample` | `Classical.choice`, `Quot.sound`, `propext` |
| `PyEMD.EEMD.C35_fresh_noise_partial` | `Classical.choice`, `Quot.sound`, `propext` |
| `PyEMD.EEMD.C35_parallel_repeats` | `Classical.choice`, `Quot.sound`, `propext` |
| `PyEMD.EEMD.C36_schedule_independent` | `Classical.choice`, `Quot.sound`, `propext` |
| `PyEMD.EEMD.C37_reproducible` | `Classical.choice`, `Quot.sound`, `propext` |
| `PyEMD.EEMD.C38_no_noise` | `Classical.choice`, `Quot.sound`, `propext` |
| `PyEMD.EEMD.C38_separate_trends` | `Classical.choice`, `Quot.sound`, `propext` |
| `PyEMD.CEEMDAN.C39_complete` | `Classical.choice`, `Quot.sound`, `propext` |
| `PyEMD.CEEMDAN.C40_max_imf` | `Classical.choice`, `Quot.sound`, `propext` |
| `PyEMD.CEEMDAN.C41_parallel_eq_sequential` | `Classical.choice`, `Quot.sound`, `propext` |
| `PyEMD.CEEMDAN.C42_stages` | `Classical.choice`, `Quot.sound`, `propext` |
| `PyEMD.CEEMDAN.C43_accessor` | `Classical.choice`, `Quot.sound`, `propext` |
| `PyEMD.CEEMDAN.C43_after_call` | `Classical.choice`, `Quot.sound`, `propext` |
| `PyEMD.CEEMDAN.C43_history_independent` | `Classical.choice`, `Quot.sound`, `propext` |
| `PyEMD.Compact.C44_short` | `Classical.choice`, `Quot.sound`, `propext` |
| `PyEMD.Compact.C44_tdma` | `Classical.choice`, `Quot.sound`, `propext` |
| `PyEMD.Compact.C44_tdma_singular` | `Classical.choice`, `Quot.sound`, `propext` |
| `PyEMD.Compact.C45_cubic` | `Classical.choice`, `Quot.sound`, `propext` |
| `PyEMD.Compact.C45_linear` | `Classical.choice`, `Quot.sound`, `propext` |
| `PyEMD.Compact.C45_short` | `Classical.choice`, `Quot.sound`, `propext` |
| `PyEMD.Compact.C45_total` | `Classical.choice`, `Quot.sound`, `propext` |
| `PyEMD.Compact.C46_counterexample` | `Classical.choice`, `Quot.sound`, `propext` |
| `PyEMD.Compact.C46_derivative_partial` | `Classical.choice`, `Quot.sound`, `propext` |
| `PyEMD.EMD2D.C47_central` | `Classical.choice`, `Quot.sound`, `propext` |
| `PyEMD.EMD2D.C47_mirrored` | `Classical.choice`, `Quot.sound`, `propext` |
| `PyEMD.BEMD.C48_adds_up` | `Classical.choice`, `Quot.sound`, `propext` |
| `PyEMD.EMD2D.C48_adds_up` | `Classical.choice`, `Quot.sound`, `propext` |
| `PyEMD.BEMD.C49_max_imf` | `Classical.choice`, `Quot.sound`, `propext` |
| `PyEMD.EMD2D.C49_max_imf` | `Classical.choice`, `Quot.sound`, `propext` |
| `PyEMD.EMD2D.C50_find_extrema` | `Classical.choice`, `Quot.sound`, `propext` |
| `PyEMD.Checks.C51_counterexample` | `Classical.choice`, `Quot.sound`, `propext` |
| `PyEMD.Checks.C51_flags` | `Classical.choice`, `Quot.sound`, `propext` |
| `PyEMD.Checks.C51_invalid` | `Quot.sound`, `propext` |
| `PyEMD.Checks.C51_none` | `Quot.sound`, `propext` |
| `PyEMD.Checks.C51_total_partial` | `Classical.choice`, `Quot.sound`, `propext` |
| `PyEMD.Checks.C52_above` | `Classical.choice`, `Quot.sound`, `propext` |
| `PyEMD.Checks.C52_apriori_rule` | `Classical.choice`, `Quot.sound`, `propext` |
| `PyEMD.Checks.C52_monotone` | `Classical.choice`, `Quot.sound`, `propext` |
| `PyEMD.Checks.C53_counterexample` | `Classical.choice`, `Quot.sound`, `propext` |
| `PyEMD.Checks.C53_rescaling_partial` | `Classical.choice`, `Quot.sound`, `propext` |
| `PyEMD.Matlab.C54_sum` | `Classical.choice`, `Quot.sound`, `propext` |
| `PyEMD.Matlab.C55_counterexample` | `Classical.choice`, `Quot.sound`, `propext` |
| `PyEMD.Matlab.C55_partial` | `Classical.choice`, `Quot.sound`, `propext` |
| `PyEMD.Ieee.C56_floating_point` | `Classical.choice`, `Quot.sound`, `propext` |
| `PyEMD.Jit.C56_same_extrema` | `Classical.choice`, `Quot.sound`, `propext` |
| `PyEMD.Jit.C56_same_samples` | `Classical.choice`, `Quot.sound`, `propext` |
| `PyEMD.Jit.C57_counterexample` | `Classical.choice`, `Quot.sound`, `propext` |
| `PyEMD.Jit.C57_partial` | `Classical.choice`, `Quot.sound`, `propext` |
| `PyEMD.Vis.C58_counterexample` | `Classical.choice`, `Quot.sound`, `propext` |
| `PyEMD.Vis.C58_length_partial` | `Classical.choice`, `Quot.sound`, `propext` |
| `PyEMD.Vis.C58_linear_partial` | `Classical.choice`, `Quot.sound`, `propext` |
| `PyEMD.Vis.C59_check_imfs` | `propext` |
| `PyEMD.Vis.C59_new` | `propext` |
| `PyEMD.EMD.C60_accepted_by_check` | `Classical.choice`, `Quot.sound`, `propext` |
| `PyEMD.EMD.C60_default_mode` | `Classical.choice`, `Quot.sound`, `propext` |
| `PyEMD.EMD2D.C61_counterexample` | `Classical.choice`, `Quot.sound`, `propext` |
| `PyEMD.EMD2D.C61_iterations_partial` | `Classical.choice`, `Quot.sound`, `propext` |
| `PyEMD.BEMD.C62_counterexample` | `Classical.choice`, `Quot.sound`, `propext` |
| `PyEMD.BEMD.C62_iterations_partial` | `Classical.choice`, `Quot.sound`, `propext` |
| `PyEMD.BEMD.C63_counterexample` | `Classical.choice`, `Quot.sound`, `propext` |
| `PyEMD.BEMD.C63_values_partial` | `Classical.choice`, `Quot.sound`, `propext` |
| `PyEMD.BEMD.C64_counterexample` | `Classical.choice`, `Quot.sound`, `propext` |
| `PyEMD.BEMD.C64_rectangular` | `Classical.choice`, `Quot.sound`, `propext` |
| `PyEMD.BEMD.C64_square_partial` | `Classical.choice`, `Quot.sound`, `propext` |
| `PyEMD.Checks.C65_counterexample` | `Classical.choice`, `Quot.sound`, `propext` |
| `PyEMD.Checks.C65_rescaling_partial` | `Classical.choice`, `Quot.sound`, `propext` |
| `PyEMD.Jit.C66_parabol` | `Classical.choice`, `Quot.sound`, `propext` |
| `PyEMD.Jit.C66_simple` | `Classical.choice`, `Quot.sound`, `propext` |
| `PyEMD.Matlab.C67_counterexample` | `Classical.choice`, `Quot.sound`, `propext` |
| `PyEMD.Matlab.C67_partial` | `Classical.choice`, `Quot.sound`, `propext` |
| `PyEMD.Matlab.C68_fixe` | `Classical.choice`, `Quot.sound`, `propext` |
| `PyEMD.Vis.C69_counterexample` | `Quot.sound`, `propext` |
| `PyEMD.Vis.C69_with_residue` | `Classical.choice`, `Quot.sound`, `propext` |
| `PyEMD.Vis.C69_without_residue_partial` | `Classical.choice`, `Quot.sound`, `propext` |
| `PyEMD.Matlab.C70_default_stop` | `Classical.choice`, `Quot.sound`, `propext` |
| `PyEMD.Matlab.C71_trend` | `Classical.choice`, `Quot.sound`, `propext` |
| `PyEMD.Matlab.C72_counterexample` | `Classical.choice`, `Quot.sound`, `propext` |
| `PyEMD.Matlab.C72_partial` | `Classical.choice`, `Quot.sound`, `propext` |
| `PyEMD.CEEMDAN.C73_noise_kind` | `Classical.choice`, `Quot.sound`, `propext` |
| `PyEMD.EEMD.C73_noise_kind` | `Classical.choice`, `Quot.sound`, `propext` |
| `PyEMD.EMD.C73_constructor` | `propext` |
| `PyEMD.EMD.C73_detection` | `Classical.choice`, `Quot.sound`, `propext` |
| `PyEMD.EMD.C73_spline` | `Classical.choice`, `Quot.sound`, `propext` |
| `PyEMD.EMD.C73_unused_spline` | `Classical.choice`, `Quot.sound`, `propext` |
| `PyEMD.EMD.C74_counterexample` | `Classical.choice`, `Quot.sound`, `propext` |
| `PyEMD.EMD.C74_offset_partial` | `Classical.choice`, `Quot.sound`, `propext` |
| `PyEMD.EMD.C75_counterexample` | `Classical.choice`, `Quot.sound`, `propext` |
| `PyEMD.EMD.C75_scaling_partial` | `Classical.choice`, `Quot.sound`, `propext` |
| `PyEMD.CEEMDAN.C76_units` | `Classical.choice`, `Quot.sound`, `propext` |
| `PyEMD.EEMD.C77_plain_sum` | `Classical.choice`, `Quot.sound`, `propext` |
| `PyEMD.EEMD.C77_weighted_sum` | `Classical.choice`, `Quot.sound`, `propext` |
| `PyEMD.EEMD.C78_accessor` | `Classical.choice`, `Quot.sound`, `propext` |
| `PyEMD.EEMD.C78_counterexample` | `Classical.choice`, `Quot.sound`, `propext` |
| `PyEMD.EEMD.C78_statistics_partial` | `Classical.choice`, `Quot.sound`, `propext` |
| `PyEMD.CEEMDAN.C79_stop` | `Classical.choice`, `Quot.sound`, `propext` |
| `PyEMD.EMD2D.C80_counterexample` | `Classical.choice`, `Quot.sound`, `propext` |
| `PyEMD.EMD2D.C80_units_partial` | `Classical.choice`, `Quot.sound`, `propext` |
| `PyEMD.EMD.C81_mirror_rule` | `Classical.choice`, `Quot.sound`, `propext` |
| `PyEMD.EMD.C82_counterexample` | `Classical.choice`, `Quot.sound`, `propext` |
| `PyEMD.EMD.C82_reversal_partial` | `Classical.choice`, `Quot.sound`, `propext` |
| `PyEMD.EMD.C83_counterexample` | `Classical.choice`, `Quot.sound`, `propext` |
| `PyEMD.EMD.C83_fixe` | `Classical.choice`, `Quot.sound`, `propext` |
| `PyEMD.EMD.C83_truncates_partial` | `Classical.choice`, `Quot.sound`, `propext` |
| `PyEMD.BEMD.C84_bemd` | `Classical.choice`, `Quot.sound`, `propext` |
| `PyEMD.CEEMDAN.C84_ceemdan` | `Classical.choice`, `Quot.sound`, `propext` |
| `PyEMD.EMD2D.C84_emd2d` | `Classical.choice`, `Quot.sound`, `propext` |
| `PyEMD.Matlab.C84_matlab` | `Classical.choice`, `Quot.sound`, `propext` |
| `PyEMD.Vis.C85_plot` | `Classical.choice`, `Quot.sound`, `propext` |
| `PyEMD.Vis.C85_refuses` | `Classical.choice`, `Quot.sound`, `propext` |
| `PyEMD.Compact.C86_filter_alternating` | `Classical.choice`, `Quot.sound`, `propext` |
| `PyEMD.Compact.C86_filter_reverse` | `Classical.choice`, `Quot.sound`, `propext` |
| `PyEMD.Compact.C87_linear` | `Classical.choice`, `Quot.sound`, `propext` |
| `PyEMD.Compact.C87_reverse` | `Classical.choice`, `Quot.sound`, `propext` |
| `PyEMD.Compact.C87_units` | `Classical.choice`, `Quot.sound`, `propext` |
| `PyEMD.EMD.C88_recursion` | `Classical.choice`, `Quot.sound`, `propext` |
| `PyEMD.EMD2D.C89_touch` | `Classical.choice`, `Quot.sound`, `propext` |
| `PyEMD.EMD2D.C90_left_right` | `Classical.choice`, `Quot.sound`, `propext` |
| `PyEMD.EMD2D.C90_transpose` | `Classical.choice`, `Quot.sound`, `propext` |
| `PyEMD.EMD2D.C90_up_down` | `Classical.choice`, `Quot.sound`, `propext` |
| `PyEMD.EEMD.C91_no_exception` | `Classical.choice`, `Quot.sound`, `propext` |
| `PyEMD.EEMD.C91_noise_kind` | `Classical.choice`, `Quot.sound`, `propext` |
| `PyEMD.EEMD.C91_returns` | `Classical.choice`, `Quot.sound`, `propext` |
| `PyEMD.EEMD.C91_zero_signal` | `Classical.choice`, `Quot.sound`, `propext` |
| `PyEMD.EEMD.C92_std` | `Classical.choice`, `Quot.sound`, `propext` |
| `PyEMD.EEMD.C92_std_trend` | `Classical.choice`, `Quot.sound`, `propext` |
| `PyEMD.EEMD.C93_uniform` | `Classical.choice`, `Quot.sound`, `propext` |
| `PyEMD.EEMD.C93_uniform_plain` | `Classical.choice`, `Quot.sound`, `propext` |
| `PyEMD.BEMD.C94_stop` | `Classical.choice`, `Quot.sound`, `propext` |
| `PyEMD.EMD2D.C94_counterexample` | `Classical.choice`, `Quot.sound`, `propext` |
| `PyEMD.EMD2D.C94_stop_partial` | `Classical.choice`, `Quot.sound`, `propext` |
| `PyEMD.C95_ceemdan` | `Classical.choice`, `Quot.sound`, `propext` |
| `PyEMD.C95_eemd` | `Classical.choice`, `Quot.sound`, `propext` |
| `PyEMD.C95_emd` | `Classical.choice`, `Quot.sound`, `propext` |
| `PyEMD.C95_float32_float16` | `Classical.choice`, `Quot.sound`, `propext` |
| `PyEMD.C95_float64` | `Classical.choice`, `Quot.sound`, `propext` |
| `PyEMD.EMD.C96_envelopes` | `Classical.choice`, `Quot.sound`, `propext` |
| `PyEMD.EMD.C96_touches` | `Classical.choice`, `Quot.sound`, `propext` |
| `PyEMD.Scipy.C96_through` | `Classical.choice`, `Quot.sound`, `propext` |
| `PyEMD.EMD.C97_envelopes` | `Classical.choice`, `Quot.sound`, `propext` |
| `PyEMD.EMD.C97_step` | `Classical.choice`, `Quot.sound`, `propext` |
| `PyEMD.Scipy.C97_counterexample` | `Classical.choice`, `Quot.sound`, `propext` |
| `PyEMD.Scipy.C97_no_overshoot` | `Classical.choice`, `Quot.sound`, `propext` |
| `PyEMD.Scipy.C98_accepts` | `Classical.choice`, `Quot.sound`, `propext` |
| `PyEMD.Scipy.C98_affine` | `Classical.choice`, `Quot.sound`, `propext` |
| `PyEMD.Scipy.C98_emd_returns` | `Classical.choice`, `Quot.sound`, `propext` |
| `PyEMD.Scipy.C98_odd` | `Classical.choice`, `Quot.sound`, `propext` |
| `PyEMD.Scipy.C98_reversible` | `Classical.choice`, `Quot.sound`, `propext` |
| `PyEMD.Scipy.C98_time` | `Classical.choice`, `Quot.sound`, `propext` |
| `PyEMD.Scipy.C99_not_a_knot` | `Classical.choice`, `Quot.sound`, `propext` |
| `PyEMD.Scipy.C99_polynomials` | `Classical.choice`, `Quot.sound`, `propext` |
| `PyEMD.Scipy.C99_quadratic` | `Classical.choice`, `Quot.sound`, `propext` |
| `PyEMD.Scipy.C100_lines` | `Classical.choice`, `Quot.sound`, `propext` |
| `PyEMD.EMD.C101_fails` | `Classical.choice`, `Quot.sound`, `propext` |
| `PyEMD.EMD.C101_four_partial` | `Classical.choice`, `Quot.sound`, `propext` |
| `PyEMD.EMD.C101_three_partial` | `Classical.choice`, `Quot.sound`, `propext` |
| `PyEMD.CEEMDAN.C102_returns` | `Classical.choice`, `Quot.sound`, `propext` |
| `PyEMD.CEEMDAN.C103_parallel` | `Classical.choice`, `Quot.sound`, `propext` |
| `PyEMD.CEEMDAN.C103_silent` | `Classical.choice`, `Quot.sound`, `propext` |
| `PyEMD.EMD.C104_counterexample` | `Classical.choice`, `Quot.sound`, `propext` |
| `PyEMD.EMD.C104_residue_partial` | `Classical.choice`, `Quot.sound`, `propext` |
| `PyEMD.EMD.C104_why` | `Classical.choice`, `Quot.sound`, `propext` |
| `PyEMD.EMD.C105_defaults` | `Classical.choice`, `Quot.sound`, `propext` |
| `PyEMD.Matlab.C106_no_exception` | `Classical.choice`, `Quot.sound`, `propext` |
| `PyEMD.Matlab.C106_returns` | `Classical.choice`, `Quot.sound`, `propext` |
| `PyEMD.Scipy.C107_eemd_returns` | `Classical.choice`, `Quot.sound`, `propext` |
| `PyEMD.Scipy.C107_matlab_returns` | `Classical.choice`, `Quot.sound`, `propext` |
| `PyEMD.Scipy.C107_negation` | `Classical.choice`, `Quot.sound`, `propext` |
| `PyEMD.Scipy.C107_offset` | `Classical.choice`, `Quot.sound`, `propext` |
| `PyEMD.Scipy.C107_scaling` | `Classical.choice`, `Quot.sound`, `propext` |
| `PyEMD.EMD.C108_default` | `Classical.choice`, `Quot.sound`, `propext` |
| `PyEMD.EMD.C108_wave` | `Classical.choice`, `Quot.sound`, `propext` |
| `PyEMD.EMD.C108_zigzag` | `Classical.choice`, `Quot.sound`, `propext` |
| `PyEMD.EMD2D.C109_component` | `Classical.choice`, `Quot.sound`, `propext` |
| `PyEMD.EMD2D.C109_counterexample` | `Classical.choice`, `Quot.sound`, `propext` |
| `PyEMD.EMD2D.C109_misses` | `Classical.choice`, `Quot.sound`, `propext` |
| `PyEMD.EMD2D.C109_polynomial` | `Classical.choice`, `Quot.sound`, `propext` |
| `PyEMD.EMD2D.C109_touch_partial` | `Classical.choice`, `Quot.sound`, `propext` |
| `PyEMD.EMD2D.C110_counterexample` | `Classical.choice`, `Quot.sound`, `propext` |
| `PyEMD.EMD2D.C110_first_partial` | `Classical.choice`, `Quot.sound`, `propext` |
| `PyEMD.EMD2D.C110_returns_partial` | `Classical.choice`, `Quot.sound`, `propext` |
| `PyEMD.C111_float64` | `Classical.choice`, `Quot.sound`, `propext` |
| `PyEMD.EEMD.C111_eemd_spoiled` | `Classical.choice`, `Quot.sound`, `propext` |
| `PyEMD.EMD.C111_counterexample` | `Classical.choice`, `Quot.sound`, `propext` |
| `PyEMD.EMD.C111_kept_partial` | `Classical.choice`, `Quot.sound`, `propext` |
| `PyEMD.Types.C112_counterexample` | `Classical.choice`, `Quot.sound`, `propext` |
| `PyEMD.Types.C112_other` | `Classical.choice`, `Quot.sound`, `propext` |
| `PyEMD.Types.C112_refused` | `Classical.choice`, `Quot.sound`, `propext` |
| `PyEMD.Types.C112_same_result_partial` | `Classical.choice`, `Quot.sound`, `propext` |
| `PyEMD.Types.C112_working_type` | `Classical.choice`, `Quot.sound`, `propext` |
| `PyEMD.Matlab.C113_adds_up_partial` | `Classical.choice`, `Quot.sound`, `propext` |
| `PyEMD.Matlab.C113_counterexample` | `Classical.choice`, `Quot.sound`, `propext` |
| `PyEMD.Matlab.C113_half_integers` | `Classical.choice`, `Quot.sound`, `propext` |
| `PyEMD.Matlab.C113_unsigned` | `Classical.choice`, `Quot.sound`, `propext` |
| `PyEMD.Mem.C114_arguments_untouched` | `Classical.choice`, `Quot.sound`, `propext` |
| `PyEMD.Mem.C114_result_is_own` | `Classical.choice`, `Quot.sound`, `propext` |
| `PyEMD.Mem.C114_values` | `Classical.choice`, `Quot.sound`, `propext` |
| `PyEMD.Mem.C115_copies_partial` | `Classical.choice`, `Quot.sound`, `propext` |
| `PyEMD.Mem.C115_counterexample` | `Classical.choice`, `Quot.sound`, `propext` |
| `PyEMD.Mem.EEMD.C116_values` | `Classical.choice`, `Quot.sound`, `propext` |
| `PyEMD.Mem.EEMD.C117_arguments_free_partial` | `Classical.choice`, `Quot.sound`, `propext` |
| `PyEMD.Mem.EEMD.C117_counterexample` | `Classical.choice`, `Quot.sound`, `propext` |
| `PyEMD.Mem.CEEMDAN.C118_values` | `Classical.choice`, `Quot.sound`, `propext` |
| `PyEMD.Mem.CEEMDAN.C119_arguments_free_partial` | `Classical.choice`, `Quot.sound`, `propext` |
| `PyEMD.Mem.CEEMDAN.C119_counterexample` | `Classical.choice`, `Quot.sound`, `propext` |
| `PyEMD.Mem.CEEMDAN.C120_repeatable` | `Classical.choice`, `Quot.sound`, `propext` |
| `PyEMD.Mem.EEMD.C120_repeatable_eemd` | `Classical.choice`, `Quot.sound`, `propext` |
| `PyEMD.Init.C121_ignored` | `Classical.choice`, `Quot.sound`, `propext` |
| `PyEMD.Init.C121_options` | `Classical.choice`, `Quot.sound`, `propext` |
| `PyEMD.Init.C122_ceemdan_partial` | `Classical.choice`, `Quot.sound`, `propext` |
| `PyEMD.Init.C122_counterexample` | `Classical.choice`, `Quot.sound`, `propext` |
| `PyEMD.Init.C122_eemd` | `Classical.choice`, `Quot.sound`, `propext` |
| `PyEMD.Init.C123_ceemdan` | `Classical.choice`, `Quot.sound`, `propext` |
| `PyEMD.Init.C123_eemd_counterexample` | `Classical.choice`, `Quot.sound`, `propext` |
| `PyEMD.Init.C123_eemd_ignored` | `Classical.choice`, `Quot.sound`, `propext` |
| `PyEMD.Init.C124_ceemdan_counterexample` | `Classical.choice`, `Quot.sound`, `propext` |
| `PyEMD.Init.C124_ceemdan_partial` | `Classical.choice`, `Quot.sound`, `propext` |
| `PyEMD.Init.C124_eemd_counterexample` | `Classical.choice`, `Quot.sound`, `propext` |
| `PyEMD.JitConfig.C125_counterexample` | `Classical.choice`, `Quot.sound`, `propext` |
| `PyEMD.JitConfig.C125_default` | `Classical.choice`, `Quot.sound`, `propext` |
| `PyEMD.JitConfig.C125_own` | `Classical.choice`, `Quot.sound`, `propext` |
| `PyEMD.JitConfig.C125_partial` | `Classical.choice`, `Quot.sound`, `propext` |
| `PyEMD.JitConfig.C125_recipe` | `Classical.choice`, `Quot.sound`, `propext` |
| `PyEMD.Ieee.C126_counterexample` | `Classical.choice`, `Quot.sound`, `propext` |
| `PyEMD.Ieee.C126_emd_raises` | `Classical.choice`, `Quot.sound`, `propext` |
| `PyEMD.Ieee.C126_extrema_partial` | `Classical.choice`, `Quot.sound`, `propext` |
| `PyEMD.Ieee.C126_steps` | `Classical.choice`, `Quot.sound`, `propext` |
| `PyEMD.Ieee.C126_whole_numbers` | `Classical.choice`, `Quot.sound`, `propext` |
| `PyEMD.Ieee.C126_zero_crossings_partial` | `Classical.choice`, `Quot.sound`, `propext` |
| `PyEMD.Ieee.C127_knots` | `Classical.choice`, `Quot.sound`, `propext` |
| `PyEMD.Ieee.C127_timeline` | `Classical.choice`, `Quot.sound`, `propext` |
| `PyEMD.Ieee.C127_too_long` | `Classical.choice`, `Quot.sound`, `propext` |
| `PyEMD.Ieee.C128_kind_partial` | `Classical.choice`, `Quot.sound`, `propext` |
| `PyEMD.Ieee.C128_lost` | `Classical.choice`, `Quot.sound`, `propext` |
| `PyEMD.Ieee.C128_lost_float32` | `Classical.choice`, `Quot.sound`, `propext` |
| `PyEMD.Ieee.C128_turned` | `Classical.choice`, `Quot.sound`, `propext` |
| `PyEMD.Ieee.C128_wrong` | `Classical.choice`, `Quot.sound`, `propext` |
| `PyEMD.CEEMDAN.Extern.C129_ceemdan` | `Classical.choice`, `Quot.sound`, `propext` |
| `PyEMD.EEMD.Extern.C129_counterexample` | `Classical.choice`, `Quot.sound`, `propext` |
| `PyEMD.EEMD.Extern.C129_default` | `Classical.choice`, `Quot.sound`, `propext` |
| `PyEMD.EEMD.Extern.C129_eemd_partial` | `Classical.choice`, `Quot.sound`, `propext` |
| `PyEMD.EEMD.Extern.C129_separate_trends` | `Classical.choice`, `Quot.sound`, `propext` |
| `PyEMD.Jit.C130_counterexample` | `Classical.choice`, `Quot.sound`, `propext` |
| `PyEMD.Jit.C130_equidistant_partial` | `Classical.choice`, `Quot.sound`, `propext` |
| `PyEMD.Jit.C130_no_time` | `Classical.choice`, `Quot.sound`, `propext` |
| `PyEMD.Jit.C130_unit` | `Classical.choice`, `Quot.sound`, `propext` |
| `PyEMD.Matlab.C131_complete_partial` | `Classical.choice`, `Quot.sound`, `propext` |
| `PyEMD.Matlab.C131_counterexample` | `Classical.choice`, `Quot.sound`, `propext` |
| `PyEMD.Matlab.C131_default_counterexample` | `Classical.choice`, `Quot.sound`, `propext` |
| `PyEMD.Matlab.C131_partial` | `Classical.choice`, `Quot.sound`, `propext` |
| `PyEMD.EEMD.C132_counterexample` | `Classical.choice`, `Quot.sound`, `propext` |
| `PyEMD.EEMD.C132_spread_partial` | `Classical.choice`, `Quot.sound`, `propext` |
| `PyEMD.EEMD.C132_trend_partial` | `Classical.choice`, `Quot.sound`, `propext` |
| `PyEMD.C133_ceemdan` | `Classical.choice`, `Quot.sound`, `propext` |
| `PyEMD.C133_emd` | `Classical.choice`, `Quot.sound`, `propext` |
| `PyEMD.EEMD.C133_counterexample` | `Classical.choice`, `Quot.sound`, `propext` |
| `PyEMD.EEMD.C133_eemd_partial` | `Classical.choice`, `Quot.sound`, `propext` |
| `PyEMD.BEMD.C134_bemd_partial` | `Classical.choice`, `Quot.sound`, `propext` |
| `PyEMD.C134_fixe_h` | `Classical.choice`, `Quot.sound`, `propext` |
| `PyEMD.C134_fixe_partial` | `Classical.choice`, `Quot.sound`, `propext` |
| `PyEMD.EMD2D.C134_counterexample` | `Classical.choice`, `Quot.sound`, `propext` |
| `PyEMD.EMD2D.C134_emd2d_partial` | `Classical.choice`, `Quot.sound`, `propext` |
| `PyEMD.Matlab.C134_matlab` | `Classical.choice`, `Quot.sound`, `propext` |
| `PyEMD.EEMD.C135_counterexample` | `Classical.choice`, `Quot.sound`, `propext` |
| `PyEMD.EEMD.C135_partial` | `Classical.choice`, `Quot.sound`, `propext` |
| `PyEMD.EEMD.C135_refused` | `Classical.choice`, `Quot.sound`, `propext` |
| `PyEMD.EEMD.C135_scale` | `Classical.choice`, `Quot.sound`, `propext` |
| `PyEMD.EMD2D.C136_adds_up` | `Classical.choice`, `Quot.sound`, `propext` |
| `PyEMD.EMD2D.C136_brightest` | `Classical.choice`, `Quot.sound`, `propext` |
| `PyEMD.EMD2D.C136_partial` | `Classical.choice`, `Quot.sound`, `propext` |
| `PyEMD.BEMD.C137_bemd` | `Classical.choice`, `Quot.sound`, `propext` |
| `PyEMD.C137_jit` | `Classical.choice`, `Quot.sound`, `propext` |
| `PyEMD.C137_unit` | `Classical.choice`, `Quot.sound`, `propext` |
| `PyEMD.EMD2D.C137_emd2d` | `Classical.choice`, `Quot.sound`, `propext` |
| `PyEMD.Matlab.C137_matlab` | `Classical.choice`, `Quot.sound`, `propext` |
| `PyEMD.Mem.C138_jit_accessor` | `Classical.choice`, `Quot.sound`, `propext` |
| `PyEMD.Mem.C138_jit_untouched` | `Classical.choice`, `Quot.sound`, `propext` |
| `PyEMD.Mem.C138_jit_values` | `Classical.choice`, `Quot.sound`, `propext` |
| `PyEMD.Mem.C138_matlab_own` | `Classical.choice`, `Quot.sound`, `propext` |
| `PyEMD.Mem.C138_matlab_untouched` | `Classical.choice`, `Quot.sound`, `propext` |
| `PyEMD.Mem.C138_matlab_values` | `Classical.choice`, `Quot.sound`, `propext` |
| `PyEMD.Mem.C139_arguments_partial` | `Classical.choice`, `Quot.sound`, `propext` |
| `PyEMD.Mem.C139_copies_partial` | `Classical.choice`, `Quot.sound`, `propext` |
| `PyEMD.Mem.C139_counterexample` | `Classical.choice`, `Quot.sound`, `propext` |
| `PyEMD.Mem.C139_shared` | `Classical.choice`, `Quot.sound`, `propext` |
| `PyEMD.Matlab.C140_equidistant` | `Classical.choice`, `Quot.sound`, `propext` |
| `PyEMD.Matlab.C140_limit_counterexample` | `Classical.choice`, `Quot.sound`, `propext` |
| `PyEMD.Matlab.C140_limit_partial` | `Classical.choice`, `Quot.sound`, `propext` |
| `PyEMD.Matlab.C140_offset_counterexample` | `Classical.choice`, `Quot.sound`, `propext` |
| `PyEMD.Matlab.C140_offset_partial` | `Classical.choice`, `Quot.sound`, `propext` |
| `PyEMD.Matlab.C140_time` | `Classical.choice`, `Quot.sound`, `propext` |
| `PyEMD.Matlab.C140_unit` | `Classical.choice`, `Quot.sound`, `propext` |
| `PyEMD.Matlab.C141_recursion` | `Classical.choice`, `Quot.sound`, `propext` |
| `PyEMD.EEMD.C142_counterexample` | `Classical.choice`, `Quot.sound`, `propext` |
| `PyEMD.EEMD.C142_trend_counterexample` | `Classical.choice`, `Quot.sound`, `propext` |
| `PyEMD.EEMD.C142_truncates_partial` | `Classical.choice`, `Quot.sound`, `propext` |
| `PyEMD.Jit.C143_negation` | `Classical.choice`, `Quot.sound`, `propext` |
| `PyEMD.Jit.C143_no_exception` | `Classical.choice`, `Quot.sound`, `propext` |
| `PyEMD.Jit.C143_recursion` | `Classical.choice`, `Quot.sound`, `propext` |
| `PyEMD.Jit.C143_returns` | `Classical.choice`, `Quot.sound`, `propext` |
| `PyEMD.Matlab.C144_counterexample` | `Classical.choice`, `Quot.sound`, `propext` |
| `PyEMD.Matlab.C144_negation_partial` | `Classical.choice`, `Quot.sound`, `propext` |
| `PyEMD.Checks.C145_count` | `Classical.choice`, `Quot.sound`, `propext` |
| `PyEMD.Checks.C145_half` | `Classical.choice`, `Quot.sound`, `propext` |
| `PyEMD.Checks.C145_peaks` | `Classical.choice`, `Quot.sound`, `propext` |
| `PyEMD.Checks.C145_period` | `Classical.choice`, `Quot.sound`, `propext` |
| `PyEMD.Checks.C145_rescaling` | `Classical.choice`, `Quot.sound`, `propext` |
| `PyEMD.Checks.C145_reversed` | `Classical.choice`, `Quot.sound`, `propext` |
| `PyEMD.Checks.C145_unit` | `Classical.choice`, `Quot.sound`, `propext` |
| `PyEMD.Checks.C146_aposteriori` | `Classical.choice`, `Quot.sound`, `propext` |
| `PyEMD.Checks.C146_apriori` | `Classical.choice`, `Quot.sound`, `propext` |
| `PyEMD.Checks.C146_counterexample` | `Classical.choice`, `Quot.sound`, `propext` |
| `PyEMD.Checks.C146_reversed` | `Classical.choice`, `Quot.sound`, `propext` |
| `PyEMD.BEMD.C147_counterexample` | `Classical.choice`, `Quot.sound`, `propext` |
| `PyEMD.BEMD.C147_low_contrast` | `Classical.choice`, `Quot.sound`, `propext` |
| `PyEMD.BEMD.C147_maxima_partial` | `Classical.choice`, `Quot.sound`, `propext` |
| `PyEMD.BEMD.C147_minima_partial` | `Classical.choice`, `Quot.sound`, `propext` |
| `PyEMD.BEMD.C147_reported` | `Classical.choice`, `Quot.sound`, `propext` |
| `PyEMD.Skimage.C147_reconstruction` | `Classical.choice`, `Quot.sound`, `propext` |
| `PyEMD.BEMD.C148_negation` | `Classical.choice`, `Quot.sound`, `propext` |
| `PyEMD.BEMD.C149_envelopes` | `Classical.choice`, `Quot.sound`, `propext` |
| `PyEMD.BEMD.C149_forever` | `Classical.choice`, `Quot.sound`, `propext` |
| `PyEMD.BEMD.C149_returns_partial` | `Classical.choice`, `Quot.sound`, `propext` |
| `PyEMD.BEMD.C149_zeros` | `Classical.choice`, `Quot.sound`, `propext` |
| `PyEMD.EEMD.C150_floating_point` | `Classical.choice`, `Quot.sound`, `propext` |
| `PyEMD.EEMD.C150_negation` | `Classical.choice`, `Quot.sound`, `propext` |
| `PyEMD.EEMD.C150_same_noise` | `Classical.choice`, `Quot.sound`, `propext` |
| `PyEMD.CEEMDAN.C151_floating_point` | `Classical.choice`, `Quot.sound`, `propext` |
| `PyEMD.CEEMDAN.C151_negation` | `Classical.choice`, `Quot.sound`, `propext` |
| `PyEMD.CEEMDAN.C152_ceemdan_affine` | `Classical.choice`, `Quot.sound`, `propext` |
| `PyEMD.CEEMDAN.C152_ceemdan_simple` | `Classical.choice`, `Quot.sound`, `propext` |
| `PyEMD.CEEMDAN.C152_uneven` | `Classical.choice`, `Quot.sound`, `propext` |
| `PyEMD.EEMD.C152_eemd_affine` | `Classical.choice`, `Quot.sound`, `propext` |
| `PyEMD.EEMD.C152_eemd_simple` | `Classical.choice`, `Quot.sound`, `propext` |
| `PyEMD.EEMD.C153_bound` | `Classical.choice`, `Quot.sound`, `propext` |
| `PyEMD.EEMD.C153_exact_partial` | `Classical.choice`, `Quot.sound`, `propext` |
| `PyEMD.EEMD.C153_three_trials` | `Classical.choice`, `Quot.sound`, `propext` |
| `PyEMD.EEMD.C153_two_trials` | `Classical.choice`, `Quot.sound`, `propext` |
| `PyEMD.BEMD.C154_half_turn_partial` | `Classical.choice`, `Quot.sound`, `propext` |
| `PyEMD.BEMD.C154_mirror_counterexample` | `Classical.choice`, `Quot.sound`, `propext` |
| `PyEMD.BEMD.C154_transpose_partial` | `Classical.choice`, `Quot.sound`, `propext` |
| `PyEMD.BEMD.C155_directions` | `Classical.choice`, `Quot.sound`, `propext` |
| `PyEMD.BEMD.C155_negation` | `Classical.choice`, `Quot.sound`, `propext` |
| `PyEMD.BEMD.C155_touches` | `Classical.choice`, `Quot.sound`, `propext` |
| `PyEMD.BEMD.C155_touches_partial` | `Classical.choice`, `Quot.sound`, `propext` |
| `PyEMD.Scipy.C155_few` | `Classical.choice`, `Quot.sound`, `propext` |
| `PyEMD.Scipy.C155_isotropic` | `Classical.choice`, `Quot.sound`, `propext` |
| `PyEMD.Scipy.C155_odd` | `Classical.choice`, `Quot.sound`, `propext` |
| `PyEMD.Scipy.C155_passes` | `Classical.choice`, `Quot.sound`, `propext` |
| `PyEMD.EEMD.C156_max_imf` | `Classical.choice`, `Quot.sound`, `propext` |
| `PyEMD.EEMD.C156_rows` | `Classical.choice`, `Quot.sound`, `propext` |
| `PyEMD.EEMD.C156_terminates` | `Classical.choice`, `Quot.sound`, `propext` |
| `PyEMD.MemImg.C157_bemd` | `Classical.choice`, `Quot.sound`, `propext` |
| `PyEMD.MemImg.C157_emd2d` | `Classical.choice`, `Quot.sound`, `propext` |
| `PyEMD.MemImg.C157_repeated` | `Classical.choice`, `Quot.sound`, `propext` |
| `PyEMD.EMD.C158_half_precision` | `Classical.choice`, `Quot.sound`, `propext` |
| `PyEMD.EMD.C158_no_exception` | `Classical.choice`, `Quot.sound`, `propext` |
| `PyEMD.EMD.C158_returns` | `Classical.choice`, `Quot.sound`, `propext` |
| `PyEMD.Jit.C159_offset_partial` | `Classical.choice`, `Quot.sound`, `propext` |
| `PyEMD.Jit.C159_reversal_counterexample` | `Classical.choice`, `Quot.sound`, `propext` |
| `PyEMD.Jit.C159_reversal_partial` | `Classical.choice`, `Quot.sound`, `propext` |
| `PyEMD.Jit.C159_scaling_partial` | `Classical.choice`, `Quot.sound`, `propext` |
| `PyEMD.Jit.C159_wave` | `Classical.choice`, `Quot.sound`, `propext` |
| `PyEMD.Ieee.C160_conversion` | `Classical.choice`, `Quot.sound`, `propext` |
| `PyEMD.Ieee.C160_exact` | `Classical.choice`, `Quot.sound`, `propext` |
| `PyEMD.Ieee.MixedCase.C160_not_narrow` | `Classical.choice`, `Quot.sound`, `propext` |
| `PyEMD.Mixed.C160_adds_up` | `Classical.choice`, `Quot.sound`, `propext` |
| `PyEMD.Mixed.C160_components` | `Classical.choice`, `Quot.sound`, `propext` |
| `PyEMD.Mixed.C160_double` | `Classical.choice`, `Quot.sound`, `propext` |
| `PyEMD.Mixed.C160_end` | `Classical.choice`, `Quot.sound`, `propext` |
| `PyEMD.EEMD.C161_counterexample` | `Classical.choice`, `Quot.sound`, `propext` |
| `PyEMD.EEMD.C161_reversal_partial` | `Classical.choice`, `Quot.sound`, `propext` |
| `PyEMD.EEMD.C161_same_noise` | `Classical.choice`, `Quot.sound`, `propext` |
| `PyEMD.EMD2D.C162_counterexample` | `Classical.choice`, `Quot.sound`, `propext` |
| `PyEMD.EMD2D.C162_negation_partial` | `Classical.choice`, `Quot.sound`, `propext` |
| `PyEMD.InitImage.C163_attributes` | `Classical.choice`, `Quot.sound`, `propext` |
| `PyEMD.InitImage.C163_late_fixe` | `Classical.choice`, `Quot.sound`, `propext` |
| `PyEMD.InitImage.C163_late_limit` | `Classical.choice`, `Quot.sound`, `propext` |
| `PyEMD.InitImage.C163_used` | `Classical.choice`, `Quot.sound`, `propext` |
| `PyEMD.CEEMDAN.C164_counterexample` | `Classical.choice`, `Quot.sound`, `propext` |
| `PyEMD.CEEMDAN.C164_reversal_partial` | `Classical.choice`, `Quot.sound`, `propext` |
| `PyEMD.CEEMDAN.C164_same_noise` | `Classical.choice`, `Quot.sound`, `propext` |
| `PyEMD.Matlab.C165_counterexample` | `Classical.choice`, `Quot.sound`, `propext` |
| `PyEMD.Matlab.C165_reversal_partial` | `Classical.choice`, `Quot.sound`, `propext` |
| `PyEMD.Matlab.C166_every_wave` | `Classical.choice`, `Quot.sound`, `propext` |
| `PyEMD.Matlab.C166_small_level` | `Classical.choice`, `Quot.sound`, `propext` |
| `PyEMD.Matlab.C166_wave` | `Classical.choice`, `Quot.sound`, `propext` |
| `PyEMD.Matlab.C166_zigzag` | `Classical.choice`, `Quot.sound`, `propext` |
| `PyEMD.EMD2D.C167_chessboard` | `Classical.choice`, `Quot.sound`, `propext` |
| `PyEMD.EMD2D.C167_forever` | `Classical.choice`, `Quot.sound`, `propext` |
| `PyEMD.EMD2D.C167_limit` | `Classical.choice`, `Quot.sound`, `propext` |
| `PyEMD.EMD2D.C167_pattern_partial` | `Classical.choice`, `Quot.sound`, `propext` |
| `PyEMD.EMD2D.C168_image` | `Classical.choice`, `Quot.sound`, `propext` |
| `PyEMD.EMD2D.C168_ramp` | `Classical.choice`, `Quot.sound`, `propext` |
| `PyEMD.Matlab.C168_signal` | `Classical.choice`, `Quot.sound`, `propext` |
| `PyEMD.Matlab.C168_trend_again` | `Classical.choice`, `Quot.sound`, `propext` |
| `PyEMD.EMD.C169_emd` | `Classical.choice`, `Quot.sound`, `propext` |
| `PyEMD.Jit.C169_jit` | `Classical.choice`, `Quot.sound`, `propext` |
