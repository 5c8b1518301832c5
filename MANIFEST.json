{
 "claims": [
  {
   "property": "C01",
   "status": "proved",
   "theorems": [
    "CM.HS.C01_disp_linear",
    "CM.HS.C01_force_linear"
   ],
   "note": ""
  },
  {
   "property": "C02",
   "status": "proved",
   "theorems": [
    "CM.HS.C02_force_disp_inverse",
    "CM.HS.C02_disp_force_inverse",
    "CM.HS.C02_inverse_up_to_mean"
   ],
   "note": ""
  },
  {
   "property": "C03",
   "status": "proved",
   "theorems": [
    "CM.HS.C03_disp_reciprocal",
    "CM.HS.C03_force_reciprocal"
   ],
   "note": ""
  },
  {
   "property": "C04",
   "status": "proved",
   "theorems": [
    "CM.HS.C04_energy_nonneg",
    "CM.HS.C04_energy_eq_zero_iff",
    "CM.HS.C04_energy_eq_zero_iff_uniform"
   ],
   "note": ""
  },
  {
   "property": "C05",
   "status": "proved",
   "theorems": [
    "CM.HS.C05_energy_real_eq_fourier"
   ],
   "note": ""
  },
  {
   "property": "C06",
   "status": "proved",
   "theorems": [
    "CM.HS.C06_scalarProduct_fft"
   ],
   "note": ""
  },
  {
   "property": "C07",
   "status": "proved",
   "theorems": [
    "CM.HS.C07_disp_translation",
    "CM.HS.C07_force_translation"
   ],
   "note": ""
  },
  {
   "property": "C08",
   "status": "proved",
   "theorems": [
    "CM.HS.C08_gamma_response"
   ],
   "note": ""
  },
  {
   "property": "C09",
   "status": "proved",
   "theorems": [
    "CM.HS.C09_planeWave_response"
   ],
   "note": ""
  },
  {
   "property": "C10",
   "status": "proved",
   "theorems": [
    "CM.HS.C10_layer_stiffer",
    "CM.HS.C10_layer_energy"
   ],
   "note": ""
  },
  {
   "property": "C11",
   "status": "proved",
   "theorems": [
    "CM.HS.C11_thick_layer_limit"
   ],
   "note": ""
  },
  {
   "property": "C12",
   "status": "proved",
   "theorems": [
    "CM.HS.C12_layer_gamma_limit"
   ],
   "note": ""
  },
  {
   "property": "C13",
   "status": "proved",
   "theorems": [
    "CM.HS.C13_construct_ok_iff",
    "CM.HS.C13_construct_error_iff",
    "CM.HS.C13_construct_zeroDivision_iff",
    "CM.HS.C13_construct_sizes"
   ],
   "note": "ZeroDivisionError also for Poisson number +-1."
  },
  {
   "property": "C14",
   "status": "proved",
   "theorems": [
    "CM.HS.C14_unit_neutral"
   ],
   "note": ""
  },
  {
   "property": "C15",
   "status": "proved",
   "theorems": [
    "CM.HS.C15_energy_gradient",
    "CM.HS.C15_energy_convex"
   ],
   "note": ""
  },
  {
   "property": "C16",
   "status": "proved",
   "theorems": [
    "CM.HS.C16_shape_mismatch_iff"
   ],
   "note": ""
  },
  {
   "property": "C17",
   "status": "partial",
   "theorems": [
    "CM.HS.C17_q0_zero_2d_partial",
    "CM.HS.C17_q0_zero_fails_1d"
   ],
   "note": "REFUTED in one dimension (IndexError in the constructor, proved for all inputs); proved in two."
  },
  {
   "property": "C18",
   "status": "partial",
   "theorems": [
    "CM.HS.C18_linear_1d",
    "CM.HS.C18_inverse_1d",
    "CM.HS.C18_reciprocal_1d",
    "CM.HS.C18_wave_1d",
    "CM.HS.C18_thickness_ignored_1d"
   ],
   "note": "All parts proved except the last, which is REFUTED: thickness is ignored in 1D."
  },
  {
   "property": "C19",
   "status": "proved",
   "theorems": [
    "CM.HS.C19_free_direct_sum"
   ],
   "note": "The specification sums Boussinesq's integral, not Love's closed form; see C105."
  },
  {
   "property": "C20",
   "status": "proved",
   "theorems": [
    "CM.HS.C20_padding_equivalent"
   ],
   "note": ""
  },
  {
   "property": "C21",
   "status": "proved",
   "theorems": [
    "CM.HS.C21_mirror_symmetry",
    "CM.HS.C21_free_reciprocal"
   ],
   "note": ""
  },
  {
   "property": "C22",
   "status": "proved",
   "theorems": [
    "CM.HS.C22_monotone"
   ],
   "note": ""
  },
  {
   "property": "C23",
   "status": "partial",
   "theorems": [
    "CM.HS.C23_check_boundaries_partial",
    "CM.HS.C23_serial",
    "CM.HS.C23_missed_last_row"
   ],
   "note": "Exact for serial runs and for every decomposition in which no block starts at the last row/column; REFUTED otherwise (C23_missed_last_row: for every grid there is a two-process run that hides a force on the last row)."
  },
  {
   "property": "C24",
   "status": "proved",
   "theorems": [
    "CM.HS.C24_topography_tiles"
   ],
   "note": ""
  },
  {
   "property": "C25",
   "status": "proved",
   "theorems": [
    "CM.HS.C25_spawn_child"
   ],
   "note": ""
  },
  {
   "property": "C26",
   "status": "proved",
   "theorems": [
    "CM.HS.C26_accepted_shapes",
    "CM.HS.C26_dead_branch"
   ],
   "note": "Accepted shapes proved for serial runs; the dead branch for all decompositions."
  },
  {
   "property": "C27",
   "status": "proved",
   "theorems": [
    "CM.HS.C27_free_generalised_inverse",
    "CM.HS.C27_periodic_generalised_inverse"
   ],
   "note": ""
  },
  {
   "property": "C28",
   "status": "proved",
   "theorems": [
    "CM.HS.C28_equals_free"
   ],
   "note": ""
  },
  {
   "property": "C29",
   "status": "proved",
   "theorems": [
    "CM.HS.C29_direct_sum",
    "CM.HS.C29_translation_x",
    "CM.HS.C29_translation_y"
   ],
   "note": ""
  },
  {
   "property": "C30",
   "status": "proved",
   "theorems": [
    "CM.HS.C30_spatial_order",
    "CM.HS.C30_slices",
    "CM.HS.C30_unit_response"
   ],
   "note": ""
  },
  {
   "property": "C31",
   "status": "proved",
   "theorems": [
    "CM.HS.C31_zero_padding",
    "CM.HS.C31_too_large",
    "CM.HS.C31_few_axes",
    "CM.HS.C31_generalised_inverse",
    "CM.HS.C31_reciprocal"
   ],
   "note": "One process."
  },
  {
   "property": "C32",
   "status": "proved",
   "theorems": [
    "CM.CCG.C32_no_force_off_topography"
   ],
   "note": "Hypothesis: hardness nonnegative."
  },
  {
   "property": "C33",
   "status": "proved",
   "theorems": [
    "CM.CCG.C33_displacements_are_response"
   ],
   "note": ""
  },
  {
   "property": "C34",
   "status": "proved",
   "theorems": [
    "CM.CCG.C34_load_met",
    "CM.CCG.C34_load_exact"
   ],
   "note": "Exact part: no hardness, topography without undefined points."
  },
  {
   "property": "C35",
   "status": "partial",
   "theorems": [
    "CM.CCG.C35_no_penetration_partial",
    "CM.CCG.C35_fails_zero_initial_forces"
   ],
   "note": "False of the code: zero initial forces give success at once whatever the penetration (general theorem). Proved when the last iteration added no contact points."
  },
  {
   "property": "C36",
   "status": "partial",
   "theorems": [
    "CM.CCG.C36_complementarity_partial",
    "CM.CCG.C36_complementarity_real_partial",
    "CM.CCG.C36_fails_loaded_gap"
   ],
   "note": "False of the code (false convergence when the search direction cancels after clipping, kernel-checked run). Proved when the last step length is nonzero."
  },
  {
   "property": "C37",
   "status": "partial",
   "theorems": [
    "CM.CCG.C37_never_tensile_partial",
    "CM.CCG.C37_first_iteration_partial",
    "CM.CCG.C37_fails_tensile"
   ],
   "note": "False of the code: negative step length yields tensile forces (kernel-checked run). Proved if no points were added in the last iteration or its step length is >= 0."
  },
  {
   "property": "C38",
   "status": "partial",
   "theorems": [
    "CM.CCG.C38_bounded_by_hardness_partial",
    "CM.CCG.C38_fails_load_control",
    "CM.CCG.C38_fails_added_points"
   ],
   "note": "False of the code under load control and for points added in the last iteration."
  },
  {
   "property": "C39",
   "status": "proved",
   "theorems": [
    "CM.CCG.C39_iteration_accounting",
    "CM.CCG.C39_success_only_by_convergence_test"
   ],
   "note": ""
  },
  {
   "property": "C40",
   "status": "partial",
   "theorems": [
    "CM.CCG.C40_maxiter_zero_fails"
   ],
   "note": "REFUTED: the property is false of the code; its negation is proved for all inputs."
  },
  {
   "property": "C41",
   "status": "proved",
   "theorems": [
    "CM.CCG.C41_offset_kept",
    "CM.CCG.C41_offset_ignored_under_load"
   ],
   "note": ""
  },
  {
   "property": "C42",
   "status": "proved",
   "theorems": [
    "CM.CCG.C42_separated_surfaces"
   ],
   "note": ""
  },
  {
   "property": "C43",
   "status": "proved",
   "theorems": [
    "CM.CCG.C43_zero_load_only_first_iteration"
   ],
   "note": ""
  },
  {
   "property": "C44",
   "status": "proved",
   "theorems": [
    "CM.CCG.C44_exact_line_search",
    "CM.CCG.C44_energy_never_increases"
   ],
   "note": "The displacements the iteration starts from are those of the forces it starts from (as on the first pass of the loop)."
  },
  {
   "property": "C45",
   "status": "proved",
   "theorems": [
    "CM.CCG.C45_dual_optimal",
    "CM.CCG.C45_primal_optimal"
   ],
   "note": ""
  },
  {
   "property": "C46",
   "status": "partial",
   "theorems": [
    "CM.CCG.C46_array_hardness_fails",
    "CM.CCG.C46_scalar_hardness_partial"
   ],
   "note": "REFUTED: the property is false of the code; negation proved for all arrays with more than one entry."
  },
  {
   "property": "C47",
   "status": "partial",
   "theorems": [
    "CM.CCG.C47_default_pentol_partial",
    "CM.CCG.C47_flat_no_offset_fails",
    "CM.CCG.C47_flat_negative_offset_fails"
   ],
   "note": "False of the code for flat topographies; proved for positive rms height."
  },
  {
   "property": "C48",
   "status": "proved",
   "theorems": [
    "CM.System.C48_gap",
    "CM.System.C48_lower_bounds",
    "CM.System.C48_applies"
   ],
   "note": ""
  },
  {
   "property": "C49",
   "status": "proved",
   "theorems": [
    "CM.System.C49_primal_value",
    "CM.System.C49_primal_expansion"
   ],
   "note": "Two-dimensional periodic substrates."
  },
  {
   "property": "C50",
   "status": "proved",
   "theorems": [
    "CM.System.C50_dual_value",
    "CM.System.C50_dual_expansion"
   ],
   "note": "Two-dimensional periodic and free substrates."
  },
  {
   "property": "C51",
   "status": "proved",
   "theorems": [
    "CM.System.C51_strong_duality"
   ],
   "note": "Two-dimensional periodic substrates with positive Gamma stiffness."
  },
  {
   "property": "C52",
   "status": "partial",
   "theorems": [
    "CM.System.C52_minimize_proxy_clears",
    "CM.System.C52_history_partial",
    "CM.System.C52_dual_clears",
    "CM.System.C52_primal_clears_partial",
    "CM.System.C52_primal_leaves_trial_force",
    "CM.System.C52_dual_trial_normal_force",
    "CM.System.C52_proxy_defaults"
   ],
   "note": "Holds for minimize_proxy over all histories. REFUTED for primal_minimize_proxy (system.force keeps the force of the last trial) and for the normal force after a failed primal or dual minimisation."
  },
  {
   "property": "C53",
   "status": "proved",
   "theorems": [
    "CM.System.C53_contact_area"
   ],
   "note": ""
  },
  {
   "property": "C54",
   "status": "partial",
   "theorems": [
    "CM.System.C54_opposite_signs",
    "CM.System.C54_signs_differ"
   ],
   "note": "REFUTED: the two normal forces are opposite, and non-zero states exist on every periodic substrate with Gamma stiffness."
  },
  {
   "property": "C55",
   "status": "proved",
   "theorems": [
    "CM.System.C55_reshape_lossless"
   ],
   "note": ""
  },
  {
   "property": "C56",
   "status": "partial",
   "theorems": [
    "CM.System.C56_incompatible_resolution_iff",
    "CM.System.C56_compare_containers_partial",
    "CM.System.C56_compare_numbers",
    "CM.System.C56_vectors_raise"
   ],
   "note": "Construction fully proved. compare_containers: proved for tuples, lists, numbers; REFUTED for NumPy vectors of two or more entries (ValueError even when equal)."
  },
  {
   "property": "C57",
   "status": "proved",
   "theorems": [
    "CM.System.C57_evaluate_stores",
    "CM.System.C57_history_independent"
   ],
   "note": ""
  },
  {
   "property": "C58",
   "status": "proved",
   "theorems": [
    "CM.System.C58_plastic_update",
    "CM.System.C58_plastic_returns",
    "CM.System.C58_plastic_history",
    "CM.System.C58_plastic_lowers"
   ],
   "note": ""
  },
  {
   "property": "C59",
   "status": "proved",
   "theorems": [
    "CM.Pipe.C59_argument_validation"
   ],
   "note": ""
  },
  {
   "property": "C60",
   "status": "proved",
   "theorems": [
    "CM.Pipe.C60_offsets",
    "CM.Pipe.C60_pressures",
    "CM.Pipe.C60_returns",
    "CM.Pipe.C60_exception",
    "CM.Pipe.C60_offsets_unchanged",
    "CM.Pipe.C60_offsets_kept"
   ],
   "note": ""
  },
  {
   "property": "C61",
   "status": "proved",
   "theorems": [
    "CM.Pipe.C61_order_independent",
    "CM.Pipe.C62_automatic_offsets"
   ],
   "note": "Second half (undeformed surface in automatic mode): the fresh flag in C62_automatic_offsets."
  },
  {
   "property": "C62",
   "status": "proved",
   "theorems": [
    "CM.Pipe.C62_automatic_offsets"
   ],
   "note": ""
  },
  {
   "property": "C63",
   "status": "partial",
   "theorems": [
    "CM.Pipe.C63_no_steps_raise"
   ],
   "note": "REFUTED: TypeError for every topography and solver."
  },
  {
   "property": "C64",
   "status": "proved",
   "theorems": [
    "CM.Pipe.C64_fields",
    "CM.Pipe.C64_load_control"
   ],
   "note": "contact_mechanics with its own solver (Model/EndToEnd)."
  },
  {
   "property": "C65",
   "status": "proved",
   "theorems": [
    "CM.Cli.C65_history_sorted",
    "CM.Cli.C65_exception",
    "CM.Cli.C65_automatic_run"
   ],
   "note": ""
  },
  {
   "property": "C66",
   "status": "partial",
   "theorems": [
    "CM.Cli.C66_displacement_mode_fails",
    "CM.Cli.C66_type_error"
   ],
   "note": "REFUTED: displacement mode raises for every argument, topography and solver."
  },
  {
   "property": "C67",
   "status": "partial",
   "theorems": [
    "CM.Cli.C67_only_first_map_has_data",
    "CM.Cli.C67_single_map_partial"
   ],
   "note": "REFUTED for two or more maps (one-shot iterator); proved when at most one map is requested."
  },
  {
   "property": "C68",
   "status": "proved",
   "theorems": [
    "CM.Log.C68_printed",
    "CM.Log.C68_printed_template",
    "CM.Log.C68_reset",
    "CM.Log.C68_constructor"
   ],
   "note": ""
  },
  {
   "property": "C69",
   "status": "partial",
   "theorems": [
    "CM.Log.C69_late_file_partial",
    "CM.Log.C69_late_name_partial",
    "CM.Log.C69_buffer_printed_partial",
    "CM.Log.C69_none_discards_partial",
    "CM.Log.C69_warning_twice_partial"
   ],
   "note": "Late attachment of a file or name keeps everything. REFUTED: set_logfile(None) discards the buffer, and a buffered warning is printed twice on stdout."
  },
  {
   "property": "C70",
   "status": "proved",
   "theorems": [
    "CM.Log.C70_backup",
    "CM.Log.C70_new_name",
    "CM.Log.C70_history",
    "CM.Log.C70_plain_overwrites",
    "CM.Log.C70_numbering",
    "CM.Log.C70_next_file"
   ],
   "note": ""
  },
  {
   "property": "C71",
   "status": "partial",
   "theorems": [
    "CM.Log.C71_grows_partial",
    "CM.Log.C71_no_bound_partial"
   ],
   "note": "REFUTED: a quiet logger grows without bound."
  },
  {
   "property": "C72",
   "status": "partial",
   "theorems": [
    "CM.Log.C72_read_back_partial",
    "CM.Log.C72_blank_partial",
    "CM.Log.C72_solver_log_partial",
    "CM.MapFile.C72_command_line_partial",
    "CM.Log.C72_message_partial"
   ],
   "note": "Proved for column names without blanks; REFUTED for names with blanks, for the headers of the solver and of the command line and for files that begin with a message."
  },
  {
   "property": "C73",
   "status": "partial",
   "theorems": [
    "CM.Log.C73_columns_partial",
    "CM.Log.C73_labels_partial",
    "CM.Log.C73_nested_partial",
    "CM.Log.C73_empty_partial"
   ],
   "note": "Proved for flat vectors and mappings; REFUTED for nested or empty vectors."
  },
  {
   "property": "C74",
   "status": "partial",
   "theorems": [
    "CM.NetCDF.C74_last_write",
    "CM.NetCDF.C74_first_kind",
    "CM.NetCDF.C74_kind_fixed",
    "CM.NetCDF.C74_dims_fixed",
    "CM.NetCDF.C74_attribute",
    "CM.NetCDF.C74_shadowed_partial",
    "CM.NetCDF.C74_private_partial"
   ],
   "note": "Proved for frame[name] with every plain name. REFUTED for attribute access to names the class itself uses (index, traj, ...) and for names with a leading underscore."
  },
  {
   "property": "C75",
   "status": "partial",
   "theorems": [
    "CM.NetCDF.C75_real_partial",
    "CM.NetCDF.C75_truncated_partial"
   ],
   "note": "REFUTED: after an integer, every real number is truncated without an exception; proved when the variable was created by a real."
  },
  {
   "property": "C76",
   "status": "proved",
   "theorems": [
    "CM.NetCDF.C76_next",
    "CM.NetCDF.C76_consecutive",
    "CM.NetCDF.C76_negative",
    "CM.NetCDF.C76_before_first",
    "CM.NetCDF.C76_slice_forward",
    "CM.NetCDF.C76_slice_backward",
    "CM.NetCDF.C76_iterate",
    "CM.NetCDF.C76_len"
   ],
   "note": "Backward slices: for start and stop inside the file."
  },
  {
   "property": "C77",
   "status": "partial",
   "theorems": [
    "CM.NetCDF.C77_first",
    "CM.NetCDF.C77_fixed",
    "CM.NetCDF.C77_again",
    "CM.NetCDF.C77_one_entry_partial"
   ],
   "note": "Proved for shapes with two entries. REFUTED: a one-entry shape (n,) is accepted by an n x n grid."
  },
  {
   "property": "C78",
   "status": "proved",
   "theorems": [
    "CM.NetCDF.C78_selector",
    "CM.NetCDF.C78_keyword",
    "CM.NetCDF.C78_leading_at",
    "CM.NetCDF.C78_not_a_number",
    "CM.NetCDF.C78_complete"
   ],
   "note": ""
  },
  {
   "property": "C79",
   "status": "partial",
   "theorems": [
    "CM.Greens.C79_hermitian_positive",
    "CM.Greens.C79_inverse_partial",
    "CM.Greens.C79_cutoff_partial"
   ],
   "note": "Hermitian and positive definite: proved. Inverse: proved outside the absolute cut-off 1e-6; REFUTED below it."
  },
  {
   "property": "C80",
   "status": "proved",
   "theorems": [
    "CM.Greens.C80_normal",
    "CM.Greens.C80_periodic"
   ],
   "note": ""
  },
  {
   "property": "C81",
   "status": "partial",
   "theorems": [
    "CM.Greens.C81_greens",
    "CM.Greens.C81_stiffness_partial",
    "CM.Greens.C81_cutoff_partial"
   ],
   "note": "Green's function: proved. Stiffness: REFUTED, vanishes below the absolute cut-off."
  },
  {
   "property": "C82",
   "status": "proved",
   "theorems": [
    "CM.Greens.C82_symmetries",
    "CM.Greens.C82_round_trip",
    "CM.Greens.C82_rotated",
    "CM.Greens.C82_isotropic",
    "CM.Greens.C82_cube"
   ],
   "note": "For float constants (see C125)."
  },
  {
   "property": "C83",
   "status": "partial",
   "theorems": [
    "CM.Greens.C83_even_partial",
    "CM.Greens.C83_eigenvalues_partial",
    "CM.Greens.C83_about_normal_partial",
    "CM.Greens.C83_orientations_partial",
    "CM.Greens.C83_turned_partial"
   ],
   "note": "Proved if the surface is a mirror plane of the material, which for anisotropic cubic crystals is exactly the case if its normal is a cube axis or a face diagonal (C83_orientations_partial). REFUTED for other rotations."
  },
  {
   "property": "C84",
   "status": "partial",
   "theorems": [
    "CM.Greens.C84_determinant_partial",
    "CM.Greens.C84_stretch_partial"
   ],
   "note": "Improper rotations are refused. REFUTED: only the determinant is inspected."
  },
  {
   "property": "C85",
   "status": "partial",
   "theorems": [
    "CM.Greens.C85_scalar_partial"
   ],
   "note": "REFUTED: TypeError for all numbers."
  },
  {
   "property": "C86",
   "status": "proved",
   "theorems": [
    "CM.Ref.Hertz.C86_inverse",
    "CM.Ref.Hertz.C86_radius_pressure"
   ],
   "note": ""
  },
  {
   "property": "C87",
   "status": "proved",
   "theorems": [
    "CM.Ref.Hertz.C87_derivative",
    "CM.Ref.Hertz.C87_work",
    "CM.Ref.Hertz.C87_two_fifths"
   ],
   "note": ""
  },
  {
   "property": "C88",
   "status": "partial",
   "theorems": [
    "CM.Ref.Hertz.C88_displacement_continuous",
    "CM.Ref.Hertz.C88_stress_continuous",
    "CM.Ref.Hertz.C88_cutoff_jump_partial",
    "CM.Ref.Hertz.C88_load"
   ],
   "note": "Continuity at the contact edge (and for every r > 1e-6), zero pressure outside: proved; the pressure integrates to the load up to a relative error of 1e-24. REFUTED at the cut-off r = 1e-6, where the pressure jumps."
  },
  {
   "property": "C89",
   "status": "proved",
   "theorems": [
    "CM.Ref.Hertz.C89_cylindrical",
    "CM.Ref.Hertz.C89_axis",
    "CM.Ref.Hertz.C89_surface"
   ],
   "note": "Off the contact edge, where the formulas divide by zero."
  },
  {
   "property": "C90",
   "status": "partial",
   "theorems": [
    "CM.Ref.Westergaard.C90_inverse",
    "CM.Ref.Westergaard.C90_energy",
    "CM.Ref.Westergaard.C90_zero_partial"
   ],
   "note": "Inverse: proved on the whole range. Energy: proved for 0 < a; at a = 0 both energies and the mean displacement are nan (0 times log 0)."
  },
  {
   "property": "C91",
   "status": "proved",
   "theorems": [
    "CM.Ref.Westergaard.C91_symmetry",
    "CM.Ref.Westergaard.C91_contact",
    "CM.Ref.Westergaard.C91_pressure"
   ],
   "note": ""
  },
  {
   "property": "C92",
   "status": "proved",
   "theorems": [
    "CM.Ref.Westergaard.C92_work"
   ],
   "note": "In the units of the file the displacement of the surface is twice the returned number (modulus E*=2 per unit wavelength / pi), so dE = - p d(2 mean_displacement)."
  },
  {
   "property": "C93",
   "status": "partial",
   "theorems": [
    "CM.Ref.Westergaard.C93_normalisation_partial"
   ],
   "note": "REFUTED for every p in (0,1]: the argument mean_pressure of _pressure is in other units by a factor pi."
  },
  {
   "property": "C94",
   "status": "partial",
   "theorems": [
    "CM.Ref.Cone.C94_area_partial"
   ],
   "note": "REFUTED: the area returned is pi R/D, not pi (R/D)^2; they agree for one angle only."
  },
  {
   "property": "C95",
   "status": "partial",
   "theorems": [
    "CM.Ref.Cone.C95_pressure",
    "CM.Ref.Cone.C95_sampling_partial",
    "CM.Ref.Cone.C95_outside_partial",
    "CM.Ref.Cone.C95_deformation"
   ],
   "note": "Pressure and the analytic deformation: proved. REFUTED for the returned deformation: inside the contact it depends on the largest sampled radius, and it raises if no sample is inside."
  },
  {
   "property": "C96",
   "status": "partial",
   "theorems": [
    "CM.Tools.C96_quadratic",
    "CM.Tools.C96_limit",
    "CM.Tools.C96_integers_partial",
    "CM.Tools.C96_integers_zero_partial"
   ],
   "note": "Proved for arrays of floats (and convergence to the derivative for all functions). REFUTED for integer points: both the steps and the gradient are truncated."
  },
  {
   "property": "C97",
   "status": "proved",
   "theorems": [
    "CM.Tools.C97_inverse",
    "CM.Tools.C97_inverse'",
    "CM.Tools.C97_mean",
    "CM.Tools.C97_empty"
   ],
   "note": "Arrays without empty axes, any number of dimensions."
  },
  {
   "property": "C98",
   "status": "proved",
   "theorems": [
    "CM.Tools.C98_value",
    "CM.Tools.C98_metric",
    "CM.Tools.C98_rfft"
   ],
   "note": ""
  },
  {
   "property": "C99",
   "status": "proved",
   "theorems": [
    "CM.Tools.C99_q_from_lambda",
    "CM.Tools.C99_antitone",
    "CM.Tools.C99_wavevectors",
    "CM.Tools.C99_wavevectors_1d",
    "CM.Tools.C99_sequence_1d"
   ],
   "note": "lambda_max = 0 raises ZeroDivisionError."
  },
  {
   "property": "C100",
   "status": "proved",
   "theorems": [
    "CM.Factory.C100_chooses",
    "CM.Factory.C100_reader",
    "CM.Factory.C100_reader_refused",
    "CM.Factory.C100_missing_sizes",
    "CM.Factory.C100_object",
    "CM.Factory.C100_refused",
    "CM.Factory.C100_keywords",
    "CM.Factory.C100_kind_not_enforced"
   ],
   "note": ""
  },
  {
   "property": "C101",
   "status": "partial",
   "theorems": [
    "CM.Factory.C101_not_compared_partial",
    "CM.Factory.C101_argument_wins_partial"
   ],
   "note": "REFUTED: sizes are never compared."
  },
  {
   "property": "C102",
   "status": "partial",
   "theorems": [
    "CM.HS.C102_block_equals_serial_partial",
    "CM.HS.C102_thin_first_block_fails",
    "CM.HS.C102_1d_block_fails"
   ],
   "note": "Proved in 2D for every block that computes at all; REFUTED when the first block has one row/column and default Gamma stiffness (IndexError), and for decomposed 1D grids."
  },
  {
   "property": "C103",
   "status": "partial",
   "theorems": [
    "CM.HS.C103_forces_checked_partial",
    "CM.HS.C103_evaluate_broadcasts"
   ],
   "note": "REFUTED for pot=True, forces=False, which broadcasts silently."
  },
  {
   "property": "C104",
   "status": "proved",
   "theorems": [
    "CM.HS.C104_periodic_elasticResponse",
    "CM.Pipe.C104_every_substrate_elastic"
   ],
   "note": ""
  },
  {
   "property": "C105",
   "status": "proved",
   "theorems": [
    "CM.HS.C105_love_is_integral"
   ],
   "note": ""
  },
  {
   "property": "C106",
   "status": "proved",
   "theorems": [
    "CM.HS.C106_free_1d_fails"
   ],
   "note": ""
  },
  {
   "property": "C107",
   "status": "partial",
   "theorems": [
    "CM.HS.C107_boundary_mask_partial",
    "CM.HS.C107_boundary_mask_sound"
   ],
   "note": "REFUTED when a block starts at the last row/column of the topography."
  },
  {
   "property": "C108",
   "status": "proved",
   "theorems": [
    "CM.CCG.C108_restart_from_displacements",
    "CM.CCG.C108_restart_from_forces_load"
   ],
   "note": ""
  },
  {
   "property": "C109",
   "status": "proved",
   "theorems": [
    "CM.CCG.C109_finite_termination"
   ],
   "note": ""
  },
  {
   "property": "C110",
   "status": "proved",
   "theorems": [
    "CM.CCG.C110_rigid_shift"
   ],
   "note": ""
  },
  {
   "property": "C111",
   "status": "proved",
   "theorems": [
    "CM.System.C111_primal_to_dual",
    "CM.System.C111_dual_to_primal",
    "CM.System.C111_primal_global",
    "CM.System.C111_dual_global",
    "CM.System.C111_dual_global_any"
   ],
   "note": "Two-dimensional periodic substrates with positive Gamma stiffness; the dual minimum also for nonperiodic ones."
  },
  {
   "property": "C112",
   "status": "proved",
   "theorems": [
    "CM.System.C112_primal_proxy_consistent",
    "CM.System.C112_dual_proxy_consistent"
   ],
   "note": ""
  },
  {
   "property": "C113",
   "status": "proved",
   "theorems": [
    "CM.Cli.C113_same_as_pipeline"
   ],
   "note": ""
  },
  {
   "property": "C114",
   "status": "proved",
   "theorems": [
    "CM.Cli.C114_pressure_run",
    "CM.Cli.C114_pressure_exception",
    "CM.Cli.C114_range_ends",
    "CM.Cli.C114_file_names_differ"
   ],
   "note": ""
  },
  {
   "property": "C115",
   "status": "proved",
   "theorems": [
    "CM.Cli.C115_log_line"
   ],
   "note": ""
  },
  {
   "property": "C116",
   "status": "proved",
   "theorems": [
    "CM.Cli.C116_refused",
    "CM.Cli.C116_accepted"
   ],
   "note": ""
  },
  {
   "property": "C117",
   "status": "proved",
   "theorems": [
    "CM.NetCDF.C117_grid"
   ],
   "note": "Variables that already exist on the full grid; first calls create them."
  },
  {
   "property": "C118",
   "status": "proved",
   "theorems": [
    "CM.NetCDF.C118_rigid_surface"
   ],
   "note": ""
  },
  {
   "property": "C119",
   "status": "partial",
   "theorems": [
    "CM.NetCDF.C119_reopen",
    "CM.NetCDF.C119_ndof_partial"
   ],
   "note": "Frames and values: proved. REFUTED for the shape when there are several degrees of freedom."
  },
  {
   "property": "C120",
   "status": "proved",
   "theorems": [
    "CM.Greens.C120_conjugate",
    "CM.Greens.C120_conjugate_stiffness"
   ],
   "note": ""
  },
  {
   "property": "C121",
   "status": "proved",
   "theorems": [
    "CM.Greens.C121_turn"
   ],
   "note": ""
  },
  {
   "property": "C122",
   "status": "partial",
   "theorems": [
    "CM.Greens.C122_vectors",
    "CM.Greens.C122_stiffness",
    "CM.Greens.C122_mixed",
    "CM.Greens.C122_dropped_partial"
   ],
   "note": "REFUTED for different lengths: surplus wavevectors are dropped."
  },
  {
   "property": "C123",
   "status": "proved",
   "theorems": [
    "CM.Greens.C123_response",
    "CM.Greens.C123_conjugate",
    "CM.Greens.C123_unique",
    "CM.Greens.C123_periodic"
   ],
   "note": ""
  },
  {
   "property": "C124",
   "status": "proved",
   "theorems": [
    "CM.Greens.C124_elliptic",
    "CM.Greens.C124_decay",
    "CM.Greens.C124_decay_partial"
   ],
   "note": "All orientations; C124_decay_partial is the earlier proof for mirror planes. Where the surface is no mirror plane the returned values are not solutions (C83), but their real parts are still positive."
  },
  {
   "property": "C125",
   "status": "partial",
   "theorems": [
    "CM.Greens.C125_unrotated",
    "CM.Greens.C125_truncated_partial"
   ],
   "note": "REFUTED for integer constants that are rotated."
  },
  {
   "property": "C126",
   "status": "partial",
   "theorems": [
    "CM.Greens.C126_response",
    "CM.Greens.C126_response_stable",
    "CM.Greens.C126_response_cubic_partial",
    "CM.Greens.C126_layer_partial",
    "CM.Greens.C126_unique",
    "CM.Greens.C126_unique_layer",
    "CM.Greens.C126_vectors",
    "CM.Greens.C126_vectors_partial",
    "CM.Greens.C126_deep_partial"
   ],
   "note": "Half-space: whatever is returned for a stable crystal in any orientation is the response (C126_response_stable, C126_vectors); in which orientations a result is returned is C137. Layer: proved unless deep (thickness x Re Q > 100 for some eigenvalue), where the code uses the half-space instead. REFUTED for deep layers (C126_deep_partial): for every thickness there are stable crystals whose returned normal compliance exceeds the true one by any factor, because the largest instead of the smallest decay rate is tested."
  },
  {
   "property": "C127",
   "status": "proved",
   "theorems": [
    "CM.Greens.C127_inverse",
    "CM.Greens.C127_inverse_layer",
    "CM.Greens.C127_gamma",
    "CM.Greens.C127_zero"
   ],
   "note": ""
  },
  {
   "property": "C128",
   "status": "proved",
   "theorems": [
    "CM.Greens.C128_homogeneous"
   ],
   "note": ""
  },
  {
   "property": "C129",
   "status": "proved",
   "theorems": [
    "CM.Ref.Hertz.C129_contact",
    "CM.Ref.Hertz.C129_far_field"
   ],
   "note": ""
  },
  {
   "property": "C130",
   "status": "proved",
   "theorems": [
    "CM.Ref.Hertz.C130_elastic",
    "CM.Ref.Hertz.C130_continuous"
   ],
   "note": ""
  },
  {
   "property": "C131",
   "status": "proved",
   "theorems": [
    "CM.Ref.Hertz.C131_elastic",
    "CM.Ref.Hertz.C131_continuous",
    "CM.Ref.Hertz.C131_surface"
   ],
   "note": ""
  },
  {
   "property": "C132",
   "status": "proved",
   "theorems": [
    "CM.Ref.Westergaard.C132_unit_mean"
   ],
   "note": ""
  },
  {
   "property": "C133",
   "status": "proved",
   "theorems": [
    "CM.Ref.Westergaard.C133_mean"
   ],
   "note": ""
  },
  {
   "property": "C134",
   "status": "proved",
   "theorems": [
    "CM.Ref.Westergaard.C134_energy"
   ],
   "note": ""
  },
  {
   "property": "C135",
   "status": "proved",
   "theorems": [
    "CM.Ref.Cone.C135_unit_mean",
    "CM.Ref.Cone.C135_load",
    "CM.Ref.Cone.C135_sneddon"
   ],
   "note": ""
  },
  {
   "property": "C136",
   "status": "partial",
   "theorems": [
    "CM.Ref.C136_displacements_partial",
    "CM.Ref.C136_stress_partial"
   ],
   "note": "REFUTED: integer positions truncate the results."
  },
  {
   "property": "C137",
   "status": "proved",
   "theorems": [
    "CM.Greens.C137_orientations",
    "CM.Greens.C137_halfspace_mirror",
    "CM.Greens.C137_layer_mirror",
    "CM.Greens.C137_halfspace",
    "CM.Greens.C137_layer"
   ],
   "note": "np.roots, np.sqrt, null_space, solve and inv are exact; lapack_exists shows that the assumptions on them can be met."
  },
  {
   "property": "C138",
   "status": "proved",
   "theorems": [
    "CM.Greens.C138_isotropic"
   ],
   "note": ""
  },
  {
   "property": "C139",
   "status": "proved",
   "theorems": [
    "CM.Ref.GreenwoodTripp.C139_positive",
    "CM.Ref.GreenwoodTripp.C139_decreasing",
    "CM.Ref.GreenwoodTripp.C139_recurrence"
   ],
   "note": ""
  },
  {
   "property": "C140",
   "status": "partial",
   "theorems": [
    "CM.Ref.GreenwoodTripp.C140_increasing",
    "CM.Ref.GreenwoodTripp.C140_asymptotic",
    "CM.Ref.GreenwoodTripp.C140_types_partial"
   ],
   "note": "Proved for vectors of floats. REFUTED: a number raises TypeError, integer vectors are truncated."
  },
  {
   "property": "C141",
   "status": "partial",
   "theorems": [
    "CM.Ref.GreenwoodTripp.C141_inverse_partial",
    "CM.Ref.GreenwoodTripp.C141_asymptotic_partial"
   ],
   "note": "REFUTED: TypeError for every vector with an entry between the cut-offs (the argument s hides the function s)."
  },
  {
   "property": "C142",
   "status": "proved",
   "theorems": [
    "CM.Ref.GreenwoodTripp.C142_returned",
    "CM.Ref.GreenwoodTripp.C142_terminates",
    "CM.Ref.GreenwoodTripp.C142_no_extrapolation"
   ],
   "note": "simpson and interp1d are external; nan does not exist in the model."
  },
  {
   "property": "C143",
   "status": "partial",
   "theorems": [
    "CM.Factory.C143_keywords",
    "CM.Factory.C143_positional_partial"
   ],
   "note": "Keyword arguments: proved. REFUTED for positional arguments (TypeError always)."
  },
  {
   "property": "C144",
   "status": "partial",
   "theorems": [
    "CM.HS.C144_constructible",
    "CM.HS.C144_one_dimension",
    "CM.HS.C144_spawn_child_partial",
    "CM.HS.C144_not_kept_partial"
   ],
   "note": "Construction: proved. REFUTED for children: always periodic in y only, with ten images."
  },
  {
   "property": "C145",
   "status": "partial",
   "theorems": [
    "CM.HS.C145_parallel_partial",
    "CM.HS.C145_two_processes_partial"
   ],
   "note": "REFUTED: ValueError on every process that does not own the whole grid."
  },
  {
   "property": "C146",
   "status": "proved",
   "theorems": [
    "CM.HS.C146_positive",
    "CM.HS.C146_monotone",
    "CM.HS.C146_unbounded",
    "CM.HS.C146_relative"
   ],
   "note": ""
  },
  {
   "property": "C147",
   "status": "proved",
   "theorems": [
    "CM.Pipe.C147_reported_displacement"
   ],
   "note": ""
  },
  {
   "property": "C148",
   "status": "proved",
   "theorems": [
    "CM.Pipe.C148_separated_row",
    "CM.Pipe.C148_separated_surfaces"
   ],
   "note": ""
  },
  {
   "property": "C149",
   "status": "proved",
   "theorems": [
    "CM.CCG.C149_flat_load",
    "CM.Pipe.C149_flat_surface"
   ],
   "note": ""
  },
  {
   "property": "C150",
   "status": "proved",
   "theorems": [
    "CM.CCG.C150_relabelling",
    "CM.CCG.C150_symmetry"
   ],
   "note": ""
  },
  {
   "property": "C151",
   "status": "proved",
   "theorems": [
    "CM.CCG.C151_units"
   ],
   "note": "The penetration tolerance falls back to the number 1e-3 for flat surfaces at offset minus height, and contact_mechanics always passes forcetol = 1e-5: these are absolute numbers."
  },
  {
   "property": "C152",
   "status": "proved",
   "theorems": [
    "CM.Pipe.C152_translation",
    "CM.Pipe.C152_mirrorX",
    "CM.Pipe.C152_mirrorY",
    "CM.Pipe.C152_exchange"
   ],
   "note": ""
  },
  {
   "property": "C153",
   "status": "partial",
   "theorems": [
    "CM.Pipe.C153_offsets",
    "CM.Pipe.C153_exact",
    "CM.Pipe.C153_two_calculations",
    "CM.Pipe.C153_pressures_partial",
    "CM.Pipe.C153_automatic_flat_partial",
    "CM.Pipe.C153_automatic_partial"
   ],
   "note": "Prescribed offsets: proved. Prescribed pressures: the exact solution is the same and two calculations differ at most by their defects; REFUTED as an identity (the initial guess depends on the reference height: with one iteration allowed a flat surface converges at one height and not at another). REFUTED for automatic steps (the third offset on a flat surface of height h is -3h)."
  },
  {
   "property": "C154",
   "status": "proved",
   "theorems": [
    "CM.CCG.C154_undefined_points_ignored",
    "CM.CCG.C154_given_tolerance"
   ],
   "note": ""
  },
  {
   "property": "C155",
   "status": "partial",
   "theorems": [
    "CM.Pipe.C155_units",
    "CM.Pipe.C155_kept_tolerance_partial",
    "CM.Pipe.C155_flat_partial"
   ],
   "note": "Proved if the force tolerance is converted by the square of the unit and the roughness of the surface is above the minimal penetration tolerance in both units. REFUTED for the built-in tolerances: the force tolerance and the minimal penetration tolerance 1e-12 are absolute, and a calculation of the same flat surface in small enough units reports convergence with displacement zero."
  },
  {
   "property": "C156",
   "status": "proved",
   "theorems": [
    "CM.Pipe.C156_solvable_at_offset",
    "CM.Pipe.C156_solvable_under_load",
    "CM.Pipe.C156_unique"
   ],
   "note": ""
  },
  {
   "property": "C157",
   "status": "proved",
   "theorems": [
    "CM.Pipe.C157_error_bound",
    "CM.Pipe.C157_periodic_error",
    "CM.Pipe.C157_two_calculations",
    "CM.Pipe.C157_contact_conditions_suffice",
    "CM.Pipe.C157_same_load_error"
   ],
   "note": ""
  },
  {
   "property": "C158",
   "status": "proved",
   "theorems": [
    "CM.Pipe.C158_monotone",
    "CM.Pipe.C158_load_curve"
   ],
   "note": ""
  },
  {
   "property": "C159",
   "status": "proved",
   "theorems": [
    "CM.HS.C159_positive_work",
    "CM.HS.C159_injective"
   ],
   "note": ""
  },
  {
   "property": "C160",
   "status": "proved",
   "theorems": [
    "CM.Pipe.C160_full_contact",
    "CM.Pipe.C160_deep_offsets",
    "CM.CCG.C160_solver_full_contact"
   ],
   "note": ""
  },
  {
   "property": "C161",
   "status": "proved",
   "theorems": [
    "CM.Pipe.C161_returns",
    "CM.CCG.C161_elastic_solver_returns"
   ],
   "note": ""
  },
  {
   "property": "C162",
   "status": "partial",
   "theorems": [
    "CM.Cli.C162_height_unit",
    "CM.Cli.C162_height_factor",
    "CM.Cli.C162_unknown_unit",
    "CM.Cli.C162_no_unit_partial"
   ],
   "note": "Proved whenever both units are known. REFUTED for files without unit (and no --physical_sizes-unit): every --height-unit raises KeyError, because the unit N/A is not in the table."
  },
  {
   "property": "C163",
   "status": "proved",
   "theorems": [
    "CM.Pipe.C163_stiffer_substrate",
    "CM.Pipe.C163_stiffer_nonperiodic"
   ],
   "note": ""
  },
  {
   "property": "C164",
   "status": "partial",
   "theorems": [
    "CM.Cli.C164_nonperiodic",
    "CM.Cli.C164_periodic_partial",
    "CM.Cli.C164_periodic_poisson_partial"
   ],
   "note": "Proved for nonperiodic boundaries and for Poisson number 0. REFUTED for periodic half-spaces with another Poisson number: the headers state Young's modulus as the contact modulus."
  },
  {
   "property": "C165",
   "status": "proved",
   "theorems": [
    "CM.Cli.C165_pressures_same_as_pipeline"
   ],
   "note": ""
  },
  {
   "property": "C166",
   "status": "partial",
   "theorems": [
    "CM.Cli.C166_maps_match_log",
    "CM.Cli.C166_contact_map_periodic_partial",
    "CM.Cli.C166_contact_map_padded_partial"
   ],
   "note": "Pressure, displacement and gap maps: proved. REFUTED for the contact map: with nonperiodic boundaries it has 2nx x 2ny entries; the points it marks need not carry force (C167)."
  },
  {
   "property": "C167",
   "status": "partial",
   "theorems": [
    "CM.CCG.C167_outside_active_set_partial",
    "CM.CCG.C167_active_set_differs_partial"
   ],
   "note": "REFUTED: converged results with an active point without force and with an inactive point that carries force, on a positive definite substrate. Proved: at fixed offset, if the last step was a conjugate gradient step, points outside the active set carry no force or the hardness."
  },
  {
   "property": "C168",
   "status": "proved",
   "theorems": [
    "CM.Pipe.C168_stiffer_contact",
    "CM.Pipe.C168_stiffer_contact_nonperiodic"
   ],
   "note": "If the external force and a hardness are given together, SciPy's bisection is assumed to find the same root for a multiple of the function."
  },
  {
   "property": "C169",
   "status": "proved",
   "theorems": [
    "CM.Cli.C169_written_displacements",
    "CM.Cli.C169_written_load"
   ],
   "note": "Hardness, if given, not negative."
  },
  {
   "property": "C170",
   "status": "partial",
   "theorems": [
    "CM.Cli.C170_automatic_returns",
    "CM.Cli.C170_pressures_return",
    "CM.Cli.C170_plastic_pressures",
    "CM.Cli.C170_flat_pressure_partial",
    "CM.Cli.C170_low_surface_partial"
   ],
   "note": "Proved for automatic mode, for elastic load control on rough surfaces or with --pentol, and for plastic load control with --pentol up to the failures of the bisection (characterised). REFUTED for load control on flat surfaces without --pentol (TypeError), and for plastic load control on surfaces that do not rise above zero (ValueError)."
  },
  {
   "property": "C171",
   "status": "partial",
   "theorems": [
    "CM.System.C171_dual_state",
    "CM.System.C171_primal_state",
    "CM.System.C171_one_state",
    "CM.System.C171_primal_dual_agree",
    "CM.System.C171_dual_solvable",
    "CM.System.C171_primal_solvable",
    "CM.System.C171_dual_error",
    "CM.System.C171_contact_zones",
    "CM.System.C171_zones_differ_partial",
    "CM.System.C171_primal_nonperiodic_partial"
   ],
   "note": "Proved: solution, uniqueness, agreement, error bound, dual contact zone inside the primal one. REFUTED: equal contact areas (flat surface that just touches: primal all points, dual none); primal objective on nonperiodic substrates (always ValueError beyond 1x1)."
  },
  {
   "property": "C172",
   "status": "proved",
   "theorems": [
    "CM.System.C172_objective_value",
    "CM.System.C172_expansion"
   ],
   "note": ""
  },
  {
   "property": "C173",
   "status": "partial",
   "theorems": [
    "CM.System.C173_bounded_minimisation",
    "CM.System.C173_solvable",
    "CM.System.C173_refused",
    "CM.System.C173_bounds_dropped_partial",
    "CM.System.C173_overlap_partial",
    "CM.System.C173_unconverged_partial"
   ],
   "note": "Proved: solution of the contact problem, refused calls; nonperiodic substrates under the hypothesis that no coefficient of the Green's function vanishes. REFUTED: bounds are dropped for other methods than L-BFGS-B, TNC, SLSQP (overlapping 'solution'); results are recorded also if the optimiser failed."
  },
  {
   "property": "C174",
   "status": "partial",
   "theorems": [
    "CM.CCG.C174_parallel",
    "CM.CCG.C174_deterministic",
    "CM.CCG.C174_array_hardness_partial"
   ],
   "note": "Proved for elastic contacts and scalar hardness, given the contract of the collective calls. REFUTED for arrays of hardnesses: where one block has a single point and another has not, the processes block for ever."
  },
  {
   "property": "C175",
   "status": "partial",
   "theorems": [
    "CM.HS.C175_construct",
    "CM.HS.C175_periodic",
    "CM.HS.C175_energy",
    "CM.HS.C175_free_construct",
    "CM.HS.C175_free_padded",
    "CM.HS.C175_free",
    "CM.HS.C175_solver_periodic",
    "CM.HS.C175_solver_free"
   ],
   "note": "Proved, given the contract of the FFT engine, except construction with the default stiffness at the Gamma point where the block with the Gamma point has a single row or column (REFUTED: IndexError, C102)."
  },
  {
   "property": "C176",
   "status": "partial",
   "theorems": [
    "CM.NetCDF.C176_array",
    "CM.NetCDF.C176_number_partial",
    "CM.NetCDF.C176_shadowed_partial",
    "CM.NetCDF.C176_row_partial",
    "CM.NetCDF.C176_ndof_partial",
    "CM.NetCDF.C176_method_partial",
    "CM.NetCDF.C176_attribute"
   ],
   "note": "Proved: arrays, and numbers under names that are not variables. REFUTED: a number under the name of a variable cannot be read; writing to a frame under the name of an array of the file overwrites a row of it; no arrays in files with several degrees of freedom; names of methods are only read as items."
  },
  {
   "property": "C177",
   "status": "partial",
   "theorems": [
    "CM.NetCDF.C177_elastic",
    "CM.NetCDF.C177_snapshot_partial"
   ],
   "note": "Proved: exact read-back. REFUTED: what get_elastic_surface returned shows surfaces stored later."
  },
  {
   "property": "C178",
   "status": "partial",
   "theorems": [
    "CM.NetCDF.C178_kept",
    "CM.NetCDF.C178_raises",
    "CM.NetCDF.C178_reopen",
    "CM.NetCDF.C178_size_partial"
   ],
   "note": "Proved except the size: REFUTED, a closed container reports the last size it was asked to take although the call raised."
  },
  {
   "property": "C179",
   "status": "partial",
   "theorems": [
    "CM.System.C179_value",
    "CM.System.C179_primal",
    "CM.System.C179_logged",
    "CM.System.C179_minimize_logged",
    "CM.System.C179_not_logged_partial",
    "CM.System.C179_minimize_raises_partial",
    "CM.System.C179_no_forces_partial"
   ],
   "note": "Proved: equal energies, logged evaluations with gradient, logged minimisations. REFUTED: without gradient every logged evaluation raises TypeError; after minimize_proxy(gradient=False) the system has no forces and compute_normal_force raises."
  },
  {
   "property": "C180",
   "status": "partial",
   "theorems": [
    "CM.CCG.C180_bisect",
    "CM.CCG.C180_bearing_area",
    "CM.CCG.C180_raises",
    "CM.CCG.C180_low_surface_partial",
    "CM.Pipe.C180_pressures_return",
    "CM.Pipe.C180_low_topography_partial"
   ],
   "note": "Proved: exceptions and bearing area, with SciPy's bisection modelled. REFUTED: every load below hardness times number of points can be carried (surfaces that do not rise above zero, e.g. every flat surface of height at most zero, raise ValueError in the first step)."
  },
  {
   "property": "C181",
   "status": "partial",
   "theorems": [
    "CM.System.C181_coordinates",
    "CM.System.C181_summaries",
    "CM.System.C181_minimize",
    "CM.System.C181_construct",
    "CM.System.C181_no_result_partial",
    "CM.System.C181_local_coordinates_partial"
   ],
   "note": "Proved: the state on several processes (given the contracts of the collective calls; with the boundary check on distributions where it is exact, C23), the summaries, the coordinates on one process. REFUTED: coordinates on several processes count from the corner of the block, so that together they are not those of the system; without a result an empty list is returned."
  },
  {
   "property": "C182",
   "status": "proved",
   "theorems": [
    "CM.Ref.Westergaard.C182_response"
   ],
   "note": ""
  },
  {
   "property": "C183",
   "status": "proved",
   "theorems": [
    "CM.Ref.C183_exact",
    "CM.Ref.C183_hertz"
   ],
   "note": ""
  },
  {
   "property": "C184",
   "status": "proved",
   "theorems": [
    "CM.Ref.C184_cone"
   ],
   "note": "For vectors of distances that include the contact radius; for others the returned values inside the contact are shifted (C95)."
  },
  {
   "property": "C185",
   "status": "partial",
   "theorems": [
    "CM.CCG.C185_solver",
    "CM.Pipe.C185_response",
    "CM.Pipe.C185_default_response",
    "CM.Pipe.C185_solver_call",
    "CM.Pipe.C185_exact",
    "CM.Pipe.C185_calculation",
    "CM.Pipe.C185_default_partial"
   ],
   "note": "Proved for layers and half-spaces with a given stiffness of the uniform field: substrate, solver iterations and result. For the default half-space (also that of contact_mechanics): pressures of the exact solution repeat, and calculations are near it within their own defects, but REFUTED for displacements and offset: the code chooses the stiffness of the uniform field from the size of the cell, so that the displacement of a flat surface under a given pressure is multiplied by the number of periods per direction."
  },
  {
   "property": "C186",
   "status": "proved",
   "theorems": [
    "CM.Num.C186_real",
    "CM.Num.C186_int",
    "CM.Num.C186_order",
    "CM.Num.C186_width",
    "CM.Num.C186_log"
   ],
   "note": "Real numbers instead of floating point numbers (no inf, nan, -0.0)."
  },
  {
   "property": "C187",
   "status": "proved",
   "theorems": [
    "CM.MapFile.C187_pressure",
    "CM.MapFile.C187_gap",
    "CM.MapFile.C187_contact",
    "CM.MapFile.C187_exact"
   ],
   "note": ""
  },
  {
   "property": "C188",
   "status": "partial",
   "theorems": [
    "CM.MapFile.C188_data_partial",
    "CM.MapFile.C188_last_partial"
   ],
   "note": "Proved for all data but the last one. REFUTED for the last one: the text that describes the map follows the fractional area without a line break, so that no line of any header reads 'fractional area = number'. (Only the first map of a step has data at all, C67.)"
  },
  {
   "property": "C189",
   "status": "proved",
   "theorems": [
    "CM.Disc.C189_error",
    "CM.Disc.C189_converges"
   ],
   "note": ""
  },
  {
   "property": "C190",
   "status": "proved",
   "theorems": [
    "CM.Disc.C190_hertz"
   ],
   "note": ""
  },
  {
   "property": "C191",
   "status": "proved",
   "theorems": [
    "CM.Disc.C191_load",
    "CM.Disc.C191_displacements",
    "CM.Disc.C191_offset",
    "CM.Disc.C191_hertz",
    "CM.Disc.C191_penetration",
    "CM.Disc.C191_exact",
    "CM.Disc.C191_calculation",
    "CM.Disc.C191_reported",
    "CM.Disc.C191_reported_pressed"
   ],
   "note": "Contact modulus one, as contact_mechanics has it. That a converged step satisfies the contact conditions within its tolerance is not guaranteed (C36); C191_calculation takes the reported fields themselves."
  },
  {
   "property": "C192",
   "status": "partial",
   "theorems": [
    "CM.Cli.C192_values",
    "CM.Cli.C192_order",
    "CM.Cli.C192_exit",
    "CM.Cli.C192_unknown",
    "CM.Cli.C192_one_file",
    "CM.Cli.C192_malformed",
    "CM.Cli.C192_negative_partial"
   ],
   "note": "Proved, where a value apart from its option does not begin with a dash. REFUTED for --name value with a negative number with exponent (Python up to 3.13): --height-fac -1e-9 is refused, --height-fac=-1e-9 is accepted. argparse is modelled by its documented behaviour."
  },
  {
   "property": "C193",
   "status": "proved",
   "theorems": [
    "CM.Cli.C193_run",
    "CM.Cli.C193_pressures"
   ],
   "note": "Readers, detrending, float and int by their contracts."
  },
  {
   "property": "C194",
   "status": "proved",
   "theorems": [
    "CM.HS.C194_error",
    "CM.HS.C194_exact",
    "CM.HS.C194_convergence"
   ],
   "note": "Two-dimensional grids."
  },
  {
   "property": "C195",
   "status": "proved",
   "theorems": [
    "CM.HS.C195_line"
   ],
   "note": "Two-dimensional grids; the stiffness of the uniform field not zero."
  },
  {
   "property": "C196",
   "status": "proved",
   "theorems": [
    "CM.Disc.C196_load",
    "CM.Disc.C196_displacements",
    "CM.Disc.C196_offset",
    "CM.Disc.C196_westergaard",
    "CM.Disc.C196_pressed",
    "CM.Disc.C196_calculation",
    "CM.Disc.C196_reported",
    "CM.Disc.C196_reported_pressed"
   ],
   "note": "One period of the wave (several periods: C185). That a converged step satisfies the contact conditions within its tolerance is not guaranteed (C36); C196_calculation takes the reported fields themselves."
  },
  {
   "property": "C197",
   "status": "proved",
   "theorems": [
    "CM.HS.C197_energy_real_eq_fourier",
    "CM.HS.C197_energy_positive",
    "CM.HS.C197_energy_gradient",
    "CM.HS.C197_translation",
    "CM.HS.C197_plane_strain",
    "CM.HS.C197_square_default"
   ],
   "note": ""
  },
  {
   "property": "C198",
   "status": "proved",
   "theorems": [
    "CM.System.Line.C198_primal_value",
    "CM.System.Line.C198_primal_expansion",
    "CM.System.Line.C198_dual_value",
    "CM.System.Line.C198_dual_expansion",
    "CM.System.Line.C198_strong_duality",
    "CM.System.Line.C198_primal_to_dual",
    "CM.System.Line.C198_dual_to_primal",
    "CM.System.Line.C198_primal_global",
    "CM.System.Line.C198_dual_global",
    "CM.System.Line.C198_elastic_response",
    "CM.System.Line.C198_solvable"
   ],
   "note": "With a positive stiffness of the uniform field (values and expansions: any)."
  },
  {
   "property": "C199",
   "status": "proved",
   "theorems": [
    "CM.Disc.C199_load",
    "CM.Disc.C199_displacements",
    "CM.Disc.C199_pressures",
    "CM.Disc.C199_offset",
    "CM.Disc.C199_calculation",
    "CM.Disc.C199_pressed",
    "CM.Disc.C199_unique"
   ],
   "note": "Two-dimensional grids, contact modulus one (as contact_mechanics has it). That the continuum has a continuous solution is a hypothesis (shown for full contact of waves and for Westergaard's partial contact). That a converged step satisfies the contact conditions within its tolerance is not guaranteed (C36); C199_calculation takes the reported fields themselves."
  },
  {
   "property": "C200",
   "status": "proved",
   "theorems": [
    "CM.Disc.C200_load",
    "CM.Disc.C200_displacements",
    "CM.Disc.C200_pressures",
    "CM.Disc.C200_offset",
    "CM.Disc.C200_calculation",
    "CM.Disc.C200_pressed",
    "CM.Disc.C200_unique"
   ],
   "note": "Contact modulus one (as contact_mechanics has it). That the continuum has a continuous solution at the offset is a hypothesis (shown for spheres). That a converged step satisfies the contact conditions within its tolerance is not guaranteed (C36); C200_calculation takes the reported fields themselves."
  },
  {
   "property": "C201",
   "status": "proved",
   "theorems": [
    "CM.Disc.C201_nonperiodic",
    "CM.Disc.C201_nonperiodic_pressed",
    "CM.Disc.C201_periodic",
    "CM.Disc.C201_periodic_pressed"
   ],
   "note": "Half-spaces (no --thickness), elastic (no --hardness). That a converged step satisfies the contact conditions within its tolerance is not guaranteed (C36); the theorems take the written fields themselves."
  },
  {
   "property": "C202",
   "status": "proved",
   "theorems": [
    "CM.CCG.C202_contents",
    "CM.CCG.C202_arguments",
    "CM.CCG.C202_result_new"
   ],
   "note": "Memory is modelled for the arrays f_r, u_r, t_r, the arrays passed and the arrays of the result; substrates return new arrays."
  },
  {
   "property": "C203",
   "status": "partial",
   "theorems": [
    "CM.CCG.C203_kept_partial",
    "CM.CCG.C203_written_partial"
   ],
   "note": "REFUTED: the callback is given f_r itself. Without hardness and at prescribed offset every call gets the same array, which holds the final forces in the end; what is written into it is returned as force."
  },
  {
   "property": "C204",
   "status": "proved",
   "theorems": [
    "CM.Pipe.C204_begins",
    "CM.Pipe.C204_raises",
    "CM.Pipe.C204_calculation"
   ],
   "note": ""
  },
  {
   "property": "C205",
   "status": "proved",
   "theorems": [
    "CM.Log.C205_crash",
    "CM.Log.C205_records",
    "CM.Log.C205_flushed",
    "CM.Log.C205_synced",
    "CM.Log.C205_operations"
   ],
   "note": "standard output is not a log file here: warn does not flush it unless it is the log file"
  },
  {
   "property": "C206",
   "status": "partial",
   "theorems": [
    "CM.Log.C206_backlog_partial",
    "CM.Log.C206_next_line"
   ],
   "note": "REFUTED: set_logfile prints the waiting lines and does not flush them; a crash may leave the file empty. The next logged line brings them to disk."
  },
  {
   "property": "C207",
   "status": "proved",
   "theorems": [
    "CM.Cli.C207_begins",
    "CM.Cli.C207_raises",
    "CM.Cli.C207_calculation"
   ],
   "note": ""
  },
  {
   "property": "C208",
   "status": "proved",
   "theorems": [
    "CM.CCG.Arith.C208_exact",
    "CM.CCG.Arith.C208_no_force_off_topography",
    "CM.CCG.Arith.C208_displacements_are_response",
    "CM.CCG.Arith.C208_iteration_accounting",
    "CM.CCG.Arith.C208_offset_kept",
    "CM.CCG.Arith.C208_never_tensile",
    "CM.CCG.Arith.C208_first_iteration",
    "CM.CCG.Arith.C208_bounded_by_hardness"
   ],
   "note": ""
  },
  {
   "property": "C209",
   "status": "proved",
   "theorems": [
    "CM.CCG.Arith.C209_load_met",
    "CM.CCG.Arith.C209_load_enforced",
    "CM.CCG.Arith.C209_no_penetration"
   ],
   "note": ""
  },
  {
   "property": "C210",
   "status": "proved",
   "theorems": [
    "CM.CCG.Nan.C210_success_numbers",
    "CM.CCG.Nan.C210_arguments_numbers",
    "CM.CCG.Nan.C210_without_nan"
   ],
   "note": ""
  },
  {
   "property": "C211",
   "status": "partial",
   "theorems": [
    "CM.CCG.Nan.C211_plastic_nan_partial"
   ],
   "note": "REFUTED: comparisons with nan are false, so that nothing is in contact; the first mixing step then converges with zero force, and the nan is neither in G nor in the displacements. By C210 this can only happen if the last iteration was a mixing step."
  },
  {
   "property": "C212",
   "status": "proved",
   "theorems": [
    "CM.CCG.Nan.C212_raises"
   ],
   "note": "maxiter must be at least three: with fewer iterations the result is reported as not converged"
  },
  {
   "property": "C213",
   "status": "partial",
   "theorems": [
    "CM.Cli.C213_flags_not_written_partial"
   ],
   "note": "REFUTED: in elastic runs nothing of what is written depends on the convergence flags. The automatic mode prints the flag to the screen; with prescribed pressures it is not even printed. Only the load recorded in the NetCDF frame, which is the one asked for (C169), can be compared with the load in the log."
  },
  {
   "property": "C214",
   "status": "partial",
   "theorems": [
    "CM.Cli.C214_function_undeformed",
    "CM.Cli.C214_command_line_partial"
   ],
   "note": "Proved for contact_mechanics. REFUTED for ce_hard_wall: next_step does not reset the plastic displacements (_next_contact_step does), so that every automatic step starts from the surface the earlier steps left, whatever their order."
  },
  {
   "property": "C215",
   "status": "proved",
   "theorems": [
    "CM.NetCDF.C215_synced",
    "CM.NetCDF.C215_value",
    "CM.NetCDF.C215_everything",
    "CM.NetCDF.C215_grid"
   ],
   "note": "what the libraries put on disk between two synchronisations is left open, entry by entry; the file is assumed to stay readable"
  },
  {
   "property": "C216",
   "status": "partial",
   "theorems": [
    "CM.NetCDF.C216_command_line_partial"
   ],
   "note": "REFUTED: dump_nc and main never call sync; between set_shape and close nothing is sure to be on disk. After any number of steps the file may hold the grid and not a single frame. (With sync after each frame C215 applies.)"
  },
  {
   "property": "C217",
   "status": "partial",
   "theorems": [
    "CM.System.C217_gradient",
    "CM.System.C217_no_gradient_partial",
    "CM.System.C217_never_partial"
   ],
   "note": "Proved for results with a gradient. REFUTED for the others (SciPy's Nelder-Mead, Powell, COBYLA): _update_state reads result.jac and raises AttributeError after the state was stored; the result is lost."
  },
  {
   "property": "C218",
   "status": "proved",
   "theorems": [
    "CM.System.C218_minimize",
    "CM.System.C218_history",
    "CM.System.C218_construct"
   ],
   "note": "Hypothesis if the boundary check of a nonperiodic substrate is enabled: a distribution on which that check is exact (see C23)."
  },
  {
   "property": "C219",
   "status": "partial",
   "theorems": [
    "CM.NetCDF.C219_read",
    "CM.NetCDF.C219_netcdf4_partial",
    "CM.NetCDF.C219_write_partial",
    "CM.NetCDF.C219_other_partial"
   ],
   "note": "Proved: with SciPy (netCDF4 not installed) coordinates and forces are read row by row. REFUTED: with netCDF4 opening raises TypeError (sqrt of a Dimension object); the array that reading gives cannot be assigned; variables that are not three numbers per atom cannot be read; negative frames raise TypeError with SciPy."
  },
  {
   "property": "C220",
   "status": "partial",
   "theorems": [
    "CM.Pipe.C220_table",
    "CM.Pipe.C220_elastic",
    "CM.Pipe.C220_exact",
    "CM.Pipe.C220_plastic_partial"
   ],
   "note": "Proved for elastic calculations in all three modes (C220_table also for automatic plastic ones). REFUTED for plastic calculations with prescribed offsets (C220_plastic_partial): the table subtracts the surface before the step, the field the surface after it; mean gap -1 with a gap field that vanishes."
  },
  {
   "property": "C221",
   "status": "partial",
   "theorems": [
    "CM.Cli.C221_maps",
    "CM.Cli.C221_killed",
    "CM.Cli.C221_completed_steps",
    "CM.Cli.C221_stale_partial"
   ],
   "note": "Proved (for different map names): no map is overwritten within a run, at any crash point the maps of completed steps are complete. REFUTED (C221_stale_partial): a second, shorter run leaves maps of the first run under the following numbers."
  },
  {
   "property": "C222",
   "status": "partial",
   "theorems": [
    "CM.Factory.C222_hardness",
    "CM.Factory.C222_physical_sizes_partial"
   ],
   "note": "Proved without physical_sizes, or with those of the surface. REFUTED with other physical_sizes (C222_physical_sizes_partial): they change the substrate only; the hardness is converted to a force with the area of the surface, and pressures reach the hardness times the quotient of the two areas."
  },
  {
   "property": "C223",
   "status": "partial",
   "theorems": [
    "CM.SubState.C223_compute",
    "CM.SubState.C223_compute_k",
    "CM.SubState.C223_check",
    "CM.SubState.C223_check_partial",
    "CM.SubState.C223_flags_partial",
    "CM.SubState.C223_together_partial"
   ],
   "note": "Proved: over all histories the attributes hold what the last successful calculation of their kind returned, refused ones change nothing, and check() judges the forces of the last compute by the rule of C23. REFUTED: after compute without forces check() raises TypeError (C223_check_partial); compute_k stores forces although only the energy is asked for (C223_flags_partial); compute_k leaves forces of earlier displacements next to its own energy (C223_together_partial)."
  },
  {
   "property": "C224",
   "status": "partial",
   "theorems": [
    "CM.HS.C224_superposition",
    "CM.HS.C224_stiffer",
    "CM.HS.C224_unit_of_length",
    "CM.HS.C224_negative_images_partial"
   ],
   "note": "Superposition and scaling proved. REFUTED for the number of images (C224_negative_images_partial): a negative one is accepted and makes the surface rigid, no force displaces anything (for numbers from zero on see C146_positive)."
  },
  {
   "property": "C225",
   "status": "partial",
   "theorems": [
    "CM.SubState.C225_check",
    "CM.SubState.C225_sound",
    "CM.SubState.C225_periodic_partial"
   ],
   "note": "Proved: the check misses nothing, and is exact if no direction is periodic. REFUTED otherwise (C225_periodic_partial): it also looks at the first and last row of periodic directions, so that of two fields, one the other moved along the period, one is accepted and the other refused."
  }
 ]
}