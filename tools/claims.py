N="CM.CCG."
c("C32","proved",N+"C32_no_force_off_topography","Hypothesis: hardness nonnegative.")
c("C33","proved",N+"C33_displacements_are_response")
c("C34","proved",N+"C34_load_met "+N+"C34_load_exact","Exact part: no hardness, topography without undefined points.")
c("C35","partial",N+"C35_no_penetration_partial "+N+"C35_fails_zero_initial_forces","False of the code: zero initial forces give success at once whatever the penetration (general theorem). Proved when the last iteration added no contact points.")
c("C36","partial",N+"C36_complementarity_partial "+N+"C36_complementarity_real_partial "+N+"C36_fails_loaded_gap","False of the code (false convergence when the search direction cancels after clipping, kernel-checked run). Proved when the last step length is nonzero.")
c("C37","partial",N+"C37_never_tensile_partial "+N+"C37_first_iteration_partial "+N+"C37_fails_tensile","False of the code: negative step length yields tensile forces (kernel-checked run). Proved if no points were added in the last iteration or its step length is >= 0.")
c("C38","partial",N+"C38_bounded_by_hardness_partial "+N+"C38_fails_load_control "+N+"C38_fails_added_points","False of the code under load control and for points added in the last iteration.")
c("C39","proved",N+"C39_iteration_accounting "+N+"C39_success_only_by_convergence_test")
c("C40","partial",N+"C40_maxiter_zero_fails","REFUTED: the property is false of the code; its negation is proved for all inputs.")
c("C41","proved",N+"C41_offset_kept "+N+"C41_offset_ignored_under_load")
c("C42","proved",N+"C42_separated_surfaces")
c("C43","proved",N+"C43_zero_load_only_first_iteration")
c("C44","proved",N+"C44_exact_line_search "+N+"C44_energy_never_increases","The displacements the iteration starts from are those of the forces it starts from (as on the first pass of the loop).")
c("C45","proved",N+"C45_dual_optimal "+N+"C45_primal_optimal")
c("C46","partial",N+"C46_array_hardness_fails "+N+"C46_scalar_hardness_partial","REFUTED: the property is false of the code; negation proved for all arrays with more than one entry.")
c("C47","partial",N+"C47_default_pentol_partial "+N+"C47_flat_no_offset_fails "+N+"C47_flat_negative_offset_fails","False of the code for flat topographies; proved for positive rms height.")

N="CM.HS."
c("C01","proved",N+"C01_disp_linear "+N+"C01_force_linear")
c("C02","proved",N+"C02_force_disp_inverse "+N+"C02_disp_force_inverse "+N+"C02_inverse_up_to_mean")
c("C03","proved",N+"C03_disp_reciprocal "+N+"C03_force_reciprocal")
c("C04","proved",N+"C04_energy_nonneg "+N+"C04_energy_eq_zero_iff "+N+"C04_energy_eq_zero_iff_uniform")
c("C05","proved",N+"C05_energy_real_eq_fourier")
c("C06","proved",N+"C06_scalarProduct_fft")
c("C07","proved",N+"C07_disp_translation "+N+"C07_force_translation")
c("C08","proved",N+"C08_gamma_response")
c("C09","proved",N+"C09_planeWave_response")
c("C10","proved",N+"C10_layer_stiffer "+N+"C10_layer_energy")
c("C11","proved",N+"C11_thick_layer_limit")
c("C12","proved",N+"C12_layer_gamma_limit")
c("C13","proved",N+"C13_construct_ok_iff "+N+"C13_construct_error_iff "+N+"C13_construct_zeroDivision_iff "+N+"C13_construct_sizes","ZeroDivisionError also for Poisson number +-1.")
c("C14","proved",N+"C14_unit_neutral")
c("C15","proved",N+"C15_energy_gradient "+N+"C15_energy_convex")
c("C16","proved",N+"C16_shape_mismatch_iff")
c("C17","partial",N+"C17_q0_zero_2d_partial "+N+"C17_q0_zero_fails_1d","REFUTED in one dimension (IndexError in the constructor, proved for all inputs); proved in two.")
c("C18","partial",N+"C18_linear_1d "+N+"C18_inverse_1d "+N+"C18_reciprocal_1d "+N+"C18_wave_1d "+N+"C18_thickness_ignored_1d","All parts proved except the last, which is REFUTED: thickness is ignored in 1D.")
c("C102","partial",N+"C102_block_equals_serial_partial "+N+"C102_thin_first_block_fails "+N+"C102_1d_block_fails","Proved in 2D for every block that computes at all; REFUTED when the first block has one row/column and default Gamma stiffness (IndexError), and for decomposed 1D grids.")
c("C103","partial",N+"C103_forces_checked_partial "+N+"C103_evaluate_broadcasts","REFUTED for pot=True, forces=False, which broadcasts silently.")
c("C104","proved",N+"C104_periodic_elasticResponse CM.Pipe.C104_every_substrate_elastic")
c("C19","proved",N+"C19_free_direct_sum","The specification sums Boussinesq's integral, not Love's closed form; see C105.")
c("C20","proved",N+"C20_padding_equivalent")
c("C21","proved",N+"C21_mirror_symmetry "+N+"C21_free_reciprocal")
c("C22","proved",N+"C22_monotone")
c("C23","partial",N+"C23_check_boundaries_partial "+N+"C23_serial "+N+"C23_missed_last_row","Exact for serial runs and for every decomposition in which no block starts at the last row/column; REFUTED otherwise (C23_missed_last_row: for every grid there is a two-process run that hides a force on the last row).")
c("C24","proved",N+"C24_topography_tiles")
c("C25","proved",N+"C25_spawn_child")
c("C26","proved",N+"C26_accepted_shapes "+N+"C26_dead_branch","Accepted shapes proved for serial runs; the dead branch for all decompositions.")
c("C27","proved",N+"C27_free_generalised_inverse "+N+"C27_periodic_generalised_inverse")
c("C105","proved",N+"C105_love_is_integral")
c("C106","proved",N+"C106_free_1d_fails")
c("C107","partial",N+"C107_boundary_mask_partial "+N+"C107_boundary_mask_sound","REFUTED when a block starts at the last row/column of the topography.")
c("C108","proved","CM.CCG.C108_restart_from_displacements CM.CCG.C108_restart_from_forces_load")
c("C109","proved","CM.CCG.C109_finite_termination")
c("C110","proved","CM.CCG.C110_rigid_shift")
Y="CM.System."
def y(p,st,names,note=""): c(p,st," ".join(n if n.startswith("CM.") else Y+n for n in names.split()),note)
y("C48","proved","C48_gap C48_lower_bounds C48_applies")
y("C49","proved","C49_primal_value C49_primal_expansion","Two-dimensional periodic substrates.")
y("C50","proved","C50_dual_value C50_dual_expansion","Two-dimensional periodic and free substrates.")
y("C51","proved","C51_strong_duality","Two-dimensional periodic substrates with positive Gamma stiffness.")
y("C52","partial","C52_minimize_proxy_clears C52_history_partial C52_dual_clears C52_primal_clears_partial C52_primal_leaves_trial_force C52_dual_trial_normal_force C52_proxy_defaults","Holds for minimize_proxy over all histories. REFUTED for primal_minimize_proxy (system.force keeps the force of the last trial) and for the normal force after a failed primal or dual minimisation.")
y("C53","proved","C53_contact_area")
y("C54","partial","C54_opposite_signs C54_signs_differ","REFUTED: the two normal forces are opposite, and non-zero states exist on every periodic substrate with Gamma stiffness.")
y("C55","proved","C55_reshape_lossless")
y("C56","partial","C56_incompatible_resolution_iff C56_compare_containers_partial C56_compare_numbers C56_vectors_raise","Construction fully proved. compare_containers: proved for tuples, lists, numbers; REFUTED for NumPy vectors of two or more entries (ValueError even when equal).")
y("C57","proved","C57_evaluate_stores C57_history_independent")
y("C58","proved","C58_plastic_update C58_plastic_returns C58_plastic_history C58_plastic_lowers")
y("C111","proved","C111_primal_to_dual C111_dual_to_primal C111_primal_global C111_dual_global C111_dual_global_any","Two-dimensional periodic substrates with positive Gamma stiffness; the dual minimum also for nonperiodic ones.")
y("C112","proved","C112_primal_proxy_consistent C112_dual_proxy_consistent")
Y="CM.Pipe."
y("C59","proved","C59_argument_validation")
y("C60","proved","C60_offsets C60_pressures C60_returns C60_exception C60_offsets_unchanged C60_offsets_kept")
y("C61","proved","C61_order_independent C62_automatic_offsets","Second half (undeformed surface in automatic mode): the fresh flag in C62_automatic_offsets.")
y("C62","proved","C62_automatic_offsets")
y("C63","partial","C63_no_steps_raise","REFUTED: TypeError for every topography and solver.")
y("C64","proved","C64_fields C64_load_control","contact_mechanics with its own solver (Model/EndToEnd).")
Y="CM.Cli."
y("C65","proved","C65_history_sorted C65_exception C65_automatic_run")
y("C66","partial","C66_displacement_mode_fails C66_type_error","REFUTED: displacement mode raises for every argument, topography and solver.")
y("C67","partial","C67_only_first_map_has_data C67_single_map_partial","REFUTED for two or more maps (one-shot iterator); proved when at most one map is requested.")
y("C113","proved","C113_same_as_pipeline")
y("C114","proved","C114_pressure_run C114_pressure_exception C114_range_ends C114_file_names_differ")
y("C115","proved","C115_log_line")
y("C116","proved","C116_refused C116_accepted")
Y="CM.Log."
y("C68","proved","C68_printed C68_printed_template C68_reset C68_constructor")
y("C69","partial","C69_late_file_partial C69_late_name_partial C69_buffer_printed_partial C69_none_discards_partial C69_warning_twice_partial","Late attachment of a file or name keeps everything. REFUTED: set_logfile(None) discards the buffer, and a buffered warning is printed twice on stdout.")
y("C70","proved","C70_backup C70_new_name C70_history C70_plain_overwrites C70_numbering C70_next_file")
y("C71","partial","C71_grows_partial C71_no_bound_partial","REFUTED: a quiet logger grows without bound.")
y("C72","partial","C72_read_back_partial C72_blank_partial C72_solver_log_partial CM.MapFile.C72_command_line_partial C72_message_partial","Proved for column names without blanks; REFUTED for names with blanks, for the headers of the solver and of the command line and for files that begin with a message.")
y("C73","partial","C73_columns_partial C73_labels_partial C73_nested_partial C73_empty_partial","Proved for flat vectors and mappings; REFUTED for nested or empty vectors.")
Y="CM.NetCDF."
y("C74","partial","C74_last_write C74_first_kind C74_kind_fixed C74_dims_fixed C74_attribute C74_shadowed_partial C74_private_partial","Proved for frame[name] with every plain name. REFUTED for attribute access to names the class itself uses (index, traj, ...) and for names with a leading underscore.")
y("C75","partial","C75_real_partial C75_truncated_partial","REFUTED: after an integer, every real number is truncated without an exception; proved when the variable was created by a real.")
y("C76","proved","C76_next C76_consecutive C76_negative C76_before_first C76_slice_forward C76_slice_backward C76_iterate C76_len","Backward slices: for start and stop inside the file.")
y("C77","partial","C77_first C77_fixed C77_again C77_one_entry_partial","Proved for shapes with two entries. REFUTED: a one-entry shape (n,) is accepted by an n x n grid.")
y("C78","proved","C78_selector C78_keyword C78_leading_at C78_not_a_number C78_complete")
y("C117","proved","C117_grid","Variables that already exist on the full grid; first calls create them.")
y("C118","proved","C118_rigid_surface")
y("C119","partial","C119_reopen C119_ndof_partial","Frames and values: proved. REFUTED for the shape when there are several degrees of freedom.")
Y="CM.Greens."
y("C79","partial","C79_hermitian_positive C79_inverse_partial C79_cutoff_partial","Hermitian and positive definite: proved. Inverse: proved outside the absolute cut-off 1e-6; REFUTED below it.")
y("C80","proved","C80_normal C80_periodic")
y("C81","partial","C81_greens C81_stiffness_partial C81_cutoff_partial","Green's function: proved. Stiffness: REFUTED, vanishes below the absolute cut-off.")
y("C82","proved","C82_symmetries C82_round_trip C82_rotated C82_isotropic C82_cube","For float constants (see C125).")
y("C83","partial","C83_even_partial C83_eigenvalues_partial C83_about_normal_partial C83_orientations_partial C83_turned_partial","Proved if the surface is a mirror plane of the material, which for anisotropic cubic crystals is exactly the case if its normal is a cube axis or a face diagonal (C83_orientations_partial). REFUTED for other rotations.")
y("C84","partial","C84_determinant_partial C84_stretch_partial","Improper rotations are refused. REFUTED: only the determinant is inspected.")
y("C85","partial","C85_scalar_partial","REFUTED: TypeError for all numbers.")
y("C120","proved","C120_conjugate C120_conjugate_stiffness")
y("C121","proved","C121_turn")
y("C122","partial","C122_vectors C122_stiffness C122_mixed C122_dropped_partial","REFUTED for different lengths: surplus wavevectors are dropped.")
y("C123","proved","C123_response C123_conjugate C123_unique C123_periodic")
y("C124","proved","C124_elliptic C124_decay C124_decay_partial","All orientations; C124_decay_partial is the earlier proof for mirror planes. Where the surface is no mirror plane the returned values are not solutions (C83), but their real parts are still positive.")
y("C125","partial","C125_unrotated C125_truncated_partial","REFUTED for integer constants that are rotated.")
y("C126","partial","C126_response C126_response_stable C126_response_cubic_partial C126_layer_partial C126_unique C126_unique_layer C126_vectors C126_vectors_partial C126_deep_partial","Half-space: whatever is returned for a stable crystal in any orientation is the response (C126_response_stable, C126_vectors); in which orientations a result is returned is C137. Layer: proved unless deep (thickness x Re Q > 100 for some eigenvalue), where the code uses the half-space instead. REFUTED for deep layers (C126_deep_partial): for every thickness there are stable crystals whose returned normal compliance exceeds the true one by any factor, because the largest instead of the smallest decay rate is tested.")
y("C127","proved","C127_inverse C127_inverse_layer C127_gamma C127_zero")
y("C128","proved","C128_homogeneous")
y("C137","proved","C137_orientations C137_halfspace_mirror C137_layer_mirror C137_halfspace C137_layer","np.roots, np.sqrt, null_space, solve and inv are exact; lapack_exists shows that the assumptions on them can be met.")
y("C138","proved","C138_isotropic")

Y="CM.Ref.Hertz."
y("C86","proved","C86_inverse C86_radius_pressure")
y("C87","proved","C87_derivative C87_work C87_two_fifths")
y("C88","partial","C88_displacement_continuous C88_stress_continuous C88_cutoff_jump_partial C88_load","Continuity at the contact edge (and for every r > 1e-6), zero pressure outside: proved; the pressure integrates to the load up to a relative error of 1e-24. REFUTED at the cut-off r = 1e-6, where the pressure jumps.")
y("C89","proved","C89_cylindrical C89_axis C89_surface","Off the contact edge, where the formulas divide by zero.")
y("C129","proved","C129_contact C129_far_field")
y("C130","proved","C130_elastic C130_continuous")
y("C131","proved","C131_elastic C131_continuous C131_surface")
Y="CM.Ref.Westergaard."
y("C90","partial","C90_inverse C90_energy C90_zero_partial","Inverse: proved on the whole range. Energy: proved for 0 < a; at a = 0 both energies and the mean displacement are nan (0 times log 0).")
y("C91","proved","C91_symmetry C91_contact C91_pressure")
y("C92","proved","C92_work","In the units of the file the displacement of the surface is twice the returned number (modulus E*=2 per unit wavelength / pi), so dE = - p d(2 mean_displacement).")
y("C93","partial","C93_normalisation_partial","REFUTED for every p in (0,1]: the argument mean_pressure of _pressure is in other units by a factor pi.")
y("C132","proved","C132_unit_mean")
y("C133","proved","C133_mean")
y("C134","proved","C134_energy")
Y="CM.Ref.Cone."
y("C94","partial","C94_area_partial","REFUTED: the area returned is pi R/D, not pi (R/D)^2; they agree for one angle only.")
y("C95","partial","C95_pressure C95_sampling_partial C95_outside_partial C95_deformation","Pressure and the analytic deformation: proved. REFUTED for the returned deformation: inside the contact it depends on the largest sampled radius, and it raises if no sample is inside.")
y("C135","proved","C135_unit_mean C135_load C135_sneddon")
Y="CM.Ref."
y("C136","partial","C136_displacements_partial C136_stress_partial","REFUTED: integer positions truncate the results.")
Y="CM.Ref.GreenwoodTripp."
y("C139","proved","C139_positive C139_decreasing C139_recurrence")
y("C140","partial","C140_increasing C140_asymptotic C140_types_partial","Proved for vectors of floats. REFUTED: a number raises TypeError, integer vectors are truncated.")
y("C141","partial","C141_inverse_partial C141_asymptotic_partial","REFUTED: TypeError for every vector with an entry between the cut-offs (the argument s hides the function s).")
y("C142","proved","C142_returned C142_terminates C142_no_extrapolation","simpson and interp1d are external; nan does not exist in the model.")
Y="CM.Tools."
y("C96","partial","C96_quadratic C96_limit C96_integers_partial C96_integers_zero_partial","Proved for arrays of floats (and convergence to the derivative for all functions). REFUTED for integer points: both the steps and the gradient are truncated.")
y("C97","proved","C97_inverse C97_inverse' C97_mean C97_empty","Arrays without empty axes, any number of dimensions.")
y("C98","proved","C98_value C98_metric C98_rfft")
y("C99","proved","C99_q_from_lambda C99_antitone C99_wavevectors C99_wavevectors_1d C99_sequence_1d","lambda_max = 0 raises ZeroDivisionError.")
Y="CM.Factory."
y("C100","proved","C100_chooses C100_reader C100_reader_refused C100_missing_sizes C100_object C100_refused C100_keywords C100_kind_not_enforced")
y("C101","partial","C101_not_compared_partial C101_argument_wins_partial","REFUTED: sizes are never compared.")
y("C143","partial","C143_keywords C143_positional_partial","Keyword arguments: proved. REFUTED for positional arguments (TypeError always).")
Y="CM.HS."
y("C28","proved","C28_equals_free")
y("C29","proved","C29_direct_sum C29_translation_x C29_translation_y")
y("C30","proved","C30_spatial_order C30_slices C30_unit_response")
y("C31","proved","C31_zero_padding C31_too_large C31_few_axes C31_generalised_inverse C31_reciprocal","One process.")
y("C144","partial","C144_constructible C144_one_dimension C144_spawn_child_partial C144_not_kept_partial","Construction: proved. REFUTED for children: always periodic in y only, with ten images.")
y("C145","partial","C145_parallel_partial C145_two_processes_partial","REFUTED: ValueError on every process that does not own the whole grid.")
y("C146","proved","C146_positive C146_monotone C146_unbounded C146_relative")
Y="CM.Pipe."
y("C147","proved","C147_reported_displacement")
y("C148","proved","C148_separated_row C148_separated_surfaces")
Y="CM."
y("C149","proved","CCG.C149_flat_load Pipe.C149_flat_surface")
Y="CM.CCG."
y("C150","proved","C150_relabelling C150_symmetry")
y("C151","proved","C151_units","The penetration tolerance falls back to the number 1e-3 for flat surfaces at offset minus height, and contact_mechanics always passes forcetol = 1e-5: these are absolute numbers.")
y("C154","proved","C154_undefined_points_ignored C154_given_tolerance")
Y="CM.Pipe."; y("C155","partial","C155_units C155_kept_tolerance_partial C155_flat_partial","Proved if the force tolerance is converted by the square of the unit and the roughness of the surface is above the minimal penetration tolerance in both units. REFUTED for the built-in tolerances: the force tolerance and the minimal penetration tolerance 1e-12 are absolute, and a calculation of the same flat surface in small enough units reports convergence with displacement zero.")
Y="CM.Pipe."
y("C152","proved","C152_translation C152_mirrorX C152_mirrorY C152_exchange")
y("C153","partial","C153_offsets C153_exact C153_two_calculations C153_pressures_partial C153_automatic_flat_partial C153_automatic_partial","Prescribed offsets: proved. Prescribed pressures: the exact solution is the same and two calculations differ at most by their defects; REFUTED as an identity (the initial guess depends on the reference height: with one iteration allowed a flat surface converges at one height and not at another). REFUTED for automatic steps (the third offset on a flat surface of height h is -3h).")
y("C156","proved","C156_solvable_at_offset C156_solvable_under_load C156_unique")
y("C157","proved","C157_error_bound C157_periodic_error C157_two_calculations C157_contact_conditions_suffice C157_same_load_error")
y("C158","proved","C158_monotone C158_load_curve")
Y="CM."; y("C159","proved","HS.C159_positive_work HS.C159_injective")
Y="CM.Pipe."
Y="CM."
y("C160","proved","Pipe.C160_full_contact Pipe.C160_deep_offsets CCG.C160_solver_full_contact")
y("C161","proved","Pipe.C161_returns CCG.C161_elastic_solver_returns")
Y="CM.Pipe."
Y="CM.Cli."
y("C162","partial","C162_height_unit C162_height_factor C162_unknown_unit C162_no_unit_partial","Proved whenever both units are known. REFUTED for files without unit (and no --physical_sizes-unit): every --height-unit raises KeyError, because the unit N/A is not in the table.")
Y="CM.Pipe."
y("C163","proved","C163_stiffer_substrate C163_stiffer_nonperiodic")
y("C168","proved","C168_stiffer_contact C168_stiffer_contact_nonperiodic","If the external force and a hardness are given together, SciPy's bisection is assumed to find the same root for a multiple of the function.")
Y="CM.Cli."
y("C164","partial","C164_nonperiodic C164_periodic_partial C164_periodic_poisson_partial","Proved for nonperiodic boundaries and for Poisson number 0. REFUTED for periodic half-spaces with another Poisson number: the headers state Young's modulus as the contact modulus.")
y("C165","proved","C165_pressures_same_as_pipeline")
y("C166","partial","C166_maps_match_log C166_contact_map_periodic_partial C166_contact_map_padded_partial","Pressure, displacement and gap maps: proved. REFUTED for the contact map: with nonperiodic boundaries it has 2nx x 2ny entries; the points it marks need not carry force (C167).")
Y="CM.CCG."
y("C167","partial","C167_outside_active_set_partial C167_active_set_differs_partial","REFUTED: converged results with an active point without force and with an inactive point that carries force, on a positive definite substrate. Proved: at fixed offset, if the last step was a conjugate gradient step, points outside the active set carry no force or the hardness.")
Y="CM.Cli."
y("C169","proved","C169_written_displacements C169_written_load","Hardness, if given, not negative.")
y("C170","partial","C170_automatic_returns C170_pressures_return C170_plastic_pressures C170_flat_pressure_partial C170_low_surface_partial","Proved for automatic mode, for elastic load control on rough surfaces or with --pentol, and for plastic load control with --pentol up to the failures of the bisection (characterised). REFUTED for load control on flat surfaces without --pentol (TypeError), and for plastic load control on surfaces that do not rise above zero (ValueError).")
Y="CM.System."
y("C171","partial","C171_dual_state C171_primal_state C171_one_state C171_primal_dual_agree C171_dual_solvable C171_primal_solvable C171_dual_error C171_contact_zones C171_zones_differ_partial C171_primal_nonperiodic_partial","Proved: solution, uniqueness, agreement, error bound, dual contact zone inside the primal one. REFUTED: equal contact areas (flat surface that just touches: primal all points, dual none); primal objective on nonperiodic substrates (always ValueError beyond 1x1).")
y("C172","proved","C172_objective_value C172_expansion")
y("C173","partial","C173_bounded_minimisation C173_solvable C173_refused C173_bounds_dropped_partial C173_overlap_partial C173_unconverged_partial","Proved: solution of the contact problem, refused calls; nonperiodic substrates under the hypothesis that no coefficient of the Green's function vanishes. REFUTED: bounds are dropped for other methods than L-BFGS-B, TNC, SLSQP (overlapping 'solution'); results are recorded also if the optimiser failed.")
Y="CM.CCG."
y("C174","partial","C174_parallel C174_deterministic C174_array_hardness_partial","Proved for elastic contacts and scalar hardness, given the contract of the collective calls. REFUTED for arrays of hardnesses: where one block has a single point and another has not, the processes block for ever.")
Y="CM.HS."
y("C175","partial","C175_construct C175_periodic C175_energy C175_free_construct C175_free_padded C175_free C175_solver_periodic C175_solver_free","Proved, given the contract of the FFT engine, except construction with the default stiffness at the Gamma point where the block with the Gamma point has a single row or column (REFUTED: IndexError, C102).")
Y="CM.NetCDF."
y("C176","partial","C176_array C176_number_partial C176_shadowed_partial C176_row_partial C176_ndof_partial C176_method_partial C176_attribute","Proved: arrays, and numbers under names that are not variables. REFUTED: a number under the name of a variable cannot be read; writing to a frame under the name of an array of the file overwrites a row of it; no arrays in files with several degrees of freedom; names of methods are only read as items.")
y("C177","partial","C177_elastic C177_snapshot_partial","Proved: exact read-back. REFUTED: what get_elastic_surface returned shows surfaces stored later.")
y("C178","partial","C178_kept C178_raises C178_reopen C178_size_partial","Proved except the size: REFUTED, a closed container reports the last size it was asked to take although the call raised.")
Y="CM.System."
y("C179","partial","C179_value C179_primal C179_logged C179_minimize_logged C179_not_logged_partial C179_minimize_raises_partial C179_no_forces_partial","Proved: equal energies, logged evaluations with gradient, logged minimisations. REFUTED: without gradient every logged evaluation raises TypeError; after minimize_proxy(gradient=False) the system has no forces and compute_normal_force raises.")
Y="CM.CCG."
y("C180","partial","C180_bisect C180_bearing_area C180_raises C180_low_surface_partial CM.Pipe.C180_pressures_return CM.Pipe.C180_low_topography_partial","Proved: exceptions and bearing area, with SciPy's bisection modelled. REFUTED: every load below hardness times number of points can be carried (surfaces that do not rise above zero, e.g. every flat surface of height at most zero, raise ValueError in the first step).")
Y="CM.System."
y("C181","partial","C181_coordinates C181_summaries C181_minimize C181_construct C181_no_result_partial C181_local_coordinates_partial","Proved: the state on several processes (given the contracts of the collective calls; with the boundary check on distributions where it is exact, C23), the summaries, the coordinates on one process. REFUTED: coordinates on several processes count from the corner of the block, so that together they are not those of the system; without a result an empty list is returned.")
Y="CM.Ref.Westergaard."
y("C182","proved","C182_response")
Y="CM.Ref."
y("C183","proved","C183_exact C183_hertz")
y("C184","proved","C184_cone","For vectors of distances that include the contact radius; for others the returned values inside the contact are shifted (C95).")
Y="CM.Pipe."
y("C185","partial","CM.CCG.C185_solver C185_response C185_default_response C185_solver_call C185_exact C185_calculation C185_default_partial","Proved for layers and half-spaces with a given stiffness of the uniform field: substrate, solver iterations and result. For the default half-space (also that of contact_mechanics): pressures of the exact solution repeat, and calculations are near it within their own defects, but REFUTED for displacements and offset: the code chooses the stiffness of the uniform field from the size of the cell, so that the displacement of a flat surface under a given pressure is multiplied by the number of periods per direction.")
Y="CM.Num."
y("C186","proved","C186_real C186_int C186_order C186_width C186_log","Real numbers instead of floating point numbers (no inf, nan, -0.0).")
Y="CM.MapFile."
y("C187","proved","C187_pressure C187_gap C187_contact C187_exact")
y("C188","partial","C188_data_partial C188_last_partial","Proved for all data but the last one. REFUTED for the last one: the text that describes the map follows the fractional area without a line break, so that no line of any header reads 'fractional area = number'. (Only the first map of a step has data at all, C67.)")
Y="CM.Disc."
y("C189","proved","C189_error C189_converges")
y("C190","proved","C190_hertz")
y("C191","proved","C191_load C191_displacements C191_offset C191_hertz C191_penetration C191_exact C191_calculation C191_reported C191_reported_pressed","Contact modulus one, as contact_mechanics has it. That a converged step satisfies the contact conditions within its tolerance is not guaranteed (C36); C191_calculation takes the reported fields themselves.")
Y="CM.Cli."
y("C192","partial","C192_values C192_order C192_exit C192_unknown C192_one_file C192_malformed C192_negative_partial","Proved, where a value apart from its option does not begin with a dash. REFUTED for --name value with a negative number with exponent (Python up to 3.13): --height-fac -1e-9 is refused, --height-fac=-1e-9 is accepted. argparse is modelled by its documented behaviour.")
y("C193","proved","C193_run C193_pressures","Readers, detrending, float and int by their contracts.")
Y="CM.HS."
y("C194","proved","C194_error C194_exact C194_convergence","Two-dimensional grids.")
y("C195","proved","C195_line","Two-dimensional grids; the stiffness of the uniform field not zero.")
Y="CM.Disc."
y("C196","proved","C196_load C196_displacements C196_offset C196_westergaard C196_pressed C196_calculation C196_reported C196_reported_pressed","One period of the wave (several periods: C185). That a converged step satisfies the contact conditions within its tolerance is not guaranteed (C36); C196_calculation takes the reported fields themselves.")
Y="CM.HS."
y("C197","proved","C197_energy_real_eq_fourier C197_energy_positive C197_energy_gradient C197_translation C197_plane_strain C197_square_default")
Y="CM.System.Line."
y("C198","proved","C198_primal_value C198_primal_expansion C198_dual_value C198_dual_expansion C198_strong_duality C198_primal_to_dual C198_dual_to_primal C198_primal_global C198_dual_global C198_elastic_response C198_solvable","With a positive stiffness of the uniform field (values and expansions: any).")
Y="CM.Disc."
y("C199","proved","C199_load C199_displacements C199_pressures C199_offset C199_calculation C199_pressed C199_unique","Two-dimensional grids, contact modulus one (as contact_mechanics has it). That the continuum has a continuous solution is a hypothesis (shown for full contact of waves and for Westergaard's partial contact). That a converged step satisfies the contact conditions within its tolerance is not guaranteed (C36); C199_calculation takes the reported fields themselves.")
Y="CM.Disc."
y("C200","proved","C200_load C200_displacements C200_pressures C200_offset C200_calculation C200_pressed C200_unique","Contact modulus one (as contact_mechanics has it). That the continuum has a continuous solution at the offset is a hypothesis (shown for spheres). That a converged step satisfies the contact conditions within its tolerance is not guaranteed (C36); C200_calculation takes the reported fields themselves.")
Y="CM.Disc."
y("C201","proved","C201_nonperiodic C201_nonperiodic_pressed C201_periodic C201_periodic_pressed","Half-spaces (no --thickness), elastic (no --hardness). That a converged step satisfies the contact conditions within its tolerance is not guaranteed (C36); the theorems take the written fields themselves.")
Y="CM.CCG."
y("C202","proved","C202_contents C202_arguments C202_result_new","Memory is modelled for the arrays f_r, u_r, t_r, the arrays passed and the arrays of the result; substrates return new arrays.")
y("C203","partial","C203_kept_partial C203_written_partial","REFUTED: the callback is given f_r itself. Without hardness and at prescribed offset every call gets the same array, which holds the final forces in the end; what is written into it is returned as force.")
Y="CM.Pipe."
y("C204","proved","C204_begins C204_raises C204_calculation")
Y="CM.Log."
y("C205","proved","C205_crash C205_records C205_flushed C205_synced C205_operations","standard output is not a log file here: warn does not flush it unless it is the log file")
y("C206","partial","C206_backlog_partial C206_next_line","REFUTED: set_logfile prints the waiting lines and does not flush them; a crash may leave the file empty. The next logged line brings them to disk.")
Y="CM.Cli."
y("C207","proved","C207_begins C207_raises C207_calculation")
Y="CM.CCG.Arith."
y("C208","proved","C208_exact C208_no_force_off_topography C208_displacements_are_response C208_iteration_accounting C208_offset_kept C208_never_tensile C208_first_iteration C208_bounded_by_hardness")
y("C209","proved","C209_load_met C209_load_enforced C209_no_penetration")
Y="CM.CCG.Nan."
y("C210","proved","C210_success_numbers C210_arguments_numbers C210_without_nan")
y("C211","partial","C211_plastic_nan_partial","REFUTED: comparisons with nan are false, so that nothing is in contact; the first mixing step then converges with zero force, and the nan is neither in G nor in the displacements. By C210 this can only happen if the last iteration was a mixing step.")
y("C212","proved","C212_raises","maxiter must be at least three: with fewer iterations the result is reported as not converged")
Y="CM.Cli."
y("C213","partial","C213_flags_not_written_partial","REFUTED: in elastic runs nothing of what is written depends on the convergence flags. The automatic mode prints the flag to the screen; with prescribed pressures it is not even printed. Only the load recorded in the NetCDF frame, which is the one asked for (C169), can be compared with the load in the log.")
Y="CM.Cli."
y("C214","partial","C214_function_undeformed C214_command_line_partial","Proved for contact_mechanics. REFUTED for ce_hard_wall: next_step does not reset the plastic displacements (_next_contact_step does), so that every automatic step starts from the surface the earlier steps left, whatever their order.")
Y="CM.NetCDF."
y("C215","proved","C215_synced C215_value C215_everything C215_grid","what the libraries put on disk between two synchronisations is left open, entry by entry; the file is assumed to stay readable")
y("C216","partial","C216_command_line_partial","REFUTED: dump_nc and main never call sync; between set_shape and close nothing is sure to be on disk. After any number of steps the file may hold the grid and not a single frame. (With sync after each frame C215 applies.)")
Y="CM.System."
y("C217","partial","C217_gradient C217_no_gradient_partial C217_never_partial","Proved for results with a gradient. REFUTED for the others (SciPy's Nelder-Mead, Powell, COBYLA): _update_state reads result.jac and raises AttributeError after the state was stored; the result is lost.")
y("C218","proved","C218_minimize C218_history C218_construct","Hypothesis if the boundary check of a nonperiodic substrate is enabled: a distribution on which that check is exact (see C23).")
Y="CM.NetCDF."
y("C219","partial","C219_read C219_netcdf4_partial C219_write_partial C219_other_partial","Proved: with SciPy (netCDF4 not installed) coordinates and forces are read row by row. REFUTED: with netCDF4 opening raises TypeError (sqrt of a Dimension object); the array that reading gives cannot be assigned; variables that are not three numbers per atom cannot be read; negative frames raise TypeError with SciPy.")
Y="CM.Pipe."
y("C220","partial","C220_table C220_elastic C220_exact C220_plastic_partial","Proved for elastic calculations in all three modes (C220_table also for automatic plastic ones). REFUTED for plastic calculations with prescribed offsets (C220_plastic_partial): the table subtracts the surface before the step, the field the surface after it; mean gap -1 with a gap field that vanishes.")
Y="CM.Cli."
y("C221","partial","C221_maps C221_killed C221_completed_steps C221_stale_partial","Proved (for different map names): no map is overwritten within a run, at any crash point the maps of completed steps are complete. REFUTED (C221_stale_partial): a second, shorter run leaves maps of the first run under the following numbers.")
Y="CM.Factory."
y("C222","partial","C222_hardness C222_physical_sizes_partial","Proved without physical_sizes, or with those of the surface. REFUTED with other physical_sizes (C222_physical_sizes_partial): they change the substrate only; the hardness is converted to a force with the area of the surface, and pressures reach the hardness times the quotient of the two areas.")
Y="CM.SubState."
y("C223","partial","C223_compute C223_compute_k C223_check C223_check_partial C223_flags_partial C223_together_partial","Proved: over all histories the attributes hold what the last successful calculation of their kind returned, refused ones change nothing, and check() judges the forces of the last compute by the rule of C23. REFUTED: after compute without forces check() raises TypeError (C223_check_partial); compute_k stores forces although only the energy is asked for (C223_flags_partial); compute_k leaves forces of earlier displacements next to its own energy (C223_together_partial).")
Y="CM.HS."
y("C224","partial","C224_superposition C224_stiffer C224_unit_of_length C224_negative_images_partial","Superposition and scaling proved. REFUTED for the number of images (C224_negative_images_partial): a negative one is accepted and makes the surface rigid, no force displaces anything (for numbers from zero on see C146_positive).")
Y="CM.SubState."
y("C225","partial","C225_check C225_sound C225_periodic_partial","Proved: the check misses nothing, and is exact if no direction is periodic. REFUTED otherwise (C225_periodic_partial): it also looks at the first and last row of periodic directions, so that of two fields, one the other moved along the period, one is accepted and the other refused.")
Y="CM.Pipe."
