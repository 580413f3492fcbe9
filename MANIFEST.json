{
 "claims": [
  {
   "property": "C01",
   "status": "proved",
   "theorems": [
    "Nannos.C01_plane_wave_is_transverse"
   ],
   "note": ""
  },
  {
   "property": "C02",
   "status": "proved",
   "theorems": [
    "Nannos.C02_modal_amplitude_is_magnetic_amplitude"
   ],
   "note": ""
  },
  {
   "property": "C03",
   "status": "proved",
   "theorems": [
    "Nannos.C03_reciprocal_lattice_is_dual",
    "Nannos.C03_area"
   ],
   "note": ""
  },
  {
   "property": "C04",
   "status": "proved",
   "theorems": [
    "Nannos.C04_harmonics_share_bloch_phase"
   ],
   "note": ""
  },
  {
   "property": "C05",
   "status": "proved",
   "theorems": [
    "Nannos.C05_mono_periodic_truncation"
   ],
   "note": ""
  },
  {
   "property": "C06",
   "status": "proved",
   "theorems": [
    "Nannos.C06_parallelogrammic_truncation",
    "Nannos.C06_nh_zero_miscounts"
   ],
   "note": "nh=0 is the failing boundary"
  },
  {
   "property": "C07",
   "status": "proved",
   "theorems": [
    "Nannos.C07_circular_truncation"
   ],
   "note": ""
  },
  {
   "property": "C08",
   "status": "partial",
   "theorems": [
    "Nannos.C08_specular_order_retained_partial",
    "Nannos.C08_specular_order_missing",
    "Nannos.C08_missing_on_oblique_lattice"
   ],
   "note": "false for oblique lattices with circular truncation and small nh; proved otherwise"
  },
  {
   "property": "C09",
   "status": "proved",
   "theorems": [
    "Nannos.C09_sorting_only_reorders"
   ],
   "note": ""
  },
  {
   "property": "C10",
   "status": "proved",
   "theorems": [
    "Nannos.C10_order_lookup",
    "Nannos.C10_other_arguments",
    "Nannos.C10_get_order_arguments",
    "Nannos.harmonics_distinct"
   ],
   "note": ""
  },
  {
   "property": "C11",
   "status": "partial",
   "theorems": [
    "Nannos.C11_dictionaries_partial",
    "Nannos.C11_dictionaries_fail",
    "Nannos.C11_complex_dictionaries_raise",
    "Nannos.C11_complex_dictionaries_one_order"
   ],
   "note": "false: both dictionaries share their inner dictionaries with the table of orders (witness R=9/25 read as 16/25); the transmission of the first call is right; complex dictionaries raise with more than three orders"
  },
  {
   "property": "C12",
   "status": "partial",
   "theorems": [
    "Nannos.C12_convolution_matrices_defined_partial",
    "Nannos.C12_differences_alias",
    "Nannos.C12_asymmetric_harmonics_raise"
   ],
   "note": "well-definedness and constant patterns proved; distinct differences can alias (witness), asymmetric sets can raise IndexError (witness)"
  },
  {
   "property": "C13",
   "status": "proved",
   "theorems": [
    "Nannos.C13_fourier_pair"
   ],
   "note": ""
  },
  {
   "property": "C14",
   "status": "proved",
   "theorems": [
    "Nannos.C14_convolution_matrix_of_real_pattern"
   ],
   "note": ""
  },
  {
   "property": "C15",
   "status": "proved",
   "theorems": [
    "Nannos.C15_real_space_is_fourier_series",
    "Nannos.C15_errors"
   ],
   "note": ""
  },
  {
   "property": "C16",
   "status": "proved",
   "theorems": [
    "Nannos.C16_block_and_split_are_inverse",
    "Nannos.C16_block_is_fromBlocks",
    "Nannos.C16_block_shapes"
   ],
   "note": ""
  },
  {
   "property": "C17",
   "status": "proved",
   "theorems": [
    "Nannos.C17_pointwise_inverse",
    "Nannos.C17_tensor_inverse"
   ],
   "note": ""
  },
  {
   "property": "C18",
   "status": "proved",
   "theorems": [
    "Nannos.C18_kmatrix"
   ],
   "note": ""
  },
  {
   "property": "C19",
   "status": "partial",
   "theorems": [
    "Nannos.C19_constant_pattern_operators",
    "Nannos.C19_constant_tensor_operators",
    "Nannos.C19_constant_pattern_results_partial",
    "Nannos.Examples.C19_amplifying_substrate"
   ],
   "note": "operators and modes agree for every constant; results agree unless the amplifying last layer (Im eps<0) is among the layers given by pixels: then they differ (witness R=1/5 versus R=5)"
  },
  {
   "property": "C20",
   "status": "proved",
   "theorems": [
    "Nannos.C20_uniform_modes"
   ],
   "note": ""
  },
  {
   "property": "C21",
   "status": "proved",
   "theorems": [
    "Nannos.C21_patterned_modes"
   ],
   "note": ""
  },
  {
   "property": "C22",
   "status": "proved",
   "theorems": [
    "Nannos.C22_scattering_matrix_solves_stack",
    "Nannos.C22_get_S_matrix"
   ],
   "note": ""
  },
  {
   "property": "C23",
   "status": "proved",
   "theorems": [
    "Nannos.C23_partial_scattering_matrices_compose",
    "Nannos.C23_get_S_matrix"
   ],
   "note": ""
  },
  {
   "property": "C24",
   "status": "proved",
   "theorems": [
    "Nannos.C24_zero_thickness_layer_is_transparent",
    "Nannos.C24_get_S_matrix"
   ],
   "note": "get_S_matrix form: no layer is a copy (C83 allows copies)."
  },
  {
   "property": "C25",
   "status": "proved",
   "theorems": [
    "Nannos.C25_splitting_a_layer_changes_nothing",
    "Nannos.C25_get_S_matrix"
   ],
   "note": "get_S_matrix form: no layer is a copy (C83 allows copies)."
  },
  {
   "property": "C26",
   "status": "proved",
   "theorems": [
    "Nannos.C26_homogeneous_stack_does_not_reflect",
    "Nannos.C26_nothing_is_reflected",
    "Nannos.C26_fields_are_the_incident_wave",
    "Nannos.C26_results_are_returned"
   ],
   "note": ""
  },
  {
   "property": "C27",
   "status": "proved",
   "theorems": [
    "Nannos.C27_calls_do_not_depend_on_history",
    "Nannos.C27_leftovers_in_layers_do_not_matter"
   ],
   "note": ""
  },
  {
   "property": "C28",
   "status": "partial",
   "theorems": [
    "Nannos.C28_reset_makes_edits_visible_partial",
    "Nannos.C28_thickness_edits_need_only_reset_S",
    "Nannos.C28_without_reset_edits_are_ignored",
    "Nannos.C28_superstrate_edits_are_not_refreshed"
   ],
   "note": "false for edits of what the constructor reads (witness); proved for all other edits"
  },
  {
   "property": "C29",
   "status": "proved",
   "theorems": [
    "Nannos.C29_fields_are_continuous"
   ],
   "note": ""
  },
  {
   "property": "C30",
   "status": "proved",
   "theorems": [
    "Nannos.C30_fields_satisfy_maxwell"
   ],
   "note": ""
  },
  {
   "property": "C31",
   "status": "proved",
   "theorems": [
    "Nannos.C31_flux_is_poynting_flux",
    "Nannos.C31_flux_of_the_fields"
   ],
   "note": ""
  },
  {
   "property": "C32",
   "status": "proved",
   "theorems": [
    "Nannos.C32_energy_conservation"
   ],
   "note": "R+T=1 after any history, any number of layers and harmonics, lossless inner layers (Hermitian tensors included), arbitrary last layer; 'original' formulation or 1D lattice, specular order retained (C08), incidence from above"
  },
  {
   "property": "C33",
   "status": "proved",
   "theorems": [
    "Nannos.C33_passivity"
   ],
   "note": "R+T<=1, R_j>=0, and T_j>=0 for a uniform last layer of any complex permittivity"
  },
  {
   "property": "C34",
   "status": "proved",
   "theorems": [
    "Nannos.C34_complex_amplitudes_match_efficiencies",
    "Nannos.C34_other_names_raise"
   ],
   "note": ""
  },
  {
   "property": "C35",
   "status": "proved",
   "theorems": [
    "Nannos.C35_totals_are_sums_over_orders"
   ],
   "note": ""
  },
  {
   "property": "C36",
   "status": "partial",
   "theorems": [
    "Nannos.C36_copies_are_interchangeable_partial",
    "Nannos.C36_copies_that_cannot_be_solved",
    "Nannos.C36_material_of_a_copy_is_ignored",
    "Nannos.C36_material_of_a_copy_is_ignored_case"
   ],
   "note": "copies of uniform layers or before their original raise, edits of a copy are ignored; proved for faithful copies after their patterned original"
  },
  {
   "property": "C37",
   "status": "proved",
   "theorems": [
    "Nannos.C37_layer_lookup"
   ],
   "note": ""
  },
  {
   "property": "C38",
   "status": "proved",
   "theorems": [
    "Nannos.C38_constructor_validates",
    "Nannos.C38_constructor_raises"
   ],
   "note": ""
  },
  {
   "property": "C39",
   "status": "proved",
   "theorems": [
    "Nannos.C39_set_backend",
    "Nannos.C39_active_backend_is_installed",
    "Nannos.config_refines",
    "Nannos.backend_names"
   ],
   "note": ""
  },
  {
   "property": "C40",
   "status": "partial",
   "theorems": [
    "Nannos.C40_device_and_precision_partial",
    "Nannos.C40_gpu_stays_with_numpy"
   ],
   "note": "false: the GPU stays selected after switching from torch to numpy (witness); everything else proved"
  },
  {
   "property": "C41",
   "status": "proved",
   "theorems": [
    "Nannos.C41_environment_variable"
   ],
   "note": ""
  },
  {
   "property": "C42",
   "status": "proved",
   "theorems": [
    "Nannos.C42_one_handler",
    "Nannos.C42_reload_resets_level",
    "Nannos.C42_user_handler_duplicates_messages"
   ],
   "note": "every package reload counts as set_log_level('WARNING'); with a handler added by the user messages are duplicated (negative theorem)"
  },
  {
   "property": "C43",
   "status": "proved",
   "theorems": [
    "Nannos.C43_shape_mask",
    "Nannos.C43_empty_grid"
   ],
   "note": "shapely's predicates are parameters with their documented meaning (Spec/Geometry.lean)"
  },
  {
   "property": "C44",
   "status": "proved",
   "theorems": [
    "Nannos.C44_geometry_mask",
    "Nannos.C44_bad_lattices",
    "Nannos.C44_rectangle",
    "Nannos.C44_square",
    "Nannos.C44_circle",
    "Nannos.C44_ellipse",
    "Nannos.C44_polygon",
    "Nannos.C44_stripe",
    "Nannos.C44_no_shapes_in_1d",
    "Nannos.C44_grid"
   ],
   "note": ""
  },
  {
   "property": "C45",
   "status": "proved",
   "theorems": [
    "Nannos.C45_pairs"
   ],
   "note": ""
  },
  {
   "property": "C46",
   "status": "proved",
   "theorems": [
    "Nannos.C46_terminates",
    "Nannos.C46_result_is_refined"
   ],
   "note": "unsorted abscissae: the first round of decisions uses values paired with other abscissae, since only x is sorted before the decisions; pairs returned are still right"
  },
  {
   "property": "C47",
   "status": "proved",
   "theorems": [
    "Nannos.C47_parloop",
    "Nannos.C47_same_for_every_schedule",
    "Nannos.C47_bad_calls"
   ],
   "note": "joblib.Parallel is a parameter with the contract that it returns results in task order"
  },
  {
   "property": "C48",
   "status": "partial",
   "theorems": [
    "Nannos.C48_point_and_value_partial",
    "Nannos.C48_stopped_early_point_and_value_disagree",
    "Nannos.C48_stopped_at_first_evaluation_raises",
    "Nannos.C48_outer_iterations",
    "Nannos.C48_bad_calls_raise"
   ],
   "note": "false for scipy runs stopped by stopval: the point returned is the previous one and the value that of another point; the first evaluation below stopval raises AttributeError; proved for nlopt and for runs without stopval"
  },
  {
   "property": "C49",
   "status": "proved",
   "theorems": [
    "Nannos.C49_simp",
    "Nannos.C49_project",
    "Nannos.C49_multi_project",
    "Nannos.C49_two_levels"
   ],
   "note": "Nthres<2 raises ZeroDivisionError"
  },
  {
   "property": "C50",
   "status": "proved",
   "theorems": [
    "Nannos.C50_multi_simp_interpolates",
    "Nannos.C50_zero_exponent_raises"
   ],
   "note": ""
  },
  {
   "property": "C51",
   "status": "partial",
   "theorems": [
    "Nannos.C51_filter_partial",
    "Nannos.C51_zero_radius",
    "Nannos.C51_weighted_average",
    "Nannos.C51_linear",
    "Nannos.C51_translation",
    "Nannos.C51_constants_are_amplified",
    "Nannos.C51_single_row"
   ],
   "note": "false for constants: every constant is multiplied by a number >1 (kernel normalised by a trapezoidal integral, not by its sum); arrays with one row or column give nan; linearity, translation equivariance and identity for zero radius proved"
  },
  {
   "property": "C52",
   "status": "proved",
   "theorems": [
    "Nannos.C52_normalised_vectors",
    "Nannos.C52_jones_vectors",
    "Nannos.C52_jones_ellipse",
    "Nannos.C52_jones_field",
    "Nannos.C52_linear_polarisation"
   ],
   "note": ""
  },
  {
   "property": "C53",
   "status": "proved",
   "theorems": [
    "Nannos.C53_material_classification"
   ],
   "note": "a 3x3 pixel grid is taken for a tensor"
  },
  {
   "property": "C54",
   "status": "proved",
   "theorems": [
    "Nannos.C54_selection",
    "Nannos.C54_wrong_names",
    "Nannos.C54_other_outcomes",
    "Nannos.C54_default_shape",
    "Nannos.C54_one_field"
   ],
   "note": "For every valid pair of names get_field_grid returns what the names select from the six Fourier series of the retrieved Fourier components; wrong names raise ValueError before any effect. Finding: without a shape a layer of scalar permittivity raises IndexError. Anisotropic patterned layers without a shape are not modelled."
  },
  {
   "property": "C55",
   "status": "partial",
   "theorems": [
    "Nannos.C55_diagonal_interfaces_partial",
    "Nannos.C55_exchanged_projector",
    "Nannos.C55_lamellae_exchanged",
    "Nannos.C55_one_dimensional",
    "Nannos.C55_exchanged_projector_any",
    "Nannos.C55_equal_moduli_partial",
    "Nannos.C55_square_nine",
    "Nannos.Examples.C55_formulations_disagree"
   ],
   "note": "False: on bi-periodic lattices the projector has tx tx and ty ty exchanged, so lamellae along an axis get the inverse rule along and the direct rule across. The law is characterised exactly for every pattern and real user-given tangent field, and shown right exactly when the exchange has no effect (45 degree interfaces). Also for generated vectors and for jones and pol (C55_exchanged_projector_any); right whenever the two moduli of the vectors agree at every pixel."
  },
  {
   "property": "C56",
   "status": "partial",
   "theorems": [
    "Nannos.C56_transversely_isotropic_partial",
    "Nannos.C56_axes_are_exchanged",
    "Nannos.C56_returned_fields",
    "Nannos.Examples.C56_crystal"
   ],
   "note": "False: the fields experience [[eyy,-eyx],[-exy,exx]]. Exact law for every tensor pattern in the formulation original; correct iff exx=eyy and eyx=-exy as truncated products."
  },
  {
   "property": "C57",
   "status": "partial",
   "theorems": [
    "Nannos.C57_circular_truncation_keeps_smallest_partial",
    "Nannos.C57_circular_truncation_keeps_longer_vector",
    "Nannos.C57_hexagonal_shell_is_split"
   ],
   "note": "false for rectangular and hexagonal lattices (the metric uses the norm of one row twice); proved for square lattices"
  },
  {
   "property": "C58",
   "status": "proved",
   "theorems": [
    "Nannos.C58_results_do_not_depend_on_the_eigensolver",
    "Nannos.C58_another_eigensolver_returns_the_same"
   ],
   "note": ""
  },
  {
   "property": "C59",
   "status": "partial",
   "theorems": [
    "Nannos.C59_within_one_pixel_partial",
    "Nannos.C59_grid_is_not_the_pixel_grid"
   ],
   "note": "false: the grid includes the end of the period (spacing 1/(N-1)), the transforms use spacing 1/N; every grid point is within one pixel of its place"
  },
  {
   "property": "C60",
   "status": "partial",
   "theorems": [
    "Nannos.C60_symmetric_patterns_partial",
    "Nannos.C60_filter_displaces"
   ],
   "note": "false: patterns are moved by one pixel (odd sizes) or half a pixel (even sizes)"
  },
  {
   "property": "C61",
   "status": "proved",
   "theorems": [
    "Nannos.C61_stress_tensor",
    "Nannos.C61_uniform_layers",
    "Nannos.C61_interfaces"
   ],
   "note": "Uniform-layer constancy for real permittivity."
  },
  {
   "property": "C62",
   "status": "partial",
   "theorems": [
    "Nannos.C62_normal_stress",
    "Nannos.C62_normal_stress_original_partial",
    "Nannos.C62_normal_stress_varies"
   ],
   "note": "Proved for the formulation original with isotropic patterns. For the other formulations C62_normal_stress gives the exact variation: the code computes the displacement from the convolution matrix whatever the formulation, so the component changes with depth by the difference of the two tangential energies. C62_normal_stress_varies: it does change, by 3/25, in a lossless mono-periodic grating with tangent, after any history. Missing: bi-periodic lattices with tangent vectors that vary, whose operator is not Hermitian in general."
  },
  {
   "property": "C63",
   "status": "proved",
   "theorems": [
    "Nannos.C63_unit_of_length"
   ],
   "note": ""
  },
  {
   "property": "C64",
   "status": "proved",
   "theorems": [
    "Nannos.C64_lateral_displacement",
    "Nannos.C64_lateral_displacement_fft",
    "Nannos.C64_lateral_displacement_opt",
    "Nannos.C64_lateral_displacement_default"
   ],
   "note": "Generated vectors must move with the pattern; this is proved for the generators fft and opt (at most 64 pixels a side) and patterns which do not reach the border of the cell. Arrays of tensors are square outside the formulation original (C108)."
  },
  {
   "property": "C65",
   "status": "partial",
   "theorems": [
    "Nannos.C65_rotation_partial",
    "Nannos.C65_truncation_depends_on_orientation",
    "Nannos.C65_orders_retained",
    "Nannos.C65_tangent_depends_on_orientation"
   ],
   "note": "Proved when the same orders are retained (parallelogrammic truncation or user array): any angle in the formulation original, with turned tensors; multiples of 90 degrees in the other formulations, with the tangent vectors given by the user. False with circular truncation on oblique lattices, which keeps other orders after the rotation (witness), and for other angles in the formulation tangent, whose projector exchanges the components of the vectors (witness, 45 degrees). The generators of tangent vectors do not receive the lattice."
  },
  {
   "property": "C66",
   "status": "proved",
   "theorems": [
    "Nannos.C66_reflection",
    "Nannos.C66_angles"
   ],
   "note": "In the formulation jones half turns only: its complex vectors have a handedness, which a reflection does not reverse (C78_jones_mixes_polarisations). Generated tangent fields must reflect with the pattern. Arrays of tensors are square outside the formulation original (C108)."
  },
  {
   "property": "C67",
   "status": "proved",
   "theorems": [
    "Nannos.C67_listing_of_orders"
   ],
   "note": ""
  },
  {
   "property": "C68",
   "status": "proved",
   "theorems": [
    "Nannos.C68_layer_construction",
    "Nannos.C68_copy",
    "Nannos.C68_two_unnamed_copies_are_refused",
    "Nannos.C68_layer_reset",
    "Nannos.C68_reset_layers_then_simulation"
   ],
   "note": ""
  },
  {
   "property": "C69",
   "status": "partial",
   "theorems": [
    "Nannos.C69_shared_layers_partial",
    "Nannos.C69_reset_after_sharing",
    "Nannos.C69_same_settings",
    "Nannos.C69_other_simulations_overwrite_the_modes"
   ],
   "note": "False: modes are stored in the layer objects, so a solved simulation mixes in the modes of another simulation that solved the same layers since (witness with two wavelengths). Proved when other uses come before the simulation is solved, after reset(), and for simulations with the same settings."
  },
  {
   "property": "C70",
   "status": "partial",
   "theorems": [
    "Nannos.C70_vectors",
    "Nannos.C70_lamellae",
    "Nannos.C70_exchange_of_materials",
    "Nannos.C70_displacement_partial",
    "Nannos.C70_displacement_fails_at_border",
    "Nannos.C70_absorbing_inclusions_are_not_seen",
    "Nannos.C70_smoothing",
    "Nannos.C70_weak_patterns"
   ],
   "note": "False in three places: normalised vectors are (1,0) wherever the smoothed gradient is small, also across lamellae along y; contrasts of the imaginary part only are not seen at all (the filter takes the real part). displaced patterns which reach the border of the cell do not get the displaced vectors, because of one-sided differences at the ends of the tiled array (counterexample with three pixels). Displacement proved for patterns which do not reach the border."
  },
  {
   "property": "C71",
   "status": "partial",
   "theorems": [
    "Nannos.C71_shapes",
    "Nannos.C71_layers",
    "Nannos.C71_generator_names",
    "Nannos.C71_accepted_patterns_get_vectors"
   ],
   "note": "False: exactly the squares of 2 to 64 pixels and the arrays with sides multiple of 64 are accepted (and the orders must be indices of the reduced array); all others raise ValueError or IndexError. With the search written down (Model/NewtonCG) every accepted pattern gets vectors, for orders in opposite pairs."
  },
  {
   "property": "C72",
   "status": "proved",
   "theorems": [
    "Nannos.C72_reflection_reciprocity",
    "Nannos.C72_field_reciprocity"
   ],
   "note": "The condition on the formulation is made layer by layer (SymmetricFormulation); C73_jones_is_not_reciprocal shows that it cannot be dropped. The last layer is uniform; arrays of harmonics given by the user are closed under negation."
  },
  {
   "property": "C73",
   "status": "proved",
   "theorems": [
    "Nannos.C73_transmission_reciprocity",
    "Nannos.C73_field_reciprocity",
    "Nannos.C73_jones_is_not_reciprocal"
   ],
   "note": "C73_jones_is_not_reciprocal shows that the condition on the formulation cannot be dropped: with the formulation jones a structure of reciprocal materials transmits into the other polarisation with opposite signs from the two sides. The stack contains no copies of layers (a copy has to come after its original, in both directions)."
  },
  {
   "property": "C74",
   "status": "proved",
   "theorems": [
    "Nannos.C74_efficiencies_of_polarisation",
    "Nannos.C74_unpolarised_light",
    "Nannos.C74_total_efficiencies_of_polarisation",
    "Nannos.C74_fields_of_polarisation",
    "Nannos.C74_defined",
    "Nannos.C74_total_defined",
    "Nannos.C74_fields_defined"
   ],
   "note": ""
  },
  {
   "property": "C75",
   "status": "proved",
   "theorems": [
    "Nannos.C75_poynting_theorem",
    "Nannos.C75_poynting_theorem_pixels",
    "Nannos.C75_absorption",
    "Nannos.C75_absorption_pixels"
   ],
   "note": ""
  },
  {
   "property": "C76",
   "status": "proved",
   "theorems": [
    "Nannos.C76_unit_cell"
   ],
   "note": "The claim is for the formulation 'original' and isotropic materials: other formulations fail (C55, C56)."
  },
  {
   "property": "C77",
   "status": "proved",
   "theorems": [
    "Nannos.C77_specular_order",
    "Nannos.C77_total"
   ],
   "note": "The claim is for the formulation 'original' and isotropic materials."
  },
  {
   "property": "C78",
   "status": "proved",
   "theorems": [
    "Nannos.C78_reflected_wave",
    "Nannos.C78_orders_in_pairs",
    "Nannos.C78_no_interference",
    "Nannos.C78_no_interference_total",
    "Nannos.C78_polarisations_do_not_mix",
    "Nannos.C78_opposite_orders",
    "Nannos.C78_gratings",
    "Nannos.C78_jones_mixes_polarisations"
   ],
   "note": "Permeability one; in the formulation jones half turns only: C78_jones_mixes_polarisations is a structure with a mirror plane on which that formulation sends half of the transmitted power into the other polarisation. Formulations which ask a generator for tangent vectors need one which respects the symmetry. Arrays of tensors are square outside the formulation original (C108)."
  },
  {
   "property": "C79",
   "status": "partial",
   "theorems": [
    "Nannos.C79_magnetic_maxwell_partial",
    "Nannos.C79_normal_field_is_induction",
    "Nannos.C79_returned_fields_fail",
    "Nannos.C79_magnetic_continuity",
    "Nannos.C79_magnetic_energy_partial",
    "Nannos.C79_magnetic_passive",
    "Nannos.C79_energy_magnetic_superstrate",
    "Nannos.C79_negative_index"
   ],
   "note": "Holds with the returned normal magnetic field read as the induction and with the sum of the efficiencies equal to the permeability of the superstrate; the code violates the rest (counterexamples proved). Only reachable by assigning layer.mu after construction."
  },
  {
   "property": "C80",
   "status": "proved",
   "theorems": [
    "Nannos.C80_planar_stack",
    "Nannos.C80_planar_defined",
    "Nannos.C80_fields",
    "Nannos.C80_fresnel",
    "Nannos.C80_airy",
    "Nannos.C80_total_reflection",
    "Nannos.C80_brewster",
    "Nannos.C80_half_wave",
    "Nannos.C80_quarter_wave"
   ],
   "note": "The superstrate has permeability one; existence of the result is claimed without user-given harmonics, the other statements for any returned result."
  },
  {
   "property": "C81",
   "status": "proved",
   "theorems": [
    "Nannos.C81_supercell",
    "Nannos.C81_gratings"
   ],
   "note": "Permeability one. Formulations which ask a generator for tangent vectors need one which repeats its vectors along with the pattern, or layers with given vectors. Both simulations are assumed to return results. Arrays of tensors are square outside the formulation original (C108)."
  },
  {
   "property": "C82",
   "status": "proved",
   "theorems": [
    "Nannos.C82_lamellar"
   ],
   "note": "Formulation original (with the others, two-dimensional lattices use different operators: C55). Permeability one."
  },
  {
   "property": "C83",
   "status": "proved",
   "theorems": [
    "Nannos.C83_structure"
   ],
   "note": "Both results have to be returned. Non-negative thicknesses. Permeability one. Both stacks with, or both without, patterned layers."
  },
  {
   "property": "C84",
   "status": "proved",
   "theorems": [
    "Nannos.C84_superstrate_thickness"
   ],
   "note": "Both results have to be returned. Non-negative thicknesses, permeability one, lossless superstrate."
  },
  {
   "property": "C85",
   "status": "proved",
   "theorems": [
    "Nannos.C85_absorbing_results_defined"
   ],
   "note": "Under the assumption that solve() succeeded (C86) and that the eigenvectors of each layer are complete. Permeability one, lossless superstrate; formulation original, or one period, or vectors which are the same at all pixels."
  },
  {
   "property": "C86",
   "status": "proved",
   "theorems": [
    "Nannos.C86_solve_succeeds",
    "Nannos.C86_solve_succeeds_any_formulation",
    "Nannos.C86_fft_vectors",
    "Nannos.C86_opt_vectors",
    "Nannos.C86_mixed_signs_fail"
   ],
   "note": "The eigenvalue routine is assumed to return. All formulations; patterns of numbers or of tensors."
  },
  {
   "property": "C87",
   "status": "proved",
   "theorems": [
    "Nannos.C87_thickness_derivatives"
   ],
   "note": "Exact arithmetic: the derivative computed by the autograd backends is not modelled, the theorem says it exists. Negative thicknesses, which the constructor refuses, are included."
  },
  {
   "property": "C88",
   "status": "proved",
   "theorems": [
    "Nannos.C88_isolated_failures"
   ],
   "note": ""
  },
  {
   "property": "C89",
   "status": "proved",
   "theorems": [
    "Nannos.C89_order_efficiencies",
    "Nannos.C89_total_efficiencies",
    "Nannos.C89_fields"
   ],
   "note": "Exact arithmetic: that the derivatives exist, not that the autograd backends compute them. The theorem does not say that results are returned near by (completeness of the eigenvectors may be lost). Permeability one; formulation original, or tangent with one period, or tangent fields given by the user."
  },
  {
   "property": "C90",
   "status": "proved",
   "theorems": [
    "Nannos.C90_transmitted_orders",
    "Nannos.C90_reflected_orders"
   ],
   "note": "Permeability one in the first and last layers; any material in between. Requires that the calls return."
  },
  {
   "property": "C91",
   "status": "partial",
   "theorems": [
    "Nannos.C91_structure_picture_partial",
    "Nannos.C91_rectangular_pattern_cut"
   ],
   "note": "Square pixel arrays and homogeneous layers. False for rectangular arrays: the numbers of pixels are exchanged but the sizes of the boxes are not, so that part of the period stays empty. Rendering by pyvista is not modelled."
  },
  {
   "property": "C92",
   "status": "partial",
   "theorems": [
    "Nannos.C92_layer_picture_partial",
    "Nannos.C92_cell_outside_axes",
    "Nannos.C92_unit_cell_outline"
   ],
   "note": "The tiles are right for every lattice. The limits contain them if no component of the basis vectors is negative; false otherwise, with a counterexample. Rendering by matplotlib is not modelled."
  },
  {
   "property": "C93",
   "status": "proved",
   "theorems": [
    "Nannos.C93_coefficients_decide",
    "Nannos.C93_single_order",
    "Nannos.C93_homogeneous_any_formulation"
   ],
   "note": "Exact equality of outcomes, errors included, by running both structures in lockstep.."
  },
  {
   "property": "C94",
   "status": "proved",
   "theorems": [
    "Nannos.C94_thin_layer",
    "Nannos.C94_thin_layer_fields"
   ],
   "note": "If results are returned without the film and for the film of no thickness. Copies of patterned layers allowed when faithful (see C36)."
  },
  {
   "property": "C95",
   "status": "partial",
   "theorems": [
    "Nannos.C95_constant_vectors_partial",
    "Nannos.C95_constant_vectors_used_partial",
    "Nannos.C95_square_nine",
    "Nannos.C95_energy_created"
   ],
   "note": "False for vectors which vary over the unit cell: a lossless grating in air with T > 1.15 and R = 0 is exhibited. Proved for vectors which are the same at all pixels, given by the user or made by a generator, as in the default simulation with nh = 9 on a square lattice."
  },
  {
   "property": "C96",
   "status": "proved",
   "theorems": [
    "Nannos.C96_flux_conservation",
    "Nannos.C96_flux_passive"
   ],
   "note": "First and last layer without thickness (the amplitudes of a thick layer are given at its two faces). Permeability one."
  },
  {
   "property": "C97",
   "status": "proved",
   "theorems": [
    "Nannos.C97_scattering_matrix_missing_at_guided_waves"
   ],
   "note": "Permeability one. The wave is stated with the modal amplitudes of the layers (Spec/Guided.lean)."
  },
  {
   "property": "C98",
   "status": "partial",
   "theorems": [
    "Nannos.C98_results_without_guided_waves_partial",
    "Nannos.C98_field_missing_above_plasmon",
    "Nannos.C98_otto_counterexample"
   ],
   "note": "The code violates the property: the recursion over layers goes through the scattering matrices of parts of the stack, and fails where a part supports a wave by itself although the whole does not. C98_otto_counterexample: prism, air gap, metal of permittivity -2, 60 degrees: efficiencies are returned, fields in the gap never. Proved: results are returned when no part 0..k, and for the fields in layer l no part l..k, supports a wave."
  },
  {
   "property": "C99",
   "status": "proved",
   "theorems": [
    "Nannos.C99_grad"
   ],
   "note": "What the returned function computes is up to autograd and torch."
  },
  {
   "property": "C100",
   "status": "proved",
   "theorems": [
    "Nannos.C100_lossless_grating_modes",
    "Nannos.C100_lossless_grating_results"
   ],
   "note": "Contracts of the eigenvalue routine: all eigenvalues, and a basis of eigenvectors when there is one (EigSpectrum, EigBasis)."
  },
  {
   "property": "C101",
   "status": "proved",
   "theorems": [
    "Nannos.C101_conical_modes"
   ],
   "note": "Contract of the eigenvalue routine: all eigenvalues with multiplicities (EigSpectrum)."
  },
  {
   "property": "C102",
   "status": "proved",
   "theorems": [
    "Nannos.C102_painting",
    "Nannos.C102_layer",
    "Nannos.C102_disc",
    "Nannos.C102_stripes"
   ],
   "note": "The assignment eps[mask] = e is the numpy statement of the user, modelled as such."
  },
  {
   "property": "C103",
   "status": "proved",
   "theorems": [
    "Nannos.C103_denser_stack",
    "Nannos.C103_generated_vectors_see_factor",
    "Nannos.C103_denser_stack_opt"
   ],
   "note": "Exact correspondence of two runs, errors included; the one condition concerns layers whose vectors are left to a generator."
  },
  {
   "property": "C104",
   "status": "proved",
   "theorems": [
    "Nannos.C104_stack_upside_down",
    "Nannos.C104_mirror_stack"
   ],
   "note": ""
  },
  {
   "property": "C105",
   "status": "proved",
   "theorems": [
    "Nannos.C105_as_many_orders_as_pixels",
    "Nannos.C105_gratings",
    "Nannos.C105_crossed_gratings"
   ],
   "note": ""
  },
  {
   "property": "C106",
   "status": "proved",
   "theorems": [
    "Nannos.C106_any_minimiser",
    "Nannos.C106_band_limited_slopes",
    "Nannos.C106_only_moduli",
    "Nannos.C106_equal_moduli_show_no_interface",
    "Nannos.C106_displacement",
    "Nannos.C106_finer_patterns_are_stretched",
    "Nannos.C106_one_iteration_finds_the_minimum",
    "Nannos.C106_default_vectors",
    "Nannos.C106_displacement_default",
    "Nannos.C106_orders_of_a_simulation",
    "Nannos.C106_slope_lengths",
    "Nannos.C106_relative_lengths"
   ],
   "note": "The first theorems have the minimisation by scipy as a parameter of which only one thing is asked: what it returns is a minimiser. The last ones model the single iteration of Newton-CG the code asks for and prove that it finds the minimum."
  },
  {
   "property": "C107",
   "status": "partial",
   "theorems": [
    "Nannos.C107_generated_is_given_partial",
    "Nannos.C107_circular_fewer_orders",
    "Nannos.C107_one_order_same_vector",
    "Nannos.C107_square_nine",
    "Nannos.C107_square_nine_is_original",
    "Nannos.C107_square_nine_tangent"
   ],
   "note": "True for the parallelogrammic truncation, mono-periodic lattices and harmonics given by the user. False for the circular truncation (the default): the generator is asked for a truncation of the number of orders kept, and gets strictly fewer; with nh = 9 on a square lattice it gets one, and returns the same vector at every pixel: zero for patterns clear of the border, so that jones and pol return exactly what original returns."
  },
  {
   "property": "C108",
   "status": "partial",
   "theorems": [
    "Nannos.C17_tensor_inverse",
    "Nannos.C86_solve_succeeds_any_formulation",
    "Nannos.C108_rectangular_arrays_fail",
    "Nannos.C108_wide_arrays",
    "Nannos.C108_wrong_inverse"
   ],
   "note": "False outside the formulation original when Nx and Ny differ: the components are cut out of the assembled array with the wrong sizes. Nothing is ever returned when the off-diagonal components vanish, when the tensor is the same everywhere, or when Nx > Ny and Nx + 1 is not 2 Ny; in the other cases the inverse is that of another matrix. Square arrays: C17_tensor_inverse (each tensor is inverted) and C86 (solving succeeds)."
  },
  {
   "property": "C109",
   "status": "proved",
   "theorems": [
    "Nannos.C109_same_wave",
    "Nannos.C109_same_results",
    "Nannos.C109_angles",
    "Nannos.C109_receding_wave",
    "Nannos.Examples.C109_negative_efficiencies"
   ],
   "note": "In exact arithmetic. C109_negative_efficiencies is a structure with R + T = -1 (finding 29)."
  },
  {
   "property": "C110",
   "status": "proved",
   "theorems": [
    "Nannos.C110_transmitted_orders",
    "Nannos.C110_reflected_orders",
    "Nannos.C110_total_reflection",
    "Nannos.C110_specular_only",
    "Nannos.C110_subwavelength"
   ],
   "note": "In exact arithmetic; in floating point the efficiencies of such orders are rounding errors. The statements which use energy conservation are for the formulation original, lattices of one period, or constant tangent vectors, like C32 and C85."
  },
  {
   "property": "C111",
   "status": "proved",
   "theorems": [
    "Nannos.C111_thickness_of_the_last_layer"
   ],
   "note": "The last layer has a thickness (a number, not None) in both cases. If one structure returns, so does the other, with equal values."
  },
  {
   "property": "C112",
   "status": "partial",
   "theorems": [
    "Nannos.C112_periodic_part_partial",
    "Nannos.C112_normal_incidence",
    "Nannos.C112_phase_missing"
   ],
   "note": "FALSE at oblique incidence: the grids hold the field divided by the phase of the incident wave along the layers (the periodic part). Proved for every input: the returned values are exactly that quotient, its modulus is right, and at normal incidence it is the field. Counterexample: air on permittivity 4 at 60 degrees, two pixels; no constant factor repairs it."
  },
  {
   "property": "C113",
   "status": "proved",
   "theorems": [
    "Nannos.C113_mean_over_pixels",
    "Nannos.C113_transmitted_power",
    "Nannos.C113_reflected_power"
   ],
   "note": "Permeability one; orders distinct on the grid; calls which return."
  },
  {
   "property": "C114",
   "status": "proved",
   "theorems": [
    "Nannos.C114_lossless",
    "Nannos.C114_passive",
    "Nannos.C114_grid"
   ],
   "note": "Permeability one; formulation original, one period, or constant vectors; calls which return. A lossy first layer is excluded, since the incident flux is then not defined."
  },
  {
   "property": "C115",
   "status": "proved",
   "theorems": [
    "Nannos.C115_next_power_of_2",
    "Nannos.C115_natural_numbers",
    "Nannos.C115_small_numbers",
    "Nannos.C115_negative_numbers"
   ],
   "note": "Exact logarithm."
  },
  {
   "property": "C116",
   "status": "proved",
   "theorems": [
    "Nannos.C116_get_S_matrix",
    "Nannos.C116_half_wave_layer"
   ],
   "note": "Non-magnetic homogeneous layer inserted inside a stack without copies of layers."
  },
  {
   "property": "C117",
   "status": "proved",
   "theorems": [
    "Nannos.C117_half_waves_of_thickness"
   ],
   "note": "Whatever is returned for the first thickness is returned for the second."
  },
  {
   "property": "C118",
   "status": "proved",
   "theorems": [
    "Nannos.C118_thick_layer",
    "Nannos.C118_absorbing_stack"
   ],
   "note": "C118_thick_layer assumes that the cut stack has efficiencies, that the scattering matrix of the part of the stack from the layer down exists for the starting thickness, and that the layers above are no copies. C118_absorbing_stack derives the first two for absorbing layers under a lossless superstrate, formulation original or one period, when solving succeeds with invertible eigenvectors."
  },
  {
   "property": "C119",
   "status": "proved",
   "theorems": [
    "Nannos.C119_frustrated_total_reflection"
   ],
   "note": "The existence of all the results is proved, not assumed. The permittivity of the gap is real and not zero; it may be negative. The lattice is used without a list of harmonics given by the user."
  },
  {
   "property": "C120",
   "status": "proved",
   "theorems": [
    "Nannos.C120_film_without_reflection"
   ],
   "note": "An equivalence, for every run that returns the efficiencies. The two surrounding media are non-magnetic too."
  }
 ]
}