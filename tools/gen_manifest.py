import json
C=[]
def c(p,st,th,note=""):
    C.append(dict(property=p,status=st,theorems=th,note=note))
N="Nannos."
c("C01","proved",[N+"C01_plane_wave_is_transverse"])
c("C02","proved",[N+"C02_modal_amplitude_is_magnetic_amplitude"])
c("C03","proved",[N+"C03_reciprocal_lattice_is_dual",N+"C03_area"])
c("C04","proved",[N+"C04_harmonics_share_bloch_phase"])
c("C05","proved",[N+"C05_mono_periodic_truncation"])
c("C06","proved",[N+"C06_parallelogrammic_truncation",N+"C06_nh_zero_miscounts"],"nh=0 is the failing boundary")
c("C07","proved",[N+"C07_circular_truncation"])
c("C08","partial",[N+"C08_specular_order_retained_partial",N+"C08_specular_order_missing",N+"C08_missing_on_oblique_lattice"],"false for oblique lattices with circular truncation and small nh; proved otherwise")
c("C09","proved",[N+"C09_sorting_only_reorders"])
c("C57","partial",[N+"C57_circular_truncation_keeps_smallest_partial",N+"C57_circular_truncation_keeps_longer_vector",N+"C57_hexagonal_shell_is_split"],"false for rectangular and hexagonal lattices (the metric uses the norm of one row twice); proved for square lattices")
c("C22","proved",[N+"C22_scattering_matrix_solves_stack",N+"C22_get_S_matrix"])
c("C23","proved",[N+"C23_partial_scattering_matrices_compose",N+"C23_get_S_matrix"])
c("C24","proved",[N+"C24_zero_thickness_layer_is_transparent",N+"C24_get_S_matrix"],"get_S_matrix form: no layer is a copy (C83 allows copies).")
c("C25","proved",[N+"C25_splitting_a_layer_changes_nothing",N+"C25_get_S_matrix"],"get_S_matrix form: no layer is a copy (C83 allows copies).")
c("C26","proved",[N+"C26_homogeneous_stack_does_not_reflect",N+"C26_nothing_is_reflected",N+"C26_fields_are_the_incident_wave",N+"C26_results_are_returned"])
c("C12","partial",[N+"C12_convolution_matrices_defined_partial",N+"C12_differences_alias",N+"C12_asymmetric_harmonics_raise"],"well-definedness and constant patterns proved; distinct differences can alias (witness), asymmetric sets can raise IndexError (witness)")
c("C13","proved",[N+"C13_fourier_pair"])
c("C14","proved",[N+"C14_convolution_matrix_of_real_pattern"])
c("C15","proved",[N+"C15_real_space_is_fourier_series",N+"C15_errors"])
c("C16","proved",[N+"C16_block_and_split_are_inverse",N+"C16_block_is_fromBlocks",N+"C16_block_shapes"])
c("C17","proved",[N+"C17_pointwise_inverse",N+"C17_tensor_inverse"])
c("C18","proved",[N+"C18_kmatrix"])
c("C29","proved",[N+"C29_fields_are_continuous"])
c("C30","proved",[N+"C30_fields_satisfy_maxwell"])
c("C31","proved",[N+"C31_flux_is_poynting_flux",N+"C31_flux_of_the_fields"])
c("C27","proved",[N+"C27_calls_do_not_depend_on_history",N+"C27_leftovers_in_layers_do_not_matter"])
c("C28","partial",[N+"C28_reset_makes_edits_visible_partial",N+"C28_thickness_edits_need_only_reset_S",N+"C28_without_reset_edits_are_ignored",N+"C28_superstrate_edits_are_not_refreshed"],"false for edits of what the constructor reads (witness); proved for all other edits")
c("C35","proved",[N+"C35_totals_are_sums_over_orders"])
c("C36","partial",[N+"C36_copies_are_interchangeable_partial",N+"C36_copies_that_cannot_be_solved",N+"C36_material_of_a_copy_is_ignored",N+"C36_material_of_a_copy_is_ignored_case"],"copies of uniform layers or before their original raise, edits of a copy are ignored; proved for faithful copies after their patterned original")
c("C37","proved",[N+"C37_layer_lookup"])
c("C38","proved",[N+"C38_constructor_validates",N+"C38_constructor_raises"])
c("C32","proved",[N+"C32_energy_conservation"],"R+T=1 after any history, any number of layers and harmonics, lossless inner layers (Hermitian tensors included), arbitrary last layer; 'original' formulation or 1D lattice, specular order retained (C08), incidence from above")
c("C33","proved",[N+"C33_passivity"],"R+T<=1, R_j>=0, and T_j>=0 for a uniform last layer of any complex permittivity")
c("C20","proved",[N+"C20_uniform_modes"])
c("C21","proved",[N+"C21_patterned_modes"])
c("C53","proved",[N+"C53_material_classification"],"a 3x3 pixel grid is taken for a tensor")
c("C19","partial",[N+"C19_constant_pattern_operators",N+"C19_constant_tensor_operators",N+"C19_constant_pattern_results_partial",N+"Examples.C19_amplifying_substrate"],"operators and modes agree for every constant; results agree unless the amplifying last layer (Im eps<0) is among the layers given by pixels: then they differ (witness R=1/5 versus R=5)")
c("C58","proved",[N+"C58_results_do_not_depend_on_the_eigensolver",N+"C58_another_eigensolver_returns_the_same"])
c("C34","proved",[N+"C34_complex_amplitudes_match_efficiencies",N+"C34_other_names_raise"])
c("C10","proved",[N+"C10_order_lookup",N+"C10_other_arguments",N+"C10_get_order_arguments",N+"harmonics_distinct"])
c("C11","partial",[N+"C11_dictionaries_partial",N+"C11_dictionaries_fail",N+"C11_complex_dictionaries_raise",N+"C11_complex_dictionaries_one_order"],"false: both dictionaries share their inner dictionaries with the table of orders (witness R=9/25 read as 16/25); the transmission of the first call is right; complex dictionaries raise with more than three orders")
c("C39","proved",[N+"C39_set_backend",N+"C39_active_backend_is_installed",N+"config_refines",N+"backend_names"])
c("C40","partial",[N+"C40_device_and_precision_partial",N+"C40_gpu_stays_with_numpy"],"false: the GPU stays selected after switching from torch to numpy (witness); everything else proved")
c("C41","proved",[N+"C41_environment_variable"])
c("C42","proved",[N+"C42_one_handler",N+"C42_reload_resets_level",N+"C42_user_handler_duplicates_messages"],"every package reload counts as set_log_level('WARNING'); with a handler added by the user messages are duplicated (negative theorem)")
c("C48","partial",[N+"C48_point_and_value_partial",N+"C48_stopped_early_point_and_value_disagree",N+"C48_stopped_at_first_evaluation_raises",N+"C48_outer_iterations",N+"C48_bad_calls_raise"],"false for scipy runs stopped by stopval: the point returned is the previous one and the value that of another point; the first evaluation below stopval raises AttributeError; proved for nlopt and for runs without stopval")
c("C49","proved",[N+"C49_simp",N+"C49_project",N+"C49_multi_project",N+"C49_two_levels"],"Nthres<2 raises ZeroDivisionError")
c("C50","proved",[N+"C50_multi_simp_interpolates",N+"C50_zero_exponent_raises"])
c("C45","proved",[N+"C45_pairs"])
c("C46","proved",[N+"C46_terminates",N+"C46_result_is_refined"],"unsorted abscissae: the first round of decisions uses values paired with other abscissae, since only x is sorted before the decisions; pairs returned are still right")
c("C47","proved",[N+"C47_parloop",N+"C47_same_for_every_schedule",N+"C47_bad_calls"],"joblib.Parallel is a parameter with the contract that it returns results in task order")
c("C43","proved",[N+"C43_shape_mask",N+"C43_empty_grid"],"shapely's predicates are parameters with their documented meaning (Spec/Geometry.lean)")
c("C44","proved",[N+"C44_geometry_mask",N+"C44_bad_lattices",N+"C44_rectangle",N+"C44_square",N+"C44_circle",N+"C44_ellipse",N+"C44_polygon",N+"C44_stripe",N+"C44_no_shapes_in_1d",N+"C44_grid"])
c("C59","partial",[N+"C59_within_one_pixel_partial",N+"C59_grid_is_not_the_pixel_grid"],"false: the grid includes the end of the period (spacing 1/(N-1)), the transforms use spacing 1/N; every grid point is within one pixel of its place")
c("C51","partial",[N+"C51_filter_partial",N+"C51_zero_radius",N+"C51_weighted_average",N+"C51_linear",N+"C51_translation",N+"C51_constants_are_amplified",N+"C51_single_row"],"false for constants: every constant is multiplied by a number >1 (kernel normalised by a trapezoidal integral, not by its sum); arrays with one row or column give nan; linearity, translation equivariance and identity for zero radius proved")
c("C60","partial",[N+"C60_symmetric_patterns_partial",N+"C60_filter_displaces"],"false: patterns are moved by one pixel (odd sizes) or half a pixel (even sizes)")
c("C54","proved",[N+"C54_selection",N+"C54_wrong_names",N+"C54_other_outcomes",N+"C54_default_shape",N+"C54_one_field"],
"For every valid pair of names get_field_grid returns what the names select from the six Fourier series of the retrieved Fourier components; wrong names raise ValueError before any effect. Finding: without a shape a layer of scalar permittivity raises IndexError. Anisotropic patterned layers without a shape are not modelled.")
c("C52","proved",[N+"C52_normalised_vectors",N+"C52_jones_vectors",N+"C52_jones_ellipse",N+"C52_jones_field",N+"C52_linear_polarisation"])
c("C55","partial",[N+"C55_diagonal_interfaces_partial",N+"C55_exchanged_projector",N+"C55_lamellae_exchanged",N+"C55_one_dimensional",N+"C55_exchanged_projector_any",N+"C55_equal_moduli_partial",N+"C55_square_nine",N+"Examples.C55_formulations_disagree"],
"False: on bi-periodic lattices the projector has tx tx and ty ty exchanged, so lamellae along an axis get the inverse rule along and the direct rule across. The law is characterised exactly for every pattern and real user-given tangent field, and shown right exactly when the exchange has no effect (45 degree interfaces). Also for generated vectors and for jones and pol (C55_exchanged_projector_any); right whenever the two moduli of the vectors agree at every pixel.")
c("C56","partial",[N+"C56_transversely_isotropic_partial",N+"C56_axes_are_exchanged",N+"C56_returned_fields",N+"Examples.C56_crystal"],
"False: the fields experience [[eyy,-eyx],[-exy,exx]]. Exact law for every tensor pattern in the formulation original; correct iff exx=eyy and eyx=-exy as truncated products.")
c("C61","proved",[N+"C61_stress_tensor",N+"C61_uniform_layers",N+"C61_interfaces"],"Uniform-layer constancy for real permittivity.")
c("C62","partial",[N+"C62_normal_stress",N+"C62_normal_stress_original_partial",N+"C62_normal_stress_varies"],
"Proved for the formulation original with isotropic patterns. For the other formulations C62_normal_stress gives the exact variation: the code computes the displacement from the convolution matrix whatever the formulation, so the component changes with depth by the difference of the two tangential energies. C62_normal_stress_varies: it does change, by 3/25, in a lossless mono-periodic grating with tangent, after any history. Missing: bi-periodic lattices with tangent vectors that vary, whose operator is not Hermitian in general.")
c("C63","proved",[N+"C63_unit_of_length"])
c("C64","proved",[N+"C64_lateral_displacement",N+"C64_lateral_displacement_fft",N+"C64_lateral_displacement_opt",N+"C64_lateral_displacement_default"],"Generated vectors must move with the pattern; this is proved for the generators fft and opt (at most 64 pixels a side) and patterns which do not reach the border of the cell. Arrays of tensors are square outside the formulation original (C108).")
c("C65","partial",[N+"C65_rotation_partial",N+"C65_truncation_depends_on_orientation",N+"C65_orders_retained",N+"C65_tangent_depends_on_orientation"],
"Proved when the same orders are retained (parallelogrammic truncation or user array): any angle in the formulation original, with turned tensors; multiples of 90 degrees in the other formulations, with the tangent vectors given by the user. False with circular truncation on oblique lattices, which keeps other orders after the rotation (witness), and for other angles in the formulation tangent, whose projector exchanges the components of the vectors (witness, 45 degrees). The generators of tangent vectors do not receive the lattice.")
c("C66","proved",[N+"C66_reflection",N+"C66_angles"],"In the formulation jones half turns only: its complex vectors have a handedness, which a reflection does not reverse (C78_jones_mixes_polarisations). Generated tangent fields must reflect with the pattern. Arrays of tensors are square outside the formulation original (C108).")
c("C67","proved",[N+"C67_listing_of_orders"])
c("C68","proved",[N+"C68_layer_construction",N+"C68_copy",N+"C68_two_unnamed_copies_are_refused",N+"C68_layer_reset",N+"C68_reset_layers_then_simulation"])
c("C69","partial",[N+"C69_shared_layers_partial",N+"C69_reset_after_sharing",N+"C69_same_settings",N+"C69_other_simulations_overwrite_the_modes"],
"False: modes are stored in the layer objects, so a solved simulation mixes in the modes of another simulation that solved the same layers since (witness with two wavelengths). Proved when other uses come before the simulation is solved, after reset(), and for simulations with the same settings.")
c("C70","partial",[N+"C70_vectors",N+"C70_lamellae",N+"C70_exchange_of_materials",N+"C70_displacement_partial",N+"C70_displacement_fails_at_border",N+"C70_absorbing_inclusions_are_not_seen",N+"C70_smoothing",N+"C70_weak_patterns"],
"False in three places: normalised vectors are (1,0) wherever the smoothed gradient is small, also across lamellae along y; contrasts of the imaginary part only are not seen at all (the filter takes the real part). displaced patterns which reach the border of the cell do not get the displaced vectors, because of one-sided differences at the ends of the tiled array (counterexample with three pixels). Displacement proved for patterns which do not reach the border.")
c("C71","partial",[N+"C71_shapes",N+"C71_layers",N+"C71_generator_names",N+"C71_accepted_patterns_get_vectors"],
"False: exactly the squares of 2 to 64 pixels and the arrays with sides multiple of 64 are accepted (and the orders must be indices of the reduced array); all others raise ValueError or IndexError. With the search written down (Model/NewtonCG) every accepted pattern gets vectors, for orders in opposite pairs.")
c("C72","proved",[N+"C72_reflection_reciprocity",N+"C72_field_reciprocity"],"The condition on the formulation is made layer by layer (SymmetricFormulation); C73_jones_is_not_reciprocal shows that it cannot be dropped. The last layer is uniform; arrays of harmonics given by the user are closed under negation.")
c("C73","proved",[N+"C73_transmission_reciprocity",N+"C73_field_reciprocity",N+"C73_jones_is_not_reciprocal"],"C73_jones_is_not_reciprocal shows that the condition on the formulation cannot be dropped: with the formulation jones a structure of reciprocal materials transmits into the other polarisation with opposite signs from the two sides. The stack contains no copies of layers (a copy has to come after its original, in both directions).")
c("C74","proved",[N+"C74_efficiencies_of_polarisation",N+"C74_unpolarised_light",N+"C74_total_efficiencies_of_polarisation",N+"C74_fields_of_polarisation",N+"C74_defined",N+"C74_total_defined",N+"C74_fields_defined"])
c("C75","proved",[N+"C75_poynting_theorem",N+"C75_poynting_theorem_pixels",N+"C75_absorption",N+"C75_absorption_pixels"])
c("C76","proved",[N+"C76_unit_cell"],"The claim is for the formulation 'original' and isotropic materials: other formulations fail (C55, C56).")
c("C77","proved",[N+"C77_specular_order",N+"C77_total"],"The claim is for the formulation 'original' and isotropic materials.")
c("C78","proved",[N+"C78_reflected_wave",N+"C78_orders_in_pairs",N+"C78_no_interference",N+"C78_no_interference_total",N+"C78_polarisations_do_not_mix",N+"C78_opposite_orders",N+"C78_gratings",N+"C78_jones_mixes_polarisations"],"Permeability one; in the formulation jones half turns only: C78_jones_mixes_polarisations is a structure with a mirror plane on which that formulation sends half of the transmitted power into the other polarisation. Formulations which ask a generator for tangent vectors need one which respects the symmetry. Arrays of tensors are square outside the formulation original (C108).")
c("C80","proved",[N+"C80_planar_stack",N+"C80_planar_defined",N+"C80_fields",N+"C80_fresnel",N+"C80_airy",N+"C80_total_reflection",N+"C80_brewster",N+"C80_half_wave",N+"C80_quarter_wave"],"The superstrate has permeability one; existence of the result is claimed without user-given harmonics, the other statements for any returned result.")
c("C79","partial",[N+"C79_magnetic_maxwell_partial",N+"C79_normal_field_is_induction",N+"C79_returned_fields_fail",N+"C79_magnetic_continuity",N+"C79_magnetic_energy_partial",N+"C79_magnetic_passive",N+"C79_energy_magnetic_superstrate",N+"C79_negative_index"],"Holds with the returned normal magnetic field read as the induction and with the sum of the efficiencies equal to the permeability of the superstrate; the code violates the rest (counterexamples proved). Only reachable by assigning layer.mu after construction.")
c("C81","proved",[N+"C81_supercell",N+"C81_gratings"],"Permeability one. Formulations which ask a generator for tangent vectors need one which repeats its vectors along with the pattern, or layers with given vectors. Both simulations are assumed to return results. Arrays of tensors are square outside the formulation original (C108).")
c("C82","proved",[N+"C82_lamellar"],"Formulation original (with the others, two-dimensional lattices use different operators: C55). Permeability one.")
c("C83","proved",[N+"C83_structure"],"Both results have to be returned. Non-negative thicknesses. Permeability one. Both stacks with, or both without, patterned layers.")
c("C84","proved",[N+"C84_superstrate_thickness"],"Both results have to be returned. Non-negative thicknesses, permeability one, lossless superstrate.")
c("C85","proved",[N+"C85_absorbing_results_defined"],"Under the assumption that solve() succeeded (C86) and that the eigenvectors of each layer are complete. Permeability one, lossless superstrate; formulation original, or one period, or vectors which are the same at all pixels.")
c("C86","proved",[N+"C86_solve_succeeds",N+"C86_solve_succeeds_any_formulation",N+"C86_fft_vectors",N+"C86_opt_vectors",N+"C86_mixed_signs_fail"],"The eigenvalue routine is assumed to return. All formulations; patterns of numbers or of tensors.")
c("C87","proved",[N+"C87_thickness_derivatives"],"Exact arithmetic: the derivative computed by the autograd backends is not modelled, the theorem says it exists. Negative thicknesses, which the constructor refuses, are included.")
c("C88","proved",[N+"C88_isolated_failures"],"")
c("C89","proved",[N+"C89_order_efficiencies",N+"C89_total_efficiencies",N+"C89_fields"],"Exact arithmetic: that the derivatives exist, not that the autograd backends compute them. The theorem does not say that results are returned near by (completeness of the eigenvectors may be lost). Permeability one; formulation original, or tangent with one period, or tangent fields given by the user.")
c("C90","proved",[N+"C90_transmitted_orders",N+"C90_reflected_orders"],"Permeability one in the first and last layers; any material in between. Requires that the calls return.")
c("C91","partial",[N+"C91_structure_picture_partial",N+"C91_rectangular_pattern_cut"],"Square pixel arrays and homogeneous layers. False for rectangular arrays: the numbers of pixels are exchanged but the sizes of the boxes are not, so that part of the period stays empty. Rendering by pyvista is not modelled.")
c("C92","partial",[N+"C92_layer_picture_partial",N+"C92_cell_outside_axes",N+"C92_unit_cell_outline"],"The tiles are right for every lattice. The limits contain them if no component of the basis vectors is negative; false otherwise, with a counterexample. Rendering by matplotlib is not modelled.")
c("C93","proved",[N+"C93_coefficients_decide",N+"C93_single_order",N+"C93_homogeneous_any_formulation"],"Exact equality of outcomes, errors included, by running both structures in lockstep..")
c("C94","proved",[N+"C94_thin_layer",N+"C94_thin_layer_fields"],"If results are returned without the film and for the film of no thickness. Copies of patterned layers allowed when faithful (see C36).")
c("C95","partial",[N+"C95_constant_vectors_partial",N+"C95_constant_vectors_used_partial",N+"C95_square_nine",N+"C95_energy_created"],"False for vectors which vary over the unit cell: a lossless grating in air with T > 1.15 and R = 0 is exhibited. Proved for vectors which are the same at all pixels, given by the user or made by a generator, as in the default simulation with nh = 9 on a square lattice.")
c("C96","proved",[N+"C96_flux_conservation",N+"C96_flux_passive"],"First and last layer without thickness (the amplitudes of a thick layer are given at its two faces). Permeability one.")
c("C97","proved",[N+"C97_scattering_matrix_missing_at_guided_waves"],"Permeability one. The wave is stated with the modal amplitudes of the layers (Spec/Guided.lean).")
c("C98","partial",[N+"C98_results_without_guided_waves_partial",N+"C98_field_missing_above_plasmon",N+"C98_otto_counterexample"],"The code violates the property: the recursion over layers goes through the scattering matrices of parts of the stack, and fails where a part supports a wave by itself although the whole does not. C98_otto_counterexample: prism, air gap, metal of permittivity -2, 60 degrees: efficiencies are returned, fields in the gap never. Proved: results are returned when no part 0..k, and for the fields in layer l no part l..k, supports a wave.")
c("C99","proved",[N+"C99_grad"],"What the returned function computes is up to autograd and torch.")
c("C100","proved",[N+"C100_lossless_grating_modes",N+"C100_lossless_grating_results"],"Contracts of the eigenvalue routine: all eigenvalues, and a basis of eigenvectors when there is one (EigSpectrum, EigBasis).")
c("C101","proved",[N+"C101_conical_modes"],"Contract of the eigenvalue routine: all eigenvalues with multiplicities (EigSpectrum).")
c("C102","proved",[N+"C102_painting",N+"C102_layer",N+"C102_disc",N+"C102_stripes"],"The assignment eps[mask] = e is the numpy statement of the user, modelled as such.")
c("C103","proved",[N+"C103_denser_stack",N+"C103_generated_vectors_see_factor",N+"C103_denser_stack_opt"],"Exact correspondence of two runs, errors included; the one condition concerns layers whose vectors are left to a generator.")
c("C104","proved",[N+"C104_stack_upside_down",N+"C104_mirror_stack"],"")
c("C105","proved",[N+"C105_as_many_orders_as_pixels",N+"C105_gratings",N+"C105_crossed_gratings"],"")
c("C106","proved",[N+"C106_any_minimiser",N+"C106_band_limited_slopes",N+"C106_only_moduli",N+"C106_equal_moduli_show_no_interface",N+"C106_displacement",N+"C106_finer_patterns_are_stretched",N+"C106_one_iteration_finds_the_minimum",N+"C106_default_vectors",N+"C106_displacement_default",N+"C106_orders_of_a_simulation",N+"C106_slope_lengths",N+"C106_relative_lengths"],"The first theorems have the minimisation by scipy as a parameter of which only one thing is asked: what it returns is a minimiser. The last ones model the single iteration of Newton-CG the code asks for and prove that it finds the minimum.")
c("C107","partial",[N+"C107_generated_is_given_partial",N+"C107_circular_fewer_orders",N+"C107_one_order_same_vector",N+"C107_square_nine",N+"C107_square_nine_is_original",N+"C107_square_nine_tangent"],"True for the parallelogrammic truncation, mono-periodic lattices and harmonics given by the user. False for the circular truncation (the default): the generator is asked for a truncation of the number of orders kept, and gets strictly fewer; with nh = 9 on a square lattice it gets one, and returns the same vector at every pixel: zero for patterns clear of the border, so that jones and pol return exactly what original returns.")
c("C108","partial",[N+"C17_tensor_inverse",N+"C86_solve_succeeds_any_formulation",N+"C108_rectangular_arrays_fail",N+"C108_wide_arrays",N+"C108_wrong_inverse"],"False outside the formulation original when Nx and Ny differ: the components are cut out of the assembled array with the wrong sizes. Nothing is ever returned when the off-diagonal components vanish, when the tensor is the same everywhere, or when Nx > Ny and Nx + 1 is not 2 Ny; in the other cases the inverse is that of another matrix. Square arrays: C17_tensor_inverse (each tensor is inverted) and C86 (solving succeeds).")
c("C109","proved",[N+"C109_same_wave",N+"C109_same_results",N+"C109_angles",N+"C109_receding_wave",N+"Examples.C109_negative_efficiencies"],"In exact arithmetic. C109_negative_efficiencies is a structure with R + T = -1 (finding 29).")
c("C110","proved",[N+"C110_transmitted_orders",N+"C110_reflected_orders",N+"C110_total_reflection",N+"C110_specular_only",N+"C110_subwavelength"],"In exact arithmetic; in floating point the efficiencies of such orders are rounding errors. The statements which use energy conservation are for the formulation original, lattices of one period, or constant tangent vectors, like C32 and C85.")
c("C111","proved",[N+"C111_thickness_of_the_last_layer"],"The last layer has a thickness (a number, not None) in both cases. If one structure returns, so does the other, with equal values.")
c("C112","partial",[N+"C112_periodic_part_partial",N+"C112_normal_incidence",N+"C112_phase_missing"],"FALSE at oblique incidence: the grids hold the field divided by the phase of the incident wave along the layers (the periodic part). Proved for every input: the returned values are exactly that quotient, its modulus is right, and at normal incidence it is the field. Counterexample: air on permittivity 4 at 60 degrees, two pixels; no constant factor repairs it.")
c("C113","proved",[N+"C113_mean_over_pixels",N+"C113_transmitted_power",N+"C113_reflected_power"],"Permeability one; orders distinct on the grid; calls which return.")
c("C114","proved",[N+"C114_lossless",N+"C114_passive",N+"C114_grid"],"Permeability one; formulation original, one period, or constant vectors; calls which return. A lossy first layer is excluded, since the incident flux is then not defined.")
c("C115","proved",[N+"C115_next_power_of_2",N+"C115_natural_numbers",N+"C115_small_numbers",N+"C115_negative_numbers"],"Exact logarithm.")
c("C116","proved",[N+"C116_get_S_matrix",N+"C116_half_wave_layer"],"Non-magnetic homogeneous layer inserted inside a stack without copies of layers.")
c("C117","proved",[N+"C117_half_waves_of_thickness"],"Whatever is returned for the first thickness is returned for the second.")
c("C118","proved",[N+"C118_thick_layer",N+"C118_absorbing_stack"],"C118_thick_layer assumes that the cut stack has efficiencies, that the scattering matrix of the part of the stack from the layer down exists for the starting thickness, and that the layers above are no copies. C118_absorbing_stack derives the first two for absorbing layers under a lossless superstrate, formulation original or one period, when solving succeeds with invertible eigenvectors.")
c("C119","proved",[N+"C119_frustrated_total_reflection"],"The existence of all the results is proved, not assumed. The permittivity of the gap is real and not zero; it may be negative. The lattice is used without a list of harmonics given by the user.")
c("C120","proved",[N+"C120_film_without_reflection"],"An equivalence, for every run that returns the efficiencies. The two surrounding media are non-magnetic too.")
C.sort(key=lambda d:int(d["property"][1:]))
json.dump({"claims":C},open("/verif/MANIFEST.json","w"),indent=1)
