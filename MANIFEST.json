{
 "claims": [
  {
   "property": "C01",
   "status": "proved",
   "theorems": [
    "Proposal.C01_solid_sphere_distances"
   ],
   "note": ""
  },
  {
   "property": "C02",
   "status": "proved",
   "theorems": [
    "Proposal.C02_shell_distances"
   ],
   "note": ""
  },
  {
   "property": "C03",
   "status": "partial",
   "theorems": [
    "Proposal.C03_box_distances_partial",
    "Proposal.C03_box_edge_counterexample",
    "Proposal.C03_box_through_edges_missed"
   ],
   "note": "The code violates the property for rays through an edge (C03_box_edge_counterexample, C03_box_through_edges_missed); the partial theorem covers all rays that avoid the edges."
  },
  {
   "property": "C04",
   "status": "partial",
   "theorems": [
    "Proposal.C04_crossings_partial",
    "Proposal.C04_exact_partial",
    "Proposal.C04_nearest_partial",
    "Proposal.C04_order_counterexample",
    "Proposal.C04_near_cap_counterexample",
    "Proposal.C04_rim_counterexample"
   ],
   "note": "The code violates the property for a ray that goes through an opening of the hole (C04_order_counterexample), for starts closer than the precision to a cap of a hollow cylinder (C04_near_cap_counterexample) and for rays that touch a rim (C04_rim_counterexample). For all other rays the crossings are reported exactly."
  },
  {
   "property": "C05",
   "status": "proved",
   "theorems": [
    "Proposal.C05_box_valid",
    "Proposal.C05_cylinder_valid",
    "Proposal.C05_location_partition",
    "Proposal.C05_leaving_reversed",
    "Proposal.C05_sphere_valid"
   ],
   "note": ""
  },
  {
   "property": "C06",
   "status": "partial",
   "theorems": [
    "Proposal.C06_box_inside_partial",
    "Proposal.C06_cylinder_inside_partial",
    "Proposal.C06_sphere_inside",
    "Proposal.C06_sphere_inside_direction_free"
   ],
   "note": "Spheres are covered completely; boxes for rays that avoid the edges; cylinders for lines that avoid the rims and, with a hole, for starts that are not within the precision outside of the material. In the cases left out the property is false (C03_box_edge_counterexample, C04_rim_counterexample, C04_near_cap_counterexample)."
  },
  {
   "property": "C07",
   "status": "proved",
   "theorems": [
    "Proposal.C07_closest_approach"
   ],
   "note": ""
  },
  {
   "property": "C08",
   "status": "proved",
   "theorems": [
    "Proposal.C08_current_sector"
   ],
   "note": ""
  },
  {
   "property": "C09",
   "status": "proved",
   "theorems": [
    "Proposal.C09_border_distance",
    "Proposal.C09_border_reached"
   ],
   "note": ""
  },
  {
   "property": "C10",
   "status": "proved",
   "theorems": [
    "Proposal.C10_next_interaction",
    "Proposal.C10_decay_reached",
    "Proposal.C10_minimum_reached",
    "Proposal.C10_interaction_reached"
   ],
   "note": ""
  },
  {
   "property": "C11",
   "status": "proved",
   "theorems": [
    "Proposal.C11_step_terminates",
    "Proposal.C11_no_logic_error",
    "Proposal.C11_logic_error_after_overshoot"
   ],
   "note": ""
  },
  {
   "property": "C12",
   "status": "partial",
   "theorems": [
    "Proposal.C12_step_distance_partial",
    "Proposal.C12_max_distance_partial",
    "Proposal.C12_overshoot",
    "Proposal.C12_end_reached"
   ],
   "note": "The code violates the property (C12_overshoot). The partial theorems: only a border step can exceed the requested distance."
  },
  {
   "property": "C13",
   "status": "partial",
   "theorems": [
    "Proposal.C13_distance_time_energy_partial",
    "Proposal.C13_distance_decreases"
   ],
   "note": "The code violates the property (C13_distance_decreases). The partial theorem covers regular runs: no overshoot and no emergency exit."
  },
  {
   "property": "C14",
   "status": "partial",
   "theorems": [
    "Proposal.C14_reported_fraction",
    "Proposal.C14_energy_never_increases_partial",
    "Proposal.C14_energy_raised_to_minimum"
   ],
   "note": "The energy can increase after an overshoot (C13_distance_decreases) and when it starts below the minimum (C14_energy_raised_to_minimum). The reported-fraction part is proved for all runs, monotonicity for regular runs."
  },
  {
   "property": "C15",
   "status": "proved",
   "theorems": [
    "Proposal.C15_track_head",
    "Proposal.C15_track_shape",
    "Proposal.C15_stop_reason"
   ],
   "note": ""
  },
  {
   "property": "C16",
   "status": "proved",
   "theorems": [
    "Proposal.C16_step_straight",
    "Proposal.C16_track_straight",
    "Proposal.C16_polyline_length"
   ],
   "note": ""
  },
  {
   "property": "C17",
   "status": "proved",
   "theorems": [
    "Proposal.C17_numbers_of_trial",
    "Proposal.C17_consumed"
   ],
   "note": ""
  },
  {
   "property": "C18",
   "status": "proved",
   "theorems": [
    "Proposal.C18_hierarchy_condition"
   ],
   "note": ""
  },
  {
   "property": "C19",
   "status": "proved",
   "theorems": [
    "Proposal.C19_energy_balance",
    "Proposal.C19_energy_balance_of_propagation"
   ],
   "note": ""
  },
  {
   "property": "C20",
   "status": "proved",
   "theorems": [
    "Proposal.C20_track_in",
    "Proposal.C20_partition",
    "Proposal.C20_stochastic_content",
    "Proposal.C20_continuous_content",
    "Proposal.C20_by_type",
    "Proposal.C20_by_name",
    "Proposal.C20_by_geometry"
   ],
   "note": ""
  },
  {
   "property": "C21",
   "status": "proved",
   "theorems": [
    "Proposal.C21_state_for_energy"
   ],
   "note": ""
  },
  {
   "property": "C22",
   "status": "proved",
   "theorems": [
    "Proposal.C22_state_for_distance"
   ],
   "note": ""
  },
  {
   "property": "C23",
   "status": "partial",
   "theorems": [
    "Proposal.C23_exact_time_partial",
    "Proposal.C23_faster_than_light"
   ],
   "note": "The code violates the property for the approximate time calculator (C23_faster_than_light: the lookup passes a distance where a grammage is expected); the partial theorem covers the exact time calculator."
  },
  {
   "property": "C24",
   "status": "proved",
   "theorems": [
    "Proposal.C24_entry_point",
    "Proposal.C24_exit_point",
    "Proposal.C24_energy_lost",
    "Proposal.C24_entry_on_surface",
    "Proposal.C24_exit_on_surface"
   ],
   "note": ""
  },
  {
   "property": "C25",
   "status": "partial",
   "theorems": [
    "Proposal.C25_on_track",
    "Proposal.C25_straight_track_partial",
    "Proposal.C25_not_closest"
   ],
   "note": "The code violates the property for bent tracks (C25_not_closest); the returned state is always on the track, and for straight tracks it is the nearest point up to 1e-3."
  },
  {
   "property": "C26",
   "status": "proved",
   "theorems": [
    "Proposal.C26_hit_sound",
    "Proposal.C26_hit_complete"
   ],
   "note": ""
  },
  {
   "property": "C27",
   "status": "partial",
   "theorems": [
    "Proposal.C27_construction_partial",
    "Proposal.C27_nan_accepted",
    "Proposal.C27_json",
    "Proposal.C27_cut_value",
    "Proposal.C27_cut_antitone",
    "Proposal.C27_cut_in_limits"
   ],
   "note": "Cuts given as NaN are accepted by the constructor (C27_nan_accepted); everything else is proved."
  },
  {
   "property": "C28",
   "status": "proved",
   "theorems": [
    "Proposal.C28_equal_hash",
    "Proposal.C28_flag_not_hashed",
    "Proposal.C28_equality"
   ],
   "note": ""
  },
  {
   "property": "C29",
   "status": "proved",
   "theorems": [
    "Proposal.C29_tiling",
    "Proposal.C29_cumulative",
    "Proposal.C29_without_cut",
    "Proposal.C29_only_continuous",
    "Proposal.C29_compton",
    "Proposal.C29_epair"
   ],
   "note": ""
  },
  {
   "property": "C30",
   "status": "partial",
   "theorems": [
    "Proposal.C30_root_of_e",
    "Proposal.C30_brems_remainder",
    "Proposal.C30_lorenz",
    "Proposal.C30_epair_edges",
    "Proposal.C30_compton_backwards",
    "Proposal.C30_ionization_head_on",
    "Proposal.C30_ionization_smallest",
    "Proposal.C30_electrons_edges",
    "Proposal.C30_mupair_edges",
    "Proposal.C30_photo_pair_edges",
    "Proposal.C30_photonuclear_pion",
    "Proposal.C30_photonuclear_remainder",
    "Proposal.C30_weak_smallest",
    "Proposal.C30_lowest_energies",
    "Proposal.C30_bremsstrahlung",
    "Proposal.C30_compton",
    "Proposal.C30_bhabha_moller",
    "Proposal.C30_mupair",
    "Proposal.C30_photo_pairs",
    "Proposal.C30_epair_partial",
    "Proposal.C30_epair_threshold",
    "Proposal.C30_ionization_partial",
    "Proposal.C30_ionization_threshold",
    "Proposal.C30_photonuclear_partial",
    "Proposal.C30_photonuclear_heavy",
    "Proposal.C30_photonuclear_threshold",
    "Proposal.C30_weak_partial",
    "Proposal.C30_weak_small_energy"
   ],
   "note": "Proved completely for bremsstrahlung, Compton, Bhabha, Moller, muon pair production and photon pair production. Violated near threshold for electron pair production, ionization, photonuclear and weak interaction and everywhere for photonuclear interactions of particles heavier than the pion (counterexamples proved); the remaining part is proved."
  },
  {
   "property": "C31",
   "status": "partial",
   "theorems": [
    "Proposal.C31_weights",
    "Proposal.C31_mean_rate_partial",
    "Proposal.C31_mean_loss",
    "Proposal.C31_repeated_component"
   ],
   "note": "The code violates the property for a medium with a repeated component (C31_repeated_component: the stochastic rate is halved, the continuous loss is not); proved for components with different hashes."
  },
  {
   "property": "C32",
   "status": "proved",
   "theorems": [
    "Proposal.C32_medium",
    "Proposal.C32_keyed",
    "Proposal.C32_total_rate",
    "Proposal.C32_sampling_unweighted",
    "Proposal.C32_cumulative",
    "Proposal.C32_interaction_total"
   ],
   "note": ""
  },
  {
   "property": "C33",
   "status": "proved",
   "theorems": [
    "Proposal.C33_rates_scale",
    "Proposal.C33_common_multiplier",
    "Proposal.C33_loss_distribution",
    "Proposal.C33_zero_multiplier"
   ],
   "note": ""
  },
  {
   "property": "C34",
   "status": "proved",
   "theorems": [
    "Proposal.C34_selects_interval",
    "Proposal.C34_exactly_one",
    "Proposal.C34_probability",
    "Proposal.C34_no_interaction"
   ],
   "note": ""
  },
  {
   "property": "C35",
   "status": "proved",
   "theorems": [
    "Proposal.C35_inverse_bijections",
    "Proposal.C35_edges",
    "Proposal.C35_clamped",
    "Proposal.C35_degenerate"
   ],
   "note": ""
  },
  {
   "property": "C36",
   "status": "partial",
   "theorems": [
    "Proposal.C36_two_body_partial",
    "Proposal.C36_at_rest"
   ],
   "note": "The code violates the property when a daughter is at rest: its direction is NaN (C36_at_rest); proved for every decay whose daughters are not at rest in the laboratory."
  },
  {
   "property": "C37",
   "status": "partial",
   "theorems": [
    "Proposal.C37_momentum_partial",
    "Proposal.C37_forbidden",
    "Proposal.C37_performed"
   ],
   "note": "The code violates the property for parents lighter than the mass difference of the daughters (C37_performed); proved otherwise."
  },
  {
   "property": "C38",
   "status": "proved",
   "theorems": [
    "Proposal.C38_boost",
    "Proposal.C38_boost_defined",
    "Proposal.C38_boost_inverse"
   ],
   "note": ""
  },
  {
   "property": "C39",
   "status": "partial",
   "theorems": [
    "Proposal.C39_select",
    "Proposal.C39_complete",
    "Proposal.C39_reachable",
    "Proposal.C39_order",
    "Proposal.C39_stable_partial",
    "Proposal.C39_stable_lost",
    "Proposal.C39_empty"
   ],
   "note": "Intervals, completeness and order are proved for every table with positive sum; the code violates the property for empty tables (C39_empty) and for a stable table with a channel added (C39_stable_lost)."
  },
  {
   "property": "C40",
   "status": "partial",
   "theorems": [
    "Proposal.C40_add_partial",
    "Proposal.C40_all_partial",
    "Proposal.C40_replaced"
   ],
   "note": "The code violates the property: a channel with an equal branching ratio is replaced (C40_replaced); proved for different branching ratios."
  },
  {
   "property": "C41",
   "status": "proved",
   "theorems": [
    "Proposal.C41_compton"
   ],
   "note": ""
  },
  {
   "property": "C42",
   "status": "partial",
   "theorems": [
    "Proposal.C42_ionization",
    "Proposal.C42_electron_partial",
    "Proposal.C42_at_limit"
   ],
   "note": "The code violates the property for a positron that loses all its kinetic energy (C42_at_limit); proved for all losses within the limits of heavy particles and below the limit of positrons."
  },
  {
   "property": "C43",
   "status": "proved",
   "theorems": [
    "Proposal.C43_share",
    "Proposal.C43_annihilation"
   ],
   "note": ""
  },
  {
   "property": "C44",
   "status": "partial",
   "theorems": [
    "Proposal.C44_photomupair_angle",
    "Proposal.C44_bremsstrahlung",
    "Proposal.C44_epair",
    "Proposal.C44_mupair",
    "Proposal.C44_photonuclear_partial",
    "Proposal.C44_tau",
    "Proposal.C44_hadronic",
    "Proposal.C44_photoeffect",
    "Proposal.C44_photopair",
    "Proposal.C44_photomupair_partial",
    "Proposal.C44_naiv_epair"
   ],
   "note": "The code violates the property for photonuclear interactions of taus (C44_tau), for muon pairs from photons (C81_muon_pairs_light) and for NaivEpairProduction (C44_naiv_epair); proved for bremsstrahlung, electron and muon pairs, electron pairs from photons, photoeffect, photoproduction, weak and the other photonuclear interactions. Sampled shares are assumed to lie in the range given to the sampling routine."
  },
  {
   "property": "C45",
   "status": "proved",
   "theorems": [
    "Proposal.C45_deflect_unit",
    "Proposal.C45_deflect_angle",
    "Proposal.C45_deflect_azimuth",
    "Proposal.C45_deflect_extreme"
   ],
   "note": ""
  },
  {
   "property": "C46",
   "status": "partial",
   "theorems": [
    "Proposal.C46_scatter_not_unit",
    "Proposal.C46_scatter_unit_partial"
   ],
   "note": "The code violates the property (C46_scatter_not_unit is the counterexample); the partial theorem covers offsets with sx^2+sy^2<=1."
  },
  {
   "property": "C47",
   "status": "proved",
   "theorems": [
    "Proposal.C47_cartesian_round_trip",
    "Proposal.C47_spherical_round_trip"
   ],
   "note": ""
  },
  {
   "property": "C48",
   "status": "proved",
   "theorems": [
    "Proposal.C48_momentum_round_trip",
    "Proposal.C48_energy_round_trip"
   ],
   "note": ""
  },
  {
   "property": "C49",
   "status": "partial",
   "theorems": [
    "Proposal.C49_evaluate",
    "Proposal.C49_derivative",
    "Proposal.C49_derivative_evaluates_partial",
    "Proposal.C49_constant_derivative",
    "Proposal.C49_antiderivative",
    "Proposal.C49_shift_partial",
    "Proposal.C49_tiny_shift",
    "Proposal.C49_shift_degree"
   ],
   "note": "The derivative of a constant polynomial cannot be evaluated (C49_constant_derivative) and shifts of at most 1e-9 are skipped (C49_tiny_shift); everything else is proved."
  },
  {
   "property": "C50",
   "status": "partial",
   "theorems": [
    "Proposal.C50_copy_shares_buffer",
    "Proposal.C50_separate_objects_partial"
   ],
   "note": "The code violates the property: copies share their coefficients (C50_copy_shares_buffer). Proved for separately constructed polynomials."
  },
  {
   "property": "C51",
   "status": "partial",
   "theorems": [
    "Proposal.C51_bisection",
    "Proposal.C51_bisection_root",
    "Proposal.C51_newton_throws",
    "Proposal.C51_newton_in_bracket_partial",
    "Proposal.C51_newton_nan"
   ],
   "note": "The bisection part is proved. The Newton-Raphson solver returns a NaN when it meets a root with vanishing derivative (C51_newton_nan); otherwise it stays in its bracket."
  },
  {
   "property": "C52",
   "status": "proved",
   "theorems": [
    "Proposal.C52_running_moments",
    "Proposal.C52_variance_nonneg"
   ],
   "note": ""
  },
  {
   "property": "C53",
   "status": "partial",
   "theorems": [
    "Proposal.C53_gaussian_in_range_partial",
    "Proposal.C53_gaussian_monotone",
    "Proposal.C53_gaussian_distribution",
    "Proposal.C53_zero_width",
    "Proposal.C53_exponential"
   ],
   "note": "For a vanishing width the Gaussian sampler ignores the limits (C53_zero_width); proved for positive widths with an exact normal distribution function and quantile function as parameters."
  },
  {
   "property": "C54",
   "status": "partial",
   "theorems": [
    "Proposal.C54_homogeneous",
    "Proposal.C54_exponential_partial",
    "Proposal.C54_exponential_additive_partial",
    "Proposal.C54_perpendicular"
   ],
   "note": "Perpendicular to the axis an exponential density gives NaN and exceptions (C54_perpendicular), and with a radial axis its grammage is not additive; homogeneous densities and all other exponential cases are proved."
  },
  {
   "property": "C55",
   "status": "partial",
   "theorems": [
    "Proposal.C55_polynomial_partial",
    "Proposal.C55_spline_partial",
    "Proposal.C55_negative_grammage",
    "Proposal.C55_radial"
   ],
   "note": "The code violates the property: the integral is divided by the cosine once too often (C55_negative_grammage); proved for flight along the axis, with the exact deviation for all other directions of a Cartesian axis. C55_radial disproves it for a radial axis: flying inward gives the grammage of flying outward."
  },
  {
   "property": "C56",
   "status": "partial",
   "theorems": [
    "Proposal.C56_equal_partial",
    "Proposal.C56_homogeneous",
    "Proposal.C56_axis_ignored"
   ],
   "note": "The code violates the property: direction and kind of the axis are not compared (C56_axis_ignored); proved for equal axes and for homogeneous densities."
  },
  {
   "property": "C57",
   "status": "proved",
   "theorems": [
    "Proposal.C57_media_found",
    "Proposal.C57_media_kept",
    "Proposal.C57_media_unknown",
    "Proposal.C57_media_none",
    "Proposal.C57_components",
    "Proposal.C57_particle_found",
    "Proposal.C57_particle_conflict",
    "Proposal.C57_particle_kept",
    "Proposal.C57_particle_unknown"
   ],
   "note": "C57_media_none records that the lookup dereferences nothing and returns null before any medium was made; the static table of MediumFactory makes media at load time"
  },
  {
   "property": "C58",
   "status": "partial",
   "theorems": [
    "Proposal.C58_same_numbers_partial",
    "Proposal.C58_equal_partial",
    "Proposal.C58_comparison",
    "Proposal.C58_components_hashed",
    "Proposal.C58_other_name"
   ],
   "note": "Equal media have equal hashes and equal numbers; C58_other_name: the name is not part of the hash, so two media which differ in their name have the same hash and the second replaces the first in the registry"
  },
  {
   "property": "C59",
   "status": "partial",
   "theorems": [
    "Proposal.C59_strict_weak_order",
    "Proposal.C59_equivalence",
    "Proposal.C59_map_lookup",
    "Proposal.C59_non_ascii"
   ],
   "note": "Proved for ASCII strings; C59_non_ascii: bytes above 127 are passed to tolower as negative numbers, which is undefined"
  },
  {
   "property": "C60",
   "status": "proved",
   "theorems": [
    "Proposal.C60_required",
    "Proposal.C60_decay",
    "Proposal.C60_randomisation",
    "Proposal.C60_scattering",
    "Proposal.C60_calls",
    "Proposal.C60_randomised",
    "Proposal.C60_deflection",
    "Proposal.C60_no_deflection"
   ],
   "note": "the calculators are arbitrary functions"
  },
  {
   "property": "C61",
   "status": "partial",
   "theorems": [
    "Proposal.C61_randomised_in_range_partial",
    "Proposal.C61_no_variance",
    "Proposal.C61_zero_variance",
    "Proposal.C61_randomised_order",
    "Proposal.C61_allowed"
   ],
   "note": "for a positive variance, random numbers from 0 to 1 and an exact normal distribution (C138_exact shows that there is one, C138_gaussian that the code differs from it by 1e-11 widths); without variance an energy below the minimum stays there (proved)"
  },
  {
   "property": "C62",
   "status": "partial",
   "theorems": [
    "Proposal.C62_interaction_in_range",
    "Proposal.C62_decay_in_range",
    "Proposal.C62_interaction_law_partial",
    "Proposal.C62_interaction_order_partial",
    "Proposal.C62_decay_law_partial",
    "Proposal.C62_decay_order_partial",
    "Proposal.C62_table_interaction_in_range_partial",
    "Proposal.C62_table_decay_in_range_partial",
    "Proposal.C62_table_interaction_law_partial",
    "Proposal.C62_narrow_error",
    "Proposal.C62_table_error",
    "Proposal.C62_negative_lifetime"
   ],
   "note": "the range holds for any numerics that are symmetric in the nodes; the law and the order need exact integrations and an energy apart from the lower limit. Proved deviations: std::logic_error close above the lower limit, MathException of the interpolated calculation within a millionth of the lower limit, particles with lifetime -1 never decay"
  },
  {
   "property": "C63",
   "status": "proved",
   "theorems": [
    "Proposal.C63_orientation",
    "Proposal.C63_equal_limits",
    "Proposal.C63_no_memory"
   ],
   "note": "for Integrate; the variant with a random ratio is covered by C96"
  },
  {
   "property": "C64",
   "status": "proved",
   "theorems": [
    "Proposal.C64_neville",
    "Proposal.C64_polynomial_exists"
   ],
   "note": "Interpolate of Integral on the nodes used by the Romberg integrations"
  },
  {
   "property": "C65",
   "status": "partial",
   "theorems": [
    "Proposal.C65_last_registered",
    "Proposal.C65_unknown_partial",
    "Proposal.C65_undefined_type",
    "Proposal.C65_required_unknown",
    "Proposal.C65_factory_first",
    "Proposal.C65_factory_other",
    "Proposal.C65_from_types",
    "Proposal.C65_no_deflection",
    "Proposal.C65_deflection_last",
    "Proposal.C65_multiplier",
    "Proposal.C65_multiplier_assertion"
   ],
   "note": "last registration wins and unknown types raise an exception, except that the type Undefined and RequiredRandomNumbers of an unknown type dereference an end iterator (proved)"
  },
  {
   "property": "C66",
   "status": "partial",
   "theorems": [
    "Proposal.C66_sphere_partial",
    "Proposal.C66_fraction_dropped",
    "Proposal.C66_negative_accepted",
    "Proposal.C66_above_accepted",
    "Proposal.C66_sphere_ordered",
    "Proposal.C66_cylinder_partial",
    "Proposal.C66_cylinder_unchecked"
   ],
   "note": "for whole inner radii; a fraction of the inner radius is dropped, so that inner radii between -1 and 0 and some above the outer radius are accepted, and without assertions a cylinder accepts everything (proved)"
  },
  {
   "property": "C67",
   "status": "partial",
   "theorems": [
    "Proposal.C67_randomisation_reuses_scattering_number"
   ],
   "note": "The code violates the property: C67_randomisation_reuses_scattering_number shows that the smearing always uses the first scattering number of the step when scattering is active."
  },
  {
   "property": "C68",
   "status": "proved",
   "theorems": [
    "Proposal.C68_two_trials"
   ],
   "note": ""
  },
  {
   "property": "C69",
   "status": "partial",
   "theorems": [
    "Proposal.C69_hollow_hit_missed"
   ],
   "note": "The code violates the property: C69_hollow_hit_missed is the counterexample. C26 covers solid spheres."
  },
  {
   "property": "C70",
   "status": "proved",
   "theorems": [
    "Proposal.C70_lower_limit"
   ],
   "note": ""
  },
  {
   "property": "C71",
   "status": "partial",
   "theorems": [
    "Proposal.C71_table_begin_partial",
    "Proposal.C71_variance_table_begin_partial",
    "Proposal.C71_positive_everywhere"
   ],
   "note": "The code violates the property for the dE2/dx tables when the first node already has a positive value (C71_positive_everywhere: unsigned wrap around); proved for the other tables and for dE2/dx that vanishes at the first node."
  },
  {
   "property": "C72",
   "status": "partial",
   "theorems": [
    "Proposal.C72_linear",
    "Proposal.C72_linear_nodes",
    "Proposal.C72_cubic_nodes_partial",
    "Proposal.C72_cubic_tiny"
   ],
   "note": "Linear splines are covered completely. Cubic splines miss their nodes when an abscissa is within 1e-9 of zero (C72_cubic_tiny); proved for all others."
  },
  {
   "property": "C73",
   "status": "partial",
   "theorems": [
    "Proposal.C73_cubic_smooth_partial"
   ],
   "note": "Abscissae within 1e-9 of zero but different from it are excluded, since the shift of the piece is skipped there."
  },
  {
   "property": "C74",
   "status": "proved",
   "theorems": [
    "Proposal.C74_antiderivative",
    "Proposal.C74_integrable"
   ],
   "note": ""
  },
  {
   "property": "C75",
   "status": "partial",
   "theorems": [
    "Proposal.C75_derivative_no_effect",
    "Proposal.C75_derivative_wrong"
   ],
   "note": "The code violates the property: Derivative has no effect (C75_derivative_no_effect, C75_derivative_wrong)."
  },
  {
   "property": "C76",
   "status": "partial",
   "theorems": [
    "Proposal.C76_between_knots_partial",
    "Proposal.C76_beyond_last_knot",
    "Proposal.C76_antiderivative"
   ],
   "note": "The code violates the property: vectors are read out of range beyond the last knot (C76_beyond_last_knot) and in Antiderivative (C76_antiderivative); proved between the knots."
  },
  {
   "property": "C77",
   "status": "partial",
   "theorems": [
    "Proposal.C77_double_delete",
    "Proposal.C77_single_partial"
   ],
   "note": "The code violates the property: copies share their splines and both delete them (C77_double_delete)."
  },
  {
   "property": "C78",
   "status": "partial",
   "theorems": [
    "Proposal.C78_no_polynomial",
    "Proposal.C78_exponential_partial"
   ],
   "note": "The code violates the property: no JSON value yields a polynomial density (C78_no_polynomial); exponential densities are proved."
  },
  {
   "property": "C79",
   "status": "partial",
   "theorems": [
    "Proposal.C79_exponential_partial",
    "Proposal.C79_radial_wrong"
   ],
   "note": "The code violates the property for radial axes (C79_radial_wrong) and for perpendicular flight (C54_perpendicular); proved for Cartesian axes otherwise."
  },
  {
   "property": "C80",
   "status": "partial",
   "theorems": [
    "Proposal.C80_correct_partial",
    "Proposal.C80_no_distance"
   ],
   "note": "The code violates the property: with the wrong derivative the result can be a NaN (C80_no_distance); proved are the range of the result and the condition for the exception."
  },
  {
   "property": "C81",
   "status": "partial",
   "theorems": [
    "Proposal.C81_electron_pairs",
    "Proposal.C81_muon_pairs_light",
    "Proposal.C81_muon_pairs_partial"
   ],
   "note": "The code violates the property for muon pairs (C81_muon_pairs_light, all energies above six muon masses); proved for electron pairs and for muon pairs up to 5.6 muon masses."
  },
  {
   "property": "C82",
   "status": "partial",
   "theorems": [
    "Proposal.C82_leptonic_partial"
   ],
   "note": "Never throws and conserves whenever the products are not NaN; they are NaN if the fraction is exactly 1 or the lepton is at rest in the laboratory."
  },
  {
   "property": "C83",
   "status": "partial",
   "theorems": [
    "Proposal.C83_derivative",
    "Proposal.C83_increasing",
    "Proposal.C83_fraction_partial"
   ],
   "note": "Derivative, monotonicity and uniqueness are proved for all masses; that the search returns an allowed fraction is proved if the lepton mass is at most half the maximal lepton energy (true for all built-in muon and tau decays), so that the fixed start value 1/2 is allowed; a start value outside the bracket is not covered."
  },
  {
   "property": "C84",
   "status": "partial",
   "theorems": [
    "Proposal.C84_many_body_partial",
    "Proposal.C84_massless"
   ],
   "note": "Proved for all products that are not NaN; a product at rest in one of the frames has NaN directions (see C36_at_rest). Existence is proved for massless daughters (C84_massless)."
  },
  {
   "property": "C85",
   "status": "partial",
   "theorems": [
    "Proposal.C85_weight",
    "Proposal.C85_uniform",
    "Proposal.C85_extremes",
    "Proposal.C85_dimension",
    "Proposal.C85_custom_element"
   ],
   "note": "The code violates the property for matrix elements of the user (C85_custom_element); proved for the default one."
  },
  {
   "property": "C86",
   "status": "partial",
   "theorems": [
    "Proposal.C86_equal_partial",
    "Proposal.C86_kinds_partial",
    "Proposal.C86_leptonic",
    "Proposal.C86_many_body"
   ],
   "note": "The code violates the property for leptonic (C86_leptonic) and many body channels (C86_many_body); proved for two body and stable channels."
  },
  {
   "property": "C87",
   "status": "partial",
   "theorems": [
    "Proposal.C87_allowed",
    "Proposal.C87_no_channel_lost",
    "Proposal.C87_no_decay",
    "Proposal.C87_products_partial",
    "Proposal.C87_mesons"
   ],
   "note": "The code violates the property for pions and kaons (C87_mesons); proved for muons and taus, except for products with NaN directions."
  },
  {
   "property": "C88",
   "status": "partial",
   "theorems": [
    "Proposal.C88_root_partial",
    "Proposal.C88_high_energies"
   ],
   "note": "The code violates the property at high energies (C88_high_energies); proved with the absolute precision of the search."
  },
  {
   "property": "C89",
   "status": "partial",
   "theorems": [
    "Proposal.C89_sauter",
    "Proposal.C89_backward"
   ],
   "note": "The code violates the property for the random number 0 (C89_backward); the inversion is proved for all random numbers."
  },
  {
   "property": "C90",
   "status": "proved",
   "theorems": [
    "Proposal.C90_candidate"
   ],
   "note": ""
  },
  {
   "property": "C91",
   "status": "partial",
   "theorems": [
    "Proposal.C91_media_by_name",
    "Proposal.C91_unknown_name",
    "Proposal.C91_calcium_carbonate"
   ],
   "note": "Every name of the table is found and every other string rejected; C91_calcium_carbonate: CalciumCarbonate is a value of the enumeration without a name in the table"
  },
  {
   "property": "C92",
   "status": "proved",
   "theorems": [
    "Proposal.C92_centered"
   ],
   "note": ""
  },
  {
   "property": "C93",
   "status": "partial",
   "theorems": [
    "Proposal.C93_density",
    "Proposal.C93_order",
    "Proposal.C93_scaling",
    "Proposal.C93_averages",
    "Proposal.C93_radiation_length",
    "Proposal.C93_fractional_charge"
   ],
   "note": "Order, scaling and averages hold; C93_fractional_charge: the radiation length uses the charge cut to a whole number"
  },
  {
   "property": "C94",
   "status": "partial",
   "theorems": [
    "Proposal.C94_builtin_particles",
    "Proposal.C94_undefined_types"
   ],
   "note": "All other types have a definition which stays; C94_undefined_types: None, STauMinus, STauPlus and Hadron have none"
  },
  {
   "property": "C95",
   "status": "partial",
   "theorems": [
    "Proposal.C95_integral_partial",
    "Proposal.C95_narrow",
    "Proposal.C95_log_nonpositive",
    "Proposal.C95_infinite_limit"
   ],
   "note": "the Romberg integrations are assumed exact (C97 shows when they are); limits closer than the precision give 0 and logarithmic methods with non-positive limits give 0 without an exception, both proved as deviations"
  },
  {
   "property": "C96",
   "status": "partial",
   "theorems": [
    "Proposal.C96_search_in_range",
    "Proposal.C96_ratio_partial",
    "Proposal.C96_value_partial",
    "Proposal.C96_narrow_logarithm",
    "Proposal.C96_second_call",
    "Proposal.C96_zero_integrand",
    "Proposal.C96_without_integral",
    "Proposal.C96_search_partial",
    "Proposal.C96_converged"
   ],
   "note": "the range holds for any numerics; the value needs exact integrations and a successful search (C96_ratio_partial, C96_value_partial). For exact integrations of an integrand that keeps its sign the search succeeds up to the precision times the ratio of the largest and smallest integrand, if it may take enough steps or more steps change nothing (C96_search_partial, C96_converged); the 20 steps of the code need not be enough. Proved deviations: narrow logarithmic limits give the logarithm of a limit, a second call gives another value, a vanishing integrand gives NaN"
  },
  {
   "property": "C97",
   "status": "proved",
   "theorems": [
    "Proposal.C97_romberg_polynomials",
    "Proposal.C97_precision"
   ],
   "note": "exact arithmetic; exact on polynomials (C97_romberg_polynomials), and for other functions the stated precision is that of leaving out a node of the extrapolation (C97_precision)"
  },
  {
   "property": "C98",
   "status": "partial",
   "theorems": [
    "Proposal.C98_in_bounds_partial",
    "Proposal.C98_out_of_bounds"
   ],
   "note": "in bounds if maxSteps_upper_limit is at least 12; a smaller number writes out of bounds (proved)"
  },
  {
   "property": "C99",
   "status": "partial",
   "theorems": [
    "Proposal.C99_length_partial",
    "Proposal.C99_length_additive_partial",
    "Proposal.C99_energy_partial",
    "Proposal.C99_round_trip_partial",
    "Proposal.C99_too_far_partial",
    "Proposal.C99_table_length_partial",
    "Proposal.C99_table_energy_partial",
    "Proposal.C99_table_round_trip_partial",
    "Proposal.C99_narrow_limits",
    "Proposal.C99_narrow_witness"
   ],
   "note": "exact integrations and exact tables, and energies that differ by more than the precision of the integration or of the tables. Just above the lower limit the code differs: where the logarithms of the energies are closer than the precision but the energies are not, the energy after any length is the logarithm of the lower limit (C99_narrow_limits, C99_narrow_witness)"
  },
  {
   "property": "C100",
   "status": "partial",
   "theorems": [
    "Proposal.C100_slower_than_light_partial"
   ],
   "note": "exact integrations, final energy above the mass, energies that differ by more than the precision of the integration"
  },
  {
   "property": "C101",
   "status": "proved",
   "theorems": [
    "Proposal.C101_mean_free_path",
    "Proposal.C101_mean_free_path_table"
   ],
   "note": "without a table a negative rate gives a negative path"
  },
  {
   "property": "C102",
   "status": "partial",
   "theorems": [
    "Proposal.C102_equality",
    "Proposal.C102_sphere_partial",
    "Proposal.C102_box_partial",
    "Proposal.C102_cylinder_partial",
    "Proposal.C102_radii",
    "Proposal.C102_rejected",
    "Proposal.C102_negative_hierarchy",
    "Proposal.C102_any_case",
    "Proposal.C102_distances",
    "Proposal.C102_no_origin",
    "Proposal.C102_no_shape",
    "Proposal.C102_cylinder_missing"
   ],
   "note": "distances agree for whole inner radii (see C66); the objects compare equal only if the shape is written with a capital letter, and a negative hierarchy wraps around (proved)"
  },
  {
   "property": "C103",
   "status": "partial",
   "theorems": [
    "Proposal.C103_elastic",
    "Proposal.C103_defined",
    "Proposal.C103_within_limits",
    "Proposal.C103_at_rest",
    "Proposal.C103_secondaries"
   ],
   "note": "a loss that leaves the particle at rest, the limit of positrons, gives a NaN (proved)"
  },
  {
   "property": "C104",
   "status": "proved",
   "theorems": [
    "Proposal.C104_range",
    "Proposal.C104_azimuth",
    "Proposal.C104_inverse",
    "Proposal.C104_monotone"
   ],
   "note": ""
  },
  {
   "property": "C105",
   "status": "partial",
   "theorems": [
    "Proposal.C105_sampled",
    "Proposal.C105_within_limits",
    "Proposal.C105_tau"
   ],
   "note": "for particles lighter than a pion; for taus the limits allow losses whose deflection is a NaN (proved)"
  },
  {
   "property": "C106",
   "status": "partial",
   "theorems": [
    "Proposal.C106_angle",
    "Proposal.C106_mean_square",
    "Proposal.C106_beyond_pi",
    "Proposal.C106_epair",
    "Proposal.C106_photo",
    "Proposal.C106_epair_monotone",
    "Proposal.C106_photo_monotone",
    "Proposal.C106_at_rest",
    "Proposal.C106_brems_monotone",
    "Proposal.C106_brems_soft"
   ],
   "note": "nothing bounds the angle by pi (proved)"
  },
  {
   "property": "C107",
   "status": "partial",
   "theorems": [
    "Proposal.C107_defined_partial",
    "Proposal.C107_throws"
   ],
   "note": "the exception is confined to 5e-5 above a boundary and reachable (proved)"
  },
  {
   "property": "C108",
   "status": "partial",
   "theorems": [
    "Proposal.C108_symmetric",
    "Proposal.C108_refined",
    "Proposal.C108_outside",
    "Proposal.C108_theta0",
    "Proposal.C108_value",
    "Proposal.C108_vanishing",
    "Proposal.C108_bounds",
    "Proposal.C108_integral_bracket",
    "Proposal.C108_log_factors",
    "Proposal.C108_covariance",
    "Proposal.C108_space_angle",
    "Proposal.C108_offsets_symmetric",
    "Proposal.C108_random_zero"
   ],
   "note": "a random number 0 gives NaN offsets (proved); the accuracy of the normal quantile is C138"
  },
  {
   "property": "C109",
   "status": "partial",
   "theorems": [
    "Proposal.C109_highland_equal",
    "Proposal.C109_undefined",
    "Proposal.C109_symmetric_partial",
    "Proposal.C109_clone_partial",
    "Proposal.C109_clone_dangling"
   ],
   "note": "Highland == Moliere with the same mass dereferences a null pointer, Highland equals HighlandIntegral, and clones of HighlandIntegral use the destroyed original (proved)"
  },
  {
   "property": "C110",
   "status": "partial",
   "theorems": [
    "Proposal.C110_solves",
    "Proposal.C110_thin",
    "Proposal.C110_spurious",
    "Proposal.C110_thin_layer",
    "Proposal.C110_chi_c",
    "Proposal.C110_chi_a",
    "Proposal.C110_compound",
    "Proposal.C110_prefactor",
    "Proposal.C110_thin_offsets",
    "Proposal.C110_no_matter"
   ],
   "note": "for thin layers without a solution the iteration can give arbitrarily large values (proved); for compounds the square of the angle is not the sum over the atoms (proved, 8 percent for water)"
  },
  {
   "property": "C111",
   "status": "partial",
   "theorems": [
    "Proposal.C111_history",
    "Proposal.C111_comparison",
    "Proposal.C111_all_components"
   ],
   "note": "the offsets do not depend on earlier calls; a used object differs from a new one in comparisons (proved)"
  },
  {
   "property": "C112",
   "status": "partial",
   "theorems": [
    "Proposal.C112_symmetric",
    "Proposal.C112_symmetric_code",
    "Proposal.C112_median",
    "Proposal.C112_residual_partial",
    "Proposal.C112_density",
    "Proposal.C112_max_index_partial",
    "Proposal.C112_max_index",
    "Proposal.C112_planes",
    "Proposal.C112_interpol",
    "Proposal.C112_interpol_beyond",
    "Proposal.C112_tail_second",
    "Proposal.C112_junction",
    "Proposal.C112_tail_first",
    "Proposal.C112_normalized"
   ],
   "note": "the convergence of the iteration is not proved; with three components the start value can belong to a lighter one (proved); at the junction of the second term the distribution function is not the integral of the density (proved), beyond 12 the first term is so up to the order u^-9"
  },
  {
   "property": "C113",
   "status": "partial",
   "theorems": [
    "Proposal.C113_multiple",
    "Proposal.C113_deflection",
    "Proposal.C113_type",
    "Proposal.C113_no_default",
    "Proposal.C113_unknown",
    "Proposal.C113_object",
    "Proposal.C113_factors_partial",
    "Proposal.C113_case_of_keys"
   ],
   "note": "keys of factors that differ only in case: the first one acts (proved); types without default deflection give std::logic_error (proved); values of wrong JSON type are not modelled"
  },
  {
   "property": "C114",
   "status": "partial",
   "theorems": [
    "Proposal.C114_integral_partial",
    "Proposal.C114_monotone_partial",
    "Proposal.C114_zero_lower_limit",
    "Proposal.C114_negative_loss",
    "Proposal.C114_beyond",
    "Proposal.C114_nodes_partial",
    "Proposal.C114_table_rates_partial",
    "Proposal.C114_table_loss_partial",
    "Proposal.C114_table_below",
    "Proposal.C114_table_beyond"
   ],
   "note": "Exact integrations, exact searches and exact tables are assumed, and limits that are separated by a hundred millionth: the code returns the logarithm of the lower limit as loss for limits that are close (C114_negative_loss), gives rates of 0 and throws for general processes whose losses start at 0 (C114_zero_lower_limit), and does not limit the cumulative rate at the largest loss (C114_beyond), as opposed to the tables (C114_table_beyond)."
  },
  {
   "property": "C115",
   "status": "proved",
   "theorems": [
    "Proposal.C115_klein_nishina",
    "Proposal.C115_range",
    "Proposal.C115_positive",
    "Proposal.C115_thomson",
    "Proposal.C115_total"
   ],
   "note": "The cross section is modelled per component with real numbers; the total is the exact integral, not the quadrature."
  },
  {
   "property": "C116",
   "status": "proved",
   "theorems": [
    "Proposal.C116_rate",
    "Proposal.C116_sampled",
    "Proposal.C116_density",
    "Proposal.C116_positive"
   ],
   "note": "Compared with the model of the sampler used for C43."
  },
  {
   "property": "C117",
   "status": "partial",
   "theorems": [
    "Proposal.C117_density",
    "Proposal.C117_fraction",
    "Proposal.C117_plateau_heavy",
    "Proposal.C117_plateau_electron",
    "Proposal.C117_plateau_positron",
    "Proposal.C117_plateau_mismatch",
    "Proposal.C117_moller",
    "Proposal.C117_moller_cut_partial",
    "Proposal.C117_moller_cut_bound",
    "Proposal.C117_bhabha",
    "Proposal.C117_bhabha_cut_partial",
    "Proposal.C117_bhabha_cut_bound",
    "Proposal.C117_two_cuts",
    "Proposal.C117_constant",
    "Proposal.C117_rossi_plain",
    "Proposal.C117_rossi_defined",
    "Proposal.C117_rossi_undefined",
    "Proposal.C117_rossi_cut_partial",
    "Proposal.C117_rossi_negative"
   ],
   "note": "Shown where the closed formula is positive; where its bound at 0 acts only an inequality holds. For heavy particles the cuts stay below the largest loss, at which the radiative correction takes the logarithm of zero, and close to which the cross section is negative (C117_rossi_negative). With different cuts in parametrization and cross section the total changes (C117_two_cuts). At high energies electrons and positrons lose more than heavy particles of the same charge, by more than 0.66 in a bracket that is otherwise the same, because the squared ionization energy is divided by the electron mass and not by its square (C117_plateau_mismatch)."
  },
  {
   "property": "C118",
   "status": "partial",
   "theorems": [
    "Proposal.C118_ratio_range",
    "Proposal.C118_threshold",
    "Proposal.C118_ratio",
    "Proposal.C118_stobbe",
    "Proposal.C118_edge",
    "Proposal.C118_high_energy",
    "Proposal.C118_total",
    "Proposal.C118_lower_limit",
    "Proposal.C118_target_partial",
    "Proposal.C118_target_undefined"
   ],
   "note": "the rate of a single target is no number at and below its binding energy, although it is 0 in the list of all targets (proved)"
  },
  {
   "property": "C119",
   "status": "partial",
   "theorems": [
    "Proposal.C119_nucleon",
    "Proposal.C119_threshold",
    "Proposal.C119_positive",
    "Proposal.C119_heck_partial",
    "Proposal.C119_heck_undefined",
    "Proposal.C119_zeus",
    "Proposal.C119_bezrukov",
    "Proposal.C119_caldwell",
    "Proposal.C119_resonance",
    "Proposal.C119_switch",
    "Proposal.C119_heck_high",
    "Proposal.C119_heck_low",
    "Proposal.C119_shadowing",
    "Proposal.C119_atom",
    "Proposal.C119_c7",
    "Proposal.C119_kokoulin_17",
    "Proposal.C119_kokoulin_200",
    "Proposal.C119_total",
    "Proposal.C119_lower_limit",
    "Proposal.C119_rhode",
    "Proposal.C119_rhode_200"
   ],
   "note": "Rhode's parametrization with its table is positive for nucleons of up to 1900 MeV (C119_rhode) and falls by 0.3 microbarn at 200 GeV (C119_rhode_200). Heck's is proved for nucleons at least as heavy as the proton; for lighter ones (atomic number below the charge) it is the root of a negative number (C119_heck_undefined). Kokoulin's cross section is not continuous at 200 GeV (C119_kokoulin_200)."
  },
  {
   "property": "C120",
   "status": "partial",
   "theorems": [
    "Proposal.C120_shadowing",
    "Proposal.C120_formula",
    "Proposal.C120_positive_partial",
    "Proposal.C120_tau",
    "Proposal.C120_limit",
    "Proposal.C120_cross_partial",
    "Proposal.C120_tau_cross",
    "Proposal.C120_tau_limit",
    "Proposal.C120_outside",
    "Proposal.C120_sigma",
    "Proposal.C120_hard",
    "Proposal.C120_hard_added"
   ],
   "note": "C120_formula proves that the transverse parts are exactly the integrals over the virtualities; positivity (C120_positive_partial, C120_cross_partial) holds for masses of up to 173 MeV. It fails for tau leptons (C120_tau, C120_tau_cross): the last bracket is multiplied with 2 mu^2/t; with mu^2/(2t) its negative part would be the one that completes the integral. Outside of the limits the cross section is not a number for all atoms but hydrogen, also at v = 1 (C120_outside). The tables of the hard component and of Rhode are parameters."
  },
  {
   "property": "C121",
   "status": "partial",
   "theorems": [
    "Proposal.C121_sign",
    "Proposal.C121_nucleons_partial",
    "Proposal.C121_medium"
   ],
   "note": "The code divides by the number of nucleons twice: the mean over the nucleons is multiplied with N_A / A as if it were the cross section of an atom, so per mass the cross section is 1 / A of that of the nucleons (C121_nucleons_partial) and a medium has the rate of as many nucleons as it has atoms (C121_medium). The interpolated tables are parameters."
  },
  {
   "property": "C122",
   "status": "partial",
   "theorems": [
    "Proposal.C122_phi_pos",
    "Proposal.C122_integrand",
    "Proposal.C122_even",
    "Proposal.C122_positive_partial",
    "Proposal.C122_heavy",
    "Proposal.C122_heavy_zero",
    "Proposal.C122_molecule",
    "Proposal.C122_cross_partial",
    "Proposal.C122_below"
   ],
   "note": "Positive for electrons and muons. Two parts fail and are proved as such: the screening of the limit lacks the squared mass ratio, so for tau leptons the integrand vanishes close to the largest asymmetry (C122_heavy) and the cross section is zero for large losses (C122_heavy_zero); and the code takes the number of atoms in the molecule where the formula has the mass number (C122_molecule)."
  },
  {
   "property": "C123",
   "status": "proved",
   "theorems": [
    "Proposal.C123_formula",
    "Proposal.C123_symmetric",
    "Proposal.C123_limits",
    "Proposal.C123_outside",
    "Proposal.C123_monotone",
    "Proposal.C123_screened",
    "Proposal.C123_elements"
   ],
   "note": "The monotonicity assumes that the screening by the atom dominates that by the nucleus, which C123_elements shows for all elements."
  },
  {
   "property": "C124",
   "status": "proved",
   "theorems": [
    "Proposal.C124_rational",
    "Proposal.C124_transform",
    "Proposal.C124_dilog"
   ],
   "note": "The bound is for exact arithmetic with the coefficients of the code."
  },
  {
   "property": "C125",
   "status": "partial",
   "theorems": [
    "Proposal.C125_unscreened_middle",
    "Proposal.C125_tsai_edge",
    "Proposal.C125_asymmetric",
    "Proposal.C125_high_energy",
    "Proposal.C125_lithium",
    "Proposal.C125_koch_motz_symmetric",
    "Proposal.C125_koch_motz_normalized",
    "Proposal.C125_koch_motz_negative",
    "Proposal.C125_butcher_messel",
    "Proposal.C125_koch_motz_high_energy",
    "Proposal.C125_light",
    "Proposal.C125_heavy_partial",
    "Proposal.C125_unscreened_partial",
    "Proposal.C125_screened"
   ],
   "note": "the elements of the model are proved for all inputs except where the code fails: C125_unscreened_middle and C125_lithium show the wrong functions of lithium and beryllium, C125_koch_motz_negative negative cross sections, C125_butcher_messel the wrong constant, C125_asymmetric the asymmetry of the shares; the LPM suppression is a parameter"
  },
  {
   "property": "C126",
   "status": "partial",
   "theorems": [
    "Proposal.C126_complete_positive",
    "Proposal.C126_radiation_length",
    "Proposal.C126_scaling",
    "Proposal.C126_electron_positive_partial",
    "Proposal.C126_electron_lead_negative",
    "Proposal.C126_electron_limit",
    "Proposal.C126_nuclear_size",
    "Proposal.C126_andreev_limits",
    "Proposal.C126_sandrock_limits",
    "Proposal.C126_kelner_positive",
    "Proposal.C126_radiative_jumps",
    "Proposal.C126_petrukhin_limits",
    "Proposal.C126_kelner_limits",
    "Proposal.C126_bounded",
    "Proposal.C126_petrukhin_light",
    "Proposal.C126_petrukhin_heavy_partial"
   ],
   "note": "The numerical integration is a parameter, double is the real numbers; the correction table of the parametrization for electrons is a parameter here and put in by C137_brems_positive. Positivity fails at the upper limit: for Petrukhin and Shestakov above a charge of 10 and an energy of about 1.15 TeV (muons in iron, C126_petrukhin_heavy_partial), and for the default parametrization of electrons in lead from 50 MeV on (C126_electron_lead_negative); C126_electron_positive_partial says where it holds. The radiative corrections of Sandrock et al. jump at their three joints (C126_radiative_jumps). The other parametrizations are bounded by 0 (Andreev et al., Sandrock et al.) or positive (C126_complete_positive, C126_kelner_positive for particles at least 100 times as heavy as the electron)."
  },
  {
   "property": "C127",
   "status": "partial",
   "theorems": [
    "Proposal.C127_range",
    "Proposal.C127_pair_range",
    "Proposal.C127_high_energy",
    "Proposal.C127_thin",
    "Proposal.C127_above_one",
    "Proposal.C127_xi_continuous",
    "Proposal.C127_soft",
    "Proposal.C127_pair_asymmetric",
    "Proposal.C127_density",
    "Proposal.C127_scale"
   ],
   "note": "Two parts of the statement are wrong for the code and their negations are proved. C127_above_one: in oxygen of any density up to 1e24 electrons per cubic centimetre there is an energy at which the factor for electrons losing one percent exceeds 1.004. C127_pair_asymmetric: the dielectric term of PhotoPairLPM uses the fraction x of one of the particles only, so the factor tends to 0 for x to 0 and to a positive number for x to 1. C127_scale takes the loss integral of the constructor over [0,1] instead of the kinematic limits at 1e14 MeV."
  },
  {
   "property": "C128",
   "status": "partial",
   "theorems": [
    "Proposal.C128_range",
    "Proposal.C128_cross",
    "Proposal.C128_electron_allowed",
    "Proposal.C128_electron_zero",
    "Proposal.C128_conjugation",
    "Proposal.C128_energy",
    "Proposal.C128_electrons_high",
    "Proposal.C128_high_energy",
    "Proposal.C128_phiE",
    "Proposal.C128_phiMu",
    "Proposal.C128_short",
    "Proposal.C128_screening",
    "Proposal.C128_phi_sum",
    "Proposal.C128_zeta",
    "Proposal.C128_electrons",
    "Proposal.C128_kelner_value",
    "Proposal.C128_formula",
    "Proposal.C128_delta_e",
    "Proposal.C128_delta_mu",
    "Proposal.C128_ce2",
    "Proposal.C128_cm2",
    "Proposal.C128_branches",
    "Proposal.C128_two_logs",
    "Proposal.C128_sandrock_near",
    "Proposal.C128_sandrock_high"
   ],
   "note": "One part is wrong for the code and its negation is proved: C128_electron_zero shows that the integrated cross section of ForElectronPositron is zero for losses of 4 to 4.8 electron masses although C128_electron_allowed gives a positive integrand for every allowed asymmetry; FunctionToIntegral of that class takes the integration variable 1 - rho for rho. C128_branches shows that the second branch of the logarithm of electrons in SandrockSoedingreksoRhode differs from the first by the correction itself (a wrong sign); C128_delta_e shows that it is not reached for xi up to 5e6. The limit of SandrockSoedingreksoRhode is proved for xi between 1e-6 and 5e6. C128_cross takes the exact integral for Integral::Integrate."
  },
  {
   "property": "C129",
   "status": "partial",
   "theorems": [
    "Proposal.C129_single",
    "Proposal.C129_formula",
    "Proposal.C129_range",
    "Proposal.C129_monotone",
    "Proposal.C129_high_energy",
    "Proposal.C129_thin",
    "Proposal.C129_parametrizations",
    "Proposal.C129_scale",
    "Proposal.C129_molecules",
    "Proposal.C129_integrals_BD",
    "Proposal.C129_integrals_ACE"
   ],
   "note": "The last part is wrong for the code and its negation is proved in C129_molecules: the sum over components in the constructor of EpairLPM is not weighted with the number of atoms in the molecule, so a substance written with molecules k times as large has k times the energy scale, although mass density, radiation length and the density of every kind of atom are the same."
  },
  {
   "property": "C130",
   "status": "partial",
   "theorems": [
    "Proposal.C130_bracket",
    "Proposal.C130_positive",
    "Proposal.C130_scalar_negative",
    "Proposal.C130_light_negative",
    "Proposal.C130_heavy_negative",
    "Proposal.C130_real_photon",
    "Proposal.C130_integrand",
    "Proposal.C130_cross",
    "Proposal.C130_threshold",
    "Proposal.C130_range",
    "Proposal.C130_complete",
    "Proposal.C130_unreachable",
    "Proposal.C130_correction",
    "Proposal.C130_maximum",
    "Proposal.C130_tau",
    "Proposal.C130_outside",
    "Proposal.C130_shadow_dutta",
    "Proposal.C130_shadow_enhances",
    "Proposal.C130_wood_saxon",
    "Proposal.C130_shadow_butkevich",
    "Proposal.C130_shadow_drop",
    "Proposal.C130_neutron",
    "Proposal.C130_structure_partial",
    "Proposal.C130_bdh_negative"
   ],
   "note": "Parts of the statement are wrong for the code, their negations are proved: the range begins below what can be reached (C130_unreachable; the correction to the lower end for electrons and muons has the wrong sign, C130_correction), is not empty for tau leptons left with less energy than their mass (C130_tau), and at its lower end the integrand is negative, for spin 0 always (C130_scalar_negative), for electrons and muons at small losses (C130_light_negative) and for tau leptons near the threshold (C130_heavy_negative); the structure function of Block, Durand and Ha is negative at very large virtualities (C130_bdh_negative); the shadowing of Dutta et al. exceeds 1 for x between 0.0394 and 0.04 (C130_shadow_enhances); that of Butkevich and Mikheyev is not continuous (C130_shadow_drop). Positivity of the structure functions is restricted to virtualities up to 4e5 GeV^2 (Block, Durand, Ha) and 1e94 GeV^2 (Abt et al.) in C130_structure_partial."
  },
  {
   "property": "C131",
   "status": "partial",
   "theorems": [
    "Proposal.C131_weak_names",
    "Proposal.C131_photon_secondaries",
    "Proposal.C131_photon_cross",
    "Proposal.C131_weak_secondaries",
    "Proposal.C131_hard_name",
    "Proposal.C131_hard_cross",
    "Proposal.C131_time",
    "Proposal.C131_classes",
    "Proposal.C131_cross_partial",
    "Proposal.C131_reproducible",
    "Proposal.C131_code",
    "Proposal.C131_store",
    "Proposal.C131_tables_partial",
    "Proposal.C131_utility",
    "Proposal.C131_cross_lists",
    "Proposal.C131_mass"
   ],
   "note": "Proved for the tables of cross sections and utilities when hashes do not collide (C131_cross_partial, C131_tables_partial, C131_utility, C131_cross_lists, C131_mass). Wrong for the code, with negations proved for every hash function: the tables for the secondaries of photons have the same name for pairs of electrons after Tsai, after Koch and Motz, and for pairs of muons, so that the second calculator reads the table of the first (C131_photon_secondaries); the tables of the hard component enter no name (C131_hard_name, C131_hard_cross); the mass is missing in the names for the exact time (C131_time; harmless if it is the mass of the particle of the cross sections, C131_mass). The table for the secondaries of weak interactions has a name that depends on the address of a string literal (C131_weak_secondaries). Cross sections without tables (parametrizations of the class ParametrizationDirect) enter the lists of hashes as arbitrary values; the LPM effect is taken for the particle and the medium of the cross section."
  },
  {
   "property": "C132",
   "status": "partial",
   "theorems": [
    "Proposal.C132_cross_list",
    "Proposal.C132_unknown_keys",
    "Proposal.C132_missing_partial",
    "Proposal.C132_no_sectors",
    "Proposal.C132_utility",
    "Proposal.C132_count",
    "Proposal.C132_empty_geometries",
    "Proposal.C132_defaults",
    "Proposal.C132_lpm_default",
    "Proposal.C132_reachable",
    "Proposal.C132_unknown_name",
    "Proposal.C132_sector",
    "Proposal.C132_propagator",
    "Proposal.C132_empty",
    "Proposal.C132_unknown_medium"
   ],
   "note": "Proved as equivalences for the whole configuration (C132_propagator, C132_sector), for the list of cross sections (C132_cross_list, C132_reachable, C132_unknown_name) and the defaults (C132_defaults). Missing keys are refused (C132_missing_partial, C132_no_sectors); wrong for the code is only the demand for at least one geometry: an empty list of geometries is accepted and the sector disappears (C132_empty_geometries). Worth knowing: keys that are not among the twelve, for example bremsstrahlung instead of brems, are ignored without a message (C132_unknown_keys); a cross section by its name has the LPM effect, the same cross section by default does not (C132_lpm_default). Asserts are taken as on; exceptions while tables are built are left out."
  },
  {
   "property": "C133",
   "status": "proved",
   "theorems": [
    "Proposal.C133_coulomb",
    "Proposal.C133_tsai"
   ],
   "note": "The sums of inverse powers that occur are enclosed in the file."
  },
  {
   "property": "C134",
   "status": "partial",
   "theorems": [
    "Proposal.C134_linear",
    "Proposal.C134_bilinear",
    "Proposal.C134_increasing",
    "Proposal.C134_rational_nodes",
    "Proposal.C134_rational_partial",
    "Proposal.C134_reciprocals",
    "Proposal.C134_zero_node",
    "Proposal.C134_array_partial",
    "Proposal.C134_polynomials",
    "Proposal.C134_nodes",
    "Proposal.C134_continuous",
    "Proposal.C134_jump",
    "Proposal.C134_order_one",
    "Proposal.C134_single",
    "Proposal.C134_rejected",
    "Proposal.C134_two_variables",
    "Proposal.C134_two_polynomials"
   ],
   "note": "`C134_rational_partial`: with rational functions, points at which a divisor of the scheme vanishes are not covered; `C134_zero_node`: with a table value zero in the middle of three nodes the result is zero everywhere, so not even lines are reproduced. `C134_order_one`: with order 1, points for which the last node is the nearest raise `std::out_of_range` (unless they are this node). `C134_jump`: with odd orders the interpolation is not continuous. `C134_rejected`: vectors of different lengths raise an exception of `std::vector::at` instead of an own one, and one abscissa without ordinate is accepted."
  },
  {
   "property": "C135",
   "status": "proved",
   "theorems": [
    "Proposal.C135_table",
    "Proposal.C135_polynomials",
    "Proposal.C135_undefined",
    "Proposal.C135_logarithms",
    "Proposal.C135_two_logarithms",
    "Proposal.C135_two_powers",
    "Proposal.C135_two_not_negative",
    "Proposal.C135_two_variables",
    "Proposal.C135_two_polynomials"
   ],
   "note": "Tables of functions of one and two variables without rational functions; tables of logarithms of functions of two variables are proved for functions which are positive at the nodes. The points at which the conversions to `int` overflow are excluded; `C135_undefined` shows that the behaviour is undefined there and in tables of an empty interval."
  },
  {
   "property": "C136",
   "status": "partial",
   "theorems": [
    "Proposal.C136_arrays",
    "Proposal.C136_nodes",
    "Proposal.C136_linear",
    "Proposal.C136_range",
    "Proposal.C136_function_nodes",
    "Proposal.C136_rational_ignored"
   ],
   "note": "`C136_rational_ignored`: the flag for rational functions in the inverse has no effect until `SetFast(false)` is called; the other theorems are about polynomials."
  },
  {
   "property": "C137",
   "status": "proved",
   "theorems": [
    "Proposal.C137_pair_table",
    "Proposal.C137_pair_total",
    "Proposal.C137_brems_factor",
    "Proposal.C137_brems_positive"
   ],
   "note": "Real arithmetic. Charges above 100 are continued linearly; the factor for bremsstrahlung is shown to be positive there up to 118."
  },
  {
   "property": "C138",
   "status": "proved",
   "theorems": [
    "Proposal.C138_probability",
    "Proposal.C138_quantile",
    "Proposal.C138_law",
    "Proposal.C138_exact",
    "Proposal.C138_gaussian"
   ],
   "note": "Real arithmetic with the exact complementary error function; rounding of the coefficients in binary is not treated."
  },
  {
   "property": "C139",
   "status": "partial",
   "theorems": [
    "Proposal.C139_function",
    "Proposal.C139_arrays",
    "Proposal.C139_two",
    "Proposal.C139_truncated",
    "Proposal.C139_truncated_one",
    "Proposal.C139_text",
    "Proposal.C139_resaved",
    "Proposal.C139_arrays_two",
    "Proposal.C139_copy",
    "Proposal.C139_copy_two",
    "Proposal.C139_assign",
    "Proposal.C139_not_equal",
    "Proposal.C139_equal"
   ],
   "note": "Proved for the tables of functions of one and two variables and of vectors of one variable. The code violates the other parts: tables of vectors of two variables are saved as tables of one variable and every interpolation after loading throws (C139_arrays_two), so do tables of two variables that were loaded and are saved again (C139_resaved) and those assigned to an object without a function of two variables (C139_assign); saving a copy throws std::out_of_range (C139_copy, C139_copy_two); a file of two variables without its last number is loaded without complaint (C139_truncated), and a file with 1 to 11 values makes InitInterpolant use variables without a value (C139_truncated_one); an object that interpolated once is not equal to a new one (C139_not_equal). The estimates of errors are not modelled."
  },
  {
   "property": "C140",
   "status": "partial",
   "theorems": [
    "Proposal.C140_positive_partial",
    "Proposal.C140_negative",
    "Proposal.C140_polar",
    "Proposal.C140_directions",
    "Proposal.C140_positron_share"
   ],
   "note": "Proved for elements heavier than helium: the drawn angle lies between 0 and pi and cuts off the part of the density given by the random number, for any earlier use of the integration object and any energy (C140_polar, C140_directions; the search for the upper limit is taken to be exact). The density is positive if the energies of the two particles multiply to at least two electron masses times the photon energy (C140_positive_partial). Disagreements: near the threshold, for every such element up to a photon energy of 3.8 electron masses (1.94 MeV), the density of a symmetric pair is negative at the angle where the transverse momentum is the electron mass (C140_negative), so that it is not a probability density; and the angle of the positron is drawn with the share of the electron, whose density is not proportional to that of the positron's own share (C140_directions, C140_positron_share). Missing: hydrogen and helium, and the energies between the two regions."
  },
  {
   "property": "C141",
   "status": "partial",
   "theorems": [
    "Proposal.C141_disturbed",
    "Proposal.C141_custom_undisturbed",
    "Proposal.C141_known_numbers",
    "Proposal.C141_unit_interval",
    "Proposal.C141_seed_determines",
    "Proposal.C141_seeds_differ",
    "Proposal.C141_restore",
    "Proposal.C141_custom"
   ],
   "note": "everything about the generator itself is proved. Disagreement: BremsKochMotz::CalculateDirections creates a RandomGenerator of its own and seeds it, but the engine is a static member, so that the generator of the whole program is reseeded with floor((2^31 - 1) rnd[0]). C141_disturbed: whatever the seeds of two programs, after one such bremsstrahlung with the same loss and random numbers all their numbers are the same; the example runs it with the seeds 1 and 2. A function of the user is not disturbed (C141_custom_undisturbed). The engine of the standard library is modelled after the C++ standard, with exact division."
  },
  {
   "property": "C142",
   "status": "partial",
   "theorems": [
    "Proposal.C142_positive",
    "Proposal.C142_acceptance",
    "Proposal.C142_first_accepted",
    "Proposal.C142_angle",
    "Proposal.C142_envelope",
    "Proposal.C142_loss",
    "Proposal.C142_seeds"
   ],
   "note": "positivity, the loop and the range of the angle are proved. Disagreement: the normalisation 1/max(g(0), g(1), g((pi E0)^2)) is not a bound. C142_envelope: for an electron of 17 rest energies losing 14/17 of its energy in oxygen the acceptance exceeds 1 at an angle that occurs, so that the angles do not follow the distribution exactly. Missing: how large the excess can be for all parameters."
  },
  {
   "property": "C143",
   "status": "partial",
   "theorems": [
    "Proposal.C143_shapes",
    "Proposal.C143_passes_partial",
    "Proposal.C143_ends_partial"
   ],
   "note": "proved for regular runs (no step uses the emergency exit after 200 trials, no overshoot of the maximal distance, see C13) and interactions that take at least a fixed energy, as they do with the cuts: passes that go on are borders, each at least the geometry precision away from the last one (C143_shapes: all shapes have this property), or interactions."
  },
  {
   "property": "C144",
   "status": "partial",
   "theorems": [
    "Proposal.C144_interactions_partial",
    "Proposal.C144_pairs",
    "Proposal.C144_primary_differs",
    "Proposal.C144_decays"
   ],
   "note": "True for all decay channels and for all interactions except the production of pairs by charged particles: there the primary keeps the distance that it had at the loss (C144_pairs), so that it is treated otherwise than after bremsstrahlung or a photonuclear interaction (C144_primary_differs). A second call of Propagate with the same maximal distance lets it travel less."
  },
  {
   "property": "C145",
   "status": "partial",
   "theorems": [
    "Proposal.C145_loss_table",
    "Proposal.C145_rate_table",
    "Proposal.C145_integration",
    "Proposal.C145_agreement_partial",
    "Proposal.C145_built",
    "Proposal.C145_no_stochastic_losses",
    "Proposal.C145_positive_variance",
    "Proposal.C145_free_path"
   ],
   "note": "True for all energies of the tables that are not within a part of a step above the threshold of a component, wherever the cross section with tables is built (C145_agreement_partial, C145_loss_table, C145_rate_table); without fluctuations it is built exactly if all components have stochastic losses at some energy of the tables or none are asked for (C145_built). The claim fails otherwise: with a finite ecut above the energies of the tables and vcut 1 the constructor with tables throws while the one without works (C145_no_stochastic_losses), and so it does with cont_rand for squared losses that are positive at all energies (C145_positive_variance). Squared losses that are positive at the lowest energy are left out of the agreement."
  },
  {
   "property": "C146",
   "status": "partial",
   "theorems": [
    "Proposal.C146_state",
    "Proposal.C146_good_utility",
    "Proposal.C146_homogeneous",
    "Proposal.C146_track_partial",
    "Proposal.C146_regular",
    "Proposal.C146_ends",
    "Proposal.C146_contained",
    "Proposal.C146_constructed",
    "Proposal.C146_parts",
    "Proposal.C146_grammage_partial",
    "Proposal.C146_energy_partial",
    "Proposal.C146_interaction_partial",
    "Proposal.C146_decay_partial",
    "Proposal.C146_randomised_partial"
   ],
   "note": "Calculators without tables and exact integrals. The ranges of all calculators are proved (C146_good_utility) and do not depend on the calls before (C146_state); the order of the track follows for regular runs (C146_track_partial), and without this restriction for a particle in one sector without scattering that cannot reach the border (C146_regular, C146_contained), whose propagation also ends (C146_ends). The laws of grammage, energy after a grammage, time, interaction, decay and randomised energy are stated in terms of the cross sections for energies well apart (C146_grammage_partial to C146_randomised_partial). Missing: runs that overshoot the maximal distance or use the emergency exit, for which the order fails (C13_distance_decreases). A run in which a calculator throws is not a run of the code to its end; the model continues with the energy before."
  },
  {
   "property": "C147",
   "status": "partial",
   "theorems": [
    "Proposal.C147_calculators",
    "Proposal.C147_no_calculator",
    "Proposal.C147_first",
    "Proposal.C147_loss",
    "Proposal.C147_absorbed",
    "Proposal.C147_track",
    "Proposal.C147_entry",
    "Proposal.C147_decay_partial",
    "Proposal.C147_cascade"
   ],
   "note": "Missing: decays whose products contain NaN, and the case that a calculator returns NaN or throws (the theorems are about the secondaries that are returned). Pions and kaons decay without products, see C87_mesons."
  },
  {
   "property": "C148",
   "status": "partial",
   "theorems": [
    "Proposal.C148_refused",
    "Proposal.C148_compiled",
    "Proposal.C148_all_energy_partial",
    "Proposal.C148_const",
    "Proposal.C148_const_others",
    "Proposal.C148_cuts",
    "Proposal.C148_photoproduction",
    "Proposal.C148_rates",
    "Proposal.C148_target",
    "Proposal.C148_foreign_component",
    "Proposal.C148_unknown_hash",
    "Proposal.C148_lower_limit",
    "Proposal.C148_sampled",
    "Proposal.C148_track",
    "Proposal.C148_gone",
    "Proposal.C148_factories"
   ],
   "note": "False for a parametrization passed as a const object with a name: std::remove_cv_t leaves the const of const T&, so the traits of the type are missed. Then cuts are accepted, and pairs of photons and the weak interaction leave a part of the energy (C148_const); for ionization the template is not compiled (C148_compiled). Photoproduction accepts cuts and ignores them (C148_photoproduction). Below the binding energy the rate of the photo effect asked for by hash is not a number (C148_target), and a component which is not in the medium has a rate (C148_foreign_component)."
  },
  {
   "property": "C149",
   "status": "partial",
   "theorems": [
    "Proposal.C149_map",
    "Proposal.C149_again",
    "Proposal.C149_taken",
    "Proposal.C149_charge",
    "Proposal.C149_antiparticle",
    "Proposal.C149_weak_partner",
    "Proposal.C149_limits",
    "Proposal.C149_lifetime_partial",
    "Proposal.C149_k0",
    "Proposal.C149_k0_decay",
    "Proposal.C149_anti_decay",
    "Proposal.C149_numbers",
    "Proposal.C149_stau",
    "Proposal.C149_builder",
    "Proposal.C149_copy",
    "Proposal.C149_default"
   ],
   "note": "Proved for all built-in particles except: the neutral kaon is documented as stable but has the lifetime -1 s, which is finite, so a decay calculator is made for it (C149_k0); with it the kaon never decays before the lower limit and is reported as decayed there (C149_k0_decay). The types of the staus have no definition until one is constructed, and the staus have the hash numbers of the stable massive particles (C149_stau). Two different particles that a user builds without a type cannot both be constructed, and the default charge is -1 (C149_default)."
  },
  {
   "property": "C150",
   "status": "proved",
   "theorems": [
    "Proposal.C150_types",
    "Proposal.C150_leptons",
    "Proposal.C150_charge",
    "Proposal.C150_boson",
    "Proposal.C150_survivor",
    "Proposal.C150_last",
    "Proposal.C150_track",
    "Proposal.C150_shower_leptons",
    "Proposal.C150_shower_charge"
   ],
   "note": "Hadrons have no charge in the code; their charge is the one that is missing. Interactions of photons are assumed to be given photons, annihilation positrons, and weak interactions leptons with the weak partner of their definition; the conversion takes all energy (as sampled) and the minimal energy is not negative. Decays whose products contain NaN are not covered (C87)."
  },
  {
   "property": "C151",
   "status": "proved",
   "theorems": [
    "Proposal.C151_track",
    "Proposal.C151_faults",
    "Proposal.C151_shifts",
    "Proposal.C151_turns",
    "Proposal.C151_sphere",
    "Proposal.C151_box",
    "Proposal.C151_cylinder",
    "Proposal.C151_exponential",
    "Proposal.C151_depth",
    "Proposal.C151_homogeneous",
    "Proposal.C151_energy_lookup",
    "Proposal.C151_distance_lookup",
    "Proposal.C151_entry",
    "Proposal.C151_exit",
    "Proposal.C151_closest",
    "Proposal.C151_hit"
   ],
   "note": "In exact arithmetic: rounding of floating point numbers does depend on the position. Turns of the whole setup need sectors without scattering, since the frame in which a deflection is applied depends on the direction (C22); boxes cannot be turned at all, cylinders only about their direction."
  },
  {
   "property": "C152",
   "status": "proved",
   "theorems": [
    "Proposal.C152_same_track",
    "Proposal.C152_finished"
   ],
   "note": "In exact arithmetic and for sectors without scattering whose density converts grammage to distance independently of the border (homogeneous and exponential). With multiple scattering the proposed step to the maximal distance is scattered with its own numbers, so the two propagations differ."
  },
  {
   "property": "C153",
   "status": "proved",
   "theorems": [
    "Proposal.C153_forward",
    "Proposal.C153_replay",
    "Proposal.C153_reproducible"
   ],
   "note": "The physics (stochastic loss, scattering, decay) is a function of the numbers it is given. The global generator of the code is modelled in C48; interpolation tables built on the first use do not draw numbers."
  },
  {
   "property": "C154",
   "status": "proved",
   "theorems": [
    "Proposal.C154_order",
    "Proposal.C154_behind",
    "Proposal.C154_renumber",
    "Proposal.C154_condition",
    "Proposal.C154_ties"
   ],
   "note": "C154_order, C154_ties, C154_renumber, C154_behind (as long as the track stays in the region and the directions in the set for which the geometry reports it as inside, the unit vectors for the built-in shapes) and C154_condition."
  },
  {
   "property": "C155",
   "status": "partial",
   "theorems": [
    "Proposal.C155_good_utility_partial",
    "Proposal.C155_exact_tables_partial",
    "Proposal.C155_track_partial",
    "Proposal.C155_contained_partial",
    "Proposal.C155_same",
    "Proposal.C155_same_utility",
    "Proposal.C155_tables",
    "Proposal.C155_below",
    "Proposal.C155_slack"
   ],
   "note": "C155_good_utility_partial, C155_track_partial and C155_contained_partial hold for tables of lengths and times that do not decrease if close lengths are not longer than in the table, which C155_exact_tables_partial shows for energy losses that do not decrease with the energy. C155_below proves that the rule fails for an energy loss that decreases with the energy, even with exact tables: lengths between energies that differ by less than a millionth are computed from the energy loss at the upper energy, so a step shorter than the one to the wanted energy can end below it. C155_slack bounds the difference. C155_same is the agreement with the calculators without tables."
  },
  {
   "property": "C156",
   "status": "proved",
   "theorems": [
    "Proposal.C156_isotropic",
    "Proposal.C156_cosine",
    "Proposal.C156_every",
    "Proposal.C156_energies",
    "Proposal.C156_spectrum",
    "Proposal.C156_spectrum_second"
   ],
   "note": ""
  },
  {
   "property": "C157",
   "status": "partial",
   "theorems": [
    "Proposal.C157_next_energy_partial",
    "Proposal.C157_decay_partial",
    "Proposal.C157_interaction_partial",
    "Proposal.C157_stable_partial",
    "Proposal.C157_two_numbers",
    "Proposal.C157_decay_entry_partial"
   ],
   "note": "The laws assume exact integration and an exact search of energies, and continuous positive losses and rates; C157_two_numbers holds without. The density enters the decay law as the density at the start of the step, as in the code. C157_decay_entry_partial is the law for the entries of the track. For densities that are not constant the decay law fails, see C162_inhomogeneous."
  },
  {
   "property": "C158",
   "status": "partial",
   "theorems": [
    "Proposal.C158_deflection",
    "Proposal.C158_mean",
    "Proposal.C158_stochastic",
    "Proposal.C158_stochastic_brems",
    "Proposal.C158_propagation",
    "Proposal.C158_compton",
    "Proposal.C158_ionization",
    "Proposal.C158_annihilation",
    "Proposal.C158_bremsstrahlung",
    "Proposal.C158_photon_pairs",
    "Proposal.C158_forward",
    "Proposal.C158_decay",
    "Proposal.C158_multiple_partial"
   ],
   "note": "Multiple scattering is proved for Highland with the exact quantile function of the normal distribution (C158_multiple_partial; the one of the code differs by 1e-11, C138_quantile). Moliere scattering, which samples the two planes independently from a distribution that is not normal, is not covered. All other parts are proved."
  },
  {
   "property": "C159",
   "status": "partial",
   "theorems": [
    "Proposal.C159_law",
    "Proposal.C159_components",
    "Proposal.C159_medium",
    "Proposal.C159_all_energy",
    "Proposal.C159_direct",
    "Proposal.C159_multiplied",
    "Proposal.C159_calculator_partial",
    "Proposal.C159_table_partial",
    "Proposal.C159_propagation"
   ],
   "note": "The law is proved for all calculators which are the inverse of the integrated differential cross section (C159_law, C159_components, C159_medium, C159_all_energy, C159_direct, C159_multiplied, C159_propagation). That the calculators of the code are, is proved for exact integrations and searches (C159_calculator_partial, C159_table_partial); the numerical errors are not bounded. Components with the same hash are excluded, where the rate is wrong (C31_repeated_component)."
  },
  {
   "property": "C160",
   "status": "partial",
   "theorems": [
    "Proposal.C160_next_interaction_partial",
    "Proposal.C160_step_partial"
   ],
   "note": "Proved with exact integrations and searches, for calculators which follow the differential cross sections, and for rates that depend measurably on the energy (C160_next_interaction_partial, C160_step_partial). The numerical errors are not bounded."
  },
  {
   "property": "C161",
   "status": "partial",
   "theorems": [
    "Proposal.C161_mean",
    "Proposal.C161_total",
    "Proposal.C161_components_partial",
    "Proposal.C161_fluctuations_partial",
    "Proposal.C161_medium_partial",
    "Proposal.C161_direct",
    "Proposal.C161_calculators_partial",
    "Proposal.C161_cut",
    "Proposal.C161_propagation"
   ],
   "note": "The mean over the random number and the sum over processes are proved for every list (C161_mean, C161_total, C161_cut, C161_direct, C161_propagation). That a cross section with a cut has the mean of its differential cross section is proved for calculators with exact integrals and searches (C161_components_partial, C161_medium_partial, C161_fluctuations_partial, and C161_calculators_partial from the modelled calculators and the cut itself)."
  },
  {
   "property": "C162",
   "status": "partial",
   "theorems": [
    "Proposal.C162_time_partial",
    "Proposal.C162_matter_partial",
    "Proposal.C162_passes_partial",
    "Proposal.C162_free_path_partial",
    "Proposal.C162_beyond_partial",
    "Proposal.C162_ends_partial",
    "Proposal.C162_inhomogeneous"
   ],
   "note": "Exact integration and search of energies. The exact probability is that of C162_ends_partial (for the track of a propagation that starts inside a large sector, without multiple scattering) and C162_free_path_partial; with energy dependent rates and decay lengths C162_passes_partial bounds it by those at the ends. Energies next to each other are excluded (WellAbove): the integrals over them are 0 in the code. For densities that are not constant the claim is false: the code takes the density at the start of the step for decays, so in a falling density particles live any number of lifetimes too long (C162_inhomogeneous)."
  },
  {
   "property": "C163",
   "status": "partial",
   "theorems": [
    "Proposal.C163_sample",
    "Proposal.C163_energy_partial",
    "Proposal.C163_mean_partial",
    "Proposal.C163_shift_partial",
    "Proposal.C163_spread_partial",
    "Proposal.C163_step_partial",
    "Proposal.C163_mean_changed"
   ],
   "note": "The distribution is proved for the numerical methods being exact and for a random number that the scattering of the step has not used (C67 is the other case). The code violates the second part: C163_mean_changed is an example with a shifted mean, C163_shift_partial says exactly when the mean energy loss is larger than without randomization (initial energy closer than the minimal energy), and C163_spread_partial that the fluctuations are always smaller than the intended variance. The restriction to an interval that is not symmetric is the reason."
  },
  {
   "property": "C164",
   "status": "partial",
   "theorems": [
    "Proposal.C164_two_media_partial",
    "Proposal.C164_divided_partial",
    "Proposal.C164_border_partial",
    "Proposal.C164_passage_partial",
    "Proposal.C164_energy_partial",
    "Proposal.C164_scattering_divided"
   ],
   "note": "Proved for the numerical methods being exact, and for the step to a border without scattering and continuous randomization. The code violates it for the multiple scattering: C164_scattering_divided shows that ten layers of a medium scatter less than the whole, because the logarithm of the Highland formula is taken of every layer alone; the continuous randomization is restricted in every step (C163)."
  },
  {
   "property": "C165",
   "status": "partial",
   "theorems": [
    "Proposal.C165_same_track",
    "Proposal.C165_goes_on",
    "Proposal.C165_below_limits",
    "Proposal.C165_randomised"
   ],
   "note": "Proved without continuous randomization. With it the code violates the property: C165_randomised shows that the same random number gives another energy for every minimal energy above the lower limit, since the minimal energy is a limit of the normal distribution. Not covered: steps in which the minimal energy itself is the next event, but a border comes before."
  },
  {
   "property": "C166",
   "status": "partial",
   "theorems": [
    "Proposal.C166_read_again_partial",
    "Proposal.C166_six_digits",
    "Proposal.C166_once",
    "Proposal.C166_knots",
    "Proposal.C166_through_nodes",
    "Proposal.C166_precision",
    "Proposal.C166_polynoms",
    "Proposal.C166_binary",
    "Proposal.C166_no_file"
   ],
   "note": "Proved for the text mode and splines through nodes. The code violates the property otherwise: C166_precision (numbers are printed with six digits, a line of value 1234567 has another value when read), C166_polynoms (splines constructed from polynomials write one interval too many, reading them uses an uninitialised degree), C166_binary (the binary mode writes the bytes of a std::string object and reads bytes over an object with vectors), C166_no_file (a missing file leaves the number of intervals uninitialised without a report). Not covered: the exact decimal rounding of halves."
  }
 ]
}