{
 "claims": [
  {
   "property": "C01",
   "status": "proved",
   "theorems": [
    "Verif.Spin.C01_spin_range"
   ],
   "note": ""
  },
  {
   "property": "C02",
   "status": "proved",
   "theorems": [
    "Verif.Spin.C02_rational_range"
   ],
   "note": ""
  },
  {
   "property": "C03",
   "status": "proved",
   "theorems": [
    "Verif.Spin.C03_arange_termination"
   ],
   "note": ""
  },
  {
   "property": "C04",
   "status": "proved",
   "theorems": [
    "Verif.Spin.C04_ls_contents",
    "Verif.Spin.C04_ls_allowed",
    "Verif.Spin.C04_ls_complete",
    "Verif.Spin.C04_ls_unphysical"
   ],
   "note": ""
  },
  {
   "property": "C05",
   "status": "proved",
   "theorems": [
    "Verif.Spin.C05_ls_helicity_count",
    "Verif.Spin.C05_default_truncates"
   ],
   "note": ""
  },
  {
   "property": "C06",
   "status": "proved",
   "theorems": [
    "Verif.Spin.C06_parity_filter"
   ],
   "note": ""
  },
  {
   "property": "C07",
   "status": "proved",
   "theorems": [
    "Verif.ThreeBody.C07_constructors",
    "Verif.Spin.C07_spin_validation",
    "Verif.Spin.C07_negative_spin"
   ],
   "note": ""
  },
  {
   "property": "C08",
   "status": "proved",
   "theorems": [
    "Verif.Angles.C08_scattering_angle"
   ],
   "note": ""
  },
  {
   "property": "C09",
   "status": "proved",
   "theorems": [
    "Verif.Angles.C09_scattering_errors",
    "Verif.Angles.C09_scattering_swapped"
   ],
   "note": ""
  },
  {
   "property": "C10",
   "status": "proved",
   "theorems": [
    "Verif.Angles.C10_theta_hat_total",
    "Verif.Angles.C10_theta_hat_angle"
   ],
   "note": ""
  },
  {
   "property": "C11",
   "status": "proved",
   "theorems": [
    "Verif.Angles.C11_theta_hat_full_turn"
   ],
   "note": ""
  },
  {
   "property": "C12",
   "status": "proved",
   "theorems": [
    "Verif.Angles.C12_zeta_angle"
   ],
   "note": ""
  },
  {
   "property": "C13",
   "status": "proved",
   "theorems": [
    "Verif.Angles.C13_zeta_total",
    "Verif.Angles.C13_zeta_errors",
    "Verif.Angles.C13_zeta_symmetry",
    "Verif.Angles.C13_zeta_symbols_injective"
   ],
   "note": ""
  },
  {
   "property": "C14",
   "status": "proved",
   "theorems": [
    "Verif.Angles.C14_zeta_sum_rule",
    "Verif.Angles.C14_initial_state_turn"
   ],
   "note": ""
  },
  {
   "property": "C15",
   "status": "proved",
   "theorems": [
    "Verif.Angles.C15_defined_on_dalitz"
   ],
   "note": ""
  },
  {
   "property": "C16",
   "status": "proved",
   "theorems": [
    "Verif.ThreeBody.C16_chain_constructor",
    "Verif.ThreeBody.C16_accessors",
    "Verif.ThreeBody.C16_interaction",
    "Verif.ThreeBody.C16_errors"
   ],
   "note": ""
  },
  {
   "property": "C17",
   "status": "proved",
   "theorems": [
    "Verif.ThreeBody.C17_decay_constructor",
    "Verif.ThreeBody.C17_valid_decay"
   ],
   "note": ""
  },
  {
   "property": "C18",
   "status": "proved",
   "theorems": [
    "Verif.ThreeBody.C18_get_subsystem",
    "Verif.ThreeBody.C18_partition"
   ],
   "note": ""
  },
  {
   "property": "C19",
   "status": "proved",
   "theorems": [
    "Verif.ThreeBody.C19_find_chain"
   ],
   "note": ""
  },
  {
   "property": "C20",
   "status": "proved",
   "theorems": [
    "Verif.ThreeBody.C20_decay_product_ids"
   ],
   "note": ""
  },
  {
   "property": "C21",
   "status": "proved",
   "theorems": [
    "Verif.ThreeBody.C21_best_reference_any_order",
    "Verif.ThreeBody.C21_best_reference"
   ],
   "note": ""
  },
  {
   "property": "C22",
   "status": "proved",
   "theorems": [
    "Verif.ThreeBody.C22_registry",
    "Verif.ThreeBody.C22_errors"
   ],
   "note": ""
  },
  {
   "property": "C23",
   "status": "partial",
   "theorems": [
    "Verif.ThreeBody.C23_shadowed_chain_ignored",
    "Verif.ThreeBody.C23_registered_dynamics_partial",
    "Verif.ThreeBody.C23_amplitude_by_name",
    "Verif.ThreeBody.C23_amplitude_partial"
   ],
   "note": ""
  },
  {
   "property": "C24",
   "status": "proved",
   "theorems": [
    "Verif.ThreeBody.C24_mul",
    "Verif.ThreeBody.C24_monoid"
   ],
   "note": ""
  },
  {
   "property": "C25",
   "status": "proved",
   "theorems": [
    "Verif.ThreeBody.C25_amplitudes"
   ],
   "note": ""
  },
  {
   "property": "C26",
   "status": "proved",
   "theorems": [
    "Verif.ThreeBody.C26_no_undefined_amplitude"
   ],
   "note": ""
  },
  {
   "property": "C27",
   "status": "proved",
   "theorems": [
    "Verif.ThreeBody.C27_coupling_defaults"
   ],
   "note": ""
  },
  {
   "property": "C28",
   "status": "proved",
   "theorems": [
    "Verif.ThreeBody.C28_angles_defined",
    "Verif.ThreeBody.C28_only_these"
   ],
   "note": ""
  },
  {
   "property": "C29",
   "status": "proved",
   "theorems": [
    "Verif.ThreeBody.C29_amplitude_value",
    "Verif.ThreeBody.C29_phase_is_sign",
    "Verif.ThreeBody.C29_helicity_conservation"
   ],
   "note": ""
  },
  {
   "property": "C30",
   "status": "proved",
   "theorems": [
    "Verif.ThreeBody.C30_intensity_value",
    "Verif.ThreeBody.C30_nonnegative"
   ],
   "note": ""
  },
  {
   "property": "C31",
   "status": "proved",
   "theorems": [
    "Verif.ThreeBody.C31_change_of_reference",
    "Verif.ThreeBody.C31_reference_irrelevant",
    "Verif.ThreeBody.C31_half_integer_depends"
   ],
   "note": ""
  },
  {
   "property": "C32",
   "status": "proved",
   "theorems": [
    "Verif.ThreeBody.C32_coefficients"
   ],
   "note": ""
  },
  {
   "property": "C33",
   "status": "proved",
   "theorems": [
    "Verif.ThreeBody.C33_masses"
   ],
   "note": ""
  },
  {
   "property": "C34",
   "status": "proved",
   "theorems": [
    "Verif.ThreeBody.C34_cleanup"
   ],
   "note": ""
  },
  {
   "property": "C35",
   "status": "proved",
   "theorems": [
    "Verif.ThreeBody.C35_min_ls"
   ],
   "note": ""
  },
  {
   "property": "C36",
   "status": "proved",
   "theorems": [
    "Verif.ThreeBody.C36_missing_ls",
    "Verif.ThreeBody.C36_no_chains"
   ],
   "note": ""
  },
  {
   "property": "C37",
   "status": "proved",
   "theorems": [
    "Verif.ThreeBody.C37_closed_form",
    "Verif.ThreeBody.C37_bounded"
   ],
   "note": ""
  },
  {
   "property": "C38",
   "status": "proved",
   "theorems": [
    "Verif.ThreeBody.C38_relativistic_normalised",
    "Verif.ThreeBody.C38_minL_normalised",
    "Verif.ThreeBody.C38_unitarity"
   ],
   "note": ""
  },
  {
   "property": "C39",
   "status": "proved",
   "theorems": [
    "Verif.ThreeBody.C39_sum_of_widths",
    "Verif.ThreeBody.C39_order_irrelevant",
    "Verif.ThreeBody.C39_no_real_pole"
   ],
   "note": ""
  },
  {
   "property": "C40",
   "status": "proved",
   "theorems": [
    "Verif.ThreeBody.C40_closed_form",
    "Verif.ThreeBody.C40_at_pole",
    "Verif.ThreeBody.C40_normalised_iff"
   ],
   "note": ""
  },
  {
   "property": "C41",
   "status": "partial",
   "theorems": [
    "Verif.ThreeBody.C41_dimension_sound",
    "Verif.ThreeBody.C41_production_partial",
    "Verif.ThreeBody.C41_decay_vertex_fails",
    "Verif.ThreeBody.C41_unit_dependence"
   ],
   "note": ""
  },
  {
   "property": "C42",
   "status": "proved",
   "theorems": [
    "Verif.ThreeBody.C42_value",
    "Verif.ThreeBody.C42_missing_ls",
    "Verif.ThreeBody.C42_symbols",
    "Verif.ThreeBody.C42_defaults",
    "Verif.ThreeBody.C42_usable_in_formulate",
    "Verif.ThreeBody.C42_nested_products",
    "Verif.ThreeBody.C42_from_constructor"
   ],
   "note": ""
  },
  {
   "property": "C43",
   "status": "proved",
   "theorems": [
    "Verif.Qrules.C43_topology",
    "Verif.Qrules.C43_transition",
    "Verif.Qrules.C43_idempotent",
    "Verif.Qrules.C43_insertion_order"
   ],
   "note": ""
  },
  {
   "property": "C44",
   "status": "proved",
   "theorems": [
    "Verif.Qrules.C44_normalised_ids"
   ],
   "note": ""
  },
  {
   "property": "C45",
   "status": "proved",
   "theorems": [
    "Verif.Qrules.C45_result",
    "Verif.Qrules.C45_depends_on_set",
    "Verif.Qrules.C45_returns",
    "Verif.Qrules.C45_mixed_none_raises"
   ],
   "note": ""
  },
  {
   "property": "C46",
   "status": "partial",
   "theorems": [
    "Verif.Qrules.C46_minimum_per_group_partial",
    "Verif.Qrules.C46_idempotent_partial",
    "Verif.Qrules.C46_node_ids_error",
    "Verif.Qrules.C46_intermediate_error",
    "Verif.Qrules.C46_empty_selection_fails"
   ],
   "note": ""
  },
  {
   "property": "C47",
   "status": "proved",
   "theorems": [
    "Verif.Qrules.C47_members",
    "Verif.Qrules.C47_not_a_member"
   ],
   "note": ""
  },
  {
   "property": "C48",
   "status": "proved",
   "theorems": [
    "Verif.Qrules.C48_orbit",
    "Verif.Qrules.C48_singleton"
   ],
   "note": ""
  },
  {
   "property": "C49",
   "status": "partial",
   "theorems": [
    "Verif.Qrules.C49_empty",
    "Verif.Qrules.C49_result_partial",
    "Verif.Qrules.C49_every_transition_partial",
    "Verif.Qrules.C49_relabels",
    "Verif.Qrules.C49_returns",
    "Verif.Qrules.C49_coupling_order_fails",
    "Verif.Qrules.C49_resonance_before_spectator"
   ],
   "note": ""
  },
  {
   "property": "C50",
   "status": "proved",
   "theorems": [
    "Verif.Qrules.C50_particle_values",
    "Verif.Qrules.C50_state_values",
    "Verif.Qrules.C50_outcome"
   ],
   "note": ""
  },
  {
   "property": "C51",
   "status": "proved",
   "theorems": [
    "Verif.Serialization.C51_distribution",
    "Verif.Serialization.C51_chains_and_topology",
    "Verif.Serialization.C51_function"
   ],
   "note": ""
  },
  {
   "property": "C52",
   "status": "proved",
   "theorems": [
    "Verif.Serialization.C52_topology_mismatch_fails",
    "Verif.Serialization.C52_vertices",
    "Verif.Serialization.C52_errors",
    "Verif.Serialization.C52_decay_chain",
    "Verif.Serialization.C52_order_irrelevant",
    "Verif.Serialization.C52_topology_ignored",
    "Verif.Serialization.C52_spectator"
   ],
   "note": ""
  },
  {
   "property": "C53",
   "status": "proved",
   "theorems": [
    "Verif.Serialization.C53_errors",
    "Verif.Serialization.C53_to_decay",
    "Verif.Serialization.C53_states",
    "Verif.Serialization.C53_set_of_chains",
    "Verif.Serialization.C53_returns"
   ],
   "note": ""
  },
  {
   "property": "C54",
   "status": "proved",
   "theorems": [
    "Verif.Serialization.C54_bad_vertex",
    "Verif.Serialization.C54_bad_vertex_amplitude",
    "Verif.Serialization.C54_decay_products_error",
    "Verif.Serialization.C54_helicities",
    "Verif.Serialization.C54_final_states",
    "Verif.Serialization.C54_missing_helicities",
    "Verif.Serialization.C54_resonance_found",
    "Verif.Serialization.C54_no_resonance",
    "Verif.Serialization.C54_resonance_skip"
   ],
   "note": ""
  },
  {
   "property": "C55",
   "status": "proved",
   "theorems": [
    "Verif.Serialization.C55_helicity",
    "Verif.Serialization.C55_parity",
    "Verif.Serialization.C55_symmetry",
    "Verif.Serialization.C55_recoupling"
   ],
   "note": ""
  },
  {
   "property": "C56",
   "status": "partial",
   "theorems": [
    "Verif.Serialization.C56_independent_of_initial",
    "Verif.Serialization.C56_conservation_fails",
    "Verif.Serialization.C56_flipped_wigner_fails",
    "Verif.Serialization.C56_vertex_helicities_partial"
   ],
   "note": ""
  },
  {
   "property": "C57",
   "status": "partial",
   "theorems": [
    "Verif.Serialization.C57_ls_vertex_fails",
    "Verif.Serialization.C57_ls_vertex_type_error",
    "Verif.Serialization.C57_propagator_error",
    "Verif.Serialization.C57_ls_value_partial",
    "Verif.Serialization.C57_one_propagator"
   ],
   "note": ""
  },
  {
   "property": "C58",
   "status": "partial",
   "theorems": [
    "Verif.Serialization.C58_parameter_partial",
    "Verif.Serialization.C58_state_masses",
    "Verif.Serialization.C58_resonance_mass",
    "Verif.Serialization.C58_resonance_width",
    "Verif.Serialization.C58_distinct",
    "Verif.Serialization.C58_radius_fails",
    "Verif.Serialization.C58_channel_mass_fails"
   ],
   "note": ""
  },
  {
   "property": "C59",
   "status": "partial",
   "theorems": [
    "Verif.Serialization.C59_returns_iff",
    "Verif.Serialization.C59_decay_vertex_value",
    "Verif.Serialization.C59_decay_vertex_partial",
    "Verif.Serialization.C59_production_vertex_fails",
    "Verif.Serialization.C59_returns",
    "Verif.Serialization.C59_errors"
   ],
   "note": ""
  },
  {
   "property": "C60",
   "status": "proved",
   "theorems": [
    "Verif.Serialization.C60_returns",
    "Verif.Serialization.C60_amplitude_keys",
    "Verif.Serialization.C60_no_undefined_amplitude",
    "Verif.Serialization.C60_amplitude_value",
    "Verif.Serialization.C60_dynamics_values",
    "Verif.Serialization.C60_weights",
    "Verif.Serialization.C60_weight_values",
    "Verif.Serialization.C60_weight_collision_fails",
    "Verif.Serialization.C60_weight_symbol_helicities",
    "Verif.Serialization.C60_weight_symbol_iff",
    "Verif.Serialization.C60_own_weights"
   ],
   "note": ""
  },
  {
   "property": "C61",
   "status": "proved",
   "theorems": [
    "Verif.Serialization.C61_sign"
   ],
   "note": ""
  },
  {
   "property": "C62",
   "status": "proved",
   "theorems": [
    "Verif.Serialization.C62_single",
    "Verif.Serialization.C62_pair",
    "Verif.Serialization.C62_other",
    "Verif.Serialization.C62_production"
   ],
   "note": ""
  },
  {
   "property": "C63",
   "status": "proved",
   "theorems": [
    "Verif.Io.C63_particles",
    "Verif.Io.C63_chains",
    "Verif.Io.C63_decay",
    "Verif.Io.C63_mixed_fails",
    "Verif.Io.C63_bar_fails"
   ],
   "note": ""
  },
  {
   "property": "C64",
   "status": "proved",
   "theorems": [
    "Verif.Io.C64_item_type",
    "Verif.Io.C64_raises",
    "Verif.Io.C64_order",
    "Verif.Io.C64_table",
    "Verif.Io.C64_not_a_sequence"
   ],
   "note": ""
  },
  {
   "property": "C65",
   "status": "proved",
   "theorems": [
    "Verif.Io.C65_unambiguous",
    "Verif.Io.C65_text",
    "Verif.Io.C65_with_jp"
   ],
   "note": ""
  },
  {
   "property": "C66",
   "status": "proved",
   "theorems": [
    "Verif.Cached.C66_transparent",
    "Verif.Cached.C66_string_argument",
    "Verif.Cached.C66_parametrized",
    "Verif.Cached.C66_jax",
    "Verif.Cached.C66_once",
    "Verif.Cached.C66_once_on_disk",
    "Verif.Cached.C66_double_precision",
    "Verif.Cached.C66_equal_values_fails"
   ],
   "note": ""
  },
  {
   "property": "C67",
   "status": "proved",
   "theorems": [
    "Verif.ThreeBody.C67_dimensions",
    "Verif.ThreeBody.C67_dimension_unique"
   ],
   "note": ""
  },
  {
   "property": "C68",
   "status": "proved",
   "theorems": [
    "Verif.ThreeBody.C68_bugg_closed_form",
    "Verif.ThreeBody.C68_bugg_adler_zero"
   ],
   "note": ""
  },
  {
   "property": "C69",
   "status": "proved",
   "theorems": [
    "Verif.Io.C69_node",
    "Verif.Io.C69_chain",
    "Verif.Io.C69_space_fails",
    "Verif.Io.C69_not_shown"
   ],
   "note": ""
  },
  {
   "property": "C70",
   "status": "proved",
   "theorems": [
    "Verif.Serialization.C70_intensity_value",
    "Verif.Serialization.C70_nonnegative",
    "Verif.Serialization.C70_cleanup",
    "Verif.Serialization.C70_subsystems",
    "Verif.Serialization.C70_intensity_of_decay"
   ],
   "note": ""
  },
  {
   "property": "C71",
   "status": "proved",
   "theorems": [
    "Verif.Serialization.C71_angles_defined",
    "Verif.Serialization.C71_every_angle"
   ],
   "note": ""
  },
  {
   "property": "C72",
   "status": "proved",
   "theorems": [
    "Verif.ThreeBody.C72_closed",
    "Verif.ThreeBody.C72_value",
    "Verif.ThreeBody.C72_two_invariants",
    "Verif.ThreeBody.C72_breit_wigner",
    "Verif.ThreeBody.C72_closed_breit_wigner",
    "Verif.ThreeBody.C72_evaluable"
   ],
   "note": ""
  },
  {
   "property": "C73",
   "status": "proved",
   "theorems": [
    "Verif.Serialization.C73_multichannel_iff",
    "Verif.Serialization.C73_breit_wigner",
    "Verif.Serialization.C73_multichannel",
    "Verif.Serialization.C73_channels_needed",
    "Verif.Serialization.C73_dispatch",
    "Verif.Serialization.C73_chain",
    "Verif.Serialization.C73_breit_wigner_errors",
    "Verif.Serialization.C73_multichannel_errors"
   ],
   "note": ""
  },
  {
   "property": "C74",
   "status": "proved",
   "theorems": [
    "Verif.Io.C74_particles",
    "Verif.Io.C74_faithful",
    "Verif.Io.C74_chains"
   ],
   "note": ""
  },
  {
   "property": "C75",
   "status": "proved",
   "theorems": [
    "Verif.Serialization.C75_closed",
    "Verif.Serialization.C75_value",
    "Verif.Serialization.C75_evaluable"
   ],
   "note": ""
  },
  {
   "property": "C76",
   "status": "proved",
   "theorems": [
    "Verif.ThreeBody.C76_switch_off"
   ],
   "note": ""
  },
  {
   "property": "C77",
   "status": "proved",
   "theorems": [
    "Verif.ThreeBody.C77_scale",
    "Verif.ThreeBody.C77_parallelogram"
   ],
   "note": ""
  },
  {
   "property": "C78",
   "status": "proved",
   "theorems": [
    "Verif.ThreeBody.C78_spinless"
   ],
   "note": ""
  },
  {
   "property": "C79",
   "status": "proved",
   "theorems": [
    "Verif.ThreeBody.C79_recoupling",
    "Verif.ThreeBody.C79_every_ls_model"
   ],
   "note": ""
  },
  {
   "property": "C80",
   "status": "partial",
   "theorems": [
    "Verif.ThreeBody.C80_helicity_angle",
    "Verif.ThreeBody.C80_exchanged_value",
    "Verif.ThreeBody.C80_exchange_partial",
    "Verif.ThreeBody.C80_exchange_fails"
   ],
   "note": ""
  },
  {
   "property": "C81",
   "status": "proved",
   "theorems": [
    "Verif.ThreeBody.C81_formulated",
    "Verif.ThreeBody.C81_breit_wigner",
    "Verif.ThreeBody.C81_physical",
    "Verif.Serialization.C81_deserialized",
    "Verif.Serialization.C81_serial_breit_wigner",
    "Verif.Serialization.C81_multichannel",
    "Verif.Serialization.C81_deserialized_physical"
   ],
   "note": ""
  },
  {
   "property": "C82",
   "status": "proved",
   "theorems": [
    "Verif.ThreeBody.C82_angles",
    "Verif.ThreeBody.C82_cyclic",
    "Verif.ThreeBody.C82_formulates",
    "Verif.ThreeBody.C82_breit_wigner"
   ],
   "note": ""
  },
  {
   "property": "C83",
   "status": "partial",
   "theorems": [
    "Verif.ThreeBody.C83_angles",
    "Verif.ThreeBody.C83_homogeneous",
    "Verif.ThreeBody.C83_breit_wigner_partial",
    "Verif.ThreeBody.C83_default_fails"
   ],
   "note": ""
  },
  {
   "property": "C84",
   "status": "proved",
   "theorems": [
    "Verif.Qrules.C84_decay",
    "Verif.Qrules.C84_pipeline",
    "Verif.Qrules.C84_needs_couplings",
    "Verif.Qrules.C84_other"
   ],
   "note": ""
  },
  {
   "property": "C85",
   "status": "proved",
   "theorems": [
    "Verif.Qrules.C85_decay",
    "Verif.Qrules.C85_model"
   ],
   "note": ""
  },
  {
   "property": "C86",
   "status": "proved",
   "theorems": [
    "Verif.Serialization.C86_builtin",
    "Verif.Serialization.C86_scale",
    "Verif.Serialization.C86_parallelogram",
    "Verif.Serialization.C86_switch_off",
    "Verif.Serialization.C86_defaults",
    "Verif.Serialization.C86_file"
   ],
   "note": ""
  },
  {
   "property": "C87",
   "status": "proved",
   "theorems": [
    "Verif.Serialization.C87_spinless",
    "Verif.Serialization.C87_front_ends"
   ],
   "note": ""
  },
  {
   "property": "C88",
   "status": "proved",
   "theorems": [
    "Verif.Qrules.C88_transition",
    "Verif.Qrules.C88_iterable",
    "Verif.Qrules.C88_nested"
   ],
   "note": ""
  },
  {
   "property": "C89",
   "status": "proved",
   "theorems": [
    "Verif.Qrules.C89_normalize_items",
    "Verif.Qrules.C89_normalize_raises",
    "Verif.Qrules.C89_normalize_kinds",
    "Verif.Qrules.C89_normalize_problem_set",
    "Verif.Qrules.C89_normalize_reaction",
    "Verif.Qrules.C89_normalize_idempotent",
    "Verif.Qrules.C89_permute_flat",
    "Verif.Qrules.C89_permute_items",
    "Verif.Qrules.C89_permute_raises",
    "Verif.Qrules.C89_permute_kinds"
   ],
   "note": ""
  },
  {
   "property": "C90",
   "status": "proved",
   "theorems": [
    "Verif.Qrules.C90_mutable",
    "Verif.Qrules.C90_moved"
   ],
   "note": ""
  },
  {
   "property": "C91",
   "status": "proved",
   "theorems": [
    "Verif.Serialization.C91_front_ends"
   ],
   "note": ""
  },
  {
   "property": "C92",
   "status": "proved",
   "theorems": [
    "Verif.Io.C92_rows",
    "Verif.Io.C92_readable",
    "Verif.Io.C92_parameters",
    "Verif.Io.C92_kwargs",
    "Verif.Io.C92_newline_fails",
    "Verif.Io.C92_indexed",
    "Verif.Io.C92_comma_fails"
   ],
   "note": ""
  },
  {
   "property": "C93",
   "status": "proved",
   "theorems": [
    "Verif.ThreeBody.C93_amplitudes",
    "Verif.ThreeBody.C93_reversed_helicities",
    "Verif.ThreeBody.C93_polarisation",
    "Verif.ThreeBody.C93_ls",
    "Verif.ThreeBody.C93_wigner"
   ],
   "note": ""
  },
  {
   "property": "C94",
   "status": "proved",
   "theorems": [
    "Verif.ThreeBody.C94_helicities",
    "Verif.ThreeBody.C94_couplings",
    "Verif.ThreeBody.C94_inverse",
    "Verif.ThreeBody.C94_strength",
    "Verif.ThreeBody.C94_truncated",
    "Verif.ThreeBody.C94_serialization"
   ],
   "note": ""
  },
  {
   "property": "C95",
   "status": "proved",
   "theorems": [
    "Verif.ThreeBody.C95_every_helicity_model"
   ],
   "note": ""
  },
  {
   "property": "C96",
   "status": "proved",
   "theorems": [
    "Verif.C96_converted",
    "Verif.C96_converted_error",
    "Verif.C96_to_three_body_decay",
    "Verif.C96_sorted_chains",
    "Verif.C96_to_decay"
   ],
   "note": ""
  },
  {
   "property": "C97",
   "status": "proved",
   "theorems": [
    "Verif.ThreeBody.C97_parity_filter",
    "Verif.ThreeBody.C97_kept_couplings"
   ],
   "note": ""
  },
  {
   "property": "C98",
   "status": "proved",
   "theorems": [
    "Verif.ThreeBody.C98_angle_integral",
    "Verif.ThreeBody.C98_no_interference",
    "Verif.ThreeBody.C98_dalitz_value",
    "Verif.ThreeBody.C98_dalitz_no_interference",
    "Verif.ThreeBody.C98_breit_wigner",
    "Verif.ThreeBody.C98_breit_wigner_no_interference"
   ],
   "note": ""
  },
  {
   "property": "C99",
   "status": "proved",
   "theorems": [
    "Verif.ThreeBody.C99_optical_theorem",
    "Verif.ThreeBody.C99_phase",
    "Verif.ThreeBody.C99_energy_dependent",
    "Verif.ThreeBody.C99_multichannel",
    "Verif.ThreeBody.C99_flatte",
    "Verif.ThreeBody.C99_bugg",
    "Verif.ThreeBody.C99_min_l"
   ],
   "note": ""
  },
  {
   "property": "C100",
   "status": "proved",
   "theorems": [
    "Verif.Serialization.C100_cyclic",
    "Verif.Serialization.C100_lineshapes",
    "Verif.Serialization.C100_form_factors",
    "Verif.Serialization.C100_complete",
    "Verif.Serialization.C100_builtin"
   ],
   "note": ""
  },
  {
   "property": "C101",
   "status": "proved",
   "theorems": [
    "Verif.Serialization.C101_same",
    "Verif.Serialization.C101_change",
    "Verif.Serialization.C101_irrelevant",
    "Verif.Serialization.C101_half_integer_depends",
    "Verif.Serialization.C101_angles"
   ],
   "note": ""
  },
  {
   "property": "C102",
   "status": "proved",
   "theorems": [
    "Verif.Cached.Concurrent.C102_transparent",
    "Verif.Cached.Concurrent.C102_safe",
    "Verif.Cached.Concurrent.C102_one_at_a_time",
    "Verif.Cached.Concurrent.C102_progress",
    "Verif.Cached.Concurrent.C102_double_precision",
    "Verif.Cached.Concurrent.C102_alone",
    "Verif.Cached.Concurrent.C102_killed_while_writing",
    "Verif.Cached.Concurrent.C102_removed",
    "Verif.Cached.Concurrent.C102_created_twice"
   ],
   "note": ""
  },
  {
   "property": "C103",
   "status": "proved",
   "theorems": [
    "Verif.Serialization.C103_spinless",
    "Verif.Serialization.C103_coherent",
    "Verif.Serialization.C103_no_contribution"
   ],
   "note": ""
  },
  {
   "property": "C104",
   "status": "partial",
   "theorems": [
    "Verif.Serialization.C104_angles",
    "Verif.Serialization.C104_homogeneous",
    "Verif.Serialization.C104_dimensions",
    "Verif.Serialization.C104_breit_wigner_partial",
    "Verif.Serialization.C104_production_fails"
   ],
   "note": ""
  },
  {
   "property": "C105",
   "status": "proved",
   "theorems": [
    "Verif.Serialization.C105_weight",
    "Verif.Serialization.C105_weight_error",
    "Verif.Serialization.C105_rational",
    "Verif.Serialization.C105_integer",
    "Verif.Serialization.C105_errors",
    "Verif.Serialization.C105_numbers",
    "Verif.Serialization.C105_default_value",
    "Verif.Serialization.C105_spins"
   ],
   "note": ""
  },
  {
   "property": "C106",
   "status": "proved",
   "theorems": [
    "Verif.Angles.C106_phase_space",
    "Verif.Angles.C106_coordinate"
   ],
   "note": ""
  },
  {
   "property": "C107",
   "status": "proved",
   "theorems": [
    "Verif.Serialization.C107_serial_intensity",
    "Verif.Angles.C107_angles",
    "Verif.ThreeBody.C107_intensity",
    "Verif.ThreeBody.C107_breit_wigner"
   ],
   "note": ""
  },
  {
   "property": "C108",
   "status": "proved",
   "theorems": [
    "Verif.ThreeBody.C108_pairs",
    "Verif.ThreeBody.C108_bounds",
    "Verif.ThreeBody.C108_two_parts",
    "Verif.Serialization.C108_serial_pairs",
    "Verif.Serialization.C108_serial_bounds",
    "Verif.Serialization.C108_serial_two_parts"
   ],
   "note": ""
  },
  {
   "property": "C109",
   "status": "proved",
   "theorems": [
    "Verif.ThreeBody.C109_result",
    "Verif.ThreeBody.C109_get_subsystem",
    "Verif.ThreeBody.C109_only",
    "Verif.ThreeBody.C109_warnings",
    "Verif.ThreeBody.C109_silent",
    "Verif.ThreeBody.C109_mute",
    "Verif.ThreeBody.C109_muted_formulate",
    "Verif.ThreeBody.C109_reference_not_muted",
    "Verif.ThreeBody.C109_error",
    "Verif.ThreeBody.C109_default"
   ],
   "note": ""
  },
  {
   "property": "C110",
   "status": "proved",
   "theorems": [
    "Verif.ThreeBody.C110_angles",
    "Verif.ThreeBody.C110_wigner",
    "Verif.ThreeBody.C110_exchange",
    "Verif.ThreeBody.C110_formulates",
    "Verif.ThreeBody.C110_breit_wigner"
   ],
   "note": ""
  },
  {
   "property": "C111",
   "status": "proved",
   "theorems": [
    "Verif.ThreeBody.C111_parameters",
    "Verif.ThreeBody.C111_distinct",
    "Verif.ThreeBody.C111_shared",
    "Verif.ThreeBody.C111_without_formulates",
    "Verif.ThreeBody.C111_switch_off",
    "Verif.ThreeBody.C111_coefficients_free",
    "Verif.ThreeBody.C111_couplings_factorise",
    "Verif.ThreeBody.C111_coefficients_more"
   ],
   "note": ""
  },
  {
   "property": "C112",
   "status": "partial",
   "theorems": [
    "Verif.LatexRepr.C112_format",
    "Verif.LatexRepr.C112_missing",
    "Verif.LatexRepr.C112_format_only",
    "Verif.LatexRepr.C112_unmatched",
    "Verif.LatexRepr.C112_lineshapes_partial",
    "Verif.LatexRepr.C112_recouplings",
    "Verif.LatexRepr.C112_channel_arguments_fail",
    "Verif.LatexRepr.C112_simple_injective",
    "Verif.LatexRepr.C112_recouplings_distinct",
    "Verif.LatexRepr.C112_multichannel",
    "Verif.LatexRepr.C112_breit_wigner_injective"
   ],
   "note": ""
  },
  {
   "property": "C113",
   "status": "proved",
   "theorems": [
    "Verif.ThreeBody.C113_quantum_numbers",
    "Verif.ThreeBody.C113_degenerate",
    "Verif.ThreeBody.C113_alter_formulates",
    "Verif.ThreeBody.C113_alter",
    "Verif.ThreeBody.C113_relabelled"
   ],
   "note": ""
  },
  {
   "property": "C114",
   "status": "proved",
   "theorems": [
    "Verif.Serialization.C114_returns_iff",
    "Verif.Serialization.C114_defects",
    "Verif.Serialization.C114_complete_iff",
    "Verif.Serialization.C114_options"
   ],
   "note": ""
  },
  {
   "property": "C115",
   "status": "proved",
   "theorems": [
    "Verif.ThreeBody.C115_subsystems",
    "Verif.ThreeBody.C115_one_subsystem",
    "Verif.ThreeBody.C115_bound",
    "Verif.ThreeBody.C115_ls_bound",
    "Verif.ThreeBody.C115_breit_wigner",
    "Verif.ThreeBody.C115_attained",
    "Verif.Serialization.C115_serial_subsystems",
    "Verif.Serialization.C115_serial_bound",
    "Verif.Serialization.C115_serial_one_chain"
   ],
   "note": ""
  },
  {
   "property": "C116",
   "status": "partial",
   "theorems": [
    "Verif.Serialization.C116_angle_integral_partial",
    "Verif.Serialization.C116_builtin",
    "Verif.Serialization.C116_no_interference_partial",
    "Verif.Serialization.C116_same_helicities",
    "Verif.Serialization.C116_interference"
   ],
   "note": "The English statement is false of the code: C116_interference is a witness. Proved when the chains that contribute for the same helicities have the same helicity of the resonance and of its decay products (CommonHelicities)."
  },
  {
   "property": "C117",
   "status": "proved",
   "theorems": [
    "Verif.Serialization.C117_from_end",
    "Verif.Serialization.C117_returns_iff",
    "Verif.Serialization.C117_chain_index",
    "Verif.Serialization.C117_vertex_index",
    "Verif.Serialization.C117_vertex_errors"
   ],
   "note": ""
  },
  {
   "property": "C118",
   "status": "proved",
   "theorems": [
    "Verif.ThreeBody.C118_conjugate",
    "Verif.ThreeBody.C118_real_lineshapes",
    "Verif.ThreeBody.C118_breit_wigner",
    "Verif.Serialization.C118_serial"
   ],
   "note": ""
  },
  {
   "property": "C119",
   "status": "proved",
   "theorems": [
    "Verif.ThreeBody.C119_selection",
    "Verif.ThreeBody.C119_spinless",
    "Verif.Serialization.C119_serial"
   ],
   "note": ""
  },
  {
   "property": "C120",
   "status": "proved",
   "theorems": [
    "Verif.Angles.C120_angles",
    "Verif.ThreeBody.C120_intensity",
    "Verif.ThreeBody.C120_maximum",
    "Verif.Serialization.C120_serial_intensity",
    "Verif.Angles.C120_defined"
   ],
   "note": ""
  },
  {
   "property": "C121",
   "status": "proved",
   "theorems": [
    "Verif.ThreeBody.C121_wigner",
    "Verif.ThreeBody.C121_legendre",
    "Verif.ThreeBody.C121_spinless",
    "Verif.Serialization.C121_serial_spinless"
   ],
   "note": ""
  },
  {
   "property": "C122",
   "status": "proved",
   "theorems": [
    "Verif.Serialization.C122_to_latex_injective",
    "Verif.Serialization.C122_to_latex_parentheses",
    "Verif.Serialization.C122_docs_weights",
    "Verif.Serialization.C122_returns",
    "Verif.Serialization.C122_needs_builder",
    "Verif.Serialization.C122_intensity",
    "Verif.Serialization.C122_closed",
    "Verif.Serialization.C122_weights",
    "Verif.Serialization.C122_masses",
    "Verif.Serialization.C122_flipped_wigner",
    "Verif.Serialization.C122_wigner_fails",
    "Verif.Serialization.C122_bugg",
    "Verif.Serialization.C122_bugg_parameters",
    "Verif.Serialization.C122_adler_zero_fails"
   ],
   "note": ""
  },
  {
   "property": "C123",
   "status": "partial",
   "theorems": [
    "Verif.Qrules.C123_sequence",
    "Verif.Qrules.C123_decay",
    "Verif.Qrules.C123_convert",
    "Verif.Qrules.C123_convert_resumes",
    "Verif.Qrules.C123_filter_sequence",
    "Verif.Qrules.C123_filter_partial",
    "Verif.Qrules.C123_filter_fails"
   ],
   "note": "The English statement is false of filter_min_ls for iterators: C123_filter_fails. Proved for sequences, for to_three_body_decay and convert_transitions, and where filter_min_ls raises ValueError for the node IDs."
  },
  {
   "property": "C124",
   "status": "proved",
   "theorems": [
    "Verif.C124_aligned_error",
    "Verif.C124_builder",
    "Verif.C124_builder_missing",
    "Verif.C124_builder_error",
    "Verif.C124_serialized",
    "Verif.C124_serialized_missing",
    "Verif.C124_serialized_aligned_error",
    "Verif.C124_serialized_error"
   ],
   "note": ""
  },
  {
   "property": "C125",
   "status": "proved",
   "theorems": [
    "Verif.ThreeBody.C125_gaussian",
    "Verif.ThreeBody.C125_gaussian_value",
    "Verif.ThreeBody.C125_gaussian_peak",
    "Verif.ThreeBody.C125_min_l_returns",
    "Verif.ThreeBody.C125_min_l_closed",
    "Verif.ThreeBody.C125_min_l_defaults",
    "Verif.ThreeBody.C125_parent_mass_twice",
    "Verif.ThreeBody.C125_min_l_value",
    "Verif.ThreeBody.C125_min_l_pole",
    "Verif.ThreeBody.C125_model_closed"
   ],
   "note": ""
  },
  {
   "property": "C126",
   "status": "partial",
   "theorems": [
    "Verif.ThreeBody.C126_restores",
    "Verif.ThreeBody.C126_exception",
    "Verif.ThreeBody.C126_loop",
    "Verif.ThreeBody.C126_loop_restores",
    "Verif.ThreeBody.C126_value",
    "Verif.ThreeBody.C126_mentions",
    "Verif.ThreeBody.C126_contains",
    "Verif.ThreeBody.C126_alone_partial",
    "Verif.ThreeBody.C126_mentions_coefficients",
    "Verif.ThreeBody.C126_contains_coefficients",
    "Verif.ThreeBody.C126_braces_fail",
    "Verif.ThreeBody.C126_alone_fails"
   ],
   "note": "The English statement is false of the code: C126_alone_fails (the LaTeX of a resonance may be part of that of another one), C126_exception (couplings stay zero if the call raises). C126_contains says what is computed in all cases; C126_alone_partial is the statement where no other LaTeX contains the text."
  },
  {
   "property": "C127",
   "status": "proved",
   "theorems": [
    "Verif.ThreeBody.C127_restores",
    "Verif.ThreeBody.C127_value",
    "Verif.ThreeBody.C127_selected",
    "Verif.ThreeBody.C127_all",
    "Verif.ThreeBody.C127_none",
    "Verif.ThreeBody.C127_coefficients"
   ],
   "note": ""
  },
  {
   "property": "C128",
   "status": "proved",
   "theorems": [
    "Verif.ThreeBody.C128_products",
    "Verif.ThreeBody.C128_vertices",
    "Verif.ThreeBody.C128_vertices_exist",
    "Verif.ThreeBody.C128_normalisation",
    "Verif.ThreeBody.C128_coefficients"
   ],
   "note": ""
  },
  {
   "property": "C129",
   "status": "proved",
   "theorems": [
    "Verif.ThreeBody.C129_definitions",
    "Verif.ThreeBody.C129_data",
    "Verif.ThreeBody.C129_evaluable",
    "Verif.ThreeBody.C129_intensity",
    "Verif.ThreeBody.C129_range",
    "Verif.Serialization.C129_serial_definitions",
    "Verif.Serialization.C129_serial_intensity",
    "Verif.Serialization.C129_serial_range"
   ],
   "note": ""
  },
  {
   "property": "C130",
   "status": "proved",
   "theorems": [
    "Verif.ThreeBody.C130_split",
    "Verif.ThreeBody.C130_couplings",
    "Verif.ThreeBody.C130_value",
    "Verif.ThreeBody.C130_symbols",
    "Verif.ThreeBody.C130_coefficients",
    "Verif.ThreeBody.C130_breit_wigner"
   ],
   "note": ""
  },
  {
   "property": "C131",
   "status": "proved",
   "theorems": [
    "Verif.ThreeBody.C131_errors",
    "Verif.ThreeBody.C131_chain",
    "Verif.ThreeBody.C131_products",
    "Verif.ThreeBody.C131_labels"
   ],
   "note": ""
  },
  {
   "property": "C132",
   "status": "proved",
   "theorems": [
    "Verif.Serialization.C132_parameters",
    "Verif.Serialization.C132_arguments",
    "Verif.Serialization.C132_value",
    "Verif.Serialization.C132_nonnegative",
    "Verif.Serialization.C132_consistent",
    "Verif.Serialization.C132_published"
   ],
   "note": ""
  },
  {
   "property": "C133",
   "status": "proved",
   "theorems": [
    "Verif.ThreeBody.C133_table",
    "Verif.ThreeBody.C133_last",
    "Verif.ThreeBody.C133_states",
    "Verif.ThreeBody.C133_identical"
   ],
   "note": ""
  },
  {
   "property": "C134",
   "status": "proved",
   "theorems": [
    "Verif.Simplify.C134_value",
    "Verif.Simplify.C134_independent",
    "Verif.Simplify.C134_again",
    "Verif.Simplify.C134_collision_fails"
   ],
   "note": ""
  }
 ]
}
