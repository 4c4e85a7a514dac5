{
 "claims": [
  {
   "property": "C01",
   "status": "proved",
   "theorems": [
    "SpiNN.Props.C01_over_link_and_back",
    "SpiNN.Props.C01_opposite_involution"
   ],
   "note": ""
  },
  {
   "property": "C02",
   "status": "proved",
   "theorems": [
    "SpiNN.Props.C02_xy_over_link_step",
    "SpiNN.Props.C02_negative_link",
    "SpiNN.Props.C02_bad_link"
   ],
   "note": ""
  },
  {
   "property": "C03",
   "status": "proved",
   "theorems": [
    "SpiNN.Props.C03_vector_length_is_min_hops"
   ],
   "note": ""
  },
  {
   "property": "C04",
   "status": "proved",
   "theorems": [
    "SpiNN.Props.C04_vector_is_shortest"
   ],
   "note": ""
  },
  {
   "property": "C05",
   "status": "proved",
   "theorems": [
    "SpiNN.Props.C05_length_zero_iff",
    "SpiNN.Props.C05_length_symm",
    "SpiNN.Props.C05_length_triangle"
   ],
   "note": ""
  },
  {
   "property": "C06",
   "status": "proved",
   "theorems": [
    "SpiNN.Props.C06_concentric_exact",
    "SpiNN.Props.C06_concentric_negative",
    "SpiNN.Props.C06_concentric_wrapped"
   ],
   "note": ""
  },
  {
   "property": "C07",
   "status": "proved",
   "theorems": [
    "SpiNN.Props.C07_local_of_global",
    "SpiNN.Props.C07_global_of_local",
    "SpiNN.Props.C07_global_is_shift"
   ],
   "note": ""
  },
  {
   "property": "C08",
   "status": "proved",
   "theorems": [
    "SpiNN.Props.C08_existing_and_down",
    "SpiNN.Props.C08_global_of_local",
    "SpiNN.Props.C08_chips_by_ethernet"
   ],
   "note": ""
  },
  {
   "property": "C09",
   "status": "proved",
   "theorems": [
    "SpiNN.Props.C09_boards_tile"
   ],
   "note": ""
  },
  {
   "property": "C10",
   "status": "proved",
   "theorems": [
    "SpiNN.Props.C10_boards_disjoint_in_bounds",
    "SpiNN.Props.C10_board_coordinates"
   ],
   "note": ""
  },
  {
   "property": "C11",
   "status": "proved",
   "theorems": [
    "SpiNN.Props.C11_local_chip_coordinate",
    "SpiNN.Props.C11_local_chip_coordinate_total",
    "SpiNN.Props.C11_ethernet_of_board",
    "SpiNN.Props.C11_ethernet_chip_coordinates",
    "SpiNN.Props.C11_nearest_is_unique"
   ],
   "note": ""
  },
  {
   "property": "C12",
   "status": "proved",
   "theorems": [
    "SpiNN.Props.C12_accepts_exactly",
    "SpiNN.Props.C12_refusal",
    "SpiNN.Props.C12_created_machine"
   ],
   "note": ""
  },
  {
   "property": "C13",
   "status": "proved",
   "theorems": [
    "SpiNN.Props.C13_any_size",
    "SpiNN.Props.C13_any_geometry",
    "SpiNN.Props.C13_legal_positions",
    "SpiNN.Props.C13_potential_exact",
    "SpiNN.Props.C13_origin_is_potential"
   ],
   "note": ""
  },
  {
   "property": "C14",
   "status": "proved",
   "theorems": [
    "SpiNN.Props.C14_enough_boards",
    "SpiNN.Props.C14_any_width",
    "SpiNN.Props.C14_single_board",
    "SpiNN.Props.C14_by_boards"
   ],
   "note": ""
  },
  {
   "property": "C15",
   "status": "proved",
   "theorems": [
    "SpiNN.Props.C15_enough_chips",
    "SpiNN.Props.C15_supported"
   ],
   "note": ""
  },
  {
   "property": "C16",
   "status": "partial",
   "theorems": [
    "SpiNN.Props.C16_user_cores_exact",
    "SpiNN.Props.C16_enough_cores_partial",
    "SpiNN.Props.C16_ignores_max_cores"
   ],
   "note": "Full property fails: the size is computed from the board table without the max_machine_core setting (C16_ignores_max_cores). Proved when the setting is not below the default. C16_user_cores_exact says what the machine gets for any setting of max_machine_core."
  },
  {
   "property": "C17",
   "status": "proved",
   "theorems": [
    "SpiNN.Props.C17_min_size",
    "SpiNN.Props.C17_single_board"
   ],
   "note": ""
  },
  {
   "property": "C18",
   "status": "proved",
   "theorems": [
    "SpiNN.Props.C18_machine_is_map",
    "SpiNN.Props.C18_duplicate_refused"
   ],
   "note": ""
  },
  {
   "property": "C19",
   "status": "partial",
   "theorems": [
    "SpiNN.Props.C19_links_count_exact",
    "SpiNN.Props.C19_cores_count",
    "SpiNN.Props.C19_links_count_partial",
    "SpiNN.Props.C19_links_count_stale"
   ],
   "note": "Full property fails if a link is added to the router of a chip already in the machine (C19_links_count_stale). C19_links_count_exact says what get_links_count is after any history; C19_cores_count holds in full."
  },
  {
   "property": "C20",
   "status": "proved",
   "theorems": [
    "SpiNN.Props.C20_ethernet_chips"
   ],
   "note": ""
  },
  {
   "property": "C21",
   "status": "proved",
   "theorems": [
    "SpiNN.Props.C21_validate_exact",
    "SpiNN.Props.C21_refusal"
   ],
   "note": ""
  },
  {
   "property": "C22",
   "status": "partial",
   "theorems": [
    "SpiNN.Props.C22_incoming_exact",
    "SpiNN.Props.C22_incoming_interior",
    "SpiNN.Props.C22_outgoing",
    "SpiNN.Props.C22_incoming_partial",
    "SpiNN.Props.C22_incoming_ignores_wraps"
   ],
   "note": "Incoming part fails on machines with wraps: the code does not wrap the neighbour (C22_incoming_ignores_wraps); C22_incoming_exact says exactly which links are found on any machine, C22_incoming_interior that they are the right ones away from the wraps. Outgoing part proved in full."
  },
  {
   "property": "C23",
   "status": "partial",
   "theorems": [
    "SpiNN.Props.C23_outgoing_local_exact",
    "SpiNN.Props.C23_incoming_local_exact",
    "SpiNN.Props.C23_local_interior",
    "SpiNN.Props.C23_outgoing_local_partial",
    "SpiNN.Props.C23_incoming_local_partial",
    "SpiNN.Props.C23_ignores_wraps"
   ],
   "note": "Fails on machines with wraps and at the board edge (C23_ignores_wraps); C23_outgoing_local_exact and C23_incoming_local_exact say exactly which links are found on any machine, C23_local_interior that they are the right ones away from the wraps."
  },
  {
   "property": "C24",
   "status": "proved",
   "theorems": [
    "SpiNN.Props.C24_one_way_links",
    "SpiNN.Props.C24_each_once"
   ],
   "note": ""
  },
  {
   "property": "C25",
   "status": "proved",
   "theorems": [
    "SpiNN.Props.C25_returns_first_unused",
    "SpiNN.Props.C25_stable",
    "SpiNN.Props.C25_add_chip",
    "SpiNN.Props.C25_nonpositive_height"
   ],
   "note": ""
  },
  {
   "property": "C26",
   "status": "partial",
   "theorems": [
    "SpiNN.Props.C26_is_maximum",
    "SpiNN.Props.C26_minimum_partial",
    "SpiNN.Props.C26_total",
    "SpiNN.Props.C26_not_minimum"
   ],
   "note": "The code returns the maximum over the chips, not the minimum (C26_not_minimum); equal if all chips have the same."
  },
  {
   "property": "C27",
   "status": "proved",
   "theorems": [
    "SpiNN.Props.C27_any_history",
    "SpiNN.Props.C27_spinnaker_link_lookup",
    "SpiNN.Props.C27_otherwise_key_error",
    "SpiNN.Props.C27_no_boot_chip",
    "SpiNN.Props.C27_no_links_at_first"
   ],
   "note": ""
  },
  {
   "property": "C28",
   "status": "proved",
   "theorems": [
    "SpiNN.Props.C28_any_history",
    "SpiNN.Props.C28_offered_is_now",
    "SpiNN.Props.C28_fpga_link_lookup",
    "SpiNN.Props.C28_otherwise_key_error"
   ],
   "note": ""
  },
  {
   "property": "C29",
   "status": "proved",
   "theorems": [
    "SpiNN.Props.C29_table_is_boundary",
    "SpiNN.Props.C29_table_wellformed",
    "SpiNN.Props.C29_clockwise",
    "SpiNN.Props.C29_only_v5",
    "SpiNN.Props.C29_both_ends"
   ],
   "note": ""
  },
  {
   "property": "C30",
   "status": "proved",
   "theorems": [
    "SpiNN.Props.C30_chips",
    "SpiNN.Props.C30_addresses",
    "SpiNN.Props.C30_succeeds",
    "SpiNN.Props.C30_well_placed"
   ],
   "note": ""
  },
  {
   "property": "C31",
   "status": "proved",
   "theorems": [
    "SpiNN.Props.C31_links",
    "SpiNN.Props.C31_destinations",
    "SpiNN.Props.C31_no_one_way"
   ],
   "note": ""
  },
  {
   "property": "C32",
   "status": "proved",
   "theorems": [
    "SpiNN.Props.C32_cores"
   ],
   "note": ""
  },
  {
   "property": "C33",
   "status": "proved",
   "theorems": [
    "SpiNN.Props.C33_validates_iff",
    "SpiNN.Props.C33_down_chips",
    "SpiNN.Props.C33_no_down"
   ],
   "note": ""
  },
  {
   "property": "C34",
   "status": "proved",
   "theorems": [
    "SpiNN.Props.C34_board"
   ],
   "note": ""
  },
  {
   "property": "C35",
   "status": "proved",
   "theorems": [
    "SpiNN.Props.C35_chips",
    "SpiNN.Props.C35_wrapped_chips",
    "SpiNN.Props.C35_wrapped_links",
    "SpiNN.Props.C35_cores"
   ],
   "note": ""
  },
  {
   "property": "C36",
   "status": "partial",
   "theorems": [
    "SpiNN.Props.C36_perfect_partial",
    "SpiNN.Props.C36_single_chip_raises"
   ],
   "note": "Fails for the one-chip board (version 201): its perfect machine is always refused or emptied (C36_single_chip_raises). Proved for all other versions."
  },
  {
   "property": "C37",
   "status": "proved",
   "theorems": [
    "SpiNN.Props.C37_exact",
    "SpiNN.Props.C37_validates_or_raises"
   ],
   "note": ""
  },
  {
   "property": "C38",
   "status": "proved",
   "theorems": [
    "SpiNN.Props.C38_terminates",
    "SpiNN.Props.C38_result",
    "SpiNN.Props.C38_maximal"
   ],
   "note": ""
  },
  {
   "property": "C39",
   "status": "proved",
   "theorems": [
    "SpiNN.Props.C39_raises",
    "SpiNN.Props.C39_raises_machine_exception",
    "SpiNN.Props.C39_only_expected"
   ],
   "note": ""
  },
  {
   "property": "C40",
   "status": "partial",
   "theorems": [
    "SpiNN.Props.C40_attributes_partial",
    "SpiNN.Props.C40_parent_link_lost"
   ],
   "note": "Fails for the parent link: a chip that loses a link forgets its parent (C40_parent_link_lost). All other attributes proved."
  },
  {
   "property": "C41",
   "status": "partial",
   "theorems": [
    "SpiNN.Props.C41_written",
    "SpiNN.Props.C41_rebuilt",
    "SpiNN.Props.C41_round_trip_partial",
    "SpiNN.Props.C41_monitors_refused",
    "SpiNN.Props.C41_virtual_machines",
    "SpiNN.Props.C41_cores_renumbered"
   ],
   "note": "Full property fails: cores are renumbered 0..n-1, the parent link is lost, chips without exactly one monitor are refused (C41_cores_renumbered, C41_monitors_refused). C41_rebuilt says what reading back gives for every machine the writer accepts; C41_round_trip_partial gives the conditions for equality."
  },
  {
   "property": "C42",
   "status": "proved",
   "theorems": [
    "SpiNN.Props.C42_values",
    "SpiNN.Props.C42_defaults"
   ],
   "note": ""
  },
  {
   "property": "C43",
   "status": "proved",
   "theorems": [
    "SpiNN.Props.C43_encode",
    "SpiNN.Props.C43_encode_decode"
   ],
   "note": ""
  },
  {
   "property": "C44",
   "status": "proved",
   "theorems": [
    "SpiNN.Props.C44_decode_encode",
    "SpiNN.Props.C44_same_targets",
    "SpiNN.Props.C44_reading_is_pure"
   ],
   "note": ""
  },
  {
   "property": "C45",
   "status": "partial",
   "theorems": [
    "SpiNN.Props.C45_convert_rejects",
    "SpiNN.Props.C45_constructor_partial",
    "SpiNN.Props.C45_constructor_encodes_other_targets",
    "SpiNN.Props.C45_mixed_arguments"
   ],
   "note": "Fails for the constructor: RoutingEntry(...) does no range check, so link 6 is encoded as processor 0 and processor -1 as link 5 (C45_constructor_encodes_other_targets). The conversion method is proved in full."
  },
  {
   "property": "C46",
   "status": "proved",
   "theorems": [
    "SpiNN.Props.C46_many",
    "SpiNN.Props.C46_any_order",
    "SpiNN.Props.C46_union",
    "SpiNN.Props.C46_semilattice",
    "SpiNN.Props.C46_lost_if_out_of_range"
   ],
   "note": "Union stated for entries whose ids exist; C46_lost_if_out_of_range shows it fails outside. C46_many and C46_any_order extend it to any number of entries merged in any order."
  },
  {
   "property": "C47",
   "status": "partial",
   "theorems": [
    "SpiNN.Props.C47_defaultable_partial",
    "SpiNN.Props.C47_exact",
    "SpiNN.Props.C47_both_incoming",
    "SpiNN.Props.C47_ignores_processors"
   ],
   "note": "Fails: processors are not looked at, and a repeated link is counted twice (C47_ignores_processors). Proved for entries without processors or repetitions; C47_exact says what defaultable is for all."
  },
  {
   "property": "C48",
   "status": "proved",
   "theorems": [
    "SpiNN.Props.C48_create",
    "SpiNN.Props.C48_merge"
   ],
   "note": ""
  },
  {
   "property": "C49",
   "status": "proved",
   "theorems": [
    "SpiNN.Props.C49_eq_meaning",
    "SpiNN.Props.C49_equivalence",
    "SpiNN.Props.C49_hash",
    "SpiNN.Props.C49_hash_tells",
    "SpiNN.Props.C49_core_subset_hash_changes",
    "SpiNN.Props.C49_iptag_ignores_destination",
    "SpiNN.Props.C49_ignore_hashes_differ"
   ],
   "note": ""
  },
  {
   "property": "C50",
   "status": "proved",
   "theorems": [
    "SpiNN.Props.C50_queries",
    "SpiNN.Props.C50_steps",
    "SpiNN.Props.C50_history",
    "SpiNN.Props.C50_order_insensitive"
   ],
   "note": ""
  },
  {
   "property": "C51",
   "status": "proved",
   "theorems": [
    "SpiNN.Props.C51_subset",
    "SpiNN.Props.C51_intersect"
   ],
   "note": ""
  },
  {
   "property": "C52",
   "status": "partial",
   "theorems": [
    "SpiNN.Props.C52_adds_raise",
    "SpiNN.Props.C52_created",
    "SpiNN.Props.C52_step_partial",
    "SpiNN.Props.C52_history_partial",
    "SpiNN.Props.C52_changed_through_returned_subset",
    "SpiNN.Props.C52_exact",
    "SpiNN.Props.C52_chips_fixed"
   ],
   "note": "Fails: the CoreSubset objects handed out are the ones kept, and they are mutable (C52_changed_through_returned_subset). Proved for every history that does not add to a handed out subset; C52_exact says for every history what the frozen group contains later, C52_chips_fixed that its chips never change."
  },
  {
   "property": "C53",
   "status": "proved",
   "theorems": [
    "SpiNN.Props.C53_chips",
    "SpiNN.Props.C53_links",
    "SpiNN.Props.C53_cores",
    "SpiNN.Props.C53_none",
    "SpiNN.Props.C53_wrong_number_of_fields"
   ],
   "note": ""
  },
  {
   "property": "C54",
   "status": "proved",
   "theorems": [
    "SpiNN.Props.C54_core_strings",
    "SpiNN.Props.C54_refusal"
   ],
   "note": ""
  },
  {
   "property": "C55",
   "status": "partial",
   "theorems": [
    "SpiNN.Props.C55_virtual_p_partial",
    "SpiNN.Props.C55_not_onto",
    "SpiNN.Props.C55_closed_form",
    "SpiNN.Props.C55_image"
   ],
   "note": "Virtual p is not onto (C55_not_onto); C55_closed_form and C55_image give the map of the code in full."
  },
  {
   "property": "C56",
   "status": "proved",
   "theorems": [
    "SpiNN.Props.C56_inverse",
    "SpiNN.Props.C56_domain",
    "SpiNN.Props.C56_published_table",
    "SpiNN.Props.C56_spin1"
   ],
   "note": ""
  },
  {
   "property": "C57",
   "status": "partial",
   "theorems": [
    "SpiNN.Props.C57_errors",
    "SpiNN.Props.C57_sound",
    "SpiNN.Props.C57_refused",
    "SpiNN.Props.C57_accepts_partial",
    "SpiNN.Props.C57_248_with_size_refused",
    "SpiNN.Props.C57_248_consistent",
    "SpiNN.Props.C57_eight_by_eight"
   ],
   "note": "Full property fails: version 248 with a size is always refused although the settings agree (C57_248_with_size_refused, C57_248_consistent). Everything else proved."
  },
  {
   "property": "C58",
   "status": "proved",
   "theorems": [
    "SpiNN.Props.C58_accepts_exactly",
    "SpiNN.Props.C58_limits"
   ],
   "note": ""
  },
  {
   "property": "C59",
   "status": "proved",
   "theorems": [
    "SpiNN.Props.C59_get_machine",
    "SpiNN.Props.C59_last_set",
    "SpiNN.Props.C59_generated",
    "SpiNN.Props.C59_unavailable",
    "SpiNN.Props.C59_get_chip_at",
    "SpiNN.Props.C59_user_accessed",
    "SpiNN.Props.C59_access_events",
    "SpiNN.Props.C59_no_access",
    "SpiNN.Props.C59_readers_change_nothing",
    "SpiNN.Props.C59_readers",
    "SpiNN.Props.C59_types",
    "SpiNN.Props.C59_mock"
   ],
   "note": ""
  },
  {
   "property": "C60",
   "status": "partial",
   "theorems": [
    "SpiNN.Props.C60_set_map",
    "SpiNN.Props.C60_once",
    "SpiNN.Props.C60_physical_core",
    "SpiNN.Props.C60_get_version",
    "SpiNN.Props.C60_physical_quad",
    "SpiNN.Props.C60_physical_string",
    "SpiNN.Props.C60_exclusive_partial",
    "SpiNN.Props.C60_both_after_exception"
   ],
   "note": "Full property fails: get_machine_version keeps the version and quad map although it raises (C60_both_after_exception). Proved for histories where no such call was made; set_v_to_p_map at most once per reset proved in full."
  },
  {
   "property": "C61",
   "status": "proved",
   "theorems": [
    "SpiNN.Props.C61_counts"
   ],
   "note": ""
  },
  {
   "property": "C62",
   "status": "partial",
   "theorems": [
    "SpiNN.Props.C62_idle",
    "SpiNN.Props.C62_active",
    "SpiNN.Props.C62_spin2",
    "SpiNN.Props.C62_packet_types",
    "SpiNN.Props.C62_idle_nonneg",
    "SpiNN.Props.C62_idle_additive",
    "SpiNN.Props.C62_active_ge_idle",
    "SpiNN.Props.C62_packets",
    "SpiNN.Props.C62_core_time_partial",
    "SpiNN.Props.C62_ignores_core_count"
   ],
   "note": "The number of active cores of a chip is ignored (C62_ignores_core_count), so 'depends on every active core' holds only for the active time. All else proved."
  },
  {
   "property": "C63",
   "status": "proved",
   "theorems": [
    "SpiNN.Props.C63_router_is_map",
    "SpiNN.Props.C63_constructor"
   ],
   "note": ""
  },
  {
   "property": "C64",
   "status": "proved",
   "theorems": [
    "SpiNN.Props.C64_processors",
    "SpiNN.Props.C64_constructor",
    "SpiNN.Props.C64_tag_order"
   ],
   "note": ""
  },
  {
   "property": "C65",
   "status": "proved",
   "theorems": [
    "SpiNN.Props.C65_versions"
   ],
   "note": ""
  },
  {
   "property": "C66",
   "status": "proved",
   "theorems": [
    "SpiNN.Props.C66_read",
    "SpiNN.Props.C66_accepts",
    "SpiNN.Props.C66_determined",
    "SpiNN.Props.C66_refusal",
    "SpiNN.Props.C66_faulty"
   ],
   "note": ""
  },
  {
   "property": "C67",
   "status": "proved",
   "theorems": [
    "SpiNN.Props.C67_data_view",
    "SpiNN.Props.C67_where_is_xy",
    "SpiNN.Props.C67_validated",
    "SpiNN.Props.C67_injective",
    "SpiNN.Props.C67_where_is_chip"
   ],
   "note": ""
  },
  {
   "property": "C68",
   "status": "proved",
   "theorems": [
    "SpiNN.Props.C68_summary",
    "SpiNN.Props.C68_links",
    "SpiNN.Props.C68_raises"
   ],
   "note": "The documentation says AttributeError without a boot chip; it is KeyError (C68_raises). The links are those at the time the chip was added (C68_links: the same unless links are added late)."
  },
  {
   "property": "C69",
   "status": "proved",
   "theorems": [
    "SpiNN.Props.C69_core_map",
    "SpiNN.Props.C69_cores_in_bounds",
    "SpiNN.Props.C69_facts"
   ],
   "note": ""
  },
  {
   "property": "C70",
   "status": "proved",
   "theorems": [
    "SpiNN.Props.C70_link",
    "SpiNN.Props.C70_router",
    "SpiNN.Props.C70_machine",
    "SpiNN.Props.C70_spinnaker_link",
    "SpiNN.Props.C70_spinnaker_link_hides_link",
    "SpiNN.Props.C70_routing_entry_form",
    "SpiNN.Props.C70_routing_entry",
    "SpiNN.Props.C70_high_bits_hidden",
    "SpiNN.Props.C70_multicast",
    "SpiNN.Props.C70_multicast_form",
    "SpiNN.Props.C70_iptag",
    "SpiNN.Props.C70_iptag_eq",
    "SpiNN.Props.C70_reverse_iptag",
    "SpiNN.Props.C70_core_subsets",
    "SpiNN.Props.C70_core_subsets_hide_cores"
   ],
   "note": "C70_spinnaker_link_hides_link, C70_core_subsets_hide_cores, C70_high_bits_hidden and C70_iptag_eq show what the texts do not tell."
  },
  {
   "property": "C71",
   "status": "proved",
   "theorems": [
    "SpiNN.Props.C71_ignore",
    "SpiNN.Props.C71_repair",
    "SpiNN.Props.C71_reachable",
    "SpiNN.Props.C71_sharing",
    "SpiNN.Props.C71_repair_sharing",
    "SpiNN.Props.C71_add_link",
    "SpiNN.Props.C71_link_in_both",
    "SpiNN.Props.C71_separate",
    "SpiNN.Props.C71_one_chip",
    "SpiNN.Props.C71_own_routers"
   ],
   "note": "The docstring's \"Does not change the original machine!\" holds at the time of the call; C71_link_in_both shows that chips without dead links stay shared, so a link added later to the new machine is added to the original too. C71_reachable lets all theorems about Reachable machines apply to programs that share objects."
  },
  {
   "property": "C72",
   "status": "proved",
   "theorems": [
    "SpiNN.Props.C72_settings_are_sets",
    "SpiNN.Props.C72_monotone",
    "SpiNN.Props.C72_repair_symmetric"
   ],
   "note": "The theorem on repair needs that the machine with both ends listed is consistent (nothing left to repair), as machine_repair may also find chips without links."
  },
  {
   "property": "C73",
   "status": "proved",
   "theorems": [
    "SpiNN.Props.C73_stable",
    "SpiNN.Props.C73_normal_form"
   ],
   "note": "Monitors: machines with another number of monitors than one are refused on reading (C41_monitors_refused). Tags of each chip must be distinct."
  },
  {
   "property": "C74",
   "status": "proved",
   "theorems": [
    "SpiNN.Props.C74_same_chips",
    "SpiNN.Props.C74_any_order"
   ],
   "note": "Link counts are compared for add_chips only: Router.add_link on a chip after it was added is not counted (C19)."
  },
  {
   "property": "C75",
   "status": "proved",
   "theorems": [
    "SpiNN.Props.C75_shift",
    "SpiNN.Props.C75_shift_link",
    "SpiNN.Props.C75_mirror",
    "SpiNN.Props.C75_turn",
    "SpiNN.Props.C75_vector_back",
    "SpiNN.Props.C75_square_torus",
    "SpiNN.Props.C75_torus_bound",
    "SpiNN.Props.C75_shift_concentric"
   ],
   "note": "get_vector on a torus may choose another shortest vector when the axes are exchanged (ties), so only distances are claimed there."
  },
  {
   "property": "C76",
   "status": "proved",
   "theorems": [
    "SpiNN.Props.C76_to_ethernet",
    "SpiNN.Props.C76_connected",
    "SpiNN.Props.C76_never_shorter",
    "SpiNN.Props.C76_torus_shortest",
    "SpiNN.Props.C76_repair_leaves_parts"
   ],
   "note": "C76_repair_leaves_parts is the negative part: a machine in two parts that machine_repair returns unchanged."
  },
  {
   "property": "C77",
   "status": "proved",
   "theorems": [
    "SpiNN.Props.C77_mesh_length",
    "SpiNN.Props.C77_torus_length",
    "SpiNN.Props.C77_horizontal_length",
    "SpiNN.Props.C77_vertical_length",
    "SpiNN.Props.C77_minimise",
    "SpiNN.Props.C77_torus_vector"
   ],
   "note": ""
  },
  {
   "property": "C78",
   "status": "proved",
   "theorems": [
    "SpiNN.Props.C78_chips",
    "SpiNN.Props.C78_links",
    "SpiNN.Props.C78_cores",
    "SpiNN.Props.C78_down",
    "SpiNN.Props.C78_readable"
   ],
   "note": ""
  },
  {
   "property": "C79",
   "status": "proved",
   "theorems": [
    "SpiNN.Props.C79_only_machine_exception",
    "SpiNN.Props.C79_succeeds",
    "SpiNN.Props.C79_isolated",
    "SpiNN.Props.C79_virtual",
    "SpiNN.Props.C79_virtual_isolated",
    "SpiNN.Props.C79_virtual_symmetric",
    "SpiNN.Props.C79_ethernet_lost"
   ],
   "note": "C79_ethernet_lost is the negative part: a valid machine whose repair raises because its Ethernet chip is isolated."
  },
  {
   "property": "C80",
   "status": "proved",
   "theorems": [
    "SpiNN.Props.C80_complete",
    "SpiNN.Props.C80_interrupted",
    "SpiNN.Props.C80_quiet",
    "SpiNN.Props.C80_detected"
   ],
   "note": "The dict never loses entries, so the size check of CPython is a complete check. C80_quiet covers loops over an unchanged machine."
  },
  {
   "property": "C81",
   "status": "proved",
   "theorems": [
    "SpiNN.Props.C81_existing",
    "SpiNN.Props.C81_down",
    "SpiNN.Props.C81_chips",
    "SpiNN.Props.C81_existing_quiet",
    "SpiNN.Props.C81_down_quiet",
    "SpiNN.Props.C81_existing_next",
    "SpiNN.Props.C81_down_next",
    "SpiNN.Props.C81_places"
   ],
   "note": "The generators are re-reading the machine at every step; C81_existing_next/C81_down_next say exactly what each next() does."
  },
  {
   "property": "C82",
   "status": "proved",
   "theorems": [
    "SpiNN.Props.C82_complete",
    "SpiNN.Props.C82_interrupted",
    "SpiNN.Props.C82_quiet"
   ],
   "note": ""
  },
  {
   "property": "C83",
   "status": "proved",
   "theorems": [
    "SpiNN.Props.C83_add_from_self",
    "SpiNN.Props.C83_add_self",
    "SpiNN.Props.C83_repair_on",
    "SpiNN.Props.C83_repair_off",
    "SpiNN.Props.C83_repair_off_refused",
    "SpiNN.Props.C83_iterator_differs"
   ],
   "note": "C83_iterator_differs: a removed_chips iterator is refused where a list is accepted (two links to one removed chip)."
  },
  {
   "property": "C84",
   "status": "proved",
   "theorems": [
    "SpiNN.Props.C84_entry_has_packets",
    "SpiNN.Props.C84_merge_packets",
    "SpiNN.Props.C84_defaultable_iff",
    "SpiNN.Props.C84_drop_defaultable",
    "SpiNN.Props.C84_delivery_lost",
    "SpiNN.Props.C84_straight"
   ],
   "note": "The rules of the hardware router (first match, default route) are the specification, taken from the documentation of RoutingEntry.defaultable. C84_delivery_lost is the consequence of C47: an entry with processors is called defaultable."
  },
  {
   "property": "C85",
   "status": "proved",
   "theorems": [
    "SpiNN.Props.C85_boards_exact",
    "SpiNN.Props.C85_enough_boards",
    "SpiNN.Props.C85_too_few_boards",
    "SpiNN.Props.C85_min_size_exact",
    "SpiNN.Props.C85_min_size_too_small",
    "SpiNN.Props.C85_links_count_exact",
    "SpiNN.Props.C85_geometry_exact"
   ],
   "note": "Rounding is any function to a nearest double without overflow; C85_too_few_boards is the first failure for boards, C85_min_size_too_small is a failure above the bound for sizes."
  },
  {
   "property": "C86",
   "status": "proved",
   "theorems": [
    "SpiNN.Props.C86_idle_exceptions",
    "SpiNN.Props.C86_active_exceptions",
    "SpiNN.Props.C86_idle_close",
    "SpiNN.Props.C86_active_close_new",
    "SpiNN.Props.C86_active_close",
    "SpiNN.Props.C86_active_ge_idle",
    "SpiNN.Props.C86_idle_monotone"
   ],
   "note": "Overflow and subnormal numbers are not modelled. What the energies mean (and that the number of cores is not used) is C62."
  },
  {
   "property": "C87",
   "status": "proved",
   "theorems": [
    "SpiNN.Props.C87_ethernets",
    "SpiNN.Props.C87_ethernets_next"
   ],
   "note": "Other calls that change a machine's Ethernet list do not exist in the package; the caller changing the list itself is not modelled."
  },
  {
   "property": "C88",
   "status": "proved",
   "theorems": [
    "SpiNN.Props.C88_add_subset",
    "SpiNN.Props.C88_add_group",
    "SpiNN.Props.C88_add_self",
    "SpiNN.Props.C88_copy",
    "SpiNN.Props.C88_subsets",
    "SpiNN.Props.C88_subsets_quiet",
    "SpiNN.Props.C88_subsets_frozen",
    "SpiNN.Props.C88_subsets_detected",
    "SpiNN.Props.C88_processors",
    "SpiNN.Props.C88_processors_quiet",
    "SpiNN.Props.C88_processors_detected"
   ],
   "note": "The OrderedSet of spinn_utilities is taken to be backed by a dict, with the dict's iterator."
  },
  {
   "property": "C89",
   "status": "proved",
   "theorems": [
    "SpiNN.Props.C89_stages",
    "SpiNN.Props.C89_sets",
    "SpiNN.Props.C89_order",
    "SpiNN.Props.C89_again"
   ],
   "note": "The first stage has to succeed (validate may refuse it)."
  },
  {
   "property": "C90",
   "status": "proved",
   "theorems": [
    "SpiNN.Spec.SpiNN.Props.C90_route_ids",
    "SpiNN.Spec.SpiNN.Props.C90_convert",
    "SpiNN.Spec.SpiNN.Props.C90_low_bits",
    "SpiNN.Spec.SpiNN.Props.C90_equal",
    "SpiNN.Spec.SpiNN.Props.C90_merge_union",
    "SpiNN.Spec.SpiNN.Props.C90_merge_laws",
    "SpiNN.Spec.SpiNN.Props.C90_key_mask",
    "SpiNN.Spec.SpiNN.Props.C90_key_signs",
    "SpiNN.Spec.SpiNN.Props.C90_multicast_merge",
    "SpiNN.Spec.SpiNN.Props.C90_multicast_equal",
    "SpiNN.Spec.SpiNN.Props.C90_agrees",
    "SpiNN.Spec.SpiNN.Props.C90_minus_one"
   ],
   "note": "Python's & and | on integers are Mathlib's Int.land and Int.lor."
  },
  {
   "property": "C91",
   "status": "proved",
   "theorems": [
    "SpiNN.Props.C91_ignore",
    "SpiNN.Props.C91_removed_chips"
   ],
   "note": "The machine made with the parts down has to need no repair in C91_removed_chips."
  },
  {
   "property": "C92",
   "status": "proved",
   "theorems": [
    "SpiNN.Props.C92_size_boards",
    "SpiNN.Props.C92_grow",
    "SpiNN.Props.C92_by_boards",
    "SpiNN.Props.C92_by_chips",
    "SpiNN.Props.C92_by_cores",
    "SpiNN.Props.C92_more_monitors",
    "SpiNN.Props.C92_min_size",
    "SpiNN.Props.C92_wrapped_grow_fails"
   ],
   "note": "Sizes of size_from_n_boards are monotone in the number of boards (48-chip versions), and the machine for a smaller request is part of the machine for a larger one (same chips, boards, addresses, memory, cores; exactly the links between its own chips), for any down settings; also for requests by chips, by cores and with more monitors. C92_wrapped_grow_fails shows the size condition (no wraps) is needed."
  },
  {
   "property": "C93",
   "status": "proved",
   "theorems": [
    "SpiNN.Props.C93_boards_alike",
    "SpiNN.Props.C93_any_two_boards"
   ],
   "note": "For every displacement between boards along wrapping axes (lattice of Ethernet positions), every chip of a virtual machine without down parts is taken to a chip that looks the same (displaced board, address or not, same cores, memory, entries, tags, same link ids to displaced places); so any two boards of a fully wrapped machine look alike."
  },
  {
   "property": "C94",
   "status": "proved",
   "theorems": [
    "SpiNN.Props.C94_same_answers",
    "SpiNN.Props.C94_same_links",
    "SpiNN.Props.C94_round_trip",
    "SpiNN.Props.C94_virtual_machines"
   ],
   "note": "C94_same_answers: two machines with the same chips in the same order answer every query identically; C94_same_links: and every link lookup, if the links were added once after the chips; C94_round_trip and C94_virtual_machines: hence a machine written to JSON and read back is indistinguishable by query. Hypotheses are those under which C41 shows the chips survive."
  },
  {
   "property": "C95",
   "status": "proved",
   "theorems": [
    "SpiNN.Props.C95_cables",
    "SpiNN.Props.C95_other_end",
    "SpiNN.Props.C95_virtual_machines",
    "SpiNN.Props.C95_both_ways"
   ],
   "note": "C95_cables: exact cabling between FPGA connectors of any two boards of any well placed machine and history; C95_other_end and C95_virtual_machines: the other end is found whenever chip and board are there; C95_both_ways: the cable table is an involution on all 48 connectors. The cable table (Spec/Cables.lean) is the board-to-board wiring, written independently of the FPGA table of the code."
  },
  {
   "property": "C96",
   "status": "proved",
   "theorems": [
    "SpiNN.Props.C96_board_distance",
    "SpiNN.Props.C96_never_shorter",
    "SpiNN.Props.C96_shorter_outside"
   ],
   "note": "48-chip boards. The faults of other boards do not matter; a chip or link down on the board itself can lengthen the way."
  },
  {
   "property": "C97",
   "status": "proved",
   "theorems": [
    "SpiNN.Props.C97_router_quiet",
    "SpiNN.Props.C97_router_added",
    "SpiNN.Props.C97_router_all",
    "SpiNN.Props.C97_spin_quiet",
    "SpiNN.Props.C97_spin_added",
    "SpiNN.Props.C97_spin_values",
    "SpiNN.Props.C97_spin_again",
    "SpiNN.Props.C97_fpga_again"
   ],
   "note": "CPython's rule for dictionary iterators is assumed (DESIGN section 3). The keys are stated for spinnaker_links, the values by C97_spin_values at the moment of each call, because a later add_spinnaker_links may replace the data under a key when two boards claim the same address."
  },
  {
   "property": "C98",
   "status": "proved",
   "theorems": [
    "SpiNN.Props.C98_change",
    "SpiNN.Props.C98_default",
    "SpiNN.Props.C98_seen_by",
    "SpiNN.Props.C98_new_chip",
    "SpiNN.Props.C98_initial",
    "SpiNN.Props.C98_own",
    "SpiNN.Props.C98_as_modelled"
   ],
   "note": "The sets behind Chip.tag_ids as objects: C98_default, C98_own give the tags of every chip after any program; C98_seen_by, C98_new_chip, C98_initial say what one step does; C98_as_modelled ties it to the value model of Chip."
  },
  {
   "property": "C99",
   "status": "proved",
   "theorems": [
    "SpiNN.Props.C99_monotone",
    "SpiNN.Props.C99_repair_first",
    "SpiNN.Props.C99_settings",
    "SpiNN.Props.C99_virtual",
    "SpiNN.Props.C99_parents_matter"
   ],
   "note": "For machines without recorded parents; C99_parents_matter shows that with recorded parents the order can matter (a chip that loses a link forgets its parent, see C40)."
  },
  {
   "property": "C100",
   "status": "proved",
   "theorems": [
    "SpiNN.Props.C100_reloaded",
    "SpiNN.Props.C100_virtual_machines"
   ],
   "note": "The machine is one whose links were added once after its chips (every machine the factory, the virtual machine and the JSON reader make), of chips that JSON can represent, without recorded parents: JSON does not store a chip's parent link, and C40 shows what a repair does with parents. Tag sets and links as the constructors make them."
  },
  {
   "property": "C101",
   "status": "proved",
   "theorems": [
    "SpiNN.Props.C101_used_up",
    "SpiNN.Props.C101_as_lists",
    "SpiNN.Props.C101_refused",
    "SpiNN.Props.C101_same_iterator",
    "SpiNN.Props.C101_not_defaultable"
   ],
   "note": "Iterators whose own body raises are not modelled."
  },
  {
   "property": "C102",
   "status": "proved",
   "theorems": [
    "SpiNN.Props.C102_core_text",
    "SpiNN.Props.C102_core_fault",
    "SpiNN.Props.C102_outcome",
    "SpiNN.Props.C102_exceptions"
   ],
   "note": ""
  },
  {
   "property": "C103",
   "status": "proved",
   "theorems": [
    "SpiNN.Props.C103_within",
    "SpiNN.Props.C103_in_range",
    "SpiNN.Props.C103_grows",
    "SpiNN.Props.C103_first_met",
    "SpiNN.Props.C103_covers_torus"
   ],
   "note": "All four machine classes, every size, start, radius and chip: concentric_xys yields a chip exactly if get_vector_length(start, chip) <= radius, all positions in range, a larger radius only appends, a chip at distance d is first met in ring d, and on a square torus two thirds of the side finds every chip."
  },
  {
   "property": "C104",
   "status": "proved",
   "theorems": [
    "SpiNN.Props.C104_at_most",
    "SpiNN.Props.C104_attained",
    "SpiNN.Props.C104_search",
    "SpiNN.Props.C104_wrapping_helps"
   ],
   "note": "The exact diameter of every machine class and size (Spec.diameter): never exceeded, attained, exactly the radius with which concentric_xys finds every chip from every start; wrapping an axis never increases a distance."
  },
  {
   "property": "C105",
   "status": "proved",
   "theorems": [
    "SpiNN.Props.C105_any_order",
    "SpiNN.Props.C105_end",
    "SpiNN.Props.C105_vector_walked",
    "SpiNN.Props.C105_back",
    "SpiNN.Props.C105_around",
    "SpiNN.Props.C105_diagonal"
   ],
   "note": "Walks over any list of links on all machine classes and sizes: any order of the links gives the same result (or the same IndexError), the end is determined by the six counts, any walk with the counts of get_vector arrives, walks are taken back by opposite links in opposite order, rounds of the torus close, diagonals close exactly at the common multiples of the sides."
  },
  {
   "property": "C106",
   "status": "proved",
   "theorems": [
    "SpiNN.Props.C106_smallest",
    "SpiNN.Props.C106_accepts",
    "SpiNN.Props.C106_not_smallest_supported",
    "SpiNN.Props.C106_again"
   ],
   "note": "48-chip versions, all pairs of integers, all down settings: the size is the smallest pair of multiples of the board side that is supported and large enough, exactly which pairs are accepted, not always the smallest supported size (9 by 9 gives 16 by 16), and asking again with the size obtained gives the same machine."
  },
  {
   "property": "C107",
   "status": "proved",
   "theorems": [
    "SpiNN.Props.C107_links",
    "SpiNN.Props.C107_open",
    "SpiNN.Props.C107_horizontal",
    "SpiNN.Props.C107_vertical",
    "SpiNN.Props.C107_torus",
    "SpiNN.Props.C107_one_board"
   ],
   "note": "48-chip versions, every supported size and wrap, any settings without down chips and links: the exact number of links from the neighbouring boards (C107_links), closed forms for a by b triads open, wrapped one way, wrapped both ways, and 120 for one board."
  },
  {
   "property": "C108",
   "status": "proved",
   "theorems": [
    "SpiNN.Props.C108_n_fpga_links",
    "SpiNN.Props.C108_others",
    "SpiNN.Props.C108_virtual",
    "SpiNN.Props.C108_all_chips"
   ],
   "note": "Every reachable machine of Version 5 with well placed boards (C108_n_fpga_links), every virtual machine whatever is down (C108_virtual), and 141 per board with all chips (C108_all_chips); the other versions have 0. The docstring of n_fpga_links promises the number of FPGA links; the code reports this other number, and that is what is proved."
  },
  {
   "property": "C109",
   "status": "proved",
   "theorems": [
    "SpiNN.Props.C109_spinnaker_link",
    "SpiNN.Props.C109_no_neighbour",
    "SpiNN.Props.C109_open",
    "SpiNN.Props.C109_horizontal",
    "SpiNN.Props.C109_vertical",
    "SpiNN.Props.C109_torus",
    "SpiNN.Props.C109_one_board"
   ],
   "note": "Version 5, every size and wrap: exact answer for each board whatever is down (C109_spinnaker_link); with nothing down, the boards without a neighbour on the south west side, and how many those are on a by b triads open, wrapped either way, or both."
  },
  {
   "property": "C110",
   "status": "proved",
   "theorems": [
    "SpiNN.Props.C110_one_chip",
    "SpiNN.Props.C110_one_axis",
    "SpiNN.Props.C110_twice_as_long",
    "SpiNN.Props.C110_one_link"
   ],
   "note": "48 chip boards, any supported size, open or wrapped. Links down along one direction, any set of them (C110_one_axis), which makes no distance more than twice as long on machines that wrap both ways (C110_twice_as_long); one link in one or both directions (C110_one_link); a chip anywhere, also an Ethernet chip or one where boards meet, with any of the links from and to it (C110_one_chip)."
  }
 ]
}