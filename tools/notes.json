{
 "C16": "Full property fails: the size is computed from the board table without the max_machine_core setting (C16_ignores_max_cores). Proved when the setting is not below the default. C16_user_cores_exact says what the machine gets for any setting of max_machine_core.",
 "C19": "Full property fails if a link is added to the router of a chip already in the machine (C19_links_count_stale). C19_links_count_exact says what get_links_count is after any history; C19_cores_count holds in full.",
 "C22": "Incoming part fails on machines with wraps: the code does not wrap the neighbour (C22_incoming_ignores_wraps); C22_incoming_exact says exactly which links are found on any machine, C22_incoming_interior that they are the right ones away from the wraps. Outgoing part proved in full.",
 "C23": "Fails on machines with wraps and at the board edge (C23_ignores_wraps); C23_outgoing_local_exact and C23_incoming_local_exact say exactly which links are found on any machine, C23_local_interior that they are the right ones away from the wraps.",
 "C26": "The code returns the maximum over the chips, not the minimum (C26_not_minimum); equal if all chips have the same.",
 "C55": "Virtual p is not onto (C55_not_onto); C55_closed_form and C55_image give the map of the code in full.",
 "C36": "Fails for the one-chip board (version 201): its perfect machine is always refused or emptied (C36_single_chip_raises). Proved for all other versions.",
 "C40": "Fails for the parent link: a chip that loses a link forgets its parent (C40_parent_link_lost). All other attributes proved.",
 "C45": "Fails for the constructor: RoutingEntry(...) does no range check, so link 6 is encoded as processor 0 and processor -1 as link 5 (C45_constructor_encodes_other_targets). The conversion method is proved in full.",
 "C47": "Fails: processors are not looked at, and a repeated link is counted twice (C47_ignores_processors). Proved for entries without processors or repetitions; C47_exact says what defaultable is for all.",
 "C52": "Fails: the CoreSubset objects handed out are the ones kept, and they are mutable (C52_changed_through_returned_subset). Proved for every history that does not add to a handed out subset; C52_exact says for every history what the frozen group contains later, C52_chips_fixed that its chips never change.",
 "C46": "Union stated for entries whose ids exist; C46_lost_if_out_of_range shows it fails outside. C46_many and C46_any_order extend it to any number of entries merged in any order.",
 "C41": "Full property fails: cores are renumbered 0..n-1, the parent link is lost, chips without exactly one monitor are refused (C41_cores_renumbered, C41_monitors_refused). C41_rebuilt says what reading back gives for every machine the writer accepts; C41_round_trip_partial gives the conditions for equality.",
 "C57": "Full property fails: version 248 with a size is always refused although the settings agree (C57_248_with_size_refused, C57_248_consistent). Everything else proved.",
 "C60": "Full property fails: get_machine_version keeps the version and quad map although it raises (C60_both_after_exception). Proved for histories where no such call was made; set_v_to_p_map at most once per reset proved in full.",
 "C62": "The number of active cores of a chip is ignored (C62_ignores_core_count), so 'depends on every active core' holds only for the active time. All else proved.",
 "C68": "The documentation says AttributeError without a boot chip; it is KeyError (C68_raises). The links are those at the time the chip was added (C68_links: the same unless links are added late).",
 "C70": "C70_spinnaker_link_hides_link, C70_core_subsets_hide_cores, C70_high_bits_hidden and C70_iptag_eq show what the texts do not tell.",
 "C71": "The docstring's \"Does not change the original machine!\" holds at the time of the call; C71_link_in_both shows that chips without dead links stay shared, so a link added later to the new machine is added to the original too. C71_reachable lets all theorems about Reachable machines apply to programs that share objects.",
 "C72": "The theorem on repair needs that the machine with both ends listed is consistent (nothing left to repair), as machine_repair may also find chips without links.",
 "C73": "Monitors: machines with another number of monitors than one are refused on reading (C41_monitors_refused). Tags of each chip must be distinct.",
 "C74": "Link counts are compared for add_chips only: Router.add_link on a chip after it was added is not counted (C19).",
 "C75": "get_vector on a torus may choose another shortest vector when the axes are exchanged (ties), so only distances are claimed there.",
 "C76": "C76_repair_leaves_parts is the negative part: a machine in two parts that machine_repair returns unchanged.",
 "C79": "C79_ethernet_lost is the negative part: a valid machine whose repair raises because its Ethernet chip is isolated.",
 "C80": "The dict never loses entries, so the size check of CPython is a complete check. C80_quiet covers loops over an unchanged machine.",
 "C81": "The generators are re-reading the machine at every step; C81_existing_next/C81_down_next say exactly what each next() does.",
 "C83": "C83_iterator_differs: a removed_chips iterator is refused where a list is accepted (two links to one removed chip).",
 "C84": "The rules of the hardware router (first match, default route) are the specification, taken from the documentation of RoutingEntry.defaultable. C84_delivery_lost is the consequence of C47: an entry with processors is called defaultable.",
 "C85": "Rounding is any function to a nearest double without overflow; C85_too_few_boards is the first failure for boards, C85_min_size_too_small is a failure above the bound for sizes.",
 "C86": "Overflow and subnormal numbers are not modelled. What the energies mean (and that the number of cores is not used) is C62.",
 "C87": "Other calls that change a machine's Ethernet list do not exist in the package; the caller changing the list itself is not modelled.",
 "C88": "The OrderedSet of spinn_utilities is taken to be backed by a dict, with the dict's iterator.",
 "C89": "The first stage has to succeed (validate may refuse it).",
 "C90": "Python's & and | on integers are Mathlib's Int.land and Int.lor.",
 "C91": "The machine made with the parts down has to need no repair in C91_removed_chips.",
 "C92": "Sizes of size_from_n_boards are monotone in the number of boards (48-chip versions), and the machine for a smaller request is part of the machine for a larger one (same chips, boards, addresses, memory, cores; exactly the links between its own chips), for any down settings; also for requests by chips, by cores and with more monitors. C92_wrapped_grow_fails shows the size condition (no wraps) is needed.",
 "C93": "For every displacement between boards along wrapping axes (lattice of Ethernet positions), every chip of a virtual machine without down parts is taken to a chip that looks the same (displaced board, address or not, same cores, memory, entries, tags, same link ids to displaced places); so any two boards of a fully wrapped machine look alike.",
 "C94": "C94_same_answers: two machines with the same chips in the same order answer every query identically; C94_same_links: and every link lookup, if the links were added once after the chips; C94_round_trip and C94_virtual_machines: hence a machine written to JSON and read back is indistinguishable by query. Hypotheses are those under which C41 shows the chips survive.",
 "C95": "C95_cables: exact cabling between FPGA connectors of any two boards of any well placed machine and history; C95_other_end and C95_virtual_machines: the other end is found whenever chip and board are there; C95_both_ways: the cable table is an involution on all 48 connectors. The cable table (Spec/Cables.lean) is the board-to-board wiring, written independently of the FPGA table of the code.",
 "C96": "48-chip boards. The faults of other boards do not matter; a chip or link down on the board itself can lengthen the way.",
 "C97": "CPython's rule for dictionary iterators is assumed (DESIGN section 3). The keys are stated for spinnaker_links, the values by C97_spin_values at the moment of each call, because a later add_spinnaker_links may replace the data under a key when two boards claim the same address.",
 "C98": "The sets behind Chip.tag_ids as objects: C98_default, C98_own give the tags of every chip after any program; C98_seen_by, C98_new_chip, C98_initial say what one step does; C98_as_modelled ties it to the value model of Chip.",
 "C99": "For machines without recorded parents; C99_parents_matter shows that with recorded parents the order can matter (a chip that loses a link forgets its parent, see C40).",
 "C100": "The machine is one whose links were added once after its chips (every machine the factory, the virtual machine and the JSON reader make), of chips that JSON can represent, without recorded parents: JSON does not store a chip's parent link, and C40 shows what a repair does with parents. Tag sets and links as the constructors make them.",
 "C101": "Iterators whose own body raises are not modelled.",
 "C102": "",
 "C103": "All four machine classes, every size, start, radius and chip: concentric_xys yields a chip exactly if get_vector_length(start, chip) <= radius, all positions in range, a larger radius only appends, a chip at distance d is first met in ring d, and on a square torus two thirds of the side finds every chip.",
 "C104": "The exact diameter of every machine class and size (Spec.diameter): never exceeded, attained, exactly the radius with which concentric_xys finds every chip from every start; wrapping an axis never increases a distance.",
 "C105": "Walks over any list of links on all machine classes and sizes: any order of the links gives the same result (or the same IndexError), the end is determined by the six counts, any walk with the counts of get_vector arrives, walks are taken back by opposite links in opposite order, rounds of the torus close, diagonals close exactly at the common multiples of the sides.",
 "C106": "48-chip versions, all pairs of integers, all down settings: the size is the smallest pair of multiples of the board side that is supported and large enough, exactly which pairs are accepted, not always the smallest supported size (9 by 9 gives 16 by 16), and asking again with the size obtained gives the same machine.",
 "C107": "48-chip versions, every supported size and wrap, any settings without down chips and links: the exact number of links from the neighbouring boards (C107_links), closed forms for a by b triads open, wrapped one way, wrapped both ways, and 120 for one board.",
 "C108": "Every reachable machine of Version 5 with well placed boards (C108_n_fpga_links), every virtual machine whatever is down (C108_virtual), and 141 per board with all chips (C108_all_chips); the other versions have 0. The docstring of n_fpga_links promises the number of FPGA links; the code reports this other number, and that is what is proved.",
 "C109": "Version 5, every size and wrap: exact answer for each board whatever is down (C109_spinnaker_link); with nothing down, the boards without a neighbour on the south west side, and how many those are on a by b triads open, wrapped either way, or both.",
 "C110": "48 chip boards, any supported size, open or wrapped. Links down along one direction, any set of them (C110_one_axis), which makes no distance more than twice as long on machines that wrap both ways (C110_twice_as_long); one link in one or both directions (C110_one_link); a chip anywhere, also an Ethernet chip or one where boards meet, with any of the links from and to it (C110_one_chip)."
}
