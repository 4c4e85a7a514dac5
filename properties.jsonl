{"id": "C01", "title": "Crossing a link and its opposite is the identity", "statement": "For every machine class (no wrap, horizontal, vertical, full wrap), every chip position inside the machine and every link 0..5, xy_over_link followed by xy_over_link on Router.opposite(link) returns to the starting coordinates; Router.opposite is an involution without fixed points on 0..5.", "quantifier": "all wrap kinds, all positive widths/heights, all in-range (x, y), all link ids 0..5", "why_tests_cant": "unbounded machine sizes and positions; wrap arithmetic only misbehaves at particular edges/sizes", "anchors": ["spinn_machine/no_wrap_machine.py:xy_over_link", "spinn_machine/horizontal_wrap_machine.py:xy_over_link", "spinn_machine/vertical_wrap_machine.py:xy_over_link", "spinn_machine/full_wrap_machine.py:xy_over_link", "spinn_machine/router.py:Router.opposite"]}
{"id": "C02", "title": "xy_over_link is one step on the hexagonal mesh/torus", "statement": "xy_over_link(x, y, l) is the position displaced by the l-th of E, NE, N, W, SW, S, taken modulo the width (height) exactly on the axes that wrap; on wrapped axes the result is always inside the machine. A link id outside -6..5 raises IndexError.", "quantifier": "all wrap kinds, sizes, coordinates and link ids", "why_tests_cant": "unbounded coordinates and sizes", "anchors": ["spinn_machine/no_wrap_machine.py:xy_over_link", "spinn_machine/horizontal_wrap_machine.py:xy_over_link", "spinn_machine/vertical_wrap_machine.py:xy_over_link", "spinn_machine/full_wrap_machine.py:xy_over_link", "spinn_machine/machine.py:Machine.LINK_ADD_TABLE"]}
{"id": "C03", "title": "get_vector_length is the minimum hop count", "statement": "get_vector_length(source, destination) equals the least number of links (each traversed as xy_over_link) needed to get from source to destination: some link sequence of exactly that length gets there and no shorter one does.", "quantifier": "all wrap kinds, all positive sizes, all source/destination pairs inside the machine (all integers on non-wrapped axes)", "why_tests_cant": "shortest-path optimality quantifies over all routes and all sizes", "anchors": ["spinn_machine/no_wrap_machine.py:get_vector_length", "spinn_machine/horizontal_wrap_machine.py:get_vector_length", "spinn_machine/vertical_wrap_machine.py:get_vector_length", "spinn_machine/full_wrap_machine.py:get_vector_length"]}
{"id": "C04", "title": "get_vector is a shortest vector that reaches the destination", "statement": "get_vector(source, destination) = (x, y, z) satisfies source + x*(1,0) + y*(0,1) - z*(1,1) = destination (modulo the wrapped axes), |x|+|y|+|z| = get_vector_length(source, destination), at least one component is zero and the non-zero ones have opposite signs; no (x, y, z) that reaches the destination is shorter.", "quantifier": "all wrap kinds, positive sizes, all source/destination integer pairs", "why_tests_cant": "unbounded; tie-breaking between four candidate wraps is only wrong at specific offsets", "anchors": ["spinn_machine/no_wrap_machine.py:get_vector", "spinn_machine/horizontal_wrap_machine.py:get_vector", "spinn_machine/vertical_wrap_machine.py:get_vector", "spinn_machine/full_wrap_machine.py:get_vector", "spinn_machine/machine.py:Machine._minimize_vector"]}
{"id": "C05", "title": "get_vector_length is a metric", "statement": "get_vector_length is zero exactly when source = destination, is symmetric, and satisfies the triangle inequality.", "quantifier": "all wrap kinds, all positive sizes, all in-range triples of positions", "why_tests_cant": "universally quantified over triples of positions and sizes", "anchors": ["spinn_machine/no_wrap_machine.py:get_vector_length", "spinn_machine/horizontal_wrap_machine.py:get_vector_length", "spinn_machine/vertical_wrap_machine.py:get_vector_length", "spinn_machine/full_wrap_machine.py:get_vector_length"]}
{"id": "C06", "title": "concentric_xys enumerates the hexagon ring by ring", "statement": "concentric_xys(radius, start) on a no-wrap machine yields every position whose hop distance from start is at most radius exactly once, never anything else, in non-decreasing order of distance, 1+3r(r+1) positions in total; on wrapped machines it is the same sequence with the wrapped coordinates reduced modulo the machine size.", "quantifier": "all radii, all start positions, all wrap kinds", "why_tests_cant": "needs every radius; a loop error may only appear at some ring", "anchors": ["spinn_machine/no_wrap_machine.py:concentric_xys", "spinn_machine/horizontal_wrap_machine.py:concentric_xys", "spinn_machine/vertical_wrap_machine.py:concentric_xys", "spinn_machine/full_wrap_machine.py:concentric_xys", "spinn_machine/machine.py:Machine._basic_concentric_xys"]}
{"id": "C07", "title": "Local and global coordinates are inverse", "statement": "get_global_xy(local, ethernet) of a board-local coordinate gives a global coordinate whose get_local_xy (for a chip with that nearest Ethernet) is the local coordinate again, and get_global_xy(get_local_xy(chip)) is the chip's own position.", "quantifier": "all wrap kinds, all machine sizes at least the board size, all Ethernet positions, all local coordinates in range, all in-range chips", "why_tests_cant": "wrap arithmetic over unbounded sizes", "anchors": ["spinn_machine/no_wrap_machine.py:get_local_xy, get_global_xy", "spinn_machine/horizontal_wrap_machine.py:get_local_xy, get_global_xy", "spinn_machine/vertical_wrap_machine.py:get_local_xy, get_global_xy", "spinn_machine/full_wrap_machine.py:get_local_xy, get_global_xy"]}
{"id": "C08", "title": "Per-board coordinate queries are consistent and partition the board", "statement": "For every board, get_existing_xys_by_ethernet and get_down_xys_by_ethernet are disjoint and together are exactly get_xys_by_ethernet (same order); get_xy_cores_by_ethernet lists the same coordinates with the board's typical core count; get_chips_by_ethernet yields exactly the machine's chips at the existing coordinates; each coordinate is get_global_xy of a local coordinate.", "quantifier": "all machines (any set of chips), all wrap kinds, all Ethernet coordinates", "why_tests_cant": "quantifies over every possible set of present chips", "anchors": ["spinn_machine/no_wrap_machine.py:get_xys_by_ethernet, get_xy_cores_by_ethernet, get_existing_xys_by_ethernet, get_down_xys_by_ethernet", "spinn_machine/horizontal_wrap_machine.py:get_xys_by_ethernet, get_xy_cores_by_ethernet, get_existing_xys_by_ethernet, get_down_xys_by_ethernet", "spinn_machine/vertical_wrap_machine.py:get_xys_by_ethernet, get_xy_cores_by_ethernet, get_existing_xys_by_ethernet, get_down_xys_by_ethernet", "spinn_machine/full_wrap_machine.py:get_xys_by_ethernet, get_xy_cores_by_ethernet, get_existing_xys_by_ethernet, get_down_xys_by_ethernet", "spinn_machine/machine.py:Machine.get_chips_by_ethernet"]}
{"id": "C09", "title": "48-chip boards tile a fully wrapped machine", "statement": "For every width and height that are positive multiples of 12, the boards at get_potential_ethernet_chips(width, height) cover every coordinate of the width x height grid exactly once.", "quantifier": "all positive multiples of 12 for width and height, all coordinates of the grid", "why_tests_cant": "infinitely many sizes", "anchors": ["spinn_machine/spinnaker_triad_geometry.py:SpiNNakerTriadGeometry.get_potential_ethernet_chips", "spinn_machine/version/version_5.py:CHIPS_PER_BOARD", "spinn_machine/full_wrap_machine.py:get_xys_by_ethernet"]}
{"id": "C10", "title": "Boards never overlap and never leave the machine", "statement": "For every size accepted by verify_size, the boards of get_potential_ethernet_chips, placed by the machine class that create_machine selects, have pairwise disjoint coordinate sets and every coordinate lies in 0..width-1 x 0..height-1.", "quantifier": "all versions, all sizes accepted by verify_size, all pairs of boards", "why_tests_cant": "infinitely many sizes, four wrap classes", "anchors": ["spinn_machine/version/version_48_chips.py:Version48Chips._verify_size, _create_machine", "spinn_machine/spinnaker_triad_geometry.py:SpiNNakerTriadGeometry.get_potential_ethernet_chips"]}
{"id": "C11", "title": "Triad geometry lookups agree with the boards", "statement": "get_local_chip_coordinate(x, y) is the board-local coordinate of (x, y): it is on the 48-chip board, and subtracting it gives a legal Ethernet position; get_ethernet_chip_coordinates(x, y, w, h) is the potential Ethernet chip whose board contains (x, y).", "quantifier": "all integer coordinates; all widths/heights that are multiples of 12; with the boot chip root offset", "why_tests_cant": "all coordinates and sizes; table is computed by a floating point nearest-centre search", "anchors": ["spinn_machine/spinnaker_triad_geometry.py:SpiNNakerTriadGeometry.__init__, get_ethernet_chip_coordinates, get_local_chip_coordinate"]}
{"id": "C12", "title": "verify_size / create_machine accept exactly the supported sizes", "statement": "create_machine(w, h) succeeds exactly for the supported sizes of the version (1x1, 2x2, 8x8 or both sides > 8 and multiples of 4), raises SpinnMachineException for every other (missing, zero, negative, unsupported) size, and the machine returned wraps exactly on the axes whose size is a multiple of 12 (2x2 wraps on both, 1x1 on none).", "quantifier": "all versions, all (optional) integer widths and heights", "why_tests_cant": "infinitely many sizes", "anchors": ["spinn_machine/version/abstract_version.py:AbstractVersion.verify_size, create_machine", "spinn_machine/version/version_48_chips.py:Version48Chips._verify_size, _create_machine", "spinn_machine/version/version_3.py", "spinn_machine/version/version_201.py"]}
{"id": "C13", "title": "Potential Ethernet chips are exactly the legal positions whose board fits", "statement": "For every accepted size, (x, y) is in get_potential_ethernet_chips(w, h) exactly when illegal_ethernet_message(x, y) is None, (x, y) is inside the grid, and the whole board placed there fits (on axes that do not wrap); no position is listed twice.", "quantifier": "all versions, all accepted sizes, all positions", "why_tests_cant": "infinitely many sizes", "anchors": ["spinn_machine/spinnaker_triad_geometry.py:SpiNNakerTriadGeometry.get_potential_ethernet_chips", "spinn_machine/version/version_48_chips.py:Version48Chips.illegal_ethernet_message"]}
{"id": "C14", "title": "size_from_n_boards gives enough boards", "statement": "For every n, size_from_n_boards(n) on a 48-chip version returns a size accepted by verify_size whose number of potential Ethernet chips is at least n (and less than n plus one row of triads would need); versions without multi-board support accept only n = 1 and raise otherwise.", "quantifier": "all integers n, all versions", "why_tests_cant": "unbounded n; square-root rounding", "anchors": ["spinn_machine/version/version_48_chips.py:Version48Chips.size_from_n_boards", "spinn_machine/version/abstract_version.py:AbstractVersion.size_from_n_boards"]}
{"id": "C15", "title": "size_from_n_chips gives enough chips", "statement": "virtual_machine_by_chips(n) returns a machine with at least n chips for every n the version can support.", "quantifier": "all n, all versions", "why_tests_cant": "unbounded n", "anchors": ["spinn_machine/version/abstract_version.py:AbstractVersion.size_from_n_chips", "spinn_machine/virtual_machine.py:virtual_machine_by_chips"]}
{"id": "C16", "title": "size_from_n_cores gives enough user cores", "statement": "virtual_machine_by_cores(n) returns a machine which, after the monitor cores registered with the data view are taken away, still has at least n placable cores.", "quantifier": "all n, all versions, all monitor core registrations, all cfg max_machine_core settings", "why_tests_cant": "unbounded n and monitor counts", "anchors": ["spinn_machine/version/abstract_version.py:AbstractVersion.size_from_n_cores", "spinn_machine/virtual_machine.py:virtual_machine_by_cores"]}
{"id": "C17", "title": "virtual_machine_by_min_size is at least the requested size and legal", "statement": "For 48-chip versions and any positive width and height, the size used by virtual_machine_by_min_size is accepted by verify_size and is at least the requested width and height; single board versions raise when the request exceeds the board.", "quantifier": "all positive widths and heights, all versions", "why_tests_cant": "infinitely many sizes, edge case rules", "anchors": ["spinn_machine/virtual_machine.py:virtual_machine_by_min_size"]}
{"id": "C18", "title": "The machine is a map from coordinates to chips", "statement": "After any sequence of add_chip/add_chips calls (some of which may raise), get_chip_at, [], in, is_chip_at, is_link_at, chips, chip_coordinates, len and n_chips all agree with the abstract map holding the first chip added at each coordinate in order of addition; adding a second chip at a coordinate raises SpinnMachineAlreadyExistsException and changes nothing.", "quantifier": "all histories of add_chip / add_chips calls", "why_tests_cant": "all histories", "anchors": ["spinn_machine/machine.py:Machine.add_chip, add_chips, get_chip_at, is_chip_at, is_link_at, chips, chip_coordinates, n_chips"]}
{"id": "C19", "title": "Aggregate counts agree with the chips", "statement": "At every point of every history get_cores_count equals total_cores (the sum of n_processors of the chips), get_links_count is half of the number of (chip, link) pairs, total_available_user_cores is the sum of placable processors.", "quantifier": "all histories of add_chip and Router.add_link calls", "why_tests_cant": "counters are maintained incrementally so they can drift on some histories only", "anchors": ["spinn_machine/machine.py:Machine.get_cores_count, get_links_count, total_cores, total_available_user_cores, add_chip", "spinn_machine/router.py:Router.add_link"]}
{"id": "C20", "title": "Ethernet chips and boot chip bookkeeping", "statement": "After any history, ethernet_connected_chips is the list of chips that have an IP address in order of addition, without duplicates, and the default board for link lookups is the IP address of the chip at (0, 0) if that has one.", "quantifier": "all histories of add_chip calls", "why_tests_cant": "all histories", "anchors": ["spinn_machine/machine.py:Machine.add_chip, ethernet_connected_chips, boot_chip"]}
{"id": "C21", "title": "validate accepts exactly the legal machines", "statement": "validate() raises SpinnMachineException exactly when one of the documented conditions fails: no Ethernet chip at 0,0; more than one Ethernet chip on a version without multi-board support; a chip outside the machine; a chip with too few cores; an Ethernet chip at an illegal position; a non-Ethernet chip whose nearest Ethernet chip is missing or whose local coordinate is not on a board. Otherwise it returns normally.", "quantifier": "all machines of all versions", "why_tests_cant": "quantifies over all machines", "anchors": ["spinn_machine/machine.py:Machine.validate"]}
{"id": "C22", "title": "unreachable_outgoing/incoming_chips are exact", "statement": "unreachable_outgoing_chips lists exactly the chips without a working outgoing link; unreachable_incoming_chips lists exactly the chips for which no neighbouring chip (over the machine's links, including wrap-arounds) has a working link to it.", "quantifier": "all machines of all wrap kinds", "why_tests_cant": "all machines", "anchors": ["spinn_machine/machine.py:Machine.unreachable_outgoing_chips, unreachable_incoming_chips"]}
{"id": "C23", "title": "unreachable_*_local_chips are exact", "statement": "unreachable_outgoing_local_chips (incoming) lists exactly the chips that have no working link to (from) a neighbouring chip of the same board.", "quantifier": "all machines of all wrap kinds", "why_tests_cant": "all machines", "anchors": ["spinn_machine/machine.py:Machine.unreachable_outgoing_local_chips, unreachable_incoming_local_chips"]}
{"id": "C24", "title": "one_way_links is exact", "statement": "one_way_links yields (x, y, out, back) exactly for those links out of a chip whose destination chip is missing or lacks the opposite link, with back = opposite(out), each once.", "quantifier": "all machines", "why_tests_cant": "all machines", "anchors": ["spinn_machine/machine.py:Machine.one_way_links"]}
{"id": "C25", "title": "get_unused_xy terminates with the first unused coordinate", "statement": "On a machine with positive height get_unused_xy always returns; the result holds no chip and is on no board of an existing Ethernet chip; every coordinate before it in column order is used; the answer does not change until a chip is added there or a new board is added.", "quantifier": "all machines", "why_tests_cant": "termination and freshness for every set of chips", "anchors": ["spinn_machine/machine.py:Machine.get_unused_xy"]}
{"id": "C26", "title": "min_n_router_enteries is the minimum", "statement": "min_n_router_enteries is the lowest number of available multicast entries of any chip in the machine.", "quantifier": "all non-empty machines", "why_tests_cant": "all machines", "anchors": ["spinn_machine/machine.py:Machine.min_n_router_enteries"]}
{"id": "C27", "title": "SpiNNaker link lookup", "statement": "After add_spinnaker_links, get_spinnaker_link_with_id finds the same link by board address, by chip coordinates and (for the boot board) by default; the link found is on an existing chip, at a position from the version's table of that board, on a router link that is not in use; lookups of anything else raise KeyError.", "quantifier": "all machines with distinct Ethernet addresses, all ids", "why_tests_cant": "all machines", "anchors": ["spinn_machine/machine.py:Machine.add_spinnaker_links, get_spinnaker_link_with_id"]}
{"id": "C28", "title": "FPGA link lookup", "statement": "After add_fpga_links, get_fpga_link_with_id finds the same FPGA link by board address, by the connected chip's coordinates and by the board's Ethernet coordinates; data returned names the requested FPGA id and link id, an existing chip, and the board asked for; everything else raises KeyError.", "quantifier": "all machines with distinct Ethernet addresses whose boards do not overlap", "why_tests_cant": "all machines", "anchors": ["spinn_machine/machine.py:Machine.add_fpga_links, get_fpga_link_with_id, _add_fpga_link"]}
{"id": "C29", "title": "The FPGA table is exactly the boundary of the board", "statement": "On a SpiNN-5 board the table fpga_links() lists every (chip, link) leaving the board exactly once and no link inside it, and no (fpga id, link id) is used twice (3 FPGAs x 16 links); hence on a tiled machine the two ends of every board-to-board link are both FPGA links.", "quantifier": "all 48 x 6 (chip, link) pairs of the board; all boards of all machine sizes", "why_tests_cant": "needs all entries and all sizes", "anchors": ["spinn_machine/version/version_5.py:Version5.fpga_links", "spinn_machine/version/version_5.py:CHIPS_PER_BOARD"]}
{"id": "C30", "title": "Virtual machines contain exactly the configured chips", "statement": "virtual_machine(w, h) has a chip at (x, y) exactly if (x, y) is on the board of one of the potential Ethernet chips and is not in the (global) down_chips configuration; chips at Ethernet positions have an IP address 127.0.x.y, others have none.", "quantifier": "all versions, all accepted sizes, all down_chips settings", "why_tests_cant": "all sizes and configurations", "anchors": ["spinn_machine/virtual_machine.py:_VirtualMachine.__init__"]}
{"id": "C31", "title": "Virtual machine links join existing chips and are symmetric", "statement": "In a virtual machine a link exists out of a chip exactly if it and the chip xy_over_link reaches are present and it is not in down_links (nor one of the 4-chip board's unconnected links); its destination is xy_over_link; without one-sided down_links, no link is one-way.", "quantifier": "all versions, sizes and down settings", "why_tests_cant": "all sizes and configurations", "anchors": ["spinn_machine/virtual_machine.py:_VirtualMachine._calculate_links"]}
{"id": "C32", "title": "Virtual machine cores", "statement": "Each chip of a virtual machine has monitor 0 and placable cores 1..n-1 without those in down_cores, where n is the board's typical count for the chip's local position capped at the maximum; ids are distinct and ascending.", "quantifier": "all versions, sizes and down settings", "why_tests_cant": "all configurations", "anchors": ["spinn_machine/virtual_machine.py:_VirtualMachine._create_chip"]}
{"id": "C33", "title": "Virtual machines validate", "statement": "For every accepted size virtual_machine without down items passes validate(); with down_chips it passes exactly if no Ethernet chip (with chips of its board left) is down, as long as enough cores per chip remain.", "quantifier": "all versions, all accepted sizes, down_chips settings", "why_tests_cant": "all sizes", "anchors": ["spinn_machine/virtual_machine.py:_VirtualMachine.__init__", "spinn_machine/machine.py:Machine.validate"]}
{"id": "C34", "title": "Virtual machine chips know their board", "statement": "Every chip of a virtual machine has as nearest Ethernet the potential Ethernet chip whose board contains it, get_local_xy is its board coordinate, and get_existing_xys_on_board(chip) contains the chip and only chips with the same nearest Ethernet.", "quantifier": "all versions, sizes and down settings", "why_tests_cant": "all sizes", "anchors": ["spinn_machine/virtual_machine.py:_VirtualMachine.__init__", "spinn_machine/machine.py:Machine.get_existing_xys_on_board"]}
{"id": "C35", "title": "Virtual machine totals", "statement": "A fully wrapped 48-chip-board virtual machine without down items has exactly width*height chips, 3*width*height links; any 48-chip-board machine has 48 chips and (version 5) 856 cores per board.", "quantifier": "all accepted sizes", "why_tests_cant": "all sizes", "anchors": ["spinn_machine/virtual_machine.py:_VirtualMachine", "spinn_machine/machine.py:Machine.get_links_count, get_cores_count, n_chips"]}
{"id": "C36", "title": "Repair leaves a perfect machine alone", "statement": "machine_repair of any virtual machine without down items returns that very machine, with repair_machine set or not.", "quantifier": "all versions, all accepted sizes", "why_tests_cant": "all sizes", "anchors": ["spinn_machine/machine_factory.py:machine_repair"]}
{"id": "C37", "title": "Repair removes only what is reported dead", "statement": "The machine built by a repair pass has exactly the chips of the original that are not dead, and on each of them exactly the original links that are not dead; dead items not in the machine are ignored; the original is unchanged.", "quantifier": "all machines, all sets of dead chips and links", "why_tests_cant": "all machines", "anchors": ["spinn_machine/machine_factory.py:_machine_ignore"]}
{"id": "C38", "title": "Repair terminates in a consistent sub-machine", "statement": "With repair_machine set, machine_repair terminates for every machine: it either raises or returns a machine, obtained by only removing chips and links, that has no one-way link, no chip unreachable from/to its own board, and no chip whose boot-tree parent is missing; repairing it again returns it unchanged.", "quantifier": "all machines", "why_tests_cant": "termination and post-condition for every machine", "anchors": ["spinn_machine/machine_factory.py:machine_repair"]}
{"id": "C39", "title": "Without repair_machine problems are never hidden", "statement": "With repair_machine False, machine_repair returns the original only if it has no problem; it raises SpinnMachineException if there is any problem other than one-way links to removed_chips, and removes only those.", "quantifier": "all machines, all removed_chips", "why_tests_cant": "all machines", "anchors": ["spinn_machine/machine_factory.py:machine_repair"]}
{"id": "C40", "title": "Repair preserves the attributes of surviving chips", "statement": "A chip surviving machine_repair keeps its processors, SDRAM, router entries, nearest Ethernet, IP address, tags and boot-tree parent link.", "quantifier": "all machines", "why_tests_cant": "all machines", "anchors": ["spinn_machine/machine_factory.py:_machine_ignore"]}
{"id": "C41", "title": "JSON round trip", "statement": "machine_from_json(to_json()) rebuilds the machine: same size and wrap, same chips, and for each chip the same cores, SDRAM, router entries, nearest Ethernet, IP address, tags and links.", "quantifier": "all machines", "why_tests_cant": "all machines", "anchors": ["spinn_machine/json_machine.py:to_json, machine_from_json, _describe_chip"]}
{"id": "C42", "title": "JSON integers are Java safe", "statement": "Router entry counts written by to_json never exceed 2147483647 and are exact below that; a per-chip value is written exactly when it differs from the defaults it would be read back with.", "quantifier": "all machines", "why_tests_cant": "all values", "anchors": ["spinn_machine/json_machine.py:_int_value, _describe_chip"]}
{"id": "C43", "title": "Routing entry encode/decode round trip", "statement": "For every set of processor ids in 0..17 and link ids in 0..5, encoding to a SpiNNaker route (RoutingEntry.spinnaker_route, Router.convert_routing_table_entry_to_spinnaker_route) and decoding it (RoutingEntry(spinnaker_route=..).processor_ids/link_ids, Router.convert_spinnaker_route_to_routing_ids) returns exactly those sets; the route is below 2^24 and bit i is link i, bit 6+p is processor p.", "quantifier": "all sets of ids", "why_tests_cant": "2^24 routes; order and duplicates of the inputs are arbitrary", "anchors": ["spinn_machine/routing_entry.py:RoutingEntry._calc_spinnaker_route, _calc_routing_ids", "spinn_machine/router.py:Router.convert_routing_table_entry_to_spinnaker_route, convert_spinnaker_route_to_routing_ids"]}
{"id": "C44", "title": "Routing decode/encode round trip", "statement": "Decoding any route value below 2^24 and encoding the result gives the route back; so two entries with routes below 2^24 have the same targets exactly if the routes are equal.", "quantifier": "all route integers below 2^24", "why_tests_cant": "2^24 values", "anchors": ["spinn_machine/router.py:Router.convert_spinnaker_route_to_routing_ids", "spinn_machine/routing_entry.py:RoutingEntry._calc_routing_ids"]}
{"id": "C45", "title": "Out of range ids are rejected", "statement": "Creating or converting a routing entry with a processor id outside 0..17 or a link id outside 0..5 raises an exception; it is never silently encoded as a different target.", "quantifier": "all integer id collections", "why_tests_cant": "all integers", "anchors": ["spinn_machine/router.py:Router.convert_routing_table_entry_to_spinnaker_route", "spinn_machine/routing_entry.py:RoutingEntry.__init__"]}
{"id": "C46", "title": "Merge is the union of targets", "statement": "a.merge(b) has exactly the union of the processor and link ids of a and b; merge is commutative, associative and idempotent (as compared by ==); the result is defaultable only if both operands are equal and defaultable.", "quantifier": "all routing entries whose ids exist (0..17, 0..5): made from ids, from any route word, or by merging; the algebraic laws for all entries", "why_tests_cant": "all pairs/triples", "anchors": ["spinn_machine/routing_entry.py:RoutingEntry.merge, __eq__"]}
{"id": "C47", "title": "defaultable means default routing", "statement": "An entry built from ids is defaultable exactly if it came in over one link, goes out on just the opposite link and goes to no processor.", "quantifier": "all id collections and incoming links", "why_tests_cant": "all inputs", "anchors": ["spinn_machine/routing_entry.py:RoutingEntry.__init__, defaultable"]}
{"id": "C48", "title": "Multicast entry key/mask discipline", "statement": "A MulticastRoutingEntry can only be created if key & mask == key; merge raises unless key and mask are the same, and otherwise keeps key and mask and merges the targets.", "quantifier": "all keys, masks and entries", "why_tests_cant": "all integers", "anchors": ["spinn_machine/multicast_routing_entry.py:MulticastRoutingEntry.__init__, merge"]}
{"id": "C49", "title": "Equality and hashing are consistent", "statement": "For RoutingEntry, MulticastRoutingEntry, IgnoreChip/Core/Link, IPTag, link data and CoreSubset, == is an equivalence relation and equal objects have equal hashes.", "quantifier": "all pairs/triples of objects", "why_tests_cant": "all objects", "anchors": ["spinn_machine/routing_entry.py:RoutingEntry.__eq__, __hash__", "spinn_machine/multicast_routing_entry.py:MulticastRoutingEntry.__eq__, __hash__", "spinn_machine/tags/iptag.py:IPTag.__eq__, __hash__", "spinn_machine/core_subset.py:CoreSubset.__eq__, __hash__", "spinn_machine/link_data_objects/fpga_link_data.py", "spinn_machine/link_data_objects/spinnaker_link_data.py", "spinn_machine/ignores"]}
{"id": "C50", "title": "CoreSubsets is a set of cores", "statement": "After any history of add_processor/add_core_subset/add_core_subsets, is_core, is_chip, in, len, get_core_subset_for_chip and iteration agree with the mathematical set of (x, y, p) added; at most one subset per chip; adding is idempotent and order-insensitive (up to iteration order).", "quantifier": "all histories", "why_tests_cant": "all histories", "anchors": ["spinn_machine/core_subsets.py:CoreSubsets", "spinn_machine/core_subset.py:CoreSubset"]}
{"id": "C51", "title": "CoreSubsets.intersect is set intersection", "statement": "a.intersect(b) contains exactly the cores in both, contains no empty chip, and leaves a and b unchanged; the result is not aliased to the operands.", "quantifier": "all pairs of core subsets", "why_tests_cant": "all sets", "anchors": ["spinn_machine/core_subsets.py:CoreSubsets.intersect", "spinn_machine/core_subset.py:CoreSubset.intersect"]}
{"id": "C52", "title": "FrozenCoreSubsets never change", "statement": "No sequence of public operations on a FrozenCoreSubsets, or on the objects it returns or was built from, changes what it contains.", "quantifier": "all histories including aliased objects", "why_tests_cant": "all histories", "anchors": ["spinn_machine/frozen_core_subsets.py:FrozenCoreSubsets"]}
{"id": "C53", "title": "down_chips / down_links / down_cores strings parse to what they denote", "statement": "Writing any list of chips (links, cores), each with an optional IP address, in the documented format and parsing it gives exactly the set of those items; None/'none' in any case gives the empty set; an item with the wrong number of fields raises ValueError.", "quantifier": "all lists of items", "why_tests_cant": "unbounded lists and integers", "anchors": ["spinn_machine/ignores/ignore_chip.py:IgnoreChip.parse_string", "spinn_machine/ignores/ignore_link.py:IgnoreLink.parse_string", "spinn_machine/ignores/ignore_core.py:IgnoreCore.parse_string"]}
{"id": "C54", "title": "Core strings", "statement": "parse_cores_string reads an integer as that core, a-b as all cores from a to b inclusive, qx.qy.qp (SpiNNaker 2 only) as the core at that quad location, and raises for anything else.", "quantifier": "all strings", "why_tests_cant": "all strings", "anchors": ["spinn_machine/version/abstract_version.py:AbstractVersion.parse_cores_string", "spinn_machine/version/version_spin2.py:VersionSpin2.version_parse_cores_string", "spinn_machine/version/version_spin1.py:VersionSpin1.version_parse_cores_string"]}
{"id": "C55", "title": "Physical core numbers map to virtual core ids", "statement": "virtual_p of a positive core is that core; for a non-positive one the typical map sends the 18 physical cores one-to-one onto virtual ids 0..17.", "quantifier": "all integers p", "why_tests_cant": "whole table and all integers", "anchors": ["spinn_machine/ignores/ignore_core.py:IgnoreCore.virtual_p, TYPICAL_PHYSICAL_VIRTUAL_MAP"]}
{"id": "C56", "title": "The SpiNNaker 2 quad map is a bijection", "statement": "qx_qy_qp_to_id and id_to_qx_qy_qp are inverse bijections between core ids 0..152 and 153 distinct quad locations, everything else raises KeyError, and the map agrees with the published vec2mesh table.", "quantifier": "all ids and all locations", "why_tests_cant": "whole domain including the error cases", "anchors": ["spinn_machine/version/version_spin2.py:QUAD_MAP, VersionSpin2.qx_qy_qp_to_id, id_to_qx_qy_qp", "spinn_machine/version/vec2mesh.txt"]}
{"id": "C57", "title": "Version selection never contradicts the configuration", "statement": "version_factory returns a version only if it agrees with every source configured (version/versions, server URLs, width/height), raises SpinnMachineException for missing or contradictory settings, and every consistent configuration is accepted.", "quantifier": "all configurations", "why_tests_cant": "product of all optional settings", "anchors": ["spinn_machine/version/version_factory.py:version_factory", "spinn_machine/version/version_strings.py:VersionStrings"]}
{"id": "C58", "title": "cfg limits only ever reduce", "statement": "max_cores_per_chip and max_sdram_per_chip are the minimum of the version default and the cfg value; a cfg width without height (or the reverse) or of an unsupported size is rejected.", "quantifier": "all versions and cfg values", "why_tests_cant": "all integers", "anchors": ["spinn_machine/version/abstract_version.py:AbstractVersion.__init__"]}
{"id": "C59", "title": "get_machine life cycle", "statement": "In every history of set_machine, clear_machine, set_machine_generator, resets and get_machine calls: get_machine returns the last machine set since the last clear/hard reset (or user access after a soft reset), else the generator's machine, else raises; get_user_accessed_machine is true exactly if user-mode code asked for the machine since the last hard reset; get_nearest_ethernet / has_existing_machine never create a machine.", "quantifier": "all histories of data view operations", "why_tests_cant": "all histories", "anchors": ["spinn_machine/data/machine_data_view.py:MachineDataView.get_machine, get_nearest_ethernet, has_machine, has_existing_machine", "spinn_machine/data/machine_data_writer.py:MachineDataWriter"]}
{"id": "C60", "title": "quad map and virtual-to-physical map are exclusive", "statement": "In no history does the data view hold both a quad map and a virtual-to-physical map; set_v_to_p_map succeeds at most once per hard reset.", "quantifier": "all histories including calls that raise", "why_tests_cant": "all histories", "anchors": ["spinn_machine/data/machine_data_view.py:MachineDataView.get_machine_version, set_v_to_p_map, get_physical_core_id, get_physical_quad"]}
{"id": "C61", "title": "Monitor core counters", "statement": "After any history the monitor counts are the number of add_monitor_core calls since the last hard reset (all chips: those with all_chips=True), so get_all_monitor_cores <= get_ethernet_monitor_cores always.", "quantifier": "all histories", "why_tests_cant": "all histories", "anchors": ["spinn_machine/data/machine_data_writer.py:MachineDataWriter.add_monitor_core", "spinn_machine/data/machine_data_view.py:MachineDataView.get_all_monitor_cores, get_ethernet_monitor_cores"]}
{"id": "C62", "title": "Energy accounting", "statement": "Idle and active energy are non-negative, additive in time and packets, active energy is never below idle energy, and depends on every active core.", "quantifier": "all non-negative times, counts and packet tables", "why_tests_cant": "real-valued inputs", "anchors": ["spinn_machine/version/version_3.py:Version3.get_idle_energy, get_active_energy", "spinn_machine/version/version_5.py:Version5.get_idle_energy, get_active_energy", "spinn_machine/version/version_spin1.py"]}
{"id": "C63", "title": "Router holds one link per id", "statement": "After any history of add_link calls a router has the first link added for each id and rejects the second with SpinnMachineAlreadyExistsException without changing; is_link, get_link, in, [], links and len agree; get_neighbouring_chips_coords lists the destinations of the links in order.", "quantifier": "all histories of add_link calls", "why_tests_cant": "all histories", "anchors": ["spinn_machine/router.py:Router.__init__, add_link, is_link, get_link, links, get_neighbouring_chips_coords"]}
{"id": "C64", "title": "Chip processors and tags", "statement": "is_processor_with_id(p) holds exactly if p is in all_processor_ids; n_processors = n_scamp_processors + n_placable_processors = length of all_processor_ids; default tags are 1..7 for Ethernet chips and none for others, and explicit tags are kept.", "quantifier": "all chips", "why_tests_cant": "all chips", "anchors": ["spinn_machine/chip.py:Chip"]}
{"id": "C65", "title": "Version objects compare by class", "statement": "Two version objects are == exactly if they are of the same board version, whatever cfg limits they were created with; they are not hashable (hash() raises TypeError).", "quantifier": "all pairs of version objects", "why_tests_cant": "ranges over all cfg limits and all pairs of versions", "anchors": ["spinn_machine/version/abstract_version.py: __hash__", "spinn_machine/version/version_3.py: __eq__", "spinn_machine/version/version_5.py: __eq__", "spinn_machine/version/version_201.py: __eq__", "spinn_machine/version/version_248.py: __eq__"]}
{"id": "C66", "title": "Reading a JSON document", "statement": "machine_from_json accepts a document exactly if it is complete: a size that the version supports, well formed defaults for Ethernet and other chips, and one entry per chip, at different coordinates. Then the machine has the chips the entries describe and no others, in order: coordinates, cores, SDRAM, router entries, nearest Ethernet, IP address and tags as written, where an exception of a chip goes before the default of its kind, and the six standard links but the dead ones, wired as in a machine of that size; SpiNNaker and FPGA links are added afterwards. The document determines the machine. If it raises, the exception stands for something that is wrong with the document: KeyError for a missing field, ValueError for a value of the wrong type, IndexError for an entry with fewer than three parts, NotImplementedError for a chip without exactly one monitor, SpinnMachineException for an unsupported size, SpinnMachineAlreadyExistsException for two entries with the same coordinates; and every such fault makes it raise.", "quantifier": "all JSON values and all board versions", "why_tests_cant": "ranges over all documents, also malformed ones, of any number of chips", "anchors": ["spinn_machine/json_machine.py: machine_from_json"]}
{"id": "C67", "title": "Where a chip is", "statement": "where_is_xy never raises and its text tells which coordinates were asked for. If there is no chip it says so. With a chip and a boot chip it gives the global coordinates, the address of the boot chip, coordinates on the board from which get_global_xy leads back to the chip, and the address of the board's Ethernet chip; on a validated machine the local coordinates are on a board of that version. Without a boot chip it is str(chip). where_is_chip gives the same text. The data view gives the text of the machine it holds, says so if there is none, and never makes one.", "quantifier": "all histories of machines and of data view calls, all coordinates", "why_tests_cant": "ranges over all machines and histories; injectivity is a statement about all pairs of coordinates", "anchors": ["spinn_machine/machine.py: where_is_chip, where_is_xy", "spinn_machine/chip.py: __str__", "spinn_machine/data/machine_data_view.py: where_is_xy, where_is_chip"]}
{"id": "C68", "title": "Summary of a machine", "statement": "summary_string names the boot address, the numbers of chips, cores and links, and the smallest and largest SDRAM, router table, number of cores and number of links of the chips (one number if they are equal). It warns exactly if the chips differ in SDRAM or router table, with the counts, or if the common value is not that of the version. It raises IndexError for a machine without chips and KeyError for one without a boot chip, and nothing else.", "quantifier": "all histories of machines", "why_tests_cant": "ranges over all machines", "anchors": ["spinn_machine/machine.py: summary_string"]}
{"id": "C69", "title": "What a version says about its boards", "statement": "chip_core_map has exactly the positions of the board, each with the number of cores that is expected there: the maximum, or one or two less on the named chips of a 48-chip board; never less than minimum_cores_expected, and the maximum on the Ethernet chip. number, name, board_shape, n_chips_per_board, the total of cores, max_cores_per_chip and max_sdram_per_chip without a cfg limit, minimum_cores_expected, n_scamp_cores, n_router_entries, clock_speeds_hz, dtcm_bytes and supports_multiple_boards are those of the data sheet.", "quantifier": "all versions, all coordinates (also those off the board), all cfg settings without a limit", "why_tests_cant": "the core map is claimed for all coordinates", "anchors": ["spinn_machine/version/version_3.py", "spinn_machine/version/version_5.py", "spinn_machine/version/version_201.py", "spinn_machine/version/version_248.py", "spinn_machine/version/version_spin1.py", "spinn_machine/version/version_spin2.py: dtcm_bytes"]}
{"id": "C70", "title": "Texts of objects tell them apart", "statement": "str() of two links, routers, machines, routing entries, multicast routing entries, IP tags, reverse IP tags, SpiNNaker links or groups of cores is the same exactly if what the text is meant to show is the same: all fields of links, routers (links in order), tags (addresses without commas) and, for 24-bit routes, routing entries and multicast entries up to ==; origin, wrap, size and number of chips of a machine; id, chip and board of a SpiNNaker link (its link is not shown: the id is printed twice); the chips, in order, but not the cores of CoreSubsets.", "quantifier": "all pairs of objects, any coordinates and numbers of any sign and length, any route below 2^24, any history of core subsets", "why_tests_cant": "ambiguity of printed texts is a claim about all pairs of objects", "anchors": ["spinn_machine/link.py: __str__", "spinn_machine/router.py: __str__", "spinn_machine/machine.py: __str__", "spinn_machine/routing_entry.py: __repr__", "spinn_machine/multicast_routing_entry.py: __repr__", "spinn_machine/tags/iptag.py: __repr__", "spinn_machine/tags/reverse_iptag.py: __repr__", "spinn_machine/link_data_objects/spinnaker_link_data.py: __str__", "spinn_machine/core_subsets.py: __repr__"]}
{"id": "C71", "title": "Building a reduced machine never changes the original", "statement": "_machine_ignore and machine_repair never change any machine the program already has, whatever chips and routers its machines share, and give the same machine as if nothing were shared. The new machine uses the original's router for each chip that keeps all its links and a router of its own for each other chip; so adding a link to a router afterwards (Router.add_link) is seen by exactly the chips with that router, in both machines, and by no machine that does not share it.", "quantifier": "all programs that make and change routers and machines by API calls in any order, any sharing of routers between chips and machines, all dead chips and links", "why_tests_cant": "aliasing is a claim about all later histories of calls on shared objects", "anchors": ["spinn_machine/machine_factory.py: _machine_ignore, machine_repair", "spinn_machine/router.py: Router.add_link", "spinn_machine/machine.py: add_chip"]}
{"id": "C72", "title": "The down settings of a virtual machine are sets", "statement": "For virtual_machine, only which chips, links and cores are listed as down matters: settings that list the same, in another order, repeated or written differently, give the same machine or the same error. Listing more only takes chips, links and cores away and changes nothing else of what stays. If a link is listed at one end only, machine_repair gives the machine that listing it at both ends would have given.", "quantifier": "all machine versions, sizes and readable down settings", "why_tests_cant": "a claim about all pairs of settings and all machines", "anchors": ["spinn_machine/virtual_machine.py: _VirtualMachine", "spinn_machine/ignores", "spinn_machine/machine_factory.py: machine_repair"]}
{"id": "C73", "title": "Writing and reading JSON settles after one round", "statement": "The JSON of a machine that was read back from to_json of a machine is that same JSON. Whatever document a machine was read from, what is written for it reads back as a machine with the same size and the same chips (up to 2147483647 router entries), and from then on the document never changes.", "quantifier": "all machines with one monitor per chip, all documents that can be read", "why_tests_cant": "a fixed-point claim over all machines and all documents", "anchors": ["spinn_machine/json_machine.py: to_json, machine_from_json"]}
{"id": "C74", "title": "A machine is its chips, not its history", "statement": "Two machines of the same size with the same chip at each coordinate answer every query alike whatever calls led to them: same numbers of chips, cores, user cores and entries, boot address and unused coordinate, same verdict of validate, and the same chips, Ethernet chips, unreachable chips and one way links up to order. Adding the same chips in any order gives such machines (with the same number of links).", "quantifier": "all pairs of machines reachable by any calls, all permutations of any list of chips", "why_tests_cant": "independence of history ranges over all histories", "anchors": ["spinn_machine/machine.py: Machine.add_chip, add_chips and the queries"]}
{"id": "C75", "title": "Symmetries of distances", "statement": "get_vector and get_vector_length do not change if both places are moved by the same amount (over the edge on wrapped axes), nor does the link between them; distances do not change when the axes are exchanged, nor on a mesh without wraps when everything is turned by a sixth (link i becomes link i+1); without wraps the vector back is the opposite vector and the pattern of concentric_xys is the same around every place. On a torus no two chips are more than half of each side apart, on a square one two thirds of the side, which is attained.", "quantifier": "all four machine classes, all positive sizes, all places and shifts", "why_tests_cant": "a symmetry is a claim about all pairs of places and all shifts", "anchors": ["spinn_machine/machine.py: get_vector, get_vector_length, xy_over_link, concentric_xys", "spinn_machine/full_wrap_machine.py", "spinn_machine/horizontal_wrap_machine.py", "spinn_machine/vertical_wrap_machine.py", "spinn_machine/no_wrap_machine.py"]}
{"id": "C76", "title": "Perfect machines are connected, and distances are real", "statement": "In a machine built by virtual_machine without chips or links down, of any version and size, there is a route over the links of the routers from every chip to every chip; from a chip of a 48-chip board to its Ethernet chip it needs at most seven links and need not leave the board; on a torus the shortest route between two chips is as long as get_vector_length says. Whatever is down, no route is shorter than get_vector_length. machine_repair does not make a machine connected.", "quantifier": "all versions, sizes, chips and routes", "why_tests_cant": "reachability between all pairs of chips for all machine sizes, over routes of any length", "anchors": ["spinn_machine/virtual_machine.py: _VirtualMachine", "spinn_machine/machine.py: get_vector_length", "spinn_machine/version/version_48_chips.py", "spinn_machine/machine_factory.py: machine_repair"]}
{"id": "C77", "title": "Distances are those of the reference implementation (Rig)", "statement": "get_vector_length equals the closed formulas of Rig against which the project's own tests compare it: greatest minus least component of the displacement without wraps, the least of the four approaches on a torus, and the shorter of the ways that do and do not go over the edge with one wrap. The minimised vector is the displacement minus its median, and the vector on a torus is the minimised form of one of Rig's four approaches, of least length.", "quantifier": "all four machine classes, all positive sizes, all pairs of places", "why_tests_cant": "the tests compare all pairs of chips of one machine size of each class; the formulas must agree for every size", "anchors": ["spinn_machine/no_wrap_machine.py: get_vector_length", "spinn_machine/full_wrap_machine.py: get_vector_length, get_vector", "spinn_machine/horizontal_wrap_machine.py: get_vector_length", "spinn_machine/vertical_wrap_machine.py: get_vector_length", "spinn_machine/machine.py: _minimize_vector", "unittests/geometry.py"]}
{"id": "C78", "title": "Any text of a down setting is read as what it says, or refused", "statement": "Any text whatsoever given for down_chips, down_links or down_cores is read exactly if it is a list of items in the documented grammar (integers as Python reads them: surrounding white space, a sign, underscores between digits), in one way only, as exactly the items it lists; the word none in any case is nothing; every other text raises. What is down on a virtual machine is determined by the texts alone. An item of down_cores with an empty range names no core, and then its chip is not looked at.", "quantifier": "all strings", "why_tests_cant": "all strings, of any length", "anchors": ["spinn_machine/ignores/ignore_chip.py:IgnoreChip.parse_string", "spinn_machine/ignores/ignore_link.py:IgnoreLink.parse_string", "spinn_machine/ignores/ignore_core.py:IgnoreCore.parse_string", "spinn_machine/version/abstract_version.py:AbstractVersion.parse_cores_string"]}
{"id": "C79", "title": "When repair succeeds and what it removes", "statement": "machine_repair of a valid machine (whose chips with an address are the Ethernet chips of their boards and whose parent links are link ids) returns a machine or raises SpinnMachineException, nothing else; in particular for every validated virtual machine. With repair_machine set it does succeed if some consistent part of the machine keeps the boot chip and the Ethernet chip of every chip, and then keeps that part. If the machine has no one-way links and no recorded parents, exactly the chips without a working link on their board and the links to them are removed; a virtual machine with links listed as down at one end only becomes the one with both ends listed, if that one has no other problem.", "quantifier": "all valid machines, all removed_chips, all down settings", "why_tests_cant": "the outcome depends on every intermediate machine of the repair, for all machines and sets of dead items", "anchors": ["spinn_machine/machine_factory.py:machine_repair", "spinn_machine/machine_factory.py:_machine_ignore", "spinn_machine/machine.py:Machine.validate", "spinn_machine/virtual_machine.py:virtual_machine"]}
{"id": "C80", "title": "Looping over a machine that grows meanwhile", "statement": "chips, chip_coordinates and iter(machine) are live iterators. In any interleaving of any number of iterators, next() calls and add_chip calls, a loop that ends normally has seen exactly the chips the machine had when it began, each once and in the order they were added; if a chip is added before it has ended, its next step raises RuntimeError (nothing else is ever raised), so no new chip is silently missed; failed additions and other iterators do not disturb it.", "quantifier": "all machines, all programs that open iterators, ask them and add chips in any order", "why_tests_cant": "all interleavings of iteration and mutation", "anchors": ["spinn_machine/machine.py:Machine.chips", "spinn_machine/machine.py:Machine.chip_coordinates", "spinn_machine/machine.py:Machine.__iter__", "spinn_machine/machine.py:Machine.add_chip"]}
{"id": "C81", "title": "Board generators while chips are added", "statement": "get_existing_xys_by_ethernet, get_down_xys_by_ethernet and get_chips_by_ethernet never raise while being read, whatever chips are added meanwhile; each next() produces the first place of the board after the last one produced that has (has not) a chip now; so everything that was there from the start is produced by the end, nothing that is never there is produced, in board order; on an unchanged machine they produce exactly the existing (down) places.", "quantifier": "all machines, all interleavings of next() and add_chip", "why_tests_cant": "all interleavings of iteration and mutation", "anchors": ["spinn_machine/no_wrap_machine.py:get_existing_xys_by_ethernet", "spinn_machine/full_wrap_machine.py:get_down_xys_by_ethernet", "spinn_machine/machine.py:Machine.get_chips_by_ethernet"]}
{"id": "C82", "title": "one_way_links while chips are added", "statement": "A loop over one_way_links that ends normally has seen exactly the one way links of one state of the machine, each once: no chip was added between its first and its last step. Otherwise it raises RuntimeError, only if a chip was added after the first step, and is then finished.", "quantifier": "all machines, all interleavings of next() and add_chip", "why_tests_cant": "all interleavings of iteration and mutation", "anchors": ["spinn_machine/machine.py:Machine.one_way_links"]}
{"id": "C83", "title": "Iterators given as arguments", "statement": "add_chips given a generator over the machine's own chips always fails on a machine with chips: with SpinnMachineAlreadyExistsException and the machine unchanged, or with RuntimeError after exactly one chip was added. machine_repair given an iterator of removed chips behaves as with a list when repair_machine is set; when it is not set, exactly if the places the one way links lead to occur in this order among the removed chips, and else it raises SpinnMachineException.", "quantifier": "all machines built through the API, all iterables", "why_tests_cant": "the outcome depends on what the iterator has left after each search", "anchors": ["spinn_machine/machine.py:Machine.add_chips", "spinn_machine/machine_factory.py:machine_repair", "spinn_machine/machine_factory.py:_machine_ignore"]}
{"id": "C84", "title": "What keys, masks and defaultable mean for packets", "statement": "With the rules of the SpiNNaker router (the first entry whose key is the masked key of the packet decides; a packet without entry goes on over the link opposite to the one it came in over): a multicast entry can be made exactly if there is a packet it is for, and its key is one; a merged entry is for the same packets and sends them to the targets of both; an entry without processors is defaultable exactly if the router would do the same without it, so it can be left out of any table in which no later entry is for its packets; a packet that meets only defaultable entries goes straight on over the mesh or torus.", "quantifier": "all keys, masks, packets, tables, entries, machine classes and sizes", "why_tests_cant": "all packets and all tables", "anchors": ["spinn_machine/multicast_routing_entry.py:MulticastRoutingEntry", "spinn_machine/routing_entry.py:RoutingEntry.defaultable", "spinn_machine/machine.py:Machine.xy_over_link"]}
{"id": "C85", "title": "Floating point does not change sizes, counts or the board table", "statement": "With any arithmetic that rounds each result to a nearest double: the size proposed for n boards is the one of exact arithmetic for every n up to 3\u00b72^52, and always has room for n boards there (the first n for which it has not is 3\u00b72^52+1); the size proposed by virtual_machine_by_min_size is the least multiple of the board size for every side up to 2^53 (2^54+1 gives a machine that is too small); get_links_count is exactly half the number of directed links (up to 2^52 links); the table of nearest Ethernet chips computed with the centre (3.6, 3.4) is the exact one.", "quantifier": "all roundings to nearest, all numbers of boards, all sizes, all machines", "why_tests_cant": "all numbers of boards and sizes, including those at which doubles stop being exact", "anchors": ["spinn_machine/version/version_48_chips.py:Version48Chips.size_from_n_boards", "spinn_machine/virtual_machine.py:virtual_machine_by_min_size", "spinn_machine/spinnaker_triad_geometry.py:SpiNNakerTriadGeometry", "spinn_machine/machine.py:Machine.get_links_count"]}
{"id": "C86", "title": "Energy in floating point", "statement": "With any arithmetic that rounds each result to a nearest double, and for times, counts and packets that are not negative: get_idle_energy is within 10 \u00b7 2^-53 (relative) of the exact energy, get_active_energy within (40 n + 34) \u00b7 2^-53, where n is the number of packet counts and active times (up to 2^45), both with the plain sum of Python before 3.12 and the compensated sum since; with the compensated sum, and n up to 2^20, within 42 \u00b7 2^-53 whatever n is; the exceptions are the same as in exact arithmetic; the active energy is never less than the idle energy, neither is negative, and the idle energy never falls when the time grows.", "quantifier": "all roundings to nearest, versions, times, counts, packet tables of any size", "why_tests_cant": "all tables of any size; the error of a sum is a bound over all inputs", "anchors": ["spinn_machine/version/version_spin1.py:VersionSpin1._get_router_active_energy", "spinn_machine/version/version_spin1.py:VersionSpin1._get_core_active_energy", "spinn_machine/version/version_3.py:Version3.get_idle_energy", "spinn_machine/version/version_5.py:Version5.get_active_energy"]}
{"id": "C87", "title": "The list of Ethernet connected chips is live", "statement": "Iterating over ethernet_connected_chips while chips are added to the machine never fails: the n-th next() gives the n-th Ethernet connected chip the machine has at that moment, or stops if there is none, and an iterator that has stopped stays stopped even if more are added. What a loop has produced when it ends is the beginning of the Ethernet connected chips of the machine then, and includes all those the machine had when the loop began.", "quantifier": "all machines, all interleavings of add_chip (succeeding or failing), opening of iterators and next()", "why_tests_cant": "every interleaving of additions and next() of any length", "anchors": ["spinn_machine/machine.py:Machine.ethernet_connected_chips", "spinn_machine/machine.py:Machine.add_chip"]}
{"id": "C88", "title": "Core subsets may be read while they are changed", "statement": "add_core_subset and add_core_subsets read the subset, or the other collection, while they add: they never fail and add exactly its cores, also if it is part of the collection or the collection itself (adding a collection to itself changes nothing); CoreSubsets(other) and FrozenCoreSubsets(other) are copies. An iterator over a collection (core_subsets, iter) or over processor_ids, while the program makes any calls on any objects, gives the elements there were when it was made, in order; it raises RuntimeError only if the collection has got a new chip (the subset a new processor), and then at the very next next(); adding to chips that are there already, or to other objects, does not disturb it, and iterating a frozen collection never fails.", "quantifier": "all reachable states of any number of CoreSubset, CoreSubsets and FrozenCoreSubsets objects, all later histories", "why_tests_cant": "all interleavings of calls on aliased objects with next()", "anchors": ["spinn_machine/core_subsets.py:CoreSubsets.add_core_subset", "spinn_machine/core_subsets.py:CoreSubsets.add_core_subsets", "spinn_machine/core_subsets.py:CoreSubsets.core_subsets", "spinn_machine/core_subset.py:CoreSubset.processor_ids", "spinn_machine/frozen_core_subsets.py:FrozenCoreSubsets"]}
{"id": "C89", "title": "Removing faulty parts in stages is removing them at once", "statement": "Removing chips and links from a machine and then more from the result gives the same machine, or the same exception, as removing all of them at once; the order of the stages does not matter, only which chips and links are named (not their order, repetition, what is said about the other end, or those the machine does not have); removing the same parts, or some of them, again changes nothing.", "quantifier": "all versions, all machines built through the API, all lists of chips and links", "why_tests_cant": "all machines and all ways to split any list of faults", "anchors": ["spinn_machine/machine_factory.py:_machine_ignore", "spinn_machine/machine_factory.py:machine_repair"]}
{"id": "C90", "title": "Routes, keys and masks may be any integers", "statement": "RoutingEntry(spinnaker_route=r), Router.convert_spinnaker_route_to_routing_ids(r) and MulticastRoutingEntry(key, mask, ..) take any Python integer, of any size and sign, and mean its two's complement bits. The targets are those of the low 24 bits, so the entry for r has the targets of the entry for r modulo 2**24; merge gives the union of the targets, is idempotent, commutative and associative by ==, and is defaultable only for equal defaultable operands; == compares all bits, so two entries with the same targets (-1 and 2**24-1) may differ; equal entries have equal hashes. A multicast entry is made exactly if every bit of the key is in the mask: a negative key needs a negative mask.", "quantifier": "all integers as route, key and mask; all entries built from ids, routes and merges", "why_tests_cant": "integers are unbounded in both directions; a test tries some 32 bit words", "anchors": ["spinn_machine/routing_entry.py: RoutingEntry.__init__, merge, __eq__, __hash__, _calc_routing_ids", "spinn_machine/router.py: Router.convert_spinnaker_route_to_routing_ids", "spinn_machine/multicast_routing_entry.py: MulticastRoutingEntry.__init__, merge, __eq__, __hash__"]}
{"id": "C91", "title": "Parts down from the start, or removed later, give the same machine", "statement": "Removing chips and links from a virtual machine gives the same machine, in every attribute but its origin, or the same exception, as making the virtual machine with these parts in down_chips and down_links. If only the chips (and the links listed themselves) are removed, machine_repair with these chips as removed_chips drops the links that led to them and gives that machine, with repair_machine or without, if that machine needs no repair.", "quantifier": "all versions, sizes, readable down settings, sets of dead chips and links, repair_machine True or False", "why_tests_cant": "a test compares the two ways for one board and a few chips; the claim is for all subsets of parts of machines of all sizes", "anchors": ["spinn_machine/machine_factory.py: _machine_ignore, machine_repair", "spinn_machine/virtual_machine.py: _VirtualMachine.__init__, _create_chip, _calculate_links"]}
{"id": "C92", "title": "Larger requests give larger machines that contain the smaller ones", "statement": "For n <= n', size_from_n_boards(n') is at least as wide and as high as size_from_n_boards(n), and the machine of virtual_machine_by_boards(n) is part of that of virtual_machine_by_boards(n') under the same down settings: each of its chips is a chip of the larger machine with the same nearest Ethernet chip, IP address, SDRAM, tags, monitors and cores, and it has exactly the links of the larger machine between chips of the smaller. The same holds for virtual_machine_by_chips, virtual_machine_by_cores (if the monitors leave cores on a board) and when the number of monitors grows. The size built by virtual_machine_by_min_size is monotone in both arguments.", "quantifier": "all pairs of requests n <= n', all versions, all down settings, with and without validation", "why_tests_cant": "the size is computed through rounding up, a square root and two divisions; monotonicity across all pairs of requests cannot be tested", "anchors": ["spinn_machine/version/version_48_chips.py: size_from_n_boards", "spinn_machine/version/abstract_version.py: size_from_n_chips, size_from_n_cores", "spinn_machine/virtual_machine.py: virtual_machine_by_boards, virtual_machine_by_chips, virtual_machine_by_cores"]}
{"id": "C93", "title": "All boards of a wrapped machine look the same", "statement": "On a virtual machine of 48-chip boards without down parts, moving by the displacement between any two Ethernet positions (along axes that wrap; any two boards if both do) takes every chip to a chip with the same cores, monitors, SDRAM, routing entries, tags and link ids, whose nearest Ethernet chip and link destinations are displaced in the same way, and Ethernet chips to Ethernet chips. Nothing on a fully wrapped machine depends on which board one is on.", "quantifier": "all sizes, all displacements between boards, all chips and links", "why_tests_cant": "ranges over all machine sizes and all pairs of boards", "anchors": ["spinn_machine/virtual_machine.py: _VirtualMachine", "spinn_machine/version/version_48_chips.py", "spinn_machine/full_wrap_machine.py", "spinn_machine/horizontal_wrap_machine.py", "spinn_machine/vertical_wrap_machine.py"]}
{"id": "C94", "title": "A machine read back from JSON answers every query like the original", "statement": "Take a machine that the JSON format can represent (in particular any virtual machine of any version and size, with any chips and links but no cores down, that has its boot chip and a non-Ethernet chip). Write it with to_json, read the document with machine_from_json. The new machine gives the same answer as the original to every query: chip coordinates in the same order, is_chip_at, is_link_at, Ethernet chips, boot address, core counts, router entries, validate, get_unused_xy, the four unreachable-chip lists, one_way_links, xy_over_link, get_global_xy, and the three by-Ethernet lists; and, if the original had its links added once after its chips, the same SpiNNaker and FPGA link for every id, board address and coordinate.", "quantifier": "all versions, all sizes, all machines reachable by add_chip/add_chips/add_link whose chips JSON represents, all queries and arguments", "why_tests_cant": "A test compares a few attributes of one machine; here all queries on all representable machines agree, including order-sensitive ones and the exceptions raised.", "anchors": ["spinn_machine/json_machine.py: to_json, machine_from_json", "spinn_machine/machine.py: Machine"]}
{"id": "C95", "title": "FPGA links of neighbouring boards are the two ends of the same cables", "statement": "Every FPGA of a 48-chip SpiNNaker1 board serves two sides of the board with 8 connectors each (0-7 and 8-15). For any machine of any size and wrap, and any two FPGA links returned by get_fpga_link_with_id for boards e and e', crossing the first link (xy_over_link) leads to the chip of the second with the opposite link id exactly if connector i of FPGA f is cabled to connector 15-i of FPGA f' on the board at the given relative position: (0,low)->(4,-4) FPGA 1, (0,high)->(-4,-8) FPGA 2, (1,low)->(-8,-4) FPGA 2, (1,high)->(-4,4) FPGA 0, (2,low)->(4,8) FPGA 0, (2,high)->(8,4) FPGA 1, modulo the machine size on wrapped axes. If the chip at the other end is in the machine on the board of an Ethernet chip, get_fpga_link_with_id finds it at that connector.", "quantifier": "all sizes, wraps, histories of add_chip/add_fpga_links, all pairs of boards and connectors; all virtual machines with any down parts", "why_tests_cant": "The pairing must hold for every pair of boards at every machine size, including across wrapped edges and with parts missing.", "anchors": ["spinn_machine/version/version_5.py: fpga_links", "spinn_machine/machine.py: add_fpga_links, get_fpga_link_with_id, xy_over_link"]}
{"id": "C96", "title": "A board without faults serves itself by shortest ways", "statement": "In a virtual machine of 48-chip boards, if no chip and no link of a board is down (whatever is down on other boards), any two chips of the board are joined by working links through chips of that board only, over exactly as many links as the distance of their local coordinates on the mesh, at most 7; no way inside the board is shorter, whatever is down. On a small torus a way over other boards can be shorter.", "quantifier": "all sizes and wrap arounds, all settings of down chips, cores and links, all boards and pairs of chips on it, all ways", "why_tests_cant": "all pairs of chips of all boards of machines of any size, with any faults elsewhere, and all ways between them", "anchors": ["spinn_machine/virtual_machine.py:_VirtualMachine", "spinn_machine/machine.py:Machine.get_local_xy", "spinn_machine/no_wrap_machine.py:NoWrapMachine.get_vector_length"]}
{"id": "C97", "title": "Reading links while links are added", "statement": "While a program holds router.links, iter(router) or machine.spinnaker_links: as long as no new link gets into the table (failed add_link calls and repeated add_spinnaker_links calls do not count) the iterator gives all links in order and then StopIteration for ever; once a link has been added every next() raises RuntimeError, unless the iterator had stopped already, and then it keeps stopping; each SpiNNaker link read is the one the machine would give at that moment. Calling add_spinnaker_links or add_fpga_links twice is the same as calling it once.", "quantifier": "all routers, machines reachable by any history of calls, and all interleavings of next() with calls that add chips and links", "why_tests_cant": "all interleavings of any length and all tables", "anchors": ["spinn_machine/router.py:Router.links", "spinn_machine/router.py:Router.__iter__", "spinn_machine/machine.py:Machine.spinnaker_links", "spinn_machine/machine.py:Machine.add_spinnaker_links", "spinn_machine/machine.py:Machine.add_fpga_links"]}
{"id": "C98", "title": "Who shares the tags of a chip", "statement": "Chip.tag_ids hands out the set the chip holds. A change made through it is seen by that chip, and by no other chip if the chip was made with tags of its own or without IP address; all chips made with an IP address and without tags hold one set, so they have the same tags at any time: 1..7 changed by everything the program did through any of them, also for chips made later. Making a chip changes the tags of no chip. A chip made with the tag_ids of another (as for a chip that loses links in _machine_ignore) starts with the tags the other has at that moment and is independent of it afterwards.", "quantifier": "all programs that make chips and change tags through tag_ids in any order", "why_tests_cant": "aliasing is a claim about all later histories of changes through any of the chips", "anchors": ["spinn_machine/chip.py: Chip.__init__, Chip.tag_ids, Chip._IPTAG_IDS", "spinn_machine/machine_factory.py: _machine_ignore"]}
{"id": "C99", "title": "Repairing and removing parts in any order", "statement": "For machines without recorded parents (virtual machines, machines read from JSON): the repair of a part of a machine, if both repairs succeed, is a part of the repair of the machine; in particular with more chips and links down less of a virtual machine is left. Taking dead chips and links out and then repairing gives the very machine that comes out if one repairs first, takes the dead items out of the result and repairs again. A repair that succeeds returns the same machine whatever repair_machine and the removed chips are. With recorded parents the order can matter.", "quantifier": "all machines built through the API without recorded parents, all dead chips and links, all settings", "why_tests_cant": "all orders of removing and repairing on all machines; each repair is a recursion of unbounded depth", "anchors": ["spinn_machine/machine_factory.py: machine_repair, _machine_ignore", "spinn_machine/virtual_machine.py: _VirtualMachine"]}
{"id": "C100", "title": "Saving a machine to JSON first does not change what removing or repairing gives", "statement": "If a machine that JSON can represent, with no recorded parent links, is written with to_json and read back with machine_from_json, then removing any chips and links from the copy, or repairing the copy with any setting, gives what it gives for the original: the same exception, or a machine that answers every query and every link lookup in the same way. In particular for every virtual machine of any version and size with any chips and links down, no cores down, its boot chip present and a chip that is no Ethernet chip.", "quantifier": "All such machines, all lists of chips and links to remove, both repair settings, all lists of removed chips given to the repair", "why_tests_cant": "A test saves and repairs one machine; the copy holds different objects in a different form, and the repair runs any number of passes over it whose findings depend on the order of its chips and links", "anchors": ["spinn_machine/json_machine.py:to_json", "spinn_machine/json_machine.py:machine_from_json", "spinn_machine/machine_factory.py:machine_repair", "spinn_machine/machine_factory.py:_machine_ignore"]}
{"id": "C101", "title": "Routing entries made from iterators", "statement": "RoutingEntry accepts iterators for processor_ids and link_ids as its documentation says: with different iterators for the two it makes the entry that it makes for lists of the same ids, and uses the iterators up; but if link_ids is an iterator and an incoming link and no incoming processor is given it always raises (ValueError if an id cannot be encoded, else TypeError), so an entry whose links came from an iterator is never defaultable; and one iterator given for both is read as processors only, so that the entry has no links.", "quantifier": "All iterators and collections of ids of any length, all incoming links and processors, all orders of calls that share iterators", "why_tests_cant": "What a call gets depends on what is left of an iterator after all earlier calls and on which of the two arguments is read first", "anchors": ["spinn_machine/routing_entry.py:RoutingEntry.__init__"]}
{"id": "C102", "title": "What virtual_machine raises tells what is wrong", "statement": "virtual_machine either returns a machine or raises one of four exceptions, decided by the first check that fails in this order: the size is unsupported (SpinnMachineException); down_chips is no list of items (ValueError); down_cores is no list of items (that of the first bad item: ValueError if it has not three or four fields, if its core has several minus signs, or if its coordinates are no integers; KeyError for an unknown quad location; else ConfigException); down_cores names, without an IP address, a physical core beyond -17 (KeyError); down_links is no list of items (ValueError); and, if validation is asked for, the boot chip is down, or an Ethernet chip is down while other chips of its board are not, or a chip has too few cores (SpinnMachineException). In all other cases it returns the machine.", "quantifier": "All versions, sizes, texts of the three settings, with and without validation", "why_tests_cant": "The texts are arbitrary and the faults can be combined in any way over machines of any size", "anchors": ["spinn_machine/virtual_machine.py:virtual_machine", "spinn_machine/virtual_machine.py:_VirtualMachine.__init__", "spinn_machine/machine.py:Machine.validate", "spinn_machine/ignores/ignore_core.py:IgnoreCore.parse_string"]}
{"id": "C103", "title": "Walking out in rings meets each chip at its distance", "statement": "On every machine class, concentric_xys(radius, start) yields a chip of the machine exactly if get_vector_length(start, chip) is at most the radius; what it yields is in range and starts with the start; a larger radius yields the same positions first and then more; a chip at distance d is met for the first time in ring d, that is after the 1 + 3(d-1)d positions of the smaller rings and within the first 1 + 3d(d+1); and on a square torus a radius of two thirds of the side meets every chip.", "quantifier": "all machine classes, all positive widths and heights, all starts, radii and chips", "why_tests_cant": "Distances through the wraps make rings overlap themselves; agreement of two separately written algorithms must hold for every size, start and radius.", "anchors": ["spinn_machine/machine.py:Machine._basic_concentric_xys", "spinn_machine/machine.py:Machine.concentric_xys", "spinn_machine/full_wrap_machine.py:FullWrapMachine.concentric_xys", "spinn_machine/full_wrap_machine.py:FullWrapMachine.get_vector_length", "spinn_machine/horizontal_wrap_machine.py:HorizontalWrapMachine.concentric_xys", "spinn_machine/vertical_wrap_machine.py:VerticalWrapMachine.concentric_xys"]}
{"id": "C104", "title": "How far apart two chips can be", "statement": "On a machine of width w and height h, get_vector_length between two places inside is at most w + h - 2 without wraps, max(h - 1, (w + h - 1) // 2) with a horizontal wrap, max(w - 1, (w + h - 1) // 2) with a vertical wrap and max(w // 2, h // 2, (w + h) // 3) with both, and some two places are that far apart; so concentric_xys finds every chip from every start exactly if its radius is at least that number; and wrapping an axis never makes a distance larger.", "quantifier": "all machine classes, all positive widths and heights, all pairs of places, all search radii", "why_tests_cant": "A bound on all pairs of places of machines of every size; tests measure some pairs of some sizes.", "anchors": ["spinn_machine/no_wrap_machine.py:NoWrapMachine.get_vector_length", "spinn_machine/horizontal_wrap_machine.py:HorizontalWrapMachine.get_vector_length", "spinn_machine/vertical_wrap_machine.py:VerticalWrapMachine.get_vector_length", "spinn_machine/full_wrap_machine.py:FullWrapMachine.get_vector_length", "spinn_machine/machine.py:Machine.concentric_xys"]}
{"id": "C105", "title": "A vector may be walked in any order", "statement": "Following links with xy_over_link, the place reached depends only on how often each of the six links is taken, not on their order (an unacceptable id raises IndexError in every order). So every walk that goes East x times more than West, North y times more than South and South West z times more than North East ends at the destination get_vector gave (x, y, z) for. A walk is taken back by the opposite links in the opposite order; width steps East around a horizontal wrap, height steps North around a vertical wrap, and East, North, South West anywhere end where they started; and on a torus going on North East comes back after exactly the common multiples of the sides.", "quantifier": "all machine classes, all positive sizes, all starts and all lists of links of any length", "why_tests_cant": "It ranges over walks of unbounded length and all their orders on machines of every size.", "anchors": ["spinn_machine/full_wrap_machine.py:FullWrapMachine.xy_over_link", "spinn_machine/no_wrap_machine.py:NoWrapMachine.xy_over_link", "spinn_machine/horizontal_wrap_machine.py:HorizontalWrapMachine.xy_over_link", "spinn_machine/vertical_wrap_machine.py:VerticalWrapMachine.xy_over_link", "spinn_machine/machine.py:Machine.get_vector"]}
{"id": "C106", "title": "Which machine a minimum size gives", "statement": "With 48-chip boards virtual_machine_by_min_size(w, h) gives the smallest machine, in both directions at once, among the supported sizes whose sides are multiples of eight and at least w and h. It exists exactly if both numbers are positive or one of them is above eight (otherwise SpinnMachineException). It need not be the smallest supported machine: 9 by 9 gives 16 by 16 although 12 by 12 is supported. Asking with the width and height of the machine obtained gives the same machine.", "quantifier": "all 48-chip versions, all pairs of integers, all down settings", "why_tests_cant": "Minimality is a statement about all other sizes, for every requested size.", "anchors": ["spinn_machine/virtual_machine.py:virtual_machine_by_min_size", "spinn_machine/version/version_48_chips.py:Version48Chips._verify_size", "spinn_machine/version/version_48_chips.py:Version48Chips.board_shape"]}
{"id": "C107", "title": "How many links a machine has", "statement": "A virtual machine of 48-chip boards with nothing down has get_links_count() equal to 120 per board plus 4 for every side of a board next to which there is a board (six sides, at offsets (8,4), (4,8), (-4,4), (-8,-4), (-4,-8), (4,-4) between Ethernet chips, counted around wrapped axes). So a single board has 120; a by b triads with open edges (12a+4 by 12b+4) have 432ab - 32a - 32b + 16; wrapped horizontally only 432ab - 32a; wrapped vertically only 432ab - 32b; wrapped in both directions 432ab, six per two chips counted once.", "quantifier": "all 48-chip versions, all supported sizes, all numbers of triads, all settings without down chips and links", "why_tests_cant": "The count is a sum over a machine of any size; a test knows it for a few sizes only.", "anchors": ["spinn_machine/machine.py:Machine.get_links_count", "spinn_machine/virtual_machine.py:_VirtualMachine._calculate_links", "spinn_machine/version/version_48_chips.py:Version48Chips.get_potential_ethernet_chips"]}
{"id": "C108", "title": "What n_fpga_links counts", "statement": "n_fpga_links is not the number of FPGA links but the number of names get_fpga_link_with_id knows them by: by board address, by chip and by Ethernet chip. On a machine with well placed boards of Version 5, after add_fpga_links it is three times the number of connectors whose chip exists, less three for each board, as the three connectors of the Ethernet chip itself have one name less. A virtual machine with all chips has 48 FPGA links on each board and n_fpga_links is 141 times the number of boards; on other versions it is 0.", "quantifier": "all machines with distinct Ethernet addresses and legal board positions, all virtual machines of all sizes, with any chips down", "why_tests_cant": "That no two names coincide across boards depends on the positions of all boards of a machine of any size.", "anchors": ["spinn_machine/machine.py:Machine.n_fpga_links", "spinn_machine/machine.py:Machine.add_fpga_links", "spinn_machine/machine.py:Machine._add_fpga_link"]}
{"id": "C109", "title": "Which boards have a SpiNNaker link", "statement": "On a virtual machine of Version 5, get_spinnaker_link_with_id(0, address) of a board gives a link exactly if the Ethernet chip of the board has no working link to the south west, and then it is that link of that chip. With nothing down these are the boards without a board at (-8, -4) from them: the single board has one; on a by b triads with open edges a + 2b - 1 boards have one; wrapped horizontally a; wrapped vertically 2b; wrapped in both directions none, so external devices cannot be attached there.", "quantifier": "all supported sizes, all settings of what is down, all boards; all numbers of triads", "why_tests_cant": "The number of boards on the edge is a sum over machines of every size.", "anchors": ["spinn_machine/machine.py:Machine.add_spinnaker_links", "spinn_machine/machine.py:Machine.get_spinnaker_link_with_id", "spinn_machine/version/version_5.py:Version5.spinnaker_links"]}
{"id": "C110", "title": "Machines stay connected through faults", "statement": "On a virtual machine of 48 chip boards with no chips down, if the links that are down are all along one of the three directions of the mesh (both ways along it, and however many of them), every two chips still have a route of working links between them, on a machine that wraps in both directions one of at most twice the length of the shortest vector (get_vector_length); so they have when one link is down, in one or both directions. If the only faults are one chip, wherever it is, and links from or to it, every two other chips have.", "quantifier": "both versions of 48 chip boards, all supported sizes, open and wrapped; all settings of which links along the direction are down, all positions of the chip or link; all pairs of chips", "why_tests_cant": "There are exponentially many sets of such faults, on machines of unboundedly many sizes, and a route to be found for each pair of chips.", "anchors": ["spinn_machine/virtual_machine.py:_VirtualMachine", "spinn_machine/machine.py:Machine.xy_over_link", "spinn_machine/full_wrap_machine.py:FullWrapMachine"]}
