# Formal model of SpiNNMachine in Lean 4 — design

Source modelled: `/repo/spinn_machine` (read as text; never run).  Lean project: `/verif/lean`.

## 1. Layout

| directory | contents |
|---|---|
| `Verif/Py/` | the fragment of Python the code relies on: insertion-ordered dict, floor `%`/`//`, `range`, exceptions as values |
| `Verif/Model/` | the model, one file per Python module; every definition cites file and lines |
| `Verif/Spec/` | small independent specifications (mesh walks, hexagon, abstract maps/sets) used in statements |
| `Verif/Lemmas/` | helper lemmas and proofs |
| `Verif/Props/` | the property theorems `Cnn_…`, each with a non-vacuity `example`, nothing else |
| `Verif/Conformance/` | the values expected by the project's own unit tests (`/repo/unittests`), restated as `example`s about the model: tests of the reading of the source, not proofs; no property rests on them |

## 2. Modelling conventions

* Python `int` is `Int`; `%`,`//` are `Int.fmod`,`Int.fdiv` (Python floor semantics); `math.ceil(a / b)` is the exact ceiling (see "not modelled").
* A Python `dict` is `PDict K V`, an association list in insertion order with `set` = overwrite in place or append (CPython >= 3.7 semantics).
* Exceptions are values (`Except PyErr α`); an operation that raises after a partial update returns the updated state together with the error where a caller could observe it (`add_chips`, `get_machine_version`).
* `MachineDataView.get_machine_version()` and cfg settings are explicit parameters (`Version`, `Cfg`).
* The four machine classes are one structure with a `Wrap` tag; each method has the four bodies as four branches, copied branch by branch.
* Human-readable messages are replaced by error constructors; logging has no effect in the model.

## 3. Trusted base

* Lean 4.33 kernel; axioms at most `propext`, `Classical.choice`, `Quot.sound` (printed by vcheck). No own axioms, no compiled-code decision procedures; finite tables are decided by the kernel.
* The reading of the Python source (each definition cites its source). `Verif/Conformance/` checks it against the expected values of the project's unit tests, which the real code passes: a misreading that changed one of those values would break the build.
* Behaviour of `spinn_utilities` (not in this repo): `OrderedSet` = insertion ordered set whose `==` with a non-OrderedSet compares as sets; `get_config_*` return the cfg value or None; `XY` is `tuple`; `is_user_mode`/`is_soft_reset`/`_is_mocked` are inputs to the data view model.
* CPython's iterators (`Model/Lazy.lean`): a dict iterator compares the size of the dict at every `next()` and raises `RuntimeError` for ever once it has changed; `StopIteration` is for ever; a generator whose body raised is finished; `x in iterator` consumes it up to the first equal item.
* Not modelled: logging other than the warnings of `summary_string`, `CoreSubset.__repr__` (the text of an external `OrderedSet`), file I/O and textual JSON syntax (the JSON *value* is modelled), docs, packaging, pickling, threads. Floating point is modelled in `Model/Floats.lean` as any function that rounds each exact result to a nearest double (53 bits, ties broken in any way, no overflow and no subnormal range: every exponent is allowed); C85 shows where it gives the same as the exact arithmetic of the other model files, which is: the board centre (3.6, 3.4) (scaled by 5; the theorem also shows that the nearest Ethernet is at least 1/5 nearer than any other, so rounding cannot change the table), `math.ceil(math.sqrt())` (the theorem holds for every positive width the square root could be rounded to), `/ 2` in link counts (doubled count), energies (rationals; the calculation with roundings is `Model/FloatEnergy.lean`, with both the plain `sum` of Python before 3.12 and the compensated one since, C86).

## 4. Properties: plan

* C01–C02: `Wrap.xyOverLink` against an independent "hex step modulo size" spec; arithmetic with `Int.emod`.
* C03–C05: spec = walks: `Reach n a b` by n link steps. Lower bound: norm `max |a| |b| |a-b|` changes by at most one per step, minimised over wraps. Upper bound: explicit walk. C05 from C03 (reverse walk by C01, concatenation).
* C06: invariant on the ring walk; list is `Nodup` and membership is norm <= radius, sortedness by norm.
* C07–C08: modular arithmetic, list filters.
* C09–C11, C13: residues mod 12 of the triad, decided by the kernel over the 12x12 residue table and lifted to all sizes. C13 also for sizes of any kind (`C13_any_size`) and for a geometry of the user's own (`C13_any_geometry`).
* C12: case analysis.  C14–C17: ceiling arithmetic; counting potential Ethernet chips. C16 is false if `max_machine_core` is set (negation by witness, partial otherwise).
* C18–C20: refinement of any history of `add_chip` to an abstract first-writer-wins map; counter invariant. C19 false once `Router.add_link` is called on a chip already in a machine (witness + partial).
* C21–C25: each against a first-order condition on the chip map. C22 (incoming) and C23 false over wrap-arounds (witness + partial: without wraps). C26: code returns the maximum (witness; proved what it returns and when it is right).
* C27–C29: dictionaries built by folds; table facts decided by the kernel. Also after any history in which the links are set up again (`Props/LinkHistory.lean`).
* C30–C36: the virtual machine builder as a fold over boards; uses C09–C13.
* C37–C40: `machineRepair` as a partial fixpoint (`none` = never ends), shown total by the measure chips + links; post-condition from the final pass. C36: fails for version 201 (witness + partial). C40: the parent link is lost (witness + partial).
* C41–C42: JSON value model; round trip under explicit conditions, witnesses where it fails (non-contiguous cores, more than one monitor, parent link).
* C43–C49: bit arithmetic with `Nat.testBit`. C45, C47: false for `RoutingEntry(...)` (witnesses), partial theorems for the part that holds.
* C50–C52: refinement to a set of triples; C52 with a heap/alias model, false through returned objects (witness + partial).
* C53–C56: strings as lists of characters; finite tables by the kernel. C55 false (17 maps to 18, 11 is missed); the map and its image in closed form.
* C57–C58: decision logic. C59–C61: state machine over operation histories. C60 false after an exception (witness + partial).
* C62: rationals. C63–C64: direct. C65: all objects with `__eq__` in one sum type; version classes define `__eq__` only, so Python makes them unhashable.
* C66: a relation `Doc` between JSON values (numbers, strings, arrays, objects, bools, null and floats, with Python's rules: a bool is an int, `1.0 == 1`) and lists of chips, written with three accessors of JSON values; `machineFromJson` is shown to accept exactly the documents in the relation with a list of chips with different coordinates, and to build that list.
* C67: the three forms of the text as Lean strings (numbers printed by Lean's `toString`); the coordinates are read back from the text by their delimiters. C68: counters of the machine against the lists of values of its chips (links: as they were when the chip was added); range of sorted keys. C19_links_count_exact: what the count is after any history.
* C69: a small data sheet in `Spec/Board.lean` (shape, exceptional chips, constants) against the tables of the model; all coordinates by `OnBoard`.
* C70: texts as character lists; equal texts are read back from the left (numbers end at a character that is neither a digit nor `-`, addresses at a comma, lists at a bracket), machines from the right because an origin is any text.
* C71: routers at addresses, chips with the address of their router, programs with several machines (`Model/Sharing.lean`); each call on objects is shown to be the call of the value model on what the machine looks like, by induction on the loop of `_machine_ignore` and on the recursion of `machine_repair`; all machines of all programs are `Reachable`, so the other theorems hold with sharing too.
* C72: the chips built are a function of which chips, links and cores are down (`Spec/DownSets.lean` compares settings by what they list); repair of one-ended links by maximality of `machine_repair` (C38).
* C73: what is written for a chip that was read back is what was written for the chip; documents that can be read give machines with one monitor per chip, so C41 applies.
* C74: the chips of a machine are a permutation of those of any other with the same chip at each coordinate; every query is shown to be invariant, by the characterisations C19-C27 where the model keeps counters.
* C75: linear arithmetic on the displacement, reduced on the wrapped axes; the pattern of rings by induction.
* C76: routes are an inductive relation over the links of the chips (`Spec/Route.lean`); a board is connected by induction towards its Ethernet chip, the boards by induction along the lattice of Ethernet chips towards (0, 0), with one explicit link between neighbouring boards; lengths by C03.
* C77: the formulas of `unittests/geometry.py` are written down in `Spec/Rig.lean` without the model; equality by case analysis and linear arithmetic for all sizes and places.
* C78: the grammar of the settings as an inductive relation (`Spec/Settings.lean`); the readers of digits, integers, items and lists are shown to accept exactly its texts, by induction on the text.
* C79: invariant of the recursion of `machine_repair`: every intermediate machine is valid and contains the given consistent part, so that no Ethernet chip is lost and `validate` passes; for machines without one-way links the consistent part is written down (all but the isolated chips) and shown to be the result.
* C80: programs are lists of steps (open an iterator, `next()`, `add_chip`) on one machine (`Model/Lazy.lean`); the invariant of an open dict iterator (position, remembered size, the machine has only grown) gives the exact results by induction on the program.
* C81: the same programs; the generator keeps the places it has not passed and tests them at each `next()`; induction with: chips are never removed.
* C82: the same programs; the generator's dict iterator is made at the first `next()`, the links of the current chip are tested later but chips cannot change without the iterator noticing at its next step.
* C83: the loop of `add_chips` fed by such an iterator; `in` on an iterator consumes it up to the hit, so the tests of `machine_repair` succeed exactly for a sublist; the rest of the recursion is compared with the list version.
* C84: the router's rules as a specification (`Spec/Packets.lean`: match by bits, first match, default route); bitwise extensionality for keys and masks, C47/C48 for the entries, displacement of a walk for straight lines.
* C85: the calculations with floats modelled over ℝ with a rounding parameter (`Model/Floats.lean`; `Spec/Floats.lean` says what rounding to nearest is); error bound of a rounding, monotonicity of roundings, exactness of integers up to 2^53; the gap of 1/5 between the nearest Ethernet chip and the others (C11) for the board table; counterexamples at 3·2^52+1 boards and 2^54+1 chips show that the bounds are needed.
* C86: the energies again with the rounding parameter; `Approx k x y` (y is x after k roundings, as a product of k factors 1±2^-53) is closed under products, sums of numbers that are not negative and roundings; an invariant for the compensated sum; rounding is monotone and does not pass a double, which gives active ≥ idle without any error term. From Python 3.12 on the bound does not grow with the number of terms: what an addition of two doubles loses is itself a double and is found exactly (`Lemmas/FloatSum.lean`).
* C87: the iterator of a Python list is a position, looked up in the list the machine has at each `next()`; the list only grows at the end (`Grown.eths`), which gives the prefix statements.
* C88: `Model/CoreLive.lean` has the loops of `core_subsets.py` with Python's dictionary iterators, asked again at each turn; what a loop reads does not change under it (the group's own subset only gets what it has), so they equal the loops of `Model/CoreSubsets.lean`. A relation `Pre` says that dictionaries and sets only grow at the end, for every call; the iterator lemmas are those of C80.
* C89: the result of `_machine_ignore` is determined by the list of surviving chips (a lemma of C37); filtering and dropping links twice composes.
* C90: routes, keys and masks in `Int`, with Mathlib's `Int.land`/`Int.lor` for `&` and `|`; the specification says bits as parities of `z / 2^i` (rounded down), so that two's complement is visible in the statements; integers with the same bits are equal; on natural numbers the model agrees with the one of C43 to C48.
* C91: a virtual machine is its list of chips (closed form of C30 to C35), and so is what `_machine_ignore` leaves (C37): the two lists are equal, chip by chip and link by link; the origin is only carried along. With `removed_chips` the one way links are exactly those to the removed chips, and C89 turns two stages into one.
* C92: monotonicity of the nearly square rectangle (integer arithmetic), then the closed form of virtual machines (vmEntries, vmLinks) compared for two sizes without wraps; uniqueness of the board of a chip for the Ethernet flag.
* C93: the Ethernet positions form a group (sum and negation by cases); reduction modulo the size commutes with displacements; the closed form of virtual machines is invariant, both ways by the inverse displacement.
* C94: compose C41 (the chips that are read back are the same) and C66 (how the reader builds the machine) with a congruence theorem over all the queries of the machine (Spec/Same.lean lists them) and over the link tables.
* C95: the FPGA rows of Version 5 are paired by a finite table check; the lattice of boards (unique decomposition of a coordinate into board and local position, modulo the wrapped size) lifts it to all sizes; composed with C28 (lookups, any history) and C30/C34 (virtual machines).
* C96: an inductive route all of whose chips belong to one board; the board is convex (a step towards any of its chips that stays on it, by linear arithmetic on the six sides), induction on the distance; a link between two chips of a board is a step on the board because 12 is more than twice the radius.
* C97: `DictIter` of C80 asked at the moments of a program; a closed form for a list that does not change followed by one of another length; keys of the tables only grow (prefix); assigning the same list of entries twice is assigning it once (keys and lookups agree).
* C98: sets of tags at addresses, a program is a list of constructor calls and changes through tag_ids; an invariant relates the text of the program to the addresses (default chips hold address 0, all others are injective), then induction on the program.
* C99: C38 (the result is consistent and contains every consistent part) makes the repair monotone; a part of `_machine_ignore(m, D)` is a part of m without D; both orders give parts of each other; what a repair returns is the machine itself or one built by one `_machine_ignore` (C89), and two such with the same parts are equal.
* C100: modelled by Model/Json, Model/Factory; Spec/Same says when two outcomes are the same. A chip read from JSON is one that the constructors can make and has no parent; two machines with the same chips give the same survivors, the same faults found in every pass (induction over the passes of the repair) and, by C94, the same answers. `C100_reloaded`, `C100_virtual_machines` (Props/JsonRepair).
* C101: modelled by Model/RoutingIter: iterators are numbered, each with the items it has left; reading one empties it. Case analysis; errors by C45's exact condition.
* C102: the outcome is composed from C78 (each setting: read, or refused with which exception), C55 (which cores have a number), C30 (sizes), C33 (when it validates) and C21, in the order in which the constructor checks. Which exception a text of down_cores gives is that of its first bad item (Spec/CoreFaults). `C102_outcome`, `C102_exceptions` (Props/Refusals), `C102_core_text`, `C102_core_fault` (Props/CoreFaults).
* C103: the wrapped sequence is the plane one with each position brought into range (C06); a plane position of ring k is a displacement of length k, so C03's minimality of get_vector_length over displacements gives both directions; prefixes by induction on the number of rings.
* C104: the closed forms of the four distance functions (C03) and linear arithmetic for the bound and for explicit pairs that attain it; the search by C103; wrapping by minimality over displacements.
* C105: any order by induction on the permutation with the two-step commutation of reduced steps; the end by counting displacements; the vector by C04; back by C01 and induction.
* C106: case analysis of the rounding (three cases with the ceilings characterised by inequalities), then linear arithmetic; the machine by C30.
* C107: each chip's links that stay on the board are present; a link that leaves it by a side is present exactly if there is a board next to that side (lattice uniqueness modulo the wrapped axes, as in C95); a finite table says each side has eight link ends; the closed forms by double counting over the grid of triads (the counts along one axis are range lemmas by splitting off the first or last triad).
* C108: the exact table after add_fpga_links (C28's fpga_table) has the keys of an explicit list without repetitions; the list is counted row by row, three keys for a row and two for the three rows of the Ethernet chip.
* C109: C27's lookup on the machine before the FPGA links are added, C31 for the link of the Ethernet chip, the side analysis and grid counts of C107.
* C110: Beside every link is a chip next to both its ends, as the boards are hexagons on one lattice; the two links by way of it are in the other two directions, so the routes of C76 can pass each link that is down. For a chip: its neighbours on its board are an arc around it, those on other boards are next to the arc or to one another, so the routes of C76 can pass around it.
* C66, refusals: `Fault` lists what can be wrong with a document and the exception for it, in terms of the JSON value only; an exception is always one of the faults of the document, and a document with a fault is refused.
