import Verif.Conformance.Repair
import Verif.Conformance.Boards

/-!
# Conformance of the model with the project's unit tests: repair of several boards

See `Conformance/Objects.lean`: these are tests of the model against the values the project's own
unit tests expect, not proofs of properties.
-/

-- one example at a time, to keep the memory of the build small
set_option Elab.async false

namespace SpiNN.Conformance

/-! ### `test_using_virtual_machine.py`, machines of several boards

The halves of `test_repair_with_local_orphan` and `test_repair_with_one_way_links_different_boards`
that run with repair on take too much memory to compute here; that repair succeeds on these machines
and what it removes is settled by `C79_virtual` and `C79_succeeds`. -/

/-- `test_unreachable_incoming_local_chips` and `test_unreachable_outgoing_local_chips`, 242-259 -/
example : gives (virtualMachine v5 { chips := some "8,6:9,7:9,8".toList } 16 16 true) (fun m =>
    decide (m.unreachableIncomingLocalChips = [(8, 7)]) &&
    decide (m.unreachableOutgoingLocalChips = [(8, 7)])) = true := by decide +kernel

/-- `test_repair_with_local_orphan`, 261-276: without repair -/
example : gives (virtualMachine v5 { chips := some "8,6:9,7:9,8".toList } 16 16 true) (fun m =>
    repairRaises v5 false [] m .machine) = true := by decide +kernel

/-- `test_repair_with_one_way_links_different_boards`, 278-293: without repair -/
example : gives (virtualMachine v5 {} 12 12 true) (fun m =>
    let m := [(7, 7, 0), (7, 3, 1), (6, 7, 2), (4, 7, 3), (8, 6, 4), (8, 4, 5)].foldl delLink m
    repairRaises v5 false [] m .machine) = true := by decide +kernel

end SpiNN.Conformance
