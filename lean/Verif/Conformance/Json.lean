import Verif.Conformance.RepairBoards

/-!
# Conformance of the model with the project's unit tests: JSON

See `Conformance/Objects.lean`: these are tests of the model against the values the project's own
unit tests expect, not proofs of properties.
-/

-- one example at a time, to keep the memory of the build small
set_option Elab.async false

namespace SpiNN.Conformance

/-! ### `test_json_machine.py`

The file is not modelled, only the JSON value in it. -/

/-- the checks of the tests: the texts of the chips, in order, and the size -/
def jsonRound (v : Version) (m : Machine) (p : Machine → Bool) : Bool :=
  gives (toJson m) (fun j => gives (machineFromJson v j) (fun jm =>
    decide (jm.width = m.width ∧ jm.height = m.height ∧ jm.wrap = m.wrap ∧ jm.nChips = m.nChips) &&
    decide (jm.chipList.map Chip.toStr = m.chipList.map Chip.toStr) && p jm))

/-- `test_json_version_3`, `test_json_version_5` and `test_json_version_201`, 32-71 -/
example : gives (virtualMachine v3 {} 2 2 true) (fun m => jsonRound v3 m fun _ => true) = true ∧
    gives (virtualMachine v5 {} 8 8 true) (fun m => jsonRound v5 m fun _ => true) = true ∧
    gives (virtualMachine v201 {} 1 1 true) (fun m => jsonRound v201 m fun _ => true) = true := by
  refine ⟨?_, ?_, ?_⟩ <;> decide +kernel

/-- `test_json_hole`, 73-87 -/
example : gives (virtualMachineByMinSize v5 { chips := some "3,3".toList } 5 5 true) (fun m =>
    jsonRound v5 m fun jm => !jm.isChipAt 3 3) = true := by decide +kernel

/-- a chip of a machine changed in place, as the tests do -/
def hackChip (m : Machine) (p : XY) (f : Chip → Chip) : Machine :=
  { m with
    chips := ⟨m.chips.items.map fun kv => if kv.1 = p then (kv.1, f kv.2) else kv⟩
    ethernetChips := m.ethernetChips.map fun c => if c.xy = p then f c else c }

/-- `test_exceptions`, 89-110 -/
example : gives (virtualMachineByBoards v5 {} 1 true) (fun m =>
    let m := hackChip m (0, 1) fun c => { c with router := { c.router with nEntries := c.router.nEntries - 20 } }
    let m := hackChip m (1, 0) fun c => { c with sdram := 50000000, tags := [2, 3] }
    jsonRound v5 m fun jm => gives (jm.getItem (1, 0)) fun c => decide (c.tags = [2, 3])) = true := by
  decide +kernel

/-- `test_monitor_exceptions`, 112-127 -/
example : gives (virtualMachineByBoards v5 {} 1 true) (fun m =>
    match m.chipList.find? fun c => c.ip.isNone with
    | none => false
    | some c =>
      let m := hackChip m c.xy fun c => { c with scamp := [0, 1], placable := [2, 3, 4, 5, 6, 7, 8, 9] }
      gives (toJson m) fun j => raises .notImplemented (machineFromJson v5 j)) = true := by decide +kernel

/-- `test_ethernet_exceptions`, 129-146 -/
example : gives (virtualMachineByBoards v5 {} 2 true) (fun m =>
    match m.ethernetChips[1]? with
    | none => false
    | some e =>
      let m := hackChip m e.xy fun c =>
        { c with router := { c.router with nEntries := c.router.nEntries - 20 }, sdram := 50000000, tags := [2, 3] }
      jsonRound v5 m fun jm => decide (jm.ethernetChips[1]?.map Chip.tags = some [2, 3])) = true := by decide +kernel

end SpiNN.Conformance
