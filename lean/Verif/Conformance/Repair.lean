import Verif.Conformance.Machines
import Verif.Lemmas.RepairPasses
import Verif.Model.Json

/-!
# Conformance of the model with the project's unit tests: repair and JSON

See `Conformance/Objects.lean`: these are tests of the model against the values the project's own
unit tests expect, not proofs of properties. Tests that run on any of several board types are restated here for
version 5.
-/

-- one example at a time, to keep the memory of the build small
set_option Elab.async false

namespace SpiNN.Conformance

/-- does `machine_repair` raise the exception within some passes? -/
def repairRaises (v : Version) (repair : Bool) (removed : List XY) (m : Machine) (e : PyErr) : Bool :=
  match repairPasses v repair 5 removed m with
  | some (.error e') => decide (e' = e)
  | _ => false

/-- a check of the machine returned by `machine_repair` within some passes -/
def repairGives (v : Version) (repair : Bool) (removed : List XY) (m : Machine) (p : Machine → Bool) : Bool :=
  match repairPasses v repair 5 removed m with
  | some (.ok m') => p m'
  | _ => false

/-- `del machine._chips[x, y].router._links[link]`, as the tests do -/
def delLink (m : Machine) (d : Int × Int × Int) : Machine :=
  { m with chips := ⟨m.chips.items.map fun kv =>
      if kv.1 = (d.1, d.2.1) then
        (kv.1, { kv.2 with router := { kv.2.router with
          links := ⟨kv.2.router.links.items.filter fun il => il.1 ≠ d.2.2⟩ } })
      else kv⟩ }

/-! ### `test_using_virtual_machine.py` -/

/-- `test_unreachable_incoming_chips`, 218-229 -/
example : gives (virtualMachineByMinSize v5 {} 6 6 true) (fun m =>
    decide (([(2, 2, 1), (2, 3, 0), (3, 4, 5), (4, 4, 4), (4, 3, 3), (3, 2, 2)].foldl
      delLink m).unreachableIncomingChips = [(3, 3)])) = true := by decide +kernel

/-- `test_unreachable_outgoing_chips`, 231-240 -/
example : gives (virtualMachineByMinSize v5 {} 6 6 true) (fun m =>
    decide (([(3, 3, 0), (3, 3, 1), (3, 3, 2), (3, 3, 3), (3, 3, 4), (3, 3, 5)].foldl
      delLink m).unreachableOutgoingChips = [(3, 3)])) = true := by decide +kernel

/-- `test_oneway_link_no_repair`, 295-311 -/
example : gives (virtualMachine v5 {} 8 8 true) (fun m =>
    let m := [(3, 6, 0), (5, 4, 1), (3, 2, 5), (1, 3, 3)].foldl delLink m
    repairRaises v5 false [] m .machine && repairGives v5 true [] m (fun _ => true)) = true := by
  decide +kernel

/-- `test_removed_chip_repair`, 313-321; the test takes the chip out of the dictionary -/
example : gives (virtualMachineByBoards v5 {} 1 true) (fun m =>
    let m := { m with chips := ⟨m.chips.items.filter fun kv => kv.1 ≠ (3, 3)⟩ }
    repairGives v5 false [(3, 3)] m (fun m' => !m'.isLinkAt 2 2 1)) = true := by decide +kernel

/-- `test_ignores`, 323-371 -/
example : gives (virtualMachineByMinSize v5
    { chips := some "2,2:4,4:6,6,ignored_ip".toList
      cores := some "1,1,1:3,3,3: 5,5,-5:7,7,7,ignored_ip:0,0,5-10".toList
      links := some "1,3,3:3,5,3:5,3,3,ignored_ip".toList } 8 8 true) (fun m =>
    !m.isChipAt 4 4 && !m.isChipAt 2 2 && m.isChipAt 6 6 && m.isChipAt 0 0 &&
    gives (m.getItem (3, 3)) (fun c => !c.isProcessorWithId 3) &&
    gives (m.getItem (5, 5)) (fun c => !c.isProcessorWithId 6) &&
    gives (m.getItem (7, 7)) (fun c => c.isProcessorWithId 6) &&
    gives (m.getItem (1, 1)) (fun c => !c.isProcessorWithId 1) &&
    gives (m.getItem (1, 3)) (fun c => !c.router.isLink 3) &&
    gives (m.getItem (3, 5)) (fun c => !c.router.isLink 3) &&
    gives (m.getItem (5, 3)) (fun c => c.router.isLink 3) &&
    gives (m.getItem (0, 0)) (fun c =>
      (pyRange 5).all (fun i => c.isProcessorWithId i) &&
      [(5 : Int), 6, 7, 8, 9, 10].all (fun i => !c.isProcessorWithId i) &&
      [(12 : Int), 13, 14, 15, 16, 17].all (fun i => c.isProcessorWithId i))) = true := by decide +kernel

end SpiNN.Conformance
