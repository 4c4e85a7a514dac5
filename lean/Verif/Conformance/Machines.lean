import Verif.Conformance.Objects
import Verif.Model.VirtualMachine
import Verif.Model.Mesh

/-!
# Conformance of the model with the project's unit tests: machines

See `Conformance/Objects.lean`: these are tests of the model against the values the project's own
unit tests expect, not proofs of properties. Tests that set `versions` run on any of several board
types; they are restated here for version 5 (and, where cheap, version 248 or 3).
-/

-- one example at a time, to keep the memory of the build small
set_option Elab.async false

namespace SpiNN.Conformance

/-- `Version5()` with no `[Machine]` limits -/
def v5 : Version := ⟨.v5, 18, 123469792⟩
/-- `Version3()` with no `[Machine]` limits -/
def v3 : Version := ⟨.v3, 18, 123469792⟩
/-- `Version201()` with no `[Machine]` limits -/
def v201 : Version := ⟨.v201, 153, 1073741824⟩
/-- `Version248()` with no `[Machine]` limits -/
def v248 : Version := ⟨.v248, 153, 1073741824⟩

/-- `version/test_version*.py`, the attributes of the versions -/
example : Version.init .v5 {} = .ok v5 ∧ Version.init .v3 {} = .ok v3 ∧
    Version.init .v201 {} = .ok v201 ∧ Version.init .v248 {} = .ok v248 := by decide +kernel

/-- `test_fixed = sum(1 for chip in vm.chips for link in chip.router.links)` -/
def directedLinks (m : Machine) : Nat := (m.chipList.map fun c => c.router.len).sum

/-- do two lists have the same members? -/
def sameSet {α : Type} [DecidableEq α] (a b : List α) : Bool :=
  a.all (fun x => decide (x ∈ b)) && b.all (fun x => decide (x ∈ a))

/-! ### `test_machine.py` -/

/-- `test_create_new_machine_version5` and `test_summary`, `test_machine.py` 65-110 -/
example : gives (virtualMachineByBoards v5 {} 1 true) (fun m =>
    decide (m.width = 8 ∧ m.height = 8) &&
    m.chipList.all (fun c =>
      decide ((if c.x = 0 ∧ c.y = 0 then c.ip = some "127.0.0.0".toList else c.ip = none) ∧
        c.sdram = 123469792)) &&
    decide (m.totalCores = 856 ∧ m.totalAvailableUserCores = 856 - 48 ∧ m.nChips = 48 ∧ m.len = 48) &&
    gives m.bootChip (fun c => decide (c.ip = some "127.0.0.0".toList)) &&
    decide ((m.iter.head?.map fun p => p.2.ip) = some (some "127.0.0.0".toList) ∧
      m.chipCoordinates.head? = some (0, 0) ∧
      m.spinLinks.items.length = 2 ∧ m.minNRouterEnteries = .ok 1023) &&
    gives (m.summaryString v5) (fun (_, s) =>
      decide (s = ("Machine on 127.0.0.0 with 48 Chips, 856 cores and 120.0 links. " ++
        "Chips have sdram of 123469792 bytes, router table of size 1023, " ++
        "between 17 and 18 cores and between 3 and 6 links.").toList)))
    = true := by decide +kernel

/-- the machine with the counters of `test_summary` 102-106 -/
def hacked (m : Machine) : Machine :=
  { m with sdrams := counterInc .empty 123, nRouterEntries := counterInc .empty 456 }

/-- `test_summary`, `test_machine.py` 102-152 -/
example : gives (virtualMachineByBoards v5 {} 1 true) (fun m =>
    gives ((hacked m).summaryString v5) (fun (_, s) =>
      decide (s = ("Machine on 127.0.0.0 with 48 Chips, 856 cores and 120.0" ++
        " links. Chips have sdram of 123 bytes, router table of size " ++
        "456, between 17 and 18 cores and between 3 and 6 links.").toList)) &&
    gives ({ hacked m with
        sdrams := counterInc (hacked m).sdrams 789
        nRouterEntries := counterInc (hacked m).nRouterEntries 321 }.summaryString v5) (fun (_, s) =>
      decide (s = ("Machine on 127.0.0.0 with 48 Chips, 856 cores and 120.0 " ++
        "links. Chips have sdram of between 123 and 789 bytes, " ++
        "router table sizes between 321 and 456, " ++
        "between 17 and 18 cores and between 3 and 6 links.").toList)))
    = true := by decide +kernel

/-- `_create_chip`, `test_machine.py` 54-63 -/
def mkChip (v : Version) (x y : Int) : Chip :=
  Chip.mk' x y [0] (pyRange2 1 v.maxCores)
    (match Router.mk' links4 1024 with
      | .ok r => r
      | .error _ => ⟨.empty, 0⟩) 123469792 0 0
    (if x = 0 ∧ y = 0 then some ip253 else none) none none

/-- an empty machine of one board with chips added -/
def boardWith (v : Version) (l : List XY) : Machine :=
  match v.kind.createMachine (some v.kind.boardShape.1) (some v.kind.boardShape.2) "" with
  | .ok m => (m.addChips (l.map fun p => mkChip v p.1 p.2)).1
  | .error _ => Machine.new .none 0 0 .empty ""

/-- `test_chip_already_exists`, `test_machine_get_chip_at`, `test_machine_get_chip_at_invalid_location`,
`test_machine_is_chip_at_true`, `test_machine_is_chip_at_false`, `test_machine.py` 154-260 -/
example : [v3, v5].all (fun v => gives (virtualMachineByBoards v {} 1 true) (fun m =>
    raises .alreadyExists (m.addChip (mkChip v 0 0)) &&
    decide ((m.getChipAt 1 0).map (fun c => (c.x, c.y)) = some (1, 0) ∧
      (m.getChipAt 0 1).map (fun c => (c.x, c.y)) = some (0, 1) ∧
      m.getChipAt (v.kind.boardShape.1 + 2) (v.kind.boardShape.2 / 2) = none ∧
      m.isChipAt (v.kind.boardShape.1 / 2) (v.kind.boardShape.2 / 2) = true ∧
      m.isChipAt (v.kind.boardShape.1 + 2) (v.kind.boardShape.2 / 2) = false))) = true := by
  decide +kernel

/-- `test_machine_big_x`, `test_machine_big_y`, `test_no_boot`, `test_negative_x`, `test_negative_y`,
`test_machine.py` 184-222 and 322-353 -/
example : [v3, v5, v201, v248].all (fun v =>
    let w := v.kind.boardShape.1
    let h := v.kind.boardShape.2
    raises .machine ((boardWith v [(0, 0), (w + 2, h / 2)]).validate v) &&
    raises .machine ((boardWith v [(0, 0), (w / 2, h + 2)]).validate v) &&
    raises .machine ((boardWith v []).validate v) &&
    raises .machine ((boardWith v [(2, -1)]).validate v) &&
    raises .machine ((boardWith v [(-1, 3)]).validate v)) = true := by decide +kernel

/-- `xy_over_link` of an empty machine of this size -/
def over (w h x y l : Int) : Except PyErr XY :=
  match VKind.v5.createMachine (some w) (some h) "" with
  | .ok m => m.xyOverLink x y l
  | .error e => .error e

/-- `test_x_y_over_link`, `test_machine.py` 278-303 -/
example : over 24 24 0 0 4 = .ok (23, 23) ∧ over 24 24 23 23 1 = .ok (0, 0) ∧
    over 16 16 0 0 4 = .ok (-1, -1) ∧ over 16 16 15 15 1 = .ok (16, 16) ∧
    over 24 16 0 0 4 = .ok (23, -1) ∧ over 24 16 23 15 1 = .ok (0, 16) ∧
    over 16 24 0 0 4 = .ok (-1, 23) ∧ over 16 24 15 23 1 = .ok (16, 0) := by decide +kernel

/-- `get_global_xy` of an empty machine of this size -/
def global (w h lx ly ex ey : Int) : Except PyErr XY :=
  match VKind.v5.createMachine (some w) (some h) "" with
  | .ok m => .ok (m.getGlobalXY lx ly ex ey)
  | .error e => .error e

/-- `test_get_global_xy`, `test_machine.py` 305-329 -/
example : global 24 24 1 4 4 20 = .ok (5, 0) ∧ global 24 24 5 0 20 4 = .ok (1, 4) ∧
    global 28 28 1 4 4 20 = .ok (5, 24) ∧ global 28 28 5 0 20 4 = .ok (25, 4) ∧
    global 24 28 1 4 4 20 = .ok (5, 24) ∧ global 24 28 5 0 20 4 = .ok (1, 4) ∧
    global 28 24 1 4 4 20 = .ok (5, 0) ∧ global 28 24 5 0 20 4 = .ok (25, 4) := by decide +kernel

/-- `test_weird_ethernet1`, `test_bad_ethernet_chip_x`, `test_bad_ethernet_chip_no_chip`,
`test_too_few_cores`, `test_machine.py` 361-384 and 397-404: the machine with one chip changed -/
example : [v3, v5].all (fun v => gives (virtualMachineByBoards v {} 1 true) (fun m =>
    let with' (p : XY) (f : Chip → Chip) : Machine :=
      { m with chips := ⟨m.chips.items.map fun (k, c) => if k = p then (k, f c) else (k, c)⟩ }
    gives (m.validate v) (fun _ => true) &&
    raises .machine ((with' (0, 1) fun c => { c with ip := some "1.2.3.4".toList }).validate v) &&
    raises .machine ((with' (0, 1) fun c => { c with ethX := v.kind.boardShape.1 + 1 }).validate v) &&
    raises .machine ((with' (0, 1) fun c => { c with ethX := v.kind.boardShape.2 + 1 }).validate v) &&
    raises .machine ((with' (0, 0) fun c => { c with placable := [1, 2] }).validate v))) = true := by
  decide +kernel

/-! ### `test_virtual_machine3.py` -/

/-- `test_illegal_vms`, `test_virtual_machine3.py` 57-67 -/
example : [((-1 : Int), (2 : Int)), (2, -1), (15, 15), (8, 8), (1, 1)].all (fun p =>
    raises .machine (virtualMachine v3 {} p.1 p.2 true)) = true := by decide +kernel

/-- `test_version_2` and the tests of the whole board, `test_virtual_machine3.py` 69-133, 186-238 -/
example : gives (virtualMachine v3 {} 2 2 true) (fun m =>
    decide (m.nChips = 4) && m.isChipAt 0 0 && m.isChipAt 0 1 && m.isChipAt 1 0 && m.isChipAt 1 1 &&
    decide (m.ethernetChips.length = 1) &&
    decide ((pyRange 6).map (m.isLinkAt 0 0) = [true, true, true, false, false, true]) &&
    decide ((pyRange 6).map (m.isLinkAt 0 1) = [true, true, true, false, false, true]) &&
    decide ((pyRange 6).map (m.isLinkAt 1 0) = [false, false, true, true, true, true]) &&
    decide ((pyRange 6).map (m.isLinkAt 1 1) = [false, false, true, true, true, true]) &&
    decide (directedLinks m = 16 ∧ m.getCoresCount = 72 ∧ m.getLinksCount = 8) &&
    gives (m.getItem (1, 1)) (fun c => decide ((m.existingXysOnBoard c).length = 4)) &&
    decide (m.spinLinks.items =
      [((.addr "127.0.0.0".toList, 0), ⟨0, 0, 0, 3, "127.0.0.0".toList⟩),
       ((.xy (0, 0), 0), ⟨0, 0, 0, 3, "127.0.0.0".toList⟩),
       ((.addr "127.0.0.0".toList, 1), ⟨1, 1, 0, 0, "127.0.0.0".toList⟩),
       ((.xy (1, 0), 1), ⟨1, 1, 0, 0, "127.0.0.0".toList⟩)]) &&
    decide (m.nFpgaLinks = 0 ∧ (m.addFpgaLinks v3).nFpgaLinks = 0) &&
    gives m.bootChip (fun c => decide (c.xy = (0, 0))) &&
    raises .alreadyExists (m.addChip (mkChip v3 1 1)) &&
    m.chipList.all (fun c => decide (m.getGlobalXY (m.getLocalXY c).1 (m.getLocalXY c).2 c.ethX c.ethY
      = (c.x, c.y))) &&
    decide (m.localXys.length = 4) &&
    decide (((m.xyCoresByEthernet 0 0).map (·.2)).sum = 4 * 18) &&
    decide ((m.chipList.map Chip.nProcessors).sum = 4 * 18)) = true := by decide +kernel

/-- `test_new_vm_with_max_cores`, `test_virtual_machine3.py` 135-148 -/
example : gives (Version.init .v3 { maxMachineCore := some 13 }) (fun v =>
    gives (virtualMachine v {} 2 2 true) (fun m =>
      gives (m.getItem (1, 1)) (fun c => decide (c.nProcessors = 13 ∧ c.nPlacable = 12 ∧ c.nScamp = 1 ∧
        c.placable.length = 12 ∧ c.scamp.length = 1)) &&
      decide ((m.chipList.map Chip.nProcessors).sum = 4 * 13))) = true := by decide +kernel

/-- `test_down_chip`, `test_size_2_2_hole`, `test_virtual_machine3.py` 159-171, 240-256 -/
example : gives (virtualMachine v3 { chips := some "1,1".toList } 2 2 true) (fun m =>
    decide (m.nChips = 3 ∧ (1, 1) ∉ m.chipCoordinates ∧ (m.xysByEthernet 0 0).length = 4 ∧
      (m.existingXysByEthernet 0 0).length = 3 ∧ (1, 1) ∉ m.existingXysByEthernet 0 0) &&
    gives (m.chipsByEthernet 0 0) (fun l => decide (l.length = 3 ∧ (1, 1) ∉ l.map Chip.xy))) = true := by
  decide +kernel

/-- `test_2_2_by`, `test_2_2_by_cores_too_many`, `test_virtual_machine3.py` 273-299 -/
example : [virtualMachineByCores v3 {} 0 0 40 true, virtualMachineByBoards v3 {} 1 true,
      virtualMachineByChips v3 {} 3 true].all (fun r => gives r (fun m =>
        decide (m.nChips = 4 ∧ m.width = 2 ∧ m.height = 2 ∧ 40 ≤ m.totalAvailableUserCores))) = true ∧
    raises .machine (virtualMachineByCores v3 {} 0 0 100 true) = true ∧
    raises .machine (virtualMachineByBoards v3 {} 2 true) = true := by decide +kernel

/-! ### `test_virtual_machine201.py` -/

/-- `test_illegal_vms`, `test_virtual_machine201.py` 59-69 -/
example : [((-1 : Int), (2 : Int)), (2, -1), (15, 15), (8, 8), (2, 2)].all (fun p =>
    raises .machine (virtualMachine v201 {} p.1 p.2 true)) = true := by decide +kernel

/-- `test_version_SPIN2_1CHIP` and the tests of the one chip, `test_virtual_machine201.py` 71-97,
112-167, 221-228 -/
example : gives (virtualMachine v201 {} 1 1 true) (fun m =>
    decide (m.nChips = 1) && m.isChipAt 0 0 && !m.isChipAt 0 1 && decide (m.ethernetChips.length = 1) &&
    (pyRange 6).all (fun l => !m.isLinkAt 0 0 l) &&
    decide (directedLinks m = 0 ∧ m.getCoresCount = 153 ∧ m.getLinksCount = 0) &&
    gives (m.getItem (0, 0)) (fun c => decide (m.existingXysOnBoard c = [(0, 0)])) &&
    decide (m.spinLinks.items = [] ∧ m.nFpgaLinks = 0) &&
    raises .alreadyExists (m.addChip (mkChip v201 0 0)) &&
    gives m.bootChip (fun c => decide (c.xy = (0, 0))) &&
    decide (((m.xyCoresByEthernet 0 0).map (·.2)).sum = 153)) = true := by decide +kernel

/-- `test_new_vm_with_max_cores`, `test_virtual_machine201.py` 99-112 -/
example : gives (Version.init .v201 { maxMachineCore := some 105 }) (fun v =>
    gives (virtualMachine v {} 1 1 true) (fun m =>
      gives (m.getItem (0, 0)) (fun c => decide (c.nProcessors = 105 ∧ c.nPlacable = 104 ∧
        c.nScamp = 1 ∧ c.placable.length = 104 ∧ c.scamp.length = 1)))) = true := by decide +kernel

/-- `test_by`, `test_by_cores_too_many`, `test_down`, `test_virtual_machine201.py` 230-267 -/
example : [virtualMachineByCores v201 {} 0 0 40 true, virtualMachineByBoards v201 {} 1 true,
      virtualMachineByChips v201 {} 1 true].all (fun r => gives r (fun m =>
        decide (m.nChips = 1 ∧ m.width = 1 ∧ m.height = 1 ∧ 40 ≤ m.totalAvailableUserCores))) = true ∧
    raises .machine (virtualMachineByCores v201 {} 0 0 200 true) = true ∧
    raises .machine (virtualMachineByBoards v201 {} 2 true) = true ∧
    VKind.v201.qxQyQpToId 2 2 1 = .ok 90 ∧
    gives (virtualMachineByCores v201 { cores := some "0,0,2.2.1".toList } 0 0 1 true) (fun m =>
      gives (m.getItem (0, 0)) (fun c => !c.isProcessorWithId 90)) = true := by decide +kernel

/-! ### `test_virtual_machine5.py`, `test_virtual_machine248.py`, `test_virtual_machine_48chips.py` -/

/-- `test_illegal_vms`, `test_virtual_machine_48chips.py` 31-50, `test_virtual_machine248.py` 32-50 -/
example : [v5, v248].all (fun v => [((-1 : Int), (2 : Int)), (2, -1), (15, 15), (5, 7), (61, 84)].all (fun p =>
    raises .machine (virtualMachine v {} p.1 p.2 true))) = true := by decide +kernel

/-- the FPGA links of one board, as listed in `test_virtual_machine5.py` 131-151:
(x, y, link, fpga id, fpga link id) -/
def fpgaTable : List (Int × Int × Int × Int × Int) :=
  [(7, 3, 0, 0, 0), (7, 3, 5, 0, 1), (6, 2, 0, 0, 2), (6, 2, 5, 0, 3), (5, 1, 0, 0, 4), (5, 1, 5, 0, 5),
   (4, 0, 0, 0, 6), (4, 0, 5, 0, 7), (4, 0, 4, 0, 8), (3, 0, 5, 0, 9), (3, 0, 4, 0, 10), (2, 0, 5, 0, 11),
   (2, 0, 4, 0, 12), (1, 0, 5, 0, 13), (1, 0, 4, 0, 14), (0, 0, 5, 0, 15),
   (0, 0, 4, 1, 0), (0, 0, 3, 1, 1), (0, 1, 4, 1, 2), (0, 1, 3, 1, 3), (0, 2, 4, 1, 4), (0, 2, 3, 1, 5),
   (0, 3, 4, 1, 6), (0, 3, 3, 1, 7), (0, 3, 2, 1, 8), (1, 4, 3, 1, 9), (1, 4, 2, 1, 10), (2, 5, 3, 1, 11),
   (2, 5, 2, 1, 12), (3, 6, 3, 1, 13), (3, 6, 2, 1, 14), (4, 7, 3, 1, 15),
   (4, 7, 2, 2, 0), (4, 7, 1, 2, 1), (5, 7, 2, 2, 2), (5, 7, 1, 2, 3), (6, 7, 2, 2, 4), (6, 7, 1, 2, 5),
   (7, 7, 2, 2, 6), (7, 7, 1, 2, 7), (7, 7, 0, 2, 8), (7, 6, 1, 2, 9), (7, 6, 0, 2, 10), (7, 5, 1, 2, 11),
   (7, 5, 0, 2, 12), (7, 4, 1, 2, 13), (7, 4, 0, 2, 14), (7, 3, 1, 2, 15)]

/-- `test_version_5`, `test_version_5_8_by_8`, `test_fpga_links_single_board`,
`test_virtual_machine5.py` 33-153 and 201-256: the keys are the address, the connected chip and the
Ethernet chip of every row of the table -/
example : gives (virtualMachine v5 {} 8 8 true) (fun m =>
    decide (m.nChips = 48 ∧ m.ethernetChips.length = 1 ∧ directedLinks m = 240 ∧ m.getLinksCount = 120 ∧
      m.getCoresCount = 856) &&
    gives (m.getItem (1, 1)) (fun c => decide ((m.existingXysOnBoard c).length = 48)) &&
    m.isChipAt 4 4 && !m.isChipAt 0 4 && decide ((0, 4) ∉ m.chipCoordinates) &&
    decide ((m.chipList.map Chip.nProcessors).sum = 856) &&
    decide (m.spinLinks.items = [((.addr "127.0.0.0".toList, 0), ⟨0, 0, 0, 4, "127.0.0.0".toList⟩),
      ((.xy (0, 0), 0), ⟨0, 0, 0, 4, "127.0.0.0".toList⟩)]) &&
    decide (m.nFpgaLinks = 8 * 6 * 3 - 3) &&
    sameSet m.fpgaLinks.keys (fpgaTable.flatMap fun (x, y, _, f, fl) =>
      [(.addr "127.0.0.0".toList, f, fl), (.xy (x, y), f, fl), (.xy (0, 0), f, fl)]) &&
    sameSet (m.fpgaLinks.items.map fun (k, d) => (d.x, d.y, d.link, k.2.1, k.2.2)) fpgaTable &&
    fpgaTable.all (fun (x, y, l, f, fl) => gives (m.getFpgaLink f fl none none) (fun d =>
      decide (d.x = x ∧ d.y = y ∧ d.link = l)))) = true := by decide +kernel

/-- `test_version_248_8_by_8`, `test_virtual_machine248.py` 52-64 -/
example : gives (virtualMachine v248 {} 8 8 true) (fun m =>
    decide (m.nChips = 48 ∧ m.ethernetChips.length = 1) && m.isChipAt 4 4 && !m.isChipAt 0 4 &&
    decide ((0, 4) ∉ m.chipCoordinates ∧ directedLinks m = 240 ∧
      (m.chipList.map Chip.nProcessors).sum = 7331)) = true := by decide +kernel

/-- `test_version_hole`, `test_version_hole2`, `test_virtual_machine_48chips.py` 52-78 -/
example : gives (virtualMachine v5 { chips := some "3,3".toList } 8 8 true) (fun m =>
      decide (m.nChips = 47 ∧ m.ethernetChips.length = 1 ∧ m.isLinkAt 3 3 2 = false ∧
        m.isLinkAt 3 2 2 = false ∧ directedLinks m = 228 ∧ m.localXys.length = 48)) = true ∧
    gives (virtualMachine v5 { chips := some "0,3".toList } 8 8 true) (fun m =>
      decide (m.nChips = 47 ∧ m.ethernetChips.length = 1 ∧ m.isLinkAt 0 2 2 = false ∧
        m.isLinkAt 1 3 3 = false ∧ directedLinks m = 234 ∧ m.localXys.length = 48)) = true := by decide +kernel

/-! ### `get_unused_xy` -/

/-- the loop of `get_unused_xy` stops in column `k` when the columns before it are full -/
theorem unused_at (m : Machine) (used : List XY) (p : XY) : (k : Nat) → (x : Int) →
    (∀ i : Nat, i < k → (pyRange m.height).find?
      (fun y => !m.chips.contains (x + i, y) && !used.contains (x + i, y)) = none) →
    (pyRange m.height).find? (fun y => !m.chips.contains (x + k, y) && !used.contains (x + k, y))
      = some p.2 → p.1 = x + k → m.unusedFrom used x = some p
  | 0, x, _, h, hp => by
    rw [Machine.unusedFrom]
    simp only [Int.natCast_zero, Int.add_zero] at h hp
    rw [h, ← hp]
  | k + 1, x, hf, h, hp => by
    rw [Machine.unusedFrom]
    have h0 := hf 0 (by omega)
    simp only [Int.natCast_zero, Int.add_zero] at h0
    rw [h0]
    refine unused_at m used p k (x + 1) (fun i hi => ?_) ?_ ?_
    · have := hf (i + 1) (by omega)
      rwa [show x + ((i + 1 : Nat) : Int) = x + 1 + (i : Int) by omega] at this
    · rwa [show x + ((k + 1 : Nat) : Int) = x + 1 + (k : Int) by omega] at h
    · omega

/-- the test of `unused_at` as a computation -/
def unusedCheck (m : Machine) (p : XY) (k : Nat) : Bool :=
  (List.range k).all (fun i => decide ((pyRange m.height).find?
    (fun y => !m.chips.contains (0 + (i : Int), y) && !m.ethernetXys.contains (0 + (i : Int), y)) = none)) &&
  decide ((pyRange m.height).find?
    (fun y => !m.chips.contains (0 + (k : Int), y) && !m.ethernetXys.contains (0 + (k : Int), y)) = some p.2) &&
  decide (p.1 = 0 + k)

/-- the computation is right -/
theorem unused_of_check (m : Machine) (p : XY) (k : Nat) (h : unusedCheck m p k = true) :
    m.getUnusedXY = some p := by
  simp only [unusedCheck, Bool.and_eq_true, List.all_eq_true, decide_eq_true_eq, List.mem_range] at h
  exact unused_at m m.ethernetXys p k 0 h.1.1 h.1.2 h.2

/-- what a checked example says of the machine built -/
theorem of_gives {α : Type} {r : Except PyErr α} {p : α → Bool} (h : gives r p = true) (a : α)
    (ha : r = .ok a) : p a = true := by
  subst ha
  exact h

/-- `test_virtual_machine3.py` 118 -/
example (m : Machine) (hm : virtualMachine v3 {} 2 2 true = .ok m) : m.getUnusedXY = some (2, 0) :=
  unused_of_check m _ 2 (of_gives (p := fun m => unusedCheck m (2, 0) 2) (by decide +kernel) m hm)
/-- `test_virtual_machine201.py` 95 -/
example (m : Machine) (hm : virtualMachine v201 {} 1 1 true = .ok m) : m.getUnusedXY = some (1, 0) :=
  unused_of_check m _ 1 (of_gives (p := fun m => unusedCheck m (1, 0) 1) (by decide +kernel) m hm)
/-- `test_virtual_machine5.py` 53 -/
example (m : Machine) (hm : virtualMachine v5 {} 8 8 true = .ok m) : m.getUnusedXY = some (0, 4) :=
  unused_of_check m _ 0 (of_gives (p := fun m => unusedCheck m (0, 4) 0) (by decide +kernel) m hm)

end SpiNN.Conformance
