import Verif.Conformance.Machines
import Verif.Model.DataView

/-!
# Conformance of the model with the project's unit tests: versions, geometry and the data view

See `Conformance/Objects.lean`: these are tests of the model against the values the project's own
unit tests expect, not proofs of properties.
-/

-- one example at a time, to keep the memory of the build small
set_option Elab.async false

namespace SpiNN.Conformance
open VKind

/-! ### `version/test_version3.py`, `test_version5.py`, `test_version201.py`, `test_version248.py` -/

/-- `test_attributes` and `test_processor_info` of the four files -/
example : [VKind.v3, .v5, .v201, .v248].map VKind.name =
      ["Spin1 4 Chip", "Spin1 48 Chip", "Spin2 1 Chip", "Spin2 48 Chips"] ∧
    [VKind.v3, .v5, .v201, .v248].map VKind.number = [3, 5, 201, 248] ∧
    [VKind.v3, .v5, .v201, .v248].map VKind.nScampCores = [1, 1, 1, 1] ∧
    [VKind.v3, .v5, .v201, .v248].map VKind.boardShape = [(2, 2), (8, 8), (1, 1), (8, 8)] ∧
    [VKind.v3, .v5, .v201, .v248].map VKind.nChipsPerBoard = [4, 48, 1, 48] ∧
    [VKind.v3, .v5, .v201, .v248].map VKind.nRouterEntries = [1023, 1023, 16384, 16384] ∧
    [VKind.v3, .v5, .v201, .v248].map VKind.clockSpeeds = [[200], [200], [150, 300], [150, 300]] := by decide +kernel
/-- `test_processor_info` of `test_version3.py` and `test_version5.py` -/
example : VKind.v3.dtcmBytes = .ok 65536 ∧ VKind.v5.dtcmBytes = .ok 65536 := by decide +kernel

/-- `test_verify_config_width_height` of the four files -/
example : [(VKind.v3, (2 : Int)), (.v5, 8), (.v201, 1), (.v248, 8)].all (fun (k, n) =>
    gives (Version.init k {}) (fun _ => true) &&
    raises .machine (Version.init k { width := some n }) &&
    gives (Version.init k { width := some n, height := some n }) (fun _ => true) &&
    raises .machine (Version.init k { height := some n })) = true := by decide +kernel

/-- `test_set_max_lower` of the four files -/
example : Version.init .v3 { maxSdram := some 1000, maxMachineCore := some 10 } = .ok ⟨.v3, 10, 1000⟩ ∧
    Version.init .v5 { maxSdram := some 1000, maxMachineCore := some 10 } = .ok ⟨.v5, 10, 1000⟩ ∧
    Version.init .v201 { maxSdram := some 1000, maxMachineCore := some 100 } = .ok ⟨.v201, 100, 1000⟩ ∧
    Version.init .v248 { maxSdram := some 1000, maxMachineCore := some 100 } = .ok ⟨.v248, 100, 1000⟩ := by
  decide +kernel

/-- `test_expected_xys` and `test_expected_chip_core_map` of the four files:
class, number of chips, sides of the board, least and greatest number of cores -/
example : [(VKind.v3, (4 : Nat), (2 : Int), (16 : Int), (18 : Int)), (.v5, 48, 8, 16, 18), (.v201, 1, 1, 152, 153),
      (.v248, 48, 8, 151, 153)].all (fun (k, n, side, lo, hi) =>
    decide (k.expectedXys.length = n ∧ k.expectedXys.Nodup) &&
    k.expectedXys.all (fun (x, y) => decide (0 ≤ x ∧ 0 ≤ y ∧ x < side ∧ y < side)) &&
    k.chipCoreMap.values.all (fun c => decide (lo ≤ c ∧ c ≤ hi))) = true := by decide +kernel

/-- `test_get_potential_ethernet_chips` of the four files -/
example : ([((0 : Int), (0 : Int)), (2, 2), (8, 8), (12, 12), (16, 16)].all (fun (w, h) =>
      decide (VKind.v3.potentialEthernetChips w h = [(0, 0)] ∧
        VKind.v201.potentialEthernetChips w h = [(0, 0)]))) = true ∧
    [VKind.v5, .v248].all (fun k => decide (
      k.potentialEthernetChips 8 8 = [(0, 0)] ∧ k.potentialEthernetChips 12 12 = [(0, 0), (4, 8), (8, 4)] ∧
      k.potentialEthernetChips 16 16 = [(0, 0), (4, 8), (8, 4)] ∧
      k.potentialEthernetChips 2 2 = [(0, 0)] ∧ k.potentialEthernetChips 0 0 = [(0, 0)])) = true := by
  decide +kernel

/-- is `(w, h)` accepted by `verify_size`; a refusal must be a `SpinnMachineException` -/
def accepted (k : VKind) (w h : Option Int) : Option Bool :=
  match k.verifySize w h with
  | .ok _ => some true
  | .error .machine => some false
  | .error _ => none

/-- the sizes refused by every version in the four `test_verify_size` -/
example : [VKind.v3, .v5, .v201, .v248].all (fun k =>
    [((some 12 : Option Int), (some (-12) : Option Int)), (some (-12), some 12), (some 12, none), (none, some 12),
      (some 12, some 8), (some 8, some 12)].all (fun (w, h) => decide (accepted k w h = some false)))
    = true := by decide +kernel

/-- `test_verify_size` of the four files, the other sizes -/
example : ([((1 : Int), (1 : Int)), (2, 2), (8, 8), (4, 16), (16, 4), (12, 12), (12, 16), (16, 12), (16, 16), (16, 20),
      (20, 16)].map fun (w, h) => [VKind.v3, .v201, .v5, .v248].map (fun k => accepted k (some w) (some h))) =
    [[some false, some true, some false, some false], [some true, some false, some false, some false],
     [some false, some false, some true, some true], [some false, some false, some false, some false],
     [some false, some false, some false, some false], [some false, some false, some true, some true],
     [some false, some false, some true, some true], [some false, some false, some true, some true],
     [some false, some false, some true, some true], [some false, some false, some true, some true],
     [some false, some false, some true, some true]] := by decide +kernel

/-- `test_create_machine` of the four files -/
example : gives (createMachine .v5 (some 8) (some 8) "") (fun m => decide (m.wrap = .none)) &&
    gives (createMachine .v5 (some 16) (some 16) "") (fun m => decide (m.wrap = .none)) &&
    gives (createMachine .v5 (some 12) (some 16) "") (fun m => decide (m.wrap = .horizontal)) &&
    gives (createMachine .v5 (some 16) (some 12) "") (fun m => decide (m.wrap = .vertical)) &&
    gives (createMachine .v5 (some 12) (some 12) "") (fun m => decide (m.wrap = .full)) &&
    gives (createMachine .v3 (some 2) (some 2) "") (fun m => decide (m.wrap = .full)) &&
    gives (createMachine .v201 (some 1) (some 1) "") (fun m => decide (m.wrap = .none)) &&
    gives (createMachine .v248 (some 8) (some 8) "") (fun m => decide (m.wrap = .none)) = true := by decide +kernel

/-- `test_size_from_n_cores` of `test_version5.py` -/
example : let n : Int := 17 * 48 - 8
    [10, n, n + 1, n * 3, n * 4, n * 6, n * 7, n * 12, n * 13, n * 18, n * 18 + 1].map (VKind.v5.sizeFromNCores 0 0) =
    [.ok (8, 8), .ok (8, 8), .ok (16, 16), .ok (16, 16), .ok (28, 16), .ok (28, 16), .ok (28, 28), .ok (28, 28),
     .ok (40, 28), .ok (40, 28), .ok (40, 40)] := by decide +kernel
/-- `test_size_from_n_chips` of `test_version5.py`, `test_size_from_n_cores` and
`test_size_from_n_chips` of `test_version3.py` -/
example : [1, 48, 49].map VKind.v5.sizeFromNChips = [.ok (8, 8), .ok (8, 8), .ok (16, 16)] ∧
    [10, 17 * 4, 17 * 4 + 1].map (VKind.v3.sizeFromNCores 0 0) = [.ok (2, 2), .ok (2, 2), .error .machine] ∧
    [1, 4, 5].map VKind.v3.sizeFromNChips = [.ok (2, 2), .ok (2, 2), .error .machine] := by decide +kernel

/-! ### `test_spinnaker_triad_geometry.py` -/

/-- `delta_table` of `test_geom`, `test_spinnaker_triad_geometry.py` 28-56 ("produced using the
code in Rig") -/
def deltaTable : List (List XY) :=
  [[(0, 0), (-1, 0), (-2, 0), (-3, 0), (-4, 0), (-1, -4),
    (-2, -4), (-3, -4), (-4, -4), (-5, -4), (-6, -4), (-7, -4)],
   [(0, -1), (-1, -1), (-2, -1), (-3, -1), (-4, -1), (-5, -1),
    (-2, -5), (-3, -5), (-4, -5), (-5, -5), (-6, -5), (-7, -5)],
   [(0, -2), (-1, -2), (-2, -2), (-3, -2), (-4, -2), (-5, -2),
    (-6, -2), (-3, -6), (-4, -6), (-5, -6), (-6, -6), (-7, -6)],
   [(0, -3), (-1, -3), (-2, -3), (-3, -3), (-4, -3), (-5, -3),
    (-6, -3), (-7, -3), (-4, -7), (-5, -7), (-6, -7), (-7, -7)],
   [(-4, 0), (-1, -4), (-2, -4), (-3, -4), (-4, -4), (-5, -4),
    (-6, -4), (-7, -4), (0, 0), (-1, 0), (-2, 0), (-3, 0)],
   [(-4, -1), (-5, -1), (-2, -5), (-3, -5), (-4, -5), (-5, -5),
    (-6, -5), (-7, -5), (0, -1), (-1, -1), (-2, -1), (-3, -1)],
   [(-4, -2), (-5, -2), (-6, -2), (-3, -6), (-4, -6), (-5, -6),
    (-6, -6), (-7, -6), (0, -2), (-1, -2), (-2, -2), (-3, -2)],
   [(-4, -3), (-5, -3), (-6, -3), (-7, -3), (-4, -7), (-5, -7),
    (-6, -7), (-7, -7), (0, -3), (-1, -3), (-2, -3), (-3, -3)],
   [(-4, -4), (-5, -4), (-6, -4), (-7, -4), (0, 0), (-1, 0),
    (-2, 0), (-3, 0), (-4, 0), (-1, -4), (-2, -4), (-3, -4)],
   [(-4, -5), (-5, -5), (-6, -5), (-7, -5), (0, -1), (-1, -1),
    (-2, -1), (-3, -1), (-4, -1), (-5, -1), (-2, -5), (-3, -5)],
   [(-4, -6), (-5, -6), (-6, -6), (-7, -6), (0, -2), (-1, -2),
    (-2, -2), (-3, -2), (-4, -2), (-5, -2), (-6, -2), (-3, -6)],
   [(-4, -7), (-5, -7), (-6, -7), (-7, -7), (0, -3), (-1, -3),
    (-2, -3), (-3, -3), (-4, -3), (-5, -3), (-6, -3), (-7, -3)]]

/-- `test_geom`, 26-68 -/
example : (List.range 12).map (fun y => (List.range 12).map fun x =>
      Geometry.spinn5.localChipCoordinate (x : Nat) (y : Nat) 0 0) =
    deltaTable.map (fun row => row.map fun (px, py) => .ok (-px, -py)) := by decide +kernel

/-- `test_get_potential_ethernet_chips`, 70-79 -/
example : [((2 : Int), (2 : Int)), (8, 8), (12, 12), (16, 16), (20, 20), (24, 24), (16, 12)].map
      (fun (w, h) => (Geometry.spinn5.potentialEthernetChips w h).length) = [1, 1, 3, 3, 6, 12, 3] ∧
    (0, 12) ∈ Geometry.spinn5.potentialEthernetChips 20 20 := by decide +kernel

/-- `test_concentric_xys`, `test_machine.py` 385-395 -/
example : Wrap.concentricXys .none 8 8 2 (2, 2) =
    [(2, 2), (2, 1), (3, 2), (3, 3), (2, 3), (1, 2), (1, 1), (2, 0), (3, 1), (4, 2), (4, 3), (4, 4), (3, 4),
     (2, 4), (1, 3), (0, 2), (0, 1), (0, 0), (1, 0)] := by decide +kernel

/-! ### `data/test_data.py` -/

/-- the configuration of a unit test that sets `version`; `mocked` as after `unittest_setup` -/
def envOf (version : Option Int) (mocked : Bool) : Env :=
  { minor := 11, cfg := { version }, down := {}, userMode := false, softReset := false, mocked
    gens := fun _ => ⟨[], none⟩ }

/-- what a series of calls returns -/
def outs (env : Env) : DView → List Call → List (Except PyErr Out)
  | _, [] => []
  | s, c :: cs => let r := s.call env c; r.2 :: outs env r.1 cs

/-- `test_setup`, `data/test_data.py` 32-39 -/
example : raises .dataNotYetAvailable ((DView.new.call (envOf none false) .setup).1.getMachine (envOf none false)).2 &&
    raises .dataNotYetAvailable ((DView.new.call (envOf none false) .setup).1.getChipAt (envOf none false) 1 1).2
    = true := by decide +kernel

/-- `test_mock`, 41-44, and `test_mock3`, `test_mock201` -/
example :
    gives ((DView.new.call (envOf (some 5) true) .mock).1.getChipAt (envOf (some 5) true) 3 5).2
      (fun c => decide (c.x = 3)) &&
    gives ((DView.new.call (envOf (some 5) true) .mock).1.getMachine (envOf (some 5) true)).2
      (fun m => decide (m.nChips = 48)) &&
    gives ((DView.new.call (envOf (some 3) true) .mock).1.getMachine (envOf (some 3) true)).2
      (fun m => decide (m.nChips = 4)) &&
    gives ((DView.new.call (envOf (some 201) true) .mock).1.getMachine (envOf (some 201) true)).2
      (fun m => decide (m.nChips = 1)) = true := by decide +kernel

/-- `test_machine`, 46-61 -/
example : gives (virtualMachine v3 {} 2 2 true) (fun m =>
    let s := DView.new.calls (envOf (some 3) false) [.setup, .setMachine (some m), .setMachine none]
    gives (s.getMachine (envOf (some 3) false)).2 (fun m => decide (m.nChips = 4)) &&
    gives (s.getChipAt (envOf (some 3) false) 1 0).2 (fun c => decide (c.x = 1)) &&
    raises .keyError (s.getChipAt (envOf (some 3) false) 4 4).2 &&
    decide (outs (envOf (some 3) false) DView.new [.setup, .hasMachine, .setMachine (some m), .setMachine none, .hasMachine]
      = [.ok .unit, .ok (.bool false), .ok .unit, .error .typeError, .ok (.bool true)])) = true := by
  decide +kernel

/-- `test_where_is_setup`, 82-104 (and `test_where_is_mocked`) -/
example : DView.new.whereIsXY 1 0 = "No Machine created yet".toList := by decide +kernel
/-- the same tests, with a machine -/
example : gives (virtualMachine v5 {} 12 12 true) (fun m =>
    let s : DView := { DView.new with machine := some m }
    gives (m.chips.getE (2, 8)) (fun c =>
      decide (s.whereIsChip c = "global chip 2, 8 on 127.0.0.0 is chip 6, 4 on 127.0.8.4".toList)) &&
    decide (s.whereIsXY 11 11 = "global chip 11, 11 on 127.0.0.0 is chip 7, 3 on 127.0.4.8".toList) &&
    decide (s.whereIsXY (-1) 11 = "No chip -1, 11 found".toList)) = true := by
  decide +kernel

/-- `test_v_to_p_spin1`, 106-131 -/
example : outs (envOf (some 5) false) DView.new
    [.setup, .physicalCore (1, 2) 3, .physicalString (1, 2) 3, .setVToP ⟨[((1, 2), [10, 11, 12, 13, 14])]⟩,
     .physicalCore (1, 2) 3, .physicalString (1, 2) 3, .physicalCore (1, 4) 3, .physicalString (1, 4) 3,
     .physicalCore (1, 2) 19, .physicalString (1, 2) 19] =
    [.ok .unit, .error .dataNotYetAvailable, .ok (.text []), .ok .unit, .ok (.int 13),
     .ok (.text " (ph: 13)".toList), .error .keyError, .ok (.text []), .error .indexError, .ok (.text [])] := by
  decide +kernel

/-- `test_v_to_p_spin2`, 133-145 -/
example : outs (envOf (some 248) false) DView.new
    [.setup, .physicalQuad 3, .physicalString (1, 2) 3, .physicalQuad 234, .physicalString (1, 2) 234] =
    [.ok .unit, .ok (.quad (7, 6, 2)), .ok (.text " (qpe:7, 6, 2)".toList), .error .keyError, .ok (.text [])] := by
  decide +kernel

/-- `test_get_monitors`, 182-192 -/
example : outs (envOf none false) DView.new
    [.setup, .allMonitors, .ethernetMonitors, .addMonitor true, .allMonitors, .ethernetMonitors,
     .addMonitor false, .addMonitor true, .allMonitors, .ethernetMonitors] =
    [.ok .unit, .ok (.int 0), .ok (.int 0), .ok .unit, .ok (.int 1), .ok (.int 1), .ok .unit, .ok .unit,
     .ok (.int 2), .ok (.int 3)] := by decide +kernel

end SpiNN.Conformance
