import Verif.Conformance.Versions
-- imported only so that the modules which need much memory are built one after another
import Verif.Props.BoardRoute

/-!
# Conformance of the model with the project's unit tests: three board machines

See `Conformance/Objects.lean`: these are tests of the model against the values the project's own
unit tests expect, not proofs of properties.
-/

-- one example at a time, to keep the memory of the build small
set_option Elab.async false

namespace SpiNN.Conformance

/-- `test_version_5_12_by_12`, `test_virtual_machine5.py` 155-172, `test_virtual_machine248.py` 137-150;
`test_boot_chip` and `test_n_cores_full_wrap`, `test_virtual_machine_48chips.py` 117-121, 399-410 -/
example : gives (virtualMachine v5 {} 12 12 true) (fun m =>
    decide (m.nChips = 144 ∧ m.ethernetChips.length = 3 ∧ directedLinks m = 864 ∧ m.spinLinks.items = [] ∧ m.nFpgaLinks = (8 * 6 * 3 - 3) * 3) &&
    gives (m.getItem (1, 1)) (fun c => decide ((m.existingXysOnBoard c).length = 48)) &&
    gives m.bootChip (fun c => decide (c.xy = (0, 0))) &&
    decide (((m.xyCoresByEthernet 0 0).map (·.2)).sum = 856 ∧
      (m.chipList.map Chip.nProcessors).sum = 856 * 3)) = true := by decide +kernel

/-- `test_version_5_16_by_16`, `test_virtual_machine5.py` 174-196; `test_n_cores_no_wrap`,
`test_virtual_machine_48chips.py` 412-437; `test_machine_get_chips_on_board`, `test_machine.py`
262-276 -/
example : gives (virtualMachine v5 {} 16 16 true) (fun m =>
    m.ethernetChips.all (fun e => decide ((m.existingXysOnBoard e).length = 48)) &&
    raises .keyError (m.getSpinnakerLink 1 none none) &&
    raises .keyError (m.getFpgaLink 3 3 none none) &&
    decide (m.nChips = 144 ∧ m.ethernetChips.length = 3 ∧ directedLinks m = 768 ∧ m.nFpgaLinks = (8 * 6 * 3 - 3) * 3) &&
    gives (m.getItem (1, 1)) (fun c => decide ((m.existingXysOnBoard c).length = 48)) &&
    decide (m.spinLinks.items =
      [((.addr "127.0.0.0".toList, 0), ⟨0, 0, 0, 4, "127.0.0.0".toList⟩),
       ((.xy (0, 0), 0), ⟨0, 0, 0, 4, "127.0.0.0".toList⟩),
       ((.addr "127.0.4.8".toList, 0), ⟨0, 4, 8, 4, "127.0.4.8".toList⟩),
       ((.xy (4, 8), 0), ⟨0, 4, 8, 4, "127.0.4.8".toList⟩)]) &&
    decide (((m.xyCoresByEthernet 0 0).map (·.2)).sum = 856 ∧
      (m.chipList.map Chip.nProcessors).sum = 856 * 3) &&
    decide ((m.getChipAt 3 4).map m.whereIsChip =
      some "global chip 3, 4 on 127.0.0.0 is chip 3, 4 on 127.0.0.0".toList) &&
    gives (m.getItem (11, 12)) (fun c => decide (m.whereIsChip c =
      "global chip 11, 12 on 127.0.0.0 is chip 7, 4 on 127.0.4.8".toList)) &&
    decide (m.whereIsXY 10 5 = "global chip 10, 5 on 127.0.0.0 is chip 2, 1 on 127.0.8.4".toList ∧
      m.whereIsXY 15 15 = "No chip 15, 15 found".toList)) = true := by decide +kernel

/-- the FPGA links of `test_fpga_links_3_board`, `test_virtual_machine5.py` 258-289:
(address, fpga id, fpga link id, x, y, link) -/
def fpga3 : List (String × Int × Int × Int × Int × Int) :=
  [("127.0.0.0", 0, 5, 5, 1, 5), ("127.0.0.0", 0, 12, 2, 0, 4), ("127.0.0.0", 1, 3, 0, 1, 3),
   ("127.0.0.0", 1, 12, 2, 5, 2), ("127.0.0.0", 2, 5, 6, 7, 1), ("127.0.0.0", 2, 12, 7, 5, 0),
   ("127.0.4.8", 0, 2, 10, 10, 0), ("127.0.4.8", 0, 11, 6, 8, 5), ("127.0.4.8", 1, 3, 4, 9, 3),
   ("127.0.4.8", 1, 14, 7, 2, 2), ("127.0.4.8", 2, 5, 10, 3, 1), ("127.0.4.8", 2, 12, 11, 1, 0),
   ("127.0.8.4", 0, 5, 1, 5, 5), ("127.0.8.4", 0, 10, 11, 4, 4), ("127.0.8.4", 1, 1, 8, 4, 3),
   ("127.0.8.4", 1, 12, 10, 9, 2), ("127.0.8.4", 2, 7, 3, 11, 1), ("127.0.8.4", 2, 12, 3, 9, 0)]

/-- `test_fpga_links_3_board`, `test_virtual_machine5.py` 258-289; the `down_links` text is the one
the test builds -/
example : gives (virtualMachine v5 { links := some ("5,1,5:2,0,4:0,1,3:2,5,2:6,7,1:7,5,0:10,10,0:6,8,5:" ++
      "4,9,3:7,2,2:10,3,1:11,1,0:1,5,5:11,4,4:8,4,3:10,9,2:3,11,1:3,9,0").toList } 12 12 true) (fun m =>
    fpga3.all (fun (ip, f, fl, x, y, l) =>
      gives (m.getFpgaLink f fl (some ip.toList) none) (fun d =>
        decide (d.x = x ∧ d.y = y ∧ d.link = l)))) = true := by decide +kernel

/-- the tests of the holes of one wrap, `test_virtual_machine_48chips.py` 207-397 (the tests of the
other three sizes differ only in the coordinates and are left out, to keep the build short) -/
def holes (w h : Int) (hole : List XY) (text : String) : Bool :=
  gives (virtualMachine v5 { chips := some text.toList } w h true) (fun m =>
    [((0 : Int), (0 : Int)), (4, 8), (8, 4)].all (fun (ex, ey) =>
      decide ((m.xysByEthernet ex ey).length = 48) &&
      gives (m.chipsByEthernet ex ey) (fun l => decide (l.length = 46) &&
        l.all (fun c => decide (c.xy ∉ hole))) &&
      decide ((m.existingXysByEthernet ex ey).length = 46) &&
      (m.existingXysByEthernet ex ey).all (fun p => decide (p ∉ hole)) &&
      decide ((m.downXysByEthernet ex ey).length = 2) &&
      (m.downXysByEthernet ex ey).all (fun p => decide (p ∈ hole))))

/-- `test_fullwrap_holes`, `test_virtual_machine_48chips.py` 207-252 -/
example : holes 12 12 [(1, 1), (7, 7), (8, 1), (8, 10), (1, 8), (9, 6)] "1,1:7,7:8,1:8,10:1,8:9,6"
    = true := by decide +kernel
end SpiNN.Conformance
