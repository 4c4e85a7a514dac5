import Verif.Model.Texts
import Verif.Model.Describe
import Verif.Model.Equality
import Verif.Model.VersionFactory
import Verif.Model.Tags

/-!
# Conformance of the model with the project's unit tests: small objects

The project's unit tests pass on the real code, so each value they expect is a fact about the
program. The examples here evaluate the *model* on the inputs of those tests and compare with the
expected values. They are tests of the model's fidelity, not proofs of properties: no theorem
rests on them and none is listed in the manifest. Every example cites the unit test it restates
(paths are relative to `/repo/unittests`).
-/

namespace SpiNN.Conformance

/-- did the call raise this exception? -/
def raises {α : Type} (e : PyErr) : Except PyErr α → Bool
  | .error e' => decide (e' = e)
  | .ok _ => false

/-- a check of the returned value -/
def gives {α : Type} (r : Except PyErr α) (p : α → Bool) : Bool :=
  match r with
  | .ok a => p a
  | .error _ => false

/-! ### `test_router.py` -/

/-- the links of `test_router.py` 26-30, `test_chip.py` 34-38 and `test_machine.py` 43-47 -/
def links4 : List Link :=
  [⟨0, 0, 0, 1, 1⟩, ⟨0, 1, 1, 1, 0⟩, ⟨1, 1, 2, 0, 0⟩, ⟨1, 0, 3, 0, 1⟩]

/-- `test_creating_new_router`, `test_router.py` 25-65 -/
example : gives (Router.mk' links4 1024) (fun r =>
    decide (r.len = 4) &&
    (pyRange 4).all (fun i => r.isLink i && decide (r.getLink i = links4[i.toNat]?)) &&
    decide (r.iter.map (·.1) = [0, 1, 2, 3]) &&
    decide (r.iter.map (·.2.sourceLinkId) = [0, 1, 2, 3]) &&
    decide (r.nEntries = 1024) &&
    !r.isLink (-1) && !r.isLink 5 && decide (r.getLink (-1) = none) && decide (r.getLink 5 = none) &&
    decide (r.neighbours = [(1, 1), (1, 0), (0, 0), (0, 1)]) &&
    decide (r.toStr = ("[Router: available_entries=1024, links=[" ++
      "[Link: source_x=0, source_y=0, source_link_id=0, destination_x=1, destination_y=1], " ++
      "[Link: source_x=0, source_y=1, source_link_id=1, destination_x=1, destination_y=0], " ++
      "[Link: source_x=1, source_y=1, source_link_id=2, destination_x=0, destination_y=0], " ++
      "[Link: source_x=1, source_y=0, source_link_id=3, destination_x=0, destination_y=1]]]").toList))
    = true := by decide +kernel

/-- `test_creating_new_router_with_duplicate_links`, `test_router.py` 67-73 -/
example : raises .alreadyExists (Router.mk' [⟨0, 0, 0, 0, 1⟩, ⟨0, 1, 0, 0, 1⟩] 1024) = true := by
  decide +kernel

/-! ### `test_chip.py` -/

/-- the address used in `test_chip.py` 41 and `test_machine.py` 52 -/
def ip253 : PyStr := "192.162.240.253".toList

/-- the chip of `test_create_chip`, `test_chip.py` 43-63 -/
example : gives (Router.mk' links4 1024) (fun r =>
    let c := Chip.mk' 0 1 [0] (pyRange2 1 18) r 128 0 0 (some ip253) none none
    decide (c.xy = (0, 1) ∧ c.x = 0 ∧ c.y = 1 ∧ c.ip = some ip253 ∧ c.sdram = 128 ∧ c.router = r ∧
      c.nPlacable = 17 ∧
      c.toStr = "[Chip: x=0, y=1, ip_address=192.162.240.253 n_cores=18]".toList ∧
      c.tags = [1, 2, 3, 4, 5, 6, 7] ∧ c.isProcessorWithId 3 = true) &&
    -- `test_processors`, 76-84
    decide ((c.allProcessorIds.length : Int) = c.nProcessors ∧
      (c.placable.length : Int) = c.nPlacable) &&
    c.allProcessorIds.all (fun p => decide (p ∈ c.placable ∨ p ∈ c.scamp)))
    = true := by decide +kernel

/-! ### `test_coresubset.py`, `test_coresubsets.py`, `test_frozencoresubsets.py` -/

/-- `test_coresubset`, `test_coresubset.py` 19-34 -/
example : (let s := CoreSubset.mk' 0 0 [1, 2, 3]
    decide (s.len = 3 ∧ s.x = 0 ∧ s.y = 0 ∧ s.contains 2 = true ∧ (s.add 3).len = 3 ∧
      ((s.add 3).add 4).len = 4 ∧ ((s.add 3).add 4).processorIds = [1, 2, 3, 4])) = true := by
  decide +kernel

/-- `test_equals`, `test_coresubset.py` 37-43 -/
example : (let s := CoreSubset.mk' 0 0 [1, 2, 3]
    s.eq (CoreSubset.mk' 0 0 [1, 2, 3]) && !s.eq (CoreSubset.mk' 0 1 [1, 2, 3]) &&
      !s.eq (CoreSubset.mk' 0 0 [1])) = true := by decide +kernel

/-- the subsets made one after another in a world -/
def newSubsets (w : CoreWorld) : List CoreSubset → CoreWorld
  | [] => w
  | s :: l => newSubsets (w.newSubset s).2 l

/-- `test_coresubsets`, `test_coresubsets.py` 19-36: group 0, then subsets 1 and 2 (the group makes
subset 0 itself) -/
example : (let w0 := (CoreWorld.empty.newGroup false []).2
    let w1 := w0.groupAdd 0 0 0 1
    let (a, w2) := w1.newSubset (CoreSubset.mk' 0 0 [1])
    let w3 := w2.groupAddSubset 0 a
    let (b, w4) := w3.newSubset (CoreSubset.mk' 1 0 [1, 2])
    let w5 := w4.groupAddSubset 0 b
    decide (w0.len 0 = 0 ∧ w1.len 0 = 1 ∧ w3.len 0 = 1 ∧ w5.len 0 = 3 ∧ w5.isChip 0 1 0 = true ∧
      w5.isCore 0 0 0 1 = true ∧ w5.isCore 0 2 0 1 = false ∧ w5.isChip 0 3 1 = false ∧
      w5.isCore 0 0 0 14 = false)) = true := by decide +kernel

/-- the world with the five subsets of `test_multiple`, `test_iter` and `test_values` -/
def fiveSubsets : CoreWorld := newSubsets .empty
  [.mk' 0 0 [1, 2, 3], .mk' 0 0 [4, 5, 6], .mk' 0 1 [1, 2, 3], .mk' 0 0 [1, 2, 3],
   .mk' 0 0 [1, 2, 3, 4]]

/-- `test_multiple`, `test_iter`, `test_values`, `test_coresubsets.py` 39-66 and 92-101 -/
example : (let w := (fiveSubsets.newGroup false [0, 1, 2, 3, 4]).2
    w.isChip 0 0 1 && w.isCore 0 0 0 6 && decide ((w.grps 0).toStr = "(0, 0)(0, 1)".toList) &&
      gives (w.getItem 0 0 1) (fun a => (w.subs a).eq (.mk' 0 1 [1, 2, 3])) &&
      (w.iter 0).all (fun a => (w.subs a).contains 3) && decide ((w.iter 0).length = 2) &&
      decide (((w.getSubset 0 1 0).2.subs (w.getSubset 0 1 0).1).len = 0)) = true := by decide +kernel

/-- the eight subsets of `test_interest`, `test_coresubsets.py` 71-79, in two groups -/
def eightSubsets : CoreWorld :=
  ((newSubsets .empty
      [.mk' 0 0 [1, 2, 3], .mk' 0 1 [1, 2, 3], .mk' 1 1 [1], .mk' 2 2 [1],
       .mk' 0 0 [2, 3, 5], .mk' 1 0 [1, 2, 3], .mk' 1 1 [9, 7, 1, 5], .mk' 2 2 [2]]).newGroup
    false [0, 1, 2, 3]).2.newGroup false [4, 5, 6, 7] |>.2

/-- `test_interest`, `test_coresubsets.py` 69-89 -/
example : (gives (eightSubsets.intersect 0 1) (fun (r, w3) =>
      w3.isCore r 0 0 2 && w3.isCore r 0 0 3 && w3.isCore r 1 1 1 &&
      decide (w3.len 0 = 8 ∧ w3.len 1 = 11 ∧ w3.len r = 3 ∧
        (w3.grps r).toStr = "(0, 0)(1, 1)".toList))) = true := by decide +kernel

/-- `test_multiple`, `test_frozencoresubsets.py` 22-39 -/
example : (let w := (fiveSubsets.newGroup true [0, 1, 2]).2
    w.isChip 0 0 1 && w.isCore 0 0 0 6 && decide ((w.grps 0).toStr = "(0, 0)(0, 1)".toList) &&
      gives (w.getItem 0 0 1) (fun a => (w.subs a).eq (.mk' 0 1 [1, 2, 3])) &&
      raises .runtimeError (w.addCoreSubset 0 3) && raises .runtimeError (w.addCoreSubsets 0 [3, 4]) &&
      raises .runtimeError (w.addProcessor 0 1 2 3)) = true := by decide +kernel

/-! ### `test_ignore_cores.py` -/

/-- `test_bad_ignores`, `test_down_cores_bad_string`, `test_ignore_cores.py` 32-57 (which exception
is not tested for the first ones) -/
example : (match IgnoreChip.parseString (some "4,4,3,4:6,6,ignored_ip".toList) with
      | .ok _ => false
      | .error _ => true) = true ∧
    (match IgnoreCore.parseString .v5 (some "3,3,3,4: 5,5,-5:7,7,7,ignored_ip".toList) with
      | .ok l => l.length == 3
      | .error _ => true) = true ∧
    IgnoreCore.parseString .v5 none = .ok [] ∧
    (match IgnoreLink.parseString (some "1,3:5,3,3,ignored_ip".toList) with
      | .ok _ => false
      | .error _ => true) = true ∧
    raises .configError (IgnoreCore.parseString .v5 (some "4,4,bacon".toList)) = true ∧
    raises .configError (IgnoreCore.parseString .v248 (some "4,4,bacon".toList)) = true := by
  decide +kernel

/-- `test_qx_qy_qp_to_id_spin2`, `test_qx_qy_qp_to_spin1`, `test_version_401`,
`test_ignore_cores.py` 59-76 -/
example : VKind.v201.qxQyQpToId 3 4 2 = .ok 75 ∧ VKind.v201.idToQxQyQp 75 = .ok (3, 4, 2) ∧
    VKind.v5.qxQyQpToId 3 4 2 = .error .machine ∧ VKind.v5.idToQxQyQp 75 = .error .machine ∧
    gives (IgnoreCore.parseString .v201 (some "0,0,3.4.2".toList)) (fun l =>
      decide (l.length = 1) && l.all (fun c => decide (c.p = 75 ∧ c.virtualP = .ok 75))) = true := by
  decide +kernel

/-! ### `test_routing_entry.py`, `test_multicast_routing_entry.py` -/

/-- `test_creating_new_routing_entry`, `test_routing_entry.py` 26-45 and
`test_creating_new_multicast_routing_entry`, `test_multicast_routing_entry.py` 27-53 -/
example : gives (RoutingEntry.mk' (some (.many (pyRange 18))) (some (.many (pyRange 6)))) (fun e =>
    decide (e.linkIds = pyRange 6 ∧ e.processorIds = pyRange 18 ∧
      e.toStr = ("{0, 1, 2, 3, 4, 5, 6, 7, 8, 9, 10, 11, 12, 13, 14, 15, 16, 17}:" ++
        "{0, 1, 2, 3, 4, 5}").toList) &&
    gives (MulticastRoutingEntry.mk' 1 1 e) (fun m =>
      decide (m.key = 1 ∧ m.mask = 1 ∧ m.linkIds = pyRange 6 ∧ m.processorIds = pyRange 18 ∧
        m.toStr = ("0x00000001:0x00000001:" ++
        "{0, 1, 2, 3, 4, 5, 6, 7, 8, 9, 10, 11, 12, 13, 14, 15, 16, 17}:" ++
        "{0, 1, 2, 3, 4, 5}").toList))) = true := by decide +kernel

/-- `test_defualtable_routing_entry`, `test_routing_entry.py` 47-60;
`test_creating_defaulatble_multicast_routing_entry`, `test_multicast_routing_entry.py` 55-77 -/
example : gives (RoutingEntry.mk' (some (.many [])) (some (.many [4])) none (some 1)) (fun e =>
      decide (e.linkIds = [4] ∧ e.processorIds = [] ∧ e.toStr = "{}:{4}(defaultable)".toList)) = true ∧
    gives (RoutingEntry.mk' (some (.many [])) (some (.many [2])) none (some 5)) (fun e =>
      gives (MulticastRoutingEntry.mk' 1 1 e) (fun m =>
        decide (m.linkIds = [2] ∧ m.processorIds = [] ∧
          m.toStr = "0x00000001:0x00000001:{}:{2}(defaultable)".toList))) = true := by decide +kernel

/-- `test_spinnaker_route`, `test_routing_entry.py` 62-71 and `test_multicast_routing_entry.py` 83-94 -/
example : gives (RoutingEntry.mk' (some (.many [1, 3, 4, 16])) (some (.many [2, 3, 5]))) (fun e =>
      decide (e.route = 4196012) &&
      gives (MulticastRoutingEntry.mk' 1 1 e) (fun m => decide (m.spinnakerRoute = 4196012))) = true ∧
    gives (RoutingEntry.mk' (spinnakerRoute := some 4196012)) (fun e =>
      decide (e.processorIds = [1, 3, 4, 16] ∧ e.linkIds = [2, 3, 5] ∧
        e.readLinks.2.processorIds = [1, 3, 4, 16])) = true := by decide +kernel

/-- `test_merger`, `test_routing_entry.py` 73-101 and `test_multicast_routing_entry.py` 96-130 -/
example : gives (RoutingEntry.mk' (some (.many (pyRange 9))) (some (.many (pyRange 3)))) (fun a =>
    gives (RoutingEntry.mk' (some (.many (pyRange2 9 18))) (some (.many (pyRange2 3 6)))) (fun b =>
      gives (a.merge b) (fun r => decide (r.linkIds = pyRange 6 ∧ r.processorIds = pyRange 18)) &&
      gives (MulticastRoutingEntry.mk' 1 1 a) (fun ma =>
        gives (MulticastRoutingEntry.mk' 1 1 b) (fun mb =>
          gives (ma.merge mb) (fun r => decide (r.key = 1 ∧ r.mask = 1 ∧ r.linkIds = pyRange 6 ∧
            r.processorIds = pyRange 18)))))) = true := by decide +kernel

/-- `test_merger_with_different_defaultable`, `test_routing_entry.py` 103-114 -/
example : gives (RoutingEntry.mk' (some (.many [])) (some (.many [1])) none (some 4)) (fun a =>
    gives (RoutingEntry.mk' (some (.many [])) (some (.many [1])) none (some 5)) (fun b =>
      gives (a.merge b) (fun r => decide (r.linkIds = [1] ∧ r.processorIds = [] ∧ r.eq a = false ∧
        r.hash ≠ a.hash)))) = true := by decide +kernel

/-- `test_merger_with_different_defaultable`, `test_multicast_routing_entry.py` 132-149 -/
example : gives (RoutingEntry.mk' (some (.many [])) (some (.many [3])) none (some 6)) (fun a =>
    gives (RoutingEntry.mk' (some (.many [])) (some (.many [3])) none (some 4)) (fun b =>
      gives (MulticastRoutingEntry.mk' 1 1 a) (fun ma =>
        gives (MulticastRoutingEntry.mk' 1 1 b) (fun mb =>
          gives (ma.merge mb) (fun r => decide (ma.defaultable = true ∧ mb.defaultable = false ∧
            r.key = 1 ∧ r.linkIds = [3] ∧ r.mask = 1 ∧ r.processorIds = [] ∧
            r.defaultable = false)))))) = true := by decide +kernel

/-- `test_bad_key_mask`, `test_merger_with_invalid_parameter_key`,
`test_merger_with_invalid_parameter_mask`, `test_multicast_routing_entry.py` 79-81, 151-198 -/
example : gives (RoutingEntry.mk' (some (.many (pyRange 9))) (some (.many (pyRange 3)))) (fun a =>
    gives (RoutingEntry.mk' (some (.many (pyRange2 9 18))) (some (.many (pyRange2 3 6)))) (fun b =>
      raises .invalidParameter (MulticastRoutingEntry.mk' 1 2 a) &&
      gives (MulticastRoutingEntry.mk' 1 1 a) (fun m1 =>
        gives (MulticastRoutingEntry.mk' 2 2 a) (fun m2 => raises .invalidParameter (m1.merge m2))) &&
      gives (MulticastRoutingEntry.mk' 0 2 a) (fun m1 =>
        gives (MulticastRoutingEntry.mk' 0 4 b) (fun m2 =>
          !m1.eq m2 && raises .invalidParameter (m1.merge m2))))) = true := by decide +kernel

/-! ### `test_version_factory.py`, `version/test_version_string.py` -/

/-- some setting that is present -/
def somewhere : Option PyStr := some "Somewhere".toList

/-- did `version_factory` give this version? -/
def factoryGives (cfg : MachineCfg) (k : VKind) : Bool :=
  gives (VersionFactory.versionFactory 11 cfg) (fun v => decide (v.kind = k))

/-- `test_version_factory.py` 28-91 -/
example : raises .machine (VersionFactory.versionFactory 11 {}) = true ∧
    raises .machine (VersionFactory.versionFactory 11 { version := some 3, spallocServer := somewhere })
      = true ∧
    factoryGives { version := some 4, spallocServer := somewhere } .v5 = true ∧
    factoryGives { spallocServer := somewhere } .v5 = true ∧
    factoryGives { version := some 4, remoteSpinnakerUrl := somewhere } .v5 = true ∧
    raises .machine (VersionFactory.versionFactory 11
      { spallocServer := somewhere, remoteSpinnakerUrl := somewhere }) = true ∧
    raises .machine (VersionFactory.versionFactory 11
      { spallocServer := somewhere, machineName := somewhere }) = true ∧
    raises .machine (VersionFactory.versionFactory 11
      { spallocServer := somewhere, virtualBoard := true }) = true ∧
    raises .machine (VersionFactory.versionFactory 11
      { remoteSpinnakerUrl := somewhere, machineName := somewhere }) = true ∧
    raises .machine (VersionFactory.versionFactory 11
      { remoteSpinnakerUrl := somewhere, virtualBoard := true }) = true ∧
    raises .machine (VersionFactory.versionFactory 11
      { machineName := somewhere, virtualBoard := true }) = true := by decide +kernel

/-- `test_names`, `version/test_version_string.py` 29-35 -/
example : gives (VersionStrings.fromString "any".toList) (fun v => decide (v.text = "Any".toList)) = true ∧
    gives (VersionStrings.fromString "FourPlus".toList) (fun v => decide (v.text = "Four plus".toList))
      = true ∧
    raises .machine (VersionStrings.fromString "Foo".toList) = true := by decide +kernel

/-! ### `test_link_data.py`, `tag_tests` -/

/-- `test_link_data.py` 25-62: the fields and equality (a comparison with a string is not
modelled; with an object of the other class it is false) -/
example : (let a : FpgaLinkData := ⟨1, 2, 3, 4, 5, "somehost".toList⟩
    let b : FpgaLinkData := ⟨1, 2, 3, 4, 6, "somehost".toList⟩
    let c : SpinLinkData := ⟨2, 3, 4, 5, "somehost".toList⟩
    let d : SpinLinkData := ⟨2, 3, 4, 6, "somehost".toList⟩
    decide (a.board = "somehost".toList ∧ a.x = 3 ∧ a.y = 4 ∧ a.link = 5 ∧ a.fpgaId = 2 ∧
      a.fpgaLinkId = 1 ∧ c.board = "somehost".toList ∧ c.x = 3 ∧ c.y = 4 ∧ c.link = 5 ∧
      c.linkId = 2) &&
    a.eq a && !a.eq b && c.eq c && !c.eq d && !pyEq (.fpgaLink a) (.spinLink c)) = true := by
  decide +kernel

/-- `tag_tests/test_iptag.py` 27-98: the defaults, the text and equality -/
example : (let t := IPTag.mk' [] 0 0 0 [] 1
    decide (t.boardAddress = [] ∧ t.ipAddress = [] ∧ t.tag = 0 ∧ t.port = 1 ∧ t.stripSdp = false ∧
      (IPTag.mk' "localhost".toList 1 2 3 "abc".toList 4 true).toStr =
        ("IPTag(board_address=localhost, destination_x=1, destination_y=2, tag=3, port=4, " ++
        "ip_address=abc, strip_sdp=True, traffic_identifier=DEFAULT)").toList ∧
      t.eq (IPTag.mk' [] 0 0 0 [] 1) = true ∧
      t.eq (IPTag.mk' [] 0 0 0 [] 1 (trafficIdentifier := "FOO".toList)) = false)) = true := by
  decide +kernel

/-- `tag_tests/test_reverse_iptag.py` 30-112 -/
example : (let t := ReverseIPTag.mk' [] 0 1 0 0 1
    decide (t.boardAddress = [] ∧ t.tag = 0 ∧ t.port = 1 ∧ t.destX = 0 ∧ t.destY = 0 ∧ t.destP = 1 ∧
      t.sdpPort = 1 ∧
      (ReverseIPTag.mk' "somewhere.local".toList 2 3 4 5 6).toStr =
        ("ReverseIPTag(board_address=somewhere.local, tag=2, port=3, destination_x=4, " ++
        "destination_y=5, destination_p=6, sdp_port=1)").toList)) = true := by decide +kernel

end SpiNN.Conformance
