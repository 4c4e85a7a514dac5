import Verif.Model.Mesh
import Verif.Model.Geometry

/-!
# The version classes

`version/abstract_version.py`, `version_spin1.py`, `version_spin2.py`, `version_48_chips.py`,
`version_3.py`, `version_5.py`, `version_201.py`, `version_248.py`. A version object is its
class (`VKind`) and the two values set in `AbstractVersion.__init__`.
-/

namespace SpiNN

/-- The four concrete classes: `Version3` (`version_3.py` 27), `Version5` (`version_5.py` 35),
`Version201` (`version_201.py` 30), `Version248` (`version_248.py` 39). -/
inductive VKind where
  | v3 | v5 | v201 | v248
  deriving DecidableEq, Repr

/-- the cfg values read by `AbstractVersion.__init__`, section `[Machine]` -/
structure Cfg where
  width : Option Int := none
  height : Option Int := none
  maxMachineCore : Option Int := none
  maxSdram : Option Int := none
  deriving DecidableEq, Repr

/-- `AbstractVersion`, `abstract_version.py` 42-61. -/
structure Version where
  kind : VKind
  maxCores : Int
  maxSdram : Int
  deriving DecidableEq, Repr

namespace VKind

/-- derives from `VersionSpin1` (`version_3.py` 27, `version_5.py` 35) -/
def isSpin1 : VKind → Bool
  | .v3 => true | .v5 => true | .v201 => false | .v248 => false

/-- derives from `Version48Chips` (`version_5.py` 35, `version_248.py` 39) -/
def is48 : VKind → Bool
  | .v3 => false | .v5 => true | .v201 => false | .v248 => true

/-- `number`: `version_3.py` 44-47, `version_5.py` 71-74, `version_201.py` 43-46 and
`version_248.py` 52-55 with the constants of `version_factory.py` 34, 36. -/
def number : VKind → Int
  | .v3 => 3 | .v5 => 5 | .v201 => 201 | .v248 => 248

/-- `name`: `version_3.py` 39-42, `version_5.py` 66-69, `version_201.py` 38-41,
`version_248.py` 47-50. -/
def name : VKind → String
  | .v3 => "Spin1 4 Chip" | .v5 => "Spin1 48 Chip" | .v201 => "Spin2 1 Chip"
  | .v248 => "Spin2 48 Chips"

/-- `board_shape`: `version_3.py` 49-52, `version_48_chips.py` 38-41, `version_201.py` 48-51. -/
def boardShape : VKind → Int × Int
  | .v3 => (2, 2) | .v5 => (8, 8) | .v201 => (1, 1) | .v248 => (8, 8)

/-- `super().__init__` arguments: `version_spin1.py` 70, `version_spin2.py` 77-78. -/
def defaultMaxCores (k : VKind) : Int := if k.isSpin1 then 18 else 153
/-- see `defaultMaxCores` -/
def defaultMaxSdram (k : VKind) : Int := if k.isSpin1 then 123469792 else 1073741824

/-- `n_scamp_cores`: `version_spin1.py` 72-75, `version_spin2.py` 82-85. -/
def nScampCores (k : VKind) : Int := if k.isSpin1 then 1 else 1
/-- `n_router_entries`: `version_spin1.py` 77-80, `version_spin2.py` 87-90. -/
def nRouterEntries (k : VKind) : Int := if k.isSpin1 then 1023 else 16384
/-- `minimum_cores_expected`: `version_spin1.py` 82-85, `version_spin2.py` 92-95. -/
def minimumCores (k : VKind) : Int := if k.isSpin1 then 5 else 100

/-- `clock_speeds_hz`: `version_spin1.py` 87-90, `version_spin2.py` 97-100. -/
def clockSpeeds (k : VKind) : List Int := if k.isSpin1 then [200] else [150, 300]

/-- `dtcm_bytes`: `version_spin1.py` 92-95, `version_spin2.py` 102-105. -/
def dtcmBytes (k : VKind) : Except PyErr Int :=
  if k.isSpin1 then .ok (2 ^ 16) else .error .notImplemented

/-- `supports_multiple_boards`: `version_3.py` 81-84, `version_48_chips.py` 106-109,
`version_201.py` 80-83. -/
def supportsMultipleBoards : VKind → Bool
  | .v3 => false | .v5 => true | .v201 => false | .v248 => true

/-- `CHIPS_PER_BOARD`: `version_3.py` 24, `version_5.py` 23-32, `version_201.py` 27,
`version_248.py` 25-36. -/
def chipCoreMap : VKind → PDict XY Int
  | .v3 => ⟨[((0, 0), 18), ((0, 1), 18), ((1, 0), 18), ((1, 1), 18)]⟩
  | .v5 => ⟨[
   ((0, 0), 18), ((0, 1), 18), ((0, 2), 18), ((0, 3), 18), ((1, 0), 18), ((1, 1), 17),
   ((1, 2), 18), ((1, 3), 17), ((1, 4), 18), ((2, 0), 18), ((2, 1), 18), ((2, 2), 18),
   ((2, 3), 18), ((2, 4), 18), ((2, 5), 18), ((3, 0), 18), ((3, 1), 17), ((3, 2), 18),
   ((3, 3), 17), ((3, 4), 18), ((3, 5), 17), ((3, 6), 18), ((4, 0), 18), ((4, 1), 18),
   ((4, 2), 18), ((4, 3), 18), ((4, 4), 18), ((4, 5), 18), ((4, 6), 18), ((4, 7), 18),
   ((5, 1), 18), ((5, 2), 17), ((5, 3), 18), ((5, 4), 17), ((5, 5), 18), ((5, 6), 17),
   ((5, 7), 18), ((6, 2), 18), ((6, 3), 18), ((6, 4), 18), ((6, 5), 18), ((6, 6), 18),
   ((6, 7), 18), ((7, 3), 18), ((7, 4), 18), ((7, 5), 18), ((7, 6), 18), ((7, 7), 18)]⟩
  | .v201 => ⟨[((0, 0), 153)]⟩
  | .v248 => ⟨[
   ((0, 0), 153), ((0, 1), 153), ((0, 2), 153), ((0, 3), 153), ((1, 0), 153), ((1, 1), 152),
   ((1, 2), 153), ((1, 3), 152), ((1, 4), 153), ((2, 0), 153), ((2, 1), 153), ((2, 2), 153),
   ((2, 3), 153), ((2, 4), 153), ((2, 5), 153), ((3, 0), 153), ((3, 1), 152), ((3, 2), 153),
   ((3, 3), 152), ((3, 4), 153), ((3, 5), 151), ((3, 6), 153), ((4, 0), 153), ((4, 1), 153),
   ((4, 2), 153), ((4, 3), 151), ((4, 4), 153), ((4, 5), 153), ((4, 6), 153), ((4, 7), 153),
   ((5, 1), 153), ((5, 2), 152), ((5, 3), 153), ((5, 4), 152), ((5, 5), 153), ((5, 6), 152),
   ((5, 7), 153), ((6, 2), 152), ((6, 3), 152), ((6, 4), 153), ((6, 5), 153), ((6, 6), 153),
   ((6, 7), 153), ((7, 3), 153), ((7, 4), 153), ((7, 5), 153), ((7, 6), 153), ((7, 7), 153)]⟩

/-- `spinnaker_links()`: `version_3.py` 86-88, `version_5.py` 81-83, `version_201.py` 85-87,
`version_248.py` 62-65: local x, local y, link. -/
def spinnakerLinks : VKind → List (Int × Int × Int)
  | .v3 => [(0, 0, 3), (1, 0, 0)] | .v5 => [(0, 0, 4)] | .v201 => [] | .v248 => []

/-- `fpga_links()`: `version_5.py` 85-108, `version_3.py` 90-92, `version_201.py` 89-91,
`version_248.py` 67-70: local x, local y, link, fpga id, fpga link. -/
def fpgaLinks : VKind → List (Int × Int × Int × Int × Int)
  | .v3 => [] | .v201 => [] | .v248 => []
  | .v5 => [
   (0, 0, 3, 1, 1), (0, 0, 4, 1, 0), (0, 0, 5, 0, 15), (0, 1, 3, 1, 3), (0, 1, 4, 1, 2),
   (0, 2, 3, 1, 5), (0, 2, 4, 1, 4), (0, 3, 2, 1, 8), (0, 3, 3, 1, 7), (0, 3, 4, 1, 6),
   (1, 0, 4, 0, 14), (1, 0, 5, 0, 13), (1, 4, 2, 1, 10), (1, 4, 3, 1, 9), (2, 0, 4, 0, 12),
   (2, 0, 5, 0, 11), (2, 5, 2, 1, 12), (2, 5, 3, 1, 11), (3, 0, 4, 0, 10), (3, 0, 5, 0, 9),
   (3, 6, 2, 1, 14), (3, 6, 3, 1, 13), (4, 0, 0, 0, 6), (4, 0, 4, 0, 8), (4, 0, 5, 0, 7),
   (4, 7, 1, 2, 1), (4, 7, 2, 2, 0), (4, 7, 3, 1, 15), (5, 1, 0, 0, 4), (5, 1, 5, 0, 5),
   (5, 7, 1, 2, 3), (5, 7, 2, 2, 2), (6, 2, 0, 0, 2), (6, 2, 5, 0, 3), (6, 7, 1, 2, 5),
   (6, 7, 2, 2, 4), (7, 3, 0, 0, 0), (7, 3, 1, 2, 15), (7, 3, 5, 0, 1), (7, 4, 0, 2, 14),
   (7, 4, 1, 2, 13), (7, 5, 0, 2, 12), (7, 5, 1, 2, 11), (7, 6, 0, 2, 10), (7, 6, 1, 2, 9),
   (7, 7, 0, 2, 8), (7, 7, 1, 2, 7), (7, 7, 2, 2, 6)]

/-- `n_chips_per_board`, `abstract_version.py` 183-192. -/
def nChipsPerBoard (k : VKind) : Int := k.chipCoreMap.size

/-- `expected_xys`, `abstract_version.py` 207-216. -/
def expectedXys (k : VKind) : List XY := k.chipCoreMap.keys

/-- `get_potential_ethernet_chips`: `version_3.py` 59-62, `version_48_chips.py` 43-47,
`version_201.py` 58-61. -/
def potentialEthernetChips (k : VKind) (w h : Int) : List XY :=
  match k with
  | .v3 => [(0, 0)]
  | .v5 => Geometry.spinn5.potentialEthernetChips w h
  | .v201 => [(0, 0)]
  | .v248 => Geometry.spinn5.potentialEthernetChips w h

/-- `Version48Chips._verify_size`, `version_48_chips.py` 49-68. -/
def verifySize48 (w h : Int) : Except PyErr Unit :=
  if w ≤ 8 then
    if w = 8 ∧ h = 8 then .ok () else .error .machine
  else if h ≤ 8 then .error .machine
  else if pmod w 4 ≠ 0 then .error .machine
  else if pmod h 4 ≠ 0 then .error .machine
  else .ok ()

/-- `_verify_size`: `version_3.py` 64-69, `version_48_chips.py` 49-68, `version_201.py`
63-68. -/
def verifySize' (k : VKind) (w h : Int) : Except PyErr Unit :=
  match k with
  | .v3 => if w ≠ 2 then .error .machine else if h ≠ 2 then .error .machine else .ok ()
  | .v5 => verifySize48 w h
  | .v201 => if w ≠ 1 then .error .machine else if h ≠ 1 then .error .machine else .ok ()
  | .v248 => verifySize48 w h

/-- `verify_size`, `abstract_version.py` 268-284. -/
def verifySize (k : VKind) (w h : Option Int) : Except PyErr Unit :=
  match w with
  | none => .error .machine
  | some w => match h with
    | none => .error .machine
    | some h =>
      if w ≤ 0 then .error .machine
      else if h ≤ 0 then .error .machine
      else k.verifySize' w h

/-- the machine class chosen by `_create_machine`: `version_3.py` 71-73, `version_48_chips.py`
70-84, `version_201.py` 70-72. -/
def wrapFor (k : VKind) (w h : Int) : Wrap :=
  match k with
  | .v3 => .full
  | .v201 => .none
  | _ =>
    if pmod w 12 = 0 then
      if pmod h 12 = 0 then .full else .horizontal
    else
      if pmod h 12 = 0 then .vertical else .none

/-- `illegal_ethernet_message(x, y) is not None`: `version_3.py` 75-79,
`version_48_chips.py` 86-93, `version_201.py` 74-78. The text is not modelled. -/
def illegalEthernet (k : VKind) (x y : Int) : Bool :=
  match k with
  | .v3 => decide (x ≠ 0 ∨ y ≠ 0)
  | .v201 => decide (x ≠ 0 ∨ y ≠ 0)
  | _ =>
    if pmod x 4 ≠ 0 then true
    else if pmod (x + y) 12 ≠ 0 then true
    else false

/-- `Version48Chips.size_from_n_boards`, `version_48_chips.py` 95-104, for more than one board;
`width` is what `math.ceil(math.sqrt(triads))` evaluates to. -/
def sizeFromTriads (triads width : Int) : Int × Int :=
  let height := ceilDiv triads width
  (width * 12 + 4, height * 12 + 4)

/-- exact `math.ceil(math.sqrt(n))`: search upwards from `k` -/
def ceilSqrtFrom (n : Nat) (fuel : Nat) (k : Nat) : Nat :=
  match fuel with
  | 0 => k
  | fuel + 1 => if n ≤ k * k then k else ceilSqrtFrom n fuel (k + 1)

/-- `math.ceil(math.sqrt(n))` computed exactly. The code uses floating point, which is modelled in
`Model/Floats.lean` and shown to agree up to 3 * 2^52 boards (C85). -/
def ceilSqrt (n : Int) : Int := ceilSqrtFrom n.toNat n.toNat 0

/-- `size_from_n_boards`: `abstract_version.py` 406-421, `version_48_chips.py` 95-104. -/
def sizeFromNBoards (k : VKind) (n : Int) : Except PyErr (Int × Int) :=
  if k.is48 then
    if n ≤ 1 then .ok (8, 8)
    else
      let triads := ceilDiv n 3
      .ok (sizeFromTriads triads (ceilSqrt triads))
  else if n = 1 then .ok k.boardShape
  else if k.supportsMultipleBoards then .error .notImplemented
  else .error .machine

/-- `size_from_n_chips`, `abstract_version.py` 390-404. -/
def sizeFromNChips (k : VKind) (n : Int) : Except PyErr (Int × Int) :=
  k.sizeFromNBoards (-(pdiv (-n) k.nChipsPerBoard))

/-- `cores_per_board` of `size_from_n_cores`, `abstract_version.py` 382-386; `ethMon`, `allMon`
are the data view's monitor counters. -/
def coresPerBoard (k : VKind) (ethMon allMon : Int) : Int :=
  k.chipCoreMap.values.sum - ethMon - (allMon + k.nScampCores) * k.nChipsPerBoard

/-- `size_from_n_cores`, `abstract_version.py` 369-388. -/
def sizeFromNCores (k : VKind) (ethMon allMon n : Int) : Except PyErr (Int × Int) :=
  if k.coresPerBoard ethMon allMon = 0 then .error .zeroDivision
  else k.sizeFromNBoards (-(pdiv (-n) (k.coresPerBoard ethMon allMon)))

/-- `QUAD_MAP`, `version_spin2.py` 27-65. -/
def quadMap : PDict Int (Int × Int × Int) := ⟨[
   (0, (0, 0, 0)), (1, (7, 6, 0)), (2, (7, 6, 1)), (3, (7, 6, 2)), (4, (7, 6, 3)),
   (5, (7, 5, 0)), (6, (7, 5, 1)), (7, (7, 5, 2)), (8, (7, 5, 3)), (9, (6, 6, 0)),
   (10, (6, 6, 1)), (11, (6, 6, 2)), (12, (6, 6, 3)), (13, (6, 5, 0)), (14, (6, 5, 1)),
   (15, (6, 5, 2)), (16, (6, 5, 3)), (17, (6, 4, 0)), (18, (6, 4, 1)), (19, (6, 4, 2)),
   (20, (6, 4, 3)), (21, (5, 4, 0)), (22, (5, 4, 1)), (23, (5, 4, 2)), (24, (5, 4, 3)),
   (25, (5, 6, 0)), (26, (5, 6, 1)), (27, (5, 6, 2)), (28, (5, 6, 3)), (29, (3, 6, 0)),
   (30, (3, 6, 1)), (31, (3, 6, 2)), (32, (3, 6, 3)), (33, (4, 6, 0)), (34, (4, 6, 1)),
   (35, (4, 6, 2)), (36, (4, 6, 3)), (37, (5, 5, 0)), (38, (5, 5, 1)), (39, (5, 5, 2)),
   (40, (5, 5, 3)), (41, (3, 5, 0)), (42, (3, 5, 1)), (43, (3, 5, 2)), (44, (3, 5, 3)),
   (45, (4, 5, 0)), (46, (4, 5, 1)), (47, (4, 5, 2)), (48, (4, 5, 3)), (49, (1, 6, 0)),
   (50, (1, 6, 1)), (51, (1, 6, 2)), (52, (1, 6, 3)), (53, (2, 6, 0)), (54, (2, 6, 1)),
   (55, (2, 6, 2)), (56, (2, 6, 3)), (57, (1, 5, 0)), (58, (1, 5, 1)), (59, (1, 5, 2)),
   (60, (1, 5, 3)), (61, (2, 5, 0)), (62, (2, 5, 1)), (63, (2, 5, 2)), (64, (2, 5, 3)),
   (65, (1, 4, 0)), (66, (1, 4, 1)), (67, (1, 4, 2)), (68, (1, 4, 3)), (69, (2, 4, 0)),
   (70, (2, 4, 1)), (71, (2, 4, 2)), (72, (2, 4, 3)), (73, (3, 4, 0)), (74, (3, 4, 1)),
   (75, (3, 4, 2)), (76, (3, 4, 3)), (77, (1, 1, 0)), (78, (1, 1, 1)), (79, (1, 1, 2)),
   (80, (1, 1, 3)), (81, (2, 1, 0)), (82, (2, 1, 1)), (83, (2, 1, 2)), (84, (2, 1, 3)),
   (85, (1, 2, 0)), (86, (1, 2, 1)), (87, (1, 2, 2)), (88, (1, 2, 3)), (89, (2, 2, 0)),
   (90, (2, 2, 1)), (91, (2, 2, 2)), (92, (2, 2, 3)), (93, (1, 3, 0)), (94, (1, 3, 1)),
   (95, (1, 3, 2)), (96, (1, 3, 3)), (97, (2, 3, 0)), (98, (2, 3, 1)), (99, (2, 3, 2)),
   (100, (2, 3, 3)), (101, (3, 3, 0)), (102, (3, 3, 1)), (103, (3, 3, 2)), (104, (3, 3, 3)),
   (105, (5, 1, 0)), (106, (5, 1, 1)), (107, (5, 1, 2)), (108, (5, 1, 3)), (109, (3, 1, 0)),
   (110, (3, 1, 1)), (111, (3, 1, 2)), (112, (3, 1, 3)), (113, (4, 1, 0)), (114, (4, 1, 1)),
   (115, (4, 1, 2)), (116, (4, 1, 3)), (117, (5, 2, 0)), (118, (5, 2, 1)), (119, (5, 2, 2)),
   (120, (5, 2, 3)), (121, (3, 2, 0)), (122, (3, 2, 1)), (123, (3, 2, 2)), (124, (3, 2, 3)),
   (125, (4, 2, 0)), (126, (4, 2, 1)), (127, (4, 2, 2)), (128, (4, 2, 3)), (129, (7, 1, 0)),
   (130, (7, 1, 1)), (131, (7, 1, 2)), (132, (7, 1, 3)), (133, (6, 1, 0)), (134, (6, 1, 1)),
   (135, (6, 1, 2)), (136, (6, 1, 3)), (137, (7, 2, 0)), (138, (7, 2, 1)), (139, (7, 2, 2)),
   (140, (7, 2, 3)), (141, (6, 2, 0)), (142, (6, 2, 1)), (143, (6, 2, 2)), (144, (6, 2, 3)),
   (145, (6, 3, 0)), (146, (6, 3, 1)), (147, (6, 3, 2)), (148, (6, 3, 3)), (149, (5, 3, 0)),
   (150, (5, 3, 1)), (151, (5, 3, 2)), (152, (5, 3, 3))]⟩

/-- `version/vec2mesh.txt` 14-165, the published table (`core_id: n => QPE (x,y) PE p`); read by
`version/vec2mesh_reader.py` 17-32. -/
def vec2mesh : List (Int × Int × Int × Int) := [
   (1, (7, 6, 0)), (2, (7, 6, 1)), (3, (7, 6, 2)), (4, (7, 6, 3)), (5, (7, 5, 0)),
   (6, (7, 5, 1)), (7, (7, 5, 2)), (8, (7, 5, 3)), (9, (6, 6, 0)), (10, (6, 6, 1)),
   (11, (6, 6, 2)), (12, (6, 6, 3)), (13, (6, 5, 0)), (14, (6, 5, 1)), (15, (6, 5, 2)),
   (16, (6, 5, 3)), (17, (6, 4, 0)), (18, (6, 4, 1)), (19, (6, 4, 2)), (20, (6, 4, 3)),
   (21, (5, 4, 0)), (22, (5, 4, 1)), (23, (5, 4, 2)), (24, (5, 4, 3)), (25, (5, 6, 0)),
   (26, (5, 6, 1)), (27, (5, 6, 2)), (28, (5, 6, 3)), (29, (3, 6, 0)), (30, (3, 6, 1)),
   (31, (3, 6, 2)), (32, (3, 6, 3)), (33, (4, 6, 0)), (34, (4, 6, 1)), (35, (4, 6, 2)),
   (36, (4, 6, 3)), (37, (5, 5, 0)), (38, (5, 5, 1)), (39, (5, 5, 2)), (40, (5, 5, 3)),
   (41, (3, 5, 0)), (42, (3, 5, 1)), (43, (3, 5, 2)), (44, (3, 5, 3)), (45, (4, 5, 0)),
   (46, (4, 5, 1)), (47, (4, 5, 2)), (48, (4, 5, 3)), (49, (1, 6, 0)), (50, (1, 6, 1)),
   (51, (1, 6, 2)), (52, (1, 6, 3)), (53, (2, 6, 0)), (54, (2, 6, 1)), (55, (2, 6, 2)),
   (56, (2, 6, 3)), (57, (1, 5, 0)), (58, (1, 5, 1)), (59, (1, 5, 2)), (60, (1, 5, 3)),
   (61, (2, 5, 0)), (62, (2, 5, 1)), (63, (2, 5, 2)), (64, (2, 5, 3)), (65, (1, 4, 0)),
   (66, (1, 4, 1)), (67, (1, 4, 2)), (68, (1, 4, 3)), (69, (2, 4, 0)), (70, (2, 4, 1)),
   (71, (2, 4, 2)), (72, (2, 4, 3)), (73, (3, 4, 0)), (74, (3, 4, 1)), (75, (3, 4, 2)),
   (76, (3, 4, 3)), (77, (1, 1, 0)), (78, (1, 1, 1)), (79, (1, 1, 2)), (80, (1, 1, 3)),
   (81, (2, 1, 0)), (82, (2, 1, 1)), (83, (2, 1, 2)), (84, (2, 1, 3)), (85, (1, 2, 0)),
   (86, (1, 2, 1)), (87, (1, 2, 2)), (88, (1, 2, 3)), (89, (2, 2, 0)), (90, (2, 2, 1)),
   (91, (2, 2, 2)), (92, (2, 2, 3)), (93, (1, 3, 0)), (94, (1, 3, 1)), (95, (1, 3, 2)),
   (96, (1, 3, 3)), (97, (2, 3, 0)), (98, (2, 3, 1)), (99, (2, 3, 2)), (100, (2, 3, 3)),
   (101, (3, 3, 0)), (102, (3, 3, 1)), (103, (3, 3, 2)), (104, (3, 3, 3)), (105, (5, 1, 0)),
   (106, (5, 1, 1)), (107, (5, 1, 2)), (108, (5, 1, 3)), (109, (3, 1, 0)), (110, (3, 1, 1)),
   (111, (3, 1, 2)), (112, (3, 1, 3)), (113, (4, 1, 0)), (114, (4, 1, 1)), (115, (4, 1, 2)),
   (116, (4, 1, 3)), (117, (5, 2, 0)), (118, (5, 2, 1)), (119, (5, 2, 2)), (120, (5, 2, 3)),
   (121, (3, 2, 0)), (122, (3, 2, 1)), (123, (3, 2, 2)), (124, (3, 2, 3)), (125, (4, 2, 0)),
   (126, (4, 2, 1)), (127, (4, 2, 2)), (128, (4, 2, 3)), (129, (7, 1, 0)), (130, (7, 1, 1)),
   (131, (7, 1, 2)), (132, (7, 1, 3)), (133, (6, 1, 0)), (134, (6, 1, 1)), (135, (6, 1, 2)),
   (136, (6, 1, 3)), (137, (7, 2, 0)), (138, (7, 2, 1)), (139, (7, 2, 2)), (140, (7, 2, 3)),
   (141, (6, 2, 0)), (142, (6, 2, 1)), (143, (6, 2, 2)), (144, (6, 2, 3)), (145, (6, 3, 0)),
   (146, (6, 3, 1)), (147, (6, 3, 2)), (148, (6, 3, 3)), (149, (5, 3, 0)), (150, (5, 3, 1)),
   (151, (5, 3, 2)), (152, (5, 3, 3))]

/-- `_reverse_quad_map`, `version_spin2.py` 79-80. -/
def reverseQuadMap : PDict (Int × Int × Int) Int :=
  PDict.ofList (quadMap.items.map fun kv => (kv.2, kv.1))

/-- `quads_maps()`: `version_spin1.py` 97-99, `version_spin2.py` 107-109. -/
def quadsMaps (k : VKind) : Option (PDict Int (Int × Int × Int)) :=
  if k.isSpin1 then none else some quadMap

/-- `qx_qy_qp_to_id`: `version_spin1.py` 101-103, `version_spin2.py` 111-113. -/
def qxQyQpToId (k : VKind) (qx qy qp : Int) : Except PyErr Int :=
  if k.isSpin1 then .error .machine else reverseQuadMap.getE (qx, qy, qp)

/-- `id_to_qx_qy_qp`: `version_spin1.py` 105-107, `version_spin2.py` 115-117. -/
def idToQxQyQp (k : VKind) (i : Int) : Except PyErr (Int × Int × Int) :=
  if k.isSpin1 then .error .machine else quadMap.getE i

end VKind

namespace Version

/-- `__verify_config_width_height`, `abstract_version.py` 63-83. -/
def verifyConfigSize (k : VKind) (cfg : Cfg) : Except PyErr Unit :=
  match cfg.width with
  | none => match cfg.height with
    | none => .ok ()
    | some _ => .error .machine
  | some w => match cfg.height with
    | none => .error .machine
    | some h => k.verifySize (some w) (some h)

/-- `__set_max_cores_per_chip`, `abstract_version.py` 85-100; `__set_max_sdram_per_chip`, 102-118
has the same shape. -/
def limit (dflt : Int) (cfg : Option Int) : Int :=
  match cfg with
  | none => dflt
  | some m => if m < dflt then m else dflt

/-- constructing a version: `AbstractVersion.__init__`, `abstract_version.py` 58-61, called from
`version_spin1.py` 69-70 or `version_spin2.py` 76-80. -/
def init (k : VKind) (cfg : Cfg) : Except PyErr Version :=
  match verifyConfigSize k cfg with
  | .error e => .error e
  | .ok () => .ok { kind := k, maxCores := limit k.defaultMaxCores cfg.maxMachineCore
                    maxSdram := limit k.defaultMaxSdram cfg.maxSdram }

/-- `__eq__`: `version_3.py` 120-121, `version_5.py` 147-148, `version_201.py` 93-94,
`version_248.py` 72-73 (same class). -/
def eq (a b : Version) : Bool := decide (a.kind = b.kind)

/-- `hash(version)`: `AbstractVersion` has a `__hash__` (`abstract_version.py` 580-581), but each
of the four classes defines `__eq__` (lines cited at `eq`) and no `__hash__`, so Python sets
their `__hash__` to `None` and hashing raises `TypeError`. -/
def hash (_ : Version) : Except PyErr Int := .error .typeError

end Version
end SpiNN
