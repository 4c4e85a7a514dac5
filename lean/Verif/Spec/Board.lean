import Verif.Spec.Mesh
import Verif.Model.Version

/-!
# Specification of boards

The 48-chip board is the hexagon of side 4/5 with its Ethernet chip in the bottom left corner;
boards sit at the positions of a lattice with period 12 in both directions.
-/

namespace SpiNN.Spec
open SpiNN

/-- local positions on a 48-chip board -/
def OnBoard48 (p : XY) : Prop :=
  0 ≤ p.1 ∧ p.1 ≤ 7 ∧ 0 ≤ p.2 ∧ p.2 ≤ 7 ∧ p.2 - p.1 ≤ 3 ∧ p.1 - p.2 ≤ 4

instance (p : XY) : Decidable (OnBoard48 p) := by unfold OnBoard48; infer_instance

/-- local positions on a board of each version: 4 chips, 48 chips or 1 chip -/
def OnBoard (k : VKind) (p : XY) : Prop :=
  match k with
  | .v3 => 0 ≤ p.1 ∧ p.1 ≤ 1 ∧ 0 ≤ p.2 ∧ p.2 ≤ 1
  | .v5 => OnBoard48 p
  | .v201 => p = (0, 0)
  | .v248 => OnBoard48 p

instance (k : VKind) (p : XY) : Decidable (OnBoard k p) := by
  unfold OnBoard; split <;> infer_instance

/-- chips of a SpiNNaker1 48-chip board that come with a core less than the others -/
def fewerSpin1 : List XY := [(1, 1), (1, 3), (3, 1), (3, 3), (3, 5), (5, 2), (5, 4), (5, 6)]

/-- chips of a SpiNNaker2 48-chip board that come with a core less than the others -/
def fewerSpin2 : List XY := [(1, 1), (1, 3), (3, 1), (3, 3), (5, 2), (5, 4), (5, 6), (6, 2), (6, 3)]

/-- chips of a SpiNNaker2 48-chip board that come with two cores less than the others -/
def evenFewerSpin2 : List XY := [(3, 5), (4, 3)]

/-- the cores that are expected to work on the chip at a position on a board -/
def typicalCores (k : VKind) (p : XY) : Int :=
  match k with
  | .v3 => 18
  | .v5 => if p ∈ fewerSpin1 then 17 else 18
  | .v201 => 153
  | .v248 => if p ∈ evenFewerSpin2 then 151 else if p ∈ fewerSpin2 then 152 else 153

/-- what a version says about itself -/
structure VersionFacts where
  number : Int
  name : String
  boardWidth : Int
  boardHeight : Int
  chips : Int
  /-- of the whole board -/
  cores : Int
  maxCores : Int
  maxSdram : Int
  minCores : Int
  scampCores : Int
  routerEntries : Int
  clocks : List Int
  /-- `none` = not known -/
  dtcm : Option Int
  multipleBoards : Bool
  deriving DecidableEq

/-- the data sheet -/
def facts : VKind → VersionFacts
  | .v3 => ⟨3, "Spin1 4 Chip", 2, 2, 4, 72, 18, 123469792, 5, 1, 1023, [200], some 65536, false⟩
  | .v5 => ⟨5, "Spin1 48 Chip", 8, 8, 48, 856, 18, 123469792, 5, 1, 1023, [200], some 65536, true⟩
  | .v201 => ⟨201, "Spin2 1 Chip", 1, 1, 1, 153, 153, 1073741824, 100, 1, 16384, [150, 300], none,
      false⟩
  | .v248 => ⟨248, "Spin2 48 Chips", 8, 8, 48, 7331, 153, 1073741824, 100, 1, 16384, [150, 300],
      none, true⟩

/-- the connectors for SpiNNaker links of a board, in order: the chip on the board and the direction of
its link. A 4-chip board has one on the West of chip (0, 0) and one on the East of chip (1, 0), a
SpiNNaker1 48-chip board one on the South West of chip (0, 0). -/
def spinConnectors : VKind → List (XY × Dir)
  | .v3 => [((0, 0), .W), ((1, 0), .E)]
  | .v5 => [((0, 0), .SW)]
  | .v201 => []
  | .v248 => []

/-- the next direction clockwise -/
def Dir.cw : Dir → Dir
  | .E => .S | .S => .SW | .SW => .W | .W => .N | .N => .NE | .NE => .E

/-- the next direction counterclockwise -/
def Dir.ccw : Dir → Dir
  | .E => .NE | .NE => .N | .N => .W | .W => .SW | .SW => .S | .S => .E

/-- walking clockwise around a 48-chip board, the next link that leaves the board after link `d` of
chip `p`: the next link of the chip, or, if that leads to a chip of the board, the first one of that
chip, which leads to where `d` led -/
def nextAround (p : XY) (d : Dir) : XY × Dir :=
  if OnBoard48 (p.1 + d.cw.dx, p.2 + d.cw.dy) then
    ((p.1 + d.cw.dx, p.2 + d.cw.dy), d.ccw)
  else (p, d.cw)

/-- the lattice of positions of Ethernet chips of 48-chip boards: (0,0), (4,8), (8,4) and
everything reached from these by multiples of 12 -/
def EthLattice (p : XY) : Prop :=
  ∃ i j : Int, p = (12 * i, 12 * j) ∨ p = (12 * i + 4, 12 * j + 8) ∨ p = (12 * i + 8, 12 * j + 4)

/-- positions where a version may have an Ethernet chip -/
def EthPos (k : VKind) (p : XY) : Prop :=
  match k with
  | .v3 => p = (0, 0)
  | .v5 => EthLattice p
  | .v201 => p = (0, 0)
  | .v248 => EthLattice p

/-- the supported machine sizes -/
def SizeOK (k : VKind) (w h : Int) : Prop :=
  match k with
  | .v3 => w = 2 ∧ h = 2
  | .v201 => w = 1 ∧ h = 1
  | _ => (w = 8 ∧ h = 8) ∨ (8 < w ∧ 8 < h ∧ 4 ∣ w ∧ 4 ∣ h)

instance (k : VKind) (w h : Int) : Decidable (SizeOK k w h) := by
  unfold SizeOK; split <;> infer_instance

/-- which axes wrap: both on a 4-chip board, none on a 1-chip board, the multiples of 12
otherwise -/
def WrapsAs (k : VKind) (w h : Int) (wr : Wrap) : Prop :=
  match k with
  | .v3 => wrapsX wr ∧ wrapsY wr
  | .v201 => ¬ wrapsX wr ∧ ¬ wrapsY wr
  | _ => (wrapsX wr ↔ 12 ∣ w) ∧ (wrapsY wr ↔ 12 ∣ h)

/-- the chips of the board whose Ethernet chip is at `e`: all places congruent to a displaced
board position -/
def BoardAt (k : VKind) (wr : Wrap) (w h : Int) (e p : XY) : Prop :=
  InRange wr w h p ∧ ∃ l, OnBoard k l ∧ Same wr w h (e.1 + l.1, e.2 + l.2) p

/-- the whole board placed at `e` stays inside the machine on the axes that do not wrap -/
def BoardFits (k : VKind) (wr : Wrap) (w h : Int) (e : XY) : Prop :=
  ∀ l, OnBoard k l →
    (¬ wrapsX wr → 0 ≤ e.1 + l.1 ∧ e.1 + l.1 < w) ∧ (¬ wrapsY wr → 0 ≤ e.2 + l.2 ∧ e.2 + l.2 < h)

end SpiNN.Spec
