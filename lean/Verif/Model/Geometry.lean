import Verif.Py.Basic

/-!
# `spinnaker_triad_geometry.py`

The only floating point values are the coordinates of the board centre, (3.6, 3.4). All
distances are scaled by 5, which makes them integers. The calculation in floating point is
`Geometry.spinn5Fl` in `Model/Floats.lean`, shown to give the same table (C85).
-/

namespace SpiNN

/-- `SpiNNakerTriadGeometry`, `spinnaker_triad_geometry.py` 21-105. -/
structure Geometry where
  triadW : Int
  triadH : Int
  boardW : Int
  boardH : Int
  roots : List XY
  /-- `_ethernet_offset[y][x]` -/
  offset : List (List XY)
  deriving Repr

namespace Geometry

/-- `__hexagonal_metric_distance`, lines 107-138, scaled by 5: `xy` is the position, `c5` five
times the centre. -/
def metric5 (xy : XY) (c5 : XY) : Int :=
  let dx := 5 * xy.1 - c5.1
  let dy := 5 * xy.2 - c5.2
  max (max (dx.natAbs : Int) (dy.natAbs : Int)) ((dx - dy).natAbs : Int)

/-- `measure` inside `__locate_nearest_ethernet`, lines 156-158. -/
def measure5 (xy : XY) (centre5 : XY) (e : XY) : Int :=
  metric5 xy (5 * e.1 + centre5.1, 5 * e.2 + centre5.2)

/-- Python `min(l, key=key)`: the first of the minimal elements. -/
def minBy {α : Type} (key : α → Int) : α → List α → α
  | a, [] => a
  | a, b :: l => minBy key (if key b < key a then b else a) l

/-- `__locate_nearest_ethernet`, lines 140-164 (`ValueError` of `min` on an empty list cannot
happen, the default is unused). -/
def locateNearest (xy : XY) (eths : List XY) (centre5 : XY) : XY :=
  match eths with
  | [] => (0, 0)
  | e :: l => minBy (measure5 xy centre5) e l

/-- `extended_ethernet_chips`, lines 84-88. -/
def extended (tw th : Int) (roots : List XY) : List XY :=
  roots.flatMap fun (x, y) =>
    [-tw, 0, tw].flatMap fun x1 => [-th, 0, th].map fun y1 => (x + x1, y + y1)

/-- `__init__`, lines 59-105; `centre5` is five times the centre. -/
def mk' (tw th bw bh : Int) (roots : List XY) (centre5 : XY) : Geometry :=
  let ext := extended tw th roots
  { triadW := tw, triadH := th, boardW := bw, boardH := bh, roots
    offset := (pyRange th).map fun y => (pyRange tw).map fun x =>
      let v := locateNearest (x, y) ext centre5
      (x - v.1, y - v.2) }

/-- `get_spinn5_geometry`, lines 44-57: centre (3.6, 3.4). -/
def spinn5 : Geometry := mk' 12 12 8 8 [(0, 0), (4, 8), (8, 4)] (18, 17)

/-- `get_local_chip_coordinate`, lines 198-216. -/
def localChipCoordinate (g : Geometry) (x y rootX rootY : Int) : Except PyErr XY :=
  let dx := pmod (x - rootX) g.triadW
  let dy := pmod (y - rootY) g.triadH
  match pyIndex g.offset dy with
  | .ok row => pyIndex row dx
  | .error e => .error e

/-- `get_ethernet_chip_coordinates`, lines 167-196. -/
def ethernetChipCoordinates (g : Geometry) (x y width height rootX rootY : Int) :
    Except PyErr XY :=
  match g.localChipCoordinate x y rootX rootY with
  | .ok (dx, dy) => .ok (pmod (x - dx) width, pmod (y - dy) height)
  | .error e => .error e

/-- `get_potential_ethernet_chips`, lines 218-242. -/
def potentialEthernetChips (g : Geometry) (width height : Int) : List XY :=
  let ethWidth := if pmod width g.triadW = 0 then width else width - g.boardW + 1
  let ethHeight := if pmod height g.triadH = 0 then height else height - g.boardH + 1
  if ethWidth ≤ 0 ∨ ethHeight ≤ 0 then [(0, 0)]
  else g.roots.flatMap fun (startX, startY) =>
    (pyRange3 startY ethHeight g.triadH).flatMap fun y =>
      (pyRange3 startX ethWidth g.triadW).map fun x => (x, y)

end Geometry
end SpiNN
