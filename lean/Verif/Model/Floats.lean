import Verif.Model.VirtualMachine
import Mathlib.Analysis.Real.Sqrt
import Mathlib.Algebra.Order.Floor.Ring

/-!
# The calculations of the code that use floating point

The other model files replace floating point by exact arithmetic. Here the same lines are modelled
with a parameter `fl` that gives the floating point result of an operation from its exact result (what
is assumed of it is in `Spec/Floats.lean`); Python converts an `int` operand of `+` or `-` with a
`float` to a `float` first, divides two `int`s with one rounding, and `math.ceil` of a `float` is
exact.
-/

namespace SpiNN
variable (fl : ℝ → ℝ)

/-- `Version48Chips.size_from_n_boards`, `version_48_chips.py` 95-104 -/
noncomputable def sizeFromNBoardsFl (n : Int) : Int × Int :=
  if n ≤ 1 then (8, 8)
  else
    let triads := ⌈fl (n / 3)⌉
    let width := ⌈fl (Real.sqrt (fl triads))⌉
    let height := ⌈fl (triads / width)⌉
    (width * 12 + 4, height * 12 + 4)

/-- the size computed by `virtual_machine_by_min_size`, `virtual_machine.py` 58-66 -/
noncomputable def minSizeFl (k : VKind) (w h : Int) : Int × Int :=
  let wb := k.boardShape.1
  let hb := k.boardShape.2
  let w := if w ≤ wb ∧ h > hb then wb * 2 else w
  let h := if h ≤ hb ∧ w > wb then hb * 2 else h
  (wb * ⌈fl (w / wb)⌉, hb * ⌈fl (h / hb)⌉)

/-- `get_links_count`, `machine.py` 924-937 -/
noncomputable def Machine.getLinksCountFl (m : Machine) : ℝ := fl (counterTotal m.nLinks / 2)

namespace Geometry

/-- `__hexagonal_metric_distance`, `spinnaker_triad_geometry.py` 107-138 -/
noncomputable def metricFl (xy : XY) (c : ℝ × ℝ) : ℝ :=
  let dx := fl (fl xy.1 - c.1)
  let dy := fl (fl xy.2 - c.2)
  max (max |dx| |dy|) |fl (dx - dy)|

/-- `measure` inside `__locate_nearest_ethernet`, `spinnaker_triad_geometry.py` 156-158 -/
noncomputable def measureFl (xy : XY) (centre : ℝ × ℝ) (e : XY) : ℝ :=
  metricFl fl xy (fl (fl e.1 + centre.1), fl (fl e.2 + centre.2))

open Classical in
/-- Python `min(l, key=key)`: the first of the minimal elements -/
noncomputable def minByReal {α : Type} (key : α → ℝ) : α → List α → α
  | a, [] => a
  | a, b :: l => minByReal key (if key b < key a then b else a) l

/-- `__locate_nearest_ethernet`, `spinnaker_triad_geometry.py` 140-164 -/
noncomputable def locateNearestFl (xy : XY) (eths : List XY) (centre : ℝ × ℝ) : XY :=
  match eths with
  | [] => (0, 0)
  | e :: l => minByReal (measureFl fl xy centre) e l

/-- `__init__`, `spinnaker_triad_geometry.py` 59-105 -/
noncomputable def mkFl (tw th bw bh : Int) (roots : List XY) (centre : ℝ × ℝ) : Geometry :=
  let ext := extended tw th roots
  { triadW := tw, triadH := th, boardW := bw, boardH := bh, roots
    offset := (pyRange th).map fun y => (pyRange tw).map fun x =>
      let v := locateNearestFl fl (x, y) ext centre
      (x - v.1, y - v.2) }

/-- `get_spinn5_geometry`, `spinnaker_triad_geometry.py` 44-57: the literals `3.6` and `3.4` are rounded
too -/
noncomputable def spinn5Fl : Geometry := mkFl fl 12 12 8 8 [(0, 0), (4, 8), (8, 4)] (fl 3.6, fl 3.4)

end Geometry
end SpiNN
