/-!
# The reference formulas of Rig

`/repo/unittests/geometry.py`, copied from `project-rig/rig`, against which the project's tests
compare distances; nothing here uses the model. Positions are given as displacements.
-/

namespace SpiNN.Spec.Rig

/-- `shortest_mesh_path_length` (25-70): the greatest minus the least of `(x, y, z)`; here the
displacement is `(x, y, 0)`, as `to_xyz` makes it -/
def meshLength (x y : Int) : Int := max (max x y) 0 - min (min x y) 0

/-- `shortest_torus_path_length` (95-163) of a displacement reduced to `0 ≤ x < w`, `0 ≤ y < h`:
no wrap, wrap in x, wrap in y, wrap in both -/
def torusLength (w h x y : Int) : Int :=
  min (min (max x y) (w - x + y)) (min (x + h - y) (max (w - x) (h - y)))

/-- `minimise_xyz` (26-30): subtract the median from all three -/
def minimise (x y z : Int) : Int × Int × Int :=
  let m := max (min x y) (min (max x y) z)
  (x - m, y - m, z - m)

end SpiNN.Spec.Rig
