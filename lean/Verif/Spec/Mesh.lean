import Verif.Model.Mesh

/-!
# Specification of the hexagonal mesh / torus

Independent of the arithmetic of the machine classes: six compass directions, congruence
modulo the machine size on the wrapped axes, and walks over links.
-/

namespace SpiNN.Spec
open SpiNN

/-- The six links of a chip, by compass name. -/
inductive Dir where
  | E | NE | N | W | SW | S
  deriving DecidableEq, Repr

/-- link id of a direction -/
def Dir.id : Dir → Int
  | .E => 0 | .NE => 1 | .N => 2 | .W => 3 | .SW => 4 | .S => 5

/-- displacement of a direction -/
def Dir.dx : Dir → Int
  | .E => 1 | .NE => 1 | .N => 0 | .W => -1 | .SW => -1 | .S => 0
/-- displacement of a direction -/
def Dir.dy : Dir → Int
  | .E => 0 | .NE => 1 | .N => 1 | .W => 0 | .SW => -1 | .S => -1

/-- the axis wraps -/
def wrapsX (wr : Wrap) : Prop := wr = .horizontal ∨ wr = .full
/-- the axis wraps -/
def wrapsY (wr : Wrap) : Prop := wr = .vertical ∨ wr = .full

instance (wr : Wrap) : Decidable (wrapsX wr) := by unfold wrapsX; infer_instance
instance (wr : Wrap) : Decidable (wrapsY wr) := by unfold wrapsY; infer_instance

/-- `a` and `b` denote the same place: equal, modulo the size on the wrapped axes. -/
def Same (wr : Wrap) (w h : Int) (a b : XY) : Prop :=
  (if wrapsX wr then ∃ k : Int, a.1 = b.1 + k * w else a.1 = b.1) ∧
  (if wrapsY wr then ∃ k : Int, a.2 = b.2 + k * h else a.2 = b.2)

/-- on the wrapped axes the coordinate is inside the machine -/
def InRange (wr : Wrap) (w h : Int) (p : XY) : Prop :=
  (wrapsX wr → 0 ≤ p.1 ∧ p.1 < w) ∧ (wrapsY wr → 0 ≤ p.2 ∧ p.2 < h)

/-- the position is inside the machine's rectangle -/
def InGrid (w h : Int) (p : XY) : Prop := 0 ≤ p.1 ∧ p.1 < w ∧ 0 ≤ p.2 ∧ p.2 < h

/-- follow a list of link ids using the API's `xy_over_link` -/
def walk (wr : Wrap) (w h : Int) : XY → List Int → Except PyErr XY
  | p, [] => .ok p
  | p, l :: ls => match wr.xyOverLink w h p.1 p.2 l with
    | .ok q => walk wr w h q ls
    | .error e => .error e

end SpiNN.Spec
