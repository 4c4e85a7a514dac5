import Verif.Spec.Board

/-!
# The neighbours of a 48-chip board
-/

namespace SpiNN.Spec
open SpiNN

/-- where the six boards around a board have their Ethernet chips, seen from its own -/
def boardsAround : List XY := [(8, 4), (4, 8), (-4, 4), (-8, -4), (-4, -8), (4, -4)]

/-- the place with these coordinates, counted around the wrapped axes -/
def placeOn (wr : Wrap) (w h : Int) (p : XY) : XY :=
  (if wrapsX wr then p.1 % w else p.1, if wrapsY wr then p.2 % h else p.2)

/-- on how many of its six sides the board with Ethernet chip at `e` has a board next to it -/
def sidesWithBoard (wr : Wrap) (w h : Int) (boards : List XY) (e : XY) : Nat :=
  boardsAround.countP fun o => decide (placeOn wr w h (e.1 + o.1, e.2 + o.2) ∈ boards)

end SpiNN.Spec
