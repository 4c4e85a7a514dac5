import Verif.Spec.Board

/-!
# The cables between 48-chip boards

Each of the three FPGAs of a board serves two of its six sides, with eight connectors each. A cable
joins the eight connectors of a side to those of the facing side of the neighbouring board, in
opposite order.
-/

namespace SpiNN.Spec
open SpiNN

/-- where the cable of connector `i` of FPGA `f` leads: the position of the other board relative to
this one, the FPGA there and the connector there -/
def cableTo (f i : Int) : Option (XY × Int × Int) :=
  if 0 ≤ i ∧ i ≤ 7 then
    if f = 0 then some ((4, -4), 1, 15 - i)
    else if f = 1 then some ((-8, -4), 2, 15 - i)
    else if f = 2 then some ((4, 8), 0, 15 - i)
    else none
  else if 8 ≤ i ∧ i ≤ 15 then
    if f = 0 then some ((-4, -8), 2, 15 - i)
    else if f = 1 then some ((-4, 4), 0, 15 - i)
    else if f = 2 then some ((8, 4), 1, 15 - i)
    else none
  else none

end SpiNN.Spec
