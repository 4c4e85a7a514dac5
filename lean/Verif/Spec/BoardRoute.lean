import Verif.Spec.Machine

/-!
# Routes that stay on one board
-/

namespace SpiNN.Spec
open SpiNN

/-- a packet that leaves the chip at the first place over the links with the given ids, each a link that the
router of the chip it is at then has, arrives at the chip at the second place, and all chips it visits (the
first and the last included) belong to the board whose Ethernet chip is at `e` -/
inductive BoardRoute (m : Machine) (e : XY) : XY → List Int → XY → Prop
  | stay (p : XY) (c : Chip) (hc : m.getChipAt p.1 p.2 = some c) (he : (c.ethX, c.ethY) = e) : BoardRoute m e p [] p
  | go (p : XY) (c : Chip) (i : Int) (l : Link) (is : List Int) (q : XY)
      (hc : m.getChipAt p.1 p.2 = some c) (he : (c.ethX, c.ethY) = e) (hl : c.router.getLink i = some l)
      (hr : BoardRoute m e (l.destX, l.destY) is q) : BoardRoute m e p (i :: is) q

end SpiNN.Spec
