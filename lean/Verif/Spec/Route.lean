import Verif.Spec.Machine

/-!
# Routes over the working links of a machine
-/

namespace SpiNN.Spec
open SpiNN

/-- a packet that leaves the chip at the first place over the links with the given ids, each a link that the
router of the chip it is at then has, arrives at the chip at the second place -/
inductive Route (m : Machine) : XY → List Int → XY → Prop
  | stay (p : XY) (h : m.isChipAt p.1 p.2 = true) : Route m p [] p
  | go (p : XY) (c : Chip) (i : Int) (l : Link) (is : List Int) (q : XY)
      (hc : m.getChipAt p.1 p.2 = some c) (hl : c.router.getLink i = some l)
      (hr : Route m (l.destX, l.destY) is q) : Route m p (i :: is) q

end SpiNN.Spec
