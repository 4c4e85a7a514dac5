import Verif.Spec.Board
import Verif.Spec.Machine

/-!
# Going from one board to another by the same displacement everywhere
-/

namespace SpiNN.Spec
open SpiNN

/-- `t` is the displacement between two boards, along axes that wrap only -/
def BoardShift (wr : Wrap) (t : XY) : Prop :=
  EthLattice t ∧ (¬ wrapsX wr → t.1 = 0) ∧ (¬ wrapsY wr → t.2 = 0)

/-- the place `t` away from `p` is `q` -/
def Displaced (m : Machine) (t p q : XY) : Prop := Same m.wrap m.width m.height (p.1 + t.1, p.2 + t.2) q

/-- `c'` looks like `c`, `t` away from it: its Ethernet chip is `t` away from that of `c`, one has an
address if and only if the other has, they have the same monitors, cores, memory, routing entries and tags,
and links with the same ids to places `t` away from each other -/
def LooksLike (m : Machine) (t : XY) (c c' : Chip) : Prop :=
  Displaced m t c.xy c'.xy ∧ Displaced m t (c.ethX, c.ethY) (c'.ethX, c'.ethY) ∧
  (c.ip = none ↔ c'.ip = none) ∧ c'.scamp = c.scamp ∧ c'.placable = c.placable ∧ c'.sdram = c.sdram ∧
  c'.router.nEntries = c.router.nEntries ∧ c'.tags = c.tags ∧ c'.parentLink = c.parentLink ∧
  (∀ i, HasLink c i ↔ HasLink c' i) ∧
  ∀ i l l', c.router.getLink i = some l → c'.router.getLink i = some l' →
    Displaced m t (l.destX, l.destY) (l'.destX, l'.destY)

end SpiNN.Spec
