import Verif.Spec.Repair

/-!
# One machine is part of a larger one
-/

namespace SpiNN.Spec
open SpiNN

/-- `m` is part of `m'`: it is no wider and no higher, its chips are chips of `m'` with the same board,
address, memory, routing entries, tags, monitors and cores, and a chip of `m` has exactly those links of
`m'` that go to chips of `m`. -/
def PartOf (m m' : Machine) : Prop :=
  m.width ≤ m'.width ∧ m.height ≤ m'.height ∧
  ∀ c ∈ m.chipList, ∃ c' ∈ m'.chipList, c'.xy = c.xy ∧ c'.ethX = c.ethX ∧ c'.ethY = c.ethY ∧ c'.ip = c.ip ∧
    c'.sdram = c.sdram ∧ c'.router.nEntries = c.router.nEntries ∧ c'.tags = c.tags ∧ c'.scamp = c.scamp ∧
    c'.placable = c.placable ∧
    ∀ i l, c.router.getLink i = some l ↔
      c'.router.getLink i = some l ∧ m.isChipAt l.destX l.destY = true

end SpiNN.Spec
