import Verif.Spec.Machine

/-!
# Specification of repairing a machine
-/

namespace SpiNN.Spec
open SpiNN

/-- a chip made by the constructors `Router(...)` and `Chip(...)`, with links added by `add_link` -/
structure RealChip (c : Chip) : Prop where
  router : ∃ ls n, Router.mk' ls n = .ok c.router
  tags : ∃ t, c.tags = orderedSet t

/-- the chip's boot-tree parent, if it has one, is in the machine -/
def ParentOK (m : Machine) (c : Chip) : Prop :=
  ∀ i, c.parentLink = some i → ∃ q : XY, m.xyOverLink c.x c.y i = .ok q ∧ m.isChipAt q.1 q.2 = true

/-- a machine without any of the problems `machine_repair` looks for -/
structure Consistent (m : Machine) : Prop where
  links : m.oneWayLinks = []
  incoming : m.unreachableIncomingLocalChips = []
  outgoing : m.unreachableOutgoingLocalChips = []
  parents : ∀ c ∈ m.chipList, ParentOK m c

/-- the attributes of a chip apart from its links and its parent -/
def SameAttributes (c' c : Chip) : Prop :=
  c'.x = c.x ∧ c'.y = c.y ∧ c'.scamp = c.scamp ∧ c'.placable = c.placable ∧ c'.sdram = c.sdram ∧
  c'.router.nEntries = c.router.nEntries ∧ c'.ethX = c.ethX ∧ c'.ethY = c.ethY ∧ c'.ip = c.ip ∧
  c'.tags = c.tags

/-- the links of `c'` are links of `c` -/
def SubLinks (c' c : Chip) : Prop := ∀ i l, c'.router.getLink i = some l → c.router.getLink i = some l

/-- `m'` is `m` with some chips and links removed -/
def SubMachine (m' m : Machine) : Prop :=
  m'.width = m.width ∧ m'.height = m.height ∧ m'.wrap = m.wrap ∧
  ∀ c' ∈ m'.chipList, ∃ c ∈ m.chipList, SameAttributes c' c ∧ SubLinks c' c

/-- `m'` moreover kept the parents -/
def KeepsParents (m' m : Machine) : Prop :=
  ∀ c' ∈ m'.chipList, ∀ c ∈ m.chipList, c'.xy = c.xy → c'.parentLink = c.parentLink

/-- a problem of the machine that is not a one-way link to one of the `removed` chips -/
inductive Unexpected (removed : List XY) (m : Machine) : Prop where
  | incoming {p : XY} (h : p ∈ m.unreachableIncomingLocalChips)
  | outgoing {p : XY} (h : p ∈ m.unreachableOutgoingLocalChips)
  | oneWay {x y out back : Int} {q : XY} (h : (x, y, out, back) ∈ m.oneWayLinks)
      (ho : m.xyOverLink x y out = .ok q) (hq : q ∉ removed)
  | parent {c : Chip} (hc : c ∈ m.chipList) (h : ¬ ParentOK m c)

end SpiNN.Spec
