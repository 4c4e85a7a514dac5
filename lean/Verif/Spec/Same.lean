import Verif.Model.Machine

/-!
# Two machines that give the same answers
-/

namespace SpiNN.Spec
open SpiNN

/-- the two machines give the same answer to every query that returns numbers, coordinates, or texts,
in the same order -/
structure SameAnswers (v : Version) (m m' : Machine) : Prop where
  width : m'.width = m.width
  height : m'.height = m.height
  coordinates : m'.chipCoordinates = m.chipCoordinates
  nChips : m'.nChips = m.nChips
  isChipAt : ∀ x y, m'.isChipAt x y = m.isChipAt x y
  isLinkAt : ∀ x y i, m'.isLinkAt x y i = m.isLinkAt x y i
  bootAddr : m'.bootAddr = m.bootAddr
  ethernets : m'.ethernetChips.map (fun c => (c.x, c.y, c.ip)) = m.ethernetChips.map fun c => (c.x, c.y, c.ip)
  coresCount : m'.getCoresCount = m.getCoresCount
  totalCores : m'.totalCores = m.totalCores
  userCores : m'.totalAvailableUserCores = m.totalAvailableUserCores
  routerEntries : m'.minNRouterEnteries = m.minNRouterEnteries
  validate : m'.validate v = m.validate v
  unused : m'.getUnusedXY = m.getUnusedXY
  outgoing : m'.unreachableOutgoingChips = m.unreachableOutgoingChips
  incoming : m'.unreachableIncomingChips = m.unreachableIncomingChips
  outgoingLocal : m'.unreachableOutgoingLocalChips = m.unreachableOutgoingLocalChips
  incomingLocal : m'.unreachableIncomingLocalChips = m.unreachableIncomingLocalChips
  oneWay : m'.oneWayLinks = m.oneWayLinks
  overLink : ∀ x y i, m'.xyOverLink x y i = m.xyOverLink x y i
  globalXY : ∀ x y ex ey, m'.getGlobalXY x y ex ey = m.getGlobalXY x y ex ey
  board : ∀ ex ey, m'.xysByEthernet ex ey = m.xysByEthernet ex ey
  existing : ∀ ex ey, m'.existingXysByEthernet ex ey = m.existingXysByEthernet ex ey
  down : ∀ ex ey, m'.downXysByEthernet ex ey = m.downXysByEthernet ex ey

/-- the two machines look up the same SpiNNaker and FPGA links, by board address, by coordinates and by
default, and have the same number of FPGA links -/
structure SameLinks (m m' : Machine) : Prop where
  spinnaker : ∀ i board coords, m'.getSpinnakerLink i board coords = m.getSpinnakerLink i board coords
  fpga : ∀ f i board coords, m'.getFpgaLink f i board coords = m.getFpgaLink f i board coords
  nFpga : m'.nFpgaLinks = m.nFpgaLinks

/-- the two results are the same exception, or machines that give the same answers and have the same links -/
def SameOutcome (v : Version) (a b : Except PyErr Machine) : Prop :=
  (∃ e, a = .error e ∧ b = .error e) ∨
  ∃ p p', a = .ok p ∧ b = .ok p' ∧ SameAnswers v p p' ∧ SameLinks p p'

end SpiNN.Spec
