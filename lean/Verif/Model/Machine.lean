import Verif.Model.Chip
import Verif.Model.Version

/-!
# `machine.py`, with `link_data_objects/`

The wrap dependent methods are in `Model/Mesh.lean`; here they are applied to a machine.
`MachineDataView.get_machine_version()` is a parameter.
-/

namespace SpiNN

/-- the first component of a link key: a board address or a coordinate pair
(`machine.py` 33-34, `_SpinLinkKey`, `_FpgaLinkKey`) -/
inductive BoardKey where
  | addr (a : PyStr)
  | xy (p : XY)
  deriving DecidableEq, Repr

/-- `SpinnakerLinkData`, `link_data_objects/spinnaker_link_data.py` 18-33 and
`abstract_link_data.py` 16-31. -/
structure SpinLinkData where
  linkId : Int
  x : Int
  y : Int
  link : Int
  board : PyStr
  deriving DecidableEq, Repr

/-- `FPGALinkData`, `link_data_objects/fpga_link_data.py` 18-34 and `abstract_link_data.py`
16-31. -/
structure FpgaLinkData where
  fpgaLinkId : Int
  fpgaId : Int
  x : Int
  y : Int
  link : Int
  board : PyStr
  deriving DecidableEq, Repr

/-- `collections.Counter`: `c[k] += 1` -/
def counterInc (c : PDict Int Int) (k : Int) : PDict Int Int :=
  c.set k ((c.get? k).getD 0 + 1)

/-- `Machine`, `machine.py` 37-120. -/
structure Machine where
  wrap : Wrap
  width : Int
  height : Int
  chipCoreMap : PDict XY Int
  origin : String
  ethernetChips : List Chip
  spinLinks : PDict (BoardKey × Int) SpinLinkData
  fpgaLinks : PDict (BoardKey × Int × Int) FpgaLinkData
  bootAddr : Option PyStr
  chips : PDict XY Chip
  nCores : PDict Int Int
  nLinks : PDict Int Int
  nRouterEntries : PDict Int Int
  sdrams : PDict Int Int
  deriving DecidableEq, Repr

/-- `Machine.__init__`, `machine.py` 80-120. -/
def Machine.new (wrap : Wrap) (width height : Int) (ccm : PDict XY Int) (origin : String) :
    Machine :=
  { wrap, width, height, chipCoreMap := ccm, origin, ethernetChips := [], spinLinks := .empty
    fpgaLinks := .empty, bootAddr := none, chips := .empty, nCores := .empty, nLinks := .empty
    nRouterEntries := .empty, sdrams := .empty }

/-- `create_machine`, `abstract_version.py` 298-316, and `_create_machine` (see `wrapFor`). -/
def VKind.createMachine (k : VKind) (w h : Option Int) (origin : String) : Except PyErr Machine :=
  match k.verifySize w h with
  | .error e => .error e
  | .ok () => .ok (Machine.new (k.wrapFor (w.getD 0) (h.getD 0)) (w.getD 0) (h.getD 0)
      k.chipCoreMap origin)

namespace Machine

/-- `add_chip`, `machine.py` 546-570. -/
def addChip (m : Machine) (c : Chip) : Except PyErr Machine :=
  if m.chips.contains c.xy then .error .alreadyExists
  else .ok
    { m with
      chips := m.chips.set c.xy c
      nCores := counterInc m.nCores c.nProcessors
      nLinks := counterInc m.nLinks c.router.len
      nRouterEntries := counterInc m.nRouterEntries c.router.nEntries
      sdrams := counterInc m.sdrams c.sdram
      ethernetChips := match c.ip with
        | some _ => m.ethernetChips ++ [c]
        | none => m.ethernetChips
      bootAddr := match c.ip with
        | some a => if c.xy = (0, 0) then some a else m.bootAddr
        | none => m.bootAddr }

/-- `add_chips`, `machine.py` 572-582: stops at the first failure, keeping what was added. -/
def addChips : Machine → List Chip → Machine × Option PyErr
  | m, [] => (m, none)
  | m, c :: cs => match m.addChip c with
    | .ok m' => addChips m' cs
    | .error e => (m, some e)

/-- `chips`, `machine.py` 584-591. -/
def chipList (m : Machine) : List Chip := m.chips.values
/-- `chip_coordinates`, `machine.py` 593-600. -/
def chipCoordinates (m : Machine) : List XY := m.chips.keys
/-- `__iter__`, `machine.py` 602-613. -/
def iter (m : Machine) : List (XY × Chip) := m.chips.items
/-- `__len__`, `machine.py` 615-622. -/
def len (m : Machine) : Nat := m.chips.size
/-- `n_chips`, `machine.py` 702-709. -/
def nChips (m : Machine) : Nat := m.chips.size
/-- `get_chip_at`, `machine.py` 624-635. -/
def getChipAt (m : Machine) (x y : Int) : Option Chip := m.chips.get? (x, y)
/-- `__getitem__`, `machine.py` 637-647. -/
def getItem (m : Machine) (p : XY) : Except PyErr Chip := m.chips.getE p
/-- `is_chip_at`, `machine.py` 649-659. -/
def isChipAt (m : Machine) (x y : Int) : Bool := m.chips.contains (x, y)
/-- `__contains__`, `machine.py` 671-682. -/
def containsXY (m : Machine) (p : XY) : Bool := m.chips.contains p
/-- `is_link_at`, `machine.py` 661-669. -/
def isLinkAt (m : Machine) (x y link : Int) : Bool :=
  match m.chips.get? (x, y) with
  | some c => c.router.isLink link
  | none => false

/-- `self[x, y].router.add_link(link)`: `Router.add_link` on a chip that is already in the
machine. The router object is shared, so the machine sees the new link; the counters are not
touched. -/
def routerAddLink (m : Machine) (p : XY) (l : Link) : Except PyErr Machine :=
  match m.chips.get? p with
  | none => .error .keyError
  | some c => match c.router.addLink l with
    | .error e => .error e
    | .ok r =>
      let c' := { c with router := r }
      .ok { m with
        chips := m.chips.set p c'
        ethernetChips := m.ethernetChips.map fun d => if d.xy = p then { d with router := r } else d }

/-! ### coordinates -/

/-- `xy_over_link`, see `Wrap.xyOverLink`. -/
def xyOverLink (m : Machine) (x y link : Int) : Except PyErr XY :=
  m.wrap.xyOverLink m.width m.height x y link
/-- `get_local_xy(chip)`, see `Wrap.localXY`. -/
def getLocalXY (m : Machine) (c : Chip) : XY :=
  m.wrap.localXY m.width m.height c.x c.y c.ethX c.ethY
/-- `get_global_xy`, see `Wrap.globalXY`. -/
def getGlobalXY (m : Machine) (lx ly ex ey : Int) : XY :=
  m.wrap.globalXY m.width m.height lx ly ex ey
/-- `get_xys_by_ethernet`, see `Wrap.xysByEthernet`. -/
def xysByEthernet (m : Machine) (ex ey : Int) : List XY :=
  m.wrap.xysByEthernet m.width m.height m.chipCoreMap ex ey
/-- `get_xy_cores_by_ethernet`, see `Wrap.xyCoresByEthernet`. -/
def xyCoresByEthernet (m : Machine) (ex ey : Int) : List (XY × Int) :=
  m.wrap.xyCoresByEthernet m.width m.height m.chipCoreMap ex ey
/-- `get_existing_xys_by_ethernet`, see `Wrap.existingXysByEthernet`. -/
def existingXysByEthernet (m : Machine) (ex ey : Int) : List XY :=
  m.wrap.existingXysByEthernet m.width m.height m.chipCoreMap m.chips.contains ex ey
/-- `get_down_xys_by_ethernet`, see `Wrap.downXysByEthernet`. -/
def downXysByEthernet (m : Machine) (ex ey : Int) : List XY :=
  m.wrap.downXysByEthernet m.width m.height m.chipCoreMap m.chips.contains ex ey

/-- `get_chips_by_ethernet`, `machine.py` 211-230. -/
def chipsByEthernet (m : Machine) (ex ey : Int) : Except PyErr (List Chip) :=
  (m.existingXysByEthernet ex ey).mapM fun p => m.chips.getE p

/-- `get_existing_xys_on_board`, `machine.py` 1016-1025. -/
def existingXysOnBoard (m : Machine) (c : Chip) : List XY := m.existingXysByEthernet c.ethX c.ethY

/-- `local_xys`, `machine.py` 1206-1220. -/
def localXys (m : Machine) : List XY := m.chipCoreMap.keys

/-- `boot_chip`, `machine.py` 1007-1014. -/
def bootChip (m : Machine) : Except PyErr Chip := m.chips.getE (0, 0)

/-! ### validate -/

/-- Python truth value of an optional string: `None` and `""` are false -/
def truthy : Option PyStr → Bool
  | none => false
  | some [] => false
  | some (_ :: _) => true

/-- the checks of one chip in `validate`, `machine.py` 498-534 -/
def validateChip (v : Version) (m : Machine) (c : Chip) : Except PyErr Unit :=
  if c.x < 0 then .error .machine
  else if c.y < 0 then .error .machine
  else if c.x ≥ m.width then .error .machine
  else if c.y ≥ m.height then .error .machine
  else if c.nProcessors < v.kind.minimumCores then .error .machine
  else if truthy c.ip then
    if v.kind.illegalEthernet c.x c.y then .error .machine else .ok ()
  else
    if ¬ m.isChipAt c.ethX c.ethY then .error .machine
    else if ¬ m.chipCoreMap.contains (m.getLocalXY c) then .error .machine
    else .ok ()

/-- run the checks over the chips -/
def validateChips (v : Version) (m : Machine) : List Chip → Except PyErr Unit
  | [] => .ok ()
  | c :: cs => match validateChip v m c with
    | .ok () => validateChips v m cs
    | .error e => .error e

/-- `validate`, `machine.py` 463-534. -/
def validate (v : Version) (m : Machine) : Except PyErr Unit :=
  match m.bootAddr with
  | none => .error .machine
  | some _ =>
    if m.ethernetChips.length > 1 ∧ ¬ v.kind.supportsMultipleBoards then .error .machine
    else validateChips v m m.chipList

/-! ### SpiNNaker and FPGA links -/

/-- `_add_spinnaker_link`, `machine.py` 863-869. -/
def addSpinnakerLink (m : Machine) (sId x y link : Int) (board : PyStr) : Machine :=
  let d : SpinLinkData := { linkId := sId, x, y, link, board }
  { m with spinLinks := (m.spinLinks.set (.addr board, sId) d).set (.xy (x, y), sId) d }

/-- inner loop of `add_spinnaker_links`, `machine.py` 854-861; `i` is the enumerate index -/
def addSpinnakerLinksBoard (e : Chip) (ip : PyStr) : Int → List (Int × Int × Int) → Machine → Machine
  | _, [], m => m
  | i, (lx, ly, link) :: rest, m =>
    let g := m.getGlobalXY lx ly e.x e.y
    let m' := match m.getChipAt g.1 g.2 with
      | some c => if ¬ c.router.isLink link then m.addSpinnakerLink i g.1 g.2 link ip else m
      | none => m
    addSpinnakerLinksBoard e ip (i + 1) rest m'

/-- `add_spinnaker_links`, `machine.py` 845-861. The `assert ip is not None` (853) never fails
for chips in `ethernetChips`; such a chip would be skipped here. -/
def addSpinnakerLinks (v : Version) (m : Machine) : Machine :=
  m.ethernetChips.foldl (fun m e => match e.ip with
    | some ip => addSpinnakerLinksBoard e ip 0 v.kind.spinnakerLinks m
    | none => m) m

/-- `_add_fpga_link`, `machine.py` 889-901. -/
def addFpgaLink (m : Machine) (fpgaId fpgaLink x y link : Int) (board : PyStr) (ex ey : Int) :
    Machine :=
  let d : FpgaLinkData := { fpgaLinkId := fpgaLink, fpgaId, x, y, link, board }
  { m with fpgaLinks := ((m.fpgaLinks.set (.addr board, fpgaId, fpgaLink) d).set
      (.xy (x, y), fpgaId, fpgaLink) d).set (.xy (ex, ey), fpgaId, fpgaLink) d }

/-- inner loop of `add_fpga_links`, `machine.py` 880-887 -/
def addFpgaLinksBoard (e : Chip) (ip : PyStr) :
    List (Int × Int × Int × Int × Int) → Machine → Machine
  | [], m => m
  | (lx, ly, link, fpgaId, fpgaLink) :: rest, m =>
    let g := m.getGlobalXY lx ly e.x e.y
    let m' := match m.getChipAt g.1 g.2 with
      | some c => m.addFpgaLink fpgaId fpgaLink c.x c.y link ip e.x e.y
      | none => m
    addFpgaLinksBoard e ip rest m'

/-- `add_fpga_links`, `machine.py` 871-887. -/
def addFpgaLinks (v : Version) (m : Machine) : Machine :=
  m.ethernetChips.foldl (fun m e => match e.ip with
    | some ip => addFpgaLinksBoard e ip v.kind.fpgaLinks m
    | none => m) m

/-- `get_spinnaker_link_with_id`, `machine.py` 731-777. -/
def getSpinnakerLink (m : Machine) (i : Int) (board : Option PyStr) (coords : Option XY) :
    Except PyErr SpinLinkData :=
  match coords with
  | some p =>
    if ¬ m.chips.contains p then .error .keyError
    else match m.spinLinks.get? (.xy p, i) with
      | some d => .ok d
      | none => .error .keyError
  | none =>
    match (match board with | none => m.bootAddr | some b => some b) with
    | none => .error .assertionError
    | some b => m.spinLinks.getE (.addr b, i)

/-- `get_fpga_link_with_id`, `machine.py` 779-835. -/
def getFpgaLink (m : Machine) (fpgaId fpgaLink : Int) (board : Option PyStr)
    (coords : Option XY) : Except PyErr FpgaLinkData :=
  match coords with
  | some p =>
    if ¬ m.chips.contains p then .error .keyError
    else match m.fpgaLinks.get? (.xy p, fpgaId, fpgaLink) with
      | some d => .ok d
      | none => .error .keyError
  | none =>
    match (match board with | none => m.bootAddr | some b => some b) with
    | none => .error .assertionError
    | some b => m.fpgaLinks.getE (.addr b, fpgaId, fpgaLink)

/-- `n_fpga_links`, `machine.py` 836-843. -/
def nFpgaLinks (m : Machine) : Nat := m.fpgaLinks.size

/-- `_next_fpga_link`, `machine.py` 903-907. -/
def nextFpgaLink (fpgaId fpgaLink : Int) : Int × Int :=
  if fpgaLink = 15 then (fpgaId + 1, 0) else (fpgaId, fpgaLink + 1)

/-! ### counts -/

/-- `sum(n * count for n, count in counter.items())` -/
def counterTotal (c : PDict Int Int) : Int := (c.items.map fun (n, k) => n * k).sum

/-- `get_cores_count`, `machine.py` 916-923. -/
def getCoresCount (m : Machine) : Int := counterTotal m.nCores
/-- `get_links_count`, `machine.py` 925-936; the division by two is exact here (a float in
Python, see `Model/Floats.lean`). -/
def getLinksCount (m : Machine) : Rat := (counterTotal m.nLinks : Rat) / 2
/-- `total_available_user_cores`, `machine.py` 1027-1035. -/
def totalAvailableUserCores (m : Machine) : Int := (m.chipList.map Chip.nPlacable).sum
/-- `total_cores`, `machine.py` 1037-1044. -/
def totalCores (m : Machine) : Int := (m.chipList.map Chip.nProcessors).sum

/-- insertion into a sorted list -/
def insertInt (a : Int) : List Int → List Int
  | [] => [a]
  | b :: t => if a ≤ b then a :: b :: t else b :: insertInt a t

/-- Python `sorted(l)` of ints: insertion sort -/
def sortedInts (l : List Int) : List Int := l.foldr insertInt []

/-- `min_n_router_enteries`, `machine.py` 939-947: `sorted(keys)[-1]`. -/
def minNRouterEnteries (m : Machine) : Except PyErr Int :=
  pyIndex (sortedInts m.nRouterEntries.keys) (-1)

/-! ### problems -/

/-- `unreachable_outgoing_chips`, `machine.py` 1046-1064. -/
def unreachableOutgoingChips (m : Machine) : List XY :=
  m.chipCoordinates.filter fun (x, y) => !((pyRange 6).any fun link => m.isLinkAt x y link)

/-- `moves` of `unreachable_incoming_chips`, `machine.py` 1079, and of the outgoing local
check, 1103 -/
def moves : List (Int × Int × Int) :=
  [(0, 1, 0), (1, 1, 1), (2, 0, 1), (3, -1, 0), (4, -1, -1), (5, 0, -1)]

/-- `unreachable_incoming_chips`, `machine.py` 1066-1088. -/
def unreachableIncomingChips (m : Machine) : List XY :=
  m.chipCoordinates.filter fun (x, y) => !(moves.any fun (link, mx, my) =>
    m.isLinkAt (x + mx) (y + my) (pmod (link + 3) 6))

/-- `unreachable_outgoing_local_chips`, `machine.py` 1090-1119. -/
def unreachableOutgoingLocalChips (m : Machine) : List XY :=
  (m.chipList.filter fun c => !(moves.any fun (link, mx, my) =>
    c.router.isLink link &&
      match m.chips.get? (c.x + mx, c.y + my) with
      | some n => decide (n.ethX = c.ethX) && decide (n.ethY = c.ethY)
      | none => false)).map Chip.xy

/-- `moves` of the incoming local check, `machine.py` 1138, with the enumerate index -/
def incomingMoves : List (Int × Int × Int) :=
  [(0, -1, 0), (1, -1, -1), (2, 0, -1), (3, 1, 0), (4, 1, 1), (5, 0, 1)]

/-- `unreachable_incoming_local_chips`, `machine.py` 1121-1151. -/
def unreachableIncomingLocalChips (m : Machine) : List XY :=
  (m.chipList.filter fun c => !(incomingMoves.any fun (opposite, mx, my) =>
    match m.chips.get? (c.x + mx, c.y + my) with
      | some n => n.router.isLink opposite &&
          (decide (n.ethX = c.ethX) && decide (n.ethY = c.ethY))
      | none => false)).map Chip.xy

/-- `link_checks` of `one_way_links`, `machine.py` 1157 -/
def linkChecks : List (Int × Int) := [(0, 3), (1, 4), (2, 5), (3, 0), (4, 1), (5, 2)]

/-- `one_way_links`, `machine.py` 1153-1164. -/
def oneWayLinks (m : Machine) : List (Int × Int × Int × Int) :=
  m.chipList.flatMap fun c => linkChecks.filterMap fun (out, back) =>
    match c.router.getLink out with
    | some l => if ¬ m.isLinkAt l.destX l.destY back then some (c.x, c.y, out, back) else none
    | none => none

/-! ### get_unused_xy -/

/-- `xys_by_ethernet` of `get_unused_xy`, `machine.py` 1238-1242 -/
def ethernetXys (m : Machine) : List XY :=
  m.ethernetChips.flatMap fun e => m.xysByEthernet e.x e.y

/-- the `while` loop of `get_unused_xy`, `machine.py` 1244-1249, from column `x`; `none` means
that it never returns -/
def unusedFrom (m : Machine) (used : List XY) (x : Int) : Option XY :=
  match (pyRange m.height).find? (fun y => !m.chips.contains (x, y) && !used.contains (x, y)) with
  | some y => some (x, y)
  | none => unusedFrom m used (x + 1)
partial_fixpoint

/-- `get_unused_xy`, `machine.py` 1222-1249. -/
def getUnusedXY (m : Machine) : Option XY := m.unusedFrom m.ethernetXys 0

end Machine
end SpiNN
