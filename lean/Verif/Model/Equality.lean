import Verif.Model.Routing
import Verif.Model.Tags
import Verif.Model.CoreSubsets
import Verif.Model.Ignores
import Verif.Model.Machine

/-!
# `__eq__` and `__hash__` of the value classes

`PyObj` are the objects of the classes that define `__eq__`. Every `__eq__` starts with an
`isinstance` test and answers `False` for objects of other classes. The hash of a tuple or
frozenset is a function of its content that Python provides; the model keeps the content itself
(`HashOf`), so equal `HashOf` means equal hashes whatever that function is.
-/

namespace SpiNN

/-- Python `a | b` on integers of any sign (two's complement) -/
def pyOr : Int → Int → Int
  | .ofNat m, .ofNat n => .ofNat (m ||| n)
  | .ofNat m, .negSucc n => .negSucc (n ^^^ (n &&& m))
  | .negSucc m, .ofNat n => .negSucc (m ^^^ (m &&& n))
  | .negSucc m, .negSucc n => .negSucc (m &&& n)

/-- an object of one of the classes with an `__eq__` -/
inductive PyObj where
  | routing (e : RoutingEntry)
  | multicast (e : MulticastRoutingEntry)
  | ignoreChip (i : IgnoreChip)
  | ignoreCore (i : IgnoreCore)
  | ignoreLink (i : IgnoreLink)
  | ipTag (t : IPTag)
  | fpgaLink (d : FpgaLinkData)
  | spinLink (d : SpinLinkData)
  | coreSubset (s : CoreSubset)
  | version (v : Version)

/-- `IgnoreChip.__eq__`, `ignores/ignore_chip.py` 120-124. -/
def IgnoreChip.eq (a b : IgnoreChip) : Bool :=
  decide (a.x = b.x) && decide (a.y = b.y) && decide (a.ip = b.ip)
/-- `IgnoreCore.__eq__`, `ignores/ignore_core.py` 153-157. -/
def IgnoreCore.eq (a b : IgnoreCore) : Bool :=
  decide (a.x = b.x) && decide (a.y = b.y) && decide (a.p = b.p) && decide (a.ip = b.ip)
/-- `IgnoreLink.__eq__`, `ignores/ignore_link.py` 116-120. -/
def IgnoreLink.eq (a b : IgnoreLink) : Bool :=
  decide (a.x = b.x) && decide (a.y = b.y) && decide (a.link = b.link) && decide (a.ip = b.ip)
/-- `FPGALinkData.__eq__`, `link_data_objects/fpga_link_data.py` 50-58. -/
def FpgaLinkData.eq (a b : FpgaLinkData) : Bool :=
  decide (a.fpgaId = b.fpgaId) && decide (a.fpgaLinkId = b.fpgaLinkId) && decide (a.x = b.x) &&
  decide (a.y = b.y) && decide (a.link = b.link) && decide (a.board = b.board)
/-- `SpinnakerLinkData.__eq__`, `link_data_objects/spinnaker_link_data.py` 40-47. -/
def SpinLinkData.eq (a b : SpinLinkData) : Bool :=
  decide (a.linkId = b.linkId) && decide (a.x = b.x) &&
  decide (a.y = b.y) && decide (a.link = b.link) && decide (a.board = b.board)

/-- `a == b`: the `isinstance` tests at the start of each `__eq__` cited above, and those of
`routing_entry.py` 188-190, `multicast_routing_entry.py` 136-138, `tags/iptag.py` 107-109,
`core_subset.py` 80-82 and of the version classes. -/
def pyEq : PyObj → PyObj → Bool
  | .routing a, .routing b => a.eq b
  | .multicast a, .multicast b => a.eq b
  | .ignoreChip a, .ignoreChip b => a.eq b
  | .ignoreCore a, .ignoreCore b => a.eq b
  | .ignoreLink a, .ignoreLink b => a.eq b
  | .ipTag a, .ipTag b => a.eq b
  | .fpgaLink a, .fpgaLink b => a.eq b
  | .spinLink a, .spinLink b => a.eq b
  | .coreSubset a, .coreSubset b => a.eq b
  | .version a, .version b => a.eq b
  | _, _ => false

/-- what is hashed -/
inductive HashOf where
  | int (i : Int)
  | ipTag (t : PyStr × Bool × PyStr × Int × Int × PyStr)
  | fpgaLink (t : Int × Int × Int × Int × Int × PyStr)
  | spinLink (t : Int × Int × Int × Int × PyStr)
  | coreSubset (t : Int × Int × (Int → Bool))   -- a frozenset is its membership function

/-- `hash(obj)`: `routing_entry.py` 195-196, `multicast_routing_entry.py` 145-147,
`ignores/ignore_chip.py` 126-127, `ignores/ignore_core.py` 159-160, `ignores/ignore_link.py`
122-123, `tags/iptag.py` 117-119, `link_data_objects/fpga_link_data.py` 65-68,
`link_data_objects/spinnaker_link_data.py` 54-57, `core_subset.py` 89-91; versions cannot be
hashed. -/
def pyHash : PyObj → Except PyErr HashOf
  | .routing a => .ok (.int a.hash)
  | .multicast a => .ok (.int a.hash)
  | .ignoreChip a => .ok (.int (pyOr (a.x * 2 ^ 8) a.y))
  | .ignoreCore a => .ok (.int (pyOr (pyOr (a.x * 2 ^ 16) (a.y * 2 ^ 8)) a.p))
  | .ignoreLink a => .ok (.int (pyOr (pyOr (a.x * 2 ^ 16) (a.y * 2 ^ 8)) a.link))
  | .ipTag a =>
    .ok (.ipTag (a.ipAddress, a.stripSdp, a.boardAddress, a.port, a.tag, a.trafficIdentifier))
  | .fpgaLink a => .ok (.fpgaLink (a.fpgaId, a.fpgaLinkId, a.x, a.y, a.link, a.board))
  | .spinLink a => .ok (.spinLink (a.linkId, a.x, a.y, a.link, a.board))
  | .coreSubset a => .ok (.coreSubset (a.x, a.y, fun p => decide (p ∈ a.procs)))
  | .version v => match v.hash with
    | .ok i => .ok (.int i)
    | .error e => .error e

end SpiNN
