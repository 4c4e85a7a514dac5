import Verif.Model.Chip

/-!
# `tags/abstract_tag.py`, `tags/iptag.py`, `tags/reverse_iptag.py`
-/

namespace SpiNN

/-- `IPTag`, `tags/iptag.py` 19-61 with the fields of `AbstractTag`, `tags/abstract_tag.py` 16-35. -/
structure IPTag where
  boardAddress : PyStr
  tag : Int
  port : Int
  ipAddress : PyStr
  stripSdp : Bool
  trafficIdentifier : PyStr
  destX : Int
  destY : Int
  deriving DecidableEq, Repr

/-- `IPTag(...)`, `tags/iptag.py` 34-61, in the order of the Python arguments. -/
def IPTag.mk' (boardAddress : PyStr) (destX destY tag : Int) (ipAddress : PyStr) (port : Int)
    (stripSdp : Bool := false) (trafficIdentifier : PyStr := "DEFAULT".toList) : IPTag :=
  { boardAddress, tag, port, ipAddress, stripSdp, trafficIdentifier, destX, destY }

/-- `IPTag.__eq__` with another `IPTag`, `tags/iptag.py` 107-115. -/
def IPTag.eq (a b : IPTag) : Bool :=
  decide (a.ipAddress = b.ipAddress) && decide (a.stripSdp = b.stripSdp) &&
  decide (a.boardAddress = b.boardAddress) && decide (a.port = b.port) &&
  decide (a.tag = b.tag) && decide (a.trafficIdentifier = b.trafficIdentifier)

/-- `ReverseIPTag`, `tags/reverse_iptag.py` 18-57. It has no `__eq__`: two of them are equal
only if they are the same object. -/
structure ReverseIPTag where
  boardAddress : PyStr
  tag : Int
  port : Int
  destX : Int
  destY : Int
  destP : Int
  sdpPort : Int
  deriving DecidableEq, Repr

/-- `ReverseIPTag(...)`, `tags/reverse_iptag.py` 31-57. -/
def ReverseIPTag.mk' (boardAddress : PyStr) (tag port destX destY destP : Int) (sdpPort : Int := 1) :
    ReverseIPTag :=
  { boardAddress, tag, port, destX, destY, destP, sdpPort }

end SpiNN
