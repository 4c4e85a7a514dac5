import Verif.Model.Describe
import Verif.Model.Routing
import Verif.Model.Tags
import Verif.Model.CoreSubsets

/-!
# The texts of the other objects: their `__str__` and `__repr__`

`str(chip)` is in `Describe.lean`. `CoreSubset.__repr__` (`core_subset.py` 77-78) prints an `OrderedSet` of
`spinn_utilities`, whose text is not in this code, and is not modelled. Where both are defined, `__str__` and
`__repr__` are the same (`link.py` 100-101, `router.py` 212-213, `machine.py` 913-914,
`spinnaker_link_data.py` 64-65, `routing_entry.py` 210-211, `multicast_routing_entry.py` 156-157).
-/

namespace SpiNN

/-- `sep.join(texts)` -/
def joinStr (sep : PyStr) : List PyStr → PyStr
  | [] => []
  | [a] => a
  | a :: b :: l => a ++ sep ++ joinStr sep (b :: l)

/-- `Link.__str__`, `link.py` 93-98. -/
def Link.toStr (l : Link) : PyStr :=
  "[Link: source_x=".toList ++ (showInt l.sourceX ++ (", source_y=".toList ++ (showInt l.sourceY ++
    (", source_link_id=".toList ++ (showInt l.sourceLinkId ++ (", destination_x=".toList ++ (showInt l.destX ++
    (", destination_y=".toList ++ (showInt l.destY ++ "]".toList)))))))))

/-- `Router.__str__`, `router.py` 206-210; the text of a list has the `repr` of its members. -/
def Router.toStr (r : Router) : PyStr :=
  "[Router: available_entries=".toList ++ (showInt r.nEntries ++ (", links=[".toList ++
    (joinStr ", ".toList (r.links.values.map Link.toStr) ++ "]]".toList)))

/-- `Machine.__str__`, `machine.py` 909-911. -/
def Machine.toStr (m : Machine) : PyStr :=
  "[".toList ++ (m.origin.toList ++ (m.wrap.label.toList ++ ("Machine: width=".toList ++ (showInt m.width ++
    (", height=".toList ++ (showInt m.height ++ (", n_chips=".toList ++ (showInt m.chips.size ++ "]".toList))))))))

/-- `SpinnakerLinkData.__str__`, `spinnaker_link_data.py` 59-62; as in the code, the link is that of the
SpiNNaker link id. -/
def SpinLinkData.toStr (d : SpinLinkData) : PyStr :=
  "id:".toList ++ (showInt d.linkId ++ (" x:".toList ++ (showInt d.x ++ (" y:".toList ++ (showInt d.y ++
    (" link:".toList ++ (showInt d.linkId ++ (" ".toList ++ d.board))))))))

/-- `RoutingEntry.__repr__`, `routing_entry.py` 201-208. The text is kept by the entry and not made again;
nothing it depends on changes (`C44_reading_is_pure`). -/
def RoutingEntry.toStr (e : RoutingEntry) : PyStr :=
  "{".toList ++ (joinStr ", ".toList ((Machine.sortedInts e.processorIds).map showInt) ++ ("}:{".toList ++
    (joinStr ", ".toList ((Machine.sortedInts e.linkIds).map showInt) ++ ("}".toList ++
    (if e.defaultable then "(defaultable)".toList else [])))))

/-- an upper case hexadecimal digit -/
def hexChar (n : Nat) : Char := if n < 10 then Char.ofNat (48 + n) else Char.ofNat (55 + n)

/-- `f"{n:X}"` -/
def showHex (n : Nat) : PyStr :=
  if n < 16 then [hexChar n] else showHex (n / 16) ++ [hexChar (n % 16)]

/-- `f"{n:08X}"` -/
def showHex8 (n : Nat) : PyStr := List.replicate (8 - (showHex n).length) '0' ++ showHex n

/-- `MulticastRoutingEntry.__repr__`, `multicast_routing_entry.py` 152-154. -/
def MulticastRoutingEntry.toStr (m : MulticastRoutingEntry) : PyStr :=
  "0x".toList ++ (showHex8 m.key ++ (":0x".toList ++ (showHex8 m.mask ++ (":".toList ++ m.entry.toStr))))

/-- `f"{b}"` of a bool -/
def showBool (b : Bool) : PyStr := if b then "True".toList else "False".toList

/-- `IPTag.__repr__`, `tags/iptag.py` 98-105. -/
def IPTag.toStr (t : IPTag) : PyStr :=
  "IPTag(board_address=".toList ++ (t.boardAddress ++ (", destination_x=".toList ++ (showInt t.destX ++
    (", destination_y=".toList ++ (showInt t.destY ++ (", tag=".toList ++ (showInt t.tag ++ (", port=".toList ++
    (showInt t.port ++ (", ip_address=".toList ++ (t.ipAddress ++ (", strip_sdp=".toList ++ (showBool t.stripSdp ++
    (", traffic_identifier=".toList ++ (t.trafficIdentifier ++ ")".toList)))))))))))))))

/-- `ReverseIPTag.__repr__`, `tags/reverse_iptag.py` 88-94. -/
def ReverseIPTag.toStr (t : ReverseIPTag) : PyStr :=
  "ReverseIPTag(board_address=".toList ++ (t.boardAddress ++ (", tag=".toList ++ (showInt t.tag ++
    (", port=".toList ++ (showInt t.port ++ (", destination_x=".toList ++ (showInt t.destX ++
    (", destination_y=".toList ++ (showInt t.destY ++ (", destination_p=".toList ++ (showInt t.destP ++
    (", sdp_port=".toList ++ (showInt t.sdpPort ++ ")".toList)))))))))))))

/-- `f"{xy}"` of a pair of ints -/
def showXY (p : XY) : PyStr :=
  "(".toList ++ (showInt p.1 ++ (", ".toList ++ (showInt p.2 ++ ")".toList)))

/-- `CoreSubsets.__repr__`, `core_subsets.py` 161-170: the keys of the dictionary. -/
def CoreGroup.toStr (g : CoreGroup) : PyStr := joinStr [] (g.map.keys.map showXY)

end SpiNN
