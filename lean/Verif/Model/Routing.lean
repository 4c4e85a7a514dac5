import Verif.Model.Router
import Verif.Model.Chip

/-!
# `routing_entry.py`, `multicast_routing_entry.py` and the route conversions of `router.py`

Routes, keys and masks are natural numbers (negative integers are in `Model/RoutingInt.lean`). A `frozenset` is the duplicate free list of its members; the
code iterates over it only to build a union of bits or to test each member, and theorems speak
of membership only.
-/

namespace SpiNN

/-- a `processor_ids` / `link_ids` argument: one `int` or a collection of them,
`routing_entry.py` 51-52. -/
inductive IdArg where
  | one (i : Int)
  | many (l : List Int)
  deriving DecidableEq, Repr

/-- `if isinstance(ids, int): ids = [ids]`, `routing_entry.py` 87-90. -/
def IdArg.toList : IdArg → List Int
  | .one i => [i]
  | .many l => l

/-- `RoutingEntry`, `routing_entry.py` 21-28. `procs` and `links` are the cached
`_processor_ids` and `_link_ids`; the cached text of `__repr__` is dropped. -/
structure RoutingEntry where
  route : Nat
  procs : Option (List Int)
  links : Option (List Int)
  defaultable : Bool
  deriving DecidableEq, Repr

namespace RoutingEntry

/-- `acc | (1 << n)`; Python raises `ValueError` for a negative shift count. -/
def orBit (acc : Nat) (n : Int) : Except PyErr Nat :=
  if n < 0 then .error .valueError else .ok (acc ||| (1 <<< n.toNat))

/-- `for i in ids: route |= 1 << (offset + i)` -/
def orBits (offset : Int) : Nat → List Int → Except PyErr Nat
  | acc, [] => .ok acc
  | acc, i :: is => match orBit acc (offset + i) with
    | .error e => .error e
    | .ok acc' => orBits offset acc' is

/-- `_calc_spinnaker_route`, `routing_entry.py` 213-227. -/
def calcRoute (procs links : List Int) : Except PyErr Nat :=
  match orBits Router.maxLinks 0 procs with
  | .error e => .error e
  | .ok r => orBits 0 r links

/-- `_calc_routing_ids`, `routing_entry.py` 229-241. In Python `route & 1 << n` is
`route & (1 << n)`, tested for being non zero. -/
def calcIds (route : Nat) : List Int × List Int :=
  ((pyRange Router.maxCores).filter
      (fun pi => decide (route &&& (1 <<< (Router.maxLinks + pi).toNat) ≠ 0)),
   (pyRange Router.maxLinks).filter (fun li => decide (route &&& (1 <<< li.toNat) ≠ 0)))

/-- the value given to `_defaultable`, `routing_entry.py` 94-108. `len(link_ids)` is the length
of the collection given, duplicates included. -/
def calcDefaultable (links : List Int) (incomingProcessor incomingLink : Option Int) :
    Except PyErr Bool :=
  match incomingLink with
  | none => .ok false
  | some inc =>
    match incomingProcessor with
    | some _ => .error .invalidParameter
    | none =>
      match links with
      | [l] => .ok (decide (pmod (inc + 3) 6 = l))
      | _ => .ok false

/-- `RoutingEntry(...)`, `routing_entry.py` 49-120. -/
def mk' (processorIds linkIds : Option IdArg := none) (incomingProcessor incomingLink : Option Int := none)
    (defaultable : Option Bool := none) (spinnakerRoute : Option Nat := none) :
    Except PyErr RoutingEntry :=
  match spinnakerRoute with
  | none =>
    match processorIds, linkIds, defaultable with
    | some ps, some ls, none =>
      match calcRoute (orderedSet ps.toList) (orderedSet ls.toList) with
      | .error e => .error e
      | .ok r =>
        match calcDefaultable ls.toList incomingProcessor incomingLink with
        | .error e => .error e
        | .ok d => .ok { route := r, procs := some (orderedSet ps.toList)
                         links := some (orderedSet ls.toList), defaultable := d }
    | _, _, _ => .error .assertionError
  | some r =>
    match processorIds, linkIds, incomingLink, incomingProcessor with
    | none, none, none, none =>
      .ok { route := r, procs := none, links := none, defaultable := defaultable.getD false }
    | _, _, _, _ => .error .assertionError

/-- reading `processor_ids`, `routing_entry.py` 122-131: the value and the entry with its cache
filled. -/
def readProcs (e : RoutingEntry) : List Int × RoutingEntry :=
  match e.procs with
  | some p => (p, e)
  | none =>
    let (p, l) := calcIds e.route
    (p, { e with procs := some p, links := some l })

/-- reading `link_ids`, `routing_entry.py` 133-142. -/
def readLinks (e : RoutingEntry) : List Int × RoutingEntry :=
  match e.links with
  | some l => (l, e)
  | none =>
    let (p, l) := calcIds e.route
    (l, { e with procs := some p, links := some l })

/-- `processor_ids`, `routing_entry.py` 122-131 (the value). -/
def processorIds (e : RoutingEntry) : List Int := e.readProcs.1
/-- `link_ids`, `routing_entry.py` 133-142 (the value). -/
def linkIds (e : RoutingEntry) : List Int := e.readLinks.1

/-- `__eq__` (with another `RoutingEntry`), `routing_entry.py` 188-193. -/
def eq (a b : RoutingEntry) : Bool :=
  if a.route ≠ b.route then false else decide (a.defaultable = b.defaultable)

/-- `__hash__`, `routing_entry.py` 195-196 (before Python reduces it to a machine word). -/
def hash (a : RoutingEntry) : Nat := a.route * 29 * (if a.defaultable then 1 else 0) * 131

/-- `merge`, `routing_entry.py` 166-186. -/
def merge (a b : RoutingEntry) : Except PyErr RoutingEntry :=
  if a.eq b then .ok a
  else mk' (spinnakerRoute := some (a.route ||| b.route)) (defaultable := some false)

end RoutingEntry

namespace Router

/-- the body of the loops of `convert_routing_table_entry_to_spinnaker_route`,
`router.py` 160-167 and 168-174: ids outside `range(limit)` raise. -/
def convertIds (limit : Int) (offset : Int) : Nat → List Int → Except PyErr Nat
  | acc, [] => .ok acc
  | acc, i :: is =>
    if i ≥ limit ∨ i < 0 then .error .invalidParameter
    else match RoutingEntry.orBit acc (offset + i) with
      | .error e => .error e
      | .ok acc' => convertIds limit offset acc' is

/-- `convert_routing_table_entry_to_spinnaker_route`, `router.py` 146-176, given the entry's
`processor_ids` and `link_ids`. -/
def convertEntry (procs links : List Int) : Except PyErr Nat :=
  match convertIds maxCores maxLinks 0 procs with
  | .error e => .error e
  | .ok r => convertIds maxLinks 0 r links

/-- `convert_spinnaker_route_to_routing_ids`, `router.py` 178-193. -/
def convertRoute (route : Nat) : List Int × List Int :=
  ((pyRange maxCores).filter
      (fun pi => decide (route &&& (1 <<< (maxLinks + pi).toNat) ≠ 0)),
   (pyRange maxLinks).filter (fun li => decide (route &&& (1 <<< li.toNat) ≠ 0)))

end Router

/-- `MulticastRoutingEntry`, `multicast_routing_entry.py` 20-28. -/
structure MulticastRoutingEntry where
  key : Nat
  mask : Nat
  entry : RoutingEntry
  deriving DecidableEq, Repr

namespace MulticastRoutingEntry

/-- `MulticastRoutingEntry(key, mask, routing_entry)`, `multicast_routing_entry.py` 29-46. -/
def mk' (key mask : Nat) (e : RoutingEntry) : Except PyErr MulticastRoutingEntry :=
  if key &&& mask ≠ key then .error .invalidParameter
  else .ok { key := key, mask := mask, entry := e }

/-- `processor_ids`, `multicast_routing_entry.py` 66-73. -/
def processorIds (m : MulticastRoutingEntry) : List Int := m.entry.processorIds
/-- `link_ids`, `multicast_routing_entry.py` 75-82. -/
def linkIds (m : MulticastRoutingEntry) : List Int := m.entry.linkIds
/-- `defaultable`, `multicast_routing_entry.py` 84-95. -/
def defaultable (m : MulticastRoutingEntry) : Bool := m.entry.defaultable
/-- `spinnaker_route`, `multicast_routing_entry.py` 97-104. -/
def spinnakerRoute (m : MulticastRoutingEntry) : Nat := m.entry.route

/-- `merge`, `multicast_routing_entry.py` 106-134. -/
def merge (a b : MulticastRoutingEntry) : Except PyErr MulticastRoutingEntry :=
  if b.key ≠ a.key then .error .invalidParameter
  else if b.mask ≠ a.mask then .error .invalidParameter
  else match a.entry.merge b.entry with
    | .error e => .error e
    | .ok e => mk' a.key a.mask e

/-- `__eq__`, `multicast_routing_entry.py` 136-143. -/
def eq (a b : MulticastRoutingEntry) : Bool :=
  if a.key ≠ b.key then false
  else if a.mask ≠ b.mask then false
  else a.entry.eq b.entry

/-- `__hash__`, `multicast_routing_entry.py` 145-147. -/
def hash (a : MulticastRoutingEntry) : Nat := a.key * 13 + a.mask * 19 + a.entry.hash

end MulticastRoutingEntry
end SpiNN
