import Verif.Model.Routing
import Mathlib.Data.Int.Bitwise

/-!
# Routes, keys and masks of either sign

Python's integers have no size, and `&` and `|` of negative ones work on infinitely many two's complement
bits. `Model/Routing.lean` has routes, keys and masks that are natural numbers; here they are any
integers. `Int.land` and `Int.lor` are Python's `&` and `|` (the properties of this file show that in
terms of bits).
-/

namespace SpiNN

/-- `RoutingEntry`, `routing_entry.py` 21-28, with any integer as its route. That reading the ids stores them
in the entry is left out: what is stored is what was read (C44). -/
structure IntEntry where
  route : Int
  procs : Option (List Int)
  links : Option (List Int)
  defaultable : Bool
  deriving DecidableEq, Repr

namespace IntEntry

/-- an entry of `Model/Routing.lean`: what `RoutingEntry(processor_ids=.., link_ids=..)` gives,
`routing_entry.py` 83-108 -/
def ofEntry (e : RoutingEntry) : IntEntry := ⟨e.route, e.procs, e.links, e.defaultable⟩

/-- `RoutingEntry(spinnaker_route=route, defaultable=..)`, `routing_entry.py` 109-120 -/
def ofRoute (route : Int) (defaultable : Option Bool) : IntEntry := ⟨route, none, none, defaultable.getD false⟩

/-- `_calc_routing_ids`, `routing_entry.py` 229-241 -/
def calcIds (route : Int) : List Int × List Int :=
  ((pyRange Router.maxCores).filter
      (fun pi => decide (Int.land route ((1 <<< (Router.maxLinks + pi).toNat : Nat) : Int) ≠ 0)),
   (pyRange Router.maxLinks).filter
      (fun li => decide (Int.land route ((1 <<< li.toNat : Nat) : Int) ≠ 0)))

/-- `processor_ids`, `routing_entry.py` 122-131 (the value) -/
def processorIds (e : IntEntry) : List Int := e.procs.getD (calcIds e.route).1
/-- `link_ids`, `routing_entry.py` 133-142 (the value) -/
def linkIds (e : IntEntry) : List Int := e.links.getD (calcIds e.route).2

/-- `__eq__`, `routing_entry.py` 188-193 -/
def eq (a b : IntEntry) : Bool :=
  if a.route ≠ b.route then false else decide (a.defaultable = b.defaultable)

/-- `__hash__`, `routing_entry.py` 195-196 (before Python reduces it to a machine word) -/
def hash (a : IntEntry) : Int := a.route * 29 * (if a.defaultable then 1 else 0) * 131

/-- `merge`, `routing_entry.py` 166-186 -/
def merge (a b : IntEntry) : IntEntry :=
  if a.eq b then a else ofRoute (Int.lor a.route b.route) (some false)

end IntEntry

/-- `convert_spinnaker_route_to_routing_ids`, `router.py` 178-193, of any integer -/
def Router.convertInt (route : Int) : List Int × List Int :=
  ((pyRange maxCores).filter
      (fun pi => decide (Int.land route ((1 <<< (maxLinks + pi).toNat : Nat) : Int) ≠ 0)),
   (pyRange maxLinks).filter (fun li => decide (Int.land route ((1 <<< li.toNat : Nat) : Int) ≠ 0)))

/-- `MulticastRoutingEntry`, `multicast_routing_entry.py` 20-28, with any integers -/
structure IntMulticast where
  key : Int
  mask : Int
  entry : IntEntry
  deriving DecidableEq, Repr

namespace IntMulticast

/-- `MulticastRoutingEntry(key, mask, routing_entry)`, `multicast_routing_entry.py` 29-46 -/
def mk' (key mask : Int) (e : IntEntry) : Except PyErr IntMulticast :=
  if Int.land key mask ≠ key then .error .invalidParameter else .ok ⟨key, mask, e⟩

/-- `merge`, `multicast_routing_entry.py` 106-134 -/
def merge (a b : IntMulticast) : Except PyErr IntMulticast :=
  if b.key ≠ a.key then .error .invalidParameter
  else if b.mask ≠ a.mask then .error .invalidParameter
  else mk' a.key a.mask (a.entry.merge b.entry)

/-- `__eq__`, `multicast_routing_entry.py` 136-143 -/
def eq (a b : IntMulticast) : Bool :=
  if a.key ≠ b.key then false
  else if a.mask ≠ b.mask then false
  else a.entry.eq b.entry

/-- `__hash__`, `multicast_routing_entry.py` 145-147 -/
def hash (a : IntMulticast) : Int := a.key * 13 + a.mask * 19 + a.entry.hash

end IntMulticast
end SpiNN
