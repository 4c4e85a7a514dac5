import Verif.Model.Routing

/-!
# `RoutingEntry(...)` with iterators as `processor_ids` and `link_ids`

The doc string of the constructor allows any iterable. `Model/Routing.lean` has one integer or a collection;
here an argument may also be an iterator (a generator, `map(...)`, `iter(...)`), which can be read once, has no
length, and may be given for both arguments or to several calls. Iterators whose body raises are left out.

Behaviour of CPython assumed here: `frozenset(iterator)` reads the iterator to its end, an iterator that was read
to its end has no more items, `len(iterator)` raises `TypeError`.
-/

namespace SpiNN

/-- the iterators of a program: what each of them has left (CPython; no file of the repository) -/
abbrev Iterators := Nat → List Int

/-- a `processor_ids` or `link_ids` argument, `routing_entry.py` 51-52 and 65-68: an integer, a collection, or the
iterator with the given number -/
inductive IdSource where
  | one (i : Int)
  | many (l : List Int)
  | iter (k : Nat)
  deriving DecidableEq, Repr

/-- `frozenset(ids)`, after `if isinstance(ids, int): ids = [ids]`, `routing_entry.py` 87-92: the items in the order
read, and the iterators afterwards. -/
def IdSource.read (s : IdSource) (its : Iterators) : List Int × Iterators :=
  match s with
  | .one i => ([i], its)
  | .many l => (l, its)
  | .iter k => (its k, fun j => if j = k then [] else its j)

namespace RoutingEntry

/-- the value given to `_defaultable`, `routing_entry.py` 94-108: `len(link_ids)` and `next(iter(link_ids))` are those
of the argument, not of the set made from it. -/
def calcDefaultableFrom (links : IdSource) (incomingProcessor incomingLink : Option Int) : Except PyErr Bool :=
  match incomingLink with
  | none => .ok false
  | some inc =>
    match incomingProcessor with
    | some _ => .error .invalidParameter
    | none =>
      match links with
      | .one l => .ok (decide (pmod (inc + 3) 6 = l))
      | .many [l] => .ok (decide (pmod (inc + 3) 6 = l))
      | .many _ => .ok false
      | .iter _ => .error .typeError

/-- `RoutingEntry(processor_ids=ps, link_ids=ls, incoming_processor=.., incoming_link=..)`, `routing_entry.py` 82-108:
the outcome, and the iterators afterwards. -/
def mkFrom (its : Iterators) (ps ls : IdSource) (incomingProcessor incomingLink : Option Int) :
    Except PyErr RoutingEntry × Iterators :=
  let (p, its) := ps.read its
  let (l, its) := ls.read its
  (match calcRoute (orderedSet p) (orderedSet l) with
    | .error e => .error e
    | .ok r =>
      match calcDefaultableFrom ls incomingProcessor incomingLink with
      | .error e => .error e
      | .ok d => .ok { route := r, procs := some (orderedSet p), links := some (orderedSet l), defaultable := d }, its)

end RoutingEntry

end SpiNN
