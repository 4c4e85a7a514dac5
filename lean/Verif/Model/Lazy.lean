import Verif.Model.Factory

/-!
# Iterators over a machine that is changing

`chips`, `chip_coordinates` and `iter(machine)` return live iterators over a dictionary, and
`get_existing_xys_by_ethernet`, `get_down_xys_by_ethernet`, `get_chips_by_ethernet` and
`one_way_links` are generators: what they produce depends on the machine at the moment of each
`next()`, and chips can be added in between. The other model files give the list such an iterator
produces when the machine does not change. Here a program opens any number of iterators on one
machine, calls `next()` on them and adds chips, in any order.

Behaviour of CPython assumed here: an iterator over a dict remembers the number of entries and
raises `RuntimeError` at every `next()` once that number is different; an iterator that has raised
`StopIteration` does so for ever; so does a generator whose body has raised.
-/

namespace SpiNN

/-- what a call of `next()` does (CPython; no file of the repository) -/
inductive Reply (α : Type) where
  | got (a : α)
  | stop                -- StopIteration
  | raised (e : PyErr)
  deriving DecidableEq, Repr

/-- an iterator over a dict: the position and the size it remembers (CPython; no file of the
repository). The dictionary is `Machine._chips`, `machine.py` 113, 558 -/
inductive DictIter where
  | live (pos size : Nat)
  | done
  | broken
  deriving DecidableEq, Repr

/-- `next()` on an iterator over a dict with these entries now (CPython; no file of the repository) -/
def DictIter.next {α : Type} (entries : List α) : DictIter → Reply α × DictIter
  | .done => (.stop, .done)
  | .broken => (.raised .runtimeError, .broken)
  | .live pos size =>
    if entries.length ≠ size then (.raised .runtimeError, .broken)
    else match entries[pos]? with
      | some a => (.got a, .live (pos + 1) size)
      | none => (.stop, .done)

/-- the body of the generators `get_existing_xys_by_ethernet` and `get_down_xys_by_ethernet`,
`no_wrap_machine.py` 44-58, `horizontal_wrap_machine.py` 45-61, `vertical_wrap_machine.py` 45-61,
`full_wrap_machine.py` 45-61, from the places of the board it has not passed: it stops at the first
one that is (`keep`) on the machine now -/
def scan (keep : XY → Bool) : List XY → Option (XY × List XY)
  | [] => none
  | p :: ps => if keep p then some (p, ps) else scan keep ps

/-- the state of the generator `one_way_links`, `machine.py` 1153-1164: the iterator over `self.chips`
is made at the first `next()` -/
inductive OneWayGen where
  | fresh
  | running (it : DictIter) (chip : Chip) (checks : List (Int × Int))
  | finished
  deriving DecidableEq, Repr

/-- the loop over `link_checks` for one chip, `machine.py` 1159-1164, up to the next `yield` -/
def oneWayScan (m : Machine) (c : Chip) : List (Int × Int) → Option (DeadLink × List (Int × Int))
  | [] => none
  | (out, back) :: rest => match c.router.getLink out with
    | some l =>
      if ¬ m.isLinkAt l.destX l.destY back then some ((c.x, c.y, out, back), rest)
      else oneWayScan m c rest
    | none => oneWayScan m c rest

/-- the loop over the chips, `machine.py` 1158-1164, up to the next `yield`; `n` bounds the number of
chips that are left, which is never more than the number of chips of the machine -/
def oneWayChips (m : Machine) : Nat → DictIter → Reply DeadLink × OneWayGen
  | 0, _ => (.stop, .finished)
  | n + 1, it => match it.next m.chipList with
    | (.stop, _) => (.stop, .finished)
    | (.raised e, _) => (.raised e, .finished)
    | (.got c, it') => match oneWayScan m c Machine.linkChecks with
      | some (d, rest) => (.got d, .running it' c rest)
      | none => oneWayChips m n it'

/-- `next()` on the generator `one_way_links`, `machine.py` 1153-1164 -/
def OneWayGen.next (m : Machine) : OneWayGen → Reply DeadLink × OneWayGen
  | .finished => (.stop, .finished)
  | .fresh => oneWayChips m (m.nChips + 1) (.live 0 m.nChips)
  | .running it c checks => match oneWayScan m c checks with
    | some (d, rest) => (.got d, .running it c rest)
    | none => oneWayChips m (m.nChips + 1) it

/-- what an iterator over a machine produces -/
inductive Val where
  | chip (c : Chip)
  | xy (p : XY)
  | pair (p : XY) (c : Chip)
  | link (d : DeadLink)
  deriving DecidableEq, Repr

/-- the calls that return an iterator over a machine: `chips` (`machine.py` 584-591),
`chip_coordinates` (593-600), `__iter__` (602-613), `get_existing_xys_by_ethernet` (232-250),
`get_down_xys_by_ethernet` (188-209), `get_chips_by_ethernet` (211-230), `one_way_links` (1153-1164).
`get_existing_xys_on_board` (1015-1024) is `get_existing_xys_by_ethernet` of the Ethernet chip;
`iter(machine.ethernet_connected_chips)` (711-718) is an iterator over the list itself. -/
inductive Query where
  | chips | coords | pairs | ethernets
  | existing (ex ey : Int)
  | down (ex ey : Int)
  | boardChips (ex ey : Int)
  | oneWay
  deriving DecidableEq, Repr

/-- the state of an iterator; an iterator over a list has a position, or none once it has stopped
(CPython) -/
inductive Iter where
  | chips (it : DictIter)
  | coords (it : DictIter)
  | pairs (it : DictIter)
  | ethernets (pos : Option Nat)
  | existing (rest : List XY)
  | down (rest : List XY)
  | boardChips (rest : List XY)
  | oneWay (g : OneWayGen)
  deriving DecidableEq, Repr

/-- the iterator a call returns; the places of a board are those of `chip_core_map`, which does not
change -/
def Query.open (m : Machine) : Query → Iter
  | .chips => .chips (.live 0 m.nChips)
  | .coords => .coords (.live 0 m.nChips)
  | .pairs => .pairs (.live 0 m.nChips)
  | .ethernets => .ethernets (some 0)
  | .existing ex ey => .existing (m.xysByEthernet ex ey)
  | .down ex ey => .down (m.xysByEthernet ex ey)
  | .boardChips ex ey => .boardChips (m.xysByEthernet ex ey)
  | .oneWay => .oneWay .fresh

/-- the value of a result -/
def Reply.map {α β : Type} (f : α → β) : Reply α → Reply β
  | .got a => .got (f a)
  | .stop => .stop
  | .raised e => .raised e

/-- `next()` on an iterator over a machine -/
def Iter.next (m : Machine) : Iter → Reply Val × Iter
  | .chips it => let r := it.next m.chipList; (r.1.map .chip, .chips r.2)
  | .coords it => let r := it.next m.chipCoordinates; (r.1.map .xy, .coords r.2)
  | .pairs it => let r := it.next m.iter; (r.1.map (fun pc => .pair pc.1 pc.2), .pairs r.2)
  | .ethernets none => (.stop, .ethernets none)
  | .ethernets (some pos) => match m.ethernetChips[pos]? with
    | some c => (.got (.chip c), .ethernets (some (pos + 1)))
    | none => (.stop, .ethernets none)
  | .existing ps => match scan (fun p => m.chips.contains p) ps with
    | some (p, rest) => (.got (.xy p), .existing rest)
    | none => (.stop, .existing [])
  | .down ps => match scan (fun p => !m.chips.contains p) ps with
    | some (p, rest) => (.got (.xy p), .down rest)
    | none => (.stop, .down [])
  | .boardChips ps => match scan (fun p => m.chips.contains p) ps with
    | some (p, rest) => match m.chips.getE p with
      | .ok c => (.got (.chip c), .boardChips rest)
      | .error e => (.raised e, .boardChips [])
    | none => (.stop, .boardChips [])
  | .oneWay g => let r := g.next m; (r.1.map .link, .oneWay r.2)

/-- a step of a program: a call that returns an iterator (which the program calls `i`), `next()` on
an iterator, or `add_chip`, whose exception the program catches -/
inductive Step where
  | opens (i : Nat) (q : Query)
  | next (i : Nat)
  | add (c : Chip)
  deriving DecidableEq, Repr

/-- a machine and the iterators of a program -/
structure Live where
  m : Machine
  its : Nat → Option Iter

/-- one step, and what `next()` does: `opens` and `next` of iterators above, `add_chip`
`machine.py` 546-570 -/
def Live.step (s : Live) : Step → Live × List (Nat × Reply Val)
  | .opens i q => ({ s with its := fun j => if j = i then some (q.open s.m) else s.its j }, [])
  | .next i => match s.its i with
    | none => (s, [])
    | some it =>
      let r := it.next s.m
      ({ s with its := fun j => if j = i then some r.2 else s.its j }, [(i, r.1)])
  | .add c => match s.m.addChip c with
    | .ok m' => ({ s with m := m' }, [])
    | .error _ => (s, [])

/-- a program -/
def Live.run : Live → List Step → Live × List (Nat × Reply Val)
  | s, [] => (s, [])
  | s, st :: rest =>
    let r := s.step st
    let r' := Live.run r.1 rest
    (r'.1, r.2 ++ r'.2)

/-- `add_chips` of any iterator, `machine.py` 572-582: the iterator is asked for the next chip after
the last one has been added; here the iterator is `(f(c) for c in machine.chips)` over the machine
itself, with `n` chips left at most -/
def addMapped (f : Chip → Chip) : Nat → DictIter → Machine → Machine × Option PyErr
  | 0, _, m => (m, none)
  | n + 1, it, m => match it.next m.chipList with
    | (.stop, _) => (m, none)
    | (.raised e, _) => (m, some e)
    | (.got c, it') => match m.addChip (f c) with
      | .error e => (m, some e)
      | .ok m' => addMapped f n it' m'

/-- `machine.add_chips(f(c) for c in machine.chips)`, `machine.py` 572-591 -/
def Machine.addFromSelf (f : Chip → Chip) (m : Machine) : Machine × Option PyErr :=
  addMapped f (m.nChips + 1) (.live 0 m.nChips) m

/-! ### iterators as arguments -/

/-- `x in it` for an iterator: it is advanced past the first equal element, or to the end -/
def inIter (q : XY) : List XY → Bool × List XY
  | [] => (false, [])
  | p :: ps => if p = q then (true, ps) else inIter q ps

/-- the loop over one way links, `machine_factory.py` 174-186, when `removed_chips` is an iterator
with these elements left -/
def findOneWayIter (repair : Bool) (m : Machine) :
    List XY → List DeadLink → Found → Except PyErr Found
  | _, [], f => .ok f
  | it, d :: ds, f => match m.xyOverLink d.1 d.2.1 d.2.2.1 with
    | .error e => .error e
    | .ok q => match inIter q it with
      | (true, it') => findOneWayIter repair m it' ds { f with deadLinks := f.deadLinks ++ [d] }
      | (false, it') => match uniDirectionError m q (d.1, d.2.1) with
        | .error e => .error e
        | .ok () => findOneWayIter repair m it' ds (f.link repair d)

/-- the four loops of `machine_repair`, `machine_factory.py` 148-207, with an iterator -/
def repairFindIter (repair : Bool) (it : List XY) (m : Machine) : Except PyErr Found :=
  match findUnreachable repair m m.unreachableIncomingLocalChips {} with
  | .error e => .error e
  | .ok f => match findUnreachable repair m m.unreachableOutgoingLocalChips f with
    | .error e => .error e
    | .ok f => match findOneWayIter repair m it m.oneWayLinks f with
      | .error e => .error e
      | .ok f => findParents repair m m.chipList f

/-- `machine_repair`, `machine_factory.py` 124-216, when `removed_chips` is an iterator (the
annotation `Iterable[XY]` allows one); the recursive call (216) uses the default, an empty tuple -/
def machineRepairIter (v : Version) (repair : Bool) (it : List XY) (m : Machine) :
    Option (Except PyErr Machine) :=
  match repairFindIter repair it m with
  | .error e => some (.error e)
  | .ok f =>
    if !repair && f.errors then some (.error .machine)
    else if f.deadChips = [] ∧ f.deadLinks = [] then some (.ok m)
    else match machineIgnore v m f.deadChips f.deadLinks with
      | .error e => some (.error e)
      | .ok m' => machineRepair v repair [] m'

end SpiNN
