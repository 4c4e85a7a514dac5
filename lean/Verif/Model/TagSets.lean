import Verif.Model.Chip

/-!
# The sets behind `Chip.tag_ids`

In the other files the tags of a chip are a value. In the code they are an `OrderedSet` object, `chip.py` 87-92, and
`tag_ids`, `chip.py` 229-236, hands out that object, so that a program can change it. Chips which get the default tags
of an Ethernet chip do not get a set of their own: they all hold the one of the class, `chip.py` 31. Here the sets are
objects at addresses. Of a chip only the IP address and the address of its set are kept; the other attributes play no
role.
-/

namespace SpiNN

/-- a `Chip` object, `chip.py` 83-95, as far as tags are concerned: `_ip_address` and the address of `_tag_ids` -/
structure TagChip where
  ip : Option PyStr
  addr : Nat
  deriving DecidableEq, Repr

/-- the sets of tags by address (`Chip._IPTAG_IDS`, `chip.py` 31, is the one at address 0) and the chips in the order of
their creation -/
structure TagWorld where
  sets : Nat → List Int
  nSets : Nat
  chips : List TagChip

/-- the `tag_ids` argument of `Chip(...)`, `chip.py` 50: none, numbers, or what the property `tag_ids` of a chip gave, as
in `_machine_ignore`, `machine_factory.py` 68-72 -/
inductive TagArg where
  | missing
  | numbers (l : List Int)
  | ofChip (i : Nat)
  deriving DecidableEq, Repr

/-- `OrderedSet.add(t)` and `OrderedSet.discard(t)` (library code): `add` puts a new member last -/
inductive TagChange where
  | add (t : Int)
  | discard (t : Int)
  deriving DecidableEq, Repr

/-- the set after the change (library code, see `TagChange`) -/
def TagChange.apply (l : List Int) : TagChange → List Int
  | .add t => if t ∈ l then l else l ++ [t]
  | .discard t => l.filter (fun u => u ≠ t)

/-- what a program does: `Chip(..., ip_address, tag_ids)`, `chip.py` 33-95, or `chip.tag_ids.add(t)` and
`chip.tag_ids.discard(t)` on the chip made as number `i`, `chip.py` 229-236 -/
inductive TagOp where
  | chip (ip : Option PyStr) (arg : TagArg)
  | change (i : Nat) (c : TagChange)
  deriving DecidableEq, Repr

namespace TagWorld

/-- after the class statement, `chip.py` 31: no chips, and the set of the class -/
def start : TagWorld := { sets := fun _ => Chip.ipTagIds, nSets := 1, chips := [] }

/-- `OrderedSet(l)` at the next free address, and a chip that holds it, `chip.py` 88 and 90 -/
def withOwn (W : TagWorld) (ip : Option PyStr) (l : List Int) : TagWorld :=
  { sets := fun a => if a = W.nSets then orderedSet l else W.sets a
    nSets := W.nSets + 1, chips := W.chips ++ [⟨ip, W.nSets⟩] }

/-- the tags `chips[i].tag_ids` shows now, `chip.py` 229-236; `IndexError` stands for a chip the program does not have -/
def tagIds (W : TagWorld) (i : Nat) : Except PyErr (List Int) :=
  match W.chips[i]? with
  | none => .error .indexError
  | some c => .ok (W.sets c.addr)

/-- one operation: the choice of the set of a new chip is `chip.py` 87-92 -/
def step (W : TagWorld) : TagOp → Except PyErr TagWorld
  | .chip ip .missing => match ip with
    | none => .ok (W.withOwn ip [])
    | some _ => .ok { W with chips := W.chips ++ [⟨ip, 0⟩] }
  | .chip ip (.numbers l) => .ok (W.withOwn ip l)
  | .chip ip (.ofChip i) => match W.tagIds i with
    | .error e => .error e
    | .ok l => .ok (W.withOwn ip l)
  | .change i c => match W.chips[i]? with
    | none => .error .indexError
    | some o => .ok { W with sets := fun a => if a = o.addr then c.apply (W.sets a) else W.sets a }

/-- a program: operations one after the other (`chip.py` 33-95, 229-236) -/
def run (W : TagWorld) : List TagOp → Except PyErr TagWorld
  | [] => .ok W
  | op :: ops => match W.step op with
    | .error e => .error e
    | .ok W' => W'.run ops

end TagWorld
end SpiNN
