import Verif.Model.Machine

/-!
# Specification of machine histories

A machine is a list of chips, at most one per coordinate, in order of addition.
-/

namespace SpiNN.Spec
open SpiNN

/-- the API calls that change a machine -/
inductive Op where
  | addChip (c : Chip)
  | addChips (cs : List Chip)
  /-- `machine[p].router.add_link(l)` -/
  | addLink (p : XY) (l : Link)
  | addSpinnakerLinks
  | addFpgaLinks

/-- adding a link to a chip's router after the chip was added -/
def Op.isAddLink : Op → Bool
  | .addLink .. => true
  | _ => false

/-- one call on the real machine: the machine afterwards and the exception raised -/
def step (v : Version) (m : Machine) : Op → Machine × Option PyErr
  | .addChip c => match m.addChip c with
    | .ok m' => (m', none)
    | .error e => (m, some e)
  | .addChips cs => m.addChips cs
  | .addLink p l => match m.routerAddLink p l with
    | .ok m' => (m', none)
    | .error e => (m, some e)
  | .addSpinnakerLinks => (m.addSpinnakerLinks v, none)
  | .addFpgaLinks => (m.addFpgaLinks v, none)

/-- a history of calls; the outcomes are collected -/
def run (v : Version) : Machine → List Op → Machine × List (Option PyErr)
  | m, [] => (m, [])
  | m, o :: os =>
    let r := run v (step v m o).1 os
    (r.1, (step v m o).2 :: r.2)

/-- the abstract machine: the chips in order of addition -/
abbrev Chips := List Chip

/-- the chip at a coordinate -/
def Chips.at (s : Chips) (p : XY) : Option Chip := s.find? fun c => c.xy = p

/-- abstract `add_chip` -/
def Chips.add (s : Chips) (c : Chip) : Chips × Option PyErr :=
  if (s.at c.xy).isSome then (s, some .alreadyExists) else (s ++ [c], none)

/-- abstract `add_chips`: up to the first failure -/
def Chips.addAll : Chips → List Chip → Chips × Option PyErr
  | s, [] => (s, none)
  | s, c :: cs => match s.add c with
    | (s', none) => addAll s' cs
    | (_, some e) => (s, some e)

/-- abstract `router.add_link` of the chip at `p` -/
def Chips.addLink (s : Chips) (p : XY) (l : Link) : Chips × Option PyErr :=
  match s.at p with
  | none => (s, some .keyError)
  | some c =>
    if l.sourceLinkId ∈ c.router.iter.map (·.1) then (s, some .alreadyExists)
    else (s.map fun d => if d.xy = p then
      { d with router := { d.router with links := ⟨d.router.iter ++ [(l.sourceLinkId, l)]⟩ } } else d, none)

/-- one call on the abstract machine -/
def absStep (s : Chips) : Op → Chips × Option PyErr
  | .addChip c => s.add c
  | .addChips cs => s.addAll cs
  | .addLink p l => s.addLink p l
  | .addSpinnakerLinks => (s, none)
  | .addFpgaLinks => (s, none)

/-- a history on the abstract machine -/
def absRun : Chips → List Op → Chips × List (Option PyErr)
  | s, [] => (s, [])
  | s, o :: os =>
    let r := absRun (absStep s o).1 os
    (r.1, (absStep s o).2 :: r.2)

/-- a machine obtained from the API: created by a version and changed by a history of calls -/
def Reachable (v : Version) (w h : Int) (m : Machine) : Prop :=
  ∃ o ops m₀, v.kind.createMachine (some w) (some h) o = .ok m₀ ∧ m = (run v m₀ ops).1

/-- the chip `c` of the machine has a working link in direction `d` -/
def HasLink (c : Chip) (d : Int) : Prop := d ∈ c.router.iter.map (·.1)

end SpiNN.Spec
