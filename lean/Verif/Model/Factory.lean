import Verif.Model.Machine

/-!
# `machine_factory.py`

The version and the `repair_machine` setting are parameters. Texts of messages and logging are not
modelled; looking up what goes into a message is, since it can raise. `removed_chips` is a
collection that can be searched more than once here; for an iterator see `Model/Lazy.lean`. The chips of the new machine that lost no link
are the same objects as in the old machine; here they are equal values (see `Model/Sharing.lean`).
-/

namespace SpiNN

/-- a dead link `(x, y, out, back)` -/
abbrev DeadLink := Int × Int × Int × Int

/-- the body of the loop of `_machine_ignore` for a chip that is kept, `machine_factory.py`
62-72. `links_map` (56-58) is the set of link ids of the dead links of the chip. -/
def ignoreLinks (dead : List DeadLink) (c : Chip) : Except PyErr Chip :=
  let ids := (dead.filter fun d => (d.1, d.2.1) = c.xy).map fun d => d.2.2.1
  if ids = [] then .ok c
  else match Router.mk' (c.router.linkList.filter fun l => l.sourceLinkId ∉ ids) c.router.nEntries with
    | .error e => .error e
    | .ok r => .ok (Chip.mk' c.x c.y c.scamp c.placable r c.sdram c.ethX c.ethY c.ip (some c.tags) none)

/-- the loop of `_machine_ignore`, `machine_factory.py` 59-73 -/
def ignoreLoop (deadChips : List XY) (dead : List DeadLink) : List Chip → Machine → Except PyErr Machine
  | [], m => .ok m
  | c :: cs, m =>
    if c.xy ∈ deadChips then ignoreLoop deadChips dead cs m
    else match ignoreLinks dead c with
      | .error e => .error e
      | .ok c' => match m.addChip c' with
        | .error e => .error e
        | .ok m' => ignoreLoop deadChips dead cs m'

/-- `_machine_ignore`, `machine_factory.py` 28-77 -/
def machineIgnore (v : Version) (m : Machine) (deadChips : List XY) (dead : List DeadLink) :
    Except PyErr Machine :=
  match v.kind.createMachine (some m.width) (some m.height) "Fixed" with
  | .error e => .error e
  | .ok m0 => match ignoreLoop deadChips dead m.chipList m0 with
    | .error e => .error e
    | .ok m1 =>
      let m2 := (m1.addSpinnakerLinks v).addFpgaLinks v
      match m2.validate v with
      | .error e => .error e
      | .ok () => .ok m2

/-- the lookups of `_generate_uni_direction_link_error`, `machine_factory.py` 80-121 -/
def uniDirectionError (m : Machine) (dest src : XY) : Except PyErr Unit :=
  match m.getItem src with
  | .error e => .error e
  | .ok s => match m.getItem (s.ethX, s.ethY) with
    | .error e => .error e
    | .ok _ => match m.getChipAt dest.1 dest.2 with
      | none => .ok ()
      | some d => match m.getItem (d.ethX, d.ethY) with
        | .error e => .error e
        | .ok _ => .ok ()

/-- the local variables of `machine_repair`, `machine_factory.py` 141-146: the sets of dead items
as lists, and whether `error_message` is not empty -/
structure Found where
  deadChips : List XY := []
  deadLinks : List DeadLink := []
  errors : Bool := false
  deriving DecidableEq, Repr

/-- a problem that makes a chip dead, or an error without `repair_machine` -/
def Found.chip (repair : Bool) (p : XY) (f : Found) : Found :=
  if repair then { f with deadChips := f.deadChips ++ [p] } else { f with errors := true }

/-- the same for a link -/
def Found.link (repair : Bool) (d : DeadLink) (f : Found) : Found :=
  if repair then { f with deadLinks := f.deadLinks ++ [d] } else { f with errors := true }

/-- the loops over unreachable chips, `machine_factory.py` 148-160 and 161-173 -/
def findUnreachable (repair : Bool) (m : Machine) : List XY → Found → Except PyErr Found
  | [], f => .ok f
  | p :: ps, f => match m.getItem p with
    | .error e => .error e
    | .ok c => match m.getItem (c.ethX, c.ethY) with
      | .error e => .error e
      | .ok _ => findUnreachable repair m ps (f.chip repair p)

/-- the loop over one way links, `machine_factory.py` 174-186 -/
def findOneWay (repair : Bool) (removed : List XY) (m : Machine) : List DeadLink → Found → Except PyErr Found
  | [], f => .ok f
  | d :: ds, f => match m.xyOverLink d.1 d.2.1 d.2.2.1 with
    | .error e => .error e
    | .ok q =>
      if q ∈ removed then findOneWay repair removed m ds { f with deadLinks := f.deadLinks ++ [d] }
      else match uniDirectionError m q (d.1, d.2.1) with
        | .error e => .error e
        | .ok () => findOneWay repair removed m ds (f.link repair d)

/-- the loop over parents, `machine_factory.py` 188-207 -/
def findParents (repair : Bool) (m : Machine) : List Chip → Found → Except PyErr Found
  | [], f => .ok f
  | c :: cs, f => match c.parentLink with
    | none => findParents repair m cs f
    | some i => match m.xyOverLink c.x c.y i with
      | .error e => .error e
      | .ok q =>
        if m.isChipAt q.1 q.2 then findParents repair m cs f
        else match m.getItem (c.ethX, c.ethY) with
          | .error e => .error e
          | .ok _ => findParents repair m cs (f.chip repair c.xy)

/-- the four loops of `machine_repair`, `machine_factory.py` 148-207 -/
def repairFind (repair : Bool) (removed : List XY) (m : Machine) : Except PyErr Found :=
  match findUnreachable repair m m.unreachableIncomingLocalChips {} with
  | .error e => .error e
  | .ok f => match findUnreachable repair m m.unreachableOutgoingLocalChips f with
    | .error e => .error e
    | .ok f => match findOneWay repair removed m m.oneWayLinks f with
      | .error e => .error e
      | .ok f => findParents repair m m.chipList f

/-- `machine_repair`, `machine_factory.py` 124-216; `none` means that the recursion never ends -/
def machineRepair (v : Version) (repair : Bool) (removed : List XY) (m : Machine) :
    Option (Except PyErr Machine) :=
  match repairFind repair removed m with
  | .error e => some (.error e)
  | .ok f =>
    if !repair && f.errors then some (.error .machine)
    else if f.deadChips = [] ∧ f.deadLinks = [] then some (.ok m)
    else match machineIgnore v m f.deadChips f.deadLinks with
      | .error e => some (.error e)
      | .ok m' => machineRepair v repair [] m'
partial_fixpoint

end SpiNN
