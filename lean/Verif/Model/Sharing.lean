import Verif.Model.Factory
import Verif.Model.CoreSubsets

/-!
# Objects that machines share

In the other files a machine has its chips as values. In the code they are objects, and one of them, the router, can
change: `Router.add_link`, `router.py` 61-72, is public. `_machine_ignore` puts `Chip` objects of one machine into
another, so two machines may have a router in common; also a program may give one `Router` to two chips. Here
routers are objects at addresses, chips hold the address of their router, and a program holds several machines.
-/

namespace SpiNN

/-- the values of a dictionary changed by `f` -/
def PDict.mapVal {K V W : Type} (f : V → W) (d : PDict K V) : PDict K W := ⟨d.items.map fun kv => (kv.1, f kv.2)⟩

/-- a `Chip` object, `chip.py` 25-108: its values, none of which changes, and the address of its router; the router in
`chip` is not used -/
structure ChipObj where
  chip : Chip
  addr : Nat
  deriving DecidableEq, Repr

/-- the chip as it is when the routers are `H` -/
def ChipObj.deref (H : Nat → Router) (c : ChipObj) : Chip := { c.chip with router := H c.addr }

/-- a `Machine` object, `machine.py` 37-120: `_chips`, `_ethernet_connected_chips` and, in `shell`, all other fields;
the chips in `shell` are not used -/
structure MachineObj where
  shell : Machine
  chips : PDict XY ChipObj
  eths : List ChipObj
  deriving Repr

namespace MachineObj

/-- the machine as it is when the routers are `H` -/
def view (H : Nat → Router) (o : MachineObj) : Machine :=
  { o.shell with chips := o.chips.mapVal (ChipObj.deref H), ethernetChips := o.eths.map (ChipObj.deref H) }

/-- a machine without chips -/
def ofShell (m : Machine) : MachineObj := { shell := m, chips := .empty, eths := [] }

/-- `add_chip`, `machine.py` 546-570, with a `Chip` object -/
def addChip (H : Nat → Router) (o : MachineObj) (c : ChipObj) : Except PyErr MachineObj :=
  if o.chips.contains c.chip.xy then .error .alreadyExists
  else .ok
    { shell := { o.shell with
        nCores := counterInc o.shell.nCores (c.deref H).nProcessors
        nLinks := counterInc o.shell.nLinks (c.deref H).router.len
        nRouterEntries := counterInc o.shell.nRouterEntries (c.deref H).router.nEntries
        sdrams := counterInc o.shell.sdrams c.chip.sdram
        bootAddr := match c.chip.ip with
          | some a => if c.chip.xy = (0, 0) then some a else o.shell.bootAddr
          | none => o.shell.bootAddr }
      chips := o.chips.set c.chip.xy c
      eths := match c.chip.ip with
        | some _ => o.eths ++ [c]
        | none => o.eths }

/-- `add_spinnaker_links`, `machine.py` 845-861: reads the chips and writes `_spinnaker_links` only -/
def addSpinnakerLinks (v : Version) (H : Nat → Router) (o : MachineObj) : MachineObj :=
  { o with shell := { o.shell with spinLinks := ((o.view H).addSpinnakerLinks v).spinLinks } }

/-- `add_fpga_links`, `machine.py` 871-887: reads the chips and writes `_fpga_links` only -/
def addFpgaLinks (v : Version) (H : Nat → Router) (o : MachineObj) : MachineObj :=
  { o with shell := { o.shell with fpgaLinks := ((o.view H).addFpgaLinks v).fpgaLinks } }

end MachineObj

/-- the loop of `_machine_ignore`, `machine_factory.py` 59-73, on objects: a chip with dead links is replaced by a new
chip with a new router, at the next free address `n`; any other chip that is kept is put into the new machine -/
def ignoreLoopObj (deadChips : List XY) (dead : List DeadLink) :
    List ChipObj → (Nat → Router) → Nat → MachineObj → Except PyErr ((Nat → Router) × Nat × MachineObj)
  | [], H, n, o => .ok (H, n, o)
  | c :: cs, H, n, o =>
    if c.chip.xy ∈ deadChips then ignoreLoopObj deadChips dead cs H n o
    else
      let ids := (dead.filter fun d => (d.1, d.2.1) = c.chip.xy).map fun d => d.2.2.1
      if ids = [] then
        match o.addChip H c with
        | .error e => .error e
        | .ok o' => ignoreLoopObj deadChips dead cs H n o'
      else
        match Router.mk' ((H c.addr).linkList.filter fun l => l.sourceLinkId ∉ ids) (H c.addr).nEntries with
        | .error e => .error e
        | .ok r =>
          match o.addChip (upd H n r) ⟨Chip.mk' c.chip.x c.chip.y c.chip.scamp c.chip.placable r c.chip.sdram
            c.chip.ethX c.chip.ethY c.chip.ip (some c.chip.tags) none, n⟩ with
          | .error e => .error e
          | .ok o' => ignoreLoopObj deadChips dead cs (upd H n r) (n + 1) o'

/-- the routers and machines of a program, by address -/
structure ObjWorld where
  routers : Nat → Router
  nRouters : Nat
  machines : Nat → MachineObj
  nMachines : Nat

namespace ObjWorld

/-- no objects yet -/
def empty : ObjWorld :=
  { routers := fun _ => ⟨.empty, 0⟩, nRouters := 0
    machines := fun _ => .ofShell (Machine.new .none 0 0 .empty ""), nMachines := 0 }

/-- what the machine at address `g` is now -/
def view (W : ObjWorld) (g : Nat) : Machine := (W.machines g).view W.routers

/-- `Router(links, n)`, `router.py` 45-59: the address of the new object -/
def newRouter (W : ObjWorld) (links : List Link) (n : Int) : Except PyErr (Nat × ObjWorld) :=
  match Router.mk' links n with
  | .error e => .error e
  | .ok r => .ok (W.nRouters, { W with routers := upd W.routers W.nRouters r, nRouters := W.nRouters + 1 })

/-- `router.add_link(l)`, `router.py` 61-72, on the object at address `a` -/
def routerAddLink (W : ObjWorld) (a : Nat) (l : Link) : Except PyErr ObjWorld :=
  match (W.routers a).addLink l with
  | .error e => .error e
  | .ok r => .ok { W with routers := upd W.routers a r }

/-- `version.create_machine(width, height, origin)`, `abstract_version.py` 298-316: the address of the new object -/
def newMachine (W : ObjWorld) (v : Version) (w h : Option Int) (origin : String) : Except PyErr (Nat × ObjWorld) :=
  match v.kind.createMachine w h origin with
  | .error e => .error e
  | .ok m => .ok (W.nMachines, { W with machines := upd W.machines W.nMachines (.ofShell m), nMachines := W.nMachines + 1 })

/-- `machine.add_chip(chip)`, `machine.py` 546-570 -/
def addChip (W : ObjWorld) (g : Nat) (c : ChipObj) : Except PyErr ObjWorld :=
  match (W.machines g).addChip W.routers c with
  | .error e => .error e
  | .ok o => .ok { W with machines := upd W.machines g o }

/-- `machine.add_spinnaker_links()`, `machine.py` 845-861 -/
def addSpinnakerLinks (W : ObjWorld) (v : Version) (g : Nat) : ObjWorld :=
  { W with machines := upd W.machines g ((W.machines g).addSpinnakerLinks v W.routers) }

/-- `machine.add_fpga_links()`, `machine.py` 871-887 -/
def addFpgaLinks (W : ObjWorld) (v : Version) (g : Nat) : ObjWorld :=
  { W with machines := upd W.machines g ((W.machines g).addFpgaLinks v W.routers) }

/-- `_machine_ignore(original, dead_chips, dead_links)`, `machine_factory.py` 28-77: the address of the new machine -/
def ignore (W : ObjWorld) (v : Version) (g : Nat) (deadChips : List XY) (dead : List DeadLink) :
    Except PyErr (Nat × ObjWorld) :=
  match v.kind.createMachine (some (W.machines g).shell.width) (some (W.machines g).shell.height) "Fixed" with
  | .error e => .error e
  | .ok m0 => match ignoreLoopObj deadChips dead (W.machines g).chips.values W.routers W.nRouters (.ofShell m0) with
    | .error e => .error e
    | .ok (H, n, o1) =>
      let o2 := (o1.addSpinnakerLinks v H).addFpgaLinks v H
      match (o2.view H).validate v with
      | .error e => .error e
      | .ok () => .ok (W.nMachines,
          { routers := H, nRouters := n, machines := upd W.machines W.nMachines o2, nMachines := W.nMachines + 1 })

/-- `machine_repair(original, removed_chips)`, `machine_factory.py` 124-216: the address of the machine returned;
`none` means that the recursion never ends -/
def repair (v : Version) (rep : Bool) (removed : List XY) (W : ObjWorld) (g : Nat) :
    Option (Except PyErr (Nat × ObjWorld)) :=
  match repairFind rep removed (W.view g) with
  | .error e => some (.error e)
  | .ok f =>
    if !rep && f.errors then some (.error .machine)
    else if f.deadChips = [] ∧ f.deadLinks = [] then some (.ok (g, W))
    else match W.ignore v g f.deadChips f.deadLinks with
      | .error e => some (.error e)
      | .ok (g', W') => repair v rep [] W' g'
partial_fixpoint

end ObjWorld
end SpiNN
