import Verif.Model.Sharing
import Verif.Spec.Repair

/-!
# Specification of programs with several machines

The states a program can reach with the calls that create or change routers and machines, in any order and on any of
its objects, whether a router belongs to no chip, one chip or several chips of one or several machines.
-/

namespace SpiNN.Spec
open SpiNN

/-- a chip made by `Chip(...)`; which router it was given is not said here -/
def Constructed (c : Chip) : Prop := ∃ x y scamp placable r sdram ethX ethY ip tags parent,
  c = Chip.mk' x y scamp placable r sdram ethX ethY ip tags parent

/-- one call; `addLink` stands for `add_link` on a router, however the program came by it -/
inductive ObjStep (v : Version) : ObjWorld → ObjWorld → Prop
  | newRouter {W W' : ObjWorld} (links : List Link) (n : Int) (a : Nat) (h : W.newRouter links n = .ok (a, W')) :
      ObjStep v W W'
  | addLink {W W' : ObjWorld} (a : Nat) (ha : a < W.nRouters) (l : Link) (h : W.routerAddLink a l = .ok W') :
      ObjStep v W W'
  | newMachine {W W' : ObjWorld} (w h : Option Int) (o : String) (g : Nat) (hh : W.newMachine v w h o = .ok (g, W')) :
      ObjStep v W W'
  | addChip {W W' : ObjWorld} (g : Nat) (hg : g < W.nMachines) (c : ChipObj) (hc : c.addr < W.nRouters)
      (hk : Constructed c.chip) (h : W.addChip g c = .ok W') : ObjStep v W W'
  | addSpinnakerLinks {W : ObjWorld} (g : Nat) (hg : g < W.nMachines) : ObjStep v W (W.addSpinnakerLinks v g)
  | addFpgaLinks {W : ObjWorld} (g : Nat) (hg : g < W.nMachines) : ObjStep v W (W.addFpgaLinks v g)
  | ignore {W W' : ObjWorld} (g g' : Nat) (hg : g < W.nMachines) (deadChips : List XY) (dead : List DeadLink)
      (h : W.ignore v g deadChips dead = .ok (g', W')) : ObjStep v W W'
  | repair {W W' : ObjWorld} (g g' : Nat) (hg : g < W.nMachines) (rep : Bool) (removed : List XY)
      (h : ObjWorld.repair v rep removed W g = some (.ok (g', W'))) : ObjStep v W W'

/-- the states of a program -/
inductive ObjReach (v : Version) : ObjWorld → Prop
  | start : ObjReach v .empty
  | step {W W'} (h : ObjReach v W) (s : ObjStep v W W') : ObjReach v W'

/-- the router of the chip at `p` of machine `g` is the object at address `a` -/
def RouterAt (W : ObjWorld) (g : Nat) (p : XY) (a : Nat) : Prop :=
  ∃ c, (W.machines g).chips.get? p = some c ∧ c.addr = a

/-- machine `g` has the router at address `a` -/
def HasRouter (W : ObjWorld) (g : Nat) (a : Nat) : Prop := ∃ p, RouterAt W g p a

end SpiNN.Spec
