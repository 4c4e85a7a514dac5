import Verif.Model.LiveLinks
import Verif.Spec.Machine

/-!
# Programs that read links while they add links
-/

namespace SpiNN.Spec
open SpiNN

/-- what a program does with a router while it holds an iterator: `next()`, or `add_link`, whose exception the
program catches -/
inductive RouterStep where
  | next
  | add (l : Link)
  deriving DecidableEq

/-- the router after these steps -/
def routerAfter : Router → List RouterStep → Router
  | r, [] => r
  | r, .next :: rest => routerAfter r rest
  | r, .add l :: rest => match r.addLink l with
    | .ok r' => routerAfter r' rest
    | .error _ => routerAfter r rest

/-- the router at the moments of `next()` -/
def routerMoments : Router → List RouterStep → List Router
  | _, [] => []
  | r, .next :: rest => r :: routerMoments r rest
  | r, .add l :: rest => match r.addLink l with
    | .ok r' => routerMoments r' rest
    | .error _ => routerMoments r rest

/-- what a program does with a machine while it holds `machine.spinnaker_links`: `next()`, or a call that adds
chips or links -/
inductive MachineStep where
  | next
  | call (o : Op)

/-- the machine after these steps -/
def machineAfter (v : Version) : Machine → List MachineStep → Machine
  | m, [] => m
  | m, .next :: rest => machineAfter v m rest
  | m, .call o :: rest => machineAfter v (step v m o).1 rest

/-- the machine at the moments of `next()` -/
def machineMoments (v : Version) : Machine → List MachineStep → List Machine
  | _, [] => []
  | m, .next :: rest => m :: machineMoments v m rest
  | m, .call o :: rest => machineMoments v (step v m o).1 rest

/-- how often a program calls `next()` -/
def nexts : List MachineStep → Nat
  | [] => 0
  | .next :: rest => nexts rest + 1
  | .call _ :: rest => nexts rest

/-- how `n` calls of `next()` read a list: its items in order, then `StopIteration` -/
def reads {α : Type} (l : List α) (n : Nat) : List (Reply α) :=
  (l.map Reply.got ++ List.replicate n Reply.stop).take n

end SpiNN.Spec
