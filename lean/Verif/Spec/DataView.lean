import Verif.Model.DataView

/-!
# What the data view holds, in terms of what happened

A history is a list of calls; it makes a list of events. What the view holds is defined by the last
event of a kind.
-/

namespace SpiNN.Spec
open SpiNN

/-- one call of the data view or writer -/
inductive DOp where
  | call (c : Call)
  | getMachine
  | getChipAt (x y : Int)

/-- a history: every call with the outside world at the time -/
abbrev History := List (Env × DOp)

/-- the state of the data view after one more call -/
def dstep (s : DView) (e : Env × DOp) : DView :=
  match e.2 with
  | .call c => (s.call e.1 c).1
  | .getMachine => (s.getMachine e.1).1
  | .getChipAt x y => (s.getChipAt e.1 x y).1

/-- the state of the data view after a history -/
def after (h : History) : DView := h.foldl dstep .new

/-- the events that matter -/
inductive Event where
  /-- a machine was set -/
  | set (m : Machine)
  /-- the machine was dropped: `clear_machine`, or user code asked for it after a soft reset -/
  | drop
  /-- `_hard_reset` -/
  | hard
  /-- `_setup` -/
  | setup
  /-- `_mock` -/
  | mock
  /-- a generator was registered -/
  | generator (i : Nat)
  /-- user code asked for the machine -/
  | access
  /-- `add_monitor_core(all_chips)` -/
  | monitor (all : Bool)
  /-- the version was made from the settings -/
  | version (v : Version)
  /-- a virtual to physical map was accepted -/
  | vToP (m : VToP)

namespace Event

/-- the event clears everything that a hard reset clears -/
def resets : Event → Bool
  | .hard | .setup | .mock => true
  | _ => false

/-- the event clears everything -/
def clears : Event → Bool
  | .setup | .mock => true
  | _ => false

end Event

/-- the events after the last one with `p` -/
def since (p : Event → Bool) (evs : List Event) : List Event := (evs.reverse.takeWhile fun e => !p e).reverse

/-- the last machine set since it was last dropped or reset -/
def heldMachine (evs : List Event) : Option Machine :=
  match evs.reverse.find? fun | .set _ | .drop => true | e => e.resets with
  | some (.set m) => some m
  | _ => none

/-- the generator last registered since everything was cleared; in mock mode, if none was registered
since, the one that makes a virtual machine -/
def heldGenerator (evs : List Event) : Option Gen :=
  match evs.reverse.find? fun | .generator _ => true | e => e.clears with
  | some (.generator i) => some (.user i)
  | some .mock => some .mock
  | _ => none

/-- the version last made since everything was cleared -/
def heldVersion (evs : List Event) : Option Version :=
  match evs.reverse.find? fun | .version _ => true | e => e.clears with
  | some (.version v) => some v
  | _ => none

/-- the virtual to physical map last accepted since the last reset -/
def heldMap (evs : List Event) : Option VToP :=
  match evs.reverse.find? fun | .vToP _ => true | e => e.resets with
  | some (.vToP m) => some m
  | _ => none

/-- user code asked for the machine since the last reset -/
def accessed (evs : List Event) : Bool := (since Event.resets evs).any fun | .access => true | _ => false

/-- the calls of `add_monitor_core` since the last reset -/
def nMonitors (evs : List Event) : Nat := (since Event.resets evs).countP fun | .monitor _ => true | _ => false

/-- the calls of `add_monitor_core(True)` since the last reset -/
def nAllMonitors (evs : List Event) : Nat := (since Event.resets evs).countP fun | .monitor true => true | _ => false

/-- there is a quad map: the version is a SpiNNaker2 one -/
def heldQuads (evs : List Event) : Bool :=
  match heldVersion evs with
  | some v => !v.kind.isSpin1
  | none => false

/-- asking for the version makes it from the settings if there is none -/
def versionEvents (env : Env) (evs : List Event) : List Event :=
  match heldVersion evs with
  | some _ => []
  | none => match VersionFactory.versionFactory env.minor env.cfg with
    | .ok v => [.version v]
    | .error _ => []

/-- the events of a call after the events `evs` -/
def callEvents (env : Env) (evs : List Event) : Call → List Event
  | .mock => [.mock]
  | .setup => [.setup]
  | .hardReset => [.hard]
  | .setMachine (some m) => [.set m]
  | .clearMachine => [.drop]
  | .setGenerator (some i) => [.generator i]
  | .addMonitor all => [.monitor all]
  | .getVersion => versionEvents env evs
  | .physicalQuad _ => versionEvents env evs
  | .setVToP m => if heldQuads evs ∨ heldMap evs ≠ none then [] else [.vToP m]
  | _ => []

/-- the events of several calls after the events `evs` -/
def callsEvents (env : Env) (evs : List Event) : List Call → List Event
  | [] => []
  | c :: cs => let new := callEvents env evs c
    new ++ callsEvents env (evs ++ new) cs

/-- asking for the version raises: the settings are wrong, or it is made now and there would be two
maps -/
def versionResult (env : Env) (evs : List Event) : Except PyErr Version :=
  match heldVersion evs with
  | some v => .ok v
  | none => match VersionFactory.versionFactory env.minor env.cfg with
    | .error e => .error e
    | .ok v => if ¬ v.kind.isSpin1 ∧ ∃ m, heldMap evs = some m ∧ m.size ≠ 0 then .error .machine else .ok v

/-- the events of running a generator after the events `evs`, and what it raises. The mock generator
sets a virtual machine of one board. -/
def genEvents (env : Env) (evs : List Event) : Gen → List Event × Option PyErr
  | .user i => (callsEvents env evs (env.gens i).calls, (env.gens i).raises)
  | .mock => match versionResult env evs with
    | .error e => (versionEvents env evs, some e)
    | .ok v => match virtualMachineByBoards v env.down 1 true with
      | .error e => (versionEvents env evs, some e)
      | .ok m => (versionEvents env evs ++ [.set m], none)

/-- the events of asking for the machine, before a generator runs -/
def accessEvents (env : Env) : List Event :=
  if env.userMode then .access :: (if env.softReset then [.drop] else []) else []

/-- the events of asking for the machine after the events `evs`: the generator runs only if no machine
is held -/
def machineEvents (env : Env) (evs : List Event) : List Event :=
  let acc := accessEvents env
  match heldMachine (evs ++ acc), heldGenerator (evs ++ acc) with
  | none, some g => acc ++ (genEvents env (evs ++ acc) g).1
  | _, _ => acc

/-- what asking for the machine gives after the events `evs` -/
def machineResult (env : Env) (evs : List Event) : Except PyErr Machine :=
  let evs := evs ++ accessEvents env
  match heldMachine evs with
  | some m => .ok m
  | none => match heldGenerator evs with
    | none => .error .dataNotYetAvailable
    | some g => match genEvents env evs g with
      | (_, some e) => .error e
      | (es, none) => match heldMachine (evs ++ es) with
        | some m => .ok m
        | none => .error .machine

/-- the events of a call -/
def opEvents (env : Env) (evs : List Event) : DOp → List Event
  | .call c => callEvents env evs c
  | .getMachine => machineEvents env evs
  | .getChipAt _ _ => machineEvents env evs

/-- the events of a history -/
def eventsFrom (evs : List Event) : History → List Event
  | [] => evs
  | (env, op) :: h => eventsFrom (evs ++ opEvents env evs op) h

/-- the events of a history from the start of the program -/
def events (h : History) : List Event := eventsFrom [] h

end SpiNN.Spec
