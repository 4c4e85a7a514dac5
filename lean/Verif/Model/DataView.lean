import Verif.Model.VersionFactory
import Verif.Model.VirtualMachine
import Verif.Model.Describe

/-!
# `data/machine_data_view.py` and `data/machine_data_writer.py`

The singleton `_MachineDataModel` is a record passed along; each method returns the new record and
its result, also when it raises. What lies outside (the settings, the Python version, the answers of
`UtilsDataView.is_user_mode`, `is_soft_reset` and `_is_mocked`, and what a registered machine
generator does when it is called) is an `Env`, which may differ from call to call. A generator makes
a finite number of calls to the data writer and then returns or raises; a generator that itself asks
for the machine is not modelled. Machines and maps are values: a later change of the object passed in
is not seen.
-/

namespace SpiNN

/-- the callable registered by `set_machine_generator`, or `_mock_machine` -/
inductive Gen where
  | mock
  | user (id : Nat)
  deriving DecidableEq, Repr

/-- a virtual to physical map -/
abbrev VToP := PDict XY (List Int)

/-- `_MachineDataModel`, `machine_data_view.py` 27-92 -/
structure DView where
  allMonitors : Int
  ethernetMonitors : Int
  machine : Option Machine
  generator : Option Gen
  version : Option Version
  quadMap : Option (PDict Int (Int × Int × Int))
  userAccessed : Bool
  vToP : Option VToP

/-- the calls of the view and the writer that never run a machine generator. The argument of
`setMachine` and `setGenerator` is `none` if it is of the wrong type. -/
inductive Call where
  | mock | setup | hardReset | softReset
  | setMachine (m : Option Machine) | clearMachine | setGenerator (g : Option Nat)
  | addMonitor (allChips : Bool)
  | getVersion | setVToP (m : VToP)
  | physicalCore (xy : XY) (p : Int) | physicalQuad (p : Int) | physicalString (xy : XY) (p : Int)
  | nearestEthernet (x y : Int) | whereIsXY (x y : Int) | whereIsChip (c : Chip)
  | hasMachine | hasExisting | userAccessed | allMonitors | ethernetMonitors

/-- what a call returns -/
inductive Out where
  | unit | int (n : Int) | bool (b : Bool) | xy (p : XY) | quad (q : Int × Int × Int)
  | text (s : PyStr) | version (v : Version)
  deriving DecidableEq, Repr

/-- what a generator does: its calls in order (the generator may or may not handle their
exceptions) and the exception it raises -/
structure GenRun where
  calls : List Call
  raises : Option PyErr

/-- the world outside the data view at the time of a call -/
structure Env where
  minor : Int
  cfg : MachineCfg
  down : DownCfg
  userMode : Bool
  softReset : Bool
  mocked : Bool
  gens : Nat → GenRun

namespace DView

/-- `_soft_reset`, `machine_data_view.py` 87-91. -/
def softReset (s : DView) : DView := s

/-- `_hard_reset`, `machine_data_view.py` 74-85. -/
def hardReset (s : DView) : DView :=
  { s.softReset with
    allMonitors := 0, ethernetMonitors := 0, machine := none, vToP := none, userAccessed := false }

/-- `_clear`, `machine_data_view.py` 65-72. -/
def clear (s : DView) : DView :=
  { s.hardReset with generator := none, version := none, quadMap := none }

/-- `__new__`, `machine_data_view.py` 56-63: a blank object (here any) after `_clear`. -/
def new : DView := clear
  { allMonitors := 0, ethernetMonitors := 0, machine := none, generator := none, version := none,
    quadMap := none, userAccessed := false, vToP := none }

/-- `bool(...)` of an optional dict -/
def truthy {K V : Type} : Option (PDict K V) → Bool
  | none => false
  | some d => d.size ≠ 0

/-- `get_machine_version`, `machine_data_view.py` 261-277. -/
def getMachineVersion (env : Env) (s : DView) : DView × Except PyErr Version :=
  match s.version with
  | some v => (s, .ok v)
  | none => match VersionFactory.versionFactory env.minor env.cfg with
    | .error e => (s, .error e)
    | .ok v =>
      let s := { s with version := some v, quadMap := v.kind.quadsMaps }
      if truthy s.quadMap ∧ truthy s.vToP then (s, .error .machine) else (s, .ok v)

/-- `set_v_to_p_map`, `machine_data_view.py` 279-295. -/
def setVToP (m : VToP) (s : DView) : DView × Except PyErr Unit :=
  if truthy s.quadMap then (s, .error .machine)
  else match s.vToP with
    | none => ({ s with vToP := some m }, .ok ())
    | some _ => (s, .error .machine)

/-- `get_physical_core_id`, `machine_data_view.py` 297-314. The exception of `cls._exception` is one
of the SpiNNUtilsExceptions. -/
def physicalCore (xy : XY) (p : Int) (s : DView) : Except PyErr Int :=
  match s.vToP with
  | none => .error .dataNotYetAvailable
  | some m => match m.getE xy with
    | .error e => .error e
    | .ok row => pyIndex row p

/-- `get_physical_quad`, `machine_data_view.py` 316-334. -/
def physicalQuad (env : Env) (p : Int) (s : DView) : DView × Except PyErr (Int × Int × Int) :=
  match s.quadMap with
  | some q => (s, q.getE p)
  | none => match s.getMachineVersion env with
    | (s, .error e) => (s, .error e)
    | (s, .ok _) => match s.quadMap with
      | none => (s, .error .dataNotYetAvailable)
      | some q => (s, q.getE p)

/-- `get_physical_string`, `machine_data_view.py` 336-356. In the branch that calls
`get_physical_quad` the quad map is not None, so that call changes nothing. -/
def physicalString (xy : XY) (p : Int) (s : DView) : PyStr :=
  match s.vToP with
  | some _ => match s.physicalCore xy p with
    | .ok n => " (ph: ".toList ++ showInt n ++ ")".toList
    | .error _ => []
  | none => match s.quadMap with
    | some q => match q.getE p with
      | .ok (qx, qy, qp) =>
        " (qpe:".toList ++ showInt qx ++ ", ".toList ++ showInt qy ++ ", ".toList ++ showInt qp ++ ")".toList
      | .error _ => []
    | none => []

/-- `get_nearest_ethernet`, `machine_data_view.py` 179-205. -/
def nearestEthernet (x y : Int) (s : DView) : XY :=
  match s.machine with
  | none => (x, y)
  | some m => match m.chips.getE (x, y) with
    | .error _ => (x, y)
    | .ok c => (c.ethX, c.ethY)

/-- `where_is_xy`, `machine_data_view.py` 207-232. The call of the machine does not raise. -/
def whereIsXY (x y : Int) (s : DView) : PyStr :=
  match s.machine with
  | none => "No Machine created yet".toList
  | some m => m.whereIsXY x y

/-- `where_is_chip`, `machine_data_view.py` 235-259. The call of the machine does not raise. -/
def whereIsChip (c : Chip) (s : DView) : PyStr :=
  match s.machine with
  | none => "Chip is from a previous machine".toList
  | some m => m.whereIsChip c

/-- The calls; `machine_data_view.py` 110-132, 358-387, `machine_data_writer.py` 41-127. -/
def call (env : Env) (s : DView) : Call → DView × Except PyErr Out
  | .mock => ({ s.clear with generator := some .mock }, .ok .unit)
  | .setup => (s.clear, .ok .unit)
  | .hardReset => (s.hardReset, .ok .unit)
  | .softReset => (s.softReset, .ok .unit)
  | .setMachine none => (s, .error .typeError)
  | .setMachine (some m) => ({ s with machine := some m }, .ok .unit)
  | .clearMachine => ({ s with machine := none }, .ok .unit)
  | .setGenerator none => (s, .error .typeError)
  | .setGenerator (some g) => ({ s with generator := some (.user g) }, .ok .unit)
  | .addMonitor all =>
    let s := { s with ethernetMonitors := s.ethernetMonitors + 1 }
    (if all then { s with allMonitors := s.allMonitors + 1 } else s, .ok .unit)
  | .getVersion => let r := s.getMachineVersion env
    (r.1, match r.2 with | .ok v => .ok (.version v) | .error e => .error e)
  | .setVToP m => let r := s.setVToP m
    (r.1, match r.2 with | .ok _ => .ok .unit | .error e => .error e)
  | .physicalCore xy p => (s, match s.physicalCore xy p with | .ok n => .ok (.int n) | .error e => .error e)
  | .physicalQuad p => let r := s.physicalQuad env p
    (r.1, match r.2 with | .ok q => .ok (.quad q) | .error e => .error e)
  | .physicalString xy p => (s, .ok (.text (s.physicalString xy p)))
  | .nearestEthernet x y => (s, .ok (.xy (s.nearestEthernet x y)))
  | .whereIsXY x y => (s, .ok (.text (s.whereIsXY x y)))
  | .whereIsChip c => (s, .ok (.text (s.whereIsChip c)))
  | .hasMachine => (s, .ok (.bool (s.machine.isSome || env.mocked)))
  | .hasExisting => (s, .ok (.bool s.machine.isSome))
  | .userAccessed => (s, .ok (.bool s.userAccessed))
  | .allMonitors => (s, .ok (.int s.allMonitors))
  | .ethernetMonitors => (s, .ok (.int s.ethernetMonitors))

/-- the calls of a generator, one after the other -/
def calls (env : Env) (s : DView) : List Call → DView
  | [] => s
  | c :: cs => calls env (s.call env c).1 cs

/-- the call `_machine_generator()`; `_mock_machine` is `machine_data_writer.py` 46-50 and
`virtual_machine_by_boards`, `virtual_machine.py` 120-142 (with `validate` true). -/
def runGenerator (env : Env) (s : DView) : Gen → DView × Option PyErr
  | .user i => (s.calls env (env.gens i).calls, (env.gens i).raises)
  | .mock => match s.getMachineVersion env with
    | (s, .error e) => (s, some e)
    | (s, .ok v) => match virtualMachineByBoards v env.down 1 true with
      | .error e => (s, some e)
      | .ok m => ({ s with machine := some m }, none)

/-- `get_machine`, `machine_data_view.py` 134-158. -/
def getMachine (env : Env) (s : DView) : DView × Except PyErr Machine :=
  let s := if env.userMode then
      { (if env.softReset then { s with machine := none } else s) with userAccessed := true }
    else s
  match s.machine with
  | some m => (s, .ok m)
  | none => match s.generator with
    | none => (s, .error .dataNotYetAvailable)
    | some g => match s.runGenerator env g with
      | (s, some e) => (s, .error e)
      | (s, none) => match s.machine with
        | none => (s, .error .machine)
        | some m => (s, .ok m)

/-- `get_chip_at`, `machine_data_view.py` 160-177. -/
def getChipAt (env : Env) (x y : Int) (s : DView) : DView × Except PyErr Chip :=
  match s.getMachine env with
  | (s, .error e) => (s, .error e)
  | (s, .ok m) => (s, m.chips.getE (x, y))

end DView
end SpiNN
