import Verif.Model.Version
import Verif.Py.Str

/-!
# `version/version_factory.py` and `version/version_strings.py`

The `[Machine]` settings are a record (how `spinn_utilities` reads them is not modelled);
`sys.version_info.minor` is a parameter. Logging is left out.
-/

namespace SpiNN

/-- the `[Machine]` settings read by `version_factory` and the version constructors -/
structure MachineCfg extends Cfg where
  version : Option Int := none
  versions : Option PyStr := none
  spallocServer : Option PyStr := none
  remoteSpinnakerUrl : Option PyStr := none
  machineName : Option PyStr := none
  virtualBoard : Bool := false
  deriving DecidableEq, Repr

/-- `VersionStrings`, `version_strings.py` 21-37. -/
inductive VersionStrings where
  | any | fourPlus | big | eightByEight | withFpgas
  deriving DecidableEq, Repr

namespace VersionStrings

/-- iteration order, `version_strings.py` 29-37 -/
def all : List VersionStrings := [.any, .fourPlus, .big, .eightByEight, .withFpgas]

/-- `text`, `version_strings.py` 29-37 and 46. -/
def text : VersionStrings → PyStr
  | .any => "Any".toList
  | .fourPlus => "Four plus".toList
  | .big => "Big".toList
  | .eightByEight => "eight by eigth".toList
  | .withFpgas => "with fpgas".toList

/-- `options`, `version_strings.py` 29-37 and 63-73. -/
def options : VersionStrings → List Int
  | .any => [3, 5, 201, 248]
  | .fourPlus => [3, 5, 248]
  | .big => [5, 248]
  | .eightByEight => [5, 248]
  | .withFpgas => [5]

/-- `shorten`, `version_strings.py` 75-83. -/
def shorten (s : PyStr) : PyStr :=
  (((pyLower s).filter fun c => c ≠ '_').filter fun c => c ≠ '-').filter fun c => c ≠ ' '

/-- `short_str`, `version_strings.py` 52-61. -/
def shortStr (vs : VersionStrings) : PyStr := shorten vs.text

/-- `from_string`, `version_strings.py` 85-97. -/
def fromString (s : PyStr) : Except PyErr VersionStrings :=
  match all.find? fun vs => shorten s = vs.shortStr with
  | some vs => .ok vs
  | none => .error .machine

end VersionStrings

namespace VersionFactory

/-- `_get_cfg_version`, `version_factory.py` 87-102. -/
def getCfgVersion (minor : Int) (cfg : MachineCfg) : Except PyErr (Option Int) :=
  match cfg.versions with
  | none => .ok cfg.version
  | some s => match cfg.version with
    | some _ => .error .machine
    | none => match VersionStrings.fromString s with
      | .error e => .error e
      | .ok vs => match pyIndex vs.options (pmod minor vs.options.length) with
        | .error e => .error e
        | .ok n => .ok (some n)

/-- `_get_url_version`, `version_factory.py` 105-139. -/
def getUrlVersion (cfg : MachineCfg) : Except PyErr (Option Int) :=
  match cfg.spallocServer with
  | some _ =>
    if cfg.remoteSpinnakerUrl.isSome then .error .machine
    else if cfg.machineName.isSome then .error .machine
    else if cfg.virtualBoard then .error .machine
    else .ok (some 5)
  | none => match cfg.remoteSpinnakerUrl with
    | some _ =>
      if cfg.machineName.isSome then .error .machine
      else if cfg.virtualBoard then .error .machine
      else .ok (some 5)
    | none =>
      if cfg.machineName.isSome ∧ cfg.virtualBoard then .error .machine
      else .ok none

/-- `_get_size_version`, `version_factory.py` 142-159. -/
def getSizeVersion (cfg : MachineCfg) : Except PyErr (Option Int) :=
  match cfg.height with
  | none => match cfg.width with
    | none => .ok none
    | some _ => .error .machine
  | some h => match cfg.width with
    | none => .error .machine
    | some w =>
      if h = w ∧ w = 2 then .ok (some 3)
      else if h = w ∧ w = 1 then .ok (some 201)
      else .ok (some 5)

/-- `_number_to_version`, `version_factory.py` 162-182. -/
def numberToVersion (cfg : MachineCfg) (n : Int) : Except PyErr Version :=
  if n = 2 ∨ n = 3 then Version.init .v3 cfg.toCfg
  else if n = 4 ∨ n = 5 then Version.init .v5 cfg.toCfg
  else if n = 201 then Version.init .v201 cfg.toCfg
  else if n = 248 then Version.init .v248 cfg.toCfg
  else .error .machine

/-- the first part of `version_factory`: the version of the cfg and of the server,
`version_factory.py` 51-66; `raise_version_error` (185-206) always raises. -/
def versionOf (cfg : MachineCfg) (cfgV urlV : Option Int) : Except PyErr (Option Version) := do
  match cfgV with
  | none => match urlV with
    | none => .ok none
    | some u => .ok (some (← numberToVersion cfg u))
  | some c => match urlV with
    | none => .ok (some (← numberToVersion cfg c))
    | some u => do
      let vc ← numberToVersion cfg c
      let vu ← numberToVersion cfg u
      if vc.eq vu then .ok (some vc) else .error .machine

/-- `version_factory`, `version_factory.py` 40-84. -/
def versionFactory (minor : Int) (cfg : MachineCfg) : Except PyErr Version := do
  let cfgV ← getCfgVersion minor cfg
  let urlV ← getUrlVersion cfg
  let sizeV ← getSizeVersion cfg
  let version ← versionOf cfg cfgV urlV
  match sizeV with
  | none => match version with
    | none => .error .machine
    | some v => .ok v
  | some s => match version with
    | none => numberToVersion cfg s
    | some v => do
      let vs ← numberToVersion cfg s
      if v.eq vs then .ok v else .error .machine

end VersionFactory
end SpiNN
