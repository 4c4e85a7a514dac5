import Verif.Model.VersionFactory
import Verif.Spec.Board

/-!
# What the settings say about the version
-/

namespace SpiNN.Spec
open SpiNN

/-- the version class a number stands for: 2 and 3 are the four chip boards, 4 and 5 the 48 chip
boards, 201 and 248 the SpiNNaker2 boards -/
def Numbered : VKind → Int → Prop
  | .v3, n => n = 2 ∨ n = 3
  | .v5, n => n = 4 ∨ n = 5
  | .v201, n => n = 201
  | .v248, n => n = 248

/-- the groups of versions that can be asked for by name -/
def groups : List (String × List Int) :=
  [("any", [3, 5, 201, 248]), ("fourplus", [3, 5, 248]), ("big", [5, 248]), ("eightbyeigth", [5, 248]),
    ("withfpgas", [5])]

/-- the name, ignoring case, spaces, `-` and `_` -/
def squash (s : PyStr) : PyStr := (s.map Char.toLower).filter fun c => c ≠ '_' ∧ c ≠ '-' ∧ c ≠ ' '

/-- the version number asked for by `version` or `versions`; the Python minor version picks one of a
group. `none`: neither is set. -/
inductive Asks (minor : Int) (cfg : MachineCfg) : Option Int → Prop where
  | nothing (h1 : cfg.version = none) (h2 : cfg.versions = none) : Asks minor cfg none
  | number (n : Int) (h1 : cfg.version = some n) (h2 : cfg.versions = none) : Asks minor cfg (some n)
  | group (s : PyStr) (name : String) (l : List Int) (k : Nat) (n : Int) (h1 : cfg.version = none)
      (h2 : cfg.versions = some s) (hl : (name, l) ∈ groups) (hs : squash s = name.toList)
      (hk : (k : Int) = minor % l.length) (hn : l[k]? = some n) : Asks minor cfg (some n)

/-- more than one way to get a machine is configured -/
def Conflicting (cfg : MachineCfg) : Prop :=
  1 < (if cfg.spallocServer.isSome then 1 else 0) + (if cfg.remoteSpinnakerUrl.isSome then 1 else 0) +
    (if cfg.machineName.isSome then 1 else 0) + (if cfg.virtualBoard then 1 else 0)

instance (cfg : MachineCfg) : Decidable (Conflicting cfg) := by unfold Conflicting; infer_instance

/-- a server is configured -/
def HasServer (cfg : MachineCfg) : Prop := cfg.spallocServer ≠ none ∨ cfg.remoteSpinnakerUrl ≠ none

instance (cfg : MachineCfg) : Decidable (HasServer cfg) := by unfold HasServer; infer_instance

/-- the size of the machine is configured -/
def HasSize (cfg : MachineCfg) : Prop := cfg.width ≠ none ∧ cfg.height ≠ none

/-- the version class agrees with every setting: the number asked for, the servers (which have 48 chip
boards) and the size -/
def Agrees (minor : Int) (cfg : MachineCfg) (k : VKind) : Prop :=
  (∃ a, Asks minor cfg a ∧ ∀ n, a = some n → Numbered k n) ∧
  (HasServer cfg → k = .v5) ∧
  ((cfg.width = none ∧ cfg.height = none) ∨ ∃ w h, cfg.width = some w ∧ cfg.height = some h ∧ SizeOK k w h)

/-- some setting identifies the version -/
def Identified (cfg : MachineCfg) : Prop :=
  cfg.version ≠ none ∨ cfg.versions ≠ none ∨ HasServer cfg ∨ HasSize cfg

end SpiNN.Spec
