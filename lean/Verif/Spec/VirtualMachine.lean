import Verif.Spec.Board
import Verif.Spec.Machine
import Verif.Model.VirtualMachine

/-!
# What the down settings say
-/

namespace SpiNN.Spec
open SpiNN

/-- `down_chips` lists the chip (without an address, so it counts for virtual machines) -/
def ChipDown (cfg : DownCfg) (p : XY) : Prop :=
  ∃ l, IgnoreChip.parseString cfg.chips = .ok l ∧ ∃ c ∈ l, c.x = p.1 ∧ c.y = p.2 ∧ c.ip = none

/-- `down_links` lists the link -/
def LinkDown (cfg : DownCfg) (p : XY) (i : Int) : Prop :=
  ∃ l, IgnoreLink.parseString cfg.links = .ok l ∧
    ∃ c ∈ l, c.x = p.1 ∧ c.y = p.2 ∧ c.link = i ∧ c.ip = none

/-- `down_cores` lists the core (by its virtual id) -/
def CoreDown (k : VKind) (cfg : DownCfg) (p : XY) (q : Int) : Prop :=
  ∃ l, IgnoreCore.parseString k cfg.cores = .ok l ∧
    ∃ c ∈ l, c.x = p.1 ∧ c.y = p.2 ∧ c.virtualP = .ok q ∧ c.ip = none

/-- the four chip board has no wires for the links that leave it sideways: West and South West of
the left column, East and North East of the right column -/
def Unwired (k : VKind) (p : XY) (d : Dir) : Prop :=
  k = .v3 ∧ ((p.1 = 0 ∧ (d = .W ∨ d = .SW)) ∨ (p.1 = 1 ∧ (d = .E ∨ d = .NE)))

/-- all the down settings can be read -/
def Readable (k : VKind) (cfg : DownCfg) : Prop :=
  (∃ l, IgnoreChip.parseString cfg.chips = .ok l) ∧ (∃ l, IgnoreLink.parseString cfg.links = .ok l) ∧
  ∃ l, IgnoreCore.parseString k cfg.cores = .ok l ∧ ∀ c ∈ l, c.ip = none → ∃ q, c.virtualP = .ok q

end SpiNN.Spec
