import Verif.Model.Energy
import Mathlib.Analysis.Real.Sqrt

/-!
# Energy calculated in floating point

`Model/Energy.lean` calculates with rationals. Here the same lines are modelled with a parameter `fl`
that gives the floating point result of an operation from its exact result, as in
`Model/Floats.lean`. A literal is rounded; an `int` operand of `*` with a `float` is rounded to a
`float` first. Times are doubles in Python; here they are any rational numbers.
-/

namespace SpiNN
namespace Energy
variable (fl : ℝ → ℝ)

/-- `WATTS_PER_IDLE_CHIP`, `version_spin1.py` 31-34 -/
noncomputable def wattsPerIdleChipFl : ℝ := fl 0.35
/-- `WATTS_PER_CORE_ACTIVE_OVERHEAD`, `version_spin1.py` 36-39 -/
noncomputable def wattsPerCoreActiveFl : ℝ := fl 0.034
/-- `JOULES_PER_ROUTER_BIT`, `version_spin1.py` 41-44 -/
noncomputable def joulesPerRouterBitFl : ℝ := fl 0.000000000025
/-- `JOULES_PER_PACKET`, `version_spin1.py` 46-49 -/
noncomputable def joulesPerPacketFl : ℝ := fl (joulesPerRouterBitFl fl * fl 40)
/-- `JOULES_PER_PACKET_WITH_PAYLOAD`, `version_spin1.py` 51-52 -/
noncomputable def joulesPerPacketWithPayloadFl : ℝ := fl (joulesPerRouterBitFl fl * fl 72)
/-- `WATTS_FOR_4_CHIP_BOARD_IDLE_COST`, `version_3.py` 34-36 -/
noncomputable def watts4ChipBoardFl : ℝ := fl 3.56
/-- `WATTS_FOR_FRAME_IDLE_COST`, `version_5.py` 42-46: an `int` -/
def wattsFrameIdleInt : Int := 117
/-- `WATTS_PER_FRAME_ACTIVE_COST_OVERHEAD`, `version_5.py` 48-51 -/
noncomputable def wattsFrameActiveFl : ℝ := fl (fl 154.163558 - fl 117)
/-- `WATTS_FOR_48_CHIP_BOX_COST_OVERHEAD`, `version_5.py` 53-58 -/
noncomputable def wattsBoxFl : ℝ := fl 5.04
/-- `WATTS_FOR_48_CHIP_BOARD_IDLE_COST`, `version_5.py` 60-63 -/
noncomputable def watts48ChipBoardFl : ℝ := fl 26.84

/-- `COST_PER_PACKET_TYPE`, `version_spin1.py` 54-65 -/
noncomputable def costPerPacketTypeFl : PDict String ℝ := ⟨[
  ("Local_Multicast_Packets", joulesPerPacketFl fl),
  ("External_Multicast_Packets", joulesPerPacketFl fl),
  ("Reinjected", joulesPerPacketFl fl),
  ("Local_P2P_Packets", joulesPerPacketWithPayloadFl fl),
  ("External_P2P_Packets", joulesPerPacketWithPayloadFl fl),
  ("Local_NN_Packets", joulesPerPacketFl fl),
  ("External_NN_Packets", joulesPerPacketFl fl),
  ("Local_FR_Packets", joulesPerPacketWithPayloadFl fl),
  ("External_FR_Packets", joulesPerPacketWithPayloadFl fl)]⟩

/-- Python `sum` of floats before version 3.12 -/
def sumOld (l : List ℝ) : ℝ := l.foldl (fun s x => fl (s + x)) 0

open Classical in
/-- one step of Python `sum` of floats from version 3.12 on: the sum so far and the compensation for
what its roundings lost -/
noncomputable def sumStep (sc : ℝ × ℝ) (x : ℝ) : ℝ × ℝ :=
  let t := fl (sc.1 + x)
  (t, fl (sc.2 + if |x| ≤ |sc.1| then fl (fl (sc.1 - t) + x) else fl (fl (x - t) + sc.1)))

/-- Python `sum` of floats from version 3.12 on (the compensation is only added if it is not 0, which
makes no difference) -/
noncomputable def sumNew (l : List ℝ) : ℝ :=
  let r := l.foldl (sumStep fl) (0, 0)
  fl (r.1 + r.2)

/-- Python `sum`; `new`: version 3.12 or later -/
noncomputable def pySumFl (new : Bool) (l : List ℝ) : ℝ := if new then sumNew fl l else sumOld fl l

/-- the terms of the sum in `_get_router_active_energy`, `version_spin1.py` 118-123 -/
noncomputable def packetTermsFl : List (String × Int) → Except PyErr (List ℝ)
  | [] => .ok []
  | (name, value) :: l => match (costPerPacketTypeFl fl).getE name with
    | .error e => .error e
    | .ok c => match packetTermsFl l with
      | .error e => .error e
      | .ok s => .ok (fl (fl value * c) :: s)

/-- `_get_router_active_energy`, `version_spin1.py` 118-123 -/
noncomputable def routerActiveFl (new : Bool) (rp : RouterPackets) : Except PyErr ℝ :=
  match packetTermsFl fl (rp.values.flatMap fun p => p.items) with
  | .error e => .error e
  | .ok s => .ok (pySumFl fl new s)

/-- `_get_core_active_energy`, `version_spin1.py` 125-131 -/
noncomputable def coreActiveFl (new : Bool) (t : ChipActiveTime) : ℝ :=
  pySumFl fl new (t.values.map fun x => fl ((x.1 : ℝ) * wattsPerCoreActiveFl fl))

/-- `get_idle_energy`: `version_3.py` 94-108, `version_5.py` 110-130, `version_spin2.py` 131-136 -/
noncomputable def idleFl (k : VKind) (t : Rat) (frames boards chips : Int) : Except PyErr ℝ :=
  match k with
  | .v3 =>
    if frames ≠ 0 then .error .machine
    else if boards > 1 then .error .machine
    else if boards = 0 then .ok (fl (fl (fl chips * wattsPerIdleChipFl fl) * t))
    else .ok (fl (watts4ChipBoardFl fl * t))
  | .v5 =>
    let energy := if boards = 0 then fl (fl (fl chips * wattsPerIdleChipFl fl) * t)
      else fl (fl (fl boards * watts48ChipBoardFl fl) * t)
    .ok (if frames ≠ 0 then
        if boards > 1 then fl (energy + fl (fl ((frames * wattsFrameIdleInt : Int) : ℝ) * t))
        else if boards = 1 then fl (energy + fl (fl (fl frames * wattsBoxFl fl) * t))
        else energy
      else energy)
  | .v201 | .v248 => .error .notImplemented

/-- `get_active_energy`: `version_3.py` 110-118, `version_5.py` 132-145, `version_spin2.py` 138-144 -/
noncomputable def activeFl (new : Bool) (k : VKind) (t : Rat) (frames boards chips : Int)
    (times : ChipActiveTime) (rp : RouterPackets) : Except PyErr ℝ :=
  match k with
  | .v3 => do
    let i ← idleFl fl .v3 t frames boards chips
    let r ← routerActiveFl fl new rp
    .ok (fl (fl (i + r) + coreActiveFl fl new times))
  | .v5 => do
    let container := if frames ≠ 0 then fl (fl (fl frames * wattsFrameActiveFl fl) * t) else 0
    let i ← idleFl fl .v5 t frames boards chips
    let r ← routerActiveFl fl new rp
    .ok (fl (fl (fl (container + i) + r) + coreActiveFl fl new times))
  | .v201 | .v248 => .error .notImplemented

end Energy
end SpiNN
