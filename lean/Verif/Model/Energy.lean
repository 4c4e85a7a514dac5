import Verif.Model.Version

/-!
# Energy: `version_spin1.py`, `version_3.py`, `version_5.py`, `version_spin2.py`

Floats are replaced by rationals: the constants are the decimals of the source and sums and products
are exact. The calculation in floating point is `Model/FloatEnergy.lean` (C86).
-/

namespace SpiNN

/-- the active time of the cores of a chip in seconds, and the number of cores;
`abstract_version.py` 35-36 -/
abbrev ChipActiveTime := PDict XY (Rat × Int)

/-- the packets of each type sent by each router; `abstract_version.py` 33-34 -/
abbrev RouterPackets := PDict XY (PDict String Int)

namespace Energy

/-- `WATTS_PER_IDLE_CHIP`, `version_spin1.py` 31-34 -/
def wattsPerIdleChip : Rat := 35 / 100
/-- `WATTS_PER_CORE_ACTIVE_OVERHEAD`, `version_spin1.py` 36-39 -/
def wattsPerCoreActive : Rat := 34 / 1000
/-- `JOULES_PER_ROUTER_BIT`, `version_spin1.py` 41-44 -/
def joulesPerRouterBit : Rat := 25 / 1000000000000
/-- `JOULES_PER_PACKET`, `version_spin1.py` 46-49 -/
def joulesPerPacket : Rat := joulesPerRouterBit * 40
/-- `JOULES_PER_PACKET_WITH_PAYLOAD`, `version_spin1.py` 51-52 -/
def joulesPerPacketWithPayload : Rat := joulesPerRouterBit * 72
/-- `WATTS_FOR_4_CHIP_BOARD_IDLE_COST`, `version_3.py` 34-36 -/
def watts4ChipBoard : Rat := 356 / 100
/-- `WATTS_FOR_FRAME_IDLE_COST`, `version_5.py` 42-46 -/
def wattsFrameIdle : Rat := 117
/-- `WATTS_PER_FRAME_ACTIVE_COST_OVERHEAD`, `version_5.py` 48-51 -/
def wattsFrameActive : Rat := 154163558 / 1000000 - 117
/-- `WATTS_FOR_48_CHIP_BOX_COST_OVERHEAD`, `version_5.py` 53-58 -/
def wattsBox : Rat := 504 / 100
/-- `WATTS_FOR_48_CHIP_BOARD_IDLE_COST`, `version_5.py` 60-63 -/
def watts48ChipBoard : Rat := 2684 / 100

/-- `COST_PER_PACKET_TYPE`, `version_spin1.py` 54-65 -/
def costPerPacketType : PDict String Rat := ⟨[
  ("Local_Multicast_Packets", joulesPerPacket),
  ("External_Multicast_Packets", joulesPerPacket),
  ("Reinjected", joulesPerPacket),
  ("Local_P2P_Packets", joulesPerPacketWithPayload),
  ("External_P2P_Packets", joulesPerPacketWithPayload),
  ("Local_NN_Packets", joulesPerPacket),
  ("External_NN_Packets", joulesPerPacket),
  ("Local_FR_Packets", joulesPerPacketWithPayload),
  ("External_FR_Packets", joulesPerPacketWithPayload)]⟩

/-- `get_router_report_packet_types`: `version_spin1.py` 114-116, `version_spin2.py` 146-149 -/
def packetTypes (k : VKind) : Except PyErr (List String) :=
  if k.isSpin1 then .ok costPerPacketType.keys else .error .notImplemented

/-- the sum of `_get_router_active_energy` over the (name, value) pairs -/
def packetsEnergy : List (String × Int) → Except PyErr Rat
  | [] => .ok 0
  | (name, value) :: l => match costPerPacketType.getE name with
    | .error e => .error e
    | .ok c => match packetsEnergy l with
      | .error e => .error e
      | .ok s => .ok (value * c + s)

/-- `_get_router_active_energy`, `version_spin1.py` 118-123 -/
def routerActive (rp : RouterPackets) : Except PyErr Rat :=
  packetsEnergy (rp.values.flatMap fun p => p.items)

/-- `_get_core_active_energy`, `version_spin1.py` 125-131 -/
def coreActive (t : ChipActiveTime) : Rat := (t.values.map fun x => x.1 * wattsPerCoreActive).sum

/-- `get_idle_energy`: `version_3.py` 94-108, `version_5.py` 110-130, `version_spin2.py` 131-136 -/
def idle (k : VKind) (t : Rat) (frames boards chips : Int) : Except PyErr Rat :=
  match k with
  | .v3 =>
    if frames ≠ 0 then .error .machine
    else if boards > 1 then .error .machine
    else if boards = 0 then .ok (chips * wattsPerIdleChip * t)
    else .ok (watts4ChipBoard * t)
  | .v5 =>
    let energy := if boards = 0 then chips * wattsPerIdleChip * t else boards * watts48ChipBoard * t
    .ok (if frames ≠ 0 then
        if boards > 1 then energy + frames * wattsFrameIdle * t
        else if boards = 1 then energy + frames * wattsBox * t
        else energy
      else energy)
  | .v201 | .v248 => .error .notImplemented

/-- `get_active_energy`: `version_3.py` 110-118, `version_5.py` 132-145, `version_spin2.py` 138-144 -/
def active (k : VKind) (t : Rat) (frames boards chips : Int) (times : ChipActiveTime) (rp : RouterPackets) :
    Except PyErr Rat :=
  match k with
  | .v3 => do
    let i ← idle .v3 t frames boards chips
    let r ← routerActive rp
    .ok (i + r + coreActive times)
  | .v5 => do
    let container := if frames ≠ 0 then frames * wattsFrameActive * t else 0
    let i ← idle .v5 t frames boards chips
    let r ← routerActive rp
    .ok (container + i + r + coreActive times)
  | .v201 | .v248 => .error .notImplemented

end Energy
end SpiNN
