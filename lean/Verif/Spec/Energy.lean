import Verif.Model.Energy

/-!
# Energy costs
-/

namespace SpiNN.Spec
open SpiNN

/-- the joules of one packet: 25 pJ for each of the 40 bits of a multicast, nearest neighbour or
reinjected packet and of the 72 bits of the others -/
def joules (name : String) : Option Rat :=
  if name ∈ ["Local_Multicast_Packets", "External_Multicast_Packets", "Local_NN_Packets", "External_NN_Packets",
      "Reinjected"] then some (25 / 1000000000000 * 40)
  else if name ∈ ["Local_P2P_Packets", "External_P2P_Packets", "Local_FR_Packets", "External_FR_Packets"] then
    some (25 / 1000000000000 * 72)
  else none

/-- every packet type has a cost -/
def KnownPackets (rp : RouterPackets) : Prop := ∀ p ∈ rp.values, ∀ n ∈ p.keys, joules n ≠ none

/-- the energy of all packets -/
def packetJoules (rp : RouterPackets) : Rat :=
  (rp.values.map fun p => (p.items.map fun nv => nv.2 * (joules nv.1).getD 0).sum).sum

/-- the total active time -/
def activeSeconds (t : ChipActiveTime) : Rat := (t.values.map (·.1)).sum

/-- the watts of the idle machine: 0.35 per chip if boards are not counted, else 3.56 for the four chip
board and 26.84 for each 48 chip board; and the container: 117 for each frame of several boards, 5.04
for the box of a single board -/
def idleWatts (k : VKind) (frames boards chips : Int) : Rat :=
  (if boards = 0 then (chips : Rat) * (35 / 100) else if k = .v3 then 356 / 100 else (boards : Rat) * (2684 / 100)) +
  (if boards = 1 then (frames : Rat) * (504 / 100) else if 1 < boards then (frames : Rat) * 117 else 0)

end SpiNN.Spec
