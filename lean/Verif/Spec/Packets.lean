import Verif.Spec.Routing

/-!
# Specification of what a router does with a packet

The rules of the SpiNNaker router that keys, masks and `defaultable` are about (the documentation of
`RoutingEntry.defaultable`): the first entry whose masked key is that of the packet decides; if
there is none the packet goes on over the link opposite to the one it came in over, to no processor.
-/

namespace SpiNN.Spec
open SpiNN

/-- the direction back -/
def Dir.reverse : Dir → Dir
  | .E => .W | .NE => .SW | .N => .S | .W => .E | .SW => .NE | .S => .N

/-- a packet with key `k` is for this entry: its bits under the mask are the key -/
def Matches (m : MulticastRoutingEntry) (k : Nat) : Prop :=
  ∀ i, (k.testBit i && m.mask.testBit i) = m.key.testBit i

instance (m : MulticastRoutingEntry) (k : Nat) : Decidable (Matches m k) :=
  if h : k &&& m.mask = m.key then .isTrue (by intro i; rw [← h, Nat.testBit_and])
  else .isFalse (fun hm => h (Nat.eq_of_testBit_eq fun i => by rw [Nat.testBit_and, hm i]))

/-- the processors and links a router with this table sends a packet to, if the packet came in over
the link `inc` of the chip -/
def routePacket (table : List MulticastRoutingEntry) (k : Nat) (inc : Dir) : List Int × List Int :=
  match table.find? (fun m => decide (Matches m k)) with
  | some m => (m.processorIds, m.linkIds)
  | none => ([], [inc.reverse.id])

/-- the same processors and the same links -/
def SameTargets (a b : List Int × List Int) : Prop :=
  (∀ p, p ∈ a.1 ↔ p ∈ b.1) ∧ ∀ l, l ∈ a.2 ↔ l ∈ b.2

end SpiNN.Spec
