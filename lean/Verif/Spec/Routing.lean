import Verif.Model.Routing
import Verif.Spec.Mesh

/-!
# Specification of routes

A route is a set of processors (0 to 17) and a set of links (0 to 5); the 24 bit word has bit
`i` for link `i` and bit `6 + p` for processor `p`.
-/

namespace SpiNN.Spec
open SpiNN

/-- a processor a router can route to -/
def ProcId (p : Int) : Prop := 0 ≤ p ∧ p ≤ 17
/-- a link of a router -/
def LinkId (l : Int) : Prop := 0 ≤ l ∧ l ≤ 5

instance (p : Int) : Decidable (ProcId p) := by unfold ProcId; infer_instance
instance (p : Int) : Decidable (LinkId p) := by unfold LinkId; infer_instance

/-- the bits of the word `r` say exactly the processors `P` and links `L` -/
def Encodes (r : Nat) (P L : Int → Prop) : Prop :=
  ∀ n : Nat, r.testBit n = true ↔ (n < 6 ∧ L (n : Int)) ∨ (6 ≤ n ∧ P ((n : Int) - 6))

/-- the entries a program can hold if it only ever uses existing processors and links: made
from ids, made from any route word, merged, or with their ids looked at -/
inductive Built : RoutingEntry → Prop
  | ids {ps ls ip il e} (hp : ∀ p ∈ ps.toList, ProcId p) (hl : ∀ l ∈ ls.toList, LinkId l)
      (h : RoutingEntry.mk' (processorIds := some ps) (linkIds := some ls)
        (incomingProcessor := ip) (incomingLink := il) = .ok e) : Built e
  | route {r d e}
      (h : RoutingEntry.mk' (spinnakerRoute := some r) (defaultable := d) = .ok e) : Built e
  | merge {a b e} (ha : Built a) (hb : Built b) (h : a.merge b = .ok e) : Built e
  | readProcs {e} (he : Built e) : Built e.readProcs.2
  | readLinks {e} (he : Built e) : Built e.readLinks.2

/-- the links of opposite directions: the two steps cancel -/
def Opposite (a b : Int) : Prop :=
  ∃ d e : Dir, d.id = a ∧ e.id = b ∧ d.dx + e.dx = 0 ∧ d.dy + e.dy = 0

end SpiNN.Spec
