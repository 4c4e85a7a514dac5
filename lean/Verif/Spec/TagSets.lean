import Verif.Model.TagSets

/-!
# Specification of the sets behind `Chip.tag_ids`

The chips a program makes are numbered 0, 1, .. in the order in which it makes them. These definitions look at the text
of the program only.
-/

namespace SpiNN.Spec
open SpiNN

/-- the chips the program makes, in order: the IP address and the tags argument of each -/
def made (ops : List TagOp) : List (Option PyStr × TagArg) :=
  ops.filterMap fun | .chip ip arg => some (ip, arg) | .change _ _ => none

/-- chip `k` of the program is an Ethernet chip (it has an IP address) and was not given tags -/
def DefaultTags (ops : List TagOp) (k : Nat) : Prop := ∃ a, (made ops)[k]? = some (some a, .missing)

instance (ops : List TagOp) (k : Nat) : Decidable (DefaultTags ops k) :=
  match h : (made ops)[k]? with
  | some (some a, .missing) => .isTrue ⟨a, h⟩
  | some (none, arg) => .isFalse (by rintro ⟨a, ha⟩; rw [h] at ha; cases ha)
  | some (some _, .numbers _) => .isFalse (by rintro ⟨a, ha⟩; rw [h] at ha; cases ha)
  | some (some _, .ofChip _) => .isFalse (by rintro ⟨a, ha⟩; rw [h] at ha; cases ha)
  | none => .isFalse (by rintro ⟨a, ha⟩; rw [h] at ha; cases ha)

/-- the changes the program makes through the `tag_ids` of the chips for which `p` holds, in order -/
def changesOf (p : Nat → Prop) [DecidablePred p] (ops : List TagOp) : List TagChange :=
  ops.filterMap fun | .chip _ _ => none | .change i c => if p i then some c else none

/-- what the changes make of a set of tags -/
def applyAll (l : List Int) (cs : List TagChange) : List Int := cs.foldl TagChange.apply l

/-- one change as a set: `add t` puts `t` in, `discard t` takes it out, and nothing else happens -/
def ChangesTo (c : TagChange) (l l' : List Int) : Prop :=
  match c with
  | .add t => ∀ u, u ∈ l' ↔ u ∈ l ∨ u = t
  | .discard t => ∀ u, u ∈ l' ↔ u ∈ l ∧ u ≠ t

end SpiNN.Spec
