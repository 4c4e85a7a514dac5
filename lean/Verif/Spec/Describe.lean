import Verif.Spec.Machine

/-!
# Specification of the texts that describe machines

Texts are Lean strings; numbers are printed by Lean's `toString`.
-/

namespace SpiNN.Spec
open SpiNN

/-- an address as it is printed -/
def addrText : Option PyStr → String
  | some a => String.ofList a
  | none => "None"

/-- the chips that one call adds to a machine with the chips `s` -/
def addedBy (s : Chips) (o : Op) : List Chip := (absStep s o).1.drop s.length

/-- the chips added by a history, as they were when they were added -/
def added : Chips → List Op → List Chip
  | _, [] => []
  | s, o :: os => addedBy s o ++ added (absStep s o).1 os

/-- the smallest and the largest of some values -/
structure Range (l : List Int) (lo hi : Int) : Prop where
  lo_mem : lo ∈ l
  hi_mem : hi ∈ l
  le : ∀ n ∈ l, lo ≤ n ∧ n ≤ hi

/-- how often each value occurs -/
def Counts (counts : PDict Int Int) (l : List Int) : Prop :=
  ∀ n, counts.get? n = if n ∈ l then some (l.count n : Int) else none

/-- half of a number of links, printed as a float -/
def halfText (n : Int) : String := if n % 2 = 0 then s!"{n / 2}.0" else s!"{n / 2}.5"

/-- what a chip is given by its kind of board: the number of router entries and the name -/
def boardOf : VKind → Int × String
  | .v3 => (1023, "Spin1 4 Chip")
  | .v5 => (1023, "Spin1 48 Chip")
  | .v201 => (16384, "Spin2 1 Chip")
  | .v248 => (16384, "Spin2 48 Chips")

end SpiNN.Spec
