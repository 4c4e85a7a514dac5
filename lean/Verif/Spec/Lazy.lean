import Verif.Model.Lazy

/-!
# Specification of iterators over a changing machine

How to read the log of a program: which results belong to an iterator, when it was asked.
-/

namespace SpiNN.Spec

/-- the results of `next()` on iterator `i`, in order -/
def resultsOf (i : Nat) (log : List (Nat × Reply Val)) : List (Reply Val) :=
  (log.filter fun r => r.1 = i).map (·.2)

/-- a program that does not use the name `i` for another iterator -/
def NotReopened (i : Nat) (steps : List Step) : Prop :=
  ∀ st ∈ steps, ∀ q, st ≠ .opens i q

/-- how often iterator `i` is asked -/
def asked (i : Nat) (steps : List Step) : Nat := steps.count (.next i)

/-- what the three iterators over the dictionary of chips should produce; `none` for others -/
def contents (m : Machine) : Query → Option (List Val)
  | .chips => some (m.chipList.map .chip)
  | .coords => some (m.chipCoordinates.map .xy)
  | .pairs => some (m.iter.map fun pc => .pair pc.1 pc.2)
  | _ => none

/-- the places of a list after the one produced last -/
def placesAfter (places : List XY) : Option XY → List XY
  | none => places
  | some p => (places.dropWhile (fun q => decide (q ≠ p))).tail

/-- the last coordinates produced -/
def lastXY (rs : List (Reply Val)) : Option XY :=
  rs.foldl (fun a r => match r with
    | .got (.xy p) => some p
    | _ => a) none

/-- the places these links of a machine lead to -/
def oneWayEnds (m : Machine) (ds : List DeadLink) : List (Except PyErr XY) :=
  ds.map fun d => m.xyOverLink d.1 d.2.1 d.2.2.1

end SpiNN.Spec
