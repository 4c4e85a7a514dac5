import Verif.Model.RoutingIter

/-!
# What an argument of `RoutingEntry(...)` holds
-/

namespace SpiNN.Spec
open SpiNN

/-- an iterator, not an integer or a collection -/
def IsIter (s : IdSource) : Prop := ∃ k, s = .iter k

/-- what the argument holds if nothing is read before it -/
def ArgHolds (its : Iterators) : IdSource → List Int
  | .one i => [i]
  | .many l => l
  | .iter k => its k

end SpiNN.Spec
