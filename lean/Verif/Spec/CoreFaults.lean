import Verif.Spec.Settings

/-!
# What can be wrong with the text of `down_cores`, and with which exception it is refused
-/

namespace SpiNN.Spec
open SpiNN

/-- a field that is no core, range or location, and the exception: several minus signs before a number (ValueError), a
quad location that does not exist (KeyError, SpiNNaker 2 only), or anything else (ConfigException) -/
inductive CoreFault (k : VKind) : PyStr → PyErr → Prop
  | minus {n : Nat} {d : PyStr} : 2 ≤ n → Digits d → CoreFault k (List.replicate n '-' ++ d) .valueError
  | quad {x y p : Char} : k.isSpin1 = false → Digits [x] → Digits [y] → Digits [p] →
      (¬ ∃ i, k.idToQxQyQp i = .ok ((digitsVal [x] : Int), (digitsVal [y] : Int), (digitsVal [p] : Int))) →
      CoreFault k [x, '.', y, '.', p] .keyError
  | other {s : PyStr} : (¬ ∃ l, CoreString k s l) →
      (¬ ∃ n d, 2 ≤ n ∧ Digits d ∧ s = List.replicate n '-' ++ d) →
      (¬ (k.isSpin1 = false ∧ ∃ x y p, Digits [x] ∧ Digits [y] ∧ Digits [p] ∧ s = [x, '.', y, '.', p])) →
      CoreFault k s .configError

/-- an item that names no cores: not three or four fields, a bad cores field, or cores on a chip whose coordinates are
no integers -/
inductive ItemFault (k : VKind) : PyStr → PyErr → Prop
  | fields {t : PyStr} : t.count ',' ≠ 2 → t.count ',' ≠ 3 → ItemFault k t .valueError
  | cores {a b d : PyStr} {ip : Option PyStr} {e : PyErr} : Plain a → Plain b → Plain d → (∀ t ∈ ip, Plain t) →
      CoreFault k d e → ItemFault k (writeItem [a, b, d] ip) e
  | place {a b d : PyStr} {ip : Option PyStr} {ps : List Int} : Plain a → Plain b → Plain d → (∀ t ∈ ip, Plain t) →
      CoreString k d ps → ps ≠ [] → ((¬ ∃ x, IntText a x) ∨ ¬ ∃ y, IntText b y) →
      ItemFault k (writeItem [a, b, d] ip) .valueError

/-- items separated by colons of which the first bad one has the fault `e` -/
inductive FirstFault {α : Type} (Item : PyStr → α → Prop) (Fault : PyStr → PyErr → Prop) : PyStr → PyErr → Prop
  | last {t : PyStr} {e : PyErr} : ':' ∉ t → Fault t e → FirstFault Item Fault t e
  | here {t s : PyStr} {e : PyErr} : ':' ∉ t → Fault t e → FirstFault Item Fault (t ++ ':' :: s) e
  | later {t s : PyStr} {c : α} {e : PyErr} : Item t c → FirstFault Item Fault s e →
      FirstFault Item Fault (t ++ ':' :: s) e

end SpiNN.Spec
