import Verif.Model.Ignores

/-!
# The documented format of down_chips, down_links and down_cores
-/

namespace SpiNN.Spec
open SpiNN

/-- join with a separator -/
def joinWith (sep : Char) : List PyStr → PyStr
  | [] => []
  | [s] => s
  | s :: t => s ++ sep :: joinWith sep t

/-- the fields of an item plus the optional IP address, separated by commas -/
def writeItem (fields : List PyStr) (ip : Option PyStr) : PyStr :=
  joinWith ',' (fields ++ ip.toList)

/-- `<chip_x>,<chip_y>[,<ip>]` -/
def writeChip (c : IgnoreChip) : PyStr := writeItem [showInt c.x, showInt c.y] c.ip
/-- `<chip_x>,<chip_y>,<link_id>[,<ip>]` -/
def writeLink (l : IgnoreLink) : PyStr := writeItem [showInt l.x, showInt l.y, showInt l.link] l.ip

/-- what may stand for cores -/
inductive CoreSpec where
  | single (p : Int)
  | range (a b : Nat)
  | quad (qx qy qp : Nat)

/-- the text of a core specification -/
def CoreSpec.write : CoreSpec → PyStr
  | .single p => showInt p
  | .range a b => showNat a ++ '-' :: showNat b
  | .quad x y p => showNat x ++ '.' :: (showNat y ++ '.' :: showNat p)

/-- the cores it stands for -/
def CoreSpec.Denotes (k : VKind) : CoreSpec → Int → Prop
  | .single p, q => q = p
  | .range a b, q => (a : Int) ≤ q ∧ q ≤ b
  | .quad x y p, q => k.idToQxQyQp q = .ok (x, y, p)

/-- quad locations are for SpiNNaker 2 only and must exist -/
def CoreSpec.Legal (k : VKind) : CoreSpec → Prop
  | .quad x y p => x < 10 ∧ y < 10 ∧ p < 10 ∧ ∃ q, k.idToQxQyQp q = .ok ((x : Int), (y : Int), (p : Int))
  | _ => True

/-- an item of down_cores -/
structure CoreItem where
  x : Int
  y : Int
  cores : CoreSpec
  ip : Option PyStr

/-- `<chip_x>,<chip_y>,(<core_id>|<core_range>)[,<ip>]` -/
def writeCore (c : CoreItem) : PyStr := writeItem [showInt c.x, showInt c.y, c.cores.write] c.ip

/-- an IP address: no separators in it -/
def PlainIp (ip : Option PyStr) : Prop := ∀ s, ip = some s → ',' ∉ s ∧ ':' ∉ s

/-- value of a string of digits -/
def digitsVal (s : PyStr) : Nat := s.foldl (fun n c => 10 * n + (c.toNat - '0'.toNat)) 0

/-- a non-empty string of decimal digits -/
def Digits (s : PyStr) : Prop := s ≠ [] ∧ ∀ c ∈ s, '0' ≤ c ∧ c ≤ '9'

/-- the strings that stand for cores and the list of cores they stand for -/
inductive CoreString (k : VKind) : PyStr → List Int → Prop
  | nonneg {d : PyStr} : Digits d → CoreString k d [(digitsVal d : Int)]
  | neg {d : PyStr} : Digits d → CoreString k ('-' :: d) [-(digitsVal d : Int)]
  | range {a b : PyStr} {l : List Int} : Digits a → Digits b →
      (∀ q, q ∈ l ↔ (digitsVal a : Int) ≤ q ∧ q ≤ digitsVal b) → l.Pairwise (· < ·) →
      CoreString k (a ++ '-' :: b) l
  | quad {x y p : Char} {i : Int} : Digits [x] → Digits [y] → Digits [p] →
      k.idToQxQyQp i = .ok ((digitsVal [x] : Int), (digitsVal [y] : Int), (digitsVal [p] : Int)) →
      CoreString k [x, '.', y, '.', p] [i]

end SpiNN.Spec
