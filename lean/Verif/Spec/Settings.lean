import Verif.Spec.Ignore

/-!
# The texts of the down settings, as a grammar

What a user may write for `down_chips`, `down_links` and `down_cores`: integers as Python reads them (with white
space around them, a sign, and underscores between digits), separated by commas within an item, the items separated
by colons. The grammar is stated without the parser of the model.
-/

namespace SpiNN.Spec
open SpiNN

/-- only white space -/
def Blank (s : PyStr) : Prop :=
  ∀ c ∈ s, c ∈ [' ', '\t', '\n', '\x0b', '\x0c', '\r', '\x1c', '\x1d', '\x1e', '\x1f']

/-- a natural number: groups of digits with one underscore between two groups -/
def NatText (s : PyStr) (n : Nat) : Prop :=
  ∃ groups : List PyStr, groups ≠ [] ∧ (∀ g ∈ groups, Digits g) ∧ s = joinWith '_' groups ∧
    n = digitsVal groups.flatten

/-- an integer: white space, an optional sign, a natural number, white space -/
def IntText (s : PyStr) (i : Int) : Prop :=
  ∃ before body after : PyStr, ∃ n : Nat, Blank before ∧ Blank after ∧ NatText body n ∧
    ((s = before ++ body ++ after ∧ i = n) ∨
     (s = before ++ '+' :: body ++ after ∧ i = n) ∨
     (s = before ++ '-' :: body ++ after ∧ i = -(n : Int)))

/-- neither a comma nor a colon -/
def Plain (s : PyStr) : Prop := ',' ∉ s ∧ ':' ∉ s

/-- `<chip_x>,<chip_y>[,<ip>]` -/
def ChipText (s : PyStr) (c : IgnoreChip) : Prop :=
  ∃ a b : PyStr, IntText a c.x ∧ IntText b c.y ∧
    ((c.ip = none ∧ s = a ++ ',' :: b) ∨ ∃ t, c.ip = some t ∧ Plain t ∧ s = a ++ ',' :: (b ++ ',' :: t))

/-- `<chip_x>,<chip_y>,<link_id>[,<ip>]` -/
def LinkText (s : PyStr) (c : IgnoreLink) : Prop :=
  ∃ a b d : PyStr, IntText a c.x ∧ IntText b c.y ∧ IntText d c.link ∧
    ((c.ip = none ∧ s = a ++ ',' :: (b ++ ',' :: d)) ∨
      ∃ t, c.ip = some t ∧ Plain t ∧ s = a ++ ',' :: (b ++ ',' :: (d ++ ',' :: t)))

/-- `<chip_x>,<chip_y>,<cores>[,<ip>]`: the cores it names, all on the same chip. With a range that is empty
no core is named, and then the first two fields may be anything. -/
def CoreText (k : VKind) (s : PyStr) (l : List IgnoreCore) : Prop :=
  ∃ (a b d : PyStr) (x y : Int) (ip : Option PyStr) (ps : List Int), CoreString k d ps ∧
    Plain a ∧ Plain b ∧ (ps ≠ [] → IntText a x ∧ IntText b y) ∧
    l = ps.map (fun p => ⟨x, y, p, ip⟩) ∧
    ((ip = none ∧ s = a ++ ',' :: (b ++ ',' :: d)) ∨
      ∃ t, ip = some t ∧ Plain t ∧ s = a ++ ',' :: (b ++ ',' :: (d ++ ',' :: t)))

/-- items separated by colons, and what they stand for one after the other -/
inductive Written {α : Type} (Item : PyStr → α → Prop) : PyStr → List α → Prop
  | last {t : PyStr} {c : α} : Item t c → Written Item t [c]
  | more {t s : PyStr} {c : α} {cs : List α} : Item t c → Written Item s cs → Written Item (t ++ ':' :: s) (c :: cs)

end SpiNN.Spec
