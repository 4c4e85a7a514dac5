import Verif.Model.Json

/-!
# What the JSON document says, and what a round trip should keep
-/

namespace SpiNN.Spec
open SpiNN

/-- the value of a key of a JSON object -/
def jKey (j : Json) (k : String) : Option Json :=
  match j with
  | .obj l => (l.find? fun kv => kv.1 = k).map (·.2)
  | _ => none

/-- the element of a JSON array -/
def jNth (j : Json) (n : Nat) : Option Json :=
  match j with
  | .arr l => l[n]?
  | _ => none

/-- a JSON array of numbers -/
def jNums (l : List Int) : Json := .arr (l.map .num)

/-- two chips are the same for the user: position, cores, SDRAM, router entries, nearest Ethernet,
IP address, tags and links -/
structure SameChip (c c' : Chip) : Prop where
  xy : c'.xy = c.xy
  scamp : c'.scamp = c.scamp
  placable : c'.placable = c.placable
  sdram : c'.sdram = c.sdram
  entries : c'.router.nEntries = c.router.nEntries
  eth : (c'.ethX, c'.ethY) = (c.ethX, c.ethY)
  ip : c'.ip = c.ip
  tags : c'.tags = c.tags
  links : ∀ i, c'.router.getLink i = c.router.getLink i

/-- the chips that the JSON format can represent: core 0 is the only monitor and the other cores are
1, 2, 3, … without a gap, at most 2147483647 router entries, and only the six standard links, each
leading where the wiring says -/
structure JsonChip (m : Machine) (c : Chip) : Prop where
  scamp : c.scamp = [0]
  placable : ∀ (n : Nat) (p : Int), c.placable[n]? = some p → p = n + 1
  entries : c.router.nEntries ≤ 2147483647
  links : ∀ i l, c.router.getLink i = some l → 0 ≤ i ∧ i < 6 ∧ l.sourceLinkId = i ∧
    (l.sourceX, l.sourceY) = c.xy ∧ m.xyOverLink c.x c.y i = .ok (l.destX, l.destY)

/-! ### reading a document -/

/-- the value is there and is read as the int `n`: it is this number, a string that `int()`
takes for it, or a bool, which is 0 or 1 -/
def JInt (j : Option Json) (n : Int) : Prop :=
  j = some (.num n) ∨ (∃ s, j = some (.str s) ∧ pyInt s = .ok n) ∨
    (j = some (.bool false) ∧ n = 0) ∨ (j = some (.bool true) ∧ n = 1)

/-- the value is equal to the int `n` for Python: it is this number, a float of this value, or a
bool, which is 0 or 1; a string never is -/
def JEq (j : Json) (n : Int) : Prop :=
  j = .num n ∨ j = .float (some n) ∨ (j = .bool false ∧ n = 0) ∨ (j = .bool true ∧ n = 1)

/-- the detail `k` of the entry of a chip -/
def jDetail (cj : Json) (k : String) : Option Json := (jNth cj 2).bind fun d => jKey d k

/-- the resource `k` of the entry of a chip: the exception of the chip, or else the default for
Ethernet chips (an address is given) or for the others -/
def jResource (std eth cj : Json) (k : String) : Option Json :=
  match (jNth cj 3).bind fun e => jKey e k with
  | some v => some v
  | none => jKey (if (jDetail cj "ipAddress").isSome then eth else std) k

/-- well formed defaults -/
structure JDefaults (d : Json) : Prop where
  monitors : ∃ v, jKey d "monitors" = some v
  entries : ∃ n, JInt (jKey d "routerEntries") n
  sdram : ∃ n, JInt (jKey d "sdram") n
  tags : ∃ l, jKey d "tags" = some (.arr l)

/-- `c` is the chip that the entry `cj` describes, on a machine with the size and wrap of `m` -/
structure DocChip (m : Machine) (std eth cj : Json) (c : Chip) : Prop where
  x : JInt (jNth cj 0) c.x
  y : JInt (jNth cj 1) c.y
  ethernet : ∃ a b, jDetail cj "ethernet" = some (.arr [a, b]) ∧ JInt (some a) c.ethX ∧ JInt (some b) c.ethY
  ip : jDetail cj "ipAddress" = c.ip.map .str
  exceptions : ∀ e, jNth cj 3 = some e → ∃ l, e = .obj l
  monitors : ∃ v, jResource std eth cj "monitors" = some v ∧ JEq v 1
  entries : JInt (jResource std eth cj "routerEntries") c.router.nEntries
  sdram : JInt (jResource std eth cj "sdram") c.sdram
  tags : ∃ (js : List Json) (ts : List Int), jResource std eth cj "tags" = some (.arr js) ∧ js.length = ts.length ∧
    (∀ (k : Nat) j t, js[k]? = some j → ts[k]? = some t → JInt (some j) t) ∧ c.tags = ts.eraseDups
  cores : ∃ n, JInt (jDetail cj "cores") n ∧ c.scamp = [0] ∧
    ∀ k : Nat, c.placable[k]? = if (k : Int) + 1 < n then some ((k : Int) + 1) else none
  links : ∃ dead : List Json, (jDetail cj "deadLinks" = none ∧ dead = [] ∨ jDetail cj "deadLinks" = some (.arr dead)) ∧
    ∀ i l, c.router.getLink i = some l ↔ 0 ≤ i ∧ i < 6 ∧ (∀ d ∈ dead, ¬ JEq d i) ∧ l.sourceLinkId = i ∧
      (l.sourceX, l.sourceY) = c.xy ∧ m.xyOverLink c.x c.y i = .ok (l.destX, l.destY)

/-- `chips` are the chips that the document `j` describes, in order, on a machine with the size and
wrap of `m` -/
structure Doc (m : Machine) (j : Json) (chips : List Chip) : Prop where
  width : JInt (jKey j "width") m.width
  height : JInt (jKey j "height") m.height
  chips : ∃ std eth entries, jKey j "standardResources" = some std ∧ jKey j "ethernetResources" = some eth ∧
    jKey j "chips" = some (.arr entries) ∧ JDefaults std ∧ JDefaults eth ∧ entries.length = chips.length ∧
    ∀ (k : Nat) cj c, entries[k]? = some cj → chips[k]? = some c → DocChip m std eth cj c

/-! ### what can be wrong with a document -/

/-- the value is there but is not an int -/
def BadInt (j : Option Json) : Prop := (∃ v, j = some v) ∧ ∀ n, ¬ JInt j n

/-- the value is there but is not an array -/
def BadArr (j : Option Json) : Prop := (∃ v, j = some v) ∧ ∀ l, j ≠ some (.arr l)

/-- the value is there but is not an object -/
def BadObj (j : Option Json) : Prop := (∃ v, j = some v) ∧ ∀ l, j ≠ some (.obj l)

/-- the value is there but is not a string -/
def BadStr (j : Option Json) : Prop := (∃ v, j = some v) ∧ ∀ l, j ≠ some (.str l)

/-- what is wrong with the value `d` of `standardResources` or `ethernetResources`, and the
exception for it -/
inductive ResFault (d : Json) : PyErr → Prop
  | object : BadObj (some d) → ResFault d .valueError
  | missing (i : List (String × Json)) (k : String) : d = .obj i →
      k ∈ ["monitors", "routerEntries", "sdram", "tags"] → jKey d k = none → ResFault d .keyError
  | int (k : String) : k ∈ ["routerEntries", "sdram"] → BadInt (jKey d k) → ResFault d .valueError
  | tags : BadArr (jKey d "tags") → ResFault d .valueError

/-- what is wrong with the entry `cj` of a chip, and the exception for it -/
inductive ChipFault (std eth cj : Json) : PyErr → Prop
  | array : BadArr (some cj) → ChipFault std eth cj .valueError
  | short (l : List Json) : cj = .arr l → l.length < 3 → ChipFault std eth cj .indexError
  | xy (n : Nat) : n < 2 → BadInt (jNth cj n) → ChipFault std eth cj .valueError
  | object (n : Nat) : 2 ≤ n → n ≤ 3 → BadObj (jNth cj n) → ChipFault std eth cj .valueError
  | missing (i : List (String × Json)) (k : String) : jNth cj 2 = some (.obj i) → k ∈ ["ethernet", "cores"] →
      jKey (.obj i) k = none → ChipFault std eth cj .keyError
  | ethernet (v : Json) : jDetail cj "ethernet" = some v → (∀ a b, v ≠ .arr [a, b]) →
      ChipFault std eth cj .valueError
  | ethernetInt (a b : Json) : jDetail cj "ethernet" = some (.arr [a, b]) →
      BadInt (some a) ∨ BadInt (some b) → ChipFault std eth cj .valueError
  | cores : BadInt (jDetail cj "cores") → ChipFault std eth cj .valueError
  | ip : BadStr (jDetail cj "ipAddress") → ChipFault std eth cj .valueError
  | deadLinks : BadArr (jDetail cj "deadLinks") → ChipFault std eth cj .valueError
  | monitors : (∀ v, jResource std eth cj "monitors" = some v → ¬ JEq v 1) → ChipFault std eth cj .notImplemented
  | int (k : String) : k ∈ ["routerEntries", "sdram"] → BadInt (jResource std eth cj k) →
      ChipFault std eth cj .valueError
  | tags : BadArr (jResource std eth cj "tags") → ChipFault std eth cj .valueError
  | tag (l : List Json) (t : Json) : jResource std eth cj "tags" = some (.arr l) → t ∈ l → BadInt (some t) →
      ChipFault std eth cj .valueError

/-- what is wrong with a document for a version whose supported sizes are `Size`, and the exception
for it -/
inductive Fault (Size : Int → Int → Prop) (j : Json) : PyErr → Prop
  | object : BadObj (some j) → Fault Size j .valueError
  | missing (i : List (String × Json)) (k : String) : j = .obj i →
      k ∈ ["width", "height", "standardResources", "ethernetResources", "chips"] → jKey j k = none →
      Fault Size j .keyError
  | int (k : String) : k ∈ ["width", "height"] → BadInt (jKey j k) → Fault Size j .valueError
  | size (w h : Int) : JInt (jKey j "width") w → JInt (jKey j "height") h → ¬ Size w h → Fault Size j .machine
  | resources (k : String) (d : Json) (e : PyErr) : k ∈ ["standardResources", "ethernetResources"] →
      jKey j k = some d → ResFault d e → Fault Size j e
  | chips : BadArr (jKey j "chips") → Fault Size j .valueError
  | chip (std eth cj : Json) (es : List Json) (e : PyErr) : jKey j "standardResources" = some std →
      jKey j "ethernetResources" = some eth → jKey j "chips" = some (.arr es) → cj ∈ es →
      ChipFault std eth cj e → Fault Size j e
  | twice (es : List Json) (a b : Nat) (cj cj' : Json) (x y : Int) : jKey j "chips" = some (.arr es) → a < b →
      es[a]? = some cj → es[b]? = some cj' → JInt (jNth cj 0) x → JInt (jNth cj 1) y → JInt (jNth cj' 0) x →
      JInt (jNth cj' 1) y → Fault Size j .alreadyExists

end SpiNN.Spec
