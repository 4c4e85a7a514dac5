import Verif.Model.Machine
import Verif.Py.Str

/-!
# `json_machine.py`

JSON values as produced by `json.load` and accepted by `json.dump`. A bool is an `int` in Python:
`_int` returns it unchanged and it then counts as 0 or 1; here `_int` gives 0 or 1. Reading and writing
the file
(`machine_from_json` 86-88, `to_json_path` 289-301) is not modelled: these only apply `json.load` /
`json.dump` to the value.
-/

namespace SpiNN

/-- a JSON value; the items of an object are in insertion order -/
inductive Json where
  | num (n : Int)
  | str (s : PyStr)
  | arr (l : List Json)
  | obj (items : List (String × Json))
  | bool (b : Bool)
  | null
  /-- a float: its value, or none for `NaN` and the infinities -/
  | float (v : Option Rat)

namespace Json

/-- `_int`, `json_machine.py` 46-52. -/
def int : Json → Except PyErr Int
  | .num n => .ok n
  | .str s => pyInt s
  | .bool b => .ok (if b then 1 else 0)
  | _ => .error .valueError

/-- `_str`, `json_machine.py` 55-59. -/
def string : Json → Except PyErr PyStr
  | .str s => .ok s
  | _ => .error .valueError

/-- `_ary`, `json_machine.py` 62-66. -/
def ary : Json → Except PyErr (List Json)
  | .arr l => .ok l
  | _ => .error .valueError

/-- `_obj`, `json_machine.py` 69-73. -/
def object : Json → Except PyErr (PDict String Json)
  | .obj l => .ok ⟨l⟩
  | _ => .error .valueError

/-- Python `value == n` for an int `n` -/
def isInt (n : Int) : Json → Bool
  | .num k => k = n
  | .bool b => (if b then 1 else 0) = n
  | .float (some q) => q = n
  | _ => false

end Json

/-- `JAVA_MAX_INT`, `json_machine.py` 27. -/
def javaMaxInt : Int := 2147483647

/-- `_Desc`, `json_machine.py` 31-43. -/
structure JDesc where
  monitors : Int
  routerEntries : Int
  sdram : Int
  tags : List Int
  deriving DecidableEq, Repr

/-- `_int_value`, `json_machine.py` 171-175. -/
def intValue (v : Int) : Int := if v < javaMaxInt then v else javaMaxInt

/-- the `_Desc` of a chip, `json_machine.py` 242-247 and 253-258 -/
def descOf (c : Chip) : JDesc :=
  { monitors := c.nProcessors - c.nPlacable
    routerEntries := intValue c.router.nEntries
    sdram := c.sdram
    tags := c.tags }

/-- a list of ints as JSON -/
def jInts (l : List Int) : Json := .arr (l.map .num)

/-- `details` of `_describe_chip`, `json_machine.py` 188-199 and 206; `nearest_ethernet_x` is
never None in the model -/
def jDetails (c : Chip) : List (String × Json) :=
  let dead := (pyRange Router.maxLinks).filter fun i => !c.router.isLink i
  [("cores", .num c.nProcessors), ("ethernet", jInts [c.ethX, c.ethY])] ++
    (if dead = [] then [] else [("deadLinks", jInts dead)]) ++
    (match c.ip with
      | some a => [("ipAddress", .str a)]
      | none => [])

/-- `exceptions` of `_describe_chip`, `json_machine.py` 201-225, against the resources `d` -/
def jExceptions (c : Chip) (d : JDesc) : List (String × Json) :=
  (if c.nScamp ≠ d.monitors then [("monitors", .num c.nScamp)] else []) ++
  (if intValue c.router.nEntries ≠ d.routerEntries then
    [("routerEntries", .num (intValue c.router.nEntries))] else []) ++
  (if c.sdram ≠ d.sdram then [("sdram", .num c.sdram)] else []) ++
  (if c.tags ≠ d.tags then [("tags", jInts c.tags)] else [])

/-- `_describe_chip`, `json_machine.py` 179-230. -/
def describeChip (c : Chip) (std eth : JDesc) : Json :=
  let ex := jExceptions c (match c.ip with | some _ => eth | none => std)
  if ex = [] then .arr [.num c.x, .num c.y, .obj (jDetails c)]
  else .arr [.num c.x, .num c.y, .obj (jDetails c), .obj ex]

/-- a `_Desc` as JSON, `json_machine.py` 272-282 -/
def jDesc (d : JDesc) : Json :=
  .obj [("monitors", .num d.monitors), ("routerEntries", .num d.routerEntries),
    ("sdram", .num d.sdram), ("tags", jInts d.tags)]

/-- `to_json`, `json_machine.py` 233-286, of the machine `m` of the data view. -/
def toJson (m : Machine) : Except PyErr Json := do
  let boot ← m.bootChip
  let eth := descOf boot
  let std ← if m.nChips > 1 then
      match m.chipList.find? fun c => c.ip.isNone with
      | some c => .ok (descOf c)
      | none => .error .valueError
    else .ok eth
  .ok (.obj [
    ("height", .num m.height), ("width", .num m.width), ("root", jInts [0, 0]),
    ("standardResources", jDesc std), ("ethernetResources", jDesc eth),
    ("chips", .arr (m.chipList.map fun c => describeChip c std eth))])

/-- the resources of `standardResources` or `ethernetResources`, `json_machine.py` 96-106; the
monitors are any JSON value -/
structure JRes where
  monitors : Json
  routerEntries : Int
  sdram : Int
  tags : List Json

/-- `json_machine.py` 96-106 -/
def readRes (j : Json) : Except PyErr JRes := do
  let o ← j.object
  let monitors ← o.getE "monitors"
  let routerEntries ← (← o.getE "routerEntries").int
  let sdram ← (← o.getE "sdram").int
  let tags ← (← o.getE "tags").ary
  .ok { monitors, routerEntries, sdram, tags }

/-- `json_machine.py` 129-137: the exceptions override the resources -/
def readExceptions (r : JRes) (o : PDict String Json) : Except PyErr JRes := do
  let monitors := match o.get? "monitors" with
    | some v => v
    | none => r.monitors
  let routerEntries ← match o.get? "routerEntries" with
    | some v => v.int
    | none => .ok r.routerEntries
  let sdram ← match o.get? "sdram" with
    | some v => v.int
    | none => .ok r.sdram
  let tags ← match o.get? "tags" with
    | some v => v.ary
    | none => .ok r.tags
  .ok { monitors, routerEntries, sdram, tags }

/-- the links of a chip, `json_machine.py` 147-154 -/
def readLinks (m : Machine) (dead : List Json) (x y : Int) : List Int → Except PyErr (List Link)
  | [] => .ok []
  | i :: is =>
    if dead.any (Json.isInt i) then readLinks m dead x y is
    else match m.xyOverLink x y i with
      | .error e => .error e
      | .ok q => match readLinks m dead x y is with
        | .error e => .error e
        | .ok ls => .ok ({ sourceX := x, sourceY := y, sourceLinkId := i, destX := q.1, destY := q.2 } :: ls)

/-- `json_machine.py` 113: two items, or ValueError -/
def readPair (details : PDict String Json) : Except PyErr (Json × Json) := do
  match ← (← details.getE "ethernet").ary with
  | [bx, byy] => .ok (bx, byy)
  | _ => .error .valueError

/-- the address and the resources to start with, `json_machine.py` 116-127 -/
def readKind (s e : JRes) (details : PDict String Json) : Except PyErr (Option PyStr × JRes) :=
  match details.get? "ipAddress" with
  | some a => match a.string with
    | .ok a => .ok (some a, e)
    | .error x => .error x
  | none => .ok (none, s)

/-- `json_machine.py` 128-137 -/
def readOverrides (l : List Json) (res : JRes) : Except PyErr JRes :=
  if l.length > 3 then do readExceptions res (← (← pyIndex l 3).object) else .ok res

/-- `json_machine.py` 138-140 -/
def checkMonitors (res : JRes) : Except PyErr Unit :=
  if ¬ res.monitors.isInt 1 then .error .notImplemented else .ok ()

/-- `json_machine.py` 143-146 -/
def readDead (details : PDict String Json) : Except PyErr (List Json) :=
  match details.get? "deadLinks" with
  | some d => d.ary
  | none => .ok []

/-- one chip of the list, `json_machine.py` 108-163; `m` is the machine so far (only its size
matters) -/
def readChip (m : Machine) (s e : JRes) (j : Json) : Except PyErr Chip := do
  let l ← j.ary
  let details ← (← pyIndex l 2).object
  let x ← (← pyIndex l 0).int
  let y ← (← pyIndex l 1).int
  let board ← readPair details
  let kind ← readKind s e details
  let res ← readOverrides l kind.2
  checkMonitors res
  let dead ← readDead details
  let links ← readLinks m dead x y (pyRange 6)
  let router ← Router.mk' links res.routerEntries
  let n ← (← details.getE "cores").int
  let bx ← board.1.int
  let byy ← board.2.int
  let tags ← mapE Json.int res.tags
  .ok (Chip.mk' x y [0] (pyRange2 1 n) router res.sdram bx byy kind.1 (some tags) none)

/-- the loop over the chips, `json_machine.py` 108-163 -/
def readChips (s e : JRes) : List Json → Machine → Except PyErr Machine
  | [], m => .ok m
  | j :: js, m => do
    let c ← readChip m s e j
    let m ← m.addChip c
    readChips s e js m

/-- `machine_from_json`, `json_machine.py` 76-168, of a JSON object. -/
def machineFromJson (v : Version) (j : Json) : Except PyErr Machine := do
  let o ← j.object
  let w ← (← o.getE "width").int
  let h ← (← o.getE "height").int
  let m ← v.kind.createMachine (some w) (some h) "Json"
  let s ← readRes (← o.getE "standardResources")
  let e ← readRes (← o.getE "ethernetResources")
  let m ← readChips s e (← (← o.getE "chips").ary) m
  .ok ((m.addSpinnakerLinks v).addFpgaLinks v)

end SpiNN
