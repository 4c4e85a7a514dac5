import Verif.Model.Machine
import Verif.Py.Str

/-!
# The texts that describe chips and machines

`where_is_chip`, `where_is_xy` and `summary_string` of `machine.py`, and `str(chip)`. Warnings are
values; the wording of a warning is dropped.
-/

namespace SpiNN

/-- `f"{a}"` of an optional string -/
def showOpt : Option PyStr → PyStr
  | some a => a
  | none => "None".toList

/-- `Chip.__str__`, `chip.py` 249-256. -/
def Chip.toStr (c : Chip) : PyStr :=
  "[Chip: x=".toList ++ showInt c.x ++ ", y=".toList ++ showInt c.y ++ ", ".toList ++
    (if Machine.truthy c.ip then "ip_address=".toList ++ showOpt c.ip ++ " ".toList else []) ++
    "n_cores=".toList ++ showInt c.nProcessors ++ "]".toList

/-- a value, or a range of values: the smallest and the largest -/
inductive Spread where
  | one (n : Int)
  | between (lo hi : Int)
  deriving DecidableEq, Repr

/-- the warnings of `summary_string` -/
inductive SummaryWarning where
  | sdramUnexpected (found expected : Int) (name : String)
  | sdramMixed (counts : PDict Int Int)
  | routerUnexpected (found expected : Int) (name : String)
  | routerMixed (counts : PDict Int Int)
  deriving DecidableEq, Repr

/-- `f"{t / 2}"` of a number of links: a float printed with one decimal. Python switches to the
exponent form at 1e16, which is not modelled. -/
def showHalf (t : Int) : PyStr :=
  showInt (pdiv t 2) ++ (if pmod t 2 = 0 then ".0".toList else ".5".toList)

namespace Machine

/-- `get_local_xy` divides by zero on a wrapped axis of size 0, `horizontal_wrap_machine.py` 71-75,
`vertical_wrap_machine.py` 71-75, `full_wrap_machine.py` 71-76 -/
def localRaises (m : Machine) : Bool :=
  match m.wrap with
  | .none => false
  | .horizontal => m.width = 0
  | .vertical => m.height = 0
  | .full => m.width = 0 || m.height = 0

/-- `where_is_chip`, `machine.py` 303-326. -/
def whereIsChip (m : Machine) (c : Chip) : PyStr :=
  match m.chips.getE (0, 0) with
  | .error _ => c.toStr
  | .ok chip00 =>
    let ip := match m.chips.getE (c.ethX, c.ethY) with
      | .ok local00 => "on ".toList ++ showOpt local00.ip
      | .error _ => []
    if m.localRaises then c.toStr
    else
      let l := m.getLocalXY c
      "global chip ".toList ++ showInt c.x ++ ", ".toList ++ showInt c.y ++ " on ".toList ++
        showOpt chip00.ip ++ " is chip ".toList ++ showInt l.1 ++ ", ".toList ++ showInt l.2 ++
        " ".toList ++ ip

/-- `where_is_xy`, `machine.py` 328-340; a chip is a pair, so it is true in a test. -/
def whereIsXY (m : Machine) (x y : Int) : PyStr :=
  match m.getChipAt x y with
  | some c => m.whereIsChip c
  | none => "No chip ".toList ++ showInt x ++ ", ".toList ++ showInt y ++ " found".toList

/-- `sorted(counter.keys())`, its length and its ends, `machine.py` 960-961, 967-969, 973-974,
981-984, 989-993, 995-999: IndexError for an empty counter -/
def spread (c : PDict Int Int) : Except PyErr Spread :=
  let l := sortedInts c.keys
  match pyIndex l 0 with
  | .error e => .error e
  | .ok lo => if l.length = 1 then .ok (.one lo)
    else match pyIndex l (-1) with
      | .error e => .error e
      | .ok hi => .ok (.between lo hi)

/-- the SDRAM: what is logged and the text, `machine.py` 961-971 -/
def sdramPart (v : Version) (counts : PDict Int Int) : Spread → List SummaryWarning × PyStr
  | .one n => ((if n ≠ v.maxSdram then [.sdramUnexpected n v.maxSdram v.kind.name] else []),
      "sdram of ".toList ++ showInt n ++ " bytes".toList)
  | .between lo hi => ([.sdramMixed counts],
      "sdram of between ".toList ++ showInt lo ++ " and ".toList ++ showInt hi ++ " bytes".toList)

/-- the router tables: what is logged and the text, `machine.py` 974-987 -/
def routerPart (v : Version) (counts : PDict Int Int) : Spread → List SummaryWarning × PyStr
  | .one n => ((if n ≠ v.kind.nRouterEntries then
        [.routerUnexpected n v.kind.nRouterEntries v.kind.name] else []),
      "router table of size ".toList ++ showInt n)
  | .between lo hi => ([.routerMixed counts],
      "router table sizes between ".toList ++ showInt lo ++ " and ".toList ++ showInt hi)

/-- the text on cores, `machine.py` 990-993 -/
def coresPart : Spread → PyStr
  | .one n => " ".toList ++ showInt n ++ " cores".toList
  | .between lo hi => "between ".toList ++ showInt lo ++ " and ".toList ++ showInt hi ++ " cores".toList

/-- the text on links, `machine.py` 996-999 -/
def linksPart : Spread → PyStr
  | .one n => " ".toList ++ showInt n ++ " links.".toList
  | .between lo hi => "between ".toList ++ showInt lo ++ " and ".toList ++ showInt hi ++ " links".toList

/-- `summary_string`, `machine.py` 949-1005: the warnings logged and the text. An exception is that
of the first part that raises; what was logged before it is not kept. -/
def summaryString (v : Version) (m : Machine) : Except PyErr (List SummaryWarning × PyStr) := do
  let sdram ← spread m.sdrams
  let routers ← spread m.nRouterEntries
  let cores ← spread m.nCores
  let links ← spread m.nLinks
  let boot ← m.bootChip
  .ok ((sdramPart v m.sdrams sdram).1 ++ (routerPart v m.nRouterEntries routers).1,
    "Machine on ".toList ++ showOpt boot.ip ++ " with ".toList ++ showInt m.nChips ++ " Chips, ".toList ++
    showInt m.getCoresCount ++ " cores and ".toList ++ showHalf (counterTotal m.nLinks) ++
    " links. Chips have ".toList ++ (sdramPart v m.sdrams sdram).2 ++ ", ".toList ++
    (routerPart v m.nRouterEntries routers).2 ++ ", ".toList ++ coresPart cores ++ " and ".toList ++
    linksPart links ++ ".".toList)

end Machine
end SpiNN
