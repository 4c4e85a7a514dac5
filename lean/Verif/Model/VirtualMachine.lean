import Verif.Model.Ignores
import Verif.Model.Machine

/-!
# `virtual_machine.py`

The version object and the `[Machine]` settings `down_chips`, `down_cores` and `down_links` are
parameters.
-/

namespace SpiNN

/-- the settings read by `_VirtualMachine.__init__`, `virtual_machine.py` 174-190 -/
structure DownCfg where
  chips : Option PyStr := none
  cores : Option PyStr := none
  links : Option PyStr := none
  deriving DecidableEq, Repr

/-- `unused_chips`, `_unused_cores`, `_unused_links` of `_VirtualMachine.__init__`. The dict of
sets of cores is kept as the list of its (chip, core) pairs. -/
structure Down where
  chips : List XY
  cores : List (XY × Int)
  links : List (Int × Int × Int)
  deriving DecidableEq, Repr

/-- `virtual_machine.py` 173-178 -/
def Down.ofChips (l : List IgnoreChip) : List XY :=
  (l.filter fun c => c.ip.isNone).map fun c => (c.x, c.y)

/-- `virtual_machine.py` 180-185; `virtual_p` may raise KeyError -/
def Down.ofCores (l : List IgnoreCore) : Except PyErr (List (XY × Int)) :=
  mapE (fun c => match c.virtualP with
    | .ok p => .ok ((c.x, c.y), p)
    | .error e => .error e) (l.filter fun c => c.ip.isNone)

/-- `_4_chip_down_links`, `virtual_machine.py` 158-161 -/
def fourChipDownLinks : List (Int × Int × Int) :=
  [(0, 0, 3), (0, 0, 4), (0, 1, 3), (0, 1, 4), (1, 0, 0), (1, 0, 1), (1, 1, 0), (1, 1, 1)]

/-- `virtual_machine.py` 187-195 -/
def Down.ofLinks (width : Int) (l : List IgnoreLink) : List (Int × Int × Int) :=
  ((l.filter fun c => c.ip.isNone).map fun c => (c.x, c.y, c.link)) ++
    (if width = 2 then fourChipDownLinks else [])

/-- `virtual_machine.py` 173-195 -/
def Down.read (v : Version) (cfg : DownCfg) (width : Int) : Except PyErr Down :=
  match IgnoreChip.parseString cfg.chips with
  | .error e => .error e
  | .ok cs => match IgnoreCore.parseString v.kind cfg.cores with
    | .error e => .error e
    | .ok ps => match Down.ofCores ps with
      | .error e => .error e
      | .ok cores => match IgnoreLink.parseString cfg.links with
        | .error e => .error e
        | .ok ls => .ok { chips := Down.ofChips cs, cores, links := Down.ofLinks width ls }

/-- `configured_chips`, `virtual_machine.py` 197-207 -/
def configuredChips (v : Version) (m : Machine) (d : Down) (eths : List XY) : PDict XY (XY × Int) :=
  eths.foldl (fun conf e => (m.xyCoresByEthernet e.1 e.2).foldl (fun conf pn =>
    if pn.1 ∈ d.chips then conf else conf.set pn.1 (e, min pn.2 v.maxCores)) conf) .empty

/-- loop of `_calculate_links`, `virtual_machine.py` 253-270 -/
def calculateLinks (m : Machine) (d : Down) (conf : PDict XY (XY × Int)) (p : XY) :
    List Int → Except PyErr (List Link)
  | [] => .ok []
  | i :: is =>
    if (p.1, p.2, i) ∈ d.links then calculateLinks m d conf p is
    else match m.xyOverLink p.1 p.2 i with
      | .error e => .error e
      | .ok q => match calculateLinks m d conf p is with
        | .error e => .error e
        | .ok ls =>
          if conf.contains q then
            .ok ({ sourceX := p.1, sourceY := p.2, destX := q.1, destY := q.2, sourceLinkId := i } :: ls)
          else .ok ls

/-- the cores of a chip, `virtual_machine.py` 246-249 -/
def chipCores (d : Down) (p : XY) (n : Int) : List Int :=
  ((d.cores.filter fun c => c.1 = p).map (·.2)).foldl
    (fun cores c => if c ∈ cores then cores.erase c else cores) (pyRange2 1 n)

/-- `_create_chip`, `virtual_machine.py` 237-251 -/
def createChip (v : Version) (m : Machine) (d : Down) (conf : PDict XY (XY × Int)) (p : XY)
    (ip : Option PyStr) : Except PyErr Chip :=
  match calculateLinks m d conf p (pyRange 6) with
  | .error e => .error e
  | .ok ls => match Router.mk' ls v.kind.nRouterEntries with
    | .error e => .error e
    | .ok r => match conf.getE p with
      | .error e => .error e
      | .ok (e, n) =>
        .ok (Chip.mk' p.1 p.2 [0] (chipCores d p n) r v.maxSdram e.1 e.2 ip none none)

/-- `f"127.0.{x}.{y}"`, `virtual_machine.py` 218 -/
def virtualIp (p : XY) : PyStr := "127.0.".toList ++ showInt p.1 ++ '.' :: showInt p.2

/-- the loop `virtual_machine.py` 214-221; `base` is the machine before the loop (the chips are
created from its size only) -/
def addConfigured (v : Version) (d : Down) (eths : List XY) (conf : PDict XY (XY × Int)) :
    List XY → Machine → Except PyErr Machine
  | [], m => .ok m
  | p :: ps, m => match createChip v m d conf p (if p ∈ eths then some (virtualIp p) else none) with
    | .error e => .error e
    | .ok c => match m.addChip c with
      | .error e => .error e
      | .ok m' => addConfigured v d eths conf ps m'

/-- `virtual_machine`, `virtual_machine.py` 31-43 and `_VirtualMachine.__init__`, 165-226 -/
def virtualMachine (v : Version) (cfg : DownCfg) (w h : Int) (validate : Bool) : Except PyErr Machine :=
  match v.kind.verifySize (some w) (some h) with
  | .error e => .error e
  | .ok () => match v.kind.createMachine (some w) (some h) "Virtual" with
    | .error e => .error e
    | .ok m => match Down.read v cfg w with
      | .error e => .error e
      | .ok d =>
        let eths := v.kind.potentialEthernetChips w h
        let conf := configuredChips v m d eths
        match addConfigured v d eths conf conf.keys m with
        | .error e => .error e
        | .ok m =>
          let m := (m.addSpinnakerLinks v).addFpgaLinks v
          if validate then match m.validate v with
            | .error e => .error e
            | .ok () => .ok m
          else .ok m

/-- the size computed by `virtual_machine_by_min_size`, `virtual_machine.py` 58-66; the division
is exact here; with the floating point of the code it is `minSizeFl` in `Model/Floats.lean` (C85) -/
def minSize (k : VKind) (w h : Int) : Int × Int :=
  let wb := k.boardShape.1
  let hb := k.boardShape.2
  let w := if w ≤ wb ∧ h > hb then wb * 2 else w
  let h := if h ≤ hb ∧ w > wb then hb * 2 else h
  (wb * ceilDiv w wb, hb * ceilDiv h hb)

/-- `virtual_machine_by_min_size`, `virtual_machine.py` 46-67 -/
def virtualMachineByMinSize (v : Version) (cfg : DownCfg) (w h : Int) (validate : Bool) :
    Except PyErr Machine :=
  let s := minSize v.kind w h
  virtualMachine v cfg s.1 s.2 validate

/-- `virtual_machine_by_cores`, `virtual_machine.py` 70-92; `ethMon`, `allMon` are the monitor
counters of the data view -/
def virtualMachineByCores (v : Version) (cfg : DownCfg) (ethMon allMon n : Int) (validate : Bool) :
    Except PyErr Machine :=
  match v.kind.sizeFromNCores ethMon allMon n with
  | .error e => .error e
  | .ok (w, h) => virtualMachine v cfg w h validate

/-- `virtual_machine_by_chips`, `virtual_machine.py` 95-117 -/
def virtualMachineByChips (v : Version) (cfg : DownCfg) (n : Int) (validate : Bool) :
    Except PyErr Machine :=
  match v.kind.sizeFromNChips n with
  | .error e => .error e
  | .ok (w, h) => virtualMachine v cfg w h validate

/-- `virtual_machine_by_boards`, `virtual_machine.py` 120-143 -/
def virtualMachineByBoards (v : Version) (cfg : DownCfg) (n : Int) (validate : Bool) :
    Except PyErr Machine :=
  match v.kind.sizeFromNBoards n with
  | .error e => .error e
  | .ok (w, h) => virtualMachine v cfg w h validate

end SpiNN
