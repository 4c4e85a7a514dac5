import Verif.Py.Str
import Verif.Model.Version

/-!
# `ignores/ignore_chip.py`, `ignore_link.py`, `ignore_core.py` and the parsing of core strings

Python sets of items are lists without duplicates (order of first addition); the items are
compared by `__eq__`, which compares all fields, so equality of the structures.
-/

namespace SpiNN

/-- `IgnoreChip`, `ignores/ignore_chip.py` 19-44. -/
structure IgnoreChip where
  x : Int
  y : Int
  ip : Option PyStr
  deriving DecidableEq, Repr

/-- `IgnoreLink`, `ignores/ignore_link.py` 19-47. -/
structure IgnoreLink where
  x : Int
  y : Int
  link : Int
  ip : Option PyStr
  deriving DecidableEq, Repr

/-- `IgnoreCore`, `ignores/ignore_core.py` 25-55. -/
structure IgnoreCore where
  x : Int
  y : Int
  p : Int
  ip : Option PyStr
  deriving DecidableEq, Repr

/-- `IgnoreChip.__init__` from strings, `ignores/ignore_chip.py` 27-44. -/
def IgnoreChip.ofStrings (x y : PyStr) (ip : Option PyStr) : Except PyErr IgnoreChip :=
  match pyInt x with
  | .error e => .error e
  | .ok x => match pyInt y with
    | .error e => .error e
    | .ok y => .ok { x, y, ip }

/-- `IgnoreChip.parse_single_string`, `ignores/ignore_chip.py` 46-80. -/
def IgnoreChip.parseSingle (s : PyStr) : Except PyErr IgnoreChip :=
  match splitOn ',' s with
  | [a, b] => IgnoreChip.ofStrings a b none
  | [a, b, c] => IgnoreChip.ofStrings a b (some c)
  | _ => .error .valueError

/-- `IgnoreChip.parse_string`, `ignores/ignore_chip.py` 82-118. -/
def IgnoreChip.parseString (s : Option PyStr) : Except PyErr (List IgnoreChip) :=
  match s with
  | none => .ok []
  | some s =>
    if pyLower s = "none".toList then .ok []
    else match mapE IgnoreChip.parseSingle (splitOn ':' s) with
      | .error e => .error e
      | .ok l => .ok (orderedSet l)

/-- `IgnoreLink.__init__` from strings, `ignores/ignore_link.py` 26-47. -/
def IgnoreLink.ofStrings (x y l : PyStr) (ip : Option PyStr) : Except PyErr IgnoreLink :=
  match pyInt x with
  | .error e => .error e
  | .ok x => match pyInt y with
    | .error e => .error e
    | .ok y => match pyInt l with
      | .error e => .error e
      | .ok link => .ok { x, y, link, ip }

/-- `IgnoreLink.parse_single_string`, `ignores/ignore_link.py` 49-79. -/
def IgnoreLink.parseSingle (s : PyStr) : Except PyErr IgnoreLink :=
  match splitOn ',' s with
  | [a, b, c] => IgnoreLink.ofStrings a b c none
  | [a, b, c, d] => IgnoreLink.ofStrings a b c (some d)
  | _ => .error .valueError

/-- `IgnoreLink.parse_string`, `ignores/ignore_link.py` 81-114. -/
def IgnoreLink.parseString (s : Option PyStr) : Except PyErr (List IgnoreLink) :=
  match s with
  | none => .ok []
  | some s =>
    if pyLower s = "none".toList then .ok []
    else match mapE IgnoreLink.parseSingle (splitOn ':' s) with
      | .error e => .error e
      | .ok l => .ok (orderedSet l)

/-! ### core strings -/

/-- `CORE_SINGLE.fullmatch(s) is not None` for `(-*)(\d+)`, `abstract_version.py` 39 -/
def matchSingle (s : PyStr) : Bool :=
  let d := s.dropWhile (· = '-')
  !d.isEmpty && d.all isDig

/-- the groups of `CORE_RANGE.fullmatch(s)` for `(\d+)-(\d+)`, `abstract_version.py` 38 -/
def matchRange (s : PyStr) : Option (PyStr × PyStr) :=
  let a := s.takeWhile isDig
  match s.dropWhile isDig with
  | '-' :: b => if !a.isEmpty && !b.isEmpty && b.all isDig then some (a, b) else none
  | _ => none

/-- the groups of `CORE_QX_QY_QP.fullmatch(s)` for `(\d)\.(\d)\.(\d)`, `version_spin2.py` 26 -/
def matchQuad (s : PyStr) : Option (PyStr × PyStr × PyStr) :=
  match s with
  | [a, '.', b, '.', c] =>
    if isDig a && isDig b && isDig c then some ([a], [b], [c]) else none
  | _ => none

/-- `version_parse_cores_string`: `version_spin1.py` 109-112, `version_spin2.py` 119-129. -/
def VKind.versionParseCores (k : VKind) (s : PyStr) : Except PyErr (List Int) :=
  if k.isSpin1 then .error .configError
  else match matchQuad s with
    | none => .error .configError
    | some (a, b, c) => match pyInt a with
      | .error e => .error e
      | .ok qx => match pyInt b with
        | .error e => .error e
        | .ok qy => match pyInt c with
          | .error e => .error e
          | .ok qp => match k.qxQyQpToId qx qy qp with
            | .error e => .error e
            | .ok i => .ok [i]

/-- `parse_cores_string`, `abstract_version.py` 495-525. -/
def VKind.parseCores (k : VKind) (s : PyStr) : Except PyErr (List Int) :=
  if matchSingle s then match pyInt s with
    | .error e => .error e
    | .ok i => .ok [i]
  else match matchRange s with
    | some (a, b) => match pyInt a with
      | .error e => .error e
      | .ok a => match pyInt b with
        | .error e => .error e
        | .ok b => .ok (pyRange2 a (b + 1))
    | none => k.versionParseCores s

/-- `IgnoreCore.__init__` from two strings and an int, `ignores/ignore_core.py` 32-55. -/
def IgnoreCore.ofStrings (x y : PyStr) (ip : Option PyStr) (p : Int) : Except PyErr IgnoreCore :=
  match pyInt x with
  | .error e => .error e
  | .ok x => match pyInt y with
    | .error e => .error e
    | .ok y => .ok { x, y, p, ip }

/-- `IgnoreCore.parse_single_string`, `ignores/ignore_core.py` 71-110. -/
def IgnoreCore.parseSingle (k : VKind) (s : PyStr) : Except PyErr (List IgnoreCore) :=
  match splitOn ',' s with
  | [a, b, c] => match k.parseCores c with
    | .error e => .error e
    | .ok ps => mapE (IgnoreCore.ofStrings a b none) ps
  | [a, b, c, d] => match k.parseCores c with
    | .error e => .error e
    | .ok ps => mapE (IgnoreCore.ofStrings a b (some d)) ps
  | _ => .error .valueError

/-- `IgnoreCore.parse_string`, `ignores/ignore_core.py` 112-151. -/
def IgnoreCore.parseString (k : VKind) (s : Option PyStr) : Except PyErr (List IgnoreCore) :=
  match s with
  | none => .ok []
  | some s =>
    if pyLower s = "none".toList then .ok []
    else match mapE (IgnoreCore.parseSingle k) (splitOn ':' s) with
      | .error e => .error e
      | .ok l => .ok (orderedSet l.flatten)

/-- `TYPICAL_PHYSICAL_VIRTUAL_MAP`, `ignores/ignore_core.py` 20-22. -/
def typicalMap : PDict Int Int := ⟨[
   (0, 1), (1, 2), (2, 3), (3, 4), (4, 5), (5, 6), (6, 7), (7, 8), (8, 9), (9, 10), (10, 0),
   (11, 12), (12, 13), (13, 14), (14, 15), (15, 16), (16, 17), (17, 18)]⟩

/-- `virtual_p`, `ignores/ignore_core.py` 57-69. -/
def IgnoreCore.virtualP (c : IgnoreCore) : Except PyErr Int :=
  if c.p > 0 then .ok c.p else typicalMap.getE (0 - c.p)

end SpiNN
