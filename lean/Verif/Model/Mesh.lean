import Verif.Py.Basic

/-!
# Coordinates: the four machine classes' arithmetic

Models the wrap dependent methods of `no_wrap_machine.py`, `horizontal_wrap_machine.py`,
`vertical_wrap_machine.py`, `full_wrap_machine.py` and the static helpers of `machine.py`.
The four classes are a tag `Wrap`; every method has one branch per class.
-/

namespace SpiNN

/-- The four machine classes (`no_wrap_machine.py` 21, `horizontal_wrap_machine.py` 21,
`vertical_wrap_machine.py` 21, `full_wrap_machine.py` 21). -/
inductive Wrap where
  | none | horizontal | vertical | full
  deriving DecidableEq, Repr

/-- `Machine.wrap` property: `no_wrap_machine.py` 133-136, `horizontal_wrap_machine.py`
152-155, `vertical_wrap_machine.py` 152-155, `full_wrap_machine.py` 164-167. -/
def Wrap.label : Wrap → String
  | .none => "NoWrap" | .horizontal => "HorWrap" | .vertical => "VerWrap" | .full => "Wrapped"

/-- `Machine.LINK_ADD_TABLE`, `machine.py` 49. -/
def linkAddTable : List XY := [(1, 0), (1, 1), (0, 1), (-1, 0), (-1, -1), (0, -1)]

namespace Wrap

/-- The body shared by `xy_over_link` once the table was read; one branch per class
(`no_wrap_machine.py` 61-65, `horizontal_wrap_machine.py` 64-68, `vertical_wrap_machine.py`
64-68, `full_wrap_machine.py` 64-68). -/
def stepBy (wr : Wrap) (w h : Int) (x y : Int) (add : XY) : XY :=
  match wr with
  | .none => (x + add.1, y + add.2)
  | .horizontal => (pmod (x + add.1 + w) w, y + add.2)
  | .vertical => (x + add.1, pmod (y + add.2 + h) h)
  | .full => (pmod (x + add.1 + w) w, pmod (y + add.2 + h) h)

/-- `Machine.xy_over_link(x, y, link)`; same lines as `stepBy`. -/
def xyOverLink (wr : Wrap) (w h : Int) (x y link : Int) : Except PyErr XY :=
  match pyIndex linkAddTable link with
  | .ok add => .ok (wr.stepBy w h x y add)
  | .error e => .error e

/-- `Machine.get_local_xy(chip)` of a chip at `(x, y)` with nearest Ethernet `(ex, ey)`
(`no_wrap_machine.py` 68-71, `horizontal_wrap_machine.py` 71-75,
`vertical_wrap_machine.py` 71-75, `full_wrap_machine.py` 71-76). -/
def localXY (wr : Wrap) (w h : Int) (x y ex ey : Int) : XY :=
  match wr with
  | .none => (x - ex, y - ey)
  | .horizontal => (pmod (x - ex + w) w, y - ey)
  | .vertical => (x - ex, pmod (y - ey + h) h)
  | .full => (pmod (x - ex + w) w, pmod (y - ey + h) h)

/-- `Machine.get_global_xy(local_x, local_y, ethernet_x, ethernet_y)`
(`no_wrap_machine.py` 74-79, `horizontal_wrap_machine.py` 78-83,
`vertical_wrap_machine.py` 78-83, `full_wrap_machine.py` 79-84). -/
def globalXY (wr : Wrap) (w h : Int) (lx ly ex ey : Int) : XY :=
  match wr with
  | .none => (lx + ex, ly + ey)
  | .horizontal => (pmod (lx + ex) w, ly + ey)
  | .vertical => (lx + ex, pmod (ly + ey) h)
  | .full => (pmod (lx + ex) w, pmod (ly + ey) h)

/-- `Machine.get_xys_by_ethernet(ethernet_x, ethernet_y)` for a chip core map
(`no_wrap_machine.py` 31-34, `horizontal_wrap_machine.py` 31-36,
`vertical_wrap_machine.py` 31-36, `full_wrap_machine.py` 30-35). -/
def xysByEthernet (wr : Wrap) (w h : Int) (ccm : PDict XY Int) (ex ey : Int) : List XY :=
  ccm.keys.map fun (x, y) =>
    match wr with
    | .none => (x + ex, y + ey)
    | .horizontal => (pmod (x + ex) w, y + ey)
    | .vertical => (x + ex, pmod (y + ey) h)
    | .full => (pmod (x + ex) w, pmod (y + ey) h)

/-- `Machine.get_xy_cores_by_ethernet` (`no_wrap_machine.py` 37-42,
`horizontal_wrap_machine.py` 39-43, `vertical_wrap_machine.py` 39-43,
`full_wrap_machine.py` 38-43). -/
def xyCoresByEthernet (wr : Wrap) (w h : Int) (ccm : PDict XY Int) (ex ey : Int) :
    List (XY × Int) :=
  ccm.items.map fun ((x, y), n) =>
    match wr with
    | .none => ((x + ex, y + ey), n)
    | .horizontal => ((pmod (x + ex) w, y + ey), n)
    | .vertical => ((x + ex, pmod (y + ey) h), n)
    | .full => ((pmod (x + ex) w, pmod (y + ey) h), n)

/-- `Machine.get_existing_xys_by_ethernet`; `has` is `in self._chips`
(`no_wrap_machine.py` 45-50, `horizontal_wrap_machine.py` 46-52,
`vertical_wrap_machine.py` 46-52, `full_wrap_machine.py` 46-52). -/
def existingXysByEthernet (wr : Wrap) (w h : Int) (ccm : PDict XY Int) (has : XY → Bool)
    (ex ey : Int) : List XY :=
  (ccm.keys.map fun (x, y) =>
    match wr with
    | .none => (x + ex, y + ey)
    | .horizontal => (pmod (x + ex) w, y + ey)
    | .vertical => (x + ex, pmod (y + ey) h)
    | .full => (pmod (x + ex) w, pmod (y + ey) h)).filter fun xy => has xy

/-- `Machine.get_down_xys_by_ethernet` (`no_wrap_machine.py` 53-58,
`horizontal_wrap_machine.py` 55-61, `vertical_wrap_machine.py` 55-61,
`full_wrap_machine.py` 55-61). -/
def downXysByEthernet (wr : Wrap) (w h : Int) (ccm : PDict XY Int) (has : XY → Bool)
    (ex ey : Int) : List XY :=
  (ccm.keys.map fun (x, y) =>
    match wr with
    | .none => (x + ex, y + ey)
    | .horizontal => (pmod (x + ex) w, y + ey)
    | .vertical => (x + ex, pmod (y + ey) h)
    | .full => (pmod (x + ex) w, pmod (y + ey) h)).filter fun xy => !has xy

/-- `NoWrapMachine.get_vector_length` (`no_wrap_machine.py` 82-121) as a function of the
displacement. -/
def lenNone (x y : Int) : Int :=
  if x > 0 then
    if y > 0 then (if x > y then x else y) else x - y
  else
    if y > 0 then y - x else (if x > y then -y else -x)

/-- `len_right` of `HorizontalWrapMachine.get_vector_length` (`horizontal_wrap_machine.py`
94-108). -/
def horLenRight (xr y : Int) : Int :=
  if y > 0 then (if xr > y then xr else y) else xr - y

/-- `len_left` of the same lines. -/
def horLenLeft (xl y : Int) : Int :=
  if y > 0 then y - xl else (if xl > y then -y else -xl)

/-- `len_up` of `VerticalWrapMachine.get_vector_length` (`vertical_wrap_machine.py`
94-108). -/
def verLenUp (x yu : Int) : Int :=
  if x > 0 then (if x > yu then x else yu) else yu - x

/-- `len_down` of the same lines. -/
def verLenDown (x yd : Int) : Int :=
  if x > 0 then x - yd else (if x > yd then -yd else -x)

/-- `FullWrapMachine.get_vector_length` (`full_wrap_machine.py` 87-117). -/
def lenFull (w h : Int) (src dst : XY) : Int :=
  let xUp := pmod (dst.1 - src.1) w
  let xDown := xUp - w
  let yRight := pmod (dst.2 - src.2) h
  let yLeft := yRight - h
  let length := if xUp > yRight then xUp else yRight
  let negativeX := yRight - xDown
  let length := if negativeX < length then negativeX else length
  let negativeY := xUp - yLeft
  let length := if negativeY < length then negativeY else length
  let negativeXY := if xDown > yLeft then -yLeft else -xDown
  if negativeXY < length then negativeXY else length

/-- `Machine.get_vector_length(source, destination)` (`no_wrap_machine.py` 82-121,
`horizontal_wrap_machine.py` 86-113, `vertical_wrap_machine.py` 86-113,
`full_wrap_machine.py` 87-117). -/
def vectorLength (wr : Wrap) (w h : Int) (src dst : XY) : Int :=
  match wr with
  | .none => lenNone (dst.1 - src.1) (dst.2 - src.2)
  | .horizontal =>
    let xRight := pmod (dst.1 - src.1) w
    let xLeft := xRight - w
    let y := dst.2 - src.2
    let lenRight := horLenRight xRight y
    let lenLeft := horLenLeft xLeft y
    if lenRight < lenLeft then lenRight else lenLeft
  | .vertical =>
    let x := dst.1 - src.1
    let yUp := pmod (dst.2 - src.2) h
    let yDown := yUp - h
    let lenUp := verLenUp x yUp
    let lenDown := verLenDown x yDown
    if lenUp < lenDown then lenUp else lenDown
  | .full => lenFull w h src dst

/-- `Machine._minimize_vector(x, y)` (`machine.py` 1166-1204). -/
def minimizeVector (x y : Int) : Int × Int × Int :=
  if x > 0 then
    if y > 0 then
      (if x > y then (x - y, 0, -y) else (0, y - x, -x))
    else (x, y, 0)
  else
    if y > 0 then (x, y, 0)
    else (if x > y then (0, y - x, -x) else (x - y, 0, -y))

/-- `FullWrapMachine.get_vector` (`full_wrap_machine.py` 120-155). -/
def vecFull (w h : Int) (src dst : XY) : Int × Int × Int :=
  let xUp := pmod (dst.1 - src.1) w
  let xDown := xUp - w
  let yRight := pmod (dst.2 - src.2) h
  let yLeft := yRight - h
  -- (length, dx, dy)
  let s0 : Int × Int × Int := (if xUp > yRight then xUp else yRight, xUp, yRight)
  let negativeX := yRight - xDown
  let s1 : Int × Int × Int := if negativeX < s0.1 then (negativeX, xDown, s0.2.2) else s0
  let negativeY := xUp - yLeft
  let s2 : Int × Int × Int := if negativeY < s1.1 then (negativeY, xUp, yLeft) else s1
  let negativeXY := if xDown > yLeft then -yLeft else -xDown
  if negativeXY < s2.1 then minimizeVector xDown yLeft else minimizeVector s2.2.1 s2.2.2

/-- `Machine.get_vector(source, destination)` (`no_wrap_machine.py` 124-126,
`horizontal_wrap_machine.py` 116-143, `vertical_wrap_machine.py` 116-143,
`full_wrap_machine.py` 120-155). -/
def vector (wr : Wrap) (w h : Int) (src dst : XY) : Int × Int × Int :=
  match wr with
  | .none => minimizeVector (dst.1 - src.1) (dst.2 - src.2)
  | .horizontal =>
    let xRight := pmod (dst.1 - src.1) w
    let xLeft := xRight - w
    let y := dst.2 - src.2
    let lenRight := horLenRight xRight y
    let lenLeft := horLenLeft xLeft y
    if lenRight < lenLeft then minimizeVector xRight y else minimizeVector xLeft y
  | .vertical =>
    let x := dst.1 - src.1
    let yUp := pmod (dst.2 - src.2) h
    let yDown := yUp - h
    let lenUp := verLenUp x yUp
    let lenDown := verLenDown x yDown
    if lenUp < lenDown then minimizeVector x yUp else minimizeVector x yDown
  | .full => vecFull w h src dst

end Wrap

/-- inner loop of `_basic_concentric_xys` (`machine.py` 1268-1271): `n` times yield the
position and move; returns the positions and where it ends. -/
def ringSide (dx dy : Int) : Nat → Int → Int → List XY × XY
  | 0, x, y => ([], (x, y))
  | n + 1, x, y =>
    let r := ringSide dx dy n (x + dx) (y + dy)
    ((x, y) :: r.1, r.2)

/-- the six directions of `_basic_concentric_xys` (`machine.py` 1267). -/
def ringDirs : List XY := [(1, 1), (0, 1), (-1, 0), (-1, -1), (0, -1), (1, 0)]

/-- loop over the directions (`machine.py` 1267-1271). -/
def ringWalk (r : Nat) : List XY → Int → Int → List XY × XY
  | [], x, y => ([], (x, y))
  | (dx, dy) :: ds, x, y =>
    let s := ringSide dx dy r x y
    let t := ringWalk r ds s.2.1 s.2.2
    (s.1 ++ t.1, t.2)

/-- loop over the rings (`machine.py` 1263-1271): `n` more rings, the next has radius `r`. -/
def rings : Nat → Nat → Int → Int → List XY
  | 0, _, _, _ => []
  | n + 1, r, x, y =>
    let s := ringWalk r ringDirs x (y - 1)
    s.1 ++ rings n (r + 1) s.2.1 s.2.2

/-- `Machine._basic_concentric_xys(radius, start)` (`machine.py` 1251-1271); the generator
is the list of the values it yields. -/
def basicConcentricXys (radius : Int) (start : XY) : List XY :=
  start :: rings radius.toNat 1 start.1 start.2

/-- `Machine.concentric_xys(radius, start)` (`no_wrap_machine.py` 129-131,
`horizontal_wrap_machine.py` 146-150, `vertical_wrap_machine.py` 146-150,
`full_wrap_machine.py` 158-162). -/
def Wrap.concentricXys (wr : Wrap) (w h : Int) (radius : Int) (start : XY) : List XY :=
  match wr with
  | .none => basicConcentricXys radius start
  | .horizontal => (basicConcentricXys radius start).map fun (x, y) => (pmod x w, y)
  | .vertical => (basicConcentricXys radius start).map fun (x, y) => (x, pmod y h)
  | .full => (basicConcentricXys radius start).map fun (x, y) => (pmod x w, pmod y h)

end SpiNN
