import Verif.Py.Basic

/-!
# `link.py`, `router.py` (links part) and `chip.py`
-/

namespace SpiNN

/-- `Link`, `link.py` 20-51. -/
structure Link where
  sourceX : Int
  sourceY : Int
  sourceLinkId : Int
  destX : Int
  destY : Int
  deriving DecidableEq, Repr

/-- `Router`, `router.py` 25-59: a dict of links by source link id and the number of
available multicast entries. -/
structure Router where
  links : PDict Int Link
  nEntries : Int
  deriving DecidableEq, Repr

namespace Router

/-- `MAX_LINKS_PER_ROUTER`, `router.py` 36. -/
def maxLinks : Int := 6
/-- `LINK_OPPOSITE`, `router.py` 39. -/
def linkOpposite : Int := 3
/-- `MAX_CORES_PER_ROUTER`, `router.py` 41. -/
def maxCores : Int := 18

/-- `add_link`, `router.py` 61-72. -/
def addLink (r : Router) (l : Link) : Except PyErr Router :=
  if r.links.contains l.sourceLinkId then .error .alreadyExists
  else .ok { r with links := r.links.set l.sourceLinkId l }

/-- the loop of `__init__`, `router.py` 56-57 -/
def addLinks : Router → List Link → Except PyErr Router
  | r, [] => .ok r
  | r, l :: ls => match r.addLink l with
    | .ok r' => addLinks r' ls
    | .error e => .error e

/-- `Router(links, n_available_multicast_entries)`, `router.py` 45-59. -/
def mk' (links : List Link) (n : Int) : Except PyErr Router :=
  addLinks { links := .empty, nEntries := n } links

/-- `is_link` / `__contains__`, `router.py` 74-89. -/
def isLink (r : Router) (i : Int) : Bool := r.links.contains i
/-- `get_link` / `__getitem__`, `router.py` 91-106. -/
def getLink (r : Router) (i : Int) : Option Link := r.links.get? i
/-- `links` property, `router.py` 108-115. -/
def linkList (r : Router) : List Link := r.links.values
/-- `__iter__`, `router.py` 117-126. -/
def iter (r : Router) : List (Int × Link) := r.links.items
/-- `__len__`, `router.py` 128-135. -/
def len (r : Router) : Nat := r.links.size
/-- `get_neighbouring_chips_coords`, `router.py` 195-204; the dict `{'x': .., 'y': ..}` is a pair. -/
def neighbours (r : Router) : List XY := r.linkList.map fun l => (l.destX, l.destY)
/-- `opposite`, `router.py` 215-228. -/
def opposite (l : Int) : Int := pmod (l + linkOpposite) maxLinks

end Router
end SpiNN
