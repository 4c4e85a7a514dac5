import Verif.Model.Router

/-!
# `chip.py`
-/

namespace SpiNN

/-- Python strings, as lists of characters (used for addresses and parsed settings). -/
abbrev PyStr := List Char

/-- `OrderedSet(iterable)` of `spinn_utilities`: first occurrences, in order. -/
def orderedSet {α : Type} [DecidableEq α] (l : List α) : List α :=
  l.foldl (fun acc a => if a ∈ acc then acc else acc ++ [a]) []

/-- `Chip`, `chip.py` 24-95. A Chip is the tuple `(x, y)` with extra attributes. -/
structure Chip where
  x : Int
  y : Int
  scamp : List Int
  placable : List Int
  router : Router
  sdram : Int
  ethX : Int
  ethY : Int
  ip : Option PyStr
  tags : List Int
  parentLink : Option Int
  deriving DecidableEq, Repr

namespace Chip

/-- `_IPTAG_IDS`, `chip.py` 31. -/
def ipTagIds : List Int := orderedSet [1, 2, 3, 4, 5, 6, 7]

/-- `Chip.__init__`, `chip.py` 43-95 (tags: 87-92). -/
def mk' (x y : Int) (scamp placable : List Int) (router : Router) (sdram ethX ethY : Int)
    (ip : Option PyStr) (tagIds : Option (List Int)) (parentLink : Option Int) : Chip :=
  { x, y, scamp, placable, router, sdram, ethX, ethY, ip, parentLink
    tags := match tagIds with
      | some t => orderedSet t
      | none => match ip with
        | none => []
        | some _ => ipTagIds }

/-- the tuple the chip is -/
def xy (c : Chip) : XY := (c.x, c.y)

/-- `is_processor_with_id`, `chip.py` 97-108. -/
def isProcessorWithId (c : Chip) (p : Int) : Bool :=
  if p ∈ c.placable then true else decide (p ∈ c.scamp)

/-- `all_processor_ids`, `chip.py` 128-136. -/
def allProcessorIds (c : Chip) : List Int := c.scamp ++ c.placable
/-- `n_processors`, `chip.py` 138-145. -/
def nProcessors (c : Chip) : Int := (c.scamp.length : Int) + (c.placable.length : Int)
/-- `n_placable_processors`, `chip.py` 156-163. -/
def nPlacable (c : Chip) : Int := c.placable.length
/-- `n_scamp_processors`, `chip.py` 174-181. -/
def nScamp (c : Chip) : Int := c.scamp.length

end Chip
end SpiNN
