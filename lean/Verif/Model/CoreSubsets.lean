import Verif.Model.Chip

/-!
# `core_subset.py`, `core_subsets.py`, `frozen_core_subsets.py`

`CoreSubset` objects are mutable and are handed out by `CoreSubsets`, so the model has a heap: a
`World` holds the `CoreSubset` objects and the `CoreSubsets` / `FrozenCoreSubsets` objects of a
program by address, and a `CoreSubsets` object maps chip coordinates to the address of a
`CoreSubset`.
-/

namespace SpiNN

/-- `CoreSubset`, `core_subset.py` 18-25; `_processor_ids` is an `OrderedSet`. -/
structure CoreSubset where
  x : Int
  y : Int
  procs : List Int
  deriving DecidableEq, Repr, Inhabited

namespace CoreSubset

/-- `add_processor`, `core_subset.py` 39-45 (`OrderedSet.add`). -/
def add (s : CoreSubset) (p : Int) : CoreSubset :=
  if p ∈ s.procs then s else { s with procs := s.procs ++ [p] }

/-- `CoreSubset(x, y, processor_ids)`, `core_subset.py` 27-37. -/
def mk' (x y : Int) (ps : List Int) : CoreSubset := ps.foldl add { x, y, procs := [] }

/-- `__contains__`, `core_subset.py` 47-48. -/
def contains (s : CoreSubset) (p : Int) : Bool := decide (p ∈ s.procs)

/-- `processor_ids`, `core_subset.py` 68-75: the iterator, as the list it yields. -/
def processorIds (s : CoreSubset) : List Int := s.procs

/-- `__len__`, `core_subset.py` 93-97. -/
def len (s : CoreSubset) : Nat := s.procs.length

/-- `__eq__` with another `CoreSubset`, `core_subset.py` 80-84. The code compares the
`OrderedSet` with an *iterator*; `spinn_utilities`' `OrderedSet.__eq__` then compares
`set(self) == set(other)`, so the order does not matter. -/
def eq (a b : CoreSubset) : Bool :=
  decide (a.x = b.x) && decide (a.y = b.y) &&
  a.procs.all (fun p => decide (p ∈ b.procs)) && b.procs.all (fun p => decide (p ∈ a.procs))

/-- `intersect`, `core_subset.py` 99-113. -/
def intersect (a b : CoreSubset) : CoreSubset :=
  a.procs.foldl (fun r p => if p ∈ b.procs then r.add p else r) (mk' a.x a.y [])

end CoreSubset

/-- `CoreSubsets`, `core_subsets.py` 19-25, or `FrozenCoreSubsets`, `frozen_core_subsets.py` 22-26
(`frozen`): the dictionary `_core_subsets` from `(x, y)` to the address of a `CoreSubset`. -/
structure CoreGroup where
  frozen : Bool
  map : PDict XY Nat
  deriving DecidableEq, Repr, Inhabited

/-- the objects of a program: addresses below `nSubs` / `nGrps` are in use -/
structure CoreWorld where
  subs : Nat → CoreSubset
  nSubs : Nat
  grps : Nat → CoreGroup
  nGrps : Nat

/-- assignment to one address -/
def upd {α : Type} (f : Nat → α) (a : Nat) (v : α) : Nat → α := fun b => if b = a then v else f b

namespace CoreWorld

/-- no objects yet -/
def empty : CoreWorld := { subs := fun _ => default, nSubs := 0, grps := fun _ => default, nGrps := 0 }

/-- creating a `CoreSubset` object: the new address and the new world -/
def newSubset (w : CoreWorld) (s : CoreSubset) : Nat × CoreWorld :=
  (w.nSubs, { w with subs := upd w.subs w.nSubs s, nSubs := w.nSubs + 1 })

/-- `subset.add_processor(p)` on the object at address `a`, `core_subset.py` 39-45 -/
def subsetAdd (w : CoreWorld) (a : Nat) (p : Int) : CoreWorld :=
  { w with subs := upd w.subs a ((w.subs a).add p) }

/-- `CoreSubsets.add_processor`, `core_subsets.py` 56-68, also what `super().add_processor` does
in `frozen_core_subsets.py` 35. -/
def groupAdd (w : CoreWorld) (g : Nat) (x y p : Int) : CoreWorld :=
  match (w.grps g).map.get? (x, y) with
  | none =>
    let (a, w) := w.newSubset (CoreSubset.mk' x y [p])
    { w with grps := upd w.grps g { w.grps g with map := (w.grps g).map.set (x, y) a } }
  | some a => w.subsetAdd a p

/-- the loop of `CoreSubsets.add_core_subset`, `core_subsets.py` 42-45, and of
`FrozenCoreSubsets.__init__`, `frozen_core_subsets.py` 32-35. The loop reads the processors of
the subset as they are when it starts: the only subset that could change while it runs is the
one the group itself holds for that chip, and adding to it what it contains changes nothing. -/
def groupAddSubset (w : CoreWorld) (g a : Nat) : CoreWorld :=
  (w.subs a).procs.foldl (fun w' p => w'.groupAdd g (w.subs a).x (w.subs a).y p) w

/-- the loops `core_subsets.py` 33-34 and 53-54, `frozen_core_subsets.py` 31-35. -/
def groupAddSubsets (w : CoreWorld) (g : Nat) (as : List Nat) : CoreWorld :=
  as.foldl (fun w' a => w'.groupAddSubset g a) w

/-- `CoreSubsets(core_subsets)`, `core_subsets.py` 27-34 and
`FrozenCoreSubsets(core_subsets)`, `frozen_core_subsets.py` 29-35. -/
def newGroup (w : CoreWorld) (frozen : Bool) (as : List Nat) : Nat × CoreWorld :=
  let g := w.nGrps
  let w' := { w with grps := upd w.grps g { frozen, map := .empty }, nGrps := w.nGrps + 1 }
  (g, w'.groupAddSubsets g as)

/-- `add_processor`, `core_subsets.py` 56-68; frozen: `frozen_core_subsets.py` 45-47. -/
def addProcessor (w : CoreWorld) (g : Nat) (x y p : Int) : Except PyErr CoreWorld :=
  if (w.grps g).frozen then .error .runtimeError else .ok (w.groupAdd g x y p)

/-- `add_core_subset`, `core_subsets.py` 36-45; frozen: `frozen_core_subsets.py` 37-39. -/
def addCoreSubset (w : CoreWorld) (g a : Nat) : Except PyErr CoreWorld :=
  if (w.grps g).frozen then .error .runtimeError else .ok (w.groupAddSubset g a)

/-- `add_core_subsets`, `core_subsets.py` 47-54; frozen: `frozen_core_subsets.py` 41-43. -/
def addCoreSubsets (w : CoreWorld) (g : Nat) (as : List Nat) : Except PyErr CoreWorld :=
  if (w.grps g).frozen then .error .runtimeError else .ok (w.groupAddSubsets g as)

/-- `is_chip`, `core_subsets.py` 70-79; `__contains__` of a pair, 138-150. -/
def isChip (w : CoreWorld) (g : Nat) (x y : Int) : Bool := (w.grps g).map.contains (x, y)

/-- `is_core`, `core_subsets.py` 81-96; `__contains__` of a triple, 138-150. -/
def isCore (w : CoreWorld) (g : Nat) (x y p : Int) : Bool :=
  match (w.grps g).map.get? (x, y) with
  | none => false
  | some a => (w.subs a).contains p

/-- `core_subsets`, `core_subsets.py` 98-106; `__iter__`, 122-128; `values`, 189-193: the
addresses of the subsets. -/
def iter (w : CoreWorld) (g : Nat) : List Nat := (w.grps g).map.values

/-- `get_core_subset_for_chip`, `core_subsets.py` 108-120: the address of the subset. -/
def getSubset (w : CoreWorld) (g : Nat) (x y : Int) : Nat × CoreWorld :=
  match (w.grps g).map.get? (x, y) with
  | none => w.newSubset (CoreSubset.mk' x y [])
  | some a => (a, w)

/-- `__getitem__`, `core_subsets.py` 152-159. -/
def getItem (w : CoreWorld) (g : Nat) (x y : Int) : Except PyErr Nat := (w.grps g).map.getE (x, y)

/-- `__len__`, `core_subsets.py` 130-136. -/
def len (w : CoreWorld) (g : Nat) : Nat := ((w.iter g).map (fun a => (w.subs a).len)).sum

/-- one turn of the loop of `intersect`, `core_subsets.py` 182-186: `subset` is a new object,
empty subsets are falsy. -/
def intersectChip (w : CoreWorld) (g other r : Nat) (xy : XY) : Except PyErr CoreWorld :=
  if w.isChip other xy.1 xy.2 then
    match (w.grps g).map.getE xy, (w.grps other).map.getE xy with
    | .ok a, .ok b =>
      let (s, w) := w.newSubset ((w.subs a).intersect (w.subs b))
      if (w.subs s).len ≠ 0 then w.addCoreSubset r s else .ok w
    | .error e, _ => .error e
    | _, .error e => .error e
  else .ok w

/-- the loop of `intersect`, `core_subsets.py` 182-186 -/
def intersectLoop (g other r : Nat) : CoreWorld → List XY → Except PyErr CoreWorld
  | w, [] => .ok w
  | w, xy :: t => match w.intersectChip g other r xy with
    | .error e => .error e
    | .ok w' => intersectLoop g other r w' t

/-- `intersect`, `core_subsets.py` 172-187. -/
def intersect (w : CoreWorld) (g other : Nat) : Except PyErr (Nat × CoreWorld) :=
  let (r, w') := w.newGroup false []
  match intersectLoop g other r w' (w'.grps g).map.keys with
  | .error e => .error e
  | .ok w'' => .ok (r, w'')

end CoreWorld
end SpiNN
