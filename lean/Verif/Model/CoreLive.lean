import Verif.Model.CoreSubsets
import Verif.Model.Lazy

/-!
# Iterators over core subsets that are changing

`core_subsets`, `iter(group)` and `values()` are live views of a dictionary, and `processor_ids` is a
live iterator over an `OrderedSet` (of `spinn_utilities`, backed by a dict: assumed). The loops of
`core_subsets.py` use them while they add; `Model/CoreSubsets.lean` gives what these loops do if what
they read does not change under them. Here each turn of a loop asks the iterator again. Python's
dictionary iterators are `DictIter` of `Model/Lazy.lean`.
-/

namespace SpiNN
namespace CoreWorld

/-- the loop of `add_core_subset`, `core_subsets.py` 44-45 (and `frozen_core_subsets.py` 34-35), over
the iterator `processor_ids` (`core_subset.py` 68-75) of the subset at address `a`; `n` is one more
than the number of processors that are left -/
def procsLoop (g a : Nat) (x y : Int) : Nat → DictIter → CoreWorld → CoreWorld × Option PyErr
  | 0, _, w => (w, none)
  | n + 1, it, w => match it.next (w.subs a).procs with
    | (.stop, _) => (w, none)
    | (.raised e, _) => (w, some e)
    | (.got p, it') => procsLoop g a x y n it' (w.groupAdd g x y p)

/-- `add_core_subset`, `core_subsets.py` 36-45, with the subset read while the loop runs -/
def addSubsetLive (w : CoreWorld) (g a : Nat) : CoreWorld × Option PyErr :=
  procsLoop g a (w.subs a).x (w.subs a).y ((w.subs a).len + 1) (.live 0 (w.subs a).len) w

/-- the loops `core_subsets.py` 33-34 and 53-54, `frozen_core_subsets.py` 31-35, over another group
`h` (`__iter__`, `core_subsets.py` 122-128; `core_subsets`, 98-106); `n` is one more than the number of
subsets that are left -/
def subsetsLoop (g h : Nat) : Nat → DictIter → CoreWorld → CoreWorld × Option PyErr
  | 0, _, w => (w, none)
  | n + 1, it, w => match it.next (w.iter h) with
    | (.stop, _) => (w, none)
    | (.raised e, _) => (w, some e)
    | (.got a, it') => match w.addSubsetLive g a with
      | (w', some e) => (w', some e)
      | (w', none) => subsetsLoop g h n it' w'

/-- `g.add_core_subsets(h)` of another group, or of the group itself, `core_subsets.py` 47-54 -/
def addGroupLive (w : CoreWorld) (g h : Nat) : CoreWorld × Option PyErr :=
  subsetsLoop g h ((w.iter h).length + 1) (.live 0 (w.iter h).length) w

/-- `CoreSubsets(h)`, `core_subsets.py` 27-34, `FrozenCoreSubsets(h)`, `frozen_core_subsets.py` 29-35,
of a group -/
def newGroupLive (w : CoreWorld) (frozen : Bool) (h : Nat) : Nat × (CoreWorld × Option PyErr) :=
  let g := w.nGrps
  let w' := { w with grps := upd w.grps g { frozen, map := .empty }, nGrps := w.nGrps + 1 }
  (g, w'.addGroupLive g h)

/-- `next()` on an iterator, each time with the entries of the moment -/
def askAt {α : Type} (entries : CoreWorld → List α) : DictIter → List CoreWorld → List (Reply α)
  | _, [] => []
  | it, w :: ws => let r := it.next (entries w); r.1 :: askAt entries r.2 ws

/-- `it = group.core_subsets` (`core_subsets.py` 98-106; `__iter__`, 122-128), made now, and `next(it)`
at these later moments: the addresses of the subsets -/
def askSubsets (w : CoreWorld) (g : Nat) (ws : List CoreWorld) : List (Reply Nat) :=
  askAt (fun w' => w'.iter g) (.live 0 (w.grps g).map.size) ws

/-- `it = subset.processor_ids` (`core_subset.py` 68-75), made now, and `next(it)` at these later
moments -/
def askProcs (w : CoreWorld) (a : Nat) (ws : List CoreWorld) : List (Reply Int) :=
  askAt (fun w' => (w'.subs a).processorIds) (.live 0 (w.subs a).len) ws

end CoreWorld
end SpiNN
