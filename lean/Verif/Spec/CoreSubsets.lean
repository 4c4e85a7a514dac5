import Verif.Model.CoreSubsets

/-!
# Specification of core subsets

The observable content of a group of core subsets is the set of triples `(x, y, p)` for which
`is_core` answers true. `CoreStep` are the public operations of a program that holds any number
of `CoreSubset`, `CoreSubsets` and `FrozenCoreSubsets` objects, including operations on subsets it
was handed by a group; `CoreReach` are the states such a program can be in.
-/

namespace SpiNN.Spec
open SpiNN

/-- one call that does not raise (calls that raise change nothing: `C52_adds_raise`) -/
inductive CoreStep : CoreWorld → CoreWorld → Prop
  | newSubset {w : CoreWorld} (x y : Int) (ps : List Int) :
      CoreStep w (w.newSubset (CoreSubset.mk' x y ps)).2
  | subsetIntersect {w : CoreWorld} (a b : Nat) (ha : a < w.nSubs) (hb : b < w.nSubs) :
      CoreStep w (w.newSubset ((w.subs a).intersect (w.subs b))).2
  | subsetAdd {w : CoreWorld} (a : Nat) (ha : a < w.nSubs) (p : Int) : CoreStep w (w.subsetAdd a p)
  | newGroup {w : CoreWorld} (frozen : Bool) (as : List Nat) (h : ∀ a ∈ as, a < w.nSubs) :
      CoreStep w (w.newGroup frozen as).2
  | addProcessor {w w' : CoreWorld} (g : Nat) (hg : g < w.nGrps) (x y p : Int)
      (h : w.addProcessor g x y p = .ok w') : CoreStep w w'
  | addCoreSubset {w w' : CoreWorld} (g a : Nat) (hg : g < w.nGrps) (ha : a < w.nSubs)
      (h : w.addCoreSubset g a = .ok w') : CoreStep w w'
  | addCoreSubsets {w w' : CoreWorld} (g : Nat) (as : List Nat) (hg : g < w.nGrps)
      (ha : ∀ a ∈ as, a < w.nSubs) (h : w.addCoreSubsets g as = .ok w') : CoreStep w w'
  | getSubset {w : CoreWorld} (g : Nat) (hg : g < w.nGrps) (x y : Int) :
      CoreStep w (w.getSubset g x y).2
  | intersect {w w' : CoreWorld} (g other r : Nat) (hg : g < w.nGrps) (ho : other < w.nGrps)
      (h : w.intersect g other = .ok (r, w')) : CoreStep w w'

/-- the states of a program using core subsets -/
inductive CoreReach : CoreWorld → Prop
  | start : CoreReach .empty
  | step {w w'} (h : CoreReach w) (s : CoreStep w w') : CoreReach w'

/-- the object at address `a` is one that group `g` hands out -/
def HandedOut (w : CoreWorld) (g a : Nat) : Prop := a ∈ w.iter g

/-- calls on one `CoreSubsets` object, with the subsets given by value -/
inductive GroupOp where
  | addProcessor (x y p : Int)
  | addCoreSubset (x y : Int) (ps : List Int)
  | addCoreSubsets (l : List (Int × Int × List Int))

/-- the cores a call adds -/
def GroupOp.adds : GroupOp → List (Int × Int × Int)
  | .addProcessor x y p => [(x, y, p)]
  | .addCoreSubset x y ps => ps.map (fun p => (x, y, p))
  | .addCoreSubsets l => l.flatMap (fun s => s.2.2.map (fun p => (s.1, s.2.1, p)))

/-- create the subsets -/
def newSubsets : CoreWorld → List (Int × Int × List Int) → List Nat × CoreWorld
  | w, [] => ([], w)
  | w, (x, y, ps) :: t =>
    let (a, w) := w.newSubset (CoreSubset.mk' x y ps)
    let (as, w) := newSubsets w t
    (a :: as, w)

/-- make the call on group `g` -/
def GroupOp.run (g : Nat) (w : CoreWorld) : GroupOp → Except PyErr CoreWorld
  | .addProcessor x y p => w.addProcessor g x y p
  | .addCoreSubset x y ps =>
    let (a, w) := w.newSubset (CoreSubset.mk' x y ps)
    w.addCoreSubset g a
  | .addCoreSubsets l =>
    let (as, w) := newSubsets w l
    w.addCoreSubsets g as

/-- make the calls one after the other -/
def runGroup (g : Nat) : CoreWorld → List GroupOp → Except PyErr CoreWorld
  | w, [] => .ok w
  | w, op :: t => match op.run g w with
    | .error e => .error e
    | .ok w' => runGroup g w' t

end SpiNN.Spec
