import Verif.Model.Lazy

/-!
# Iterators over the links of a router and over the SpiNNaker links, while links are added

`Router.links`, `iter(router)` and `Machine.spinnaker_links` are live iterators over dictionaries, as those
over the chips in `Model/Lazy.lean`.
-/

namespace SpiNN

/-- `next()` on an iterator over a dict that is an attribute of an object, each time with the object of the
moment (CPython; no file of the repository) -/
def askDict {σ α : Type} (entries : σ → List α) : DictIter → List σ → List (Reply α)
  | _, [] => []
  | it, s :: ss => (it.next (entries s)).1 :: askDict entries (it.next (entries s)).2 ss

/-- what `next()` does on `it = router.links` (`router.py` 108-115), made for the first router
and asked at later moments -/
def Router.watchLinks (r : Router) (moments : List Router) : List (Reply Link) :=
  askDict Router.linkList (.live 0 r.len) moments

/-- what `next()` does on `it = iter(router)` (`router.py` 117-126), made for the first router
and asked at later moments -/
def Router.watchIter (r : Router) (moments : List Router) : List (Reply (Int × Link)) :=
  askDict Router.iter (.live 0 r.len) moments

/-- what `next()` does on `it = machine.spinnaker_links` (`machine.py` 720-729), made for the first machine and
asked at later moments -/
def Machine.watchSpin (m : Machine) (moments : List Machine) : List (Reply ((BoardKey × Int) × SpinLinkData)) :=
  askDict (fun m' : Machine => m'.spinLinks.items) (.live 0 m.spinLinks.size) moments

end SpiNN
