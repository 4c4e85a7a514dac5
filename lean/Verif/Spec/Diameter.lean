import Verif.Spec.Mesh

/-!
# How far apart two chips can be
-/

namespace SpiNN.Spec
open SpiNN

/-- the largest distance between two places of a `w` by `h` machine -/
def diameter (wr : Wrap) (w h : Int) : Int :=
  match wr with
  | .none => w + h - 2
  | .horizontal => max (h - 1) ((w + h - 1) / 2)
  | .vertical => max (w - 1) ((w + h - 1) / 2)
  | .full => max (max (w / 2) (h / 2)) ((w + h) / 3)

end SpiNN.Spec
