import Verif.Spec.Rig
import Verif.Lemmas.Mesh

/-!
# C77: distances are those of the reference implementation

The project's tests compare `get_vector_length` with the formulas of Rig for all the pairs of chips
of one machine of each class; here for all sizes and all pairs of places.
-/

namespace SpiNN.Props
open SpiNN Spec

/-- `test_nowrap_shortest_path`, for every pair of places -/
theorem C77_mesh_length (w h : Int) (a b : XY) :
    Wrap.none.vectorLength w h a b = Rig.meshLength (b.1 - a.1) (b.2 - a.2) := by
  simp only [Wrap.vectorLength, Wrap.lenNone, Rig.meshLength]
  split <;> split <;> (try split) <;> omega

/-- `test_fullwrap_shortest_path`, for every torus and every pair of places (in or out of range) -/
theorem C77_torus_length (w h : Int) (hw : 0 < w) (hh : 0 < h) (a b : XY) :
    Wrap.full.vectorLength w h a b =
      Rig.torusLength w h ((b.1 - a.1) % w) ((b.2 - a.2) % h) := by
  have e1 : pmod (b.1 - a.1) w = (b.1 - a.1) % w := pmod_eq_emod hw
  have e2 : pmod (b.2 - a.2) h = (b.2 - a.2) % h := pmod_eq_emod hh
  have b1 := Int.emod_nonneg (b.1 - a.1) (show w ≠ 0 by omega)
  have b2 := Int.emod_lt_of_pos (b.1 - a.1) hw
  have b3 := Int.emod_nonneg (b.2 - a.2) (show h ≠ 0 by omega)
  have b4 := Int.emod_lt_of_pos (b.2 - a.2) hh
  simp only [Wrap.vectorLength, Wrap.lenFull, Rig.torusLength, e1, e2]
  generalize (b.1 - a.1) % w = x at *
  generalize (b.2 - a.2) % h = y at *
  repeat' split
  all_goals omega

/-- `test_hoizontal_wrap_shortest_path`: the shorter of the ways that do and do not go over the
edge, for every width and every pair of places in it -/
theorem C77_horizontal_length (w h : Int) (a b : XY)
    (ha : 0 ≤ a.1 ∧ a.1 < w) (hb : 0 ≤ b.1 ∧ b.1 < w) :
    Wrap.horizontal.vectorLength w h a b =
      min (Rig.meshLength (b.1 - a.1) (b.2 - a.2))
        (Rig.meshLength ((if a.1 < b.1 then b.1 - w else b.1 + w) - a.1) (b.2 - a.2)) := by
  have hw : 0 < w := by omega
  have e1 : pmod (b.1 - a.1) w = if a.1 ≤ b.1 then b.1 - a.1 else b.1 - a.1 + w := by
    rw [pmod_eq_emod hw]
    split
    · exact Int.emod_eq_of_lt (by omega) (by omega)
    · rw [← Int.add_emod_right]; exact Int.emod_eq_of_lt (by omega) (by omega)
  simp only [Wrap.vectorLength, Wrap.horLenRight, Wrap.horLenLeft, Rig.meshLength, e1]
  repeat' split
  all_goals omega

/-- `test_vertical_wrap_shortest_path`, as for the horizontal wrap -/
theorem C77_vertical_length (w h : Int) (a b : XY)
    (ha : 0 ≤ a.2 ∧ a.2 < h) (hb : 0 ≤ b.2 ∧ b.2 < h) :
    Wrap.vertical.vectorLength w h a b =
      min (Rig.meshLength (b.1 - a.1) (b.2 - a.2))
        (Rig.meshLength (b.1 - a.1) ((if a.2 < b.2 then b.2 - h else b.2 + h) - a.2)) := by
  have hh : 0 < h := by omega
  have e1 : pmod (b.2 - a.2) h = if a.2 ≤ b.2 then b.2 - a.2 else b.2 - a.2 + h := by
    rw [pmod_eq_emod hh]
    split
    · exact Int.emod_eq_of_lt (by omega) (by omega)
    · rw [← Int.add_emod_right]; exact Int.emod_eq_of_lt (by omega) (by omega)
  simp only [Wrap.vectorLength, Wrap.verLenUp, Wrap.verLenDown, Rig.meshLength, e1]
  repeat' split
  all_goals omega

/-- `test_minimize`, for every `x` and `y`; and so `get_vector` on a mesh without wraps -/
theorem C77_minimise (x y : Int) : Wrap.minimizeVector x y = Rig.minimise x y 0 ∧
    ∀ (w h : Int) (a b : XY), b.1 - a.1 = x → b.2 - a.2 = y →
      Wrap.none.vector w h a b = Rig.minimise x y 0 := by
  have key : Wrap.minimizeVector x y = Rig.minimise x y 0 := by
    simp only [Wrap.minimizeVector, Rig.minimise]
    split <;> split <;> (try split) <;> (simp only [Prod.mk.injEq]; omega)
  exact ⟨key, fun w h a b h1 h2 => by rw [← key, Wrap.vector, h1, h2]⟩

/-- the vector of a torus is the minimised form of one of Rig's four approaches, of least length -/
theorem C77_torus_vector (w h : Int) (hw : 0 < w) (hh : 0 < h) (a b : XY) (x y : Int)
    (hx : (b.1 - a.1) % w = x) (hy : (b.2 - a.2) % h = y) :
    ∃ p ∈ [(max x y, x, y), (w - x + y, x - w, y), (x + h - y, x, y - h),
        (max (w - x) (h - y), x - w, y - h)],
      Wrap.full.vector w h a b = Rig.minimise p.2.1 p.2.2 0 ∧ p.1 = Rig.torusLength w h x y := by
  have e1 : pmod (b.1 - a.1) w = x := by rw [pmod_eq_emod hw, hx]
  have e2 : pmod (b.2 - a.2) h = y := by rw [pmod_eq_emod hh, hy]
  have b1 := Int.emod_nonneg (b.1 - a.1) (show w ≠ 0 by omega)
  have b2 := Int.emod_lt_of_pos (b.1 - a.1) hw
  have b3 := Int.emod_nonneg (b.2 - a.2) (show h ≠ 0 by omega)
  have b4 := Int.emod_lt_of_pos (b.2 - a.2) hh
  rw [hx] at b1 b2; rw [hy] at b3 b4
  simp only [Wrap.vector, Wrap.vecFull, e1, e2, (C77_minimise _ _).1, Rig.torusLength]
  by_cases c0 : x > y <;> by_cases c3 : x - w > y - h <;>
  simp only [c0, c3, if_true, if_false] <;>
  repeat' split
  all_goals first
    | exact ⟨_, .head _, rfl, by simp only; omega⟩
    | exact ⟨_, .tail _ (.head _), rfl, by simp only; omega⟩
    | exact ⟨_, .tail _ (.tail _ (.head _)), rfl, by simp only; omega⟩
    | exact ⟨_, .tail _ (.tail _ (.tail _ (.head _))), rfl, by simp only; omega⟩

example : Rig.meshLength 3 (-2) = 5 ∧ Rig.meshLength 3 2 = 3 ∧ Rig.torusLength 12 24 11 3 = 4 ∧
    Rig.torusLength 12 24 11 20 = 4 ∧ Rig.minimise 3 2 0 = (1, 0, -2) ∧
    Wrap.full.vectorLength 12 24 (5, 5) (4, 8) = 4 ∧
    Wrap.horizontal.vectorLength 12 16 (11, 3) (0, 4) = 1 ∧
    Wrap.vertical.vectorLength 16 12 (3, 11) (3, 0) = 1 ∧
    Wrap.full.vector 12 24 (5, 5) (4, 8) = (-1, 3, 0) := by decide

end SpiNN.Props
