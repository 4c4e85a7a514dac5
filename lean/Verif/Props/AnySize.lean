import Verif.Props.Boards

/-!
# C13, for widths and heights of any kind

`get_potential_ethernet_chips` takes any two numbers, not only the sizes a version supports.
-/

namespace SpiNN.Props
open SpiNN SpiNN.Spec

/-- a dimension in which not even one 48-chip board fits (a dimension that is a multiple of 12
wraps, so there a board always fits) -/
def NoRoom (n : Int) : Prop := n ≤ 0 ∨ (¬ 12 ∣ n ∧ n < 8)

instance (n : Int) : Decidable (NoRoom n) := by unfold NoRoom; infer_instance

/-- C13 for every width and height: a version with 4 or 1 chips always says (0, 0); a 48-chip
version says just (0, 0) when no board fits, and otherwise lists, once each, the legal positions
inside the machine from which the board does not stick out, except over an edge that wraps. -/
theorem C13_any_size (k : VKind) (w h : Int) :
    (k = .v3 ∨ k = .v201 → k.potentialEthernetChips w h = [(0, 0)]) ∧
    (k = .v5 ∨ k = .v248 →
      (NoRoom w ∨ NoRoom h → k.potentialEthernetChips w h = [(0, 0)]) ∧
      (¬ NoRoom w → ¬ NoRoom h → (k.potentialEthernetChips w h).Nodup ∧
        ∀ p, p ∈ k.potentialEthernetChips w h ↔ EthPos k p ∧ InGrid w h p ∧
          (12 ∣ w ∨ p.1 + 8 ≤ w) ∧ (12 ∣ h ∨ p.2 + 8 ≤ h))) := by
  constructor
  · rintro (rfl | rfl) <;> rfl
  · intro hk
    have hpot : k.potentialEthernetChips w h = Geometry.spinn5.potentialEthernetChips w h := by
      rcases hk with rfl | rfl <;> rfl
    have hep : ∀ p, EthPos k p ↔ EthLattice p := by
      rcases hk with rfl | rfl <;> exact fun _ => Iff.rfl
    constructor
    · intro hn
      rw [hpot]
      have ht : Geometry.spinn5.triadW = 12 := rfl
      have ht' : Geometry.spinn5.triadH = 12 := rfl
      have hb : Geometry.spinn5.boardW = 8 := rfl
      have hb' : Geometry.spinn5.boardH = 8 := rfl
      simp only [Geometry.potentialEthernetChips, ht, ht', hb, hb',
        pmod_eq_emod (show (0:Int) < 12 by omega)]
      rw [if_pos]
      unfold NoRoom at hn
      split <;> split <;> omega
    · intro hw hh
      refine ⟨nodup_potential k w h, fun p => ?_⟩
      unfold NoRoom at hw hh
      rw [hpot, hep, mem_potential48 _ _ _ (by split <;> omega) (by split <;> omega)]
      refine and_congr_right fun _ => ?_
      unfold InGrid
      split <;> split <;> omega

example : NoRoom 7 ∧ NoRoom (-12) ∧ ¬ NoRoom 9 ∧ VKind.v5.potentialEthernetChips 9 7 = [(0, 0)] ∧
    VKind.v5.potentialEthernetChips 17 25 = [(0, 0), (0, 12), (4, 8), (8, 4), (8, 16)] := by
  decide +kernel

/-- C13 for a geometry of the user's own: the positions are the given roots shifted right and up
by whole triads. -/
theorem C13_any_geometry (g : Geometry) (hw : 0 < g.triadW) (hh : 0 < g.triadH) (w h : Int) :
    let room := fun size triad board : Int => if triad ∣ size then size else size - board + 1
    (room w g.triadW g.boardW ≤ 0 ∨ room h g.triadH g.boardH ≤ 0 →
      g.potentialEthernetChips w h = [(0, 0)]) ∧
    (0 < room w g.triadW g.boardW → 0 < room h g.triadH g.boardH →
      ∀ p, p ∈ g.potentialEthernetChips w h ↔
        ∃ r ∈ g.roots, ∃ i j : Nat, p = (r.1 + g.triadW * i, r.2 + g.triadH * j) ∧
          p.1 < room w g.triadW g.boardW ∧ p.2 < room h g.triadH g.boardH) := by
  have hdvd : ∀ a b : Int, 0 < b → (pmod a b = 0 ↔ b ∣ a) := fun a b hb => by
    rw [pmod_eq_emod hb]; exact (Int.dvd_iff_emod_eq_zero).symm
  simp only [Geometry.potentialEthernetChips, hdvd w _ hw, hdvd h _ hh]
  generalize (if g.triadW ∣ w then w else w - g.boardW + 1) = ew
  generalize (if g.triadH ∣ h then h else h - g.boardH + 1) = eh
  constructor
  · intro hn; rw [if_pos hn]
  · intro h1 h2 p
    rw [if_neg (by omega)]
    obtain ⟨x, y⟩ := p
    simp only [List.mem_flatMap, List.mem_map, mem_pyRange3 _ _ _ _ hw, mem_pyRange3 _ _ _ _ hh,
      Prod.mk.injEq]
    constructor
    · rintro ⟨r, hr, b, ⟨hb, j, hj⟩, a, ⟨ha, i, hi⟩, rfl, rfl⟩
      exact ⟨r, hr, i, j, ⟨hi, hj⟩, ha, hb⟩
    · rintro ⟨r, hr, i, j, ⟨hi, hj⟩, ha, hb⟩
      exact ⟨r, hr, y, ⟨hb, j, hj⟩, x, ⟨ha, i, hi⟩, rfl, rfl⟩

example : (Geometry.mk' 5 5 3 3 [(0, 0), (2, 3)] (5, 5)).potentialEthernetChips 10 9 =
    [(0, 0), (5, 0), (0, 5), (5, 5), (2, 3), (7, 3)] := by decide +kernel

end SpiNN.Props
