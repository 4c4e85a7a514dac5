import Verif.Lemmas.Boards

namespace SpiNN
open Spec

/-- what the offset table holds for a residue pair -/
def offsetOK (b a : Int) : Bool :=
  match pyIndex Geometry.spinn5.offset b with
  | .error _ => false
  | .ok row => match pyIndex row a with
    | .error _ => false
    | .ok l => decide (OnBoard48 l ∧ (a - l.1) % 4 = 0 ∧ ((a - l.1) + (b - l.2)) % 12 = 0)

theorem offset_spec : ∀ b : Fin 12, ∀ a : Fin 12, offsetOK (b : Nat) (a : Nat) = true := by
  decide +kernel

/-- the nearest of the 27 candidates is nearer than every other by at least a fifth -/
theorem nearest_gap : ∀ b : Fin 12, ∀ a : Fin 12,
    ∀ u ∈ Geometry.extended 12 12 [(0, 0), (4, 8), (8, 4)],
      u = Geometry.locateNearest ((a : Nat), (b : Nat))
        (Geometry.extended 12 12 [(0, 0), (4, 8), (8, 4)]) (18, 17) ∨
      Geometry.measure5 ((a : Nat), (b : Nat)) (18, 17)
        (Geometry.locateNearest ((a : Nat), (b : Nat))
          (Geometry.extended 12 12 [(0, 0), (4, 8), (8, 4)]) (18, 17)) + 1 ≤
      Geometry.measure5 ((a : Nat), (b : Nat)) (18, 17) u := by
  decide +kernel

theorem localChipCoordinate_spec (x y rx ry : Int) :
    ∃ l, Geometry.spinn5.localChipCoordinate x y rx ry = .ok l ∧ OnBoard48 l ∧
      EthLattice (x - rx - l.1, y - ry - l.2) := by
  have ht : Geometry.spinn5.triadW = 12 := rfl
  have ht' : Geometry.spinn5.triadH = 12 := rfl
  simp only [Geometry.localChipCoordinate, ht, ht', pmod_eq_emod (show (0:Int) < 12 by omega)]
  have h := offset_spec ⟨((y - ry) % 12).toNat, by omega⟩ ⟨((x - rx) % 12).toNat, by omega⟩
  simp only at h
  rw [Int.toNat_of_nonneg (by omega), Int.toNat_of_nonneg (by omega)] at h
  unfold offsetOK at h
  split at h
  · simp at h
  · rename_i row hrow
    rw [hrow]
    simp only
    split at h
    · simp at h
    · rename_i l hl
      rw [decide_eq_true_iff] at h
      refine ⟨l, hl, h.1, ?_⟩
      rw [ethLattice_iff]
      simp only
      obtain ⟨-, h1, h2⟩ := h
      constructor <;> omega

theorem localChipCoordinate_iff (x y rx ry : Int) (l : XY) :
    Geometry.spinn5.localChipCoordinate x y rx ry = .ok l ↔
      OnBoard48 l ∧ EthLattice (x - rx - l.1, y - ry - l.2) := by
  obtain ⟨m, hm, h1, h2⟩ := localChipCoordinate_spec x y rx ry
  constructor
  · intro h
    rw [hm] at h
    cases h
    exact ⟨h1, h2⟩
  · rintro ⟨h3, h4⟩
    have := (lattice_unique h2 h4 h1 h3 (by simp) (by simp)).2
    rw [hm, this]

end SpiNN
