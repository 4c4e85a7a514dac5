import Verif.Lemmas.Boards

namespace SpiNN
open Spec

theorem length_grid (xs ys : List Int) :
    ((ys.flatMap fun y => xs.map fun x => ((x, y) : XY))).length = ys.length * xs.length := by
  induction ys with
  | nil => simp
  | cons y ys ih => simp [ih, Nat.add_mul, Nat.add_comm]

/-- number of potential Ethernet chips of a machine of `a × b` triads with the left over edge -/
theorem length_potential_triads (a b : Int) (ha : 0 < a) (hb : 0 < b) :
    ((Geometry.spinn5.potentialEthernetChips (a * 12 + 4) (b * 12 + 4)).length : Int) = 3 * a * b := by
  have ht : Geometry.spinn5.triadW = 12 := rfl
  have ht' : Geometry.spinn5.triadH = 12 := rfl
  have hb1 : Geometry.spinn5.boardW = 8 := rfl
  have hb' : Geometry.spinn5.boardH = 8 := rfl
  have hr : Geometry.spinn5.roots = [(0, 0), (4, 8), (8, 4)] := rfl
  simp only [Geometry.potentialEthernetChips, ht, ht', hb1, hb', hr,
    pmod_eq_emod (show (0:Int) < 12 by omega)]
  rw [if_neg (show ¬ (a * 12 + 4) % 12 = 0 by omega), if_neg (show ¬ (b * 12 + 4) % 12 = 0 by omega),
    if_neg (by omega)]
  simp only [List.flatMap_cons, List.flatMap_nil, List.append_nil, List.length_append, length_grid,
    length_pyRange3]
  simp only [Int.fdiv_eq_ediv_of_nonneg _ (show (0:Int) ≤ 12 by omega)]
  rw [show (b * 12 + 4 - 8 + 1 - 0 + 12 - 1) / 12 = b by omega,
    show (a * 12 + 4 - 8 + 1 - 0 + 12 - 1) / 12 = a by omega,
    show (b * 12 + 4 - 8 + 1 - 8 + 12 - 1) / 12 = b by omega,
    show (a * 12 + 4 - 8 + 1 - 4 + 12 - 1) / 12 = a by omega,
    show (b * 12 + 4 - 8 + 1 - 4 + 12 - 1) / 12 = b by omega,
    show (a * 12 + 4 - 8 + 1 - 8 + 12 - 1) / 12 = a by omega]
  obtain ⟨m, rfl⟩ := Int.eq_ofNat_of_zero_le (Int.le_of_lt ha)
  obtain ⟨n, rfl⟩ := Int.eq_ofNat_of_zero_le (Int.le_of_lt hb)
  simp only [Int.toNat_natCast, Int.natCast_add, Int.natCast_mul]
  rw [Int.mul_assoc, Int.mul_comm (m : Int)]
  omega

/-- number of potential Ethernet chips of a fully wrapped machine of `a × b` triads -/
theorem length_potential_wrapped (a b : Int) (ha : 0 < a) (hb : 0 < b) :
    ((Geometry.spinn5.potentialEthernetChips (a * 12) (b * 12)).length : Int) = 3 * a * b := by
  have ht : Geometry.spinn5.triadW = 12 := rfl
  have ht' : Geometry.spinn5.triadH = 12 := rfl
  have hr : Geometry.spinn5.roots = [(0, 0), (4, 8), (8, 4)] := rfl
  simp only [Geometry.potentialEthernetChips, ht, ht', hr,
    pmod_eq_emod (show (0:Int) < 12 by omega)]
  rw [if_pos (show (a * 12) % 12 = 0 by omega), if_pos (show (b * 12) % 12 = 0 by omega),
    if_neg (by omega)]
  simp only [List.flatMap_cons, List.flatMap_nil, List.append_nil, List.length_append, length_grid,
    length_pyRange3]
  simp only [Int.fdiv_eq_ediv_of_nonneg _ (show (0:Int) ≤ 12 by omega)]
  rw [show (b * 12 - 0 + 12 - 1) / 12 = b by omega,
    show (a * 12 - 0 + 12 - 1) / 12 = a by omega,
    show (b * 12 - 8 + 12 - 1) / 12 = b by omega,
    show (a * 12 - 4 + 12 - 1) / 12 = a by omega,
    show (b * 12 - 4 + 12 - 1) / 12 = b by omega,
    show (a * 12 - 8 + 12 - 1) / 12 = a by omega]
  obtain ⟨m, rfl⟩ := Int.eq_ofNat_of_zero_le (Int.le_of_lt ha)
  obtain ⟨n, rfl⟩ := Int.eq_ofNat_of_zero_le (Int.le_of_lt hb)
  simp only [Int.toNat_natCast, Int.natCast_add, Int.natCast_mul]
  rw [Int.mul_assoc, Int.mul_comm (m : Int)]
  omega

/-! ### `math.ceil` and `math.sqrt` -/

theorem ceilDiv_spec (a b : Int) (hb : 0 < b) :
    a ≤ b * ceilDiv a b ∧ b * (ceilDiv a b - 1) < a := by
  unfold ceilDiv
  rw [Int.fdiv_eq_ediv_of_nonneg _ (Int.le_of_lt hb)]
  have h1 := Int.mul_ediv_add_emod (-a) b
  have h2 := Int.emod_nonneg (-a) (show b ≠ 0 by omega)
  have h3 := Int.emod_lt_of_pos (-a) hb
  generalize (-a) / b = q at *
  constructor
  · rw [Int.mul_neg]; omega
  · rw [Int.mul_sub, Int.mul_neg]; omega

theorem ceilSqrtFrom_spec (n : Nat) (fuel k : Nat) (h : n ≤ (k + fuel) * (k + fuel))
    (hlow : ∀ j, j < k → j * j < n) :
    let r := VKind.ceilSqrtFrom n fuel k
    n ≤ r * r ∧ ∀ j, j < r → j * j < n := by
  induction fuel generalizing k with
  | zero => exact ⟨h, hlow⟩
  | succ f ih =>
    simp only [VKind.ceilSqrtFrom]
    split
    · exact ⟨‹_›, hlow⟩
    · refine ih (k + 1) (by rw [show k + 1 + f = k + (f + 1) by omega]; exact h) ?_
      intro j hj
      rcases Nat.lt_succ_iff_lt_or_eq.1 hj with h' | rfl
      · exact hlow j h'
      · omega

theorem ceilSqrt_spec (n : Int) (hn : 0 < n) :
    0 < VKind.ceilSqrt n ∧ n ≤ VKind.ceilSqrt n * VKind.ceilSqrt n ∧
      (VKind.ceilSqrt n - 1) * (VKind.ceilSqrt n - 1) < n := by
  have hle : n.toNat ≤ (0 + n.toNat) * (0 + n.toNat) := by
    rw [Nat.zero_add]; exact Nat.le_mul_self _
  obtain ⟨h1, h2⟩ := ceilSqrtFrom_spec n.toNat n.toNat 0 hle (by omega)
  unfold VKind.ceilSqrt
  generalize VKind.ceilSqrtFrom n.toNat n.toNat 0 = r at *
  have hr : 0 < r := by
    rcases Nat.eq_zero_or_pos r with rfl | h
    · omega
    · exact h
  refine ⟨by omega, ?_, ?_⟩
  · have : ((n.toNat : Nat) : Int) ≤ ((r * r : Nat) : Int) := by exact_mod_cast h1
    rw [Int.natCast_mul] at this
    omega
  · have h3 := h2 (r - 1) (by omega)
    have : (((r - 1) * (r - 1) : Nat) : Int) < n := by omega
    rw [Int.natCast_mul, Int.natCast_sub hr] at this
    exact this

end SpiNN
