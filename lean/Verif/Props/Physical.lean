import Verif.Props.Ignores

/-!
# C55: the whole map from physical to virtual cores

The typical map in closed form, and the set of virtual ids it reaches: physical core 10 is the monitor,
physical core `n` otherwise is `n + 1`, so that 11 is left out and 18, which no chip has, is reached.
-/

namespace SpiNN.Props

open SpiNN

/-- C55, the map of the code in full -/
theorem C55_closed_form (c : IgnoreCore) (q : Int) :
    c.virtualP = .ok q ↔
      (0 < c.p ∧ q = c.p) ∨ (c.p = -10 ∧ q = 0) ∨ (-17 ≤ c.p ∧ c.p ≤ 0 ∧ c.p ≠ -10 ∧ q = 1 - c.p) := by
  have hg : ∀ n q : Int, typicalMap.get? n = some q ↔ (n, q) ∈ typicalMap.items := fun n q =>
    (PDict.mem_items_iff (d := typicalMap) (by unfold PDict.WF; decide +kernel) n q).symm
  unfold IgnoreCore.virtualP
  by_cases hp : c.p > 0
  · rw [if_pos hp]
    simp only [Except.ok.injEq]
    constructor
    · rintro rfl; exact .inl ⟨hp, rfl⟩
    · rintro (⟨-, rfl⟩ | ⟨h, -⟩ | ⟨-, h, -⟩)
      · rfl
      · omega
      · omega
  · rw [if_neg hp, PDict.getE_eq_ok_iff, hg]
    simp only [typicalMap, List.mem_cons, Prod.mk.injEq, List.not_mem_nil, or_false]
    constructor
    · intro h
      repeat' (rcases h with h | h)
      all_goals omega
    · rintro (⟨h, -⟩ | ⟨h1, h2⟩ | ⟨h1, h2, h3, h4⟩)
      · omega
      · simp [h1, h2]
      · have hc : ∃ n : Nat, n < 18 ∧ c.p = -n := ⟨(-c.p).toNat, by omega, by omega⟩
        obtain ⟨n, hn, hcn⟩ := hc
        subst h4
        rw [hcn] at h3 ⊢
        have : ∀ n : Nat, n < 18 → -(n : Int) ≠ -10 → (0 - -(n : Int), 1 - -(n : Int)) ∈ typicalMap.items := by
          decide +kernel
        have := this n hn h3
        simpa only [typicalMap, List.mem_cons, Prod.mk.injEq, List.not_mem_nil, or_false] using this

/-- C55, the virtual ids that physical cores reach: 0 to 18 without 11 -/
theorem C55_image (q : Int) :
    (∃ c : IgnoreCore, c.p ≤ 0 ∧ c.virtualP = .ok q) ↔ 0 ≤ q ∧ q ≤ 18 ∧ q ≠ 11 := by
  simp only [C55_closed_form]
  constructor
  · rintro ⟨c, h1, h2⟩; omega
  · intro h
    by_cases h0 : q = 0
    · exact ⟨{ x := 0, y := 0, p := -10, ip := none }, by simp, by simp [h0]⟩
    · refine ⟨{ x := 0, y := 0, p := 1 - q, ip := none }, by simp only; omega, ?_⟩
      simp only; omega

end SpiNN.Props
