import Verif.Spec.Board
import Verif.Lemmas.Boards

/-!
# What the versions say about themselves (C69)
-/

namespace SpiNN.Props
open SpiNN SpiNN.Spec

/-- C69. The core map of a version has the positions of the board, each with the cores expected
there, and no others. -/
theorem C69_core_map (k : VKind) (p : XY) :
    k.chipCoreMap.get? p = if OnBoard k p then some (typicalCores k p) else none := by
  by_cases h : OnBoard k p
  · rw [if_pos h]
    have hv : ∀ q ∈ k.chipCoreMap.keys, k.chipCoreMap.get? q = some (typicalCores k q) := by
      cases k <;> decide +kernel
    exact hv p ((mem_chipCoreMap_iff k p).2 h)
  · rw [if_neg h, PDict.get?_eq_none_iff, mem_chipCoreMap_iff]
    exact h

/-- C69. Every chip is expected to have more cores than the least number a chip must have to be used,
at most the default maximum, and the Ethernet chip has the maximum. -/
theorem C69_cores_in_bounds (k : VKind) (p : XY) (h : OnBoard k p) :
    ∃ n, k.chipCoreMap.get? p = some n ∧ (facts k).minCores ≤ n ∧ n ≤ (facts k).maxCores ∧
      (facts k).maxCores ≤ n + 2 ∧ (p = (0, 0) → n = (facts k).maxCores) := by
  refine ⟨typicalCores k p, by rw [C69_core_map, if_pos h], ?_⟩
  have hv : ∀ q ∈ k.chipCoreMap.keys, (facts k).minCores ≤ typicalCores k q ∧
      typicalCores k q ≤ (facts k).maxCores ∧ (facts k).maxCores ≤ typicalCores k q + 2 ∧
      (q = (0, 0) → typicalCores k q = (facts k).maxCores) := by
    cases k <;> decide +kernel
  exact hv p ((mem_chipCoreMap_iff k p).2 h)

/-- C69. Every property of a version object, default cfg, is as in the data sheet. -/
theorem C69_facts (k : VKind) :
    k.number = (facts k).number ∧ k.name = (facts k).name ∧
    k.boardShape = ((facts k).boardWidth, (facts k).boardHeight) ∧
    k.nChipsPerBoard = (facts k).chips ∧ (k.expectedXys.length : Int) = (facts k).chips ∧
    k.chipCoreMap.values.sum = (facts k).cores ∧
    (∀ cfg v, cfg.maxMachineCore = none → cfg.maxSdram = none → Version.init k cfg = .ok v →
      v.kind = k ∧ v.maxCores = (facts k).maxCores ∧ v.maxSdram = (facts k).maxSdram) ∧
    k.minimumCores = (facts k).minCores ∧ k.nScampCores = (facts k).scampCores ∧
    k.nRouterEntries = (facts k).routerEntries ∧ k.clockSpeeds = (facts k).clocks ∧
    k.dtcmBytes = (match (facts k).dtcm with | some n => .ok n | none => .error .notImplemented) ∧
    k.supportsMultipleBoards = (facts k).multipleBoards := by
  have h : k.number = (facts k).number ∧ k.name = (facts k).name ∧
      k.boardShape = ((facts k).boardWidth, (facts k).boardHeight) ∧
      k.nChipsPerBoard = (facts k).chips ∧ (k.expectedXys.length : Int) = (facts k).chips ∧
      k.chipCoreMap.values.sum = (facts k).cores := by
    cases k <;> decide +kernel
  refine ⟨h.1, h.2.1, h.2.2.1, h.2.2.2.1, h.2.2.2.2.1, h.2.2.2.2.2, ?_, ?_⟩
  · intro cfg v h1 h2 hv
    unfold Version.init at hv
    split at hv
    · exact absurd hv (by simp)
    · simp only [Except.ok.injEq] at hv
      subst hv
      simp only [h1, h2, Version.limit]
      cases k <;> decide
  · cases k <;> decide

/-- non-vacuity: a version can be made, and the board has chips with fewer cores -/
example : (∃ v, Version.init .v5 {} = .ok v ∧ v.maxCores = 18) ∧ OnBoard .v5 (5, 6) ∧
    VKind.v5.chipCoreMap.get? (5, 6) = some 17 ∧ VKind.v5.chipCoreMap.get? (5, 0) = none := by
  refine ⟨⟨_, rfl, rfl⟩, by decide, by decide, by decide⟩

end SpiNN.Props
