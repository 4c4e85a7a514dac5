import Verif.Props.Machine

/-!
# C64: the order of the tags of a chip

`Chip.tag_ids` iterates an ordered set: the tags given to the constructor come in the order of their
first appearance, the default ones in the order 1..7. The order is what a caller sees who hands out
the tags of a chip one after the other.
-/

namespace SpiNN.Props

open SpiNN

theorem orderedSet_fold {α : Type} [DecidableEq α] (l : List α) : ∀ acc : List α,
    ∃ s, l.foldl (fun acc a => if a ∈ acc then acc else acc ++ [a]) acc = acc ++ s := by
  induction l with
  | nil => exact fun acc => ⟨[], by simp⟩
  | cons a l ih =>
    intro acc
    rw [List.foldl_cons]
    by_cases h : a ∈ acc
    · rw [if_pos h]; exact ih acc
    · rw [if_neg h]
      obtain ⟨s, hs⟩ := ih (acc ++ [a])
      exact ⟨a :: s, by rw [hs]; simp⟩

/-- C64: given tags are iterated in the order in which they were first given: the tags before `i` are those that
were given before the first `i`; default tags are iterated as 1, 2, ..., 7 -/
theorem C64_tag_order (x y : Int) (scamp placable : List Int) (router : Router) (sdram ex ey : Int)
    (ip : Option PyStr) (tags : Option (List Int)) (parent : Option Int) :
    let c := Chip.mk' x y scamp placable router sdram ex ey ip tags parent
    (∀ before i after, tags = some (before ++ i :: after) → i ∉ before →
      ∃ earlier later, c.tags = earlier ++ i :: later ∧ ∀ j, j ∈ earlier ↔ j ∈ before) ∧
    (∀ t, tags = some t → t.Nodup → c.tags = t) ∧
    (tags = none → ip ≠ none → c.tags = [1, 2, 3, 4, 5, 6, 7]) := by
  simp only [Chip.mk']
  refine ⟨?_, ?_, ?_⟩
  · rintro before i after rfl hi
    have hn : i ∉ orderedSet before := fun h => hi (((orderedSet_spec before).2 i).1 h)
    obtain ⟨s, hs⟩ := orderedSet_fold after (orderedSet before ++ [i])
    refine ⟨orderedSet before, s, ?_, (orderedSet_spec before).2⟩
    have : orderedSet (before ++ i :: after) = after.foldl (fun acc a => if a ∈ acc then acc else acc ++ [a])
        (orderedSet before ++ [i]) := by
      show List.foldl _ [] _ = _
      rw [List.foldl_append, List.foldl_cons]
      show after.foldl _ (if i ∈ orderedSet before then orderedSet before else orderedSet before ++ [i]) = _
      rw [if_neg hn]
    simp only [this, hs, List.append_assoc, List.cons_append, List.nil_append]
  · rintro t rfl ht
    simp only
    have key : ∀ (l acc : List Int), (acc ++ l).Nodup →
        l.foldl (fun acc a => if a ∈ acc then acc else acc ++ [a]) acc = acc ++ l := by
      intro l
      induction l with
      | nil => intro acc _; simp
      | cons a l ih =>
        intro acc h
        rw [List.foldl_cons]
        have ha : a ∉ acc := fun ha => by
          rw [List.nodup_append] at h
          exact h.2.2 a ha a (by simp) rfl
        rw [if_neg ha, ih (acc ++ [a]) (by simpa using h)]
        simp
    exact key t [] (by simpa using ht)
  · rintro rfl hip
    cases ip with
    | none => exact absurd rfl hip
    | some a => rfl

/-- tags given out of order and twice -/
example : (Chip.mk' 0 0 [0] [1, 2] ⟨⟨[]⟩, 0⟩ 0 0 0 (some ['a']) (some [5, 2, 5, 7, 2]) none).tags = [5, 2, 7] := by
  decide +kernel

end SpiNN.Props
