import Verif.Spec.RoutingIter
import Verif.Props.Routing

/-!
# Routing entries made from iterators (C101)
-/

namespace SpiNN.Props
open SpiNN Spec

/-- C101: the iterators given are used up, whether the call succeeds or raises, and no others are touched. -/
theorem C101_used_up (its : Iterators) (ps ls : IdSource) (ip il : Option Int) (k : Nat) :
    (RoutingEntry.mkFrom its ps ls ip il).2 k = if ps = .iter k ∨ ls = .iter k then [] else its k := by
  have hread : ∀ (s : IdSource) (its : Iterators), (s.read its).2 k = if s = .iter k then [] else its k := by
    intro s its
    cases s with
    | one i => simp [IdSource.read]
    | many l => simp [IdSource.read]
    | iter j => simp [IdSource.read, eq_comm]
  show (ls.read (ps.read its).2).2 k = _
  rw [hread, hread]
  by_cases h1 : ps = .iter k <;> by_cases h2 : ls = .iter k <;> simp [h1, h2]

/-- C101: with two different iterators, or none, and unless it must know the number of links of an iterator, the
constructor gives what it gives for lists of what the arguments hold. -/
theorem C101_as_lists (its : Iterators) (ps ls : IdSource) (ip il : Option Int)
    (hd : ¬ ∃ k, ps = .iter k ∧ ls = .iter k) (hl : IsIter ls → il = none ∨ ip ≠ none) :
    (RoutingEntry.mkFrom its ps ls ip il).1 =
      RoutingEntry.mk' (processorIds := some (.many (ArgHolds its ps))) (linkIds := some (.many (ArgHolds its ls)))
        (incomingProcessor := ip) (incomingLink := il) := by
  have h1 : (ps.read its).1 = ArgHolds its ps := by cases ps <;> rfl
  have h2 : (ls.read (ps.read its).2).1 = ArgHolds its ls := by
    cases ls <;> try rfl
    rename_i k
    cases ps <;> try rfl
    rename_i j
    simp only [IdSource.read, ArgHolds, ite_eq_right_iff]
    rintro rfl
    exact absurd ⟨_, rfl, rfl⟩ hd
  have h3 : RoutingEntry.calcDefaultableFrom ls ip il = RoutingEntry.calcDefaultable (ArgHolds its ls) ip il := by
    unfold RoutingEntry.calcDefaultableFrom RoutingEntry.calcDefaultable
    cases il with
    | none => rfl
    | some inc =>
      cases ip with
      | some _ => rfl
      | none =>
        cases ls with
        | one i => rfl
        | many l => rcases l with _ | ⟨a, _ | ⟨b, t⟩⟩ <;> rfl
        | iter k => exact absurd (hl ⟨k, rfl⟩) (by simp)
  simp only [RoutingEntry.mkFrom, RoutingEntry.mk', IdArg.toList, h1, h2, h3]
  rfl

/-- C101: if the links are an iterator and an incoming link but no incoming processor is given, the constructor
raises: `ValueError` if an id cannot be encoded, as always, and else `TypeError`. -/
theorem C101_refused (its : Iterators) (ps : IdSource) (k : Nat) (inc : Int) :
    (RoutingEntry.mkFrom its ps (.iter k) none (some inc)).1 =
      if (∃ p ∈ ArgHolds its ps, p < -6) ∨ (ps ≠ .iter k ∧ ∃ l ∈ its k, l < 0) then .error .valueError
      else .error .typeError := by
  have h1 : (ps.read its).1 = ArgHolds its ps := by cases ps <;> rfl
  have h2 : ((IdSource.iter k).read (ps.read its).2).1 = if ps = .iter k then [] else its k := by
    cases ps <;> simp [IdSource.read, eq_comm]
  simp only [RoutingEntry.mkFrom, h1, h2]
  by_cases h : (∃ p ∈ ArgHolds its ps, p < -6) ∨ (ps ≠ .iter k ∧ ∃ l ∈ its k, l < 0)
  · rw [if_pos h]
    rw [RoutingEntry.calcRoute_error]
    rcases h with ⟨p, hp, h⟩ | ⟨hn, l, hl, h⟩
    · exact .inl ⟨p, RoutingEntry.mem_orderedSet.2 hp, h⟩
    · rw [if_neg hn]
      exact .inr ⟨l, RoutingEntry.mem_orderedSet.2 hl, h⟩
  · rw [if_neg h]
    obtain ⟨r, hr, -⟩ := RoutingEntry.calcRoute_ok (orderedSet (ArgHolds its ps))
      (orderedSet (if ps = .iter k then [] else its k))
      (fun p hh => by
        by_cases hlt : p < -6
        · exact absurd (.inl ⟨p, RoutingEntry.mem_orderedSet.1 hh, hlt⟩) h
        · omega)
      (fun l hh => by
        have hm := RoutingEntry.mem_orderedSet.1 hh
        by_cases hk : ps = .iter k
        · rw [if_pos hk] at hm; simp at hm
        · rw [if_neg hk] at hm
          by_cases hlt : l < 0
          · exact absurd (.inr ⟨hk, l, hm, hlt⟩) h
          · omega)
    simp only [hr, RoutingEntry.calcDefaultableFrom]

/-- C101: one iterator given for both arguments is read as processors only: the entry has no links. -/
theorem C101_same_iterator (its : Iterators) (k : Nat) (ip : Option Int) :
    (RoutingEntry.mkFrom its (.iter k) (.iter k) ip none).1 =
      RoutingEntry.mk' (processorIds := some (.many (its k))) (linkIds := some (.many []))
        (incomingProcessor := ip) := by
  simp [RoutingEntry.mkFrom, RoutingEntry.mk', IdArg.toList, IdSource.read, RoutingEntry.calcDefaultableFrom,
    RoutingEntry.calcDefaultable]
  rfl

/-- C101: an entry whose links were given as an iterator is never defaultable. -/
theorem C101_not_defaultable (its : Iterators) (ps ls : IdSource) (ip il : Option Int) (e : RoutingEntry)
    (hl : IsIter ls) (h : (RoutingEntry.mkFrom its ps ls ip il).1 = .ok e) : e.defaultable = false := by
  obtain ⟨k, rfl⟩ := hl
  simp only [RoutingEntry.mkFrom] at h
  split at h
  · cases h
  · split at h
    · cases h
    · rename_i d hd
      cases h
      unfold RoutingEntry.calcDefaultableFrom at hd
      cases il with
      | none => simp at hd; exact hd
      | some inc => cases ip <;> simp at hd

/-- the cases: the collection `[3]` with incoming link 0 makes a defaultable entry, an iterator of the same ids raises
`TypeError`, without the incoming link it makes the entry, and a second entry from the same iterator is empty -/
example : let its : Iterators := fun k => if k = 0 then [3] else [1, 2]
    (∃ e, (RoutingEntry.mkFrom its (.many []) (.many [3]) none (some 0)).1 = .ok e ∧ e.defaultable = true) ∧
    (RoutingEntry.mkFrom its (.many []) (.iter 0) none (some 0)).1 = .error .typeError ∧
    (∃ e, (RoutingEntry.mkFrom its (.iter 1) (.iter 0) none none).1 = .ok e ∧ e.processorIds = [1, 2] ∧
      e.linkIds = [3] ∧ e.route = 392) ∧
    ∃ e, (RoutingEntry.mkFrom (RoutingEntry.mkFrom its (.iter 1) (.iter 0) none none).2 (.iter 1) (.iter 0)
      none none).1 = .ok e ∧ e.route = 0 := by
  refine ⟨⟨_, rfl, ?_⟩, ?_, ⟨_, rfl, ?_⟩, ⟨_, rfl, ?_⟩⟩ <;> decide +kernel

end SpiNN.Props
