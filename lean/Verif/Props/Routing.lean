import Verif.Lemmas.Routing

/-!
# Routing entries: C43 to C48
-/

namespace SpiNN.Props
open SpiNN Spec

/-! ### C43 encode then decode -/

/-- C43: an entry built from any collections of existing processors and links holds exactly
those ids, its route is a 24 bit word with one bit for each of them, and
`Router.convert_routing_table_entry_to_spinnaker_route` computes the same word. -/
theorem C43_encode (ps ls : IdArg) (hp : ∀ p ∈ ps.toList, ProcId p) (hl : ∀ l ∈ ls.toList, LinkId l) :
    ∃ e, RoutingEntry.mk' (processorIds := some ps) (linkIds := some ls) = .ok e ∧
      (∀ p, p ∈ e.processorIds ↔ p ∈ ps.toList) ∧ (∀ l, l ∈ e.linkIds ↔ l ∈ ls.toList) ∧
      Encodes e.route (· ∈ ps.toList) (· ∈ ls.toList) ∧ e.route < 2 ^ 24 ∧
      Router.convertEntry e.processorIds e.linkIds = .ok e.route := by
  obtain ⟨r, hr, hb⟩ := RoutingEntry.calcRoute_ok (orderedSet ps.toList) (orderedSet ls.toList)
      (fun p hh => by have := (hp p (RoutingEntry.mem_orderedSet.1 hh)).1; omega)
      (fun l hh => (hl l (RoutingEntry.mem_orderedSet.1 hh)).1)
  have henc : Encodes r (· ∈ ps.toList) (· ∈ ls.toList) := by
    intro n
    rw [hb]
    constructor
    · rintro (⟨p, h, he⟩ | ⟨l, h, he⟩)
      · have hm := RoutingEntry.mem_orderedSet.1 h
        have := (hp p hm).1
        refine Or.inr ⟨by omega, ?_⟩
        rw [show (n : Int) - 6 = p by omega]; exact hm
      · have hm := RoutingEntry.mem_orderedSet.1 h
        have := (hl l hm).2
        refine Or.inl ⟨by omega, ?_⟩
        rw [← he]; exact hm
    · rintro (⟨h, h'⟩ | ⟨h, h'⟩)
      · exact Or.inr ⟨_, RoutingEntry.mem_orderedSet.2 h', rfl⟩
      · exact Or.inl ⟨_, RoutingEntry.mem_orderedSet.2 h', by omega⟩
  refine ⟨{ route := r, procs := some (orderedSet ps.toList)
            links := some (orderedSet ls.toList), defaultable := false }, ?_,
    fun p => RoutingEntry.mem_orderedSet, fun l => RoutingEntry.mem_orderedSet, henc, ?_, ?_⟩
  · simp only [RoutingEntry.mk', hr, RoutingEntry.calcDefaultable]
  · apply Nat.lt_pow_two_of_testBit
    intro i hi
    cases hbit : r.testBit i with
    | false => rfl
    | true =>
      rcases (henc i).1 hbit with ⟨h1, -⟩ | ⟨-, h2⟩
      · omega
      · have := (hp _ h2).2; omega
  · simp only [RoutingEntry.processorIds, RoutingEntry.readProcs, RoutingEntry.linkIds,
      RoutingEntry.readLinks, Router.convertEntry]
    rw [Router.convertIds_ok _ _ (by decide) _ _ (fun i hi => by
      have := hp i (RoutingEntry.mem_orderedSet.1 hi)
      simp only [ProcId, Router.maxCores] at *; omega)]
    simp only [RoutingEntry.calcRoute] at hr
    split at hr
    · simp at hr
    · rename_i r1 h1
      rw [Router.convertIds_ok _ _ (by decide) _ _ (fun i hi => by
        have := hl i (RoutingEntry.mem_orderedSet.1 hi)
        simp only [LinkId, Router.maxLinks] at *; omega)]
      exact hr

/-- C43: decoding the route of an entry built from existing processors and links, with
`RoutingEntry(spinnaker_route=..)` or with `Router.convert_spinnaker_route_to_routing_ids`,
gives exactly its ids back. -/
theorem C43_encode_decode (ps ls : IdArg) (hp : ∀ p ∈ ps.toList, ProcId p)
    (hl : ∀ l ∈ ls.toList, LinkId l) :
    ∃ e e', RoutingEntry.mk' (processorIds := some ps) (linkIds := some ls) = .ok e ∧
      RoutingEntry.mk' (spinnakerRoute := some e.route) = .ok e' ∧
      (∀ p, p ∈ e'.processorIds ↔ p ∈ ps.toList) ∧ (∀ l, l ∈ e'.linkIds ↔ l ∈ ls.toList) ∧
      (∀ p, p ∈ (Router.convertRoute e.route).1 ↔ p ∈ ps.toList) ∧
      (∀ l, l ∈ (Router.convertRoute e.route).2 ↔ l ∈ ls.toList) ∧
      e'.eq e = true := by
  obtain ⟨e, he, h1, h2, -, -, -⟩ := C43_encode ps ls hp hl
  have hw := RoutingEntry.wf_of_built (Built.ids hp hl he)
  have hP : ∀ p, p ∈ (RoutingEntry.calcIds e.route).1 ↔ p ∈ ps.toList := fun p => by
    rw [RoutingEntry.mem_calcIds_procs, ← hw.procs, h1]
  have hL : ∀ p, p ∈ (RoutingEntry.calcIds e.route).2 ↔ p ∈ ls.toList := fun p => by
    rw [RoutingEntry.mem_calcIds_links, ← hw.links, h2]
  refine ⟨e, _, he, RoutingEntry.mk_route _ _, hP, hL, hP, hL, ?_⟩
  have hd : e.defaultable = false := by
    have := (RoutingEntry.mk_ids he).2.1
    simp only [RoutingEntry.calcDefaultable, Except.ok.injEq] at this
    exact this.symm
  simp [RoutingEntry.eq, hd]

/-- a case: cores 0, 5 and 17, links 1 and 5 -/
example : RoutingEntry.mk' (processorIds := some (.many [5, 0, 17, 5])) (linkIds := some (.many [5, 1])) =
    .ok ⟨0b100000000000100001100010, some [5, 0, 17], some [5, 1], false⟩ := by decide +kernel
example : Router.convertRoute 0b100000000000100001100010 = ([0, 5, 17], [1, 5]) := by decide +kernel

/-! ### C44 decode then encode -/

/-- C44: for every route below 2^24, the ids decoded from it (by either decoder) encode back to
it, with the constructor and with the `Router` conversion. -/
theorem C44_decode_encode (r : Nat) (hr : r < 2 ^ 24) :
    (∃ e, RoutingEntry.mk' (processorIds := some (.many (Router.convertRoute r).1))
        (linkIds := some (.many (Router.convertRoute r).2)) = .ok e ∧ e.route = r) ∧
    Router.convertEntry (Router.convertRoute r).1 (Router.convertRoute r).2 = .ok r ∧
    ∃ e, RoutingEntry.mk' (spinnakerRoute := some r) = .ok e ∧
      Router.convertEntry e.processorIds e.linkIds = .ok r ∧
      e.processorIds = (Router.convertRoute r).1 ∧ e.linkIds = (Router.convertRoute r).2 := by
  have hcalc : Router.convertRoute r = RoutingEntry.calcIds r := rfl
  have hP : ∀ p ∈ (Router.convertRoute r).1, ProcId p := fun p h =>
    ((RoutingEntry.mem_calcIds_procs r p).1 h).1
  have hL : ∀ p ∈ (Router.convertRoute r).2, LinkId p := fun p h =>
    ((RoutingEntry.mem_calcIds_links r p).1 h).1
  have key : ∀ r', Encodes r' (· ∈ (Router.convertRoute r).1) (· ∈ (Router.convertRoute r).2) →
      r' = r := by
    intro r' h
    apply Nat.eq_of_testBit_eq
    intro i
    rw [Bool.eq_iff_iff, h i, hcalc]
    simp only [RoutingEntry.mem_calcIds_procs, RoutingEntry.mem_calcIds_links, ProcId, LinkId]
    rw [show ((i : Int)).toNat = i by omega]
    by_cases h6 : i < 6
    · constructor
      · rintro (⟨-, -, h⟩ | ⟨h, -⟩)
        · exact h
        · omega
      · intro h
        exact Or.inl ⟨h6, by omega, h⟩
    · rw [show (6 + ((i : Int) - 6)).toNat = i by omega]
      constructor
      · rintro (⟨h, -⟩ | ⟨-, -, h⟩)
        · omega
        · exact h
      · intro h
        refine Or.inr ⟨by omega, ?_, h⟩
        have : i < 24 := by
          apply Classical.byContradiction
          intro hge
          have := Nat.testBit_lt_two_pow (Nat.lt_of_lt_of_le hr
            (Nat.pow_le_pow_right (by decide) (Nat.le_of_not_lt hge)))
          rw [this] at h; simp at h
        omega
  obtain ⟨e, he, -, -, henc, -, hconv⟩ := C43_encode (.many (Router.convertRoute r).1)
    (.many (Router.convertRoute r).2) hP hL
  have hroute := key _ henc
  have hcv : Router.convertEntry (Router.convertRoute r).1 (Router.convertRoute r).2 = .ok r := by
    have hnd : ∀ (n : Int) (f : Int → Bool), orderedSet ((pyRange n).filter f) = (pyRange n).filter f := by
      intro n f
      apply orderedSet_of_nodup
      refine List.Pairwise.filter _ ?_
      exact nodup_pyRange n
    rw [hroute] at hconv
    have h3 := (RoutingEntry.mk_ids he).2.2
    simp only [RoutingEntry.processorIds, RoutingEntry.readProcs, RoutingEntry.linkIds,
      RoutingEntry.readLinks, h3.1, h3.2, IdArg.toList] at hconv
    simp only [Router.convertRoute, hnd] at hconv ⊢
    exact hconv
  exact ⟨⟨e, he, hroute⟩, hcv, _, RoutingEntry.mk_route r none, hcv, rfl, rfl⟩

/-- C44: so two entries with 24 bit routes have the same targets exactly if the routes are
equal. -/
theorem C44_same_targets (a b : RoutingEntry) (ha : Built a) (hb : Built b)
    (hra : a.route < 2 ^ 24) (hrb : b.route < 2 ^ 24) :
    ((∀ p, p ∈ a.processorIds ↔ p ∈ b.processorIds) ∧ (∀ l, l ∈ a.linkIds ↔ l ∈ b.linkIds)) ↔
      a.route = b.route := by
  have hwa := RoutingEntry.wf_of_built ha
  have hwb := RoutingEntry.wf_of_built hb
  constructor
  · rintro ⟨h1, h2⟩
    apply Nat.eq_of_testBit_eq
    intro i
    rw [Bool.eq_iff_iff]
    by_cases h6 : i < 6
    · have := h2 i
      rw [hwa.links, hwb.links, show ((i : Int)).toNat = i by omega] at this
      have hl : LinkId i := ⟨by omega, by omega⟩
      simpa [hl] using this
    · by_cases h24 : i < 24
      · have := h1 ((i : Int) - 6)
        rw [hwa.procs, hwb.procs, show (6 + ((i : Int) - 6)).toNat = i by omega] at this
        have hl : ProcId ((i : Int) - 6) := ⟨by omega, by omega⟩
        simpa [hl] using this
      · rw [Nat.testBit_lt_two_pow (Nat.lt_of_lt_of_le hra
            (Nat.pow_le_pow_right (by decide) (Nat.le_of_not_lt h24))),
          Nat.testBit_lt_two_pow (Nat.lt_of_lt_of_le hrb
            (Nat.pow_le_pow_right (by decide) (Nat.le_of_not_lt h24)))]
  · intro h
    exact ⟨fun p => by rw [hwa.procs, hwb.procs, h], fun l => by rw [hwa.links, hwb.links, h]⟩

/-- looking at the ids of an entry never changes what it holds -/
theorem C44_reading_is_pure (e : RoutingEntry) :
    (e.readProcs.2.processorIds = e.processorIds ∧ e.readProcs.2.route = e.route ∧
      e.readProcs.2.defaultable = e.defaultable) ∧
    (e.readLinks.2.linkIds = e.linkIds ∧ e.readLinks.2.route = e.route ∧
      e.readLinks.2.defaultable = e.defaultable) ∧
    (e.procs.isSome = e.links.isSome →
      e.readProcs.2.linkIds = e.linkIds ∧ e.readLinks.2.processorIds = e.processorIds) := by
  obtain ⟨r, p, l, d⟩ := e
  cases p <;> cases l <;>
    simp [RoutingEntry.readProcs, RoutingEntry.readLinks, RoutingEntry.processorIds,
      RoutingEntry.linkIds]

/-! ### C45 ids out of range -/

/-- C45, conversion: `Router.convert_routing_table_entry_to_spinnaker_route` raises
`SpinnMachineInvalidParameterException` exactly if some processor or link id does not exist. -/
theorem C45_convert_rejects (ps ls : List Int) :
    (Router.convertEntry ps ls = .error .invalidParameter ↔
      (∃ p ∈ ps, ¬ ProcId p) ∨ ∃ l ∈ ls, ¬ LinkId l) ∧
    (∀ r, Router.convertEntry ps ls = .ok r → Encodes r (· ∈ ps) (· ∈ ls)) := by
  by_cases hp : ∃ p ∈ ps, ¬ ProcId p
  · have : Router.convertEntry ps ls = .error .invalidParameter := by
      obtain ⟨p, hm, hn⟩ := hp
      unfold Router.convertEntry
      rw [Router.convertIds_error _ _ (by decide) _ _ ⟨p, hm, by
        simp only [ProcId, Router.maxCores] at *; omega⟩]
    rw [this]
    exact ⟨⟨fun _ => Or.inl hp, fun _ => rfl⟩, by simp⟩
  · have hpall : ∀ p ∈ ps, ProcId p := fun p h => Classical.byContradiction fun hn => hp ⟨p, h, hn⟩
    obtain ⟨r1, h1, h1b⟩ := RoutingEntry.orBits_ok Router.maxLinks ps 0
      (fun i hi => by have := (hpall i hi).1; simp only [Router.maxLinks]; omega)
    have hc1 : Router.convertIds Router.maxCores Router.maxLinks 0 ps = .ok r1 := by
      rw [Router.convertIds_ok _ _ (by decide) _ _ (fun i hi => by
        have := hpall i hi
        simp only [ProcId, Router.maxCores] at *; omega), h1]
    by_cases hl : ∃ l ∈ ls, ¬ LinkId l
    · have : Router.convertEntry ps ls = .error .invalidParameter := by
        obtain ⟨l, hm, hn⟩ := hl
        unfold Router.convertEntry
        rw [hc1]
        simp only
        rw [Router.convertIds_error _ _ (by decide) _ _ ⟨l, hm, by
          simp only [LinkId, Router.maxLinks] at *; omega⟩]
      rw [this]
      exact ⟨⟨fun _ => Or.inr hl, fun _ => rfl⟩, by simp⟩
    · have hlall : ∀ p ∈ ls, LinkId p := fun p h => Classical.byContradiction fun hn => hl ⟨p, h, hn⟩
      obtain ⟨r2, h2, h2b⟩ := RoutingEntry.orBits_ok 0 ls r1
        (fun i hi => by have := (hlall i hi).1; omega)
      have : Router.convertEntry ps ls = .ok r2 := by
        unfold Router.convertEntry
        rw [hc1]
        simp only
        rw [Router.convertIds_ok _ _ (by decide) _ _ (fun i hi => by
          have := hlall i hi
          simp only [LinkId, Router.maxLinks] at *; omega), h2]
      rw [this]
      refine ⟨⟨by simp, fun h => ?_⟩, ?_⟩
      · rcases h with h | h
        · exact absurd h hp
        · exact absurd h hl
      · intro r hr
        simp only [Except.ok.injEq] at hr
        subst hr
        intro n
        rw [h2b, h1b]
        simp only [Nat.zero_testBit, Bool.false_eq_true, false_or, Int.zero_add, Router.maxLinks]
        constructor
        · rintro (⟨p, h, he⟩ | ⟨l, h, he⟩)
          · have := (hpall p h).1
            refine Or.inr ⟨by omega, ?_⟩
            rw [show (n : Int) - 6 = p by omega]; exact h
          · have := (hlall l h).2
            refine Or.inl ⟨by omega, ?_⟩
            rw [← he]; exact h
        · rintro (⟨h, h'⟩ | ⟨h, h'⟩)
          · exact Or.inr ⟨_, h', rfl⟩
          · exact Or.inl ⟨_, h', by omega⟩

/-- C45, the constructor (partial: it should raise for every id that does not exist). It raises
`ValueError` exactly if a link id is negative or a processor id is below -6; every other id is
accepted, see `C45_constructor_encodes_other_targets`. -/
theorem C45_constructor_partial (ps ls : IdArg) :
    RoutingEntry.mk' (processorIds := some ps) (linkIds := some ls) = .error .valueError ↔
      (∃ p ∈ ps.toList, p < -6) ∨ ∃ l ∈ ls.toList, l < 0 := by
  constructor
  · intro h
    apply Classical.byContradiction
    intro hn
    obtain ⟨r, hr, -⟩ := RoutingEntry.calcRoute_ok (orderedSet ps.toList) (orderedSet ls.toList)
      (fun p hh => by
        have : ¬ p < -6 := fun hlt => hn (Or.inl ⟨p, RoutingEntry.mem_orderedSet.1 hh, hlt⟩)
        omega)
      (fun l hh => by
        have : ¬ l < 0 := fun hlt => hn (Or.inr ⟨l, RoutingEntry.mem_orderedSet.1 hh, hlt⟩)
        omega)
    simp [RoutingEntry.mk', hr, RoutingEntry.calcDefaultable] at h
  · intro h
    have : RoutingEntry.calcRoute (orderedSet ps.toList) (orderedSet ls.toList) =
        .error .valueError := by
      apply RoutingEntry.calcRoute_error
      rcases h with ⟨p, h1, h2⟩ | ⟨p, h1, h2⟩
      · exact Or.inl ⟨p, RoutingEntry.mem_orderedSet.2 h1, h2⟩
      · exact Or.inr ⟨p, RoutingEntry.mem_orderedSet.2 h1, h2⟩
    simp only [RoutingEntry.mk', this]

/-- C45 fails for the constructor: a link id 6 is silently encoded as processor 0, a processor
id -1 as link 5, and a processor id 18 as a bit no decoder looks at. The entries compare equal to
entries with other targets. -/
theorem C45_constructor_encodes_other_targets :
    (∃ a b, RoutingEntry.mk' (processorIds := some (.many [])) (linkIds := some (.many [6])) = .ok a ∧
      RoutingEntry.mk' (processorIds := some (.many [0])) (linkIds := some (.many [])) = .ok b ∧
      a.eq b = true ∧ a.linkIds = [6] ∧ b.linkIds = []) ∧
    (∃ a b, RoutingEntry.mk' (processorIds := some (.many [-1])) (linkIds := some (.many [])) = .ok a ∧
      RoutingEntry.mk' (processorIds := some (.many [])) (linkIds := some (.many [5])) = .ok b ∧
      a.eq b = true ∧ a.processorIds = [-1] ∧ b.processorIds = []) ∧
    (∃ a b, RoutingEntry.mk' (processorIds := some (.many [18])) (linkIds := some (.many [])) = .ok a ∧
      RoutingEntry.mk' (spinnakerRoute := some a.route) = .ok b ∧
      a.eq b = true ∧ a.processorIds = [18] ∧ b.processorIds = [] ∧ b.linkIds = []) := by
  refine ⟨⟨_, _, rfl, rfl, ?_⟩, ⟨_, _, rfl, rfl, ?_⟩, ⟨_, _, rfl, rfl, ?_⟩⟩ <;> decide +kernel

/-! ### C46 merge -/

/-- C46: `merge` never raises; the result has exactly the union of the targets, and is
defaultable only if the operands are equal and defaultable. -/
theorem C46_union (a b : RoutingEntry) (ha : Built a) (hb : Built b) :
    ∃ e, a.merge b = .ok e ∧
      (∀ p, p ∈ e.processorIds ↔ p ∈ a.processorIds ∨ p ∈ b.processorIds) ∧
      (∀ l, l ∈ e.linkIds ↔ l ∈ a.linkIds ∨ l ∈ b.linkIds) ∧
      (e.defaultable = true ↔ a.eq b = true ∧ a.defaultable = true) := by
  obtain ⟨e, h1, h2, h3, h4⟩ := RoutingEntry.merge_ok a b
  have hwa := RoutingEntry.wf_of_built ha
  have hwb := RoutingEntry.wf_of_built hb
  have hwe := RoutingEntry.wf_of_built (Built.merge ha hb h1)
  refine ⟨e, h1, fun p => ?_, fun l => ?_, ?_⟩
  · rw [hwe.procs, hwa.procs, hwb.procs, h2, Nat.testBit_or, Bool.or_eq_true]
    exact and_or_left
  · rw [hwe.links, hwa.links, hwb.links, h2, Nat.testBit_or, Bool.or_eq_true]
    exact and_or_left
  · rw [h3]
    simp only [RoutingEntry.eq]
    by_cases h : a.route = b.route
    · simp only [h, true_and, ne_eq, not_true, if_false, decide_eq_true_eq]
      constructor
      · rintro ⟨h, h'⟩; exact ⟨by rw [h, h'], h⟩
      · rintro ⟨h, h'⟩; exact ⟨h', by rw [← h, h']⟩
    · simp [h]

theorem eq_iff (a b : RoutingEntry) : a.eq b = true ↔ a.route = b.route ∧ a.defaultable = b.defaultable := by
  simp only [RoutingEntry.eq]
  by_cases h : a.route = b.route <;> simp [h]

/-- C46: `merge` is idempotent, commutative and associative as compared by `==` (for all
entries, also with ids out of range). -/
theorem C46_semilattice (a b c : RoutingEntry) :
    a.merge a = .ok a ∧
    (∃ ab ba, a.merge b = .ok ab ∧ b.merge a = .ok ba ∧ ab.eq ba = true) ∧
    (∃ ab bc abc abc', a.merge b = .ok ab ∧ b.merge c = .ok bc ∧ ab.merge c = .ok abc ∧
      a.merge bc = .ok abc' ∧ abc.eq abc' = true) := by
  refine ⟨?_, ?_, ?_⟩
  · unfold RoutingEntry.merge
    rw [if_pos ((eq_iff a a).2 ⟨rfl, rfl⟩)]
  · obtain ⟨ab, h1, h2, h3, -⟩ := RoutingEntry.merge_ok a b
    obtain ⟨ba, h1', h2', h3', -⟩ := RoutingEntry.merge_ok b a
    refine ⟨ab, ba, h1, h1', (eq_iff _ _).2 ⟨by rw [h2, h2', Nat.or_comm], ?_⟩⟩
    rw [Bool.eq_iff_iff, h3, h3']
    constructor <;> rintro ⟨h, h', h''⟩ <;> exact ⟨h.symm, h'', h'⟩
  · obtain ⟨ab, h1, h2, h3, -⟩ := RoutingEntry.merge_ok a b
    obtain ⟨bc, h1', h2', h3', -⟩ := RoutingEntry.merge_ok b c
    obtain ⟨x, k1, k2, k3, -⟩ := RoutingEntry.merge_ok ab c
    obtain ⟨y, k1', k2', k3', -⟩ := RoutingEntry.merge_ok a bc
    refine ⟨ab, bc, x, y, h1, h1', k1, k1',
      (eq_iff _ _).2 ⟨by rw [k2, k2', h2, h2', Nat.or_assoc], ?_⟩⟩
    rw [Bool.eq_iff_iff, k3, k3', h3, h3', h2, h2']
    constructor
    · rintro ⟨e1, ⟨e2, d1, d2⟩, d3⟩
      rw [e2, Nat.or_self] at e1
      exact ⟨by rw [← e1, Nat.or_self, e2], d1, e1, d2, d3⟩
    · rintro ⟨e1, d1, e2, d2, d3⟩
      rw [e2, Nat.or_self] at e1
      exact ⟨by rw [e1, e2, Nat.or_self], ⟨by rw [e1, e2], d1, d2⟩, d3⟩

/-- a case: {1}:{2} merged with {3}:{2, 4} is {1, 3}:{2, 4} -/
example : ∃ a b e, RoutingEntry.mk' (processorIds := some (.one 1)) (linkIds := some (.one 2)) = .ok a ∧
    RoutingEntry.mk' (processorIds := some (.one 3)) (linkIds := some (.many [2, 4])) = .ok b ∧
    a.merge b = .ok e ∧ e.processorIds = [1, 3] ∧ e.linkIds = [2, 4] :=
  ⟨_, _, _, rfl, rfl, rfl, by decide +kernel, by decide +kernel⟩

/-- Outside the existing ids (see C45) the union is lost: merging {18}:{} with {0}:{} drops the
target 18. -/
theorem C46_lost_if_out_of_range : ∃ a b e,
    RoutingEntry.mk' (processorIds := some (.one 18)) (linkIds := some (.many [])) = .ok a ∧
    RoutingEntry.mk' (processorIds := some (.one 0)) (linkIds := some (.many [])) = .ok b ∧
    a.merge b = .ok e ∧ a.processorIds = [18] ∧ e.processorIds = [0] :=
  ⟨_, _, _, rfl, rfl, rfl, by decide +kernel, by decide +kernel⟩

/-! ### C47 defaultable -/

theorem opposite_iff (inc l : Int) (h : LinkId inc) : pmod (inc + 3) 6 = l ↔ Opposite inc l := by
  constructor
  · intro he
    obtain ⟨h0, h5⟩ := h
    have : inc = 0 ∨ inc = 1 ∨ inc = 2 ∨ inc = 3 ∨ inc = 4 ∨ inc = 5 := by omega
    rcases this with rfl | rfl | rfl | rfl | rfl | rfl
    · exact ⟨.E, .W, rfl, he, by decide, by decide⟩
    · exact ⟨.NE, .SW, rfl, he, by decide, by decide⟩
    · exact ⟨.N, .S, rfl, he, by decide, by decide⟩
    · exact ⟨.W, .E, rfl, he, by decide, by decide⟩
    · exact ⟨.SW, .NE, rfl, he, by decide, by decide⟩
    · exact ⟨.S, .N, rfl, he, by decide, by decide⟩
  · rintro ⟨d, e, rfl, rfl, hx, hy⟩
    cases d <;> cases e <;> first | decide | exact absurd hx (by decide) | exact absurd hy (by decide)

/-- C47 (partial: `defaultable` should also require that the entry has no processors). An entry
made from ids with no processors and link ids without repetition, that came in over link `inc`,
is defaultable exactly if it goes out on just the opposite link; without an incoming link it
never is. -/
theorem C47_defaultable_partial (ls : IdArg) (hls : ls.toList.Nodup) (hl : ∀ l ∈ ls.toList, LinkId l)
    (il : Option Int) (hil : ∀ i, il = some i → LinkId i) :
    ∃ e, RoutingEntry.mk' (processorIds := some (.many [])) (linkIds := some ls)
        (incomingLink := il) = .ok e ∧
      (e.defaultable = true ↔
        e.processorIds = [] ∧ ∃ inc out, il = some inc ∧ Opposite inc out ∧ ∀ l, l ∈ e.linkIds ↔ l = out) := by
  obtain ⟨r, hr, -⟩ := RoutingEntry.calcRoute_ok (orderedSet (IdArg.many []).toList) (orderedSet ls.toList)
      (by simp [IdArg.toList, orderedSet])
      (fun l hh => (hl l (RoutingEntry.mem_orderedSet.1 hh)).1)
  cases il with
  | none =>
    refine ⟨{ route := r, procs := some [], links := some (orderedSet ls.toList), defaultable := false }, ?_, ?_⟩
    · simp only [RoutingEntry.mk', hr, RoutingEntry.calcDefaultable]; rfl
    · simp
  | some inc =>
    have hinc := hil inc rfl
    have hdef : ∃ d, RoutingEntry.calcDefaultable ls.toList none (some inc) = .ok d ∧
        (d = true ↔ ∃ out, Opposite inc out ∧ ∀ l, l ∈ ls.toList ↔ l = out) := by
      simp only [RoutingEntry.calcDefaultable]
      match hlist : ls.toList with
      | [] => exact ⟨false, rfl, by simp⟩
      | [l] =>
        refine ⟨_, rfl, ?_⟩
        rw [decide_eq_true_eq, opposite_iff _ _ hinc]
        constructor
        · intro h; exact ⟨l, h, by simp⟩
        · rintro ⟨out, ho, h⟩
          rw [(h l).1 (by simp)]; exact ho
      | l :: l' :: t =>
        refine ⟨false, rfl, ?_⟩
        simp only [Bool.false_eq_true, false_iff]
        rintro ⟨out, -, h⟩
        rw [hlist] at hls
        have h1 := (h l).1 (by simp)
        have h2 := (h l').1 (by simp)
        simp [h1, h2] at hls
    obtain ⟨d, hd, hiff⟩ := hdef
    refine ⟨{ route := r, procs := some [], links := some (orderedSet ls.toList), defaultable := d }, ?_, ?_⟩
    · simp only [RoutingEntry.mk', hr, hd]; rfl
    · rw [hiff]
      constructor
      · rintro ⟨out, ho, h⟩
        exact ⟨rfl, inc, out, rfl, ho, fun l => RoutingEntry.mem_orderedSet.trans (h l)⟩
      · rintro ⟨-, inc', out, h, ho, h'⟩
        simp only [Option.some.injEq] at h
        subst h
        exact ⟨out, ho, fun l => RoutingEntry.mem_orderedSet.symm.trans (h' l)⟩

/-- a case: in over link 0 (east), out on link 3 (west) -/
example : ∃ e, RoutingEntry.mk' (processorIds := some (.many [])) (linkIds := some (.one 3))
    (incomingLink := some 0) = .ok e ∧ e.defaultable = true := ⟨_, rfl, by decide⟩

/-- what `defaultable` is for every entry made from ids: processors are not looked at -/
theorem C47_exact (ps ls : IdArg) (ip il : Option Int) (e : RoutingEntry)
    (h : RoutingEntry.mk' (processorIds := some ps) (linkIds := some ls) (incomingProcessor := ip)
      (incomingLink := il) = .ok e) :
    (e.defaultable = true ↔ ∃ inc, il = some inc ∧ ip = none ∧ ls.toList = [pmod (inc + 3) 6]) ∧
    (il = none ∨ ip = none) := by
  have := (RoutingEntry.mk_ids h).2.1
  unfold RoutingEntry.calcDefaultable at this
  cases il with
  | none => simp at this; simp [← this]
  | some inc =>
    cases ip with
    | some _ => simp at this
    | none =>
      refine ⟨?_, Or.inr rfl⟩
      simp only at this
      split at this
      · rename_i l hl
        simp only [Except.ok.injEq] at this
        rw [← this, hl]
        simp [eq_comm]
      · rename_i hno
        simp only [Except.ok.injEq] at this
        rw [← this]
        simp only [Bool.false_eq_true, Option.some.injEq, true_and, false_iff]
        rintro ⟨i, rfl, h⟩
        exact hno _ h

/-- giving both an incoming link and an incoming processor raises -/
theorem C47_both_incoming (ps ls : IdArg) (hp : ∀ p ∈ ps.toList, ProcId p)
    (hl : ∀ l ∈ ls.toList, LinkId l) (ip il : Int) :
    RoutingEntry.mk' (processorIds := some ps) (linkIds := some ls) (incomingProcessor := some ip)
      (incomingLink := some il) = .error .invalidParameter := by
  obtain ⟨r, hr, -⟩ := RoutingEntry.calcRoute_ok (orderedSet ps.toList) (orderedSet ls.toList)
      (fun p hh => by have := (hp p (RoutingEntry.mem_orderedSet.1 hh)).1; omega)
      (fun l hh => (hl l (RoutingEntry.mem_orderedSet.1 hh)).1)
  simp only [RoutingEntry.mk', hr, RoutingEntry.calcDefaultable]

/-- C47 fails: an entry to processor 1 and link 3, in over link 0, is called defaultable though
it also goes to a processor; and the same link given twice makes a default route non
defaultable. -/
theorem C47_ignores_processors :
    (∃ e, RoutingEntry.mk' (processorIds := some (.many [1])) (linkIds := some (.many [3]))
        (incomingLink := some 0) = .ok e ∧ e.defaultable = true ∧ e.processorIds = [1]) ∧
    (∃ e, RoutingEntry.mk' (processorIds := some (.many [])) (linkIds := some (.many [3, 3]))
        (incomingLink := some 0) = .ok e ∧ e.defaultable = false ∧ e.processorIds = [] ∧
        e.linkIds = [3]) := by
  refine ⟨⟨_, rfl, ?_⟩, ⟨_, rfl, ?_⟩⟩ <;> decide +kernel

/-! ### C48 multicast entries -/

/-- C48: a `MulticastRoutingEntry` is made exactly if masking leaves the key unchanged, that is
if every bit of the key is in the mask. -/
theorem C48_create (key mask : Nat) (e : RoutingEntry) :
    (∃ m, MulticastRoutingEntry.mk' key mask e = .ok m ∧ m.key = key ∧ m.mask = mask ∧ m.entry = e ∧
      ∀ i, key.testBit i = true → mask.testBit i = true) ∨
    (MulticastRoutingEntry.mk' key mask e = .error .invalidParameter ∧
      ∃ i, key.testBit i = true ∧ mask.testBit i = false) := by
  unfold MulticastRoutingEntry.mk'
  by_cases h : key &&& mask = key
  · refine Or.inl ⟨_, by rw [if_neg (by simpa using h)], rfl, rfl, rfl, fun i hi => ?_⟩
    have := congrArg (fun z => Nat.testBit z i) h
    simpa [Nat.testBit_and, hi] using this
  · refine Or.inr ⟨by rw [if_pos h], Classical.byContradiction fun hn => h ?_⟩
    apply Nat.eq_of_testBit_eq
    intro i
    rw [Nat.testBit_and]
    cases hk : key.testBit i with
    | false => rfl
    | true =>
      cases hm : mask.testBit i with
      | true => rfl
      | false => exact absurd ⟨i, hk, hm⟩ hn

/-- C48: merging two multicast entries raises exactly if the keys or the masks differ;
otherwise key and mask are kept and the targets are merged. (`a` is an entry that could be
created.) -/
theorem C48_merge (a b : MulticastRoutingEntry)
    (ha : MulticastRoutingEntry.mk' a.key a.mask a.entry = .ok a)
    (hba : Built a.entry) (hbb : Built b.entry) :
    (a.merge b = .error .invalidParameter ↔ a.key ≠ b.key ∨ a.mask ≠ b.mask) ∧
    (a.key = b.key ∧ a.mask = b.mask → ∃ m, a.merge b = .ok m ∧ m.key = a.key ∧ m.mask = a.mask ∧
      (∀ p, p ∈ m.processorIds ↔ p ∈ a.processorIds ∨ p ∈ b.processorIds) ∧
      (∀ l, l ∈ m.linkIds ↔ l ∈ a.linkIds ∨ l ∈ b.linkIds) ∧
      m.spinnakerRoute = a.spinnakerRoute ||| b.spinnakerRoute ∧
      (m.defaultable = true ↔ a.entry.eq b.entry = true ∧ a.defaultable = true)) := by
  obtain ⟨e, h1, h2, h3, h4⟩ := C46_union a.entry b.entry hba hbb
  obtain ⟨e', h1', h2', -⟩ := RoutingEntry.merge_ok a.entry b.entry
  rw [h1] at h1'
  simp only [Except.ok.injEq] at h1'
  subst h1'
  have hkm : a.key &&& a.mask = a.key := by
    unfold MulticastRoutingEntry.mk' at ha
    split at ha
    · simp at ha
    · rename_i h; simpa using h
  by_cases hk : b.key = a.key
  · by_cases hm : b.mask = a.mask
    · have hmerge : a.merge b = .ok ⟨a.key, a.mask, e⟩ := by
        unfold MulticastRoutingEntry.merge
        rw [if_neg (by simpa using hk), if_neg (by simpa using hm), h1]
        simp only [MulticastRoutingEntry.mk']
        rw [if_neg (by simpa using hkm)]
      refine ⟨?_, fun _ => ⟨_, hmerge, rfl, rfl, h2, h3, h2', h4⟩⟩
      rw [hmerge]
      simp [hk, hm]
    · have hmerge : a.merge b = .error .invalidParameter := by
        unfold MulticastRoutingEntry.merge
        rw [if_neg (by simpa using hk), if_pos hm]
      exact ⟨⟨fun _ => Or.inr (fun h => hm h.symm), fun _ => hmerge⟩, fun h => absurd h.2.symm hm⟩
  · have hmerge : a.merge b = .error .invalidParameter := by
      unfold MulticastRoutingEntry.merge
      rw [if_pos hk]
    exact ⟨⟨fun _ => Or.inl (fun h => hk h.symm), fun _ => hmerge⟩, fun h => absurd h.1.symm hk⟩

/-- a case: two entries with key 0x40 and mask 0xF0 -/
example : ∃ e f a b m, RoutingEntry.mk' (processorIds := some (.one 1)) (linkIds := some (.many [])) = .ok e ∧
    RoutingEntry.mk' (processorIds := some (.many [])) (linkIds := some (.one 5)) = .ok f ∧
    MulticastRoutingEntry.mk' 0x40 0xF0 e = .ok a ∧ MulticastRoutingEntry.mk' 0x40 0xF0 f = .ok b ∧
    a.merge b = .ok m ∧ m.processorIds = [1] ∧ m.linkIds = [5] :=
  ⟨_, _, _, _, _, rfl, rfl, rfl, rfl, rfl, by decide +kernel, by decide +kernel⟩
example : ∀ e, MulticastRoutingEntry.mk' 0x41 0xF0 e = .error .invalidParameter := fun _ => rfl

/-! ### argument checks of the constructor -/

/-- the constructor refuses (AssertionError) every mixture of the two ways to describe a route:
neither a route nor both id collections, a route with ids or an incoming direction, or a
`defaultable` flag with ids -/
theorem C45_mixed_arguments (ps ls : Option IdArg) (ip il : Option Int) (d : Option Bool)
    (r : Option Nat) :
    RoutingEntry.mk' ps ls ip il d r = .error .assertionError ↔
      (r = none ∧ (ps = none ∨ ls = none ∨ d ≠ none)) ∨
      (r ≠ none ∧ (ps ≠ none ∨ ls ≠ none ∨ ip ≠ none ∨ il ≠ none)) := by
  cases r with
  | some r => cases ps <;> cases ls <;> cases ip <;> cases il <;> simp [RoutingEntry.mk']
  | none =>
    cases ps with
    | none => simp [RoutingEntry.mk']
    | some ps =>
      cases ls with
      | none => simp [RoutingEntry.mk']
      | some ls =>
        cases d with
        | some d => simp [RoutingEntry.mk']
        | none =>
          simp only [RoutingEntry.mk', reduceCtorEq, or_self, ne_eq, not_true, and_false, false_and, iff_false]
          split
          · rename_i e he
            by_cases hb : (∃ p ∈ orderedSet ps.toList, p < -6) ∨ ∃ l ∈ orderedSet ls.toList, l < 0
            · rw [RoutingEntry.calcRoute_error _ _ hb] at he
              simp at he; subst he; simp
            · obtain ⟨r, hr, -⟩ := RoutingEntry.calcRoute_ok (orderedSet ps.toList) (orderedSet ls.toList)
                (fun p hh => by
                  have : ¬ p < -6 := fun hlt => hb (Or.inl ⟨p, hh, hlt⟩)
                  omega)
                (fun l hh => by
                  have : ¬ l < 0 := fun hlt => hb (Or.inr ⟨l, hh, hlt⟩)
                  omega)
              rw [hr] at he; simp at he
          · unfold RoutingEntry.calcDefaultable
            cases il with
            | none => simp
            | some i =>
              cases ip with
              | some _ => simp
              | none => simp only; split <;> (rename_i h; split at h <;> simp_all)

end SpiNN.Props
