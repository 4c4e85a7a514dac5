import Verif.Props.Routing

/-!
# C46: merging many entries

Tools that compress routing tables merge entries one after the other.
-/

namespace SpiNN.Props
open SpiNN Spec

/-- `a.merge(b1).merge(b2)...` -/
def mergeAll : RoutingEntry → List RoutingEntry → Except PyErr RoutingEntry
  | a, [] => .ok a
  | a, b :: bs => match a.merge b with
    | .error e => .error e
    | .ok e => mergeAll e bs

theorem mergeAll_ok (a : RoutingEntry) (bs : List RoutingEntry) :
    ∃ e, mergeAll a bs = .ok e ∧
      (∀ i, e.route.testBit i = true ↔ ∃ b ∈ a :: bs, b.route.testBit i = true) ∧
      (e.defaultable = true ↔ a.defaultable = true ∧ ∀ b ∈ bs, a.eq b = true) := by
  induction bs generalizing a with
  | nil => exact ⟨a, rfl, by simp, by simp⟩
  | cons b bs ih =>
    obtain ⟨e1, h1, h2, h3, -⟩ := RoutingEntry.merge_ok a b
    obtain ⟨e, g1, g2, g3⟩ := ih e1
    refine ⟨e, by rw [mergeAll, h1]; exact g1, fun i => ?_, ?_⟩
    · rw [g2]
      simp only [List.mem_cons, exists_eq_or_imp, h2, Nat.testBit_or, Bool.or_eq_true, or_assoc]
    · rw [g3, h3]
      simp only [List.mem_cons, forall_eq_or_imp]
      by_cases hab : a.eq b = true
      · have he : e1 = a := by
          unfold RoutingEntry.merge at h1
          rw [if_pos hab] at h1
          cases h1
          rfl
        subst he
        have := (eq_iff _ _).1 hab
        constructor
        · rintro ⟨⟨-, h, -⟩, h'⟩; exact ⟨h, hab, h'⟩
        · rintro ⟨h, -, h'⟩; exact ⟨⟨this.1, h, by rw [← this.2]; exact h⟩, h'⟩
      · constructor
        · rintro ⟨⟨h, h', h''⟩, -⟩
          exact absurd ((eq_iff a b).2 ⟨h, by rw [h', h'']⟩) hab
        · rintro ⟨-, h, -⟩
          exact absurd h hab

/-- C46: merging any number of entries never fails and gives exactly the union of their targets; the result is defaultable
exactly if all the entries are equal and defaultable. -/
theorem C46_many (a : RoutingEntry) (bs : List RoutingEntry) (h : ∀ b ∈ a :: bs, Built b) :
    ∃ e, mergeAll a bs = .ok e ∧
      (∀ p, p ∈ e.processorIds ↔ ∃ b ∈ a :: bs, p ∈ b.processorIds) ∧
      (∀ l, l ∈ e.linkIds ↔ ∃ b ∈ a :: bs, l ∈ b.linkIds) ∧
      (e.defaultable = true ↔ a.defaultable = true ∧ ∀ b ∈ bs, a.eq b = true) := by
  obtain ⟨e, h1, h2, h3⟩ := mergeAll_ok a bs
  have hb : Built e := by
    clear h2 h3
    induction bs generalizing a with
    | nil => cases h1; exact h _ (by simp)
    | cons b bs ih =>
      rw [mergeAll] at h1
      cases hm : a.merge b with
      | error x => rw [hm] at h1; cases h1
      | ok x =>
        rw [hm] at h1
        refine ih x ?_ h1
        intro c hc
        rcases List.mem_cons.1 hc with rfl | hc
        · exact Built.merge (h a (by simp)) (h b (by simp)) hm
        · exact h c (by simp [hc])
  have hwe := RoutingEntry.wf_of_built hb
  refine ⟨e, h1, fun p => ?_, fun l => ?_, h3⟩
  · rw [hwe.procs, h2]
    constructor
    · rintro ⟨hp, b, hbm, hbit⟩
      exact ⟨b, hbm, ((RoutingEntry.wf_of_built (h b hbm)).procs _).2 ⟨hp, hbit⟩⟩
    · rintro ⟨b, hbm, hp⟩
      have := ((RoutingEntry.wf_of_built (h b hbm)).procs _).1 hp
      exact ⟨this.1, b, hbm, this.2⟩
  · rw [hwe.links, h2]
    constructor
    · rintro ⟨hp, b, hbm, hbit⟩
      exact ⟨b, hbm, ((RoutingEntry.wf_of_built (h b hbm)).links _).2 ⟨hp, hbit⟩⟩
    · rintro ⟨b, hbm, hp⟩
      have := ((RoutingEntry.wf_of_built (h b hbm)).links _).1 hp
      exact ⟨this.1, b, hbm, this.2⟩

/-- C46: the order in which entries are merged does not matter. -/
theorem C46_any_order (a b : RoutingEntry) (as bs : List RoutingEntry) (hp : (a :: as).Perm (b :: bs)) :
    ∃ d e, mergeAll a as = .ok d ∧ mergeAll b bs = .ok e ∧ d.eq e = true := by
  obtain ⟨d, h1, h2, h3⟩ := mergeAll_ok a as
  obtain ⟨e, g1, g2, g3⟩ := mergeAll_ok b bs
  refine ⟨d, e, h1, g1, (eq_iff _ _).2 ⟨?_, ?_⟩⟩
  · apply Nat.eq_of_testBit_eq
    intro i
    rw [Bool.eq_iff_iff, h2, g2]
    constructor
    · rintro ⟨c, hc, h⟩; exact ⟨c, hp.mem_iff.1 hc, h⟩
    · rintro ⟨c, hc, h⟩; exact ⟨c, hp.mem_iff.2 hc, h⟩
  · have key : ∀ (a : RoutingEntry) as, (a.defaultable = true ∧ ∀ b ∈ as, a.eq b = true) ↔
        ∀ c ∈ a :: as, c.defaultable = true ∧ ∀ c' ∈ a :: as, c.route = c'.route := by
      intro a as
      constructor
      · rintro ⟨h, h'⟩
        have : ∀ c ∈ a :: as, a.route = c.route ∧ c.defaultable = true := by
          intro c hc
          rcases List.mem_cons.1 hc with rfl | hc
          · exact ⟨rfl, h⟩
          · have := (eq_iff _ _).1 (h' c hc)
            exact ⟨this.1, by rw [← this.2]; exact h⟩
        intro c hc
        exact ⟨(this c hc).2, fun c' hc' => (this c hc).1.symm.trans (this c' hc').1⟩
      · intro h
        refine ⟨(h a (by simp)).1, fun b hb => (eq_iff _ _).2 ⟨(h a (by simp)).2 b (by simp [hb]), ?_⟩⟩
        rw [(h a (by simp)).1, (h b (by simp [hb])).1]
    rw [Bool.eq_iff_iff, h3, g3, key, key]
    constructor
    · intro h c hc
      have := h c (hp.mem_iff.2 hc)
      exact ⟨this.1, fun c' hc' => this.2 c' (hp.mem_iff.2 hc')⟩
    · intro h c hc
      have := h c (hp.mem_iff.1 hc)
      exact ⟨this.1, fun c' hc' => this.2 c' (hp.mem_iff.1 hc')⟩

/-- three entries -/
example : (match RoutingEntry.mk' (spinnakerRoute := some 1), RoutingEntry.mk' (spinnakerRoute := some 64),
      RoutingEntry.mk' (spinnakerRoute := some 130) with
    | .ok a, .ok b, .ok c => match mergeAll a [b, c] with
      | .ok e => e.route == 195 && e.processorIds == [0, 1] && e.linkIds == [0, 1]
      | .error _ => false
    | _, _, _ => false) = true := by decide +kernel

end SpiNN.Props
