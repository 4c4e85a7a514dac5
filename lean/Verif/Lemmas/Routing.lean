import Verif.Spec.Routing
import Verif.Props.Machine

namespace SpiNN
open Spec Props

theorem orderedSet_of_nodup {α : Type} [DecidableEq α] {l : List α} (hl : l.Nodup) : orderedSet l = l := by
  unfold orderedSet
  have key : ∀ (l acc : List α), (acc ++ l).Nodup →
      l.foldl (fun acc a => if a ∈ acc then acc else acc ++ [a]) acc = acc ++ l := by
    intro l
    induction l with
    | nil => simp
    | cons a t ih =>
      intro acc hn
      have ha : a ∉ acc := fun h => by
        rw [List.nodup_append] at hn
        exact hn.2.2 a h a List.mem_cons_self rfl
      rw [List.foldl_cons, if_neg ha, ih _ (by simpa using hn)]
      simp
  simpa using key l [] (by simpa using hl)

theorem testBit_orShift (acc k n : Nat) :
    (acc ||| (1 <<< k)).testBit n = true ↔ acc.testBit n = true ∨ n = k := by
  rw [Nat.testBit_or, Nat.one_shiftLeft, Nat.testBit_two_pow, Bool.or_eq_true, decide_eq_true_eq,
    eq_comm (a := k)]

theorem and_shift_ne_zero (r k : Nat) : (r &&& (1 <<< k) ≠ 0) ↔ r.testBit k = true := by
  rw [Nat.one_shiftLeft]
  constructor
  · intro h
    cases hb : r.testBit k with
    | true => rfl
    | false =>
      exfalso; apply h
      apply Nat.eq_of_testBit_eq
      intro i
      rw [Nat.testBit_and, Nat.testBit_two_pow, Nat.zero_testBit]
      by_cases hik : k = i
      · subst hik; simp [hb]
      · simp [hik]
  · intro h h0
    have := congrArg (fun z => Nat.testBit z k) h0
    simp [Nat.testBit_and, h] at this

namespace RoutingEntry

theorem orBits_ok (offset : Int) : ∀ (l : List Int) (acc : Nat), (∀ i ∈ l, 0 ≤ offset + i) →
    ∃ r, orBits offset acc l = .ok r ∧
      ∀ n : Nat, r.testBit n = true ↔ acc.testBit n = true ∨ ∃ i ∈ l, offset + i = (n : Int) := by
  intro l
  induction l with
  | nil => intro acc _; exact ⟨acc, rfl, by simp⟩
  | cons i t ih =>
    intro acc h
    have hi := h i List.mem_cons_self
    obtain ⟨r, h1, h2⟩ := ih (acc ||| (1 <<< (offset + i).toNat))
      (fun j hj => h j (List.mem_cons_of_mem _ hj))
    refine ⟨r, ?_, ?_⟩
    · simp only [orBits, orBit, if_neg (Int.not_lt.2 hi)]
      exact h1
    · intro n
      rw [h2, testBit_orShift]
      have : n = (offset + i).toNat ↔ offset + i = (n : Int) := by omega
      rw [this]
      simp [or_assoc]

theorem orBits_error (offset : Int) : ∀ (l : List Int) (acc : Nat), (∃ i ∈ l, offset + i < 0) →
    orBits offset acc l = .error .valueError := by
  intro l
  induction l with
  | nil => intro acc h; obtain ⟨i, hi, _⟩ := h; simp at hi
  | cons i t ih =>
    intro acc h
    simp only [orBits, orBit]
    by_cases hi : offset + i < 0
    · simp [if_pos hi]
    · rw [if_neg hi]
      refine ih _ ?_
      obtain ⟨j, hj, hn⟩ := h
      rcases List.mem_cons.1 hj with rfl | hj
      · exact absurd hn hi
      · exact ⟨j, hj, hn⟩

theorem calcRoute_ok (ps ls : List Int) (hp : ∀ p ∈ ps, -6 ≤ p) (hl : ∀ l ∈ ls, 0 ≤ l) :
    ∃ r, calcRoute ps ls = .ok r ∧
      ∀ n : Nat, r.testBit n = true ↔ (∃ p ∈ ps, 6 + p = (n : Int)) ∨ (∃ l ∈ ls, l = (n : Int)) := by
  obtain ⟨r1, h1, h2⟩ := orBits_ok Router.maxLinks ps 0
    (fun i hi => by have := hp i hi; simp only [Router.maxLinks]; omega)
  obtain ⟨r2, h3, h4⟩ := orBits_ok 0 ls r1 (fun i hi => by have := hl i hi; omega)
  refine ⟨r2, by simp only [calcRoute, h1, h3], fun n => ?_⟩
  rw [h4, h2]
  simp [Router.maxLinks]

theorem calcRoute_error (ps ls : List Int) (h : (∃ p ∈ ps, p < -6) ∨ ∃ l ∈ ls, l < 0) :
    calcRoute ps ls = .error .valueError := by
  unfold calcRoute
  by_cases hp : ∃ p ∈ ps, p < -6
  · obtain ⟨p, hp, hn⟩ := hp
    rw [orBits_error _ _ _ ⟨p, hp, by simp only [Router.maxLinks]; omega⟩]
  · obtain ⟨r1, h1, -⟩ := orBits_ok Router.maxLinks ps 0
      (fun i hi => by
        have : ¬ i < -6 := fun hn => hp ⟨i, hi, hn⟩
        simp only [Router.maxLinks]; omega)
    rw [h1]
    rcases h with h | ⟨l, hl, hn⟩
    · exact absurd h hp
    · exact orBits_error _ _ _ ⟨l, hl, by omega⟩

theorem mem_pyRange_iff (n a : Int) : a ∈ pyRange n ↔ 0 ≤ a ∧ a < n := by
  simp only [pyRange, List.mem_map, List.mem_range]
  constructor
  · rintro ⟨i, hi, rfl⟩; omega
  · intro h; exact ⟨a.toNat, by omega, by omega⟩

theorem mem_calcIds_procs (r : Nat) (p : Int) :
    p ∈ (calcIds r).1 ↔ ProcId p ∧ r.testBit (6 + p).toNat = true := by
  simp only [calcIds, List.mem_filter, decide_eq_true_eq, and_shift_ne_zero, mem_pyRange_iff,
    Router.maxCores, Router.maxLinks, ProcId]
  constructor <;> rintro ⟨⟨h1, h2⟩, h3⟩ <;> exact ⟨⟨h1, by omega⟩, h3⟩

theorem mem_calcIds_links (r : Nat) (l : Int) :
    l ∈ (calcIds r).2 ↔ LinkId l ∧ r.testBit l.toNat = true := by
  simp only [calcIds, List.mem_filter, decide_eq_true_eq, and_shift_ne_zero, mem_pyRange_iff,
    Router.maxLinks, LinkId]
  constructor <;> rintro ⟨⟨h1, h2⟩, h3⟩ <;> exact ⟨⟨h1, by omega⟩, h3⟩

/-- the cached ids say what the route says -/
def WF (e : RoutingEntry) : Prop :=
  (∀ ps, e.procs = some ps → ∀ p, p ∈ ps ↔ ProcId p ∧ e.route.testBit (6 + p).toNat = true) ∧
  (∀ ls, e.links = some ls → ∀ l, l ∈ ls ↔ LinkId l ∧ e.route.testBit l.toNat = true)

theorem WF.procs {e : RoutingEntry} (h : e.WF) (p : Int) :
    p ∈ e.processorIds ↔ ProcId p ∧ e.route.testBit (6 + p).toNat = true := by
  unfold processorIds readProcs
  cases hc : e.procs with
  | some ps => exact h.1 ps hc p
  | none => exact mem_calcIds_procs _ _

theorem WF.links {e : RoutingEntry} (h : e.WF) (l : Int) :
    l ∈ e.linkIds ↔ LinkId l ∧ e.route.testBit l.toNat = true := by
  unfold linkIds readLinks
  cases hc : e.links with
  | some ps => exact h.2 ps hc l
  | none => exact mem_calcIds_links _ _

theorem wf_filled (e : RoutingEntry) :
    WF { e with procs := some (calcIds e.route).1, links := some (calcIds e.route).2 } := by
  constructor
  · intro ps h p; simp only [Option.some.injEq] at h; subst h; exact mem_calcIds_procs _ _
  · intro ps h p; simp only [Option.some.injEq] at h; subst h; exact mem_calcIds_links _ _

theorem mk_route (r : Nat) (d : Option Bool) :
    mk' (spinnakerRoute := some r) (defaultable := d) =
      .ok { route := r, procs := none, links := none, defaultable := d.getD false } := rfl

theorem merge_ok (a b : RoutingEntry) : ∃ e, a.merge b = .ok e ∧ e.route = a.route ||| b.route ∧
    (e.defaultable = true ↔ a.route = b.route ∧ a.defaultable = true ∧ b.defaultable = true) ∧
    ((a.eq b = true ∧ e = a) ∨ (a.eq b = false ∧ e.procs = none ∧ e.links = none)) := by
  unfold merge
  cases h : a.eq b with
  | true =>
    refine ⟨a, by simp, ?_, ?_, Or.inl ⟨rfl, rfl⟩⟩ <;>
    · simp only [eq] at h
      split at h
      · simp at h
      · rename_i hr
        simp only [decide_eq_true_eq, ne_eq, Decidable.not_not] at h hr
        simp [hr, h]
  | false =>
    refine ⟨_, by simp [mk_route]; rfl, rfl, ?_, Or.inr ⟨rfl, rfl, rfl⟩⟩
    simp only [Bool.false_eq_true, false_iff]
    rintro ⟨h1, h2, h3⟩
    simp [eq, h1, h2, h3] at h

theorem mk_ids {ps ls : IdArg} {ip il : Option Int} {e : RoutingEntry}
    (h : mk' (processorIds := some ps) (linkIds := some ls) (incomingProcessor := ip)
      (incomingLink := il) = .ok e) :
    calcRoute (orderedSet ps.toList) (orderedSet ls.toList) = .ok e.route ∧
    calcDefaultable ls.toList ip il = .ok e.defaultable ∧
    e.procs = some (orderedSet ps.toList) ∧ e.links = some (orderedSet ls.toList) := by
  simp only [mk'] at h
  split at h
  · simp at h
  · rename_i r hr
    split at h
    · simp at h
    · rename_i d hd
      simp only [Except.ok.injEq] at h
      subst h
      exact ⟨hr, hd, rfl, rfl⟩

theorem mem_orderedSet {l : List Int} {a : Int} : a ∈ orderedSet l ↔ a ∈ l := (orderedSet_spec l).2 a

theorem wf_of_built {e : RoutingEntry} (h : Built e) : e.WF := by
  induction h with
  | ids hp hl h =>
    rename_i ps ls ip il e
    obtain ⟨h1, -, h3, h4⟩ := mk_ids h
    obtain ⟨r, hr, hb⟩ := calcRoute_ok (orderedSet ps.toList) (orderedSet ls.toList)
      (fun p hh => by have := (hp p (mem_orderedSet.1 hh)).1; omega)
      (fun l hh => (hl l (mem_orderedSet.1 hh)).1)
    rw [hr] at h1
    simp only [Except.ok.injEq] at h1
    subst h1
    constructor
    · intro qs hq p
      rw [h3] at hq; simp only [Option.some.injEq] at hq; subst hq
      rw [hb]
      constructor
      · intro hm
        have := hp p (mem_orderedSet.1 hm)
        exact ⟨this, Or.inl ⟨p, hm, by have := this.1; omega⟩⟩
      · rintro ⟨hpi, ⟨q, hq, he⟩ | ⟨q, hq, he⟩⟩
        · have := hpi.1
          have : q = p := by omega
          exact this ▸ hq
        · have := hpi.1
          have := (hl q (mem_orderedSet.1 hq)).2
          omega
    · intro qs hq l
      rw [h4] at hq; simp only [Option.some.injEq] at hq; subst hq
      rw [hb]
      constructor
      · intro hm
        have := hl l (mem_orderedSet.1 hm)
        exact ⟨this, Or.inr ⟨l, hm, by have := this.1; omega⟩⟩
      · rintro ⟨hpi, ⟨q, hq, he⟩ | ⟨q, hq, he⟩⟩
        · have := hpi.1
          have := hpi.2
          have := (hp q (mem_orderedSet.1 hq)).1
          omega
        · have := hpi.1
          have : q = l := by omega
          exact this ▸ hq
  | route h =>
    rw [mk_route] at h
    simp only [Except.ok.injEq] at h
    subst h
    exact ⟨by simp, by simp⟩
  | merge ha hb h iha ihb =>
    rename_i a b e
    obtain ⟨e', h1, -, -, h2⟩ := merge_ok a b
    rw [h] at h1
    simp only [Except.ok.injEq] at h1
    subst h1
    rcases h2 with ⟨-, rfl⟩ | ⟨-, h3, h4⟩
    · exact iha
    · exact ⟨by simp [h3], by simp [h4]⟩
  | readProcs he ih =>
    rename_i e
    unfold RoutingEntry.readProcs
    split
    · exact ih
    · exact wf_filled e
  | readLinks he ih =>
    rename_i e
    unfold RoutingEntry.readLinks
    split
    · exact ih
    · exact wf_filled e

end RoutingEntry

namespace Router

theorem convertIds_ok (limit offset : Int) (h0 : 0 ≤ offset) : ∀ (l : List Int) (acc : Nat),
    (∀ i ∈ l, 0 ≤ i ∧ i < limit) → convertIds limit offset acc l = RoutingEntry.orBits offset acc l := by
  intro l
  induction l with
  | nil => intro acc _; rfl
  | cons i t ih =>
    intro acc h
    have hi := h i List.mem_cons_self
    have hn : ¬ offset + i < 0 := by omega
    simp only [convertIds, RoutingEntry.orBits]
    rw [if_neg (by omega)]
    simp only [RoutingEntry.orBit, if_neg hn]
    exact ih _ (fun j hj => h j (List.mem_cons_of_mem _ hj))

theorem convertIds_error (limit offset : Int) (h0 : 0 ≤ offset) : ∀ (l : List Int) (acc : Nat),
    (∃ i ∈ l, i < 0 ∨ limit ≤ i) → convertIds limit offset acc l = .error .invalidParameter := by
  intro l
  induction l with
  | nil => intro acc h; obtain ⟨i, hi, _⟩ := h; simp at hi
  | cons i t ih =>
    intro acc h
    simp only [convertIds]
    by_cases hi : i ≥ limit ∨ i < 0
    · rw [if_pos hi]
    · have hn : ¬ offset + i < 0 := by omega
      rw [if_neg hi]
      simp only [RoutingEntry.orBit, if_neg hn]
      refine ih _ ?_
      obtain ⟨j, hj, hn⟩ := h
      rcases List.mem_cons.1 hj with rfl | hj
      · omega
      · exact ⟨j, hj, hn⟩

end Router
end SpiNN
