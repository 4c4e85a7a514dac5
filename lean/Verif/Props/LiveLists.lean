import Verif.Props.Lazy

/-!
# C87 The list of Ethernet connected chips is live
-/

namespace SpiNN.Props
open SpiNN SpiNN.Spec

private theorem feed_eth_done (ms : List Machine) :
    feed (.ethernets none) ms = List.replicate ms.length .stop := by
  induction ms with
  | nil => rfl
  | cons m ms ih => simp [feed, Iter.next, ih, List.replicate_succ]

private theorem feed_eth (m0 m1 : Machine) : ∀ (ms : List Machine) (pos : Nat),
    (∀ m ∈ ms, Grown m0 m ∧ Grown m m1) →
    ∃ (gs : List Chip) (k : Nat),
      feed (.ethernets (some pos)) ms = gs.map (fun c => Reply.got (.chip c)) ++ List.replicate k .stop ∧
      gs <+: m1.ethernetChips.drop pos ∧ (k ≠ 0 → m0.ethernetChips.length ≤ pos + gs.length)
  | [], pos, _ => ⟨[], 0, rfl, List.nil_prefix, fun h => absurd rfl h⟩
  | m :: ms, pos, hm => by
    unfold feed
    simp only [Iter.next]
    cases h : m.ethernetChips[pos]? with
    | none =>
      refine ⟨[], ms.length + 1, ?_, List.nil_prefix, fun _ => ?_⟩
      · simp [feed_eth_done, List.replicate_succ]
      · have h1 := (hm m (by simp)).1.eths.length_le
        rw [List.getElem?_eq_none_iff] at h
        simp; omega
    | some c =>
      obtain ⟨gs, k, e, h1, h2⟩ := feed_eth m0 m1 ms (pos + 1) (fun x hx => hm x (by simp [hx]))
      have hc : m1.ethernetChips[pos]? = some c := by
        obtain ⟨t, ht⟩ := (hm m (by simp)).2.eths
        have hlt := (List.getElem?_eq_some_iff.1 h).1
        rw [← ht, List.getElem?_append_left hlt]; exact h
      obtain ⟨hlt, hget⟩ := List.getElem?_eq_some_iff.1 hc
      refine ⟨c :: gs, k, by simp [e], ?_, fun hk => ?_⟩
      · rw [List.drop_eq_getElem_cons hlt, hget]
        exact List.cons_prefix_cons.2 ⟨rfl, h1⟩
      · have := h2 hk
        simp; omega

/-- Iterating over `ethernet_connected_chips` while chips are added never fails. What is produced is the
beginning of the Ethernet connected chips of the machine at the end; once it has stopped it includes
at least those that the machine had when the loop began. -/
theorem C87_ethernets (s : Live) (i : Nat) (steps : List Step) (hno : NotReopened i steps)
    (m' : Machine) (hm' : m' = (s.run (.opens i .ethernets :: steps)).1.m) :
    ∃ (gs : List Chip) (k : Nat), resultsOf i (s.run (.opens i .ethernets :: steps)).2 =
        gs.map (fun c => Reply.got (.chip c)) ++ List.replicate k .stop ∧
      gs <+: m'.ethernetChips ∧ (k ≠ 0 → s.m.ethernetChips <+: gs) := by
  subst hm'
  obtain ⟨s', hm, hrun, hits, hlog, hres⟩ := results_opened i .ethernets s steps hno
  obtain ⟨gs, k, e, h1, h2⟩ := feed_eth s.m (s'.run steps).1.m (moments i s' steps) 0 (fun m hmem => by
    have := moments_grown i s' steps m hmem
    rw [hm] at this
    exact this)
  rw [List.drop_zero] at h1
  rw [hres, hrun]
  refine ⟨gs, k, e, h1, fun hk => ?_⟩
  have h3 := h2 hk
  have h4 := (run_grown s' steps).eths
  rw [hm] at h4
  exact List.prefix_of_prefix_length_le h4 h1 (by omega)

private theorem fed_eth (ms : List Machine) : ∀ (pos : Nat),
    (.stop ∉ feed (.ethernets (some pos)) ms → fed (.ethernets (some pos)) ms = .ethernets (some (pos + ms.length))) ∧
    (.stop ∈ feed (.ethernets (some pos)) ms → fed (.ethernets (some pos)) ms = .ethernets none) := by
  have hdone : ∀ ms : List Machine, fed (.ethernets none) ms = .ethernets none := by
    intro ms
    induction ms with
    | nil => rfl
    | cons m ms ih => simp [fed, Iter.next, ih]
  induction ms with
  | nil => intro pos; simp [feed, fed]
  | cons m ms ih =>
    intro pos
    simp only [feed, fed, Iter.next]
    cases h : m.ethernetChips[pos]? with
    | none => simp [hdone]
    | some c =>
      have := ih (pos + 1)
      simp only [List.mem_cons, reduceCtorEq, false_or, List.length_cons]
      rw [show pos + (ms.length + 1) = pos + 1 + ms.length by omega]
      exact this

/-- What `next()` does, exactly: after any history in which the iterator has not stopped, the `n`-th
`next()` produces the `n`-th of the Ethernet connected chips the machine has at that moment, and
stops if it has fewer; an iterator that has stopped stops again, even if there are more chips now. -/
theorem C87_ethernets_next (s : Live) (i : Nat) (steps : List Step) (hno : NotReopened i steps)
    (s1 : Live) (log : List (Nat × Reply Val)) (hrun : s.run (.opens i .ethernets :: steps) = (s1, log)) :
    resultsOf i (s.run (.opens i .ethernets :: steps ++ [.next i])).2 = resultsOf i log ++
      [if .stop ∈ resultsOf i log then .stop
       else match s1.m.ethernetChips[(resultsOf i log).length]? with
        | some c => .got (.chip c)
        | none => .stop] := by
  obtain ⟨s', hm, hrun', hits, hlog, hres⟩ := results_opened i .ethernets s steps hno
  rw [hrun] at hrun' hlog hres
  simp only at hrun' hlog hres
  have hrf := results_feed i s' steps (Query.ethernets.open s.m) hits hno
  rw [live_run_append, hrun, resultsOf_append]
  simp only
  congr 1
  have hfed := fed_eth (moments i s' steps) 0
  have hlen : (resultsOf i log).length = (moments i s' steps).length := by rw [hres, feed_length]
  rw [show Iter.ethernets (some 0) = Query.ethernets.open s.m from rfl, ← hres] at hfed
  by_cases hstop : Reply.stop ∈ resultsOf i log
  · have hit : s1.its i = some (.ethernets none) := by rw [hrun', hrf.2, hfed.2 hstop]
    rw [if_pos hstop]
    simp [Live.run, Live.step, hit, Iter.next, resultsOf]
  · have hit : s1.its i = some (.ethernets (some (resultsOf i log).length)) := by
      rw [hrun', hrf.2, hfed.1 hstop, hlen, Nat.zero_add]
    rw [if_neg hstop]
    simp only [Live.run, Live.step, hit, Iter.next]
    cases s1.m.ethernetChips[(resultsOf i log).length]? <;> simp [resultsOf]

/-- a loop over the Ethernet connected chips that adds one: it is produced too; once the loop has ended
it does not go on -/
example : resultsOf 0 (exLive.run [.opens 0 .ethernets, .next 0, .add (exChip 4 4 4 4 (some ['b'])), .next 0,
      .next 0, .add (exChip 5 5 5 5 (some ['c'])), .next 0]).2 =
    [.got (.chip (exChip 0 0 0 0 (some ['a']))), .got (.chip (exChip 4 4 4 4 (some ['b']))), .stop, .stop] := by
  decide +kernel

end SpiNN.Props
