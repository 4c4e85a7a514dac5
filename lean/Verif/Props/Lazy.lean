import Verif.Lemmas.Lazy
import Verif.Props.Boards
import Verif.Props.Machine

/-!
# Iterating over a machine while chips are added (C80-C82)

Programs are lists of `Step`s: iterators are made, `next()` is called on them and chips are added,
in any order. `resultsOf i log` lists what `next()` on iterator `i` did.
-/

namespace SpiNN.Props
open Spec

/-- the log of an iterator over the chips of a machine made at the start of a program -/
private theorem dict_results (s : Live) (i : Nat) (q : Query) (vs : List Val) (steps : List Step)
    (hq : contents s.m q = some vs) (hno : NotReopened i steps) :
    ∃ n tail, resultsOf i (s.run (.opens i q :: steps)).2 = (vs.take n).map Reply.got ++ tail ∧
      ((∀ r ∈ tail, r = Reply.stop) ∧ (tail ≠ [] → vs.length ≤ n) ∨
       (∀ r ∈ tail, r = Reply.raised .runtimeError) ∧ tail ≠ [] ∧
        (s.run (.opens i q :: steps)).1.m.nChips > s.m.nChips) := by
  obtain ⟨s', hm, hrun, hits, hlog, hres⟩ := results_opened i q s steps hno
  obtain ⟨α, l, f, hlen, hgr, hvs, hfeed⟩ := feed_dict q s.m vs hq
  have hg := moments_grown i s' steps
  rw [hfeed] at hres
  obtain ⟨n, tail, h1, h2⟩ := feedD_live (l s.m) ((moments i s' steps).map l) 0 (by
    intro x hx
    obtain ⟨m, hm', rfl⟩ := List.mem_map.1 hx
    exact hgr _ _ (hm ▸ (hg m hm').1)) (by omega)
  refine ⟨n, tail.map (Reply.map f), ?_, ?_⟩
  · rw [hres, h1, hvs]
    simp [List.map_take, Reply.map, Function.comp_def]
  · cases h2 with
    | inl h =>
      refine .inl ⟨?_, ?_⟩
      · intro r hr
        obtain ⟨r', hr', rfl⟩ := List.mem_map.1 hr
        rw [h.1 r' hr']; rfl
      · intro hne
        have := h.2 (by intro h0; exact hne (by simp [h0]))
        rw [hvs]; simpa using this
    | inr h =>
      obtain ⟨ha, hb, x, hx, hxl⟩ := h
      refine .inr ⟨?_, by simpa using hb, ?_⟩
      · intro r hr
        obtain ⟨r', hr', rfl⟩ := List.mem_map.1 hr
        rw [ha r' hr']; rfl
      · obtain ⟨m, hm', rfl⟩ := List.mem_map.1 hx
        rw [hlen, hlen] at hxl
        have h1 := (hg m hm').1.nChips
        have h2 := (hg m hm').2.nChips
        rw [hrun]
        rw [hm] at h1
        omega

private theorem gots_stop {α : Type} : ∀ (a b : List α) (x y : List (Reply α)),
    (∀ g, x.head? ≠ some (Reply.got g)) → (∀ g, y.head? ≠ some (Reply.got g)) →
    a.map Reply.got ++ x = b.map Reply.got ++ y → a = b ∧ x = y := by
  intro a
  induction a with
  | nil =>
    intro b x y hx hy he
    cases b with
    | nil => exact ⟨rfl, by simpa using he⟩
    | cons g b => exfalso; apply hx g; simp at he; simp [he]
  | cons g a ih =>
    intro b x y hx hy he
    cases b with
    | nil => exfalso; apply hy g; simp at he; simp [← he]
    | cons g' b =>
      simp at he
      obtain ⟨ha, hb⟩ := ih b x y hx hy (by simpa using he.2)
      exact ⟨by rw [he.1, ha], hb⟩

/-- A loop over the chips (or coordinates, or both) of a machine that ends normally has seen the
chips the machine had when the loop began: each exactly once and in the order they were added,
whatever else the program did meanwhile; the iterator is then finished for good. -/
theorem C80_complete (s : Live) (i : Nat) (q : Query) (vs : List Val) (steps : List Step)
    (hq : contents s.m q = some vs) (hno : NotReopened i steps) (gs : List Val) (rest : List (Reply Val))
    (h : resultsOf i (s.run (.opens i q :: steps)).2 = gs.map Reply.got ++ Reply.stop :: rest) :
    gs = vs ∧ ∀ r ∈ rest, r = Reply.stop := by
  obtain ⟨n, tail, h1, h2⟩ := dict_results s i q vs steps hq hno
  rw [h1] at h
  have htail : ∀ g, tail.head? ≠ some (Reply.got g) := by
    intro g hg
    have hmem := List.mem_of_mem_head? hg
    cases h2 with
    | inl h => have := h.1 _ hmem; simp at this
    | inr h => have := h.1 _ hmem; simp at this
  obtain ⟨ha, hb⟩ := gots_stop _ _ _ _ htail (by simp) h
  cases h2 with
  | inl h =>
    have hl := h.2 (by rw [hb]; simp)
    refine ⟨by rw [← ha, List.take_of_length_le hl], ?_⟩
    intro r hr
    exact h.1 r (by rw [hb]; exact List.mem_cons_of_mem _ hr)
  | inr h =>
    have := h.1 Reply.stop (by rw [hb]; exact List.mem_cons_self ..)
    simp at this

/-- A loop that does not end normally ends with `RuntimeError`, and only if a chip was added since it
began; what it has seen is the beginning of the chips the machine had. -/
theorem C80_interrupted (s : Live) (i : Nat) (q : Query) (vs : List Val) (steps : List Step)
    (hq : contents s.m q = some vs) (hno : NotReopened i steps) (e : PyErr)
    (h : Reply.raised e ∈ resultsOf i (s.run (.opens i q :: steps)).2) :
    e = .runtimeError ∧ s.m.nChips < (s.run (.opens i q :: steps)).1.m.nChips ∧
    ∃ n k, resultsOf i (s.run (.opens i q :: steps)).2 =
      (vs.take n).map Reply.got ++ List.replicate k (.raised .runtimeError) := by
  obtain ⟨n, tail, h1, h2⟩ := dict_results s i q vs steps hq hno
  rw [h1] at h
  have hmem : Reply.raised e ∈ tail := by
    rw [List.mem_append] at h
    cases h with
    | inl h => simp only [List.mem_map] at h; obtain ⟨_, _, h⟩ := h; simp at h
    | inr h => exact h
  cases h2 with
  | inl h => have := h.1 _ hmem; simp at this
  | inr h =>
    have := h.1 _ hmem
    refine ⟨by simpa using this, h.2.2, n, tail.length, ?_⟩
    rw [h1, List.eq_replicate_of_mem h.1, List.length_replicate]

/-- An iterator of a machine to which no chip is added never fails: asked `n` times it produces the
first `n` chips, and `StopIteration` when there are no more. Failed calls of `add_chip` do not
disturb it, nor do other iterators. -/
theorem C80_quiet (s : Live) (i : Nat) (q : Query) (vs : List Val) (steps : List Step)
    (hq : contents s.m q = some vs) (hno : NotReopened i steps)
    (hn : (s.run (.opens i q :: steps)).1.m.nChips = s.m.nChips) :
    resultsOf i (s.run (.opens i q :: steps)).2 =
      (vs.map Reply.got ++ List.replicate (asked i steps) Reply.stop).take (asked i steps) := by
  have hlen : (resultsOf i (s.run (.opens i q :: steps)).2).length = asked i steps := by
    obtain ⟨s', _, _, _, _, hres⟩ := results_opened i q s steps hno
    rw [hres, feed_length, moments_length]
  obtain ⟨n, tail, h1, h2⟩ := dict_results s i q vs steps hq hno
  cases h2 with
  | inr h => omega
  | inl h =>
    rw [h1] at hlen ⊢
    have ht := List.eq_replicate_of_mem h.1
    by_cases h0 : tail = []
    · subst h0
      simp at hlen
      rw [← hlen, List.take_append_of_le_length (by simp; omega), List.append_nil, List.map_take]
      apply List.take_eq_take_iff.2
      simp
    · have hl := h.2 h0
      rw [List.take_of_length_le hl] at hlen ⊢
      have hlen' : vs.length + tail.length = asked i steps := by simpa using hlen
      rw [ht, ← hlen', List.take_append, List.take_of_length_le (by simp)]
      simp

/-- As soon as a chip has been added, the next `next()` on an iterator that has not finished raises
`RuntimeError`: a loop cannot silently miss a new chip. -/
theorem C80_detected (s : Live) (i : Nat) (q : Query) (vs : List Val) (steps : List Step)
    (hq : contents s.m q = some vs) (hno : NotReopened i steps)
    (hgrown : (s.run (.opens i q :: steps)).1.m.nChips ≠ s.m.nChips)
    (hstop : Reply.stop ∉ resultsOf i (s.run (.opens i q :: steps)).2) :
    resultsOf i (s.run (.opens i q :: steps ++ [.next i])).2 =
      resultsOf i (s.run (.opens i q :: steps)).2 ++ [.raised .runtimeError] := by
  obtain ⟨s', hm, hrun, hits, hlog, hres⟩ := results_opened i q s steps hno
  have hno2 : NotReopened i (steps ++ [.next i]) := by
    intro st hst q'
    rw [List.mem_append] at hst
    cases hst with
    | inl h => exact hno st h q'
    | inr h => simp at h; subst h; simp
  obtain ⟨s2, hm2, hrun2, hits2, hlog2, hres2⟩ := results_opened i q s (steps ++ [.next i]) hno2
  obtain ⟨α, l, f, hlen, hgr, hvs, hfeed⟩ := feed_dict q s.m vs hq
  have hg := moments_grown i s' steps
  -- both runs start in the same state
  have hrf := results_feed i s' steps (q.open s.m) hits hno
  have hrf2 := results_feed i s' (steps ++ [.next i]) (q.open s.m) hits hno2
  have e1 : resultsOf i (s.run (.opens i q :: steps ++ [.next i])).2
      = resultsOf i (s.run (.opens i q :: steps)).2 ++
        resultsOf i ((s.run (.opens i q :: steps)).1.run [.next i]).2 := by
    rw [live_run_append, resultsOf_append]
  rw [e1]
  congr 1
  rw [hrun]
  have e2 : ((s'.run steps).1.run [.next i]).2 =
      [(i, ((fed (q.open s.m) (moments i s' steps)).next (s'.run steps).1.m).1)] := by
    simp [Live.run, Live.step, hrf.2]
  rw [e2]
  have e3 := hfeed s.m (moments i s' steps ++ [(s'.run steps).1.m])
  rw [feed_append] at e3
  have e4 := feedD_live_grown (l s.m) (l (s'.run steps).1.m) ((moments i s' steps).map l) 0 (by
    intro x hx
    obtain ⟨m, hm', rfl⟩ := List.mem_map.1 hx
    exact hgr _ _ (hm ▸ (hg m hm').1)) (by rw [hlen, hlen, ← hrun]; exact hgrown) (by omega) (by
    intro hc
    apply hstop
    rw [hres, hfeed]
    exact List.mem_map.2 ⟨_, hc, rfl⟩)
  have e5 := congrArg List.getLast? e3
  rw [List.getLast?_map, List.map_append, List.map_singleton, e4] at e5
  simp [feed] at e5
  simp [resultsOf, e5, Reply.map]

/-- a machine with two chips -/
def exLive : Live :=
  { m := (run exV5 (Machine.new .none 8 8 VKind.v5.chipCoreMap "t")
      [.addChip (exChip 0 0 0 0 (some ['a'])), .addChip (exChip 1 0 0 0 none)]).1
    its := fun _ => none }

/-- a loop over the chips of which the body adds a chip: it sees the first chip and fails; a second
iterator, made afterwards, sees all three; a chip that is there already is not added and does not
matter -/
example : resultsOf 0 (exLive.run [.opens 0 .coords, .next 0, .add (exChip 1 1 0 0 none), .next 0,
      .opens 1 .coords, .next 1, .add (exChip 1 1 0 0 none), .next 1, .next 0, .next 1, .next 1]).2 =
      [.got (.xy (0, 0)), .raised .runtimeError, .raised .runtimeError] ∧
    resultsOf 1 (exLive.run [.opens 0 .coords, .next 0, .add (exChip 1 1 0 0 none), .next 0,
      .opens 1 .coords, .next 1, .add (exChip 1 1 0 0 none), .next 1, .next 0, .next 1, .next 1]).2 =
      [.got (.xy (0, 0)), .got (.xy (1, 0)), .got (.xy (1, 1)), .stop] ∧
    contents exLive.m .coords = some [.xy (0, 0), .xy (1, 0)] := by decide +kernel

/-! ### C81: the places of a board -/

private theorem board_results (s : Live) (i : Nat) (q : Query) (steps : List Step)
    (hno : NotReopened i steps) :
    ∃ ms, resultsOf i (s.run (.opens i q :: steps)).2 = feed (q.open s.m) ms ∧
      ∀ m ∈ ms, Grown s.m m ∧ Grown m (s.run (.opens i q :: steps)).1.m := by
  obtain ⟨s', hm, hrun, hits, hlog, hres⟩ := results_opened i q s steps hno
  refine ⟨_, hres, ?_⟩
  intro m hmem
  have := moments_grown i s' steps m hmem
  rw [hm] at this
  rw [hrun]
  exact this

/-- `get_existing_xys_by_ethernet` while chips are added: the generator never fails; it produces
places of the board in their order, each of which has a chip; once it has stopped it has produced at
least those that had a chip when it was made. -/
theorem C81_existing (s : Live) (i : Nat) (ex ey : Int) (steps : List Step) (hno : NotReopened i steps)
    (m' : Machine) (hm' : m' = (s.run (.opens i (.existing ex ey) :: steps)).1.m) :
    ∃ (gs : List XY) (k : Nat), resultsOf i (s.run (.opens i (.existing ex ey) :: steps)).2 =
        gs.map (fun p => Reply.got (.xy p)) ++ List.replicate k .stop ∧
      gs.Sublist ((s.m.xysByEthernet ex ey).filter fun p => m'.isChipAt p.1 p.2) ∧
      (k ≠ 0 → ((s.m.xysByEthernet ex ey).filter fun p => s.m.isChipAt p.1 p.2).Sublist gs) := by
  subst hm'
  obtain ⟨ms, hres, hg⟩ := board_results s i (.existing ex ey) steps hno
  have hf : feed ((Query.existing ex ey).open s.m) ms = _ := feed_existing (s.m.xysByEthernet ex ey) ms
  rw [hres, hf]
  obtain ⟨gs, k, e, g1, g2⟩ := feedS_spec (fun m p => m.chips.contains p)
    (fun p => s.m.isChipAt p.1 p.2)
    (fun p => (s.run (.opens i (.existing ex ey) :: steps)).1.m.isChipAt p.1 p.2)
    (s.m.xysByEthernet ex ey) ms
    (fun m hm p _ h => (hg m hm).1.contains p h) (fun m hm p _ h => (hg m hm).2.contains p h)
  exact ⟨gs, k, by rw [e]; simp [outXY, Function.comp_def], g1, g2⟩

/-- `get_down_xys_by_ethernet` while chips are added: the generator never fails; it produces places of
the board in their order that had no chip when it was made; once it has stopped it has produced at
least those that still have none. -/
theorem C81_down (s : Live) (i : Nat) (ex ey : Int) (steps : List Step) (hno : NotReopened i steps)
    (m' : Machine) (hm' : m' = (s.run (.opens i (.down ex ey) :: steps)).1.m) :
    ∃ (gs : List XY) (k : Nat), resultsOf i (s.run (.opens i (.down ex ey) :: steps)).2 =
        gs.map (fun p => Reply.got (.xy p)) ++ List.replicate k .stop ∧
      gs.Sublist ((s.m.xysByEthernet ex ey).filter fun p => !s.m.isChipAt p.1 p.2) ∧
      (k ≠ 0 → ((s.m.xysByEthernet ex ey).filter fun p => !m'.isChipAt p.1 p.2).Sublist gs) := by
  subst hm'
  obtain ⟨ms, hres, hg⟩ := board_results s i (.down ex ey) steps hno
  have hf : feed ((Query.down ex ey).open s.m) ms = _ := feed_down (s.m.xysByEthernet ex ey) ms
  rw [hres, hf]
  have anti : ∀ {a b : Machine}, Grown a b → ∀ p : XY, (!b.chips.contains p) = true →
      (!a.chips.contains p) = true := by
    intro a b h p hb
    cases hc : a.chips.contains p with
    | false => rfl
    | true => rw [h.contains p hc] at hb; exact hb
  obtain ⟨gs, k, e, g1, g2⟩ := feedS_spec (fun m p => !m.chips.contains p)
    (fun p => !(s.run (.opens i (.down ex ey) :: steps)).1.m.isChipAt p.1 p.2)
    (fun p => !s.m.isChipAt p.1 p.2)
    (s.m.xysByEthernet ex ey) ms
    (fun m hm p _ h => anti (hg m hm).2 p h) (fun m hm p _ h => anti (hg m hm).1 p h)
  exact ⟨gs, k, by rw [e]; simp [outXY, Function.comp_def], g1, g2⟩

/-- `get_chips_by_ethernet` while chips are added: it never fails (in particular no lookup does), and
produces the chips at such places. -/
theorem C81_chips (s : Live) (i : Nat) (ex ey : Int) (steps : List Step) (hno : NotReopened i steps)
    (m' : Machine) (hm' : m' = (s.run (.opens i (.boardChips ex ey) :: steps)).1.m) :
    ∃ (gs : List XY) (cs : List Chip) (k : Nat), resultsOf i (s.run (.opens i (.boardChips ex ey) :: steps)).2 =
        cs.map (fun c => Reply.got (.chip c)) ++ List.replicate k .stop ∧
      gs.map (fun p => m'.getChipAt p.1 p.2) = cs.map some ∧
      gs.Sublist (s.m.xysByEthernet ex ey) ∧
      (k ≠ 0 → ((s.m.xysByEthernet ex ey).filter fun p => s.m.isChipAt p.1 p.2).Sublist gs) := by
  subst hm'
  obtain ⟨ms, hres, hg⟩ := board_results s i (.boardChips ex ey) steps hno
  have hf : feed ((Query.boardChips ex ey).open s.m) ms = _ :=
    feed_boardChips (s.m.xysByEthernet ex ey) ms _ (fun m hm => (hg m hm).2)
  rw [hres, hf]
  generalize hM : (s.run (.opens i (.boardChips ex ey) :: steps)).1.m = M at hg hf ⊢
  obtain ⟨gs, k, e, g1, g2⟩ := feedS_spec (fun m p => m.chips.contains p)
    (fun p => s.m.isChipAt p.1 p.2) (fun p => M.isChipAt p.1 p.2)
    (s.m.xysByEthernet ex ey) ms
    (fun m hm p _ h => (hg m hm).1.contains p h) (fun m hm p _ h => (hg m hm).2.contains p h)
  have hin : ∀ p ∈ gs, ∃ c, M.chips.get? p = some c := by
    intro p hp
    have := List.mem_filter.1 (g1.subset hp)
    exact Option.isSome_iff_exists.1 this.2
  have hcs : ∀ l : List XY, (∀ p ∈ l, ∃ c, M.chips.get? p = some c) →
      ∃ cs : List Chip, l.map (fun p => M.getChipAt p.1 p.2) = cs.map some ∧
        (l.map some).map (outChip M) = cs.map (fun c => Reply.got (.chip c)) := by
    intro l
    induction l with
    | nil => intro _; exact ⟨[], rfl, rfl⟩
    | cons p l ih =>
      intro hl
      obtain ⟨cs, h1, h2⟩ := ih (fun q hq => hl q (List.mem_cons_of_mem _ hq))
      obtain ⟨c, hc⟩ := hl p (List.mem_cons_self ..)
      refine ⟨c :: cs, ?_, ?_⟩
      · rw [List.map_cons, h1]
        have : M.getChipAt p.1 p.2 = some c := hc
        rw [this]; rfl
      · rw [List.map_cons, List.map_cons, h2]
        simp [outChip, hc]
  obtain ⟨cs, h1, h2⟩ := hcs gs hin
  refine ⟨gs, cs, k, ?_, h1, g1.trans List.filter_sublist, g2⟩
  rw [e, List.map_append, h2]
  simp [outChip]

/-- If no chip is added meanwhile, a finished generator has produced exactly the list that
`get_existing_xys_by_ethernet` stands for elsewhere. -/
theorem C81_existing_quiet (s : Live) (i : Nat) (ex ey : Int) (steps : List Step)
    (hno : NotReopened i steps)
    (hn : (s.run (.opens i (.existing ex ey) :: steps)).1.m.nChips = s.m.nChips)
    (hstop : Reply.stop ∈ resultsOf i (s.run (.opens i (.existing ex ey) :: steps)).2) :
    ∃ k, resultsOf i (s.run (.opens i (.existing ex ey) :: steps)).2 =
      (s.m.existingXysByEthernet ex ey).map (fun p => Reply.got (.xy p)) ++ List.replicate k .stop := by
  obtain ⟨gs, k, e, g1, g2⟩ := C81_existing s i ex ey steps hno _ rfl
  have hc := (run_grown s (.opens i (.existing ex ey) :: steps)).same hn
  have hk : k ≠ 0 := by
    intro h0
    rw [e, h0] at hstop
    simp at hstop
  have hsame : ∀ p : XY, (s.run (.opens i (.existing ex ey) :: steps)).1.m.isChipAt p.1 p.2 =
      s.m.isChipAt p.1 p.2 := by
    intro p; unfold Machine.isChipAt; rw [hc]
  simp only [hsame] at g1
  have hgs := g1.eq_of_length_le (g2 hk).length_le
  refine ⟨k, ?_⟩
  rw [e, hgs]
  congr 2

/-- the same for `get_down_xys_by_ethernet` -/
theorem C81_down_quiet (s : Live) (i : Nat) (ex ey : Int) (steps : List Step)
    (hno : NotReopened i steps)
    (hn : (s.run (.opens i (.down ex ey) :: steps)).1.m.nChips = s.m.nChips)
    (hstop : Reply.stop ∈ resultsOf i (s.run (.opens i (.down ex ey) :: steps)).2) :
    ∃ k, resultsOf i (s.run (.opens i (.down ex ey) :: steps)).2 =
      (s.m.downXysByEthernet ex ey).map (fun p => Reply.got (.xy p)) ++ List.replicate k .stop := by
  obtain ⟨gs, k, e, g1, g2⟩ := C81_down s i ex ey steps hno _ rfl
  have hc := (run_grown s (.opens i (.down ex ey) :: steps)).same hn
  have hk : k ≠ 0 := by
    intro h0
    rw [e, h0] at hstop
    simp at hstop
  have hsame : ∀ p : XY, (s.run (.opens i (.down ex ey) :: steps)).1.m.isChipAt p.1 p.2 =
      s.m.isChipAt p.1 p.2 := by
    intro p; unfold Machine.isChipAt; rw [hc]
  simp only [hsame] at g2
  have hgs := g1.eq_of_length_le (g2 hk).length_le
  refine ⟨k, ?_⟩
  rw [e, hgs]
  congr 2

private theorem scan_find (keep : XY → Bool) (ps : List XY) :
    (scan keep ps).map (·.1) = ps.find? keep := by
  induction ps with
  | nil => rfl
  | cons p ps ih =>
    unfold scan
    cases hk : keep p with
    | true => simp [hk]
    | false => simpa [hk] using ih

private theorem places_next (mk : List XY → Iter) (keep : Machine → XY → Bool) (q : Query)
    (s : Live) (places : List XY) (hq : q.open s.m = mk places)
    (hnext : ∀ m ps, (mk ps).next m = match scan (keep m) ps with
      | some (p, rest) => (Reply.got (.xy p), mk rest)
      | none => (Reply.stop, mk []))
    (i : Nat) (steps : List Step) (hno : NotReopened i steps) (hnd : places.Nodup)
    (s1 : Live) (log : List (Nat × Reply Val)) (hrun : s.run (.opens i q :: steps) = (s1, log))
    (hstop : Reply.stop ∉ resultsOf i log) :
    resultsOf i (s.run (.opens i q :: steps ++ [.next i])).2 = resultsOf i log ++
      [match (placesAfter places (lastXY (resultsOf i log))).find? (keep s1.m) with
        | some p => .got (.xy p)
        | none => .stop] := by
  obtain ⟨s', hm, hrun', hits, hlog, hres⟩ := results_opened i q s steps hno
  rw [hrun] at hrun' hlog hres
  simp only at hrun' hlog hres
  have hrf := results_feed i s' steps (q.open s.m) hits hno
  rw [live_run_append, hrun, resultsOf_append]
  simp only
  congr 1
  have hfed := fed_places mk keep hnext places hnd (moments i s' steps) none (by
    simp only [placesAfter]
    rw [← hq, ← hres]; exact hstop) (List.suffix_refl _)
  simp only [placesAfter] at hfed
  rw [← hq, ← hres] at hfed
  have hit : s1.its i = some (mk (placesAfter places (lastXY (resultsOf i log)))) := by
    rw [hrun', hrf.2, hfed]
    rfl
  have : (s1.run [.next i]).2 =
      [(i, ((mk (placesAfter places (lastXY (resultsOf i log)))).next s1.m).1)] := by
    simp [Live.run, Live.step, hit]
  rw [this, hnext, ← scan_find]
  cases scan (keep s1.m) (placesAfter places (lastXY (resultsOf i log))) <;> simp [resultsOf]

/-- What `next()` does, exactly: after any history in which the generator has not stopped, it produces
the first place of the board after the one it produced last that has a chip now, and stops if there
is none. (The places of a board of a machine of a legal size are all different.) -/
theorem C81_existing_next (s : Live) (i : Nat) (ex ey : Int) (steps : List Step)
    (hno : NotReopened i steps) (hnd : (s.m.xysByEthernet ex ey).Nodup)
    (s1 : Live) (log : List (Nat × Reply Val))
    (hrun : s.run (.opens i (.existing ex ey) :: steps) = (s1, log))
    (hstop : Reply.stop ∉ resultsOf i log) :
    resultsOf i (s.run (.opens i (.existing ex ey) :: steps ++ [.next i])).2 = resultsOf i log ++
      [match (placesAfter (s.m.xysByEthernet ex ey) (lastXY (resultsOf i log))).find?
          (fun p => s1.m.isChipAt p.1 p.2) with
        | some p => .got (.xy p)
        | none => .stop] :=
  places_next .existing (fun m p => m.chips.contains p) (.existing ex ey) s _ rfl
    (fun m ps => by simp only [Iter.next]; cases scan (fun p => m.chips.contains p) ps <;> rfl)
    i steps hno hnd s1 log hrun hstop

/-- the same for `get_down_xys_by_ethernet`: the first place after the last one that has no chip now -/
theorem C81_down_next (s : Live) (i : Nat) (ex ey : Int) (steps : List Step)
    (hno : NotReopened i steps) (hnd : (s.m.xysByEthernet ex ey).Nodup)
    (s1 : Live) (log : List (Nat × Reply Val))
    (hrun : s.run (.opens i (.down ex ey) :: steps) = (s1, log))
    (hstop : Reply.stop ∉ resultsOf i log) :
    resultsOf i (s.run (.opens i (.down ex ey) :: steps ++ [.next i])).2 = resultsOf i log ++
      [match (placesAfter (s.m.xysByEthernet ex ey) (lastXY (resultsOf i log))).find?
          (fun p => !s1.m.isChipAt p.1 p.2) with
        | some p => .got (.xy p)
        | none => .stop] :=
  places_next .down (fun m p => !m.chips.contains p) (.down ex ey) s _ rfl
    (fun m ps => by simp only [Iter.next]; cases scan (fun p => !m.chips.contains p) ps <;> rfl)
    i steps hno hnd s1 log hrun hstop

/-- the places of a board of a machine of a legal size are all different, and chips added do not
change them -/
theorem C81_places (k : VKind) (w h : Int) (o : String) (s : Live)
    (hs : k.createMachine (some w) (some h) o = .ok s.m) (steps : List Step) (e : XY)
    (he : e ∈ k.potentialEthernetChips w h) :
    (s.m.xysByEthernet e.1 e.2).Nodup ∧
    (s.run steps).1.m.xysByEthernet e.1 e.2 = s.m.xysByEthernet e.1 e.2 := by
  refine ⟨(C10_boards_disjoint_in_bounds k w h o s.m hs e he).1, ?_⟩
  have g := run_grown s steps
  unfold Machine.xysByEthernet
  rw [g.wrap, g.width, g.height, g.ccm]

/-- a chip added behind the generator is missed, a chip added ahead of it is not; `(1, 0)` comes
before `(1, 1)` on a board and `(2, 0)` after `(1, 0)` -/
example : resultsOf 0 (exLive.run [.opens 0 (.existing 0 0), .opens 1 (.down 0 0), .next 0, .next 0,
      .add (exChip 2 0 0 0 none), .next 0, .add (exChip 0 1 0 0 none), .next 0, .next 1]).2 =
      [.got (.xy (0, 0)), .got (.xy (1, 0)), .got (.xy (2, 0)), .stop] ∧
    (exLive.m.xysByEthernet 0 0).Nodup := by decide +kernel

/-! ### C82: one way links -/

private theorem feedO_fresh (m0 : Machine) (ms : List Machine) (hms : ∀ m ∈ ms, Grown m0 m)
    (hch : ms.Pairwise Grown) :
    (∃ n, feedO .fresh (m0 :: ms) = (m0.oneWayLinks.take n).map Reply.got ∧ n ≤ m0.oneWayLinks.length) ∨
    (∃ k, feedO .fresh (m0 :: ms) = m0.oneWayLinks.map Reply.got ++ List.replicate (k + 1) .stop ∧
      ∃ m, (m0 :: ms)[m0.oneWayLinks.length]? = some m ∧ m.chips = m0.chips) ∨
    ((∃ m ∈ ms, m.nChips ≠ m0.nChips) ∧ ∃ (gs : List DeadLink) (tail : List (Reply DeadLink)),
      feedO .fresh (m0 :: ms) = gs.map Reply.got ++ tail ∧
      (tail = [] ∨ ∃ k, tail = .raised .runtimeError :: List.replicate k .stop)) := by
  have h := owNext_spec m0 .fresh trivial
  have hfr : owLeft m0 .fresh = m0.oneWayLinks := rfl
  rw [hfr] at h
  cases hl : m0.oneWayLinks with
  | nil =>
    rw [hl] at h
    simp only at h
    right; left
    exact ⟨ms.length, by simp [feedO, h, feedO_finished, List.replicate_succ], m0, by simp, rfl⟩
  | cons d ds =>
    rw [hl] at h
    obtain ⟨g', e, a, b, c, cf⟩ := h
    cases feedO_spec m0 ms hms hch g' b c cf with
    | inl h =>
      obtain ⟨n, h, hle⟩ := h
      rw [a] at h hle
      exact .inl ⟨n + 1, by simp [feedO, e, h], by simp; omega⟩
    | inr h =>
      cases h with
      | inl h =>
        obtain ⟨k, h, m', h2, h3⟩ := h
        rw [a] at h h2
        exact .inr (.inl ⟨k, by simp [feedO, e, h], m', by simpa using h2, h3⟩)
      | inr h =>
        obtain ⟨⟨m', hm', hne⟩, gs, tail, h2, h3⟩ := h
        exact .inr (.inr ⟨⟨m', hm', hne⟩, d :: gs, tail, by simp [feedO, e, h2], h3⟩)

/-- A loop over `one_way_links` that ends normally has seen exactly the one way links of the machine,
each once: no chip was added from the first `next()` to the last, so they are the links of the
machine both when the loop began and when it ended. (`a` are the steps before the first `next()`,
`b` those before the one that stopped.) -/
theorem C82_complete (s : Live) (i : Nat) (steps : List Step) (hno : NotReopened i steps)
    (gs : List Val) (rest : List (Reply Val))
    (h : resultsOf i (s.run (.opens i .oneWay :: steps)).2 = gs.map Reply.got ++ Reply.stop :: rest) :
    (∀ r ∈ rest, r = Reply.stop) ∧
    ∃ a a' b b', steps = a ++ .next i :: a' ∧ asked i a = 0 ∧
      steps = b ++ .next i :: b' ∧ asked i b = gs.length ∧
      (s.run (.opens i .oneWay :: b)).1.m.chips = (s.run (.opens i .oneWay :: a)).1.m.chips ∧
      gs = (s.run (.opens i .oneWay :: a)).1.m.oneWayLinks.map .link := by
  let s' := (s.step (.opens i .oneWay)).1
  have hrun : ∀ st, (s.run (.opens i .oneWay :: st)).1 = (s'.run st).1 := fun _ => rfl
  have hrf := (results_feed i s' steps (.oneWay .fresh) (by simp [s', Live.step, Query.open]) hno).1
  have hlog : (s.run (.opens i .oneWay :: steps)).2 = (s'.run steps).2 := by
    simp [Live.run, Live.step, s']
  rw [hlog, hrf, feed_oneWay] at h
  have hch := moments_chain i s' steps
  cases hms : moments i s' steps with
  | nil => rw [hms] at h; simp [feedO] at h
  | cons m0 ms =>
    rw [hms] at h hch
    rw [List.pairwise_cons] at hch
    obtain ⟨a, a', ha, ha0, ham⟩ := moments_split i s' steps 0 m0 (by rw [hms]; rfl)
    cases feedO_fresh m0 ms hch.1 hch.2 with
    | inl h1 =>
      obtain ⟨n, h1, _⟩ := h1
      rw [h1] at h
      have hm : (Reply.stop : Reply Val) ∈ ((m0.oneWayLinks.take n).map Reply.got).map (Reply.map Val.link) := by
        rw [h]; simp
      simp only [List.mem_map] at hm
      obtain ⟨_, ⟨_, _, rfl⟩, hm⟩ := hm
      simp [Reply.map] at hm
    | inr h1 =>
      cases h1 with
      | inl h1 =>
        obtain ⟨k, h1, m, hm, hmc⟩ := h1
        rw [h1, List.map_append] at h
        have e1 : (m0.oneWayLinks.map Reply.got).map (Reply.map Val.link) =
            (m0.oneWayLinks.map Val.link).map Reply.got := by simp [Reply.map, Function.comp_def]
        rw [e1] at h
        obtain ⟨hg, ht⟩ := gots_stop _ _ _ _ (by simp [Reply.map, List.replicate_succ]) (by simp) h
        obtain ⟨b, b', hb, hb0, hbm⟩ := moments_split i s' steps m0.oneWayLinks.length m (by rw [hms]; exact hm)
        refine ⟨?_, a, a', b, b', ha, ha0, hb, ?_, ?_, ?_⟩
        · intro r hr
          have : r ∈ (List.replicate (k + 1) Reply.stop).map (Reply.map Val.link) := by
            rw [ht]; exact List.mem_cons_of_mem _ hr
          simp [Reply.map] at this
          exact this
        · rw [hb0, ← hg]; simp
        · rw [hrun, hrun, hbm, ham, hmc]
        · rw [hrun, ham, hg]
      | inr h1 =>
        obtain ⟨_, gs', tail, h1, h2⟩ := h1
        rw [h1, List.map_append] at h
        have e1 : (gs'.map Reply.got).map (Reply.map Val.link) =
            (gs'.map Val.link).map Reply.got := by simp [Reply.map, Function.comp_def]
        rw [e1] at h
        exfalso
        cases h2 with
        | inl h2 =>
          subst h2
          have := (gots_stop _ _ _ _ (by simp) (by simp) h).2
          simp at this
        | inr h2 =>
          obtain ⟨k, h2⟩ := h2
          subst h2
          have := (gots_stop _ _ _ _ (by simp [Reply.map]) (by simp) h).2
          simp [Reply.map] at this

/-- The only exception of the generator is `RuntimeError`, and only if a chip was added after the
first `next()`. -/
theorem C82_interrupted (s : Live) (i : Nat) (steps : List Step) (hno : NotReopened i steps) (e : PyErr)
    (h : Reply.raised e ∈ resultsOf i (s.run (.opens i .oneWay :: steps)).2) :
    e = .runtimeError ∧ ∃ a a', steps = a ++ .next i :: a' ∧ asked i a = 0 ∧
      (s.run (.opens i .oneWay :: a)).1.m.nChips < (s.run (.opens i .oneWay :: steps)).1.m.nChips := by
  let s' := (s.step (.opens i .oneWay)).1
  have hrun : ∀ st, (s.run (.opens i .oneWay :: st)).1 = (s'.run st).1 := fun _ => rfl
  have hrf := (results_feed i s' steps (.oneWay .fresh) (by simp [s', Live.step, Query.open]) hno).1
  have hlog : (s.run (.opens i .oneWay :: steps)).2 = (s'.run steps).2 := by
    simp [Live.run, Live.step, s']
  rw [hlog, hrf, feed_oneWay, List.mem_map] at h
  obtain ⟨r, hr, hre⟩ := h
  have hr' : r = Reply.raised e := by
    cases r <;> simp [Reply.map] at hre
    rw [hre]
  subst hr'
  have hch := moments_chain i s' steps
  have hfin := moments_grown i s' steps
  cases hms : moments i s' steps with
  | nil => rw [hms] at hr; simp [feedO] at hr
  | cons m0 ms =>
    rw [hms] at hr hch hfin
    rw [List.pairwise_cons] at hch
    obtain ⟨a, a', ha, ha0, ham⟩ := moments_split i s' steps 0 m0 (by rw [hms]; rfl)
    cases feedO_fresh m0 ms hch.1 hch.2 with
    | inl h1 => obtain ⟨n, h1, _⟩ := h1; rw [h1] at hr; simp only [List.mem_map] at hr; obtain ⟨_, _, hr⟩ := hr; simp at hr
    | inr h1 =>
      cases h1 with
      | inl h1 => obtain ⟨k, h1, _⟩ := h1; rw [h1] at hr; simp at hr
      | inr h1 =>
        obtain ⟨⟨m, hm, hne⟩, gs', tail, h1, h2⟩ := h1
        refine ⟨?_, a, a', ha, ha0, ?_⟩
        · rw [h1] at hr
          cases h2 with
          | inl h2 => subst h2; simp at hr
          | inr h2 => obtain ⟨k, h2⟩ := h2; subst h2; simp at hr; exact hr
        · rw [hrun, hrun, ham]
          have h3 := (hch.1 m hm).nChips
          have h4 := (hfin m (List.mem_cons_of_mem _ hm)).2.nChips
          omega

/-- A generator of a machine to which no chip is added, asked `n` times, produces the first `n` one way
links, and stops when there are no more. -/
theorem C82_quiet (s : Live) (i : Nat) (steps : List Step) (hno : NotReopened i steps)
    (hn : (s.run (.opens i .oneWay :: steps)).1.m.nChips = s.m.nChips) :
    resultsOf i (s.run (.opens i .oneWay :: steps)).2 =
      (s.m.oneWayLinks.map (fun d => Reply.got (Val.link d)) ++
        List.replicate (asked i steps) Reply.stop).take (asked i steps) := by
  obtain ⟨s', hm, hrun, hits, hlog, hres⟩ := results_opened i .oneWay s steps hno
  have hlen : (resultsOf i (s.run (.opens i .oneWay :: steps)).2).length = asked i steps := by
    rw [hres, feed_length, moments_length]
  rw [hres] at hlen ⊢
  have hch := moments_chain i s' steps
  have hfin := moments_grown i s' steps
  rw [hrun] at hn
  change (feed (.oneWay .fresh) _).length = _ at hlen
  change feed (.oneWay .fresh) _ = _
  rw [feed_oneWay] at hlen ⊢
  cases hms : moments i s' steps with
  | nil => rw [hms] at hlen; simp [feedO] at hlen; rw [← hlen]; simp [feedO]
  | cons m0 ms =>
    rw [hms] at hlen hch hfin
    rw [List.pairwise_cons] at hch
    have h0 := hfin m0 (List.mem_cons_self ..)
    rw [hm] at h0
    have hc0 : m0.nChips = s.m.nChips := by
      have := h0.1.nChips; have := h0.2.nChips; omega
    have how : m0.oneWayLinks = s.m.oneWayLinks := owLeft_chips (h0.1.same hc0) .fresh
    cases feedO_fresh m0 ms hch.1 hch.2 with
    | inl h1 =>
      obtain ⟨n, h1, hle⟩ := h1
      rw [h1] at hlen ⊢
      rw [how] at hlen hle ⊢
      have hl : n = asked i steps := by simp at hlen; omega
      rw [List.take_append_of_le_length (by simp; omega), ← hl]
      simp [Reply.map, Function.comp_def]
    | inr h1 =>
      cases h1 with
      | inl h1 =>
        obtain ⟨k, h1, _⟩ := h1
        rw [h1] at hlen ⊢
        rw [how] at hlen ⊢
        have hl : s.m.oneWayLinks.length + (k + 1) = asked i steps := by simpa using hlen
        rw [← hl, List.take_append, List.take_of_length_le (by simp)]
        simp [Reply.map, Function.comp_def]
      | inr h1 =>
        obtain ⟨⟨m, hmm, hne⟩, _⟩ := h1
        have h3 := (hch.1 m hmm).nChips
        have h4 := (hfin m (List.mem_cons_of_mem _ hmm)).2.nChips
        omega

/-- a chip with two links and no chips around it -/
def exLiveLinks : Live :=
  { m := (run exV5 (Machine.new .none 8 8 VKind.v5.chipCoreMap "t")
      [.addChip (exLinked 0 0 [⟨0, 0, 0, 1, 0⟩, ⟨0, 0, 1, 1, 1⟩] 0 0 (some ['a']))]).1
    its := fun _ => none }

/-- a chip added before the first `next()` is seen; one added later makes the generator fail, but
only after the links of the current chip; it is then finished -/
example : resultsOf 0 (exLiveLinks.run [.opens 0 .oneWay, .add (exLinked 1 1 [⟨1, 1, 0, 2, 1⟩] 0 0 none),
      .next 0, .next 0, .next 0, .next 0]).2 =
      [.got (.link (0, 0, 0, 3)), .got (.link (0, 0, 1, 4)), .got (.link (1, 1, 0, 3)), .stop] ∧
    resultsOf 0 (exLiveLinks.run [.opens 0 .oneWay, .next 0, .add (exLinked 1 1 [⟨1, 1, 0, 2, 1⟩] 0 0 none),
      .next 0, .next 0, .next 0]).2 =
      [.got (.link (0, 0, 0, 3)), .got (.link (0, 0, 1, 4)), .raised .runtimeError, .stop] := by
  decide +kernel

end SpiNN.Props
