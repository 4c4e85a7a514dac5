import Verif.Spec.Lazy
import Verif.Lemmas.PDict

/-! # Lemmas about iterators over a changing machine -/

namespace SpiNN
open Spec

/-- `m'` is `m` after some chips were added -/
structure Grown (m m' : Machine) : Prop where
  items : m.chips.items <+: m'.chips.items
  wrap : m'.wrap = m.wrap
  width : m'.width = m.width
  height : m'.height = m.height
  ccm : m'.chipCoreMap = m.chipCoreMap
  eths : m.ethernetChips <+: m'.ethernetChips

theorem Grown.refl (m : Machine) : Grown m m := ⟨List.prefix_refl _, rfl, rfl, rfl, rfl, List.prefix_refl _⟩

theorem Grown.trans {a b c : Machine} (h : Grown a b) (k : Grown b c) : Grown a c :=
  ⟨h.items.trans k.items, k.wrap.trans h.wrap, k.width.trans h.width, k.height.trans h.height,
    k.ccm.trans h.ccm, h.eths.trans k.eths⟩

theorem assign_new {K V : Type} [DecidableEq K] (l : List (K × V)) (k : K) (v : V)
    (h : PDict.lookup l k = none) : PDict.assign l k v = l ++ [(k, v)] := by
  induction l with
  | nil => rfl
  | cons a l ih =>
    obtain ⟨k', v'⟩ := a
    unfold PDict.lookup at h
    unfold PDict.assign
    split at h
    · simp at h
    · rename_i hk
      rw [if_neg hk, ih h]; rfl

theorem addChip_items {m m' : Machine} {c : Chip} (h : m.addChip c = .ok m') :
    m'.chips.items = m.chips.items ++ [(c.xy, c)] ∧ m.chips.get? c.xy = none := by
  unfold Machine.addChip at h
  split at h
  · simp at h
  · rename_i hc
    have hn : m.chips.get? c.xy = none := by
      simpa [PDict.contains] using hc
    injection h with h
    subst h
    exact ⟨assign_new _ _ _ hn, hn⟩

theorem addChip_grown {m m' : Machine} {c : Chip} (h : m.addChip c = .ok m') : Grown m m' := by
  refine ⟨⟨[(c.xy, c)], (addChip_items h).1.symm⟩, ?_, ?_, ?_, ?_, ?_⟩ <;>
  · unfold Machine.addChip at h
    split at h
    · simp at h
    · injection h with h; subst h
      first
      | rfl
      | (simp only; split
         · exact ⟨[c], rfl⟩
         · exact List.prefix_refl _)

theorem step_grown (s : Live) (st : Step) : Grown s.m (s.step st).1.m := by
  cases st with
  | opens i q => exact Grown.refl _
  | next i => unfold Live.step; simp only; split <;> exact Grown.refl _
  | add c =>
    unfold Live.step; simp only
    split
    · rename_i m' h; exact addChip_grown h
    · exact Grown.refl _

theorem run_grown (s : Live) (steps : List Step) : Grown s.m (s.run steps).1.m := by
  induction steps generalizing s with
  | nil => exact Grown.refl _
  | cons st rest ih =>
    unfold Live.run
    exact (step_grown s st).trans (ih _)

theorem live_run_append (s : Live) (a b : List Step) :
    s.run (a ++ b) = (((s.run a).1.run b).1, (s.run a).2 ++ ((s.run a).1.run b).2) := by
  induction a generalizing s with
  | nil => simp [Live.run]
  | cons st a ih =>
    simp only [List.cons_append, Live.run, ih, List.append_assoc]

/-- the machines at the moments iterator `i` is asked -/
def moments (i : Nat) : Live → List Step → List Machine
  | _, [] => []
  | s, st :: rest => (if st = .next i then [s.m] else []) ++ moments i (s.step st).1 rest

/-- an iterator asked at these moments -/
def feed : Iter → List Machine → List (Reply Val)
  | _, [] => []
  | it, m :: ms => (it.next m).1 :: feed (it.next m).2 ms

/-- the iterator afterwards -/
def fed : Iter → List Machine → Iter
  | it, [] => it
  | it, m :: ms => fed (it.next m).2 ms

theorem feed_append (it : Iter) (a b : List Machine) :
    feed it (a ++ b) = feed it a ++ feed (fed it a) b := by
  induction a generalizing it with
  | nil => rfl
  | cons m a ih => simp [feed, fed, ih]

theorem fed_append (it : Iter) (a b : List Machine) : fed it (a ++ b) = fed (fed it a) b := by
  induction a generalizing it with
  | nil => rfl
  | cons m a ih => simp [fed, ih]

theorem feed_length (it : Iter) (ms : List Machine) : (feed it ms).length = ms.length := by
  induction ms generalizing it with
  | nil => rfl
  | cons m ms ih => simp [feed, ih]

theorem moments_length (i : Nat) (s : Live) (steps : List Step) :
    (moments i s steps).length = asked i steps := by
  induction steps generalizing s with
  | nil => rfl
  | cons st rest ih =>
    unfold moments asked
    rw [List.length_append, ih, List.count_cons]
    by_cases h : st = .next i
    · simp [h, asked]; omega
    · simp [h, asked]

theorem moments_append (i : Nat) (s : Live) (a b : List Step) :
    moments i s (a ++ b) = moments i s a ++ moments i (s.run a).1 b := by
  induction a generalizing s with
  | nil => rfl
  | cons st a ih => simp [moments, ih, Live.run]

theorem moments_grown (i : Nat) (s : Live) (steps : List Step) :
    ∀ m ∈ moments i s steps, Grown s.m m ∧ Grown m (s.run steps).1.m := by
  induction steps generalizing s with
  | nil => simp [moments]
  | cons st rest ih =>
    intro m hm
    unfold moments at hm
    rw [List.mem_append] at hm
    cases hm with
    | inl h =>
      by_cases hs : st = .next i
      · simp [hs] at h
        subst h
        exact ⟨Grown.refl _, run_grown s _⟩
      · simp [hs] at h
    | inr h =>
      obtain ⟨h1, h2⟩ := ih _ m h
      exact ⟨(step_grown s st).trans h1, h2⟩

theorem moments_chain (i : Nat) (s : Live) (steps : List Step) :
    (moments i s steps).Pairwise Grown := by
  induction steps generalizing s with
  | nil => exact .nil
  | cons st rest ih =>
    unfold moments
    rw [List.pairwise_append]
    refine ⟨?_, ih _, ?_⟩
    · split <;> simp
    · intro a ha b hb
      split at ha
      · simp at ha; subst ha
        exact (step_grown s st).trans (moments_grown i _ rest b hb).1
      · simp at ha

theorem resultsOf_append (i : Nat) (a b : List (Nat × Reply Val)) :
    resultsOf i (a ++ b) = resultsOf i a ++ resultsOf i b := by
  simp [resultsOf]

/-- the results of an iterator depend only on the machine at the moments it is asked -/
theorem results_feed (i : Nat) (s : Live) (steps : List Step) (it : Iter) (hit : s.its i = some it)
    (hno : NotReopened i steps) :
    resultsOf i (s.run steps).2 = feed it (moments i s steps) ∧
    (s.run steps).1.its i = some (fed it (moments i s steps)) := by
  induction steps generalizing s it with
  | nil => exact ⟨rfl, hit⟩
  | cons st rest ih =>
    have hno' : NotReopened i rest := fun x hx q => hno x (List.mem_cons_of_mem _ hx) q
    unfold Live.run moments
    simp only
    rw [resultsOf_append]
    cases st with
    | opens j q =>
      have hj : j ≠ i := by
        intro h; exact hno (.opens j q) (List.mem_cons_self ..) q (by rw [h])
      have h1 : (s.step (.opens j q)).1.its i = some it := by
        simp [Live.step, Ne.symm hj, hit]
      obtain ⟨ih1, ih2⟩ := ih _ it h1 hno'
      rw [ih1, ih2]
      simp [Live.step, resultsOf]
    | next j =>
      by_cases hj : j = i
      · subst hj
        have h1 : (s.step (.next j)).1.its j = some (it.next s.m).2 := by
          simp [Live.step, hit]
        obtain ⟨ih1, ih2⟩ := ih _ _ h1 hno'
        rw [ih1, ih2]
        simp [Live.step, hit, resultsOf, feed, fed]
      · have h1 : (s.step (.next j)).1.its i = some it := by
          unfold Live.step; simp only
          split
          · exact hit
          · simp [Ne.symm hj, hit]
        obtain ⟨ih1, ih2⟩ := ih _ it h1 hno'
        rw [ih1, ih2]
        have h2 : resultsOf i (s.step (.next j)).2 = [] := by
          unfold Live.step; simp only
          split <;> simp [resultsOf, hj]
        rw [h2]
        simp [hj]
    | add c =>
      have h1 : (s.step (.add c)).1.its i = some it := by
        unfold Live.step; simp only
        split <;> exact hit
      obtain ⟨ih1, ih2⟩ := ih _ it h1 hno'
      rw [ih1, ih2]
      have h2 : resultsOf i (s.step (.add c)).2 = [] := by
        unfold Live.step; simp only
        split <;> simp [resultsOf]
      rw [h2]
      simp

/-- the same for a program that starts by making the iterator -/
theorem results_opened (i : Nat) (q : Query) (s : Live) (steps : List Step)
    (hno : NotReopened i steps) :
    ∃ s' : Live, s'.m = s.m ∧ (s.run (.opens i q :: steps)).1 = (s'.run steps).1 ∧
      s'.its i = some (q.open s.m) ∧
      (s.run (.opens i q :: steps)).2 = (s'.run steps).2 ∧
      resultsOf i (s.run (.opens i q :: steps)).2 = feed (q.open s.m) (moments i s' steps) := by
  refine ⟨(s.step (.opens i q)).1, rfl, rfl, by simp [Live.step], by simp [Live.run, Live.step], ?_⟩
  have h := results_feed i (s.step (.opens i q)).1 steps (q.open s.m) (by simp [Live.step]) hno
  rw [← h.1]
  simp [Live.run, Live.step, resultsOf]

/-! ### dictionaries -/

theorem prefix_eq_of_length {α : Type} {a b : List α} (h : a <+: b) (hl : b.length = a.length) :
    b = a := by
  obtain ⟨t, rfl⟩ := h
  have : t = [] := by
    apply List.eq_nil_of_length_eq_zero
    simpa using hl
  simp [this]

/-- a dictionary iterator, asked when the dictionary has these entries -/
def feedD {α : Type} : DictIter → List (List α) → List (Reply α)
  | _, [] => []
  | it, l :: ls => (it.next l).1 :: feedD (it.next l).2 ls

theorem feedD_done {α : Type} (ls : List (List α)) : ∀ r ∈ feedD .done ls, r = Reply.stop := by
  induction ls with
  | nil => simp [feedD]
  | cons l ls ih =>
    intro r hr
    simp [feedD, DictIter.next] at hr
    cases hr with
    | inl h => exact h
    | inr h => exact ih r h

theorem feedD_broken {α : Type} (ls : List (List α)) :
    ∀ r ∈ feedD .broken ls, r = Reply.raised .runtimeError := by
  induction ls with
  | nil => simp [feedD]
  | cons l ls ih =>
    intro r hr
    simp [feedD, DictIter.next] at hr
    cases hr with
    | inl h => exact h
    | inr h => exact ih r h

/-- the results of a dictionary iterator: a prefix of the entries at the start, then only
`StopIteration` (all entries were produced) or only `RuntimeError` (the dictionary has grown) -/
theorem feedD_live {α : Type} (l0 : List α) (ls : List (List α)) (pos : Nat)
    (hg : ∀ l ∈ ls, l0 <+: l) (hpos : pos ≤ l0.length) :
    ∃ n tail, feedD (.live pos l0.length) ls = ((l0.drop pos).take n).map Reply.got ++ tail ∧
      ((∀ r ∈ tail, r = Reply.stop) ∧ (tail ≠ [] → (l0.drop pos).length ≤ n) ∨
       (∀ r ∈ tail, r = Reply.raised .runtimeError) ∧ tail ≠ [] ∧
        ∃ l ∈ ls, l.length ≠ l0.length) := by
  induction ls generalizing pos with
  | nil => exact ⟨0, [], by simp [feedD], .inl ⟨by simp, by simp⟩⟩
  | cons l ls ih =>
    by_cases hl : l.length = l0.length
    · have e := prefix_eq_of_length (hg l (List.mem_cons_self ..)) hl
      subst e
      by_cases hp : pos < l.length
      · obtain ⟨n, tail, h1, h2⟩ := ih (pos + 1) (fun x hx => hg x (List.mem_cons_of_mem _ hx)) (by omega)
        refine ⟨n + 1, tail, ?_, ?_⟩
        · simp only [feedD, DictIter.next, ne_eq, not_true, if_false, List.getElem?_eq_getElem hp, h1]
          rw [List.drop_eq_getElem_cons hp, List.take_succ_cons, List.map_cons, List.cons_append]
        · cases h2 with
          | inl h => exact .inl ⟨h.1, fun ht => by have := h.2 ht; simp at this ⊢; omega⟩
          | inr h =>
            obtain ⟨ha, hb, x, hx, hxl⟩ := h
            exact .inr ⟨ha, hb, x, List.mem_cons_of_mem _ hx, hxl⟩
      · refine ⟨l.length, feedD (.live pos l.length) (l :: ls), ?_, .inl ⟨?_, ?_⟩⟩
        · rw [List.drop_eq_nil_of_le (by omega)]; simp
        · have hn : l[pos]? = none := by simp; omega
          intro r hr
          simp only [feedD, DictIter.next, ne_eq, not_true, if_false, hn, List.mem_cons] at hr
          cases hr with
          | inl h => exact h
          | inr h => exact feedD_done ls r h
        · intro _; simp
    · refine ⟨0, feedD (.live pos l0.length) (l :: ls), by simp, .inr ⟨?_, ?_, l, List.mem_cons_self .., hl⟩⟩
      · intro r hr
        simp only [feedD, DictIter.next, ne_eq, hl, not_false_eq_true, if_true, List.mem_cons] at hr
        cases hr with
        | inl h => exact h
        | inr h => exact feedD_broken ls r h
      · simp [feedD]

/-- if the dictionary has grown and the iterator has not stopped, it raises -/
theorem feedD_live_grown {α : Type} (l0 l : List α) (ls : List (List α)) (pos : Nat)
    (hg : ∀ x ∈ ls, l0 <+: x) (hl : l.length ≠ l0.length) (hpos : pos ≤ l0.length)
    (hns : Reply.stop ∉ feedD (.live pos l0.length) ls) :
    (feedD (.live pos l0.length) (ls ++ [l])).getLast? = some (Reply.raised .runtimeError) := by
  induction ls generalizing pos with
  | nil => simp [feedD, DictIter.next, hl]
  | cons x ls ih =>
    by_cases hx : x.length = l0.length
    · have e := prefix_eq_of_length (hg x (List.mem_cons_self ..)) hx
      subst e
      by_cases hp : pos < x.length
      · have h1 : (DictIter.live pos x.length).next x = (.got x[pos], .live (pos + 1) x.length) := by
          simp [DictIter.next, List.getElem?_eq_getElem hp]
        have h2 := ih (pos + 1) (fun y hy => hg y (List.mem_cons_of_mem _ hy)) (by omega) (by
          intro hc; apply hns; unfold feedD; rw [h1]; exact List.mem_cons_of_mem _ hc)
        simp only [List.cons_append, feedD, h1]
        rw [List.getLast?_cons, h2]; rfl
      · exfalso; apply hns
        have hn : x[pos]? = none := by simp; omega
        simp [feedD, DictIter.next, hn]
    · have h1 : (DictIter.live pos l0.length).next x = (.raised .runtimeError, .broken) := by
        simp [DictIter.next, hx]
      simp only [List.cons_append, feedD, h1]
      have h2 : ∀ r ∈ feedD DictIter.broken (ls ++ [l]), r = Reply.raised .runtimeError :=
        feedD_broken _
      have hne : feedD DictIter.broken (ls ++ [l]) ≠ [] := by
        intro h
        have := congrArg List.length h
        have hlen : ∀ (it : DictIter) (ys : List (List α)), (feedD it ys).length = ys.length := by
          intro it ys
          induction ys generalizing it with
          | nil => rfl
          | cons y ys ih => simp [feedD, ih]
        rw [hlen] at this
        simp at this
      rw [List.getLast?_cons, List.getLast?_eq_some_getLast hne]
      simp [h2 _ (List.getLast_mem hne)]

theorem feed_chips (it : DictIter) (ms : List Machine) :
    feed (.chips it) ms = (feedD it (ms.map Machine.chipList)).map (Reply.map .chip) := by
  induction ms generalizing it with
  | nil => rfl
  | cons m ms ih => simp [feed, feedD, Iter.next, ih]

theorem feed_coords (it : DictIter) (ms : List Machine) :
    feed (.coords it) ms = (feedD it (ms.map Machine.chipCoordinates)).map (Reply.map .xy) := by
  induction ms generalizing it with
  | nil => rfl
  | cons m ms ih => simp [feed, feedD, Iter.next, ih]

theorem feed_pairs (it : DictIter) (ms : List Machine) :
    feed (.pairs it) ms =
      (feedD it (ms.map Machine.iter)).map (Reply.map fun pc => .pair pc.1 pc.2) := by
  induction ms generalizing it with
  | nil => rfl
  | cons m ms ih => simp [feed, feedD, Iter.next, ih]

/-- the iterators over the dictionary of chips are the same iterator of the same dictionary -/
theorem feed_dict (q : Query) (m0 : Machine) (vs : List Val) (hq : contents m0 q = some vs) :
    ∃ (α : Type) (l : Machine → List α) (f : α → Val),
      (∀ m, (l m).length = m.nChips) ∧ (∀ m m', Grown m m' → l m <+: l m') ∧
      vs = (l m0).map f ∧
      ∀ m ms, feed (q.open m) ms = (feedD (.live 0 (l m).length) (ms.map l)).map (Reply.map f) := by
  cases q with
  | chips =>
    simp only [contents, Option.some.injEq] at hq
    refine ⟨_, Machine.chipList, .chip, ?_, ?_, hq.symm, ?_⟩
    · intro m; simp [Machine.chipList, PDict.values, Machine.nChips, PDict.size]
    · intro m m' h; exact h.items.map _
    · intro m ms
      rw [← feed_chips]
      simp [Query.open, Machine.chipList, PDict.values, Machine.nChips, PDict.size]
  | coords =>
    simp only [contents, Option.some.injEq] at hq
    refine ⟨_, Machine.chipCoordinates, .xy, ?_, ?_, hq.symm, ?_⟩
    · intro m; simp [Machine.chipCoordinates, PDict.keys, Machine.nChips, PDict.size]
    · intro m m' h; exact h.items.map _
    · intro m ms
      rw [← feed_coords]
      simp [Query.open, Machine.chipCoordinates, PDict.keys, Machine.nChips, PDict.size]
  | pairs =>
    simp only [contents, Option.some.injEq] at hq
    refine ⟨_, Machine.iter, fun pc => .pair pc.1 pc.2, ?_, ?_, hq.symm, ?_⟩
    · intro m; simp [Machine.iter, Machine.nChips, PDict.size]
    · intro m m' h; exact h.items
    · intro m ms
      rw [← feed_pairs]
      simp [Query.open, Machine.iter, Machine.nChips, PDict.size]
  | ethernets => simp [contents] at hq
  | existing _ _ => simp [contents] at hq
  | down _ _ => simp [contents] at hq
  | boardChips _ _ => simp [contents] at hq
  | oneWay => simp [contents] at hq

theorem Grown.nChips {m m' : Machine} (h : Grown m m') : m.nChips ≤ m'.nChips := h.items.length_le

theorem Grown.same {m m' : Machine} (h : Grown m m') (hn : m'.nChips = m.nChips) :
    m'.chips = m.chips := by
  have := prefix_eq_of_length h.items hn
  cases hm : m.chips; cases hm' : m'.chips
  simp_all

/-! ### the places of a board -/

theorem scan_some {keep : XY → Bool} {ps : List XY} {p : XY} {rest : List XY}
    (h : scan keep ps = some (p, rest)) :
    ∃ pre, ps = pre ++ p :: rest ∧ (∀ x ∈ pre, keep x = false) ∧ keep p = true := by
  induction ps with
  | nil => simp [scan] at h
  | cons a ps ih =>
    unfold scan at h
    split at h
    · rename_i hk
      injection h with h
      injection h with h1 h2
      subst h1; subst h2
      exact ⟨[], rfl, by simp, hk⟩
    · rename_i hk
      obtain ⟨pre, h1, h2, h3⟩ := ih h
      refine ⟨a :: pre, by rw [h1]; rfl, ?_, h3⟩
      intro x hx
      cases hx with
      | head => simpa using hk
      | tail _ hx => exact h2 x hx

theorem scan_none {keep : XY → Bool} {ps : List XY} (h : scan keep ps = none) :
    ∀ x ∈ ps, keep x = false := by
  induction ps with
  | nil => simp
  | cons a ps ih =>
    unfold scan at h
    split at h
    · simp at h
    · rename_i hk
      intro x hx
      cases hx with
      | head => simpa using hk
      | tail _ hx => exact ih h x hx

/-- the places a generator produces, asked at these moments -/
def feedS (keep : Machine → XY → Bool) : List XY → List Machine → List (Option XY)
  | _, [] => []
  | ps, m :: ms => match scan (keep m) ps with
    | some (p, rest) => some p :: feedS keep rest ms
    | none => none :: feedS keep [] ms

theorem feedS_nil (keep : Machine → XY → Bool) (ms : List Machine) :
    feedS keep [] ms = List.replicate ms.length none := by
  induction ms with
  | nil => rfl
  | cons m ms ih => simp [feedS, scan, ih, List.replicate_succ]

/-- what a generator produces lies between what is there at all moments and what is there at some -/
theorem feedS_spec (keep : Machine → XY → Bool) (lo hi : XY → Bool) (ps : List XY) (ms : List Machine)
    (hlo : ∀ m ∈ ms, ∀ p ∈ ps, lo p = true → keep m p = true)
    (hhi : ∀ m ∈ ms, ∀ p ∈ ps, keep m p = true → hi p = true) :
    ∃ gs k, feedS keep ps ms = gs.map some ++ List.replicate k none ∧
      gs.Sublist (ps.filter hi) ∧ (k ≠ 0 → (ps.filter lo).Sublist gs) := by
  induction ms generalizing ps with
  | nil => exact ⟨[], 0, rfl, by simp, by simp⟩
  | cons m ms ih =>
    unfold feedS
    split
    · rename_i p rest hs
      obtain ⟨pre, h1, h2, h3⟩ := scan_some hs
      subst h1
      obtain ⟨gs, k, e, g1, g2⟩ := ih rest
        (fun m' hm' q hq => hlo m' (List.mem_cons_of_mem _ hm') q (by simp [hq]))
        (fun m' hm' q hq => hhi m' (List.mem_cons_of_mem _ hm') q (by simp [hq]))
      refine ⟨p :: gs, k, by rw [e]; rfl, ?_, ?_⟩
      · have hp : hi p = true := hhi m (List.mem_cons_self ..) p (by simp) h3
        rw [List.filter_append, List.filter_cons, if_pos hp]
        exact (g1.cons_cons p).trans (List.sublist_append_right ..)
      · intro hk
        rw [List.filter_append]
        have hpre : pre.filter lo = [] := by
          rw [List.filter_eq_nil_iff]
          intro x hx hl
          have := hlo m (List.mem_cons_self ..) x (by simp [hx]) hl
          rw [h2 x hx] at this
          simp at this
        rw [hpre, List.nil_append, List.filter_cons]
        split
        · exact (g2 hk).cons_cons p
        · exact (g2 hk).cons p
    · rename_i hs
      have h2 := scan_none hs
      refine ⟨[], ms.length + 1, ?_, by simp, ?_⟩
      · rw [feedS_nil]; rfl
      · intro _
        have : ps.filter lo = [] := by
          rw [List.filter_eq_nil_iff]
          intro x hx hl
          have := hlo m (List.mem_cons_self ..) x hx hl
          rw [h2 x hx] at this
          simp at this
        rw [this]
        exact List.Sublist.refl _

/-- a result about places as a result of `next()` -/
def outXY : Option XY → Reply Val
  | some p => .got (.xy p)
  | none => .stop

theorem feed_existing (ps : List XY) (ms : List Machine) :
    feed (.existing ps) ms = (feedS (fun m p => m.chips.contains p) ps ms).map outXY := by
  induction ms generalizing ps with
  | nil => rfl
  | cons m ms ih =>
    unfold feed feedS
    simp only [Iter.next]
    split
    · rename_i hs; simp [ih, outXY, hs]
    · rename_i hs; simp [ih, outXY, hs]

theorem feed_down (ps : List XY) (ms : List Machine) :
    feed (.down ps) ms = (feedS (fun m p => !m.chips.contains p) ps ms).map outXY := by
  induction ms generalizing ps with
  | nil => rfl
  | cons m ms ih =>
    unfold feed feedS
    simp only [Iter.next]
    split
    · rename_i hs; simp [ih, outXY, hs]
    · rename_i hs; simp [ih, outXY, hs]

theorem lookup_append {K V : Type} [DecidableEq K] (a b : List (K × V)) (k : K) (v : V)
    (h : PDict.lookup a k = some v) : PDict.lookup (a ++ b) k = some v := by
  induction a with
  | nil => simp [PDict.lookup] at h
  | cons x a ih =>
    obtain ⟨k', v'⟩ := x
    simp only [PDict.lookup, List.cons_append] at h ⊢
    split
    · rename_i hk; rw [if_pos hk] at h; exact h
    · rename_i hk; rw [if_neg hk] at h; exact ih h

theorem Grown.get? {m m' : Machine} (h : Grown m m') (p : XY) (c : Chip)
    (hc : m.chips.get? p = some c) : m'.chips.get? p = some c := by
  obtain ⟨t, ht⟩ := h.items
  unfold PDict.get? at hc ⊢
  rw [← ht]
  exact lookup_append _ _ _ _ hc

theorem Grown.contains {m m' : Machine} (h : Grown m m') (p : XY)
    (hc : m.chips.contains p = true) : m'.chips.contains p = true := by
  unfold PDict.contains at hc ⊢
  obtain ⟨c, hc⟩ := Option.isSome_iff_exists.1 hc
  rw [h.get? p c hc]; rfl

/-- a result about places as a result of `next()` that gives the chip there -/
def outChip (m : Machine) : Option XY → Reply Val
  | some p => match m.chips.get? p with
    | some c => .got (.chip c)
    | none => .stop
  | none => .stop

theorem feed_boardChips (ps : List XY) (ms : List Machine) (m1 : Machine)
    (h : ∀ m ∈ ms, Grown m m1) :
    feed (.boardChips ps) ms =
      (feedS (fun m p => m.chips.contains p) ps ms).map (outChip m1) := by
  induction ms generalizing ps with
  | nil => rfl
  | cons m ms ih =>
    have ih := fun qs => ih qs (fun m' hm' => h m' (List.mem_cons_of_mem _ hm'))
    unfold feed feedS
    simp only [Iter.next]
    split
    · rename_i p rest hs
      obtain ⟨_, _, _, hp⟩ := scan_some hs
      obtain ⟨c, hc⟩ := Option.isSome_iff_exists.1 hp
      have e : m.chips.getE p = .ok c := by unfold PDict.getE; rw [hc]
      rw [e]
      have hc1 := (h m (List.mem_cons_self ..)).get? p c hc
      simp [ih, outChip, hc1, hs]
    · rename_i hs; simp [ih, outChip, hs]

/-- where a generator of places is, if it has not stopped -/
theorem fed_places (mk : List XY → Iter) (keep : Machine → XY → Bool)
    (hnext : ∀ m ps, (mk ps).next m = match scan (keep m) ps with
      | some (p, rest) => (Reply.got (.xy p), mk rest)
      | none => (Reply.stop, mk []))
    (places : List XY) (hnd : places.Nodup) (ms : List Machine) (last : Option XY)
    (hns : Reply.stop ∉ feed (mk (placesAfter places last)) ms)
    (hsuf : placesAfter places last <:+ places) :
    fed (mk (placesAfter places last)) ms =
      mk (placesAfter places ((feed (mk (placesAfter places last)) ms).foldl (fun a r => match r with
        | .got (.xy p) => some p
        | _ => a) last)) := by
  induction ms generalizing last with
  | nil => rfl
  | cons m ms ih =>
    unfold feed at hns
    unfold feed fed
    rw [hnext] at hns ⊢
    cases hs : scan (keep m) (placesAfter places last) with
    | none => simp [hs] at hns
    | some pr =>
      obtain ⟨p, rest⟩ := pr
      rw [hs] at hns
      simp only [List.foldl_cons] at hns ⊢
      obtain ⟨pre, h1, h2, h3⟩ := scan_some hs
      obtain ⟨t, ht⟩ := hsuf
      have hpl : places = (t ++ pre) ++ p :: rest := by rw [← ht, h1]; simp
      have hnot : p ∉ t ++ pre := by
        intro hc
        rw [hpl, List.nodup_append] at hnd
        exact hnd.2.2 p hc p (List.mem_cons_self ..) rfl
      have hafter : placesAfter places (some p) = rest := by
        unfold placesAfter
        simp only
        rw [hpl, List.dropWhile_append_of_pos]
        · simp
        · intro x hx
          simp
          intro hxp; rw [hxp] at hx; exact hnot hx
      have hmem : Reply.stop ∉ feed (mk rest) ms := fun hc => hns (List.mem_cons_of_mem _ hc)
      have := ih (some p) (by rw [hafter]; exact hmem) (by
        rw [hafter, hpl]; exact ⟨t ++ pre ++ [p], by simp⟩)
      rw [hafter] at this
      exact this

/-! ### one way links -/

/-- the one way links of a chip among these directions -/
def owOf (m : Machine) (c : Chip) (checks : List (Int × Int)) : List DeadLink :=
  checks.filterMap fun ob => match c.router.getLink ob.1 with
    | some l => if ¬ m.isLinkAt l.destX l.destY ob.2 then some (c.x, c.y, ob.1, ob.2) else none
    | none => none

theorem oneWayLinks_owOf (m : Machine) :
    m.oneWayLinks = m.chipList.flatMap fun c => owOf m c Machine.linkChecks := rfl

theorem oneWayScan_spec (m : Machine) (c : Chip) (checks : List (Int × Int)) :
    match oneWayScan m c checks with
    | some (d, rest) => owOf m c checks = d :: owOf m c rest
    | none => owOf m c checks = [] := by
  induction checks with
  | nil => rfl
  | cons ob checks ih =>
    obtain ⟨out, back⟩ := ob
    unfold oneWayScan
    cases hl : c.router.getLink out with
    | none =>
      simp only
      have e : owOf m c ((out, back) :: checks) = owOf m c checks := by simp [owOf, hl]
      rw [e]; exact ih
    | some l =>
      simp only
      by_cases hb : m.isLinkAt l.destX l.destY back = true
      · have e : owOf m c ((out, back) :: checks) = owOf m c checks := by simp [owOf, hl, hb]
        rw [if_neg (by simp [hb]), e]; exact ih
      · rw [if_pos hb]
        simp [owOf, hl, hb]

theorem chipList_length (m : Machine) : m.chipList.length = m.nChips := by
  simp [Machine.chipList, PDict.values, Machine.nChips, PDict.size]

/-- what is left for a generator of one way links on a machine that does not grow -/
def owLeft (m : Machine) : OneWayGen → List DeadLink
  | .fresh => m.oneWayLinks
  | .running (.live pos _) c checks =>
    owOf m c checks ++ (m.chipList.drop pos).flatMap fun c => owOf m c Machine.linkChecks
  | .running _ c checks => owOf m c checks
  | .finished => []

/-- the states of a generator on machines with this number of chips -/
def OwGood (n : Nat) : OneWayGen → Prop
  | .running (.live pos size) _ _ => size = n ∧ pos ≤ n
  | .running _ _ _ => False
  | _ => True

theorem oneWayChips_spec (m : Machine) (k pos : Nat) (hpos : pos ≤ m.nChips)
    (hk : m.nChips < pos + k) :
    match (m.chipList.drop pos).flatMap (fun c => owOf m c Machine.linkChecks) with
    | [] => oneWayChips m k (.live pos m.nChips) = (.stop, .finished)
    | d :: ds => ∃ g, oneWayChips m k (.live pos m.nChips) = (.got d, g) ∧ owLeft m g = ds ∧
        OwGood m.nChips g ∧ g ≠ .fresh ∧ g ≠ .finished := by
  induction k generalizing pos with
  | zero => omega
  | succ k ih =>
    unfold oneWayChips
    by_cases hp : pos < m.nChips
    · have hp' : pos < m.chipList.length := by rw [chipList_length]; exact hp
      have e : (DictIter.live pos m.nChips).next m.chipList =
          (.got m.chipList[pos], .live (pos + 1) m.nChips) := by
        simp [DictIter.next, chipList_length, List.getElem?_eq_getElem hp']
      rw [e]
      simp only
      rw [List.drop_eq_getElem_cons hp', List.flatMap_cons]
      have hs := oneWayScan_spec m m.chipList[pos] Machine.linkChecks
      cases ho : oneWayScan m m.chipList[pos] Machine.linkChecks with
      | none =>
        rw [ho] at hs
        simp only at hs
        rw [hs, List.nil_append]
        exact ih (pos + 1) (by omega) (by omega)
      | some dr =>
        obtain ⟨d, rest⟩ := dr
        rw [ho] at hs
        simp only at hs
        rw [hs]
        refine ⟨_, rfl, ?_, ?_, by simp, by simp⟩
        · simp [owLeft]
        · exact ⟨rfl, by omega⟩
    · have hp' : m.chipList.length ≤ pos := by rw [chipList_length]; omega
      have hn : m.chipList[pos]? = none := List.getElem?_eq_none hp'
      have e : (DictIter.live pos m.nChips).next m.chipList = (.stop, .done) := by
        simp [DictIter.next, chipList_length, hn]
      rw [e, List.drop_eq_nil_of_le hp']
      rfl

/-- `next()` on a generator of one way links, if no chip was added -/
theorem owNext_spec (m : Machine) (g : OneWayGen) (hg : OwGood m.nChips g) :
    match owLeft m g with
    | [] => g.next m = (.stop, .finished)
    | d :: ds => ∃ g', g.next m = (.got d, g') ∧ owLeft m g' = ds ∧ OwGood m.nChips g' ∧ g' ≠ .fresh ∧
        g' ≠ .finished := by
  cases g with
  | finished => rfl
  | fresh =>
    have := oneWayChips_spec m (m.nChips + 1) 0 (by omega) (by omega)
    simp only [owLeft, OneWayGen.next, oneWayLinks_owOf]
    rw [List.drop_zero] at this
    exact this
  | running it c checks =>
    cases it with
    | done => exact hg.elim
    | broken => exact hg.elim
    | live pos size =>
      obtain ⟨h1, h2⟩ := hg
      subst h1
      simp only [owLeft, OneWayGen.next]
      have hs := oneWayScan_spec m c checks
      cases ho : oneWayScan m c checks with
      | none =>
        rw [ho] at hs
        simp only at hs
        rw [hs, List.nil_append]
        exact oneWayChips_spec m (m.nChips + 1) pos h2 (by omega)
      | some dr =>
        obtain ⟨d, rest⟩ := dr
        rw [ho] at hs
        simp only at hs
        rw [hs]
        exact ⟨_, rfl, rfl, ⟨rfl, h2⟩, by simp, by simp⟩

/-- `next()` on a generator of one way links of a machine that has grown since it began -/
theorem owNext_grown (m : Machine) (n : Nat) (hn : m.nChips ≠ n) (g : OneWayGen) (hg : OwGood n g)
    (h1 : g ≠ .fresh) (h2 : g ≠ .finished) :
    (∃ d g', g.next m = (.got d, g') ∧ OwGood n g' ∧ g' ≠ .fresh ∧ g' ≠ .finished) ∨
    g.next m = (.raised .runtimeError, .finished) := by
  cases g with
  | finished => exact absurd rfl h2
  | fresh => exact absurd rfl h1
  | running it c checks =>
    cases it with
    | done => exact hg.elim
    | broken => exact hg.elim
    | live pos size =>
      obtain ⟨h3, h4⟩ := hg
      subst h3
      simp only [OneWayGen.next]
      cases ho : oneWayScan m c checks with
      | some dr => exact .inl ⟨dr.1, _, rfl, ⟨rfl, h4⟩, by simp, by simp⟩
      | none =>
        right
        simp [oneWayChips, DictIter.next, chipList_length, hn]

/-- the results of the generator, asked at these moments -/
def feedO : OneWayGen → List Machine → List (Reply DeadLink)
  | _, [] => []
  | g, m :: ms => (g.next m).1 :: feedO (g.next m).2 ms

theorem feed_oneWay (g : OneWayGen) (ms : List Machine) :
    feed (.oneWay g) ms = (feedO g ms).map (Reply.map .link) := by
  induction ms generalizing g with
  | nil => rfl
  | cons m ms ih => simp [feed, feedO, Iter.next, ih]

theorem feedO_finished (ms : List Machine) : feedO .finished ms = List.replicate ms.length .stop := by
  induction ms with
  | nil => rfl
  | cons m ms ih => simp [feedO, OneWayGen.next, ih, List.replicate_succ]

theorem isLinkAt_chips {m m' : Machine} (h : m'.chips = m.chips) (x y l : Int) :
    m'.isLinkAt x y l = m.isLinkAt x y l := by
  unfold Machine.isLinkAt; rw [h]

theorem owLeft_chips {m m' : Machine} (h : m'.chips = m.chips) (g : OneWayGen) :
    owLeft m' g = owLeft m g := by
  have e : ∀ c checks, owOf m' c checks = owOf m c checks := by
    intro c checks; unfold owOf; simp only [isLinkAt_chips h]
  have e2 : m'.chipList = m.chipList := by unfold Machine.chipList; rw [h]
  cases g with
  | finished => rfl
  | fresh => simp only [owLeft, oneWayLinks_owOf, e, e2]
  | running it c checks => cases it <;> simp only [owLeft, e, e2]

/-- the results of a generator that has begun, with a machine that has already grown: some links of
the current chip, then `RuntimeError` once -/
theorem feedO_grown (n : Nat) (ms : List Machine) (hms : ∀ m ∈ ms, m.nChips ≠ n) (g : OneWayGen)
    (hg : OwGood n g) (h1 : g ≠ .fresh) (h2 : g ≠ .finished) :
    ∃ (gs : List DeadLink) (tail : List (Reply DeadLink)), feedO g ms = gs.map Reply.got ++ tail ∧
      (tail = [] ∨ ∃ k, tail = .raised .runtimeError :: List.replicate k .stop) := by
  induction ms generalizing g with
  | nil => exact ⟨[], [], rfl, .inl rfl⟩
  | cons m ms ih =>
    cases owNext_grown m n (hms m (List.mem_cons_self ..)) g hg h1 h2 with
    | inl h =>
      obtain ⟨d, g', e, a, b, c⟩ := h
      obtain ⟨gs, tail, e2, e3⟩ := ih (fun m' hm' => hms m' (List.mem_cons_of_mem _ hm')) g' a b c
      exact ⟨d :: gs, tail, by simp [feedO, e, e2], e3⟩
    | inr h =>
      exact ⟨[], _, rfl, .inr ⟨ms.length, by simp [h, feedO_finished]⟩⟩

/-- the results of a generator: either all that is left and then `StopIteration`, the machine not
having grown until then, or some links and then `RuntimeError` once, the machine having grown -/
theorem feedO_spec (m0 : Machine) (ms : List Machine) (hms : ∀ m ∈ ms, Grown m0 m)
    (hch : ms.Pairwise Grown) (g : OneWayGen) (hg : OwGood m0.nChips g) (h1 : g ≠ .fresh)
    (hf : g ≠ .finished) :
    (∃ n, feedO g ms = ((owLeft m0 g).take n).map Reply.got ∧ n ≤ (owLeft m0 g).length) ∨
    (∃ k, feedO g ms = (owLeft m0 g).map Reply.got ++ List.replicate (k + 1) .stop ∧
      ∃ m, ms[(owLeft m0 g).length]? = some m ∧ m.chips = m0.chips) ∨
    ((∃ m ∈ ms, m.nChips ≠ m0.nChips) ∧ ∃ (gs : List DeadLink) (tail : List (Reply DeadLink)), feedO g ms = gs.map Reply.got ++ tail ∧
      (tail = [] ∨ ∃ k, tail = .raised .runtimeError :: List.replicate k .stop)) := by
  induction ms generalizing g with
  | nil => exact .inl ⟨0, rfl, by omega⟩
  | cons m ms ih =>
    rw [List.pairwise_cons] at hch
    by_cases hn : m.nChips = m0.nChips
    · have hc := (hms m (List.mem_cons_self ..)).same hn
      have hg' := hg
      rw [← hn] at hg'
      have := owNext_spec m g hg'
      rw [owLeft_chips hc] at this
      cases hl : owLeft m0 g with
      | nil =>
        rw [hl] at this
        right; left
        refine ⟨ms.length, ?_, m, by simp, hc⟩
        simp only at this
        simp [feedO, this, feedO_finished, List.replicate_succ]
      | cons d ds =>
        rw [hl] at this
        obtain ⟨g', e, a, b, c, cf⟩ := this
        rw [owLeft_chips hc] at a
        rw [hn] at b
        cases ih (fun m' hm' => hms m' (List.mem_cons_of_mem _ hm')) hch.2 g' b c cf with
        | inl h =>
          obtain ⟨n, h, hle⟩ := h
          rw [a] at h hle
          exact .inl ⟨n + 1, by simp [feedO, e, h], by simp; omega⟩
        | inr h =>
          cases h with
          | inl h =>
            obtain ⟨k, h, m', h2, h3⟩ := h
            rw [a] at h h2
            exact .inr (.inl ⟨k, by simp [feedO, e, h], m', by simpa using h2, h3⟩)
          | inr h =>
            obtain ⟨⟨m', hm', hne⟩, gs, tail, h2, h3⟩ := h
            exact .inr (.inr ⟨⟨m', List.mem_cons_of_mem _ hm', hne⟩, d :: gs, tail,
              by simp [feedO, e, h2], h3⟩)
    · right; right
      refine ⟨⟨m, List.mem_cons_self .., hn⟩, ?_⟩
      refine feedO_grown m0.nChips (m :: ms) ?_ g hg h1 hf
      intro m' hm'
      cases hm' with
      | head => exact hn
      | tail _ hm' =>
        have := (hch.1 m' hm').nChips
        have := (hms m (List.mem_cons_self ..)).nChips
        omega

/-- the moment of a call of `next()` in the program -/
theorem moments_split (i : Nat) (s : Live) (steps : List Step) (n : Nat) (m : Machine)
    (h : (moments i s steps)[n]? = some m) :
    ∃ a b, steps = a ++ .next i :: b ∧ asked i a = n ∧ (s.run a).1.m = m := by
  induction steps generalizing s n with
  | nil => simp [moments] at h
  | cons st rest ih =>
    unfold moments at h
    by_cases hs : st = .next i
    · rw [if_pos hs, List.singleton_append] at h
      cases n with
      | zero =>
        refine ⟨[], rest, by rw [hs]; rfl, rfl, ?_⟩
        simpa [Live.run] using h
      | succ n =>
        obtain ⟨a, b, e1, e2, e3⟩ := ih _ n (by simpa using h)
        refine ⟨st :: a, b, by rw [e1]; rfl, ?_, by simpa [Live.run] using e3⟩
        unfold asked at e2 ⊢
        rw [List.count_cons, e2]; simp [hs]
    · rw [if_neg hs, List.nil_append] at h
      obtain ⟨a, b, e1, e2, e3⟩ := ih _ n h
      refine ⟨st :: a, b, by rw [e1]; rfl, ?_, by simpa [Live.run] using e3⟩
      unfold asked at e2 ⊢
      rw [List.count_cons, e2]; simp [hs]

end SpiNN
