import Verif.Lemmas.CoreLive
import Verif.Props.Frozen

/-!
# C88 Core subsets that are read while they are changed

`Later` (C52) is any number of calls on any objects of the program.
-/

namespace SpiNN.Props
open SpiNN Spec CoreWorld

/-- Adding a subset to a group reads the subset while it adds: it never fails and adds exactly the
cores the subset had, also if it is the group's own subset of that chip; no other group changes. -/
theorem C88_add_subset (w : CoreWorld) (hr : CoreReach w) (g a : Nat) (hg : g < w.nGrps) (ha : a < w.nSubs) :
    ∃ w', w.addSubsetLive g a = (w', none) ∧
      (¬ (w.grps g).frozen → w.addCoreSubset g a = .ok w') ∧
      (∀ g' x y p, w'.isCore g' x y p ↔ w.isCore g' x y p ∨
        (g' = g ∧ x = (w.subs a).x ∧ y = (w.subs a).y ∧ (w.subs a).contains p)) ∧
      (a ∈ w.iter g → w' = w) := by
  have hw := CoreReach_inv hr
  refine ⟨_, addSubsetLive_eq g ha, fun hf => ?_, fun g' x y p => ?_, fun hm => ?_⟩
  · unfold addCoreSubset; rw [if_neg hf]
  · rw [isCore_iff, isCore_iff, (groupAddSubset_grow hw hg a).has]
    simp [SubHas, CoreSubset.contains]
  · exact groupAddSubset_own (mem_iter_own hw hm).2

/-- Adding a group to a group reads the dictionary of the one while it adds to the other: it never
fails and adds exactly the cores of `h`; no other group changes. -/
theorem C88_add_group (w : CoreWorld) (hr : CoreReach w) (g h : Nat) (hg : g < w.nGrps) :
    ∃ w', w.addGroupLive g h = (w', none) ∧
      (¬ (w.grps g).frozen → w.addCoreSubsets g (w.iter h) = .ok w') ∧
      (∀ g' x y p, w'.isCore g' x y p ↔ w.isCore g' x y p ∨ (g' = g ∧ w.isCore h x y p)) := by
  have hw := CoreReach_inv hr
  refine ⟨_, addGroupLive_eq hw g h, fun hf => ?_, fun g' x y p => ?_⟩
  · unfold addCoreSubsets; rw [if_neg hf]
  · have hgrow := groupAddSubsets_grow g (w.iter h) hw hg (fun a ha => (mem_iter_own hw ha).1)
    rw [isCore_iff, isCore_iff, isCore_iff, hgrow.has]
    have key : (∃ a ∈ w.iter h, w.SubHas a x y p) ↔ w.Has h x y p := by
      constructor
      · rintro ⟨a, ha, rfl, rfl, hp⟩
        exact ⟨a, (mem_iter_own hw ha).2, hp⟩
      · rintro ⟨a, ha, hp⟩
        obtain ⟨-, h2, h3, -⟩ := hw.own _ _ _ ha
        exact ⟨a, (PDict.mem_values_iff (hw.wf h) a).2 ⟨_, ha⟩, h2.symm, h3.symm, hp⟩
    rw [key]

/-- Adding a group to itself does not fail, and changes nothing at all. -/
theorem C88_add_self (w : CoreWorld) (hr : CoreReach w) (g : Nat) :
    w.addGroupLive g g = (w, none) ∧
    (¬ (w.grps g).frozen → w.addCoreSubsets g (w.iter g) = .ok w) := by
  have hw := CoreReach_inv hr
  refine ⟨by rw [addGroupLive_eq hw, groupAddSubsets_self hw], fun hf => ?_⟩
  unfold addCoreSubsets; rw [if_neg hf, groupAddSubsets_self hw]

/-- Making a group, frozen or not, of another one does not fail and gives a copy. -/
theorem C88_copy (w : CoreWorld) (hr : CoreReach w) (frozen : Bool) (h : Nat) (hh : h < w.nGrps) :
    ∃ w', w.newGroupLive frozen h = (w.nGrps, w', none) ∧
      w.newGroup frozen (w.iter h) = (w.nGrps, w') ∧
      (∀ x y p, w'.isCore w.nGrps x y p = w.isCore h x y p) ∧
      (∀ g, g < w.nGrps → ∀ x y p, w'.isCore g x y p = w.isCore g x y p) := by
  have hw := CoreReach_inv hr
  have hi := emptyGroup_inv hw frozen
  have hgrp : ∀ g, g < w.nGrps → upd w.grps w.nGrps { frozen, map := .empty } g = w.grps g := by
    intro g hg; simp only [upd]; rw [if_neg (by omega)]
  have hit : ({ w with grps := upd w.grps w.nGrps { frozen, map := .empty }, nGrps := w.nGrps + 1 } : CoreWorld).iter h
      = w.iter h := by unfold iter; simp only [hgrp h hh]
  have hgrow := newGroup_grow hw frozen (w.iter h) (fun a ha => (mem_iter_own hw ha).1)
  have key : ∀ x y p, (∃ a ∈ w.iter h, w.SubHas a x y p) ↔ w.Has h x y p := by
    intro x y p
    constructor
    · rintro ⟨a, ha, rfl, rfl, hp⟩
      exact ⟨a, (mem_iter_own hw ha).2, hp⟩
    · rintro ⟨a, ha, hp⟩
      obtain ⟨-, h2, h3, -⟩ := hw.own _ _ _ ha
      exact ⟨a, (PDict.mem_values_iff (hw.wf h) a).2 ⟨_, ha⟩, h2.symm, h3.symm, hp⟩
  have hhas : ∀ g, ({ w with grps := upd w.grps w.nGrps { frozen, map := .empty }, nGrps := w.nGrps + 1 } :
      CoreWorld).Has g = w.Has g := by
    intro g; funext x y p
    simp only [Has, emptyGroup_get hw]
  have hempty : ∀ x y p, ¬ w.Has w.nGrps x y p := by
    rintro x y p ⟨a, ha, -⟩
    rw [hw.fresh _ (Nat.le_refl _)] at ha; simp at ha
  refine ⟨_, ?_, rfl, fun x y p => ?_, fun g hg x y p => ?_⟩
  · simp only [newGroupLive, addGroupLive_eq hi, hit]
  · rw [Bool.eq_iff_iff, isCore_iff, isCore_iff, ← key]
    refine (hgrow.2.has w.nGrps x y p).trans ?_
    rw [hhas]; simp [hempty]
  · rw [Bool.eq_iff_iff, isCore_iff, isCore_iff]
    refine (hgrow.2.has g x y p).trans ?_
    have : g ≠ w.nGrps := by omega
    rw [hhas]; simp [this]

/-- moments one after the other, the first not before `w` -/
def Moments : CoreWorld → List CoreWorld → Prop
  | _, [] => True
  | w, w' :: ws => Later w w' ∧ Moments w' ws

theorem later_pre {w w' : CoreWorld} (h : Later w w') : Pre w w' := by
  induction h with
  | refl => exact .refl _
  | step _ s ih => exact ih.trans (step_pre s)

theorem moments_later {w : CoreWorld} {ws : List CoreWorld} (h : Moments w ws) : ∀ w' ∈ ws, Later w w' := by
  induction ws generalizing w with
  | nil => simp
  | cons x ws ih =>
    intro w' hw'
    rcases List.mem_cons.1 hw' with rfl | hw'
    · exact h.1
    · exact h.1.trans (ih h.2 w' hw')

private theorem ask_shape {α : Type} (f : CoreWorld → List α) (w : CoreWorld) (ws : List CoreWorld)
    (hpre : ∀ w' ∈ ws, f w <+: f w') :
    ∃ n tail, askAt f (.live 0 (f w).length) ws = ((f w).take n).map Reply.got ++ tail ∧
      ((∀ r ∈ tail, r = Reply.stop) ∧ (tail ≠ [] → (f w).length ≤ n) ∨
       (∀ r ∈ tail, r = Reply.raised .runtimeError) ∧ tail ≠ [] ∧ ∃ w' ∈ ws, f w ≠ f w') := by
  rw [askAt_feedD]
  obtain ⟨n, tail, h1, h2⟩ := feedD_live (f w) (ws.map f) 0 (by
    intro l hl
    obtain ⟨w', hw', rfl⟩ := List.mem_map.1 hl
    exact hpre w' hw') (Nat.zero_le _)
  rw [List.drop_zero] at h1 h2
  refine ⟨n, tail, h1, h2.imp_right ?_⟩
  rintro ⟨ha, hb, l, hl, hne⟩
  obtain ⟨w', hw', rfl⟩ := List.mem_map.1 hl
  exact ⟨ha, hb, w', hw', fun e => hne (by rw [e])⟩

/-- How the results of an iterator over `now` may look, given whether what it reads has `grown`: the
elements in order, a beginning of them if it was not asked to the end; then for ever
`StopIteration`, all elements having been produced; or, only if what it reads has grown, a
beginning of them and then for ever `RuntimeError`. -/
def GoodReplies {α : Type} (now : List α) (grown : Prop) (rs : List (Reply α)) : Prop :=
  (∃ n, rs = (now.take n).map Reply.got) ∨
  (∃ k, rs = now.map Reply.got ++ List.replicate k Reply.stop) ∨
  (grown ∧ ∃ n k, rs = (now.take n).map Reply.got ++ List.replicate k (.raised .runtimeError))

private theorem ask_good {α : Type} (f : CoreWorld → List α) (w : CoreWorld) (ws : List CoreWorld)
    (hpre : ∀ w' ∈ ws, f w <+: f w') :
    GoodReplies (f w) (∃ w' ∈ ws, f w ≠ f w') (askAt f (.live 0 (f w).length) ws) := by
  obtain ⟨n, tail, h1, h2⟩ := ask_shape f w ws hpre
  rw [h1]
  rcases h2 with ⟨ha, hb⟩ | ⟨ha, hb, hc⟩
  · by_cases ht : tail = []
    · exact .inl ⟨n, by simp [ht]⟩
    · refine .inr (.inl ⟨tail.length, ?_⟩)
      rw [List.take_of_length_le (hb ht), ← List.eq_replicate_of_mem ha]
  · refine .inr (.inr ⟨hc, n, tail.length, ?_⟩)
    rw [← List.eq_replicate_of_mem ha]

private theorem ask_grown {α : Type} (f : CoreWorld → List α) (w w1 : CoreWorld) (ws : List CoreWorld)
    (hpre : ∀ w' ∈ ws, f w <+: f w') (hpre1 : f w <+: f w1) (hne : f w1 ≠ f w)
    (hns : Reply.stop ∉ askAt f (.live 0 (f w).length) ws) :
    askAt f (.live 0 (f w).length) (ws ++ [w1]) = askAt f (.live 0 (f w).length) ws ++ [.raised .runtimeError] := by
  rw [askAt_feedD] at hns ⊢
  rw [askAt_feedD, List.map_append, List.map_singleton]
  obtain ⟨r, hr⟩ := feedD_append (f w1) (.live 0 (f w).length) (ws.map f)
  have := feedD_live_grown (f w) (f w1) (ws.map f) 0 (by
    intro l hl
    obtain ⟨w', hw', rfl⟩ := List.mem_map.1 hl
    exact hpre w' hw') (fun e => hne (prefix_eq_of_length hpre1 e)) (Nat.zero_le _) hns
  rw [hr] at this ⊢
  simpa using this

private theorem subsets_pre {w w' : CoreWorld} {g : Nat} (hg : g < w.nGrps) (h : Later w w') :
    w.iter g <+: w'.iter g := by
  obtain ⟨t, ht⟩ := (later_pre h).maps g hg
  unfold iter PDict.values
  rw [← ht, List.map_append]; exact List.prefix_append _ _

/-- if the group has the same chips it has the same subsets -/
private theorem same_chips {w w' : CoreWorld} (hr : CoreReach w) {g : Nat} (hg : g < w.nGrps) (h : Later w w') :
    w.iter g ≠ w'.iter g ↔ ∃ x y, w'.isChip g x y ∧ ¬ w.isChip g x y := by
  have hw' := CoreReach_inv (h.reach hr)
  obtain ⟨t, ht⟩ := (later_pre h).maps g hg
  have e : w'.iter g = w.iter g ++ t.map (·.2) := by
    unfold iter PDict.values; rw [← ht, List.map_append]
  have hk : (w'.grps g).map.keys = (w.grps g).map.keys ++ t.map (·.1) := by
    unfold PDict.keys; rw [← ht, List.map_append]
  have hnd : (w'.grps g).map.keys.Nodup := hw'.wf g
  have hc : ∀ (v : CoreWorld) x y, v.isChip g x y = true ↔ (x, y) ∈ (v.grps g).map.keys := by
    intro v x y
    unfold isChip PDict.contains
    rw [PDict.mem_keys_iff, Option.isSome_iff_exists]
  simp only [hc, e]
  rw [hk] at hnd ⊢
  constructor
  · intro hne
    cases t with
    | nil => simp at hne
    | cons a t =>
      refine ⟨a.1.1, a.1.2, by simp, fun hm => ?_⟩
      rw [List.nodup_append] at hnd
      exact hnd.2.2 _ hm _ (by simp) rfl
  · rintro ⟨x, y, h1, h2⟩ he
    have : t = [] := by simpa using he
    subst this
    simp at h1
    exact h2 (by simpa using h1)

/-- An iterator over the subsets of a group, while the program does anything with any of its objects:
what it produces; it fails only if the group has got a chip it did not have. -/
theorem C88_subsets (w : CoreWorld) (hr : CoreReach w) (g : Nat) (hg : g < w.nGrps) (ws : List CoreWorld)
    (hm : Moments w ws) : (w.askSubsets g ws).length = ws.length ∧
    GoodReplies (w.iter g) (∃ w' ∈ ws, ∃ x y, w'.isChip g x y ∧ ¬ w.isChip g x y) (w.askSubsets g ws) := by
  have hl := moments_later hm
  have := ask_good (fun w' => w'.iter g) w ws (fun w' hw' => subsets_pre hg (hl w' hw'))
  have he : (∃ w' ∈ ws, w.iter g ≠ w'.iter g) ↔ ∃ w' ∈ ws, ∃ x y, w'.isChip g x y ∧ ¬ w.isChip g x y := by
    constructor
    · rintro ⟨w', hw', h⟩; exact ⟨w', hw', (same_chips hr hg (hl w' hw')).1 h⟩
    · rintro ⟨w', hw', h⟩; exact ⟨w', hw', (same_chips hr hg (hl w' hw')).2 h⟩
  rw [← he]
  refine ⟨by rw [askSubsets, askAt_feedD, feedD_length, List.length_map], ?_⟩
  simpa [askSubsets, iter, PDict.values, PDict.size] using this

/-- A loop over the subsets of a group that adds cores only to chips the group already has sees every
subset once and does not fail. -/
theorem C88_subsets_quiet (w : CoreWorld) (hr : CoreReach w) (g : Nat) (hg : g < w.nGrps) (ws : List CoreWorld)
    (hm : Moments w ws) (hchips : ∀ w' ∈ ws, ∀ x y, w'.isChip g x y → w.isChip g x y) :
    w.askSubsets g ws = ((w.iter g).map Reply.got ++ List.replicate ws.length Reply.stop).take ws.length := by
  have hl := moments_later hm
  have := feedD_quiet (w.iter g) (ws.map fun w' => w'.iter g) (by
    intro l hl'
    obtain ⟨w', hw', rfl⟩ := List.mem_map.1 hl'
    refine Eq.symm (Classical.not_not.1 (fun hne : ¬ w.iter g = w'.iter g => ?_))
    obtain ⟨x, y, h1, h2⟩ := (same_chips hr hg (hl w' hw')).1 hne
    exact h2 (hchips w' hw' x y h1))
  rw [List.length_map] at this
  unfold askSubsets
  rw [askAt_feedD, ← this]
  simp [iter, PDict.values, PDict.size]

/-- A loop over a frozen group never fails, whatever the program does. -/
theorem C88_subsets_frozen (w : CoreWorld) (hr : CoreReach w) (g : Nat) (hg : g < w.nGrps) (ws : List CoreWorld)
    (hm : Moments w ws) (hf : (w.grps g).frozen) :
    w.askSubsets g ws = ((w.iter g).map Reply.got ++ List.replicate ws.length Reply.stop).take ws.length := by
  refine C88_subsets_quiet w hr g hg ws hm (fun w' hw' x y h => ?_)
  have := (later_pre (moments_later hm w' hw')).fixed g hg hf
  unfold isChip at h ⊢
  rw [this] at h; exact h

/-- When the group has got a new chip, an iterator that has not ended raises at the next `next()`. -/
theorem C88_subsets_detected (w w1 : CoreWorld) (hr : CoreReach w) (g : Nat) (hg : g < w.nGrps)
    (ws : List CoreWorld) (hm : Moments w (ws ++ [w1])) (x y : Int) (h1 : w1.isChip g x y) (h2 : ¬ w.isChip g x y)
    (hns : Reply.stop ∉ w.askSubsets g ws) :
    w.askSubsets g (ws ++ [w1]) = w.askSubsets g ws ++ [.raised .runtimeError] := by
  have hl := moments_later hm
  have e : (w.grps g).map.size = (w.iter g).length := by simp [iter, PDict.values, PDict.size]
  unfold askSubsets at hns ⊢
  rw [e] at hns ⊢
  exact ask_grown (fun w' => w'.iter g) w w1 ws (fun w' hw' => subsets_pre hg (hl w' (by simp [hw'])))
    (subsets_pre hg (hl w1 (by simp)))
    (fun he => (same_chips hr hg (hl w1 (by simp))).2 ⟨x, y, h1, h2⟩ he.symm) hns

private theorem procs_pre {w w' : CoreWorld} {a : Nat} (ha : a < w.nSubs) (h : Later w w') :
    (w.subs a).processorIds <+: (w'.subs a).processorIds := (later_pre h).procs a ha

private theorem same_procs {w w' : CoreWorld} (hr : CoreReach w) {a : Nat} (ha : a < w.nSubs) (h : Later w w') :
    (w.subs a).processorIds ≠ (w'.subs a).processorIds ↔ ∃ p, (w'.subs a).contains p ∧ ¬ (w.subs a).contains p := by
  have hnd := (CoreReach_inv (h.reach hr)).nodup a
  obtain ⟨t, ht⟩ := (later_pre h).procs a ha
  unfold CoreSubset.processorIds CoreSubset.contains
  rw [← ht] at hnd ⊢
  simp only [decide_eq_true_eq]
  constructor
  · intro hne
    cases t with
    | nil => simp at hne
    | cons p t =>
      refine ⟨p, by simp, fun hm => ?_⟩
      rw [List.nodup_append] at hnd
      exact hnd.2.2 _ hm _ (by simp) rfl
  · rintro ⟨p, h1, h2⟩ he
    have : t = [] := by simpa using he
    subst this
    exact h2 (by simpa using h1)

/-- An iterator over the processors of a subset, while the program does anything with any of its
objects: what it produces; it fails only if the subset has got a processor it did not have. -/
theorem C88_processors (w : CoreWorld) (hr : CoreReach w) (a : Nat) (ha : a < w.nSubs) (ws : List CoreWorld)
    (hm : Moments w ws) : (w.askProcs a ws).length = ws.length ∧
    GoodReplies (w.subs a).processorIds (∃ w' ∈ ws, ∃ p, (w'.subs a).contains p ∧ ¬ (w.subs a).contains p)
      (w.askProcs a ws) := by
  have hl := moments_later hm
  have := ask_good (fun w' => (w'.subs a).processorIds) w ws (fun w' hw' => procs_pre ha (hl w' hw'))
  have he : (∃ w' ∈ ws, (w.subs a).processorIds ≠ (w'.subs a).processorIds) ↔
      ∃ w' ∈ ws, ∃ p, (w'.subs a).contains p ∧ ¬ (w.subs a).contains p := by
    constructor
    · rintro ⟨w', hw', h⟩; exact ⟨w', hw', (same_procs hr ha (hl w' hw')).1 h⟩
    · rintro ⟨w', hw', h⟩; exact ⟨w', hw', (same_procs hr ha (hl w' hw')).2 h⟩
  rw [← he]
  exact ⟨by rw [askProcs, askAt_feedD, feedD_length, List.length_map], this⟩

/-- A loop over the processors of a subset that adds none it does not have sees each once and does not
fail. -/
theorem C88_processors_quiet (w : CoreWorld) (hr : CoreReach w) (a : Nat) (ha : a < w.nSubs)
    (ws : List CoreWorld) (hm : Moments w ws)
    (hps : ∀ w' ∈ ws, ∀ p, (w'.subs a).contains p → (w.subs a).contains p) :
    w.askProcs a ws =
      ((w.subs a).processorIds.map Reply.got ++ List.replicate ws.length Reply.stop).take ws.length := by
  have hl := moments_later hm
  have := feedD_quiet (w.subs a).processorIds (ws.map fun w' => (w'.subs a).processorIds) (by
    intro l hl'
    obtain ⟨w', hw', rfl⟩ := List.mem_map.1 hl'
    refine Eq.symm (Classical.not_not.1 (fun hne : ¬ _ = _ => ?_))
    obtain ⟨p, h1, h2⟩ := (same_procs hr ha (hl w' hw')).1 hne
    exact h2 (hps w' hw' p h1))
  rw [List.length_map] at this
  unfold askProcs
  rw [askAt_feedD, ← this]
  rfl

/-- When the subset has got a new processor, an iterator that has not ended raises at the next
`next()`. -/
theorem C88_processors_detected (w w1 : CoreWorld) (hr : CoreReach w) (a : Nat) (ha : a < w.nSubs)
    (ws : List CoreWorld) (hm : Moments w (ws ++ [w1])) (p : Int) (h1 : (w1.subs a).contains p)
    (h2 : ¬ (w.subs a).contains p) (hns : Reply.stop ∉ w.askProcs a ws) :
    w.askProcs a (ws ++ [w1]) = w.askProcs a ws ++ [.raised .runtimeError] := by
  have hl := moments_later hm
  exact ask_grown (fun w' => (w'.subs a).processorIds) w w1 ws
    (fun w' hw' => procs_pre ha (hl w' (by simp [hw']))) (procs_pre ha (hl w1 (by simp)))
    (fun he => (same_procs hr ha (hl w1 (by simp))).2 ⟨p, h1, h2⟩ he.symm) hns

/-! ### cases -/

/-- adding the second group to the first, and the first to itself -/
example : (exIntersect.addGroupLive 0 1).2 = none ∧ (exIntersect.addGroupLive 0 1).1.len 0 = 6 ∧
    exIntersect.len 0 = 4 ∧ (exIntersect.addGroupLive 0 0).1.len 0 = 4 := by decide +kernel

/-- a loop over the subsets of a group that adds a core to a chip it has, and then to a new chip -/
example : let w := exIntersect
    let w1 := w.groupAdd 0 0 1 9
    let w2 := w1.groupAdd 0 5 5 1
    Moments w [w, w1, w1, w1] ∧ w.askSubsets 0 [w, w1, w1, w1] = [.got 4, .got 5, .stop, .stop] ∧
    Moments w [w, w2, w2] ∧ w.askSubsets 0 [w, w2, w2] = [.got 4, .raised .runtimeError, .raised .runtimeError] := by
  have h1 : Later exIntersect (exIntersect.groupAdd 0 0 1 9) :=
    .step (.refl _) (.addProcessor 0 (by decide +kernel) 0 1 9 rfl)
  have h2 : Later (exIntersect.groupAdd 0 0 1 9) ((exIntersect.groupAdd 0 0 1 9).groupAdd 0 5 5 1) :=
    .step (.refl _) (.addProcessor 0 (by decide +kernel) 5 5 1 rfl)
  exact ⟨⟨.refl _, h1, .refl _, .refl _, trivial⟩, by decide +kernel,
    ⟨.refl _, h1.trans h2, .refl _, trivial⟩, by decide +kernel⟩

end SpiNN.Props
