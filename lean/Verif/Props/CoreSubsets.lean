import Verif.Lemmas.CoreSubsets

/-!
# Core subsets: C50, C51, C52
-/

namespace SpiNN.Props
open SpiNN Spec CoreWorld

theorem CoreStep_inv {w w' : CoreWorld} (hw : w.Inv) (s : CoreStep w w') : w'.Inv := by
  cases s with
  | newSubset x y ps => exact newSubset_inv hw _ (CoreSubset.mk'_spec x y ps).2.2.2
  | subsetIntersect a b => exact newSubset_inv hw _ (CoreSubset.intersect_spec _ _).2.2.2
  | subsetAdd a ha p => exact subsetAdd_inv hw a p
  | newGroup frozen as h => exact (newGroup_grow hw frozen as h).2.inv
  | addProcessor g hg x y p h =>
    unfold CoreWorld.addProcessor at h
    split at h
    · simp at h
    · simp only [Except.ok.injEq] at h; subst h
      exact (groupAdd_grow hw hg x y p).inv
  | addCoreSubset g a hg ha h =>
    unfold CoreWorld.addCoreSubset at h
    split at h
    · simp at h
    · simp only [Except.ok.injEq] at h; subst h
      exact (groupAddSubset_grow hw hg a).inv
  | addCoreSubsets g as hg ha h =>
    unfold CoreWorld.addCoreSubsets at h
    split at h
    · simp at h
    · simp only [Except.ok.injEq] at h; subst h
      exact (groupAddSubsets_grow g as hw hg ha).inv
  | getSubset g hg x y =>
    unfold CoreWorld.getSubset
    split
    · exact newSubset_inv hw _ (CoreSubset.mk'_spec x y []).2.2.2
    · exact hw
  | intersect g other r hg ho h =>
    obtain ⟨w1, h1, h2⟩ := intersect_grow hw hg ho
    rw [h] at h1
    simp only [Except.ok.injEq, Prod.mk.injEq] at h1
    rw [h1.2]
    exact h2.inv

theorem CoreReach_inv {w : CoreWorld} (h : CoreReach w) : w.Inv := by
  induction h with
  | start => exact inv_empty
  | step _ s ih => exact CoreStep_inv ih s

/-! ### C50 -/

theorem mem_iter {w : CoreWorld} (hw : w.Inv) (g a : Nat) :
    a ∈ w.iter g ↔ ∃ xy, (w.grps g).map.get? xy = some a := PDict.mem_values_iff (hw.wf g) a

/-- C50, the questions one can ask: in every reachable state all of them agree with the set of
cores `is_core` describes. There is one subset per chip, none is empty, `len` is the number of
cores, `get_core_subset_for_chip` and `[x, y]` return the cores of that chip. -/
theorem C50_queries (w : CoreWorld) (h : CoreReach w) (g : Nat) :
    (∀ x y, w.isChip g x y = true ↔ ∃ p, w.isCore g x y p = true) ∧
    (∃ l : List (Int × Int × Int), l.Nodup ∧ (∀ x y p, (x, y, p) ∈ l ↔ w.isCore g x y p = true) ∧
      w.len g = l.length) ∧
    ((w.iter g).map (fun a => ((w.subs a).x, (w.subs a).y))).Nodup ∧
    (∀ x y p, w.isCore g x y p = true ↔
      ∃ a ∈ w.iter g, (w.subs a).x = x ∧ (w.subs a).y = y ∧ (w.subs a).contains p = true) ∧
    (∀ x y, let (a, w') := w.getSubset g x y
      (w'.subs a).x = x ∧ (w'.subs a).y = y ∧
      (∀ p, (w'.subs a).contains p = true ↔ w.isCore g x y p = true) ∧
      (w'.subs a).processorIds.Nodup ∧ (w'.subs a).len = (w'.subs a).processorIds.length ∧
      (∀ p, p ∈ (w'.subs a).processorIds ↔ w.isCore g x y p = true) ∧
      (∀ g' x' y' p', w'.isCore g' x' y' p' = w.isCore g' x' y' p')) ∧
    (∀ x y, w.getItem g x y = .error .keyError ∧ w.isChip g x y = false ∨
      w.isChip g x y = true ∧ w.getItem g x y = .ok (w.getSubset g x y).1) := by
  have hw := CoreReach_inv h
  have hchip : ∀ x y, w.isChip g x y = true ↔ ∃ p, w.isCore g x y p = true := by
    intro x y
    simp only [isChip, PDict.contains, isCore_iff, Has]
    cases hget : (w.grps g).map.get? (x, y) with
    | none => simp
    | some a =>
      obtain ⟨-, -, -, hne⟩ := hw.own _ _ _ hget
      obtain ⟨p, hp⟩ := List.exists_mem_of_ne_nil _ hne
      simp only [Option.isSome_some, Option.some.injEq, true_iff]
      exact ⟨p, a, rfl, hp⟩
  have hiter : (w.iter g).map (fun a => ((w.subs a).x, (w.subs a).y)) = (w.grps g).map.keys := by
    unfold iter PDict.values PDict.keys
    rw [List.map_map]
    apply List.map_congr_left
    intro kv hkv
    obtain ⟨-, h1, h2, -⟩ := hw.own g kv.1 kv.2 ((PDict.mem_items_iff (hw.wf g) _ _).1 hkv)
    exact Prod.ext h1 h2
  have hnd : ((w.iter g).map (fun a => ((w.subs a).x, (w.subs a).y))).Nodup := by
    rw [hiter]; exact hw.wf g
  have hmem : ∀ x y p, w.isCore g x y p = true ↔
      ∃ a ∈ w.iter g, (w.subs a).x = x ∧ (w.subs a).y = y ∧ (w.subs a).contains p = true := by
    intro x y p
    rw [isCore_iff]
    constructor
    · rintro ⟨a, ha, hp⟩
      obtain ⟨-, h1, h2, -⟩ := hw.own _ _ _ ha
      exact ⟨a, (mem_iter hw g a).2 ⟨_, ha⟩, h1, h2, by simpa [CoreSubset.contains] using hp⟩
    · rintro ⟨a, ha, h1, h2, hp⟩
      obtain ⟨xy, hxy⟩ := (mem_iter hw g a).1 ha
      obtain ⟨-, k1, k2, -⟩ := hw.own _ _ _ hxy
      have : (x, y) = xy := Prod.ext (h1.symm.trans k1) (h2.symm.trans k2)
      exact ⟨a, this ▸ hxy, by simpa [CoreSubset.contains] using hp⟩
  refine ⟨hchip, ⟨(w.iter g).flatMap (fun a => (w.subs a).procs.map
    (fun p => ((w.subs a).x, (w.subs a).y, p))), ?_, ?_, ?_⟩, hnd, hmem, ?_, ?_⟩
  · rw [List.Nodup, List.pairwise_flatMap]
    constructor
    · intro a _
      exact List.pairwise_map.2 ((hw.nodup a).imp (fun hne he => hne (by simpa using he)))
    · have := List.pairwise_map.1 hnd
      refine this.imp ?_
      intro a b hne t ht u hu he
      simp only [List.mem_map] at ht hu
      obtain ⟨p, -, rfl⟩ := ht
      obtain ⟨q, -, rfl⟩ := hu
      simp only [Prod.mk.injEq] at he
      exact hne (Prod.ext he.1 he.2.1)
  · intro x y p
    rw [hmem]
    simp only [List.mem_flatMap, List.mem_map, Prod.mk.injEq, CoreSubset.contains, decide_eq_true_eq]
    constructor
    · rintro ⟨a, ha, q, hq, rfl, rfl, rfl⟩; exact ⟨a, ha, rfl, rfl, hq⟩
    · rintro ⟨a, ha, rfl, rfl, hq⟩; exact ⟨a, ha, p, hq, rfl, rfl, rfl⟩
  · simp only [len, List.length_flatMap, List.length_map]; rfl
  · intro x y
    unfold getSubset
    cases hget : (w.grps g).map.get? (x, y) with
    | none =>
      obtain ⟨m1, m2, m3, m4⟩ := CoreSubset.mk'_spec x y []
      have hs : (w.newSubset (CoreSubset.mk' x y [])).2.subs w.nSubs = CoreSubset.mk' x y [] := by
        simp [newSubset, upd]
      have hno : ∀ p, ¬ w.isCore g x y p = true := fun p hp => by
        rw [isCore_iff] at hp
        obtain ⟨a, ha, -⟩ := hp
        rw [hget] at ha; simp at ha
      have hs' : ∀ P : CoreSubset → Prop, P (CoreSubset.mk' x y []) →
          P ((w.newSubset (CoreSubset.mk' x y [])).2.subs w.nSubs) := fun P hP => by rw [hs]; exact hP
      refine ⟨hs' (fun s => s.x = x) m1, hs' (fun s => s.y = y) m2,
        fun p => hs' (fun s => s.contains p = true ↔ _) ?_, hs' (fun s => s.processorIds.Nodup) m4,
        rfl, fun p => hs' (fun s => p ∈ s.processorIds ↔ _) ?_, fun g' x' y' p' => ?_⟩
      · simp [CoreSubset.contains, m3, hno]
      · simp [CoreSubset.processorIds, m3, hno]
      · show (w.newSubset (CoreSubset.mk' x y [])).2.isCore g' x' y' p' = _
        rw [Bool.eq_iff_iff, isCore_iff, isCore_iff, newSubset_has hw]
    | some a =>
      obtain ⟨-, h1, h2, -⟩ := hw.own _ _ _ hget
      have hp : ∀ p, p ∈ (w.subs a).procs ↔ w.isCore g x y p = true := fun p => by
        rw [isCore_iff, Has, hget]; simp
      exact ⟨h1, h2, fun p => by rw [← hp]; simp [CoreSubset.contains], hw.nodup a, rfl, hp,
        fun _ _ _ _ => rfl⟩
  · intro x y
    unfold getItem isChip getSubset PDict.getE PDict.contains
    cases hget : (w.grps g).map.get? (x, y) with
    | none => left; simp
    | some a => right; simp

/-- C50, each call: `add_processor`, `add_core_subset` and `add_core_subsets` add exactly the
cores given to that group and to nothing else; adding a processor to a subset object changes
exactly the group that handed it out, if any. -/
theorem C50_steps (w : CoreWorld) (h : CoreReach w) (g : Nat) (hg : g < w.nGrps) :
    (∀ x y p w', w.addProcessor g x y p = .ok w' → ∀ g' x' y' p',
      (w'.isCore g' x' y' p' = true ↔
        w.isCore g' x' y' p' = true ∨ (g' = g ∧ (x', y', p') = (x, y, p)))) ∧
    (∀ a, a < w.nSubs → ∀ w', w.addCoreSubset g a = .ok w' → ∀ g' x' y' p',
      (w'.isCore g' x' y' p' = true ↔
        w.isCore g' x' y' p' = true ∨ (g' = g ∧ x' = (w.subs a).x ∧ y' = (w.subs a).y ∧
          (w.subs a).contains p' = true))) ∧
    (∀ as : List Nat, (∀ a ∈ as, a < w.nSubs) → ∀ w', w.addCoreSubsets g as = .ok w' →
      ∀ g' x' y' p', (w'.isCore g' x' y' p' = true ↔
        w.isCore g' x' y' p' = true ∨ (g' = g ∧ ∃ a ∈ as, x' = (w.subs a).x ∧ y' = (w.subs a).y ∧
          (w.subs a).contains p' = true))) ∧
    (∀ a p g' x' y' p', ((w.subsetAdd a p).isCore g' x' y' p' = true ↔
        w.isCore g' x' y' p' = true ∨
          (HandedOut w g' a ∧ x' = (w.subs a).x ∧ y' = (w.subs a).y ∧ p' = p))) := by
  have hw := CoreReach_inv h
  refine ⟨?_, ?_, ?_, ?_⟩
  · intro x y p w' hok g' x' y' p'
    unfold addProcessor at hok
    split at hok
    · simp at hok
    · simp only [Except.ok.injEq] at hok; subst hok
      rw [isCore_iff, isCore_iff, (groupAdd_grow hw hg x y p).has]
      simp
  · intro a ha w' hok g' x' y' p'
    unfold addCoreSubset at hok
    split at hok
    · simp at hok
    · simp only [Except.ok.injEq] at hok; subst hok
      rw [isCore_iff, isCore_iff, (groupAddSubset_grow hw hg a).has]
      simp [SubHas, CoreSubset.contains]
  · intro as ha w' hok g' x' y' p'
    unfold addCoreSubsets at hok
    split at hok
    · simp at hok
    · simp only [Except.ok.injEq] at hok; subst hok
      rw [isCore_iff, isCore_iff, (groupAddSubsets_grow g as hw hg ha).has]
      simp [SubHas, CoreSubset.contains]
  · intro a p g' x' y' p'
    rw [isCore_iff, isCore_iff, subsetAdd_has]
    constructor
    · rintro (hh | ⟨hh, rfl⟩)
      · exact Or.inl hh
      · obtain ⟨-, h1, h2, -⟩ := hw.own _ _ _ hh
        exact Or.inr ⟨(mem_iter hw g' a).2 ⟨_, hh⟩, h1.symm, h2.symm, rfl⟩
    · rintro (hh | ⟨hh, rfl, rfl, rfl⟩)
      · exact Or.inl hh
      · obtain ⟨xy, hxy⟩ := (mem_iter hw g' a).1 hh
        obtain ⟨-, h1, h2, -⟩ := hw.own _ _ _ hxy
        refine Or.inr ⟨?_, rfl⟩
        rw [h1, h2]; exact hxy

theorem newSubsets_spec (g : Nat) : ∀ (l : List (Int × Int × List Int)) {w : CoreWorld}, w.Inv →
    Grow w (newSubsets w l).2 g (fun _ _ _ => False) ∧
    (∀ a ∈ (newSubsets w l).1, a < (newSubsets w l).2.nSubs) ∧
    (∀ a ∈ (newSubsets w l).1, w.nSubs ≤ a) ∧
    ∀ x y p, (∃ a ∈ (newSubsets w l).1, (newSubsets w l).2.SubHas a x y p) ↔
      (x, y, p) ∈ (GroupOp.addCoreSubsets l).adds := by
  intro l
  induction l with
  | nil => intro w hw; exact ⟨Grow.refl hw g, by simp [newSubsets], by simp [newSubsets], by simp [newSubsets, GroupOp.adds]⟩
  | cons s t ih =>
    intro w hw
    obtain ⟨x0, y0, ps⟩ := s
    obtain ⟨m1, m2, m3, m4⟩ := CoreSubset.mk'_spec x0 y0 ps
    have g1 := newSubset_grow hw (CoreSubset.mk' x0 y0 ps) m4 g
    obtain ⟨g2, h2, h2', h3⟩ := ih g1.inv
    have hlt : w.nSubs < (w.newSubset (CoreSubset.mk' x0 y0 ps)).2.nSubs := Nat.lt_succ_self _
    have hs : (newSubsets (w.newSubset (CoreSubset.mk' x0 y0 ps)).2 t).2.subs w.nSubs =
        CoreSubset.mk' x0 y0 ps := by
      rw [g2.frame _ hlt]
      · simp [newSubset, upd]
      · intro xy hxy
        have := (hw.own g xy _ hxy).1
        omega
    refine ⟨(g1.trans g2).congr (by simp), ?_, ?_, ?_⟩
    · intro a ha
      rcases List.mem_cons.1 ha with rfl | ha
      · exact Nat.lt_of_lt_of_le hlt g2.nSubs
      · exact h2 a ha
    · intro a ha
      rcases List.mem_cons.1 ha with rfl | ha
      · exact Nat.le_refl _
      · exact Nat.le_trans (Nat.le_of_lt hlt) (h2' a ha)
    · intro x y p
      have e1 : (x, y, p) ∈ (GroupOp.addCoreSubsets ((x0, y0, ps) :: t)).adds ↔
          (x = x0 ∧ y = y0 ∧ p ∈ ps) ∨ (x, y, p) ∈ (GroupOp.addCoreSubsets t).adds := by
        simp only [GroupOp.adds, List.flatMap_cons, List.mem_append, List.mem_map, Prod.mk.injEq]
        constructor
        · rintro (⟨q, hq, rfl, rfl, rfl⟩ | hh)
          · exact Or.inl ⟨rfl, rfl, hq⟩
          · exact Or.inr hh
        · rintro (⟨rfl, rfl, hq⟩ | hh)
          · exact Or.inl ⟨p, hq, rfl, rfl, rfl⟩
          · exact Or.inr hh
      rw [e1, ← h3]
      show (∃ a, a ∈ w.nSubs :: _ ∧ _) ↔ _
      constructor
      · rintro ⟨a, ha, hh⟩
        rcases List.mem_cons.1 ha with rfl | ha
        · left
          have hh' : x = _ ∧ y = _ ∧ p ∈ _ := hh
          rw [show (newSubsets w ((x0, y0, ps) :: t)).2 =
            (newSubsets (w.newSubset (CoreSubset.mk' x0 y0 ps)).2 t).2 from rfl, hs] at hh'
          exact ⟨hh'.1.trans m1, hh'.2.1.trans m2, (m3 p).1 hh'.2.2⟩
        · exact Or.inr ⟨a, ha, hh⟩
      · rintro (⟨rfl, rfl, hp⟩ | ⟨a, ha, hh⟩)
        · refine ⟨w.nSubs, List.mem_cons_self, ?_⟩
          show _ = _ ∧ _ = _ ∧ _ ∈ _
          rw [show (newSubsets w ((x, y, ps) :: t)).2 =
            (newSubsets (w.newSubset (CoreSubset.mk' x y ps)).2 t).2 from rfl, hs]
          exact ⟨m1.symm, m2.symm, (m3 p).2 hp⟩
        · exact ⟨a, List.mem_cons_of_mem _ ha, hh⟩

theorem GroupOp_run {w : CoreWorld} (hw : w.Inv) {g : Nat} (hg : g < w.nGrps)
    (hfr : (w.grps g).frozen = false) (op : GroupOp) :
    ∃ w', op.run g w = .ok w' ∧ Grow w w' g (fun x y p => (x, y, p) ∈ op.adds) := by
  cases op with
  | addProcessor x y p =>
    refine ⟨_, by simp [GroupOp.run, CoreWorld.addProcessor, hfr],
      (groupAdd_grow hw hg x y p).congr (by simp [GroupOp.adds])⟩
  | addCoreSubsets l =>
    obtain ⟨g1, h1, -, h2⟩ := newSubsets_spec g l hw
    have g2 := groupAddSubsets_grow g (newSubsets w l).1 g1.inv (by rw [g1.nGrps]; exact hg) h1
    refine ⟨_, by simp [GroupOp.run, CoreWorld.addCoreSubsets, g1.frozen, hfr],
      (g1.trans g2).congr (fun x y p => ?_)⟩
    rw [h2]; simp
  | addCoreSubset x0 y0 ps =>
    obtain ⟨g1, h1, -, h2⟩ := newSubsets_spec g [(x0, y0, ps)] hw
    have g2 := groupAddSubsets_grow g (newSubsets w [(x0, y0, ps)]).1 g1.inv
      (by rw [g1.nGrps]; exact hg) h1
    refine ⟨(newSubsets w [(x0, y0, ps)]).2.groupAddSubsets g (newSubsets w [(x0, y0, ps)]).1, ?_,
      (g1.trans g2).congr (fun x y p => ?_)⟩
    · have hf := g1.frozen g
      rw [hfr] at hf
      have hf' : ((w.newSubset (CoreSubset.mk' x0 y0 ps)).2.grps g).frozen = false := hf
      simp only [GroupOp.run, CoreWorld.addCoreSubset]
      rw [hf']
      simp only [Bool.false_eq_true, if_false, Except.ok.injEq]
      rfl
    · rw [h2]; simp [GroupOp.adds]

theorem runGroup_grow (g : Nat) : ∀ (ops : List GroupOp) {w : CoreWorld}, w.Inv → g < w.nGrps →
    (w.grps g).frozen = false →
    ∃ w', runGroup g w ops = .ok w' ∧ Grow w w' g (fun x y p => (x, y, p) ∈ ops.flatMap GroupOp.adds) := by
  intro ops
  induction ops with
  | nil => intro w hw _ _; exact ⟨w, rfl, (Grow.refl hw g).congr (by simp)⟩
  | cons op t ih =>
    intro w hw hg hfr
    obtain ⟨w1, h1, g1⟩ := GroupOp_run hw hg hfr op
    obtain ⟨w2, h2, g2⟩ := ih g1.inv (by rw [g1.nGrps]; exact hg) (by rw [g1.frozen]; exact hfr)
    exact ⟨w2, by simp only [runGroup, h1, h2], (g1.trans g2).congr (by simp)⟩

/-- C50, histories: after any sequence of `add_processor`, `add_core_subset` and
`add_core_subsets` calls on a new `CoreSubsets`, it contains exactly the cores that were added.
No call raises and nothing else changes. -/
theorem C50_history (w : CoreWorld) (h : CoreReach w) (ops : List GroupOp) :
    ∃ w', runGroup (w.newGroup false []).1 (w.newGroup false []).2 ops = .ok w' ∧
      (∀ x y p, w'.isCore (w.newGroup false []).1 x y p = true ↔ (x, y, p) ∈ ops.flatMap GroupOp.adds) ∧
      (∀ x y, w'.isChip (w.newGroup false []).1 x y = true ↔ ∃ p, (x, y, p) ∈ ops.flatMap GroupOp.adds) ∧
      ∀ g' x y p, g' ≠ (w.newGroup false []).1 → w'.isCore g' x y p = w.isCore g' x y p := by
  have hw := CoreReach_inv h
  obtain ⟨hg0, g0⟩ := newGroup_grow hw false [] (by simp)
  have hempty : ∀ g' x y p, (w.newGroup false []).2.Has g' x y p ↔ w.Has g' x y p := by
    intro g' x y p
    rw [g0.has]
    simp only [Has, emptyGroup_get hw]
    simp
  obtain ⟨w', h1, g1⟩ := runGroup_grow (w.newGroup false []).1 ops g0.inv
    (by rw [hg0, g0.nGrps]; exact Nat.lt_succ_self _) (by rw [g0.frozen, hg0]; simp [upd])
  have hno : ∀ x y p, ¬ w.Has w.nGrps x y p := by
    rintro x y p ⟨a, ha, -⟩
    rw [hw.fresh _ (Nat.le_refl _)] at ha; simp at ha
  have hcore : ∀ x y p, w'.isCore (w.newGroup false []).1 x y p = true ↔
      (x, y, p) ∈ ops.flatMap GroupOp.adds := by
    intro x y p
    rw [isCore_iff, g1.has, hempty, hg0]
    simp [hno]
  refine ⟨w', h1, hcore, fun x y => ?_, fun g' x y p hne => ?_⟩
  · simp only [← hcore, isCore_iff, Has]
    simp only [isChip, PDict.contains]
    cases hget : (w'.grps (w.newGroup false []).1).map.get? (x, y) with
    | none => simp
    | some a =>
      obtain ⟨-, -, -, hne⟩ := g1.inv.own _ _ _ hget
      obtain ⟨p, hp⟩ := List.exists_mem_of_ne_nil _ hne
      simp only [Option.isSome_some, Option.some.injEq, true_iff]
      exact ⟨p, a, rfl, hp⟩
  · rw [Bool.eq_iff_iff, isCore_iff, isCore_iff, g1.has, hempty]
    simp [hne]

/-- C50: adding is idempotent and the order does not matter: histories that add the same cores
give collections that answer `is_core`, `is_chip` the same. -/
theorem C50_order_insensitive (w : CoreWorld) (h : CoreReach w) (ops ops' : List GroupOp)
    (heq : ∀ t, t ∈ ops.flatMap GroupOp.adds ↔ t ∈ ops'.flatMap GroupOp.adds) (w1 w2 : CoreWorld)
    (h1 : runGroup (w.newGroup false []).1 (w.newGroup false []).2 ops = .ok w1)
    (h2 : runGroup (w.newGroup false []).1 (w.newGroup false []).2 ops' = .ok w2) :
    (∀ x y p, w1.isCore (w.newGroup false []).1 x y p = w2.isCore (w.newGroup false []).1 x y p) ∧
    (∀ x y, w1.isChip (w.newGroup false []).1 x y = w2.isChip (w.newGroup false []).1 x y) := by
  obtain ⟨w1', e1, c1, d1, -⟩ := C50_history w h ops
  obtain ⟨w2', e2, c2, d2, -⟩ := C50_history w h ops'
  rw [h1] at e1; rw [h2] at e2
  simp only [Except.ok.injEq] at e1 e2
  subst e1; subst e2
  refine ⟨fun x y p => ?_, fun x y => ?_⟩
  · rw [Bool.eq_iff_iff, c1, c2, heq]
  · rw [Bool.eq_iff_iff, d1, d2]; simp only [heq]

/-- a case: a program adds core 1 and 2 of chip (0, 0) and core 5 of chip (1, 1), twice -/
example : ∃ w', runGroup 0 (CoreWorld.empty.newGroup false []).2
      [.addProcessor 0 0 1, .addCoreSubsets [(1, 1, [5]), (0, 0, [1, 2])], .addProcessor 1 1 5] = .ok w' ∧
    w'.len 0 = 3 ∧ w'.isCore 0 0 0 2 = true ∧ w'.isCore 0 1 1 2 = false ∧ w'.isChip 0 1 1 = true := by
  refine ⟨_, rfl, ?_⟩
  decide +kernel

/-! ### C51 -/

/-- C51 for one chip: `CoreSubset.intersect` is the set of common processors, on the chip of the
first operand. -/
theorem C51_subset (a b : CoreSubset) :
    (a.intersect b).x = a.x ∧ (a.intersect b).y = a.y ∧
    ∀ p, (a.intersect b).contains p = true ↔ a.contains p = true ∧ b.contains p = true := by
  obtain ⟨h1, h2, h3, -⟩ := CoreSubset.intersect_spec a b
  exact ⟨h1, h2, fun p => by simp [CoreSubset.contains, h3]⟩

/-- C51: `intersect` never raises; the new `CoreSubsets` contains exactly the cores in both, it
has no empty chip, no object that existed before is changed, and all its subsets are new
objects. -/
theorem C51_intersect (w : CoreWorld) (h : CoreReach w) (g other : Nat) (hg : g < w.nGrps)
    (ho : other < w.nGrps) :
    ∃ r w', w.intersect g other = .ok (r, w') ∧ w.nGrps ≤ r ∧ (w'.grps r).frozen = false ∧
      (∀ x y p, w'.isCore r x y p = true ↔ w.isCore g x y p = true ∧ w.isCore other x y p = true) ∧
      (∀ x y, w'.isChip r x y = true → ∃ p, w'.isCore r x y p = true) ∧
      (∀ g', g' < w.nGrps → w'.grps g' = w.grps g' ∧
        ∀ x y p, w'.isCore g' x y p = w.isCore g' x y p) ∧
      (∀ a, a < w.nSubs → w'.subs a = w.subs a) ∧
      (∀ a ∈ w'.iter r, w.nSubs ≤ a) := by
  have hw := CoreReach_inv h
  obtain ⟨w', h1, g1⟩ := intersect_grow hw hg ho
  have hno : ∀ x y p, ¬ Has { w with
      grps := upd w.grps w.nGrps { frozen := false, map := .empty }, nGrps := w.nGrps + 1 } w.nGrps x y p := by
    rintro x y p ⟨a, ha, -⟩
    simp [upd] at ha
  have hcore : ∀ x y p, w'.isCore w.nGrps x y p = true ↔
      w.isCore g x y p = true ∧ w.isCore other x y p = true := by
    intro x y p
    rw [isCore_iff, isCore_iff, isCore_iff, g1.has]
    simp [hno]
  have hr : CoreReach w' := .step h (.intersect g other w.nGrps hg ho h1)
  refine ⟨w.nGrps, w', h1, Nat.le_refl _, by rw [g1.frozen]; simp [upd], hcore,
    fun x y hc => ((C50_queries w' hr w.nGrps).1 x y).1 hc, ?_, ?_, ?_⟩
  · intro g' hg'
    have hmaps : w'.grps g' = w.grps g' := by
      have hstep := h1
      simp only [CoreWorld.intersect] at hstep
      have key : ∀ (keys : List XY) (w1 w2 : CoreWorld), g' ≠ w.nGrps →
          intersectLoop g other w.nGrps w1 keys = .ok w2 → w2.grps g' = w1.grps g' := by
        intro keys
        induction keys with
        | nil => intro w1 w2 _ hh; simp only [intersectLoop, Except.ok.injEq] at hh; rw [hh]
        | cons xy t ih =>
          intro w1 w2 hne hh
          simp only [intersectLoop] at hh
          split at hh
          · simp at hh
          · rename_i w3 h3
            rw [ih w3 w2 hne hh]
            have add : ∀ (ps : List Int) (x y : Int) (w4 : CoreWorld),
                (ps.foldl (fun w' p => w'.groupAdd w.nGrps x y p) w4).grps g' = w4.grps g' := by
              intro ps x y
              induction ps with
              | nil => intro w4; rfl
              | cons p t ih =>
                intro w4
                rw [List.foldl_cons, ih]
                unfold groupAdd
                split
                · simp only [newSubset, upd]; rw [if_neg hne]
                · rfl
            unfold intersectChip at h3
            split at h3
            · split at h3
              · simp only at h3
                split at h3
                · unfold CoreWorld.addCoreSubset at h3
                  split at h3
                  · simp at h3
                  · simp only [Except.ok.injEq] at h3
                    rw [← h3]
                    exact add _ _ _ _
                · simp only [Except.ok.injEq] at h3
                  rw [← h3]; rfl
              · simp at h3
              · simp at h3
            · simp only [Except.ok.injEq] at h3
              rw [h3]
      split at hstep
      · simp at hstep
      · rename_i w5 h5
        simp only [Except.ok.injEq, Prod.mk.injEq] at hstep
        rw [← hstep.2, key _ _ _ (by omega) h5]
        simp only [newGroup, groupAddSubsets, List.foldl_nil, upd]
        rw [if_neg (by omega)]
    refine ⟨hmaps, fun x y p => ?_⟩
    rw [Bool.eq_iff_iff, isCore_iff, isCore_iff, g1.has]
    simp only [Has, emptyGroup_get hw]
    have : g' ≠ w.nGrps := by omega
    simp [this]
  · intro a ha
    exact g1.frame a ha (fun xy hxy => by simp [upd] at hxy)
  · intro a ha
    obtain ⟨xy, hxy⟩ := (mem_iter g1.inv _ _).1 ha
    rcases g1.new _ _ _ hxy with hh | ⟨-, hh⟩
    · simp [upd] at hh
    · exact hh

/-- two groups that exist for `C51_intersect` -/
def exIntersect : CoreWorld :=
  let (a, w) := CoreWorld.empty.newSubset (CoreSubset.mk' 0 0 [1, 2, 3])
  let (b, w) := w.newSubset (CoreSubset.mk' 0 1 [4])
  let (c, w) := w.newSubset (CoreSubset.mk' 0 0 [3, 2, 7])
  let (d, w) := w.newSubset (CoreSubset.mk' 0 1 [5])
  let (_, w) := w.newGroup false [a, b]
  let (_, w) := w.newGroup true [c, d]
  w

theorem exIntersect_reach : CoreReach exIntersect := by
  refine .step (.step (.step (.step (.step (.step .start (.newSubset 0 0 [1, 2, 3]))
    (.newSubset 0 1 [4])) (.newSubset 0 0 [3, 2, 7])) (.newSubset 0 1 [5]))
    (.newGroup false [0, 1] ?_)) (.newGroup true [2, 3] ?_) <;> decide +kernel

example : ∃ w', exIntersect.intersect 0 1 = .ok (2, w') ∧ w'.len 2 = 2 ∧ w'.isCore 2 0 0 2 = true ∧
    w'.isCore 2 0 0 3 = true ∧ w'.isChip 2 0 1 = false := by
  refine ⟨_, rfl, ?_⟩
  decide +kernel

/-! ### C52 -/

/-- C52: every adding method of a `FrozenCoreSubsets` raises `RuntimeError`. -/
theorem C52_adds_raise (w : CoreWorld) (g : Nat) (hf : (w.grps g).frozen = true) :
    (∀ x y p, w.addProcessor g x y p = .error .runtimeError) ∧
    (∀ a, w.addCoreSubset g a = .error .runtimeError) ∧
    (∀ as, w.addCoreSubsets g as = .error .runtimeError) := by
  simp [addProcessor, addCoreSubset, addCoreSubsets, hf]

/-- a frozen group is created with exactly the cores of the subsets it is built from, in objects
of its own -/
theorem C52_created (w : CoreWorld) (h : CoreReach w) (frozen : Bool) (as : List Nat)
    (ha : ∀ a ∈ as, a < w.nSubs) :
    (((w.newGroup frozen as).2).grps (w.newGroup frozen as).1).frozen = frozen ∧
    (∀ x y p, (w.newGroup frozen as).2.isCore (w.newGroup frozen as).1 x y p = true ↔
      ∃ a ∈ as, x = (w.subs a).x ∧ y = (w.subs a).y ∧ (w.subs a).contains p = true) ∧
    (∀ a ∈ (w.newGroup frozen as).2.iter (w.newGroup frozen as).1, w.nSubs ≤ a) ∧
    (∀ a, a < w.nSubs → (w.newGroup frozen as).2.subs a = w.subs a) ∧
    (∀ g', g' < w.nGrps → ∀ x y p, (w.newGroup frozen as).2.isCore g' x y p = w.isCore g' x y p) := by
  have hw := CoreReach_inv h
  obtain ⟨hg0, g0⟩ := newGroup_grow hw frozen as ha
  rw [hg0]
  have hno : ∀ x y p, ¬ Has { w with
      grps := upd w.grps w.nGrps { frozen, map := .empty }, nGrps := w.nGrps + 1 } w.nGrps x y p := by
    rintro x y p ⟨a, ha, -⟩
    simp [upd] at ha
  refine ⟨by rw [g0.frozen]; simp [upd], fun x y p => ?_, fun a hh => ?_, fun a hlt => ?_,
    fun g' hg' x y p => ?_⟩
  · rw [isCore_iff, g0.has]
    simp [hno, SubHas, CoreSubset.contains]
  · obtain ⟨xy, hxy⟩ := (mem_iter g0.inv _ _).1 hh
    rcases g0.new _ _ _ hxy with hh | ⟨-, hh⟩
    · simp [upd] at hh
    · exact hh
  · exact g0.frame a hlt (fun xy hxy => by simp [upd] at hxy)
  · rw [Bool.eq_iff_iff, isCore_iff, isCore_iff, g0.has]
    simp only [Has, emptyGroup_get hw]
    have : g' ≠ w.nGrps := by omega
    simp [this]

/-- C52, one step (partial: the second alternative should not exist). Whatever call is made on
whatever object, the content of a frozen group stays the same, unless the call adds a processor
to a `CoreSubset` object that the frozen group handed out. -/
theorem C52_step_partial (w w' : CoreWorld) (h : CoreReach w) (s : CoreStep w w') (g : Nat)
    (hg : g < w.nGrps) (hf : (w.grps g).frozen = true) :
    (w'.grps g).frozen = true ∧ g < w'.nGrps ∧
    ((∀ x y p, w'.isCore g x y p = w.isCore g x y p) ∨
      ∃ a p, HandedOut w g a ∧ w' = w.subsetAdd a p) := by
  have hw := CoreReach_inv h
  have same : ∀ {w'' : CoreWorld}, (∀ x y p, w''.Has g x y p ↔ w.Has g x y p) →
      ∀ x y p, w''.isCore g x y p = w.isCore g x y p := fun hh x y p => by
    rw [Bool.eq_iff_iff, isCore_iff, isCore_iff, hh]
  have grow : ∀ {w'' : CoreWorld} {g' : Nat} {S}, Grow w w'' g' S → g ≠ g' →
      (w''.grps g).frozen = true ∧ g < w''.nGrps ∧ ∀ x y p, w''.isCore g x y p = w.isCore g x y p :=
    fun gr hne => ⟨by rw [gr.frozen]; exact hf, by rw [gr.nGrps]; exact hg,
      same (fun x y p => by rw [gr.has]; simp [hne])⟩
  cases s with
  | newSubset x y ps =>
    have := newSubset_grow hw _ (CoreSubset.mk'_spec x y ps).2.2.2 (g + 1)
    obtain ⟨h1, h2, h3⟩ := grow this (by omega)
    exact ⟨h1, h2, Or.inl h3⟩
  | subsetIntersect a b =>
    have := newSubset_grow hw _ (CoreSubset.intersect_spec (w.subs a) (w.subs b)).2.2.2 (g + 1)
    obtain ⟨h1, h2, h3⟩ := grow this (by omega)
    exact ⟨h1, h2, Or.inl h3⟩
  | subsetAdd a ha p =>
    refine ⟨hf, hg, ?_⟩
    by_cases hh : HandedOut w g a
    · exact Or.inr ⟨a, p, hh, rfl⟩
    · refine Or.inl (fun x y q => ?_)
      rw [Bool.eq_iff_iff, (C50_steps w h g hg).2.2.2]
      simp [hh]
  | newGroup frozen as hlt =>
    obtain ⟨-, g0⟩ := newGroup_grow hw frozen as hlt
    have hne : g ≠ w.nGrps := by omega
    refine ⟨?_, ?_, Or.inl (fun x y p => (C52_created w h frozen as hlt).2.2.2.2 g hg x y p)⟩
    · rw [g0.frozen]; simp only [upd]; rw [if_neg hne]; exact hf
    · rw [g0.nGrps]; exact Nat.lt_succ_of_lt hg
  | addProcessor g' hg' x y p hok =>
    by_cases hgg : g = g'
    · subst hgg; rw [(C52_adds_raise w g hf).1] at hok; simp at hok
    · unfold CoreWorld.addProcessor at hok
      split at hok
      · simp at hok
      · simp only [Except.ok.injEq] at hok; subst hok
        obtain ⟨h1, h2, h3⟩ := grow (groupAdd_grow hw hg' x y p) hgg
        exact ⟨h1, h2, Or.inl h3⟩
  | addCoreSubset g' a hg' ha hok =>
    by_cases hgg : g = g'
    · subst hgg; rw [(C52_adds_raise w g hf).2.1] at hok; simp at hok
    · unfold CoreWorld.addCoreSubset at hok
      split at hok
      · simp at hok
      · simp only [Except.ok.injEq] at hok; subst hok
        obtain ⟨h1, h2, h3⟩ := grow (groupAddSubset_grow hw hg' a) hgg
        exact ⟨h1, h2, Or.inl h3⟩
  | addCoreSubsets g' as hg' ha hok =>
    by_cases hgg : g = g'
    · subst hgg; rw [(C52_adds_raise w g hf).2.2] at hok; simp at hok
    · unfold CoreWorld.addCoreSubsets at hok
      split at hok
      · simp at hok
      · simp only [Except.ok.injEq] at hok; subst hok
        obtain ⟨h1, h2, h3⟩ := grow (groupAddSubsets_grow g' as hw hg' ha) hgg
        exact ⟨h1, h2, Or.inl h3⟩
  | getSubset g' hg' x y =>
    have hq := ((C50_queries w h g').2.2.2.2.1 x y).2.2.2.2.2.2
    refine ⟨?_, ?_, Or.inl (fun x' y' p' => hq g x' y' p')⟩
    · unfold CoreWorld.getSubset; split <;> exact hf
    · unfold CoreWorld.getSubset; split <;> exact hg
  | intersect g' other r hg' ho hok =>
    obtain ⟨r', w1, h1, -, -, -, -, h2, -⟩ := C51_intersect w h g' other hg' ho
    rw [hok] at h1
    simp only [Except.ok.injEq, Prod.mk.injEq] at h1
    obtain ⟨-, rfl⟩ := h1
    obtain ⟨e1, e2⟩ := h2 g hg
    obtain ⟨w2, k1, k2⟩ := intersect_grow hw hg' ho
    rw [hok] at k1
    simp only [Except.ok.injEq, Prod.mk.injEq] at k1
    obtain ⟨-, rfl⟩ := k1
    exact ⟨by rw [e1]; exact hf, by rw [k2.nGrps]; exact Nat.lt_succ_of_lt hg, Or.inl e2⟩

/-- histories in which nobody adds processors to a subset handed out by group `g` -/
inductive HandsOff (g : Nat) : CoreWorld → CoreWorld → Prop
  | refl (w) : HandsOff g w w
  | step {w w' w''} (h : HandsOff g w w') (s : CoreStep w' w'')
      (hs : ∀ a p, HandedOut w' g a → w'' ≠ w'.subsetAdd a p) : HandsOff g w w''

/-- C52, histories (partial: the condition on handed out subsets should not be needed). -/
theorem C52_history_partial (w w' : CoreWorld) (h : CoreReach w) (g : Nat) (hg : g < w.nGrps)
    (hf : (w.grps g).frozen = true) (hist : HandsOff g w w') :
    ∀ x y p, w'.isCore g x y p = w.isCore g x y p := by
  have key : CoreReach w' ∧ g < w'.nGrps ∧ (w'.grps g).frozen = true ∧
      ∀ x y p, w'.isCore g x y p = w.isCore g x y p := by
    induction hist with
    | refl => exact ⟨h, hg, hf, fun _ _ _ => rfl⟩
    | step _ s hs ih =>
      obtain ⟨h1, h2, h3, h4⟩ := ih
      obtain ⟨k1, k2, k3⟩ := C52_step_partial _ _ h1 s g h2 h3
      refine ⟨.step h1 s, k2, k1, fun x y p => ?_⟩
      rcases k3 with k3 | ⟨a, q, k4, k5⟩
      · rw [k3, h4]
      · exact absurd k5 (hs a q k4)
  exact key.2.2.2

/-- C52 fails: the subset returned by `get_core_subset_for_chip` (also by iteration) of a
`FrozenCoreSubsets` is the object it keeps; adding a processor to it changes the frozen
collection. -/
theorem C52_changed_through_returned_subset :
    ∃ w g x y p, CoreReach w ∧ g < w.nGrps ∧ (w.grps g).frozen = true ∧
      w.isCore g x y p = false ∧
      let (a, w1) := w.getSubset g x y
      (w1.subsetAdd a p).isCore g x y p = true ∧ (w1.subsetAdd a p).len g = w.len g + 1 := by
  refine ⟨exIntersect, 1, 0, 0, 9, exIntersect_reach, ?_, ?_, ?_, ?_⟩ <;> decide +kernel

end SpiNN.Props
