import Verif.Model.Factory
import Verif.Spec.Repair
import Verif.Props.Machine
import Verif.Lemmas.Routing

namespace SpiNN
open Spec Props

/-! ### chips -/

/-- what `RealChip` gives of the router -/
theorem Spec.RealChip.items {c : Chip} (hc : RealChip c) :
    c.router.links.items = c.router.linkList.map (fun l => (l.sourceLinkId, l)) ∧
    (c.router.linkList.map Link.sourceLinkId).Nodup := by
  obtain ⟨ls, n, h⟩ := hc.router
  by_cases hn : (ls.map Link.sourceLinkId).Nodup
  · obtain ⟨r, h1, h2, h3, -⟩ := (C63_constructor n ls).1 hn
    rw [h] at h1
    cases h1
    rw [h2]
    exact ⟨h3, hn⟩
  · rw [(C63_constructor n ls).2 hn] at h; simp at h

theorem Spec.RealChip.tags_nodup {c : Chip} (hc : RealChip c) : c.tags.Nodup := by
  obtain ⟨t, ht⟩ := hc.tags
  rw [ht]
  exact (orderedSet_spec t).1

theorem Spec.RealChip.getLink {c : Chip} (hc : RealChip c) (i : Int) (l : Link) :
    c.router.getLink i = some l ↔ l ∈ c.router.linkList ∧ l.sourceLinkId = i := by
  obtain ⟨h1, h2⟩ := hc.items
  have hwf : c.router.links.WF := by
    unfold PDict.WF PDict.keys
    rw [h1]
    simpa [Function.comp_def] using h2
  unfold Router.getLink
  rw [← PDict.mem_items_iff hwf, h1, List.mem_map]
  constructor
  · rintro ⟨a, ha, heq⟩
    cases heq
    exact ⟨ha, rfl⟩
  · rintro ⟨h, rfl⟩
    exact ⟨l, h, rfl⟩

/-- ids of the dead links of a chip -/
def deadIds (dead : List DeadLink) (p : XY) : List Int :=
  (dead.filter fun d => (d.1, d.2.1) = p).map fun d => d.2.2.1

theorem mem_deadIds (dead : List DeadLink) (p : XY) (i : Int) :
    i ∈ deadIds dead p ↔ ∃ back, (p.1, p.2, i, back) ∈ dead := by
  unfold deadIds
  simp only [List.mem_map, List.mem_filter, decide_eq_true_eq]
  constructor
  · rintro ⟨⟨a, b, c, d⟩, ⟨h1, rfl⟩, rfl⟩
    exact ⟨d, h1⟩
  · rintro ⟨back, h⟩
    exact ⟨_, ⟨h, rfl⟩, rfl⟩

/-- a kept chip -/
def keepChip (dead : List DeadLink) (c : Chip) : Chip :=
  if deadIds dead c.xy = [] then c
  else { c with
    router := { c.router with links := ⟨(c.router.linkList.filter fun l =>
      l.sourceLinkId ∉ deadIds dead c.xy).map fun l => (l.sourceLinkId, l)⟩ }
    parentLink := none }

theorem keepChip_xy (dead : List DeadLink) (c : Chip) : (keepChip dead c).xy = c.xy := by
  unfold keepChip; split <;> rfl

theorem ignoreLinks_eq (dead : List DeadLink) {c : Chip} (hc : RealChip c) :
    ignoreLinks dead c = .ok (keepChip dead c) := by
  unfold ignoreLinks keepChip
  change (if deadIds dead c.xy = [] then _ else _) = _
  by_cases h : deadIds dead c.xy = []
  · rw [if_pos h, if_pos h]
  · rw [if_neg h, if_neg h]
    have hn : ((c.router.linkList.filter fun l => l.sourceLinkId ∉ deadIds dead c.xy).map
        Link.sourceLinkId).Nodup := hc.items.2.sublist (List.filter_sublist.map _)
    obtain ⟨r, h1, h2, h3, h4⟩ := (C63_constructor c.router.nEntries _).1 hn
    change (match Router.mk' (c.router.linkList.filter fun l => l.sourceLinkId ∉ deadIds dead c.xy)
      c.router.nEntries with | .error e => _ | .ok r => _) = _
    rw [h1]
    simp only [Chip.mk', orderedSet_of_nodup hc.tags_nodup, Except.ok.injEq]
    congr 1
    cases r
    simp only [Router.iter] at h3
    simp only at h4
    rw [← h4, ← h3]

theorem keepChip_real (dead : List DeadLink) {c : Chip} (hc : RealChip c) : RealChip (keepChip dead c) := by
  unfold keepChip
  by_cases h : deadIds dead c.xy = []
  · rw [if_pos h]; exact hc
  · rw [if_neg h]
    have hn : ((c.router.linkList.filter fun l => l.sourceLinkId ∉ deadIds dead c.xy).map
        Link.sourceLinkId).Nodup := hc.items.2.sublist (List.filter_sublist.map _)
    obtain ⟨r, h1, h2, h3, h4⟩ := (C63_constructor c.router.nEntries _).1 hn
    refine ⟨⟨c.router.linkList.filter fun l => l.sourceLinkId ∉ deadIds dead c.xy, c.router.nEntries, ?_⟩,
      hc.tags⟩
    rw [h1]
    cases r
    simp only [Router.iter] at h3
    simp only at h4
    simp only [Except.ok.injEq]
    rw [h4, ← h3]

theorem keepChip_getLink (dead : List DeadLink) {c : Chip} (hc : RealChip c) (i : Int) :
    (keepChip dead c).router.getLink i =
      if i ∈ deadIds dead c.xy then none else c.router.getLink i := by
  have hk := keepChip_real dead hc
  rw [Option.ext_iff]
  intro l
  rw [hk.getLink]
  have hll : (keepChip dead c).router.linkList =
      c.router.linkList.filter fun l => l.sourceLinkId ∉ deadIds dead c.xy := by
    unfold keepChip
    by_cases h : deadIds dead c.xy = []
    · rw [if_pos h, h, List.filter_eq_self.2 (by simp)]
    · rw [if_neg h]; simp [Router.linkList, PDict.values, Function.comp_def]
  rw [hll, List.mem_filter, decide_eq_true_eq]
  by_cases hi : i ∈ deadIds dead c.xy
  · rw [if_pos hi]
    simp only [reduceCtorEq, iff_false]
    rintro ⟨⟨-, h⟩, rfl⟩
    exact h hi
  · rw [if_neg hi, hc.getLink]
    constructor
    · rintro ⟨⟨h, -⟩, rfl⟩; exact ⟨h, rfl⟩
    · rintro ⟨h, rfl⟩; exact ⟨⟨h, hi⟩, rfl⟩

theorem keepChip_same (dead : List DeadLink) (c : Chip) : SameAttributes (keepChip dead c) c := by
  unfold keepChip
  split <;> simp [SameAttributes]

/-- survivors -/
def survivors (deadChips : List XY) (dead : List DeadLink) (cs : List Chip) : List Chip :=
  (cs.filter fun c => c.xy ∉ deadChips).map (keepChip dead)

theorem ignoreLoop_eq (deadChips : List XY) (dead : List DeadLink) (cs : List Chip)
    (hcs : ∀ c ∈ cs, RealChip c) {m : Machine} {s : Chips} (r : Rep m s)
    (hn : (s.map Chip.xy ++ cs.map Chip.xy).Nodup) :
    ∃ m', m.addChips (survivors deadChips dead cs) = (m', none) ∧
      ignoreLoop deadChips dead cs m = .ok m' ∧ Rep m' (s ++ survivors deadChips dead cs) := by
  induction cs generalizing m s with
  | nil => exact ⟨m, rfl, rfl, by simpa [survivors] using r⟩
  | cons c t ih =>
    have ht : ∀ c ∈ t, RealChip c := fun d hd => hcs d (List.mem_cons_of_mem _ hd)
    unfold ignoreLoop
    by_cases hd : c.xy ∈ deadChips
    · rw [if_pos hd]
      have hsv : survivors deadChips dead (c :: t) = survivors deadChips dead t := by
        simp [survivors, hd]
      rw [hsv]
      refine ih ht r (hn.sublist ?_)
      simp
    · rw [if_neg hd]
      have hsv : survivors deadChips dead (c :: t) = keepChip dead c :: survivors deadChips dead t := by
        simp [survivors, hd]
      rw [hsv, ignoreLinks_eq dead (hcs c List.mem_cons_self)]
      have ha := r.addChip (keepChip dead c)
      have hnot : c.xy ∉ s.map Chip.xy := by
        intro hmem
        rw [List.nodup_append] at hn
        exact hn.2.2 _ hmem c.xy (by simp) rfl
      have hadd : s.add (keepChip dead c) = (s ++ [keepChip dead c], none) := by
        unfold Chips.add
        rw [if_neg (by rw [Chips.at_isSome_iff, keepChip_xy]; exact hnot)]
      rw [hadd] at ha
      simp only [Machine.addChips]
      cases hac : m.addChip (keepChip dead c) with
      | error e => rw [hac] at ha; simp at ha
      | ok m1 =>
        rw [hac] at ha
        simp only at ha
        obtain ⟨m', i1, i2, i3⟩ := ih ht ha.2.1 (by simpa [keepChip_xy] using hn)
        exact ⟨m', i1, i2, by simpa using i3⟩

/-- `_machine_ignore` in terms of the survivors -/
theorem machineIgnore_eq {v : Version} {w h : Int} {m : Machine} (hr : Reachable v w h m)
    (hc : ∀ c ∈ m.chipList, RealChip c) (deadChips : List XY) (dead : List DeadLink) :
    ∃ m', Reachable v w h m' ∧ m'.chipList = survivors deadChips dead m.chipList ∧
      (∃ o, v.kind.createMachine (some w) (some h) "Fixed" = .ok o ∧
        m' = (Spec.run v o [.addChips (survivors deadChips dead m.chipList), .addSpinnakerLinks,
          .addFpgaLinks]).1) ∧
      machineIgnore v m deadChips dead =
        match m'.validate v with
        | .error e => .error e
        | .ok () => .ok m' := by
  obtain ⟨hs, hwr, hw, hh, hcc, r⟩ := hr.rep
  have hv : v.kind.verifySize (some w) (some h) = .ok () :=
    (verifySize_iff _ _ _).2 ⟨w, h, rfl, rfl, hs⟩
  have hcm : v.kind.createMachine (some w) (some h) "Fixed" =
      .ok (Machine.new (v.kind.wrapFor w h) w h v.kind.chipCoreMap "Fixed") := by
    unfold VKind.createMachine; rw [hv]; rfl
  obtain ⟨m', h1, h2, h3⟩ := ignoreLoop_eq deadChips dead m.chipList hc
    (Rep.new (v.kind.wrapFor w h) w h v.kind.chipCoreMap "Fixed") (by simpa using r.nodup)
  have hrun : (Spec.run v (Machine.new (v.kind.wrapFor w h) w h v.kind.chipCoreMap "Fixed")
      [.addChips (survivors deadChips dead m.chipList), .addSpinnakerLinks, .addFpgaLinks]).1 =
      (m'.addSpinnakerLinks v).addFpgaLinks v := by
    simp only [Spec.run, Spec.step]
    rw [h1]
  refine ⟨(m'.addSpinnakerLinks v).addFpgaLinks v, ⟨"Fixed", _, _, hcm, hrun.symm⟩, ?_,
    ⟨_, hcm, hrun.symm⟩, ?_⟩
  · have h4 := (h3.of_onlySpin (onlySpin v m')).of_onlyFpga (onlyFpga v _)
    have := h4.values
    simpa [Machine.chipList] using this
  · unfold machineIgnore
    rw [hw, hh, hcm]
    simp only
    rw [h2]
    simp only
    cases Machine.validate v (Machine.addFpgaLinks v (Machine.addSpinnakerLinks v m')) <;> rfl

/-! ### what the loops find -/

theorem findUnreachable_ok {repair : Bool} {m : Machine} {ps : List XY} {f g : Found}
    (h : findUnreachable repair m ps f = .ok g) :
    g.deadLinks = f.deadLinks ∧ g.deadChips = (if repair then f.deadChips ++ ps else f.deadChips) ∧
    (g.errors = true ↔ f.errors = true ∨ (repair = false ∧ ps ≠ [])) := by
  induction ps generalizing f with
  | nil => cases h; simp
  | cons p ps ih =>
    unfold findUnreachable at h
    split at h
    · simp at h
    · split at h
      · simp at h
      · obtain ⟨h1, h2, h3⟩ := ih h
        rw [h1, h2, h3]
        cases repair <;> simp [Found.chip]

theorem findOneWay_ok {repair : Bool} {removed : List XY} {m : Machine} {ds : List DeadLink} {f g : Found}
    (h : findOneWay repair removed m ds f = .ok g) :
    g.deadChips = f.deadChips ∧
    (∀ d, d ∈ g.deadLinks ↔ d ∈ f.deadLinks ∨ (d ∈ ds ∧ (repair = true ∨
      ∃ q, m.xyOverLink d.1 d.2.1 d.2.2.1 = .ok q ∧ q ∈ removed))) ∧
    (g.errors = true ↔ f.errors = true ∨ (repair = false ∧ ∃ d ∈ ds, ∃ q,
      m.xyOverLink d.1 d.2.1 d.2.2.1 = .ok q ∧ q ∉ removed)) ∧
    (∀ d ∈ ds, ∃ q, m.xyOverLink d.1 d.2.1 d.2.2.1 = .ok q) := by
  induction ds generalizing f with
  | nil => cases h; simp
  | cons d ds ih =>
    unfold findOneWay at h
    split at h
    · simp at h
    · rename_i q hq
      split at h
      · rename_i hrem
        obtain ⟨h1, h2, h3, h4⟩ := ih h
        refine ⟨h1, fun d' => ?_, ?_, ?_⟩
        · rw [h2]
          simp only [List.mem_append, List.mem_cons, List.not_mem_nil, or_false]
          constructor
          · rintro ((h | rfl) | ⟨h, h'⟩)
            · exact .inl h
            · exact .inr ⟨.inl rfl, .inr ⟨q, hq, hrem⟩⟩
            · exact .inr ⟨.inr h, h'⟩
          · rintro (h | ⟨rfl | h, h'⟩)
            · exact .inl (.inl h)
            · exact .inl (.inr rfl)
            · exact .inr ⟨h, h'⟩
        · rw [h3]
          simp only [List.mem_cons]
          constructor
          · rintro (h | ⟨h, d', hd', h'⟩)
            · exact .inl h
            · exact .inr ⟨h, d', .inr hd', h'⟩
          · rintro (h | ⟨h, d', rfl | hd', q', hq', hnot⟩)
            · exact .inl h
            · rw [hq] at hq'; cases hq'; exact absurd hrem hnot
            · exact .inr ⟨h, d', hd', q', hq', hnot⟩
        · intro d' hd'
          rw [List.mem_cons] at hd'
          rcases hd' with rfl | hd'
          · exact ⟨q, hq⟩
          · exact h4 d' hd'
      · rename_i hrem
        split at h
        · simp at h
        · obtain ⟨h1, h2, h3, h4⟩ := ih h
          refine ⟨?_, fun d' => ?_, ?_, ?_⟩
          · rw [h1]; cases repair <;> rfl
          · rw [h2]
            cases repair
            · simp only [Found.link, Bool.false_eq_true, if_false, false_or, List.mem_cons]
              constructor
              · rintro (h | ⟨h, h'⟩)
                · exact .inl h
                · exact .inr ⟨.inr h, h'⟩
              · rintro (h | ⟨rfl | h, q', hq', hin⟩)
                · exact .inl h
                · rw [hq] at hq'; cases hq'; exact absurd hin hrem
                · exact .inr ⟨h, q', hq', hin⟩
            · simp [Found.link, or_assoc]
          · rw [h3]
            cases repair
            · simp only [Found.link, Bool.false_eq_true, if_false, true_or, true_and, true_iff]
              exact .inr ⟨d, List.mem_cons_self, q, hq, hrem⟩
            · simp [Found.link]
          · intro d' hd'
            rw [List.mem_cons] at hd'
            rcases hd' with rfl | hd'
            · exact ⟨q, hq⟩
            · exact h4 d' hd'

theorem findParents_ok {repair : Bool} {m : Machine} {cs : List Chip} {f g : Found}
    (h : findParents repair m cs f = .ok g) :
    g.deadLinks = f.deadLinks ∧
    (∀ p, p ∈ g.deadChips ↔ p ∈ f.deadChips ∨ (repair = true ∧ ∃ c ∈ cs, c.xy = p ∧ ¬ ParentOK m c)) ∧
    (g.errors = true ↔ f.errors = true ∨ (repair = false ∧ ∃ c ∈ cs, ¬ ParentOK m c)) := by
  induction cs generalizing f with
  | nil => cases h; simp
  | cons c cs ih =>
    unfold findParents at h
    have good : ∀ f : Found, findParents repair m cs f = .ok g → ParentOK m c →
        g.deadLinks = f.deadLinks ∧
        (∀ p, p ∈ g.deadChips ↔ p ∈ f.deadChips ∨ (repair = true ∧ ∃ c' ∈ c :: cs, c'.xy = p ∧ ¬ ParentOK m c')) ∧
        (g.errors = true ↔ f.errors = true ∨ (repair = false ∧ ∃ c' ∈ c :: cs, ¬ ParentOK m c')) := by
      intro f h hp
      obtain ⟨h1, h2, h3⟩ := ih h
      refine ⟨h1, fun p => ?_, ?_⟩
      · rw [h2]; simp [hp]
      · rw [h3]; simp [hp]
    split at h
    · rename_i hn
      exact good f h (fun i hi => by rw [hn] at hi; simp at hi)
    · rename_i i hi
      split at h
      · simp at h
      · rename_i q hq
        split at h
        · rename_i hat
          refine good f h (fun j hj => ?_)
          rw [hi] at hj
          cases hj
          exact ⟨q, hq, hat⟩
        · rename_i hat
          split at h
          · simp at h
          · have hp : ¬ ParentOK m c := by
              intro hp
              obtain ⟨q', h1, h2⟩ := hp i hi
              rw [hq] at h1
              cases h1
              exact hat h2
            obtain ⟨h1, h2, h3⟩ := ih h
            refine ⟨?_, fun p => ?_, ?_⟩
            · rw [h1]; cases repair <;> rfl
            · rw [h2]
              cases repair
              · simp [Found.chip]
              · simp only [Found.chip, if_true, List.mem_append, true_and, List.mem_cons, List.not_mem_nil, or_false]
                constructor
                · rintro ((h | rfl) | ⟨c', h, h'⟩)
                  · exact .inl h
                  · exact .inr ⟨c, .inl rfl, rfl, hp⟩
                  · exact .inr ⟨c', .inr h, h'⟩
                · rintro (h | ⟨c', rfl | h, h', h''⟩)
                  · exact .inl (.inl h)
                  · exact .inl (.inr h'.symm)
                  · exact .inr ⟨c', h, h', h''⟩
            · rw [h3]
              cases repair
              · simp only [Found.chip, Bool.false_eq_true, if_false, true_or, true_and, true_iff]
                exact .inr ⟨c, List.mem_cons_self, hp⟩
              · simp [Found.chip]

theorem repairFind_ok {repair : Bool} {removed : List XY} {m : Machine} {f : Found}
    (h : repairFind repair removed m = .ok f) :
    (∀ p, p ∈ f.deadChips ↔ repair = true ∧ (p ∈ m.unreachableIncomingLocalChips ∨
      p ∈ m.unreachableOutgoingLocalChips ∨ ∃ c ∈ m.chipList, c.xy = p ∧ ¬ ParentOK m c)) ∧
    (∀ d, d ∈ f.deadLinks ↔ d ∈ m.oneWayLinks ∧ (repair = true ∨
      ∃ q, m.xyOverLink d.1 d.2.1 d.2.2.1 = .ok q ∧ q ∈ removed)) ∧
    (f.errors = true ↔ repair = false ∧ Unexpected removed m) ∧
    (∀ d ∈ m.oneWayLinks, ∃ q, m.xyOverLink d.1 d.2.1 d.2.2.1 = .ok q) := by
  unfold repairFind at h
  split at h
  · simp at h
  rename_i f1 h1
  split at h
  · simp at h
  rename_i f2 h2
  split at h
  · simp at h
  rename_i f3 h3
  obtain ⟨a1, a2, a3⟩ := findUnreachable_ok h1
  obtain ⟨b1, b2, b3⟩ := findUnreachable_ok h2
  obtain ⟨c1, c2, c3, c4⟩ := findOneWay_ok h3
  obtain ⟨d1, d2, d3⟩ := findParents_ok h
  refine ⟨fun p => ?_, fun d => ?_, ?_, c4⟩
  · rw [d2, c1, b2, a2]
    cases repair <;> simp [or_assoc]
  · rw [d1, c2, b1, a1]
    simp
  · rw [d3, c3, b3, a3]
    simp only [Bool.false_eq_true, false_or]
    constructor
    · rintro (((⟨h, h'⟩ | ⟨h, h'⟩) | ⟨h, ⟨x, y, out, back⟩, hd, q, hq, hn⟩) | ⟨h, c, hc, hn⟩)
      · obtain ⟨p, hp⟩ := List.exists_mem_of_ne_nil _ h'
        exact ⟨h, .incoming hp⟩
      · obtain ⟨p, hp⟩ := List.exists_mem_of_ne_nil _ h'
        exact ⟨h, .outgoing hp⟩
      · exact ⟨h, .oneWay hd hq hn⟩
      · exact ⟨h, .parent hc hn⟩
    · rintro ⟨h, hu⟩
      cases hu with
      | incoming hp => exact .inl (.inl (.inl ⟨h, List.ne_nil_of_mem hp⟩))
      | outgoing hp => exact .inl (.inl (.inr ⟨h, List.ne_nil_of_mem hp⟩))
      | oneWay hd hq hn => exact .inl (.inr ⟨h, _, hd, _, hq, hn⟩)
      | parent hc hn => exact .inr ⟨h, _, hc, hn⟩

theorem findParents_of_ok {repair : Bool} {m : Machine} {cs : List Chip} (f : Found)
    (h : ∀ c ∈ cs, ParentOK m c) : findParents repair m cs f = .ok f := by
  induction cs with
  | nil => rfl
  | cons c cs ih =>
    have ih := ih fun d hd => h d (List.mem_cons_of_mem _ hd)
    unfold findParents
    split
    · exact ih
    · rename_i i hi
      obtain ⟨q, h1, h2⟩ := h c List.mem_cons_self i hi
      rw [h1]
      simp only [h2, if_true]
      exact ih

/-- nothing to repair exactly if the machine is consistent -/
theorem repairFind_consistent {m : Machine} (hm : Consistent m) (repair : Bool) (removed : List XY) :
    repairFind repair removed m = .ok {} := by
  unfold repairFind
  rw [hm.incoming, hm.outgoing, hm.links]
  simp only [findUnreachable, findOneWay]
  exact findParents_of_ok _ hm.parents

theorem machineRepair_consistent {m : Machine} (hm : Consistent m) (v : Version) (repair : Bool)
    (removed : List XY) : machineRepair v repair removed m = some (.ok m) := by
  rw [machineRepair, repairFind_consistent hm]
  simp

/-! ### termination -/

/-- chips plus links -/
def repairSize (cs : List Chip) : Nat := (cs.map fun c => 1 + c.router.linkList.length).sum

theorem keepChip_linkList (dead : List DeadLink) (c : Chip) : (keepChip dead c).router.linkList =
    c.router.linkList.filter fun l => l.sourceLinkId ∉ deadIds dead c.xy := by
  unfold keepChip
  by_cases h : deadIds dead c.xy = []
  · rw [if_pos h, h, List.filter_eq_self.2 (by simp)]
  · rw [if_neg h]; simp [Router.linkList, PDict.values, Function.comp_def]

theorem filter_length_lt {α : Type} {p : α → Bool} {l : List α} {a : α} (ha : a ∈ l) (hp : p a = false) :
    (l.filter p).length < l.length := by
  induction l with
  | nil => simp at ha
  | cons b t ih =>
    have hle := List.length_filter_le p t
    rw [List.mem_cons] at ha
    rw [List.filter_cons]
    rcases ha with rfl | ha
    · simp [hp]; omega
    · have := ih ha
      split <;> simp only [List.length_cons] <;> omega

theorem repairSize_le (dc : List XY) (dead : List DeadLink) (cs : List Chip) :
    repairSize (survivors dc dead cs) ≤ repairSize cs := by
  induction cs with
  | nil => simp [survivors, repairSize]
  | cons c t ih =>
    have h1 : (keepChip dead c).router.linkList.length ≤ c.router.linkList.length := by
      rw [keepChip_linkList]; exact List.length_filter_le _ _
    by_cases hc : c.xy ∈ dc
    · simp only [survivors, repairSize, List.filter_cons, hc, not_true_eq_false, decide_false,
        Bool.false_eq_true, if_false, List.map_cons, List.sum_cons] at ih ⊢
      omega
    · simp only [survivors, repairSize, List.filter_cons, hc, not_false_eq_true, decide_true,
        if_true, List.map_cons, List.sum_cons] at ih ⊢
      omega

theorem repairSize_lt {dc : List XY} {dead : List DeadLink} {cs : List Chip}
    (h : ∃ c ∈ cs, c.xy ∈ dc ∨ ∃ l ∈ c.router.linkList, l.sourceLinkId ∈ deadIds dead c.xy) :
    repairSize (survivors dc dead cs) < repairSize cs := by
  induction cs with
  | nil => obtain ⟨c, hc, -⟩ := h; simp at hc
  | cons c t ih =>
    have hle := repairSize_le dc dead t
    have h1 : (keepChip dead c).router.linkList.length ≤ c.router.linkList.length := by
      rw [keepChip_linkList]; exact List.length_filter_le _ _
    obtain ⟨c', hc', h⟩ := h
    rw [List.mem_cons] at hc'
    by_cases hc : c.xy ∈ dc
    · simp only [survivors, repairSize, List.filter_cons, hc, not_true_eq_false, decide_false,
        Bool.false_eq_true, if_false, List.map_cons, List.sum_cons] at hle ⊢
      omega
    · have key : repairSize (survivors dc dead (c :: t)) =
          1 + (keepChip dead c).router.linkList.length + repairSize (survivors dc dead t) := by
        simp [survivors, repairSize, hc]
      have key' : repairSize (c :: t) = 1 + c.router.linkList.length + repairSize t := by
        simp [repairSize]
      rw [key, key']
      rcases hc' with rfl | hc'
      · rcases h with h | ⟨l, hl, hd⟩
        · exact absurd h hc
        · have h2 : (keepChip dead c').router.linkList.length < c'.router.linkList.length := by
            rw [keepChip_linkList]
            exact filter_length_lt hl (by simpa using hd)
          omega
      · have := ih ⟨c', hc', h⟩
        omega

end SpiNN
