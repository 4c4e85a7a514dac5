import Verif.Lemmas.Factory
import Verif.Props.VirtualMachine

/-!
# Repairing machines: C36-C40

`Reachable` and `RealChip` (`Spec/Machine.lean`, `Spec/Repair.lean`) say that the machine and its
chips were made through the API.
-/

namespace SpiNN.Props
open SpiNN Spec

theorem hasLink_iff (c : Chip) (i : Int) : HasLink c i ↔ ∃ l, c.router.getLink i = some l := by
  unfold HasLink Router.iter Router.getLink
  exact PDict.mem_keys_iff i

/-- machines made by histories that only add chips made by the constructors have such chips -/
theorem real_of_history (v : Version) (w h : Int) (o : String) (m₀ : Machine)
    (h₀ : v.kind.createMachine (some w) (some h) o = .ok m₀) (ops : List Op)
    (hops : ∀ op ∈ ops, (∀ c, op = .addChip c → RealChip c) ∧ (∀ cs, op = .addChips cs → ∀ c ∈ cs, RealChip c)) :
    ∀ c ∈ (run v m₀ ops).1.chipList, RealChip c := by
  obtain ⟨-, rfl⟩ := createMachine_ok h₀
  have r := ((Rep.new (v.kind.wrapFor w h) w h v.kind.chipCoreMap o).run v ops).1
  have hv := r.values
  unfold Machine.chipList
  rw [hv]
  clear r hv
  have hadd : ∀ (s : Chips) (c : Chip), (∀ d ∈ s, RealChip d) → RealChip c → ∀ d ∈ (s.add c).1, RealChip d := by
    intro s c hs hc d hd
    unfold Chips.add at hd
    split at hd
    · exact hs d hd
    · simp only [List.mem_append, List.mem_singleton] at hd
      rcases hd with hd | rfl
      · exact hs d hd
      · exact hc
  have key : ∀ (ops : List Op) (m : Machine) (s : Chips), Rep m s →
      (∀ op ∈ ops, (∀ c, op = .addChip c → RealChip c) ∧
      (∀ cs, op = .addChips cs → ∀ c ∈ cs, RealChip c)) → (∀ c ∈ s, RealChip c) →
      ∀ c ∈ (absRun s ops).1, RealChip c := by
    intro ops
    induction ops with
    | nil => intro m s _ _ hs; exact hs
    | cons op ops ih =>
      intro m s r hops hs
      simp only [absRun]
      refine ih _ _ (r.step v op).1 (fun o ho => hops o (List.mem_cons_of_mem _ ho)) ?_
      have hop := hops op List.mem_cons_self
      cases op with
      | addChip c => exact hadd s c hs (hop.1 c rfl)
      | addChips cs =>
        have hcs := hop.2 cs rfl
        simp only [absStep]
        clear hop hops ih r
        induction cs generalizing s with
        | nil => exact hs
        | cons c cs ih =>
          simp only [Chips.addAll]
          have h1 := hadd s c hs (hcs c List.mem_cons_self)
          split
          · rename_i s' heq
            rw [heq] at h1
            exact ih s' h1 fun d hd => hcs d (List.mem_cons_of_mem _ hd)
          · exact hs
      | addLink p l =>
        simp only [absStep, Chips.addLink]
        split
        · exact hs
        · split
          · exact hs
          · rename_i c hat hnot
            obtain ⟨hc, hxy⟩ := Chips.at_mem hat
            intro d hd
            simp only [List.mem_map] at hd
            obtain ⟨d', hd', rfl⟩ := hd
            split
            · rename_i hp
              have heq : d' = c := by
                have h1 := Chips.at_of_mem r.nodup hd'
                rw [hp, hat] at h1
                exact (Option.some.inj h1).symm
              subst heq
              obtain ⟨h1, h2⟩ := (hs d' hd').items
              have hn : ((d'.router.linkList ++ [l]).map Link.sourceLinkId).Nodup := by
                rw [List.map_append, List.nodup_append]
                refine ⟨h2, by simp, ?_⟩
                intro a ha b hb
                simp only [List.map_cons, List.map_nil, List.mem_singleton] at hb
                subst hb
                rintro rfl
                apply hnot
                unfold Router.iter
                rw [h1]
                simpa [Function.comp_def] using ha
              obtain ⟨r', g1, g2, g3, g4⟩ := (C63_constructor d'.router.nEntries _).1 hn
              refine ⟨⟨_, _, g1.trans ?_⟩, (hs d' hd').tags⟩
              cases r'
              simp only [Router.iter, List.map_append, List.map_cons, List.map_nil] at g3 h1
              simp only at g4
              simp only [Except.ok.injEq, Router.iter]
              rw [h1, ← g3, g4]
            · exact hs d' hd'
      | addSpinnakerLinks => exact hs
      | addFpgaLinks => exact hs
  exact key ops _ [] (Rep.new (v.kind.wrapFor w h) w h v.kind.chipCoreMap o) hops (by simp)

/-! ## C37 -/

theorem survivors_at {m m' : Machine} (r : Rep m m.chipList) (r' : Rep m' m'.chipList)
    {deadChips : List XY} {dead : List DeadLink} (hl : m'.chipList = survivors deadChips dead m.chipList)
    (x y : Int) : m'.getChipAt x y =
      if (x, y) ∈ deadChips then none else (m.getChipAt x y).map (keepChip dead) := by
  rw [Option.ext_iff]
  intro c'
  constructor
  · intro h
    obtain ⟨hc', rfl, rfl⟩ := mem_of_chip_at r' h
    rw [hl, survivors, List.mem_map] at hc'
    obtain ⟨c, hc, rfl⟩ := hc'
    simp only [List.mem_filter, decide_eq_true_eq] at hc
    have hxy := keepChip_xy dead c
    simp only [Chip.xy, Prod.mk.injEq] at hxy
    rw [hxy.1, hxy.2, if_neg (show (c.x, c.y) ∉ deadChips from hc.2), chip_at_of_mem r hc.1]
    rfl
  · intro h
    split at h
    · simp at h
    · rename_i hd
      rw [Option.map_eq_some_iff] at h
      obtain ⟨c, hc, rfl⟩ := h
      obtain ⟨hm, rfl, rfl⟩ := mem_of_chip_at r hc
      have : keepChip dead c ∈ m'.chipList := by
        rw [hl, survivors, List.mem_map]
        exact ⟨c, by simpa [List.mem_filter] using ⟨hm, hd⟩, rfl⟩
      have h2 := chip_at_of_mem r' this
      have hxy := keepChip_xy dead c
      simp only [Chip.xy, Prod.mk.injEq] at hxy
      rwa [hxy.1, hxy.2] at h2

/-- C37: the machine built without the dead items has exactly the chips that are not dead, with
exactly the links that are not dead and all other attributes (the parent: see C40); it has the same
size and passes `validate`. Dead items that are not in the machine play no role. -/
theorem C37_exact (v : Version) (w h : Int) (m m' : Machine) (hr : Reachable v w h m)
    (hc : ∀ c ∈ m.chipList, RealChip c) (deadChips : List XY) (dead : List DeadLink)
    (hm : machineIgnore v m deadChips dead = .ok m') :
    Reachable v w h m' ∧ (∀ c ∈ m'.chipList, RealChip c) ∧ m'.validate v = .ok () ∧
    (∀ x y, m'.isChipAt x y = true ↔ m.isChipAt x y = true ∧ (x, y) ∉ deadChips) ∧
    (∀ x y c c', m.getChipAt x y = some c → m'.getChipAt x y = some c' →
      SameAttributes c' c ∧
      ((∃ out back, (x, y, out, back) ∈ dead) ∨ c' = c) ∧
      ∀ i l, c'.router.getLink i = some l ↔ c.router.getLink i = some l ∧ ¬ ∃ back, (x, y, i, back) ∈ dead) := by
  obtain ⟨m1, h1, h2, -, h4⟩ := machineIgnore_eq hr hc deadChips dead
  rw [h4] at hm
  have hval : m1.validate v = .ok () ∧ m1 = m' := by
    cases hv : m1.validate v with
    | error e => rw [hv] at hm; simp at hm
    | ok u => rw [hv] at hm; simp only [Except.ok.injEq] at hm; exact ⟨rfl, hm⟩
  obtain ⟨hval, rfl⟩ := hval
  obtain ⟨-, -, -, -, -, r⟩ := hr.rep
  obtain ⟨-, -, -, -, -, r1⟩ := h1.rep
  have hat := survivors_at r r1 h2
  refine ⟨h1, ?_, hval, fun x y => ?_, fun x y c c' hx hx' => ?_⟩
  · intro c hmem
    rw [h2, survivors, List.mem_map] at hmem
    obtain ⟨d, hd, rfl⟩ := hmem
    exact keepChip_real dead (hc d (List.mem_filter.1 hd).1)
  · have e : ∀ m : Machine, m.isChipAt x y = (m.getChipAt x y).isSome := fun _ => rfl
    rw [e, e, hat]
    split <;> simp [*]
  · rw [hat] at hx'
    split at hx'
    · simp at hx'
    · rw [hx] at hx'
      simp only [Option.map_some, Option.some.injEq] at hx'
      subst hx'
      obtain ⟨hm, rfl, rfl⟩ := mem_of_chip_at r hx
      refine ⟨keepChip_same dead c, ?_, fun i l => ?_⟩
      · by_cases hn : deadIds dead c.xy = []
        · exact .inr (by unfold keepChip; rw [if_pos hn])
        · obtain ⟨i, hi⟩ := List.exists_mem_of_ne_nil _ hn
          exact .inl ⟨i, (mem_deadIds _ _ _).1 hi⟩
      · rw [keepChip_getLink dead (hc c hm)]
        have := mem_deadIds dead c.xy i
        simp only [Chip.xy] at this
        rw [← this]
        split <;> simp_all [Chip.xy]

/-- C37: building it fails only in `validate`; SpiNNaker and FPGA links are those of a new machine
with the remaining chips. -/
theorem C37_validates_or_raises (v : Version) (w h : Int) (m : Machine) (hr : Reachable v w h m)
    (hc : ∀ c ∈ m.chipList, RealChip c) (deadChips : List XY) (dead : List DeadLink) :
    ∃ m₀ cs, v.kind.createMachine (some w) (some h) "Fixed" = .ok m₀ ∧
      (∀ p, p ∈ cs.map Chip.xy ↔ m.isChipAt p.1 p.2 = true ∧ p ∉ deadChips) ∧
      let m' := (run v m₀ [.addChips cs, .addSpinnakerLinks, .addFpgaLinks]).1
      (machineIgnore v m deadChips dead = .ok m' ↔ LegalMachine v w h m') ∧
      (¬ LegalMachine v w h m' → machineIgnore v m deadChips dead = .error .machine) := by
  obtain ⟨m1, h1, h2, ⟨o, ho, hrun⟩, h4⟩ := machineIgnore_eq hr hc deadChips dead
  obtain ⟨-, -, -, -, -, r⟩ := hr.rep
  refine ⟨o, survivors deadChips dead m.chipList, ho, fun p => ?_, ?_⟩
  · rw [isChipAt_iff r, survivors, List.map_map]
    simp only [List.mem_map, List.mem_filter, decide_eq_true_eq, Function.comp, keepChip_xy]
    constructor
    · rintro ⟨c, ⟨h, h'⟩, rfl⟩; exact ⟨⟨c, h, rfl⟩, h'⟩
    · rintro ⟨⟨c, h, rfl⟩, h'⟩; exact ⟨c, ⟨h, h'⟩, rfl⟩
  · simp only
    rw [← hrun, ← C21_validate_exact v w h m1 h1, h4]
    cases hv : m1.validate v with
    | ok u => simp
    | error e => rw [C21_refusal v m1 e hv]; simp

/-! ## C38 -/

theorem repair_progress {v : Version} {w h : Int} {m : Machine} (hr : Reachable v w h m)
    (hc : ∀ c ∈ m.chipList, RealChip c) {repair : Bool} {removed : List XY} {f : Found}
    (hf : repairFind repair removed m = .ok f) (hne : ¬ (f.deadChips = [] ∧ f.deadLinks = [])) :
    ∃ c ∈ m.chipList, c.xy ∈ f.deadChips ∨
      ∃ l ∈ c.router.linkList, l.sourceLinkId ∈ deadIds f.deadLinks c.xy := by
  obtain ⟨h1, h2, -, -⟩ := repairFind_ok hf
  obtain ⟨-, -, -, -, -, r⟩ := hr.rep
  by_cases hd : f.deadChips = []
  · obtain ⟨⟨x, y, out, back⟩, hmem⟩ := List.exists_mem_of_ne_nil _ (fun h => hne ⟨hd, h⟩)
    obtain ⟨c, d, l, hat, -, -, hl, -⟩ := (C24_one_way_links v w h m hr x y out back).1 ((h2 _).1 hmem).1
    obtain ⟨hcm, rfl, rfl⟩ := mem_of_chip_at r hat
    obtain ⟨hl1, hl2⟩ := ((hc c hcm).getLink out l).1 hl
    exact ⟨c, hcm, .inr ⟨l, hl1, by rw [hl2, mem_deadIds]; exact ⟨back, hmem⟩⟩⟩
  · obtain ⟨p, hp⟩ := List.exists_mem_of_ne_nil _ hd
    have : ∃ c ∈ m.chipList, c.xy = p := by
      rcases ((h1 p).1 hp).2 with h | h | ⟨c, hc, h, -⟩
      · obtain ⟨c, hc, h, -⟩ := (mem_incoming_local m p).1 h
        exact ⟨c, hc, h⟩
      · obtain ⟨c, hc, h, -⟩ := (mem_outgoing_local m p).1 h
        exact ⟨c, hc, h⟩
      · exact ⟨c, hc, h⟩
    obtain ⟨c, hcm, rfl⟩ := this
    exact ⟨c, hcm, .inl hp⟩

/-- induction over the recursion of `machine_repair`, which ends since every pass removes a chip or
a link -/
theorem repair_induct {v : Version} {w h : Int} {repair : Bool}
    (P : List XY → Machine → Except PyErr Machine → Prop)
    (raised : ∀ removed m e, Reachable v w h m → (∀ c ∈ m.chipList, RealChip c) →
      repairFind repair removed m = .error e → P removed m (.error e))
    (refused : ∀ removed m f, Reachable v w h m → (∀ c ∈ m.chipList, RealChip c) →
      repairFind repair removed m = .ok f → repair = false → f.errors = true → P removed m (.error .machine))
    (done : ∀ removed m f, Reachable v w h m → (∀ c ∈ m.chipList, RealChip c) →
      repairFind repair removed m = .ok f → ¬ (repair = false ∧ f.errors = true) →
      f.deadChips = [] → f.deadLinks = [] → P removed m (.ok m))
    (invalid : ∀ removed m f e, Reachable v w h m → (∀ c ∈ m.chipList, RealChip c) →
      repairFind repair removed m = .ok f → ¬ (repair = false ∧ f.errors = true) →
      ¬ (f.deadChips = [] ∧ f.deadLinks = []) →
      machineIgnore v m f.deadChips f.deadLinks = .error e → P removed m (.error e))
    (step : ∀ removed m f m' r, Reachable v w h m → (∀ c ∈ m.chipList, RealChip c) →
      repairFind repair removed m = .ok f → ¬ (repair = false ∧ f.errors = true) →
      ¬ (f.deadChips = [] ∧ f.deadLinks = []) →
      machineIgnore v m f.deadChips f.deadLinks = .ok m' →
      machineRepair v repair [] m' = some r → P [] m' r → P removed m r) :
    ∀ removed m, Reachable v w h m → (∀ c ∈ m.chipList, RealChip c) →
      ∃ r, machineRepair v repair removed m = some r ∧ P removed m r := by
  have key : ∀ n removed m, repairSize m.chipList < n → Reachable v w h m → (∀ c ∈ m.chipList, RealChip c) →
      ∃ r, machineRepair v repair removed m = some r ∧ P removed m r := by
    intro n
    induction n with
    | zero => intro _ _ h; omega
    | succ n ih =>
      intro removed m hn hr hc
      rw [machineRepair]
      cases hf : repairFind repair removed m with
      | error e => exact ⟨_, rfl, raised removed m e hr hc hf⟩
      | ok f =>
        simp only
        by_cases h1 : repair = false ∧ f.errors = true
        · refine ⟨.error .machine, by rw [if_pos (by simp [h1])], refused removed m f hr hc hf h1.1 h1.2⟩
        · have h1' : ¬ ((!repair && f.errors) = true) := by
            simpa using h1
          rw [if_neg h1']
          by_cases h2 : f.deadChips = [] ∧ f.deadLinks = []
          · exact ⟨.ok m, by rw [if_pos h2], done removed m f hr hc hf h1 h2.1 h2.2⟩
          · rw [if_neg h2]
            cases hi : machineIgnore v m f.deadChips f.deadLinks with
            | error e => exact ⟨.error e, rfl, invalid removed m f e hr hc hf h1 h2 hi⟩
            | ok m' =>
              obtain ⟨m1, k1, k2, -, k4⟩ := machineIgnore_eq hr hc f.deadChips f.deadLinks
              have hm1 : m1 = m' := by
                rw [hi] at k4
                cases hv : m1.validate v with
                | error e => rw [hv] at k4; simp at k4
                | ok u => rw [hv] at k4; simp only [Except.ok.injEq] at k4; exact k4.symm
              subst hm1
              have hlt := repairSize_lt (repair_progress hr hc hf h2)
              rw [← k2] at hlt
              have hreal := (C37_exact v w h m m1 hr hc f.deadChips f.deadLinks hi).2.1
              obtain ⟨r, hr1, hP⟩ := ih [] m1 (by omega) k1 hreal
              exact ⟨r, hr1, step removed m f m1 r hr hc hf h1 h2 hi hr1 hP⟩
  intro removed m hr hc
  exact key (repairSize m.chipList + 1) removed m (by omega) hr hc

/-- C38: `machine_repair` always ends. -/
theorem C38_terminates (v : Version) (w h : Int) (repair : Bool) (removed : List XY) (m : Machine)
    (hr : Reachable v w h m) (hc : ∀ c ∈ m.chipList, RealChip c) :
    ∃ r, machineRepair v repair removed m = some r := by
  obtain ⟨r, h1, -⟩ := repair_induct (P := fun _ _ _ => True) (fun _ _ _ _ _ _ => trivial)
    (fun _ _ _ _ _ _ _ _ => trivial) (fun _ _ _ _ _ _ _ _ _ => trivial)
    (fun _ _ _ _ _ _ _ _ _ _ => trivial) (fun _ _ _ _ _ _ _ _ _ _ _ _ _ => trivial) removed m hr hc
  exact ⟨r, h1⟩

theorem consistent_of_done {repair : Bool} {removed : List XY} {m : Machine} {f : Found}
    (hf : repairFind repair removed m = .ok f) (h1 : ¬ (repair = false ∧ f.errors = true))
    (h2 : f.deadChips = []) (h3 : f.deadLinks = []) : Consistent m := by
  obtain ⟨a1, a2, a3, a4⟩ := repairFind_ok hf
  have hlink : ∀ d, d ∉ m.oneWayLinks := by
    rintro ⟨x, y, out, back⟩ hd
    have hnot := mt (a2 (x, y, out, back)).2 (by rw [h3]; simp)
    obtain ⟨q, hq⟩ := a4 _ hd
    cases hrep : repair with
    | true => exact hnot ⟨hd, .inl hrep⟩
    | false =>
      have hnr : q ∉ removed := fun hq' => hnot ⟨hd, .inr ⟨q, hq, hq'⟩⟩
      exact h1 ⟨hrep, a3.2 ⟨hrep, .oneWay hd hq hnr⟩⟩
  have hchip : ∀ p, ¬ (p ∈ m.unreachableIncomingLocalChips ∨ p ∈ m.unreachableOutgoingLocalChips ∨
      ∃ c ∈ m.chipList, c.xy = p ∧ ¬ ParentOK m c) := by
    intro p hp
    cases hrep : repair with
    | true => exact absurd ((a1 p).2 ⟨hrep, hp⟩) (by rw [h2]; simp)
    | false =>
      refine h1 ⟨hrep, a3.2 ⟨hrep, ?_⟩⟩
      rcases hp with hp | hp | ⟨c, hc, -, hp⟩
      · exact .incoming hp
      · exact .outgoing hp
      · exact .parent hc hp
  refine ⟨List.eq_nil_iff_forall_not_mem.2 hlink, List.eq_nil_iff_forall_not_mem.2 fun p hp => hchip p (.inl hp),
    List.eq_nil_iff_forall_not_mem.2 fun p hp => hchip p (.inr (.inl hp)), fun c hc => ?_⟩
  exact Classical.byContradiction fun hp => hchip c.xy (.inr (.inr ⟨c, hc, rfl, hp⟩))

theorem SameAttributes.refl (c : Chip) : SameAttributes c c := by simp [SameAttributes]

theorem SameAttributes.trans {a b c : Chip} (h : SameAttributes a b) (h' : SameAttributes b c) :
    SameAttributes a c := by
  unfold SameAttributes at *
  obtain ⟨h1, h2, h3, h4, h5, h6, h7, h8, h9, h10⟩ := h
  obtain ⟨g1, g2, g3, g4, g5, g6, g7, g8, g9, g10⟩ := h'
  exact ⟨h1.trans g1, h2.trans g2, h3.trans g3, h4.trans g4, h5.trans g5, h6.trans g6, h7.trans g7,
    h8.trans g8, h9.trans g9, h10.trans g10⟩

theorem SubMachine.refl (m : Machine) : SubMachine m m :=
  ⟨rfl, rfl, rfl, fun c hc => ⟨c, hc, SameAttributes.refl c, fun _ _ h => h⟩⟩

theorem SubMachine.trans {a b c : Machine} (h : SubMachine a b) (h' : SubMachine b c) : SubMachine a c := by
  obtain ⟨h1, h2, h3, h4⟩ := h
  obtain ⟨g1, g2, g3, g4⟩ := h'
  refine ⟨h1.trans g1, h2.trans g2, h3.trans g3, fun x hx => ?_⟩
  obtain ⟨y, hy, hs, hl⟩ := h4 x hx
  obtain ⟨z, hz, hs', hl'⟩ := g4 y hy
  exact ⟨z, hz, SameAttributes.trans hs hs', fun i l h => hl' i l (hl i l h)⟩

theorem ignore_sub {v : Version} {w h : Int} {m m' : Machine} (hr : Reachable v w h m)
    (hc : ∀ c ∈ m.chipList, RealChip c) {deadChips : List XY} {dead : List DeadLink}
    (hm : machineIgnore v m deadChips dead = .ok m') : SubMachine m' m := by
  obtain ⟨h1, h2, h3, h4, h5⟩ := C37_exact v w h m m' hr hc deadChips dead hm
  obtain ⟨-, a1, a2, a3, -, r⟩ := hr.rep
  obtain ⟨-, b1, b2, b3, -, r'⟩ := h1.rep
  refine ⟨b2.trans a2.symm, b3.trans a3.symm, b1.trans a1.symm, fun c' hc' => ?_⟩
  have hat := chip_at_of_mem r' hc'
  have his := ((h4 c'.x c'.y).1 (by unfold Machine.isChipAt PDict.contains; unfold Machine.getChipAt at hat; rw [hat]; rfl)).1
  have : ∃ c, m.getChipAt c'.x c'.y = some c := Option.isSome_iff_exists.1 his
  obtain ⟨c, hcat⟩ := this
  obtain ⟨g1, -, g2⟩ := h5 _ _ c c' hcat hat
  exact ⟨c, (mem_of_chip_at r hcat).1, g1, fun i l hl => ((g2 i l).1 hl).1⟩

/-- C38: a machine returned by `machine_repair` has none of the problems, is the original with only
chips and links removed, and is left alone by another repair. -/
theorem C38_result (v : Version) (w h : Int) (repair : Bool) (removed : List XY) (m m' : Machine)
    (hr : Reachable v w h m) (hc : ∀ c ∈ m.chipList, RealChip c)
    (hm : machineRepair v repair removed m = some (.ok m')) :
    Consistent m' ∧ SubMachine m' m ∧ Reachable v w h m' ∧ (∀ c ∈ m'.chipList, RealChip c) ∧
    ∀ repair' removed', machineRepair v repair' removed' m' = some (.ok m') := by
  obtain ⟨r, h1, h2⟩ := repair_induct (v := v) (w := w) (h := h) (repair := repair)
    (P := fun _ m r => ∀ m', r = .ok m' → Consistent m' ∧ SubMachine m' m ∧ Reachable v w h m' ∧
      (∀ c ∈ m'.chipList, RealChip c))
    (by intro _ _ _ _ _ _ _ h; simp at h) (by intro _ _ _ _ _ _ _ _ _ h; simp at h)
    (by
      intro removed m f hr hc hf h1 h2 h3 m' h
      cases h
      exact ⟨consistent_of_done hf h1 h2 h3, SubMachine.refl m, hr, hc⟩)
    (by intro _ _ _ _ _ _ _ _ _ _ _ h; simp at h)
    (by
      intro removed m f m1 r hr hc hf h1 h2 hi hrep ih m' h
      obtain ⟨g1, g2, g3, g4⟩ := ih m' h
      exact ⟨g1, SubMachine.trans g2 (ignore_sub hr hc hi), g3, g4⟩) removed m hr hc
  rw [hm] at h1
  cases h1
  obtain ⟨g1, g2, g3, g4⟩ := h2 m' rfl
  exact ⟨g1, g2, g3, g4, fun repair' removed' => machineRepair_consistent g1 v repair' removed'⟩

/-- no chip of a consistent part of a machine is found dead -/
theorem sub_alive {v : Version} {w h : Int} {m K : Machine} (hr : Reachable v w h m)
    {repair : Bool} {removed : List XY} {f : Found} (hf : repairFind repair removed m = .ok f)
    (hK : Reachable v w h K) (hs : SubMachine K m) (hcons : Consistent K)
    (hp : ∀ c' ∈ K.chipList, ∀ c ∈ m.chipList, c'.xy = c.xy → c.parentLink = none ∨ c'.parentLink = c.parentLink) :
    ∀ c' ∈ K.chipList, c'.xy ∉ f.deadChips := by
  obtain ⟨-, a1, a2, a3, -, r⟩ := hr.rep
  obtain ⟨-, k1, k2, k3, -, rK⟩ := hK.rep
  obtain ⟨d1, d2, -, -⟩ := repairFind_ok hf
  obtain ⟨s1, s2, s3, s4⟩ := hs
  have hin : ∀ {x y : Int} {c' : Chip}, K.getChipAt x y = some c' →
      ∃ c, m.getChipAt x y = some c ∧ SameAttributes c' c ∧ SubLinks c' c := by
    intro x y c' hat
    obtain ⟨hc', rfl, rfl⟩ := mem_of_chip_at rK hat
    obtain ⟨c, hcm, hsa, hsl⟩ := s4 c' hc'
    have := chip_at_of_mem r hcm
    rw [← hsa.1, ← hsa.2.1] at this
    exact ⟨c, this, hsa, hsl⟩
  have hover : ∀ x y i, K.xyOverLink x y i = m.xyOverLink x y i := by
    intro x y i; unfold Machine.xyOverLink; rw [s1, s2, s3]
  have hsubHas : ∀ {c' c : Chip} {i : Int}, SubLinks c' c → HasLink c' i → HasLink c i := by
    intro c' c i hsl hh
    rw [hasLink_iff] at *
    obtain ⟨l, hl⟩ := hh
    exact ⟨l, hsl i l hl⟩
  intro c' hc' hdead
  have hat := chip_at_of_mem rK hc'
  obtain ⟨c, hcat, hsa, hsl⟩ := hin hat
  have hcm := (mem_of_chip_at r hcat).1
  rcases ((d1 _).1 hdead).2 with hd | hd | ⟨c2, hc2, hxy, hd⟩
  · obtain ⟨c2, hc2, hxy, hno⟩ := (mem_incoming_local m _).1 hd
    have : c2 = c := by
      have := chip_at_of_mem r hc2
      simp only [Chip.xy, Prod.mk.injEq] at hxy
      rw [hxy.1, hxy.2, hcat] at this
      exact (Option.some.inj this).symm
    subst this
    have : c'.xy ∈ K.unreachableIncomingLocalChips := by
      refine (mem_incoming_local K _).2 ⟨c', hc', rfl, fun d n hn hl heth => ?_⟩
      obtain ⟨n', hn', hsa', hsl'⟩ := hin hn
      refine hno d n' (by rw [← hsa.1, ← hsa.2.1]; exact hn') (hsubHas hsl' hl) ?_
      rw [← hsa'.2.2.2.2.2.2.1, ← hsa'.2.2.2.2.2.2.2.1, ← hsa.2.2.2.2.2.2.1, ← hsa.2.2.2.2.2.2.2.1]
      exact heth
    rw [hcons.incoming] at this
    simp at this
  · obtain ⟨c2, hc2, hxy, hno⟩ := (mem_outgoing_local m _).1 hd
    have : c2 = c := by
      have := chip_at_of_mem r hc2
      simp only [Chip.xy, Prod.mk.injEq] at hxy
      rw [hxy.1, hxy.2, hcat] at this
      exact (Option.some.inj this).symm
    subst this
    have : c'.xy ∈ K.unreachableOutgoingLocalChips := by
      refine (mem_outgoing_local K _).2 ⟨c', hc', rfl, fun d n hl hn heth => ?_⟩
      obtain ⟨n', hn', hsa', hsl'⟩ := hin hn
      refine hno d n' (hsubHas hsl hl) (by rw [← hsa.1, ← hsa.2.1]; exact hn') ?_
      rw [← hsa'.2.2.2.2.2.2.1, ← hsa'.2.2.2.2.2.2.2.1, ← hsa.2.2.2.2.2.2.1, ← hsa.2.2.2.2.2.2.2.1]
      exact heth
    rw [hcons.outgoing] at this
    simp at this
  · have : c2 = c := by
      have := chip_at_of_mem r hc2
      simp only [Chip.xy, Prod.mk.injEq] at hxy
      rw [hxy.1, hxy.2, hcat] at this
      exact (Option.some.inj this).symm
    subst this
    apply hd
    intro i hi
    rcases hp c' hc' c2 hc2 hxy.symm with hno | heq
    · rw [hno] at hi; simp at hi
    · obtain ⟨q, hq1, hq2⟩ := hcons.parents c' hc' i (heq.trans hi)
      rw [hover, hsa.1, hsa.2.1] at hq1
      refine ⟨q, hq1, ?_⟩
      obtain ⟨n, hn⟩ := Option.isSome_iff_exists.1 hq2
      obtain ⟨n', hn', -⟩ := hin (x := q.1) (y := q.2) hn
      unfold Machine.isChipAt PDict.contains
      unfold Machine.getChipAt at hn'
      rw [hn']; rfl

/-- a consistent part of a machine survives a repair pass -/
theorem sub_survives {v : Version} {w h : Int} {m m' K : Machine} (hr : Reachable v w h m)
    (hc : ∀ c ∈ m.chipList, RealChip c) {repair : Bool} {removed : List XY} {f : Found}
    (hf : repairFind repair removed m = .ok f)
    (hm : machineIgnore v m f.deadChips f.deadLinks = .ok m')
    (hK : Reachable v w h K) (hs : SubMachine K m) (hcons : Consistent K)
    (hp : ∀ c' ∈ K.chipList, ∀ c ∈ m.chipList, c'.xy = c.xy → c.parentLink = none ∨ c'.parentLink = c.parentLink) :
    SubMachine K m' ∧
    (∀ c' ∈ K.chipList, ∀ c ∈ m'.chipList, c'.xy = c.xy → c.parentLink = none ∨ c'.parentLink = c.parentLink) := by
  obtain ⟨h1, h2, h3, h4, h5⟩ := C37_exact v w h m m' hr hc _ _ hm
  obtain ⟨-, a1, a2, a3, -, r⟩ := hr.rep
  obtain ⟨-, b1, b2, b3, -, r'⟩ := h1.rep
  obtain ⟨-, k1, k2, k3, -, rK⟩ := hK.rep
  obtain ⟨d1, d2, -, -⟩ := repairFind_ok hf
  obtain ⟨s1, s2, s3, s4⟩ := hs
  have hin : ∀ {x y : Int} {c' : Chip}, K.getChipAt x y = some c' →
      ∃ c, m.getChipAt x y = some c ∧ SameAttributes c' c ∧ SubLinks c' c := by
    intro x y c' hat
    obtain ⟨hc', rfl, rfl⟩ := mem_of_chip_at rK hat
    obtain ⟨c, hcm, hsa, hsl⟩ := s4 c' hc'
    have := chip_at_of_mem r hcm
    rw [← hsa.1, ← hsa.2.1] at this
    exact ⟨c, this, hsa, hsl⟩
  have hover : ∀ x y i, K.xyOverLink x y i = m.xyOverLink x y i := by
    intro x y i; unfold Machine.xyOverLink; rw [s1, s2, s3]
  have hsubHas : ∀ {c' c : Chip} {i : Int}, SubLinks c' c → HasLink c' i → HasLink c i := by
    intro c' c i hsl hh
    rw [hasLink_iff] at *
    obtain ⟨l, hl⟩ := hh
    exact ⟨l, hsl i l hl⟩
  have halive := sub_alive hr hf hK ⟨s1, s2, s3, s4⟩ hcons hp
  refine ⟨⟨k2.trans b2.symm, k3.trans b3.symm, k1.trans b1.symm, fun c' hc' => ?_⟩, fun c' hc' c hcm hxy => ?_⟩
  · have hat := chip_at_of_mem rK hc'
    obtain ⟨c, hcat, hsa, hsl⟩ := hin hat
    have hm' : m'.isChipAt c'.x c'.y = true := (h4 _ _).2 ⟨by
      unfold Machine.isChipAt PDict.contains; unfold Machine.getChipAt at hcat; rw [hcat]; rfl, halive c' hc'⟩
    obtain ⟨c1, hc1⟩ := Option.isSome_iff_exists.1 hm'
    have hc1' : m'.getChipAt c'.x c'.y = some c1 := hc1
    obtain ⟨g1, -, g2⟩ := h5 _ _ c c1 hcat hc1'
    refine ⟨c1, (mem_of_chip_at r' hc1').1, ?_, fun i l hl => ?_⟩
    · obtain ⟨e1, e2, e3, e4, e5, e6, e7, e8, e9, e10⟩ := g1
      exact SameAttributes.trans hsa ⟨e1.symm, e2.symm, e3.symm, e4.symm, e5.symm, e6.symm, e7.symm, e8.symm, e9.symm, e10.symm⟩
    · refine (g2 i l).2 ⟨hsl i l hl, ?_⟩
      rintro ⟨back, hdead⟩
      obtain ⟨c2, d, l2, hat2, hid, hback, hl2, hno⟩ :=
        (C24_one_way_links v w h m hr _ _ _ _).1 ((d2 _).1 hdead).1
      rw [hcat] at hat2
      cases hat2
      rw [hsl i l hl] at hl2
      cases hl2
      have : (c'.x, c'.y, i, back) ∈ K.oneWayLinks := by
        refine (C24_one_way_links v w h K hK _ _ _ _).2 ⟨c', d, l, hat, hid, hback, hl, ?_⟩
        rintro ⟨n, hn, hhas⟩
        obtain ⟨n', hn', -, hsl'⟩ := hin hn
        exact hno ⟨n', hn', hsubHas hsl' hhas⟩
      rw [hcons.links] at this
      simp at this
  · have hat := chip_at_of_mem r' hcm
    have his := ((h4 c.x c.y).1 (by unfold Machine.isChipAt PDict.contains; unfold Machine.getChipAt at hat; rw [hat]; rfl)).1
    obtain ⟨c0, hc0⟩ := Option.isSome_iff_exists.1 his
    have hc0' : m.getChipAt c.x c.y = some c0 := hc0
    obtain ⟨m1, j1, j2, -, j4⟩ := machineIgnore_eq hr hc f.deadChips f.deadLinks
    have hm1 : m1 = m' := by
      rw [hm] at j4
      cases hv : m1.validate v with
      | error e => rw [hv] at j4; simp at j4
      | ok u => rw [hv] at j4; simp only [Except.ok.injEq] at j4; exact j4.symm
    subst hm1
    have := survivors_at r r' j2 c.x c.y
    rw [hat, hc0'] at this
    split at this
    · simp at this
    · simp only [Option.map_some, Option.some.injEq] at this
      subst this
      obtain ⟨hcm0, -, -⟩ := mem_of_chip_at r hc0'
      rcases hp c' hc' c0 hcm0 (by rw [hxy, keepChip_xy]) with h | h
      · left; unfold keepChip; split
        · exact h
        · rfl
      · unfold keepChip; split
        · exact .inr h
        · exact .inl rfl

/-- C38: the repair removes no more than needed: every consistent part of the original that kept its
parent links is part of the result. -/
theorem C38_maximal (v : Version) (w h : Int) (repair : Bool) (removed : List XY) (m m' K : Machine)
    (hr : Reachable v w h m) (hc : ∀ c ∈ m.chipList, RealChip c)
    (hm : machineRepair v repair removed m = some (.ok m'))
    (hK : Reachable v w h K) (hs : SubMachine K m) (hp : KeepsParents K m) (hcons : Consistent K) :
    SubMachine K m' := by
  obtain ⟨r, h1, h2⟩ := repair_induct (v := v) (w := w) (h := h) (repair := repair)
    (P := fun _ m r => ∀ m', r = .ok m' → SubMachine K m →
      (∀ c' ∈ K.chipList, ∀ c ∈ m.chipList, c'.xy = c.xy → c.parentLink = none ∨ c'.parentLink = c.parentLink) →
      SubMachine K m')
    (by intro _ _ _ _ _ _ _ h; simp at h) (by intro _ _ _ _ _ _ _ _ _ h; simp at h)
    (by
      intro removed m f hr hc hf h1 h2 h3 m' h hs hp
      cases h
      exact hs)
    (by intro _ _ _ _ _ _ _ _ _ _ _ h; simp at h)
    (by
      intro removed m f m1 r hr hc hf h1 h2 hi hrep ih m' h hs hp
      obtain ⟨g1, g2⟩ := sub_survives hr hc hf hi hK hs hcons hp
      exact ih m' h g1 g2) removed m hr hc
  rw [hm] at h1
  cases h1
  exact h2 m' rfl hs fun c' hc' c hcm hxy => .inr (hp c' hc' c hcm hxy)

/-! ## C39 -/

/-- C39: with `repair_machine` False any problem other than one-way links to removed chips raises. -/
theorem C39_raises (v : Version) (removed : List XY) (m : Machine) (hu : Unexpected removed m) :
    ∃ e, machineRepair v false removed m = some (.error e) := by
  rw [machineRepair]
  cases hf : repairFind false removed m with
  | error e => exact ⟨e, rfl⟩
  | ok f =>
    have : f.errors = true := (repairFind_ok hf).2.2.1.2 ⟨rfl, hu⟩
    exact ⟨.machine, by simp [this]⟩

theorem findUnreachable_succeeds {repair : Bool} {m : Machine} (ps : List XY) (f : Found)
    (h : ∀ p ∈ ps, ∃ c, m.getItem p = .ok c ∧ ∃ e, m.getItem (c.ethX, c.ethY) = .ok e) :
    ∃ g, findUnreachable repair m ps f = .ok g := by
  induction ps generalizing f with
  | nil => exact ⟨f, rfl⟩
  | cons p ps ih =>
    obtain ⟨c, h1, e, h2⟩ := h p List.mem_cons_self
    unfold findUnreachable
    rw [h1]; simp only
    rw [h2]; simp only
    exact ih _ fun q hq => h q (List.mem_cons_of_mem _ hq)

theorem findOneWay_succeeds {repair : Bool} {removed : List XY} {m : Machine} (ds : List DeadLink) (f : Found)
    (h : ∀ d ∈ ds, ∃ q, m.xyOverLink d.1 d.2.1 d.2.2.1 = .ok q ∧ uniDirectionError m q (d.1, d.2.1) = .ok ()) :
    ∃ g, findOneWay repair removed m ds f = .ok g := by
  induction ds generalizing f with
  | nil => exact ⟨f, rfl⟩
  | cons d ds ih =>
    obtain ⟨q, h1, h2⟩ := h d List.mem_cons_self
    unfold findOneWay
    rw [h1]; simp only
    split
    · exact ih _ fun q hq => h q (List.mem_cons_of_mem _ hq)
    · rw [h2]; simp only
      exact ih _ fun q hq => h q (List.mem_cons_of_mem _ hq)

theorem findParents_succeeds {repair : Bool} {m : Machine} (cs : List Chip) (f : Found)
    (h : ∀ c ∈ cs, (∀ i, c.parentLink = some i → ∃ q, m.xyOverLink c.x c.y i = .ok q) ∧
      ∃ e, m.getItem (c.ethX, c.ethY) = .ok e) :
    ∃ g, findParents repair m cs f = .ok g := by
  induction cs generalizing f with
  | nil => exact ⟨f, rfl⟩
  | cons c cs ih =>
    obtain ⟨h1, e, h2⟩ := h c List.mem_cons_self
    have ih := fun f => ih f fun q hq => h q (List.mem_cons_of_mem _ hq)
    unfold findParents
    split
    · exact ih _
    · rename_i i hi
      obtain ⟨q, hq⟩ := h1 i hi
      rw [hq]; simp only
      split
      · exact ih _
      · rw [h2]; exact ih _

/-- looking for problems succeeds if the nearest Ethernet chips are there and parent links are links -/
theorem repairFind_succeeds {v : Version} {w h : Int} {m : Machine} (hr : Reachable v w h m)
    (heth : ∀ c ∈ m.chipList, m.isChipAt c.ethX c.ethY = true)
    (hpar : ∀ c ∈ m.chipList, ∀ i, c.parentLink = some i → 0 ≤ i ∧ i ≤ 5) (repair : Bool) (removed : List XY) :
    ∃ f, repairFind repair removed m = .ok f := by
  obtain ⟨hs, a1, a2, a3, -, r⟩ := hr.rep
  have hpos := hs.pos
  have hitem : ∀ c ∈ m.chipList, ∃ e, m.getItem (c.ethX, c.ethY) = .ok e := by
    intro c hc
    obtain ⟨e, he⟩ := Option.isSome_iff_exists.1 (heth c hc)
    exact ⟨e, (PDict.getE_eq_ok_iff _ _ _).2 he⟩
  have hself : ∀ c ∈ m.chipList, m.getItem c.xy = .ok c := fun c hc =>
    (PDict.getE_eq_ok_iff _ _ _).2 (chip_at_of_mem r hc)
  have hover : ∀ x y i, 0 ≤ i → i ≤ 5 → ∃ q, m.xyOverLink x y i = .ok q := by
    intro x y i h0 h5
    have : ∃ d : Dir, d.id = i := by
      have : i = 0 ∨ i = 1 ∨ i = 2 ∨ i = 3 ∨ i = 4 ∨ i = 5 := by omega
      rcases this with rfl | rfl | rfl | rfl | rfl | rfl
      · exact ⟨.E, rfl⟩
      · exact ⟨.NE, rfl⟩
      · exact ⟨.N, rfl⟩
      · exact ⟨.W, rfl⟩
      · exact ⟨.SW, rfl⟩
      · exact ⟨.S, rfl⟩
    obtain ⟨d, rfl⟩ := this
    exact ⟨_, xyOverLink_dir' m (by rw [a2]; exact hpos.1) (by rw [a3]; exact hpos.2) x y d⟩
  unfold repairFind
  obtain ⟨f1, h1⟩ := findUnreachable_succeeds (repair := repair) (m := m) m.unreachableIncomingLocalChips {} (by
    intro p hp
    obtain ⟨c, hc, rfl, -⟩ := (mem_incoming_local m p).1 hp
    exact ⟨c, hself c hc, hitem c hc⟩)
  rw [h1]; simp only
  obtain ⟨f2, h2⟩ := findUnreachable_succeeds (repair := repair) (m := m) m.unreachableOutgoingLocalChips f1 (by
    intro p hp
    obtain ⟨c, hc, rfl, -⟩ := (mem_outgoing_local m p).1 hp
    exact ⟨c, hself c hc, hitem c hc⟩)
  rw [h2]; simp only
  obtain ⟨f3, h3⟩ := findOneWay_succeeds (repair := repair) (removed := removed) (m := m) m.oneWayLinks f2 (by
    rintro ⟨x, y, out, back⟩ hd
    obtain ⟨c, d, l, hat, hid, -, -, -⟩ := (C24_one_way_links v w h m hr x y out back).1 hd
    obtain ⟨q, hq⟩ := hover x y out (by subst hid; cases d <;> decide) (by subst hid; cases d <;> decide)
    refine ⟨q, hq, ?_⟩
    obtain ⟨hcm, rfl, rfl⟩ := mem_of_chip_at r hat
    unfold uniDirectionError
    have hsc : m.getItem (c.x, c.y) = .ok c := hself c hcm
    rw [hsc]; simp only
    obtain ⟨e, he⟩ := hitem c hcm
    rw [he]; simp only
    cases hn : m.getChipAt q.1 q.2 with
    | none => rfl
    | some n =>
      obtain ⟨e', he'⟩ := hitem n (mem_of_chip_at r hn).1
      simp only [he'])
  rw [h3]; simp only
  exact findParents_succeeds _ _ fun c hc => ⟨fun i hi => hover _ _ i (hpar c hc i hi).1 (hpar c hc i hi).2, hitem c hc⟩

/-- C39: it is a SpinnMachineException if the nearest Ethernet chips are in the machine and the
parent links are link ids. -/
theorem C39_raises_machine_exception (v : Version) (w h : Int) (removed : List XY) (m : Machine)
    (hr : Reachable v w h m)
    (heth : ∀ c ∈ m.chipList, m.isChipAt c.ethX c.ethY = true)
    (hpar : ∀ c ∈ m.chipList, ∀ i, c.parentLink = some i → 0 ≤ i ∧ i ≤ 5)
    (hu : Unexpected removed m) :
    machineRepair v false removed m = some (.error .machine) := by
  obtain ⟨f, hf⟩ := repairFind_succeeds hr heth hpar false removed
  have : f.errors = true := (repairFind_ok hf).2.2.1.2 ⟨rfl, hu⟩
  rw [machineRepair, hf]
  simp [this]

/-- C39: a machine returned with `repair_machine` False had no unexpected problem and all that was
removed are the one-way links. -/
theorem C39_only_expected (v : Version) (w h : Int) (removed : List XY) (m m' : Machine)
    (hr : Reachable v w h m) (hc : ∀ c ∈ m.chipList, RealChip c)
    (hm : machineRepair v false removed m = some (.ok m')) :
    ¬ Unexpected removed m ∧ (m.oneWayLinks = [] → m' = m) ∧
    ∀ x y, (m'.isChipAt x y = true ↔ m.isChipAt x y = true) ∧
      ∀ c c', m.getChipAt x y = some c → m'.getChipAt x y = some c' →
        SameAttributes c' c ∧
        ∀ i l, c'.router.getLink i = some l ↔ c.router.getLink i = some l ∧ ¬ ∃ back, (x, y, i, back) ∈ m.oneWayLinks := by
  have hnu : ¬ Unexpected removed m := by
    intro hu
    obtain ⟨e, he⟩ := C39_raises v removed m hu
    rw [he] at hm; simp at hm
  refine ⟨hnu, ?_⟩
  rw [machineRepair] at hm
  cases hf : repairFind false removed m with
  | error e => rw [hf] at hm; simp at hm
  | ok f =>
    obtain ⟨d1, d2, d3, d4⟩ := repairFind_ok hf
    have herr : f.errors = false := by
      cases he : f.errors with
      | false => rfl
      | true => exact absurd (d3.1 he).2 hnu
    have hdc : f.deadChips = [] := List.eq_nil_iff_forall_not_mem.2 fun p hp => by
      have := (d1 p).1 hp; simp at this
    have hdl : ∀ d, d ∈ f.deadLinks ↔ d ∈ m.oneWayLinks := by
      rintro ⟨x, y, out, back⟩
      rw [d2]
      refine ⟨fun h => h.1, fun h => ⟨h, .inr ?_⟩⟩
      obtain ⟨q, hq⟩ := d4 _ h
      refine ⟨q, hq, Classical.byContradiction fun hn => hnu (.oneWay h hq hn)⟩
    rw [hf] at hm
    simp only [Bool.not_false, herr, Bool.and_false, Bool.false_eq_true, if_false] at hm
    by_cases hempty : f.deadChips = [] ∧ f.deadLinks = []
    · rw [if_pos hempty] at hm
      simp only [Option.some.injEq, Except.ok.injEq] at hm
      subst hm
      refine ⟨fun _ => rfl, fun x y => ⟨Iff.rfl, fun c c' h h' => ?_⟩⟩
      rw [h] at h'
      cases h'
      refine ⟨SameAttributes.refl c, fun i l => ⟨fun hl => ⟨hl, ?_⟩, fun hl => hl.1⟩⟩
      rintro ⟨back, hb⟩
      have := (hdl _).2 hb
      rw [hempty.2] at this
      simp at this
    · rw [if_neg hempty] at hm
      cases hi : machineIgnore v m f.deadChips f.deadLinks with
      | error e => rw [hi] at hm; simp at hm
      | ok m1 =>
        rw [hi] at hm
        simp only at hm
        obtain ⟨g1, g2, -, g4, g5⟩ := C37_exact v w h m m1 hr hc _ _ hi
        have hm1 : m1 = m' := by
          rw [machineRepair] at hm
          cases hf1 : repairFind false [] m1 with
          | error e => rw [hf1] at hm; simp at hm
          | ok f1 =>
            obtain ⟨e1, e2, -, -⟩ := repairFind_ok hf1
            have hdc1 : f1.deadChips = [] := List.eq_nil_iff_forall_not_mem.2 fun p hp => by
              have := (e1 p).1 hp; simp at this
            have hdl1 : f1.deadLinks = [] := List.eq_nil_iff_forall_not_mem.2 fun d hd => by
              have := (e2 d).1 hd; simp at this
            rw [hf1] at hm
            simp only [Bool.not_false, Bool.true_and, hdc1, hdl1, and_self, if_true] at hm
            split at hm
            · simp at hm
            · simpa using hm
        subst hm1
        refine ⟨fun hno => ?_, fun x y => ⟨?_, fun c c' h h' => ?_⟩⟩
        · exfalso
          apply hempty
          refine ⟨hdc, List.eq_nil_iff_forall_not_mem.2 fun d hd => ?_⟩
          have := (hdl d).1 hd
          rw [hno] at this
          simp at this
        · rw [g4, hdc]; simp
        · obtain ⟨k1, -, k2⟩ := g5 x y c c' h h'
          refine ⟨k1, fun i l => ?_⟩
          rw [k2]
          simp only [hdl]

/-! ## C40 -/

/-- C40 (part): a chip that survives keeps everything but the links removed, except that its parent
link may be forgotten; this happens only to chips that lost a link. It does happen, see
`C40_parent_link_lost`. -/
theorem C40_attributes_partial (v : Version) (w h : Int) (repair : Bool) (removed : List XY) (m m' : Machine)
    (hr : Reachable v w h m) (hc : ∀ c ∈ m.chipList, RealChip c)
    (hm : machineRepair v repair removed m = some (.ok m')) (c' : Chip) (hc' : c' ∈ m'.chipList) :
    ∃ c ∈ m.chipList, SameAttributes c' c ∧ SubLinks c' c ∧
      (c' = c ∨ (c'.parentLink = none ∧ ∃ i l, c.router.getLink i = some l ∧ c'.router.getLink i = none)) := by
  obtain ⟨r, h1, h2⟩ := repair_induct (v := v) (w := w) (h := h) (repair := repair)
    (P := fun _ m r => ∀ m', r = .ok m' → ∀ c' ∈ m'.chipList, ∃ c ∈ m.chipList, SameAttributes c' c ∧
      SubLinks c' c ∧
      (c' = c ∨ (c'.parentLink = none ∧ ∃ i l, c.router.getLink i = some l ∧ c'.router.getLink i = none)))
    (by intro _ _ _ _ _ _ _ h; simp at h) (by intro _ _ _ _ _ _ _ _ _ h; simp at h)
    (by
      intro removed m f hr hc hf h1 h2 h3 m' h c' hc'
      cases h
      exact ⟨c', hc', SameAttributes.refl _, fun _ _ h => h, .inl rfl⟩)
    (by intro _ _ _ _ _ _ _ _ _ _ _ h; simp at h)
    (by
      intro removed m f m1 r hr hc hf h1 h2 hi hrep ih m' hmr c' hc'
      obtain ⟨c1, hc1, e1, e2, e3⟩ := ih m' hmr c' hc'
      obtain ⟨m2, j1, j2, -, j4⟩ := machineIgnore_eq hr hc f.deadChips f.deadLinks
      have hm1 : m2 = m1 := by
        rw [hi] at j4
        cases hv : m2.validate v with
        | error e => rw [hv] at j4; simp at j4
        | ok u => rw [hv] at j4; simp only [Except.ok.injEq] at j4; exact j4.symm
      subst hm1
      rw [j2, survivors, List.mem_map] at hc1
      obtain ⟨c, hcf, rfl⟩ := hc1
      have hcm := (List.mem_filter.1 hcf).1
      have hgl := keepChip_getLink f.deadLinks (hc c hcm)
      have hsub : SubLinks (keepChip f.deadLinks c) c := by
        intro i l hl
        rw [hgl] at hl
        split at hl
        · simp at hl
        · exact hl
      refine ⟨c, hcm, SameAttributes.trans e1 (keepChip_same _ _), fun i l hl => hsub i l (e2 i l hl), ?_⟩
      by_cases hn : deadIds f.deadLinks c.xy = []
      · have : keepChip f.deadLinks c = c := by unfold keepChip; rw [if_pos hn]
        rw [this] at e3
        exact e3
      · right
        obtain ⟨i, hmem⟩ := List.exists_mem_of_ne_nil _ hn
        obtain ⟨back, hb⟩ := (mem_deadIds _ _ _).1 hmem
        obtain ⟨c2, d, l, hat, -, -, hl, -⟩ := (C24_one_way_links v w h m hr _ _ _ _).1
          (((repairFind_ok hf).2.1 _).1 hb).1
        obtain ⟨-, -, -, -, -, rr⟩ := hr.rep
        have := chip_at_of_mem rr hcm
        have hat' : m.getChipAt c.x c.y = some c2 := hat
        rw [this] at hat'
        cases hat'
        have hpl : (keepChip f.deadLinks c).parentLink = none := by unfold keepChip; rw [if_neg hn]
        refine ⟨?_, i, l, hl, ?_⟩
        · rcases e3 with e3 | e3
          · rw [e3]; exact hpl
          · exact e3.1
        · cases hg : c'.router.getLink i with
          | none => rfl
          | some l' =>
            have := e2 i l' hg
            rw [hgl, if_pos hmem] at this
            simp at this) removed m hr hc
  rw [hm] at h1
  cases h1
  exact h2 m' rfl c' hc'

/-! ## C36 -/

/-- every place of a 48-chip board has a neighbour on the board in the same quarter -/
theorem quarter_step (l : XY) (hl : OnBoard48 l) : ∃ d : Dir, OnBoard48 (l.1 + d.dx, l.2 + d.dy) ∧
    l.1 / 4 = (l.1 + d.dx) / 4 ∧ l.2 / 4 = (l.2 + d.dy) / 4 := by
  have key : ∀ a : Fin 8, ∀ b : Fin 8, OnBoard48 ((a : Nat), (b : Nat)) →
      ([Dir.E, .NE, .N, .W, .SW, .S].any fun d =>
        decide (OnBoard48 ((a : Nat) + d.dx, (b : Nat) + d.dy) ∧
          ((a : Nat) : Int) / 4 = ((a : Nat) + d.dx) / 4 ∧ ((b : Nat) : Int) / 4 = ((b : Nat) + d.dy) / 4)) = true := by
    decide +kernel
  obtain ⟨x, y⟩ := l
  have hl' := hl
  unfold OnBoard48 at hl'
  simp only at hl'
  have hx : ((⟨x.toNat, by omega⟩ : Fin 8) : Nat) = x.toNat := rfl
  have := key ⟨x.toNat, by omega⟩ ⟨y.toNat, by omega⟩
  simp only [Int.toNat_of_nonneg hl'.1, Int.toNat_of_nonneg hl'.2.2.1] at this
  have := this hl
  rw [List.any_eq_true] at this
  obtain ⟨d, -, hd⟩ := this
  exact ⟨d, of_decide_eq_true hd⟩

/-- steps inside a quarter of the board do not cross the machine's edge -/
theorem pmod_quarter {l e w dx : Int} (hw : 0 < w) (h4 : 4 ∣ w) (he : 4 ∣ e)
    (hq : l / 4 = (l + dx) / 4) : pmod (l + e) w + dx = pmod (l + dx + e) w := by
  obtain ⟨j, rfl⟩ := h4
  obtain ⟨i, rfl⟩ := he
  obtain ⟨k, hk⟩ := pmod_exists (l + 4 * i) (4 * j) hw
  have h0 := pmod_nonneg (a := l + 4 * i) hw
  have h1 := pmod_lt (a := l + 4 * i) hw
  generalize pmod (l + 4 * i) (4 * j) = r at *
  have hkj : k * (4 * j) = 4 * (k * j) := by grind
  symm
  rw [pmod_eq_iff hw]
  · exact ⟨k, by omega⟩
  · generalize k * j = t at *; omega
  · generalize k * j = t at *; omega

/-- every place of a board of several chips has a neighbour on the board over a wired link that
does not cross the machine's edge -/
theorem local_step {k : VKind} (hk : k ≠ .v201) {w h : Int} (hs : SizeOK k w h) {e l : XY}
    (he : e ∈ k.potentialEthernetChips w h) (hl : OnBoard k l) :
    ∃ d : Dir, OnBoard k (l.1 + d.dx, l.2 + d.dy) ∧
      (∀ p, ¬ Unwired k p d) ∧ (∀ p, ¬ Unwired k p (revDir d)) ∧
      (((k.wrapFor w h).red w h (l.1 + e.1, l.2 + e.2)).1 + d.dx,
        ((k.wrapFor w h).red w h (l.1 + e.1, l.2 + e.2)).2 + d.dy) =
        (k.wrapFor w h).red w h (l.1 + d.dx + e.1, l.2 + d.dy + e.2) := by
  have hpos := hs.pos
  rw [mem_potential_iff hs] at he
  obtain ⟨hpe, hg, -⟩ := he
  have h48 : (k = .v5 ∨ k = .v248) → OnBoard48 l → ∃ d : Dir, OnBoard48 (l.1 + d.dx, l.2 + d.dy) ∧
      (((k.wrapFor w h).red w h (l.1 + e.1, l.2 + e.2)).1 + d.dx,
        ((k.wrapFor w h).red w h (l.1 + e.1, l.2 + e.2)).2 + d.dy) =
        (k.wrapFor w h).red w h (l.1 + d.dx + e.1, l.2 + d.dy + e.2) := by
    intro hk48 hl
    obtain ⟨d, hd, hx, hy⟩ := quarter_step l hl
    refine ⟨d, hd, ?_⟩
    have hs4 : 4 ∣ w ∧ 4 ∣ h := by
      rcases hk48 with rfl | rfl <;> simp only [SizeOK] at hs <;> omega
    have he4 : 4 ∣ e.1 ∧ 4 ∣ e.2 := by
      have : EthLattice e := by rcases hk48 with rfl | rfl <;> exact hpe
      rw [ethLattice_iff] at this
      omega
    have hxq := pmod_quarter hpos.1 hs4.1 he4.1 hx
    have hyq := pmod_quarter hpos.2 hs4.2 he4.2 hy
    refine Prod.ext ?_ ?_
    · simp only [Wrap.red_fst]
      split
      · exact hxq
      · omega
    · simp only [Wrap.red_snd]
      split
      · exact hyq
      · omega
  cases k with
  | v201 => exact absurd rfl hk
  | v5 =>
    obtain ⟨d, h1, h2⟩ := h48 (.inl rfl) hl
    exact ⟨d, h1, fun p hu => by simp [Unwired] at hu, fun p hu => by simp [Unwired] at hu, h2⟩
  | v248 =>
    obtain ⟨d, h1, h2⟩ := h48 (.inr rfl) hl
    exact ⟨d, h1, fun p hu => by simp [Unwired] at hu, fun p hu => by simp [Unwired] at hu, h2⟩
  | v3 =>
    obtain ⟨rfl, rfl⟩ := hs
    obtain ⟨x, y⟩ := l
    simp only [OnBoard] at hl
    simp only [EthPos] at hpe
    subst hpe
    have hx : x = 0 ∨ x = 1 := by omega
    have hy : y = 0 ∨ y = 1 := by omega
    rcases hy with rfl | rfl
    · refine ⟨.N, by simp only [OnBoard, Dir.dx, Dir.dy]; omega, by simp [Unwired], by simp [Unwired, revDir], ?_⟩
      rcases hx with rfl | rfl <;> decide
    · refine ⟨.S, by simp only [OnBoard, Dir.dx, Dir.dy]; omega, by simp [Unwired], by simp [Unwired, revDir], ?_⟩
      rcases hx with rfl | rfl <;> decide

/-- C36 (part): a virtual machine of any board of several chips, without down chips or links, has
nothing to repair: `machine_repair` returns it unchanged, with `repair_machine` set or not. The
single chip board is excluded, see `C36_single_chip_raises`. -/
theorem C36_perfect_partial (v : Version) (hk : v.kind ≠ .v201) (cfg : DownCfg) (w h : Int) (validate : Bool)
    (m : Machine) (hm : virtualMachine v cfg w h validate = .ok m)
    (hnc : ∀ p, ¬ ChipDown cfg p) (hnl : ∀ p i, ¬ LinkDown cfg p i) (repair : Bool) (removed : List XY) :
    machineRepair v repair removed m = some (.ok m) := by
  obtain ⟨hs, hr, hwr, hw, hh, hcc, r, d, hd, hcl⟩ := vm_facts hm
  have hpos := hs.pos
  have hposm : 0 < m.width ∧ 0 < m.height := by rw [hw, hh]; exact hpos
  have hdc : ∀ p, p ∉ d.chips := fun p hp => hnc p (((down_spec hs hd).1 p).1 hp)
  -- a neighbour on the same board, linked both ways
  have hlocal : ∀ c ∈ m.chipList, ∃ (dir : Dir) (n : Chip), m.getChipAt (c.x + dir.dx) (c.y + dir.dy) = some n ∧
      HasLink c dir.id ∧ HasLink n (revDir dir).id ∧ n.ethX = c.ethX ∧ n.ethY = c.ethY := by
    intro c hc
    have hc' := hc
    rw [hcl, vmChips, List.mem_map] at hc'
    obtain ⟨⟨p, e, n⟩, hkv, rfl⟩ := hc'
    obtain ⟨he, hp, l, k, hl, hn, hpl⟩ := (mem_vmEntries v w h d p e n).1 hkv
    have hon : OnBoard v.kind l := (mem_chipCoreMap_iff _ _).1 ((PDict.mem_keys_iff l).2 ⟨k, hl⟩)
    obtain ⟨dir, hon', hu, hu', hstep⟩ := local_step hk hs he hon
    rw [← hpl] at hstep
    obtain ⟨k', hk'⟩ := (PDict.mem_keys_iff _).1 ((mem_chipCoreMap_iff _ _).2 hon')
    have hkv' : ((p.1 + dir.dx, p.2 + dir.dy), (e, min k' v.maxCores)) ∈ vmEntries v w h d :=
      (mem_vmEntries _ _ _ _ _ _ _).2 ⟨he, hdc _, _, k', hk', rfl, hstep⟩
    generalize hN : vmChip v w h d ((p.1 + dir.dx, p.2 + dir.dy), (e, min k' v.maxCores)) = N
    have hNm : N ∈ m.chipList := by
      rw [hcl, vmChips, List.mem_map]; exact ⟨_, hkv', hN⟩
    have hNxy : N.x = p.1 + dir.dx ∧ N.y = p.2 + dir.dy ∧ N.ethX = e.1 ∧ N.ethY = e.2 := by
      subst hN; exact ⟨rfl, rfl, rfl, rfl⟩
    have hat := chip_at_of_mem r hNm
    rw [hNxy.1, hNxy.2.1] at hat
    have hatc := chip_at_of_mem r hc
    have hcx : (vmChip v w h d (p, e, n)).x = p.1 := rfl
    have hcy : (vmChip v w h d (p, e, n)).y = p.2 := rfl
    have hchip : ∀ {x y : Int} {c : Chip}, m.getChipAt x y = some c → m.isChipAt x y = true := by
      intro x y c h
      unfold Machine.isChipAt PDict.contains
      unfold Machine.getChipAt at h
      rw [h]; rfl
    have hin := vm_inGrid hs d (List.mem_map_of_mem (f := (·.1)) hkv)
    have hin' := vm_inGrid hs d (List.mem_map_of_mem (f := (·.1)) hkv')
    have hred : ∀ q : XY, InGrid w h q → m.wrap.red m.width m.height q = q := by
      intro q hq
      rw [hw, hh]
      unfold InGrid at hq
      exact Wrap.red_of_inRange _ ⟨fun _ => ⟨hq.1, hq.2.1⟩, fun _ => ⟨hq.2.2.1, hq.2.2.2⟩⟩
    refine ⟨dir, N, hat, ?_, ?_, hNxy.2.2.1, hNxy.2.2.2⟩
    · rw [C31_links v cfg w h validate m hm _ hc]
      refine ⟨dir, rfl, hnl _ _, hu _, (p.1 + dir.dx, p.2 + dir.dy), ?_, hchip hat⟩
      rw [xyOverLink_dir' m hposm.1 hposm.2, hcx, hcy, hred _ hin']
    · rw [C31_links v cfg w h validate m hm _ hNm]
      refine ⟨revDir dir, rfl, hnl _ _, hu' _, p, ?_, hchip (hcx ▸ hcy ▸ hatc)⟩
      rw [xyOverLink_dir' m hposm.1 hposm.2, hNxy.1, hNxy.2.1]
      have : (p.1 + dir.dx + (revDir dir).dx, p.2 + dir.dy + (revDir dir).dy) = p := by
        cases dir <;> simp only [revDir, Dir.dx, Dir.dy] <;> (refine Prod.ext ?_ ?_ <;> simp only <;> omega)
      rw [this, hred _ hin]
  refine machineRepair_consistent ⟨?_, ?_, ?_, ?_⟩ v repair removed
  · exact C31_no_one_way v cfg w h validate m hm fun c _ dir _ hl _ _ => absurd hl (hnl _ _)
  · rw [List.eq_nil_iff_forall_not_mem]
    intro p hp
    obtain ⟨c, hc, rfl, hno⟩ := (mem_incoming_local m _).1 hp
    obtain ⟨dir, n, h1, h2, h3, h4, h5⟩ := hlocal c hc
    refine hno (revDir dir) n ?_ h3 ⟨h4, h5⟩
    rw [← h1]
    congr 1 <;> cases dir <;> simp only [revDir, Dir.dx, Dir.dy] <;> omega
  · rw [List.eq_nil_iff_forall_not_mem]
    intro p hp
    obtain ⟨c, hc, rfl, hno⟩ := (mem_outgoing_local m _).1 hp
    obtain ⟨dir, n, h1, h2, h3, h4, h5⟩ := hlocal c hc
    exact hno dir n h2 h1 ⟨h4, h5⟩
  · intro c hc i hi
    rw [hcl, vmChips, List.mem_map] at hc
    obtain ⟨kv, -, rfl⟩ := hc
    simp [vmChip, Chip.mk'] at hi

/-- the chips of a virtual machine are made by the constructors: virtual machines meet the
hypotheses of C37-C40 -/
theorem vm_real {v : Version} {cfg : DownCfg} {w h : Int} {validate : Bool} {m : Machine}
    (hm : virtualMachine v cfg w h validate = .ok m) :
    Reachable v w h m ∧ ∀ c ∈ m.chipList, RealChip c := by
  obtain ⟨hs, hr, -, -, -, -, -, d, -, hcl⟩ := vm_facts hm
  refine ⟨hr, fun c hc => ?_⟩
  rw [hcl, vmChips, List.mem_map] at hc
  obtain ⟨kv, hkv, rfl⟩ := hc
  obtain ⟨r, hr', -, hi, hn⟩ := (C63_constructor v.kind.nRouterEntries (vmLinks v w h d kv.1)).1
    (vmLinks_nodup v w h d kv.1)
  refine ⟨⟨vmLinks v w h d kv.1, v.kind.nRouterEntries, ?_⟩, ⟨(vmChip v w h d kv).tags, ?_⟩⟩
  · rw [hr']
    obtain ⟨⟨it⟩, ne⟩ := r
    simp only [Router.iter] at hi hn
    rw [hi, hn]
    rfl
  · rw [orderedSet_of_nodup]
    simp only [vmChip, Chip.mk']
    split
    · exact List.nodup_nil
    · decide

/-- C36 fails for the one chip board: its only chip can have no link to another chip of the board, so
`machine_repair` of the perfect machine always raises; with `repair_machine` set because no chip is
left. -/
theorem C36_single_chip_raises (v : Version) (hk : v.kind = .v201) (cfg : DownCfg) (w h : Int) (validate : Bool)
    (m : Machine) (hm : virtualMachine v cfg w h validate = .ok m) (hnc : ∀ p, ¬ ChipDown cfg p)
    (repair : Bool) (removed : List XY) :
    machineRepair v repair removed m = some (.error .machine) := by
  obtain ⟨hr, hreal⟩ := vm_real hm
  obtain ⟨hs, -, hwr, hw, hh, hcc, r, d, hd, hcl⟩ := vm_facts hm
  have hsize : w = 1 ∧ h = 1 := by rw [hk] at hs; exact hs
  have hall : ∀ c ∈ m.chipList, c.xy = (0, 0) ∧ (c.ethX, c.ethY) = (0, 0) ∧ c.parentLink = none := by
    intro c hc
    have hg := C30_well_placed v cfg w h validate m hm
    rw [hcl, vmChips, List.mem_map] at hc
    obtain ⟨⟨p, e, n⟩, hkv, rfl⟩ := hc
    have hin := vm_inGrid hs d (List.mem_map_of_mem (f := (·.1)) hkv)
    obtain ⟨he, -⟩ := (mem_vmEntries v w h d p e n).1 hkv
    rw [mem_potential_iff hs, hk] at he
    have he0 : e = (0, 0) := he.1
    unfold InGrid at hin
    simp only at hin
    rw [vmChip_xy]
    refine ⟨Prod.ext (by simp only; omega) (by simp only; omega), by subst he0; rfl, rfl⟩
  have h00 : m.isChipAt 0 0 = true := by
    rw [C30_chips v cfg w h validate m hm (0, 0)]
    refine ⟨hnc _, (0, 0), ?_, ⟨fun _ => by simp only; omega, fun _ => by simp only; omega⟩, (0, 0), ?_, ?_⟩
    · rw [mem_potential_iff hs, hk]
      refine ⟨rfl, by unfold InGrid; simp only; omega, fun l hl => ?_⟩
      have : l = (0, 0) := hl
      subst this
      exact ⟨fun _ => by simp only; omega, fun _ => by simp only; omega⟩
    · rw [hk]; rfl
    · refine ⟨?_, ?_⟩ <;> split <;> simp
      all_goals exact ⟨0, by omega⟩
  obtain ⟨c, hc⟩ := Option.isSome_iff_exists.1 h00
  have hc' : m.getChipAt 0 0 = some c := hc
  have hcm := (mem_of_chip_at r hc').1
  have hu : (0, 0) ∈ m.unreachableIncomingLocalChips := by
    rw [mem_incoming_local]
    refine ⟨c, hcm, (hall c hcm).1, fun dir n hn _ _ => ?_⟩
    obtain ⟨hnm, hx, hy⟩ := mem_of_chip_at r hn
    have h1 := (hall c hcm).1
    have h2 := (hall n hnm).1
    simp only [Chip.xy, Prod.mk.injEq] at h1 h2
    cases dir <;> simp only [Dir.dx, Dir.dy] at hx hy <;> omega
  have heth : ∀ c ∈ m.chipList, m.isChipAt c.ethX c.ethY = true := by
    intro c hc
    have := (hall c hc).2.1
    simp only [Prod.mk.injEq] at this
    rw [this.1, this.2]; exact h00
  have hpar : ∀ c ∈ m.chipList, ∀ i, c.parentLink = some i → 0 ≤ i ∧ i ≤ 5 := by
    intro c hc i hi
    rw [(hall c hc).2.2] at hi
    simp at hi
  cases repair with
  | false => exact C39_raises_machine_exception v w h removed m hr heth hpar (.incoming hu)
  | true =>
    obtain ⟨f, hf⟩ := repairFind_succeeds hr heth hpar true removed
    have hdead : (0, 0) ∈ f.deadChips := ((repairFind_ok hf).1 _).2 ⟨rfl, .inl hu⟩
    obtain ⟨m1, g1, g2, -, g4⟩ := machineIgnore_eq hr hreal f.deadChips f.deadLinks
    have hnil : m1.chipList = [] := by
      rw [g2, survivors, List.map_eq_nil_iff, List.filter_eq_nil_iff]
      intro c hc
      simp [(hall c hc).1, hdead]
    obtain ⟨-, -, -, -, -, r1⟩ := g1.rep
    have hboot := r1.boot
    rw [hnil] at hboot
    have hval : m1.validate v = .error .machine := by
      unfold Machine.validate
      rw [hboot]
      rfl
    rw [machineRepair, hf]
    simp only [Bool.not_true, Bool.false_and, Bool.false_eq_true, if_false]
    rw [if_neg (fun hh => by rw [hh.1] at hdead; simp at hdead), g4, hval]

/-- the one chip machine exists, so `C36_single_chip_raises` is about something -/
example : (match virtualMachine { kind := .v201, maxCores := 152, maxSdram := 1000 } {} 1 1 true with
    | .ok m => m.len == 1
    | .error _ => false) = true := by decide +kernel

/-- an unwrapped machine of three boards and a four chip board, for `C36_perfect_partial` -/
example : (match virtualMachine exV5 {} 16 16 true with
    | .ok m => m.len == 144 && m.oneWayLinks.isEmpty && m.unreachableIncomingLocalChips.isEmpty
    | .error _ => false) = true ∧
    (match virtualMachine { exV5 with kind := .v3 } {} 2 2 true with
    | .ok m => m.len == 4
    | .error _ => false) = true := by decide +kernel

/-! ### C40: the parent link is lost -/

/-- chips (0,0) and (1,0), linked; (1,0) has a link into nowhere and the chip (2,0), which has no
links, as its parent -/
def exOrphanOps : List Op :=
  [.addChip (exLinked 0 0 [⟨0, 0, 0, 1, 0⟩] 0 0 (some ['a'])),
   .addChip { exLinked 1 0 [⟨1, 0, 3, 0, 0⟩, ⟨1, 0, 1, 2, 1⟩] 0 0 none with parentLink := some 0 },
   .addChip (exLinked 2 0 [] 0 0 none)]

/-- the machine with these chips -/
def exOrphan : Machine := (run exV5 (Machine.new .none 8 8 VKind.v5.chipCoreMap "t") exOrphanOps).1

/-- C40 fails: a chip that loses a link also loses its parent link, so that it survives although its
parent has disappeared. -/
theorem C40_parent_link_lost : Reachable exV5 8 8 exOrphan ∧ (∀ c ∈ exOrphan.chipList, RealChip c) ∧
    ∃ m' c c', machineRepair exV5 true [] exOrphan = some (.ok m') ∧
      exOrphan.getChipAt 1 0 = some c ∧ m'.getChipAt 1 0 = some c' ∧
      c.parentLink = some 0 ∧ exOrphan.xyOverLink 1 0 0 = .ok (2, 0) ∧
      c'.parentLink = none ∧ m'.isChipAt 2 0 = false := by
  refine ⟨⟨"t", exOrphanOps, _, rfl, rfl⟩, ?_, ?_⟩
  · refine real_of_history exV5 8 8 "t" _ rfl exOrphanOps ?_
    intro op hop
    simp only [exOrphanOps, List.mem_cons, List.not_mem_nil, or_false] at hop
    rcases hop with rfl | rfl | rfl
    all_goals
      refine ⟨fun c hc => ?_, fun cs hc => by simp at hc⟩
      cases hc
    · exact ⟨⟨[⟨0, 0, 0, 1, 0⟩], 1023, rfl⟩, ⟨_, rfl⟩⟩
    · exact ⟨⟨[⟨1, 0, 3, 0, 0⟩, ⟨1, 0, 1, 2, 1⟩], 1023, rfl⟩, ⟨[], rfl⟩⟩
    · exact ⟨⟨[], 1023, rfl⟩, ⟨[], rfl⟩⟩
  · have h1 : repairFind true [] exOrphan = .ok { deadChips := [(2, 0), (2, 0)], deadLinks := [(1, 0, 1, 4)] } := by
      decide +kernel
    have h2 : (match machineIgnore exV5 exOrphan [(2, 0), (2, 0)] [(1, 0, 1, 4)] with
      | .ok m' => (m'.getChipAt 1 0).map Chip.parentLink == some none && !m'.isChipAt 2 0 &&
          decide (repairFind true [] m' = .ok {})
      | .error _ => false) = true := by decide +kernel
    cases h3 : machineIgnore exV5 exOrphan [(2, 0), (2, 0)] [(1, 0, 1, 4)] with
    | error e => rw [h3] at h2; simp at h2
    | ok m' =>
      rw [h3] at h2
      simp only [Bool.and_eq_true, Bool.not_eq_true', decide_eq_true_eq, beq_iff_eq] at h2
      obtain ⟨⟨h4, h5⟩, h6⟩ := h2
      cases h7 : m'.getChipAt 1 0 with
      | none => rw [h7] at h4; simp at h4
      | some c' =>
        rw [h7] at h4
        simp only [Option.map_some, Option.some.injEq] at h4
        have h8 : machineRepair exV5 true [] exOrphan = some (.ok m') := by
          rw [machineRepair, h1]
          simp only [Bool.not_true, Bool.false_and, Bool.false_eq_true, if_false]
          rw [if_neg (by simp), h3]
          simp only
          rw [machineRepair, h6]
          simp
        exact ⟨m', _, c', h8, rfl, h7, rfl, by decide, h4, h5⟩

end SpiNN.Props
