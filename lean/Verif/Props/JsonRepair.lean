import Verif.Props.JsonSame
import Verif.Props.RepairOrder

/-!
# Saving, reading back and repairing (C100)
-/

namespace SpiNN.Props
open SpiNN Spec

/-! ### chips that were read -/

theorem readChip_real {m : Machine} {s e : JRes} {j : Json} {c : Chip} (h : readChip m s e j = .ok c) :
    RealChip c ∧ c.parentLink = none := by
  simp only [readChip, bind_ok_iff] at h
  obtain ⟨_, -, _, -, _, -, _, -, _, -, _, -, _, -, _, -, _, -, _, -, _, -, _, -, links, -, router, hr,
    _, -, _, -, _, -, _, -, tags, -, h⟩ := h
  simp only [Except.ok.injEq] at h
  subst h
  exact ⟨⟨⟨links, _, hr⟩, ⟨tags, rfl⟩⟩, rfl⟩

theorem readChips_real {s e : JRes} : ∀ (js : List Json) (m m' : Machine) (sc : Chips), Rep m sc →
    (∀ c ∈ sc, RealChip c ∧ c.parentLink = none) → readChips s e js m = .ok m' →
    ∃ sc', Rep m' sc' ∧ ∀ c ∈ sc', RealChip c ∧ c.parentLink = none := by
  intro js
  induction js with
  | nil =>
    intro m m' sc r hsc h
    simp only [readChips, Except.ok.injEq] at h
    subst h
    exact ⟨sc, r, hsc⟩
  | cons j t ih =>
    intro m m' sc r hsc h
    simp only [readChips, bind_ok_iff] at h
    obtain ⟨c, hc, m₁, hm, h⟩ := h
    have hadd := r.addChip c
    rw [hm] at hadd
    refine ih m₁ m' _ hadd.2.1 (fun d hd => ?_) h
    rcases List.mem_append.1 hd with hd | hd
    · exact hsc d hd
    · rw [List.mem_singleton] at hd
      exact hd ▸ readChip_real hc

theorem json_real {v : Version} {j : Json} {m : Machine} (hm : machineFromJson v j = .ok m) :
    (∀ c ∈ m.chipList, RealChip c) ∧ NoParents m := by
  simp only [machineFromJson, bind_ok_iff] at hm
  obtain ⟨_, -, _, -, w, -, _, -, h, -, m₀, h0, _, -, s, -, _, -, e, -, _, -, cs, -, m₁, h1, h2⟩ := hm
  obtain ⟨-, rfl⟩ := createMachine_ok h0
  obtain ⟨sc, r, hsc⟩ := readChips_real cs _ m₁ [] (Rep.new (v.kind.wrapFor w h) w h v.kind.chipCoreMap "Json")
    (by simp) h1
  simp only [Except.ok.injEq] at h2
  have r2 := (r.of_onlySpin (onlySpin v m₁)).of_onlyFpga (onlyFpga v _)
  rw [h2] at r2
  rw [NoParents, show m.chipList = sc from r2.values]
  exact ⟨fun c hc => (hsc c hc).1, fun c hc => (hsc c hc).2⟩

/-! ### two machines with the same chips -/

/-- the same chips, at the same places and in the same order -/
def SameParts (m m' : Machine) : Prop := m'.chipCoordinates = m.chipCoordinates ∧
  ∀ c ∈ m.chipList, ∃ c', m'.getChipAt c.x c.y = some c' ∧ SameChip c c'

theorem keepChip_sameChip (a : List DeadLink) {c c' : Chip} (hc : RealChip c) (hc' : RealChip c') (h : SameChip c c') :
    SameChip (keepChip a c) (keepChip a c') := by
  obtain ⟨a1, a2, a3, a4, a5, a6, a7, a8, a9, a10⟩ := keepChip_same a c
  obtain ⟨b1, b2, b3, b4, b5, b6, b7, b8, b9, b10⟩ := keepChip_same a c'
  refine ⟨?_, ?_, ?_, ?_, ?_, ?_, ?_, ?_, fun i => ?_⟩
  · rw [keepChip_xy, keepChip_xy, h.xy]
  · rw [a3, b3, h.scamp]
  · rw [a4, b4, h.placable]
  · rw [a5, b5, h.sdram]
  · rw [a6, b6, h.entries]
  · rw [a7, b7, a8, b8, h.eth]
  · rw [a9, b9, h.ip]
  · rw [a10, b10, h.tags]
  · rw [keepChip_getLink a hc, keepChip_getLink a hc', h.xy, h.links]

/-- the machines that `_machine_ignore` builds from them -/
theorem ignore_same {v : Version} {w h : Int} {m m' : Machine} (hr : Reachable v w h m) (hr' : Reachable v w h m')
    (hc : ∀ c ∈ m.chipList, RealChip c) (hc' : ∀ c ∈ m'.chipList, RealChip c) (hs : SameParts m m')
    (A : List XY) (a : List DeadLink) :
    (∃ e, machineIgnore v m A a = .error e ∧ machineIgnore v m' A a = .error e) ∨
    ∃ p p', machineIgnore v m A a = .ok p ∧ machineIgnore v m' A a = .ok p' ∧ SameParts p p' ∧ SameLinks p p' := by
  obtain ⟨p, h1, h2, ⟨o, ho, hop⟩, h4⟩ := machineIgnore_eq hr hc A a
  obtain ⟨p', h1', h2', ⟨o', ho', hop'⟩, h4'⟩ := machineIgnore_eq hr' hc' A a
  obtain ⟨-, -, -, -, -, r⟩ := hr.rep
  obtain ⟨-, -, -, -, -, r'⟩ := hr'.rep
  obtain ⟨-, -, -, -, -, rp⟩ := h1.rep
  obtain ⟨-, -, -, -, -, rp'⟩ := h1'.rep
  have hat := survivors_at r rp h2
  have hat' := survivors_at r' rp' h2'
  have hkeys : ∀ {q m : Machine} (_ : Rep q q.chipList) (_ : Rep m m.chipList),
      q.chipList = survivors A a m.chipList →
      q.chipCoordinates = m.chipCoordinates.filter fun x => decide (x ∉ A) := by
    intro q m rq rm e
    unfold Machine.chipCoordinates
    rw [rq.keys, rm.keys, e, survivors, List.map_map, List.filter_map]
    apply List.map_congr_left
    intro c _
    exact keepChip_xy a c
  have hsp : SameParts p p' := by
    refine ⟨?_, fun c hcp => ?_⟩
    · rw [hkeys rp r h2, hkeys rp' r' h2', hs.1]
    · have h5 := chip_at_of_mem rp hcp
      rw [hat] at h5
      rw [hat']
      split at h5
      · simp at h5
      · rename_i hA
        rw [if_neg hA]
        rw [Option.map_eq_some_iff] at h5
        obtain ⟨d, hd, rfl⟩ := h5
        obtain ⟨hdm, hx, hy⟩ := mem_of_chip_at r hd
        obtain ⟨d', hd', hsd⟩ := hs.2 d hdm
        rw [hx, hy] at hd'
        rw [hd']
        obtain ⟨hdm', -, -⟩ := mem_of_chip_at r' hd'
        exact ⟨_, rfl, keepChip_sameChip a (hc d hdm) (hc' d' hdm') hsd⟩
  have hlinks : SameLinks p p' :=
    C94_same_links v w h "Fixed" "Fixed" o o' ho ho' [.addChips (survivors A a m.chipList)]
      [.addChips (survivors A a m'.chipList)] (by simp [noLinkTables]) (by simp [noLinkTables]) p p' hop hop' hsp.1 hsp.2
  have hval := (C94_same_answers v w h p p' h1 h1' hsp.1 hsp.2).validate
  rw [h4, h4', hval]
  cases hv : p.validate v with
  | error e => exact .inl ⟨e, rfl, rfl⟩
  | ok u => exact .inr ⟨p, p', rfl, rfl, hsp, hlinks⟩

/-! ### what the repair finds -/

theorem getItem_same {m m' : Machine} (r : Rep m m.chipList) (r' : Rep m' m'.chipList) (hs : SameParts m m') (p : XY) :
    (∃ e, m.getItem p = .error e ∧ m'.getItem p = .error e) ∨
    ∃ c c', m.getItem p = .ok c ∧ m'.getItem p = .ok c' ∧ SameChip c c' := by
  obtain ⟨-, ht, hg⟩ := twins r r' hs.1 hs.2
  unfold Machine.getItem PDict.getE
  rw [hg]
  cases h : m.chips.get? p with
  | none => exact .inl ⟨_, rfl, rfl⟩
  | some c =>
    obtain ⟨hcm, -, -⟩ := mem_of_chip_at r (x := p.1) (y := p.2) h
    exact .inr ⟨c, _, rfl, rfl, ht c hcm⟩

theorem findUnreachable_same {m m' : Machine} (r : Rep m m.chipList) (r' : Rep m' m'.chipList) (hs : SameParts m m')
    (repair : Bool) : ∀ (ps : List XY) (f : Found), findUnreachable repair m' ps f = findUnreachable repair m ps f := by
  intro ps
  induction ps with
  | nil => exact fun _ => rfl
  | cons p ps ih =>
    intro f
    simp only [findUnreachable]
    rcases getItem_same r r' hs p with ⟨e, h1, h2⟩ | ⟨c, c', h1, h2, h3⟩
    · rw [h1, h2]
    · rw [h1, h2]
      simp only [SameChip.ex h3, SameChip.ey h3]
      rcases getItem_same r r' hs (c.ethX, c.ethY) with ⟨e, g1, g2⟩ | ⟨d, d', g1, g2, -⟩
      · rw [g1, g2]
      · rw [g1, g2]; exact ih _

theorem uniDirection_same {m m' : Machine} (r : Rep m m.chipList) (r' : Rep m' m'.chipList) (hs : SameParts m m')
    (p q : XY) : uniDirectionError m' p q = uniDirectionError m p q := by
  obtain ⟨-, ht, hg⟩ := twins r r' hs.1 hs.2
  unfold uniDirectionError
  rcases getItem_same r r' hs q with ⟨e, h1, h2⟩ | ⟨c, c', h1, h2, h3⟩
  · rw [h1, h2]
  · rw [h1, h2]
    simp only [SameChip.ex h3, SameChip.ey h3]
    rcases getItem_same r r' hs (c.ethX, c.ethY) with ⟨e, g1, g2⟩ | ⟨d, d', g1, g2, -⟩
    · rw [g1, g2]
    · rw [g1, g2]
      simp only [Machine.getChipAt, hg]
      cases hd : m.chips.get? (p.1, p.2) with
      | none => rfl
      | some x =>
        obtain ⟨hcm, -, -⟩ := mem_of_chip_at r (x := p.1) (y := p.2) hd
        have hx := ht x hcm
        simp only [Option.map_some, SameChip.ex hx, SameChip.ey hx]
        rcases getItem_same r r' hs (x.ethX, x.ethY) with ⟨e, k1, k2⟩ | ⟨y, y', k1, k2, -⟩
        · rw [k1, k2]
        · rw [k1, k2]

theorem findOneWay_same {m m' : Machine} (r : Rep m m.chipList) (r' : Rep m' m'.chipList) (hs : SameParts m m')
    (hover : ∀ x y i, m'.xyOverLink x y i = m.xyOverLink x y i) (repair : Bool) (removed : List XY) :
    ∀ (ds : List DeadLink) (f : Found), findOneWay repair removed m' ds f = findOneWay repair removed m ds f := by
  intro ds
  induction ds with
  | nil => exact fun _ => rfl
  | cons d ds ih =>
    intro f
    simp only [findOneWay, hover, uniDirection_same r r' hs, ih]

theorem findParents_none (repair : Bool) (m : Machine) : ∀ (cs : List Chip) (f : Found),
    (∀ c ∈ cs, c.parentLink = none) → findParents repair m cs f = .ok f := by
  intro cs
  induction cs with
  | nil => exact fun _ _ => rfl
  | cons c cs ih =>
    intro f h
    simp only [findParents, h c (List.mem_cons_self ..)]
    exact ih f fun d hd => h d (List.mem_cons_of_mem _ hd)

theorem repairFind_same {v : Version} {w h : Int} {m m' : Machine} (hr : Reachable v w h m) (hr' : Reachable v w h m')
    (hp : NoParents m) (hp' : NoParents m') (hs : SameParts m m') (repair : Bool) (removed : List XY) :
    repairFind repair removed m' = repairFind repair removed m := by
  obtain ⟨-, -, -, -, -, r⟩ := hr.rep
  obtain ⟨-, -, -, -, -, r'⟩ := hr'.rep
  have hsame := C94_same_answers v w h m m' hr hr' hs.1 hs.2
  unfold repairFind
  rw [hsame.incomingLocal, hsame.outgoingLocal, hsame.oneWay]
  simp only [findUnreachable_same r r' hs, findOneWay_same r r' hs hsame.overLink,
    findParents_none repair m _ _ hp, findParents_none repair m' _ _ hp']

theorem repair_same {v : Version} {w h : Int} {repair : Bool} {removed : List XY} {m m' : Machine}
    (hr : Reachable v w h m) (hc : ∀ c ∈ m.chipList, RealChip c) (hp : NoParents m)
    (hr' : Reachable v w h m') (hc' : ∀ c ∈ m'.chipList, RealChip c) (hp' : NoParents m')
    (hs : SameParts m m') (hl : SameLinks m m') :
    (∃ e, machineRepair v repair removed m = some (.error e) ∧ machineRepair v repair removed m' = some (.error e)) ∨
    ∃ p p', machineRepair v repair removed m = some (.ok p) ∧ machineRepair v repair removed m' = some (.ok p') ∧
      Reachable v w h p ∧ Reachable v w h p' ∧ SameParts p p' ∧ SameLinks p p' := by
  obtain ⟨x, h1, h2⟩ := repair_induct (v := v) (w := w) (h := h) (repair := repair)
    (P := fun removed m x => NoParents m → ∀ m', Reachable v w h m' → (∀ c ∈ m'.chipList, RealChip c) → NoParents m' →
      SameParts m m' → SameLinks m m' →
      (∃ e, x = .error e ∧ machineRepair v repair removed m' = some (.error e)) ∨
      ∃ p p', x = .ok p ∧ machineRepair v repair removed m' = some (.ok p') ∧
        Reachable v w h p ∧ Reachable v w h p' ∧ SameParts p p' ∧ SameLinks p p')
    (by
      intro removed m e hr hc hf hp m' hr' hc' hp' hs hl
      exact .inl ⟨e, rfl, by rw [machineRepair, repairFind_same hr hr' hp hp' hs, hf]⟩)
    (by
      intro removed m f hr hc hf hrep herr hp m' hr' hc' hp' hs hl
      exact .inl ⟨_, rfl, by rw [machineRepair, repairFind_same hr hr' hp hp' hs, hf]; simp [hrep, herr]⟩)
    (by
      intro removed m f hr hc hf hne h1 h2 hp m' hr' hc' hp' hs hl
      refine .inr ⟨m, m', rfl, ?_, hr, hr', hs, hl⟩
      rw [machineRepair, repairFind_same hr hr' hp hp' hs, hf]
      have : (!repair && f.errors) = false := by
        cases repair <;> cases he : f.errors <;> simp_all
      simp [this, h1, h2])
    (by
      intro removed m f e hr hc hf hne hd hi hp m' hr' hc' hp' hs hl
      refine .inl ⟨e, rfl, ?_⟩
      rw [machineRepair, repairFind_same hr hr' hp hp' hs, hf]
      have : (!repair && f.errors) = false := by
        cases repair <;> cases he : f.errors <;> simp_all
      have hi' : machineIgnore v m' f.deadChips f.deadLinks = .error e := by
        rcases ignore_same hr hr' hc hc' hs f.deadChips f.deadLinks with ⟨e', g1, g2⟩ | ⟨p, p', g1, -⟩
        · rw [hi] at g1; cases g1; exact g2
        · rw [hi] at g1; cases g1
      simp only [this, Bool.false_eq_true, if_false, if_neg hd, hi'])
    (by
      intro removed m f m1 x hr hc hf hne hd hi hrep ih hp m' hr' hc' hp' hs hl
      have : (!repair && f.errors) = false := by
        cases repair <;> cases he : f.errors <;> simp_all
      rcases ignore_same hr hr' hc hc' hs f.deadChips f.deadLinks with ⟨e', g1, g2⟩ | ⟨p, p', g1, g2, g3, g4⟩
      · rw [hi] at g1; cases g1
      · rw [hi] at g1
        cases g1
        obtain ⟨k1, k2, -⟩ := C37_exact v w h m' p' hr' hc' _ _ g2
        have e : machineRepair v repair removed m' = machineRepair v repair [] p' := by
          rw [machineRepair, repairFind_same hr hr' hp hp' hs, hf]
          simp only [this, Bool.false_eq_true, if_false, if_neg hd, g2]
        rw [e]
        exact ih (noParents_ignore hr hc hp hi) p' k1 k2 (noParents_ignore hr' hc' hp' g2) g3 g4) removed m hr hc
  rw [h1]
  rcases h2 hp m' hr' hc' hp' hs hl with ⟨e, rfl, g⟩ | ⟨p, p', rfl, g⟩
  · exact .inl ⟨e, rfl, g⟩
  · exact .inr ⟨p, p', rfl, g⟩

/-! ### the claims -/

/-- what a machine and its copy written and read back have in common for removing and repairing -/
theorem reload_core {v : Version} {w h : Int} {m m' : Machine} (hr : Reachable v w h m) (hr' : Reachable v w h m')
    (hc : ∀ c ∈ m.chipList, RealChip c) (hp : NoParents m) (hc' : ∀ c ∈ m'.chipList, RealChip c) (hp' : NoParents m')
    (hs : SameParts m m') (hl : SameLinks m m') :
    (∀ A a, SameOutcome v (machineIgnore v m A a) (machineIgnore v m' A a)) ∧
      ∀ repair removed, ∃ a b, machineRepair v repair removed m = some a ∧
        machineRepair v repair removed m' = some b ∧ SameOutcome v a b := by
  refine ⟨fun A a => ?_, fun repair removed => ?_⟩
  · rcases ignore_same hr hr' hc hc' hs A a with ⟨e, k1, k2⟩ | ⟨p, p', k1, k2, k3, k4⟩
    · exact .inl ⟨e, k1, k2⟩
    · exact .inr ⟨p, p', k1, k2, C94_same_answers v w h p p' (C37_exact v w h m p hr hc A a k1).1
        (C37_exact v w h m' p' hr' hc' A a k2).1 k3.1 k3.2, k4⟩
  · rcases repair_same (repair := repair) (removed := removed) hr hc hp hr' hc' hp' hs hl with
      ⟨e, k1, k2⟩ | ⟨p, p', k1, k2, k3, k4, k5, k6⟩
    · exact ⟨_, _, k1, k2, .inl ⟨e, rfl, rfl⟩⟩
    · exact ⟨_, _, k1, k2, .inr ⟨p, p', rfl, rfl, C94_same_answers v w h p p' k3 k4 k5.1 k5.2, k6⟩⟩

/-- C100: for a machine without recorded parents that JSON can represent and that had its links added once after its
chips, it does not matter for removing parts and for repairing whether it was written and read back before. -/
theorem C100_reloaded (v : Version) (w h : Int) (o : String) (m₀ m : Machine)
    (h₀ : v.kind.createMachine (some w) (some h) o = .ok m₀) (ops : List Op)
    (hops : ∀ op ∈ ops, noLinkTables op = true)
    (hm : m = (run v m₀ (ops ++ [.addSpinnakerLinks, .addFpgaLinks])).1)
    (hboot : m.isChipAt 0 0 = true) (hstd : m.nChips = 1 ∨ ∃ c ∈ m.chipList, c.ip = none)
    (hchips : ∀ c ∈ m.chipList, JsonChip m c) (hc : ∀ c ∈ m.chipList, RealChip c) (hp : NoParents m) :
    ∃ j m', toJson m = .ok j ∧ machineFromJson v j = .ok m' ∧
      (∀ A a, SameOutcome v (machineIgnore v m A a) (machineIgnore v m' A a)) ∧
      ∀ repair removed, ∃ a b, machineRepair v repair removed m = some a ∧
        machineRepair v repair removed m' = some b ∧ SameOutcome v a b := by
  have hr : Reachable v w h m := ⟨_, _, _, h₀, hm⟩
  have htag : ∀ c ∈ m.chipList, c.tags.Nodup := fun c hcm => by
    obtain ⟨t, ht⟩ := (hc c hcm).tags
    rw [ht]; exact (orderedSet_spec t).1
  obtain ⟨j, m', h1, h2, h3, h4, -, h5, h6⟩ := C41_round_trip_partial v w h m hr hboot hstd hchips htag
  obtain ⟨-, -, q₀, g1, g2⟩ := C66_read v j m' h2
  obtain ⟨-, -, hw, hh, -, -⟩ := hr.rep
  rw [h3, h4, hw, hh] at g1
  have hl := C94_same_links v w h o "Json" m₀ q₀ h₀ g1 ops _ hops (map_addChip_noTables _) m m' hm g2 h5 h6
  obtain ⟨hc', hp'⟩ := json_real h2
  exact ⟨j, m', h1, h2, reload_core hr ⟨_, _, _, g1, g2⟩ hc hp hc' hp' ⟨h5, h6⟩ hl⟩

/-- C100: so for a virtual machine of any version and size with any chips and links down but no cores. -/
theorem C100_virtual_machines (v : Version) (cfg : DownCfg) (w h : Int) (validate : Bool) (m : Machine)
    (hm : virtualMachine v cfg w h validate = .ok m) (hcores : ∀ p q, ¬ CoreDown v.kind cfg p q)
    (hboot : m.isChipAt 0 0 = true) (hstd : m.nChips = 1 ∨ ∃ c ∈ m.chipList, c.ip = none) :
    ∃ j m', toJson m = .ok j ∧ machineFromJson v j = .ok m' ∧
      (∀ A a, SameOutcome v (machineIgnore v m A a) (machineIgnore v m' A a)) ∧
      ∀ repair removed, ∃ a b, machineRepair v repair removed m = some a ∧
        machineRepair v repair removed m' = some b ∧ SameOutcome v a b := by
  obtain ⟨-, d, -, hr, -, ⟨m₀, h₀, g0⟩, -⟩ := vm_ok hm
  obtain ⟨j, m', h1, h2, h3, h4, -, h5, h6⟩ := C41_virtual_machines v cfg w h validate m hm hcores hboot hstd
  obtain ⟨-, -, q₀, g1, g2⟩ := C66_read v j m' h2
  obtain ⟨-, -, hw, hh, -, -⟩ := hr.rep
  rw [h3, h4, hw, hh] at g1
  have hl := C94_same_links v w h "Virtual" "Json" m₀ q₀ h₀ g1 [.addChips (vmChips v w h d)] _ (by simp [noLinkTables])
      (map_addChip_noTables _) m m' g0 g2 h5 h6
  obtain ⟨hc', hp'⟩ := json_real h2
  exact ⟨j, m', h1, h2, reload_core hr ⟨_, _, _, g1, g2⟩ (vm_real hm).2 (vm_noParents hm) hc' hp' ⟨h5, h6⟩ hl⟩

/-- the hypotheses are met and the repair has something to do: a four chip board whose link 0 of (0, 0) is down at that
end only, written, read back and repaired, has lost the link 3 of (1, 0) too -/
example : ∃ j m m' p, virtualMachine exSmall { links := some "0,0,0".toList } 2 2 true = .ok m ∧
    m.isLinkAt 1 0 3 = true ∧ toJson m = .ok j ∧ machineFromJson exSmall j = .ok m' ∧
    machineRepair exSmall true [] m' = some (.ok p) ∧ p.isLinkAt 1 0 3 = false ∧ p.nChips = 4 := by
  have hb : (match virtualMachine exSmall { links := some "0,0,0".toList } 2 2 true with
    | .ok m => m.isChipAt 0 0 && (m.chipList.any fun c => c.ip.isNone) && m.isLinkAt 1 0 3 &&
      (match repairPasses exSmall true 5 [] m with
        | some (.ok p) => !p.isLinkAt 1 0 3 && decide (p.nChips = 4)
        | _ => false)
    | .error _ => false) = true := by decide +kernel
  cases hv : virtualMachine exSmall { links := some "0,0,0".toList } 2 2 true with
  | error e => rw [hv] at hb; simp at hb
  | ok m =>
    rw [hv] at hb
    simp only [Bool.and_eq_true, List.any_eq_true, Option.isNone_iff_eq_none] at hb
    obtain ⟨⟨⟨b1, b2⟩, b3⟩, b4⟩ := hb
    obtain ⟨j, m', h1, h2, -, h3⟩ := C100_virtual_machines exSmall _ 2 2 true m hv (by
      rintro p q ⟨l, hl, c, hc, -⟩
      have : IgnoreCore.parseString exSmall.kind none = .ok [] := rfl
      rw [this] at hl
      simp only [Except.ok.injEq] at hl
      subst hl
      simp at hc) b1 (.inr b2)
    split at b4
    · rename_i p hp
      have hrp := repairPasses_eq _ _ _ _ _ _ hp
      obtain ⟨a, b, k1, k2, k3⟩ := h3 true []
      rw [hrp] at k1
      cases k1
      simp only [Bool.and_eq_true, Bool.not_eq_true', decide_eq_true_eq] at b4
      rcases k3 with ⟨e, k3, -⟩ | ⟨q, q', k3, k4, k5, -⟩
      · cases k3
      · cases k3
        exact ⟨j, m, m', q', rfl, b3, h1, h2, by rw [k2, k4], by rw [k5.isLinkAt]; exact b4.1, by rw [k5.nChips]; exact b4.2⟩
    · simp at b4

end SpiNN.Props
