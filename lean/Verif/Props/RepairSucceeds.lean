import Verif.Props.DownSets

/-!
# When a repair succeeds (C79)
-/

namespace SpiNN.Props
open SpiNN Spec

/-- every chip with an address is the Ethernet chip of its own board -/
def OwnEthernet (m : Machine) : Prop := ∀ c ∈ m.chipList, c.ip ≠ none → (c.ethX, c.ethY) = c.xy

/-- the parent links are link ids -/
def ParentLinks (m : Machine) : Prop := ∀ c ∈ m.chipList, ∀ i, c.parentLink = some i → 0 ≤ i ∧ i ≤ 5

theorem eth_there {v : Version} {w h : Int} {m : Machine} (hr : Reachable v w h m)
    (hv : m.validate v = .ok ()) (ho : OwnEthernet m) :
    ∀ c ∈ m.chipList, m.isChipAt c.ethX c.ethY = true := by
  obtain ⟨-, -, hl⟩ := (C21_validate_exact v w h m hr).1 hv
  obtain ⟨-, -, -, -, -, r⟩ := hr.rep
  intro c hc
  by_cases hip : c.ip = none
  · obtain ⟨e, he⟩ := ((hl c hc).2.2.2 (.inl hip)).1
    unfold Machine.isChipAt PDict.contains
    unfold Machine.getChipAt at he
    rw [he]; rfl
  · have h1 := ho c hc hip
    simp only [Chip.xy, Prod.mk.injEq] at h1
    rw [h1.1, h1.2]
    exact (isChipAt_iff r c.xy).2 (List.mem_map_of_mem hc)

theorem eths_le (dc : List XY) (dead : List DeadLink) (cs : List Chip) :
    ((survivors dc dead cs).filter fun c => c.ip.isSome).length ≤ (cs.filter fun c => c.ip.isSome).length := by
  induction cs with
  | nil => simp [survivors]
  | cons c t ih =>
    have hk : (keepChip dead c).ip = c.ip := (keepChip_same dead c).2.2.2.2.2.2.2.2.1
    unfold survivors at ih ⊢
    rw [List.filter_cons]
    split
    · rw [List.map_cons, List.filter_cons, List.filter_cons, hk]
      split
      · simp only [List.length_cons]; omega
      · exact ih
    · rw [List.filter_cons]
      split
      · simp only [List.length_cons]; omega
      · exact ih

/-- a part of a legal machine is legal if the boot chip and the nearest Ethernet chips are there -/
theorem legal_survivors {v : Version} {w h : Int} {m m1 : Machine} (hr : Reachable v w h m)
    (hr1 : Reachable v w h m1) (dc : List XY) (dead : List DeadLink)
    (hcl : m1.chipList = survivors dc dead m.chipList) (hl : LegalMachine v w h m)
    (hboot : m1.isChipAt 0 0 = true) (heth : ∀ c ∈ m1.chipList, m1.isChipAt c.ethX c.ethY = true) :
    LegalMachine v w h m1 := by
  obtain ⟨h1, h2, h3⟩ := hl
  obtain ⟨-, a1, a2, a3, -, r⟩ := hr.rep
  obtain ⟨-, b1, b2, b3, -, r1⟩ := hr1.rep
  have hfrom : ∀ c1 ∈ m1.chipList, ∃ c ∈ m.chipList, c1 = keepChip dead c := by
    intro c1 hc1
    rw [hcl, survivors, List.mem_map] at hc1
    obtain ⟨c, hc, rfl⟩ := hc1
    exact ⟨c, (List.mem_filter.1 hc).1, rfl⟩
  refine ⟨?_, fun hk => ?_, fun c1 hc1 => ?_⟩
  · obtain ⟨c1, hc1⟩ := Option.isSome_iff_exists.1 hboot
    have hc1' : m1.getChipAt 0 0 = some c1 := hc1
    obtain ⟨hm1, hx, hy⟩ := mem_of_chip_at r1 hc1'
    obtain ⟨c, hc, rfl⟩ := hfrom c1 hm1
    refine ⟨_, hc1', ?_⟩
    obtain ⟨e1, e2, -, -, -, -, -, -, e9, -⟩ := keepChip_same dead c
    rw [e9]
    obtain ⟨c0, hc0, hip⟩ := h1
    have := chip_at_of_mem r hc
    rw [← e1, ← e2, hx, hy, hc0] at this
    cases this
    exact hip
  · rw [r1.eths, hcl]
    have := h2 hk
    rw [r.eths] at this
    exact Nat.le_trans (eths_le dc dead m.chipList) this
  · obtain ⟨e, he⟩ := Option.isSome_iff_exists.1 (heth c1 hc1)
    have he' : m1.getChipAt c1.ethX c1.ethY = some e := he
    obtain ⟨c, hc, rfl⟩ := hfrom c1 hc1
    obtain ⟨g1, g2, g3, g4⟩ := h3 c hc
    obtain ⟨e1, e2, e3, e4, -, -, e7, e8, e9, -⟩ := keepChip_same dead c
    have hxy := keepChip_xy dead c
    refine ⟨by rw [hxy]; exact g1, ?_, ?_, fun hip => ⟨⟨e, he'⟩, ?_⟩⟩
    · have : (keepChip dead c).allProcessorIds = c.allProcessorIds := by
        unfold Chip.allProcessorIds; rw [e3, e4]
      rw [this]; exact g2
    · rw [hxy, e9]; exact g3
    · rw [hxy, e7, e8, b1, ← a1]
      rw [e9] at hip
      exact (g4 hip).2

/-- the hypotheses stay true -/
theorem keep_hyps {v : Version} {w h : Int} {m m' : Machine} (hr : Reachable v w h m)
    (hc : ∀ c ∈ m.chipList, RealChip c) {dc : List XY} {dead : List DeadLink}
    (hm : machineIgnore v m dc dead = .ok m') :
    m'.validate v = .ok () ∧ (OwnEthernet m → OwnEthernet m') ∧ (ParentLinks m → ParentLinks m') := by
  obtain ⟨m1, j1, j2, -, j4⟩ := machineIgnore_eq hr hc dc dead
  rw [hm] at j4
  cases hv : m1.validate v with
  | error e => rw [hv] at j4; simp at j4
  | ok u =>
    rw [hv] at j4
    simp only [Except.ok.injEq] at j4
    subst j4
    have hfrom : ∀ c1 ∈ m'.chipList, ∃ c ∈ m.chipList, c1 = keepChip dead c := by
      intro c1 hc1
      rw [j2, survivors, List.mem_map] at hc1
      obtain ⟨c, hc, rfl⟩ := hc1
      exact ⟨c, (List.mem_filter.1 hc).1, rfl⟩
    refine ⟨hv, fun ho c1 hc1 hip => ?_, fun hp c1 hc1 i hi => ?_⟩
    · obtain ⟨c, hcm, rfl⟩ := hfrom c1 hc1
      obtain ⟨e1, e2, e3, e4, -, -, e7, e8, e9, -⟩ := keepChip_same dead c
      rw [keepChip_xy, e7, e8]
      rw [e9] at hip
      exact ho c hcm hip
    · obtain ⟨c, hcm, rfl⟩ := hfrom c1 hc1
      unfold keepChip at hi
      split at hi
      · exact hp c hcm i hi
      · simp at hi

/-- C79: `machine_repair` of a valid machine (whose chips with an address are the Ethernet chips of
their own boards) raises nothing but SpinnMachineException, whatever the settings. -/
theorem C79_only_machine_exception (v : Version) (w h : Int) (repair : Bool) (removed : List XY) (m : Machine)
    (hr : Reachable v w h m) (hc : ∀ c ∈ m.chipList, RealChip c) (hv : m.validate v = .ok ())
    (ho : OwnEthernet m) (hp : ParentLinks m) :
    machineRepair v repair removed m = some (.error .machine) ∨
    ∃ m', machineRepair v repair removed m = some (.ok m') := by
  obtain ⟨r, h1, h2⟩ := repair_induct (v := v) (w := w) (h := h) (repair := repair)
    (P := fun _ m r => m.validate v = .ok () → OwnEthernet m → ParentLinks m →
      r = .error .machine ∨ ∃ m', r = .ok m')
    (by
      intro removed m e hr hc hf hv ho hp
      obtain ⟨f, hf'⟩ := repairFind_succeeds hr (eth_there hr hv ho) hp repair removed
      rw [hf] at hf'; simp at hf')
    (by intro _ _ _ _ _ _ _ _ _ _ _; exact .inl rfl)
    (by intro _ m _ _ _ _ _ _ _ _ _ _; exact .inr ⟨m, rfl⟩)
    (by
      intro removed m f e hr hc hf h1 h2 hi hv ho hp
      obtain ⟨m1, j1, j2, -, j4⟩ := machineIgnore_eq hr hc f.deadChips f.deadLinks
      rw [hi] at j4
      cases hv1 : m1.validate v with
      | error e' =>
        rw [hv1] at j4
        simp only [Except.error.injEq] at j4
        have := C21_refusal v m1 e' hv1
        subst this; subst j4
        exact .inl rfl
      | ok u => rw [hv1] at j4; simp at j4)
    (by
      intro removed m f m1 r hr hc hf h1 h2 hi hrep ih hv ho hp
      obtain ⟨g1, g2, g3⟩ := keep_hyps hr hc hi
      exact ih g1 (g2 ho) (g3 hp)) removed m hr hc
  rcases h2 hv ho hp with rfl | ⟨m', rfl⟩
  · exact .inl h1
  · exact .inr ⟨m', h1⟩

/-- C79: with `repair_machine` set, the repair of a valid machine succeeds if there is a way to
succeed: if some consistent part of it, with the parent links it had, has the boot chip and the Ethernet chips of all boards,
then a machine is returned, and it contains that part. -/
theorem C79_succeeds (v : Version) (w h : Int) (removed : List XY) (m K : Machine)
    (hr : Reachable v w h m) (hc : ∀ c ∈ m.chipList, RealChip c) (hv : m.validate v = .ok ())
    (ho : OwnEthernet m) (hp : ParentLinks m)
    (hK : Reachable v w h K) (hs : SubMachine K m) (hkp : KeepsParents K m) (hcons : Consistent K)
    (hboot : K.isChipAt 0 0 = true) (heth : ∀ c ∈ m.chipList, K.isChipAt c.ethX c.ethY = true) :
    ∃ m', machineRepair v true removed m = some (.ok m') ∧ SubMachine K m' := by
  obtain ⟨-, -, -, -, -, rK⟩ := hK.rep
  obtain ⟨r, h1, h2⟩ := repair_induct (v := v) (w := w) (h := h) (repair := true)
    (P := fun _ m r => m.validate v = .ok () → OwnEthernet m → ParentLinks m → SubMachine K m →
      (∀ c' ∈ K.chipList, ∀ c ∈ m.chipList, c'.xy = c.xy → c.parentLink = none ∨ c'.parentLink = c.parentLink) →
      (∀ c ∈ m.chipList, K.isChipAt c.ethX c.ethY = true) → ∃ m', r = .ok m')
    (by
      intro removed m e hr hc hf hv ho hp _ _ _
      obtain ⟨f, hf'⟩ := repairFind_succeeds hr (eth_there hr hv ho) hp true removed
      rw [hf] at hf'; simp at hf')
    (by intro _ _ _ _ _ _ h; simp at h)
    (by intro _ m _ _ _ _ _ _ _ _ _ _ _ _ _; exact ⟨m, rfl⟩)
    (by
      intro removed m f e hr hc hf h1 h2 hi hv ho hp hs hkp heth
      exfalso
      obtain ⟨m1, j1, j2, -, j4⟩ := machineIgnore_eq hr hc f.deadChips f.deadLinks
      obtain ⟨-, -, -, -, -, r⟩ := hr.rep
      obtain ⟨-, -, -, -, -, r1⟩ := j1.rep
      have halive := sub_alive hr hf hK hs hcons hkp
      have hin : ∀ x y, K.isChipAt x y = true → m1.isChipAt x y = true := by
        intro x y hk
        have hk' := (isChipAt_iff rK (x, y)).1 hk
        rw [List.mem_map] at hk'
        obtain ⟨c', hc', hxy⟩ := hk'
        obtain ⟨c, hcm, hsa, -⟩ := hs.2.2.2 c' hc'
        refine (isChipAt_iff r1 (x, y)).2 ?_
        have hcx : c.xy = c'.xy := Prod.ext hsa.1.symm hsa.2.1.symm
        rw [j2, survivors, List.map_map, List.mem_map]
        refine ⟨c, List.mem_filter.2 ⟨hcm, ?_⟩, ?_⟩
        · simp only [decide_eq_true_eq]; rw [hcx]; exact halive c' hc'
        · simp only [Function.comp]; rw [keepChip_xy, hcx, hxy]
      have hleg : LegalMachine v w h m1 := by
        refine legal_survivors hr j1 _ _ j2 ((C21_validate_exact v w h m hr).1 hv) (hin 0 0 hboot) fun c1 hc1 => ?_
        rw [j2, survivors, List.mem_map] at hc1
        obtain ⟨c, hcf, rfl⟩ := hc1
        obtain ⟨e1, e2, e3, e4, -, -, e7, e8, e9, -⟩ := keepChip_same f.deadLinks c
        rw [e7, e8]
        exact hin _ _ (heth c (List.mem_filter.1 hcf).1)
      rw [(C21_validate_exact v w h m1 j1).2 hleg, hi] at j4
      simp at j4)
    (by
      intro removed m f m1 r hr hc hf h1 h2 hi hrep ih hv ho hp hs hkp heth
      obtain ⟨g1, g2, g3⟩ := keep_hyps hr hc hi
      obtain ⟨g4, g5⟩ := sub_survives hr hc hf hi hK hs hcons hkp
      refine ih g1 (g2 ho) (g3 hp) g4 g5 fun c1 hc1 => ?_
      obtain ⟨c, hcm, hsa, -⟩ := (ignore_sub hr hc hi).2.2.2 c1 hc1
      rw [hsa.2.2.2.2.2.2.1, hsa.2.2.2.2.2.2.2.1]
      exact heth c hcm) removed m hr hc
  obtain ⟨m', rfl⟩ := h2 hv ho hp hs (fun c' hc' c hcm hxy => .inr (hkp c' hc' c hcm hxy)) heth
  exact ⟨m', h1, C38_maximal v w h true removed m m' K hr hc h1 hK hs hkp hcons⟩

/-! ### what is removed -/

/-- every link of the machine is one of the six and leads where the link of that id leads -/
def TrueLinks (m : Machine) : Prop := ∀ c ∈ m.chipList, ∀ i l, c.router.getLink i = some l →
  ∃ d : Dir, i = d.id ∧ m.xyOverLink c.x c.y i = .ok (l.destX, l.destY)

/-- dead links: those that lead to the places `U` -/
def linksTo (U : List XY) (m : Machine) : List DeadLink :=
  m.chipList.flatMap fun c => (c.router.linkList.filter fun l => (l.destX, l.destY) ∈ U).map
    fun l => (c.x, c.y, l.sourceLinkId, 0)

theorem mem_linksTo {m : Machine} (r : Rep m m.chipList) (hc : ∀ c ∈ m.chipList, RealChip c) (U : List XY) {c : Chip}
    (hcm : c ∈ m.chipList) (i : Int) :
    i ∈ deadIds (linksTo U m) c.xy ↔ ∃ l, c.router.getLink i = some l ∧ (l.destX, l.destY) ∈ U := by
  rw [mem_deadIds]
  unfold linksTo
  simp only [List.mem_flatMap, List.mem_map, List.mem_filter, decide_eq_true_eq, Prod.mk.injEq]
  constructor
  · rintro ⟨back, c2, hc2, l, ⟨hl, hU⟩, hx, hy, hi, -⟩
    have : c2 = c := eq_of_nodup_map r.nodup hc2 hcm (Prod.ext hx hy)
    subst this
    exact ⟨l, ((hc c2 hc2).getLink i l).2 ⟨hl, hi⟩, hU⟩
  · rintro ⟨l, hl, hU⟩
    obtain ⟨h1, h2⟩ := ((hc c hcm).getLink i l).1 hl
    exact ⟨0, c, hcm, l, ⟨h1, hU⟩, rfl, rfl, h2, rfl⟩

/-- C79: what the repair removes from a valid machine without one-way links and without recorded parents:
exactly the chips that have no working link on their board (as `unreachable_outgoing_local_chips` sees it), and
the links that lead to them. It succeeds if these are not Ethernet chips of the other chips. -/
theorem C79_isolated (v : Version) (w h : Int) (removed : List XY) (m : Machine)
    (hr : Reachable v w h m) (hc : ∀ c ∈ m.chipList, RealChip c) (hv : m.validate v = .ok ())
    (ho : OwnEthernet m) (hp : ∀ c ∈ m.chipList, c.parentLink = none)
    (hone : m.oneWayLinks = []) (htrue : TrueLinks m)
    (hboot : (0, 0) ∉ m.unreachableOutgoingLocalChips)
    (heth : ∀ c ∈ m.chipList, (c.ethX, c.ethY) ∉ m.unreachableOutgoingLocalChips) :
    ∃ m', machineRepair v true removed m = some (.ok m') ∧
      (∀ x y, m'.isChipAt x y = true ↔ m.isChipAt x y = true ∧ (x, y) ∉ m.unreachableOutgoingLocalChips) ∧
      ∀ x y c c', m.getChipAt x y = some c → m'.getChipAt x y = some c' →
        SameAttributes c' c ∧
        ∀ i l, c'.router.getLink i = some l ↔
          c.router.getLink i = some l ∧ (l.destX, l.destY) ∉ m.unreachableOutgoingLocalChips := by
  obtain ⟨hs, a1, a2, a3, -, r⟩ := hr.rep
  have hpos := hs.pos
  have hleg := (C21_validate_exact v w h m hr).1 hv
  have hgrid : ∀ c ∈ m.chipList, InGrid w h c.xy := fun c hcm => (hleg.2.2 c hcm).1
  have hrange : ∀ c ∈ m.chipList, InRange m.wrap w h c.xy := fun c hcm => by
    obtain ⟨g1, g2, g3, g4⟩ := hgrid c hcm
    exact ⟨fun _ => ⟨g1, g2⟩, fun _ => ⟨g3, g4⟩⟩
  generalize hU : m.unreachableOutgoingLocalChips = U at *
  have hopp : ∀ d : Dir, Router.opposite d.id = (revDir d).id := by intro d; cases d <;> decide
  -- a link leads to a chip with the link back
  have hback : ∀ c ∈ m.chipList, ∀ (d : Dir) l, c.router.getLink d.id = some l →
      ∃ n ∈ m.chipList, n.xy = (l.destX, l.destY) ∧ n.xy = m.wrap.red w h (c.x + d.dx, c.y + d.dy) ∧
        ∃ l', n.router.getLink (revDir d).id = some l' ∧ (l'.destX, l'.destY) = c.xy := by
    intro c hcm d l hl
    have hnot : (c.x, c.y, d.id, Router.opposite d.id) ∉ m.oneWayLinks := by rw [hone]; simp
    have hex : ∃ n, m.getChipAt l.destX l.destY = some n ∧ HasLink n (Router.opposite d.id) :=
      Classical.byContradiction fun hno => hnot ((C24_one_way_links v w h m hr _ _ _ _).2
        ⟨c, d, l, chip_at_of_mem r hcm, rfl, rfl, hl, hno⟩)
    obtain ⟨n, hn, hhas⟩ := hex
    obtain ⟨hnm, hnx, hny⟩ := mem_of_chip_at r hn
    rw [hopp] at hhas
    obtain ⟨l', hl'⟩ := (hasLink_iff _ _).1 hhas
    have hnxy : n.xy = (l.destX, l.destY) := Prod.ext hnx hny
    obtain ⟨d1, hd1, hov⟩ := htrue c hcm d.id l hl
    rw [xyOverLink_dir' m (by rw [a2]; exact hpos.1) (by rw [a3]; exact hpos.2), a2, a3, Except.ok.injEq] at hov
    obtain ⟨d2, hd2, hov'⟩ := htrue n hnm _ l' hl'
    rw [xyOverLink_dir' m (by rw [a2]; exact hpos.1) (by rw [a3]; exact hpos.2), a2, a3, Except.ok.injEq] at hov'
    refine ⟨n, hnm, hnxy, by rw [hnxy, hov], l', hl', ?_⟩
    rw [← hov']
    have : (n.x, n.y) = m.wrap.red w h (c.x + d.dx, c.y + d.dy) := by rw [hov]; exact hnxy
    have hx : n.x = (m.wrap.red w h (c.x + d.dx, c.y + d.dy)).1 := by rw [← this]
    have hy : n.y = (m.wrap.red w h (c.x + d.dx, c.y + d.dy)).2 := by rw [← this]
    rw [hx, hy, m.wrap.red_red_add hpos.1 hpos.2, (revDir_spec d).2.1, (revDir_spec d).2.2.1]
    simp only [Int.add_neg_cancel_right]
    exact m.wrap.red_of_inRange (hrange c hcm)
  -- a local link is a link both ways between chips that are not isolated
  have hlocal : ∀ c ∈ m.chipList, ∀ (d : Dir) (n : Chip), HasLink c d.id →
      m.getChipAt (c.x + d.dx) (c.y + d.dy) = some n → n.ethX = c.ethX ∧ n.ethY = c.ethY →
      (∃ l, c.router.getLink d.id = some l ∧ (l.destX, l.destY) = n.xy) ∧
      (∃ l', n.router.getLink (revDir d).id = some l' ∧ (l'.destX, l'.destY) = c.xy) ∧ n.xy ∉ U := by
    intro c hcm d n hhas hn hb
    obtain ⟨hnm, hnx, hny⟩ := mem_of_chip_at r hn
    obtain ⟨l, hl⟩ := (hasLink_iff _ _).1 hhas
    obtain ⟨n', hnm', hd', hred, l', hl', hd''⟩ := hback c hcm d l hl
    have : n' = n := by
      refine eq_of_nodup_map r.nodup hnm' hnm ?_
      show n'.xy = n.xy
      rw [hred]
      have hnr := hrange n hnm
      have : n.xy = (c.x + d.dx, c.y + d.dy) := Prod.ext hnx hny
      rw [← this]
      exact m.wrap.red_of_inRange hnr
    subst this
    refine ⟨⟨l, hl, hd'.symm⟩, ⟨l', hl', hd''⟩, fun hmem => ?_⟩
    rw [← hU] at hmem
    obtain ⟨n2, hn2, hxy, hno⟩ := (mem_outgoing_local m _).1 hmem
    have : n2 = n' := eq_of_nodup_map r.nodup hn2 hnm hxy
    subst this
    refine hno (revDir d) c ((hasLink_iff _ _).2 ⟨l', hl'⟩) ?_ ⟨hb.1.symm, hb.2.symm⟩
    rw [(revDir_spec d).2.1, (revDir_spec d).2.2.1, hnx, hny, Int.add_neg_cancel_right, Int.add_neg_cancel_right]
    exact chip_at_of_mem r hcm
  -- the part that is left
  obtain ⟨K, hK, hKl, -, -⟩ := machineIgnore_eq hr hc U (linksTo U m)
  obtain ⟨-, k1, k2, k3, -, rK⟩ := hK.rep
  have hKat := survivors_at r rK hKl
  have hKlink : ∀ c ∈ m.chipList, ∀ i l, (keepChip (linksTo U m) c).router.getLink i = some l ↔
      c.router.getLink i = some l ∧ (l.destX, l.destY) ∉ U := by
    intro c hcm i l
    rw [keepChip_getLink _ (hc c hcm)]
    by_cases hi : i ∈ deadIds (linksTo U m) c.xy
    · rw [if_pos hi]
      obtain ⟨l', hl', hm'⟩ := (mem_linksTo r hc U hcm i).1 hi
      constructor
      · intro h; simp at h
      · rintro ⟨h1, h2⟩
        rw [hl'] at h1; cases h1
        exact absurd hm' h2
    · rw [if_neg hi]
      constructor
      · intro h
        exact ⟨h, fun hm' => hi ((mem_linksTo r hc U hcm i).2 ⟨l, h, hm'⟩)⟩
      · exact fun h => h.1
  have hKmem : ∀ c' ∈ K.chipList, ∃ c ∈ m.chipList, c.xy ∉ U ∧ c' = keepChip (linksTo U m) c := by
    intro c' hc'
    rw [hKl, survivors, List.mem_map] at hc'
    obtain ⟨c, hcf, rfl⟩ := hc'
    obtain ⟨h1, h2⟩ := List.mem_filter.1 hcf
    exact ⟨c, h1, by simpa using h2, rfl⟩
  have hKsome : ∀ c ∈ m.chipList, c.xy ∉ U → ∀ x y, (x, y) = c.xy → K.getChipAt x y = some (keepChip (linksTo U m) c) := by
    intro c hcm hcU x y hxy
    rw [hKat, hxy, if_neg hcU]
    have h1 : x = c.x := congrArg Prod.fst hxy
    have h2 : y = c.y := congrArg Prod.snd hxy
    rw [h1, h2, chip_at_of_mem r hcm]; rfl
  have hsub : SubMachine K m := by
    refine ⟨k2.trans a2.symm, k3.trans a3.symm, k1.trans a1.symm, fun c' hc' => ?_⟩
    obtain ⟨c, hcm, -, rfl⟩ := hKmem c' hc'
    exact ⟨c, hcm, keepChip_same _ c, fun i l hl => ((hKlink c hcm i l).1 hl).1⟩
  have hkp : KeepsParents K m := by
    intro c' hc' c hcm _
    obtain ⟨c0, hc0, -, rfl⟩ := hKmem c' hc'
    rw [hp c hcm]
    unfold keepChip
    split
    · exact hp c0 hc0
    · rfl
  have hlocalK : ∀ c ∈ m.chipList, c.xy ∉ U → ∃ (d : Dir) (n : Chip), n ∈ m.chipList ∧ n.xy ∉ U ∧
      n.x = c.x + d.dx ∧ n.y = c.y + d.dy ∧ n.ethX = c.ethX ∧ n.ethY = c.ethY ∧
      HasLink (keepChip (linksTo U m) c) d.id ∧ HasLink (keepChip (linksTo U m) n) (revDir d).id := by
    intro c hcm hcU
    have : ¬ ∀ (d : Dir) (n : Chip), HasLink c d.id → m.getChipAt (c.x + d.dx) (c.y + d.dy) = some n →
        ¬ (n.ethX = c.ethX ∧ n.ethY = c.ethY) := fun hno =>
      hcU (hU ▸ (mem_outgoing_local m _).2 ⟨c, hcm, rfl, hno⟩)
    simp only [Classical.not_forall, Classical.not_not] at this
    obtain ⟨d, n, hhas, hn, hb⟩ := this
    obtain ⟨hnm, hnx, hny⟩ := mem_of_chip_at r hn
    obtain ⟨⟨l, hl, hld⟩, ⟨l', hl', hld'⟩, hnU⟩ := hlocal c hcm d n hhas hn hb
    refine ⟨d, n, hnm, hnU, hnx, hny, hb.1, hb.2, (hasLink_iff _ _).2 ⟨l, (hKlink c hcm _ _).2 ⟨hl, by rw [hld]; exact hnU⟩⟩,
      (hasLink_iff _ _).2 ⟨l', (hKlink n hnm _ _).2 ⟨hl', by rw [hld']; exact hcU⟩⟩⟩
  have hcons : Consistent K := by
    refine ⟨List.eq_nil_iff_forall_not_mem.2 ?_, List.eq_nil_iff_forall_not_mem.2 ?_,
      List.eq_nil_iff_forall_not_mem.2 ?_, fun c' hc' i hi => ?_⟩
    · rintro ⟨x, y, out, back⟩ hmem
      obtain ⟨c', d, l, hat, rfl, rfl, hl, hno⟩ := (C24_one_way_links v w h K hK x y out back).1 hmem
      obtain ⟨c, hcm, hcU, rfl⟩ := hKmem c' (mem_of_chip_at rK hat).1
      obtain ⟨hl1, hl2⟩ := (hKlink c hcm _ _).1 hl
      obtain ⟨n, hnm, hnxy, -, l', hl', hd'⟩ := hback c hcm d l hl1
      refine hno ⟨keepChip (linksTo U m) n, hKsome n hnm (by rw [hnxy]; exact hl2) _ _ hnxy.symm, ?_⟩
      rw [hopp]
      exact (hasLink_iff _ _).2 ⟨l', (hKlink n hnm _ _).2 ⟨hl', by rw [hd']; exact hcU⟩⟩
    · intro p hmem
      obtain ⟨c', hc', -, hno⟩ := (mem_incoming_local K p).1 hmem
      obtain ⟨c, hcm, hcU, rfl⟩ := hKmem c' hc'
      obtain ⟨d, n, hnm, hnU, hnx, hny, hex, hey, -, hb⟩ := hlocalK c hcm hcU
      obtain ⟨e1, e2, -, -, -, -, e7, e8, -, -⟩ := keepChip_same (linksTo U m) c
      obtain ⟨-, -, -, -, -, -, f7, f8, -, -⟩ := keepChip_same (linksTo U m) n
      refine hno (revDir d) (keepChip (linksTo U m) n) (hKsome n hnm hnU _ _ ?_) hb (by rw [e7, e8, f7, f8]; exact ⟨hex, hey⟩)
      rw [e1, e2, (revDir_spec d).2.1, (revDir_spec d).2.2.1]
      refine Prod.ext ?_ ?_
      · show c.x - -d.dx = n.x; rw [hnx]; omega
      · show c.y - -d.dy = n.y; rw [hny]; omega
    · intro p hmem
      obtain ⟨c', hc', -, hno⟩ := (mem_outgoing_local K p).1 hmem
      obtain ⟨c, hcm, hcU, rfl⟩ := hKmem c' hc'
      obtain ⟨d, n, hnm, hnU, hnx, hny, hex, hey, hb, -⟩ := hlocalK c hcm hcU
      obtain ⟨e1, e2, -, -, -, -, e7, e8, -, -⟩ := keepChip_same (linksTo U m) c
      obtain ⟨-, -, -, -, -, -, f7, f8, -, -⟩ := keepChip_same (linksTo U m) n
      refine hno d (keepChip (linksTo U m) n) hb (hKsome n hnm hnU _ _ ?_) (by rw [e7, e8, f7, f8]; exact ⟨hex, hey⟩)
      rw [e1, e2]
      exact Prod.ext hnx.symm hny.symm
    · obtain ⟨c0, hc0, -, rfl⟩ := hKmem c' hc'
      unfold keepChip at hi
      split at hi
      · rw [hp c0 hc0] at hi; simp at hi
      · simp at hi
  have hKin : ∀ x y, K.isChipAt x y = true ↔ m.isChipAt x y = true ∧ (x, y) ∉ U := by
    intro x y
    show (K.getChipAt x y).isSome = true ↔ (m.getChipAt x y).isSome = true ∧ _
    rw [hKat]
    by_cases hm : (x, y) ∈ U
    · simp [hm]
    · simp [hm]
  obtain ⟨e0, he0, -⟩ := hleg.1
  have hm0 : m.isChipAt 0 0 = true := by
    show (m.getChipAt 0 0).isSome = true
    rw [he0]; rfl
  obtain ⟨m', hrep, hKm'⟩ := C79_succeeds v w h removed m K hr hc hv ho
    (fun c hcm i hi => by rw [hp c hcm] at hi; simp at hi) hK hsub hkp hcons ((hKin 0 0).2 ⟨hm0, hboot⟩)
    fun c hcm => (hKin _ _).2 ⟨eth_there hr hv ho c hcm, heth c hcm⟩
  obtain ⟨hcons', hsub', hr', hreal', -⟩ := C38_result v w h true removed m m' hr hc hrep
  obtain ⟨-, b1, b2, b3, -, r'⟩ := hr'.rep
  -- chips of the result and of the original
  have hsame : ∀ x y c', m'.getChipAt x y = some c' → ∃ c, m.getChipAt x y = some c ∧ SameAttributes c' c ∧ SubLinks c' c := by
    intro x y c' hat
    obtain ⟨hc', hx, hy⟩ := mem_of_chip_at r' hat
    obtain ⟨c, hcm, hsa, hsl⟩ := hsub'.2.2.2 c' hc'
    refine ⟨c, ?_, hsa, hsl⟩
    have := chip_at_of_mem r hcm
    rw [← hsa.1, ← hsa.2.1, hx, hy] at this
    exact this
  have hnotU : ∀ x y, m'.isChipAt x y = true → (x, y) ∉ U := by
    intro x y hat hmem
    obtain ⟨c', hc'⟩ := Option.isSome_iff_exists.1 hat
    have hc'at : m'.getChipAt x y = some c' := hc'
    obtain ⟨hcm', hx, hy⟩ := mem_of_chip_at r' hc'at
    obtain ⟨c, hcat, hsa, hsl⟩ := hsame x y c' hc'at
    rw [← hU] at hmem
    obtain ⟨c2, hc2, hxy, hno⟩ := (mem_outgoing_local m _).1 hmem
    have : c2 = c := by
      have := chip_at_of_mem r hc2
      simp only [Chip.xy, Prod.mk.injEq] at hxy
      rw [hxy.1, hxy.2, hcat] at this
      exact (Option.some.inj this).symm
    subst this
    have : c'.xy ∈ m'.unreachableOutgoingLocalChips := by
      refine (mem_outgoing_local m' _).2 ⟨c', hcm', rfl, fun d n hhas hn hb => ?_⟩
      obtain ⟨l, hl⟩ := (hasLink_iff _ _).1 hhas
      obtain ⟨n0, hn0, hsan, -⟩ := hsame _ _ n hn
      refine hno d n0 ((hasLink_iff _ _).2 ⟨l, hsl _ _ hl⟩) (by rw [← hsa.1, ← hsa.2.1]; exact hn0) ?_
      rw [← hsan.2.2.2.2.2.2.1, ← hsan.2.2.2.2.2.2.2.1, ← hsa.2.2.2.2.2.2.1, ← hsa.2.2.2.2.2.2.2.1]
      exact hb
    rw [hcons'.outgoing] at this
    simp at this
  refine ⟨m', hrep, fun x y => ⟨fun hat => ⟨?_, hnotU x y hat⟩, fun hat => ?_⟩, fun x y c c' hcat hcat' => ?_⟩
  · obtain ⟨c', hc'⟩ := Option.isSome_iff_exists.1 hat
    obtain ⟨c, hcat, -⟩ := hsame x y c' hc'
    show (m.getChipAt x y).isSome = true
    rw [hcat]; rfl
  · have hk := (isChipAt_iff rK (x, y)).1 ((hKin x y).2 hat)
    rw [List.mem_map] at hk
    obtain ⟨c0, hc0, hxy⟩ := hk
    obtain ⟨c', hc', hsa, -⟩ := hKm'.2.2.2 c0 hc0
    refine (isChipAt_iff r' (x, y)).2 ?_
    rw [← hxy, List.mem_map]
    exact ⟨c', hc', Prod.ext hsa.1.symm hsa.2.1.symm⟩
  · obtain ⟨hcm', hx', hy'⟩ := mem_of_chip_at r' hcat'
    obtain ⟨hcm, hx, hy⟩ := mem_of_chip_at r hcat
    obtain ⟨c2, hc2, hsa, hsl⟩ := hsame x y c' hcat'
    rw [hcat] at hc2
    cases hc2
    have hcU : c.xy ∉ U := by
      have := hnotU x y (by show (m'.getChipAt x y).isSome = true; rw [hcat']; rfl)
      have hxy : c.xy = (x, y) := Prod.ext hx hy
      rw [hxy]; exact this
    refine ⟨hsa, fun i l => ⟨fun hl => ⟨hsl i l hl, ?_⟩, fun ⟨hl, hlU⟩ => ?_⟩⟩
    · obtain ⟨d, rfl, -⟩ := htrue c hcm i l (hsl i l hl)
      have hnot : (x, y, d.id, Router.opposite d.id) ∉ m'.oneWayLinks := by rw [hcons'.links]; simp
      have hex : ∃ n, m'.getChipAt l.destX l.destY = some n ∧ HasLink n (Router.opposite d.id) :=
        Classical.byContradiction fun hno => hnot ((C24_one_way_links v w h m' hr' _ _ _ _).2
          ⟨c', d, l, hcat', rfl, rfl, hl, hno⟩)
      obtain ⟨n, hn, -⟩ := hex
      exact hnotU _ _ (by show (m'.getChipAt _ _).isSome = true; rw [hn]; rfl)
    · have hk := hKsome c hcm hcU x y (Prod.ext hx.symm hy.symm)
      obtain ⟨hkm, -, -⟩ := mem_of_chip_at rK hk
      obtain ⟨c3, hc3, hsa3, hsl3⟩ := hKm'.2.2.2 _ hkm
      have : c3 = c' := by
        refine eq_of_nodup_map r'.nodup hc3 hcm' (Prod.ext ?_ ?_)
        · show c3.x = c'.x
          rw [← hsa3.1, (keepChip_same _ c).1, hx, hx']
        · show c3.y = c'.y
          rw [← hsa3.2.1, (keepChip_same _ c).2.1, hy, hy']
      subst this
      exact hsl3 i l ((hKlink c hcm i l).2 ⟨hl, hlU⟩)

/-! ### virtual machines -/

theorem vm_hyps {v : Version} {cfg : DownCfg} {w h : Int} {m : Machine}
    (hm : virtualMachine v cfg w h true = .ok m) :
    m.validate v = .ok () ∧ OwnEthernet m ∧ (∀ c ∈ m.chipList, c.parentLink = none) ∧ TrueLinks m := by
  obtain ⟨hs, hr, hwr, hw, hh, hcc, r, d, hd, hcl⟩ := vm_facts hm
  obtain ⟨-, -, -, -, -, -, hval⟩ := vm_ok hm
  have hpos := hs.pos
  obtain ⟨hip, -⟩ := C30_addresses v cfg w h true m hm
  refine ⟨hval rfl, fun c hc hne => ?_, fun c hc => ?_, fun c hc i l hl => ?_⟩
  · have hcp : c.xy ∈ v.kind.potentialEthernetChips w h :=
      Classical.byContradiction fun hn => hne ((hip c hc).2 hn)
    obtain ⟨he', hb', -⟩ := C34_board v cfg w h true m hm c hc
    rw [hwr, ← mem_xysByEthernet_iff_boardAt v.kind _ hpos.1 hpos.2, mem_xysByEthernet] at hb'
    obtain ⟨l1, hl1, h1⟩ := hb'
    have hg := ((mem_potential_iff hs c.xy).1 hcp).2.1
    unfold InGrid at hg
    refine (board_unique hs he' hcp hl1 (onBoard_origin _) (h1.trans ?_)).1
    simp only [Int.zero_add]
    exact (Wrap.red_of_inRange _ (p := (c.xy.1, c.xy.2)) ⟨fun _ => ⟨hg.1, hg.2.1⟩, fun _ => ⟨hg.2.2.1, hg.2.2.2⟩⟩).symm
  · rw [hcl, vmChips, List.mem_map] at hc
    obtain ⟨kv, -, rfl⟩ := hc
    rfl
  · have hhas : HasLink c i := (hasLink_iff _ _).2 ⟨l, hl⟩
    obtain ⟨dir, hdir, -⟩ := (C31_links v cfg w h true m hm c hc i).1 hhas
    exact ⟨dir, hdir, (C31_destinations v cfg w h true m hm c hc i l hl).2.2.2⟩

/-- C79: `machine_repair` of a validated virtual machine returns a machine or raises SpinnMachineException,
whatever is down. -/
theorem C79_virtual (v : Version) (cfg : DownCfg) (w h : Int) (m : Machine) (repair : Bool) (removed : List XY)
    (hm : virtualMachine v cfg w h true = .ok m) :
    machineRepair v repair removed m = some (.error .machine) ∨
    ∃ m', machineRepair v repair removed m = some (.ok m') := by
  obtain ⟨h1, h2, h3, -⟩ := vm_hyps hm
  obtain ⟨hr, hc⟩ := vm_real hm
  exact C79_only_machine_exception v w h repair removed m hr hc h1 h2 fun c hcm i hi => by
    rw [h3 c hcm] at hi; simp at hi

/-- C79: a virtual machine whose down links are listed at both ends is repaired by removing exactly the chips
that have no working link on their board, and the links that lead to them, unless these are
Ethernet chips. -/
theorem C79_virtual_isolated (v : Version) (cfg : DownCfg) (w h : Int) (m : Machine) (removed : List XY)
    (hm : virtualMachine v cfg w h true = .ok m)
    (hsym : ∀ c ∈ m.chipList, ∀ (dir : Dir) (q : XY), LinkDown cfg c.xy dir.id →
      m.xyOverLink c.x c.y dir.id = .ok q → m.isChipAt q.1 q.2 = true →
      LinkDown cfg q (Router.opposite dir.id))
    (heth : ∀ c ∈ m.chipList, c.ip ≠ none → c.xy ∉ m.unreachableOutgoingLocalChips) :
    ∃ m', machineRepair v true removed m = some (.ok m') ∧
      (∀ x y, m'.isChipAt x y = true ↔ m.isChipAt x y = true ∧ (x, y) ∉ m.unreachableOutgoingLocalChips) ∧
      ∀ x y c c', m.getChipAt x y = some c → m'.getChipAt x y = some c' →
        SameAttributes c' c ∧
        ∀ i l, c'.router.getLink i = some l ↔
          c.router.getLink i = some l ∧ (l.destX, l.destY) ∉ m.unreachableOutgoingLocalChips := by
  obtain ⟨h1, h2, h3, h4⟩ := vm_hyps hm
  obtain ⟨hr, hc⟩ := vm_real hm
  obtain ⟨-, -, -, -, -, r⟩ := hr.rep
  have hleg := (C21_validate_exact v w h m hr).1 h1
  have hpot : ∀ p : XY, m.isChipAt p.1 p.2 = true → p ∈ v.kind.potentialEthernetChips w h →
      p ∉ m.unreachableOutgoingLocalChips := by
    intro p hat hp
    obtain ⟨c, hcm, hxy⟩ := List.mem_map.1 ((isChipAt_iff r p).1 hat)
    have := heth c hcm (by
      rw [((C30_addresses v cfg w h true m hm).1 c hcm).1 (by rw [hxy]; exact hp)]; simp)
    rwa [hxy] at this
  refine C79_isolated v w h removed m hr hc h1 h2 h3 (C31_no_one_way v cfg w h true m hm hsym) h4 ?_ fun c hcm => ?_
  · obtain ⟨c, hat, hip⟩ := hleg.1
    obtain ⟨hcm, hx, hy⟩ := mem_of_chip_at r hat
    have := heth c hcm hip
    rwa [show c.xy = (0, 0) from Prod.ext hx hy] at this
  · exact hpot (c.ethX, c.ethY) (eth_there hr h1 h2 c hcm) (C34_board v cfg w h true m hm c hcm).1

/-- C79: if the down links of a virtual machine are listed at one end only and the machine with both ends listed
has nothing to repair, then the repair succeeds and gives that machine. -/
theorem C79_virtual_symmetric (v : Version) (cfg cfg' : DownCfg) (w h : Int) (validate' : Bool)
    (removed : List XY) (m ms : Machine)
    (hm : virtualMachine v cfg w h true = .ok m) (hms : virtualMachine v cfg' w h validate' = .ok ms)
    (hb : BothEnds v.kind m.wrap w h cfg cfg') (hcons : Consistent ms) :
    ∃ m', machineRepair v true removed m = some (.ok m') ∧ SubMachine m' ms ∧ SubMachine ms m' := by
  obtain ⟨h1, h2, h3, h4⟩ := vm_hyps hm
  obtain ⟨hr, hc⟩ := vm_real hm
  obtain ⟨hrs, -⟩ := vm_real hms
  obtain ⟨-, -, hwr, -⟩ := vm_facts hm
  obtain ⟨-, -, hwrs, -⟩ := vm_facts hms
  have hsm := vm_subMachine hm hms hb.1 hb.2.1 fun p dir hp hl => (hb.2.2 p dir hp).2 (.inl hl)
  have hat : ∀ x y, m.isChipAt x y = true → ms.isChipAt x y = true := by
    intro x y hxy
    have := (C30_chips v cfg w h true m hm (x, y)).1 hxy
    exact (C30_chips v cfg' w h validate' ms hms (x, y)).2
      ⟨fun hn => this.1 ((hb.1 _).1 hn), by rw [hwrs, ← hwr]; exact this.2⟩
  obtain ⟨c0, hc0, -⟩ := ((C21_validate_exact v w h m hr).1 h1).1
  obtain ⟨m', hrep, -⟩ := C79_succeeds v w h removed m ms hr hc h1 h2
    (fun c hcm i hi => by rw [h3 c hcm] at hi; simp at hi) hrs hsm.1 hsm.2 hcons
    (hat 0 0 (by show (m.getChipAt 0 0).isSome = true; rw [hc0]; rfl))
    fun c hcm => hat _ _ (eth_there hr h1 h2 c hcm)
  exact ⟨m', hrep, C72_repair_symmetric v cfg cfg' w h true validate' true removed m ms m' hm hms hb hcons hrep⟩

/-- the three neighbours that the chip (0, 3) has on its board down -/
def exIsland : DownCfg := { chips := some "1,3:1,4:0,2".toList }

/-- the case of `C79_isolated` and `C79_virtual_isolated`: the chip (0, 3) is removed -/
example : ∃ m, virtualMachine exV5 exIsland 8 8 true = .ok m ∧ (∀ p i, ¬ LinkDown exIsland p i) ∧
    (∀ c ∈ m.chipList, c.ip ≠ none → c.xy ∉ m.unreachableOutgoingLocalChips) ∧
    m.unreachableOutgoingLocalChips = [(0, 3)] := by
  have h : (match virtualMachine exV5 exIsland 8 8 true with
      | .ok m => decide (m.unreachableOutgoingLocalChips = [(0, 3)]) &&
          decide (∀ c ∈ m.chipList, c.ip ≠ none → c.xy ∉ m.unreachableOutgoingLocalChips)
      | .error _ => false) = true := by decide +kernel
  cases h1 : virtualMachine exV5 exIsland 8 8 true with
  | error e => rw [h1] at h; simp at h
  | ok m =>
    rw [h1] at h
    simp only [Bool.and_eq_true, decide_eq_true_eq] at h
    refine ⟨m, rfl, ?_, h.2, h.1⟩
    rintro p i ⟨l, hl, c, hc, -⟩; cases hl; simp at hc

/-- the case of `C79_virtual_symmetric` is that of `C72_repair_symmetric`, without the repair -/
example : ∃ m, virtualMachine exSmall exOneEnd 2 2 true = .ok m ∧ m.oneWayLinks ≠ [] := by
  have h : (match virtualMachine exSmall exOneEnd 2 2 true with
      | .ok m => decide (m.oneWayLinks ≠ [])
      | .error _ => false) = true := by decide +kernel
  cases h1 : virtualMachine exSmall exOneEnd 2 2 true with
  | error e => rw [h1] at h; simp at h
  | ok m => rw [h1] at h; exact ⟨m, rfl, by simpa using h⟩

/-- the repair can fail: on a four chip board with all links of the Ethernet chip down -/
def exCutEth : DownCfg :=
  { links := some "0,0,0:0,0,1:0,0,2:0,0,3:0,0,4:0,0,5:1,1,1:1,1,4:1,0,0:1,0,3:0,1,2:0,1,5".toList }

/-- C79: the repair does fail if it would remove the Ethernet chip, although all other chips are connected. -/
theorem C79_ethernet_lost : ∃ m, virtualMachine exSmall exCutEth 2 2 true = .ok m ∧
    m.unreachableOutgoingLocalChips = [(0, 0)] ∧ machineRepair exSmall true [] m = some (.error .machine) := by
  have h : (match virtualMachine exSmall exCutEth 2 2 true with
      | .ok m => decide (m.unreachableOutgoingLocalChips = [(0, 0)]) &&
          decide (repairFind true [] m = .ok { deadChips := [(0, 0), (0, 0)] }) &&
          (match machineIgnore exSmall m [(0, 0), (0, 0)] [] with
            | .ok _ => false
            | .error e => decide (e = .machine))
      | .error _ => false) = true := by decide +kernel
  cases h1 : virtualMachine exSmall exCutEth 2 2 true with
  | error e => rw [h1] at h; simp at h
  | ok m =>
    rw [h1] at h
    simp only [Bool.and_eq_true, decide_eq_true_eq] at h
    obtain ⟨⟨g1, g2⟩, g3⟩ := h
    refine ⟨m, rfl, g1, ?_⟩
    rw [machineRepair, g2]
    cases h3 : machineIgnore exSmall m [(0, 0), (0, 0)] [] with
    | ok m' => rw [h3] at g3; simp at g3
    | error e =>
      rw [h3] at g3
      simp only [decide_eq_true_eq] at g3
      subst g3
      simp [h3]

end SpiNN.Props
