import Verif.Props.RepairSucceeds
import Verif.Props.Stages
import Verif.Lemmas.RepairPasses

/-!
# Repairs and removals in any order (C99)
-/

namespace SpiNN.Props
open SpiNN Spec

/-- no chip of the machine has a recorded parent (virtual machines and machines read from JSON have none) -/
def NoParents (m : Machine) : Prop := ∀ c ∈ m.chipList, c.parentLink = none

/-- the chip does not have a link listed in `dead` -/
def AvoidsLinks (dead : List DeadLink) (c : Chip) : Prop :=
  ∀ i l, c.router.getLink i = some l → ¬ ∃ back, (c.x, c.y, i, back) ∈ dead

/-! ### lemmas -/

theorem sameAttributes_symm {a b : Chip} (h : SameAttributes a b) : SameAttributes b a := by
  obtain ⟨h1, h2, h3, h4, h5, h6, h7, h8, h9, h10⟩ := h
  exact ⟨h1.symm, h2.symm, h3.symm, h4.symm, h5.symm, h6.symm, h7.symm, h8.symm, h9.symm, h10.symm⟩

theorem ignore_chips {v : Version} {w h : Int} {m m' : Machine} (hr : Reachable v w h m)
    (hc : ∀ c ∈ m.chipList, RealChip c) {A : List XY} {a : List DeadLink} (hm : machineIgnore v m A a = .ok m') :
    Reachable v w h m' ∧ m'.chipList = survivors A a m.chipList := by
  obtain ⟨m1, j1, j2, -, j4⟩ := machineIgnore_eq hr hc A a
  have : m1 = m' := by
    rw [j4] at hm
    cases hv : m1.validate v with
    | error e => rw [hv] at hm; simp at hm
    | ok u => rw [hv] at hm; simpa using hm
  subst this
  exact ⟨j1, j2⟩

theorem noParents_ignore {v : Version} {w h : Int} {m m' : Machine} (hr : Reachable v w h m)
    (hc : ∀ c ∈ m.chipList, RealChip c) (hp : NoParents m) {A : List XY} {a : List DeadLink}
    (hm : machineIgnore v m A a = .ok m') : NoParents m' := by
  intro c hcm
  rw [(ignore_chips hr hc hm).2, survivors, List.mem_map] at hcm
  obtain ⟨d, hd, rfl⟩ := hcm
  unfold keepChip
  split
  · exact hp d (List.mem_filter.1 hd).1
  · rfl

/-- what a repair returns is the machine itself or one `_machine_ignore` builds from it -/
theorem repair_is_ignore {v : Version} {w h : Int} {repair : Bool} {removed : List XY} {m m' : Machine}
    (hr : Reachable v w h m) (hc : ∀ c ∈ m.chipList, RealChip c)
    (hm : machineRepair v repair removed m = some (.ok m')) :
    m' = m ∨ ∃ A a, machineIgnore v m A a = .ok m' := by
  obtain ⟨r, h1, h2⟩ := repair_induct (v := v) (w := w) (h := h) (repair := repair)
    (P := fun _ m r => ∀ m', r = .ok m' → m' = m ∨ ∃ A a, machineIgnore v m A a = .ok m')
    (by intro _ _ _ _ _ _ _ h; simp at h) (by intro _ _ _ _ _ _ _ _ _ h; simp at h)
    (by intro _ m _ _ _ _ _ _ _ m' h; cases h; exact .inl rfl)
    (by intro _ _ _ _ _ _ _ _ _ _ _ h; simp at h)
    (by
      intro removed m f m1 r hr hc hf h1 h2 hi hrep ih m' h'
      rcases ih m' h' with rfl | ⟨A, a, hA⟩
      · exact .inr ⟨_, _, hi⟩
      · exact .inr ⟨f.deadChips ++ A, f.deadLinks ++ a, by
          rw [← C89_stages v w h m m1 hr hc _ _ _ _ hi]; exact hA⟩) removed m hr hc
  rw [hm] at h1
  cases h1
  exact h2 m' rfl

theorem noParents_repair {v : Version} {w h : Int} {m m' : Machine} (hr : Reachable v w h m)
    (hc : ∀ c ∈ m.chipList, RealChip c) (hp : NoParents m) {repair : Bool} {removed : List XY}
    (hm : machineRepair v repair removed m = some (.ok m')) : NoParents m' := by
  rcases repair_is_ignore hr hc hm with rfl | ⟨A, a, hA⟩
  · exact hp
  · exact noParents_ignore hr hc hp hA

theorem keepsParents_of {K m : Machine} (hK : NoParents K) (hm : NoParents m) : KeepsParents K m :=
  fun c' hc' c hc _ => (hK c' hc').trans (hm c hc).symm

/-- the parts of a machine without some items are the parts of the machine that do not have these items -/
theorem sub_ignore {v : Version} {w h : Int} {m m' : Machine} (hr : Reachable v w h m)
    (hc : ∀ c ∈ m.chipList, RealChip c) {A : List XY} {a : List DeadLink}
    (hm : machineIgnore v m A a = .ok m') (K : Machine) :
    SubMachine K m' ↔ SubMachine K m ∧ ∀ c ∈ K.chipList, c.xy ∉ A ∧ AvoidsLinks a c := by
  obtain ⟨hr', hl⟩ := ignore_chips hr hc hm
  have hsub := ignore_sub hr hc hm
  constructor
  · intro hs
    refine ⟨SubMachine.trans hs hsub, fun c hcK => ?_⟩
    obtain ⟨c', hc', hsa, hsl⟩ := hs.2.2.2 c hcK
    rw [hl, survivors, List.mem_map] at hc'
    obtain ⟨d, hd, rfl⟩ := hc'
    obtain ⟨hdm, hdA⟩ := List.mem_filter.1 hd
    have hxy : c.xy = d.xy := (Prod.ext hsa.1 hsa.2.1 : c.xy = (keepChip a d).xy).trans (keepChip_xy a d)
    refine ⟨hxy ▸ by simpa using hdA, fun i l hil hb => ?_⟩
    have := hsl i l hil
    rw [keepChip_getLink a (hc d hdm), if_pos ((mem_deadIds a d.xy i).2 (hxy ▸ hb))] at this
    simp at this
  · rintro ⟨hs, hav⟩
    refine ⟨hs.1.trans hsub.1.symm, hs.2.1.trans hsub.2.1.symm, hs.2.2.1.trans hsub.2.2.1.symm, fun c hcK => ?_⟩
    obtain ⟨d, hdm, hsa, hsl⟩ := hs.2.2.2 c hcK
    obtain ⟨hA, hla⟩ := hav c hcK
    have hxy : c.xy = d.xy := Prod.ext hsa.1 hsa.2.1
    refine ⟨keepChip a d, ?_, SameAttributes.trans hsa (sameAttributes_symm (keepChip_same a d)), fun i l hil => ?_⟩
    · rw [hl, survivors, List.mem_map]
      exact ⟨d, List.mem_filter.2 ⟨hdm, by simpa using hxy ▸ hA⟩, rfl⟩
    · rw [keepChip_getLink a (hc d hdm), if_neg]
      · exact hsl i l hil
      · intro hb
        exact hla i l hil ((mem_deadIds a c.xy i).1 (hxy ▸ hb))

theorem keepChip_normal (a : List DeadLink) {c : Chip} (hc : RealChip c) (hp : c.parentLink = none) :
    keepChip a c = { c with
      router := { c.router with links := ⟨(c.router.linkList.filter fun l =>
        l.sourceLinkId ∉ deadIds a c.xy).map fun l => (l.sourceLinkId, l)⟩ }
      parentLink := none } := by
  unfold keepChip
  split
  · rename_i h0
    rw [h0, List.filter_eq_self.2 (by simp), ← hc.items.1, ← hp]
  · rfl

/-- two machines built from one without parents are the same if they have the same parts -/
theorem ignore_eq_of_same {v : Version} {w h : Int} {m p q : Machine} (hr : Reachable v w h m)
    (hc : ∀ c ∈ m.chipList, RealChip c) (hp : NoParents m) {A B : List XY} {a b : List DeadLink}
    (h1 : machineIgnore v m A a = .ok p) (h2 : machineIgnore v m B b = .ok q)
    (hpq : SubMachine p q) (hqp : SubMachine q p) : p = q := by
  have e : machineIgnore v m A a = machineIgnore v m B b := by
    refine ignore_of_survivors hr hc hr hc _ _ _ _ ?_
    have k1 := ((sub_ignore hr hc h2 p).1 hpq).2
    have k2 := ((sub_ignore hr hc h1 q).1 hqp).2
    rw [(ignore_chips hr hc h1).2] at k1
    rw [(ignore_chips hr hc h2).2] at k2
    have half : ∀ {A B : List XY} {a b : List DeadLink},
        (∀ c ∈ survivors A a m.chipList, c.xy ∉ B ∧ AvoidsLinks b c) →
        ∀ c ∈ m.chipList, c.xy ∉ A → c.xy ∉ B ∧
          ∀ l ∈ c.router.linkList, l.sourceLinkId ∉ deadIds a c.xy → l.sourceLinkId ∉ deadIds b c.xy := by
      intro A B a b k c hcm hA
      obtain ⟨g1, g2⟩ := k (keepChip a c) (List.mem_map.2 ⟨c, List.mem_filter.2 ⟨hcm, by simpa using hA⟩, rfl⟩)
      rw [keepChip_xy] at g1
      refine ⟨g1, fun l hl hla hlb => ?_⟩
      have hxy := keepChip_xy a c
      simp only [Chip.xy, Prod.mk.injEq] at hxy
      refine g2 l.sourceLinkId l ?_ ?_
      · rw [keepChip_getLink a (hc c hcm), if_neg hla]
        exact ((hc c hcm).getLink _ _).2 ⟨hl, rfl⟩
      · rw [hxy.1, hxy.2]; exact (mem_deadIds b c.xy _).1 hlb
    have f1 := half k1
    have f2 := half k2
    unfold survivors
    have hf : m.chipList.filter (fun c => decide (c.xy ∉ A)) = m.chipList.filter fun c => decide (c.xy ∉ B) := by
      apply List.filter_congr
      intro c hcm
      exact decide_eq_decide.2 ⟨fun hA => (f1 c hcm hA).1, fun hB => (f2 c hcm hB).1⟩
    rw [← hf]
    apply List.map_congr_left
    intro c hcm
    obtain ⟨hcm, hcA⟩ := List.mem_filter.1 hcm
    have hcA : c.xy ∉ A := by simpa using hcA
    have hcB := (f1 c hcm hcA).1
    rw [keepChip_normal a (hc c hcm) (hp c hcm), keepChip_normal b (hc c hcm) (hp c hcm)]
    have : (c.router.linkList.filter fun l => decide (l.sourceLinkId ∉ deadIds a c.xy)) =
        c.router.linkList.filter fun l => decide (l.sourceLinkId ∉ deadIds b c.xy) := by
      apply List.filter_congr
      intro l hl
      exact decide_eq_decide.2 ⟨(f1 c hcm hcA).2 l hl, (f2 c hcm hcB).2 l hl⟩
    rw [this]
  rw [h1, h2] at e
  injection e

/-! ### the claims -/

/-- C99: a part of a machine is repaired to a part of what the machine is repaired to. -/
theorem C99_monotone (v : Version) (w h : Int) (m1 m2 r1 r2 : Machine) (rep1 rep2 : Bool) (rem1 rem2 : List XY)
    (hr1 : Reachable v w h m1) (hc1 : ∀ c ∈ m1.chipList, RealChip c) (hp1 : NoParents m1)
    (hr2 : Reachable v w h m2) (hc2 : ∀ c ∈ m2.chipList, RealChip c) (hp2 : NoParents m2)
    (hs : SubMachine m1 m2)
    (h1 : machineRepair v rep1 rem1 m1 = some (.ok r1)) (h2 : machineRepair v rep2 rem2 m2 = some (.ok r2)) :
    SubMachine r1 r2 := by
  obtain ⟨g1, g2, g3, -, -⟩ := C38_result v w h rep1 rem1 m1 r1 hr1 hc1 h1
  exact C38_maximal v w h rep2 rem2 m2 r2 r1 hr2 hc2 h2 g3 (SubMachine.trans g2 hs)
    (keepsParents_of (noParents_repair hr1 hc1 hp1 h1) hp2) g1

/-- C99: taking dead chips and links out of a machine and repairing it gives the machine that comes out if it is
repaired first, the dead items are taken out of the result, and that is repaired again. -/
theorem C99_repair_first (v : Version) (w h : Int) (m m1 r r1 x y : Machine) (A : List XY) (a : List DeadLink)
    (rep1 rep2 rep3 : Bool) (rem1 rem2 rem3 : List XY)
    (hr : Reachable v w h m) (hc : ∀ c ∈ m.chipList, RealChip c) (hp : NoParents m)
    (h1 : machineIgnore v m A a = .ok m1) (hx : machineRepair v rep1 rem1 m1 = some (.ok x))
    (h2 : machineRepair v rep2 rem2 m = some (.ok r)) (h3 : machineIgnore v r A a = .ok r1)
    (hy : machineRepair v rep3 rem3 r1 = some (.ok y)) : x = y := by
  obtain ⟨k1, k2, -⟩ := C37_exact v w h m m1 hr hc A a h1
  obtain ⟨g1, g2, g3, g4, -⟩ := C38_result v w h rep2 rem2 m r hr hc h2
  obtain ⟨l1, l2, -⟩ := C37_exact v w h r r1 g3 g4 A a h3
  have pr := noParents_repair hr hc hp h2
  have p1 := noParents_ignore hr hc hp h1
  have pr1 := noParents_ignore g3 g4 pr h3
  have px := noParents_repair k1 k2 p1 hx
  obtain ⟨x1, x2, x3, x4, -⟩ := C38_result v w h rep1 rem1 m1 x k1 k2 hx
  obtain ⟨y1, y2, y3, y4, -⟩ := C38_result v w h rep3 rem3 r1 y l1 l2 hy
  obtain ⟨xm, xav⟩ := (sub_ignore hr hc h1 x).1 x2
  -- the result of one side is part of that of the other
  have hxy : SubMachine x y := by
    have xr : SubMachine x r := C38_maximal v w h rep2 rem2 m r x hr hc h2 x3 xm (keepsParents_of px hp) x1
    exact C38_maximal v w h rep3 rem3 r1 y x l1 l2 hy x3 ((sub_ignore g3 g4 h3 x).2 ⟨xr, xav⟩)
      (keepsParents_of px pr1) x1
  have hyx : SubMachine y x := by
    refine C99_monotone v w h r1 m1 y x rep3 rep1 rem3 rem1 l1 l2 pr1 k1 k2 p1 ?_ hy hx
    obtain ⟨s1, s2⟩ := (sub_ignore g3 g4 h3 r1).1 (SubMachine.refl r1)
    exact (sub_ignore hr hc h1 r1).2 ⟨SubMachine.trans s1 g2, s2⟩
  -- both are built from `m`
  have from_m : ∀ {k z : Machine} {B : List XY} {b : List DeadLink} {rep : Bool} {rem : List XY},
      Reachable v w h k → (∀ c ∈ k.chipList, RealChip c) → machineIgnore v m B b = .ok k →
      machineRepair v rep rem k = some (.ok z) → ∃ B' b', machineIgnore v m B' b' = .ok z := by
    intro k z B b rep rem hk hkc hb hz
    rcases repair_is_ignore hk hkc hz with rfl | ⟨B', b', hB⟩
    · exact ⟨_, _, hb⟩
    · exact ⟨_, _, by rw [← C89_stages v w h m k hr hc _ B' _ b' hb]; exact hB⟩
  obtain ⟨B, b, hB⟩ := from_m k1 k2 h1 hx
  have hm1 : ∃ B b, machineIgnore v m B b = .ok r1 := by
    rcases repair_is_ignore hr hc h2 with rfl | ⟨C, d, hC⟩
    · exact ⟨_, _, h3⟩
    · exact ⟨_, _, by rw [← C89_stages v w h m r hr hc C A d a hC]; exact h3⟩
  obtain ⟨C, d, hC⟩ := hm1
  obtain ⟨C', d', hC'⟩ := from_m l1 l2 hC hy
  exact ignore_eq_of_same hr hc hp hB hC' hxy hyx

/-- C99: neither `repair_machine` nor the list of removed chips matters for what a repair that succeeds returns. -/
theorem C99_settings (v : Version) (w h : Int) (m r1 r2 : Machine) (rep1 rep2 : Bool) (rem1 rem2 : List XY)
    (hr : Reachable v w h m) (hc : ∀ c ∈ m.chipList, RealChip c) (hp : NoParents m)
    (h1 : machineRepair v rep1 rem1 m = some (.ok r1)) (h2 : machineRepair v rep2 rem2 m = some (.ok r2)) :
    r1 = r2 := by
  have s12 := C99_monotone v w h m m r1 r2 rep1 rep2 rem1 rem2 hr hc hp hr hc hp (SubMachine.refl m) h1 h2
  have s21 := C99_monotone v w h m m r2 r1 rep2 rep1 rem2 rem1 hr hc hp hr hc hp (SubMachine.refl m) h2 h1
  have c1 := (C38_result v w h rep1 rem1 m r1 hr hc h1).1
  have c2 := (C38_result v w h rep2 rem2 m r2 hr hc h2).1
  rcases repair_is_ignore hr hc h1 with rfl | ⟨A, a, hA⟩
  · rw [machineRepair_consistent c1 v rep2 rem2] at h2
    cases h2; rfl
  · rcases repair_is_ignore hr hc h2 with rfl | ⟨B, b, hB⟩
    · rw [machineRepair_consistent c2 v rep1 rem1] at h1
      cases h1; rfl
    · exact ignore_eq_of_same hr hc hp hA hB s12 s21

/-! ### virtual machines -/

theorem vm_noParents {v : Version} {cfg : DownCfg} {w h : Int} {validate : Bool} {m : Machine}
    (hm : virtualMachine v cfg w h validate = .ok m) : NoParents m := by
  intro c hc
  obtain ⟨-, -, -, -, -, -, -, d, -, hcl⟩ := vm_facts hm
  rw [hcl, vmChips, List.mem_map] at hc
  obtain ⟨kv, -, rfl⟩ := hc
  rfl

/-- a virtual machine with more chips and links down is part of the one with fewer -/
theorem vm_more_down {v : Version} {cfg cfg' : DownCfg} {w h : Int} {validate validate' : Bool} {m m' : Machine}
    (hm : virtualMachine v cfg w h validate = .ok m) (hm' : virtualMachine v cfg' w h validate' = .ok m')
    (hd : DownAtMost v.kind cfg cfg') (hq : ∀ p q, CoreDown v.kind cfg' p q → CoreDown v.kind cfg p q) :
    SubMachine m' m := by
  obtain ⟨hs, hr, hwr, hw, hh, hcc, r, d, hdr, hcl⟩ := vm_facts hm
  obtain ⟨hs', hr', hwr', hw', hh', hcc', r', d', hdr', hcl'⟩ := vm_facts hm'
  refine ⟨hw'.trans hw.symm, hh'.trans hh.symm, hwr'.trans hwr.symm, fun c' hc' => ?_⟩
  obtain ⟨c, hc, e1, e2, e3, e4, e5, e6, e7, e8, e9, -⟩ :=
    (C72_monotone v cfg cfg' w h validate validate' m m' hm hm' hd).2 c' hc'
  refine ⟨c, hc, ?_, e9⟩
  obtain ⟨n, n1, -, n3, n4⟩ := C32_cores v cfg w h validate m hm c hc
  obtain ⟨n', n1', -, n3', n4'⟩ := C32_cores v cfg' w h validate' m' hm' c' hc'
  have hx := e1
  simp only [Chip.xy, Prod.mk.injEq] at hx
  have hloc : m'.getLocalXY c' = m.getLocalXY c := by
    unfold Machine.getLocalXY
    rw [hwr, hwr', hw, hw', hh, hh', hx.1, hx.2, e2, e3]
  rw [hloc, n1] at n1'
  cases n1'
  have hpl : c'.placable = c.placable := by
    refine eq_of_sorted_mem n3' n3 fun q => ?_
    rw [n4, n4', e1]
    have : CoreDown v.kind cfg' c'.xy q ↔ CoreDown v.kind cfg c'.xy q := ⟨hq _ _, hd.2.2 _ _⟩
    rw [this]
  exact ⟨hx.1.symm, hx.2.symm, e8.symm, hpl, e5.symm, e6.symm, e2.symm, e3.symm, e4.symm, e7.symm⟩

/-- C99: if more chips and links of a virtual machine are down, then less is left after the repair. -/
theorem C99_virtual (v : Version) (cfg cfg' : DownCfg) (w h : Int) (validate validate' : Bool) (m m' r r' : Machine)
    (rep rep' : Bool) (rem rem' : List XY)
    (hm : virtualMachine v cfg w h validate = .ok m) (hm' : virtualMachine v cfg' w h validate' = .ok m')
    (hd : DownAtMost v.kind cfg cfg') (hq : ∀ p q, CoreDown v.kind cfg' p q → CoreDown v.kind cfg p q)
    (h1 : machineRepair v rep rem m = some (.ok r)) (h2 : machineRepair v rep' rem' m' = some (.ok r')) :
    SubMachine r' r := by
  obtain ⟨a1, a2⟩ := vm_real hm
  obtain ⟨b1, b2⟩ := vm_real hm'
  exact C99_monotone v w h m' m r' r rep' rep rem' rem b1 b2 (vm_noParents hm') a1 a2 (vm_noParents hm)
    (vm_more_down hm hm' hd hq) h2 h1

/-- the case of `C99_virtual`, `C99_settings` and, with chip (1,1) taken out, of `C99_repair_first`: a four chip board
with a link down at one end, and then with the chip (1,1) down as well -/
example : (match virtualMachine exSmall exOneEnd 2 2 true,
      virtualMachine exSmall { exOneEnd with chips := some "1,1".toList } 2 2 true with
    | .ok m, .ok m' => (match repairPasses exSmall true 5 [] m, repairPasses exSmall true 5 [] m',
          machineIgnore exSmall m [(1, 1)] [] with
      | some (.ok r), some (.ok r'), .ok m1 => (match machineIgnore exSmall r [(1, 1)] [],
            repairPasses exSmall true 5 [] m1 with
          | .ok r1, some (.ok x) => (match repairPasses exSmall true 5 [] r1 with
            | some (.ok y) => decide (r.nChips = 4 ∧ r'.nChips = 2 ∧ x.nChips = 2 ∧ y.chipList = x.chipList ∧
                m.oneWayLinks ≠ [] ∧ r'.chipList = x.chipList ∧ m1.oneWayLinks ≠ [])
            | _ => false)
          | _, _ => false)
      | _, _, _ => false)
    | _, _ => false) = true := by decide +kernel

/-! ### recorded parents -/

/-- chips (0,0), (0,1), (1,0) and (2,0), linked in a row; (1,0) has moreover a link into nowhere, and (2,0) as its
parent -/
def exRowOps : List Op :=
  [.addChip (exLinked 0 0 [⟨0, 0, 0, 1, 0⟩, ⟨0, 0, 2, 0, 1⟩] 0 0 (some ['a'])),
   .addChip (exLinked 0 1 [⟨0, 1, 5, 0, 0⟩] 0 0 none),
   .addChip { exLinked 1 0 [⟨1, 0, 3, 0, 0⟩, ⟨1, 0, 0, 2, 0⟩, ⟨1, 0, 1, 2, 1⟩] 0 0 none with parentLink := some 0 },
   .addChip (exLinked 2 0 [⟨2, 0, 3, 1, 0⟩] 0 0 none)]

/-- the machine with these chips -/
def exRow : Machine := (run exV5 (Machine.new .none 8 8 VKind.v5.chipCoreMap "t") exRowOps).1

/-- C99 needs that no parents are recorded: a repair that takes a link from a chip forgets its parent, so that the chip
outlives its parent if the repair comes first, and does not if the parent is taken out first. -/
theorem C99_parents_matter : ∃ m1 r r1 x y, machineIgnore exV5 exRow [(2, 0)] [] = .ok m1 ∧
    machineRepair exV5 true [] m1 = some (.ok x) ∧ machineRepair exV5 true [] exRow = some (.ok r) ∧
    machineIgnore exV5 r [(2, 0)] [] = .ok r1 ∧ machineRepair exV5 true [] r1 = some (.ok y) ∧
    x.isChipAt 1 0 = false ∧ y.isChipAt 1 0 = true := by
  have h : (match machineIgnore exV5 exRow [(2, 0)] [], repairPasses exV5 true 5 [] exRow with
    | .ok m1, some (.ok r) => (match repairPasses exV5 true 5 [] m1, machineIgnore exV5 r [(2, 0)] [] with
      | some (.ok x), .ok r1 => (match repairPasses exV5 true 5 [] r1 with
        | some (.ok y) => !x.isChipAt 1 0 && y.isChipAt 1 0
        | _ => false)
      | _, _ => false)
    | _, _ => false) = true := by decide +kernel
  split at h
  · rename_i m1 r e1 e2
    split at h
    · rename_i x r1 e3 e4
      split at h
      · rename_i y e5
        simp only [Bool.and_eq_true, Bool.not_eq_true'] at h
        exact ⟨m1, r, r1, x, y, e1, repairPasses_eq _ _ _ _ _ _ e3, repairPasses_eq _ _ _ _ _ _ e2, e4,
          repairPasses_eq _ _ _ _ _ _ e5, h.1, h.2⟩
      · simp at h
    · simp at h
  · simp at h

end SpiNN.Props
