import Verif.Spec.Same
import Verif.Props.Order
import Verif.Props.JsonRead
import Verif.Props.Json
import Verif.Props.Links

/-!
# A machine that is read back answers like the one that was written (C94)
-/

namespace SpiNN.Props
open SpiNN Spec

/-- the chip of `m'` that stands for `c` -/
def twin (m' : Machine) (c : Chip) : Chip := (m'.chips.get? c.xy).getD c

theorem twins {m m' : Machine} (r : Rep m m.chipList) (r' : Rep m' m'.chipList)
    (hk : m'.chipCoordinates = m.chipCoordinates)
    (hc : ∀ c ∈ m.chipList, ∃ c', m'.getChipAt c.x c.y = some c' ∧ SameChip c c') :
    m'.chipList = m.chipList.map (twin m') ∧ (∀ c ∈ m.chipList, SameChip c (twin m' c)) ∧
      ∀ p, m'.chips.get? p = (m.chips.get? p).map (twin m') := by
  have hs : ∀ c ∈ m.chipList, SameChip c (twin m' c) := by
    intro c h
    obtain ⟨c', h1, h2⟩ := hc c h
    unfold Machine.getChipAt at h1
    unfold twin
    rw [show c.xy = (c.x, c.y) from rfl, h1]
    exact h2
  have hkk : m'.chipList.map Chip.xy = m.chipList.map Chip.xy := by
    unfold Machine.chipCoordinates at hk
    rw [r.keys, r'.keys] at hk
    exact hk
  refine ⟨?_, hs, ?_⟩
  · apply List.ext_getElem
    · simpa using congrArg List.length hkk
    · intro i h1 h2
      have h3 : i < m.chipList.length := by simpa using h2
      rw [List.getElem_map]
      have hx : m'.chipList[i].xy = m.chipList[i].xy := by
        have := congrArg (fun l => l[i]?) hkk
        simpa [h1, h3] using this
      have hm := chip_at_of_mem r' (List.getElem_mem h1)
      unfold Machine.getChipAt at hm
      unfold twin
      rw [← hx, show m'.chipList[i].xy = (m'.chipList[i].x, m'.chipList[i].y) from rfl, hm]
      rfl
  · intro p
    cases h : m.chips.get? p with
    | some c =>
      obtain ⟨h1, h2⟩ := mem_of_chip_at r (x := p.1) (y := p.2) h
      obtain ⟨c', h3, -⟩ := hc c h1
      have h4 : c.xy = p := Prod.ext h2.1 h2.2
      have h3' : m'.chips.get? p = some c' := by
        rw [← h4]; exact h3
      simp only [Option.map_some, twin, h4, h3', Option.getD_some]
    | none =>
      cases h' : m'.chips.get? p with
      | none => rfl
      | some c' =>
        obtain ⟨h1, h2⟩ := mem_of_chip_at r' (x := p.1) (y := p.2) h'
        have : p ∈ m'.chipCoordinates := by
          unfold Machine.chipCoordinates
          rw [r'.keys]
          exact List.mem_map.2 ⟨c', h1, Prod.ext h2.1 h2.2⟩
        rw [hk] at this
        unfold Machine.chipCoordinates at this
        rw [r.keys, List.mem_map] at this
        obtain ⟨d, hd, rfl⟩ := this
        have := chip_at_of_mem r hd
        unfold Machine.getChipAt at this
        rw [show d.xy = (d.x, d.y) from rfl, this] at h
        simp at h

theorem map_same {α : Type} (f : Chip → α) (g : Chip → Chip) (l : List Chip)
    (h : ∀ c ∈ l, f (g c) = f c) : (l.map g).map f = l.map f := by
  rw [List.map_map]
  exact List.map_congr_left h

theorem filter_same (p : Chip → Bool) (q : Chip → Bool) (g : Chip → Chip) (l : List Chip)
    (h : ∀ c ∈ l, p (g c) = q c) : (l.map g).filter p = (l.filter q).map g := by
  rw [List.filter_map]
  congr 1
  exact List.filter_congr h

theorem SameChip.x {c c' : Chip} (h : SameChip c c') : c'.x = c.x := congrArg (·.1) h.xy
theorem SameChip.y {c c' : Chip} (h : SameChip c c') : c'.y = c.y := congrArg (·.2) h.xy
theorem SameChip.ex {c c' : Chip} (h : SameChip c c') : c'.ethX = c.ethX := congrArg (·.1) h.eth
theorem SameChip.ey {c c' : Chip} (h : SameChip c c') : c'.ethY = c.ethY := congrArg (·.2) h.eth
theorem SameChip.isLink {c c' : Chip} (h : SameChip c c') (i : Int) :
    c'.router.isLink i = c.router.isLink i := by
  have := h.links i
  unfold Router.getLink at this
  unfold Router.isLink PDict.contains
  rw [this]
theorem SameChip.nProc {c c' : Chip} (h : SameChip c c') : c'.nProcessors = c.nProcessors := by
  unfold Chip.nProcessors
  rw [h.scamp, h.placable]

/-- C94: two machines of the same size whose chips are the same (at the same places, in the same order,
the same attributes and the same links, in whatever order the links are stored) give the same answer to
every query. -/
theorem C94_same_answers (v : Version) (w h : Int) (m m' : Machine) (hr : Reachable v w h m)
    (hr' : Reachable v w h m') (hk : m'.chipCoordinates = m.chipCoordinates)
    (hc : ∀ c ∈ m.chipList, ∃ c', m'.getChipAt c.x c.y = some c' ∧ SameChip c c') :
    SameAnswers v m m' := by
  obtain ⟨hs, hwr, hw, hh, hcc, r⟩ := hr.rep
  obtain ⟨-, hwr', hw', hh', hcc', r'⟩ := hr'.rep
  have hpos := hs.pos
  obtain ⟨hl, ht, hg⟩ := twins r r' hk hc
  have hcon : m'.chips.contains = m.chips.contains := by
    funext p; unfold PDict.contains; rw [hg]; simp
  have hmem : ∀ p c, m.chips.get? p = some c → SameChip c (twin m' c) := fun p c hp =>
    ht c (mem_of_chip_at r (x := p.1) (y := p.2) hp).1
  have hlink : ∀ x y i, m'.isLinkAt x y i = m.isLinkAt x y i := by
    intro x y i
    unfold Machine.isLinkAt
    rw [hg]
    cases hx : m.chips.get? (x, y) with
    | none => rfl
    | some c => exact SameChip.isLink (hmem _ _ hx) i
  have heth : m'.ethernetChips = m.ethernetChips.map (twin m') := by
    rw [r.eths, r'.eths, hl]
    exact filter_same _ _ _ _ fun c h => by rw [(ht c h).ip]
  have hemem : ∀ e ∈ m.ethernetChips, e ∈ m.chipList := by
    intro e he; rw [r.eths] at he; exact (List.mem_filter.1 he).1
  have hboot : m'.bootAddr = m.bootAddr := by
    rw [(C20_ethernet_chips v w h m hr).2.2.1, (C20_ethernet_chips v w h m' hr').2.2.1]
    unfold Machine.getChipAt
    rw [hg]
    cases hx : m.chips.get? (0, 0) with
    | none => rfl
    | some c => exact (hmem _ _ hx).ip
  have htot : m'.totalCores = m.totalCores := by
    unfold Machine.totalCores
    rw [hl, map_same _ _ _ fun c h => SameChip.nProc (ht c h)]
  have hfx : ∀ x y i, m'.xyOverLink x y i = m.xyOverLink x y i := by
    intro x y i; unfold Machine.xyOverLink; rw [hwr, hwr', hw, hw', hh, hh']
  have hboard : ∀ ex ey, m'.xysByEthernet ex ey = m.xysByEthernet ex ey := by
    intro ex ey; unfold Machine.xysByEthernet; rw [hwr, hwr', hw, hw', hh, hh', hcc, hcc']
  exact {
    width := by rw [hw, hw']
    height := by rw [hh, hh']
    coordinates := hk
    nChips := by
      have := congrArg List.length hl
      simpa [Machine.nChips, Machine.chipList, PDict.values, PDict.size] using this
    isChipAt := fun x y => by unfold Machine.isChipAt; rw [hcon]
    isLinkAt := hlink
    bootAddr := hboot
    ethernets := by
      rw [heth, map_same]
      intro c h
      have := ht c (hemem c h)
      rw [SameChip.x this, SameChip.y this, this.ip]
    coresCount := by
      rw [← (C19_cores_count v w h m hr).2.1, ← (C19_cores_count v w h m' hr').2.1, htot]
    totalCores := htot
    userCores := by
      unfold Machine.totalAvailableUserCores
      rw [hl, map_same]
      intro c h
      unfold Chip.nPlacable
      rw [(ht c h).placable]
    routerEntries := by
      have hmax : ∀ n m1 m2, Reachable v w h m1 → Reachable v w h m2 →
          (m1.chipList.map fun c => c.router.nEntries) = (m2.chipList.map fun c => c.router.nEntries) →
          m1.minNRouterEnteries = .ok n → m2.minNRouterEnteries = .ok n := by
        intro n m1 m2 q1 q2 qp qn
        have key : ∀ {a b : Machine} {z : Int}, (a.chipList.map fun c => c.router.nEntries) =
            (b.chipList.map fun c => c.router.nEntries) → (∃ c ∈ a.chipList, c.router.nEntries = z) →
            ∃ c ∈ b.chipList, c.router.nEntries = z := by
          intro a b z e hz
          rw [← List.mem_map] at hz ⊢
          rwa [← e]
        obtain ⟨⟨c, hc, a1⟩, a2⟩ := C26_is_maximum v w h m1 q1 n qn
        obtain ⟨d, hd, d1⟩ := key qp ⟨c, hc, a1⟩
        obtain ⟨k, hk⟩ := (C26_total v w h m2 q2).2 (List.ne_nil_of_mem hd)
        obtain ⟨⟨c2, hc2, b1⟩, b2⟩ := C26_is_maximum v w h m2 q2 k hk
        obtain ⟨d2, hd2, d3⟩ := key qp.symm ⟨c2, hc2, b1⟩
        have := a2 d2 hd2
        have := b2 d hd
        have : n = k := by omega
        rw [this]; exact hk
      have herr : ∀ (m1 : Machine) e, m1.minNRouterEnteries = .error e → e = .indexError := by
        intro m1 e he
        unfold Machine.minNRouterEnteries pyIndex at he
        simp only [show (-1 : Int) < 0 by decide, if_true] at he
        split at he
        · simpa using he.symm
        · split at he <;> simp_all
      have hmm : (m'.chipList.map fun c => c.router.nEntries) = m.chipList.map fun c => c.router.nEntries := by
        rw [hl, map_same _ _ _ fun c h => (ht c h).entries]
      cases hn : m.minNRouterEnteries with
      | ok n => exact hmax n m m' hr hr' hmm.symm hn
      | error e =>
        cases hn' : m'.minNRouterEnteries with
        | ok n => rw [hmax n m' m hr' hr hmm hn'] at hn; simp at hn
        | error e' => rw [herr _ _ hn, herr _ _ hn']
    validate := by
      have hv : ∀ c ∈ m.chipList, Machine.validateChip v m' (twin m' c) = Machine.validateChip v m c := by
        intro c h
        have := ht c h
        unfold Machine.validateChip Machine.isChipAt Machine.getLocalXY
        rw [SameChip.x this, SameChip.y this, SameChip.ex this, SameChip.ey this, SameChip.nProc this, this.ip, hcon,
          hwr, hwr', hw, hw', hh, hh', hcc, hcc']
      have hvs : ∀ l : List Chip, (∀ c ∈ l, c ∈ m.chipList) →
          Machine.validateChips v m' (l.map (twin m')) = Machine.validateChips v m l := by
        intro l
        induction l with
        | nil => intro _; rfl
        | cons c cs ih =>
          intro hmem
          simp only [List.map_cons, Machine.validateChips]
          rw [hv c (hmem c List.mem_cons_self), ih fun d hd => hmem d (List.mem_cons_of_mem _ hd)]
      unfold Machine.validate
      rw [hboot, heth, hl, hvs _ fun c h => h, List.length_map]
    unused := by
      obtain ⟨p, hp, h1⟩ := C25_returns_first_unused m (by omega)
      obtain ⟨p', hp', h1'⟩ := C25_returns_first_unused m' (by omega)
      have hused : ∀ q, Used m' q ↔ Used m q := by
        intro q
        unfold Used Machine.isChipAt
        rw [hcon, heth]
        simp only [hboard]
        refine or_congr_right ⟨?_, ?_⟩
        · rintro ⟨e', he', hq⟩
          obtain ⟨e, he, rfl⟩ := List.mem_map.1 he'
          have := ht e (hemem e he)
          rw [SameChip.x this, SameChip.y this] at hq
          exact ⟨e, he, hq⟩
        · rintro ⟨e, he, hq⟩
          have := ht e (hemem e he)
          refine ⟨_, List.mem_map_of_mem he, ?_⟩
          rw [SameChip.x this, SameChip.y this]
          exact hq
      have : FirstUnused m p' := by
        unfold FirstUnused at h1' ⊢
        simpa only [hused, hh, hh'] using h1'
      rw [hp, hp', firstUnused_unique m p p' h1 this]
    outgoing := by
      unfold Machine.unreachableOutgoingChips
      simp only [hlink, hk]
    incoming := by
      unfold Machine.unreachableIncomingChips
      simp only [hlink, hk]
    outgoingLocal := by
      unfold Machine.unreachableOutgoingLocalChips
      rw [hl, filter_same _ (fun c => !(Machine.moves.any fun (link, mx, my) =>
          c.router.isLink link &&
            match m.chips.get? (c.x + mx, c.y + my) with
            | some n => decide (n.ethX = c.ethX) && decide (n.ethY = c.ethY)
            | none => false)), map_same]
      · rfl
      · intro c h
        exact (ht c (List.mem_filter.1 h).1).xy
      · intro c h
        have := ht c h
        congr 2
        funext a
        simp only [SameChip.isLink this, SameChip.x this, SameChip.y this, SameChip.ex this, SameChip.ey this, hg]
        cases hx : m.chips.get? (c.x + a.2.1, c.y + a.2.2) with
        | none => rfl
        | some n =>
          have := hmem _ _ hx
          simp only [Option.map_some, SameChip.ex this, SameChip.ey this]
    incomingLocal := by
      unfold Machine.unreachableIncomingLocalChips
      rw [hl, filter_same _ (fun c => !(Machine.incomingMoves.any fun (opposite, mx, my) =>
          match m.chips.get? (c.x + mx, c.y + my) with
            | some n => n.router.isLink opposite &&
                (decide (n.ethX = c.ethX) && decide (n.ethY = c.ethY))
            | none => false)), map_same]
      · rfl
      · intro c h
        exact (ht c (List.mem_filter.1 h).1).xy
      · intro c h
        have := ht c h
        congr 2
        funext a
        simp only [SameChip.x this, SameChip.y this, SameChip.ex this, SameChip.ey this, hg]
        cases hx : m.chips.get? (c.x + a.2.1, c.y + a.2.2) with
        | none => rfl
        | some n =>
          have := hmem _ _ hx
          simp only [Option.map_some, SameChip.isLink this, SameChip.ex this, SameChip.ey this]
    oneWay := by
      unfold Machine.oneWayLinks
      rw [hl, List.flatMap_map]
      have hf : ∀ (l : List Chip) (f g : Chip → List (Int × Int × Int × Int)), (∀ c ∈ l, f c = g c) →
          l.flatMap f = l.flatMap g := by
        intro l f g hfg
        induction l with
        | nil => rfl
        | cons c cs ih =>
          rw [List.flatMap_cons, List.flatMap_cons, hfg c List.mem_cons_self,
            ih fun d hd => hfg d (List.mem_cons_of_mem _ hd)]
      apply hf
      intro c h
      have := ht c h
      congr 1
      funext a
      simp only [this.links, SameChip.x this, SameChip.y this, hlink]
    overLink := hfx
    globalXY := fun x y ex ey => by unfold Machine.getGlobalXY; rw [hwr, hwr', hw, hw', hh, hh']
    board := hboard
    existing := fun ex ey => by
      unfold Machine.existingXysByEthernet; rw [hwr, hwr', hw, hw', hh, hh', hcc, hcc', hcon]
    down := fun ex ey => by
      unfold Machine.downXysByEthernet; rw [hwr, hwr', hw, hw', hh, hh', hcc, hcc', hcon] }

theorem flatMap_same {α : Type} (g : Chip → Chip) (f f' : Chip → List α) (l : List Chip)
    (h : ∀ c ∈ l, f (g c) = f' c) : (l.map g).flatMap f = l.flatMap f' := by
  induction l with
  | nil => rfl
  | cons c cs ih =>
    rw [List.map_cons, List.flatMap_cons, List.flatMap_cons, h c List.mem_cons_self,
      ih fun d hd => h d (List.mem_cons_of_mem _ hd)]

/-- the rows that are added to the link tables are the same -/
theorem same_rows (v : Version) (w h : Int) (m m' : Machine) (hr : Reachable v w h m)
    (hr' : Reachable v w h m') (hk : m'.chipCoordinates = m.chipCoordinates)
    (hc : ∀ c ∈ m.chipList, ∃ c', m'.getChipAt c.x c.y = some c' ∧ SameChip c c') :
    spinEntries v.kind m' m'.ethernetChips = spinEntries v.kind m m.ethernetChips ∧
    fpgaEntries v.kind m' m'.ethernetChips = fpgaEntries v.kind m m.ethernetChips := by
  have hsame := C94_same_answers v w h m m' hr hr' hk hc
  obtain ⟨-, -, -, -, -, r⟩ := hr.rep
  obtain ⟨-, -, -, -, -, r'⟩ := hr'.rep
  obtain ⟨hl, ht, hg⟩ := twins r r' hk hc
  have hmem : ∀ p c, m.chips.get? p = some c → SameChip c (twin m' c) := fun p c hp =>
    ht c (mem_of_chip_at r (x := p.1) (y := p.2) hp).1
  have heth : m'.ethernetChips = m.ethernetChips.map (twin m') := by
    rw [r.eths, r'.eths, hl]
    exact filter_same _ _ _ _ fun c h => by rw [(ht c h).ip]
  have hemem : ∀ e ∈ m.ethernetChips, e ∈ m.chipList := by
    intro e he; rw [r.eths] at he; exact (List.mem_filter.1 he).1
  rw [heth]
  constructor
  · unfold spinEntries
    refine flatMap_same _ _ _ _ fun e he => ?_
    have hs := ht e (hemem e he)
    rw [hs.ip]
    cases e.ip with
    | none => rfl
    | some ip =>
      simp only
      have : ∀ (l : List (Int × Int × Int)) (i : Int),
          spinEntriesBoard m' (twin m' e) ip i l = spinEntriesBoard m e ip i l := by
        intro l
        induction l with
        | nil => intro i; rfl
        | cons a r ih =>
          intro i
          simp only [spinEntriesBoard, ih]
          congr 1
          unfold spinRow Machine.getChipAt
          simp only [hsame.globalXY, SameChip.x hs, SameChip.y hs, hg]
          cases hx : m.chips.get? ((m.getGlobalXY a.1 a.2.1 e.x e.y).1, (m.getGlobalXY a.1 a.2.1 e.x e.y).2) with
          | none => rfl
          | some c => simp only [Option.map_some, SameChip.isLink (hmem _ _ hx)]
      exact this _ _
  · unfold fpgaEntries
    refine flatMap_same _ _ _ _ fun e he => ?_
    have hs := ht e (hemem e he)
    rw [hs.ip]
    cases e.ip with
    | none => rfl
    | some ip =>
      simp only
      congr 1
      funext a
      unfold fpgaRow Machine.getChipAt
      simp only [hsame.globalXY, SameChip.x hs, SameChip.y hs, hg]
      cases hx : m.chips.get? ((m.getGlobalXY a.1 a.2.1 e.x e.y).1, (m.getGlobalXY a.1 a.2.1 e.x e.y).2) with
      | none => rfl
      | some c => simp only [Option.map_some, SameChip.x (hmem _ _ hx), SameChip.y (hmem _ _ hx)]

theorem run_two (v : Version) (m : Machine) (ops : List Op) :
    (run v m (ops ++ [.addSpinnakerLinks, .addFpgaLinks])).1 =
      ((run v m ops).1.addSpinnakerLinks v).addFpgaLinks v := by
  rw [run_append]; rfl

/-- C94: the link tables of two machines with the same chips are the same as well, if in both cases the
links were added once, after the chips. -/
theorem C94_same_links (v : Version) (w h : Int) (o o' : String) (m₀ m₀' : Machine)
    (h₀ : v.kind.createMachine (some w) (some h) o = .ok m₀)
    (h₀' : v.kind.createMachine (some w) (some h) o' = .ok m₀') (ops ops' : List Op)
    (hops : ∀ op ∈ ops, noLinkTables op = true) (hops' : ∀ op ∈ ops', noLinkTables op = true) (m m' : Machine)
    (hm : m = (run v m₀ (ops ++ [.addSpinnakerLinks, .addFpgaLinks])).1)
    (hm' : m' = (run v m₀' (ops' ++ [.addSpinnakerLinks, .addFpgaLinks])).1)
    (hk : m'.chipCoordinates = m.chipCoordinates)
    (hc : ∀ c ∈ m.chipList, ∃ c', m'.getChipAt c.x c.y = some c' ∧ SameChip c c') :
    SameLinks m m' := by
  have hr : Reachable v w h m := ⟨_, _, _, h₀, hm⟩
  have hr' : Reachable v w h m' := ⟨_, _, _, h₀', hm'⟩
  have hsame := C94_same_answers v w h m m' hr hr' hk hc
  obtain ⟨t1, t2⟩ := C27_no_links_at_first v _ _ o m₀ h₀ ops hops
  obtain ⟨t1', t2'⟩ := C27_no_links_at_first v _ _ o' m₀' h₀' ops' hops'
  rw [run_two] at hm hm'
  have hq : Reachable v w h (run v m₀ ops).1 := ⟨_, _, _, h₀, rfl⟩
  have hq' : Reachable v w h (run v m₀' ops').1 := ⟨_, _, _, h₀', rfl⟩
  generalize (run v m₀ ops).1 = a at *
  generalize (run v m₀' ops').1 = a' at *
  have e : ∀ b : Machine, b.spinLinks = .empty → b.fpgaLinks = .empty →
      (b.addSpinnakerLinks v).addFpgaLinks v = { b with
        spinLinks := PDict.empty.setAll (spinEntries v.kind b b.ethernetChips)
        fpgaLinks := PDict.empty.setAll (fpgaEntries v.kind b b.ethernetChips) } := by
    intro b q1 q2
    rw [addFpgaLinks_eq, addSpinnakerLinks_eq, q1]
    simp only [q2]
    rfl
  rw [e a t1 t2] at hm
  rw [e a' t1' t2'] at hm'
  have hcl : m.chips = a.chips := by rw [hm]
  have hcl' : m'.chips = a'.chips := by rw [hm']
  obtain ⟨s1, s2⟩ := same_rows v w h a a' hq hq'
    (by unfold Machine.chipCoordinates at hk ⊢; rw [← hcl, ← hcl']; exact hk)
    (by
      unfold Machine.chipList Machine.getChipAt at hc ⊢
      rw [← hcl, ← hcl']; exact hc)
  have f1 : m'.spinLinks = m.spinLinks := by rw [hm, hm']; simp only [s1]
  have f2 : m'.fpgaLinks = m.fpgaLinks := by rw [hm, hm']; simp only [s2]
  have hcon : ∀ p, m'.chips.contains p = m.chips.contains p := fun p => hsame.isChipAt p.1 p.2
  refine ⟨fun i b p => ?_, fun f i b p => ?_, ?_⟩
  · unfold Machine.getSpinnakerLink; rw [f1, hsame.bootAddr]; simp only [hcon]
  · unfold Machine.getFpgaLink; rw [f2, hsame.bootAddr]; simp only [hcon]
  · unfold Machine.nFpgaLinks; rw [f2]

theorem map_addChip_noTables (l : List Chip) : ∀ op ∈ l.map Op.addChip, noLinkTables op = true := by
  intro op hop
  obtain ⟨c, -, rfl⟩ := List.mem_map.1 hop
  rfl

/-- C94: a machine that JSON can represent, written and read back, answers every query like the
original. If the original had its links added once after its chips, also every link lookup. -/
theorem C94_round_trip (v : Version) (w h : Int) (o : String) (m₀ m : Machine)
    (h₀ : v.kind.createMachine (some w) (some h) o = .ok m₀) (ops : List Op)
    (hops : ∀ op ∈ ops, noLinkTables op = true)
    (hm : m = (run v m₀ (ops ++ [.addSpinnakerLinks, .addFpgaLinks])).1)
    (hboot : m.isChipAt 0 0 = true) (hstd : m.nChips = 1 ∨ ∃ c ∈ m.chipList, c.ip = none)
    (hchips : ∀ c ∈ m.chipList, JsonChip m c) (htag : ∀ c ∈ m.chipList, c.tags.Nodup) :
    ∃ j m', toJson m = .ok j ∧ machineFromJson v j = .ok m' ∧ SameAnswers v m m' ∧ SameLinks m m' := by
  have hr : Reachable v w h m := ⟨_, _, _, h₀, hm⟩
  obtain ⟨j, m', h1, h2, h3, h4, -, h5, h6⟩ := C41_round_trip_partial v w h m hr hboot hstd hchips htag
  obtain ⟨-, -, q₀, g1, g2⟩ := C66_read v j m' h2
  obtain ⟨-, -, hw, hh, -, -⟩ := hr.rep
  rw [h3, h4, hw, hh] at g1
  exact ⟨j, m', h1, h2, C94_same_answers v w h m m' hr ⟨_, _, _, g1, g2⟩ h5 h6,
    C94_same_links v w h o "Json" m₀ q₀ h₀ g1 ops _ hops (map_addChip_noTables _) m m' hm g2 h5 h6⟩

/-- C94: a virtual machine of any version and size, with any chips and links down but no cores, that has
its boot chip and a chip that is not an Ethernet chip, written and read back, answers every query and
every link lookup like the original. -/
theorem C94_virtual_machines (v : Version) (cfg : DownCfg) (w h : Int) (validate : Bool) (m : Machine)
    (hm : virtualMachine v cfg w h validate = .ok m) (hcores : ∀ p q, ¬ CoreDown v.kind cfg p q)
    (hboot : m.isChipAt 0 0 = true) (hstd : m.nChips = 1 ∨ ∃ c ∈ m.chipList, c.ip = none) :
    ∃ j m', toJson m = .ok j ∧ machineFromJson v j = .ok m' ∧ SameAnswers v m m' ∧ SameLinks m m' := by
  obtain ⟨-, d, -, hr, -, ⟨m₀, h₀, g0⟩, -⟩ := vm_ok hm
  obtain ⟨j, m', h1, h2, h3, h4, -, h5, h6⟩ := C41_virtual_machines v cfg w h validate m hm hcores hboot hstd
  obtain ⟨-, -, q₀, g1, g2⟩ := C66_read v j m' h2
  obtain ⟨-, -, hw, hh, -, -⟩ := hr.rep
  rw [h3, h4, hw, hh] at g1
  exact ⟨j, m', h1, h2, C94_same_answers v w h m m' hr ⟨_, _, _, g1, g2⟩ h5 h6,
    C94_same_links v w h "Virtual" "Json" m₀ q₀ h₀ g1 [.addChips (vmChips v w h d)] _ (by simp [noLinkTables])
      (map_addChip_noTables _) m m' g0 g2 h5 h6⟩

/-- the hypotheses are met: a board with the chip (1, 1) and the link 0 of (3, 3) down -/
example : ∃ j m m', virtualMachine exV5 { chips := some "1,1".toList, links := some "3,3,0".toList } 8 8 true = .ok m ∧
    m.nChips = 47 ∧ m.isLinkAt 3 3 0 = false ∧ toJson m = .ok j ∧
    machineFromJson exV5 j = .ok m' ∧ SameAnswers exV5 m m' ∧ SameLinks m m' := by
  have hb : (match virtualMachine exV5 { chips := some "1,1".toList, links := some "3,3,0".toList } 8 8 true with
    | .ok m => m.isChipAt 0 0 && (m.chipList.any fun c => c.ip.isNone) && decide (m.nChips = 47) && !m.isLinkAt 3 3 0
    | .error _ => false) = true := by decide +kernel
  cases hv : virtualMachine exV5 { chips := some "1,1".toList, links := some "3,3,0".toList } 8 8 true with
  | error e => rw [hv] at hb; simp at hb
  | ok m =>
    rw [hv] at hb
    simp only [Bool.and_eq_true, List.any_eq_true, Option.isNone_iff_eq_none, decide_eq_true_eq, Bool.not_eq_true'] at hb
    obtain ⟨j, m', h1, h2, h3, h4⟩ := C94_virtual_machines exV5 _ 8 8 true m hv (by
      rintro p q ⟨l, hl, c, hc, -⟩
      have : IgnoreCore.parseString exV5.kind none = .ok [] := rfl
      rw [this] at hl
      simp only [Except.ok.injEq] at hl
      subst hl
      simp at hc) hb.1.1.1 (.inr hb.1.1.2)
    exact ⟨j, m, m', rfl, hb.1.2, hb.2, h1, h2, h3, h4⟩

end SpiNN.Props
