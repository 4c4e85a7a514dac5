import Verif.Spec.VirtualMachine
import Verif.Lemmas.VirtualMachine
import Verif.Lemmas.Counts
import Verif.Lemmas.Str
import Verif.Props.Links
import Verif.Props.Mesh
import Verif.Props.Ignores

/-!
# Virtual machines (C15-C17, C30-C35)
-/

namespace SpiNN.Props
open SpiNN Spec

/-! ### reading the settings -/

theorem ofCores_ok_iff (ps : List IgnoreCore) :
    (∃ r, Down.ofCores ps = .ok r) ↔ ∀ c ∈ ps, c.ip = none → ∃ q, c.virtualP = .ok q := by
  unfold Down.ofCores
  rw [mapE_exists]
  simp only [List.mem_filter, Option.isNone_iff_eq_none, and_imp]
  refine forall_congr' fun c => forall_congr' fun hc => forall_congr' fun hip => ?_
  cases c.virtualP <;> simp

theorem read_ok_iff (v : Version) (cfg : DownCfg) (w : Int) :
    (∃ d, Down.read v cfg w = .ok d) ↔ Readable v.kind cfg := by
  unfold Down.read Readable
  cases h1 : IgnoreChip.parseString cfg.chips with
  | error e => simp
  | ok cs =>
    cases h2 : IgnoreCore.parseString v.kind cfg.cores with
    | error e => simp
    | ok ps =>
      have := ofCores_ok_iff ps
      cases h3 : Down.ofCores ps with
      | error e => rw [h3] at this; simp only [h3]; simpa using fun _ _ => this
      | ok cores =>
        rw [h3] at this
        cases h4 : IgnoreLink.parseString cfg.links with
        | error e => simp [h3]
        | ok ls => simp only [h3]; simpa using this

theorem down_spec {v : Version} {cfg : DownCfg} {w h : Int} {d : Down} (hs : SizeOK v.kind w h)
    (hd : Down.read v cfg w = .ok d) :
    (∀ p, p ∈ d.chips ↔ ChipDown cfg p) ∧ (∀ p q, (p, q) ∈ d.cores ↔ CoreDown v.kind cfg p q) ∧
    (∀ (p : XY) (dir : Dir), InGrid w h p →
      ((p.1, p.2, dir.id) ∈ d.links ↔ LinkDown cfg p dir.id ∨ Unwired v.kind p dir)) := by
  unfold Down.read at hd
  cases h1 : IgnoreChip.parseString cfg.chips with
  | error e => rw [h1] at hd; simp at hd
  | ok cs =>
    cases h2 : IgnoreCore.parseString v.kind cfg.cores with
    | error e => rw [h1, h2] at hd; simp at hd
    | ok ps =>
      cases h3 : Down.ofCores ps with
      | error e => rw [h1, h2] at hd; simp [h3] at hd
      | ok cores =>
        cases h4 : IgnoreLink.parseString cfg.links with
        | error e => rw [h1, h2] at hd; simp [h3, h4] at hd
        | ok ls =>
          rw [h1, h2] at hd
          simp only [h3, h4, Except.ok.injEq] at hd
          subst hd
          refine ⟨fun p => ?_, fun p q => ?_, fun p dir hp => ?_⟩
          · simp only [ChipDown, h1, Except.ok.injEq, exists_eq_left', Down.ofChips, List.mem_map,
              List.mem_filter, Option.isNone_iff_eq_none]
            constructor
            · rintro ⟨c, ⟨hc, hip⟩, rfl⟩; exact ⟨c, hc, rfl, rfl, hip⟩
            · rintro ⟨c, hc, hx, hy, hip⟩; exact ⟨c, ⟨hc, hip⟩, Prod.ext hx hy⟩
          · simp only [CoreDown, h2, Except.ok.injEq, exists_eq_left']
            unfold Down.ofCores at h3
            rw [mapE_mem h3]
            simp only [List.mem_filter, Option.isNone_iff_eq_none]
            constructor
            · rintro ⟨c, ⟨hc, hip⟩, hq⟩
              cases hv : c.virtualP with
              | error e => rw [hv] at hq; simp at hq
              | ok q' =>
                rw [hv] at hq
                simp only [Except.ok.injEq, Prod.mk.injEq] at hq
                obtain ⟨rfl, rfl⟩ := hq
                exact ⟨c, hc, rfl, rfl, hv, hip⟩
            · rintro ⟨c, hc, hx, hy, hq, hip⟩
              exact ⟨c, ⟨hc, hip⟩, by simp [hq, hx, hy]⟩
          · simp only [LinkDown, h4, Except.ok.injEq, exists_eq_left', Down.ofLinks, List.mem_append,
              List.mem_map, List.mem_filter, Option.isNone_iff_eq_none, Prod.mk.injEq]
            refine or_congr ?_ ?_
            · constructor
              · rintro ⟨c, ⟨hc, hip⟩, hx, hy, hl⟩; exact ⟨c, hc, hx, hy, hl, hip⟩
              · rintro ⟨c, hc, hx, hy, hl, hip⟩; exact ⟨c, ⟨hc, hip⟩, hx, hy, hl⟩
            · have hw2 : w = 2 ↔ v.kind = .v3 := by
                cases hk : v.kind <;> rw [hk] at hs <;> simp only [SizeOK] at hs <;> simp <;> omega
              unfold Unwired
              by_cases hk : v.kind = .v3
              · rw [if_pos (hw2.2 hk)]
                have hs' := hs
                rw [hk] at hs'
                obtain ⟨rfl, rfl⟩ := hs'
                obtain ⟨x, y⟩ := p
                unfold InGrid at hp
                simp only at hp
                have hx : x = 0 ∨ x = 1 := by omega
                have hy : y = 0 ∨ y = 1 := by omega
                simp only [hk, true_and]
                rcases hx with rfl | rfl <;> rcases hy with rfl | rfl <;> cases dir <;> decide
              · rw [if_neg (fun h => hk (hw2.1 h))]
                simp [hk]

/-! ### what is known of a virtual machine -/

/-- the chips of a virtual machine -/
theorem vm_facts {v : Version} {cfg : DownCfg} {w h : Int} {validate : Bool} {m : Machine}
    (hm : virtualMachine v cfg w h validate = .ok m) :
    SizeOK v.kind w h ∧ Reachable v w h m ∧ m.wrap = v.kind.wrapFor w h ∧ m.width = w ∧ m.height = h ∧
    m.chipCoreMap = v.kind.chipCoreMap ∧ Rep m m.chipList ∧
    ∃ d, Down.read v cfg w = .ok d ∧ m.chipList = vmChips v w h d := by
  obtain ⟨hs, d, hd, hr, hc, -, -⟩ := vm_ok hm
  obtain ⟨-, h1, h2, h3, h4, h5⟩ := hr.rep
  exact ⟨hs, hr, h1, h2, h3, h4, h5, d, hd, hc⟩

theorem mem_vm_keys {v : Version} {w h : Int} (hs : SizeOK v.kind w h) (d : Down) (p : XY) :
    p ∈ (vmEntries v w h d).map (·.1) ↔ p ∉ d.chips ∧
      ∃ e ∈ v.kind.potentialEthernetChips w h, BoardAt v.kind (v.kind.wrapFor w h) w h e p := by
  have hpos := hs.pos
  simp only [vmEntries, List.mem_map, List.mem_filter, decide_eq_true_eq]
  have : p ∈ (vmPlaces v w h).map (·.1) ↔ ∃ e ∈ v.kind.potentialEthernetChips w h,
      BoardAt v.kind (v.kind.wrapFor w h) w h e p := by
    rw [vmPlaces_keys, List.mem_flatMap]
    simp only [mem_xysByEthernet_iff_boardAt v.kind _ hpos.1 hpos.2]
  rw [← this, List.mem_map]
  constructor
  · rintro ⟨a, ⟨ha, hd⟩, rfl⟩; exact ⟨hd, a, ha, rfl⟩
  · rintro ⟨hd, a, ha, rfl⟩; exact ⟨a, ⟨ha, hd⟩, rfl⟩

theorem isChipAt_iff {m : Machine} (r : Rep m m.chipList) (p : XY) :
    m.isChipAt p.1 p.2 = true ↔ p ∈ m.chipList.map Chip.xy := by
  rw [Machine.isChipAt, PDict.contains_iff, r.keys]

/-! ## C30 -/

/-- C30: a virtual machine has a chip exactly at the places of the boards of its Ethernet
positions that are not listed as down. -/
theorem C30_chips (v : Version) (cfg : DownCfg) (w h : Int) (validate : Bool) (m : Machine)
    (hm : virtualMachine v cfg w h validate = .ok m) (p : XY) :
    m.isChipAt p.1 p.2 = true ↔
      ¬ ChipDown cfg p ∧ ∃ e ∈ v.kind.potentialEthernetChips w h, BoardAt v.kind m.wrap w h e p := by
  obtain ⟨hs, hr, hwr, hw, hh, hcc, r, d, hd, hc⟩ := vm_facts hm
  rw [isChipAt_iff r, hc, vmChips_xy, mem_vm_keys hs, (down_spec hs hd).1, hwr]

/-- C30: Ethernet positions get the address 127.0.x.y, other chips none; no two chips have the
same address. -/
theorem C30_addresses (v : Version) (cfg : DownCfg) (w h : Int) (validate : Bool) (m : Machine)
    (hm : virtualMachine v cfg w h validate = .ok m) :
    (∀ c ∈ m.chipList,
      (c.xy ∈ v.kind.potentialEthernetChips w h →
        c.ip = some ("127.0.".toList ++ showInt c.x ++ ".".toList ++ showInt c.y)) ∧
      (c.xy ∉ v.kind.potentialEthernetChips w h → c.ip = none)) ∧
    (∀ c ∈ m.chipList, ∀ c' ∈ m.chipList, c.ip = c'.ip → c.ip ≠ none → c = c') := by
  obtain ⟨hs, hr, hwr, hw, hh, hcc, r, d, hd, hc⟩ := vm_facts hm
  have hip : ∀ c ∈ m.chipList, c.ip =
      if c.xy ∈ v.kind.potentialEthernetChips w h then some (virtualIp c.xy) else none := by
    intro c hcm
    rw [hc, vmChips, List.mem_map] at hcm
    obtain ⟨kv, -, rfl⟩ := hcm
    rfl
  refine ⟨fun c hcm => ⟨fun hp => ?_, fun hp => ?_⟩, fun c hcm c' hcm' heq hne => ?_⟩
  · rw [hip c hcm, if_pos hp]
    simp [virtualIp, Chip.xy]
  · rw [hip c hcm, if_neg hp]
  · rw [hip c hcm] at heq hne
    rw [hip c' hcm'] at heq
    by_cases hp : c.xy ∈ v.kind.potentialEthernetChips w h
    · by_cases hp' : c'.xy ∈ v.kind.potentialEthernetChips w h
      · rw [if_pos hp, if_pos hp', Option.some.injEq] at heq
        have hxy : c.xy = c'.xy := by
          unfold virtualIp at heq
          simp only [List.append_assoc, List.append_cancel_left_eq] at heq
          have hdot : ∀ i, '.' ∉ showInt i := fun i hmem => by
            rcases mem_showInt hmem with h | h
            · exact absurd h (by decide)
            · exact absurd h (by decide)
          have h1 := splitOn_append '.' (showInt c.xy.1) (showInt c.xy.2) (hdot _)
          have h2 := splitOn_append '.' (showInt c'.xy.1) (showInt c'.xy.2) (hdot _)
          rw [splitOn_of_not_mem _ _ (hdot _)] at h1 h2
          rw [heq, h2] at h1
          simp only [List.cons.injEq, and_true] at h1
          exact Prod.ext (showInt_inj h1.1.symm) (showInt_inj h1.2.symm)
        exact eq_of_nodup_map r.nodup hcm hcm' hxy
      · rw [if_pos hp, if_neg hp'] at heq; simp at heq
    · rw [if_neg hp] at hne; simp at hne

/-- C30: without validation, every supported size and every readable down setting gives a
machine; unsupported sizes raise SpinnMachineException. -/
theorem C30_succeeds (v : Version) (cfg : DownCfg) (w h : Int) :
    (SizeOK v.kind w h → Readable v.kind cfg → ∃ m, virtualMachine v cfg w h false = .ok m) ∧
    (¬ SizeOK v.kind w h → ∀ validate, virtualMachine v cfg w h validate = .error .machine) ∧
    (¬ Readable v.kind cfg → ∀ validate, ∃ e, virtualMachine v cfg w h validate = .error e) := by
  refine ⟨fun hs hread => ?_, fun hs validate => ?_, fun hread validate => ?_⟩
  · obtain ⟨d, hd⟩ := (read_ok_iff v cfg w).2 hread
    obtain ⟨m, -, -, -, h4⟩ := vm_build hs cfg d hd
    exact ⟨m, by rw [h4]; rfl⟩
  · unfold virtualMachine
    cases hv : v.kind.verifySize (some w) (some h) with
    | ok u =>
      obtain ⟨a, b, ha, hb, hs'⟩ := (verifySize_iff _ _ _).1 hv
      simp only [Option.some.injEq] at ha hb
      subst ha; subst hb
      exact absurd hs' hs
    | error e => simp only [verifySize_error _ _ _ _ hv]
  · cases hm : virtualMachine v cfg w h validate with
    | error e => exact ⟨e, rfl⟩
    | ok m =>
      obtain ⟨-, -, -, -, -, -, -, d, hd, -⟩ := vm_facts hm
      exact absurd ((read_ok_iff v cfg w).1 ⟨d, hd⟩) hread

/-- C30: the lookups of C27 and C28 apply to virtual machines: Ethernet chips have different
addresses and legal positions. -/
theorem C30_well_placed (v : Version) (cfg : DownCfg) (w h : Int) (validate : Bool) (m : Machine)
    (hm : virtualMachine v cfg w h validate = .ok m) : WellPlaced v.kind w h m := by
  obtain ⟨hs, hr, hwr, hw, hh, hcc, r, d, hd, hc⟩ := vm_facts hm
  obtain ⟨ha, hu⟩ := C30_addresses v cfg w h validate m hm
  have hmem : ∀ e ∈ m.ethernetChips, e ∈ m.chipList ∧ e.ip ≠ none := by
    intro e he
    rw [r.eths, List.mem_filter] at he
    exact ⟨he.1, by intro h; rw [h] at he; simp at he⟩
  refine ⟨fun e he f hf heq => hu e (hmem e he).1 f (hmem f hf).1 heq (hmem e he).2, fun e he => ?_⟩
  have hpot : e.xy ∈ v.kind.potentialEthernetChips w h := by
    by_cases hp : e.xy ∈ v.kind.potentialEthernetChips w h
    · exact hp
    · exact absurd ((ha e (hmem e he).1).2 hp) (hmem e he).2
  have := (mem_potential_iff hs _).1 hpot
  exact ⟨this.1, this.2.1⟩

/-! ## C31 -/

theorem vm_inGrid {v : Version} {w h : Int} (hs : SizeOK v.kind w h) (d : Down) {p : XY}
    (hp : p ∈ (vmEntries v w h d).map (·.1)) : InGrid w h p := by
  have hpos := hs.pos
  rw [mem_vm_keys hs] at hp
  obtain ⟨-, e, he, hb⟩ := hp
  rw [← mem_xysByEthernet_iff_boardAt v.kind _ hpos.1 hpos.2, mem_xysByEthernet] at hb
  obtain ⟨l, hl, rfl⟩ := hb
  exact board_inGrid hs he hl

/-- C31: a chip of a virtual machine has a link exactly if the link is not down (nor unwired) and
the chip it leads to is there; link ids are 0 to 5. -/
theorem C31_links (v : Version) (cfg : DownCfg) (w h : Int) (validate : Bool) (m : Machine)
    (hm : virtualMachine v cfg w h validate = .ok m) (c : Chip) (hc : c ∈ m.chipList) (i : Int) :
    HasLink c i ↔ ∃ dir : Dir, i = dir.id ∧ ¬ LinkDown cfg c.xy i ∧ ¬ Unwired v.kind c.xy dir ∧
      ∃ q : XY, m.xyOverLink c.x c.y i = .ok q ∧ m.isChipAt q.1 q.2 = true := by
  obtain ⟨hs, hr, hwr, hw, hh, hcc, r, d, hd, hcl⟩ := vm_facts hm
  have hpos := hs.pos
  subst hw; subst hh
  have hc' := hc
  rw [hcl, vmChips, List.mem_map] at hc'
  obtain ⟨kv, hkv, rfl⟩ := hc'
  have hgrid := vm_inGrid hs d (List.mem_map_of_mem hkv)
  have hl := fun dir => (down_spec hs hd).2.2 kv.1 dir hgrid
  have hx : (vmChip v m.width m.height d kv).x = kv.1.1 := rfl
  have hy : (vmChip v m.width m.height d kv).y = kv.1.2 := rfl
  rw [vmChip_xy, hx, hy]
  have hlinks : HasLink (vmChip v m.width m.height d kv) i ↔
      i ∈ (vmLinks v m.width m.height d kv.1).map Link.sourceLinkId := by
    simp [HasLink, vmChip, Chip.mk', Router.iter]
  rw [hlinks]
  unfold vmLinks
  simp only [List.mem_map, List.mem_filterMap]
  constructor
  · rintro ⟨l, ⟨dir, -, hif⟩, rfl⟩
    split at hif
    · rename_i hcond
      simp only [Option.some.injEq] at hif
      subst hif
      simp only
      have h1 : ¬ (LinkDown cfg kv.1 dir.id ∨ Unwired v.kind kv.1 dir) := fun h => hcond.1 ((hl dir).2 h)
      refine ⟨dir, rfl, fun h => h1 (.inl h), fun h => h1 (.inr h), _,
        xyOverLink_dir m hpos.1 hpos.2 kv.1 dir, ?_⟩
      rw [isChipAt_iff r, hcl, vmChips_xy, hwr]
      exact List.mem_map.2 hcond.2
    · simp at hif
  · rintro ⟨dir, rfl, h1, h2, q, hq, hqc⟩
    rw [xyOverLink_dir m hpos.1 hpos.2 kv.1 dir, Except.ok.injEq] at hq
    subst hq
    rw [isChipAt_iff r, hcl, vmChips_xy, hwr] at hqc
    refine ⟨_, ⟨dir, mem_allDirs dir, if_pos ⟨fun h => ?_, List.mem_map.1 hqc⟩⟩, rfl⟩
    rcases (hl dir).1 h with h | h
    · exact h1 h
    · exact h2 h

/-- C31: links start at their chip and lead where `xy_over_link` says. -/
theorem C31_destinations (v : Version) (cfg : DownCfg) (w h : Int) (validate : Bool) (m : Machine)
    (hm : virtualMachine v cfg w h validate = .ok m) (c : Chip) (hc : c ∈ m.chipList) (i : Int) (l : Link)
    (hl : c.router.getLink i = some l) :
    l.sourceLinkId = i ∧ l.sourceX = c.x ∧ l.sourceY = c.y ∧
      m.xyOverLink c.x c.y i = .ok (l.destX, l.destY) := by
  obtain ⟨hs, hr, hwr, hw, hh, hcc, r, d, hd, hcl⟩ := vm_facts hm
  have hpos := hs.pos
  subst hw; subst hh
  rw [hcl, vmChips, List.mem_map] at hc
  obtain ⟨kv, hkv, rfl⟩ := hc
  have hmem := PDict.get?_mem hl
  simp only [vmChip, Chip.mk', List.mem_map, Prod.mk.injEq] at hmem
  obtain ⟨l', hl', hi, rfl⟩ := hmem
  unfold vmLinks at hl'
  rw [List.mem_filterMap] at hl'
  obtain ⟨dir, -, hif⟩ := hl'
  simp only at hif
  split at hif
  · simp only [Option.some.injEq] at hif
    subst hif
    simp only at hi
    subst hi
    refine ⟨rfl, rfl, rfl, ?_⟩
    rw [← hwr]
    exact xyOverLink_dir m hpos.1 hpos.2 kv.1 dir
  · simp at hif

theorem unwired_symm {k : VKind} {w h : Int} (hs : SizeOK k w h) {p : XY} (hp : InGrid w h p) (dir : Dir) :
    Unwired k ((k.wrapFor w h).red w h (p.1 + dir.dx, p.2 + dir.dy)) (revDir dir) ↔ Unwired k p dir := by
  unfold Unwired
  by_cases hk : k = .v3
  · subst hk
    obtain ⟨rfl, rfl⟩ := hs
    obtain ⟨x, y⟩ := p
    unfold InGrid at hp
    simp only at hp
    have hx : x = 0 ∨ x = 1 := by omega
    rcases hx with rfl | rfl <;> cases dir <;>
      simp [VKind.wrapFor, Wrap.red, Dir.dx, revDir, pmod_eq_emod]
  · simp [hk]

/-- C31: if for every chip a down link is down at both ends, no link of the virtual machine is
one-way. -/
theorem C31_no_one_way (v : Version) (cfg : DownCfg) (w h : Int) (validate : Bool) (m : Machine)
    (hm : virtualMachine v cfg w h validate = .ok m)
    (hsym : ∀ c ∈ m.chipList, ∀ (dir : Dir) (q : XY), LinkDown cfg c.xy dir.id →
      m.xyOverLink c.x c.y dir.id = .ok q → m.isChipAt q.1 q.2 = true →
      LinkDown cfg q (Router.opposite dir.id)) :
    m.oneWayLinks = [] := by
  obtain ⟨hs, hr, hwr, hw, hh, hcc, r, d, hd, hcl⟩ := vm_facts hm
  have hpos := hs.pos
  rw [List.eq_nil_iff_forall_not_mem]
  rintro ⟨x, y, out, back⟩ hmem
  obtain ⟨c, dir, l, hc, rfl, rfl, hl, hno⟩ := (C24_one_way_links v w h m hr x y out back).1 hmem
  obtain ⟨hcm, rfl, rfl⟩ := mem_of_chip_at r hc
  obtain ⟨-, -, -, hover⟩ := C31_destinations v cfg w h validate m hm c hcm dir.id l hl
  have hhas : HasLink c dir.id := by
    unfold HasLink
    exact List.mem_map.2 ⟨_, PDict.get?_mem hl, rfl⟩
  obtain ⟨dir', hdir, hnd, hnu, q, hq, hqc⟩ := (C31_links v cfg w h validate m hm c hcm dir.id).1 hhas
  have : dir = dir' := by revert hdir; cases dir <;> cases dir' <;> simp [Dir.id]
  subst this
  have heq : q = (l.destX, l.destY) := by rw [hover] at hq; exact (Except.ok.inj hq).symm
  subst heq
  simp only at hqc
  rw [isChipAt_iff r (l.destX, l.destY), List.mem_map] at hqc
  obtain ⟨n, hn, hnxy⟩ := hqc
  have hnx : n.x = l.destX := congrArg Prod.fst hnxy
  have hny : n.y = l.destY := congrArg Prod.snd hnxy
  subst hw; subst hh
  have hgrid : InGrid m.width m.height c.xy := vm_inGrid hs d (by
    rw [← vmChips_xy, ← hcl]; exact List.mem_map_of_mem hcm)
  have hin : InRange m.wrap m.width m.height c.xy := by
    unfold InGrid at hgrid; unfold InRange
    exact ⟨fun _ => ⟨hgrid.1, hgrid.2.1⟩, fun _ => ⟨hgrid.2.2.1, hgrid.2.2.2⟩⟩
  obtain ⟨q', hq1, hq2⟩ := C01_over_link_and_back m.wrap m.width m.height hpos.1 hpos.2 c.xy hin dir.id
    (by cases dir <;> decide) (by cases dir <;> decide)
  have : q' = (l.destX, l.destY) := by
    have h1 : m.wrap.xyOverLink m.width m.height c.x c.y dir.id = .ok (l.destX, l.destY) := hover
    rw [show c.xy.1 = c.x from rfl, show c.xy.2 = c.y from rfl, h1] at hq1
    exact (Except.ok.inj hq1).symm
  subst this
  have hrev : Router.opposite dir.id = (revDir dir).id := (revDir_spec dir).1.symm
  have hback : m.xyOverLink n.x n.y (Router.opposite dir.id) = .ok c.xy := by rw [hnx, hny]; exact hq2
  refine hno ⟨n, by rw [← hnx, ← hny]; exact chip_at_of_mem r hn, ?_⟩
  rw [C31_links v cfg _ _ validate m hm n hn]
  refine ⟨revDir dir, hrev, fun hdown => ?_, fun hun => ?_, c.xy, hback, ?_⟩
  · rw [hrev] at hdown hback
    have := hsym n hn (revDir dir) c.xy hdown hback
      ((isChipAt_iff r c.xy).2 (List.mem_map_of_mem hcm))
    rw [show Router.opposite (revDir dir).id = dir.id by cases dir <;> decide] at this
    exact hnd this
  · refine hnu ((unwired_symm hs hgrid dir).1 ?_)
    rw [hnxy] at hun
    have h2 := xyOverLink_dir m hpos.1 hpos.2 c.xy dir
    rw [show c.xy.1 = c.x from rfl, show c.xy.2 = c.y from rfl, hover, Except.ok.injEq, hwr] at h2
    rw [h2] at hun
    exact hun
  · exact (isChipAt_iff r c.xy).2 (List.mem_map_of_mem hcm)

/-! ## C32 -/

theorem foldl_erase_spec (rm l : List Int) (hn : l.Nodup) :
    (rm.foldl (fun cores c => if c ∈ cores then cores.erase c else cores) l).Sublist l ∧
    ∀ p, p ∈ rm.foldl (fun cores c => if c ∈ cores then cores.erase c else cores) l ↔ p ∈ l ∧ p ∉ rm := by
  induction rm generalizing l with
  | nil => simp
  | cons a t ih =>
    rw [List.foldl_cons]
    by_cases ha : a ∈ l
    · rw [if_pos ha]
      obtain ⟨h1, h2⟩ := ih (l.erase a) (hn.erase a)
      refine ⟨h1.trans List.erase_sublist, fun p => ?_⟩
      rw [h2, hn.mem_erase_iff, List.mem_cons]
      constructor
      · rintro ⟨⟨h3, h4⟩, h5⟩; exact ⟨h4, fun h => h.elim h3 h5⟩
      · rintro ⟨h3, h4⟩; exact ⟨⟨fun h => h4 (.inl h), h3⟩, fun h => h4 (.inr h)⟩
    · rw [if_neg ha]
      obtain ⟨h1, h2⟩ := ih l hn
      refine ⟨h1, fun p => ?_⟩
      rw [h2, List.mem_cons]
      constructor
      · rintro ⟨h3, h4⟩; exact ⟨h3, fun h => h.elim (fun h => ha (h ▸ h3)) h4⟩
      · rintro ⟨h3, h4⟩; exact ⟨h3, fun h => h4 (.inr h)⟩

theorem pyRange2_sorted (a b : Int) : (pyRange2 a b).Pairwise (· < ·) := by
  unfold pyRange2
  rw [List.pairwise_map]
  exact List.pairwise_lt_range.imp (fun h => by omega)

theorem chipCores_spec (d : Down) (p : XY) (n : Int) :
    (chipCores d p n).Pairwise (· < ·) ∧
    ∀ q, q ∈ chipCores d p n ↔ (1 ≤ q ∧ q < n) ∧ (p, q) ∉ d.cores := by
  have hs := pyRange2_sorted 1 n
  have hn : (pyRange2 1 n).Nodup := hs.imp (fun h => by omega)
  obtain ⟨h1, h2⟩ := foldl_erase_spec ((d.cores.filter fun c => c.1 = p).map (·.2)) (pyRange2 1 n) hn
  refine ⟨hs.sublist h1, fun q => ?_⟩
  unfold chipCores
  rw [h2, mem_pyRange2]
  refine and_congr_right fun _ => not_congr ?_
  simp only [List.mem_map, List.mem_filter, decide_eq_true_eq]
  constructor
  · rintro ⟨⟨a, b⟩, ⟨hab, rfl⟩, rfl⟩; exact hab
  · intro hq; exact ⟨(p, q), ⟨hq, rfl⟩, rfl⟩

theorem localXY_board {k : VKind} {w h : Int} (hs : SizeOK k w h) (e l : XY) (hl : OnBoard k l) :
    (k.wrapFor w h).localXY w h ((k.wrapFor w h).red w h (l.1 + e.1, l.2 + e.2)).1
      ((k.wrapFor w h).red w h (l.1 + e.1, l.2 + e.2)).2 e.1 e.2 = l := by
  have hpos := hs.pos
  have hlt := onBoard_lt hs l hl
  have hl0 : 0 ≤ l.1 ∧ 0 ≤ l.2 := by
    cases k <;> simp only [OnBoard, OnBoard48] at hl
    · exact ⟨hl.1, hl.2.2.1⟩
    · exact ⟨hl.1, hl.2.2.1⟩
    · subst hl; simp
    · exact ⟨hl.1, hl.2.2.1⟩
  refine C07_local_of_global _ w h hpos.1 hpos.2 l.1 l.2 e.1 e.2 ?_ _ _ ?_
  · exact ⟨fun _ => ⟨hl0.1, hlt.1⟩, fun _ => ⟨hl0.2, hlt.2⟩⟩
  · rw [Wrap.globalXY_eq]

/-- C32: the cores of a chip of a virtual machine: the monitor 0 and, in ascending order, 1 up to
the typical number of the chip's place on its board or the configured maximum, without those
down. -/
theorem C32_cores (v : Version) (cfg : DownCfg) (w h : Int) (validate : Bool) (m : Machine)
    (hm : virtualMachine v cfg w h validate = .ok m) (c : Chip) (hc : c ∈ m.chipList) :
    ∃ n, v.kind.chipCoreMap.get? (m.getLocalXY c) = some n ∧ c.scamp = [0] ∧
      c.placable.Pairwise (· < ·) ∧
      ∀ q, q ∈ c.placable ↔ 1 ≤ q ∧ q < n ∧ q < v.maxCores ∧ ¬ CoreDown v.kind cfg c.xy q := by
  obtain ⟨hs, hr, hwr, hw, hh, hcc, r, d, hd, hcl⟩ := vm_facts hm
  rw [hcl, vmChips, List.mem_map] at hc
  obtain ⟨⟨p, e, n⟩, hkv, rfl⟩ := hc
  obtain ⟨he, hp, l, k, hl, hn, hpl⟩ := (mem_vmEntries v w h d p e n).1 hkv
  have hon : OnBoard v.kind l := (mem_chipCoreMap_iff _ _).1 ((PDict.mem_keys_iff l).2 ⟨k, hl⟩)
  obtain ⟨h1, h2⟩ := chipCores_spec d p n
  refine ⟨k, ?_, rfl, h1, fun q => ?_⟩
  · rw [show m.getLocalXY (vmChip v w h d (p, e, n)) = l from ?_]
    · exact hl
    · unfold Machine.getLocalXY
      rw [hwr, hw, hh]
      simp only [vmChip, Chip.mk']
      rw [hpl]
      exact localXY_board hs e l hon
  · rw [show (vmChip v w h d (p, e, n)).placable = chipCores d p n from rfl, h2, vmChip_xy, hn,
      (down_spec hs hd).2.1]
    simp only [and_assoc, Int.lt_min]

/-! ## C34 -/

/-- C34: the nearest Ethernet chip of a chip of a virtual machine is the Ethernet position whose
board holds it, its local coordinate is its place on that board, and
`get_existing_xys_on_board` gives exactly the chips with the same nearest Ethernet chip. -/
theorem C34_board (v : Version) (cfg : DownCfg) (w h : Int) (validate : Bool) (m : Machine)
    (hm : virtualMachine v cfg w h validate = .ok m) (c : Chip) (hc : c ∈ m.chipList) :
    (c.ethX, c.ethY) ∈ v.kind.potentialEthernetChips w h ∧
    BoardAt v.kind m.wrap w h (c.ethX, c.ethY) c.xy ∧
    OnBoard v.kind (m.getLocalXY c) ∧
    Same m.wrap w h (c.ethX + (m.getLocalXY c).1, c.ethY + (m.getLocalXY c).2) c.xy ∧
    c.xy ∈ m.existingXysOnBoard c ∧
    ∀ p, p ∈ m.existingXysOnBoard c ↔
      ∃ c' ∈ m.chipList, c'.xy = p ∧ c'.ethX = c.ethX ∧ c'.ethY = c.ethY := by
  obtain ⟨hs, hr, hwr, hw, hh, hcc, r, d, hd, hcl⟩ := vm_facts hm
  have hpos := hs.pos
  have hat : ∀ c ∈ m.chipList, (c.ethX, c.ethY) ∈ v.kind.potentialEthernetChips w h ∧
      ∃ l, OnBoard v.kind l ∧ m.getLocalXY c = l ∧
        c.xy = (v.kind.wrapFor w h).red w h (l.1 + c.ethX, l.2 + c.ethY) := by
    intro c hc
    rw [hcl, vmChips, List.mem_map] at hc
    obtain ⟨⟨p, e, n⟩, hkv, rfl⟩ := hc
    obtain ⟨he, hp, l, k, hl, hn, hpl⟩ := (mem_vmEntries v w h d p e n).1 hkv
    have hon : OnBoard v.kind l := (mem_chipCoreMap_iff _ _).1 ((PDict.mem_keys_iff l).2 ⟨k, hl⟩)
    refine ⟨he, l, hon, ?_, hpl⟩
    unfold Machine.getLocalXY
    rw [hwr, hw, hh]
    simp only [vmChip, Chip.mk']
    rw [hpl]
    exact localXY_board hs e l hon
  obtain ⟨he, l, hon, hloc, hxy⟩ := hat c hc
  have hboard : BoardAt v.kind m.wrap w h (c.ethX, c.ethY) c.xy := by
    rw [hwr, ← mem_xysByEthernet_iff_boardAt v.kind _ hpos.1 hpos.2, mem_xysByEthernet]
    exact ⟨l, hon, hxy.symm⟩
  have hex : ∀ p, p ∈ m.existingXysOnBoard c ↔
      ∃ c' ∈ m.chipList, c'.xy = p ∧ c'.ethX = c.ethX ∧ c'.ethY = c.ethY := by
    intro p
    rw [Machine.existingXysOnBoard, (C08_existing_and_down m _ _ p).1, Machine.xysByEthernet, hwr, hw, hh,
      hcc, mem_xysByEthernet v.kind _ w h (c.ethX, c.ethY) p, Machine.containsXY, PDict.contains_iff, r.keys,
      List.mem_map]
    constructor
    · rintro ⟨⟨l', hl', hp⟩, c', hc', rfl⟩
      obtain ⟨he', l2, hon2, -, hxy2⟩ := hat c' hc'
      have := (board_unique hs he he' hl' hon2 (hp.trans hxy2)).1
      simp only [Prod.mk.injEq] at this
      exact ⟨c', hc', rfl, this.1.symm, this.2.symm⟩
    · rintro ⟨c', hc', rfl, h1, h2⟩
      obtain ⟨he', l2, hon2, -, hxy2⟩ := hat c' hc'
      rw [h1, h2] at hxy2
      exact ⟨⟨l2, hon2, hxy2.symm⟩, c', hc', rfl⟩
  refine ⟨he, hboard, by rw [hloc]; exact hon, ?_, (hex _).2 ⟨c, hc, rfl, rfl, rfl⟩, hex⟩
  rw [hloc, hwr, hxy, Int.add_comm c.ethX, Int.add_comm c.ethY]
  exact Wrap.red_same _ hpos.1 hpos.2 _

/-! ## C33 -/

theorem minimum_le_typical (k : VKind) : ∀ n ∈ k.chipCoreMap.values,
    (if k = .v3 ∨ k = .v5 then 5 else 100) ≤ n := by
  cases k <;> decide +kernel

theorem virtualIp_ne (p : XY) : virtualIp p ≠ [] := by simp [virtualIp]

theorem potential_single {k : VKind} (hk : k = .v3 ∨ k = .v201) (w h : Int) :
    k.potentialEthernetChips w h = [(0, 0)] := by rcases hk with rfl | rfl <;> rfl

/-- C33: a virtual machine passes `validate` exactly if the chip (0, 0) is there, no Ethernet chip
is down while other chips of its board are left, and every chip has the minimum number of cores. -/
theorem C33_validates_iff (v : Version) (cfg : DownCfg) (w h : Int) (m : Machine)
    (hm : virtualMachine v cfg w h false = .ok m) :
    virtualMachine v cfg w h true = .ok m ↔
      ¬ ChipDown cfg (0, 0) ∧
      (∀ e ∈ v.kind.potentialEthernetChips w h, ChipDown cfg e →
        ∀ p, BoardAt v.kind m.wrap w h e p → ChipDown cfg p) ∧
      ∀ c ∈ m.chipList, (if v.kind = .v3 ∨ v.kind = .v5 then 5 else 100) ≤ c.allProcessorIds.length := by
  obtain ⟨hs, hr, hwr, hw, hh, hcc, r, d, hd, hcl⟩ := vm_facts hm
  have hpos := hs.pos
  have h30 := C30_chips v cfg w h false m hm
  obtain ⟨hip, -⟩ := C30_addresses v cfg w h false m hm
  have h34 := C34_board v cfg w h false m hm
  have horig := C13_origin_is_potential v.kind w h hs
  have hvm : virtualMachine v cfg w h true = .ok m ↔ m.validate v = .ok () := by
    obtain ⟨m1, -, -, -, h4⟩ := vm_build hs cfg d hd
    have hf := h4 false
    have ht := h4 true
    simp only [Bool.false_eq_true, if_false, if_true] at hf ht
    rw [hm] at hf
    cases hf
    rw [ht]
    cases hv : Machine.validate v m with
    | error e => simp
    | ok u => simp
  rw [hvm, C21_validate_exact v w h m hr]
  have hselfboard : ∀ e ∈ v.kind.potentialEthernetChips w h, BoardAt v.kind m.wrap w h e e := by
    intro e he
    rw [hwr, ← mem_xysByEthernet_iff_boardAt v.kind _ hpos.1 hpos.2, mem_xysByEthernet]
    refine ⟨(0, 0), onBoard_origin _, ?_⟩
    have hg := ((mem_potential_iff hs e).1 he).2.1
    unfold InGrid at hg
    simp only [Int.zero_add]
    exact Wrap.red_of_inRange _ (p := (e.1, e.2)) ⟨fun _ => ⟨hg.1, hg.2.1⟩, fun _ => ⟨hg.2.2.1, hg.2.2.2⟩⟩
  have hboardmem : ∀ e ∈ v.kind.potentialEthernetChips w h, ¬ ChipDown cfg e → m.isChipAt e.1 e.2 = true :=
    fun e he hd => (h30 e).2 ⟨hd, e, he, hselfboard e he⟩
  have hget : ∀ e : XY, m.isChipAt e.1 e.2 = true ↔ ∃ c, m.getChipAt e.1 e.2 = some c := by
    intro e
    rw [Machine.isChipAt, PDict.contains, Option.isSome_iff_exists]; rfl
  constructor
  · rintro ⟨⟨c0, hc0, hip0⟩, -, hall⟩
    have h00 : m.isChipAt 0 0 = true := (hget (0, 0)).2 ⟨c0, hc0⟩
    refine ⟨((h30 (0, 0)).1 h00).1, fun e he hde p hp => ?_, fun c hc => (hall c hc).2.1⟩
    by_cases hpd : ChipDown cfg p
    · exact hpd
    · exfalso
      have hpc : m.isChipAt p.1 p.2 = true := (h30 p).2 ⟨hpd, e, he, hp⟩
      obtain ⟨c, hc, rfl⟩ := List.mem_map.1 ((isChipAt_iff r p).1 hpc)
      obtain ⟨he', hb', -⟩ := h34 c hc
      have hsame : (c.ethX, c.ethY) = e := by
        rw [hwr, ← mem_xysByEthernet_iff_boardAt v.kind _ hpos.1 hpos.2, mem_xysByEthernet] at hb' hp
        obtain ⟨l1, hl1, h1⟩ := hb'
        obtain ⟨l2, hl2, h2⟩ := hp
        exact (board_unique hs he' he hl1 hl2 (h1.trans h2.symm)).1
      have hnot : c.xy ∉ v.kind.potentialEthernetChips w h := by
        intro hcp
        have := hselfboard c.xy hcp
        rw [hwr, ← mem_xysByEthernet_iff_boardAt v.kind _ hpos.1 hpos.2, mem_xysByEthernet] at this hp
        obtain ⟨l1, hl1, h1⟩ := this
        obtain ⟨l2, hl2, h2⟩ := hp
        have := (board_unique hs hcp he hl1 hl2 (h1.trans h2.symm)).1
        rw [this] at hpd
        exact hpd hde
      have hnone := (hip c hc).2 hnot
      obtain ⟨hex, -⟩ := (hall c hc).2.2.2 (.inl hnone)
      have := (h30 (c.ethX, c.ethY)).1 ((hget (c.ethX, c.ethY)).2 hex)
      rw [hsame] at this
      exact this.1 hde
  · rintro ⟨h0, heths, hcores⟩
    have h00 := hboardmem (0, 0) horig h0
    obtain ⟨c0, hc0⟩ := (hget (0, 0)).1 h00
    obtain ⟨hc0m, hx0, hy0⟩ := mem_of_chip_at r hc0
    have hc0xy : c0.xy = (0, 0) := Prod.ext hx0 hy0
    refine ⟨⟨c0, hc0, ?_⟩, fun hk => ?_, fun c hc => ⟨?_, hcores c hc, fun hipc => ?_, fun hipc => ⟨?_, ?_⟩⟩⟩
    · rw [(hip c0 hc0m).1 (by rw [hc0xy]; exact horig)]
      simp
    · have hsub : (m.ethernetChips.map Chip.xy).Nodup := by
        rw [r.eths]
        exact r.nodup.sublist (List.Sublist.map _ List.filter_sublist)
      have hz : ∀ p ∈ m.ethernetChips.map Chip.xy, p = (0, 0) := by
        intro p hp
        obtain ⟨e, he, rfl⟩ := List.mem_map.1 hp
        rw [r.eths, List.mem_filter] at he
        by_cases hep : e.xy ∈ v.kind.potentialEthernetChips w h
        · rw [potential_single hk] at hep; simpa using hep
        · rw [(hip e he.1).2 hep] at he; simp at he
      have hlen : m.ethernetChips.length = (m.ethernetChips.map Chip.xy).length := by simp
      rw [hlen]
      generalize m.ethernetChips.map Chip.xy = l at *
      match l, hsub, hz with
      | [], _, _ => simp
      | [_], _, _ => simp
      | a :: b :: t, hsub, hz =>
        have h1 := hz a (by simp)
        have h2 := hz b (by simp)
        rw [h1, h2] at hsub
        simp at hsub
    · refine vm_inGrid hs d ?_
      rw [← vmChips_xy, ← hcl]; exact List.mem_map_of_mem hc
    · by_cases hcp : c.xy ∈ v.kind.potentialEthernetChips w h
      · exact ((mem_potential_iff hs _).1 hcp).1
      · exact absurd ((hip c hc).2 hcp) hipc.1
    · obtain ⟨he, hb, -⟩ := h34 c hc
      rw [← hget (c.ethX, c.ethY)]
      refine hboardmem _ he fun hde => ?_
      have hcat : m.isChipAt c.xy.1 c.xy.2 = true := (isChipAt_iff r c.xy).2 (List.mem_map_of_mem hc)
      exact ((h30 c.xy).1 hcat).1 (heths _ he hde c.xy hb)
    · exact (h34 c hc).2.1

/-- number of cores of a chip without down cores -/
theorem chip_cores_length {v : Version} {cfg : DownCfg} {w h : Int} {validate : Bool} {m : Machine}
    (hm : virtualMachine v cfg w h validate = .ok m) (hnd : ∀ p q, ¬ CoreDown v.kind cfg p q)
    (c : Chip) (hc : c ∈ m.chipList) (n : Int) (hn : v.kind.chipCoreMap.get? (m.getLocalXY c) = some n)
    (hpos : 1 ≤ v.maxCores) :
    (c.placable.length : Int) = min n v.maxCores - 1 ∧ c.scamp.length = 1 := by
  obtain ⟨n', hn', hsc, hsort, hmem⟩ := C32_cores v cfg w h validate m hm c hc
  rw [hn] at hn'
  cases hn'
  have hn1 : 5 ≤ n := by
    have h1 : n ∈ v.kind.chipCoreMap.values := (PDict.mem_values_iff (chipCoreMap_WF _) n).2 ⟨_, hn⟩
    have := minimum_le_typical v.kind n h1
    split at this <;> omega
  have : c.placable = pyRange2 1 (min n v.maxCores) := by
    refine sorted_ext hsort (pyRange2_sorted _ _) fun a => ?_
    rw [hmem, mem_pyRange2, Int.lt_min]
    constructor
    · rintro ⟨h1, h2, h3, -⟩; exact ⟨h1, h2, h3⟩
    · rintro ⟨h1, h2, h3⟩; exact ⟨h1, h2, h3, hnd _ _⟩
  rw [this, hsc]
  refine ⟨?_, rfl⟩
  simp only [pyRange2, List.length_map, List.length_range]
  omega

/-- C33: without down cores and with at least the minimum number of cores allowed per chip, only
down Ethernet chips can make `validate` fail. -/
theorem C33_down_chips (v : Version) (cfg : DownCfg) (w h : Int) (m : Machine)
    (hm : virtualMachine v cfg w h false = .ok m) (hnd : ∀ p q, ¬ CoreDown v.kind cfg p q)
    (hmax : (if v.kind = .v3 ∨ v.kind = .v5 then 5 else 100) ≤ v.maxCores) :
    virtualMachine v cfg w h true = .ok m ↔
      ¬ ChipDown cfg (0, 0) ∧
      (∀ e ∈ v.kind.potentialEthernetChips w h, ChipDown cfg e →
        ∀ p, BoardAt v.kind m.wrap w h e p → ChipDown cfg p) := by
  rw [C33_validates_iff v cfg w h m hm]
  constructor
  · rintro ⟨h1, h2, -⟩; exact ⟨h1, h2⟩
  · rintro ⟨h1, h2⟩
    refine ⟨h1, h2, fun c hc => ?_⟩
    obtain ⟨n, hn, -⟩ := C32_cores v cfg w h false m hm c hc
    have h3 : n ∈ v.kind.chipCoreMap.values := (PDict.mem_values_iff (chipCoreMap_WF _) n).2 ⟨_, hn⟩
    have h4 := minimum_le_typical v.kind n h3
    obtain ⟨h5, h6⟩ := chip_cores_length hm hnd c hc n hn (by split at hmax <;> omega)
    simp only [Chip.allProcessorIds, List.length_append, h6]
    split at hmax <;> split at h4 <;> (try split) <;> (try omega)

theorem readable_default (k : VKind) : Readable k {} := by
  refine ⟨⟨[], rfl⟩, ⟨[], rfl⟩, [], rfl, by simp⟩

theorem default_not_down (k : VKind) : (∀ p, ¬ ChipDown {} p) ∧ (∀ p i, ¬ LinkDown {} p i) ∧
    ∀ p q, ¬ CoreDown k {} p q := by
  refine ⟨?_, ?_, ?_⟩
  · rintro p ⟨l, hl, c, hc, -⟩; cases hl; simp at hc
  · rintro p i ⟨l, hl, c, hc, -⟩; cases hl; simp at hc
  · rintro p q ⟨l, hl, c, hc, -⟩; cases hl; simp at hc

/-- C33: without down settings every supported size gives a machine that passes `validate`. -/
theorem C33_no_down (v : Version) (w h : Int) (hs : SizeOK v.kind w h)
    (hmax : (if v.kind = .v3 ∨ v.kind = .v5 then 5 else 100) ≤ v.maxCores) :
    ∃ m, virtualMachine v {} w h true = .ok m := by
  obtain ⟨m, hm⟩ := (C30_succeeds v {} w h).1 hs (readable_default v.kind)
  obtain ⟨h1, h2, h3⟩ := default_not_down v.kind
  exact ⟨m, (C33_down_chips v {} w h m hm h3 hmax).2 ⟨h1 _, fun e _ he => absurd he (h1 e)⟩⟩

/-! ## C35 -/

theorem vm_all_chips {v : Version} {cfg : DownCfg} {w h : Int} {validate : Bool} {m : Machine}
    (hm : virtualMachine v cfg w h validate = .ok m) (hnc : ∀ p, ¬ ChipDown cfg p) :
    ∃ d, Down.read v cfg w = .ok d ∧ m.chipList = (vmPlaces v w h).map (vmChip v w h d) := by
  obtain ⟨hs, hr, hwr, hw, hh, hcc, r, d, hd, hcl⟩ := vm_facts hm
  refine ⟨d, hd, ?_⟩
  rw [hcl, vmChips, vmEntries, List.filter_eq_self.2]
  intro a _
  simpa using fun h => hnc _ (((down_spec hs hd).1 _).1 h)

theorem sum_map_const (l : List XY) (c : Int) : (l.map fun _ => c).sum = l.length * c := by
  induction l with
  | nil => simp
  | cons a t ih => simp only [List.map_cons, List.sum_cons, ih, List.length_cons]; rw [Int.natCast_add, Int.add_mul]; omega

/-- a quantity that depends on the number of cores only, summed over all places -/
theorem sum_places (v : Version) (w h : Int) (g : Int → Int) :
    ((vmPlaces v w h).map fun kv => g kv.2.2).sum = (v.kind.potentialEthernetChips w h).length *
      (v.kind.chipCoreMap.values.map fun n => g (min n v.maxCores)).sum := by
  unfold vmPlaces
  rw [← sum_map_const]
  generalize v.kind.potentialEthernetChips w h = es
  induction es with
  | nil => simp
  | cons e t ih =>
    rw [List.flatMap_cons, List.map_append, List.sum_append, ih, List.map_cons, List.sum_cons]
    congr 1
    simp only [List.map_map, PDict.values]
    rfl

/-- C35: without down chips there are 48 chips (4 or 1 on the single board versions) and one
Ethernet chip per board. -/
theorem C35_chips (v : Version) (cfg : DownCfg) (w h : Int) (validate : Bool) (m : Machine)
    (hm : virtualMachine v cfg w h validate = .ok m) (hnc : ∀ p, ¬ ChipDown cfg p) :
    (m.nChips : Int) = (match v.kind with | .v3 => 4 | .v5 => 48 | .v201 => 1 | .v248 => 48) *
      (v.kind.potentialEthernetChips w h).length ∧
    m.ethernetChips.length = (v.kind.potentialEthernetChips w h).length := by
  obtain ⟨hs, hr, hwr, hw, hh, hcc, r, d, hd, hcl⟩ := vm_facts hm
  obtain ⟨d', hd', hall⟩ := vm_all_chips hm hnc
  have hlen : (m.nChips : Int) = ((vmPlaces v w h).map fun _ => (1 : Int)).sum := by
    have h1 : m.nChips = m.chipList.length := by
      simp [Machine.nChips, Machine.chipList, PDict.length_values]
    rw [h1, hall, List.length_map]
    generalize vmPlaces v w h = l
    induction l with
    | nil => rfl
    | cons a t ih => simp only [List.map_cons, List.sum_cons, List.length_cons, ← ih]; omega
  constructor
  · rw [hlen, sum_places v w h (fun _ => 1), Int.mul_comm]
    congr 1
    cases v.kind <;> rfl
  · obtain ⟨hip, -⟩ := C30_addresses v cfg w h validate m hm
    have hperm : (m.ethernetChips.map Chip.xy).Perm (v.kind.potentialEthernetChips w h) := by
      rw [List.perm_ext_iff_of_nodup]
      · intro p
        rw [List.mem_map]
        constructor
        · rintro ⟨e, he, rfl⟩
          rw [r.eths, List.mem_filter] at he
          by_cases hep : e.xy ∈ v.kind.potentialEthernetChips w h
          · exact hep
          · rw [(hip e he.1).2 hep] at he; simp at he
        · intro hp
          have hpos := hs.pos
          have hb : BoardAt v.kind m.wrap w h p p := by
            rw [hwr, ← mem_xysByEthernet_iff_boardAt v.kind _ hpos.1 hpos.2, mem_xysByEthernet]
            refine ⟨(0, 0), onBoard_origin _, ?_⟩
            have hg := ((mem_potential_iff hs p).1 hp).2.1
            unfold InGrid at hg
            simp only [Int.zero_add]
            exact Wrap.red_of_inRange _ (p := (p.1, p.2))
              ⟨fun _ => ⟨hg.1, hg.2.1⟩, fun _ => ⟨hg.2.2.1, hg.2.2.2⟩⟩
          have hat := (C30_chips v cfg w h validate m hm p).2 ⟨hnc p, p, hp, hb⟩
          obtain ⟨c, hc, rfl⟩ := List.mem_map.1 ((isChipAt_iff r p).1 hat)
          refine ⟨c, ?_, rfl⟩
          rw [r.eths, List.mem_filter]
          exact ⟨hc, by rw [(hip c hc).1 hp]; rfl⟩
      · rw [r.eths]
        exact r.nodup.sublist (List.Sublist.map _ List.filter_sublist)
      · exact nodup_potential _ _ _
    have := hperm.length_eq
    simpa using this

/-- C35: a fully wrapped machine has a chip at every place. -/
theorem C35_wrapped_chips (v : Version) (hk : v.kind = .v5 ∨ v.kind = .v248) (cfg : DownCfg) (a b : Int)
    (ha : 0 < a) (hb : 0 < b) (validate : Bool) (m : Machine)
    (hm : virtualMachine v cfg (12 * a) (12 * b) validate = .ok m) (hnc : ∀ p, ¬ ChipDown cfg p) :
    (m.nChips : Int) = (12 * a) * (12 * b) ∧
    ∀ p, InGrid (12 * a) (12 * b) p → m.isChipAt p.1 p.2 = true := by
  obtain ⟨hs, hr, hwr, hw, hh, hcc, r, d, hd, hcl⟩ := vm_facts hm
  constructor
  · rw [(C35_chips v cfg _ _ validate m hm hnc).1]
    have hpot : v.kind.potentialEthernetChips (12 * a) (12 * b) =
        Geometry.spinn5.potentialEthernetChips (a * 12) (b * 12) := by
      rw [Int.mul_comm 12 a, Int.mul_comm 12 b]
      rcases hk with h | h <;> rw [h] <;> rfl
    rw [hpot, length_potential_wrapped a b ha hb]
    have e : (match v.kind with | .v3 => 4 | .v5 => 48 | .v201 => 1 | .v248 => (48 : Int)) = 48 := by
      rcases hk with h | h <;> rw [h]
    rw [e, Int.mul_assoc 3, Int.mul_assoc 12, Int.mul_left_comm a]
    omega
  · intro p hp
    rw [C30_chips v cfg _ _ validate m hm]
    refine ⟨hnc p, ?_⟩
    obtain ⟨e, he, l, hl, heq⟩ := board_cover hk (by omega) (by omega) ⟨a, rfl⟩ ⟨b, rfl⟩ hp
    refine ⟨e, he, ?_⟩
    rw [hwr, ← mem_xysByEthernet_iff_boardAt v.kind _ (by omega) (by omega), mem_xysByEthernet]
    exact ⟨l, hl, heq⟩

theorem filterMap_eq_map' {α β : Type} {f : α → Option β} {g : α → β} {l : List α}
    (h : ∀ a, f a = some (g a)) : l.filterMap f = l.map g := by
  induction l with
  | nil => rfl
  | cons a t ih => simp [h a, ih]

/-- C35: a fully wrapped machine without down chips and links has 3 links per chip (each link
counted once). -/
theorem C35_wrapped_links (v : Version) (hk : v.kind = .v5 ∨ v.kind = .v248) (cfg : DownCfg) (a b : Int)
    (ha : 0 < a) (hb : 0 < b) (validate : Bool) (m : Machine)
    (hm : virtualMachine v cfg (12 * a) (12 * b) validate = .ok m) (hnc : ∀ p, ¬ ChipDown cfg p)
    (hnl : ∀ p i, ¬ LinkDown cfg p i) :
    m.getLinksCount = 3 * (12 * a) * (12 * b) := by
  obtain ⟨hs, hr, hwr, hw, hh, hcc, r, d, hd, hcl⟩ := vm_facts hm
  obtain ⟨-, d', hd', -, -, ⟨o, ho, hrun⟩, -⟩ := vm_ok hm
  obtain ⟨hn, hall⟩ := C35_wrapped_chips v hk cfg a b ha hb validate m hm hnc
  have hpos := hs.pos
  have hcount := C19_links_count_partial v _ _ "Virtual" o ho
    [.addChips (vmChips v (12 * a) (12 * b) d'), .addSpinnakerLinks, .addFpgaLinks]
    (by simp [Op.isAddLink])
  rw [← hrun] at hcount
  have hsix : ∀ c ∈ m.chipList, (c.router.linkList.length : Int) = 6 := by
    intro c hc
    have hc' := hc
    rw [hcl, vmChips, List.mem_map] at hc'
    obtain ⟨kv, hkv, rfl⟩ := hc'
    have hl : vmLinks v (12 * a) (12 * b) d kv.1 = allDirs.map fun dir =>
        { sourceX := kv.1.1, sourceY := kv.1.2, sourceLinkId := dir.id
          destX := ((v.kind.wrapFor (12 * a) (12 * b)).red (12 * a) (12 * b)
            (kv.1.1 + dir.dx, kv.1.2 + dir.dy)).1
          destY := ((v.kind.wrapFor (12 * a) (12 * b)).red (12 * a) (12 * b)
            (kv.1.1 + dir.dx, kv.1.2 + dir.dy)).2 } := by
      unfold vmLinks
      refine filterMap_eq_map' fun dir => ?_
      simp only
      rw [if_pos]
      have hgrid := vm_inGrid hs d (List.mem_map_of_mem hkv)
      constructor
      · rw [(down_spec hs hd).2.2 kv.1 dir hgrid]
        rintro (h | h)
        · exact hnl _ _ h
        · unfold Unwired at h
          rcases hk with hk | hk <;> rw [hk] at h <;> simp at h
      · have hin : InRange (v.kind.wrapFor (12 * a) (12 * b)) (12 * a) (12 * b)
            ((v.kind.wrapFor (12 * a) (12 * b)).red (12 * a) (12 * b) (kv.1.1 + dir.dx, kv.1.2 + dir.dy)) :=
          Wrap.red_inRange _ hpos.1 hpos.2 _
        have hwf := wrapFor_spec v.kind (12 * a) (12 * b)
        have hwx : wrapsX (v.kind.wrapFor (12 * a) (12 * b)) := by
          rcases hk with hk | hk <;> rw [hk] at hwf ⊢ <;> exact hwf.1.2 ⟨a, rfl⟩
        have hwy : wrapsY (v.kind.wrapFor (12 * a) (12 * b)) := by
          rcases hk with hk | hk <;> rw [hk] at hwf ⊢ <;> exact hwf.2.2 ⟨b, rfl⟩
        have h1 := hin.1 hwx
        have h2 := hin.2 hwy
        have := hall _ (show InGrid _ _ _ from ⟨h1.1, h1.2, h2.1, h2.2⟩)
        rw [isChipAt_iff r, hcl, vmChips_xy] at this
        exact this
    simp only [vmChip, Chip.mk', Router.linkList, PDict.values, List.length_map, hl]
    rfl
  have hsum : (m.chipList.map fun c => (c.router.linkList.length : Int)).sum = 6 * (m.nChips : Int) := by
    have h1 : m.nChips = m.chipList.length := by
      simp [Machine.nChips, Machine.chipList, PDict.length_values]
    rw [h1, List.map_congr_left hsix]
    generalize m.chipList = l
    induction l with
    | nil => rfl
    | cons x t ih => simp only [List.map_cons, List.sum_cons, List.length_cons, ih]; omega
  rw [hcount]
  rw [show ((m.chipList.map fun c => (c.router.linkList.length : Int)).sum) = 6 * ((12 * a) * (12 * b)) by
    rw [hsum, hn]]
  simp only [Rat.intCast_mul]
  grind

/-- number of cores of all chips, without down chips and cores -/
theorem vm_core_sums {v : Version} {cfg : DownCfg} {w h : Int} {validate : Bool} {m : Machine}
    (hm : virtualMachine v cfg w h validate = .ok m) (hnc : ∀ p, ¬ ChipDown cfg p)
    (hnd : ∀ p q, ¬ CoreDown v.kind cfg p q) (hmax : 1 ≤ v.maxCores) :
    m.getCoresCount = (v.kind.potentialEthernetChips w h).length *
      (v.kind.chipCoreMap.values.map fun n => min n v.maxCores).sum ∧
    m.totalAvailableUserCores = (v.kind.potentialEthernetChips w h).length *
      (v.kind.chipCoreMap.values.map fun n => min n v.maxCores - 1).sum := by
  obtain ⟨hs, hr, hwr, hw, hh, hcc, r, d, hd, hcl⟩ := vm_facts hm
  obtain ⟨d', hd', hall⟩ := vm_all_chips hm hnc
  obtain ⟨h1, -, h3⟩ := C19_cores_count v w h m hr
  have hlen : ∀ kv ∈ vmPlaces v w h, ((vmChip v w h d' kv).placable.length : Int) = kv.2.2 - 1 ∧
      ((vmChip v w h d' kv).allProcessorIds.length : Int) = kv.2.2 := by
    rintro ⟨p, e, n⟩ hkv
    have hc : vmChip v w h d' (p, e, n) ∈ m.chipList := by rw [hall]; exact List.mem_map_of_mem hkv
    obtain ⟨k, hk, -⟩ := C32_cores v cfg w h validate m hm _ hc
    obtain ⟨h5, h6⟩ := chip_cores_length hm hnd _ hc k hk hmax
    have hn : n = min k v.maxCores := by
      have hkv' : (p, e, n) ∈ vmEntries v w h d' := by
        rw [vmEntries, List.mem_filter]
        exact ⟨hkv, by simpa using fun h => hnc _ (((down_spec hs hd').1 _).1 h)⟩
      obtain ⟨he, hp, l, k', hl, hn, hpl⟩ := (mem_vmEntries v w h d' p e n).1 hkv'
      have hon : OnBoard v.kind l := (mem_chipCoreMap_iff _ _).1 ((PDict.mem_keys_iff l).2 ⟨k', hl⟩)
      have hloc : m.getLocalXY (vmChip v w h d' (p, e, n)) = l := by
        unfold Machine.getLocalXY
        rw [hwr, hw, hh]
        simp only [vmChip, Chip.mk']
        rw [hpl]
        exact localXY_board hs e l hon
      rw [hloc, hl] at hk
      cases hk
      exact hn
    simp only [Chip.allProcessorIds, List.length_append, h6]
    omega
  constructor
  · rw [h1, hall, List.map_map, ← sum_places v w h (fun n => n)]
    congr 1
    exact List.map_congr_left fun kv hkv => (hlen kv hkv).2
  · rw [h3, hall, List.map_map, ← sum_places v w h (fun n => n - 1)]
    congr 1
    exact List.map_congr_left fun kv hkv => (hlen kv hkv).1

/-- C35: with all cores there are 856 cores per board of version 5 (72, 153 and 7331 for the
others), one of each chip being the monitor. -/
theorem C35_cores (v : Version) (cfg : DownCfg) (w h : Int) (validate : Bool) (m : Machine)
    (hm : virtualMachine v cfg w h validate = .ok m) (hnc : ∀ p, ¬ ChipDown cfg p)
    (hnd : ∀ p q, ¬ CoreDown v.kind cfg p q)
    (hmax : (if v.kind = .v3 ∨ v.kind = .v5 then 18 else 153) ≤ v.maxCores) :
    m.getCoresCount = (match v.kind with | .v3 => 72 | .v5 => 856 | .v201 => 153 | .v248 => 7331) *
      m.ethernetChips.length ∧
    m.totalAvailableUserCores = m.getCoresCount - m.nChips := by
  obtain ⟨h1, h2⟩ := vm_core_sums hm hnc hnd (by split at hmax <;> omega)
  obtain ⟨h3, h4⟩ := C35_chips v cfg w h validate m hm hnc
  rw [h1, h2, h3, h4]
  generalize (v.kind.potentialEthernetChips w h).length = N
  have hle : ∀ n ∈ v.kind.chipCoreMap.values, n ≤ v.maxCores := by
    have : ∀ n ∈ v.kind.chipCoreMap.values, n ≤ if v.kind = .v3 ∨ v.kind = .v5 then 18 else 153 := by
      cases v.kind <;> decide +kernel
    intro n hn
    have := this n hn
    omega
  have e1 : (v.kind.chipCoreMap.values.map fun n => min n v.maxCores) =
      v.kind.chipCoreMap.values.map fun n : Int => n :=
    List.map_congr_left fun n hn => Int.min_eq_left (hle n hn)
  have e2 : (v.kind.chipCoreMap.values.map fun n => min n v.maxCores - 1) =
      v.kind.chipCoreMap.values.map fun n : Int => n - 1 :=
    List.map_congr_left fun n hn => by rw [Int.min_eq_left (hle n hn)]
  rw [e1, e2]
  have hsum : (v.kind.chipCoreMap.values.map fun n : Int => n).sum =
      (match v.kind with | .v3 => (72 : Int) | .v5 => 856 | .v201 => 153 | .v248 => 7331) := by
    cases v.kind <;> decide +kernel
  have hsum' : (v.kind.chipCoreMap.values.map fun n : Int => n - 1).sum =
      (match v.kind with | .v3 => (68 : Int) | .v5 => 808 | .v201 => 152 | .v248 => 7283) := by
    cases v.kind <;> decide +kernel
  rw [hsum, hsum']
  cases v.kind <;> simp only <;> omega

/-! ## C14-C17: machines by size -/

/-- C14: the machine built for `n` boards has at least `n` Ethernet chips. -/
theorem C14_by_boards (v : Version) (n : Int) (validate : Bool) (m : Machine)
    (hm : virtualMachineByBoards v {} n validate = .ok m) : n ≤ (m.ethernetChips.length : Int) := by
  unfold virtualMachineByBoards at hm
  cases hsz : v.kind.sizeFromNBoards n with
  | error e => rw [hsz] at hm; simp at hm
  | ok s =>
    obtain ⟨w, h⟩ := s
    rw [hsz] at hm
    simp only at hm
    obtain ⟨h1, h2, h3⟩ := default_not_down v.kind
    rw [(C35_chips v {} w h validate m hm h1).2]
    by_cases hk : v.kind = .v5 ∨ v.kind = .v248
    · obtain ⟨w', h', heq, -, hn, -⟩ := C14_enough_boards v.kind hk n
      rw [hsz] at heq
      cases heq
      exact hn
    · have hk' : v.kind = .v3 ∨ v.kind = .v201 := by
        revert hk; cases v.kind <;> simp
      obtain ⟨hok, herr⟩ := C14_single_board v.kind hk' n
      by_cases hn : n = 1
      · rw [potential_single hk', hn]; simp
      · rw [herr hn] at hsz; simp at hsz

/-- boards needed for `n` things, `c` per board -/
theorem ceil_boards {n c N : Int} (hc : 0 < c) (hN : -(pdiv (-n) c) ≤ N) : n ≤ N * c := by
  have h1 := ceilDiv_spec n c hc
  have h2 : ceilDiv n c ≤ N := hN
  have : c * ceilDiv n c ≤ c * N := Int.mul_le_mul_of_nonneg_left h2 (by omega)
  rw [Int.mul_comm N]
  omega

/-- C15: `virtual_machine_by_chips(n)` has at least `n` chips. -/
theorem C15_enough_chips (v : Version) (n : Int) (validate : Bool) (m : Machine)
    (hm : virtualMachineByChips v {} n validate = .ok m) : n ≤ (m.nChips : Int) := by
  have hb : virtualMachineByBoards v {} (-(pdiv (-n) v.kind.nChipsPerBoard)) validate = .ok m := hm
  have hle := C14_by_boards v _ validate m hb
  have hc : 0 < v.kind.nChipsPerBoard := by cases v.kind <;> decide
  have hceil := ceil_boards hc hle
  unfold virtualMachineByBoards at hb
  cases hsz : v.kind.sizeFromNBoards (-(pdiv (-n) v.kind.nChipsPerBoard)) with
  | error e => rw [hsz] at hb; simp at hb
  | ok s =>
    rw [hsz] at hb
    obtain ⟨h1, h2, h3⟩ := default_not_down v.kind
    obtain ⟨h4, h5⟩ := C35_chips v {} _ _ validate m hb h1
    rw [h4, ← h5]
    refine Int.le_trans hceil (Int.le_of_eq ?_)
    rw [Int.mul_comm]
    congr 1
    cases v.kind <;> rfl

/-- C15: it works for every `n` on the 48-chip versions, and on the others exactly if `n` chips
fit on the board. -/
theorem C15_supported (v : Version) (n : Int)
    (hmax : (if v.kind = .v3 ∨ v.kind = .v5 then 5 else 100) ≤ v.maxCores) :
    (v.kind = .v5 ∨ v.kind = .v248 → ∃ m, virtualMachineByChips v {} n true = .ok m) ∧
    (v.kind = .v3 → ((∃ m, virtualMachineByChips v {} n true = .ok m) ↔ 1 ≤ n ∧ n ≤ 4)) ∧
    (v.kind = .v201 → ((∃ m, virtualMachineByChips v {} n true = .ok m) ↔ n = 1)) := by
  have single : ∀ (hk : v.kind = .v3 ∨ v.kind = .v201),
      ((∃ m, virtualMachineByChips v {} n true = .ok m) ↔ -(pdiv (-n) v.kind.nChipsPerBoard) = 1) := by
    intro hk
    obtain ⟨hok, herr⟩ := C14_single_board v.kind hk (-(pdiv (-n) v.kind.nChipsPerBoard))
    unfold virtualMachineByChips VKind.sizeFromNChips
    constructor
    · rintro ⟨m, hm⟩
      by_cases h1 : -(pdiv (-n) v.kind.nChipsPerBoard) = 1
      · exact h1
      · rw [herr h1] at hm; simp at hm
    · intro h1
      rw [(hok h1).1]
      exact C33_no_down v _ _ (hok h1).2 hmax
  refine ⟨fun hk => ?_, fun hk => ?_, fun hk => ?_⟩
  · obtain ⟨w, h, hsz, hs, -⟩ := C14_enough_boards v.kind hk (-(pdiv (-n) v.kind.nChipsPerBoard))
    unfold virtualMachineByChips VKind.sizeFromNChips
    rw [hsz]
    exact C33_no_down v w h hs hmax
  · rw [single (.inl hk), hk, show VKind.v3.nChipsPerBoard = 4 from rfl, pdiv,
      Int.fdiv_eq_ediv_of_nonneg _ (by omega)]
    omega
  · rw [single (.inr hk), hk, show VKind.v201.nChipsPerBoard = 1 from rfl, pdiv,
      Int.fdiv_eq_ediv_of_nonneg _ (by omega)]
    omega

/-- C16 (part): if the number of cores per chip is not limited below the default and the monitors
leave some cores of a board, the machine for `n` cores has `n` placable cores left besides
`ethMon` monitors on each Ethernet chip and `allMon` on each chip. With a limit it may have fewer,
see `C16_ignores_max_cores`. -/
theorem C16_enough_cores_partial (v : Version) (ethMon allMon n : Int) (validate : Bool) (m : Machine)
    (hm : virtualMachineByCores v {} ethMon allMon n validate = .ok m)
    (hmax : (if v.kind = .v3 ∨ v.kind = .v5 then 18 else 153) ≤ v.maxCores)
    (hcpb : 0 < v.kind.coresPerBoard ethMon allMon) :
    n ≤ m.totalAvailableUserCores - ethMon * m.ethernetChips.length - allMon * m.nChips := by
  unfold virtualMachineByCores VKind.sizeFromNCores at hm
  rw [if_neg (by omega)] at hm
  have hb : virtualMachineByBoards v {} (-(pdiv (-n) (v.kind.coresPerBoard ethMon allMon))) validate =
      .ok m := hm
  have hle := C14_by_boards v _ validate m hb
  have hceil := ceil_boards hcpb hle
  unfold virtualMachineByBoards at hb
  cases hsz : v.kind.sizeFromNBoards (-(pdiv (-n) (v.kind.coresPerBoard ethMon allMon))) with
  | error e => rw [hsz] at hb; simp at hb
  | ok s =>
    rw [hsz] at hb
    obtain ⟨h1, h2, h3⟩ := default_not_down v.kind
    obtain ⟨h4, h5⟩ := C35_chips v {} _ _ validate m hb h1
    obtain ⟨h6, h7⟩ := C35_cores v {} _ _ validate m hb h1 h3 hmax
    rw [← h5] at h4
    rw [h7, h6, h4]
    refine Int.le_trans hceil (Int.le_of_eq ?_)
    unfold VKind.coresPerBoard
    have hc : v.kind.nChipsPerBoard =
      (match v.kind with | .v3 => 4 | .v5 => 48 | .v201 => 1 | .v248 => 48) := by cases v.kind <;> rfl
    have hsum : v.kind.chipCoreMap.values.sum =
      (match v.kind with | .v3 => 72 | .v5 => 856 | .v201 => 153 | .v248 => 7331) := by
      cases v.kind <;> decide +kernel
    have hsc : v.kind.nScampCores = 1 := by cases v.kind <;> rfl
    rw [hc, hsum, hsc]
    generalize (match v.kind with | .v3 => 4 | .v5 => 48 | .v201 => 1 | .v248 => (48 : Int)) = C
    generalize (match v.kind with | .v3 => 72 | .v5 => 856 | .v201 => 153 | .v248 => (7331 : Int)) = S
    generalize (m.ethernetChips.length : Int) = N
    grind

/-- C16 fails with a limit on the cores per chip: the size is computed without it. -/
theorem C16_ignores_max_cores :
    ∃ (v : Version) (m : Machine), Version.init .v5 { maxMachineCore := some 5 } = .ok v ∧
      virtualMachineByCores v {} 0 0 800 true = .ok m ∧ m.totalAvailableUserCores = 192 := by
  obtain ⟨m, hm⟩ := C33_no_down { kind := .v5, maxCores := 5, maxSdram := 123469792 } 8 8 (by decide)
    (by decide)
  refine ⟨_, m, rfl, ?_, ?_⟩
  · have : VKind.v5.sizeFromNCores 0 0 800 = .ok (8, 8) := by decide +kernel
    unfold virtualMachineByCores
    simp only [this]
    exact hm
  · obtain ⟨h1, h2, h3⟩ := default_not_down .v5
    rw [(vm_core_sums hm h1 h3 (by decide)).2]
    decide +kernel

/-- C17: the size used by `virtual_machine_by_min_size` of a 48-chip version is supported and at
least what was asked for. -/
theorem C17_min_size (v : Version) (hk : v.kind = .v5 ∨ v.kind = .v248) (w h : Int) (hw : 0 < w) (hh : 0 < h)
    (hmax : (if v.kind = .v3 ∨ v.kind = .v5 then 5 else 100) ≤ v.maxCores) :
    ∃ m, virtualMachineByMinSize v {} w h true = .ok m ∧ w ≤ m.width ∧ h ≤ m.height ∧
      (w ≤ 8 ∧ h ≤ 8 → m.width = 8 ∧ m.height = 8) := by
  have hshape : v.kind.boardShape = (8, 8) := by rcases hk with h | h <;> rw [h] <;> rfl
  have hsz : SizeOK v.kind (minSize v.kind w h).1 (minSize v.kind w h).2 ∧
      w ≤ (minSize v.kind w h).1 ∧ h ≤ (minSize v.kind w h).2 ∧
      (w ≤ 8 ∧ h ≤ 8 → (minSize v.kind w h).1 = 8 ∧ (minSize v.kind w h).2 = 8) := by
    have hok : ∀ a b : Int, SizeOK v.kind a b ↔ (a = 8 ∧ b = 8) ∨ (8 < a ∧ 8 < b ∧ 4 ∣ a ∧ 4 ∣ b) := by
      rcases hk with h | h <;> rw [h] <;> exact fun _ _ => Iff.rfl
    rw [hok]
    unfold minSize
    simp only [hshape]
    have hcd := fun a => ceilDiv_spec a 8 (by omega)
    split
    · have h1 := hcd (8 * 2)
      rw [if_neg (by omega)]
      have h2 := hcd h
      omega
    · split
      · have h1 := hcd w
        have h2 := hcd (8 * 2)
        omega
      · have h1 := hcd w
        have h2 := hcd h
        omega
  obtain ⟨m, hm⟩ := C33_no_down v _ _ hsz.1 hmax
  obtain ⟨-, -, -, e1, e2, -⟩ := vm_facts hm
  exact ⟨m, hm, by rw [e1]; exact hsz.2.1, by rw [e2]; exact hsz.2.2.1, by rw [e1, e2]; exact hsz.2.2.2⟩

/-- C17: single board versions give their board if it is large enough and raise otherwise. -/
theorem C17_single_board (v : Version) (hk : v.kind = .v3 ∨ v.kind = .v201) (w h : Int) (hw : 0 < w)
    (hh : 0 < h) (validate : Bool) :
    (w ≤ v.kind.boardShape.1 ∧ h ≤ v.kind.boardShape.2 →
      minSize v.kind w h = v.kind.boardShape) ∧
    (v.kind.boardShape.1 < w ∨ v.kind.boardShape.2 < h →
      virtualMachineByMinSize v {} w h validate = .error .machine) := by
  constructor
  · rintro ⟨h1, h2⟩
    have hs : v.kind.boardShape = (2, 2) ∨ v.kind.boardShape = (1, 1) := by
      rcases hk with hk | hk <;> rw [hk] <;> simp [VKind.boardShape]
    unfold minSize
    rcases hs with hs | hs <;> simp only [hs] at *
    · rw [if_neg (by omega), if_neg (by omega)]
      have h3 := ceilDiv_spec w 2 (by omega)
      have h4 := ceilDiv_spec h 2 (by omega)
      exact Prod.ext (by simp only; omega) (by simp only; omega)
    · rw [if_neg (by omega), if_neg (by omega)]
      have h3 := ceilDiv_spec w 1 (by omega)
      have h4 := ceilDiv_spec h 1 (by omega)
      exact Prod.ext (by simp only; omega) (by simp only; omega)
  · intro hbig
    refine (C30_succeeds v {} _ _).2.1 (fun hs => ?_) validate
    have hsh : (v.kind.boardShape = (2, 2) ∧ ∀ a b, SizeOK v.kind a b → a = 2 ∧ b = 2) ∨
        (v.kind.boardShape = (1, 1) ∧ ∀ a b, SizeOK v.kind a b → a = 1 ∧ b = 1) := by
      rcases hk with hk | hk <;> rw [hk] <;> simp [VKind.boardShape, SizeOK]
    unfold minSize at hs
    rcases hsh with ⟨hsh, h0⟩ | ⟨hsh, h0⟩ <;> replace hs := h0 _ _ hs <;> simp only [hsh] at hs hbig
    · split at hs
      · rw [if_neg (by omega)] at hs
        have := ceilDiv_spec (2 * 2) 2 (by omega)
        omega
      · split at hs
        · have := ceilDiv_spec (2 * 2) 2 (by omega)
          omega
        · have h3 := ceilDiv_spec w 2 (by omega)
          have h4 := ceilDiv_spec h 2 (by omega)
          omega
    · split at hs
      · rw [if_neg (by omega)] at hs
        have := ceilDiv_spec (1 * 2) 1 (by omega)
        omega
      · split at hs
        · have := ceilDiv_spec (1 * 2) 1 (by omega)
          omega
        · have h3 := ceilDiv_spec w 1 (by omega)
          have h4 := ceilDiv_spec h 1 (by omega)
          omega

/-! ### examples -/

/-- a down chip, a link down at both ends and three down cores -/
def exCfg : DownCfg :=
  { chips := some "3,1:4,4,10.11.12.13".toList, links := some "0,0,0:1,0,3".toList
    cores := some "2,2,5-7".toList }

example : (match virtualMachine exV5 exCfg 12 12 true with
    | .error _ => false
    | .ok m => m.nChips == 143 && m.oneWayLinks.isEmpty && m.isChipAt 4 4 && !m.isLinkAt 0 0 0 &&
        (m.getChipAt 2 2).map (·.placable.length) == some 14) = true := by
  decide +kernel

end SpiNN.Props
