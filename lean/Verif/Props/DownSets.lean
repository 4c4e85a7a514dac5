import Verif.Props.Factory
import Verif.Spec.DownSets

/-!
# The down settings of a virtual machine are sets (C72)
-/

namespace SpiNN.Props
open SpiNN Spec

/-- two ascending lists with the same elements are the same -/
theorem eq_of_sorted_mem {l l' : List Int} (h : l.Pairwise (· < ·)) (h' : l'.Pairwise (· < ·))
    (hm : ∀ q, q ∈ l ↔ q ∈ l') : l = l' := by
  induction l generalizing l' with
  | nil =>
    cases l' with
    | nil => rfl
    | cons a t => exact absurd ((hm a).2 List.mem_cons_self) (by simp)
  | cons a t ih =>
    cases l' with
    | nil => exact absurd ((hm a).1 List.mem_cons_self) (by simp)
    | cons b s =>
      rw [List.pairwise_cons] at h h'
      have hab : a = b := by
        have h1 := (hm a).1 List.mem_cons_self
        have h2 := (hm b).2 List.mem_cons_self
        rw [List.mem_cons] at h1 h2
        rcases h1 with h1 | h1
        · exact h1
        · rcases h2 with h2 | h2
          · exact h2.symm
          · have := h.1 b h2; have := h'.1 a h1; omega
      subst hab
      refine congrArg _ (ih h.2 h'.2 fun q => ?_)
      have := hm q
      simp only [List.mem_cons] at this
      constructor
      · intro hq
        rcases this.1 (.inr hq) with rfl | h2
        · exact absurd (h.1 q hq) (by omega)
        · exact h2
      · intro hq
        rcases this.2 (.inr hq) with rfl | h2
        · exact absurd (h'.1 q hq) (by omega)
        · exact h2

theorem vmEntries_congr {v : Version} {w h : Int} {d d' : Down} (hc : ∀ p, p ∈ d.chips ↔ p ∈ d'.chips) :
    vmEntries v w h d = vmEntries v w h d' := by
  unfold vmEntries
  refine List.filter_congr fun kv _ => ?_
  simp only [hc]

theorem vmLinks_congr {v : Version} {w h : Int} {d d' : Down} (hc : ∀ p, p ∈ d.chips ↔ p ∈ d'.chips) (p : XY)
    (hl : ∀ dir : Dir, (p.1, p.2, dir.id) ∈ d.links ↔ (p.1, p.2, dir.id) ∈ d'.links) :
    vmLinks v w h d p = vmLinks v w h d' p := by
  unfold vmLinks
  simp only [vmEntries_congr hc, hl]

theorem vmChips_congr {v : Version} {w h : Int} (hs : SizeOK v.kind w h) {d d' : Down}
    (hc : ∀ p, p ∈ d.chips ↔ p ∈ d'.chips)
    (hl : ∀ (p : XY) (dir : Dir), InGrid w h p → ((p.1, p.2, dir.id) ∈ d.links ↔ (p.1, p.2, dir.id) ∈ d'.links))
    (hq : ∀ p q, (p, q) ∈ d.cores ↔ (p, q) ∈ d'.cores) :
    vmChips v w h d = vmChips v w h d' := by
  unfold vmChips
  rw [vmEntries_congr hc]
  refine List.map_congr_left fun kv hkv => ?_
  have hg := vm_inGrid hs d' (List.mem_map_of_mem (f := (·.1)) hkv)
  have hcores : chipCores d kv.1 kv.2.2 = chipCores d' kv.1 kv.2.2 := by
    obtain ⟨h1, h2⟩ := chipCores_spec d kv.1 kv.2.2
    obtain ⟨h3, h4⟩ := chipCores_spec d' kv.1 kv.2.2
    refine eq_of_sorted_mem h1 h3 fun q => ?_
    rw [h2, h4, hq]
  unfold vmChip
  rw [vmLinks_congr hc kv.1 fun dir => hl kv.1 dir hg, hcores]

/-- C72: only which chips, links and cores the down settings list matters, not how often, in which
order or how they are written: two readable settings that list the same give the same outcome
(the same machine, or the same error). -/
theorem C72_settings_are_sets (v : Version) (cfg cfg' : DownCfg) (w h : Int) (validate : Bool)
    (hr : Readable v.kind cfg) (hr' : Readable v.kind cfg')
    (h1 : DownAtMost v.kind cfg cfg') (h2 : DownAtMost v.kind cfg' cfg) :
    virtualMachine v cfg w h validate = virtualMachine v cfg' w h validate := by
  by_cases hs : SizeOK v.kind w h
  · obtain ⟨d, hd⟩ := (read_ok_iff v cfg w).2 hr
    obtain ⟨d', hd'⟩ := (read_ok_iff v cfg' w).2 hr'
    obtain ⟨a1, a2, a3⟩ := down_spec hs hd
    obtain ⟨b1, b2, b3⟩ := down_spec hs hd'
    have heq : vmChips v w h d = vmChips v w h d' := by
      refine vmChips_congr hs (fun p => ?_) (fun p dir hp => ?_) (fun p q => ?_)
      · rw [a1, b1]; exact ⟨h1.1 p, h2.1 p⟩
      · rw [a3 p dir hp, b3 p dir hp]; exact or_congr ⟨h1.2.1 p _, h2.2.1 p _⟩ .rfl
      · rw [a2, b2]; exact ⟨h1.2.2 p q, h2.2.2 p q⟩
    obtain ⟨m, -, -, ⟨o, ho, hm⟩, hv⟩ := vm_build hs cfg d hd
    obtain ⟨m', -, -, ⟨o', ho', hm'⟩, hv'⟩ := vm_build hs cfg' d' hd'
    have : m = m' := by
      rw [hm, hm', heq]
      rw [ho, Except.ok.injEq] at ho'
      rw [ho']
    rw [hv, hv', this]
  · rw [(C30_succeeds v cfg w h).2.1 hs, (C30_succeeds v cfg' w h).2.1 hs]

/-- C72: listing more can only take chips, links and cores away: every chip of the machine with
more listed is a chip of the other machine with the same board, addresses, memory and monitors, and
each of its cores and links is there. -/
theorem C72_monotone (v : Version) (cfg cfg' : DownCfg) (w h : Int) (validate validate' : Bool) (m m' : Machine)
    (hm : virtualMachine v cfg w h validate = .ok m) (hm' : virtualMachine v cfg' w h validate' = .ok m')
    (hd : DownAtMost v.kind cfg cfg') :
    (∀ p, ¬ ChipDown cfg' p → (m'.isChipAt p.1 p.2 = true ↔ m.isChipAt p.1 p.2 = true)) ∧
    ∀ c' ∈ m'.chipList, ∃ c ∈ m.chipList, c.xy = c'.xy ∧ c.ethX = c'.ethX ∧ c.ethY = c'.ethY ∧ c.ip = c'.ip ∧
      c.sdram = c'.sdram ∧ c.router.nEntries = c'.router.nEntries ∧ c.tags = c'.tags ∧ c.scamp = c'.scamp ∧
      SubLinks c' c ∧ c'.placable.Sublist c.placable := by
  obtain ⟨hs, hr, hwr, hw, hh, hcc, r, d, hdr, hcl⟩ := vm_facts hm
  obtain ⟨hs', hr', hwr', hw', hh', hcc', r', d', hdr', hcl'⟩ := vm_facts hm'
  obtain ⟨a1, a2, a3⟩ := down_spec hs hdr
  obtain ⟨b1, b2, b3⟩ := down_spec hs hdr'
  have hchip : ∀ p, p ∈ d.chips → p ∈ d'.chips := fun p hp => (b1 p).2 (hd.1 p ((a1 p).1 hp))
  have hkeys : ∀ kv, kv ∈ vmEntries v w h d' → kv ∈ vmEntries v w h d := by
    intro kv hkv
    unfold vmEntries at hkv ⊢
    rw [List.mem_filter] at hkv ⊢
    refine ⟨hkv.1, ?_⟩
    simp only [decide_eq_true_eq] at hkv ⊢
    exact fun hn => hkv.2 (hchip _ hn)
  refine ⟨fun p hp => ?_, fun c' hc' => ?_⟩
  · rw [C30_chips v cfg w h validate m hm, C30_chips v cfg' w h validate' m' hm', hwr, hwr']
    constructor
    · rintro ⟨h1, h2⟩; exact ⟨fun hn => h1 (hd.1 p hn), h2⟩
    · rintro ⟨h1, h2⟩; exact ⟨hp, h2⟩
  · rw [hcl', vmChips, List.mem_map] at hc'
    obtain ⟨kv, hkv, rfl⟩ := hc'
    refine ⟨vmChip v w h d kv, ?_, rfl, rfl, rfl, rfl, rfl, rfl, rfl, rfl, fun i l hl => ?_, ?_⟩
    · rw [hcl, vmChips]; exact List.mem_map_of_mem (hkeys kv hkv)
    · have hg := vm_inGrid hs d' (List.mem_map_of_mem (f := (·.1)) hkv)
      have hmem := PDict.get?_mem hl
      simp only [vmChip, Chip.mk', List.mem_map, Prod.mk.injEq] at hmem
      obtain ⟨l', hl', hi, rfl⟩ := hmem
      have hin : l' ∈ vmLinks v w h d kv.1 := by
        unfold vmLinks at hl' ⊢
        rw [List.mem_filterMap] at hl' ⊢
        obtain ⟨dir, h1, h2⟩ := hl'
        refine ⟨dir, h1, ?_⟩
        simp only at h2 ⊢
        split at h2
        · rename_i hcond
          refine Eq.trans (if_pos ⟨fun hn => hcond.1 ((b3 kv.1 dir hg).2
            (((a3 kv.1 dir hg).1 hn).imp (hd.2.1 _ _) id)), ?_⟩) h2
          · obtain ⟨h5, h6⟩ := hcond
            rw [List.mem_map] at h6 ⊢
            obtain ⟨kv2, h7, h8⟩ := h6
            exact ⟨kv2, hkeys kv2 h7, h8⟩
        · simp at h2
      refine PDict.lookup_of_mem ?_ (List.mem_map.2 ⟨l', hin, by rw [hi]⟩)
      simp only [vmChip, Chip.mk', List.map_map]
      exact vmLinks_nodup v w h d kv.1
    · obtain ⟨h1, h2⟩ := chipCores_spec d kv.1 kv.2.2
      obtain ⟨h3, h4⟩ := chipCores_spec d' kv.1 kv.2.2
      have heq : chipCores d' kv.1 kv.2.2 = (chipCores d kv.1 kv.2.2).filter fun q => decide ((kv.1, q) ∉ d'.cores) := by
        refine eq_of_sorted_mem h3 (h1.sublist List.filter_sublist) fun q => ?_
        rw [h4, List.mem_filter, h2]
        simp only [decide_eq_true_eq]
        have := fun hn => (b2 kv.1 q).2 (hd.2.2 kv.1 q ((a2 kv.1 q).1 hn))
        constructor
        · rintro ⟨h5, h6⟩; exact ⟨⟨h5, fun hn => h6 (this hn)⟩, h6⟩
        · rintro ⟨⟨h5, -⟩, h6⟩; exact ⟨h5, h6⟩
      show (chipCores d' kv.1 kv.2.2).Sublist (chipCores d kv.1 kv.2.2)
      rw [heq]
      exact List.filter_sublist

/-- with the same chips and cores listed, the machine with more links listed is the other one with
links removed -/
theorem vm_subMachine {v : Version} {cfg cfg' : DownCfg} {w h : Int} {validate validate' : Bool} {m m' : Machine}
    (hm : virtualMachine v cfg w h validate = .ok m) (hm' : virtualMachine v cfg' w h validate' = .ok m')
    (hc : ∀ p, ChipDown cfg' p ↔ ChipDown cfg p) (hq : ∀ p q, CoreDown v.kind cfg' p q ↔ CoreDown v.kind cfg p q)
    (hl : ∀ (p : XY) (d : Dir), InGrid w h p → LinkDown cfg p d.id → LinkDown cfg' p d.id) :
    SubMachine m' m ∧ KeepsParents m' m := by
  obtain ⟨hs, hr, hwr, hw, hh, hcc, r, d, hdr, hcl⟩ := vm_facts hm
  obtain ⟨hs', hr', hwr', hw', hh', hcc', r', d', hdr', hcl'⟩ := vm_facts hm'
  obtain ⟨a1, a2, a3⟩ := down_spec hs hdr
  obtain ⟨b1, b2, b3⟩ := down_spec hs hdr'
  have hent : vmEntries v w h d' = vmEntries v w h d := vmEntries_congr fun p => by rw [a1, b1, hc]
  refine ⟨⟨hw'.trans hw.symm, hh'.trans hh.symm, hwr'.trans hwr.symm, fun c' hc' => ?_⟩, ?_⟩
  · rw [hcl', vmChips, List.mem_map] at hc'
    obtain ⟨kv, hkv, rfl⟩ := hc'
    have hg := vm_inGrid hs d' (List.mem_map_of_mem (f := (·.1)) hkv)
    have hcores : chipCores d' kv.1 kv.2.2 = chipCores d kv.1 kv.2.2 := by
      obtain ⟨h1, h2⟩ := chipCores_spec d kv.1 kv.2.2
      obtain ⟨h3, h4⟩ := chipCores_spec d' kv.1 kv.2.2
      refine eq_of_sorted_mem h3 h1 fun q => ?_
      rw [h2, h4, a2, b2, hq]
    refine ⟨vmChip v w h d kv, ?_, ⟨rfl, rfl, rfl, hcores, rfl, rfl, rfl, rfl, rfl, rfl⟩, fun i l hll => ?_⟩
    · rw [hcl, vmChips, ← hent]; exact List.mem_map_of_mem hkv
    · have hmem := PDict.get?_mem hll
      simp only [vmChip, Chip.mk', List.mem_map, Prod.mk.injEq] at hmem
      obtain ⟨l', hl', hi, rfl⟩ := hmem
      have hin : l' ∈ vmLinks v w h d kv.1 := by
        unfold vmLinks at hl' ⊢
        rw [List.mem_filterMap] at hl' ⊢
        obtain ⟨dir, h1, h2⟩ := hl'
        refine ⟨dir, h1, ?_⟩
        simp only [hent] at h2 ⊢
        split at h2
        · rename_i hcond
          exact Eq.trans (if_pos ⟨fun hn => hcond.1 ((b3 kv.1 dir hg).2
            (((a3 kv.1 dir hg).1 hn).imp (hl _ _ hg) id)), hcond.2⟩) h2
        · simp at h2
      refine PDict.lookup_of_mem ?_ (List.mem_map.2 ⟨l', hin, by rw [hi]⟩)
      simp only [vmChip, Chip.mk', List.map_map]
      exact vmLinks_nodup v w h d kv.1
  · intro c' hc' c hc _
    rw [hcl', vmChips, List.mem_map] at hc'
    rw [hcl, vmChips, List.mem_map] at hc
    obtain ⟨kv, hkv, rfl⟩ := hc'
    obtain ⟨kv2, hkv2, rfl⟩ := hc
    rfl

/-- C72: repairing a virtual machine whose `down_links` names a link at one end only gives the
virtual machine with the link named at both ends (if that machine needs no repair): the same chips
with the same attributes and the same links. -/
theorem C72_repair_symmetric (v : Version) (cfg cfg' : DownCfg) (w h : Int) (validate validate' repair : Bool)
    (removed : List XY) (m ms m' : Machine)
    (hm : virtualMachine v cfg w h validate = .ok m) (hms : virtualMachine v cfg' w h validate' = .ok ms)
    (hb : BothEnds v.kind m.wrap w h cfg cfg') (hcons : Consistent ms)
    (hrep : machineRepair v repair removed m = some (.ok m')) :
    SubMachine m' ms ∧ SubMachine ms m' := by
  obtain ⟨hb1, hb2, hb3⟩ := hb
  obtain ⟨hr, hreal⟩ := vm_real hm
  obtain ⟨hrs, -⟩ := vm_real hms
  obtain ⟨hc1, hsub, hr', hreal', -⟩ := C38_result v w h repair removed m m' hr hreal hrep
  obtain ⟨hs, -, hwr, hw, hh, hcc, r, d, hdr, hcl⟩ := vm_facts hm
  obtain ⟨-, -, hwrs, hws, hhs, hccs, rs, ds, hdrs, hcls⟩ := vm_facts hms
  obtain ⟨-, -, -, -, -, r'⟩ := hr'.rep
  have hpos := hs.pos
  have hsm := vm_subMachine hm hms hb1 hb2 fun p dir hp hl => (hb3 p dir hp).2 (.inl hl)
  refine ⟨⟨hsub.1.trans (hw.trans hws.symm), hsub.2.1.trans (hh.trans hhs.symm),
    hsub.2.2.1.trans (hwr.trans hwrs.symm), fun c' hc' => ?_⟩,
    C38_maximal v w h repair removed m m' ms hr hreal hrep hrs hsm.1 hsm.2 hcons⟩
  obtain ⟨c, hcm, hsa, hsl⟩ := hsub.2.2.2 c' hc'
  -- the chip of the symmetric machine
  have hat : ms.isChipAt c.xy.1 c.xy.2 = true := by
    have := (C30_chips v cfg w h validate m hm c.xy).1
      ((isChipAt_iff r c.xy).2 (List.mem_map_of_mem hcm))
    exact (C30_chips v cfg' w h validate' ms hms c.xy).2 ⟨fun hn => this.1 ((hb1 _).1 hn), by
      rw [hwrs, ← hwr]; exact this.2⟩
  rw [isChipAt_iff rs c.xy, List.mem_map] at hat
  obtain ⟨cs, hcsm, hcsxy⟩ := hat
  obtain ⟨c2, hc2m, hsa2, hsl2⟩ := hsm.1.2.2.2 cs hcsm
  have hc2 : c2 = c := by
    refine eq_of_nodup_map r.nodup hc2m hcm (.trans ?_ hcsxy)
    exact Prod.ext hsa2.1.symm hsa2.2.1.symm
  subst hc2
  refine ⟨cs, hcsm, ?_, fun i l hil => ?_⟩
  · unfold SameAttributes at hsa hsa2 ⊢
    simp only [hsa, hsa2, and_self]
  · -- the link is two-way in the repaired machine, so both ends are up
    have hil2 := hsl i l hil
    have hhas : HasLink c2 i := List.mem_map.2 ⟨_, PDict.get?_mem hil2, rfl⟩
    obtain ⟨dir, hdir, hnd, hnu, q, hq, hqc⟩ := (C31_links v cfg w h validate m hm c2 hcm i).1 hhas
    obtain ⟨-, -, -, hover⟩ := C31_destinations v cfg w h validate m hm c2 hcm i l hil2
    subst hdir
    have hqe : q = (l.destX, l.destY) := by rw [hover] at hq; exact (Except.ok.inj hq).symm
    subst hqe
    have hback : ∃ n, m'.getChipAt l.destX l.destY = some n ∧ HasLink n (Router.opposite dir.id) := by
      by_cases hn : ∃ n, m'.getChipAt l.destX l.destY = some n ∧ HasLink n (Router.opposite dir.id)
      · exact hn
      · have := (C24_one_way_links v w h m' hr' c'.x c'.y dir.id (Router.opposite dir.id)).2
          ⟨c', dir, l, chip_at_of_mem r' hc', rfl, rfl, hil, hn⟩
        rw [hc1.links] at this
        simp at this
    obtain ⟨n', hn', hnl'⟩ := hback
    obtain ⟨hn'm, hn'x, hn'y⟩ := mem_of_chip_at r' hn'
    obtain ⟨n, hnm, hnsa, hnsl⟩ := hsub.2.2.2 n' hn'm
    have hnxy : n.xy = (l.destX, l.destY) := Prod.ext (hnsa.1.symm.trans hn'x) (hnsa.2.1.symm.trans hn'y)
    have hnl : HasLink n (Router.opposite dir.id) := by
      obtain ⟨l2, hl2⟩ := (hasLink_iff _ _).1 hnl'
      exact (hasLink_iff _ _).2 ⟨l2, hnsl _ _ hl2⟩
    obtain ⟨dir2, hdir2, hnd2, -⟩ := (C31_links v cfg w h validate m hm n hnm _).1 hnl
    have hgrid : InGrid w h c2.xy := vm_inGrid hs d (by
      rw [← vmChips_xy, ← hcl]; exact List.mem_map_of_mem hcm)
    have hup : ¬ LinkDown cfg' c2.xy dir.id := by
      rw [hb3 _ _ hgrid]
      rintro (h1 | ⟨q, h1, h2⟩)
      · exact hnd h1
      · have h3 : m.wrap.xyOverLink w h c2.x c2.y dir.id = .ok (l.destX, l.destY) := by
          rw [← hw, ← hh]; exact hover
        rw [show c2.xy.1 = c2.x from rfl, show c2.xy.2 = c2.y from rfl, h3, Except.ok.injEq] at h1
        subst h1
        rw [hnxy] at hnd2
        exact hnd2 h2
    have hhass : HasLink cs dir.id := by
      rw [C31_links v cfg' w h validate' ms hms cs hcsm]
      rw [hcsxy]
      refine ⟨dir, rfl, hup, hnu, (l.destX, l.destY), ?_, ?_⟩
      · have e1 : cs.x = c2.x := congrArg Prod.fst hcsxy
        have e2 : cs.y = c2.y := congrArg Prod.snd hcsxy
        rw [e1, e2, ← hover]
        unfold Machine.xyOverLink
        rw [hws, hhs, hwrs, hw, hh, hwr]
      · have := (C30_chips v cfg w h validate m hm (l.destX, l.destY)).1 hqc
        exact (C30_chips v cfg' w h validate' ms hms (l.destX, l.destY)).2 ⟨fun hn => this.1 ((hb1 _).1 hn), by
          rw [hwrs, ← hwr]; exact this.2⟩
    obtain ⟨l2, hl2⟩ := (hasLink_iff _ _).1 hhass
    have h3 := hsl2 _ _ hl2
    rw [hil2, Option.some.injEq] at h3
    rw [h3]
    exact hl2

/-- settings that list the same in another order and twice, one of them with the address of another
board -/
def exDown1 : DownCfg := { chips := some "1,1:2,3".toList }
/-- the other one -/
def exDown2 : DownCfg := { chips := some "2,3:1,1:2,3:4,4,127.0.0.0".toList }

theorem exDown_chips (p : XY) : (ChipDown exDown1 p ↔ p = (1, 1) ∨ p = (2, 3)) ∧
    (ChipDown exDown2 p ↔ p = (1, 1) ∨ p = (2, 3)) := by
  have h3 : IgnoreChip.parseString exDown1.chips = .ok [⟨1, 1, none⟩, ⟨2, 3, none⟩] := by decide +kernel
  have h4 : IgnoreChip.parseString exDown2.chips =
    .ok [⟨2, 3, none⟩, ⟨1, 1, none⟩, ⟨4, 4, some "127.0.0.0".toList⟩] := by decide +kernel
  obtain ⟨x, y⟩ := p
  simp only [ChipDown, h3, h4, Except.ok.injEq, exists_eq_left', List.mem_cons, List.not_mem_nil, or_false,
    exists_eq_or_imp, exists_eq_left, Prod.mk.injEq]
  grind

example : Readable .v5 exDown1 ∧ Readable .v5 exDown2 ∧ DownAtMost .v5 exDown1 exDown2 ∧
    DownAtMost .v5 exDown2 exDown1 := by
  have h : IgnoreLink.parseString none = .ok [] := by rfl
  have h2 : IgnoreCore.parseString .v5 none = .ok [] := by rfl
  have h3 : IgnoreChip.parseString exDown1.chips = .ok [⟨1, 1, none⟩, ⟨2, 3, none⟩] := by decide +kernel
  have h4 : IgnoreChip.parseString exDown2.chips =
    .ok [⟨2, 3, none⟩, ⟨1, 1, none⟩, ⟨4, 4, some "127.0.0.0".toList⟩] := by decide +kernel
  refine ⟨⟨⟨_, h3⟩, ⟨_, h⟩, _, h2, by simp⟩, ⟨⟨_, h4⟩, ⟨_, h⟩, _, h2, by simp⟩, ⟨fun p hp => ?_, fun p i hp => ?_, fun p i hp => ?_⟩,
    ⟨fun p hp => ?_, fun p i hp => ?_, fun p i hp => ?_⟩⟩
  · exact (exDown_chips p).2.2 ((exDown_chips p).1.1 hp)
  · exact hp
  · exact hp
  · exact (exDown_chips p).1.2 ((exDown_chips p).2.1 hp)
  · exact hp
  · exact hp

/-- a link listed at one end, and at both ends -/
def exOneEnd : DownCfg := { links := some "0,0,0".toList }
/-- the other one -/
def exTwoEnds : DownCfg := { links := some "0,0,0:1,0,3".toList }

theorem exEnds_links (p : XY) (i : Int) : (LinkDown exOneEnd p i ↔ p = (0, 0) ∧ i = 0) ∧
    (LinkDown exTwoEnds p i ↔ p = (0, 0) ∧ i = 0 ∨ p = (1, 0) ∧ i = 3) := by
  have h3 : IgnoreLink.parseString exOneEnd.links = .ok [⟨0, 0, 0, none⟩] := by decide +kernel
  have h4 : IgnoreLink.parseString exTwoEnds.links = .ok [⟨0, 0, 0, none⟩, ⟨1, 0, 3, none⟩] := by decide +kernel
  obtain ⟨x, y⟩ := p
  simp only [LinkDown, h3, h4, Except.ok.injEq, exists_eq_left', List.mem_cons, List.not_mem_nil, or_false,
    exists_eq_or_imp, exists_eq_left, Prod.mk.injEq]
  grind

/-- a four chip board -/
def exSmall : Version := { kind := .v3, maxCores := 18, maxSdram := 123469792 }

/-- the case of `C72_repair_symmetric`: on a four chip board the link is found and removed -/
example : ∃ m ms m', virtualMachine exSmall exOneEnd 2 2 true = .ok m ∧
    virtualMachine exSmall exTwoEnds 2 2 true = .ok ms ∧
    BothEnds .v3 m.wrap 2 2 exOneEnd exTwoEnds ∧ Consistent ms ∧
    machineRepair exSmall true [] m = some (.ok m') ∧ m.oneWayLinks ≠ [] := by
  have h : (match virtualMachine exSmall exOneEnd 2 2 true with
      | .ok m => decide (repairFind true [] m = .ok { deadLinks := [(1, 0, 3, 0)] }) &&
          decide (m.oneWayLinks = [(1, 0, 3, 0)]) &&
          (match machineIgnore exSmall m [] [(1, 0, 3, 0)] with
            | .ok m' => decide (repairFind true [] m' = .ok {})
            | .error _ => false)
      | .error _ => false) = true := by decide +kernel
  have h' : (match virtualMachine exSmall exTwoEnds 2 2 true with
      | .ok ms => decide (repairFind true [] ms = .ok {})
      | .error _ => false) = true := by decide +kernel
  cases h1 : virtualMachine exSmall exOneEnd 2 2 true with
  | error e => rw [h1] at h; simp at h
  | ok m =>
    cases h2 : virtualMachine exSmall exTwoEnds 2 2 true with
    | error e => rw [h2] at h'; simp at h'
    | ok ms =>
      rw [h1] at h
      rw [h2] at h'
      simp only at h
      simp only [decide_eq_true_eq] at h'
      cases h3 : machineIgnore exSmall m [] [(1, 0, 3, 0)] with
      | error e => rw [h3] at h; simp at h
      | ok m' =>
        rw [h3] at h
        simp only [Bool.and_eq_true, decide_eq_true_eq] at h
        obtain ⟨⟨h4, h5⟩, h6⟩ := h
        obtain ⟨-, -, hwr, -⟩ := vm_facts h1
        refine ⟨m, ms, m', rfl, rfl, ⟨fun p => .rfl, fun p q => .rfl, fun p dir hp => ?_⟩,
          consistent_of_done h' (by simp) rfl rfl, ?_, by rw [h5]; simp⟩
        · rw [show m.wrap = VKind.v3.wrapFor 2 2 from hwr]
          simp only [(exEnds_links _ _).1, (exEnds_links _ _).2]
          obtain ⟨x, y⟩ := p
          unfold InGrid at hp
          simp only at hp
          have hx : x = 0 ∨ x = 1 := by omega
          have hy : y = 0 ∨ y = 1 := by omega
          have ht : ∀ (x y : Int) (dir : Dir),
              (∃ q, (VKind.v3.wrapFor 2 2).xyOverLink 2 2 x y dir.id = .ok q ∧ q = (0, 0) ∧ Router.opposite dir.id = 0) ↔
              (VKind.v3.wrapFor 2 2).xyOverLink 2 2 x y dir.id = .ok (0, 0) ∧ Router.opposite dir.id = 0 := by
            intro x y dir
            constructor
            · rintro ⟨q, h1, rfl, h2⟩; exact ⟨h1, h2⟩
            · rintro ⟨h1, h2⟩; exact ⟨_, h1, rfl, h2⟩
          rw [ht]
          rcases hx with rfl | rfl <;> rcases hy with rfl | rfl <;> cases dir <;> decide +kernel
        · rw [machineRepair, h4]
          simp only [Bool.not_true, Bool.false_and, Bool.false_eq_true, if_false]
          rw [if_neg (by simp), h3]
          simp only
          rw [machineRepair, h6]
          simp

end SpiNN.Props
