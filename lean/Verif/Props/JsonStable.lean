import Verif.Props.Json
import Verif.Props.JsonRead

/-!
# Writing and reading again changes nothing more (C73)
-/

namespace SpiNN.Props
open SpiNN SpiNN.Spec

/-- the chips read back -/
theorem rebuilt_chips {v : Version} {w h : Int} {m m' : Machine} (hr : Reachable v w h m) {j : Json}
    (hj : toJson m = .ok j) (hm' : machineFromJson v j = .ok m') :
    (∀ c ∈ m.chipList, c.nScamp = 1) ∧ m'.chipList = m.chipList.map (jChip m) ∧
    m'.width = m.width ∧ m'.height = m.height ∧ Rep m' m'.chipList ∧ Reachable v w h m' := by
  have hmon : ∀ c ∈ m.chipList, c.nScamp = 1 := by
    intro c hc
    by_cases hn : c.nScamp = 1
    · exact hn
    · rw [C41_monitors_refused v w h m hr j hj c hc hn] at hm'
      simp at hm'
  obtain ⟨hs, hwr, hw, hh, -, r⟩ := hr.rep
  have hpos := hs.pos
  refine ⟨hmon, ?_⟩
  obtain ⟨-, -, m00, h00, hrun⟩ := C66_read v j m' hm'
  have hreach : Reachable v m'.width m'.height m' := ⟨_, _, _, h00, hrun⟩
  obtain ⟨-, -, -, -, -, r'⟩ := hreach.rep
  rw [toJson_eq] at hj
  cases hb : m.chips.get? (0, 0) with
  | none => simp [hb] at hj
  | some boot =>
  cases hstd : stdOf m boot with
  | none => simp [hb, hstd] at hj
  | some std =>
  simp only [hb, hstd, Except.ok.injEq] at hj
  subst hj
  rw [machineFromJson_doc] at hm'
  obtain ⟨m₀, hm₀⟩ := (C12_accepts_exactly v.kind (some m.width) (some m.height) "Json").2
    ⟨_, _, rfl, rfl, by rw [hw, hh]; exact hs⟩
  have hm₀' := hm₀
  rw [hw, hh] at hm₀'
  obtain ⟨-, rfl⟩ := createMachine_ok hm₀'
  have r0 := Rep.new (v.kind.wrapFor w h) w h v.kind.chipCoreMap "Json"
  obtain ⟨m₁, h1, r1, hf⟩ := readChips_ok std (descOf boot) m.chipList _ [] r0 hpos.1 hpos.2
    (by simpa using r.nodup) hmon
  rw [hm₀] at hm'
  simp only at hm'
  rw [h1] at hm'
  simp only [List.nil_append, Except.ok.injEq] at r1 hm'
  have hmap : m.chipList.map (jChip (Machine.new (v.kind.wrapFor w h) w h v.kind.chipCoreMap "Json")) =
      m.chipList.map (jChip m) := List.map_congr_left fun c _ => by
        simp [jChip, jLinks, Machine.new, hwr, hw, hh]
  rw [hmap] at r1
  have r2 := (r1.of_onlySpin (onlySpin v m₁)).of_onlyFpga (onlyFpga v _)
  obtain ⟨t1, ht1⟩ := onlySpin v m₁
  obtain ⟨t2, ht2⟩ := onlyFpga v (m₁.addSpinnakerLinks v)
  have hfin : SameFrame m₁ ((m₁.addSpinnakerLinks v).addFpgaLinks v) := by
    rw [ht2, ht1]; exact ⟨rfl, rfl, rfl, rfl, rfl⟩
  obtain ⟨-, g2, g3, -, -⟩ := hf.trans hfin
  rw [hm'] at g2 g3 r2
  have e1 : m'.width = w := g2
  have e2 : m'.height = h := g3
  rw [e1, e2] at hreach
  exact ⟨r2.values, e1.trans hw.symm, e2.trans hh.symm, r', hreach⟩

theorem jChip_nProcessors (m : Machine) {c : Chip} (h1 : c.nScamp = 1) : (jChip m c).nProcessors = c.nProcessors := by
  unfold Chip.nScamp at h1
  simp only [jChip, Chip.nProcessors, h1, pyRange2, List.length_map, List.length_range, List.length_singleton]
  omega

theorem intValue_intValue (e : Int) : intValue (intValue e) = intValue e := by
  unfold intValue javaMaxInt; grind

theorem descOf_jChip (m : Machine) {c : Chip} (h1 : c.nScamp = 1) (ht : c.tags.Nodup) :
    descOf (jChip m c) = descOf c := by
  have hp := jChip_nProcessors m h1
  unfold descOf
  have : (jChip m c).nProcessors - (jChip m c).nPlacable = c.nProcessors - c.nPlacable := by
    unfold Chip.nScamp at h1
    have h2 : (jChip m c).scamp.length = 1 := rfl
    simp only [Chip.nProcessors, Chip.nPlacable] at hp ⊢
    omega
  rw [this]
  have ht' : (jChip m c).tags = c.tags := orderedSet_of_nodup ht
  rw [ht', show (jChip m c).router.nEntries = intValue c.router.nEntries from rfl, intValue_intValue]
  rfl

theorem isLink_jChip (m : Machine) (hw : 0 < m.width) (hh : 0 < m.height) (c : Chip) (d : Dir) :
    (jChip m c).router.isLink d.id = c.router.isLink d.id := by
  rw [Bool.eq_iff_iff]
  have h : ∀ c : Chip, c.router.isLink d.id = true ↔ HasLink c d.id := by
    intro c
    rw [Router.isLink, PDict.contains_iff]
    exact .rfl
  rw [h, h, hasLink_iff]
  constructor
  · rintro ⟨l, hl⟩
    rw [jGetLink m hw hh] at hl
    obtain ⟨-, -, hl, -⟩ := hl
    exact hl
  · intro hl
    refine ⟨{ sourceX := c.x, sourceY := c.y, sourceLinkId := d.id
              destX := (m.wrap.red m.width m.height (c.x + d.dx, c.y + d.dy)).1
              destY := (m.wrap.red m.width m.height (c.x + d.dx, c.y + d.dy)).2 }, ?_⟩
    rw [jGetLink m hw hh]
    exact ⟨d, rfl, hl, rfl, rfl, xyOverLink_dir' m hw hh _ _ _⟩

theorem describe_jChip (m : Machine) (hw : 0 < m.width) (hh : 0 < m.height) {c : Chip} (h1 : c.nScamp = 1)
    (ht : c.tags.Nodup) (std eth : JDesc) : describeChip (jChip m c) std eth = describeChip c std eth := by
  have hd : jDetails (jChip m c) = jDetails c := by
    unfold jDetails
    have hdead : ((pyRange Router.maxLinks).filter fun i => !(jChip m c).router.isLink i) =
        (pyRange Router.maxLinks).filter fun i => !c.router.isLink i := by
      refine List.filter_congr fun i hi => ?_
      have : 0 ≤ i ∧ i < 6 := by simpa [Router.maxLinks, mem_pyRange] using hi
      obtain ⟨d, rfl⟩ := dir_of_range this.1 this.2
      rw [isLink_jChip m hw hh]
    rw [hdead, jChip_nProcessors m h1]
    rfl
  have hx : ∀ d, jExceptions (jChip m c) d = jExceptions c d := by
    intro d
    unfold jExceptions
    have h2 : (jChip m c).nScamp = c.nScamp := by rw [h1]; rfl
    have ht' : (jChip m c).tags = c.tags := orderedSet_of_nodup ht
    rw [h2, ht', show (jChip m c).router.nEntries = intValue c.router.nEntries from rfl, intValue_intValue]
    rfl
  unfold describeChip
  rw [hd, hx]
  rfl

/-- C73: writing the machine that was read back gives the same document again. -/
theorem C73_stable (v : Version) (w h : Int) (m m' : Machine) (hr : Reachable v w h m)
    (htag : ∀ c ∈ m.chipList, c.tags.Nodup) (j : Json) (hj : toJson m = .ok j)
    (hm' : machineFromJson v j = .ok m') : toJson m' = .ok j := by
  obtain ⟨hmon, hcl, hw, hh, r', -⟩ := rebuilt_chips hr hj hm'
  obtain ⟨hs, -, hmw, hmh, -, r⟩ := hr.rep
  have hpos := hs.pos
  rw [toJson_eq] at hj ⊢
  cases hb : m.chips.get? (0, 0) with
  | none => simp [hb] at hj
  | some boot =>
  obtain ⟨hbm, hbx, hby⟩ := mem_of_chip_at r (x := 0) (y := 0) hb
  have hb' : m'.chips.get? (0, 0) = some (jChip m boot) := by
    have hmem : jChip m boot ∈ m'.chipList := by rw [hcl]; exact List.mem_map_of_mem hbm
    have := chip_at_of_mem r' hmem
    rw [show (jChip m boot).x = 0 from hbx, show (jChip m boot).y = 0 from hby] at this
    exact this
  have hdb := descOf_jChip m (hmon boot hbm) (htag boot hbm)
  have hlen : ∀ m : Machine, m.nChips = m.chipList.length := by
    intro m; simp [Machine.nChips, Machine.chipList, PDict.values, PDict.size]
  have hstd : stdOf m' (jChip m boot) = stdOf m boot := by
    unfold stdOf
    rw [hdb, hlen, hlen, hcl, List.length_map, List.find?_map]
    split
    · rw [Option.map_map]
      have : ((fun c : Chip => c.ip.isNone) ∘ jChip m) = fun c => c.ip.isNone := rfl
      rw [this]
      cases hf : m.chipList.find? fun c => c.ip.isNone with
      | none => rfl
      | some c =>
        have hc := List.mem_of_find?_eq_some hf
        simp only [Option.map_some, Function.comp, descOf_jChip m (hmon c hc) (htag c hc)]
    · rfl
  rw [hb']
  simp only [hstd, hdb]
  rw [hb] at hj
  simp only at hj
  cases hst : stdOf m boot with
  | none => simp [hst] at hj
  | some std =>
    rw [hst] at hj
    simp only [Except.ok.injEq] at hj
    subst hj
    simp only [Except.ok.injEq]
    unfold docOf
    rw [hw, hh, hcl, List.map_map]
    congr 9
    refine List.map_congr_left fun c hc => ?_
    exact describe_jChip m (by omega) (by omega) (hmon c hc) (htag c hc) _ _

/-- C73: whatever document a machine was read from, what is written for it reads back as the same
machine (unless it has more than 2147483647 router entries), and from then on the document stays the
same. -/
theorem C73_normal_form (v : Version) (j₀ j : Json) (m : Machine) (hm : machineFromJson v j₀ = .ok m)
    (hj : toJson m = .ok j) :
    ∃ m', machineFromJson v j = .ok m' ∧ toJson m' = .ok j ∧ m'.width = m.width ∧ m'.height = m.height ∧
      m'.chipCoordinates = m.chipCoordinates ∧
      ∀ c ∈ m.chipList, c.router.nEntries ≤ 2147483647 → ∃ c', m'.getChipAt c.x c.y = some c' ∧ SameChip c c' := by
  obtain ⟨hd, hn, m₀, h0, hrun⟩ := C66_read v j₀ m hm
  have hr : Reachable v m.width m.height m := ⟨_, _, _, h0, hrun⟩
  obtain ⟨d1, d2, std, eth, es, d3, d4, d5, d6, d7, d8, d9⟩ := hd
  have hdoc : ∀ c ∈ m.chipList, ∃ cj, DocChip m std eth cj c := by
    intro c hc
    obtain ⟨k, hk⟩ := List.mem_iff_getElem?.1 hc
    have hlt := (List.getElem?_eq_some_iff.1 hk).1
    exact ⟨es[k]'(by omega), d9 k _ _ (by simp) hk⟩
  have hmon : ∀ c ∈ m.chipList, c.scamp = [0] := fun c hc => by
    obtain ⟨cj, q⟩ := hdoc c hc
    obtain ⟨n, -, h1, -⟩ := q.cores
    exact h1
  have htag : ∀ c ∈ m.chipList, c.tags.Nodup := fun c hc => by
    obtain ⟨cj, q⟩ := hdoc c hc
    obtain ⟨js, ts, -, -, -, h1⟩ := q.tags
    rw [h1, ← orderedSet_eraseDups]
    exact (orderedSet_spec ts).1
  obtain ⟨m', h1, -, h2, h3, -, h5, h6⟩ := C41_rebuilt v _ _ m hr j hj
    (fun c hc => by simp [Chip.nScamp, hmon c hc]) htag
  refine ⟨m', h1, C73_stable v _ _ m m' hr htag j hj h1, h2, h3, h5, fun c hc hent => ?_⟩
  obtain ⟨c', g1, -, -, -, -, -, -, -, g2⟩ := h6 c hc
  refine ⟨c', g1, g2.2 ⟨hmon c hc, ?_, hent, ?_⟩⟩
  · obtain ⟨cj, q⟩ := hdoc c hc
    obtain ⟨n, -, -, hp⟩ := q.cores
    intro k p hk
    rw [hp] at hk
    split at hk
    · simpa using hk.symm
    · simp at hk
  · obtain ⟨cj, q⟩ := hdoc c hc
    obtain ⟨dead, -, hl⟩ := q.links
    intro i l hil
    obtain ⟨a1, a2, -, a3, a4, a5⟩ := (hl i l).1 hil
    exact ⟨a1, a2, a3, a4, a5⟩

/-- the case of both theorems: the document of the example of C66 is read, written (differently), and read again -/
example : ∃ m j m', machineFromJson exV5 exDoc = .ok m ∧ toJson m = .ok j ∧ machineFromJson exV5 j = .ok m' ∧
    jKey j "width" ≠ jKey exDoc "width" := by
  cases hm : machineFromJson exV5 exDoc with
  | error e =>
    have h : (match machineFromJson exV5 exDoc with | .ok _ => true | .error _ => false) = true := by decide +kernel
    rw [hm] at h; simp at h
  | ok m =>
    cases hj : toJson m with
    | error e =>
      have h : (match machineFromJson exV5 exDoc with
        | .ok m => (match toJson m with | .ok _ => true | .error _ => false)
        | .error _ => false) = true := by decide +kernel
      rw [hm] at h; simp [hj] at h
    | ok j =>
      obtain ⟨m', h1, -⟩ := C73_normal_form exV5 exDoc j m hm hj
      refine ⟨m, j, m', rfl, hj, h1, ?_⟩
      rw [toJson_eq] at hj
      split at hj
      · simp at hj
      · split at hj
        · simp at hj
        · simp only [Except.ok.injEq] at hj
          rw [← hj]
          simp [docOf, jKey, exDoc]

end SpiNN.Props
