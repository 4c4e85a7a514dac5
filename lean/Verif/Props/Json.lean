import Verif.Lemmas.Json
import Verif.Props.VirtualMachine

namespace SpiNN.Props
open SpiNN SpiNN.Spec

/-! ## C41 -/

theorem pyRange2_getElem (n : Int) (i : Nat) :
    (pyRange2 1 n)[i]? = if (i : Int) + 1 < n then some ((i : Int) + 1) else none := by
  unfold pyRange2
  rw [List.getElem?_map]
  by_cases h : (i : Int) + 1 < n
  · rw [if_pos h, List.getElem?_range (by omega)]
    simp; omega
  · rw [if_neg h, List.getElem?_eq_none (by simp; omega)]
    rfl

/-- cores 1, 2, 3, … -/
theorem placable_iff (l : List Int) (s : Nat) (hs : s = 1) :
    pyRange2 1 ((s : Int) + (l.length : Int)) = l ↔ ∀ (n : Nat) (p : Int), l[n]? = some p → p = n + 1 := by
  subst hs
  constructor
  · intro h n p hp
    rw [← h, pyRange2_getElem] at hp
    split at hp
    · simpa using hp.symm
    · simp at hp
  · intro h
    apply List.ext_getElem?
    intro i
    rw [pyRange2_getElem]
    by_cases hi : i < l.length
    · rw [if_pos (by omega)]
      have := h i l[i] (by simp [hi])
      simp [hi, this]
    · rw [if_neg (by omega), List.getElem?_eq_none (by omega)]

/-- a link of the rebuilt chip -/
theorem jGetLink (m : Machine) (hw : 0 < m.width) (hh : 0 < m.height) (c : Chip) (i : Int) (l : Link) :
    (jChip m c).router.getLink i = some l ↔ ∃ d : Dir, i = d.id ∧ HasLink c i ∧ l.sourceLinkId = i ∧
      (l.sourceX, l.sourceY) = c.xy ∧ m.xyOverLink c.x c.y i = .ok (l.destX, l.destY) := by
  have hwf : (jChip m c).router.links.WF := by
    unfold PDict.WF jChip
    simpa [PDict.keys, Function.comp_def] using jLinks_nodup m c
  rw [Router.getLink, ← PDict.mem_items_iff hwf]
  simp only [jChip, jLinks, List.mem_map, List.mem_filter, List.map_map, Function.comp, HasLink]
  constructor
  · rintro ⟨d, ⟨-, hd⟩, he⟩
    simp only [Prod.mk.injEq] at he
    obtain ⟨rfl, rfl⟩ := he
    refine ⟨d, rfl, ?_, rfl, rfl, ?_⟩
    · have := (PDict.contains_iff _ _).1 hd
      simpa [PDict.keys, Router.iter] using this
    · rw [xyOverLink_dir' m hw hh]
  · rintro ⟨d, rfl, hl, h1, h2, h3⟩
    refine ⟨d, ⟨mem_allDirs' d, ?_⟩, ?_⟩
    · rw [Router.isLink, PDict.contains_iff]
      simpa [PDict.keys, Router.iter] using hl
    · rw [xyOverLink_dir' m hw hh] at h3
      simp only [Except.ok.injEq] at h3
      simp only [Chip.xy, Prod.mk.injEq] at h2
      obtain ⟨a, b, e, x, y⟩ := l
      simp only at h1 h2 h3
      simp [h1, h2, h3]

theorem dir_of_range {i : Int} (h0 : 0 ≤ i) (h6 : i < 6) : ∃ d : Dir, i = d.id := by
  have : i = 0 ∨ i = 1 ∨ i = 2 ∨ i = 3 ∨ i = 4 ∨ i = 5 := by omega
  rcases this with h | h | h | h | h | h
  · exact ⟨.E, h⟩
  · exact ⟨.NE, h⟩
  · exact ⟨.N, h⟩
  · exact ⟨.W, h⟩
  · exact ⟨.SW, h⟩
  · exact ⟨.S, h⟩

theorem hasLink_iff (c : Chip) (i : Int) : HasLink c i ↔ ∃ l, c.router.getLink i = some l := by
  unfold HasLink Router.getLink Router.iter
  rw [← PDict.mem_keys_iff]; rfl

/-- a rebuilt chip is the same exactly if the format can represent the chip -/
theorem sameChip_iff (m : Machine) (hw : 0 < m.width) (hh : 0 < m.height) (c : Chip)
    (h1 : c.nScamp = 1) (ht : c.tags.Nodup) : SameChip c (jChip m c) ↔ JsonChip m c := by
  have hs : c.scamp.length = 1 := by unfold Chip.nScamp at h1; omega
  have hint : ∀ e : Int, intValue e = e ↔ e ≤ 2147483647 := by
    intro e; unfold intValue javaMaxInt; split <;> omega
  constructor
  · intro h
    refine ⟨h.scamp.symm, ?_, (hint _).1 h.entries, ?_⟩
    · exact (placable_iff _ _ hs).1 h.placable
    · intro i l hl
      rw [← h.links i, jGetLink m hw hh] at hl
      obtain ⟨d, rfl, -, h2, h3, h4⟩ := hl
      refine ⟨?_, ?_, h2, h3, h4⟩ <;> cases d <;> decide
  · intro h
    refine ⟨rfl, h.scamp.symm, (placable_iff _ _ hs).2 h.placable, rfl, (hint _).2 h.entries, rfl, rfl,
      orderedSet_of_nodup ht, ?_⟩
    intro i
    cases hl : c.router.getLink i with
    | some l =>
      rw [jGetLink m hw hh]
      obtain ⟨g1, g2, g3, g4, g5⟩ := h.links i l hl
      obtain ⟨d, rfl⟩ := dir_of_range g1 g2
      exact ⟨d, rfl, (hasLink_iff _ _).2 ⟨l, hl⟩, g3, g4, g5⟩
    | none =>
      cases hj : (jChip m c).router.getLink i with
      | none => rfl
      | some l =>
        rw [jGetLink m hw hh] at hj
        obtain ⟨-, -, hl', -⟩ := hj
        obtain ⟨l', hl'⟩ := (hasLink_iff _ _).1 hl'
        rw [hl] at hl'
        simp at hl'

/-- C41: `to_json` writes a machine exactly if it has a chip at (0, 0) and either that is the only
chip or some chip is not an Ethernet chip; otherwise it raises KeyError (no boot chip) or ValueError. -/
theorem C41_written (v : Version) (w h : Int) (m : Machine) (hr : Reachable v w h m) :
    ((∃ j, toJson m = .ok j) ↔ m.isChipAt 0 0 = true ∧ (m.nChips = 1 ∨ ∃ c ∈ m.chipList, c.ip = none)) ∧
    (m.isChipAt 0 0 = false → toJson m = .error .keyError) ∧
    (m.isChipAt 0 0 = true → m.nChips ≠ 1 → (∀ c ∈ m.chipList, c.ip ≠ none) → toJson m = .error .valueError) := by
  obtain ⟨-, -, -, -, -, r⟩ := hr.rep
  have hlen : m.nChips = m.chipList.length := by simp [Machine.nChips, Machine.chipList, PDict.values, PDict.size]
  rw [toJson_eq]
  unfold Machine.isChipAt PDict.contains
  cases hb : m.chips.get? (0, 0) with
  | none => simp
  | some boot =>
    have hpos : 0 < m.nChips := by
      have := PDict.get?_mem hb
      simp only [Machine.nChips, PDict.size]
      exact List.length_pos_of_mem this
    simp only [stdOf]
    by_cases h1 : m.nChips > 1
    · have hne : m.nChips ≠ 1 := by omega
      simp only [h1, if_true, hne, false_or, Option.isSome_some, true_and]
      cases hf : m.chipList.find? fun c => c.ip.isNone with
      | some c =>
        have hc := List.mem_of_find?_eq_some hf
        have hc2 := List.find?_some hf
        simp only [Option.isNone_iff_eq_none] at hc2
        simp only [Option.map_some]
        refine ⟨⟨fun _ => ⟨c, hc, hc2⟩, fun _ => ⟨_, rfl⟩⟩, by simp, fun _ _ hx => absurd hc2 (hx c hc)⟩
      | none =>
        simp only [Option.map_none]
        rw [List.find?_eq_none] at hf
        refine ⟨⟨by simp, ?_⟩, by simp, fun _ _ _ => trivial⟩
        rintro ⟨c, hc, hc2⟩
        exact absurd (by simp [hc2]) (hf c hc)
    · have he : m.nChips = 1 := by omega
      simp [he]

/-- C41: what is rebuilt. If every chip has one monitor, the document is read back to a machine of
the same size and wrap, with chips at the same coordinates in the same order. Position, SDRAM, nearest
Ethernet, IP address, tags, the number of cores and the ids of the six standard links are always
kept; the chip is the same in everything exactly if the format can represent it (`JsonChip`). -/
theorem C41_rebuilt (v : Version) (w h : Int) (m : Machine) (hr : Reachable v w h m) (j : Json)
    (hj : toJson m = .ok j) (hmon : ∀ c ∈ m.chipList, c.nScamp = 1) (htag : ∀ c ∈ m.chipList, c.tags.Nodup) :
    ∃ m', machineFromJson v j = .ok m' ∧ Reachable v w h m' ∧
      m'.width = m.width ∧ m'.height = m.height ∧ m'.wrap = m.wrap ∧
      m'.chipCoordinates = m.chipCoordinates ∧
      ∀ c ∈ m.chipList, ∃ c', m'.getChipAt c.x c.y = some c' ∧
        c'.xy = c.xy ∧ c'.sdram = c.sdram ∧ (c'.ethX, c'.ethY) = (c.ethX, c.ethY) ∧ c'.ip = c.ip ∧
        c'.tags = c.tags ∧ c'.nProcessors = c.nProcessors ∧
        (∀ d : Dir, HasLink c' d.id ↔ HasLink c d.id) ∧
        (SameChip c c' ↔ JsonChip m c) := by
  obtain ⟨hs, hwr, hw, hh, -, r⟩ := hr.rep
  have hpos := hs.pos
  rw [toJson_eq] at hj
  cases hb : m.chips.get? (0, 0) with
  | none => simp [hb] at hj
  | some boot =>
  cases hstd : stdOf m boot with
  | none => simp [hb, hstd] at hj
  | some std =>
  simp only [hb, hstd, Except.ok.injEq] at hj
  subst hj
  rw [machineFromJson_doc]
  obtain ⟨m₀, hm₀⟩ := (C12_accepts_exactly v.kind (some m.width) (some m.height) "Json").2
    ⟨_, _, rfl, rfl, by rw [hw, hh]; exact hs⟩
  have hm₀' := hm₀
  rw [hw, hh] at hm₀'
  obtain ⟨-, rfl⟩ := createMachine_ok hm₀'
  have r0 := Rep.new (v.kind.wrapFor w h) w h v.kind.chipCoreMap "Json"
  obtain ⟨m₁, h1, r1, hf⟩ := readChips_ok std (descOf boot) m.chipList _ [] r0 hpos.1 hpos.2
    (by simpa using r.nodup) hmon
  rw [hm₀]
  simp only
  rw [h1]
  simp only [List.nil_append] at r1
  have hcongr : ∀ c, jChip (Machine.new (v.kind.wrapFor w h) w h v.kind.chipCoreMap "Json") c = jChip m c := by
    intro c; simp [jChip, jLinks, Machine.new, hwr, hw, hh]
  have hmap : m.chipList.map (jChip (Machine.new (v.kind.wrapFor w h) w h v.kind.chipCoreMap "Json")) =
      m.chipList.map (jChip m) := List.map_congr_left fun c _ => hcongr c
  rw [hmap] at r1
  have r2 := (r1.of_onlySpin (onlySpin v m₁)).of_onlyFpga (onlyFpga v _)
  obtain ⟨t1, ht1⟩ := onlySpin v m₁
  obtain ⟨t2, ht2⟩ := onlyFpga v (m₁.addSpinnakerLinks v)
  have hfin : SameFrame m₁ ((m₁.addSpinnakerLinks v).addFpgaLinks v) := by
    rw [ht2, ht1]; exact ⟨rfl, rfl, rfl, rfl, rfl⟩
  obtain ⟨g1, g2, g3, -, -⟩ := hf.trans hfin
  refine ⟨_, rfl, ?_, g2.trans hw.symm, g3.trans hh.symm, g1.trans hwr.symm, ?_, ?_⟩
  · have hadd : ∀ (cs : List Chip) (a b : Machine), readChips (resOf std) (resOf (descOf boot))
        (cs.map fun c => describeChip c std (descOf boot)) a = .ok b →
        ∃ ops, b = (run v a ops).1 := by
      intro cs
      induction cs with
      | nil =>
        intro a b hab
        simp only [List.map_nil, readChips, Except.ok.injEq] at hab
        exact ⟨[], hab.symm⟩
      | cons c t ih =>
        intro a b hab
        rw [List.map_cons, readChips] at hab
        cases hc : readChip a (resOf std) (resOf (descOf boot)) (describeChip c std (descOf boot)) with
        | error e => simp [hc, bind, Except.bind] at hab
        | ok c' =>
          cases ha : a.addChip c' with
          | error e => simp [hc, ha, bind, Except.bind] at hab
          | ok a' =>
            simp only [hc, ha, bind, Except.bind] at hab
            obtain ⟨ops, hops⟩ := ih a' b hab
            refine ⟨.addChip c' :: ops, ?_⟩
            simp only [run, step, ha]
            exact hops
    obtain ⟨ops, hops⟩ := hadd _ _ _ h1
    refine ⟨"Json", ops ++ [.addSpinnakerLinks, .addFpgaLinks], _, hm₀', ?_⟩
    have hrun : ∀ (os os' : List Op) (a : Machine), (run v a (os ++ os')).1 = (run v (run v a os).1 os').1 := by
      intro os
      induction os with
      | nil => intro os' a; rfl
      | cons o t ih => intro os' a; simp only [List.cons_append, run]; exact ih os' _
    rw [hrun, ← hops]
    rfl
  · unfold Machine.chipCoordinates
    rw [r2.keys, r.keys]
    simp [Function.comp_def, jChip_xy]
  · intro c hc
    refine ⟨jChip m c, ?_, rfl, rfl, rfl, rfl, orderedSet_of_nodup (htag c hc), ?_, ?_,
      sameChip_iff m (by omega) (by omega) c (hmon c hc) (htag c hc)⟩
    · unfold Machine.getChipAt
      rw [r2.get?]
      have : jChip m c ∈ m.chipList.map (jChip m) := List.mem_map_of_mem hc
      exact Chips.at_of_mem r2.nodup this
    · have h1 := hmon c hc
      unfold Chip.nScamp at h1
      simp only [jChip, Chip.nProcessors, h1, pyRange2, List.length_map, List.length_range, List.length_singleton]
      omega
    · intro d
      rw [hasLink_iff]
      constructor
      · rintro ⟨l, hl⟩
        rw [jGetLink m (by omega) (by omega)] at hl
        obtain ⟨-, -, hl, -⟩ := hl
        exact hl
      · intro hl
        refine ⟨{ sourceX := c.x, sourceY := c.y, sourceLinkId := d.id
                  destX := (m.wrap.red m.width m.height (c.x + d.dx, c.y + d.dy)).1
                  destY := (m.wrap.red m.width m.height (c.x + d.dx, c.y + d.dy)).2 }, ?_⟩
        rw [jGetLink m (by omega) (by omega)]
        exact ⟨d, rfl, hl, rfl, rfl, xyOverLink_dir' m (by omega) (by omega) _ _ _⟩

/-- C41 (partial): a machine with a boot chip, a chip that is not an Ethernet chip (or no other chip
at all) and only chips that the format can represent is rebuilt: same size, wrap, coordinates and
chips. What is missing is every other machine: see `C41_rebuilt` for what these keep and
`C41_cores_renumbered`, `C41_monitors_refused`, `C41_written` for what they lose. -/
theorem C41_round_trip_partial (v : Version) (w h : Int) (m : Machine) (hr : Reachable v w h m)
    (hboot : m.isChipAt 0 0 = true) (hstd : m.nChips = 1 ∨ ∃ c ∈ m.chipList, c.ip = none)
    (hchips : ∀ c ∈ m.chipList, JsonChip m c) (htag : ∀ c ∈ m.chipList, c.tags.Nodup) :
    ∃ j m', toJson m = .ok j ∧ machineFromJson v j = .ok m' ∧
      m'.width = m.width ∧ m'.height = m.height ∧ m'.wrap = m.wrap ∧
      m'.chipCoordinates = m.chipCoordinates ∧
      ∀ c ∈ m.chipList, ∃ c', m'.getChipAt c.x c.y = some c' ∧ SameChip c c' := by
  obtain ⟨j, hj⟩ := (C41_written v w h m hr).1.2 ⟨hboot, hstd⟩
  obtain ⟨m', h1, -, h2, h3, h4, h5, h6⟩ := C41_rebuilt v w h m hr j hj
    (fun c hc => by simp [Chip.nScamp, (hchips c hc).scamp]) htag
  refine ⟨j, m', hj, h1, h2, h3, h4, h5, fun c hc => ?_⟩
  obtain ⟨c', g1, -, -, -, -, -, -, -, g2⟩ := h6 c hc
  exact ⟨c', g1, g2.2 (hchips c hc)⟩

/-- C41: a machine with a chip that does not have exactly one monitor is written but cannot be read
back. -/
theorem C41_monitors_refused (v : Version) (w h : Int) (m : Machine) (hr : Reachable v w h m) (j : Json)
    (hj : toJson m = .ok j) (c : Chip) (hc : c ∈ m.chipList) (hn : c.nScamp ≠ 1) :
    machineFromJson v j = .error .notImplemented := by
  obtain ⟨hs, hwr, hw, hh, -, r⟩ := hr.rep
  have hpos := hs.pos
  rw [toJson_eq] at hj
  cases hb : m.chips.get? (0, 0) with
  | none => simp [hb] at hj
  | some boot =>
  cases hstd : stdOf m boot with
  | none => simp [hb, hstd] at hj
  | some std =>
  simp only [hb, hstd, Except.ok.injEq] at hj
  subst hj
  rw [machineFromJson_doc]
  obtain ⟨m₀, hm₀⟩ := (C12_accepts_exactly v.kind (some m.width) (some m.height) "Json").2
    ⟨_, _, rfl, rfl, by rw [hw, hh]; exact hs⟩
  have hm₀' := hm₀
  rw [hw, hh] at hm₀'
  obtain ⟨-, rfl⟩ := createMachine_ok hm₀'
  have r0 := Rep.new (v.kind.wrapFor w h) w h v.kind.chipCoreMap "Json"
  rw [hm₀]
  simp only
  rw [readChips_error std (descOf boot) m.chipList _ [] r0 hpos.1 hpos.2 (by simpa using r.nodup) ⟨c, hc, hn⟩]

theorem sorted_interval : ∀ (l : List Int) (a b : Int), l.Pairwise (· < ·) →
    (∀ q, q ∈ l ↔ a ≤ q ∧ q < b) → ∀ (n : Nat) (p : Int), l[n]? = some p → p = a + n := by
  intro l
  induction l with
  | nil => simp
  | cons x t ih =>
    intro a b hp hm n p hnp
    rw [List.pairwise_cons] at hp
    have hx := (hm x).1 (by simp)
    have hxa : x = a := by
      have ha : a ∈ x :: t := (hm a).2 ⟨by omega, by omega⟩
      rcases List.mem_cons.1 ha with h | h
      · exact h.symm
      · have := hp.1 a h; omega
    subst hxa
    cases n with
    | zero => simp at hnp; simp [hnp]
    | succ n =>
      have := ih (x + 1) b hp.2 (fun q => by
        constructor
        · intro hq
          have h1 := hp.1 q hq
          have h2 := (hm q).1 (by simp [hq])
          omega
        · intro hq
          have h2 := (hm q).2 ⟨by omega, hq.2⟩
          rcases List.mem_cons.1 h2 with h | h
          · omega
          · exact h) n p (by simpa using hnp)
      omega

/-- C41: every virtual machine without down cores (whatever chips and links are down) that has a boot
chip and a chip away from the Ethernet positions (or no other chip at all) is rebuilt exactly. -/
theorem C41_virtual_machines (v : Version) (cfg : DownCfg) (w h : Int) (validate : Bool) (m : Machine)
    (hm : virtualMachine v cfg w h validate = .ok m) (hcores : ∀ p q, ¬ CoreDown v.kind cfg p q)
    (hboot : m.isChipAt 0 0 = true) (hstd : m.nChips = 1 ∨ ∃ c ∈ m.chipList, c.ip = none) :
    ∃ j m', toJson m = .ok j ∧ machineFromJson v j = .ok m' ∧
      m'.width = m.width ∧ m'.height = m.height ∧ m'.wrap = m.wrap ∧
      m'.chipCoordinates = m.chipCoordinates ∧
      ∀ c ∈ m.chipList, ∃ c', m'.getChipAt c.x c.y = some c' ∧ SameChip c c' := by
  obtain ⟨hs, hr, hwr, hw, hh, hcc, r, d, hd, hcl⟩ := vm_facts hm
  refine C41_round_trip_partial v w h m hr hboot hstd (fun c hc => ?_) (fun c hc => ?_)
  · obtain ⟨n, -, h1, h2, h3⟩ := C32_cores v cfg w h validate m hm c hc
    refine ⟨h1, ?_, ?_, ?_⟩
    · intro i p hp
      have := sorted_interval c.placable 1 (min n v.maxCores) h2 (fun q => by
        rw [h3]
        have := hcores c.xy q
        constructor
        · rintro ⟨a, b, c, -⟩; exact ⟨a, by omega⟩
        · rintro ⟨a, b⟩; exact ⟨a, by omega, by omega, this⟩) i p hp
      omega
    · rw [hcl, vmChips, List.mem_map] at hc
      obtain ⟨kv, -, rfl⟩ := hc
      show v.kind.nRouterEntries ≤ _
      cases v.kind <;> decide
    · intro i l hl
      obtain ⟨dir, rfl, -⟩ := (C31_links v cfg w h validate m hm c hc i).1 ((hasLink_iff _ _).2 ⟨l, hl⟩)
      obtain ⟨g1, g2, g3, g4⟩ := C31_destinations v cfg w h validate m hm c hc dir.id l hl
      refine ⟨?_, ?_, g1, by rw [g2, g3]; rfl, g4⟩ <;> cases dir <;> decide
  · rw [hcl, vmChips, List.mem_map] at hc
    obtain ⟨kv, -, rfl⟩ := hc
    simp only [vmChip, Chip.mk']
    split <;> decide

/-- a machine with a chip without core 3 -/
def exGap : Machine :=
  (run exV5 (Machine.new .none 8 8 VKind.v5.chipCoreMap "t")
    [.addChip (Chip.mk' 0 0 [0] [1, 2, 4] ⟨.empty, 1023⟩ 1000 0 0 (some ['a']) none none)]).1

/-- C41: a chip with cores 1, 2 and 4 comes back with cores 1, 2 and 3. -/
theorem C41_cores_renumbered : ∃ m : Machine, Reachable exV5 8 8 m ∧
    (∃ c, m.getChipAt 0 0 = some c ∧ c.scamp = [0] ∧ c.placable = [1, 2, 4]) ∧
    ∃ j m', toJson m = .ok j ∧ machineFromJson exV5 j = .ok m' ∧
      ∃ c', m'.getChipAt 0 0 = some c' ∧ c'.placable = [1, 2, 3] := by
  have hb : (match toJson exGap with
    | .ok j => match machineFromJson exV5 j with
      | .ok m' => match m'.getChipAt 0 0 with
        | some c' => decide (c'.placable = [1, 2, 3])
        | none => false
      | .error _ => false
    | .error _ => false) = true := by decide +kernel
  refine ⟨exGap, ⟨"t", [.addChip _], _, rfl, rfl⟩, ⟨_, rfl, rfl, rfl⟩, ?_⟩
  cases hj : toJson exGap with
  | error e => rw [hj] at hb; simp at hb
  | ok j =>
    rw [hj] at hb
    dsimp only at hb
    cases hm : machineFromJson exV5 j with
    | error e => rw [hm] at hb; simp at hb
    | ok m' =>
      rw [hm] at hb
      dsimp only at hb
      cases hc : m'.getChipAt 0 0 with
      | none => rw [hc] at hb; simp at hb
      | some c' =>
        rw [hc] at hb
        exact ⟨j, m', rfl, hm, c', hc, of_decide_eq_true hb⟩

/-- C41: machines with a boot chip that `to_json` refuses exist: three boards of which only the
Ethernet chips work. -/
example : ∃ m : Machine, Reachable exV5 12 12 m ∧ m.isChipAt 0 0 = true ∧ toJson m = .error .valueError :=
  ⟨_, ⟨"t", [.addChips [exChip 0 0 0 0 (some ['a']), exChip 4 8 4 8 (some ['b']),
    exChip 8 4 8 4 (some ['c'])]], _, rfl, rfl⟩, rfl, rfl⟩

/-- the hypotheses of `C41_virtual_machines` hold of the standard 48 chip board, so those of the
other theorems do too -/
example : ∃ m : Machine, virtualMachine exV5 {} 8 8 true = .ok m ∧ (∀ p q, ¬ CoreDown .v5 {} p q) ∧
    m.isChipAt 0 0 = true ∧ ∃ c ∈ m.chipList, c.ip = none := by
  have hb : (match virtualMachine exV5 {} 8 8 true with
    | .ok m => m.isChipAt 0 0 && m.chipList.any fun c => c.ip.isNone
    | .error _ => false) = true := by decide +kernel
  cases hv : virtualMachine exV5 {} 8 8 true with
  | error e => rw [hv] at hb; simp at hb
  | ok m =>
    rw [hv] at hb
    simp only [Bool.and_eq_true, List.any_eq_true, Option.isNone_iff_eq_none] at hb
    refine ⟨m, rfl, ?_, hb.1, hb.2⟩
    rintro p q ⟨l, hl, c, hc, -⟩
    have : IgnoreCore.parseString .v5 none = .ok [] := rfl
    rw [this] at hl
    simp only [Except.ok.injEq] at hl
    subst hl
    simp at hc

/-- a machine that is written and refused when read -/
example : ∃ (m : Machine) (j : Json), Reachable exV5 8 8 m ∧ toJson m = .ok j ∧
    ∃ c ∈ m.chipList, c.nScamp ≠ 1 :=
  ⟨_, _, ⟨"t", [.addChip (Chip.mk' 0 0 [0, 1] [2, 3] ⟨.empty, 1023⟩ 1000 0 0 (some ['a']) none none)], _,
    rfl, rfl⟩, rfl, _, List.mem_singleton.2 rfl, by decide⟩

/-! ## C42 -/

/-- C42: in the document written for any machine there are two sets of default resources. Both have
router entries of at most 2147483647. The k-th element of `chips` describes the k-th chip; its fourth
element has a value for the monitors, router entries, SDRAM or tags exactly if the value of the chip
(the router entries limited to 2147483647) differs from the default of its kind, Ethernet or not. -/
theorem C42_values (m : Machine) (j : Json) (hj : toJson m = .ok j) :
    ∃ std eth : Json, ∃ chips : List Json,
      jKey j "standardResources" = some std ∧ jKey j "ethernetResources" = some eth ∧
      jKey j "chips" = some (.arr chips) ∧ chips.length = m.chipList.length ∧
      ∀ (k : Nat) (c : Chip) (cj : Json), m.chipList[k]? = some c → chips[k]? = some cj →
        ∃ mon ent sdram tags, let d := if c.ip.isSome then eth else std
          jKey d "monitors" = some (.num mon) ∧ jKey d "routerEntries" = some (.num ent) ∧
          jKey d "sdram" = some (.num sdram) ∧ jKey d "tags" = some (jNums tags) ∧
          ent ≤ 2147483647 ∧
          (jNth cj 0 = some (.num c.x) ∧ jNth cj 1 = some (.num c.y)) ∧
          (let written := fun key => (jNth cj 3).bind fun e => jKey e key
           written "monitors" = (if c.nScamp = mon then none else some (.num c.nScamp)) ∧
           written "routerEntries" = (if min c.router.nEntries 2147483647 = ent then none
             else some (.num (min c.router.nEntries 2147483647))) ∧
           written "sdram" = (if c.sdram = sdram then none else some (.num c.sdram)) ∧
           written "tags" = (if c.tags = tags then none else some (jNums c.tags))) := by
  rw [toJson_eq] at hj
  cases hb : m.chips.get? (0, 0) with
  | none => simp [hb] at hj
  | some boot =>
  cases hstd : stdOf m boot with
  | none => simp [hb, hstd] at hj
  | some std =>
  simp only [hb, hstd, Except.ok.injEq] at hj
  subst hj
  refine ⟨jDesc std, jDesc (descOf boot), m.chipList.map fun c => describeChip c std (descOf boot), rfl, rfl, rfl,
    by simp, ?_⟩
  have hmin : ∀ e, intValue e = min e 2147483647 := by
    intro e; unfold intValue javaMaxInt; split <;> omega
  have hle : ∀ c, (descOf c).routerEntries ≤ 2147483647 := by
    intro c; show intValue _ ≤ _; rw [hmin]; omega
  have hle' : std.routerEntries ≤ 2147483647 := by
    unfold stdOf at hstd
    split at hstd
    · simp only [Option.map_eq_some_iff] at hstd
      obtain ⟨c, -, rfl⟩ := hstd
      exact hle c
    · simp only [Option.some.injEq] at hstd
      subst hstd; exact hle boot
  intro k c cj hc hcj
  rw [List.getElem?_map, hc] at hcj
  simp only [Option.map_some, Option.some.injEq] at hcj
  subst hcj
  have main : ∀ (d : JDesc), (if c.ip.isSome then descOf boot else std) = d → d.routerEntries ≤ 2147483647 →
      (let written := fun key => (jNth (describeChip c std (descOf boot)) 3).bind fun e => jKey e key
       written "monitors" = (if c.nScamp = d.monitors then none else some (.num c.nScamp)) ∧
       written "routerEntries" = (if min c.router.nEntries 2147483647 = d.routerEntries then none
         else some (.num (min c.router.nEntries 2147483647))) ∧
       written "sdram" = (if c.sdram = d.sdram then none else some (.num c.sdram)) ∧
       written "tags" = (if c.tags = d.tags then none else some (jNums c.tags))) := by
    intro d hd _
    have hd' : describeChip c std (descOf boot) = (if jExceptions c d = [] then
        .arr [.num c.x, .num c.y, .obj (jDetails c)]
        else .arr [.num c.x, .num c.y, .obj (jDetails c), .obj (jExceptions c d)]) := by
      rw [← hd]; unfold describeChip
      cases c.ip <;> simp
    simp only [hd', ← hmin]
    unfold jExceptions
    by_cases h1 : c.nScamp = d.monitors <;> by_cases h2 : intValue c.router.nEntries = d.routerEntries <;>
      by_cases h3 : c.sdram = d.sdram <;> by_cases h4 : c.tags = d.tags <;>
      simp [h1, h2, h3, h4, jNth, jKey, jInts, jNums]
  have hxy : jNth (describeChip c std (descOf boot)) 0 = some (.num c.x) ∧
      jNth (describeChip c std (descOf boot)) 1 = some (.num c.y) := by
    refine ⟨?_, ?_⟩ <;>
      (unfold describeChip; dsimp only; generalize jExceptions _ _ = ex; split <;> rfl)
  cases hip : c.ip with
  | none =>
    simp only [hip] at main ⊢
    exact ⟨std.monitors, std.routerEntries, std.sdram, std.tags, rfl, rfl, rfl, rfl, hle', hxy, main std rfl hle'⟩
  | some a =>
    simp only [hip] at main ⊢
    exact ⟨_, _, _, _, rfl, rfl, rfl, rfl, hle boot, hxy, main (descOf boot) rfl (hle boot)⟩

/-- C42: the default resources of Ethernet chips are those of the chip at 0, 0; the others are those of the first
chip without an IP address, and on a machine of one chip those of the chip at 0, 0 as well: the number of its
cores that are not placable, its router entries up to 2147483647, its SDRAM and its tags, in order. -/
theorem C42_defaults (m : Machine) (j : Json) (hj : toJson m = .ok j) :
    let isDefault := fun (key : String) (c : Chip) => ∃ d, jKey j key = some d ∧
      jKey d "monitors" = some (.num (c.nProcessors - c.nPlacable)) ∧
      jKey d "routerEntries" = some (.num (min c.router.nEntries 2147483647)) ∧
      jKey d "sdram" = some (.num c.sdram) ∧ jKey d "tags" = some (jNums c.tags)
    ∃ boot, m.getChipAt 0 0 = some boot ∧ isDefault "ethernetResources" boot ∧
      (m.nChips ≤ 1 → isDefault "standardResources" boot) ∧
      (m.nChips > 1 → ∃ (k : Nat) (c : Chip), m.chipList[k]? = some c ∧ c.ip = none ∧
        (∀ (i : Nat) (b : Chip), i < k → m.chipList[i]? = some b → b.ip ≠ none) ∧
        isDefault "standardResources" c) := by
  intro isDefault
  rw [toJson_eq] at hj
  cases hb : m.chips.get? (0, 0) with
  | none => simp [hb] at hj
  | some boot =>
  cases hstd : stdOf m boot with
  | none => simp [hb, hstd] at hj
  | some std =>
  simp only [hb, hstd, Except.ok.injEq] at hj
  subst hj
  have hmin : ∀ e, intValue e = min e 2147483647 := by
    intro e; unfold intValue javaMaxInt; split <;> omega
  have hdesc : ∀ c, jKey (jDesc (descOf c)) "monitors" = some (.num (c.nProcessors - c.nPlacable)) ∧
      jKey (jDesc (descOf c)) "routerEntries" = some (.num (min c.router.nEntries 2147483647)) ∧
      jKey (jDesc (descOf c)) "sdram" = some (.num c.sdram) ∧ jKey (jDesc (descOf c)) "tags" = some (jNums c.tags) := by
    intro c; rw [← hmin]; exact ⟨rfl, rfl, rfl, rfl⟩
  refine ⟨boot, hb, ⟨_, rfl, hdesc boot⟩, ?_, ?_⟩
  · intro h1
    unfold stdOf at hstd
    rw [if_neg (by omega)] at hstd
    cases hstd
    exact ⟨_, rfl, hdesc boot⟩
  · intro h1
    unfold stdOf at hstd
    rw [if_pos h1] at hstd
    simp only [Option.map_eq_some_iff] at hstd
    obtain ⟨c, hf, rfl⟩ := hstd
    rw [List.find?_eq_some_iff_getElem] at hf
    obtain ⟨hip, k, hk, hkc, hlt⟩ := hf
    refine ⟨k, c, by rw [List.getElem?_eq_getElem hk, hkc], by simpa using hip, ?_, _, rfl, hdesc c⟩
    intro i b hi hib
    obtain ⟨hi', rfl⟩ := List.getElem?_eq_some_iff.1 hib
    have := hlt i hi
    intro he
    rw [he] at this
    simp at this

/-- a machine with an oversized router and a chip that differs from the default -/
example : ∃ j, toJson (run exV5 (Machine.new .none 8 8 VKind.v5.chipCoreMap "t")
      [.addChips [exChip 0 0 0 0 (some ['a']), exChip 1 0 0 0 none,
        { exChip 0 1 0 0 none with router := ⟨.empty, 3000000000⟩ }]]).1 = .ok j ∧
    ((jKey j "chips").bind fun cs => (jNth cs 2).bind fun c => (jNth c 3).bind fun e => jKey e "routerEntries") =
      some (.num 2147483647) := ⟨_, rfl, rfl⟩

end SpiNN.Props
