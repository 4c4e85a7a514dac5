import Verif.Spec.Json
import Verif.Lemmas.VirtualMachine
import Verif.Lemmas.Routing
import Verif.Lemmas.Str

set_option linter.unusedSimpArgs false

namespace SpiNN
open Spec Props

/-- the resources read from a description -/
def resOf (d : JDesc) : JRes :=
  { monitors := .num d.monitors, routerEntries := d.routerEntries, sdram := d.sdram, tags := d.tags.map .num }

theorem readRes_jDesc (d : JDesc) : readRes (jDesc d) = .ok (resOf d) := rfl

/-- the resources of the chip itself -/
def chipRes (c : Chip) : JRes :=
  { monitors := .num c.nScamp, routerEntries := intValue c.router.nEntries, sdram := c.sdram,
    tags := c.tags.map .num }

theorem readExceptions_eq (c : Chip) (d : JDesc) :
    readExceptions (resOf d) ⟨jExceptions c d⟩ = .ok (chipRes c) := by
  unfold jExceptions
  by_cases h1 : c.nScamp = d.monitors <;> by_cases h2 : intValue c.router.nEntries = d.routerEntries <;>
    by_cases h3 : c.sdram = d.sdram <;> by_cases h4 : c.tags = d.tags <;>
    simp [h1, h2, h3, h4, readExceptions, PDict.get?, PDict.lookup, chipRes, resOf, Json.int, Json.ary,
      jInts, bind, Except.bind, pure, Except.pure]

theorem jExceptions_nil {c : Chip} {d : JDesc} (h : jExceptions c d = []) : resOf d = chipRes c := by
  unfold jExceptions at h
  simp only [List.append_eq_nil_iff] at h
  obtain ⟨⟨⟨h1, h2⟩, h3⟩, h4⟩ := h
  have e1 : c.nScamp = d.monitors := by
    by_cases h : c.nScamp = d.monitors
    · exact h
    · simp [h] at h1
  have e2 : intValue c.router.nEntries = d.routerEntries := by
    by_cases h : intValue c.router.nEntries = d.routerEntries
    · exact h
    · simp [h] at h2
  have e3 : c.sdram = d.sdram := by
    by_cases h : c.sdram = d.sdram
    · exact h
    · simp [h] at h3
  have e4 : c.tags = d.tags := by
    by_cases h : c.tags = d.tags
    · exact h
    · simp [h] at h4
  simp [resOf, chipRes, e1, e2, e3, e4]

/-- the links that are rebuilt -/
def jLinks (m : Machine) (c : Chip) : List Link :=
  (allDirs.filter fun d => c.router.isLink d.id).map fun d =>
    let q := m.wrap.red m.width m.height (c.x + d.dx, c.y + d.dy)
    { sourceX := c.x, sourceY := c.y, sourceLinkId := d.id, destX := q.1, destY := q.2 }

theorem any_isInt (l : List Int) (i : Int) : (l.map Json.num).any (Json.isInt i) = decide (i ∈ l) := by
  induction l with
  | nil => simp
  | cons a t ih =>
    simp only [List.map_cons, List.any_cons, ih, Json.isInt, List.mem_cons, eq_comm (a := i)]
    by_cases h1 : a = i <;> by_cases h2 : i ∈ t <;> simp [h1, h2]

theorem readLinks_eq (m : Machine) (hw : 0 < m.width) (hh : 0 < m.height) (c : Chip) :
    readLinks m (((pyRange Router.maxLinks).filter fun i => !c.router.isLink i).map .num) c.x c.y (pyRange 6) =
      .ok (jLinks m c) := by
  have hdead : ∀ d : Dir, (((pyRange Router.maxLinks).filter fun i => !c.router.isLink i).map Json.num).any
      (Json.isInt d.id) = !c.router.isLink d.id := by
    intro d
    rw [any_isInt]
    have : d.id ∈ pyRange Router.maxLinks := by cases d <;> decide
    by_cases h : c.router.isLink d.id <;> simp [List.mem_filter, h, this]
  rw [range6_eq]
  unfold jLinks
  generalize ((pyRange Router.maxLinks).filter fun i => !c.router.isLink i).map Json.num = dead at hdead ⊢
  generalize allDirs = ds
  induction ds with
  | nil => rfl
  | cons a t ih =>
    rw [List.map_cons, readLinks, ih, hdead, xyOverLink_dir' m hw hh, List.filter_cons]
    cases h : c.router.isLink a.id <;> simp

theorem jLinks_nodup (m : Machine) (c : Chip) : ((jLinks m c).map Link.sourceLinkId).Nodup := by
  unfold jLinks
  rw [List.map_map]
  have : ((allDirs.filter fun d => c.router.isLink d.id).map Dir.id).Sublist (allDirs.map Dir.id) :=
    List.filter_sublist.map _
  exact this.nodup (by decide)

/-- the chip that is rebuilt -/
def jChip (m : Machine) (c : Chip) : Chip :=
  { x := c.x, y := c.y, scamp := [0], placable := pyRange2 1 c.nProcessors
    router := { links := ⟨(jLinks m c).map fun l => (l.sourceLinkId, l)⟩, nEntries := intValue c.router.nEntries }
    sdram := c.sdram, ethX := c.ethX, ethY := c.ethY, ip := c.ip, tags := orderedSet c.tags, parentLink := none }

theorem mapE_int (l : List Int) : mapE Json.int (l.map .num) = .ok l := by
  have := mapE_map (f := Json.int) (g := Json.num) (r := fun i => i) (l := l) (fun _ _ => rfl)
  simpa using this

theorem readChip_eq (m : Machine) (hw : 0 < m.width) (hh : 0 < m.height) (c : Chip) (std eth : JDesc) :
    readChip m (resOf std) (resOf eth) (describeChip c std eth) =
      if c.nScamp = 1 then .ok (jChip m c) else .error .notImplemented := by
  have hlinks := readLinks_eq m hw hh c
  obtain ⟨r, hr, -, hi, hn⟩ := (Props.C63_constructor (intValue c.router.nEntries) (jLinks m c)).1 (jLinks_nodup m c)
  have hrr : r = { links := ⟨(jLinks m c).map fun l => (l.sourceLinkId, l)⟩
                   nEntries := intValue c.router.nEntries } := by
    obtain ⟨⟨it⟩, ne⟩ := r
    simp only [Router.iter] at hi hn
    rw [hi, hn]
  subst hrr
  have hres : ∀ d : JDesc, (if jExceptions c d = [] then Except.ok (resOf d)
      else readExceptions (resOf d) ⟨jExceptions c d⟩) = .ok (chipRes c) := by
    intro d
    split
    · rename_i h; rw [jExceptions_nil h]
    · exact readExceptions_eq c d
  generalize hdead : (pyRange Router.maxLinks).filter (fun i => !c.router.isLink i) = dead at hlinks
  cases hip : c.ip with
  | none =>
    have hr' := hres std
    by_cases hex : jExceptions c std = []
    · have hr'' : resOf std = chipRes c := by simpa [hex] using hr'
      by_cases hdd : dead = [] <;> by_cases hs : c.nScamp = 1 <;>
        simp [describeChip, readChip, readPair, readKind, readOverrides, checkMonitors, readDead, jDetails, hip, hdead, hdd, hex, Json.ary, Json.object, Json.int, Json.string, pyIndex,
          PDict.getE, PDict.get?, PDict.lookup, jInts, hr'', chipRes, Json.isInt, hs, bind, Except.bind, pure,
          Except.pure] <;>
        (try simp [hdd] at hlinks) <;> simp [hlinks, hr, mapE_int, Chip.mk', jChip, hip]
    · rw [if_neg hex] at hr'
      by_cases hdd : dead = [] <;> by_cases hs : c.nScamp = 1 <;>
        simp [describeChip, readChip, readPair, readKind, readOverrides, checkMonitors, readDead, jDetails, hip, hdead, hdd, hex, Json.ary, Json.object, Json.int, Json.string, pyIndex,
          PDict.getE, PDict.get?, PDict.lookup, jInts, hr', chipRes, Json.isInt, hs, bind, Except.bind, pure,
          Except.pure] <;>
        (try simp [hdd] at hlinks) <;> simp [hlinks, hr, mapE_int, Chip.mk', jChip, hip]
  | some a =>
    have hr' := hres eth
    by_cases hex : jExceptions c eth = []
    · have hr'' : resOf eth = chipRes c := by simpa [hex] using hr'
      by_cases hdd : dead = [] <;> by_cases hs : c.nScamp = 1 <;>
        simp [describeChip, readChip, readPair, readKind, readOverrides, checkMonitors, readDead, jDetails, hip, hdead, hdd, hex, Json.ary, Json.object, Json.int, Json.string, pyIndex,
          PDict.getE, PDict.get?, PDict.lookup, jInts, hr'', chipRes, Json.isInt, hs, bind, Except.bind, pure,
          Except.pure] <;>
        (try simp [hdd] at hlinks) <;> simp [hlinks, hr, mapE_int, Chip.mk', jChip, hip]
    · rw [if_neg hex] at hr'
      by_cases hdd : dead = [] <;> by_cases hs : c.nScamp = 1 <;>
        simp [describeChip, readChip, readPair, readKind, readOverrides, checkMonitors, readDead, jDetails, hip, hdead, hdd, hex, Json.ary, Json.object, Json.int, Json.string, pyIndex,
          PDict.getE, PDict.get?, PDict.lookup, jInts, hr', chipRes, Json.isInt, hs, bind, Except.bind, pure,
          Except.pure] <;>
        (try simp [hdd] at hlinks) <;> simp [hlinks, hr, mapE_int, Chip.mk', jChip, hip]

theorem jChip_congr {m m' : Machine} (h : SameFrame m m') (c : Chip) : jChip m' c = jChip m c := by
  obtain ⟨h1, h2, h3, -, -⟩ := h
  simp [jChip, jLinks, h1, h2, h3]

theorem jChip_xy (m : Machine) (c : Chip) : (jChip m c).xy = c.xy := rfl

theorem readChips_ok (std eth : JDesc) : ∀ (cs : List Chip) (m : Machine) (s : Chips), Rep m s →
    0 < m.width → 0 < m.height → ((s ++ cs).map Chip.xy).Nodup → (∀ c ∈ cs, c.nScamp = 1) →
    ∃ m', readChips (resOf std) (resOf eth) (cs.map fun c => describeChip c std eth) m = .ok m' ∧
      Rep m' (s ++ cs.map (jChip m)) ∧ SameFrame m m' := by
  intro cs
  induction cs with
  | nil => intro m s r _ _ _ _; exact ⟨m, rfl, by simpa using r, .refl m⟩
  | cons c t ih =>
    intro m s r hw hh hn hs
    rw [List.map_cons, readChips, readChip_eq m hw hh, if_pos (hs c (by simp))]
    have hadd := r.addChip (jChip m c)
    have hnc : c.xy ∉ s.map Chip.xy := by
      rw [List.map_append, List.nodup_append] at hn
      exact fun h => hn.2.2 _ h c.xy (by simp) rfl
    have hnone : s.at (jChip m c).xy = none := Chips.at_eq_none_iff.2 hnc
    cases hm : m.addChip (jChip m c) with
    | error e =>
      rw [hm] at hadd
      simp [Chips.add, hnone] at hadd
    | ok m₁ =>
      rw [hm] at hadd
      obtain ⟨-, r₁, f1, f2, f3, f4, -, -, f5, -⟩ := hadd
      have hf : SameFrame m m₁ := ⟨f1, f2, f3, f4, f5⟩
      have hn' : (((s ++ [jChip m c]) ++ t).map Chip.xy).Nodup := by
        simpa [List.map_append, jChip_xy] using hn
      obtain ⟨m', h1, h2, h3⟩ := ih m₁ _ r₁ (by omega) (by omega) hn' (fun d hd => hs d (by simp [hd]))
      refine ⟨m', ?_, ?_, hf.trans h3⟩
      · simpa [bind, Except.bind, hm] using h1
      · have : t.map (jChip m₁) = t.map (jChip m) := List.map_congr_left fun d _ => jChip_congr hf d
        rw [this] at h2
        simpa using h2

theorem readChips_error (std eth : JDesc) : ∀ (cs : List Chip) (m : Machine) (s : Chips), Rep m s →
    0 < m.width → 0 < m.height → ((s ++ cs).map Chip.xy).Nodup → (∃ c ∈ cs, c.nScamp ≠ 1) →
    readChips (resOf std) (resOf eth) (cs.map fun c => describeChip c std eth) m = .error .notImplemented := by
  intro cs
  induction cs with
  | nil => intro m s _ _ _ _ h; simp at h
  | cons c t ih =>
    intro m s r hw hh hn hs
    rw [List.map_cons, readChips, readChip_eq m hw hh]
    by_cases hc : c.nScamp = 1
    · rw [if_pos hc]
      have hadd := r.addChip (jChip m c)
      have hnc : c.xy ∉ s.map Chip.xy := by
        rw [List.map_append, List.nodup_append] at hn
        exact fun h => hn.2.2 _ h c.xy (by simp) rfl
      have hnone : s.at (jChip m c).xy = none := Chips.at_eq_none_iff.2 hnc
      cases hm : m.addChip (jChip m c) with
      | error e =>
        rw [hm] at hadd
        simp [Chips.add, hnone] at hadd
      | ok m₁ =>
        rw [hm] at hadd
        obtain ⟨-, r₁, f1, f2, f3, f4, -, -, f5, -⟩ := hadd
        have hn' : (((s ++ [jChip m c]) ++ t).map Chip.xy).Nodup := by
          simpa [List.map_append, jChip_xy] using hn
        obtain ⟨d, hd, hd1⟩ := hs
        simp only [List.mem_cons] at hd
        have hdt : d ∈ t := by
          rcases hd with rfl | hd
          · exact absurd hc hd1
          · exact hd
        have := ih m₁ _ r₁ (by omega) (by omega) hn' ⟨d, hdt, hd1⟩
        simpa [bind, Except.bind, hm] using this
    · rw [if_neg hc]; rfl

/-- the standard resources written -/
def stdOf (m : Machine) (boot : Chip) : Option JDesc :=
  if m.nChips > 1 then (m.chipList.find? fun c => c.ip.isNone).map descOf else some (descOf boot)

/-- the document written -/
def docOf (m : Machine) (std eth : JDesc) : Json :=
  .obj [
    ("height", .num m.height), ("width", .num m.width), ("root", jInts [0, 0]),
    ("standardResources", jDesc std), ("ethernetResources", jDesc eth),
    ("chips", .arr (m.chipList.map fun c => describeChip c std eth))]

theorem toJson_eq (m : Machine) : toJson m = (match m.chips.get? (0, 0) with
    | none => .error .keyError
    | some boot => match stdOf m boot with
      | none => .error .valueError
      | some std => .ok (docOf m std (descOf boot))) := by
  unfold toJson Machine.bootChip PDict.getE stdOf
  cases m.chips.get? (0, 0) with
  | none => rfl
  | some boot =>
    by_cases h : m.nChips > 1
    · simp only [h, if_true, bind, Except.bind]
      cases m.chipList.find? fun c => c.ip.isNone <;> rfl
    · simp only [h, if_false, bind, Except.bind]; rfl

theorem machineFromJson_doc (v : Version) (m : Machine) (std eth : JDesc) :
    machineFromJson v (docOf m std eth) = (match v.kind.createMachine (some m.width) (some m.height) "Json" with
      | .error e => .error e
      | .ok m₀ => match readChips (resOf std) (resOf eth) (m.chipList.map fun c => describeChip c std eth) m₀ with
        | .error e => .error e
        | .ok m₁ => .ok ((m₁.addSpinnakerLinks v).addFpgaLinks v)) := by
  have key : ∀ a b c d e f : Json,
      let o : PDict String Json := ⟨[("height", a), ("width", b), ("root", c), ("standardResources", d),
        ("ethernetResources", e), ("chips", f)]⟩
      o.getE "width" = .ok b ∧ o.getE "height" = .ok a ∧ o.getE "standardResources" = .ok d ∧
      o.getE "ethernetResources" = .ok e ∧ o.getE "chips" = .ok f := by
    intro a b c d e f
    exact ⟨rfl, rfl, rfl, rfl, rfl⟩
  unfold machineFromJson docOf
  generalize hc : m.chipList.map (fun c => describeChip c std eth) = cs
  obtain ⟨k1, k2, k3, k4, k5⟩ := key (.num m.height) (.num m.width) (jInts [0, 0]) (jDesc std) (jDesc eth) (.arr cs)
  simp only [Json.object, bind, Except.bind]
  rw [k1, k2, k3, k4, k5]
  simp only [Json.int, Json.ary, readRes_jDesc]
  generalize v.kind.createMachine (some m.width) (some m.height) "Json" = x
  cases x with
  | error e => rfl
  | ok m₀ =>
    simp only
    generalize readChips (resOf std) (resOf eth) cs m₀ = y
    cases y <;> rfl

end SpiNN
