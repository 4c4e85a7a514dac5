import Verif.Lemmas.Links
import Verif.Props.Machine

namespace SpiNN.Props
open SpiNN SpiNN.Spec

/-! ## C27 -/

/-- Ethernet chips have different addresses and are at legal places of the machine (the latter is
part of what `validate` checks, see `LegalMachine`) -/
def WellPlaced (k : VKind) (w h : Int) (m : Machine) : Prop :=
  (∀ e ∈ m.ethernetChips, ∀ f ∈ m.ethernetChips, e.ip = f.ip → e = f) ∧
  ∀ e ∈ m.ethernetChips, EthPos k e.xy ∧ InGrid w h e.xy

/-- `d` is the SpiNNaker link number `i` of the board with address `b`: row `i` of the version's
connectors (`spinConnectors`), on a chip of the machine whose router does not use the link -/
def SpinLinkOf (k : VKind) (m : Machine) (b : PyStr) (i : Int) (d : SpinLinkData) : Prop :=
  ∃ e ∈ m.ethernetChips, e.ip = some b ∧ ∃ (n : Nat) (lx ly link : Int) (c : Chip),
    i = n ∧ ((spinConnectors k).map fun r => (r.1.1, r.1.2, r.2.id))[n]? = some (lx, ly, link) ∧
    m.getChipAt (m.getGlobalXY lx ly e.x e.y).1 (m.getGlobalXY lx ly e.x e.y).2 = some c ∧
    ¬ HasLink c link ∧
    d = ⟨i, (m.getGlobalXY lx ly e.x e.y).1, (m.getGlobalXY lx ly e.x e.y).2, link, b⟩

theorem spinnakerLinks_eq (k : VKind) :
    k.spinnakerLinks = (spinConnectors k).map fun r => (r.1.1, r.1.2, r.2.id) := by
  cases k <;> rfl

theorem mem_spinRow (m : Machine) (e : Chip) (ip : PyStr) (i : Int) (a : Int × Int × Int)
    (key : BoardKey) (j : Int) (d : SpinLinkData) :
    ((key, j), d) ∈ spinRow m e ip i a ↔ ∃ c,
      m.getChipAt (m.getGlobalXY a.1 a.2.1 e.x e.y).1 (m.getGlobalXY a.1 a.2.1 e.x e.y).2 = some c ∧
      ¬ HasLink c a.2.2 ∧ j = i ∧
      d = ⟨i, (m.getGlobalXY a.1 a.2.1 e.x e.y).1, (m.getGlobalXY a.1 a.2.1 e.x e.y).2, a.2.2, ip⟩ ∧
      (key = .addr ip ∨ key = .xy (d.x, d.y)) := by
  unfold spinRow
  simp only
  cases m.getChipAt (m.getGlobalXY a.1 a.2.1 e.x e.y).1 (m.getGlobalXY a.1 a.2.1 e.x e.y).2 with
  | none => simp
  | some c =>
    have hl : c.router.isLink a.2.2 = true ↔ HasLink c a.2.2 := PDict.contains_iff _ _
    simp only [Option.some.injEq, exists_eq_left']
    by_cases hh : HasLink c a.2.2
    · simp [hh, hl.2 hh]
    · rw [if_pos (fun h => hh (hl.1 h))]
      simp only [hh, not_false_iff, List.mem_cons, Prod.mk.injEq, List.not_mem_nil, or_false,
        true_and]
      constructor
      · rintro (⟨⟨rfl, rfl⟩, rfl⟩ | ⟨⟨rfl, rfl⟩, rfl⟩) <;> simp
      · rintro ⟨rfl, rfl, rfl | rfl⟩ <;> simp

theorem mem_spinEntries (k : VKind) (m : Machine) (key : BoardKey) (i : Int) (d : SpinLinkData) :
    ((key, i), d) ∈ spinEntries k m m.ethernetChips ↔ ∃ b, SpinLinkOf k m b i d ∧
      (key = .addr b ∨ key = .xy (d.x, d.y)) := by
  simp only [spinEntries, List.mem_flatMap, SpinLinkOf, ← spinnakerLinks_eq]
  constructor
  · rintro ⟨e, he, hm⟩
    cases hip : e.ip with
    | none => simp [hip] at hm
    | some b =>
      simp only [hip] at hm
      rw [mem_spinEntriesBoard] at hm
      obtain ⟨n, a, hn, hrow⟩ := hm
      rw [mem_spinRow] at hrow
      obtain ⟨c, hc, hl, hi, hd, hk⟩ := hrow
      rw [Int.zero_add] at hi hd
      subst hi
      exact ⟨b, ⟨e, he, hip, n, a.1, a.2.1, a.2.2, c, rfl, hn, hc, hl, hd⟩, hk⟩
  · rintro ⟨b, ⟨e, he, hip, n, lx, ly, link, c, hi, hn, hc, hl, hd⟩, hk⟩
    refine ⟨e, he, ?_⟩
    simp only [hip]
    rw [mem_spinEntriesBoard]
    refine ⟨n, _, hn, ?_⟩
    rw [mem_spinRow, Int.zero_add]
    exact ⟨c, hc, hl, hi, by rw [hd, hi], hk⟩

theorem spin_onBoard (k : VKind) : ∀ a ∈ k.spinnakerLinks, OnBoard k (a.1, a.2.1) := by
  cases k <;> simp [VKind.spinnakerLinks, OnBoard, OnBoard48]

theorem spin_by_address {k : VKind} {w h : Int} {m : Machine} (hp : WellPlaced k w h m) {b : PyStr}
    {i : Int} {d d' : SpinLinkData} (hd : SpinLinkOf k m b i d) (hd' : SpinLinkOf k m b i d') : d = d' := by
  obtain ⟨e, he, hip, n, lx, ly, link, c, rfl, hn, hc, hl, rfl⟩ := hd
  obtain ⟨e', he', hip', n', lx', ly', link', c', hi, hn', hc', hl', rfl⟩ := hd'
  have hnn : n = n' := by omega
  subst hnn
  have := hp.1 e he e' he' (hip.trans hip'.symm)
  subst this
  rw [hn] at hn'
  simp only [Option.some.injEq, Prod.mk.injEq] at hn'
  obtain ⟨rfl, rfl, rfl⟩ := hn'
  rfl

theorem spin_by_coords {v : Version} {w h : Int} {m : Machine} (hr : Reachable v w h m)
    (hp : WellPlaced v.kind w h m) {b b' : PyStr} {i : Int} {d d' : SpinLinkData}
    (hd : SpinLinkOf v.kind m b i d) (hd' : SpinLinkOf v.kind m b' i d')
    (hxy : (d.x, d.y) = (d'.x, d'.y)) : d = d' := by
  obtain ⟨hs, hwr, hw, hh, -, r⟩ := hr.rep
  have hd0 := hd
  obtain ⟨e, he, hip, n, lx, ly, link, c, rfl, hn, hc, hl, rfl⟩ := hd
  have hd0' := hd'
  obtain ⟨e', he', hip', n', lx', ly', link', c', hi, hn', hc', hl', rfl⟩ := hd'
  have hnn : n = n' := by omega
  subst hnn
  rw [← spinnakerLinks_eq] at hn hn'
  have hm := spin_onBoard _ _ (List.mem_of_getElem? hn)
  have hm' := spin_onBoard _ _ (List.mem_of_getElem? hn')
  simp only [Machine.getGlobalXY, Wrap.globalXY_eq, hwr, hw, hh] at hxy
  have := ethPos_unique hs (hp.2 e he).1 (hp.2 e he).2 (hp.2 e' he').1 (hp.2 e' he').2 hm hm'
    (Prod.ext (Prod.mk.inj hxy).1 (Prod.mk.inj hxy).2)
  have hee : e = e' := by
    have h1 : e ∈ m.chipList := by rw [r.eths] at he; exact (List.mem_filter.1 he).1
    have h2 : e' ∈ m.chipList := by rw [r.eths] at he'; exact (List.mem_filter.1 he').1
    have h3 := Chips.at_of_mem r.nodup h1
    have h4 := Chips.at_of_mem r.nodup h2
    rw [this.1, h4] at h3
    exact (Option.some.inj h3).symm
  subst hee
  rw [hip] at hip'
  cases hip'
  exact spin_by_address hp hd0 hd0'

/-- the SpiNNaker link table after the links were added -/
theorem spin_table {v : Version} {w h : Int} {m : Machine} (hr : Reachable v w h m)
    (hp : WellPlaced v.kind w h m) (he : m.spinLinks = .empty) (key : BoardKey) (i : Int) (d : SpinLinkData) :
    (m.addSpinnakerLinks v).spinLinks.get? (key, i) = some d ↔ ∃ b, SpinLinkOf v.kind m b i d ∧
      (key = .addr b ∨ key = .xy (d.x, d.y)) := by
  rw [addSpinnakerLinks_eq]
  simp only [he]
  rw [PDict.setAll_empty_get?, mem_spinEntries]
  rintro ⟨ky, j⟩ d d' h1 h2
  rw [mem_spinEntries] at h1 h2
  obtain ⟨b, hb, rfl | rfl⟩ := h1
  · obtain ⟨b', hb', hk | hk⟩ := h2
    · cases hk; exact spin_by_address hp hb hb'
    · cases hk
  · obtain ⟨b', hb', hk | hk⟩ := h2
    · cases hk
    · exact spin_by_coords hr hp hb hb' (BoardKey.xy.inj hk)

/-- C27: what the first `add_spinnaker_links` on a machine makes available. The lookup of
link `i` by board address `b` gives `d` exactly if `d` is link `i` of that board; the lookup by chip coordinates
gives `d` exactly if `d` is link `i` of some board and on that chip; without arguments the board
of the chip at (0, 0) is used; all that is not found is a KeyError. -/
theorem C27_spinnaker_link_lookup (v : Version) (w h : Int) (m : Machine) (hr : Reachable v w h m)
    (hp : WellPlaced v.kind w h m) (he : m.spinLinks = .empty) (i : Int) (d : SpinLinkData) :
    let m' := m.addSpinnakerLinks v
    (∀ b, m'.getSpinnakerLink i (some b) none = .ok d ↔ SpinLinkOf v.kind m b i d) ∧
    (∀ ob p, m'.getSpinnakerLink i ob (some p) = .ok d ↔
      ∃ b, SpinLinkOf v.kind m b i d ∧ p = (d.x, d.y)) ∧
    (∀ c b, m.getChipAt 0 0 = some c → c.ip = some b →
      m'.getSpinnakerLink i none none = m'.getSpinnakerLink i (some b) none) := by
  obtain ⟨-, -, -, -, -, r⟩ := hr.rep
  have hch : (m.addSpinnakerLinks v).chips = m.chips := by rw [addSpinnakerLinks_eq]
  refine ⟨fun b => ?_, fun ob p => ?_, fun c b hc hb => ?_⟩
  · unfold Machine.getSpinnakerLink
    rw [PDict.getE_eq_ok_iff, spin_table hr hp he]
    simp
  · unfold Machine.getSpinnakerLink
    simp only [hch]
    have key := spin_table hr hp he (.xy p) i
    cases ht : (m.addSpinnakerLinks v).spinLinks.get? (.xy p, i) with
    | none =>
      have : ¬ ∃ b, SpinLinkOf v.kind m b i d ∧ p = (d.x, d.y) := by
        rintro ⟨b, hb, rfl⟩
        have := (key d).2 ⟨b, hb, .inr rfl⟩
        rw [ht] at this
        cases this
      simp only [this, iff_false]
      split <;> simp
    | some d' =>
      obtain ⟨b, hb, hk⟩ := (key d').1 ht
      have hpx : p = (d'.x, d'.y) := by
        rcases hk with hk | hk
        · cases hk
        · exact BoardKey.xy.inj hk
      have hpc : m.chips.contains p = true := by
        obtain ⟨e, _, _, n, lx, ly, link, c, _, _, hc, _, rfl⟩ := hb
        simp only at hpx
        rw [PDict.contains, hpx]
        unfold Machine.getChipAt at hc
        rw [hc]; rfl
      simp only [hpc, not_true_eq_false, if_false, Except.ok.injEq]
      constructor
      · rintro rfl; exact ⟨b, hb, hpx⟩
      · rintro ⟨b', hb', hpx'⟩
        exact spin_by_coords hr hp hb hb' (hpx.symm.trans hpx')
  · unfold Machine.getSpinnakerLink
    have : (m.addSpinnakerLinks v).bootAddr = some b := by
      rw [addSpinnakerLinks_eq]
      unfold Machine.getChipAt at hc
      rw [r.get?] at hc
      simp [r.boot, hc, hb]
    simp only [this]

/-- C27: nothing but a link or a KeyError, as soon as the machine has a boot chip. -/
theorem C27_otherwise_key_error (v : Version) (w h : Int) (m : Machine) (hr : Reachable v w h m)
    (i : Int) (ob : Option PyStr) (op : Option XY)
    (hb : op = none → ob = none → ∃ c b, m.getChipAt 0 0 = some c ∧ c.ip = some b) :
    (∃ d, m.getSpinnakerLink i ob op = .ok d) ∨ m.getSpinnakerLink i ob op = .error .keyError := by
  obtain ⟨-, -, -, -, -, r⟩ := hr.rep
  unfold Machine.getSpinnakerLink
  cases op with
  | some p =>
    simp only
    split
    · exact .inr rfl
    · split
      · exact .inl ⟨_, rfl⟩
      · exact .inr rfl
  | none =>
    have key : ∀ b, (∃ d, m.spinLinks.getE (.addr b, i) = .ok d) ∨
        m.spinLinks.getE (.addr b, i) = .error .keyError := by
      intro b
      unfold PDict.getE
      split
      · exact .inl ⟨_, rfl⟩
      · exact .inr rfl
    cases ob with
    | some b => exact key b
    | none =>
      obtain ⟨c, b, hc, hcb⟩ := hb rfl rfl
      have : m.bootAddr = some b := by
        unfold Machine.getChipAt at hc
        rw [r.get?] at hc
        simp [r.boot, hc, hcb]
      simp only [this]
      exact key b

/-- C27: without a boot chip a lookup without arguments fails its assertion. -/
theorem C27_no_boot_chip (v : Version) (w h : Int) (m : Machine) (hr : Reachable v w h m) (i : Int)
    (hb : ∀ c, m.getChipAt 0 0 = some c → c.ip = none) :
    m.getSpinnakerLink i none none = .error .assertionError := by
  obtain ⟨-, -, -, -, -, r⟩ := hr.rep
  unfold Machine.getSpinnakerLink
  have : m.bootAddr = none := by
    rw [r.boot]
    unfold Machine.getChipAt at hb
    simp only [r.get?] at hb
    cases ha : Chips.at m.chipList (0, 0) with
    | none => rfl
    | some c => exact hb c ha
  simp only [this]

/-- the operation adds no link tables -/
def noLinkTables : Op → Bool
  | .addSpinnakerLinks => false
  | .addFpgaLinks => false
  | _ => true

theorem step_tables {v : Version} {m : Machine} {o : Op} (ho : noLinkTables o = true) :
    (step v m o).1.spinLinks = m.spinLinks ∧ (step v m o).1.fpgaLinks = m.fpgaLinks := by
  have hadd : ∀ (m m' : Machine) (c : Chip), m.addChip c = .ok m' →
      m'.spinLinks = m.spinLinks ∧ m'.fpgaLinks = m.fpgaLinks := by
    intro m m' c hm
    unfold Machine.addChip at hm
    split at hm
    · cases hm
    · cases hm; exact ⟨rfl, rfl⟩
  cases o with
  | addChip c =>
    simp only [step]
    split
    · rename_i m' hm; exact hadd _ _ _ hm
    · exact ⟨rfl, rfl⟩
  | addChips cs =>
    simp only [step]
    clear ho
    induction cs generalizing m with
    | nil => exact ⟨rfl, rfl⟩
    | cons c cs ih =>
      simp only [Machine.addChips]
      split
      · rename_i m' hm
        have h1 := hadd _ _ _ hm
        have h2 := ih (m := m')
        exact ⟨h2.1.trans h1.1, h2.2.trans h1.2⟩
      · exact ⟨rfl, rfl⟩
  | addLink p l =>
    simp only [step, Machine.routerAddLink]
    cases m.chips.get? p with
    | none => exact ⟨rfl, rfl⟩
    | some c => cases hl : c.router.addLink l with
      | ok r => simp [hl]
      | error e => simp [hl]
  | addSpinnakerLinks => cases ho
  | addFpgaLinks => cases ho

/-- C27, C28: before the links are added there are none. -/
theorem C27_no_links_at_first (v : Version) (w h : Option Int) (o : String) (m₀ : Machine)
    (h₀ : v.kind.createMachine w h o = .ok m₀) (ops : List Op) (hops : ∀ op ∈ ops, noLinkTables op = true) :
    (run v m₀ ops).1.spinLinks = .empty ∧ (run v m₀ ops).1.fpgaLinks = .empty := by
  have h0 : m₀.spinLinks = .empty ∧ m₀.fpgaLinks = .empty := by
    unfold VKind.createMachine at h₀
    split at h₀
    · cases h₀
    · cases h₀; exact ⟨rfl, rfl⟩
  clear h₀
  induction ops generalizing m₀ with
  | nil => exact h0
  | cons op ops ih =>
    simp only [run]
    have := step_tables (v := v) (m := m₀) (hops op List.mem_cons_self)
    exact ih _ (fun o ho => hops o (List.mem_cons_of_mem _ ho)) ⟨this.1.trans h0.1, this.2.trans h0.2⟩

/-! ## C28 -/

/-- `d` is the FPGA link (`f`, `fl`) of the board with address `b` whose Ethernet chip is at `exy`:
the row of the version's table for that connector, on a chip of the machine -/
def FpgaLinkOf (k : VKind) (m : Machine) (b : PyStr) (exy : XY) (f fl : Int) (d : FpgaLinkData) : Prop :=
  ∃ e ∈ m.ethernetChips, e.ip = some b ∧ e.xy = exy ∧ ∃ (lx ly link : Int),
    (lx, ly, link, f, fl) ∈ k.fpgaLinks ∧ m.isChipAt d.x d.y = true ∧
    (d.x, d.y) = m.getGlobalXY lx ly e.x e.y ∧
    d.link = link ∧ d.board = b ∧ d.fpgaId = f ∧ d.fpgaLinkId = fl

theorem mem_fpgaRow {m : Machine} (r : Rep m m.chipList) (e : Chip) (ip : PyStr)
    (a : Int × Int × Int × Int × Int) (key : BoardKey) (f fl : Int) (d : FpgaLinkData) :
    ((key, f, fl), d) ∈ fpgaRow m e ip a ↔ m.isChipAt d.x d.y = true ∧
      (d.x, d.y) = m.getGlobalXY a.1 a.2.1 e.x e.y ∧ f = a.2.2.2.1 ∧ fl = a.2.2.2.2 ∧
      d.link = a.2.2.1 ∧ d.board = ip ∧ d.fpgaId = f ∧ d.fpgaLinkId = fl ∧
      (key = .addr ip ∨ key = .xy (d.x, d.y) ∨ key = .xy e.xy) := by
  unfold fpgaRow
  simp only
  generalize m.getGlobalXY a.1 a.2.1 e.x e.y = g
  obtain ⟨gx, gy⟩ := g
  obtain ⟨dfl, df, dx, dy, dl, db⟩ := d
  cases hc : m.getChipAt gx gy with
  | none =>
    simp only [List.not_mem_nil, false_iff]
    rintro ⟨h1, h2, -⟩
    cases h2
    unfold Machine.isChipAt PDict.contains at h1
    unfold Machine.getChipAt at hc
    rw [hc] at h1
    cases h1
  | some c =>
    have hxy : c.xy = (gx, gy) := by
      unfold Machine.getChipAt at hc
      rw [r.get?] at hc
      exact (Chips.at_mem hc).2
    have hcx : c.x = gx := congrArg Prod.fst hxy
    have hcy : c.y = gy := congrArg Prod.snd hxy
    have hat : m.isChipAt gx gy = true := by
      unfold Machine.isChipAt PDict.contains
      unfold Machine.getChipAt at hc
      rw [hc]; rfl
    simp only [List.mem_cons, Prod.mk.injEq, FpgaLinkData.mk.injEq, List.not_mem_nil, or_false, hcx, hcy]
    constructor
    · rintro (⟨⟨rfl, rfl, rfl⟩, rfl, rfl, rfl, rfl, rfl, rfl⟩ | ⟨⟨rfl, rfl, rfl⟩, rfl, rfl, rfl, rfl, rfl, rfl⟩ |
        ⟨⟨rfl, rfl, rfl⟩, rfl, rfl, rfl, rfl, rfl, rfl⟩) <;> simp [hat, Chip.xy]
    · rintro ⟨_, ⟨rfl, rfl⟩, rfl, rfl, rfl, rfl, rfl, rfl, rfl | rfl | rfl⟩ <;> simp [Chip.xy]

theorem mem_fpgaEntries {m : Machine} (r : Rep m m.chipList) (k : VKind) (key : BoardKey) (f fl : Int)
    (d : FpgaLinkData) :
    ((key, f, fl), d) ∈ fpgaEntries k m m.ethernetChips ↔ ∃ b exy, FpgaLinkOf k m b exy f fl d ∧
      (key = .addr b ∨ key = .xy (d.x, d.y) ∨ key = .xy exy) := by
  simp only [fpgaEntries, List.mem_flatMap, FpgaLinkOf]
  constructor
  · rintro ⟨e, he, hm⟩
    cases hip : e.ip with
    | none => simp [hip] at hm
    | some b =>
      simp only [hip, List.mem_flatMap] at hm
      obtain ⟨a, ha, hrow⟩ := hm
      rw [mem_fpgaRow r] at hrow
      obtain ⟨h1, h2, rfl, rfl, h3, h4, h5, h6, h7⟩ := hrow
      exact ⟨b, e.xy, ⟨e, he, hip, rfl, a.1, a.2.1, a.2.2.1, ha, h1, h2, h3, h4, h5, h6⟩, h7⟩
  · rintro ⟨b, exy, ⟨e, he, hip, rfl, lx, ly, link, ha, h1, h2, h3, h4, h5, h6⟩, hk⟩
    refine ⟨e, he, ?_⟩
    simp only [hip, List.mem_flatMap]
    refine ⟨_, ha, ?_⟩
    rw [mem_fpgaRow r]
    exact ⟨h1, h2, rfl, rfl, h3, h4, h5, h6, hk⟩

theorem fpga_onBoard (k : VKind) : ∀ a ∈ k.fpgaLinks, OnBoard k (a.1, a.2.1) := by
  cases k with
  | v5 => intro a ha; exact (C29_table_wellformed.1 a ha).1
  | v3 => simp [VKind.fpgaLinks]
  | v201 => simp [VKind.fpgaLinks]
  | v248 => simp [VKind.fpgaLinks]

theorem eq_of_nodup_map {α β : Type} {f : α → β} {l : List α} (hn : (l.map f).Nodup) {a b : α}
    (ha : a ∈ l) (hb : b ∈ l) (hab : f a = f b) : a = b := by
  induction l with
  | nil => cases ha
  | cons c t ih =>
    rw [List.map_cons, List.nodup_cons] at hn
    rcases List.mem_cons.1 ha with ha1 | ha1
    · rcases List.mem_cons.1 hb with hb1 | hb1
      · rw [ha1, hb1]
      · subst ha1
        exact absurd (hab ▸ List.mem_map_of_mem hb1) hn.1
    · rcases List.mem_cons.1 hb with hb1 | hb1
      · subst hb1
        exact absurd (hab ▸ List.mem_map_of_mem ha1) hn.1
      · exact ih hn.2 ha1 hb1

theorem fpga_unique (k : VKind) {a b : Int × Int × Int × Int × Int} (ha : a ∈ k.fpgaLinks)
    (hb : b ∈ k.fpgaLinks) (hab : (a.2.2.2.1, a.2.2.2.2) = (b.2.2.2.1, b.2.2.2.2)) : a = b := by
  cases k with
  | v5 => exact eq_of_nodup_map C29_table_wellformed.2.2.1 ha hb hab
  | v3 => simp [VKind.fpgaLinks] at ha
  | v201 => simp [VKind.fpgaLinks] at ha
  | v248 => simp [VKind.fpgaLinks] at ha

theorem onBoard_origin (k : VKind) : OnBoard k (0, 0) := by cases k <;> simp [OnBoard, OnBoard48]

theorem ethChip_eq {m : Machine} (r : Rep m m.chipList) {e e' : Chip} (he : e ∈ m.ethernetChips)
    (he' : e' ∈ m.ethernetChips) (hxy : e.xy = e'.xy) : e = e' := by
  have h1 : e ∈ m.chipList := by rw [r.eths] at he; exact (List.mem_filter.1 he).1
  have h2 : e' ∈ m.chipList := by rw [r.eths] at he'; exact (List.mem_filter.1 he').1
  have h3 := Chips.at_of_mem r.nodup h1
  have h4 := Chips.at_of_mem r.nodup h2
  rw [hxy, h4] at h3
  exact (Option.some.inj h3).symm

/-- the same connector of the same board -/
theorem fpga_same_board {v : Version} {w h : Int} {m : Machine} (hr : Reachable v w h m)
    {b b' : PyStr} {exy exy' : XY} {f fl : Int} {d d' : FpgaLinkData}
    (hd : FpgaLinkOf v.kind m b exy f fl d) (hd' : FpgaLinkOf v.kind m b' exy' f fl d')
    (hxy : exy = exy') : d = d' := by
  obtain ⟨-, -, -, -, -, r⟩ := hr.rep
  obtain ⟨e, he, hip, he1, lx, ly, link, ha, _, h2, h3, h4, h5, h6⟩ := hd
  obtain ⟨e', he', hip', he1', lx', ly', link', ha', _, h2', h3', h4', h5', h6'⟩ := hd'
  have := ethChip_eq r he he' (by rw [he1, he1', hxy])
  subst this
  rw [hip] at hip'
  cases hip'
  have := fpga_unique v.kind ha ha' rfl
  simp only [Prod.mk.injEq, and_true] at this
  obtain ⟨rfl, rfl, rfl⟩ := this
  obtain ⟨dfl, df, dx, dy, dl, db⟩ := d
  obtain ⟨dfl', df', dx', dy', dl', db'⟩ := d'
  simp only at *
  rw [← h2] at h2'
  cases h2'
  simp_all

/-- a place belongs to one board only -/
theorem fpga_place {v : Version} {w h : Int} {m : Machine} (hr : Reachable v w h m)
    (hp : WellPlaced v.kind w h m) {b b' : PyStr} {exy exy' : XY} {f fl : Int} {d d' : FpgaLinkData}
    (hd : FpgaLinkOf v.kind m b exy f fl d) (hd' : FpgaLinkOf v.kind m b' exy' f fl d')
    (hxy : (d.x, d.y) = (d'.x, d'.y) ∨ (d.x, d.y) = exy') : exy = exy' := by
  obtain ⟨hs, hwr, hw, hh, -, r⟩ := hr.rep
  obtain ⟨e, he, hip, rfl, lx, ly, link, ha, _, h2, h3, h4, h5, h6⟩ := hd
  obtain ⟨e', he', hip', rfl, lx', ly', link', ha', _, h2', h3', h4', h5', h6'⟩ := hd'
  simp only [Machine.getGlobalXY, Wrap.globalXY_eq, hwr, hw, hh] at h2 h2'
  have p1 := hp.2 e he
  have p2 := hp.2 e' he'
  have hm := fpga_onBoard _ _ ha
  have hm' := fpga_onBoard _ _ ha'
  rcases hxy with hxy | hxy
  · exact (ethPos_unique hs p1.1 p1.2 p2.1 p2.2 hm hm' (by rw [h2, h2'] at hxy; exact hxy)).1
  · refine (ethPos_unique hs p1.1 p1.2 p2.1 p2.2 hm (onBoard_origin _) ?_).1
    have h0 : (v.kind.wrapFor w h).red w h ((0, 0).1 + e'.xy.1, (0, 0).2 + e'.xy.2) = e'.xy := by
      simp only [Int.zero_add]
      obtain ⟨g1, g2, g3, g4⟩ := p2.2
      generalize e'.xy = q at *
      cases v.kind.wrapFor w h <;> simp only [Wrap.red] <;> ext <;>
        simp only [pmod_of_range, g1, g2, g3, g4]
    rw [h0, ← hxy, h2]
    rfl

theorem fpga_table {v : Version} {w h : Int} {m : Machine} (hr : Reachable v w h m)
    (hp : WellPlaced v.kind w h m) (he : m.fpgaLinks = .empty) (key : BoardKey) (f fl : Int) (d : FpgaLinkData) :
    (m.addFpgaLinks v).fpgaLinks.get? (key, f, fl) = some d ↔ ∃ b exy, FpgaLinkOf v.kind m b exy f fl d ∧
      (key = .addr b ∨ key = .xy (d.x, d.y) ∨ key = .xy exy) := by
  have r := hr.rep.2.2.2.2.2
  rw [addFpgaLinks_eq]
  simp only [he]
  rw [PDict.setAll_empty_get?, mem_fpgaEntries r]
  rintro ⟨ky, f, fl⟩ d d' h1 h2
  rw [mem_fpgaEntries r] at h1 h2
  obtain ⟨b, exy, hb, hk⟩ := h1
  obtain ⟨b', exy', hb', hk'⟩ := h2
  refine fpga_same_board hr hb hb' ?_
  rcases hk with rfl | rfl | rfl
  · rcases hk' with hk | hk | hk
    · cases hk
      obtain ⟨e, he, hip, rfl, -⟩ := hb
      obtain ⟨e', he', hip', rfl, -⟩ := hb'
      rw [hp.1 e he e' he' (hip.trans hip'.symm)]
    · cases hk
    · cases hk
  · rcases hk' with hk | hk | hk
    · cases hk
    · exact fpga_place hr hp hb hb' (.inl (BoardKey.xy.inj hk))
    · exact fpga_place hr hp hb hb' (.inr (BoardKey.xy.inj hk))
  · rcases hk' with hk | hk | hk
    · cases hk
    · exact (fpga_place hr hp hb' hb (.inr (BoardKey.xy.inj hk).symm)).symm
    · exact BoardKey.xy.inj hk

/-- C28: what the first `add_fpga_links` on a machine makes available. The lookup of an FPGA
connector by board address `b` gives `d` exactly if `d` is that connector of that board; the
lookup by coordinates gives `d` exactly if `d` is that connector of a board, on the chip asked
for or the chip asked for being the board's Ethernet chip; without arguments the board of the
chip at (0, 0) is used. -/
theorem C28_fpga_link_lookup (v : Version) (w h : Int) (m : Machine) (hr : Reachable v w h m)
    (hp : WellPlaced v.kind w h m) (he : m.fpgaLinks = .empty) (f fl : Int) (d : FpgaLinkData) :
    let m' := m.addFpgaLinks v
    (∀ b, m'.getFpgaLink f fl (some b) none = .ok d ↔ ∃ exy, FpgaLinkOf v.kind m b exy f fl d) ∧
    (∀ ob p, m'.getFpgaLink f fl ob (some p) = .ok d ↔
      ∃ b exy, FpgaLinkOf v.kind m b exy f fl d ∧ (p = (d.x, d.y) ∨ p = exy)) ∧
    (∀ c b, m.getChipAt 0 0 = some c → c.ip = some b →
      m'.getFpgaLink f fl none none = m'.getFpgaLink f fl (some b) none) := by
  have r := hr.rep.2.2.2.2.2
  have hch : (m.addFpgaLinks v).chips = m.chips := by rw [addFpgaLinks_eq]
  refine ⟨fun b => ?_, fun ob p => ?_, fun c b hc hb => ?_⟩
  · unfold Machine.getFpgaLink
    rw [PDict.getE_eq_ok_iff, fpga_table hr hp he]
    simp
  · unfold Machine.getFpgaLink
    simp only [hch]
    have key := fpga_table hr hp he (.xy p) f fl
    cases ht : (m.addFpgaLinks v).fpgaLinks.get? (.xy p, f, fl) with
    | none =>
      have : ¬ ∃ b exy, FpgaLinkOf v.kind m b exy f fl d ∧ (p = (d.x, d.y) ∨ p = exy) := by
        rintro ⟨b, exy, hb, hpp⟩
        have := (key d).2 ⟨b, exy, hb, .inr (by rcases hpp with rfl | rfl <;> simp)⟩
        rw [ht] at this
        cases this
      simp only [this, iff_false]
      split <;> simp
    | some d' =>
      obtain ⟨b, exy, hb, hk⟩ := (key d').1 ht
      have hpx : p = (d'.x, d'.y) ∨ p = exy := by
        rcases hk with hk | hk | hk
        · cases hk
        · exact .inl (BoardKey.xy.inj hk)
        · exact .inr (BoardKey.xy.inj hk)
      have hpc : m.chips.contains p = true := by
        obtain ⟨e, he, _, rfl, _, _, _, _, hat, _⟩ := hb
        rcases hpx with rfl | rfl
        · exact hat
        · have h1 : e ∈ m.chipList := by rw [r.eths] at he; exact (List.mem_filter.1 he).1
          rw [r.contains, Chips.at_of_mem r.nodup h1]; rfl
      simp only [hpc, not_true_eq_false, if_false, Except.ok.injEq]
      constructor
      · rintro rfl; exact ⟨b, exy, hb, hpx⟩
      · rintro ⟨b', exy', hb', hpx'⟩
        have hall := (key d).2 ⟨b', exy', hb', .inr (by rcases hpx' with rfl | rfl <;> simp)⟩
        rw [ht] at hall
        exact Option.some.inj hall
  · unfold Machine.getFpgaLink
    have : (m.addFpgaLinks v).bootAddr = some b := by
      rw [addFpgaLinks_eq]
      unfold Machine.getChipAt at hc
      rw [r.get?] at hc
      simp [r.boot, hc, hb]
    simp only [this]

/-- C28: nothing but a link or a KeyError, as soon as the machine has a boot chip. -/
theorem C28_otherwise_key_error (v : Version) (w h : Int) (m : Machine) (hr : Reachable v w h m)
    (f fl : Int) (ob : Option PyStr) (op : Option XY)
    (hb : op = none → ob = none → ∃ c b, m.getChipAt 0 0 = some c ∧ c.ip = some b) :
    (∃ d, m.getFpgaLink f fl ob op = .ok d) ∨ m.getFpgaLink f fl ob op = .error .keyError := by
  obtain ⟨-, -, -, -, -, r⟩ := hr.rep
  unfold Machine.getFpgaLink
  cases op with
  | some p =>
    simp only
    split
    · exact .inr rfl
    · split
      · exact .inl ⟨_, rfl⟩
      · exact .inr rfl
  | none =>
    have key : ∀ b, (∃ d, m.fpgaLinks.getE (.addr b, f, fl) = .ok d) ∨
        m.fpgaLinks.getE (.addr b, f, fl) = .error .keyError := by
      intro b
      unfold PDict.getE
      split
      · exact .inl ⟨_, rfl⟩
      · exact .inr rfl
    cases ob with
    | some b => exact key b
    | none =>
      obtain ⟨c, b, hc, hcb⟩ := hb rfl rfl
      have : m.bootAddr = some b := by
        unfold Machine.getChipAt at hc
        rw [r.get?] at hc
        simp [r.boot, hc, hcb]
      simp only [this]
      exact key b

/-- the machine of the examples: a board with two of its chips -/
def exBoardOps : List Op :=
  [.addChip (exLinked 0 0 [⟨0, 0, 0, 1, 0⟩] 0 0 (some ['a'])), .addChip (exLinked 1 0 [] 0 0 none)]

example : ∃ m : Machine, Reachable exV5 8 8 m ∧ WellPlaced .v5 8 8 m ∧ m.spinLinks = .empty ∧
    m.fpgaLinks = .empty ∧
    (m.addSpinnakerLinks exV5).getSpinnakerLink 0 none none = .ok ⟨0, 0, 0, 4, ['a']⟩ ∧
    (m.addFpgaLinks exV5).getFpgaLink 0 14 none (some (0, 0)) = .ok ⟨14, 0, 1, 0, 4, ['a']⟩ := by
  refine ⟨_, ⟨"t", exBoardOps, Machine.new .none 8 8 VKind.v5.chipCoreMap "t", rfl, rfl⟩, ⟨?_, ?_⟩, rfl, rfl, ?_, ?_⟩
  · decide +kernel
  · intro e he
    have hx : e.xy = (0, 0) := by
      have : ∀ e ∈ (run exV5 (Machine.new .none 8 8 VKind.v5.chipCoreMap "t") exBoardOps).1.ethernetChips,
        e.xy = (0, 0) := by decide +kernel
      exact this e he
    rw [hx]
    exact ⟨⟨0, 0, .inl rfl⟩, by unfold InGrid; decide⟩
  · decide +kernel
  · decide +kernel

/-- not in the list of claims: `n_fpga_links` counts table keys, not links. A board with one chip
at its Ethernet position has the 3 FPGA links of that chip, yet 6 are reported. -/
theorem n_fpga_links_counts_keys :
    ∃ m : Machine, Reachable exV5 8 8 m ∧ m.nChips = 1 ∧
      (VKind.v5.fpgaLinks.filter fun f => (f.1, f.2.1) = (0, 0)).length = 3 ∧ m.nFpgaLinks = 6 := by
  refine ⟨_, ⟨"t", [.addChip (exLinked 0 0 [] 0 0 (some ['a'])), .addFpgaLinks], _, rfl, rfl⟩, ?_, ?_, ?_⟩ <;>
    decide +kernel

end SpiNN.Props
