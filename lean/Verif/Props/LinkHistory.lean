import Verif.Props.Links

/-!
# C27, C28 after any history

`add_spinnaker_links` and `add_fpga_links` may be called several times, with chips and links added in between.
-/

namespace SpiNN.Props
open SpiNN SpiNN.Spec

/-! ### chips stay -/

/-- every chip is still there, with its place and address -/
def Grown (s s' : Chips) : Prop := ∀ c ∈ s, ∃ c' ∈ s', c'.xy = c.xy ∧ c'.ip = c.ip

theorem Grown.refl (s : Chips) : Grown s s := fun c hc => ⟨c, hc, rfl, rfl⟩

theorem Grown.trans {a b c : Chips} (h : Grown a b) (h' : Grown b c) : Grown a c := by
  intro x hx
  obtain ⟨y, hy, h1, h2⟩ := h x hx
  obtain ⟨z, hz, h3, h4⟩ := h' y hy
  exact ⟨z, hz, h3.trans h1, h4.trans h2⟩

theorem add_grown (s : Chips) (c : Chip) : Grown s (s.add c).1 := by
  unfold Chips.add
  split
  · exact .refl _
  · exact fun d hd => ⟨d, List.mem_append_left _ hd, rfl, rfl⟩

theorem addAll_grown (cs : List Chip) (s : Chips) : Grown s (s.addAll cs).1 := by
  induction cs generalizing s with
  | nil => exact .refl _
  | cons c cs ih =>
    have h := add_grown s c
    unfold Chips.addAll
    split
    · rename_i s' hs
      rw [hs] at h
      exact h.trans (ih s')
    · exact .refl _

theorem absStep_grown (s : Chips) (o : Op) : Grown s (absStep s o).1 := by
  cases o with
  | addChip c => exact add_grown s c
  | addChips cs => exact addAll_grown cs s
  | addLink p l =>
    simp only [absStep, Chips.addLink]
    split
    · exact .refl _
    · split
      · exact .refl _
      · intro d hd
        refine ⟨_, List.mem_map_of_mem hd, ?_⟩
        split <;> exact ⟨rfl, rfl⟩
  | addSpinnakerLinks => exact .refl _
  | addFpgaLinks => exact .refl _

theorem absRun_grown (os : List Op) (s : Chips) : Grown s (absRun s os).1 := by
  induction os generalizing s with
  | nil => exact .refl _
  | cons o os ih => exact (absStep_grown s o).trans (ih _)

theorem run_cat (v : Version) (os os' : List Op) (a : Machine) :
    (run v a (os ++ os')).1 = (run v (run v a os).1 os').1 := by
  induction os generalizing a with
  | nil => rfl
  | cons o t ih => simp only [List.cons_append, run]; exact ih _

theorem reachable_run {v : Version} {w h : Int} {m : Machine} (hr : Reachable v w h m) (ops : List Op) :
    Reachable v w h (run v m ops).1 := by
  obtain ⟨o, ops0, m0, h0, rfl⟩ := hr
  exact ⟨o, ops0 ++ ops, m0, h0, (run_cat v ops0 ops m0).symm⟩

theorem reachable_step {v : Version} {w h : Int} {m : Machine} (hr : Reachable v w h m) (o : Op) :
    Reachable v w h (step v m o).1 := reachable_run hr [o]

theorem run_grown {v : Version} {w h : Int} {m : Machine} (hr : Reachable v w h m) (ops : List Op) :
    Grown m.chipList (run v m ops).1.chipList := by
  obtain ⟨-, -, -, -, -, r⟩ := hr.rep
  have h1 := (r.run v ops).1
  have h2 : (run v m ops).1.chipList = (absRun m.chipList ops).1 := h1.values
  rw [h2]
  exact absRun_grown ops _

/-- the Ethernet chips stay too -/
theorem eth_grown {v : Version} {w h : Int} {m : Machine} (hr : Reachable v w h m) (ops : List Op) {e : Chip}
    (he : e ∈ m.ethernetChips) : ∃ e' ∈ (run v m ops).1.ethernetChips, e'.xy = e.xy ∧ e'.ip = e.ip := by
  have r := hr.rep.2.2.2.2.2
  have r' := (reachable_run hr ops).rep.2.2.2.2.2
  rw [r.eths, List.mem_filter] at he
  obtain ⟨c, hc, h1, h2⟩ := run_grown hr ops e he.1
  refine ⟨c, ?_, h1, h2⟩
  rw [r'.eths, List.mem_filter, h2]
  exact ⟨hc, he.2⟩

theorem global_same {v : Version} {w h : Int} {m m' : Machine} (hr : Reachable v w h m) (hr' : Reachable v w h m')
    (lx ly ex ey : Int) : m'.getGlobalXY lx ly ex ey = m.getGlobalXY lx ly ex ey := by
  obtain ⟨-, h1, h2, h3, -, -⟩ := hr.rep
  obtain ⟨-, g1, g2, g3, -, -⟩ := hr'.rep
  unfold Machine.getGlobalXY
  rw [h1, h2, h3, g1, g2, g3]

/-! ### SpiNNaker links -/

/-- `d` is what would be written for link `i` of the board with address `b`, whether or not its chip is there -/
def SpinPlace (k : VKind) (m : Machine) (b : PyStr) (i : Int) (d : SpinLinkData) : Prop :=
  ∃ e ∈ m.ethernetChips, e.ip = some b ∧ ∃ (n : Nat) (lx ly link : Int),
    i = n ∧ k.spinnakerLinks[n]? = some (lx, ly, link) ∧
    d = ⟨i, (m.getGlobalXY lx ly e.x e.y).1, (m.getGlobalXY lx ly e.x e.y).2, link, b⟩

theorem SpinLinkOf.place {k : VKind} {m : Machine} {b : PyStr} {i : Int} {d : SpinLinkData}
    (hd : SpinLinkOf k m b i d) : SpinPlace k m b i d := by
  obtain ⟨e, he, hip, n, lx, ly, link, c, h1, h2, -, -, h5⟩ := hd
  rw [← spinnakerLinks_eq] at h2
  exact ⟨e, he, hip, n, lx, ly, link, h1, h2, h5⟩

theorem SpinPlace.later {v : Version} {w h : Int} {m : Machine} (hr : Reachable v w h m) (ops : List Op)
    {b : PyStr} {i : Int} {d : SpinLinkData} (hd : SpinPlace v.kind m b i d) :
    SpinPlace v.kind (run v m ops).1 b i d := by
  obtain ⟨e, he, hip, n, lx, ly, link, h1, h2, h5⟩ := hd
  obtain ⟨e', he', hxy, hip'⟩ := eth_grown hr ops he
  refine ⟨e', he', hip'.trans hip, n, lx, ly, link, h1, h2, ?_⟩
  have hx : e'.x = e.x := congrArg Prod.fst hxy
  have hy : e'.y = e.y := congrArg Prod.snd hxy
  rw [hx, hy, global_same hr (reachable_run hr ops)]
  exact h5

theorem place_by_address {k : VKind} {w h : Int} {m : Machine} (hp : WellPlaced k w h m) {b : PyStr}
    {i : Int} {d d' : SpinLinkData} (hd : SpinPlace k m b i d) (hd' : SpinPlace k m b i d') : d = d' := by
  obtain ⟨e, he, hip, n, lx, ly, link, rfl, hn, rfl⟩ := hd
  obtain ⟨e', he', hip', n', lx', ly', link', hi, hn', rfl⟩ := hd'
  have hnn : n = n' := by omega
  subst hnn
  have := hp.1 e he e' he' (hip.trans hip'.symm)
  subst this
  rw [hn] at hn'
  simp only [Option.some.injEq, Prod.mk.injEq] at hn'
  obtain ⟨rfl, rfl, rfl⟩ := hn'
  rfl

theorem place_by_coords {v : Version} {w h : Int} {m : Machine} (hr : Reachable v w h m)
    (hp : WellPlaced v.kind w h m) {b b' : PyStr} {i : Int} {d d' : SpinLinkData}
    (hd : SpinPlace v.kind m b i d) (hd' : SpinPlace v.kind m b' i d')
    (hxy : (d.x, d.y) = (d'.x, d'.y)) : d = d' := by
  obtain ⟨hs, hwr, hw, hh, -, r⟩ := hr.rep
  have hd0 := hd
  obtain ⟨e, he, hip, n, lx, ly, link, rfl, hn, rfl⟩ := hd
  have hd0' := hd'
  obtain ⟨e', he', hip', n', lx', ly', link', hi, hn', rfl⟩ := hd'
  have hm := spin_onBoard _ _ (List.mem_of_getElem? hn)
  have hm' := spin_onBoard _ _ (List.mem_of_getElem? hn')
  simp only [Machine.getGlobalXY, Wrap.globalXY_eq, hwr, hw, hh] at hxy
  have := ethPos_unique hs (hp.2 e he).1 (hp.2 e he).2 (hp.2 e' he').1 (hp.2 e' he').2 hm hm'
    (Prod.ext (Prod.mk.inj hxy).1 (Prod.mk.inj hxy).2)
  have hee := ethChip_eq r he he' this.1
  subst hee
  rw [hip] at hip'
  cases hip'
  exact place_by_address hp hd0 hd0'

theorem place_by_key {v : Version} {w h : Int} {m : Machine} (hr : Reachable v w h m)
    (hp : WellPlaced v.kind w h m) {key : BoardKey} {i : Int} {d d' : SpinLinkData}
    (hd : ∃ b, SpinPlace v.kind m b i d ∧ (key = .addr b ∨ key = .xy (d.x, d.y)))
    (hd' : ∃ b, SpinPlace v.kind m b i d' ∧ (key = .addr b ∨ key = .xy (d'.x, d'.y))) : d = d' := by
  obtain ⟨b, hb, rfl | rfl⟩ := hd
  · obtain ⟨b', hb', hk | hk⟩ := hd'
    · cases hk; exact place_by_address hp hb hb'
    · cases hk
  · obtain ⟨b', hb', hk | hk⟩ := hd'
    · cases hk
    · exact place_by_coords hr hp hb hb' (BoardKey.xy.inj hk)

/-- at some call of `add_spinnaker_links` of the history `ops`, which starts from `m₀`, `d` was link `i` of the
board with address `b` -/
def SpinOffered (v : Version) (m₀ : Machine) (ops : List Op) (b : PyStr) (i : Int) (d : SpinLinkData) : Prop :=
  ∃ before after, ops = before ++ .addSpinnakerLinks :: after ∧ SpinLinkOf v.kind (run v m₀ before).1 b i d

theorem spinOffered_cons {v : Version} {m : Machine} {o : Op} {ops : List Op} {b : PyStr} {i : Int}
    {d : SpinLinkData} : SpinOffered v m (o :: ops) b i d ↔
      (o = .addSpinnakerLinks ∧ SpinLinkOf v.kind m b i d) ∨ SpinOffered v (step v m o).1 ops b i d := by
  constructor
  · rintro ⟨before, after, h1, h2⟩
    cases before with
    | nil =>
      rw [List.nil_append, List.cons.injEq] at h1
      exact .inl ⟨h1.1, h2⟩
    | cons x xs =>
      rw [List.cons_append, List.cons.injEq] at h1
      obtain ⟨rfl, h1⟩ := h1
      exact .inr ⟨xs, after, h1, h2⟩
  · rintro (⟨rfl, h⟩ | ⟨before, after, rfl, h⟩)
    · exact ⟨[], ops, rfl, h⟩
    · exact ⟨o :: before, after, rfl, h⟩

theorem step_spin {v : Version} {m : Machine} {o : Op} (ho : o ≠ .addSpinnakerLinks) :
    (step v m o).1.spinLinks = m.spinLinks := by
  cases o with
  | addSpinnakerLinks => exact absurd rfl ho
  | addFpgaLinks => simp only [step]; rw [addFpgaLinks_eq]
  | addChip c => exact (step_tables rfl).1
  | addChips cs => exact (step_tables rfl).1
  | addLink p l => exact (step_tables rfl).1

theorem spin_history {v : Version} {w h : Int} (ops : List Op) (m : Machine) (hr : Reachable v w h m)
    (hp : WellPlaced v.kind w h (run v m ops).1)
    (hc : ∀ key i d, m.spinLinks.get? (key, i) = some d →
      ∃ b, SpinPlace v.kind (run v m ops).1 b i d ∧ (key = .addr b ∨ key = .xy (d.x, d.y)))
    (key : BoardKey) (i : Int) (d : SpinLinkData) :
    (run v m ops).1.spinLinks.get? (key, i) = some d ↔ m.spinLinks.get? (key, i) = some d ∨
      ∃ b, SpinOffered v m ops b i d ∧ (key = .addr b ∨ key = .xy (d.x, d.y)) := by
  induction ops generalizing m with
  | nil =>
    have : ∀ b, ¬ SpinOffered v m [] b i d := by
      rintro b ⟨before, after, h1, -⟩
      cases before <;> cases h1
    simp only [run, this, false_and, exists_false, or_false]
  | cons o ops ih =>
    have hF : (run v m (o :: ops)).1 = (run v (step v m o).1 ops).1 := rfl
    rw [hF] at hp hc ⊢
    have hr1 := reachable_step hr o
    simp only [spinOffered_cons]
    by_cases ho : o = .addSpinnakerLinks
    · subst ho
      have hm1 : (step v m .addSpinnakerLinks).1 = m.addSpinnakerLinks v := rfl
      have hpl : ∀ key i d, ((key, i), d) ∈ spinEntries v.kind m m.ethernetChips →
          ∃ b, SpinPlace v.kind (run v (step v m .addSpinnakerLinks).1 ops).1 b i d ∧
            (key = .addr b ∨ key = .xy (d.x, d.y)) := by
        intro key i d hd
        rw [mem_spinEntries] at hd
        obtain ⟨b, hb, hk⟩ := hd
        exact ⟨b, hb.place.later hr (.addSpinnakerLinks :: ops), hk⟩
      have hF2 := reachable_run hr1 ops
      have hget : ∀ key i d, (m.addSpinnakerLinks v).spinLinks.get? (key, i) = some d ↔
          m.spinLinks.get? (key, i) = some d ∨
            ∃ b, SpinLinkOf v.kind m b i d ∧ (key = .addr b ∨ key = .xy (d.x, d.y)) := by
        intro key i d
        rw [addSpinnakerLinks_eq]
        simp only
        rw [PDict.setAll_get?]
        · rw [← mem_spinEntries]
          constructor
          · rintro (h | ⟨h, -⟩)
            · exact .inr h
            · exact .inl h
          · rintro (h | h)
            · by_cases hn : ∃ d', ((key, i), d') ∈ spinEntries v.kind m m.ethernetChips
              · obtain ⟨d', hd'⟩ := hn
                have := place_by_key hF2 hp (hc _ _ _ h) (hpl _ _ _ hd')
                subst this
                exact .inl hd'
              · exact .inr ⟨h, fun d' hd' => hn ⟨d', hd'⟩⟩
            · exact .inl h
        · rintro ⟨ky, j⟩ d d' h1 h2
          exact place_by_key hF2 hp (hpl _ _ _ h1) (hpl _ _ _ h2)
      rw [ih _ hr1 hp, hm1, hget]
      · constructor
        · rintro ((h | ⟨b, h, hk⟩) | ⟨b, h, hk⟩)
          · exact .inl h
          · exact .inr ⟨b, .inl ⟨rfl, h⟩, hk⟩
          · exact .inr ⟨b, .inr h, hk⟩
        · rintro (h | ⟨b, ⟨-, h⟩ | h, hk⟩)
          · exact .inl (.inl h)
          · exact .inl (.inr ⟨b, h, hk⟩)
          · exact .inr ⟨b, h, hk⟩
      · intro key i d hd
        rw [hm1, hget] at hd
        rcases hd with hd | ⟨b, hb, hk⟩
        · exact hc _ _ _ hd
        · exact ⟨b, hb.place.later hr (.addSpinnakerLinks :: ops), hk⟩
    · rw [ih _ hr1 hp (by rw [step_spin ho]; exact hc), step_spin ho]
      simp [ho]

theorem created_tables {v : Version} {w h : Int} {o : String} {m₀ : Machine}
    (h₀ : v.kind.createMachine (some w) (some h) o = .ok m₀) : m₀.spinLinks = .empty ∧ m₀.fpgaLinks = .empty := by
  obtain ⟨-, rfl⟩ := createMachine_ok h₀
  exact ⟨rfl, rfl⟩

theorem boot_addr {v : Version} {w h : Int} {m : Machine} (hr : Reachable v w h m) {c : Chip} {b : PyStr}
    (hc : m.getChipAt 0 0 = some c) (hb : c.ip = some b) : m.bootAddr = some b := by
  have r := hr.rep.2.2.2.2.2
  unfold Machine.getChipAt at hc
  rw [r.get?] at hc
  simp [r.boot, hc, hb]

/-- C27, any history: chips, links and calls of `add_spinnaker_links` in any order and number. The lookup of link
`i` by board address `b` gives `d` exactly if at some call of `add_spinnaker_links` `d` was link `i` of that board;
by chip coordinates, if it was so for some board and is on that chip; without arguments the board of the chip at
(0, 0) is used. So a link once offered stays, also if its router link is put to use later. -/
theorem C27_any_history (v : Version) (w h : Int) (o : String) (m₀ : Machine)
    (h₀ : v.kind.createMachine (some w) (some h) o = .ok m₀) (ops : List Op)
    (hp : WellPlaced v.kind w h (run v m₀ ops).1) (i : Int) (d : SpinLinkData) :
    let m := (run v m₀ ops).1
    (∀ b, m.getSpinnakerLink i (some b) none = .ok d ↔ SpinOffered v m₀ ops b i d) ∧
    (∀ ob p, m.getSpinnakerLink i ob (some p) = .ok d ↔
      ∃ b, SpinOffered v m₀ ops b i d ∧ p = (d.x, d.y)) ∧
    (∀ c b, m.getChipAt 0 0 = some c → c.ip = some b →
      m.getSpinnakerLink i none none = m.getSpinnakerLink i (some b) none) := by
  intro m
  have hr0 : Reachable v w h m₀ := ⟨o, [], m₀, h₀, rfl⟩
  have hr : Reachable v w h m := ⟨o, ops, m₀, h₀, rfl⟩
  have ht : ∀ key d, m.spinLinks.get? (key, i) = some d ↔
      ∃ b, SpinOffered v m₀ ops b i d ∧ (key = .addr b ∨ key = .xy (d.x, d.y)) := by
    intro key d
    have h1 := spin_history ops m₀ hr0 hp
      (by rw [(created_tables h₀).1]; intro key i d hd; simp at hd) key i d
    rw [(created_tables h₀).1] at h1
    rw [h1]
    simp
  refine ⟨fun b => ?_, fun ob p => ?_, fun c b hc hb => ?_⟩
  · unfold Machine.getSpinnakerLink
    rw [PDict.getE_eq_ok_iff, ht]
    simp
  · unfold Machine.getSpinnakerLink
    simp only
    by_cases hpc : m.chips.contains p = true
    · simp only [hpc, not_true_eq_false, if_false]
      have h1 : (∃ b, SpinOffered v m₀ ops b i d ∧ p = (d.x, d.y)) ↔ m.spinLinks.get? (.xy p, i) = some d := by
        rw [ht]
        simp
      rw [h1]
      cases m.spinLinks.get? (.xy p, i) <;> simp
    · simp only [hpc]
      constructor
      · intro h1; cases h1
      · rintro ⟨b, ⟨before, after, rfl, e, -, -, n, lx, ly, link, c, -, -, hc, -, rfl⟩, rfl⟩
        exfalso
        apply hpc
        have hrb := reachable_run hr0 before
        have hg := run_grown hrb (.addSpinnakerLinks :: after)
        rw [← run_cat] at hg
        have rb := hrb.rep.2.2.2.2.2
        unfold Machine.getChipAt at hc
        rw [rb.get?] at hc
        obtain ⟨h1, h2⟩ := Chips.at_mem hc
        obtain ⟨c', h3, h4, -⟩ := hg c h1
        rw [hr.rep.2.2.2.2.2.contains, Chips.at_isSome_iff]
        exact List.mem_map.2 ⟨c', h3, h4.trans h2⟩
  · unfold Machine.getSpinnakerLink
    simp only [boot_addr hr hc hb]

/-! ### FPGA links -/

theorem FpgaLinkOf.later {v : Version} {w h : Int} {m : Machine} (hr : Reachable v w h m) (ops : List Op)
    {b : PyStr} {exy : XY} {f fl : Int} {d : FpgaLinkData} (hd : FpgaLinkOf v.kind m b exy f fl d) :
    FpgaLinkOf v.kind (run v m ops).1 b exy f fl d := by
  obtain ⟨e, he, hip, rfl, lx, ly, link, h1, h2, h3, h4⟩ := hd
  obtain ⟨e', he', hxy, hip'⟩ := eth_grown hr ops he
  refine ⟨e', he', hip'.trans hip, hxy, lx, ly, link, h1, ?_, ?_, h4⟩
  · have r := hr.rep.2.2.2.2.2
    have r' := (reachable_run hr ops).rep.2.2.2.2.2
    unfold Machine.isChipAt at h2 ⊢
    rw [r.contains, Chips.at_isSome_iff] at h2
    rw [r'.contains, Chips.at_isSome_iff]
    obtain ⟨c, hc, h5⟩ := List.mem_map.1 h2
    obtain ⟨c', hc', h6, -⟩ := run_grown hr ops c hc
    exact List.mem_map.2 ⟨c', hc', h6.trans h5⟩
  · have hx : e'.x = e.x := congrArg Prod.fst hxy
    have hy : e'.y = e.y := congrArg Prod.snd hxy
    rw [hx, hy, global_same hr (reachable_run hr ops)]
    exact h3

theorem fpga_by_key {v : Version} {w h : Int} {m : Machine} (hr : Reachable v w h m)
    (hp : WellPlaced v.kind w h m) {key : BoardKey} {f fl : Int} {d d' : FpgaLinkData}
    (hd : ∃ b exy, FpgaLinkOf v.kind m b exy f fl d ∧ (key = .addr b ∨ key = .xy (d.x, d.y) ∨ key = .xy exy))
    (hd' : ∃ b exy, FpgaLinkOf v.kind m b exy f fl d' ∧ (key = .addr b ∨ key = .xy (d'.x, d'.y) ∨ key = .xy exy)) :
    d = d' := by
  obtain ⟨b, exy, hb, hk⟩ := hd
  obtain ⟨b', exy', hb', hk'⟩ := hd'
  refine fpga_same_board hr hb hb' ?_
  rcases hk with rfl | rfl | rfl
  · rcases hk' with hk | hk | hk
    · cases hk
      obtain ⟨e, he, hip, rfl, -⟩ := hb
      obtain ⟨e', he', hip', rfl, -⟩ := hb'
      rw [hp.1 e he e' he' (hip.trans hip'.symm)]
    · cases hk
    · cases hk
  · rcases hk' with hk | hk | hk
    · cases hk
    · exact fpga_place hr hp hb hb' (.inl (BoardKey.xy.inj hk))
    · exact fpga_place hr hp hb hb' (.inr (BoardKey.xy.inj hk))
  · rcases hk' with hk | hk | hk
    · cases hk
    · exact (fpga_place hr hp hb' hb (.inr (BoardKey.xy.inj hk).symm)).symm
    · exact BoardKey.xy.inj hk

/-- at some call of `add_fpga_links` of the history `ops`, which starts from `m₀`, `d` was the FPGA link (`f`, `fl`)
of the board with address `b` and Ethernet chip at `exy` -/
def FpgaOffered (v : Version) (m₀ : Machine) (ops : List Op) (b : PyStr) (exy : XY) (f fl : Int)
    (d : FpgaLinkData) : Prop :=
  ∃ before after, ops = before ++ .addFpgaLinks :: after ∧ FpgaLinkOf v.kind (run v m₀ before).1 b exy f fl d

theorem fpgaOffered_cons {v : Version} {m : Machine} {o : Op} {ops : List Op} {b : PyStr} {exy : XY} {f fl : Int}
    {d : FpgaLinkData} : FpgaOffered v m (o :: ops) b exy f fl d ↔
      (o = .addFpgaLinks ∧ FpgaLinkOf v.kind m b exy f fl d) ∨ FpgaOffered v (step v m o).1 ops b exy f fl d := by
  constructor
  · rintro ⟨before, after, h1, h2⟩
    cases before with
    | nil =>
      rw [List.nil_append, List.cons.injEq] at h1
      exact .inl ⟨h1.1, h2⟩
    | cons x xs =>
      rw [List.cons_append, List.cons.injEq] at h1
      obtain ⟨rfl, h1⟩ := h1
      exact .inr ⟨xs, after, h1, h2⟩
  · rintro (⟨rfl, h⟩ | ⟨before, after, rfl, h⟩)
    · exact ⟨[], ops, rfl, h⟩
    · exact ⟨o :: before, after, rfl, h⟩

theorem step_fpga {v : Version} {m : Machine} {o : Op} (ho : o ≠ .addFpgaLinks) :
    (step v m o).1.fpgaLinks = m.fpgaLinks := by
  cases o with
  | addSpinnakerLinks => simp only [step]; rw [addSpinnakerLinks_eq]
  | addFpgaLinks => exact absurd rfl ho
  | addChip c => exact (step_tables rfl).2
  | addChips cs => exact (step_tables rfl).2
  | addLink p l => exact (step_tables rfl).2

theorem fpga_history {v : Version} {w h : Int} (ops : List Op) (m : Machine) (hr : Reachable v w h m)
    (hp : WellPlaced v.kind w h (run v m ops).1)
    (hc : ∀ key f fl d, m.fpgaLinks.get? (key, f, fl) = some d →
      ∃ b exy, FpgaLinkOf v.kind (run v m ops).1 b exy f fl d ∧
        (key = .addr b ∨ key = .xy (d.x, d.y) ∨ key = .xy exy))
    (key : BoardKey) (f fl : Int) (d : FpgaLinkData) :
    (run v m ops).1.fpgaLinks.get? (key, f, fl) = some d ↔ m.fpgaLinks.get? (key, f, fl) = some d ∨
      ∃ b exy, FpgaOffered v m ops b exy f fl d ∧ (key = .addr b ∨ key = .xy (d.x, d.y) ∨ key = .xy exy) := by
  induction ops generalizing m with
  | nil =>
    have : ∀ b exy, ¬ FpgaOffered v m [] b exy f fl d := by
      rintro b exy ⟨before, after, h1, -⟩
      cases before <;> cases h1
    simp only [run, this, false_and, exists_false, or_false]
  | cons o ops ih =>
    have hF : (run v m (o :: ops)).1 = (run v (step v m o).1 ops).1 := rfl
    rw [hF] at hp hc ⊢
    have hr1 := reachable_step hr o
    simp only [fpgaOffered_cons]
    by_cases ho : o = .addFpgaLinks
    · subst ho
      have r := hr.rep.2.2.2.2.2
      have hm1 : (step v m .addFpgaLinks).1 = m.addFpgaLinks v := rfl
      have hpl : ∀ key f fl d, ((key, f, fl), d) ∈ fpgaEntries v.kind m m.ethernetChips →
          ∃ b exy, FpgaLinkOf v.kind (run v (step v m .addFpgaLinks).1 ops).1 b exy f fl d ∧
            (key = .addr b ∨ key = .xy (d.x, d.y) ∨ key = .xy exy) := by
        intro key f fl d hd
        rw [mem_fpgaEntries r] at hd
        obtain ⟨b, exy, hb, hk⟩ := hd
        exact ⟨b, exy, hb.later hr (.addFpgaLinks :: ops), hk⟩
      have hF2 := reachable_run hr1 ops
      have hget : ∀ key f fl d, (m.addFpgaLinks v).fpgaLinks.get? (key, f, fl) = some d ↔
          m.fpgaLinks.get? (key, f, fl) = some d ∨
            ∃ b exy, FpgaLinkOf v.kind m b exy f fl d ∧ (key = .addr b ∨ key = .xy (d.x, d.y) ∨ key = .xy exy) := by
        intro key f fl d
        rw [addFpgaLinks_eq]
        simp only
        rw [PDict.setAll_get?]
        · rw [← mem_fpgaEntries r]
          constructor
          · rintro (h | ⟨h, -⟩)
            · exact .inr h
            · exact .inl h
          · rintro (h | h)
            · by_cases hn : ∃ d', ((key, f, fl), d') ∈ fpgaEntries v.kind m m.ethernetChips
              · obtain ⟨d', hd'⟩ := hn
                have := fpga_by_key hF2 hp (hc _ _ _ _ h) (hpl _ _ _ _ hd')
                subst this
                exact .inl hd'
              · exact .inr ⟨h, fun d' hd' => hn ⟨d', hd'⟩⟩
            · exact .inl h
        · rintro ⟨ky, f, fl⟩ d d' h1 h2
          exact fpga_by_key hF2 hp (hpl _ _ _ _ h1) (hpl _ _ _ _ h2)
      rw [ih _ hr1 hp, hm1, hget]
      · constructor
        · rintro ((h | ⟨b, exy, h, hk⟩) | ⟨b, exy, h, hk⟩)
          · exact .inl h
          · exact .inr ⟨b, exy, .inl ⟨rfl, h⟩, hk⟩
          · exact .inr ⟨b, exy, .inr h, hk⟩
        · rintro (h | ⟨b, exy, ⟨-, h⟩ | h, hk⟩)
          · exact .inl (.inl h)
          · exact .inl (.inr ⟨b, exy, h, hk⟩)
          · exact .inr ⟨b, exy, h, hk⟩
      · intro key f fl d hd
        rw [hm1, hget] at hd
        rcases hd with hd | ⟨b, exy, hb, hk⟩
        · exact hc _ _ _ _ hd
        · exact ⟨b, exy, hb.later hr (.addFpgaLinks :: ops), hk⟩
    · rw [ih _ hr1 hp (by rw [step_fpga ho]; exact hc), step_fpga ho]
      simp [ho]

/-- C28, any history: chips, links and calls of `add_fpga_links` in any order and number. The lookup of an FPGA
connector by board address `b` gives `d` exactly if at some call of `add_fpga_links` `d` was that connector of that
board; by coordinates, if it was so for some board and is on that chip or the chip asked for is the board's
Ethernet chip; without arguments the board of the chip at (0, 0) is used. -/
theorem C28_any_history (v : Version) (w h : Int) (o : String) (m₀ : Machine)
    (h₀ : v.kind.createMachine (some w) (some h) o = .ok m₀) (ops : List Op)
    (hp : WellPlaced v.kind w h (run v m₀ ops).1) (f fl : Int) (d : FpgaLinkData) :
    let m := (run v m₀ ops).1
    (∀ b, m.getFpgaLink f fl (some b) none = .ok d ↔ ∃ exy, FpgaOffered v m₀ ops b exy f fl d) ∧
    (∀ ob p, m.getFpgaLink f fl ob (some p) = .ok d ↔
      ∃ b exy, FpgaOffered v m₀ ops b exy f fl d ∧ (p = (d.x, d.y) ∨ p = exy)) ∧
    (∀ c b, m.getChipAt 0 0 = some c → c.ip = some b →
      m.getFpgaLink f fl none none = m.getFpgaLink f fl (some b) none) := by
  intro m
  have hr0 : Reachable v w h m₀ := ⟨o, [], m₀, h₀, rfl⟩
  have hr : Reachable v w h m := ⟨o, ops, m₀, h₀, rfl⟩
  have ht : ∀ key d, m.fpgaLinks.get? (key, f, fl) = some d ↔
      ∃ b exy, FpgaOffered v m₀ ops b exy f fl d ∧ (key = .addr b ∨ key = .xy (d.x, d.y) ∨ key = .xy exy) := by
    intro key d
    have h1 := fpga_history ops m₀ hr0 hp
      (by rw [(created_tables h₀).2]; intro key f fl d hd; simp at hd) key f fl d
    rw [(created_tables h₀).2] at h1
    rw [h1]
    simp
  refine ⟨fun b => ?_, fun ob p => ?_, fun c b hc hb => ?_⟩
  · unfold Machine.getFpgaLink
    rw [PDict.getE_eq_ok_iff, ht]
    simp
  · unfold Machine.getFpgaLink
    simp only
    by_cases hpc : m.chips.contains p = true
    · simp only [hpc, not_true_eq_false, if_false]
      have h1 : (∃ b exy, FpgaOffered v m₀ ops b exy f fl d ∧ (p = (d.x, d.y) ∨ p = exy)) ↔
          m.fpgaLinks.get? (.xy p, f, fl) = some d := by
        rw [ht]
        simp
      rw [h1]
      cases m.fpgaLinks.get? (.xy p, f, fl) <;> simp
    · simp only [hpc]
      constructor
      · intro h1; cases h1
      · rintro ⟨b, exy, ⟨before, after, rfl, hd⟩, hpx⟩
        exfalso
        apply hpc
        have hrb := reachable_run hr0 before
        have hl := hd.later hrb (.addFpgaLinks :: after)
        rw [← run_cat] at hl
        have r := hr.rep.2.2.2.2.2
        obtain ⟨e, he, -, rfl, _, _, _, -, h2, -⟩ := hl
        rcases hpx with rfl | rfl
        · exact h2
        · have h1 : e ∈ m.chipList := by
            have he' : e ∈ m.ethernetChips := he
            rw [r.eths] at he'; exact (List.mem_filter.1 he').1
          rw [r.contains, Chips.at_of_mem r.nodup h1]; rfl
  · unfold Machine.getFpgaLink
    simp only [boot_addr hr hc hb]

/-- a connector of the last call is one of the machine as it is now: chips are never taken away -/
theorem C28_offered_is_now (v : Version) (w h : Int) (o : String) (m₀ : Machine)
    (h₀ : v.kind.createMachine (some w) (some h) o = .ok m₀) (ops : List Op) (b : PyStr) (exy : XY) (f fl : Int)
    (d : FpgaLinkData) :
    (FpgaOffered v m₀ ops b exy f fl d → FpgaLinkOf v.kind (run v m₀ ops).1 b exy f fl d) ∧
    (FpgaOffered v m₀ (ops ++ [.addFpgaLinks]) b exy f fl d ↔ FpgaLinkOf v.kind (run v m₀ ops).1 b exy f fl d) := by
  have hr0 : Reachable v w h m₀ := ⟨o, [], m₀, h₀, rfl⟩
  have key : ∀ before after, ops = before ++ after → FpgaLinkOf v.kind (run v m₀ before).1 b exy f fl d →
      FpgaLinkOf v.kind (run v m₀ ops).1 b exy f fl d := by
    rintro before after rfl hd
    have := hd.later (reachable_run hr0 before) after
    rwa [← run_cat] at this
  refine ⟨fun ⟨before, after, h1, h2⟩ => key before _ h1 h2, ⟨?_, fun hd => ⟨ops, [], rfl, hd⟩⟩⟩
  rintro ⟨before, after, h1, h2⟩
  rcases List.eq_nil_or_concat after with rfl | ⟨l, x, rfl⟩
  · have := List.append_inj_left' h1 rfl
    subst this
    exact h2
  · have h3 : ops ++ [Op.addFpgaLinks] = (before ++ .addFpgaLinks :: l) ++ [x] := by simp [h1]
    exact key before _ (List.append_inj_left' h3 rfl) h2

/-- a history with two calls of each, a link put to use and a chip added in between: the SpiNNaker link of the
first call is still found, and the FPGA link of the chip that came later is found -/
def exHistory : List Op :=
  [.addChip (exLinked 0 0 [⟨0, 0, 0, 1, 0⟩] 0 0 (some ['a'])), .addSpinnakerLinks, .addFpgaLinks,
    .addLink (0, 0) ⟨0, 0, 4, 5, 5⟩, .addChip (exLinked 1 0 [] 0 0 none), .addSpinnakerLinks, .addFpgaLinks]

example : ∃ m₀, VKind.v5.createMachine (some 8) (some 8) "t" = .ok m₀ ∧
    WellPlaced .v5 8 8 (run exV5 m₀ exHistory).1 ∧
    (run exV5 m₀ exHistory).1.getSpinnakerLink 0 none none = .ok ⟨0, 0, 0, 4, ['a']⟩ ∧
    (run exV5 m₀ (exHistory.drop 3)).1.getSpinnakerLink 0 (some ['a']) none = .error .keyError ∧
    (run exV5 m₀ exHistory).1.getFpgaLink 0 12 none (some (1, 0)) = .error .keyError ∧
    (run exV5 m₀ (exHistory.take 3)).1.getFpgaLink 0 14 none (some (1, 0)) = .error .keyError ∧
    (run exV5 m₀ exHistory).1.getFpgaLink 0 14 none (some (1, 0)) = .ok ⟨14, 0, 1, 0, 4, ['a']⟩ := by
  refine ⟨Machine.new .none 8 8 VKind.v5.chipCoreMap "t", rfl, ⟨?_, ?_⟩, ?_, ?_, ?_, ?_, ?_⟩
  · decide +kernel
  · intro e he
    have hx : e.xy = (0, 0) := by
      have : ∀ e ∈ (run exV5 (Machine.new .none 8 8 VKind.v5.chipCoreMap "t") exHistory).1.ethernetChips,
        e.xy = (0, 0) := by decide +kernel
      exact this e he
    rw [hx]
    exact ⟨⟨0, 0, .inl rfl⟩, by unfold InGrid; decide⟩
  · decide +kernel
  · decide +kernel
  · decide +kernel
  · decide +kernel
  · decide +kernel

end SpiNN.Props
