import Verif.Props.Grow
import Verif.Spec.Shift

/-!
# The boards of a wrapped machine all look the same (C93)
-/

namespace SpiNN.Props
open SpiNN Spec

/-- the displacements between boards are closed under sums -/
theorem lattice_add {a b : XY} (ha : EthLattice a) (hb : EthLattice b) : EthLattice (a.1 + b.1, a.2 + b.2) := by
  obtain ⟨i, j, h⟩ := ha
  obtain ⟨i', j', h'⟩ := hb
  rcases h with rfl | rfl | rfl <;> rcases h' with rfl | rfl | rfl <;> simp only
  · exact ⟨i + i', j + j', .inl (by ext <;> simp only <;> omega)⟩
  · exact ⟨i + i', j + j', .inr (.inl (by ext <;> simp only <;> omega))⟩
  · exact ⟨i + i', j + j', .inr (.inr (by ext <;> simp only <;> omega))⟩
  · exact ⟨i + i', j + j', .inr (.inl (by ext <;> simp only <;> omega))⟩
  · exact ⟨i + i', j + j' + 1, .inr (.inr (by ext <;> simp only <;> omega))⟩
  · exact ⟨i + i' + 1, j + j' + 1, .inl (by ext <;> simp only <;> omega)⟩
  · exact ⟨i + i', j + j', .inr (.inr (by ext <;> simp only <;> omega))⟩
  · exact ⟨i + i' + 1, j + j' + 1, .inl (by ext <;> simp only <;> omega)⟩
  · exact ⟨i + i' + 1, j + j', .inr (.inl (by ext <;> simp only <;> omega))⟩

/-- and under going back -/
theorem lattice_neg {a : XY} (ha : EthLattice a) : EthLattice (-a.1, -a.2) := by
  obtain ⟨i, j, h⟩ := ha
  rcases h with rfl | rfl | rfl
  · exact ⟨-i, -j, .inl (by ext <;> simp only <;> omega)⟩
  · exact ⟨-i - 1, -j - 1, .inr (.inr (by ext <;> simp only <;> omega))⟩
  · exact ⟨-i - 1, -j - 1, .inr (.inl (by ext <;> simp only <;> omega))⟩

theorem boardShift_neg {wr : Wrap} {t : XY} (ht : BoardShift wr t) : BoardShift wr (-t.1, -t.2) :=
  ⟨lattice_neg ht.1, fun h => by have := ht.2.1 h; simp only; omega, fun h => by have := ht.2.2 h; simp only; omega⟩

/-- a multiple of 12 away the lattice is the same -/
theorem lattice_mod {a : XY} (ha : EthLattice a) {x y : Int} (hx : 12 ∣ x) (hy : 12 ∣ y) :
    EthLattice (a.1 + x, a.2 + y) := by
  obtain ⟨i, rfl⟩ := hx
  obtain ⟨j, rfl⟩ := hy
  exact lattice_add ha ⟨i, j, .inl rfl⟩

/-- Ethernet positions are displaced to Ethernet positions -/
theorem shift_potential {k : VKind} (hk : k = .v5 ∨ k = .v248) {w h : Int} (hs : SizeOK k w h) {t : XY}
    (ht : BoardShift (k.wrapFor w h) t) {e : XY} (he : e ∈ k.potentialEthernetChips w h) :
    (k.wrapFor w h).red w h (e.1 + t.1, e.2 + t.2) ∈ k.potentialEthernetChips w h := by
  have hwr := wrapFor_spec k w h
  have hpos := hs.pos
  rw [mem_potential_iff hs] at he ⊢
  obtain ⟨h1, h2, h3⟩ := he
  have hsame := Wrap.red_same (k.wrapFor w h) hpos.1 hpos.2 (e.1 + t.1, e.2 + t.2)
  have hin := Wrap.red_inRange (k.wrapFor w h) hpos.1 hpos.2 (e.1 + t.1, e.2 + t.2)
  generalize (k.wrapFor w h).red w h (e.1 + t.1, e.2 + t.2) = q at *
  generalize k.wrapFor w h = wr at *
  have hwr' : (wrapsX wr ↔ 12 ∣ w) ∧ (wrapsY wr ↔ 12 ∣ h) := by rcases hk with rfl | rfl <;> exact hwr
  have h1' : EthLattice e := by rcases hk with rfl | rfl <;> exact h1
  obtain ⟨s1, s2⟩ := hsame
  have hx : (∃ d, 12 ∣ d ∧ q.1 = e.1 + t.1 + d) ∧ (¬ wrapsX wr → q.1 = e.1) := by
    by_cases hX : wrapsX wr
    · rw [if_pos hX] at s1
      obtain ⟨c, hc⟩ := s1
      obtain ⟨w', hw'⟩ := hwr'.1.1 hX
      exact ⟨⟨-(c * w), ⟨-(c * w'), by rw [hw']; grind⟩, by simp only at hc; omega⟩, fun h => absurd hX h⟩
    · rw [if_neg hX] at s1
      have := ht.2.1 hX
      simp only at s1
      exact ⟨⟨0, ⟨0, rfl⟩, by omega⟩, fun _ => by omega⟩
  have hy : (∃ d, 12 ∣ d ∧ q.2 = e.2 + t.2 + d) ∧ (¬ wrapsY wr → q.2 = e.2) := by
    by_cases hX : wrapsY wr
    · rw [if_pos hX] at s2
      obtain ⟨c, hc⟩ := s2
      obtain ⟨w', hw'⟩ := hwr'.2.1 hX
      exact ⟨⟨-(c * h), ⟨-(c * w'), by rw [hw']; grind⟩, by simp only at hc; omega⟩, fun h => absurd hX h⟩
    · rw [if_neg hX] at s2
      have := ht.2.2 hX
      simp only at s2
      exact ⟨⟨0, ⟨0, rfl⟩, by omega⟩, fun _ => by omega⟩
  obtain ⟨⟨d1, hd1, hq1⟩, hn1⟩ := hx
  obtain ⟨⟨d2, hd2, hq2⟩, hn2⟩ := hy
  have hlat : EthLattice q := by
    have := lattice_mod (lattice_add h1' ht.1) hd1 hd2
    simp only at this
    rwa [← hq1, ← hq2] at this
  refine ⟨by rcases hk with rfl | rfl <;> exact hlat, ?_, fun l hl => ⟨fun hX => ?_, fun hY => ?_⟩⟩
  · unfold InGrid at h2 ⊢
    refine ⟨?_, ?_, ?_, ?_⟩
    · by_cases hX : wrapsX wr
      · exact (hin.1 hX).1
      · have := hn1 hX; omega
    · by_cases hX : wrapsX wr
      · exact (hin.1 hX).2
      · have := hn1 hX; omega
    · by_cases hX : wrapsY wr
      · exact (hin.2 hX).1
      · have := hn2 hX; omega
    · by_cases hX : wrapsY wr
      · exact (hin.2 hX).2
      · have := hn2 hX; omega
  · have := (h3 l hl).1 hX; have := hn1 hX; omega
  · have := (h3 l hl).2 hY; have := hn2 hY; omega

/-- places of boards are displaced to places of boards -/
theorem shift_places {v : Version} (hk : v.kind = .v5 ∨ v.kind = .v248) {w h : Int} (hs : SizeOK v.kind w h) {t : XY}
    (ht : BoardShift (v.kind.wrapFor w h) t) {kv : XY × (XY × Int)} (hkv : kv ∈ vmPlaces v w h) :
    ((v.kind.wrapFor w h).red w h (kv.1.1 + t.1, kv.1.2 + t.2),
      ((v.kind.wrapFor w h).red w h (kv.2.1.1 + t.1, kv.2.1.2 + t.2), kv.2.2)) ∈ vmPlaces v w h := by
  have hpos := hs.pos
  unfold vmPlaces at hkv ⊢
  rw [List.mem_flatMap] at hkv ⊢
  obtain ⟨e, he, hkv⟩ := hkv
  rw [List.mem_map] at hkv
  obtain ⟨ln, hln, rfl⟩ := hkv
  refine ⟨_, shift_potential hk hs ht he, List.mem_map.2 ⟨ln, hln, ?_⟩⟩
  simp only [Prod.mk.injEq, and_true]
  rw [Wrap.red_red_add _ hpos.1 hpos.2]
  have := Wrap.red_red_add (v.kind.wrapFor w h) hpos.1 hpos.2 (e.1 + t.1, e.2 + t.2) ln.1.1 ln.1.2
  rw [Int.add_comm ln.1.1, Int.add_comm ln.1.2, this]
  congr 1
  ext <;> simp only <;> omega

/-- C93: on a virtual machine without down parts, whose sides that wrap are multiples of 12 long, every
displacement between boards along the axes that wrap takes each chip to a chip that looks the same. -/
theorem C93_boards_alike (v : Version) (hk : v.kind = .v5 ∨ v.kind = .v248) (w h : Int) (validate : Bool)
    (m : Machine) (hm : virtualMachine v {} w h validate = .ok m) (t : XY) (ht : BoardShift m.wrap t) :
    ∀ c ∈ m.chipList, ∃ c' ∈ m.chipList, LooksLike m t c c' := by
  obtain ⟨hs, hr, hwr, hw, hh, hcc, r, d, hdr, hcl⟩ := vm_facts hm
  obtain ⟨a1, a2, a3⟩ := down_spec hs hdr
  obtain ⟨n1, n2, n3⟩ := default_not_down v.kind
  have hpos := hs.pos
  have ht' := ht
  rw [hwr] at ht
  have hent : vmEntries v w h d = vmPlaces v w h := by
    unfold vmEntries
    rw [List.filter_eq_self]
    intro kv _
    rw [decide_eq_true_eq, a1]
    exact n1 _
  have hkey : ∀ {s p : XY}, BoardShift (v.kind.wrapFor w h) s → p ∈ (vmEntries v w h d).map (·.1) →
      (v.kind.wrapFor w h).red w h (p.1 + s.1, p.2 + s.2) ∈ (vmEntries v w h d).map (·.1) := by
    intro s p hsft hp
    rw [hent] at hp ⊢
    rw [List.mem_map] at hp ⊢
    obtain ⟨kv, hkv, rfl⟩ := hp
    exact ⟨_, shift_places hk hs hsft hkv, rfl⟩
  have disp : ∀ p : XY, Displaced m t p ((v.kind.wrapFor w h).red w h (p.1 + t.1, p.2 + t.2)) := by
    intro p
    unfold Displaced
    rw [hwr, hw, hh]
    exact Wrap.red_same _ hpos.1 hpos.2 _
  intro c hc
  rw [hcl, vmChips, List.mem_map] at hc
  obtain ⟨kv, hkv, rfl⟩ := hc
  have hg := vm_inGrid hs d (List.mem_map_of_mem (f := (·.1)) hkv)
  have hkv' : (((v.kind.wrapFor w h).red w h (kv.1.1 + t.1, kv.1.2 + t.2),
      ((v.kind.wrapFor w h).red w h (kv.2.1.1 + t.1, kv.2.1.2 + t.2), kv.2.2)) : XY × (XY × Int)) ∈
      vmEntries v w h d := by
    rw [hent] at hkv ⊢
    exact shift_places hk hs ht hkv
  have hg' := vm_inGrid hs d (List.mem_map_of_mem (f := (·.1)) hkv')
  simp only at hg'
  have hback : ∀ p : XY, InRange (v.kind.wrapFor w h) w h p →
      (v.kind.wrapFor w h).red w h
        (((v.kind.wrapFor w h).red w h (p.1 + t.1, p.2 + t.2)).1 + -t.1,
         ((v.kind.wrapFor w h).red w h (p.1 + t.1, p.2 + t.2)).2 + -t.2) = p := by
    intro p hp
    rw [Wrap.red_red_add _ hpos.1 hpos.2]
    simp only [Int.add_neg_cancel_right]
    exact Wrap.red_of_inRange _ hp
  have gridRange : ∀ {p : XY}, InGrid w h p → InRange (v.kind.wrapFor w h) w h p :=
    fun hp => ⟨fun _ => ⟨hp.1, hp.2.1⟩, fun _ => ⟨hp.2.2.1, hp.2.2.2⟩⟩
  have heth : kv.1 ∈ v.kind.potentialEthernetChips w h ↔
      (v.kind.wrapFor w h).red w h (kv.1.1 + t.1, kv.1.2 + t.2) ∈ v.kind.potentialEthernetChips w h := by
    refine ⟨shift_potential hk hs ht, fun hp => ?_⟩
    have := shift_potential hk hs (boardShift_neg ht) hp
    simp only at this
    rwa [hback kv.1 (gridRange hg)] at this
  have hcores : ∀ p, chipCores d p kv.2.2 = chipCores d kv.1 kv.2.2 := by
    intro p
    obtain ⟨h1, h2⟩ := chipCores_spec d p kv.2.2
    obtain ⟨h3, h4⟩ := chipCores_spec d kv.1 kv.2.2
    refine eq_of_sorted_mem h1 h3 fun q => ?_
    rw [h2, h4, a2, a2]
    simp [n3]
  have hnl : ∀ (p : XY) (dir : Dir), InGrid w h p → (p.1, p.2, dir.id) ∉ d.links := by
    intro p dir hp
    rw [a3 p dir hp]
    rintro (hn | hn)
    · exact n2 _ _ hn
    · unfold Unwired at hn
      rcases hk with hk | hk <;> rw [hk] at hn <;> simp at hn
  have hlink : ∀ (kv : XY × (XY × Int)), InGrid w h kv.1 → ∀ i l,
      (vmChip v w h d kv).router.getLink i = some l ↔ ∃ dir : Dir, dir.id = i ∧
        (v.kind.wrapFor w h).red w h (kv.1.1 + dir.dx, kv.1.2 + dir.dy) ∈ (vmEntries v w h d).map (·.1) ∧
        l = { sourceX := kv.1.1, sourceY := kv.1.2, sourceLinkId := dir.id,
              destX := ((v.kind.wrapFor w h).red w h (kv.1.1 + dir.dx, kv.1.2 + dir.dy)).1,
              destY := ((v.kind.wrapFor w h).red w h (kv.1.1 + dir.dx, kv.1.2 + dir.dy)).2 } := by
    intro kv hgr i l
    rw [vmChip_getLink]
    unfold vmLinks
    rw [List.mem_filterMap]
    constructor
    · rintro ⟨⟨dir, -, hl⟩, hi⟩
      simp only at hl
      split at hl
      · rename_i hc
        cases hl
        exact ⟨dir, hi, hc.2, rfl⟩
      · simp at hl
    · rintro ⟨dir, hi, hq, rfl⟩
      exact ⟨⟨dir, by cases dir <;> decide, if_pos ⟨hnl _ dir hgr, hq⟩⟩, hi⟩
  have hstep : ∀ dir : Dir,
      (v.kind.wrapFor w h).red w h (((v.kind.wrapFor w h).red w h (kv.1.1 + t.1, kv.1.2 + t.2)).1 + dir.dx,
        ((v.kind.wrapFor w h).red w h (kv.1.1 + t.1, kv.1.2 + t.2)).2 + dir.dy) =
      (v.kind.wrapFor w h).red w h (((v.kind.wrapFor w h).red w h (kv.1.1 + dir.dx, kv.1.2 + dir.dy)).1 + t.1,
        ((v.kind.wrapFor w h).red w h (kv.1.1 + dir.dx, kv.1.2 + dir.dy)).2 + t.2) := by
    intro dir
    rw [Wrap.red_red_add _ hpos.1 hpos.2, Wrap.red_red_add _ hpos.1 hpos.2]
    congr 1
    ext <;> simp only <;> omega
  refine ⟨vmChip v w h d ((v.kind.wrapFor w h).red w h (kv.1.1 + t.1, kv.1.2 + t.2),
      ((v.kind.wrapFor w h).red w h (kv.2.1.1 + t.1, kv.2.1.2 + t.2), kv.2.2)),
    by rw [hcl, vmChips]; exact List.mem_map_of_mem hkv', disp kv.1, disp kv.2.1, ?_, rfl, hcores _, rfl, rfl, ?_, rfl,
    ?_, ?_⟩
  · simp only [vmChip, Chip.mk', heth]
    split <;> simp
  · simp only [vmChip, Chip.mk', heth]
    by_cases hE : (v.kind.wrapFor w h).red w h (kv.1.1 + t.1, kv.1.2 + t.2) ∈ v.kind.potentialEthernetChips w h
    · simp only [if_pos hE]
    · simp only [if_neg hE]
  · intro i
    rw [hasLink_iff, hasLink_iff]
    constructor
    · rintro ⟨l, hl⟩
      rw [hlink kv hg] at hl
      obtain ⟨dir, hi, hq, -⟩ := hl
      refine ⟨_, (hlink _ hg' i _).2 ⟨dir, hi, ?_, rfl⟩⟩
      simp only [hstep]
      exact hkey ht hq
    · rintro ⟨l, hl⟩
      rw [hlink _ hg'] at hl
      obtain ⟨dir, hi, hq, -⟩ := hl
      refine ⟨_, (hlink kv hg i _).2 ⟨dir, hi, ?_, rfl⟩⟩
      simp only [hstep] at hq
      have := hkey (boardShift_neg ht) hq
      simp only at this
      rwa [hback _ (Wrap.red_inRange _ hpos.1 hpos.2 _)] at this
  · intro i l l' hl hl'
    rw [hlink kv hg] at hl
    rw [hlink _ hg'] at hl'
    obtain ⟨dir, hi, -, rfl⟩ := hl
    obtain ⟨dir', hi', -, rfl⟩ := hl'
    have : dir' = dir := by rw [← hi'] at hi; revert hi; cases dir <;> cases dir' <;> decide
    subst this
    simp only [hstep]
    exact disp _

/-- C93: so all boards of a machine that wraps both ways look the same: for any two Ethernet positions
the chips around the first look like those around the second. -/
theorem C93_any_two_boards (v : Version) (hk : v.kind = .v5 ∨ v.kind = .v248) (w h : Int) (validate : Bool)
    (m : Machine) (hm : virtualMachine v {} w h validate = .ok m) (hw : 12 ∣ w) (hh : 12 ∣ h)
    (e f : XY) (he : e ∈ v.kind.potentialEthernetChips w h) (hf : f ∈ v.kind.potentialEthernetChips w h) :
    ∀ c ∈ m.chipList, ∃ c' ∈ m.chipList, LooksLike m (f.1 - e.1, f.2 - e.2) c c' := by
  obtain ⟨hs, hr, hwr, -⟩ := vm_facts hm
  have hspec := wrapFor_spec v.kind w h
  rw [← hwr] at hspec
  have hb : wrapsX m.wrap ∧ wrapsY m.wrap := by
    have : (wrapsX m.wrap ↔ 12 ∣ w) ∧ (wrapsY m.wrap ↔ 12 ∣ h) := by
      rcases hk with hk | hk <;> rw [hk] at hspec <;> exact hspec
    exact ⟨this.1.2 hw, this.2.2 hh⟩
  have lat : ∀ {p}, p ∈ v.kind.potentialEthernetChips w h → EthLattice p := by
    intro p hp
    have := ((mem_potential_iff hs p).1 hp).1
    rcases hk with hk | hk <;> rw [hk] at this <;> exact this
  refine C93_boards_alike v hk w h validate m hm _ ⟨?_, fun hn => absurd hb.1 hn, fun hn => absurd hb.2 hn⟩
  have := lattice_add (lat hf) (lattice_neg (lat he))
  simpa only [← Int.sub_eq_add_neg] using this

/-- a machine of 24 by 12 places; the board at (16, 8) looks like the one at (8, 4) -/
example : ∃ (v : Version) (m : Machine), Version.init .v5 {} = .ok v ∧ virtualMachine v {} 24 12 true = .ok m ∧
    m.nChips = 288 ∧ ∀ c ∈ m.chipList, ∃ c' ∈ m.chipList, LooksLike m (8, 4) c c' := by
  obtain ⟨m, hm⟩ := C33_no_down { kind := .v5, maxCores := 18, maxSdram := 123469792 } 24 12 (by decide) (by decide)
  have c1 := (C35_chips _ {} _ _ true m hm (default_not_down .v5).1).1
  have e1 : (VKind.v5.potentialEthernetChips 24 12).length = 6 := by decide +kernel
  simp only [e1] at c1
  exact ⟨_, m, rfl, hm, by omega, C93_any_two_boards _ (.inl rfl) 24 12 true m hm (by omega) (by omega) (8, 4) (16, 8)
    (by decide +kernel) (by decide +kernel)⟩

end SpiNN.Props
