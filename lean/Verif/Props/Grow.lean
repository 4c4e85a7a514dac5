import Verif.Props.DownSets
import Verif.Spec.Grow

/-!
# Larger requests give larger machines (C92)
-/

namespace SpiNN.Props
open SpiNN Spec

/-- both sides of `a * b` for a rectangle nearly square: more triads never make a side shorter -/
theorem sides_mono {t t' a a' b b' : Int} (htt : t ≤ t') (ha : 0 < a) (ha' : 0 < a')
    (hle : t ≤ a * a) (hlt : (a - 1) * (a - 1) < t) (hle' : t' ≤ a' * a') (hlt' : (a' - 1) * (a' - 1) < t')
    (hb : t ≤ a * b ∧ a * (b - 1) < t) (hb' : t' ≤ a' * b' ∧ a' * (b' - 1) < t') : a ≤ a' ∧ b ≤ b' := by
  have haa : a ≤ a' := by
    rcases Int.lt_or_le a' a with h | h
    · have : a' * a' ≤ (a - 1) * (a - 1) := Int.mul_le_mul (by omega) (by omega) (by omega) (by omega)
      omega
    · exact h
  refine ⟨haa, ?_⟩
  have hba : b ≤ a := by
    rcases Int.lt_or_le a b with h | h
    · have : a * a ≤ a * (b - 1) := Int.mul_le_mul_of_nonneg_left (by omega) (by omega)
      omega
    · exact h
  rcases Int.lt_or_le b' b with h | h
  · exfalso
    rcases Int.lt_or_le a a' with h2 | h2
    · have e4 : (a' - 1) * (a' - 1) = a' * a' - 2 * a' + 1 := by rw [Int.mul_sub, Int.sub_mul]; omega
      have e5 : a' * (a' - 2) = a' * a' - 2 * a' := by rw [Int.mul_sub]; omega
      have : a' * b' ≤ a' * (a' - 2) := Int.mul_le_mul_of_nonneg_left (by omega) (by omega)
      omega
    · have : a' = a := by omega
      subst this
      have : a' * b' ≤ a' * (b - 1) := Int.mul_le_mul_of_nonneg_left (by omega) (by omega)
      omega
  · exact h

/-- C92: asking a 48-chip version for more boards never makes the machine narrower or lower, and the
size never wraps. -/
theorem C92_size_boards (k : VKind) (hk : k = .v5 ∨ k = .v248) (n n' : Int) (hn : n ≤ n') :
    ∃ w h w' h', k.sizeFromNBoards n = .ok (w, h) ∧ k.sizeFromNBoards n' = .ok (w', h') ∧
      w ≤ w' ∧ h ≤ h' ∧ ¬ 12 ∣ w ∧ ¬ 12 ∣ h ∧ ¬ 12 ∣ w' ∧ ¬ 12 ∣ h' := by
  have h48 : k.is48 = true := by rcases hk with rfl | rfl <;> rfl
  have key : ∀ t, 0 < t → 0 < VKind.ceilSqrt t ∧ 0 < ceilDiv t (VKind.ceilSqrt t) := by
    intro t ht
    obtain ⟨ha, -, -⟩ := ceilSqrt_spec t ht
    refine ⟨ha, ?_⟩
    have hb := ceilDiv_spec t (VKind.ceilSqrt t) ha
    rcases Int.lt_or_le 0 (ceilDiv t (VKind.ceilSqrt t)) with h | h
    · exact h
    · have := Int.mul_nonpos_of_nonneg_of_nonpos (Int.le_of_lt ha) h
      omega
  simp only [VKind.sizeFromNBoards, h48, if_true]
  have h1 := ceilDiv_spec n 3 (by omega)
  have h2 := ceilDiv_spec n' 3 (by omega)
  by_cases hn1 : n ≤ 1
  · rw [if_pos hn1]
    by_cases hn2 : n' ≤ 1
    · rw [if_pos hn2]
      exact ⟨8, 8, 8, 8, rfl, rfl, by omega, by omega, by omega, by omega, by omega, by omega⟩
    · rw [if_neg hn2]
      have := key (ceilDiv n' 3) (by omega)
      refine ⟨8, 8, _, _, rfl, rfl, ?_, ?_, by omega, by omega, ?_, ?_⟩ <;> omega
  · rw [if_neg hn1, if_neg (by omega)]
    have ht : 0 < ceilDiv n 3 := by omega
    have ht' : 0 < ceilDiv n' 3 := by omega
    obtain ⟨ha, hle, hlt⟩ := ceilSqrt_spec _ ht
    obtain ⟨ha', hle', hlt'⟩ := ceilSqrt_spec _ ht'
    have := sides_mono (show _ ≤ ceilDiv n' 3 by omega) ha ha' hle hlt hle' hlt'
      (ceilDiv_spec _ _ ha) (ceilDiv_spec _ _ ha')
    refine ⟨_, _, _, _, rfl, rfl, ?_, ?_, ?_, ?_, ?_, ?_⟩ <;> omega

/-- the links of a chip of a virtual machine -/
theorem vmChip_getLink (v : Version) (w h : Int) (d : Down) (kv : XY × (XY × Int)) (i : Int) (l : Link) :
    (vmChip v w h d kv).router.getLink i = some l ↔ l ∈ vmLinks v w h d kv.1 ∧ l.sourceLinkId = i := by
  constructor
  · intro hl
    have hmem := PDict.get?_mem hl
    simp only [vmChip, Chip.mk', List.mem_map, Prod.mk.injEq] at hmem
    obtain ⟨l', hl', hi, rfl⟩ := hmem
    exact ⟨hl', hi⟩
  · rintro ⟨hl, hi⟩
    refine PDict.lookup_of_mem ?_ (List.mem_map.2 ⟨l, hl, by rw [hi]⟩)
    simp only [vmChip, Chip.mk', List.map_map]
    exact vmLinks_nodup v w h d kv.1

/-- which links the chip at `p` has on a machine without wraps -/
theorem mem_vmLinks_none {v : Version} {w h : Int} (hno : v.kind.wrapFor w h = .none) (d : Down) (p : XY)
    (l : Link) : l ∈ vmLinks v w h d p ↔ ∃ dir : Dir, (p.1, p.2, dir.id) ∉ d.links ∧
      (p.1 + dir.dx, p.2 + dir.dy) ∈ (vmEntries v w h d).map (·.1) ∧
      l = { sourceX := p.1, sourceY := p.2, sourceLinkId := dir.id, destX := p.1 + dir.dx, destY := p.2 + dir.dy } := by
  unfold vmLinks
  rw [List.mem_filterMap]
  have hq : ∀ q, (v.kind.wrapFor w h).red w h q = q := fun q => by rw [hno]; rfl
  constructor
  · rintro ⟨dir, -, hl⟩
    simp only at hl
    split at hl
    · rename_i hc
      rw [hq] at hc hl
      exact ⟨dir, hc.1, hc.2, (Option.some.inj hl).symm⟩
    · simp at hl
  · rintro ⟨dir, h1, h2, rfl⟩
    refine ⟨dir, by cases dir <;> decide, ?_⟩
    simp only [hq]
    exact if_pos ⟨h1, h2⟩

/-- C92: a machine without wraps is part of every larger one with the same settings: its chips are
there with the same board, address, memory, routing entries, tags, monitors and cores, and between two
of its chips there are the same links. -/
theorem C92_grow (v : Version) (hk : v.kind = .v5 ∨ v.kind = .v248) (cfg : DownCfg) (w h w' h' : Int)
    (validate validate' : Bool) (m m' : Machine)
    (hm : virtualMachine v cfg w h validate = .ok m) (hm' : virtualMachine v cfg w' h' validate' = .ok m')
    (hww : w ≤ w') (hhh : h ≤ h') (hno : ¬ 12 ∣ w ∧ ¬ 12 ∣ h) (hno' : ¬ 12 ∣ w' ∧ ¬ 12 ∣ h') :
    PartOf m m' := by
  obtain ⟨hs, hr, hwr, hw, hh, hcc, r, d, hdr, hcl⟩ := vm_facts hm
  obtain ⟨hs', hr', hwr', hw', hh', hcc', r', d', hdr', hcl'⟩ := vm_facts hm'
  obtain ⟨a1, a2, a3⟩ := down_spec hs hdr
  obtain ⟨b1, b2, b3⟩ := down_spec hs' hdr'
  have wnone : ∀ {w h : Int}, ¬ 12 ∣ w ∧ ¬ 12 ∣ h → v.kind.wrapFor w h = .none := by
    intro w h hn
    have h1 : ¬ pmod w 12 = 0 := by rw [pmod_eq_emod (by omega)]; omega
    have h2 : ¬ pmod h 12 = 0 := by rw [pmod_eq_emod (by omega)]; omega
    rcases hk with hk | hk <;> rw [hk] <;> simp only [VKind.wrapFor, if_neg h1, if_neg h2]
  have n1 := wnone hno
  have n2 := wnone hno'
  have hpot : ∀ e, e ∈ v.kind.potentialEthernetChips w h → e ∈ v.kind.potentialEthernetChips w' h' := by
    intro e he
    rw [mem_potential_iff hs] at he
    rw [mem_potential_iff hs']
    obtain ⟨h1, h2, h3⟩ := he
    refine ⟨h1, ?_, fun l hl => ?_⟩
    · unfold InGrid at h2 ⊢; omega
    · rw [n1] at h3
      rw [n2]
      obtain ⟨h4, h5⟩ := h3 l hl
      exact ⟨fun hx => by have := h4 hx; omega, fun hy => by have := h5 hy; omega⟩
  have hplace : ∀ kv ∈ vmPlaces v w h, kv ∈ vmPlaces v w' h' := by
    intro kv hkv
    unfold vmPlaces at hkv ⊢
    rw [List.mem_flatMap] at hkv ⊢
    obtain ⟨e, he, hkv⟩ := hkv
    refine ⟨e, hpot e he, ?_⟩
    rw [n1] at hkv
    rw [n2]
    exact hkv
  have hent : ∀ kv ∈ vmEntries v w h d, kv ∈ vmEntries v w' h' d' := by
    intro kv hkv
    unfold vmEntries at hkv ⊢
    rw [List.mem_filter] at hkv ⊢
    refine ⟨hplace kv hkv.1, ?_⟩
    simp only [decide_eq_true_eq] at hkv ⊢
    rw [b1, ← a1]
    exact hkv.2
  refine ⟨by omega, by omega, fun c hc => ?_⟩
  rw [hcl, vmChips, List.mem_map] at hc
  obtain ⟨kv, hkv, rfl⟩ := hc
  have hg := vm_inGrid hs d (List.mem_map_of_mem (f := (·.1)) hkv)
  have hg' := vm_inGrid hs' d' (List.mem_map_of_mem (f := (·.1)) (hent kv hkv))
  have hcores : chipCores d' kv.1 kv.2.2 = chipCores d kv.1 kv.2.2 := by
    obtain ⟨h1, h2⟩ := chipCores_spec d kv.1 kv.2.2
    obtain ⟨h3, h4⟩ := chipCores_spec d' kv.1 kv.2.2
    refine eq_of_sorted_mem h3 h1 fun q => ?_
    rw [h2, h4, a2, b2]
  have heth : kv.1 ∈ v.kind.potentialEthernetChips w' h' ↔ kv.1 ∈ v.kind.potentialEthernetChips w h := by
    refine ⟨fun hp => ?_, hpot _⟩
    have hp0 := (List.mem_filter.1 hkv).1
    unfold vmPlaces at hp0
    rw [List.mem_flatMap] at hp0
    obtain ⟨e, he, hin⟩ := hp0
    rw [List.mem_map] at hin
    obtain ⟨ln, hln, rfl⟩ := hin
    have hb : OnBoard v.kind ln.1 := (mem_chipCoreMap_iff v.kind ln.1).1 (List.mem_map_of_mem hln)
    have h0 : OnBoard v.kind (0, 0) := by
      rcases hk with hk | hk <;> rw [hk] <;> exact onBoard48_corners.1
    have := board_unique hs' hp (hpot e he) h0 hb (by rw [n1, n2]; simp [Wrap.red])
    rw [this.1]; exact he
  refine ⟨vmChip v w' h' d' kv, ?_, rfl, rfl, rfl, ?_, rfl, rfl, ?_, rfl, hcores, fun i l => ?_⟩
  · rw [hcl', vmChips]; exact List.mem_map_of_mem (hent kv hkv)
  · simp only [vmChip, Chip.mk', heth]
  · simp only [vmChip, Chip.mk', heth]
  · have hat : m.isChipAt l.destX l.destY = true ↔ (l.destX, l.destY) ∈ (vmEntries v w h d).map (·.1) := by
      rw [isChipAt_iff r (l.destX, l.destY), hcl, vmChips_xy]
    have hdl : ∀ dir : Dir, ((kv.1.1, kv.1.2, dir.id) ∉ d.links ↔ (kv.1.1, kv.1.2, dir.id) ∉ d'.links) :=
      fun dir => by rw [a3 _ dir hg, b3 _ dir hg']
    rw [vmChip_getLink, vmChip_getLink, hat, mem_vmLinks_none n1, mem_vmLinks_none n2]
    constructor
    · rintro ⟨⟨dir, h1, h2, rfl⟩, rfl⟩
      refine ⟨⟨⟨dir, (hdl dir).1 h1, ?_, rfl⟩, rfl⟩, h2⟩
      rw [List.mem_map] at h2 ⊢
      obtain ⟨kv2, h3, h4⟩ := h2
      exact ⟨kv2, hent kv2 h3, h4⟩
    · rintro ⟨⟨⟨dir, h1, h2, rfl⟩, rfl⟩, h3⟩
      exact ⟨⟨dir, (hdl dir).2 h1, h3, rfl⟩, rfl⟩

/-- every machine is part of itself -/
theorem partOf_refl {v : Version} {cfg : DownCfg} {w h : Int} {validate : Bool} {m : Machine}
    (hm : virtualMachine v cfg w h validate = .ok m) : PartOf m m := by
  obtain ⟨hs, hr, hwr, hw, hh, hcc, r, d, hdr, hcl⟩ := vm_facts hm
  refine ⟨Int.le_refl _, Int.le_refl _, fun c hc => ⟨c, hc, rfl, rfl, rfl, rfl, rfl, rfl, rfl, rfl, rfl, fun i l => ?_⟩⟩
  refine ⟨fun hl => ⟨hl, ?_⟩, fun hl => hl.1⟩
  rw [hcl, vmChips, List.mem_map] at hc
  obtain ⟨kv, hkv, rfl⟩ := hc
  rw [vmChip_getLink] at hl
  rw [isChipAt_iff r (l.destX, l.destY), hcl, vmChips_xy]
  obtain ⟨hl, -⟩ := hl
  unfold vmLinks at hl
  rw [List.mem_filterMap] at hl
  obtain ⟨dir, -, hl⟩ := hl
  simp only at hl
  split at hl
  · rename_i hcond
    cases hl
    exact hcond.2
  · simp at hl

/-- the size asked for does not depend on the checks, nor does the machine -/
theorem vm_validate {v : Version} {cfg : DownCfg} {w h : Int} {validate validate' : Bool} {m m' : Machine}
    (hm : virtualMachine v cfg w h validate = .ok m) (hm' : virtualMachine v cfg w h validate' = .ok m') : m = m' := by
  obtain ⟨hs, hr, hwr, hw, hh, hcc, r, d, hdr, hcl⟩ := vm_facts hm
  obtain ⟨m₀, -, -, -, hv⟩ := vm_build hs cfg d hdr
  have key : ∀ {b : Bool} {x : Machine}, virtualMachine v cfg w h b = .ok x → x = m₀ := by
    intro b x hx
    rw [hv] at hx
    cases b with
    | false => exact (Except.ok.inj hx).symm
    | true =>
      simp only [if_true] at hx
      split at hx
      · simp at hx
      · exact (Except.ok.inj hx).symm
  rw [key hm, key hm']

/-- C92: the machine for more boards contains the machine for fewer boards. -/
theorem C92_by_boards (v : Version) (cfg : DownCfg) (n n' : Int) (hn : n ≤ n') (validate validate' : Bool)
    (m m' : Machine) (hm : virtualMachineByBoards v cfg n validate = .ok m)
    (hm' : virtualMachineByBoards v cfg n' validate' = .ok m') : PartOf m m' := by
  unfold virtualMachineByBoards at hm hm'
  by_cases hk : v.kind = .v5 ∨ v.kind = .v248
  · obtain ⟨w, h, w', h', e1, e2, h1, h2, h3, h4, h5, h6⟩ := C92_size_boards v.kind hk n n' hn
    rw [e1] at hm
    rw [e2] at hm'
    exact C92_grow v hk cfg w h w' h' validate validate' m m' hm hm' h1 h2 ⟨h3, h4⟩ ⟨h5, h6⟩
  · have hk' : v.kind = .v3 ∨ v.kind = .v201 := by
      revert hk; cases v.kind <;> simp
    obtain ⟨hok, herr⟩ := C14_single_board v.kind hk' n
    obtain ⟨hok', herr'⟩ := C14_single_board v.kind hk' n'
    by_cases h1 : n = 1
    · by_cases h2 : n' = 1
      · rw [(hok h1).1] at hm
        rw [(hok' h2).1] at hm'
        have := vm_validate hm hm'
        subst this
        exact partOf_refl hm
      · rw [herr' h2] at hm'; simp at hm'
    · rw [herr h1] at hm; simp at hm

/-- rounding up is monotone -/
theorem ceil_mono {n n' c : Int} (hc : 0 < c) (hn : n ≤ n') : -(pdiv (-n) c) ≤ -(pdiv (-n') c) := by
  unfold pdiv
  rw [Int.fdiv_eq_ediv_of_nonneg _ (Int.le_of_lt hc), Int.fdiv_eq_ediv_of_nonneg _ (Int.le_of_lt hc)]
  have := Int.ediv_le_ediv hc (show -n' ≤ -n by omega)
  omega

/-- C92: the machine for more chips contains the machine for fewer chips. -/
theorem C92_by_chips (v : Version) (cfg : DownCfg) (n n' : Int) (hn : n ≤ n') (validate validate' : Bool)
    (m m' : Machine) (hm : virtualMachineByChips v cfg n validate = .ok m)
    (hm' : virtualMachineByChips v cfg n' validate' = .ok m') : PartOf m m' :=
  C92_by_boards v cfg _ _ (ceil_mono (c := v.kind.nChipsPerBoard) (by cases v.kind <;> decide) hn) validate validate'
    m m' hm hm'

/-- C92: the machine for more cores contains the machine for fewer cores, as long as the monitors leave
some cores of a board. -/
theorem C92_by_cores (v : Version) (cfg : DownCfg) (ethMon allMon n n' : Int) (hn : n ≤ n')
    (hcpb : 0 < v.kind.coresPerBoard ethMon allMon) (validate validate' : Bool)
    (m m' : Machine) (hm : virtualMachineByCores v cfg ethMon allMon n validate = .ok m)
    (hm' : virtualMachineByCores v cfg ethMon allMon n' validate' = .ok m') : PartOf m m' := by
  unfold virtualMachineByCores VKind.sizeFromNCores at hm hm'
  rw [if_neg (by omega)] at hm hm'
  exact C92_by_boards v cfg _ _ (ceil_mono hcpb hn) validate validate' m m' hm hm'

/-- C92: more monitors on a chip never give a smaller machine. -/
theorem C92_more_monitors (v : Version) (cfg : DownCfg) (ethMon allMon ethMon' allMon' n : Int) (hn : 0 ≤ n)
    (he : ethMon ≤ ethMon') (ha : allMon ≤ allMon') (hcpb : 0 < v.kind.coresPerBoard ethMon' allMon')
    (validate validate' : Bool)
    (m m' : Machine) (hm : virtualMachineByCores v cfg ethMon allMon n validate = .ok m)
    (hm' : virtualMachineByCores v cfg ethMon' allMon' n validate' = .ok m') : PartOf m m' := by
  have hle : v.kind.coresPerBoard ethMon' allMon' ≤ v.kind.coresPerBoard ethMon allMon := by
    unfold VKind.coresPerBoard
    have : (allMon + v.kind.nScampCores) * v.kind.nChipsPerBoard ≤
        (allMon' + v.kind.nScampCores) * v.kind.nChipsPerBoard :=
      Int.mul_le_mul_of_nonneg_right (by omega) (by cases v.kind <;> decide)
    omega
  unfold virtualMachineByCores VKind.sizeFromNCores at hm hm'
  rw [if_neg (by omega)] at hm hm'
  refine C92_by_boards v cfg _ _ ?_ validate validate' m m' hm hm'
  show ceilDiv n _ ≤ ceilDiv n _
  have h1 := ceilDiv_spec n _ hcpb
  have h2 := ceilDiv_spec n _ (show 0 < v.kind.coresPerBoard ethMon allMon by omega)
  generalize v.kind.coresPerBoard ethMon' allMon' = c' at *
  generalize v.kind.coresPerBoard ethMon allMon = c at *
  generalize ceilDiv n c = a at *
  generalize ceilDiv n c' = b at *
  rcases Int.lt_or_le b a with h | h
  · exfalso
    have hb : 0 ≤ b := by
      rcases Int.lt_or_le b 0 with hb | hb
      · have : c' * b < 0 := Int.mul_neg_of_pos_of_neg hcpb hb
        omega
      · exact hb
    have h3 : c * b ≤ c * (a - 1) := Int.mul_le_mul_of_nonneg_left (by omega) (by omega)
    have h4 : c' * b ≤ c * b := Int.mul_le_mul_of_nonneg_right hle hb
    omega
  · exact h

/-- C92: asking `virtual_machine_by_min_size` for more width and height never makes the size it builds
narrower or lower. -/
theorem C92_min_size (k : VKind) (w h w' h' : Int) (hw : w ≤ w') (hh : h ≤ h') :
    (minSize k w h).1 ≤ (minSize k w' h').1 ∧ (minSize k w h).2 ≤ (minSize k w' h').2 := by
  have hb : 0 < k.boardShape.1 ∧ 0 < k.boardShape.2 := by cases k <;> decide
  unfold minSize
  generalize k.boardShape = s at *
  obtain ⟨wb, hb2⟩ := s
  simp only at hb ⊢
  have mono : ∀ {a b c : Int}, 0 < c → a ≤ b → c * ceilDiv a c ≤ c * ceilDiv b c := by
    intro a b c hc hab
    exact Int.mul_le_mul_of_nonneg_left (ceil_mono hc hab) (Int.le_of_lt hc)
  have at2 : ∀ {b c : Int}, 0 < c → c < b → c * ceilDiv (c * 2) c ≤ c * ceilDiv b c := by
    intro b c hc hab
    refine Int.mul_le_mul_of_nonneg_left ?_ (Int.le_of_lt hc)
    have h1 := ceilDiv_spec (c * 2) c hc
    have h2 := ceilDiv_spec b c hc
    have h3 : ceilDiv (c * 2) c - 1 < 2 := Int.lt_of_mul_lt_mul_left h1.2 (Int.le_of_lt hc)
    have h4 : c * 1 < c * ceilDiv b c := by omega
    have h5 := Int.lt_of_mul_lt_mul_left h4 (Int.le_of_lt hc)
    omega
  constructor
  · split <;> split
    · exact Int.le_refl _
    · exact at2 hb.1 (by omega)
    · exact mono hb.1 (by omega)
    · exact mono hb.1 hw
  · split <;> split <;> split <;> split <;>
      first
      | exact Int.le_refl _
      | exact mono hb.2 hh
      | exact mono hb.2 (by omega)
      | exact at2 hb.2 (by omega)
      | omega

/-- a machine for 2 boards and one for 7 boards; the first is part of the second -/
example : ∃ (v : Version) (m m' : Machine), Version.init .v5 {} = .ok v ∧
    virtualMachineByBoards v {} 2 true = .ok m ∧ virtualMachineByBoards v {} 7 true = .ok m' ∧
    PartOf m m' ∧ m.nChips = 144 ∧ m'.nChips = 576 := by
  obtain ⟨m, hm⟩ := C33_no_down { kind := .v5, maxCores := 18, maxSdram := 123469792 } 16 16 (by decide) (by decide)
  obtain ⟨m', hm'⟩ := C33_no_down { kind := .v5, maxCores := 18, maxSdram := 123469792 } 28 28 (by decide) (by decide)
  have hb : virtualMachineByBoards { kind := .v5, maxCores := 18, maxSdram := 123469792 } {} 2 true = .ok m := by
    unfold virtualMachineByBoards
    simp only [show VKind.v5.sizeFromNBoards 2 = .ok (16, 16) by decide +kernel]
    exact hm
  have hb' : virtualMachineByBoards { kind := .v5, maxCores := 18, maxSdram := 123469792 } {} 7 true = .ok m' := by
    unfold virtualMachineByBoards
    simp only [show VKind.v5.sizeFromNBoards 7 = .ok (28, 28) by decide +kernel]
    exact hm'
  obtain ⟨h1, h2, h3⟩ := default_not_down .v5
  have c1 := (C35_chips _ {} _ _ true m hm h1).1
  have c2 := (C35_chips _ {} _ _ true m' hm' h1).1
  have e1 : (VKind.v5.potentialEthernetChips 16 16).length = 3 := by decide +kernel
  have e2 : (VKind.v5.potentialEthernetChips 28 28).length = 12 := by decide +kernel
  simp only [e1, e2] at c1 c2
  exact ⟨_, m, m', rfl, hb, hb', C92_by_boards _ {} 2 7 (by omega) true true m m' hb hb', by omega, by omega⟩

/-- C92: this needs sizes without wraps, as `size_from_n_boards` gives them: the machine of 12 by 12
places that wraps both ways has a chip at (0, 11), the one of 16 by 16 places does not. -/
theorem C92_wrapped_grow_fails :
    ∃ (v : Version) (m m' : Machine), Version.init .v5 {} = .ok v ∧
      virtualMachine v {} 12 12 true = .ok m ∧ virtualMachine v {} 16 16 true = .ok m' ∧ ¬ PartOf m m' := by
  obtain ⟨m, hm⟩ := C33_no_down { kind := .v5, maxCores := 18, maxSdram := 123469792 } 12 12 (by decide) (by decide)
  obtain ⟨m', hm'⟩ := C33_no_down { kind := .v5, maxCores := 18, maxSdram := 123469792 } 16 16 (by decide) (by decide)
  refine ⟨_, m, m', rfl, hm, hm', fun hp => ?_⟩
  obtain ⟨hs, hr, hwr, hw, hh, hcc, r, d, hdr, hcl⟩ := vm_facts hm
  obtain ⟨hs', hr', hwr', hw', hh', hcc', r', d', hdr', hcl'⟩ := vm_facts hm'
  have hnd := (default_not_down .v5).1
  have hat : (0, 11) ∈ m.chipList.map Chip.xy := by
    have h1 : (0, 11) ∈ (vmPlaces { kind := .v5, maxCores := 18, maxSdram := 123469792 } 12 12).map (·.1) := by
      decide +kernel
    rw [hcl, vmChips_xy]
    rw [List.mem_map] at h1 ⊢
    obtain ⟨kv, hkv, he⟩ := h1
    refine ⟨kv, List.mem_filter.2 ⟨hkv, ?_⟩, he⟩
    rw [decide_eq_true_eq, (down_spec hs hdr).1]
    exact hnd _
  obtain ⟨c, hc, hxy⟩ := List.mem_map.1 hat
  obtain ⟨c', hc', hxy', -⟩ := hp.2.2 c hc
  have : (0, 11) ∈ m'.chipList.map Chip.xy := List.mem_map.2 ⟨c', hc', hxy'.trans hxy⟩
  rw [hcl', vmChips_xy] at this
  have h2 : (0, 11) ∈ (vmPlaces { kind := .v5, maxCores := 18, maxSdram := 123469792 } 16 16).map (·.1) := by
    rw [List.mem_map] at this ⊢
    obtain ⟨kv, hkv, he⟩ := this
    exact ⟨kv, (List.mem_filter.1 hkv).1, he⟩
  revert h2
  decide +kernel

end SpiNN.Props
