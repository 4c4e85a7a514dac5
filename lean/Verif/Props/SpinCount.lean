import Verif.Props.BoardLinks
import Verif.Props.LinkHistory
import Verif.Props.VirtualMachine
-- imported only so that the modules which need much memory are built one after another
import Verif.Props.Factory

/-! C109: which boards have a SpiNNaker link. -/

namespace SpiNN.Props
open SpiNN SpiNN.Spec

theorem eth_perm {v : Version} {cfg : DownCfg} {w h : Int} {validate : Bool} {m : Machine}
    (hm : virtualMachine v cfg w h validate = .ok m) (hnc : ∀ p, ¬ ChipDown cfg p) :
    (m.ethernetChips.map Chip.xy).Perm (v.kind.potentialEthernetChips w h) := by
  obtain ⟨hs, hr, hwr, hw, hh, hcc, r, d, hd, hcl⟩ := vm_facts hm
  obtain ⟨hip, -⟩ := C30_addresses v cfg w h validate m hm
  rw [List.perm_ext_iff_of_nodup]
  · intro p
    rw [List.mem_map]
    constructor
    · rintro ⟨e, he, rfl⟩
      rw [r.eths, List.mem_filter] at he
      by_cases hep : e.xy ∈ v.kind.potentialEthernetChips w h
      · exact hep
      · rw [(hip e he.1).2 hep] at he; simp at he
    · intro hp
      have hpos := hs.pos
      have hb : BoardAt v.kind m.wrap w h p p := by
        rw [hwr, ← mem_xysByEthernet_iff_boardAt v.kind _ hpos.1 hpos.2, mem_xysByEthernet]
        refine ⟨(0, 0), onBoard_origin _, ?_⟩
        have hg := ((mem_potential_iff hs p).1 hp).2.1
        unfold InGrid at hg
        simp only [Int.zero_add]
        exact Wrap.red_of_inRange _ (p := (p.1, p.2))
          ⟨fun _ => ⟨hg.1, hg.2.1⟩, fun _ => ⟨hg.2.2.1, hg.2.2.2⟩⟩
      have hat := (C30_chips v cfg w h validate m hm p).2 ⟨hnc p, p, hp, hb⟩
      obtain ⟨c, hc, rfl⟩ := List.mem_map.1 ((isChipAt_iff r p).1 hat)
      exact ⟨c, by rw [r.eths, List.mem_filter, (hip c hc).1 hp]; exact ⟨hc, rfl⟩, rfl⟩
  · rw [r.eths]
    exact r.nodup.sublist (List.filter_sublist.map _)
  · exact nodup_potential _ _ _

/-- whether the board with this Ethernet chip has SpiNNaker link 0 -/
def hasSpinLink (m : Machine) (e : Chip) : Bool :=
  match m.getSpinnakerLink 0 e.ip none with
  | .ok _ => true
  | .error _ => false

/-- C109: on a virtual machine of Version 5 a board has its SpiNNaker link exactly if its Ethernet chip has no
link to the south west. -/
theorem C109_spinnaker_link (v : Version) (hk : v.kind = .v5) (cfg : DownCfg) (w h : Int) (validate : Bool)
    (m : Machine) (hm : virtualMachine v cfg w h validate = .ok m) (e : Chip) (he : e ∈ m.ethernetChips)
    (b : PyStr) (hb : e.ip = some b) (d : SpinLinkData) :
    m.getSpinnakerLink 0 (some b) none = .ok d ↔ ¬ HasLink e Dir.SW.id ∧ d = ⟨0, e.x, e.y, Dir.SW.id, b⟩ := by
  obtain ⟨hs, dn, -, hr, -, ⟨o, ho, g0⟩, -⟩ := vm_ok hm
  have hp := C30_well_placed v cfg w h validate m hm
  have h0 := (C27_no_links_at_first v _ _ "Virtual" o ho [.addChips (vmChips v w h dn)]
    (by simp [noLinkTables])).1
  let m1 := (run v o [.addChips (vmChips v w h dn)]).1
  have hm1 : m = (m1.addSpinnakerLinks v).addFpgaLinks v := g0
  have hr1 : Reachable v w h m1 := ⟨"Virtual", _, o, ho, rfl⟩
  have r1 := hr1.rep.2.2.2.2.2
  have hee : m.ethernetChips = m1.ethernetChips := by rw [hm1, addFpgaLinks_eq, addSpinnakerLinks_eq]
  have hsp : m.getSpinnakerLink 0 (some b) none = (m1.addSpinnakerLinks v).getSpinnakerLink 0 (some b) none := by
    rw [hm1, addFpgaLinks_eq]; rfl
  have hp1 : WellPlaced v.kind w h m1 := by unfold WellPlaced at hp ⊢; rwa [hee] at hp
  rw [hee] at he
  rw [hsp, (C27_spinnaker_link_lookup v w h m1 hr1 hp1 h0 0 d).1 b]
  have hg : ∀ f ∈ m1.ethernetChips, m1.getGlobalXY 0 0 f.x f.y = f.xy := by
    intro f hf
    obtain ⟨-, hwr, hw, hh, -, -⟩ := hr1.rep
    simp only [Machine.getGlobalXY, Wrap.globalXY_eq, hwr, hw, hh, Int.zero_add]
    have g := (hp1.2 f hf).2
    exact Wrap.red_of_inRange _ ⟨fun _ => ⟨g.1, g.2.1⟩, fun _ => ⟨g.2.2.1, g.2.2.2⟩⟩
  have hc : ∀ f ∈ m1.ethernetChips, m1.getChipAt f.x f.y = some f := by
    intro f hf
    rw [r1.eths, List.mem_filter] at hf
    unfold Machine.getChipAt
    rw [r1.get?]
    exact Chips.at_of_mem r1.nodup hf.1
  unfold SpinLinkOf
  rw [hk]
  constructor
  · rintro ⟨f, hf, hfb, n, lx, ly, link, c, hn, hrow, hget, hnl, rfl⟩
    have hfe := hp1.1 f hf e he (hfb.trans hb.symm)
    subst hfe
    have : n = 0 := by omega
    subst this
    simp only [spinConnectors, List.map_cons, List.map_nil, List.getElem?_cons_zero, Option.some.injEq,
      Prod.mk.injEq] at hrow
    obtain ⟨rfl, rfl, rfl⟩ := hrow
    rw [hg f hf] at hget ⊢
    have : some c = some f := hget.symm.trans (hc f hf)
    cases this
    exact ⟨hnl, rfl⟩
  · rintro ⟨hnl, rfl⟩
    refine ⟨e, he, hb, 0, 0, 0, Dir.SW.id, e, rfl, rfl, ?_, hnl, ?_⟩
    · rw [hg e he]; exact hc e he
    · rw [hg e he]; rfl

/-- C109: with nothing down, a board has its SpiNNaker link exactly if there is no board on its south west side. -/
theorem C109_no_neighbour (v : Version) (hk : v.kind = .v5) (cfg : DownCfg) (w h : Int) (validate : Bool)
    (m : Machine) (hm : virtualMachine v cfg w h validate = .ok m)
    (hnc : ∀ p, ¬ ChipDown cfg p) (hnl : ∀ p i, ¬ LinkDown cfg p i) (e : Chip) (he : e ∈ m.ethernetChips) :
    hasSpinLink m e = true ↔
      placeOn m.wrap w h (e.x + -8, e.y + -4) ∉ v.kind.potentialEthernetChips w h := by
  obtain ⟨hs, hr, hwr, hw, hh, hcc, r, d, hd, hcl⟩ := vm_facts hm
  have hpos := hs.pos
  have hmem := he
  rw [r.eths, List.mem_filter] at hmem
  obtain ⟨b, hb⟩ := Option.isSome_iff_exists.1 hmem.2
  have hpot : e.xy ∈ v.kind.potentialEthernetChips w h :=
    (eth_perm hm hnc).mem_iff.1 (List.mem_map_of_mem he)
  have h1 : hasSpinLink m e = true ↔ ¬ HasLink e Dir.SW.id := by
    unfold hasSpinLink
    rw [hb]
    constructor
    · intro hh
      split at hh
      · rename_i d' hd'
        exact ((C109_spinnaker_link v hk cfg w h validate m hm e he b hb d').1 hd').1
      · cases hh
    · intro hh
      rw [(C109_spinnaker_link v hk cfg w h validate m hm e he b hb _).2 ⟨hh, rfl⟩]
  rw [h1]
  refine not_congr ?_
  rw [C31_links v cfg w h validate m hm e hmem.1]
  have hred : (v.kind.wrapFor w h).red w h (0 + e.x, 0 + e.y) = e.xy := by
    have g := ((mem_potential_iff hs e.xy).1 hpot).2.1
    rw [Int.zero_add, Int.zero_add]
    exact Wrap.red_of_inRange _ (p := e.xy) ⟨fun _ => ⟨g.1, g.2.1⟩, fun _ => ⟨g.2.2.1, g.2.2.2⟩⟩
  have ht := target_iff (.inl hk) hs hpot (l := (0, 0)) (by decide) Dir.SW
  have hside : sideOf (0, 0) Dir.SW = some (-8, -4) := by decide
  simp only [hside, Option.some.injEq, forall_eq', Chip.xy, hred] at ht
  rw [hwr, ← ht]
  have hx : m.xyOverLink e.x e.y Dir.SW.id =
      .ok ((v.kind.wrapFor w h).red w h (e.x + Dir.SW.dx, e.y + Dir.SW.dy)) := by
    rw [xyOverLink_dir' m (by omega) (by omega), hwr, hw, hh]
  constructor
  · rintro ⟨dir, hdir, -, -, q, hq, hat⟩
    rw [hx] at hq
    cases hq
    rw [isChipAt_iff r, hcl, vmChips_xy, mem_vm_keys hs] at hat
    exact hat.2
  · intro hat
    refine ⟨Dir.SW, rfl, hnl _ _, ?_, _, hx, ?_⟩
    · rw [hk]; simp [Unwired]
    · rw [isChipAt_iff r, hcl, vmChips_xy, mem_vm_keys hs]
      exact ⟨fun h => hnc _ (((down_spec hs hd).1 _).1 h), hat⟩

private theorem count_alone (wx wy : Bool) (a b : Nat) (ha : 0 < a) (hb : 0 < b) :
    (Geometry.spinn5.potentialEthernetChips (axis wx a) (axis wy b)).countP (fun e => decide
      (placeOn (VKind.v5.wrapFor (axis wx a) (axis wy b)) (axis wx a) (axis wy b) (e.1 + -8, e.2 + -4) ∉
        Geometry.spinn5.potentialEthernetChips (axis wx a) (axis wy b))) +
    ((if wy then b else b - 1) * (if wx then a else a - 1) + b * (if wx then a else a - 1) + b * a) =
      3 * (a * b) := by
  have hlen : (Geometry.spinn5.potentialEthernetChips (axis wx a) (axis wy b)).length = 3 * (a * b) := by
    rw [potential_eq wx wy a b ha hb]
    simp only [List.flatMap_cons, List.flatMap_nil, List.append_nil, List.length_append, length_grid, starts,
      List.length_map, List.length_range]
    rw [Nat.mul_comm b a]
    omega
  have hsplit := List.length_eq_countP_add_countP (l := Geometry.spinn5.potentialEthernetChips (axis wx a) (axis wy b))
    (fun e => room wx a (e.1 + -8) && room wy b (e.2 + -4))
  have h1 : (Geometry.spinn5.potentialEthernetChips (axis wx a) (axis wy b)).countP (fun e => decide
      (placeOn (VKind.v5.wrapFor (axis wx a) (axis wy b)) (axis wx a) (axis wy b) (e.1 + -8, e.2 + -4) ∉
        Geometry.spinn5.potentialEthernetChips (axis wx a) (axis wy b))) =
      (Geometry.spinn5.potentialEthernetChips (axis wx a) (axis wy b)).countP fun e =>
        decide ¬ (room wx a (e.1 + -8) && room wy b (e.2 + -4)) = true := by
    refine List.countP_congr fun e he => ?_
    have h1 := axis_pos wx ha
    have h2 := axis_pos wy hb
    have hle := ((mem_potential48' (.inr ⟨h1.1, h2.1, h1.2, h2.2⟩) e).1 he).1
    rw [decide_eq_true_eq, decide_eq_true_eq]
    exact not_congr (room_iff wx wy ha hb (lattice_add hle (around_lattice (-8, -4) (by decide))))
  have h2 : (Geometry.spinn5.potentialEthernetChips (axis wx a) (axis wy b)).countP
      (fun e => room wx a (e.1 + -8) && room wy b (e.2 + -4)) =
      (if wy then b else b - 1) * (if wx then a else a - 1) + b * (if wx then a else a - 1) + b * a := by
    have hg : ∀ r1 r2 : Int, 4 ∣ r1 + -8 ∧ -12 ≤ r1 + -8 ∧ r1 + -8 ≤ 20 ∧ 4 ∣ r2 + -4 ∧ -12 ≤ r2 + -4 ∧
        r2 + -4 ≤ 20 → ((starts b r2).flatMap fun y => (starts a r1).map fun x => ((x, y) : XY)).countP
          (fun e => room wx a (e.1 + -8) && room wy b (e.2 + -4)) =
        (if wy = true ∨ (0 ≤ r2 + -4 ∧ r2 + -4 ≤ 8) then b else b - 1) *
          (if wx = true ∨ (0 ≤ r1 + -8 ∧ r1 + -8 ≤ 8) then a else a - 1) := by
      intro r1 r2 hc
      rw [← starts_count wx a r1 (-8) hc.1 hc.2.1 hc.2.2.1, ← starts_count wy b r2 (-4) hc.2.2.2.1 hc.2.2.2.2.1
        hc.2.2.2.2.2]
      exact grid_count (starts a r1) (starts b r2) (fun x => room wx a (x + -8)) fun y => room wy b (y + -4)
    rw [potential_eq wx wy a b ha hb]
    simp only [List.flatMap_cons, List.flatMap_nil, List.append_nil, List.countP_append]
    simp (disch := decide) only [hg]
    cases wx <;> cases wy <;> simp <;> omega
  rw [h1, ← h2, ← hlen, hsplit]
  omega

private theorem spin_boards (v : Version) (hk : v.kind = .v5) (cfg : DownCfg) (wx wy : Bool) (a b : Nat)
    (ha : 0 < a) (hb : 0 < b) (validate : Bool) (m : Machine)
    (hm : virtualMachine v cfg (axis wx a) (axis wy b) validate = .ok m)
    (hnc : ∀ p, ¬ ChipDown cfg p) (hnl : ∀ p i, ¬ LinkDown cfg p i) :
    m.ethernetChips.countP (hasSpinLink m) + ((if wy then b else b - 1) * (if wx then a else a - 1) +
      b * (if wx then a else a - 1) + b * a) = 3 * (a * b) := by
  rw [← count_alone wx wy a b ha hb]
  congr 1
  have hpot : v.kind.potentialEthernetChips (axis wx a) (axis wy b) =
      Geometry.spinn5.potentialEthernetChips (axis wx a) (axis wy b) := by rw [hk]; rfl
  have hwr : m.wrap = VKind.v5.wrapFor (axis wx a) (axis wy b) := by rw [(vm_facts hm).2.2.1, hk]
  have hperm := eth_perm hm hnc
  rw [hpot] at hperm
  rw [← hperm.countP_eq, List.countP_map]
  refine List.countP_congr fun e he => ?_
  rw [C109_no_neighbour v hk cfg _ _ validate m hm hnc hnl e he, hwr, hpot, Function.comp, decide_eq_true_eq]
  rfl

/-- C109: on `a` by `b` triads with open edges the boards on the south west edges have one. -/
theorem C109_open (v : Version) (hk : v.kind = .v5) (cfg : DownCfg) (a b : Nat) (ha : 0 < a) (hb : 0 < b)
    (validate : Bool) (m : Machine) (hm : virtualMachine v cfg (12 * a + 4) (12 * b + 4) validate = .ok m)
    (hnc : ∀ p, ¬ ChipDown cfg p) (hnl : ∀ p i, ¬ LinkDown cfg p i) :
    m.ethernetChips.countP (hasSpinLink m) = a + 2 * b - 1 := by
  have h1 := spin_boards v hk cfg false false a b ha hb validate m hm hnc hnl
  obtain ⟨a, rfl⟩ : ∃ n, a = n + 1 := ⟨a - 1, by omega⟩
  obtain ⟨b, rfl⟩ : ∃ n, b = n + 1 := ⟨b - 1, by omega⟩
  simp only [Bool.false_eq_true, if_false, if_true, Nat.add_sub_cancel] at h1
  grind

/-- C109: wrapped horizontally, one per triad along the bottom. -/
theorem C109_horizontal (v : Version) (hk : v.kind = .v5) (cfg : DownCfg) (a b : Nat) (ha : 0 < a) (hb : 0 < b)
    (validate : Bool) (m : Machine) (hm : virtualMachine v cfg (12 * a) (12 * b + 4) validate = .ok m)
    (hnc : ∀ p, ¬ ChipDown cfg p) (hnl : ∀ p i, ¬ LinkDown cfg p i) :
    m.ethernetChips.countP (hasSpinLink m) = a := by
  have h1 := spin_boards v hk cfg true false a b ha hb validate m hm hnc hnl
  obtain ⟨a, rfl⟩ : ∃ n, a = n + 1 := ⟨a - 1, by omega⟩
  obtain ⟨b, rfl⟩ : ∃ n, b = n + 1 := ⟨b - 1, by omega⟩
  simp only [Bool.false_eq_true, if_false, if_true, Nat.add_sub_cancel] at h1
  grind

/-- C109: wrapped vertically, two per triad along the left side. -/
theorem C109_vertical (v : Version) (hk : v.kind = .v5) (cfg : DownCfg) (a b : Nat) (ha : 0 < a) (hb : 0 < b)
    (validate : Bool) (m : Machine) (hm : virtualMachine v cfg (12 * a + 4) (12 * b) validate = .ok m)
    (hnc : ∀ p, ¬ ChipDown cfg p) (hnl : ∀ p i, ¬ LinkDown cfg p i) :
    m.ethernetChips.countP (hasSpinLink m) = 2 * b := by
  have h1 := spin_boards v hk cfg false true a b ha hb validate m hm hnc hnl
  obtain ⟨a, rfl⟩ : ∃ n, a = n + 1 := ⟨a - 1, by omega⟩
  obtain ⟨b, rfl⟩ : ∃ n, b = n + 1 := ⟨b - 1, by omega⟩
  simp only [Bool.false_eq_true, if_false, if_true, Nat.add_sub_cancel] at h1
  grind

/-- C109: wrapped in both directions no board has one. -/
theorem C109_torus (v : Version) (hk : v.kind = .v5) (cfg : DownCfg) (a b : Nat) (ha : 0 < a) (hb : 0 < b)
    (validate : Bool) (m : Machine) (hm : virtualMachine v cfg (12 * a) (12 * b) validate = .ok m)
    (hnc : ∀ p, ¬ ChipDown cfg p) (hnl : ∀ p i, ¬ LinkDown cfg p i) :
    m.ethernetChips.countP (hasSpinLink m) = 0 := by
  have h1 := spin_boards v hk cfg true true a b ha hb validate m hm hnc hnl
  obtain ⟨a, rfl⟩ : ∃ n, a = n + 1 := ⟨a - 1, by omega⟩
  obtain ⟨b, rfl⟩ : ∃ n, b = n + 1 := ⟨b - 1, by omega⟩
  simp only [Bool.false_eq_true, if_false, if_true, Nat.add_sub_cancel] at h1
  grind

/-- C109: a single board has one. -/
theorem C109_one_board (v : Version) (hk : v.kind = .v5) (cfg : DownCfg) (validate : Bool) (m : Machine)
    (hm : virtualMachine v cfg 8 8 validate = .ok m) (hnc : ∀ p, ¬ ChipDown cfg p)
    (hnl : ∀ p i, ¬ LinkDown cfg p i) : ∀ e ∈ m.ethernetChips, hasSpinLink m e = true := by
  intro e he
  rw [C109_no_neighbour v hk cfg _ _ validate m hm hnc hnl e he, (vm_facts hm).2.2.1, hk]
  have h1 := (eth_perm hm hnc).mem_iff.1 (List.mem_map_of_mem he)
  rw [hk] at h1
  have h0 : VKind.v5.potentialEthernetChips 8 8 = [(0, 0)] := by decide +kernel
  rw [h0, List.mem_singleton] at h1
  have hx : e.x = 0 := congrArg Prod.fst h1
  have hy : e.y = 0 := congrArg Prod.snd h1
  rw [h0, hx, hy]
  decide

example : ∃ m, virtualMachine exV5 {} 28 16 false = .ok m ∧ m.ethernetChips.countP (hasSpinLink m) = 3 := by
  obtain ⟨m, hm⟩ := (C30_succeeds exV5 {} 28 16).1 (by decide) (readable_default .v5)
  exact ⟨m, hm, C109_open exV5 rfl {} 2 1 (by decide) (by decide) false m hm (default_not_down VKind.v5).1
    (default_not_down VKind.v5).2.1⟩

end SpiNN.Props
