import Verif.Spec.Cables
import Verif.Props.LinkHistory
import Verif.Props.VirtualMachine
import Verif.Props.Shift
-- imported only so that the modules which need much memory are built one after another
import Verif.Props.Factory

/-!
# The cables between boards (C95)
-/

namespace SpiNN.Props
open SpiNN Spec

/-- the opposite direction -/
def flip : Dir → Dir
  | .E => .W | .NE => .SW | .N => .S | .W => .E | .SW => .NE | .S => .N

theorem flip_id (d : Dir) : (flip d).id = Router.opposite d.id := by cases d <;> decide

def offsets : List XY := [(4, -4), (-8, -4), (4, 8), (-4, -8), (-4, 4), (8, 4)]

/-- the row at the other end of the cable -/
theorem cable_tab : ∀ r ∈ VKind.v5.fpgaLinks, ∃ d ∈ [Dir.E, .NE, .N, .W, .SW, .S], d.id = r.2.2.1 ∧
    ∃ off ∈ offsets, ∃ f' ∈ [(0 : Int), 1, 2],
      cableTo r.2.2.2.1 r.2.2.2.2 = some (off, f', 15 - r.2.2.2.2) ∧
      (r.1 + d.dx - off.1, r.2.1 + d.dy - off.2, (flip d).id, f', 15 - r.2.2.2.2) ∈ VKind.v5.fpgaLinks := by
  decide +kernel

theorem offsets_lattice : ∀ o ∈ offsets, EthLattice o := by
  intro o ho
  simp only [offsets, List.mem_cons, List.not_mem_nil, or_false] at ho
  rcases ho with rfl | rfl | rfl | rfl | rfl | rfl
  · exact ⟨0, -1, .inr (.inl rfl)⟩
  · exact ⟨-1, -1, .inr (.inl rfl)⟩
  · exact ⟨0, 0, .inr (.inl rfl)⟩
  · exact ⟨-1, -1, .inr (.inr rfl)⟩
  · exact ⟨-1, 0, .inr (.inr rfl)⟩
  · exact ⟨0, 0, .inr (.inr rfl)⟩

theorem only_v5 {k : VKind} {a : Int × Int × Int × Int × Int} (h : a ∈ k.fpgaLinks) : k = .v5 := by
  cases k with
  | v5 => rfl
  | v3 => simp [VKind.fpgaLinks] at h
  | v201 => simp [VKind.fpgaLinks] at h
  | v248 => simp [VKind.fpgaLinks] at h

/-- multiples of the size of a wrapped axis are multiples of 12 -/
theorem wrap_mult {w h a b : Int} (h3 : ¬ wrapsX (VKind.v5.wrapFor w h) → a = 0)
    (h4 : ¬ wrapsY (VKind.v5.wrapFor w h) → b = 0) : 12 ∣ a * w ∧ 12 ∣ b * h := by
  have hwr := wrapFor_spec .v5 w h
  constructor
  · by_cases hx : wrapsX (VKind.v5.wrapFor w h)
    · exact Int.dvd_trans (hwr.1.1 hx) (Int.dvd_mul_left _ _)
    · rw [h3 hx]; simp
  · by_cases hy : wrapsY (VKind.v5.wrapFor w h)
    · exact Int.dvd_trans (hwr.2.1 hy) (Int.dvd_mul_left _ _)
    · rw [h4 hy]; simp

theorem same_iff_red (wr : Wrap) {w h : Int} (hw : 0 < w) (hh : 0 < h) (p q : XY) :
    Same wr w h p q ↔ wr.red w h p = wr.red w h q := by
  constructor
  · intro hs
    rw [Wrap.red_eq_iff wr hw hh (Wrap.red_inRange wr hw hh q)]
    have h2 := Wrap.red_same wr hw hh q
    unfold Same at hs h2 ⊢
    by_cases hx : wrapsX wr <;> by_cases hy : wrapsY wr <;> simp only [hx, hy, if_true, if_false] at hs h2 ⊢
    · obtain ⟨⟨a, ha⟩, b, hb⟩ := hs
      obtain ⟨⟨c, hc⟩, d, hd⟩ := h2
      exact ⟨⟨a + c, by rw [Int.add_mul]; omega⟩, b + d, by rw [Int.add_mul]; omega⟩
    · obtain ⟨⟨a, ha⟩, hb⟩ := hs
      obtain ⟨⟨c, hc⟩, hd⟩ := h2
      exact ⟨⟨a + c, by rw [Int.add_mul]; omega⟩, by omega⟩
    · obtain ⟨ha, b, hb⟩ := hs
      obtain ⟨hc, d, hd⟩ := h2
      exact ⟨by omega, b + d, by rw [Int.add_mul]; omega⟩
    · exact ⟨by omega, by omega⟩
  · intro heq
    obtain ⟨a, b, h1, h2, h3, h4⟩ := red_diff wr hw hh heq
    unfold Same
    constructor
    · split
      · exact ⟨a, h1⟩
      · rename_i hx; rw [h3 hx] at h1; omega
    · split
      · exact ⟨b, h2⟩
      · rename_i hy; rw [h4 hy] at h2; omega

theorem cable_core {v : Version} {w h : Int} {m : Machine} (hr : Reachable v w h m)
    (hp : WellPlaced v.kind w h m) {b b' : PyStr} {e e' : XY} {f i f' i' : Int} {d d' : FpgaLinkData}
    (hd : FpgaLinkOf v.kind m b e f i d) (hd' : FpgaLinkOf v.kind m b' e' f' i' d') :
    (m.xyOverLink d.x d.y d.link = .ok (d'.x, d'.y) ∧ d'.link = Router.opposite d.link) ↔
      ∃ off, cableTo f i = some (off, f', i') ∧ Same m.wrap w h e' (e.1 + off.1, e.2 + off.2) := by
  obtain ⟨hs, hwr, hw, hh, hcc, r⟩ := hr.rep
  have hpos := hs.pos
  obtain ⟨c, hc, -, rfl, lx, ly, link, hrow, -, hxy, rfl, -, -, -⟩ := hd
  obtain ⟨c', hc', -, rfl, lx', ly', link', hrow', -, hxy', rfl, -, -, -⟩ := hd'
  have hk := only_v5 hrow
  have e1 := (hp.2 c hc).1
  have e2 := (hp.2 c' hc').1
  rw [hk] at hrow hrow' e1 e2 hwr
  simp only [EthPos] at e1 e2
  obtain ⟨dir, -, hdir, off, hoff, f2, -, hcab, hother⟩ := cable_tab _ hrow
  simp only at hdir hcab hother
  have hon := (C29_table_wellformed.1 _ hother).1
  have hon' := (C29_table_wellformed.1 _ hrow').1
  simp only at hon hon'
  have hx : d.x = (m.getGlobalXY lx ly c.x c.y).1 := congrArg Prod.fst hxy
  have hy : d.y = (m.getGlobalXY lx ly c.x c.y).2 := congrArg Prod.snd hxy
  have hstep : m.xyOverLink d.x d.y d.link =
      .ok ((VKind.v5.wrapFor w h).red w h (lx + c.x + dir.dx, ly + c.y + dir.dy)) := by
    rw [← hdir, xyOverLink_dir' m (by omega) (by omega), hx, hy]
    simp only [Machine.getGlobalXY, Wrap.globalXY_eq, hwr, hw, hh]
    rw [Wrap.red_red_add _ hpos.1 hpos.2]
  have hto : (d'.x, d'.y) = (VKind.v5.wrapFor w h).red w h (lx' + c'.x, ly' + c'.y) := by
    rw [hxy']
    simp only [Machine.getGlobalXY, Wrap.globalXY_eq, hwr, hw, hh]
  rw [hstep, hto]
  simp only [Except.ok.injEq]
  constructor
  · rintro ⟨heq, hl⟩
    obtain ⟨a, b, h1, h2, h3, h4⟩ := red_diff _ hpos.1 hpos.2 heq
    simp only at h1 h2
    obtain ⟨m1, m2⟩ := wrap_mult h3 h4
    have hlat := lattice_mod e2 m1 m2
    have hlat' := lattice_add e1 (offsets_lattice off hoff)
    simp only [Chip.xy] at hlat hlat'
    obtain ⟨q1, q2⟩ := lattice_unique hlat' hlat hon hon' (by simp only; omega) (by simp only; omega)
    have hr2 : (lx', ly', d'.link, f', i') =
        (lx + dir.dx - off.1, ly + dir.dy - off.2, (flip dir).id, f2, 15 - i) := by
      refine eq_of_nodup_map C29_table_wellformed.2.1 hrow' hother ?_
      simp only [Prod.mk.injEq] at q2 ⊢
      exact ⟨q2.1.symm, q2.2.symm, by rw [hl, flip_id, hdir]⟩
    simp only [Prod.mk.injEq] at hr2 q1
    obtain ⟨-, -, -, g1, g2⟩ := hr2
    subst g1; subst g2
    refine ⟨off, hcab, ?_⟩
    rw [hwr]
    unfold Same
    simp only [Chip.xy]
    constructor
    · split
      · exact ⟨-a, by rw [Int.neg_mul]; omega⟩
      · rename_i hx; rw [h3 hx] at q1; omega
    · split
      · exact ⟨-b, by rw [Int.neg_mul]; omega⟩
      · rename_i hy; rw [h4 hy] at q1; omega
  · rintro ⟨off', hc2, hsame⟩
    rw [hcab] at hc2
    simp only [Option.some.injEq, Prod.mk.injEq] at hc2
    obtain ⟨rfl, rfl, rfl⟩ := hc2
    have hr2 : (lx', ly', d'.link, f2, 15 - i) =
        (lx + dir.dx - off.1, ly + dir.dy - off.2, (flip dir).id, f2, 15 - i) :=
      eq_of_nodup_map C29_table_wellformed.2.2.1 hrow' hother rfl
    simp only [Prod.mk.injEq, and_true] at hr2
    obtain ⟨rfl, rfl, g3⟩ := hr2
    refine ⟨?_, by rw [g3, flip_id, hdir]⟩
    rw [hwr, same_iff_red _ hpos.1 hpos.2] at hsame
    have t1 := Wrap.red_red_add (VKind.v5.wrapFor w h) hpos.1 hpos.2 c'.xy (lx + dir.dx - off.1) (ly + dir.dy - off.2)
    have t2 := Wrap.red_red_add (VKind.v5.wrapFor w h) hpos.1 hpos.2 (c.xy.1 + off.1, c.xy.2 + off.2)
      (lx + dir.dx - off.1) (ly + dir.dy - off.2)
    rw [hsame, t2] at t1
    simp only [Chip.xy] at t1
    rw [show lx + c.x + dir.dx = c.x + off.1 + (lx + dir.dx - off.1) by omega,
      show ly + c.y + dir.dy = c.y + off.2 + (ly + dir.dy - off.2) by omega, t1,
      Int.add_comm c'.x, Int.add_comm c'.y]

/-- what a connector leads to, if the machine has a chip of a board with an address there -/
theorem cable_find {v : Version} {w h : Int} {m : Machine} (hr : Reachable v w h m)
    (hp : WellPlaced v.kind w h m) {b b' : PyStr} {e : XY} {f i : Int} {d : FpgaLinkData} {q : XY} {c' : Chip}
    (hd : FpgaLinkOf v.kind m b e f i d) (hq : m.xyOverLink d.x d.y d.link = .ok q)
    (hchip : m.isChipAt q.1 q.2 = true) (hc' : c' ∈ m.ethernetChips) (hip' : c'.ip = some b')
    (hon' : q ∈ m.xysByEthernet c'.x c'.y) :
    ∃ off f' i' d', cableTo f i = some (off, f', i') ∧ FpgaLinkOf v.kind m b' c'.xy f' i' d' ∧
      (d'.x, d'.y) = q ∧ d'.link = Router.opposite d.link := by
  obtain ⟨hs, hwr, hw, hh, hcc, r⟩ := hr.rep
  have hpos := hs.pos
  obtain ⟨c, hc, -, rfl, lx, ly, link, hrow, -, hxy, rfl, -, -, -⟩ := hd
  have hk := only_v5 hrow
  have e1 := (hp.2 c hc).1
  have e2 := (hp.2 c' hc').1
  unfold Machine.xysByEthernet at hon'
  rw [hwr, hw, hh, hcc] at hon'
  obtain ⟨l, hl, hlq⟩ := (mem_xysByEthernet _ _ _ _ (c'.x, c'.y) q).1 hon'
  simp only at hlq
  rw [hk] at hrow e1 e2 hwr hl hlq
  simp only [EthPos] at e1 e2
  simp only [OnBoard] at hl
  obtain ⟨dir, -, hdir, off, hoff, f2, -, hcab, hother⟩ := cable_tab _ hrow
  simp only at hdir hcab hother
  have hon := (C29_table_wellformed.1 _ hother).1
  simp only at hon
  have hx : d.x = (m.getGlobalXY lx ly c.x c.y).1 := congrArg Prod.fst hxy
  have hy : d.y = (m.getGlobalXY lx ly c.x c.y).2 := congrArg Prod.snd hxy
  have hstep : m.xyOverLink d.x d.y d.link =
      .ok ((VKind.v5.wrapFor w h).red w h (lx + c.x + dir.dx, ly + c.y + dir.dy)) := by
    rw [← hdir, xyOverLink_dir' m (by omega) (by omega), hx, hy]
    simp only [Machine.getGlobalXY, Wrap.globalXY_eq, hwr, hw, hh]
    rw [Wrap.red_red_add _ hpos.1 hpos.2]
  rw [hstep, Except.ok.injEq, ← hlq] at hq
  obtain ⟨a, b0, h1, h2, h3, h4⟩ := red_diff _ hpos.1 hpos.2 hq
  simp only at h1 h2
  obtain ⟨m1, m2⟩ := wrap_mult h3 h4
  have hlat := lattice_mod e2 m1 m2
  have hlat' := lattice_add e1 (offsets_lattice off hoff)
  simp only [Chip.xy] at hlat hlat'
  obtain ⟨-, q2⟩ := lattice_unique hlat' hlat hon hl (by simp only; omega) (by simp only; omega)
  refine ⟨off, f2, 15 - i, ⟨15 - i, f2, q.1, q.2, (flip dir).id, b'⟩, hcab,
    ⟨c', hc', hip', rfl, lx + dir.dx - off.1, ly + dir.dy - off.2, (flip dir).id, ?_, hchip, ?_, rfl, rfl, rfl, rfl⟩,
    rfl, ?_⟩
  · rw [hk]; exact hother
  · simp only [Machine.getGlobalXY, Wrap.globalXY_eq, hwr, hw, hh]
    rw [← hlq, ← q2]
  · simp only [flip_id, hdir]

/-- C95: cables. Take any machine, however it was built, whose Ethernet chips are at legal places with
different addresses, and two FPGA links that it knows: link `i` of FPGA `f` of the board with Ethernet
chip `e`, and link `i'` of FPGA `f'` of the board with Ethernet chip `e'`. They are the two ends of one
chip to chip link exactly if the cable table says so: connector `i` of FPGA `f` goes to connector `i'` of
FPGA `f'` of the board at this place relative to the first, modulo the size where the machine wraps. -/
theorem C95_cables (v : Version) (w h : Int) (o : String) (m₀ : Machine)
    (h₀ : v.kind.createMachine (some w) (some h) o = .ok m₀) (ops : List Op) (m : Machine)
    (hm : m = (run v m₀ ops).1) (hp : WellPlaced v.kind w h m) (e e' : Chip) (b b' : PyStr)
    (he : e ∈ m.ethernetChips) (hb : e.ip = some b) (he' : e' ∈ m.ethernetChips) (hb' : e'.ip = some b')
    (f i f' i' : Int) (d d' : FpgaLinkData) (hd : m.getFpgaLink f i (some b) none = .ok d)
    (hd' : m.getFpgaLink f' i' (some b') none = .ok d') :
    (m.xyOverLink d.x d.y d.link = .ok (d'.x, d'.y) ∧ d'.link = Router.opposite d.link) ↔
      ∃ off, cableTo f i = some (off, f', i') ∧ Same m.wrap w h e'.xy (e.x + off.1, e.y + off.2) := by
  subst hm
  have hr : Reachable v w h (run v m₀ ops).1 := ⟨_, _, _, h₀, rfl⟩
  have find : ∀ (f i : Int) (b : PyStr) (e : Chip) (d : FpgaLinkData), e ∈ (run v m₀ ops).1.ethernetChips →
      e.ip = some b → (run v m₀ ops).1.getFpgaLink f i (some b) none = .ok d →
      FpgaLinkOf v.kind (run v m₀ ops).1 b e.xy f i d := by
    intro f i b e d he hb hd
    obtain ⟨exy, hoff⟩ := ((C28_any_history v w h o m₀ h₀ ops hp f i d).1 b).1 hd
    have hnow := (C28_offered_is_now v w h o m₀ h₀ ops b exy f i d).1 hoff
    have hnow' := hnow
    obtain ⟨c, hc, hip, hxy, -⟩ := hnow'
    rw [← hp.1 c hc e he (hip.trans hb.symm), hxy]
    exact hnow
  exact cable_core hr hp (find f i b e d he hb hd) (find f' i' b' e' d' he' hb' hd')

/-- C95: there is always another end. If the chip at the other end of an FPGA link is in the machine, on
the board of an Ethernet chip, then the link found at the connector where the cable leads is the same
link seen from there. -/
theorem C95_other_end (v : Version) (w h : Int) (o : String) (m₀ : Machine)
    (h₀ : v.kind.createMachine (some w) (some h) o = .ok m₀) (ops : List Op) (m : Machine)
    (hm : m = (run v m₀ (ops ++ [.addFpgaLinks])).1) (hp : WellPlaced v.kind w h m) (e' : Chip) (b b' : PyStr)
    (he' : e' ∈ m.ethernetChips) (hb' : e'.ip = some b')
    (f i : Int) (d : FpgaLinkData) (hd : m.getFpgaLink f i (some b) none = .ok d) (q : XY)
    (hq : m.xyOverLink d.x d.y d.link = .ok q) (hchip : m.isChipAt q.1 q.2 = true)
    (hon : q ∈ m.xysByEthernet e'.x e'.y) :
    ∃ off f' i' d', cableTo f i = some (off, f', i') ∧ m.getFpgaLink f' i' (some b') none = .ok d' ∧
      (d'.x, d'.y) = q ∧ d'.link = Router.opposite d.link := by
  subst hm
  have hr : Reachable v w h (run v m₀ (ops ++ [.addFpgaLinks])).1 := ⟨_, _, _, h₀, rfl⟩
  obtain ⟨exy, hoff⟩ := ((C28_any_history v w h o m₀ h₀ _ hp f i d).1 b).1 hd
  have hnow := (C28_offered_is_now v w h o m₀ h₀ _ b exy f i d).1 hoff
  obtain ⟨off, f', i', d', g1, g2, g3, g4⟩ := cable_find hr hp hnow hq hchip he' hb' hon
  refine ⟨off, f', i', d', g1, ?_, g3, g4⟩
  rw [(C28_any_history v w h o m₀ h₀ _ hp f' i' d').1 b']
  refine ⟨e'.xy, (C28_offered_is_now v w h o m₀ h₀ ops b' e'.xy f' i' d').2.2 ?_⟩
  have hfr : (run v m₀ (ops ++ [.addFpgaLinks])).1 = ((run v m₀ ops).1.addFpgaLinks v) := by
    rw [run_cat]; rfl
  rw [hfr, addFpgaLinks_eq] at g2
  exact g2

/-- C95: the cables of a virtual machine of any version and size, with anything down. The chip at the
other end of an FPGA link is on the board where the cable leads; if it is there and its board has its
Ethernet chip, the same link is found at the other end of the cable. -/
theorem C95_virtual_machines (v : Version) (cfg : DownCfg) (w h : Int) (validate : Bool) (m : Machine)
    (hm : virtualMachine v cfg w h validate = .ok m) (e : Chip) (b : PyStr) (he : e ∈ m.chipList)
    (hb : e.ip = some b) (f i : Int) (d : FpgaLinkData) (hd : m.getFpgaLink f i (some b) none = .ok d)
    (c e' : Chip) (hq : m.xyOverLink d.x d.y d.link = .ok c.xy) (hc : c ∈ m.chipList) (he' : e' ∈ m.chipList)
    (hxy : e'.xy = (c.ethX, c.ethY)) :
    ∃ off f' i' d' b', cableTo f i = some (off, f', i') ∧ Same m.wrap w h e'.xy (e.x + off.1, e.y + off.2) ∧
      e'.ip = some b' ∧ m.getFpgaLink f' i' (some b') none = .ok d' ∧
      (d'.x, d'.y) = c.xy ∧ d'.link = Router.opposite d.link := by
  obtain ⟨hs, dn, -, hr, -, ⟨m₀, h₀, g0⟩, -⟩ := vm_ok hm
  have hp := C30_well_placed v cfg w h validate m hm
  obtain ⟨-, -, -, -, -, r⟩ := hr.rep
  obtain ⟨q1, -, -, -, q2, -⟩ := C34_board v cfg w h validate m hm c hc
  have hip' := (C30_addresses v cfg w h validate m hm).1 e' he' |>.1 (by rw [hxy]; exact q1)
  have hee : e ∈ m.ethernetChips := by rw [r.eths, List.mem_filter]; exact ⟨he, by rw [hb]; rfl⟩
  have hee' : e' ∈ m.ethernetChips := by rw [r.eths, List.mem_filter]; exact ⟨he', by rw [hip']; rfl⟩
  have hx : e'.x = c.ethX := congrArg Prod.fst hxy
  have hy : e'.y = c.ethY := congrArg Prod.snd hxy
  have hon : c.xy ∈ m.xysByEthernet e'.x e'.y := by
    rw [hx, hy]
    unfold Machine.existingXysOnBoard Machine.existingXysByEthernet at q2
    exact (List.mem_filter.1 q2).1
  obtain ⟨off, f', i', d', t1, t2, t3, t4⟩ := C95_other_end v w h "Virtual" m₀ h₀
    [.addChips (vmChips v w h dn), .addSpinnakerLinks] m g0 hp e' b _ hee' hip' f i d hd c.xy hq
    ((isChipAt_iff r c.xy).2 (List.mem_map_of_mem hc)) hon
  obtain ⟨off', s1, s2⟩ := (C95_cables v w h "Virtual" m₀ h₀ _ m g0 hp e e' b _ hee hb hee' hip' f i f' i' d d' hd t2).1
    ⟨by rw [hq, t3], t4⟩
  exact ⟨off', f', i', d', _, s1, s2, hip', t2, t3, t4⟩

/-- C95: a cable is the same seen from its other end, and every connector of the three FPGAs has one. -/
theorem C95_both_ways (f i : Int) : (∀ off f' i', cableTo f i = some (off, f', i') →
      cableTo f' i' = some ((-off.1, -off.2), f, i) ∧ f' ≠ f) ∧
    ((∃ c, cableTo f i = some c) ↔ 0 ≤ f ∧ f ≤ 2 ∧ 0 ≤ i ∧ i ≤ 15) := by
  constructor
  · intro off f' i' hc
    unfold cableTo at hc
    split at hc
    · split at hc
      · cases hc; rename_i h1 h2; subst h2
        unfold cableTo
        rw [if_neg (by omega), if_pos (by omega)]
        simp; omega
      · split at hc
        · cases hc; rename_i h1 h2; subst h2
          unfold cableTo
          rw [if_neg (by omega), if_pos (by omega)]
          simp; omega
        · split at hc
          · cases hc; rename_i h1 h2; subst h2
            unfold cableTo
            rw [if_neg (by omega), if_pos (by omega)]
            simp; omega
          · cases hc
    · split at hc
      · split at hc
        · cases hc; rename_i h1 h2; subst h2
          unfold cableTo
          rw [if_pos (by omega)]
          simp; omega
        · split at hc
          · cases hc; rename_i h1 h2; subst h2
            unfold cableTo
            rw [if_pos (by omega)]
            simp; omega
          · split at hc
            · cases hc; rename_i h1 h2; subst h2
              unfold cableTo
              rw [if_pos (by omega)]
              simp; omega
            · cases hc
      · cases hc
  · unfold cableTo
    split
    · split
      · simp; omega
      · split
        · simp; omega
        · split
          · simp; omega
          · simp; omega
    · split
      · split
        · simp; omega
        · split
          · simp; omega
          · split
            · simp; omega
            · simp; omega
      · simp; omega

/-- the hypotheses are met: on a machine of three boards, connector 8 of FPGA 2 of the board at (0, 0) is
the East link of (7, 7), connector 7 of FPGA 1 of the board at (8, 4) is the West link of (8, 7) -/
example : (match virtualMachine exV5 {} 12 12 true with
    | .ok m => decide (
        m.getFpgaLink 2 8 none (some (0, 0)) = .ok ⟨8, 2, 7, 7, 0, "127.0.0.0".toList⟩ ∧
        m.getFpgaLink 1 7 none (some (8, 4)) = .ok ⟨7, 1, 8, 7, 3, "127.0.8.4".toList⟩ ∧
        m.getFpgaLink 2 8 (some "127.0.0.0".toList) none = .ok ⟨8, 2, 7, 7, 0, "127.0.0.0".toList⟩ ∧
        m.getFpgaLink 1 7 (some "127.0.8.4".toList) none = .ok ⟨7, 1, 8, 7, 3, "127.0.8.4".toList⟩ ∧
        m.xyOverLink 7 7 0 = .ok (8, 7) ∧ (m.getChipAt 8 7).map (fun c => (c.ethX, c.ethY)) = some (8, 4)) &&
        m.isChipAt 0 0 && m.isChipAt 8 4
    | .error _ => false) = true ∧ cableTo 2 8 = some ((8, 4), 1, 7) := by decide +kernel

end SpiNN.Props
