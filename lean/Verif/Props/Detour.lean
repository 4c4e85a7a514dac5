import Verif.Props.Tolerance

/-! C110, on machines that do not wrap too: a link that is down can be passed by. -/

namespace SpiNN.Props
open SpiNN SpiNN.Spec

/-- the next direction, anticlockwise -/
def _root_.SpiNN.Spec.Dir.lt : Dir → Dir
  | .E => .NE | .NE => .N | .N => .W | .W => .SW | .SW => .S | .S => .E

/-- the next direction, clockwise -/
def _root_.SpiNN.Spec.Dir.rt : Dir → Dir
  | .E => .S | .S => .SW | .SW => .W | .W => .N | .N => .NE | .NE => .E

theorem lt_rt (d : Dir) : (Dir.lt d).dx + (Dir.rt d).dx = d.dx ∧ (Dir.lt d).dy + (Dir.rt d).dy = d.dy ∧
    (Dir.lt d).id ≠ d.id ∧ (Dir.rt d).id ≠ d.id ∧ (Dir.lt d).id ≠ (Dir.opp d).id ∧ (Dir.rt d).id ≠ (Dir.opp d).id := by
  cases d <;> decide

theorem axis_other (d d' a : Dir) (ha : a = Dir.lt d' ∨ a = Dir.rt d') (g1 : d'.id = d.id ∨ d'.id = Router.opposite d.id)
    (g2 : a.id = d.id ∨ a.id = Router.opposite d.id) : False := by
  revert g1 g2
  rcases ha with rfl | rfl <;> cases d <;> cases d' <;> decide

/-- two positions one step apart on boards of one lattice: a third next to both is on one of the two boards -/
theorem third {l l' : XY} (ho : OnBoard48 l) (ho' : OnBoard48 l') (d : Dir) {i j : Int}
    (hlat : (l.1 + d.dx - l'.1 = 12 * i ∧ l.2 + d.dy - l'.2 = 12 * j) ∨
      (l.1 + d.dx - l'.1 = 12 * i + 4 ∧ l.2 + d.dy - l'.2 = 12 * j + 8) ∨
      (l.1 + d.dx - l'.1 = 12 * i + 8 ∧ l.2 + d.dy - l'.2 = 12 * j + 4)) :
    OnBoard48 (l.1 + (Dir.lt d).dx, l.2 + (Dir.lt d).dy) ∨ OnBoard48 (l.1 + (Dir.rt d).dx, l.2 + (Dir.rt d).dy) ∨
    OnBoard48 (l'.1 - (Dir.lt d).dx, l'.2 - (Dir.lt d).dy) ∨ OnBoard48 (l'.1 - (Dir.rt d).dx, l'.2 - (Dir.rt d).dy) := by
  obtain ⟨x, y⟩ := l
  obtain ⟨x', y'⟩ := l'
  unfold OnBoard48 at ho ho' ⊢
  have hi : -1 ≤ i ∧ i ≤ 0 := by cases d <;> simp only [Dir.dx, Dir.dy] at * <;> omega
  have hj : -1 ≤ j ∧ j ≤ 0 := by cases d <;> simp only [Dir.dx, Dir.dy] at * <;> omega
  have hi' : i = -1 ∨ i = 0 := by omega
  have hj' : j = -1 ∨ j = 0 := by omega
  rcases hi' with rfl | rfl <;> rcases hj' with rfl | rfl <;> cases d <;>
    simp only [Dir.dx, Dir.dy, Dir.lt, Dir.rt] at * <;> omega

section
variable {v : Version} {cfg : DownCfg} {w h : Int} {validate : Bool} {m : Machine}

theorem wraps_dvd (hk : v.kind = .v5 ∨ v.kind = .v248) (hm : virtualMachine v cfg w h validate = .ok m) :
    (wrapsX m.wrap → 12 ∣ w) ∧ (wrapsY m.wrap → 12 ∣ h) := by
  have := wrapFor_spec v.kind w h
  rw [← (vm_facts hm).2.2.1] at this
  have h2 : (wrapsX m.wrap ↔ 12 ∣ w) ∧ (wrapsY m.wrap ↔ 12 ∣ h) := by
    rcases hk with h | h <;> rw [h] at this <;> exact this
  exact ⟨h2.1.1, h2.2.1⟩

theorem board_chip (hk : v.kind = .v5 ∨ v.kind = .v248) (hm : virtualMachine v cfg w h validate = .ok m)
    (hc : ∀ p, ¬ ChipDown cfg p) : ∀ e ∈ v.kind.potentialEthernetChips w h, ∀ l, OnBoard48 l →
      m.isChipAt (place m.wrap w h e l).1 (place m.wrap w h e l).2 = true := by
  intro e he l ho
  have hpos := (vm_facts hm).1.pos
  rw [C30_chips v cfg w h validate m hm]
  refine ⟨hc _, e, he, ?_⟩
  rw [← mem_xysByEthernet_iff_boardAt _ _ hpos.1 hpos.2, mem_xysByEthernet]
  refine ⟨l, ?_, rfl⟩
  rcases hk with h | h <;> rw [h] <;> exact ho

/-- each chip has a place on a board -/
theorem chip_board (hk : v.kind = .v5 ∨ v.kind = .v248) (hm : virtualMachine v cfg w h validate = .ok m) {p : XY}
    (hp : m.isChipAt p.1 p.2 = true) : ∃ e ∈ v.kind.potentialEthernetChips w h, ∃ l, OnBoard48 l ∧
      p = place m.wrap w h e l ∧ EthLattice e := by
  have hs := (vm_facts hm).1
  have hpos := hs.pos
  rw [C30_chips v cfg w h validate m hm] at hp
  obtain ⟨-, e, he, hb⟩ := hp
  rw [← mem_xysByEthernet_iff_boardAt _ _ hpos.1 hpos.2, mem_xysByEthernet] at hb
  obtain ⟨l, ho, rfl⟩ := hb
  refine ⟨e, he, l, ?_, rfl, ?_⟩
  · rcases hk with h | h <;> rw [h] at ho <;> exact ho
  · have hs' : (w = 8 ∧ h = 8) ∨ (8 < w ∧ 8 < h ∧ 4 ∣ w ∧ 4 ∣ h) := by
      rcases hk with h | h <;> rw [h] at hs <;> exact hs
    have : e ∈ VKind.v5.potentialEthernetChips w h := by rcases hk with h | h <;> rw [h] at he <;> exact he
    exact ((mem_potential48' hs' e).1 this).1

/-- the boards are placed on one lattice -/
theorem boards_lattice (hk : v.kind = .v5 ∨ v.kind = .v248) (hm : virtualMachine v cfg w h validate = .ok m)
    {e e' l l' : XY} (hle : EthLattice e) (hle' : EthLattice e') (d : Dir)
    (hx' : m.wrap.red w h (l.1 + e.1 + d.dx, l.2 + e.2 + d.dy) = m.wrap.red w h (l'.1 + e'.1, l'.2 + e'.2)) :
    ∃ i j : Int, (l.1 + d.dx - l'.1 = 12 * i ∧ l.2 + d.dy - l'.2 = 12 * j) ∨
      (l.1 + d.dx - l'.1 = 12 * i + 4 ∧ l.2 + d.dy - l'.2 = 12 * j + 8) ∨
      (l.1 + d.dx - l'.1 = 12 * i + 8 ∧ l.2 + d.dy - l'.2 = 12 * j + 4) := by
  have hpos := (vm_facts hm).1.pos
  have hdvd := wraps_dvd hk hm
  have s1 := Wrap.red_same m.wrap hpos.1 hpos.2 (l.1 + e.1 + d.dx, l.2 + e.2 + d.dy)
  have s2 := Wrap.red_same m.wrap hpos.1 hpos.2 (l'.1 + e'.1, l'.2 + e'.2)
  rw [hx'] at s1
  have a1 : ∃ k : Int, (l.1 + e.1 + d.dx) - (l'.1 + e'.1) = 12 * k := by
    have u1 := s1.1
    have u2 := s2.1
    by_cases hw : wrapsX m.wrap
    · rw [if_pos hw] at u1 u2
      obtain ⟨c, hc⟩ := hdvd.1 hw
      obtain ⟨k1, h1⟩ := u1
      obtain ⟨k2, h2⟩ := u2
      refine ⟨(k1 - k2) * c, ?_⟩
      have e3 : (k1 - k2) * w = 12 * ((k1 - k2) * c) := by rw [hc]; rw [Int.mul_left_comm]
      rw [Int.sub_mul] at e3
      simp only at h1 h2
      omega
    · rw [if_neg hw] at u1 u2
      simp only at u1 u2
      exact ⟨0, by omega⟩
  have a2 : ∃ k : Int, (l.2 + e.2 + d.dy) - (l'.2 + e'.2) = 12 * k := by
    have u1 := s1.2
    have u2 := s2.2
    by_cases hw : wrapsY m.wrap
    · rw [if_pos hw] at u1 u2
      obtain ⟨c, hc⟩ := hdvd.2 hw
      obtain ⟨k1, h1⟩ := u1
      obtain ⟨k2, h2⟩ := u2
      refine ⟨(k1 - k2) * c, ?_⟩
      have e3 : (k1 - k2) * h = 12 * ((k1 - k2) * c) := by rw [hc]; rw [Int.mul_left_comm]
      rw [Int.sub_mul] at e3
      simp only at h1 h2
      omega
    · rw [if_neg hw] at u1 u2
      simp only at u1 u2
      exact ⟨0, by omega⟩
  obtain ⟨k1, h1⟩ := a1
  obtain ⟨k2, h2⟩ := a2
  obtain ⟨i, j, hij⟩ := hle
  obtain ⟨i', j', hij'⟩ := hle'
  refine ⟨(l.1 + d.dx - l'.1) / 12, (l.2 + d.dy - l'.2) / 12, ?_⟩
  rcases hij with rfl | rfl | rfl <;> rcases hij' with rfl | rfl | rfl <;> simp only at h1 h2 <;> omega

/-- two chips joined by a link are also joined by two others, of a third chip next to both -/
theorem detour (hk : v.kind = .v5 ∨ v.kind = .v248) (hm : virtualMachine v cfg w h validate = .ok m)
    (hc : ∀ p, ¬ ChipDown cfg p) (d : Dir) {p q : XY} (hp : m.isChipAt p.1 p.2 = true)
    (hq : m.isChipAt q.1 q.2 = true) (hx : m.xyOverLink p.1 p.2 d.id = .ok q) :
    ∃ r : XY, m.isChipAt r.1 r.2 = true ∧
      ((m.xyOverLink p.1 p.2 (Dir.lt d).id = .ok r ∧ m.xyOverLink r.1 r.2 (Dir.rt d).id = .ok q) ∨
        (m.xyOverLink p.1 p.2 (Dir.rt d).id = .ok r ∧ m.xyOverLink r.1 r.2 (Dir.lt d).id = .ok q)) := by
  obtain ⟨hs, -, -, hmw, hmh, -⟩ := vm_facts hm
  have hpos := hs.pos
  have hdvd := wraps_dvd hk hm
  have hb := fun p => chip_board hk hm (p := p)
  have hchip := board_chip hk hm hc
  have hover : ∀ (p : XY) (d : Dir), m.xyOverLink p.1 p.2 d.id = .ok (m.wrap.red w h (p.1 + d.dx, p.2 + d.dy)) := by
    intro p d
    rw [xyOverLink_dir' m (by omega) (by omega), hmw, hmh]
  obtain ⟨e, he, l, ho, hpe, hle⟩ := hb p hp
  obtain ⟨e', he', l', ho', hqe, hle'⟩ := hb q hq
  obtain ⟨t1, t2, -⟩ := lt_rt d
  -- the sum of the two steps is the step
  have hsum : ∀ a b : Dir, a.dx + b.dx = d.dx → a.dy + b.dy = d.dy → ∀ r, m.xyOverLink p.1 p.2 a.id = .ok r →
      m.xyOverLink r.1 r.2 b.id = .ok q := by
    intro a b h1 h2 r hr
    rw [hover, Except.ok.injEq] at hr hx
    rw [hover, ← hr, Wrap.red_red_add _ hpos.1 hpos.2, ← hx, ← h1, ← h2, Int.add_assoc, Int.add_assoc]
  -- the first step ends on the board of `p`, or on that of `q`
  have hfst : ∀ a : Dir, OnBoard48 (l.1 + a.dx, l.2 + a.dy) →
      ∃ r : XY, m.isChipAt r.1 r.2 = true ∧ m.xyOverLink p.1 p.2 a.id = .ok r := by
    intro a ha
    refine ⟨_, hchip e he _ ha, ?_⟩
    rw [hover, hpe]
    unfold place
    rw [Wrap.red_red_add _ hpos.1 hpos.2]
    congr 2
    exact Prod.ext (by simp only; omega) (by simp only; omega)
  have hsnd : ∀ a b : Dir, a.dx + b.dx = d.dx → a.dy + b.dy = d.dy → OnBoard48 (l'.1 - b.dx, l'.2 - b.dy) →
      ∃ r : XY, m.isChipAt r.1 r.2 = true ∧ m.xyOverLink p.1 p.2 a.id = .ok r := by
    intro a b h1 h2 hb
    refine ⟨_, hchip e' he' _ hb, ?_⟩
    have hx' := hx
    rw [hover, Except.ok.injEq] at hx' ⊢
    have e1 : m.wrap.red w h (p.1 + a.dx, p.2 + a.dy) = m.wrap.red w h (q.1 + -b.dx, q.2 + -b.dy) := by
      rw [← hx', Wrap.red_red_add _ hpos.1 hpos.2]
      congr 1
      exact Prod.ext (by simp only; omega) (by simp only; omega)
    rw [e1, hqe]
    unfold place
    rw [Wrap.red_red_add _ hpos.1 hpos.2]
    congr 1
    exact Prod.ext (by simp only; omega) (by simp only; omega)
  -- the two boards are of one lattice
  have hx' := hx
  rw [hover, Except.ok.injEq, hpe, hqe] at hx'
  unfold place at hx'
  rw [Wrap.red_red_add _ hpos.1 hpos.2] at hx'
  obtain ⟨i, j, hlat⟩ := boards_lattice hk hm hle hle' d hx'
  rcases third ho ho' d hlat with h1 | h1 | h1 | h1
  · obtain ⟨r, hr, hx1⟩ := hfst _ h1
    exact ⟨r, hr, .inl ⟨hx1, hsum _ _ t1 t2 _ hx1⟩⟩
  · obtain ⟨r, hr, hx1⟩ := hfst _ h1
    exact ⟨r, hr, .inr ⟨hx1, hsum _ _ (by omega) (by omega) _ hx1⟩⟩
  · obtain ⟨r, hr, hx1⟩ := hsnd (Dir.rt d) (Dir.lt d) (by omega) (by omega) h1
    exact ⟨r, hr, .inr ⟨hx1, hsum _ _ (by omega) (by omega) _ hx1⟩⟩
  · obtain ⟨r, hr, hx1⟩ := hsnd (Dir.lt d) (Dir.rt d) t1 t2 h1
    exact ⟨r, hr, .inl ⟨hx1, hsum _ _ t1 t2 _ hx1⟩⟩

/-- each route of the machine with no links down has one of at most twice the length -/
private theorem axis_routes (v : Version) (hk : v.kind = .v5 ∨ v.kind = .v248) (cfg : DownCfg) (w h : Int)
    (validate : Bool) (m : Machine) (hm : virtualMachine v cfg w h validate = .ok m) (d : Dir)
    (hc : ∀ p, ¬ ChipDown cfg p)
    (hl : ∀ p i, m.isChipAt p.1 p.2 = true → LinkDown cfg p i → i = d.id ∨ i = Router.opposite d.id)
    (p q : XY) (hp : m.isChipAt p.1 p.2 = true) (hq : m.isChipAt q.1 q.2 = true) :
    ∃ m0, virtualMachine v { cfg with links := none } w h false = .ok m0 ∧ m0.wrap = m.wrap ∧
      (∀ p i, ¬ LinkDown { cfg with links := none } p i) ∧
      m0.isChipAt p.1 p.2 = true ∧ m0.isChipAt q.1 q.2 = true ∧
      ∀ path0, Route m0 p path0 q → ∃ path, Route m p path q ∧ path.length ≤ 2 * path0.length := by
  obtain ⟨hs, -, hwr, hmw, hmh, -⟩ := vm_facts hm
  -- the same machine with no links down
  have hr0 : Readable v.kind { cfg with links := none } := by
    have hr : Readable v.kind cfg := Classical.byContradiction fun hn => by
      obtain ⟨e, he⟩ := (C30_succeeds v cfg w h).2.2 hn validate
      rw [hm] at he
      exact absurd he (by simp)
    exact ⟨hr.1, ⟨[], rfl⟩, hr.2.2⟩
  obtain ⟨m0, hm0⟩ := (C30_succeeds v { cfg with links := none } w h).1 hs hr0
  have hl0 : ∀ p i, ¬ LinkDown { cfg with links := none } p i := by
    rintro p i ⟨l, hl, c, hc, -⟩
    cases hl
    simp at hc
  obtain ⟨-, -, hwr0, hmw0, hmh0, -, r0, -⟩ := vm_facts hm0
  have hchip : ∀ p : XY, m0.isChipAt p.1 p.2 = true ↔ m.isChipAt p.1 p.2 = true := by
    intro p
    rw [C30_chips v cfg w h validate m hm, C30_chips v _ w h false m0 hm0, hwr, hwr0]
    exact Iff.rfl
  have hover : ∀ (x y : Int) (d : Dir), m0.xyOverLink x y d.id = m.xyOverLink x y d.id := by
    intro x y d
    have hpos := hs.pos
    rw [xyOverLink_dir' m (by omega) (by omega), xyOverLink_dir' m0 (by omega) (by omega), hwr, hwr0, hmw, hmw0, hmh,
      hmh0]
  have hun : ∀ p d, ¬ Unwired v.kind p d := by
    intro p d hu
    unfold Unwired at hu
    rcases hk with hk | hk <;> rw [hk] at hu <;> simp at hu
  refine ⟨m0, hm0, by rw [hwr, hwr0], hl0, (hchip p).2 hp, (hchip q).2 hq, fun path0 hroute => ?_⟩
  clear hq
  induction hroute with
  | stay p _ => exact ⟨[], .stay p hp, by simp⟩
  | go p c i l is q hcp hli hr ih =>
    obtain ⟨hcm, hcx, hcy⟩ := mem_of_chip_at r0 hcp
    have hhas : HasLink c i := (hasLink_iff c i).2 ⟨l, hli⟩
    obtain ⟨d', rfl, -, -, q', hq', hqc⟩ := (C31_links v _ w h false m0 hm0 c hcm i).1 hhas
    obtain ⟨-, -, -, h4⟩ := C31_destinations v _ w h false m0 hm0 c hcm _ l hli
    rw [hq', Except.ok.injEq] at h4
    subst h4
    rw [hcx, hcy, hover] at hq'
    have hqm := (hchip _).1 hqc
    obtain ⟨path, hpath, hlen⟩ := ih hqm
    by_cases hd : LinkDown cfg p d'.id
    · -- round the link
      obtain ⟨r, hr, hx⟩ := detour hk hm hc d' hp hqm hq'
      have hax : ∀ a : Dir, a = Dir.lt d' ∨ a = Dir.rt d' → ∀ p : XY, m.isChipAt p.1 p.2 = true → ¬ LinkDown cfg p a.id := by
        intro a ha p' hp' hdn
        have g1 := hl _ _ hp hd
        have g2 := hl _ _ hp' hdn
        exact axis_other d d' a ha g1 g2
      rcases hx with ⟨hx1, hx2⟩ | ⟨hx1, hx2⟩
      · exact ⟨_, Route.append (Route.append (vm_step hm _ hp hr (hax _ (.inl rfl) p hp) (hun _ _) hx1)
          (vm_step hm _ hr hqm (hax _ (.inr rfl) r hr) (hun _ _) hx2)) hpath,
          by simp only [List.length_append, List.length_cons, List.length_nil]; omega⟩
      · exact ⟨_, Route.append (Route.append (vm_step hm _ hp hr (hax _ (.inr rfl) p hp) (hun _ _) hx1)
          (vm_step hm _ hr hqm (hax _ (.inl rfl) r hr) (hun _ _) hx2)) hpath,
          by simp only [List.length_append, List.length_cons, List.length_nil]; omega⟩
    · exact ⟨_, Route.append (vm_step hm d' hp hqm hd (hun _ _) hq') hpath,
          by simp only [List.length_append, List.length_cons, List.length_nil]; omega⟩

/-- C110: on every machine of 48 chip boards without down chips, if all the links down are along one of the three
directions of the mesh, however many, all chips still reach one another. -/
theorem C110_one_axis (v : Version) (hk : v.kind = .v5 ∨ v.kind = .v248) (cfg : DownCfg) (w h : Int)
    (validate : Bool) (m : Machine) (hm : virtualMachine v cfg w h validate = .ok m) (d : Dir)
    (hc : ∀ p, ¬ ChipDown cfg p)
    (hl : ∀ p i, m.isChipAt p.1 p.2 = true → LinkDown cfg p i → i = d.id ∨ i = Router.opposite d.id)
    (p q : XY) (hp : m.isChipAt p.1 p.2 = true) (hq : m.isChipAt q.1 q.2 = true) : ∃ path, Route m p path q := by
  obtain ⟨m0, hm0, -, hl0, hp0, hq0, hr⟩ := axis_routes v hk cfg w h validate m hm d hc hl p q hp hq
  obtain ⟨path0, h0⟩ := C76_connected v _ w h false m0 hm0 hc hl0 p q hp0 hq0
  obtain ⟨path, h1, -⟩ := hr path0 h0
  exact ⟨path, h1⟩

/-- C110: on a machine that wraps in both directions such faults make no distance more than twice as long. -/
theorem C110_twice_as_long (v : Version) (hk : v.kind = .v5 ∨ v.kind = .v248) (cfg : DownCfg) (w h : Int)
    (validate : Bool) (m : Machine) (hm : virtualMachine v cfg w h validate = .ok m) (hw12 : 12 ∣ w) (hh12 : 12 ∣ h)
    (d : Dir) (hc : ∀ p, ¬ ChipDown cfg p)
    (hl : ∀ p i, m.isChipAt p.1 p.2 = true → LinkDown cfg p i → i = d.id ∨ i = Router.opposite d.id)
    (p q : XY) (hp : m.isChipAt p.1 p.2 = true) (hq : m.isChipAt q.1 q.2 = true) :
    ∃ path, Route m p path q ∧ (path.length : Int) ≤ 2 * m.wrap.vectorLength w h p q := by
  obtain ⟨m0, hm0, hwr, hl0, hp0, hq0, hr⟩ := axis_routes v hk cfg w h validate m hm d hc hl p q hp hq
  obtain ⟨path0, h0, hlen⟩ := C76_torus_shortest v _ w h false m0 hk hm0 hc hl0 hw12 hh12 p q hp0 hq0
  obtain ⟨path, h1, h2⟩ := hr path0 h0
  refine ⟨path, h1, ?_⟩
  rw [hwr] at hlen
  omega

/-- C110: if the only fault is a link, in one direction or both, all chips still reach one another. -/
theorem C110_one_link (v : Version) (hk : v.kind = .v5 ∨ v.kind = .v248) (cfg : DownCfg) (w h : Int)
    (validate : Bool) (m : Machine) (hm : virtualMachine v cfg w h validate = .ok m) (f : XY) (d : Dir)
    (hc : ∀ p, ¬ ChipDown cfg p)
    (hl : ∀ p i, m.isChipAt p.1 p.2 = true → LinkDown cfg p i → p = f ∧ i = d.id ∨
      i = Router.opposite d.id ∧ m.xyOverLink p.1 p.2 i = .ok f)
    (p q : XY) (hp : m.isChipAt p.1 p.2 = true) (hq : m.isChipAt q.1 q.2 = true) : ∃ path, Route m p path q :=
  C110_one_axis v hk cfg w h validate m hm d hc
    (fun p i h1 h2 => (hl p i h1 h2).imp And.right And.left) p q hp hq

/-- the case of one link: the link around the edge of a machine of six boards down in both directions -/
example : ∃ m, virtualMachine exV5 { links := some "23,5,0:0,5,3".toList } 24 12 false = .ok m ∧
    m.isChipAt 23 5 = true ∧ m.isChipAt 0 5 = true ∧ ∃ path, Route m (23, 5) path (0, 5) := by
  have hk : exV5.kind = .v5 ∨ exV5.kind = .v248 := .inl rfl
  have h1 : IgnoreLink.parseString (some "23,5,0:0,5,3".toList) = .ok [⟨23, 5, 0, none⟩, ⟨0, 5, 3, none⟩] := by
    decide +kernel
  have hr : Readable exV5.kind { links := some "23,5,0:0,5,3".toList } := ⟨⟨[], rfl⟩, ⟨_, h1⟩, [], rfl, by simp⟩
  obtain ⟨m, hm⟩ := (C30_succeeds exV5 { links := some "23,5,0:0,5,3".toList } 24 12).1 (by decide) hr
  have hc : ∀ p, ¬ ChipDown { links := some "23,5,0:0,5,3".toList } p := by
    rintro p ⟨l, hl, c, hc, -⟩
    cases hl
    simp at hc
  have hw : (12 : Int) ∣ 24 := by decide
  have hh : (12 : Int) ∣ 12 := by decide
  have c1 := torus_chip hk hm hw hh (p := (23, 5)) ⟨by decide, by decide, by decide, by decide⟩ (hc _)
  have c2 := torus_chip hk hm hw hh (p := (0, 5)) ⟨by decide, by decide, by decide, by decide⟩ (hc _)
  refine ⟨m, hm, c1, c2, C110_one_link exV5 hk _ 24 12 false m hm (23, 5) .E hc ?_ _ _ c1 c2⟩
  rintro p i - ⟨l, hl, c, hc, e1, e2, e3, -⟩
  rw [h1, Except.ok.injEq] at hl
  subst hl
  rw [List.mem_cons, List.mem_singleton] at hc
  rcases hc with rfl | rfl
  · exact .inl ⟨Prod.ext e1.symm e2.symm, e3.symm⟩
  · refine .inr ⟨e3.symm, ?_⟩
    rw [← e1, ← e2, ← e3]
    obtain ⟨-, -, -, hmw, hmh, -⟩ := vm_facts hm
    have := xyOverLink_dir' m (by omega) (by omega) 0 5 .W
    rw [full_wrap hk hm hw hh, hmw, hmh] at this
    exact this

/-- the case of many links: on the single board four links to the east or west down, three of them of one chip and
its neighbours -/
example : ∃ m, virtualMachine exV5 { links := some "3,3,0:3,3,3:4,3,3:0,0,0".toList } 8 8 false = .ok m ∧
    m.isChipAt 0 0 = true ∧ m.isChipAt 7 7 = true ∧ ∃ path, Route m (0, 0) path (7, 7) := by
  have hk : exV5.kind = .v5 ∨ exV5.kind = .v248 := .inl rfl
  have h1 : IgnoreLink.parseString (some "3,3,0:3,3,3:4,3,3:0,0,0".toList) =
      .ok [⟨3, 3, 0, none⟩, ⟨3, 3, 3, none⟩, ⟨4, 3, 3, none⟩, ⟨0, 0, 0, none⟩] := by decide +kernel
  have hr : Readable exV5.kind { links := some "3,3,0:3,3,3:4,3,3:0,0,0".toList } :=
    ⟨⟨[], rfl⟩, ⟨_, h1⟩, [], rfl, by simp⟩
  obtain ⟨m, hm⟩ := (C30_succeeds exV5 { links := some "3,3,0:3,3,3:4,3,3:0,0,0".toList } 8 8).1 (by decide) hr
  have hc : ∀ p, ¬ ChipDown { links := some "3,3,0:3,3,3:4,3,3:0,0,0".toList } p := by
    rintro p ⟨l, hl, c, hc, -⟩
    cases hl
    simp at hc
  have hwr : m.wrap = .none := (vm_facts hm).2.2.1
  have c1 := board_chip hk hm hc (0, 0) (by decide +kernel) (0, 0) (by decide)
  have c2 := board_chip hk hm hc (0, 0) (by decide +kernel) (7, 7) (by decide)
  rw [hwr] at c1 c2
  refine ⟨m, hm, c1, c2, C110_one_axis exV5 hk _ 8 8 false m hm .E hc ?_ _ _ c1 c2⟩
  rintro p i - ⟨l, hl, c, hc, -, -, e3, -⟩
  rw [h1, Except.ok.injEq] at hl
  subst hl
  simp only [List.mem_cons, List.not_mem_nil, or_false] at hc
  rcases hc with rfl | rfl | rfl | rfl
  · exact .inl e3.symm
  · exact .inr e3.symm
  · exact .inr e3.symm
  · exact .inl e3.symm
end

end SpiNN.Props
