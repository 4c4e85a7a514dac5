import Verif.Props.Machine

/-!
# C22, C23: exactly what the unreachable lists are, and where they are right on a machine that wraps
-/

namespace SpiNN.Props
open SpiNN SpiNN.Spec

/-- away from the edges over which the machine wraps -/
def Interior (wr : Wrap) (w h : Int) (p : XY) : Prop :=
  (wrapsX wr → 0 < p.1 ∧ p.1 < w - 1) ∧ (wrapsY wr → 0 < p.2 ∧ p.2 < h - 1)

theorem pmod_interior {w a d p : Int} (hd : -1 ≤ d ∧ d ≤ 1) (ha : 0 ≤ a ∧ a < w) (hp : 0 < p ∧ p < w - 1) :
    pmod (a + d) w = p ↔ a + d = p := by
  rw [pmod_eq_emod (by omega)]
  have h1 : a + d = -1 ∨ a + d = w ∨ (0 ≤ a + d ∧ a + d < w) := by omega
  rcases h1 with h | h | h
  · rw [h]
    have : (-1 : Int) % w = w - 1 := by
      rw [← Int.add_emod_right, Int.emod_eq_of_lt (by omega) (by omega)]; omega
    omega
  · rw [h, Int.emod_self]; omega
  · rw [Int.emod_eq_of_lt h.1 h.2]

theorem dir_small (d : Dir) : (-1 ≤ d.dx ∧ d.dx ≤ 1) ∧ (-1 ≤ d.dy ∧ d.dy ≤ 1) := by cases d <;> decide

/-- a step between chips ends in the interior exactly if it does so without a wrap -/
theorem red_to_interior (wr : Wrap) {w h : Int} {p q : XY} (d : Dir) (hq : InGrid w h q) (hp : Interior wr w h p) :
    wr.red w h (q.1 + d.dx, q.2 + d.dy) = p ↔ (q.1 + d.dx = p.1 ∧ q.2 + d.dy = p.2) := by
  obtain ⟨h1, h2⟩ := dir_small d
  obtain ⟨a, b⟩ := p
  obtain ⟨g1, g2, g3, g4⟩ := hq
  unfold Interior at hp
  cases wr <;> simp only [wrapsX, wrapsY, Wrap.red, Prod.mk.injEq] at hp ⊢
  · rw [pmod_interior h1 ⟨g1, g2⟩ (hp.1 (by simp))]
  · rw [pmod_interior h2 ⟨g3, g4⟩ (hp.2 (by simp))]
  · rw [pmod_interior h1 ⟨g1, g2⟩ (hp.1 (by simp)), pmod_interior h2 ⟨g3, g4⟩ (hp.2 (by simp))]

/-- a step from the interior to a chip does not wrap -/
theorem red_from_interior (wr : Wrap) {w h : Int} {p : XY} (d : Dir) (hg : InGrid w h p) (hp : Interior wr w h p) :
    wr.red w h (p.1 + d.dx, p.2 + d.dy) = (p.1 + d.dx, p.2 + d.dy) := by
  obtain ⟨h1, h2⟩ := dir_small d
  obtain ⟨g1, g2, g3, g4⟩ := hg
  apply Wrap.red_of_inRange
  exact ⟨fun hx => by have := hp.1 hx; simp only; omega, fun hy => by have := hp.2 hy; simp only; omega⟩

/-- C22: what `unreachable_incoming_chips` is on every machine. It lists the chips to which no chip at
one of the six plain displacements (without a wrap) has a working link. -/
theorem C22_incoming_exact (m : Machine) (p : XY) :
    p ∈ m.unreachableIncomingChips ↔ m.isChipAt p.1 p.2 = true ∧
      ∀ (d : Dir) (c : Chip), m.getChipAt (p.1 - d.dx) (p.2 - d.dy) = some c → ¬ HasLink c d.id :=
  mem_incoming m p

/-- C22: `unreachable_incoming_chips` is right on every machine, with wraps or without, for the chips that
are not on an edge over which the machine wraps. -/
theorem C22_incoming_interior (v : Version) (w h : Int) (m : Machine) (hr : Reachable v w h m)
    (hg : ∀ c ∈ m.chipList, InGrid w h c.xy) (p : XY) (hp : Interior m.wrap w h p) :
    p ∈ m.unreachableIncomingChips ↔ m.isChipAt p.1 p.2 = true ∧ ¬ Reached m p := by
  obtain ⟨hs, hwr, rfl, rfl, hcc, r⟩ := hr.rep
  have hpos := hs.pos
  rw [mem_incoming]
  refine and_congr_right fun _ => ?_
  have step : ∀ (q : XY) (c : Chip) (d : Dir), m.getChipAt q.1 q.2 = some c →
      (m.xyOverLink q.1 q.2 d.id = .ok p ↔ q = (p.1 - d.dx, p.2 - d.dy)) := by
    intro q c d hc
    obtain ⟨hm, hx, hy⟩ := mem_of_chip_at r hc
    have hq : InGrid m.width m.height q := by
      have := hg c hm
      simpa [Chip.xy, hx, hy] using this
    rw [xyOverLink_dir m hpos.1 hpos.2, Except.ok.injEq, red_to_interior _ d hq hp]
    obtain ⟨a, b⟩ := q
    simp only [Prod.mk.injEq]
    omega
  constructor
  · rintro hn ⟨q, c, d, hc, hl, hx⟩
    rw [step q c d hc] at hx
    subst hx
    exact hn d c hc hl
  · intro hn d c hc hl
    exact hn ⟨(p.1 - d.dx, p.2 - d.dy), c, d, hc, hl, (step _ c d hc).2 rfl⟩

/-- C23: what `unreachable_outgoing_local_chips` is on every machine: the chips none of whose working links
has, at its plain displacement (without a wrap), a chip of the same board. -/
theorem C23_outgoing_local_exact (m : Machine) (p : XY) :
    p ∈ m.unreachableOutgoingLocalChips ↔ ∃ c ∈ m.chipList, c.xy = p ∧
      ∀ (d : Dir) (n : Chip), HasLink c d.id → m.getChipAt (c.x + d.dx) (c.y + d.dy) = some n →
        ¬ (n.ethX = c.ethX ∧ n.ethY = c.ethY) :=
  mem_outgoing_local m p

/-- C23: what `unreachable_incoming_local_chips` is on every machine: the chips to which no chip of the same
board at one of the six plain displacements (without a wrap) has a working link. -/
theorem C23_incoming_local_exact (m : Machine) (p : XY) :
    p ∈ m.unreachableIncomingLocalChips ↔ ∃ c ∈ m.chipList, c.xy = p ∧
      ∀ (d : Dir) (n : Chip), m.getChipAt (c.x - d.dx) (c.y - d.dy) = some n → HasLink n d.id →
        ¬ (n.ethX = c.ethX ∧ n.ethY = c.ethY) :=
  mem_incoming_local m p

/-- C23: both lists are right on every machine, with wraps or without, for the chips that are not on an edge
over which the machine wraps. -/
theorem C23_local_interior (v : Version) (w h : Int) (m : Machine) (hr : Reachable v w h m)
    (hg : ∀ c ∈ m.chipList, InGrid w h c.xy) (c : Chip) (hc : c ∈ m.chipList) (hp : Interior m.wrap w h c.xy) :
    (c.xy ∈ m.unreachableOutgoingLocalChips ↔ ∀ n ∈ m.chipList, ¬ LocalLink m c n) ∧
    (c.xy ∈ m.unreachableIncomingLocalChips ↔ ∀ n ∈ m.chipList, ¬ LocalLink m n c) := by
  obtain ⟨hs, hwr, rfl, rfl, hcc, r⟩ := hr.rep
  have hpos := hs.pos
  have huniq : ∀ c' ∈ m.chipList, c'.xy = c.xy → c' = c := by
    intro c' hc' heq
    have h1 := chip_at_of_mem r hc
    have h2 := chip_at_of_mem r hc'
    simp only [Chip.xy, Prod.mk.injEq] at heq
    rw [heq.1, heq.2, h1] at h2
    exact (Option.some.inj h2).symm
  have hgc : InGrid m.width m.height c.xy := hg c hc
  have out : ∀ (d : Dir) (n : Chip), m.xyOverLink c.x c.y d.id = .ok n.xy ↔ (c.x + d.dx = n.x ∧ c.y + d.dy = n.y) := by
    intro d n
    rw [xyOverLink_dir' m hpos.1 hpos.2, Except.ok.injEq]
    have := red_from_interior m.wrap d hgc hp
    simp only [Chip.xy] at this ⊢
    rw [this, Prod.mk.injEq]
  have inc : ∀ n ∈ m.chipList, ∀ d : Dir, m.xyOverLink n.x n.y d.id = .ok c.xy ↔ (n.x + d.dx = c.x ∧ n.y + d.dy = c.y) := by
    intro n hn d
    rw [xyOverLink_dir' m hpos.1 hpos.2, Except.ok.injEq]
    exact red_to_interior m.wrap d (hg n hn) hp
  rw [mem_outgoing_local, mem_incoming_local]
  constructor
  · constructor
    · rintro ⟨c', hc', heq, hn⟩ n hn' ⟨d, h1, h2, h3, h4⟩
      obtain rfl := huniq c' hc' heq
      rw [out] at h2
      refine hn d n h1 ?_ ⟨h3.symm, h4.symm⟩
      rw [h2.1, h2.2]
      exact chip_at_of_mem r hn'
    · intro hn
      refine ⟨c, hc, rfl, fun d n h1 h2 h3 => ?_⟩
      obtain ⟨hm, hx, hy⟩ := mem_of_chip_at r h2
      exact hn n hm ⟨d, h1, (out d n).2 ⟨hx.symm, hy.symm⟩, h3.1.symm, h3.2.symm⟩
  · constructor
    · rintro ⟨c', hc', heq, hn⟩ n hn' ⟨d, h1, h2, h3, h4⟩
      obtain rfl := huniq c' hc' heq
      rw [inc n hn' d] at h2
      refine hn d n ?_ h1 ⟨h3, h4⟩
      rw [show c'.x - d.dx = n.x by omega, show c'.y - d.dy = n.y by omega]
      exact chip_at_of_mem r hn'
    · intro hn
      refine ⟨c, hc, rfl, fun d n h2 h1 h3 => ?_⟩
      obtain ⟨hm, hx, hy⟩ := mem_of_chip_at r h2
      exact hn n hm ⟨d, h1, (inc n hm d).2 ⟨by omega, by omega⟩, h3.1, h3.2⟩

/-- non-vacuity: a chip in the interior of a machine that wraps both ways, reached from a neighbour -/
example : ∃ m : Machine, Reachable exV5 12 12 m ∧ (∀ c ∈ m.chipList, InGrid 12 12 c.xy) ∧
    Interior m.wrap 12 12 (5, 5) ∧ m.isChipAt 5 5 = true ∧ (5, 5) ∉ m.unreachableIncomingChips ∧
    (4, 5) ∈ m.unreachableIncomingChips := by
  refine ⟨_, ⟨"t", [.addChip (exLinked 5 5 [] 4 8 none), .addChip (exLinked 4 5 [⟨4, 5, 0, 5, 5⟩] 8 4 none)],
    _, rfl, rfl⟩, ?_, ?_, ?_, ?_, ?_⟩
  · intro c hc
    have : ∀ c ∈ [exLinked 5 5 [] 4 8 none, exLinked 4 5 [⟨4, 5, 0, 5, 5⟩] 8 4 none],
      0 ≤ c.xy.1 ∧ c.xy.1 < 12 ∧ 0 ≤ c.xy.2 ∧ c.xy.2 < 12 := by decide +kernel
    exact this c hc
  · exact ⟨fun _ => by decide, fun _ => by decide⟩
  · decide +kernel
  · decide +kernel
  · decide +kernel

end SpiNN.Props
