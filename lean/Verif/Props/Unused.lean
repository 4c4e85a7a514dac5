import Verif.Props.Machine

namespace SpiNN.Props
open SpiNN SpiNN.Spec

/-! ## C25 -/

/-- the coordinate holds a chip or is on the board of an Ethernet chip of the machine -/
def Used (m : Machine) (p : XY) : Prop :=
  m.isChipAt p.1 p.2 = true ∨ ∃ e ∈ m.ethernetChips, p ∈ m.xysByEthernet e.x e.y

/-- column order: `p` comes before `q` -/
def Before (p q : XY) : Prop := p.1 < q.1 ∨ (p.1 = q.1 ∧ p.2 < q.2)

/-- the first unused coordinate of the columns 0, 1, 2, ... with rows 0 .. height-1 -/
def FirstUnused (m : Machine) (p : XY) : Prop :=
  0 ≤ p.1 ∧ 0 ≤ p.2 ∧ p.2 < m.height ∧ ¬ Used m p ∧
    ∀ q : XY, 0 ≤ q.1 → 0 ≤ q.2 → q.2 < m.height → Before q p → Used m q

theorem used_iff (m : Machine) (p : XY) :
    (!m.chips.contains p && !m.ethernetXys.contains p) = false ↔ Used m p := by
  unfold Used Machine.ethernetXys Machine.isChipAt
  rw [Bool.and_eq_false_iff, Bool.not_eq_false', Bool.not_eq_false']
  simp

theorem pyRange_pairwise (n : Int) : (pyRange n).Pairwise (· < ·) := by
  unfold pyRange
  rw [List.pairwise_map]
  refine List.Pairwise.imp ?_ (List.pairwise_lt_range (n := n.toNat))
  intro a b h; omega

theorem unusedFrom_spec (m : Machine) (hh : 0 < m.height) (bound : Int)
    (hb : ∀ q, Used m q → q.1 < bound) (n : Nat) (x : Int) (hx : bound - x ≤ n) (hx0 : 0 ≤ x)
    (hprev : ∀ q : XY, 0 ≤ q.1 → 0 ≤ q.2 → q.2 < m.height → q.1 < x → Used m q) :
    ∃ p, m.unusedFrom m.ethernetXys x = some p ∧ FirstUnused m p := by
  induction n generalizing x with
  | zero =>
    rw [Machine.unusedFrom]
    split
    · rename_i y hy
      refine ⟨_, rfl, hx0, ?_⟩
      rw [List.find?_eq_some_iff_append] at hy
      obtain ⟨h1, as, bs, h2, h3⟩ := hy
      have hmem : y ∈ pyRange m.height := by rw [h2]; simp
      rw [mem_pyRange] at hmem
      refine ⟨hmem.1, hmem.2, fun hu => ?_, ?_⟩
      · rw [← used_iff, h1] at hu; simp at hu
      · rintro ⟨a, b⟩ ha hb0 hb1 (hlt | ⟨rfl, hlt⟩)
        · exact hprev _ ha hb0 hb1 hlt
        · rw [← used_iff]
          have : b ∈ pyRange m.height := (mem_pyRange _ _).2 ⟨hb0, hb1⟩
          rw [h2, List.mem_append, List.mem_cons] at this
          rcases this with hin | rfl | hin
          · have h4 := h3 b hin; rw [Bool.not_eq_true'] at h4; exact h4
          · simp at hlt
          · have hp := pyRange_pairwise m.height
            rw [h2, List.pairwise_append, List.pairwise_cons] at hp
            have := hp.2.1.1 b hin
            simp only at hlt; omega
    · rename_i hnone
      rw [List.find?_eq_none] at hnone
      have := hnone 0 ((mem_pyRange _ _).2 ⟨by omega, hh⟩)
      rw [Bool.not_eq_true, used_iff] at this
      have := hb _ this
      simp only at this; omega
  | succ n ih =>
    rw [Machine.unusedFrom]
    split
    · rename_i y hy
      refine ⟨_, rfl, hx0, ?_⟩
      rw [List.find?_eq_some_iff_append] at hy
      obtain ⟨h1, as, bs, h2, h3⟩ := hy
      have hmem : y ∈ pyRange m.height := by rw [h2]; simp
      rw [mem_pyRange] at hmem
      refine ⟨hmem.1, hmem.2, fun hu => ?_, ?_⟩
      · rw [← used_iff, h1] at hu; simp at hu
      · rintro ⟨a, b⟩ ha hb0 hb1 (hlt | ⟨rfl, hlt⟩)
        · exact hprev _ ha hb0 hb1 hlt
        · rw [← used_iff]
          have : b ∈ pyRange m.height := (mem_pyRange _ _).2 ⟨hb0, hb1⟩
          rw [h2, List.mem_append, List.mem_cons] at this
          rcases this with hin | rfl | hin
          · have h4 := h3 b hin; rw [Bool.not_eq_true'] at h4; exact h4
          · simp at hlt
          · have hp := pyRange_pairwise m.height
            rw [h2, List.pairwise_append, List.pairwise_cons] at hp
            have := hp.2.1.1 b hin
            simp only at hlt; omega
    · rename_i hnone
      rw [List.find?_eq_none] at hnone
      refine ih (x + 1) (by omega) (by omega) ?_
      rintro ⟨a, b⟩ ha hb0 hb1 hlt
      simp only at ha hb0 hb1 hlt
      rcases Int.lt_or_le a x with h | h
      · exact hprev (a, b) ha hb0 hb1 h
      · have hax : a = x := by omega
        subst hax
        have := hnone b ((mem_pyRange _ _).2 ⟨hb0, hb1⟩)
        rwa [Bool.not_eq_true, used_iff] at this

theorem used_bounded (m : Machine) : ∃ bound : Int, ∀ q, Used m q → q.1 < bound := by
  have key : ∀ l : List XY, ∃ bound : Int, ∀ q ∈ l, q.1 < bound := by
    intro l
    induction l with
    | nil => exact ⟨0, by simp⟩
    | cons a t ih =>
      obtain ⟨b, hb⟩ := ih
      refine ⟨max b (a.1 + 1), fun q hq => ?_⟩
      rcases List.mem_cons.1 hq with rfl | hq
      · omega
      · have := hb q hq; omega
  obtain ⟨b, hb⟩ := key (m.chips.keys ++ m.ethernetXys)
  refine ⟨b, fun q hq => hb q ?_⟩
  rw [List.mem_append]
  rcases hq with h | ⟨e, he, hp⟩
  · exact .inl ((PDict.contains_iff _ _).1 h)
  · exact .inr (List.mem_flatMap.2 ⟨e, he, hp⟩)

/-- C25: with a positive height `get_unused_xy` returns, and returns the first unused
coordinate. -/
theorem C25_returns_first_unused (m : Machine) (hh : 0 < m.height) :
    ∃ p, m.getUnusedXY = some p ∧ FirstUnused m p := by
  obtain ⟨b, hb⟩ := used_bounded m
  refine unusedFrom_spec m hh b hb (b.toNat) 0 (by omega) (by omega) ?_
  rintro q h1 - - h2
  omega

theorem firstUnused_unique (m : Machine) (p q : XY) (hp : FirstUnused m p) (hq : FirstUnused m q) : p = q := by
  obtain ⟨p1, p2, p3, p4, p5⟩ := hp
  obtain ⟨q1, q2, q3, q4, q5⟩ := hq
  by_cases h1 : Before p q
  · exact absurd (q5 p p1 p2 p3 h1) p4
  · by_cases h2 : Before q p
    · exact absurd (p5 q q1 q2 q3 h2) q4
    · obtain ⟨a, b⟩ := p
      obtain ⟨c, d⟩ := q
      simp only [Before] at h1 h2
      exact Prod.ext (by simp only; omega) (by simp only; omega)

/-- C25: the answer stays the same as long as nothing is placed on it and nothing becomes free. -/
theorem C25_stable (m m' : Machine) (hh : 0 < m.height) (hsame : m'.height = m.height) (p : XY)
    (hp : m.getUnusedXY = some p) (hmono : ∀ q, Used m q → Used m' q) (hfree : ¬ Used m' p) :
    m'.getUnusedXY = some p := by
  obtain ⟨q, hq, h1, h2, h3, h4, h5⟩ := C25_returns_first_unused m hh
  rw [hp] at hq
  cases hq
  obtain ⟨r, hr, hr'⟩ := C25_returns_first_unused m' (by omega)
  rw [hr]
  congr 1
  refine firstUnused_unique m' r p hr' ⟨h1, h2, by omega, hfree, fun s s1 s2 s3 s4 => ?_⟩
  exact hmono s (h5 s s1 s2 (by omega) s4)

/-- C25: adding a chip (anywhere else, without a new board) leaves the answer alone. -/
theorem C25_add_chip (v : Version) (w h : Int) (m m' : Machine) (hr : Reachable v w h m) (c : Chip) (p : XY)
    (hp : m.getUnusedXY = some p) (hadd : m.addChip c = .ok m') (hip : c.ip = none) (hne : c.xy ≠ p) :
    m'.getUnusedXY = some p := by
  obtain ⟨hs, -, -, h2, -, r⟩ := hr.rep
  have hpos := hs.pos
  have hh : 0 < m.height := by omega
  have h := r.addChip c
  rw [hadd] at h
  obtain ⟨-, r', f1, f2, f3, f4, -⟩ := h
  have heth : m'.ethernetChips = m.ethernetChips := by
    rw [r'.eths, r.eths, List.filter_append]; simp [hip]
  have hused : ∀ q, Used m' q ↔ Used m q ∨ q = c.xy := by
    intro q
    unfold Used Machine.isChipAt
    rw [r'.contains, r.contains, heth, Chips.at_isSome_iff, Chips.at_isSome_iff]
    have hx : ∀ e : Chip, m'.xysByEthernet e.x e.y = m.xysByEthernet e.x e.y := by
      intro e; unfold Machine.xysByEthernet; rw [f1, f2, f3, f4]
    simp only [hx, List.map_append, List.mem_append, List.map_cons, List.map_nil, List.mem_singleton]
    constructor
    · rintro ((h | h) | h)
      · exact .inl (.inl h)
      · exact .inr h
      · exact .inl (.inr h)
    · rintro ((h | h) | h)
      · exact .inl (.inl h)
      · exact .inr h
      · exact .inl (.inr h)
  obtain ⟨q, hq, hf⟩ := C25_returns_first_unused m hh
  rw [hp] at hq; cases hq
  refine C25_stable m m' hh f3 p hp (fun q hq => (hused q).2 (.inl hq)) ?_
  rw [hused]
  rintro (h | h)
  · exact hf.2.2.2.1 h
  · exact hne h.symm

/-- C25: with a height of zero or less the loop never ends. -/
theorem C25_nonpositive_height (m : Machine) (hh : m.height ≤ 0) : m.getUnusedXY = none := by
  have hr : pyRange m.height = [] := by
    unfold pyRange; rw [Int.toNat_eq_zero.2 hh]; rfl
  unfold Machine.getUnusedXY
  generalize m.ethernetXys = used
  have key := Machine.unusedFrom.partial_correctness m used (fun _ _ => False) (by
    intro f ih x r hr'
    rw [hr] at hr'
    exact ih _ _ hr')
  cases h : m.unusedFrom used 0 with
  | none => rfl
  | some p => exact (key 0 p h).elim

/-- a machine on which the first unused coordinate is not the first one -/
example : ∃ m, Reachable exV5 12 12 m ∧ FirstUnused m (0, 4) ∧ Used m (0, 3) := by
  refine ⟨_, ⟨"t", [.addChip (exChip 0 0 0 0 (some ['a']))], _, rfl, rfl⟩, ⟨by simp, by simp, by decide, ?_, ?_⟩, ?_⟩
  · rw [← used_iff]; decide +kernel
  · rintro ⟨a, b⟩ h1 h2 - (h3 | ⟨h3, h4⟩)
    · simp only at h1 h3; omega
    · simp only at h1 h2 h3 h4
      subst h3
      rw [← used_iff]
      have : b = 0 ∨ b = 1 ∨ b = 2 ∨ b = 3 := by omega
      rcases this with rfl | rfl | rfl | rfl <;> decide +kernel
  · rw [← used_iff]; decide +kernel

end SpiNN.Props
