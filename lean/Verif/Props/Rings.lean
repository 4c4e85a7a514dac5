import Verif.Props.Symmetry

/-! C103: walking out in rings reaches every chip at its distance, on every machine class. -/

namespace SpiNN.Props
open SpiNN SpiNN.Spec

private theorem concentric_map (wr : Wrap) (w h r : Int) (s : XY) :
    wr.concentricXys w h r s = (basicConcentricXys r s).map (fun p => wr.red w h p) := by
  cases wr <;> simp [Wrap.concentricXys, Wrap.red]

/-- C103: a chip is among the positions `concentric_xys(radius, start)` yields exactly if
`get_vector_length(start, chip)` is at most the radius - on machines that wrap as well. -/
theorem C103_within (wr : Wrap) (w h : Int) (hw : 0 < w) (hh : 0 < h) (r : Int) (hr : 0 ≤ r)
    (s p : XY) (hp : InRange wr w h p) :
    p ∈ wr.concentricXys w h r s ↔ wr.vectorLength w h s p ≤ r := by
  rw [concentric_map, List.mem_map]
  constructor
  · rintro ⟨q, hq, e⟩
    rw [(basicConcentric_spec r hr s).1] at hq
    rw [wr.red_eq_iff hw hh hp] at e
    have := vectorLength_le wr hw hh s p (q.1 - s.1) (q.2 - s.2)
      (by rw [show s.1 + (q.1 - s.1) = q.1 by omega, show s.2 + (q.2 - s.2) = q.2 by omega]; exact e)
    omega
  · intro hle
    obtain ⟨dx, dy, _, h2, h3⟩ := vector_spec wr hw hh s p
    refine ⟨(s.1 + dx, s.2 + dy), ?_, (wr.red_eq_iff hw hh hp).2 h2⟩
    rw [(basicConcentric_spec r hr s).1]
    simp only [show s.1 + dx - s.1 = dx by omega, show s.2 + dy - s.2 = dy by omega]
    omega

/-- C103: every position yielded is on the machine's wrapped axes in range, and the first is the start,
brought into range. -/
theorem C103_in_range (wr : Wrap) (w h : Int) (hw : 0 < w) (hh : 0 < h) (r : Int) (s : XY) :
    (∀ p ∈ wr.concentricXys w h r s, InRange wr w h p) ∧
    ∃ p, (wr.concentricXys w h r s).head? = some p ∧ Same wr w h s p := by
  rw [concentric_map]
  refine ⟨?_, wr.red w h s, by simp [basicConcentricXys], wr.red_same hw hh s⟩
  intro p hp
  rw [List.mem_map] at hp
  obtain ⟨q, -, rfl⟩ := hp
  exact wr.red_inRange hw hh q

private theorem rings_prefix (n k m : Nat) (x y : Int) :
    rings n m x y <+: rings (n + k) m x y := by
  induction n generalizing m x y with
  | zero => simp [rings]
  | succ n ih =>
    rw [show n + 1 + k = (n + k) + 1 by omega, rings, rings]
    simp only [List.prefix_append_right_inj]
    exact ih _ _ _

/-- C103: a larger radius only adds positions after those of the smaller one. -/
theorem C103_grows (wr : Wrap) (w h : Int) (r r' : Int) (hrr : r ≤ r') (s : XY) :
    wr.concentricXys w h r s <+: wr.concentricXys w h r' s := by
  rw [concentric_map, concentric_map]
  apply List.IsPrefix.map
  unfold basicConcentricXys
  rw [List.cons_prefix_cons]
  obtain ⟨k, hk⟩ : ∃ k, r'.toNat = r.toNat + k := ⟨r'.toNat - r.toNat, by omega⟩
  rw [hk]
  exact ⟨rfl, rings_prefix _ _ _ _ _⟩

/-- C103: the first time a chip at distance `d > 0` is yielded is in ring `d`: after the
`1 + 3(d-1)d` positions of the smaller rings and within the first `1 + 3d(d+1)`; a chip at distance 0 is
yielded first of all. So chips are met in the order of their distances. -/
theorem C103_first_met (wr : Wrap) (w h : Int) (hw : 0 < w) (hh : 0 < h) (r : Int)
    (s p : XY) (hp : InRange wr w h p) (hd : wr.vectorLength w h s p ≤ r) :
    (∀ i : Nat, (wr.concentricXys w h r s)[i]? = some p →
      wr.vectorLength w h s p = 0 ∨
      1 + 3 * (wr.vectorLength w h s p - 1) * wr.vectorLength w h s p ≤ (i : Int)) ∧
    ∃ i : Nat, (wr.concentricXys w h r s)[i]? = some p ∧
      (i : Int) < 1 + 3 * wr.vectorLength w h s p * (wr.vectorLength w h s p + 1) := by
  have hlen : ∀ k : Int, 0 ≤ k → ((wr.concentricXys w h k s).length : Int) = 1 + 3 * k * (k + 1) := by
    intro k hk
    rw [concentric_map, List.length_map]
    exact (basicConcentric_spec k hk s).2.2.2
  have h0 : 0 ≤ wr.vectorLength w h s p := by
    obtain ⟨dx, dy, _, _, h3⟩ := vector_spec wr hw hh s p
    rw [← h3]; exact hexNorm_nonneg _ _
  generalize hD : wr.vectorLength w h s p = d at *
  constructor
  · intro i hi
    rcases Int.lt_or_le 0 d with hpos | hz
    · right
      apply Classical.byContradiction
      intro hlt
      obtain ⟨t, ht⟩ := C103_grows wr w h (d - 1) r (by omega) s
      have hl := hlen (d - 1) (by omega)
      rw [show d - 1 + 1 = d by omega] at hl
      rw [← ht, List.getElem?_append_left (by omega)] at hi
      have := (C103_within wr w h hw hh (d - 1) (by omega) s p hp).1 (List.mem_of_getElem? hi)
      omega
    · left; omega
  · have hm := (C103_within wr w h hw hh d h0 s p hp).2 (by omega)
    obtain ⟨i, hi⟩ := List.mem_iff_getElem?.1 hm
    obtain ⟨t, ht⟩ := C103_grows wr w h d r hd s
    have hlt : i < (wr.concentricXys w h d s).length := by
      rw [List.getElem?_eq_some_iff] at hi; exact hi.1
    refine ⟨i, ?_, by have := hlen d h0; omega⟩
    rw [← ht, List.getElem?_append_left hlt]
    exact hi

/-- C103: on a square torus a search of radius two thirds of the side finds every chip. -/
theorem C103_covers_torus (n : Int) (hn : 0 < n) (r : Int) (hr : 2 * n ≤ 3 * r) (s p : XY)
    (hp : InGrid n n p) : p ∈ Wrap.full.concentricXys n n r s := by
  rw [C103_within .full n n hn hn r (by omega) s p ⟨fun _ => ⟨hp.1, hp.2.1⟩, fun _ => ⟨hp.2.2.1, hp.2.2.2⟩⟩]
  have := (C75_square_torus n hn).1 s p
  omega

example : InRange .full 12 12 (11, 11) ∧ Wrap.full.vectorLength 12 12 (0, 0) (11, 11) ≤ 1 := by
  refine ⟨by simp [InRange], by decide⟩

example : (1, 1) ∈ Wrap.horizontal.concentricXys 2 8 1 (0, 0) ∧
    (Wrap.horizontal.concentricXys 2 8 1 (0, 0)).head? = some (0, 0) := by decide

/-- C103: unwrapped the two differ: the far corner is not met nearby. -/
example : (11, 11) ∉ Wrap.none.concentricXys 12 12 1 (0, 0) := by decide

end SpiNN.Props
