import Verif.Spec.Diameter
import Verif.Props.Rings

/-! C104: how far apart two chips of a machine can be. -/

namespace SpiNN.Props
open SpiNN SpiNN.Spec

/-- C104: no two places of the machine are further apart than the diameter. -/
theorem C104_at_most (wr : Wrap) (w h : Int) (hw : 0 < w) (hh : 0 < h) (s p : XY)
    (hs : InGrid w h s) (hp : InGrid w h p) : wr.vectorLength w h s p ≤ diameter wr w h := by
  obtain ⟨s1, s2, s3, s4⟩ := hs
  obtain ⟨p1, p2, p3, p4⟩ := hp
  have m1 := pmod_nonneg (a := p.1 - s.1) hw
  have m2 := pmod_lt (a := p.1 - s.1) hw
  have m3 := pmod_nonneg (a := p.2 - s.2) hh
  have m4 := pmod_lt (a := p.2 - s.2) hh
  cases wr <;> simp only [Wrap.vectorLength, diameter, lenNone_eq, lenFull_eq, hexNorm, Wrap.horLenRight,
    Wrap.horLenLeft, Wrap.verLenUp, Wrap.verLenDown]
  · omega
  · generalize pmod (p.1 - s.1) w = x at *
    repeat' split
    all_goals omega
  · generalize pmod (p.2 - s.2) h = x at *
    repeat' split
    all_goals omega
  · generalize pmod (p.1 - s.1) w = x at *
    generalize pmod (p.2 - s.2) h = y at *
    omega

/-- C104: and some are that far apart. -/
theorem C104_attained (wr : Wrap) (w h : Int) (hw : 0 < w) (hh : 0 < h) :
    ∃ s p, InGrid w h s ∧ InGrid w h p ∧ wr.vectorLength w h s p = diameter wr w h := by
  cases wr
  · refine ⟨(0, h - 1), (w - 1, 0), ?_, ?_, ?_⟩
    · unfold InGrid; simp only; omega
    · unfold InGrid; simp only; omega
    · simp only [Wrap.vectorLength, lenNone_eq, hexNorm, diameter]; omega
  · refine ⟨(0, 0), (if (w + h - 1) / 2 ≤ h - 1 then 0 else (w + h - 1) / 2, h - 1), ?_, ?_, ?_⟩
    · unfold InGrid; simp only; omega
    · unfold InGrid; simp only; split <;> omega
    · simp only [Wrap.vectorLength, diameter, Wrap.horLenRight, Wrap.horLenLeft, Int.sub_zero]
      rw [pmod_of_range (by split <;> omega) (by split <;> omega)]
      repeat' split
      all_goals omega
  · refine ⟨(0, 0), (w - 1, if (w + h - 1) / 2 ≤ w - 1 then 0 else (w + h - 1) / 2), ?_, ?_, ?_⟩
    · unfold InGrid; simp only; omega
    · unfold InGrid; simp only; split <;> omega
    · simp only [Wrap.vectorLength, diameter, Wrap.verLenUp, Wrap.verLenDown, Int.sub_zero]
      rw [pmod_of_range (by split <;> omega) (by split <;> omega)]
      repeat' split
      all_goals omega
  · have full : ∀ x y, 0 ≤ x → x < w → 0 ≤ y → y < h →
        min (min (min (max x y) (y - (x - w))) (x - (y - h))) (max (-(x - w)) (-(y - h))) =
          diameter .full w h →
        ∃ s p, InGrid w h s ∧ InGrid w h p ∧ Wrap.full.vectorLength w h s p = diameter .full w h := by
      intro x y x0 x1 y0 y1 he
      refine ⟨(0, 0), (x, y), ?_, ⟨x0, x1, y0, y1⟩, ?_⟩
      · unfold InGrid; simp only; omega
      · simp only [Wrap.vectorLength, lenFull_eq, Int.sub_zero]
        rw [pmod_of_range x0 x1, pmod_of_range y0 y1]
        exact he
    simp only [diameter] at full ⊢
    by_cases h1 : h / 2 ≤ w / 2 ∧ (w + h) / 3 ≤ w / 2
    · exact full (w / 2) 0 (by omega) (by omega) (by omega) (by omega) (by omega)
    · by_cases h2 : w / 2 ≤ h / 2 ∧ (w + h) / 3 ≤ h / 2
      · exact full 0 (h / 2) (by omega) (by omega) (by omega) (by omega) (by omega)
      · exact full ((w + h) / 3) (h - (w + h) / 3) (by omega) (by omega) (by omega) (by omega) (by omega)

/-- C104: so `concentric_xys` with the diameter as radius finds every chip from any start, and with a smaller
radius it misses one from some start. -/
theorem C104_search (wr : Wrap) (w h : Int) (hw : 0 < w) (hh : 0 < h) (r : Int) (hr : 0 ≤ r) :
    (∀ s p, InGrid w h s → InGrid w h p → p ∈ wr.concentricXys w h r s) ↔ diameter wr w h ≤ r := by
  have hin : ∀ {p}, InGrid w h p → InRange wr w h p := fun hp => ⟨fun _ => ⟨hp.1, hp.2.1⟩, fun _ => hp.2.2⟩
  constructor
  · intro ha
    obtain ⟨s, p, hs, hp, he⟩ := C104_attained wr w h hw hh
    rw [← he]
    exact (C103_within wr w h hw hh r hr s p (hin hp)).1 (ha s p hs hp)
  · intro hle s p hs hp
    have := C104_at_most wr w h hw hh s p hs hp
    exact (C103_within wr w h hw hh r hr s p (hin hp)).2 (by omega)

/-- C104: wrapping an axis never puts places further apart. -/
theorem C104_wrapping_helps (wr : Wrap) (w h : Int) (hw : 0 < w) (hh : 0 < h) (s p : XY) :
    wr.vectorLength w h s p ≤ Wrap.none.vectorLength w h s p ∧
    Wrap.full.vectorLength w h s p ≤ wr.vectorLength w h s p := by
  constructor
  · have := vectorLength_le wr hw hh s p (p.1 - s.1) (p.2 - s.2) (by
      rw [show s.1 + (p.1 - s.1) = p.1 by omega, show s.2 + (p.2 - s.2) = p.2 by omega]
      exact ⟨by split; exact ⟨0, by omega⟩; rfl, by split; exact ⟨0, by omega⟩; rfl⟩)
    simp only [Wrap.vectorLength, lenNone_eq] at this ⊢
    exact this
  · obtain ⟨dx, dy, _, h2, h3⟩ := vector_spec wr hw hh s p
    rw [← h3]
    refine vectorLength_le .full hw hh s p dx dy ⟨?_, ?_⟩
    · have h4 := h2.1
      rw [if_pos (show wrapsX .full from Or.inr rfl)]
      split at h4
      · exact h4
      · exact ⟨0, by omega⟩
    · have h4 := h2.2
      rw [if_pos (show wrapsY .full from Or.inr rfl)]
      split at h4
      · exact h4
      · exact ⟨0, by omega⟩

/-- the twelve by twelve machine of three 48-chip boards: 8 links suffice, unwrapped 22 are needed -/
example : diameter .full 12 12 = 8 ∧ diameter .none 12 12 = 22 ∧ diameter .horizontal 12 16 = 15 := by decide

example : InGrid 12 12 (0, 0) ∧ InGrid 12 12 (8, 4) ∧ Wrap.full.vectorLength 12 12 (0, 0) (8, 4) = 8 := by
  refine ⟨by simp [InGrid], by simp [InGrid], by decide⟩

end SpiNN.Props
