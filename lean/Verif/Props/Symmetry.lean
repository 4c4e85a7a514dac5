import Verif.Props.Mesh

/-!
# Symmetries of the mesh and the torus (C75)
-/

namespace SpiNN.Props
open SpiNN Spec

/-- the displacement on an axis is the same after a shift -/
theorem pmod_shift {a b a' b' t w : Int} (hw : 0 < w) (ha : ∃ k : Int, a + t = a' + k * w)
    (hb : ∃ k : Int, b + t = b' + k * w) : pmod (b' - a') w = pmod (b - a) w := by
  rw [pmod_eq_iff hw (pmod_nonneg hw) (pmod_lt hw)]
  obtain ⟨k, hk⟩ := ha
  obtain ⟨j, hj⟩ := hb
  obtain ⟨i, hi⟩ := pmod_exists (b - a) w hw
  refine ⟨i + k - j, ?_⟩
  rw [Int.sub_mul, Int.add_mul]
  omega

/-- C75: distances and vectors between two places stay the same if both are moved by the same amount
(anywhere on the wrapped axes, so that they may go over the edge). -/
theorem C75_shift (wr : Wrap) (w h : Int) (hw : 0 < w) (hh : 0 < h) (src dst src' dst' t : XY)
    (hs : Same wr w h (src.1 + t.1, src.2 + t.2) src') (hd : Same wr w h (dst.1 + t.1, dst.2 + t.2) dst') :
    wr.vectorLength w h src' dst' = wr.vectorLength w h src dst ∧
    wr.vector w h src' dst' = wr.vector w h src dst := by
  obtain ⟨sx, sy⟩ := src
  obtain ⟨dx, dy⟩ := dst
  obtain ⟨sx', sy'⟩ := src'
  obtain ⟨dx', dy'⟩ := dst'
  obtain ⟨tx, ty⟩ := t
  cases wr <;> simp only [Same, wrapsX, wrapsY, reduceCtorEq, or_false, or_true, or_self, if_true,
    if_false] at hs hd <;> obtain ⟨hs1, hs2⟩ := hs <;> obtain ⟨hd1, hd2⟩ := hd
  · have e1 : dx' - sx' = dx - sx := by omega
    have e2 : dy' - sy' = dy - sy := by omega
    simp only [Wrap.vectorLength, Wrap.vector, e1, e2, and_self]
  · have e1 := pmod_shift hw hs1 hd1
    have e2 : dy' - sy' = dy - sy := by omega
    simp only [Wrap.vectorLength, Wrap.vector, e1, e2, and_self]
  · have e1 : dx' - sx' = dx - sx := by omega
    have e2 := pmod_shift hh hs2 hd2
    simp only [Wrap.vectorLength, Wrap.vector, e1, e2, and_self]
  · have e1 := pmod_shift hw hs1 hd1
    have e2 := pmod_shift hh hs2 hd2
    simp only [Wrap.vectorLength, Wrap.vector, Wrap.lenFull, Wrap.vecFull, e1, e2, and_self]

-- two chips near the edge of a 12 x 12 torus, moved over the edge
example : Same .full 12 12 (10 + 5, 1 + -4) (3, 9) ∧ Same .full 12 12 (7 + 5, 3 + -4) (0, 11) ∧
    Wrap.full.vector 12 12 (10, 1) (7, 3) = (-3, 2, 0) ∧ Wrap.full.vector 12 12 (3, 9) (0, 11) = (-3, 2, 0) := by
  refine ⟨?_, ?_, by decide, by decide⟩ <;>
    simp only [Same, wrapsX, wrapsY, reduceCtorEq, false_or, if_true]
  · exact ⟨⟨1, by decide⟩, ⟨-1, by decide⟩⟩
  · exact ⟨⟨1, by decide⟩, ⟨-1, by decide⟩⟩

/-- C75: the place over a link moves with the place. -/
theorem C75_shift_link (wr : Wrap) (w h : Int) (hw : 0 < w) (hh : 0 < h) (p p' t q : XY) (l : Int)
    (hp : Same wr w h (p.1 + t.1, p.2 + t.2) p') (hq : wr.xyOverLink w h p.1 p.2 l = .ok q) :
    ∃ q', wr.xyOverLink w h p'.1 p'.2 l = .ok q' ∧ Same wr w h (q.1 + t.1, q.2 + t.2) q' := by
  unfold Wrap.xyOverLink at hq ⊢
  cases ha : pyIndex linkAddTable l with
  | error e => rw [ha] at hq; simp at hq
  | ok a =>
    rw [ha] at hq
    simp only [Except.ok.injEq, exists_eq_left'] at hq ⊢
    rw [wr.stepBy_eq hw hh] at hq ⊢
    subst hq
    have h1 := wr.red_same hw hh (p.1 + a.1, p.2 + a.2)
    have h2 := wr.red_same hw hh (p'.1 + a.1, p'.2 + a.2)
    generalize wr.red w h (p.1 + a.1, p.2 + a.2) = q at h1 ⊢
    generalize wr.red w h (p'.1 + a.1, p'.2 + a.2) = q' at h2 ⊢
    have key : ∀ {x x' t a q q' w : Int}, (∃ k : Int, x + t = x' + k * w) → (∃ k : Int, x + a = q + k * w) →
        (∃ k : Int, x' + a = q' + k * w) → ∃ k : Int, q + t = q' + k * w := by
      rintro x x' t a q q' w ⟨i, hi⟩ ⟨j, hj⟩ ⟨k, hk⟩
      refine ⟨i - j + k, ?_⟩
      rw [Int.add_mul, Int.sub_mul]
      omega
    unfold Same at *
    simp only at *
    refine ⟨?_, ?_⟩
    · by_cases hc : wrapsX wr
      · simp only [if_pos hc] at *; exact key hp.1 h1.1 h2.1
      · simp only [if_neg hc] at *; omega
    · by_cases hc : wrapsY wr
      · simp only [if_pos hc] at *; exact key hp.2 h1.2 h2.2
      · simp only [if_neg hc] at *; omega

-- over the edge
example : Same .horizontal 12 16 (11 + 3, 4 + 2) (2, 6) ∧ Wrap.horizontal.xyOverLink 12 16 11 4 1 = .ok (0, 5) ∧
    Wrap.horizontal.xyOverLink 12 16 2 6 1 = .ok (3, 7) := by
  refine ⟨?_, by decide, by decide⟩
  simp only [Same, wrapsX, wrapsY, reduceCtorEq, or_false, or_self, if_true, if_false]
  exact ⟨⟨1, by decide⟩, by decide⟩

/-- C75: exchanging the two axes (and the two machine classes that wrap on one of them) keeps distances. -/
theorem C75_mirror (w h : Int) (src dst : XY) :
    Wrap.none.vectorLength h w (src.2, src.1) (dst.2, dst.1) = Wrap.none.vectorLength w h src dst ∧
    Wrap.vertical.vectorLength h w (src.2, src.1) (dst.2, dst.1) = Wrap.horizontal.vectorLength w h src dst ∧
    Wrap.full.vectorLength h w (src.2, src.1) (dst.2, dst.1) = Wrap.full.vectorLength w h src dst := by
  refine ⟨?_, ?_, ?_⟩
  · simp only [Wrap.vectorLength, lenNone_eq, hexNorm]; omega
  · simp only [Wrap.vectorLength, Wrap.verLenUp, Wrap.verLenDown, Wrap.horLenRight, Wrap.horLenLeft]
    repeat' split
    all_goals omega
  · simp only [Wrap.vectorLength, lenFull_eq]
    omega

/-- C75: turning by a sixth (East to North East to North to West ...) keeps distances on a mesh without wraps. -/
theorem C75_turn (w h : Int) (src dst : XY) :
    Wrap.none.vectorLength w h (src.1 - src.2, src.1) (dst.1 - dst.2, dst.1) = Wrap.none.vectorLength w h src dst ∧
    ∀ (d : Dir) (q : XY), Wrap.none.xyOverLink w h src.1 src.2 d.id = .ok q →
      Wrap.none.xyOverLink w h (src.1 - src.2) src.1 (pmod (d.id + 1) 6) = .ok (q.1 - q.2, q.1) := by
  refine ⟨?_, fun d q hq => ?_⟩
  · simp only [Wrap.vectorLength, lenNone_eq, hexNorm]; omega
  · have ha : pyIndex linkAddTable d.id = .ok (d.dx, d.dy) := by cases d <;> decide
    have hb : pyIndex linkAddTable (pmod (d.id + 1) 6) = .ok (d.dx - d.dy, d.dx) := by cases d <;> decide
    simp only [Wrap.xyOverLink, ha, hb, Wrap.stepBy, Except.ok.injEq] at hq ⊢
    subst hq
    rw [Prod.mk.injEq]
    simp only
    exact ⟨by omega, trivial⟩

/-- C75: on a mesh without wraps the vector back is the opposite vector. -/
theorem C75_vector_back (w h : Int) (src dst : XY) (x y z : Int)
    (hv : Wrap.none.vector w h src dst = (x, y, z)) : Wrap.none.vector w h dst src = (-x, -y, -z) := by
  simp only [Wrap.vector, Wrap.minimizeVector] at hv ⊢
  repeat' split at hv
  all_goals
    simp only [Prod.mk.injEq] at hv
    obtain ⟨rfl, rfl, rfl⟩ := hv
    repeat' split
    all_goals simp only [Prod.mk.injEq]; omega

/-- C75: on a square torus no two places are more than two thirds of the side apart, and some are exactly
that far apart if the side is divisible by three. -/
theorem C75_square_torus (n : Int) (hn : 0 < n) :
    (∀ src dst, 3 * Wrap.full.vectorLength n n src dst ≤ 2 * n) ∧
    ∀ k, n = 3 * k → Wrap.full.vectorLength n n (0, 0) (2 * k, k) = 2 * k := by
  refine ⟨fun src dst => ?_, fun k hk => ?_⟩
  · simp only [Wrap.vectorLength, lenFull_eq]
    have := pmod_nonneg (a := dst.1 - src.1) hn
    have := pmod_nonneg (a := dst.2 - src.2) hn
    have := pmod_lt (a := dst.1 - src.1) hn
    have := pmod_lt (a := dst.2 - src.2) hn
    omega
  · simp only [Wrap.vectorLength, lenFull_eq]
    rw [pmod_of_range (by omega) (by omega), pmod_of_range (by omega) (by omega)]
    omega

/-- C75: on any torus no two places are more than half of one side plus half of the other apart. -/
theorem C75_torus_bound (w h : Int) (hw : 0 < w) (hh : 0 < h) (src dst : XY) :
    2 * Wrap.full.vectorLength w h src dst ≤ w + h := by
  simp only [Wrap.vectorLength, lenFull_eq]
  have := pmod_nonneg (a := dst.1 - src.1) hw
  have := pmod_nonneg (a := dst.2 - src.2) hh
  have := pmod_lt (a := dst.1 - src.1) hw
  have := pmod_lt (a := dst.2 - src.2) hh
  omega

/-- C75: the places at most a radius away are the same pattern around every place. -/
theorem C75_shift_concentric (w h : Int) (radius : Int) (s t : XY) :
    Wrap.none.concentricXys w h radius (s.1 + t.1, s.2 + t.2) =
      (Wrap.none.concentricXys w h radius s).map fun p => (p.1 + t.1, p.2 + t.2) := by
  have hside : ∀ (dx dy : Int) (n : Nat) (x y : Int), ringSide dx dy n (x + t.1) (y + t.2) =
      ((ringSide dx dy n x y).1.map fun p => (p.1 + t.1, p.2 + t.2),
       ((ringSide dx dy n x y).2.1 + t.1, (ringSide dx dy n x y).2.2 + t.2)) := by
    intro dx dy n
    induction n with
    | zero => intro x y; simp [ringSide]
    | succ n ih =>
      intro x y
      have := ih (x + dx) (y + dy)
      simp only [ringSide, show x + t.1 + dx = x + dx + t.1 by omega, show y + t.2 + dy = y + dy + t.2 by omega,
        this, List.map_cons]
  have hwalk : ∀ (r : Nat) (ds : List XY) (x y : Int), ringWalk r ds (x + t.1) (y + t.2) =
      ((ringWalk r ds x y).1.map fun p => (p.1 + t.1, p.2 + t.2),
       ((ringWalk r ds x y).2.1 + t.1, (ringWalk r ds x y).2.2 + t.2)) := by
    intro r ds
    induction ds with
    | nil => intro x y; simp [ringWalk]
    | cons d ds ih =>
      intro x y
      simp only [ringWalk, hside, ih, List.map_append]
  have hrings : ∀ (n r : Nat) (x y : Int), rings n r (x + t.1) (y + t.2) =
      (rings n r x y).map fun p => (p.1 + t.1, p.2 + t.2) := by
    intro n
    induction n with
    | zero => intro r x y; simp [rings]
    | succ n ih =>
      intro r x y
      simp only [rings, show y + t.2 - 1 = y - 1 + t.2 by omega, hwalk, ih, List.map_append]
  simp only [Wrap.concentricXys, basicConcentricXys, hrings, List.map_cons]

end SpiNN.Props
