import Verif.Lemmas.Mesh
import Verif.Lemmas.Concentric
import Verif.Model.Router

/-!
# C01 – C07: the mesh
-/

namespace SpiNN.Props
open SpiNN Spec

/-- C01: crossing a link and then the opposite link returns to the start, for every machine
class; `Router.opposite` is an involution without fixed points on the six links. -/
theorem C01_over_link_and_back (wr : Wrap) (w h : Int) (hw : 0 < w) (hh : 0 < h)
    (p : XY) (hp : InRange wr w h p) (l : Int) (h0 : 0 ≤ l) (h5 : l ≤ 5) :
    ∃ q, wr.xyOverLink w h p.1 p.2 l = .ok q ∧
      wr.xyOverLink w h q.1 q.2 (Router.opposite l) = .ok p := by
  have hl : l = 0 ∨ l = 1 ∨ l = 2 ∨ l = 3 ∨ l = 4 ∨ l = 5 := by omega
  have key : ∀ a, pyIndex linkAddTable l = .ok a →
      pyIndex linkAddTable (Router.opposite l) = .ok (-a.1, -a.2) := by
    intro a ha
    rcases hl with rfl | rfl | rfl | rfl | rfl | rfl <;>
      (rw [pyIndex_ok_iff] at ha; simp at ha; subst ha; decide)
  have hex : ∃ a, pyIndex linkAddTable l = .ok a := by
    rcases hl with rfl | rfl | rfl | rfl | rfl | rfl <;> exact ⟨_, rfl⟩
  obtain ⟨a, ha⟩ := hex
  refine ⟨wr.stepBy w h p.1 p.2 a, by simp [Wrap.xyOverLink, ha], ?_⟩
  simp only [Wrap.xyOverLink, key a ha]
  congr 1
  rw [wr.stepBy_eq hw hh, wr.stepBy_eq hw hh, wr.red_red_add hw hh]
  have : (p.1 + a.1 + -a.1, p.2 + a.2 + -a.2) = p := by ext <;> simp <;> omega
  rw [this]
  exact wr.red_of_inRange hp

/-- C01, second part. -/
theorem C01_opposite_involution (l : Int) (h0 : 0 ≤ l) (h5 : l ≤ 5) :
    Router.opposite (Router.opposite l) = l ∧ Router.opposite l ≠ l ∧
    0 ≤ Router.opposite l ∧ Router.opposite l ≤ 5 := by
  have hl : l = 0 ∨ l = 1 ∨ l = 2 ∨ l = 3 ∨ l = 4 ∨ l = 5 := by omega
  rcases hl with rfl | rfl | rfl | rfl | rfl | rfl <;> decide

-- a corner chip of a 12 x 12 torus, going West over the edge
example : InRange .full 12 12 (0, 11) ∧ Wrap.full.xyOverLink 12 12 0 11 3 = .ok (11, 11) := by
  constructor
  · simp [InRange]
  · decide

/-- C02: `xy_over_link` moves one step in the compass direction of the link; the result is
that displaced position brought into range on exactly the axes that wrap. -/
theorem C02_xy_over_link_step (wr : Wrap) (w h : Int) (hw : 0 < w) (hh : 0 < h) (x y : Int)
    (d : Dir) (q : XY) :
    wr.xyOverLink w h x y d.id = .ok q ↔
      Same wr w h (x + d.dx, y + d.dy) q ∧ InRange wr w h q := by
  have ha : pyIndex linkAddTable d.id = .ok (d.dx, d.dy) := by cases d <;> decide
  simp only [Wrap.xyOverLink, ha, Except.ok.injEq, wr.stepBy_eq hw hh]
  constructor
  · rintro rfl
    exact ⟨wr.red_same hw hh _, wr.red_inRange hw hh _⟩
  · rintro ⟨h1, h2⟩
    exact (wr.red_eq_iff hw hh h2).2 h1

/-- C02: link ids count from the end when negative, as Python lists do ... -/
theorem C02_negative_link (wr : Wrap) (w h x y l : Int) (h0 : -6 ≤ l) (h1 : l < 0) :
    wr.xyOverLink w h x y l = wr.xyOverLink w h x y (l + 6) := by
  have hl : l = -6 ∨ l = -5 ∨ l = -4 ∨ l = -3 ∨ l = -2 ∨ l = -1 := by omega
  rcases hl with rfl | rfl | rfl | rfl | rfl | rfl <;> rfl

/-- C02: ... and any other id raises IndexError. -/
theorem C02_bad_link (wr : Wrap) (w h x y l : Int) (hl : ¬ (-6 ≤ l ∧ l ≤ 5)) :
    wr.xyOverLink w h x y l = .error .indexError := by
  simp [Wrap.xyOverLink, pyIndex_err l hl]

example : Wrap.horizontal.xyOverLink 12 16 11 15 1 = .ok (0, 16) := by decide

/-- C03: `get_vector_length` is the least number of links that lead from source to
destination. -/
theorem C03_vector_length_is_min_hops (wr : Wrap) (w h : Int) (hw : 0 < w) (hh : 0 < h)
    (src dst : XY) (hs : InRange wr w h src) (hd : InRange wr w h dst) :
    (∃ path : List Int, (path.length : Int) = wr.vectorLength w h src dst ∧
      (∀ l ∈ path, 0 ≤ l ∧ l ≤ 5) ∧ walk wr w h src path = .ok dst) ∧
    (∀ path : List Int, walk wr w h src path = .ok dst →
      wr.vectorLength w h src dst ≤ path.length) := by
  constructor
  · obtain ⟨dx, dy, h1, h2, h3⟩ := vector_spec wr hw hh src dst
    refine ⟨vecPath (Wrap.minimizeVector dx dy), ?_, ?_, ?_⟩
    · rw [vecPath_length, minimizeVector_abs, h3]
    · exact fun l hl => vecPath_links _ l hl
    · rw [walk_eq wr hw hh _ _ _ hs]
      refine ⟨_, vecPath_disp _, ?_⟩
      rw [minimizeVector_disp, wr.red_eq_iff hw hh hd]
      exact h2
  · intro path hp
    rw [walk_eq wr hw hh _ _ _ hs] at hp
    obtain ⟨d, h1, h2⟩ := hp
    rw [wr.red_eq_iff hw hh hd] at h2
    have h3 := vectorLength_le wr hw hh src dst d.1 d.2 h2
    have h4 := hexNorm_disp path d h1
    omega

example : InRange .full 16 12 (1, 2) ∧ InRange .full 16 12 (15, 11) ∧
    Wrap.full.vectorLength 16 12 (1, 2) (15, 11) = 3 := by
  refine ⟨by simp [InRange], by simp [InRange], by decide⟩

/-- C04: `get_vector` reaches the destination (`x` steps East, `y` North and `z` South-West,
modulo the wrapped axes), has the length `get_vector_length`, has a zero component and no two
components of the same sign, and no vector that reaches the destination is shorter. -/
theorem C04_vector_is_shortest (wr : Wrap) (w h : Int) (hw : 0 < w) (hh : 0 < h)
    (src dst : XY) (x y z : Int) (hv : wr.vector w h src dst = (x, y, z)) :
    Same wr w h (src.1 + x - z, src.2 + y - z) dst ∧
    (x.natAbs + y.natAbs + z.natAbs : Int) = wr.vectorLength w h src dst ∧
    (x = 0 ∨ y = 0 ∨ z = 0) ∧
    (¬ (0 < x ∧ 0 < y) ∧ ¬ (0 < x ∧ 0 < z) ∧ ¬ (0 < y ∧ 0 < z) ∧
     ¬ (x < 0 ∧ y < 0) ∧ ¬ (x < 0 ∧ z < 0) ∧ ¬ (y < 0 ∧ z < 0)) ∧
    ∀ a b c : Int, Same wr w h (src.1 + a - c, src.2 + b - c) dst →
      wr.vectorLength w h src dst ≤ (a.natAbs + b.natAbs + c.natAbs : Int) := by
  obtain ⟨dx, dy, h1, h2, h3⟩ := vector_spec wr hw hh src dst
  rw [hv] at h1
  have hd := minimizeVector_disp dx dy
  have ha := minimizeVector_abs dx dy
  have hm := minimizeVector_minimal dx dy
  rw [← h1] at hd ha hm
  simp only [vecDisp, Prod.mk.injEq] at hd
  simp only [vecAbs] at ha
  simp only [VecMinimal] at hm
  refine ⟨?_, ?_, hm.1, hm.2, ?_⟩
  · rw [show src.1 + x - z = src.1 + dx by omega, show src.2 + y - z = src.2 + dy by omega]
    exact h2
  · omega
  · intro a b c habc
    rw [show src.1 + a - c = src.1 + (a - c) by omega,
      show src.2 + b - c = src.2 + (b - c) by omega] at habc
    have := vectorLength_le wr hw hh src dst _ _ habc
    have h5 : hexNorm (a - c) (b - c) ≤ (a.natAbs + b.natAbs + c.natAbs : Int) := by
      unfold hexNorm; omega
    omega

example : Wrap.full.vector 16 12 (1, 2) (15, 11) = (0, -1, 2) := by decide

/-- C05: `get_vector_length` is never negative and zero exactly if source and destination
are the same position. -/
theorem C05_length_zero_iff (wr : Wrap) (w h : Int) (hw : 0 < w) (hh : 0 < h)
    (a b : XY) (ha : InRange wr w h a) (hb : InRange wr w h b) :
    0 ≤ wr.vectorLength w h a b ∧ (wr.vectorLength w h a b = 0 ↔ a = b) := by
  obtain ⟨dx, dy, h1, h2, h3⟩ := vector_spec wr hw hh a b
  refine ⟨by have := hexNorm_nonneg dx dy; omega, ?_⟩
  constructor
  · intro hz
    rw [hz, hexNorm_eq_zero] at h3
    obtain ⟨rfl, rfl⟩ := h3
    simp only [Int.add_zero] at h2
    rw [← wr.red_eq_iff hw hh hb, wr.red_of_inRange ha] at h2
    exact h2
  · rintro rfl
    have hsame : Same wr w h (a.1 + 0, a.2 + 0) a := by
      rw [← wr.red_eq_iff hw hh ha]
      simp [wr.red_of_inRange ha]
    have h4 := vectorLength_le wr hw hh a a 0 0 hsame
    have h5 := (hexNorm_eq_zero 0 0).2 ⟨rfl, rfl⟩
    have := hexNorm_nonneg dx dy
    omega

private theorem same_shift (wr : Wrap) {w h : Int} {a b : XY} {dx dy : Int}
    (hab : Same wr w h (a.1 + dx, a.2 + dy) b) : Same wr w h (b.1 + -dx, b.2 + -dy) a := by
  obtain ⟨h1, h2⟩ := hab
  constructor
  · split
    · rename_i c
      rw [if_pos c] at h1
      obtain ⟨k, hk⟩ := h1
      exact ⟨-k, by rw [Int.neg_mul]; simp only at *; omega⟩
    · rename_i c
      rw [if_neg c] at h1
      simp only at *; omega
  · split
    · rename_i c
      rw [if_pos c] at h2
      obtain ⟨k, hk⟩ := h2
      exact ⟨-k, by rw [Int.neg_mul]; simp only at *; omega⟩
    · rename_i c
      rw [if_neg c] at h2
      simp only at *; omega

private theorem same_trans (wr : Wrap) {w h : Int} {a b c : XY} {dx dy ex ey : Int}
    (hab : Same wr w h (a.1 + dx, a.2 + dy) b) (hbc : Same wr w h (b.1 + ex, b.2 + ey) c) :
    Same wr w h (a.1 + (dx + ex), a.2 + (dy + ey)) c := by
  obtain ⟨h1, h2⟩ := hab
  obtain ⟨h3, h4⟩ := hbc
  constructor
  · split
    · rename_i q
      rw [if_pos q] at h1 h3
      obtain ⟨k, hk⟩ := h1
      obtain ⟨l, hl⟩ := h3
      exact ⟨k + l, by rw [Int.add_mul]; simp only at *; omega⟩
    · rename_i q
      rw [if_neg q] at h1 h3
      simp only at *; omega
  · split
    · rename_i q
      rw [if_pos q] at h2 h4
      obtain ⟨k, hk⟩ := h2
      obtain ⟨l, hl⟩ := h4
      exact ⟨k + l, by rw [Int.add_mul]; simp only at *; omega⟩
    · rename_i q
      rw [if_neg q] at h2 h4
      simp only at *; omega

/-- C05: symmetric. -/
theorem C05_length_symm (wr : Wrap) (w h : Int) (hw : 0 < w) (hh : 0 < h) (a b : XY) :
    wr.vectorLength w h a b = wr.vectorLength w h b a := by
  have key : ∀ a b : XY, wr.vectorLength w h a b ≤ wr.vectorLength w h b a := by
    intro a b
    obtain ⟨dx, dy, h1, h2, h3⟩ := vector_spec wr hw hh b a
    have := vectorLength_le wr hw hh a b _ _ (same_shift wr h2)
    have h4 : hexNorm (-dx) (-dy) = hexNorm dx dy := by unfold hexNorm; omega
    omega
  have h1 := key a b
  have h2 := key b a
  omega

/-- C05: triangle inequality. -/
theorem C05_length_triangle (wr : Wrap) (w h : Int) (hw : 0 < w) (hh : 0 < h) (a b c : XY) :
    wr.vectorLength w h a c ≤ wr.vectorLength w h a b + wr.vectorLength w h b c := by
  obtain ⟨dx, dy, h1, h2, h3⟩ := vector_spec wr hw hh a b
  obtain ⟨ex, ey, h4, h5, h6⟩ := vector_spec wr hw hh b c
  have := vectorLength_le wr hw hh a c _ _ (same_trans wr h2 h5)
  have h7 : hexNorm (dx + ex) (dy + ey) ≤ hexNorm dx dy + hexNorm ex ey :=
    hexNorm_add_le _ _ _ _
  omega

example : InRange .vertical 16 24 (3, 23) ∧ InRange .vertical 16 24 (5, 0) ∧
    Wrap.vertical.vectorLength 16 24 (3, 23) (5, 0) = 2 := by
  refine ⟨by simp [InRange, wrapsX, wrapsY], by simp [InRange, wrapsX, wrapsY], by decide⟩

/-- C06: on a machine without wraps `concentric_xys` lists exactly the positions within the
radius, each once, in order of distance, `1 + 3 r (r + 1)` of them. -/
theorem C06_concentric_exact (w h : Int) (radius : Int) (hr : 0 ≤ radius) (s : XY) :
    (∀ p, p ∈ Wrap.none.concentricXys w h radius s ↔
      Wrap.none.vectorLength w h s p ≤ radius) ∧
    (Wrap.none.concentricXys w h radius s).Nodup ∧
    (Wrap.none.concentricXys w h radius s).Pairwise (fun p q =>
      Wrap.none.vectorLength w h s p ≤ Wrap.none.vectorLength w h s q) ∧
    ((Wrap.none.concentricXys w h radius s).length : Int) = 1 + 3 * radius * (radius + 1) := by
  simp only [Wrap.concentricXys, Wrap.vectorLength, lenNone_eq]
  exact basicConcentric_spec radius hr s

/-- C06: a negative radius yields just the start. -/
theorem C06_concentric_negative (w h : Int) (radius : Int) (hr : radius < 0) (s : XY) :
    Wrap.none.concentricXys w h radius s = [s] := by
  have : radius.toNat = 0 := by omega
  simp [Wrap.concentricXys, basicConcentricXys, this, rings]

/-- C06: on the other machine classes it is the same sequence, each position brought into
range on the wrapped axes. -/
theorem C06_concentric_wrapped (wr : Wrap) (w h : Int) (hw : 0 < w) (hh : 0 < h) (radius : Int)
    (s : XY) :
    (wr.concentricXys w h radius s).length = (Wrap.none.concentricXys w h radius s).length ∧
    ∀ (i : Nat) (p : XY), (Wrap.none.concentricXys w h radius s)[i]? = some p →
      ∃ q, (wr.concentricXys w h radius s)[i]? = some q ∧ Same wr w h p q ∧ InRange wr w h q := by
  have key : wr.concentricXys w h radius s =
      (basicConcentricXys radius s).map (fun p => wr.red w h p) := by
    cases wr <;> simp [Wrap.concentricXys, Wrap.red]
  rw [key]
  simp only [Wrap.concentricXys, List.length_map, true_and]
  intro i p hi
  exact ⟨wr.red w h p, by simp [hi], wr.red_same hw hh p, wr.red_inRange hw hh p⟩

example : (Wrap.none.concentricXys 8 8 1 (0, 0)) =
    [(0, 0), (0, -1), (1, 0), (1, 1), (0, 1), (-1, 0), (-1, -1)] := by decide

/-- C07: the local coordinate of a position computed by `get_global_xy` from a local
coordinate inside the machine's size is that local coordinate. -/
theorem C07_local_of_global (wr : Wrap) (w h : Int) (hw : 0 < w) (hh : 0 < h)
    (lx ly ex ey : Int) (hl : InRange wr w h (lx, ly)) (gx gy : Int)
    (hg : wr.globalXY w h lx ly ex ey = (gx, gy)) :
    wr.localXY w h gx gy ex ey = (lx, ly) := by
  rw [wr.localXY_eq hw hh, show (gx - ex, gy - ey) =
    ((wr.globalXY w h lx ly ex ey).1 + -ex, (wr.globalXY w h lx ly ex ey).2 + -ey) by
      rw [hg]; simp only [Prod.mk.injEq]; omega]
  rw [wr.globalXY_eq, wr.red_red_add hw hh]
  simp only [Int.add_neg_cancel_right]
  exact wr.red_of_inRange hl

/-- C07: the global position of a chip's local coordinate is the chip's own position. -/
theorem C07_global_of_local (wr : Wrap) (w h : Int) (hw : 0 < w) (hh : 0 < h)
    (x y ex ey : Int) (hp : InRange wr w h (x, y)) (lx ly : Int)
    (hl : wr.localXY w h x y ex ey = (lx, ly)) :
    wr.globalXY w h lx ly ex ey = (x, y) := by
  rw [wr.globalXY_eq, show (lx + ex, ly + ey) =
    ((wr.localXY w h x y ex ey).1 + ex, (wr.localXY w h x y ex ey).2 + ey) by
      rw [hl]]
  rw [wr.localXY_eq hw hh, wr.red_red_add hw hh]
  simp only [Int.sub_add_cancel]
  exact wr.red_of_inRange hp

/-- C07: both conversions only ever shift by the Ethernet position (modulo the wrapped axes)
and land in range. -/
theorem C07_global_is_shift (wr : Wrap) (w h : Int) (hw : 0 < w) (hh : 0 < h)
    (lx ly ex ey : Int) :
    Same wr w h (lx + ex, ly + ey) (wr.globalXY w h lx ly ex ey) ∧
    InRange wr w h (wr.globalXY w h lx ly ex ey) := by
  rw [wr.globalXY_eq]
  exact ⟨wr.red_same hw hh _, wr.red_inRange hw hh _⟩

example : InRange .full 24 12 (7, 3) ∧ Wrap.full.globalXY 24 12 7 3 20 4 = (3, 7) ∧
    Wrap.full.localXY 24 12 3 7 20 4 = (7, 3) := by
  refine ⟨by simp [InRange], by decide, by decide⟩

end SpiNN.Props
