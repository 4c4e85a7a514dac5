import Verif.Spec.Mesh

namespace SpiNN
open Spec

theorem pmod_eq_emod {a b : Int} (hb : 0 < b) : pmod a b = a % b := by
  simp [pmod, Int.fmod_eq_emod_of_nonneg _ (Int.le_of_lt hb)]

theorem pmod_nonneg {a b : Int} (hb : 0 < b) : 0 ≤ pmod a b := by
  rw [pmod_eq_emod hb]; exact Int.emod_nonneg _ (by omega)

theorem pmod_lt {a b : Int} (hb : 0 < b) : pmod a b < b := by
  rw [pmod_eq_emod hb]; exact Int.emod_lt_of_pos _ hb

theorem pmod_of_range {a b : Int} (h0 : 0 ≤ a) (h1 : a < b) : pmod a b = a := by
  rw [pmod_eq_emod (by omega)]; exact Int.emod_eq_of_lt h0 h1

theorem pmod_exists (a b : Int) (hb : 0 < b) : ∃ k : Int, a = pmod a b + k * b := by
  refine ⟨a / b, ?_⟩
  rw [pmod_eq_emod hb]
  have := Int.emod_add_mul_ediv a b
  rw [Int.mul_comm] at this
  omega

theorem eq_of_range_mul {a b w k : Int} (hw : 0 < w) (ha0 : 0 ≤ a) (ha : a < w)
    (hb0 : 0 ≤ b) (hb : b < w) (h : a = b + k * w) : a = b := by
  rcases Int.lt_trichotomy k 0 with hk | hk | hk
  · have : k * w ≤ (-1) * w := Int.mul_le_mul_of_nonneg_right (by omega) (by omega)
    omega
  · subst hk; omega
  · have : 1 * w ≤ k * w := Int.mul_le_mul_of_nonneg_right (by omega) (by omega)
    omega

theorem pmod_eq_iff {a b w : Int} (hw : 0 < w) (hb0 : 0 ≤ b) (hb : b < w) :
    pmod a w = b ↔ ∃ k : Int, a = b + k * w := by
  constructor
  · rintro rfl; exact pmod_exists a w hw
  · rintro ⟨k, rfl⟩
    rw [pmod_eq_emod hw, Int.add_mul_emod_self_right]
    exact Int.emod_eq_of_lt hb0 hb

theorem pmod_add_self (a w : Int) (hw : 0 < w) : pmod (a + w) w = pmod a w := by
  rw [pmod_eq_emod hw, pmod_eq_emod hw, Int.add_emod_right]

theorem pmod_add_pmod (a b w : Int) (hw : 0 < w) : pmod (pmod a w + b) w = pmod (a + b) w := by
  rw [pmod_eq_emod hw, pmod_eq_emod hw, pmod_eq_emod hw, Int.emod_add_emod]

theorem pmod_pmod (a w : Int) (hw : 0 < w) : pmod (pmod a w) w = pmod a w := by
  rw [pmod_eq_emod hw, pmod_eq_emod hw, Int.emod_emod]

/-- reduce on the wrapped axes -/
def Wrap.red (wr : Wrap) (w h : Int) (p : XY) : XY :=
  match wr with
  | .none => p
  | .horizontal => (pmod p.1 w, p.2)
  | .vertical => (p.1, pmod p.2 h)
  | .full => (pmod p.1 w, pmod p.2 h)

theorem Wrap.stepBy_eq (wr : Wrap) {w h : Int} (hw : 0 < w) (hh : 0 < h) (x y : Int) (a : XY) :
    wr.stepBy w h x y a = wr.red w h (x + a.1, y + a.2) := by
  cases wr <;> simp [Wrap.stepBy, Wrap.red, pmod_add_self, hw, hh]

theorem Wrap.globalXY_eq (wr : Wrap) (w h : Int) (lx ly ex ey : Int) :
    wr.globalXY w h lx ly ex ey = wr.red w h (lx + ex, ly + ey) := by
  cases wr <;> simp [Wrap.globalXY, Wrap.red]

theorem Wrap.localXY_eq (wr : Wrap) {w h : Int} (hw : 0 < w) (hh : 0 < h) (x y ex ey : Int) :
    wr.localXY w h x y ex ey = wr.red w h (x - ex, y - ey) := by
  cases wr <;> simp [Wrap.localXY, Wrap.red, pmod_add_self, hw, hh]

theorem Wrap.red_inRange (wr : Wrap) {w h : Int} (hw : 0 < w) (hh : 0 < h) (p : XY) :
    InRange wr w h (wr.red w h p) := by
  cases wr <;> simp [Wrap.red, InRange, wrapsX, wrapsY, pmod_nonneg, pmod_lt, hw, hh]

theorem Wrap.red_of_inRange (wr : Wrap) {w h : Int} {p : XY} (hp : InRange wr w h p) :
    wr.red w h p = p := by
  obtain ⟨x, y⟩ := p
  cases wr <;> simp [Wrap.red, InRange, wrapsX, wrapsY] at * <;>
    simp_all [pmod_of_range]

theorem Wrap.red_eq_iff (wr : Wrap) {w h : Int} (hw : 0 < w) (hh : 0 < h) {p q : XY}
    (hq : InRange wr w h q) : wr.red w h p = q ↔ Same wr w h p q := by
  obtain ⟨x, y⟩ := p
  obtain ⟨x', y'⟩ := q
  cases wr <;> simp [Wrap.red, InRange, wrapsX, wrapsY, Same] at * <;>
    simp [pmod_eq_iff, hw, hh, hq]

theorem Wrap.red_same (wr : Wrap) {w h : Int} (hw : 0 < w) (hh : 0 < h) (p : XY) :
    Same wr w h p (wr.red w h p) :=
  (wr.red_eq_iff hw hh (wr.red_inRange hw hh p)).1 rfl

theorem Wrap.red_red_add (wr : Wrap) {w h : Int} (hw : 0 < w) (hh : 0 < h) (p : XY) (a b : Int) :
    wr.red w h ((wr.red w h p).1 + a, (wr.red w h p).2 + b) = wr.red w h (p.1 + a, p.2 + b) := by
  cases wr <;> simp [Wrap.red, pmod_add_pmod, hw, hh]

theorem Wrap.red_idem (wr : Wrap) {w h : Int} (hw : 0 < w) (hh : 0 < h) (p : XY) :
    wr.red w h (wr.red w h p) = wr.red w h p :=
  wr.red_of_inRange (wr.red_inRange hw hh p)

/-! ### Links -/

theorem pyIndex_ok_iff (i : Int) (a : XY) :
    pyIndex linkAddTable i = .ok a ↔
      ((i = 0 ∨ i = -6) ∧ a = (1, 0)) ∨ ((i = 1 ∨ i = -5) ∧ a = (1, 1)) ∨
      ((i = 2 ∨ i = -4) ∧ a = (0, 1)) ∨ ((i = 3 ∨ i = -3) ∧ a = (-1, 0)) ∨
      ((i = 4 ∨ i = -2) ∧ a = (-1, -1)) ∨ ((i = 5 ∨ i = -1) ∧ a = (0, -1)) := by
  by_cases h : -6 ≤ i ∧ i ≤ 5
  · have : i = -6 ∨ i = -5 ∨ i = -4 ∨ i = -3 ∨ i = -2 ∨ i = -1 ∨ i = 0 ∨ i = 1 ∨ i = 2 ∨ i = 3 ∨
      i = 4 ∨ i = 5 := by omega
    rcases this with h | h | h | h | h | h | h | h | h | h | h | h <;> subst h <;>
      simp [pyIndex, linkAddTable, eq_comm]
  · have hne : pyIndex linkAddTable i = .error .indexError := by
      unfold pyIndex
      by_cases hi : i < 0
      · have h3 : i + 6 < 0 := by omega
        simp [hi, linkAddTable, h3]
      · have h4 : ¬ (i.toNat < 6) := by omega
        have : linkAddTable[i.toNat]? = none := by
          rw [List.getElem?_eq_none_iff]; simp [linkAddTable]; omega
        simp [hi, this]
    rw [hne]
    constructor
    · intro h; cases h
    · intro h'; omega

theorem pyIndex_err (i : Int) (h : ¬ (-6 ≤ i ∧ i ≤ 5)) :
    pyIndex linkAddTable i = .error .indexError := by
  unfold pyIndex
  by_cases hi : i < 0
  · have h3 : i + 6 < 0 := by omega
    simp [hi, linkAddTable, h3]
  · have h4 : ¬ (i.toNat < 6) := by omega
    have : linkAddTable[i.toNat]? = none := by
      rw [List.getElem?_eq_none_iff]; simp [linkAddTable]; omega
    simp [hi, this]

/-! ### The hexagonal norm -/

/-- distance from the origin on the unwrapped mesh -/
def hexNorm (x y : Int) : Int := max (max (x.natAbs : Int) (y.natAbs : Int)) ((x - y).natAbs : Int)

theorem lenNone_eq (x y : Int) : Wrap.lenNone x y = hexNorm x y := by
  unfold Wrap.lenNone hexNorm
  split <;> split <;> (try split) <;> omega

theorem hexNorm_nonneg (x y : Int) : 0 ≤ hexNorm x y := by unfold hexNorm; omega

theorem hexNorm_le_iff (x y n : Int) : hexNorm x y ≤ n ↔
    x ≤ n ∧ -x ≤ n ∧ y ≤ n ∧ -y ≤ n ∧ x - y ≤ n ∧ y - x ≤ n := by unfold hexNorm; omega

theorem hexNorm_add_le (a b c d : Int) : hexNorm (a + c) (b + d) ≤ hexNorm a b + hexNorm c d := by
  have h1 := (hexNorm_le_iff a b _).1 (Int.le_refl _)
  have h2 := (hexNorm_le_iff c d _).1 (Int.le_refl _)
  rw [hexNorm_le_iff]
  omega

theorem hexNorm_step (x y dx dy : Int)
    (h : pyIndex linkAddTable i = .ok (dx, dy)) : hexNorm (x + dx) (y + dy) ≤ hexNorm x y + 1 := by
  rw [pyIndex_ok_iff] at h
  simp only [Prod.mk.injEq] at h
  unfold hexNorm
  rcases h with h | h | h | h | h | h <;> obtain ⟨-, rfl, rfl⟩ := h <;> omega

/-- total displacement of a list of links, if they are all links -/
def disp : List Int → Option XY
  | [] => some (0, 0)
  | l :: ls => match pyIndex linkAddTable l, disp ls with
    | .ok a, some b => some (a.1 + b.1, a.2 + b.2)
    | _, _ => none

theorem hexNorm_disp (ls : List Int) (d : XY) (h : disp ls = some d) :
    hexNorm d.1 d.2 ≤ ls.length := by
  induction ls generalizing d with
  | nil => simp [disp] at h; subst h; simp [hexNorm]
  | cons l ls ih =>
    simp only [disp] at h
    split at h
    · rename_i a b ha hb
      simp only [Option.some.injEq] at h
      subst h
      have h1 := ih b hb
      have h2 := hexNorm_step b.1 b.2 a.1 a.2 (i := l) ha
      simp only [List.length_cons]
      rw [show a.1 + b.1 = b.1 + a.1 by omega, show a.2 + b.2 = b.2 + a.2 by omega]
      push_cast
      omega
    · cases h

theorem walk_eq (wr : Wrap) {w h : Int} (hw : 0 < w) (hh : 0 < h) (ls : List Int) (p q : XY)
    (hp : InRange wr w h p) :
    walk wr w h p ls = .ok q ↔ ∃ d, disp ls = some d ∧ wr.red w h (p.1 + d.1, p.2 + d.2) = q := by
  induction ls generalizing p with
  | nil =>
    simp only [walk, disp, Except.ok.injEq, Option.some.injEq]
    constructor
    · rintro rfl
      refine ⟨_, rfl, ?_⟩
      simpa using wr.red_of_inRange hp
    · rintro ⟨d, rfl, rfl⟩
      simpa using (wr.red_of_inRange hp).symm
  | cons l ls ih =>
    simp only [walk, Wrap.xyOverLink, disp]
    cases hl : pyIndex linkAddTable l with
    | error e => simp
    | ok a =>
      simp only
      rw [ih _ (by rw [wr.stepBy_eq hw hh]; exact wr.red_inRange hw hh _)]
      cases hd : disp ls with
      | none => simp
      | some b =>
        simp only [Option.some.injEq, exists_eq_left', wr.stepBy_eq hw hh, wr.red_red_add hw hh]
        rw [show p.1 + a.1 + b.1 = p.1 + (a.1 + b.1) by omega,
          show p.2 + a.2 + b.2 = p.2 + (a.2 + b.2) by omega]

/-! ### Vector length is minimal -/

theorem mul_pos_cases (k w : Int) (hw : 0 < w) :
    (0 ≤ k ∧ 0 ≤ k * w) ∨ (k < 0 ∧ k * w ≤ -w) := by
  rcases Int.lt_or_le k 0 with hk | hk
  · right
    have : k * w ≤ (-1) * w := Int.mul_le_mul_of_nonneg_right (by omega) (by omega)
    omega
  · left; exact ⟨hk, Int.mul_nonneg hk (by omega)⟩

theorem shift_exists {a b c w : Int} (hw : 0 < w) (h : ∃ k : Int, a + c = b + k * w) :
    ∃ k : Int, c = pmod (b - a) w + k * w := by
  obtain ⟨k, hk⟩ := h
  obtain ⟨k', hk'⟩ := pmod_exists (b - a) w hw
  refine ⟨k + k', ?_⟩
  rw [Int.add_mul]; omega

theorem lenFull_eq (w h : Int) (src dst : XY) :
    Wrap.lenFull w h src dst =
      min (min (min (max (pmod (dst.1 - src.1) w) (pmod (dst.2 - src.2) h))
        (pmod (dst.2 - src.2) h - (pmod (dst.1 - src.1) w - w)))
        (pmod (dst.1 - src.1) w - (pmod (dst.2 - src.2) h - h)))
        (max (-(pmod (dst.1 - src.1) w - w)) (-(pmod (dst.2 - src.2) h - h))) := by
  have hmin : ∀ a b : Int, (if b < a then b else a) = min a b := by
    intro a b; split <;> omega
  have hmax : ∀ a b : Int, (if a > b then a else b) = max a b := by
    intro a b; split <;> omega
  have hmax2 : ∀ a b : Int, (if a > b then -b else -a) = max (-a) (-b) := by
    intro a b; split <;> omega
  simp only [Wrap.lenFull, hmin, hmax, hmax2]

/-- no displacement that leads to the destination is shorter -/
theorem vectorLength_le (wr : Wrap) {w h : Int} (hw : 0 < w) (hh : 0 < h) (src dst : XY)
    (dx dy : Int) (hd : Same wr w h (src.1 + dx, src.2 + dy) dst) :
    wr.vectorLength w h src dst ≤ hexNorm dx dy := by
  cases wr <;> simp [Same, wrapsX, wrapsY] at hd
  · simp only [Wrap.vectorLength, lenNone_eq]
    rw [show dst.1 - src.1 = dx by omega, show dst.2 - src.2 = dy by omega]; omega
  · obtain ⟨h1, h2⟩ := hd
    obtain ⟨k, hk⟩ := shift_exists hw h1
    have hx0 := @pmod_nonneg (dst.1 - src.1) w hw
    have hx1 := @pmod_lt (dst.1 - src.1) w hw
    have hy : dst.2 - src.2 = dy := by omega
    simp only [Wrap.vectorLength, hy, Wrap.horLenRight, Wrap.horLenLeft]
    generalize pmod (dst.1 - src.1) w = xr at *
    have := mul_pos_cases k w hw
    generalize k * w = kw at *
    unfold hexNorm
    split <;> split <;> omega
  · obtain ⟨h1, h2⟩ := hd
    obtain ⟨k, hk⟩ := shift_exists hh h2
    have hx0 := @pmod_nonneg (dst.2 - src.2) h hh
    have hx1 := @pmod_lt (dst.2 - src.2) h hh
    have hy : dst.1 - src.1 = dx := by omega
    simp only [Wrap.vectorLength, hy, Wrap.verLenUp, Wrap.verLenDown]
    generalize pmod (dst.2 - src.2) h = xr at *
    have := mul_pos_cases k h hh
    generalize k * h = kw at *
    unfold hexNorm
    split <;> split <;> omega
  · obtain ⟨h1, h2⟩ := hd
    obtain ⟨k, hk⟩ := shift_exists hw h1
    obtain ⟨l, hl⟩ := shift_exists hh h2
    have hx0 := @pmod_nonneg (dst.1 - src.1) w hw
    have hx1 := @pmod_lt (dst.1 - src.1) w hw
    have hy0 := @pmod_nonneg (dst.2 - src.2) h hh
    have hy1 := @pmod_lt (dst.2 - src.2) h hh
    simp only [Wrap.vectorLength, lenFull_eq]
    generalize pmod (dst.1 - src.1) w = xr at *
    generalize pmod (dst.2 - src.2) h = yr at *
    have h3 := mul_pos_cases k w hw
    generalize k * w = kw at *
    have h4 := mul_pos_cases l h hh
    generalize l * h = lh at *
    clear h1 h2
    have : max xr yr ≤ hexNorm dx dy ∨ yr - (xr - w) ≤ hexNorm dx dy ∨
        xr - (yr - h) ≤ hexNorm dx dy ∨ max (-(xr - w)) (-(yr - h)) ≤ hexNorm dx dy := by
      unfold hexNorm
      rcases h3 with ⟨-, h3⟩ | ⟨-, h3⟩ <;> rcases h4 with ⟨-, h4⟩ | ⟨-, h4⟩
      · left; omega
      · right; right; left; omega
      · right; left; omega
      · right; right; right; omega
    omega

/-! ### The vector -/

/-- where the code's vector `(x, y, z)` leads: `x` East, `y` North, `z` South-West -/
def vecDisp (v : Int × Int × Int) : XY := (v.1 - v.2.2, v.2.1 - v.2.2)

theorem minimizeVector_disp (x y : Int) : vecDisp (Wrap.minimizeVector x y) = (x, y) := by
  unfold Wrap.minimizeVector vecDisp
  split <;> split <;> (try split) <;> simp <;> omega

/-- magnitude -/
def vecAbs (v : Int × Int × Int) : Int := (v.1.natAbs : Int) + v.2.1.natAbs + v.2.2.natAbs

theorem minimizeVector_abs (x y : Int) : vecAbs (Wrap.minimizeVector x y) = hexNorm x y := by
  unfold Wrap.minimizeVector vecAbs hexNorm
  split <;> split <;> (try split) <;> simp <;> omega

/-- at least one zero and no two components of the same sign -/
def VecMinimal (v : Int × Int × Int) : Prop :=
  (v.1 = 0 ∨ v.2.1 = 0 ∨ v.2.2 = 0) ∧
  ¬ (0 < v.1 ∧ 0 < v.2.1) ∧ ¬ (0 < v.1 ∧ 0 < v.2.2) ∧ ¬ (0 < v.2.1 ∧ 0 < v.2.2) ∧
  ¬ (v.1 < 0 ∧ v.2.1 < 0) ∧ ¬ (v.1 < 0 ∧ v.2.2 < 0) ∧ ¬ (v.2.1 < 0 ∧ v.2.2 < 0)

theorem minimizeVector_minimal (x y : Int) : VecMinimal (Wrap.minimizeVector x y) := by
  unfold Wrap.minimizeVector VecMinimal
  split <;> split <;> (try split) <;> simp <;> omega

/-- `get_vector` is `_minimize_vector` of a displacement that leads to the destination and
has the length of `get_vector_length` -/
theorem vector_spec (wr : Wrap) {w h : Int} (hw : 0 < w) (hh : 0 < h) (src dst : XY) :
    ∃ dx dy, wr.vector w h src dst = Wrap.minimizeVector dx dy ∧
      Same wr w h (src.1 + dx, src.2 + dy) dst ∧ hexNorm dx dy = wr.vectorLength w h src dst := by
  cases wr <;> simp only [Same, wrapsX, wrapsY]
  · refine ⟨_, _, rfl, ?_, ?_⟩
    · simp; omega
    · simp [Wrap.vectorLength, lenNone_eq]
  · obtain ⟨k, hk⟩ := pmod_exists (dst.1 - src.1) w hw
    have hx0 := @pmod_nonneg (dst.1 - src.1) w hw
    have hx1 := @pmod_lt (dst.1 - src.1) w hw
    simp only [Wrap.vectorLength, Wrap.vector]
    generalize pmod (dst.1 - src.1) w = xr at *
    generalize hy : dst.2 - src.2 = y
    split
    · rename_i hlt
      refine ⟨_, _, rfl, ?_, ?_⟩
      · simp
        refine ⟨⟨-k, ?_⟩, ?_⟩
        · rw [Int.neg_mul]; omega
        · omega
      · unfold Wrap.horLenRight hexNorm
        split <;> (try split) <;> omega
    · refine ⟨_, _, rfl, ?_, ?_⟩
      · simp
        refine ⟨⟨-k - 1, ?_⟩, ?_⟩
        · rw [Int.sub_mul, Int.neg_mul]; omega
        · omega
      · unfold Wrap.horLenLeft hexNorm
        split <;> (try split) <;> omega
  · obtain ⟨k, hk⟩ := pmod_exists (dst.2 - src.2) h hh
    have hx0 := @pmod_nonneg (dst.2 - src.2) h hh
    have hx1 := @pmod_lt (dst.2 - src.2) h hh
    simp only [Wrap.vectorLength, Wrap.vector]
    generalize pmod (dst.2 - src.2) h = yr at *
    generalize hy : dst.1 - src.1 = x
    split
    · rename_i hlt
      refine ⟨_, _, rfl, ?_, ?_⟩
      · simp
        refine ⟨?_, ⟨-k, ?_⟩⟩
        · omega
        · rw [Int.neg_mul]; omega
      · unfold Wrap.verLenUp hexNorm
        split <;> (try split) <;> omega
    · refine ⟨_, _, rfl, ?_, ?_⟩
      · simp
        refine ⟨?_, ⟨-k - 1, ?_⟩⟩
        · omega
        · rw [Int.sub_mul, Int.neg_mul]; omega
      · unfold Wrap.verLenDown hexNorm
        split <;> (try split) <;> omega
  · obtain ⟨k, hk⟩ := pmod_exists (dst.1 - src.1) w hw
    obtain ⟨l, hl⟩ := pmod_exists (dst.2 - src.2) h hh
    have hx0 := @pmod_nonneg (dst.1 - src.1) w hw
    have hx1 := @pmod_lt (dst.1 - src.1) w hw
    have hy0 := @pmod_nonneg (dst.2 - src.2) h hh
    have hy1 := @pmod_lt (dst.2 - src.2) h hh
    have key : ∃ dx dy, Wrap.vecFull w h src dst = Wrap.minimizeVector dx dy ∧
        (dx = pmod (dst.1 - src.1) w ∨ dx = pmod (dst.1 - src.1) w - w) ∧
        (dy = pmod (dst.2 - src.2) h ∨ dy = pmod (dst.2 - src.2) h - h) ∧
        hexNorm dx dy = Wrap.lenFull w h src dst := by
      rw [lenFull_eq]
      simp only [Wrap.vecFull]
      generalize pmod (dst.1 - src.1) w = xr at *
      generalize pmod (dst.2 - src.2) h = yr at *
      clear hk hl
      have hmax : (if xr > yr then xr else yr) = max xr yr := by split <;> omega
      have hmax2 : (if xr - w > yr - h then -(yr - h) else -(xr - w)) =
        max (-(xr - w)) (-(yr - h)) := by split <;> omega
      rw [hmax, hmax2]
      by_cases c1 : yr - (xr - w) < max xr yr
      · simp only [c1, if_true]
        by_cases c2 : xr - (yr - h) < yr - (xr - w)
        · simp only [c2, if_true]
          split
          · exact ⟨_, _, rfl, .inr rfl, .inr rfl, by unfold hexNorm; omega⟩
          · exact ⟨_, _, rfl, .inl rfl, .inr rfl, by unfold hexNorm; omega⟩
        · simp only [c2, if_false]
          split
          · exact ⟨_, _, rfl, .inr rfl, .inr rfl, by unfold hexNorm; omega⟩
          · exact ⟨_, _, rfl, .inr rfl, .inl rfl, by unfold hexNorm; omega⟩
      · simp only [c1, if_false]
        by_cases c2 : xr - (yr - h) < max xr yr
        · simp only [c2, if_true]
          split
          · exact ⟨_, _, rfl, .inr rfl, .inr rfl, by unfold hexNorm; omega⟩
          · exact ⟨_, _, rfl, .inl rfl, .inr rfl, by unfold hexNorm; omega⟩
        · simp only [c2, if_false]
          split
          · exact ⟨_, _, rfl, .inr rfl, .inr rfl, by unfold hexNorm; omega⟩
          · exact ⟨_, _, rfl, .inl rfl, .inl rfl, by unfold hexNorm; omega⟩
    obtain ⟨dx, dy, h1, h2, h3, h4⟩ := key
    refine ⟨dx, dy, h1, ?_, h4⟩
    simp
    constructor
    · rcases h2 with h2 | h2
      · exact ⟨-k, by rw [Int.neg_mul]; omega⟩
      · exact ⟨-k - 1, by rw [Int.sub_mul, Int.neg_mul]; omega⟩
    · rcases h3 with h2 | h2
      · exact ⟨-l, by rw [Int.neg_mul]; omega⟩
      · exact ⟨-l - 1, by rw [Int.sub_mul, Int.neg_mul]; omega⟩

end SpiNN

namespace SpiNN
open Spec

/-! ### A walk of the length of the vector -/

theorem disp_append (a b : List Int) (p q : XY) (ha : disp a = some p) (hb : disp b = some q) :
    disp (a ++ b) = some (p.1 + q.1, p.2 + q.2) := by
  induction a generalizing p with
  | nil => simp [disp] at ha; subst ha; simp [hb]
  | cons l ls ih =>
    simp only [disp] at ha
    split at ha
    · rename_i u v hu hv
      simp only [Option.some.injEq] at ha
      subst ha
      simp only [List.cons_append, disp, hu, ih v hv, Option.some.injEq, Prod.mk.injEq]
      omega
    · cases ha

theorem disp_replicate (n : Nat) (l : Int) (a : XY) (h : pyIndex linkAddTable l = .ok a) :
    disp (List.replicate n l) = some (n * a.1, n * a.2) := by
  induction n with
  | zero => simp [disp]
  | succ n ih =>
    simp only [List.replicate_succ, disp, h, ih, Option.some.injEq, Prod.mk.injEq]
    push_cast
    rw [Int.add_mul, Int.add_mul]
    omega

/-- links to take for a count along an axis -/
def axisPath (n : Int) (pos neg : Int) : List Int :=
  if 0 ≤ n then List.replicate n.natAbs pos else List.replicate n.natAbs neg

/-- the links of a vector -/
def vecPath (v : Int × Int × Int) : List Int :=
  axisPath v.1 0 3 ++ (axisPath v.2.1 2 5 ++ axisPath v.2.2 4 1)

theorem axisPath_length (n p q : Int) : (axisPath n p q).length = n.natAbs := by
  unfold axisPath; split <;> simp

theorem vecPath_length (v : Int × Int × Int) : ((vecPath v).length : Int) = vecAbs v := by
  simp [vecPath, axisPath_length, vecAbs]; omega

theorem axisPath_disp (n p q : Int) (a : XY) (h1 : pyIndex linkAddTable p = .ok a)
    (h2 : pyIndex linkAddTable q = .ok (-a.1, -a.2)) :
    disp (axisPath n p q) = some (n * a.1, n * a.2) := by
  unfold axisPath
  split
  · rw [disp_replicate _ _ _ h1]
    have : (n.natAbs : Int) = n := by omega
    rw [this]
  · rw [disp_replicate _ _ _ h2]
    have : (n.natAbs : Int) = -n := by omega
    rw [this]
    simp only [Int.neg_mul_neg]

theorem vecPath_disp (v : Int × Int × Int) : disp (vecPath v) = some (vecDisp v) := by
  unfold vecPath
  have h1 := axisPath_disp v.1 0 3 (1, 0) (by decide) (by decide)
  have h2 := axisPath_disp v.2.1 2 5 (0, 1) (by decide) (by decide)
  have h3 := axisPath_disp v.2.2 4 1 (-1, -1) (by decide) (by decide)
  rw [disp_append _ _ _ _ h1 (disp_append _ _ _ _ h2 h3)]
  simp [vecDisp]
  omega

theorem vecPath_links (v : Int × Int × Int) (l : Int) (h : l ∈ vecPath v) : 0 ≤ l ∧ l ≤ 5 := by
  simp only [vecPath, axisPath, List.mem_append] at h
  rcases h with h | h | h <;> split at h <;> simp at h <;> omega

end SpiNN
