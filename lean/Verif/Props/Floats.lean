import Verif.Model.Floats
import Verif.Lemmas.Floats
import Verif.Lemmas.Counts
import Verif.Props.Boards

/-!
# C85 Floating point
-/

namespace SpiNN.Props
open SpiNN SpiNN.Spec

private theorem ceil_div (a b : Int) (hb : 0 < b) : ⌈(a : ℝ) / b⌉ = ceilDiv a b := by
  obtain ⟨h1, h2⟩ := ceilDiv_spec a b hb
  have hb' : (0 : ℝ) < b := by exact_mod_cast hb
  rw [Int.ceil_eq_iff]
  constructor
  · rw [lt_div_iff₀ hb']
    have : ((ceilDiv a b - 1) * b : ℤ) < a := by rw [Int.mul_comm]; exact h2
    exact_mod_cast this
  · rw [div_le_iff₀ hb', mul_comm]
    exact_mod_cast h1

/-- rounding up is not disturbed by rounding to nearest if there is a double between the number and
the integer below -/
private theorem ceil_near {x y z : ℝ} (h : Nearest x y) (hz : IsDouble z) (hzx : z ≤ x)
    (hlow : (⌈x⌉ : ℝ) - 1 < z) (hc : |⌈x⌉| ≤ 2 ^ 53) : ⌈y⌉ = ⌈x⌉ := by
  rw [Int.ceil_eq_iff]
  exact ⟨lt_of_lt_of_le hlow (h.le_of_le hz hzx), h.ge_of_ge (isDouble_int hc) (Int.le_ceil x)⟩

/-- the first division -/
private theorem ceil_third {fl : ℝ → ℝ} (hfl : Rounding fl) (n : Int) (hn : 0 ≤ n) (hn' : n ≤ 3 * 2 ^ 52) :
    ⌈fl (n / 3)⌉ = ceilDiv n 3 := by
  have hr := hfl ((n : ℝ) / 3)
  have h3 : n % 3 = 0 ∨ n % 3 = 1 ∨ n % 3 = 2 := by omega
  obtain ⟨m, hm⟩ : ∃ m : ℤ, n = 3 * m + n % 3 := ⟨n / 3, by omega⟩
  have hmb : 0 ≤ m ∧ m ≤ 2 ^ 52 := by omega
  rw [show (3 : ℝ) = ((3 : ℤ) : ℝ) by norm_num] at hr ⊢
  rw [← ceil_div n 3 (by norm_num)]
  rcases h3 with h | h | h
  · have he : (n : ℝ) / ((3 : ℤ) : ℝ) = m := by rw [hm, h]; push_cast; field_simp; ring
    rw [he] at hr ⊢
    rw [hr.eq (isDouble_int (by rw [abs_of_nonneg hmb.1]; omega))]
  · have he : (n : ℝ) / ((3 : ℤ) : ℝ) = m + 1 / 3 := by rw [hm, h]; push_cast; field_simp
    rw [he] at hr ⊢
    have hc : ⌈(m : ℝ) + 1 / 3⌉ = m + 1 := by
      rw [Int.ceil_eq_iff]; push_cast; constructor <;> linarith
    have hm2 : m < 2 ^ 52 := by omega
    rw [hc, Int.ceil_eq_iff]
    push_cast
    constructor
    · have hd : IsDouble ((m : ℝ) + 1 / 2) := by
        refine ⟨2 * m + 1, -1, ?_, ?_⟩
        · rw [abs_of_nonneg (by omega)]; omega
        · push_cast; rw [zpow_neg_one]; ring
      have := hr.2 _ hd
      rw [show (m : ℝ) + 1 / 3 - (m + 1 / 2) = -(1 / 6) by ring, abs_neg, abs_of_pos (show (0 : ℝ) < 1 / 6 by norm_num)] at this
      rw [abs_le] at this
      linarith
    · have := hr.ge_of_ge (z := ((m + 1 : ℤ) : ℝ)) (isDouble_int (by rw [abs_of_nonneg (by omega)]; omega))
        (by push_cast; linarith)
      push_cast at this
      exact this
  · have he : (n : ℝ) / ((3 : ℤ) : ℝ) = m + 2 / 3 := by rw [hm, h]; push_cast; field_simp
    rw [he] at hr ⊢
    have hc : ⌈(m : ℝ) + 2 / 3⌉ = m + 1 := by
      rw [Int.ceil_eq_iff]; push_cast; constructor <;> linarith
    have hm2 : m < 2 ^ 52 := by omega
    refine ceil_near hr (z := (m : ℝ) + 1 / 2) ?_ (by linarith) (by rw [hc]; push_cast; linarith)
      (by rw [hc, abs_of_nonneg (by omega)]; omega)
    refine ⟨2 * m + 1, -1, ?_, ?_⟩
    · rw [abs_of_nonneg (by omega)]; omega
    · push_cast; rw [zpow_neg_one]; ring

/-- a little more than an integer -/
private theorem isDouble_above (s : ℤ) (h0 : 0 ≤ s) (h1 : s < 2 ^ 26) :
    IsDouble ((s : ℝ) + 1 / 2 ^ 27) := by
  refine ⟨s * 2 ^ 27 + 1, -27, ?_, ?_⟩
  · rw [abs_of_nonneg (by omega)]; omega
  · have : (2 : ℝ) ^ (-27 : ℤ) = 1 / 2 ^ 27 := by rw [zpow_neg]; norm_num
    rw [this]; push_cast; ring

/-- the square root -/
private theorem ceil_sqrt {fl : ℝ → ℝ} (hfl : Rounding fl) (t : Int) (ht : 0 < t) (ht' : t ≤ 2 ^ 52) :
    ⌈fl (Real.sqrt (fl t))⌉ = VKind.ceilSqrt t ∧ 0 < VKind.ceilSqrt t ∧ VKind.ceilSqrt t ≤ 2 ^ 26 := by
  obtain ⟨h0, h1, h2⟩ := ceilSqrt_spec t ht
  set s := VKind.ceilSqrt t with hs
  have hs26 : s ≤ 2 ^ 26 := by
    by_contra hc
    have : 2 ^ 26 ≤ s - 1 := by omega
    have := Int.mul_le_mul this this (by norm_num) (by omega)
    omega
  refine ⟨?_, h0, hs26⟩
  rw [(hfl t).eq (isDouble_int (by rw [abs_of_pos ht]; omega))]
  have hr := hfl (Real.sqrt t)
  have h1r : (t : ℝ) ≤ (s : ℝ) ^ 2 := by rw [sq]; exact_mod_cast h1
  have h2r : ((s : ℝ) - 1) ^ 2 + 1 ≤ t := by
    have : (s - 1) * (s - 1) + 1 ≤ t := by omega
    rw [sq]; exact_mod_cast this
  have h0r : (1 : ℝ) ≤ s := by exact_mod_cast h0
  have hsr : (s : ℝ) ≤ 2 ^ 26 := by exact_mod_cast hs26
  rw [Int.ceil_eq_iff]
  constructor
  · have hd := isDouble_above (s - 1) (by omega) (by omega)
    have hz : (((s - 1 : ℤ) : ℝ) + 1 / 2 ^ 27) ≤ Real.sqrt t := by
      push_cast
      rw [Real.le_sqrt' (by linarith [show (0:ℝ) < 1 / 2 ^ 27 by positivity])]
      nlinarith
    have := hr.le_of_le hd hz
    push_cast at this
    have : (0 : ℝ) < 1 / 2 ^ 27 := by positivity
    linarith
  · exact hr.ge_of_ge (isDouble_int (by rw [abs_of_pos h0]; omega))
      (by rw [Real.sqrt_le_left (by linarith)]; exact h1r)

/-- the second division -/
private theorem ceil_rows {fl : ℝ → ℝ} (hfl : Rounding fl) (t w : Int) (ht : 0 < t) (hw : 0 < w)
    (hw' : w ≤ 2 ^ 26) (htw : t ≤ w * w) : ⌈fl (t / w)⌉ = ceilDiv t w := by
  have hr := hfl ((t : ℝ) / w)
  obtain ⟨h1, h2⟩ := ceilDiv_spec t w hw
  have hwr : (0 : ℝ) < w := by exact_mod_cast hw
  have hc := ceil_div t w hw
  have hcw : ceilDiv t w ≤ w := by
    by_contra hlt
    have : w ≤ ceilDiv t w - 1 := by omega
    have := Int.mul_le_mul_of_nonneg_left this (Int.le_of_lt hw)
    omega
  have hc0 : 0 < ceilDiv t w := by
    by_contra hlt
    have := Int.mul_le_mul_of_nonneg_left (show ceilDiv t w ≤ 0 by omega) (Int.le_of_lt hw)
    omega
  have hd := isDouble_above (ceilDiv t w - 1) (by omega) (by omega)
  rw [← hc]
  refine ceil_near hr hd ?_ ?_ ?_
  · rw [le_div_iff₀ hwr]
    have h2' : (w : ℝ) * ((ceilDiv t w : ℝ) - 1) + 1 ≤ t := by
      have : w * (ceilDiv t w - 1) + 1 ≤ t := by omega
      exact_mod_cast this
    have hw26 : (w : ℝ) ≤ 2 ^ 26 := by exact_mod_cast hw'
    push_cast
    nlinarith
  · rw [hc]; push_cast
    have : (0 : ℝ) < 1 / 2 ^ 27 := by positivity
    linarith
  · rw [hc, abs_of_pos hc0]; omega

/-- Up to 3 · 2^52 boards, floating point arithmetic gives the size that exact arithmetic gives. -/
theorem C85_boards_exact (fl : ℝ → ℝ) (hfl : Rounding fl) (k : VKind) (hk : k = .v5 ∨ k = .v248)
    (n : Int) (hn : n ≤ 3 * 2 ^ 52) : k.sizeFromNBoards n = .ok (sizeFromNBoardsFl fl n) := by
  have h48 : k.is48 = true := by rcases hk with rfl | rfl <;> rfl
  unfold VKind.sizeFromNBoards sizeFromNBoardsFl
  simp only [h48, if_true]
  split
  · rfl
  · rename_i h1
    have ht : 0 < ceilDiv n 3 ∧ ceilDiv n 3 ≤ 2 ^ 52 := by
      have := ceilDiv_spec n 3 (by norm_num)
      omega
    obtain ⟨hs, hs0, hs26⟩ := ceil_sqrt hfl _ ht.1 ht.2
    simp only [ceil_third hfl n (by omega) hn, hs, VKind.sizeFromTriads,
      ceil_rows hfl _ _ ht.1 hs0 hs26 (ceilSqrt_spec _ ht.1).2.1]

/-- So a machine of the size the program computes has at least that many boards. -/
theorem C85_enough_boards (fl : ℝ → ℝ) (hfl : Rounding fl) (k : VKind) (hk : k = .v5 ∨ k = .v248)
    (n : Int) (hn : n ≤ 3 * 2 ^ 52) :
    SizeOK k (sizeFromNBoardsFl fl n).1 (sizeFromNBoardsFl fl n).2 ∧
    n ≤ ((k.potentialEthernetChips (sizeFromNBoardsFl fl n).1 (sizeFromNBoardsFl fl n).2).length : Int) := by
  obtain ⟨w, h, hs, hok, hle, -⟩ := C14_enough_boards k hk n
  rw [C85_boards_exact fl hfl k hk n hn] at hs
  injection hs with hs
  rw [hs]
  exact ⟨hok, hle⟩

/-- One board more and there are too few: the machine has only 3 · 2^52 boards. -/
theorem C85_too_few_boards (fl : ℝ → ℝ) (hfl : Rounding fl) (k : VKind) (hk : k = .v5 ∨ k = .v248) :
    ((k.potentialEthernetChips (sizeFromNBoardsFl fl (3 * 2 ^ 52 + 1)).1
      (sizeFromNBoardsFl fl (3 * 2 ^ 52 + 1)).2).length : Int) < 3 * 2 ^ 52 + 1 := by
  have hsame : sizeFromNBoardsFl fl (3 * 2 ^ 52 + 1) = sizeFromNBoardsFl fl (3 * 2 ^ 52) := by
    have hr := hfl (((3 * 2 ^ 52 + 1 : ℤ) : ℝ) / 3)
    have hx : ((3 * 2 ^ 52 + 1 : ℤ) : ℝ) / 3 = 2 ^ 52 + 1 / 3 := by norm_num
    have hy : fl (((3 * 2 ^ 52 + 1 : ℤ) : ℝ) / 3) = 2 ^ 52 := by
      rw [hx] at hr ⊢
      obtain ⟨⟨j, e, hj, hje⟩, hnear⟩ := hr
      have h1 := hnear (2 ^ 52) ⟨2 ^ 52, 0, by norm_num, by norm_num⟩
      have h2 : (2 : ℝ) ^ 52 ≤ fl (2 ^ 52 + 1 / 3) :=
        (hfl (2 ^ 52 + 1 / 3)).le_of_le ⟨2 ^ 52, 0, by norm_num, by norm_num⟩ (by norm_num)
      rw [show (2 : ℝ) ^ 52 + 1 / 3 - 2 ^ 52 = 1 / 3 by ring, abs_of_pos (show (0 : ℝ) < 1 / 3 by norm_num),
        abs_le] at h1
      have h3 : fl (2 ^ 52 + 1 / 3) ≤ 2 ^ 52 + 2 / 3 := by linarith [h1.1]
      rw [hje] at h2 h3 ⊢
      by_cases he : 0 ≤ e
      · obtain ⟨d, rfl⟩ := Int.eq_ofNat_of_zero_le he
        rw [zpow_natCast] at h2 h3 ⊢
        have e1 : (2 ^ 52 : ℤ) ≤ j * 2 ^ d := by
          have : ((2 ^ 52 : ℤ) : ℝ) ≤ ((j * 2 ^ d : ℤ) : ℝ) := by push_cast; linarith
          exact_mod_cast this
        have e2 : (j * 2 ^ d : ℤ) < 2 ^ 52 + 1 := by
          have : ((j * 2 ^ d : ℤ) : ℝ) < ((2 ^ 52 + 1 : ℤ) : ℝ) := by push_cast; linarith
          exact_mod_cast this
        have e3 : (j * 2 ^ d : ℤ) = 2 ^ 52 := by omega
        exact_mod_cast e3
      · have hle : (2 : ℝ) ^ e ≤ 2 ^ (-1 : ℤ) := zpow_le_zpow_right₀ (by norm_num) (by omega)
        have hpos : (0 : ℝ) < 2 ^ e := zpow_pos (by norm_num) _
        have hj' : (j : ℝ) ≤ 2 ^ 53 := by
          have := (abs_le.1 hj).2
          exact_mod_cast this
        rw [zpow_neg_one] at hle
        have : (j : ℝ) * 2 ^ e ≤ 2 ^ 53 * 2 ^ e := mul_le_mul_of_nonneg_right hj' hpos.le
        have : (2 : ℝ) ^ 53 * 2 ^ e ≤ 2 ^ 53 * 2⁻¹ := mul_le_mul_of_nonneg_left hle (by norm_num)
        have : (2 : ℝ) ^ 53 * 2⁻¹ = 2 ^ 52 := by norm_num
        linarith
    have hz : fl (((3 * 2 ^ 52 : ℤ) : ℝ) / 3) = 2 ^ 52 := by
      have h0 := hfl (((3 * 2 ^ 52 : ℤ) : ℝ) / 3)
      rw [show ((3 * 2 ^ 52 : ℤ) : ℝ) / 3 = 2 ^ 52 by norm_num] at h0 ⊢
      exact h0.eq ⟨2 ^ 52, 0, by norm_num, by norm_num⟩
    unfold sizeFromNBoardsFl
    rw [if_neg (by norm_num), if_neg (by norm_num), hy, hz]
  obtain ⟨w, h, hs, -, -, hex⟩ := C14_enough_boards k hk (3 * 2 ^ 52)
  rw [C85_boards_exact fl hfl k hk _ (le_refl _)] at hs
  injection hs with hs
  obtain ⟨a, b, hwa, hhb, hlen, -⟩ := hex (by norm_num)
  rw [hsame, hs, hlen]
  have ht : ceilDiv (3 * 2 ^ 52) 3 = 2 ^ 52 := by
    have := ceilDiv_spec (3 * 2 ^ 52) 3 (by norm_num)
    omega
  obtain ⟨h0, h1, h2⟩ := ceilSqrt_spec (2 ^ 52) (by norm_num)
  have hsq : VKind.ceilSqrt (2 ^ 52) = 2 ^ 26 := by
    have hle : VKind.ceilSqrt (2 ^ 52) ≤ 2 ^ 26 := by
      by_contra hc
      have : 2 ^ 26 ≤ VKind.ceilSqrt (2 ^ 52) - 1 := by omega
      have := Int.mul_le_mul this this (by norm_num) (by omega)
      omega
    by_contra hc
    have : VKind.ceilSqrt (2 ^ 52) ≤ 2 ^ 26 - 1 := by omega
    have := Int.mul_le_mul this this (by omega) (by norm_num)
    omega
  have hrow : ceilDiv (2 ^ 52) (2 ^ 26) = 2 ^ 26 := by
    have := ceilDiv_spec (2 ^ 52) (2 ^ 26) (by norm_num)
    omega
  have hex' := C85_boards_exact fl hfl k hk (3 * 2 ^ 52) (le_refl _)
  have h48 : k.is48 = true := by rcases hk with rfl | rfl <;> rfl
  unfold VKind.sizeFromNBoards at hex'
  simp only [h48, if_true, ht, hsq, VKind.sizeFromTriads, hrow] at hex'
  rw [if_neg (by norm_num), hs] at hex'
  rw [Except.ok.injEq, Prod.mk.injEq] at hex'
  have ha : a = 2 ^ 26 := by omega
  have hb : b = 2 ^ 26 := by omega
  rw [ha, hb]
  norm_num

/-- The size computed by `virtual_machine_by_min_size` is the exact one, up to 2^53 chips a side. -/
theorem C85_min_size_exact (fl : ℝ → ℝ) (hfl : Rounding fl) (k : VKind) (w h : Int) (hw : |w| ≤ 2 ^ 53)
    (hh : |h| ≤ 2 ^ 53) : minSizeFl fl k w h = minSize k w h := by
  have key : ∀ (d : ℕ) (x : ℤ), |x| ≤ 2 ^ 53 → ⌈fl ((x : ℝ) / ((2 ^ d : ℤ) : ℝ))⌉ = ceilDiv x (2 ^ d) := by
    intro d x hx
    rw [(hfl _).eq ⟨x, -d, hx, by rw [zpow_neg, zpow_natCast]; push_cast; rw [div_eq_mul_inv]⟩]
    exact ceil_div x (2 ^ d) (by positivity)
  obtain ⟨d, hd⟩ : ∃ d : ℕ, k.boardShape = (2 ^ d, 2 ^ d) ∧ (2 : ℤ) ^ d ≤ 8 := by
    cases k
    · exact ⟨1, rfl, by norm_num⟩
    · exact ⟨3, rfl, by norm_num⟩
    · exact ⟨0, rfl, by norm_num⟩
    · exact ⟨3, rfl, by norm_num⟩
  have hpos : (0 : ℤ) < 2 ^ d := by positivity
  have hle : |(2 : ℤ) ^ d * 2| ≤ 2 ^ 53 := by
    rw [abs_of_pos (by omega)]; omega
  unfold minSizeFl minSize
  rw [hd.1]
  simp only
  rw [Prod.mk.injEq]
  constructor
  · rw [key]
    split <;> assumption
  · rw [key]
    repeat' split
    all_goals assumption

/-- Beyond that a machine can be too small: 2^54 chips wide where 2^54 + 1 were asked for. -/
theorem C85_min_size_too_small (fl : ℝ → ℝ) (hfl : Rounding fl) :
    minSizeFl fl .v5 (2 ^ 54 + 1) (2 ^ 54 + 1) = (2 ^ 54, 2 ^ 54) := by
  have hy : fl (((2 ^ 54 + 1 : ℤ) : ℝ) / ((8 : ℤ) : ℝ)) = 2 ^ 51 := by
    have hr := hfl (((2 ^ 54 + 1 : ℤ) : ℝ) / ((8 : ℤ) : ℝ))
    rw [show ((2 ^ 54 + 1 : ℤ) : ℝ) / ((8 : ℤ) : ℝ) = 2 ^ 51 + 1 / 8 by norm_num] at hr ⊢
    have hd : IsDouble ((2 : ℝ) ^ 51) := ⟨2 ^ 51, 0, by norm_num, by norm_num⟩
    have h2 := hr.le_of_le hd (by norm_num)
    obtain ⟨⟨j, e, hj, hje⟩, hnear⟩ := hr
    have h1 := hnear _ hd
    rw [show (2 : ℝ) ^ 51 + 1 / 8 - 2 ^ 51 = 1 / 8 by ring, abs_of_pos (show (0 : ℝ) < 1 / 8 by norm_num),
      abs_le] at h1
    have h3 : fl (2 ^ 51 + 1 / 8) ≤ 2 ^ 51 + 1 / 4 := by linarith [h1.1]
    rw [hje] at h2 h3 ⊢
    by_cases he : -1 ≤ e
    · obtain ⟨d, hd⟩ := Int.eq_ofNat_of_zero_le (show 0 ≤ e + 1 by omega)
      have hz : (2 : ℝ) ^ e = 2 ^ d / 2 := by
        rw [show e = (d : ℤ) - 1 by omega, zpow_sub₀ (by norm_num), zpow_natCast, zpow_one]
      rw [hz] at h2 h3 ⊢
      have e1 : (2 ^ 52 : ℤ) ≤ j * 2 ^ d := by
        have : ((2 ^ 52 : ℤ) : ℝ) ≤ ((j * 2 ^ d : ℤ) : ℝ) := by push_cast; linarith
        exact_mod_cast this
      have e2 : (j * 2 ^ d : ℤ) < 2 ^ 52 + 1 := by
        have : ((j * 2 ^ d : ℤ) : ℝ) < ((2 ^ 52 + 1 : ℤ) : ℝ) := by push_cast; linarith
        exact_mod_cast this
      have e3 : (j * 2 ^ d : ℤ) = 2 ^ 52 := by omega
      have e4 : (j : ℝ) * 2 ^ d = 2 ^ 52 := by exact_mod_cast e3
      linarith
    · have hle : (2 : ℝ) ^ e ≤ 2 ^ (-2 : ℤ) := zpow_le_zpow_right₀ (by norm_num) (by omega)
      have hpos : (0 : ℝ) < 2 ^ e := zpow_pos (by norm_num) _
      have hj' : (j : ℝ) ≤ 2 ^ 53 := by
        have := (abs_le.1 hj).2
        exact_mod_cast this
      have : (j : ℝ) * 2 ^ e ≤ 2 ^ 53 * 2 ^ e := mul_le_mul_of_nonneg_right hj' hpos.le
      have : (2 : ℝ) ^ 53 * 2 ^ e ≤ 2 ^ 53 * 2 ^ (-2 : ℤ) := mul_le_mul_of_nonneg_left hle (by norm_num)
      have : (2 : ℝ) ^ 53 * 2 ^ (-2 : ℤ) = 2 ^ 51 := by rw [zpow_neg]; norm_num
      linarith
  have hs : VKind.v5.boardShape = (8, 8) := rfl
  unfold minSizeFl
  rw [hs]
  simp only
  rw [if_neg (by norm_num), if_neg (by norm_num), hy,
    show ⌈(2 : ℝ) ^ 51⌉ = 2 ^ 51 by rw [Int.ceil_eq_iff]; push_cast; constructor <;> norm_num]
  norm_num

/-- `get_links_count` is exact (up to 2^52 links). -/
theorem C85_links_count_exact (fl : ℝ → ℝ) (hfl : Rounding fl) (m : Machine)
    (hm : |m.getLinksCount| ≤ 2 ^ 52) : m.getLinksCountFl fl = (m.getLinksCount : ℝ) := by
  unfold Machine.getLinksCountFl Machine.getLinksCount
  have hb : |Machine.counterTotal m.nLinks| ≤ 2 ^ 53 := by
    unfold Machine.getLinksCount at hm
    rw [abs_le] at hm
    have h1 : (-2 ^ 53 : ℚ) ≤ Machine.counterTotal m.nLinks := by linarith [hm.1]
    have h2 : (Machine.counterTotal m.nLinks : ℚ) ≤ 2 ^ 53 := by linarith [hm.2]
    rw [abs_le]
    exact ⟨by exact_mod_cast h1, by exact_mod_cast h2⟩
  rw [(hfl _).eq ⟨Machine.counterTotal m.nLinks, -1, hb, by rw [zpow_neg_one, div_eq_mul_inv]⟩]
  push_cast
  rfl

/-! ### the nearest Ethernet chip -/

private theorem minByReal_spec {α : Type} (key : α → ℝ) (a : α) (l : List α) :
    Geometry.minByReal key a l ∈ a :: l ∧ ∀ b ∈ a :: l, key (Geometry.minByReal key a l) ≤ key b := by
  induction l generalizing a with
  | nil => simp [Geometry.minByReal]
  | cons b l ih =>
    unfold Geometry.minByReal
    obtain ⟨h1, h2⟩ := ih (if key b < key a then b else a)
    constructor
    · rcases List.mem_cons.1 h1 with h | h
      · rw [h]; split <;> simp
      · exact List.mem_cons_of_mem _ (List.mem_cons_of_mem _ h)
    · have h3 := h2 _ List.mem_cons_self
      intro c hc
      rcases List.mem_cons.1 hc with rfl | hc
      · refine h3.trans ?_
        split
        · linarith
        · exact le_refl _
      · rcases List.mem_cons.1 hc with rfl | hc
        · refine h3.trans ?_
          split
          · exact le_refl _
          · linarith
        · exact h2 c (List.mem_cons_of_mem _ hc)

private theorem minBy_mem {α : Type} (key : α → Int) (a : α) (l : List α) :
    Geometry.minBy key a l ∈ a :: l := by
  induction l generalizing a with
  | nil => simp [Geometry.minBy]
  | cons b l ih =>
    unfold Geometry.minBy
    rcases List.mem_cons.1 (ih (if key b < key a then b else a)) with h | h
    · rw [h]; split <;> simp
    · exact List.mem_cons_of_mem _ (List.mem_cons_of_mem _ h)

private theorem max_near {a b a' b' d : ℝ} (h1 : |a - a'| ≤ d) (h2 : |b - b'| ≤ d) :
    |max a b - max a' b'| ≤ d :=
  (abs_max_sub_max_le_max a b a' b').trans (max_le h1 h2)

private theorem abs_near {a a' d : ℝ} (h1 : |a - a'| ≤ d) : |(|a| - |a'|)| ≤ d :=
  (abs_abs_sub_abs_le a a').trans h1

/-- the error of one coordinate -/
private theorem coord_near {fl : ℝ → ℝ} (hfl : Rounding fl) (x e : ℤ) (c : ℝ) (hx : 0 ≤ x ∧ x < 12)
    (he : -12 ≤ e ∧ e ≤ 20) (hc : 0 ≤ c ∧ c ≤ 4) :
    |fl (fl x - fl (fl e + fl c)) - (x - (e + c))| ≤ 3 / 2 ^ 46 := by
  have hxr : (0 : ℝ) ≤ x ∧ (x : ℝ) ≤ 12 := ⟨by exact_mod_cast hx.1, by exact_mod_cast hx.2.le⟩
  have her : (-12 : ℝ) ≤ e ∧ (e : ℝ) ≤ 20 := ⟨by exact_mod_cast he.1, by exact_mod_cast he.2⟩
  rw [(hfl x).eq (isDouble_int (by rw [abs_le]; omega)), (hfl e).eq (isDouble_int (by rw [abs_le]; omega))]
  have h1 := abs_le.1 ((hfl c).error (by rw [abs_le]; constructor <;> linarith))
  have hsmall : (1 : ℝ) / 2 ^ 46 ≤ 1 := by norm_num
  have h2 := abs_le.1 ((hfl (e + fl c)).error (by rw [abs_le]; constructor <;> linarith))
  have h3 := abs_le.1 ((hfl (x - fl (e + fl c))).error (by rw [abs_le]; constructor <;> linarith))
  have hthree : (3 : ℝ) / 2 ^ 46 = 3 * (1 / 2 ^ 46) := by ring
  rw [hthree, abs_le]
  constructor <;> linarith

private theorem measure_near {fl : ℝ → ℝ} (hfl : Rounding fl) (xy e : XY) (hx : 0 ≤ xy.1 ∧ xy.1 < 12)
    (hy : 0 ≤ xy.2 ∧ xy.2 < 12) (he1 : -12 ≤ e.1 ∧ e.1 ≤ 20) (he2 : -12 ≤ e.2 ∧ e.2 ≤ 20) :
    |Geometry.measureFl fl xy (fl 3.6, fl 3.4) e - (Geometry.measure5 xy (18, 17) e : ℝ) / 5| ≤ 7 / 2 ^ 46 := by
  have h1 := coord_near hfl xy.1 e.1 3.6 hx he1 (by norm_num)
  have h2 := coord_near hfl xy.2 e.2 3.4 hy he2 (by norm_num)
  unfold Geometry.measureFl Geometry.metricFl Geometry.measure5 Geometry.metric5
  simp only
  set dx := fl (fl xy.1 - fl (fl e.1 + fl 3.6)) with hdx
  set dy := fl (fl xy.2 - fl (fl e.2 + fl 3.4)) with hdy
  have hxr : (0 : ℝ) ≤ xy.1 ∧ (xy.1 : ℝ) ≤ 12 := ⟨by exact_mod_cast hx.1, by exact_mod_cast hx.2.le⟩
  have hyr : (0 : ℝ) ≤ xy.2 ∧ (xy.2 : ℝ) ≤ 12 := ⟨by exact_mod_cast hy.1, by exact_mod_cast hy.2.le⟩
  have her : (-12 : ℝ) ≤ e.1 ∧ (e.1 : ℝ) ≤ 20 := ⟨by exact_mod_cast he1.1, by exact_mod_cast he1.2⟩
  have her' : (-12 : ℝ) ≤ e.2 ∧ (e.2 : ℝ) ≤ 20 := ⟨by exact_mod_cast he2.1, by exact_mod_cast he2.2⟩
  have hsmall : (1 : ℝ) / 2 ^ 46 ≤ 1 / 100 := by norm_num
  have hthree : (3 : ℝ) / 2 ^ 46 = 3 * (1 / 2 ^ 46) := by ring
  have hseven : (7 : ℝ) / 2 ^ 46 = 7 * (1 / 2 ^ 46) := by ring
  have hpos : (0 : ℝ) < 1 / 2 ^ 46 := by positivity
  rw [hthree] at h1 h2
  rw [hseven]
  have herr : ∀ z : ℝ, |z| ≤ 64 → |z - fl z| ≤ 1 / 2 ^ 46 := fun z hz => (hfl z).error hz
  generalize (1 : ℝ) / 2 ^ 46 = d at *
  have h1' := abs_le.1 h1
  have h2' := abs_le.1 h2
  have h3 : |fl (dx - dy) - ((xy.1 - (e.1 + 3.6)) - (xy.2 - (e.2 + 3.4)))| ≤ 7 * d := by
    have h4 := abs_le.1 (herr (dx - dy) (by rw [abs_le]; constructor <;> linarith))
    rw [abs_le]
    constructor <;> linarith
  have key : (((max (max ((5 * xy.1 - (5 * e.1 + 18)).natAbs : ℤ) ((5 * xy.2 - (5 * e.2 + 17)).natAbs : ℤ))
      ((5 * xy.1 - (5 * e.1 + 18) - (5 * xy.2 - (5 * e.2 + 17))).natAbs : ℤ) : ℤ) : ℝ)) / 5 =
      max (max |(xy.1 : ℝ) - (e.1 + 3.6)| |(xy.2 : ℝ) - (e.2 + 3.4)|)
        |((xy.1 : ℝ) - (e.1 + 3.6)) - (xy.2 - (e.2 + 3.4))| := by
    have h5 : ∀ z r : ℝ, z = 5 * r → |z| = 5 * |r| := by
      intro z r hz
      rw [hz, abs_mul]
      norm_num
    push_cast [Int.cast_max]
    rw [h5 (5 * (xy.1 : ℝ) - (5 * e.1 + 18)) ((xy.1 : ℝ) - (e.1 + 3.6)) (by ring),
      h5 (5 * (xy.2 : ℝ) - (5 * e.2 + 17)) ((xy.2 : ℝ) - (e.2 + 3.4)) (by ring),
      h5 (5 * (xy.1 : ℝ) - (5 * e.1 + 18) - (5 * xy.2 - (5 * e.2 + 17)))
        (((xy.1 : ℝ) - (e.1 + 3.6)) - (xy.2 - (e.2 + 3.4))) (by ring)]
    rw [← mul_max_of_nonneg _ _ (by norm_num : (0 : ℝ) ≤ 5), ← mul_max_of_nonneg _ _ (by norm_num : (0 : ℝ) ≤ 5)]
    field_simp
  rw [key]
  have h1'' : |dx - (xy.1 - (e.1 + 3.6))| ≤ 7 * d := h1.trans (by linarith)
  have h2'' : |dy - (xy.2 - (e.2 + 3.4))| ≤ 7 * d := h2.trans (by linarith)
  exact max_near (max_near (abs_near h1'') (abs_near h2'')) (abs_near h3)

private theorem locate_exact {fl : ℝ → ℝ} (hfl : Rounding fl) (x y : Int) (hx : 0 ≤ x ∧ x < 12)
    (hy : 0 ≤ y ∧ y < 12) :
    Geometry.locateNearestFl fl (x, y) (Geometry.extended 12 12 [(0, 0), (4, 8), (8, 4)]) (fl 3.6, fl 3.4) =
    Geometry.locateNearest (x, y) (Geometry.extended 12 12 [(0, 0), (4, 8), (8, 4)]) (18, 17) := by
  have huniq := C11_nearest_is_unique x y hx hy
  have hbound : ∀ u ∈ Geometry.extended 12 12 [(0, 0), (4, 8), (8, 4)],
      (-12 ≤ u.1 ∧ u.1 ≤ 20) ∧ -12 ≤ u.2 ∧ u.2 ≤ 20 := by decide
  have hmem : Geometry.locateNearest (x, y) (Geometry.extended 12 12 [(0, 0), (4, 8), (8, 4)]) (18, 17) ∈
      Geometry.extended 12 12 [(0, 0), (4, 8), (8, 4)] := by
    unfold Geometry.locateNearest
    split
    · rename_i h; exact absurd h (by decide)
    · rename_i e l h; rw [h]; exact minBy_mem _ _ _
  have hfl' : Geometry.locateNearestFl fl (x, y) (Geometry.extended 12 12 [(0, 0), (4, 8), (8, 4)])
        (fl 3.6, fl 3.4) ∈ Geometry.extended 12 12 [(0, 0), (4, 8), (8, 4)] ∧
      ∀ b ∈ Geometry.extended 12 12 [(0, 0), (4, 8), (8, 4)],
        Geometry.measureFl fl (x, y) (fl 3.6, fl 3.4) (Geometry.locateNearestFl fl (x, y)
          (Geometry.extended 12 12 [(0, 0), (4, 8), (8, 4)]) (fl 3.6, fl 3.4)) ≤
        Geometry.measureFl fl (x, y) (fl 3.6, fl 3.4) b := by
    unfold Geometry.locateNearestFl
    split
    · rename_i h; exact absurd h (by decide)
    · rename_i e l h; rw [h]; exact minByReal_spec _ _ _
  generalize Geometry.extended 12 12 [(0, 0), (4, 8), (8, 4)] = ext at *
  generalize Geometry.locateNearestFl fl (x, y) ext (fl 3.6, fl 3.4) = u at *
  generalize Geometry.locateNearest (x, y) ext (18, 17) = v at *
  by_contra hne
  have h1 := huniq u hfl'.1 hne
  have h2 := hfl'.2 v hmem
  have h3 := abs_le.1 (measure_near hfl (x, y) u hx hy (hbound u hfl'.1).1 (hbound u hfl'.1).2)
  have h4 := abs_le.1 (measure_near hfl (x, y) v hx hy (hbound v hmem).1 (hbound v hmem).2)
  have h5 : (Geometry.measure5 (x, y) (18, 17) v : ℝ) + 1 ≤ Geometry.measure5 (x, y) (18, 17) u := by
    exact_mod_cast h1
  have hsmall : (7 : ℝ) / 2 ^ 46 ≤ 1 / 100 := by norm_num
  linarith [h3.1, h4.2]

/-- The table of nearest Ethernet chips that the program computes with floating point numbers is the
exact one. -/
theorem C85_geometry_exact (fl : ℝ → ℝ) (hfl : Rounding fl) : Geometry.spinn5Fl fl = Geometry.spinn5 := by
  unfold Geometry.spinn5Fl Geometry.spinn5 Geometry.mkFl Geometry.mk'
  simp only [Geometry.mk.injEq, true_and]
  refine List.map_congr_left fun y hy => List.map_congr_left fun x hx => ?_
  have hb : ∀ z ∈ pyRange 12, 0 ≤ z ∧ z < 12 := by decide
  rw [locate_exact hfl x y (hb x hx) (hb y hy)]

/-- there are such roundings, and numbers that are rounded -/
example : ∃ fl, Rounding fl ∧ fl (1 / 2) = 1 / 2 ∧ fl (1 / 3) ≠ 1 / 3 := by
  obtain ⟨fl, h⟩ := rounding_exists
  refine ⟨fl, h, (h _).eq ⟨1, -1, by norm_num, by norm_num⟩, fun he => ?_⟩
  obtain ⟨⟨k, e, -, hk⟩, -⟩ := h (1 / 3)
  rw [he] at hk
  by_cases h0 : 0 ≤ e
  · obtain ⟨d, rfl⟩ := Int.eq_ofNat_of_zero_le h0
    rw [zpow_natCast] at hk
    have : (1 : ℝ) = 3 * (k * 2 ^ d) := by linarith
    have : (1 : ℤ) = 3 * (k * 2 ^ d) := by exact_mod_cast this
    omega
  · obtain ⟨d, hd⟩ := Int.eq_ofNat_of_zero_le (show 0 ≤ -e by omega)
    rw [show e = -(d : ℤ) by omega, zpow_neg, zpow_natCast] at hk
    have h2 : (2 : ℝ) ^ d ≠ 0 := by positivity
    have : (2 : ℝ) ^ d = 3 * k := by field_simp at hk; linarith
    have h3 : (2 : ℤ) ^ d = 3 * k := by exact_mod_cast this
    have : (2 : ℤ) ^ d % 3 ≠ 0 := by
      clear hk hd this h2 h3 
      induction d with
      | zero => decide
      | succ d ih => rw [pow_succ]; omega
    omega

end SpiNN.Props
