import Verif.Spec.Floats
import Mathlib.Tactic.Linarith
import Mathlib.Tactic.NormNum
import Mathlib.Tactic.Positivity
import Mathlib.Tactic.FieldSimp
import Mathlib.Tactic.Ring
import Mathlib.Algebra.Order.Archimedean.Basic

/-! # Rounding to nearest -/

namespace SpiNN.Spec

theorem isDouble_int {k : ℤ} (h : |k| ≤ 2 ^ 53) : IsDouble (k : ℝ) := ⟨k, 0, h, by simp⟩

/-- there is a rounding to nearest -/
theorem nearest_exists (x : ℝ) : ∃ y, Nearest x y := by
  by_cases hx : x = 0
  · exact ⟨0, ⟨0, 0, by norm_num, by simp⟩, fun z _ => by simp [hx]⟩
  obtain ⟨n, hn1, hn2⟩ := exists_mem_Ico_zpow (abs_pos.2 hx) (by norm_num : (1 : ℝ) < 2)
  set e : ℤ := n - 52 with he
  have hpe : (0 : ℝ) < 2 ^ e := zpow_pos (by norm_num) _
  have h52 : (2 : ℝ) ^ n = 2 ^ 52 * 2 ^ e := by
    rw [show n = 52 + e by omega, zpow_add₀ (by norm_num)]; norm_num
  have h53 : (2 : ℝ) ^ (n + 1) = 2 ^ 53 * 2 ^ e := by
    rw [show n + 1 = 53 + e by omega, zpow_add₀ (by norm_num)]; norm_num
  set k : ℤ := round (x / 2 ^ e) with hk
  have key : ∀ m : ℤ, |x - k * 2 ^ e| ≤ |x - m * 2 ^ e| := by
    intro m
    have h := round_le (x / 2 ^ e) m
    have hf : ∀ a : ℝ, x - a * 2 ^ e = (x / 2 ^ e - a) * 2 ^ e := by
      intro a; field_simp
    rw [hf, hf, abs_mul, abs_mul]
    exact mul_le_mul_of_nonneg_right h (abs_nonneg _)
  refine ⟨k * 2 ^ e, ⟨k, e, ?_, rfl⟩, ?_⟩
  · have h1 := abs_sub_round (x / 2 ^ e)
    have h2 : |x / 2 ^ e| < 2 ^ 53 := by
      rw [abs_div, abs_of_pos hpe, div_lt_iff₀ hpe, ← h53]; exact hn2
    have h3 : |(k : ℝ)| < 2 ^ 53 + 1 := by
      have := abs_sub_abs_le_abs_sub (k : ℝ) (x / 2 ^ e)
      rw [abs_sub_comm] at this
      have h1' : |x / 2 ^ e - (k : ℝ)| ≤ 1 / 2 := h1
      linarith
    have h4 : |k| < 2 ^ 53 + 1 := by exact_mod_cast h3
    omega
  · rintro z ⟨k', e', hk', rfl⟩
    by_cases hz : (2 : ℝ) ^ n ≤ |k' * (2 : ℝ) ^ e'|
    · have : ∃ m : ℤ, (k' : ℝ) * 2 ^ e' = m * 2 ^ e := by
        by_cases hee : e ≤ e'
        · obtain ⟨d, hd⟩ := Int.eq_ofNat_of_zero_le (show 0 ≤ e' - e by omega)
          refine ⟨k' * 2 ^ d, ?_⟩
          rw [show e' = (d : ℤ) + e by omega, zpow_add₀ (by norm_num), zpow_natCast]
          push_cast; ring
        · have hle : (2 : ℝ) ^ e' ≤ 2 ^ (e - 1) := zpow_le_zpow_right₀ (by norm_num) (by omega)
          have hkr : |(k' : ℝ)| ≤ 2 ^ 53 := by exact_mod_cast hk'
          have hpe' : (0 : ℝ) < 2 ^ e' := zpow_pos (by norm_num) _
          have hhalf : (2 : ℝ) ^ (e - 1) = 2 ^ e / 2 := by rw [zpow_sub₀ (by norm_num)]; norm_num
          have habs : |(k' : ℝ) * 2 ^ e'| = |(k' : ℝ)| * 2 ^ e' := by
            rw [abs_mul, abs_of_pos hpe']
          have hup : |(k' : ℝ) * 2 ^ e'| ≤ 2 ^ 52 * 2 ^ e := by
            rw [habs]
            calc |(k' : ℝ)| * 2 ^ e' ≤ 2 ^ 53 * 2 ^ e' := mul_le_mul_of_nonneg_right hkr hpe'.le
              _ ≤ 2 ^ 53 * 2 ^ (e - 1) := mul_le_mul_of_nonneg_left hle (by norm_num)
              _ = 2 ^ 52 * 2 ^ e := by rw [hhalf]; ring
          have heq : |(k' : ℝ) * 2 ^ e'| = 2 ^ 52 * 2 ^ e := le_antisymm hup (h52 ▸ hz)
          rcases abs_choice ((k' : ℝ) * 2 ^ e') with h | h
          · exact ⟨2 ^ 52, by rw [← h, heq]; push_cast; ring⟩
          · refine ⟨-2 ^ 52, ?_⟩
            have : (k' : ℝ) * 2 ^ e' = -(2 ^ 52 * 2 ^ e) := by rw [← heq, h]; ring
            rw [this]; push_cast; ring
      obtain ⟨m, hm⟩ := this
      rw [hm]; exact key m
    · rw [not_le] at hz
      rcases abs_choice x with hs | hs
      · have := key (2 ^ 52)
        rw [show (((2 ^ 52 : ℤ) : ℝ)) = 2 ^ 52 by norm_num, ← h52] at this
        refine this.trans ?_
        rw [hs] at hn1 
        rw [abs_of_nonneg (by linarith)]
        have := abs_sub_abs_le_abs_sub x (k' * (2 : ℝ) ^ e')
        rw [hs] at this
        linarith
      · have := key (-2 ^ 52)
        rw [show (((-2 ^ 52 : ℤ) : ℝ)) = -2 ^ 52 by norm_num, neg_mul, ← h52] at this
        refine this.trans ?_
        rw [hs] at hn1
        rw [abs_of_nonpos (by linarith)]
        have := abs_sub_abs_le_abs_sub x (k' * (2 : ℝ) ^ e')
        rw [hs] at this
        linarith

theorem rounding_exists : ∃ fl, Rounding fl :=
  ⟨fun x => (nearest_exists x).choose, fun x => (nearest_exists x).choose_spec⟩

/-- a double is not changed -/
theorem Nearest.eq {x y : ℝ} (h : Nearest x y) (hx : IsDouble x) : y = x := by
  have := h.2 x hx
  rw [sub_self, abs_zero] at this
  have := abs_nonpos_iff.1 this
  linarith

/-- rounding does not pass a double -/
theorem Nearest.le_of_le {x y z : ℝ} (h : Nearest x y) (hz : IsDouble z) (hzx : z ≤ x) : z ≤ y := by
  by_contra hlt
  rw [not_le] at hlt
  have := h.2 z hz
  rw [abs_of_nonneg (by linarith), abs_of_nonneg (by linarith)] at this
  linarith

theorem Nearest.ge_of_ge {x y z : ℝ} (h : Nearest x y) (hz : IsDouble z) (hzx : x ≤ z) : y ≤ z := by
  by_contra hlt
  rw [not_le] at hlt
  have := h.2 z hz
  rw [abs_of_nonpos (by linarith), abs_of_nonpos (by linarith)] at this
  linarith

/-- the error of rounding a number of moderate size -/
theorem Nearest.error {x y : ℝ} (h : Nearest x y) (hx : |x| ≤ 64) : |x - y| ≤ 1 / 2 ^ 46 := by
  have hd : IsDouble (⌊x * 2 ^ 46⌋ * (2 : ℝ) ^ (-46 : ℤ)) := by
    refine ⟨⌊x * 2 ^ 46⌋, -46, ?_, rfl⟩
    have h1 := Int.floor_le (x * 2 ^ 46)
    have h2 := Int.lt_floor_add_one (x * 2 ^ 46)
    rw [abs_le] at hx
    rw [abs_le]
    constructor
    · have : (-(2 ^ 53) - 1 : ℝ) < ⌊x * 2 ^ 46⌋ := by nlinarith [hx.1]
      have : (-(2 ^ 53) - 1 : ℤ) < ⌊x * 2 ^ 46⌋ := by exact_mod_cast this
      omega
    · have : (⌊x * 2 ^ 46⌋ : ℝ) ≤ 2 ^ 53 := by nlinarith [hx.2]
      exact_mod_cast this
  refine (h.2 _ hd).trans ?_
  have h1 := Int.floor_le (x * 2 ^ 46)
  have h2 := Int.lt_floor_add_one (x * 2 ^ 46)
  have hz : (2 : ℝ) ^ (-46 : ℤ) = 1 / 2 ^ 46 := by rw [zpow_neg]; norm_num
  rw [hz, abs_le]
  generalize (⌊x * 2 ^ 46⌋ : ℝ) = f at h1 h2
  constructor <;> linarith

end SpiNN.Spec
