import Verif.Lemmas.FloatEnergy

/-! # The compensated sum of Python 3.12 -/

namespace SpiNN.Spec
open SpiNN.Energy

/-- a large double is a multiple of a small unit -/
theorem IsDouble.grid {y : ℝ} (h : IsDouble y) {e : ℤ} (hy : (2 : ℝ) ^ 52 * 2 ^ e ≤ y) : ∃ j : ℤ, y = j * (2 : ℝ) ^ e := by
  obtain ⟨k, e0, hk, rfl⟩ := h
  rcases le_or_gt e e0 with he | he
  · refine ⟨k * 2 ^ (e0 - e).toNat, ?_⟩
    have h1 : (2 : ℝ) ^ e0 = 2 ^ (e0 - e).toNat * 2 ^ e := by
      rw [← zpow_natCast, ← zpow_add₀ (by norm_num)]
      congr 1
      omega
    rw [h1]
    push_cast
    ring
  · refine ⟨2 ^ 52, ?_⟩
    have hp : (0 : ℝ) < 2 ^ e0 := zpow_pos (by norm_num) _
    have h1 : (k : ℝ) ≤ 2 ^ 53 := by exact_mod_cast (le_abs_self k).trans hk
    have h2 : (2 : ℝ) ^ e0 ≤ 2 ^ (e - 1) := zpow_le_zpow_right₀ (by norm_num) (by omega)
    have h3 : (2 : ℝ) ^ e = 2 * 2 ^ (e - 1) := by
      rw [show e = 1 + (e - 1) by omega, zpow_add₀ (by norm_num)]; norm_num
    push_cast
    have h4 : (k : ℝ) * 2 ^ e0 ≤ 2 ^ 53 * 2 ^ e0 := mul_le_mul_of_nonneg_right h1 hp.le
    have h5 : (2 : ℝ) ^ 53 * 2 ^ e0 ≤ 2 ^ 53 * 2 ^ (e - 1) := mul_le_mul_of_nonneg_left h2 (by positivity)
    have h6 : (2 : ℝ) ^ 52 * 2 ^ e = 2 ^ 53 * 2 ^ (e - 1) := by rw [h3]; ring
    linarith

/-- the unit of a positive double -/
theorem IsDouble.unit {y : ℝ} (h : IsDouble y) (hy : 0 < y) :
    ∃ (e j : ℤ), y = j * (2 : ℝ) ^ e ∧ (2 : ℝ) ^ 52 * 2 ^ e ≤ y ∧ y < 2 ^ 53 * 2 ^ e := by
  obtain ⟨n, hn1, hn2⟩ := exists_mem_Ico_zpow hy (by norm_num : (1 : ℝ) < 2)
  have h52 : (2 : ℝ) ^ n = 2 ^ 52 * 2 ^ (n - 52) := by
    rw [show n = 52 + (n - 52) by omega, zpow_add₀ (by norm_num)]; norm_num
  have h53 : (2 : ℝ) ^ (n + 1) = 2 ^ 53 * 2 ^ (n - 52) := by
    rw [show n + 1 = 53 + (n - 52) by omega, zpow_add₀ (by norm_num)]; norm_num
  rw [h52] at hn1
  rw [h53] at hn2
  obtain ⟨j, hj⟩ := h.grid hn1
  exact ⟨n - 52, j, hj, hn1, hn2⟩

theorem isDouble_of_mul {j : ℤ} {e : ℤ} (h : |(j : ℝ) * 2 ^ e| ≤ 2 ^ 53 * 2 ^ e) : IsDouble ((j : ℝ) * 2 ^ e) := by
  have hp : (0 : ℝ) < 2 ^ e := zpow_pos (by norm_num) _
  refine ⟨j, e, ?_, rfl⟩
  rw [abs_mul, abs_of_pos hp] at h
  have := le_of_mul_le_mul_right h hp
  exact_mod_cast this

theorem isDouble_zero : IsDouble 0 := by simpa using isDouble_int (k := 0) (by norm_num)

/-- what is lost when two doubles that are not negative are added is found exactly -/
theorem lost_exact {fl : ℝ → ℝ} (hfl : Rounding fl) {a b : ℝ} (ha : IsDouble a) (hb : IsDouble b) (hb0 : 0 ≤ b)
    (hba : b ≤ a) : fl (fl (a - fl (a + b)) + b) = a + b - fl (a + b) := by
  rcases eq_or_lt_of_le (hb0.trans hba) with h0 | h0
  · have hb' : b = 0 := by linarith
    have z : fl 0 = 0 := (hfl 0).eq isDouble_zero
    subst hb'
    rw [← h0]
    simp [z]
  set t := fl (a + b) with ht
  have htd : IsDouble t := (hfl _).1
  have hta : a ≤ t := (hfl _).le_of_le ha (by linarith)
  obtain ⟨e, j, hj, h1, h2⟩ := ha.unit h0
  have hpe : (0 : ℝ) < 2 ^ e := zpow_pos (by norm_num) _
  have hdbl : IsDouble (2 * a) := by
    obtain ⟨k, e1, hk, hk2⟩ := ha
    refine ⟨k, e1 + 1, hk, ?_⟩
    rw [hk2, zpow_add₀ (by norm_num)]
    ring
  have ht2 : t ≤ 2 * a := (hfl _).ge_of_ge hdbl (by linarith)
  obtain ⟨i, hi⟩ := htd.grid (h1.trans hta)
  have hd1 : IsDouble (a - t) := by
    have hat : a - t = ((j - i : ℤ) : ℝ) * 2 ^ e := by rw [hj, hi]; push_cast; ring
    rw [hat]
    apply isDouble_of_mul
    rw [← hat, abs_le]
    constructor <;> linarith
  rw [(hfl _).eq hd1]
  have hd2 : IsDouble (a - t + b) := by
    rcases eq_or_lt_of_le hb0 with hb1 | hb1
    · rw [← hb1, add_zero]; exact hd1
    · obtain ⟨e', j', hj', h1', h2'⟩ := hb.unit hb1
      obtain ⟨i1, hi1⟩ := ha.grid (h1'.trans hba)
      obtain ⟨i2, hi2⟩ := htd.grid ((h1'.trans hba).trans hta)
      have hr : a - t + b = ((i1 - i2 + j' : ℤ) : ℝ) * 2 ^ e' := by rw [hi1, hi2, hj']; push_cast; ring
      rw [hr]
      apply isDouble_of_mul
      rw [← hr]
      have hn := (hfl (a + b)).2 a ha
      rw [show a + b - a = b by ring, abs_of_pos hb1, ← ht, show a + b - t = a - t + b by ring] at hn
      linarith
  rw [(hfl _).eq hd2]
  ring

/-- what the new sum keeps of doubles that are not negative -/
private structure Inv2 (n : ℕ) (S s c : ℝ) : Prop where
  hS : 0 ≤ S
  hs : 0 ≤ s
  dbl : IsDouble s
  lost : |S - s| ≤ 2 * n * uu * S
  comp : |c - (S - s)| ≤ 4 * n ^ 2 * uu ^ 2 * S

private theorem step_inv2 {fl : ℝ → ℝ} (hfl : Rounding fl) {n : ℕ} {S s c x : ℝ} (h : Inv2 n S s c) (hx : 0 ≤ x)
    (hxd : IsDouble x) (hn : 4 * ((n + 1 : ℕ) : ℝ) * uu ≤ 1) :
    Inv2 (n + 1) (S + x) (sumStep fl (s, c) x).1 (sumStep fl (s, c) x).2 := by
  have hrel : ∀ z, |fl z - z| ≤ uu * |z| := fun z => (hfl z).rel
  have hu := uu_pos
  have hstep : sumStep fl (s, c) x = (fl (s + x), fl (c + (s + x - fl (s + x)))) := by
    unfold sumStep
    simp only
    split
    · rename_i hle
      rw [abs_of_nonneg hx, abs_of_nonneg h.hs] at hle
      rw [lost_exact hfl h.dbl hxd hx hle]
    · rename_i hle
      rw [abs_of_nonneg hx, abs_of_nonneg h.hs] at hle
      have := lost_exact hfl hxd h.dbl h.hs (not_le.1 hle).le
      rw [add_comm x s] at this
      rw [this]
  rw [hstep]
  simp only
  push_cast at hn
  set T := s + x with hT
  have hT0 : 0 ≤ T := add_nonneg h.hs hx
  have hnu : 0 ≤ (n : ℝ) * uu := by positivity
  have hS' : 0 ≤ S + x := add_nonneg h.hS hx
  have hs2 : T ≤ 2 * (S + x) := by
    have h1 := (abs_le.1 h.lost).1
    have h2 : 2 * n * uu * S ≤ 1 * S := mul_le_mul_of_nonneg_right (by nlinarith) h.hS
    linarith
  have ht : |fl T - T| ≤ uu * T := by have := hrel T; rwa [abs_of_nonneg hT0] at this
  have hlost : |S + x - fl T| ≤ 2 * (n + 1) * uu * (S + x) := by
    have h1 : S + x - fl T = (S - s) + (T - fl T) := by rw [hT]; ring
    rw [h1]
    refine (abs_add_le _ _).trans ?_
    rw [abs_sub_comm T]
    have h2 : 2 * n * uu * S ≤ 2 * n * uu * (S + x) := mul_le_mul_of_nonneg_left (by linarith) (by positivity)
    have h3 : uu * T ≤ uu * (2 * (S + x)) := mul_le_mul_of_nonneg_left hs2 hu.le
    have := h.lost
    nlinarith
  refine ⟨hS', (hfl T).nonneg hT0, (hfl T).1, by push_cast; exact hlost, ?_⟩
  have hce : c + (T - fl T) - (S + x - fl T) = c - (S - s) := by rw [hT]; ring
  have hcomp : 4 * (n : ℝ) ^ 2 * uu ^ 2 * S ≤ n * uu * (S + x) := by
    have h1 : 4 * (n : ℝ) ^ 2 * uu ^ 2 * S = (4 * n * uu) * (n * uu * S) := by ring
    have h2 : 4 * (n : ℝ) * uu ≤ 1 := by nlinarith
    have h3 : (n : ℝ) * uu * S ≤ n * uu * (S + x) := mul_le_mul_of_nonneg_left (by linarith) hnu
    have h4 : 0 ≤ (n : ℝ) * uu * S := mul_nonneg hnu h.hS
    rw [h1]
    nlinarith
  have hc1 : |c + (T - fl T)| ≤ 3 * (n + 1) * uu * (S + x) := by
    have h1 : c + (T - fl T) = (S + x - fl T) + (c - (S - s)) := by rw [hT]; ring
    rw [h1]
    refine (abs_add_le _ _).trans ?_
    have h2 := h.comp
    have h3 : 0 ≤ uu * (S + x) := mul_nonneg hu.le hS'
    nlinarith
  have hc2 := hrel (c + (T - fl T))
  have h1 : fl (c + (T - fl T)) - (S + x - fl T) =
      (fl (c + (T - fl T)) - (c + (T - fl T))) + (c - (S - s)) := by rw [← hce]; ring
  rw [h1]
  refine (abs_add_le _ _).trans ?_
  have h2 : uu * |c + (T - fl T)| ≤ uu * (3 * (n + 1) * uu * (S + x)) := mul_le_mul_of_nonneg_left hc1 hu.le
  have h3 : 4 * (n : ℝ) ^ 2 * uu ^ 2 * S ≤ 4 * (n : ℝ) ^ 2 * uu ^ 2 * (S + x) :=
    mul_le_mul_of_nonneg_left (by linarith) (by positivity)
  have h4 : uu * (3 * ((n : ℝ) + 1) * uu * (S + x)) + 4 * (n : ℝ) ^ 2 * uu ^ 2 * (S + x) ≤
      4 * ((n : ℝ) + 1) ^ 2 * uu ^ 2 * (S + x) := by
    have h5 : 0 ≤ uu ^ 2 * (S + x) := mul_nonneg (by positivity) hS'
    have h6 : 3 * ((n : ℝ) + 1) + 4 * n ^ 2 ≤ 4 * (n + 1) ^ 2 := by nlinarith [Nat.cast_nonneg (α := ℝ) n]
    have := mul_le_mul_of_nonneg_right h6 h5
    nlinarith
  push_cast
  linarith [h.comp]

private theorem new_from2 {fl : ℝ → ℝ} (hfl : Rounding fl) : ∀ (l : List ℝ) (n : ℕ) (S s c : ℝ),
    (∀ x ∈ l, 0 ≤ x ∧ IsDouble x) → 4 * ((n + l.length : ℕ) : ℝ) * uu ≤ 1 → Inv2 n S s c →
    Inv2 (n + l.length) (S + l.sum) (l.foldl (sumStep fl) (s, c)).1 (l.foldl (sumStep fl) (s, c)).2
  | [], n, S, s, c, _, _, h => by simpa using h
  | x :: l, n, S, s, c, hl, hn, h => by
    have hle : 4 * ((n + 1 : ℕ) : ℝ) * uu ≤ 1 := by
      refine le_trans (mul_le_mul_of_nonneg_right (mul_le_mul_of_nonneg_left ?_ (by norm_num)) uu_pos.le) hn
      rw [List.length_cons]; exact_mod_cast (by omega)
    have h1 := step_inv2 hfl h (hl x (by simp)).1 (hl x (by simp)).2 hle
    have h2 := new_from2 hfl l (n + 1) (S + x) _ _ (fun z hz => hl z (by simp [hz]))
      (by rw [List.length_cons] at hn; rw [show n + 1 + l.length = n + (l.length + 1) by omega]; exact hn) h1
    rw [List.sum_cons, List.length_cons, ← add_assoc S, List.foldl_cons,
      show n + (l.length + 1) = n + 1 + l.length by omega]
    exact h2

/-- The sum of Python 3.12 of up to a million doubles that are not negative is as good as if only the
result had been rounded, twice. -/
theorem new_sum_approx {fl : ℝ → ℝ} (hfl : Rounding fl) (l : List ℝ) (hl : ∀ x ∈ l, 0 ≤ x ∧ IsDouble x)
    (hn : l.length ≤ 2 ^ 20) : |sumNew fl l - l.sum| ≤ 2 * uu * l.sum := by
  have hu := uu_pos
  have hlen : (l.length : ℝ) ≤ 2 ^ 20 := by exact_mod_cast hn
  have h := new_from2 hfl l 0 0 0 0 hl (by
    rw [zero_add]
    unfold uu
    rw [mul_one_div, div_le_one (by positivity)]
    calc 4 * (l.length : ℝ) ≤ 4 * 2 ^ 20 := by linarith
      _ ≤ 2 ^ 53 := by norm_num) ⟨le_refl _, le_refl _, isDouble_zero, by simp, by simp⟩
  simp only [zero_add] at h
  unfold sumNew
  simp only
  generalize (l.foldl (sumStep fl) (0, 0)).1 = s at *
  generalize (l.foldl (sumStep fl) (0, 0)).2 = c at *
  generalize l.sum = S at *
  generalize (l.length : ℕ) = n at *
  have h1 : 4 * (n : ℝ) ^ 2 * uu ^ 2 * S ≤ uu / 2 * S := by
    refine mul_le_mul_of_nonneg_right ?_ h.hS
    have h2 : (n : ℝ) ^ 2 ≤ (2 ^ 20) ^ 2 := pow_le_pow_left₀ (Nat.cast_nonneg _) hlen 2
    have h3 : 4 * (n : ℝ) ^ 2 * uu ≤ 1 / 2 := by
      unfold uu
      rw [mul_one_div, div_le_iff₀ (by positivity)]
      linarith
    nlinarith
  have h2 : |s + c - S| ≤ uu / 2 * S := by
    rw [show s + c - S = c - (S - s) by ring]; exact h.comp.trans h1
  have h3 : |fl (s + c) - (s + c)| ≤ uu * |s + c| := (hfl (s + c)).rel
  have h4 : |s + c| ≤ (1 + uu / 2) * S := by
    have := abs_le.1 h2
    have h5 : 0 ≤ uu * S := mul_nonneg hu.le h.hS
    rw [abs_le]; constructor <;> linarith [h.hS]
  rw [show fl (s + c) - S = (fl (s + c) - (s + c)) + (s + c - S) by ring]
  refine (abs_add_le _ _).trans ?_
  have h5 : uu * |s + c| ≤ uu * ((1 + uu / 2) * S) := mul_le_mul_of_nonneg_left h4 hu.le
  have h6 : uu * ((1 + uu / 2) * S) ≤ 3 / 2 * uu * S := by
    have h7 : uu * (1 + uu / 2) ≤ 3 / 2 * uu := by nlinarith [uu_small]
    have := mul_le_mul_of_nonneg_right h7 h.hS
    linarith
  linarith

end SpiNN.Spec
