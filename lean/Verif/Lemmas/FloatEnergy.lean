import Verif.Model.FloatEnergy
import Verif.Lemmas.Floats
import Mathlib.Algebra.Order.Ring.Pow

/-! # Errors of floating point calculations without subtraction -/

namespace SpiNN.Spec

/-- the relative error of one rounding -/
theorem Nearest.rel {x y : ℝ} (h : Nearest x y) : |y - x| ≤ 1 / 2 ^ 53 * |x| := by
  by_cases hx : x = 0
  · subst hx
    have := h.eq (by simpa using isDouble_int (k := 0) (by norm_num))
    simp [this]
  obtain ⟨n, hn1, hn2⟩ := exists_mem_Ico_zpow (abs_pos.2 hx) (by norm_num : (1 : ℝ) < 2)
  set e : ℤ := n - 52 with he
  have hpe : (0 : ℝ) < 2 ^ e := zpow_pos (by norm_num) _
  have h52 : (2 : ℝ) ^ n = 2 ^ 52 * 2 ^ e := by
    rw [show n = 52 + e by omega, zpow_add₀ (by norm_num)]; norm_num
  have h53 : (2 : ℝ) ^ (n + 1) = 2 ^ 53 * 2 ^ e := by
    rw [show n + 1 = 53 + e by omega, zpow_add₀ (by norm_num)]; norm_num
  have hd : IsDouble (round (x / 2 ^ e) * (2 : ℝ) ^ e) := by
    refine ⟨_, e, ?_, rfl⟩
    have h1 := abs_sub_round (x / 2 ^ e)
    have h2 : |x / 2 ^ e| < 2 ^ 53 := by
      rw [abs_div, abs_of_pos hpe, div_lt_iff₀ hpe, ← h53]; exact hn2
    have h3 : |(round (x / 2 ^ e) : ℝ)| < 2 ^ 53 + 1 := by
      have := abs_sub_abs_le_abs_sub (round (x / 2 ^ e) : ℝ) (x / 2 ^ e)
      rw [abs_sub_comm] at this
      linarith
    have h4 : |round (x / 2 ^ e)| < 2 ^ 53 + 1 := by exact_mod_cast h3
    omega
  rw [abs_sub_comm]
  refine (h.2 _ hd).trans ?_
  have h1 := abs_sub_round (x / 2 ^ e)
  have hf : x - round (x / 2 ^ e) * 2 ^ e = (x / 2 ^ e - round (x / 2 ^ e)) * 2 ^ e := by field_simp
  rw [hf, abs_mul, abs_of_pos hpe]
  calc |x / 2 ^ e - round (x / 2 ^ e)| * 2 ^ e ≤ 1 / 2 * 2 ^ e := mul_le_mul_of_nonneg_right h1 hpe.le
    _ = 1 / 2 ^ 53 * (2 ^ 52 * 2 ^ e) := by ring
    _ ≤ 1 / 2 ^ 53 * |x| := by rw [← h52]; exact mul_le_mul_of_nonneg_left hn1 (by norm_num)

theorem Nearest.nonneg {x y : ℝ} (h : Nearest x y) (hx : 0 ≤ x) : 0 ≤ y :=
  h.le_of_le (z := 0) (by simpa using isDouble_int (k := 0) (by norm_num)) hx

/-- the unit of rounding -/
noncomputable def uu : ℝ := 1 / 2 ^ 53

theorem uu_pos : 0 < uu := by unfold uu; positivity
theorem uu_small : uu ≤ 1 / 1000000 := by unfold uu; norm_num

/-- `y` is the number `x`, which is not negative, after `k` roundings -/
def Approx (k : ℕ) (x y : ℝ) : Prop := 0 ≤ x ∧ x * (1 - uu) ^ k ≤ y ∧ y ≤ x * (1 + uu) ^ k

theorem Approx.refl {x : ℝ} (h : 0 ≤ x) : Approx 0 x x := ⟨h, by simp, by simp⟩

theorem Approx.nonneg {k : ℕ} {x y : ℝ} (h : Approx k x y) : 0 ≤ y :=
  (mul_nonneg h.1 (pow_nonneg (by linarith [uu_small]) _)).trans h.2.1

theorem Approx.mono {k l : ℕ} {x y : ℝ} (h : Approx k x y) (hkl : k ≤ l) : Approx l x y := by
  refine ⟨h.1, le_trans (mul_le_mul_of_nonneg_left ?_ h.1) h.2.1, h.2.2.trans (mul_le_mul_of_nonneg_left ?_ h.1)⟩
  · exact pow_le_pow_of_le_one (by linarith [uu_small]) (by linarith [uu_pos]) hkl
  · exact pow_le_pow_right₀ (by linarith [uu_pos]) hkl

theorem Approx.fl {fl : ℝ → ℝ} (hfl : Rounding fl) {k : ℕ} {x y : ℝ} (h : Approx k x y) :
    Approx (k + 1) x (fl y) := by
  have hr := (hfl y).rel
  rw [abs_of_nonneg h.nonneg, show (1 : ℝ) / 2 ^ 53 = uu from rfl, abs_le] at hr
  refine ⟨h.1, ?_, ?_⟩
  · calc x * (1 - uu) ^ (k + 1) = x * (1 - uu) ^ k * (1 - uu) := by ring
      _ ≤ y * (1 - uu) := mul_le_mul_of_nonneg_right h.2.1 (by linarith [uu_small])
      _ ≤ fl y := by linarith
  · calc fl y ≤ y * (1 + uu) := by linarith
      _ ≤ x * (1 + uu) ^ k * (1 + uu) := mul_le_mul_of_nonneg_right h.2.2 (by linarith [uu_pos])
      _ = x * (1 + uu) ^ (k + 1) := by ring

theorem Approx.mul {k l : ℕ} {x y x' y' : ℝ} (h : Approx k x y) (h' : Approx l x' y') :
    Approx (k + l) (x * x') (y * y') := by
  have hm : 0 ≤ 1 - uu := by linarith [uu_small]
  refine ⟨mul_nonneg h.1 h'.1, ?_, ?_⟩
  · rw [pow_add]
    calc x * x' * ((1 - uu) ^ k * (1 - uu) ^ l) = (x * (1 - uu) ^ k) * (x' * (1 - uu) ^ l) := by ring
      _ ≤ y * y' := mul_le_mul h.2.1 h'.2.1 (mul_nonneg h'.1 (pow_nonneg hm _)) h.nonneg
  · rw [pow_add]
    calc y * y' ≤ (x * (1 + uu) ^ k) * (x' * (1 + uu) ^ l) :=
          mul_le_mul h.2.2 h'.2.2 h'.nonneg (h.nonneg.trans h.2.2)
      _ = _ := by ring

theorem Approx.add {k l m : ℕ} {x y x' y' : ℝ} (h : Approx k x y) (h' : Approx l x' y') (hk : k ≤ m) (hl : l ≤ m) :
    Approx m (x + x') (y + y') := by
  have h1 := h.mono hk
  have h2 := h'.mono hl
  refine ⟨add_nonneg h.1 h'.1, ?_, ?_⟩
  · rw [add_mul]; exact add_le_add h1.2.1 h2.2.1
  · rw [add_mul]; exact add_le_add h1.2.2 h2.2.2

theorem Approx.trans {k l : ℕ} {x y z : ℝ} (h : Approx k x y) (h' : Approx l y z) : Approx (k + l) x z := by
  have hm : 0 ≤ 1 - uu := by linarith [uu_small]
  refine ⟨h.1, ?_, ?_⟩
  · rw [pow_add, ← mul_assoc]
    exact (mul_le_mul_of_nonneg_right h.2.1 (pow_nonneg hm _)).trans h'.2.1
  · rw [pow_add, ← mul_assoc]
    exact h'.2.2.trans (mul_le_mul_of_nonneg_right h.2.2 (pow_nonneg (by linarith [uu_pos]) _))

theorem pow_prod_le (k : ℕ) : (1 + uu) ^ k * (1 - uu) ^ k ≤ 1 := by
  rw [← mul_pow]
  exact pow_le_one₀ (mul_nonneg (by linarith [uu_pos]) (by linarith [uu_small])) (by nlinarith [uu_pos])

/-- from an error to roundings -/
theorem Approx.of_error {m : ℕ} {x y : ℝ} (hx : 0 ≤ x) (h : |y - x| ≤ m * uu * x) (hm : 2 * m * uu ≤ 1) :
    Approx (2 * m) x y := by
  rw [abs_le] at h
  have hmu : 0 ≤ m * uu := mul_nonneg (Nat.cast_nonneg _) uu_pos.le
  have hb : 1 + ((2 * m : ℕ) : ℝ) * uu ≤ (1 + uu) ^ (2 * m) :=
    one_add_mul_le_pow (by linarith [uu_pos]) _
  push_cast at hb
  rw [mul_assoc] at hb hm
  refine ⟨hx, ?_, ?_⟩
  · have hp := pow_prod_le (2 * m)
    have hpos : 0 ≤ (1 - uu) ^ (2 * m) := pow_nonneg (by linarith [uu_small]) _
    have h1 : (1 + 2 * (m * uu)) * (1 - uu) ^ (2 * m) ≤ 1 := (mul_le_mul_of_nonneg_right hb hpos).trans hp
    have h2 : (1 - uu) ^ (2 * m) ≤ 1 - m * uu := by
      generalize (1 - uu) ^ (2 * m) = p at *
      generalize (m : ℝ) * uu = q at *
      by_contra hlt
      rw [not_le] at hlt
      nlinarith
    calc x * (1 - uu) ^ (2 * m) ≤ x * (1 - m * uu) := mul_le_mul_of_nonneg_left h2 hx
      _ ≤ y := by linarith
  · calc y ≤ x * (1 + 2 * (m * uu)) := by nlinarith
      _ ≤ _ := mul_le_mul_of_nonneg_left hb hx

/-- from roundings to an error -/
theorem Approx.error {k : ℕ} {x y : ℝ} (h : Approx k x y) (hk : 2 * k * uu ≤ 1) : |y - x| ≤ 2 * k * uu * x := by
  rw [mul_assoc] at hk
  rw [mul_assoc 2]
  have hku : 0 ≤ k * uu := mul_nonneg (Nat.cast_nonneg _) uu_pos.le
  have hb : 1 + (k : ℝ) * (-uu) ≤ (1 + -uu) ^ k := one_add_mul_le_pow (by linarith [uu_small]) _
  rw [← sub_eq_add_neg] at hb
  have hp := pow_prod_le k
  have hpos : 0 ≤ (1 + uu) ^ k := pow_nonneg (by linarith [uu_pos]) _
  have h1 : (1 + uu) ^ k * (1 - k * uu) ≤ 1 :=
    (mul_le_mul_of_nonneg_left (by linarith) hpos).trans hp
  have h2 : (1 + uu) ^ k ≤ 1 + 2 * (k * uu) := by
    generalize (1 + uu) ^ k = p at *
    generalize (k : ℝ) * uu = q at *
    by_contra hlt
    rw [not_le] at hlt
    nlinarith
  rw [abs_le]
  constructor
  · have : x * (1 + k * -uu) ≤ y := (mul_le_mul_of_nonneg_left hb h.1).trans h.2.1
    nlinarith [h.1]
  · have : y ≤ x * (1 + 2 * (k * uu)) := h.2.2.trans (mul_le_mul_of_nonneg_left h2 h.1)
    linarith

open Energy

private theorem old_from {fl : ℝ → ℝ} (hfl : Rounding fl) : ∀ (l : List ℝ) (k : ℕ) (a y : ℝ),
    (∀ x ∈ l, 0 ≤ x) → Approx k a y → Approx (k + l.length) (a + l.sum) (l.foldl (fun s x => fl (s + x)) y)
  | [], k, a, y, _, h => by simpa using h
  | x :: l, k, a, y, hl, h => by
    have h1 := (h.add (Approx.refl (hl x (by simp))) (le_refl k) (Nat.zero_le k)).fl hfl
    have h2 := old_from hfl l _ _ _ (fun z hz => hl z (by simp [hz])) h1
    rw [List.sum_cons, List.length_cons, ← add_assoc a, show k + (l.length + 1) = k + 1 + l.length by omega]
    exact h2

/-- what the new sum keeps -/
private structure Inv (n : ℕ) (S s c : ℝ) : Prop where
  hS : 0 ≤ S
  hs : 0 ≤ s
  hs2 : s ≤ 2 * S
  near : |s + c - S| ≤ 8 * n * uu * S
  small : |c| ≤ 16 * n * uu * S

private theorem step_inv {fl : ℝ → ℝ} (hfl : Rounding fl) {n : ℕ} {S s c x : ℝ} (h : Inv n S s c) (hx : 0 ≤ x)
    (hn : 24 * ((n + 1 : ℕ) : ℝ) * uu ≤ 1) :
    Inv (n + 1) (S + x) (sumStep fl (s, c) x).1 (sumStep fl (s, c) x).2 := by
  have hrel : ∀ z, |fl z - z| ≤ uu * |z| := fun z => (hfl z).rel
  have hu := uu_pos
  have hu' := uu_small
  -- the lost part, whichever of the two is the larger
  have lost : ∀ a b : ℝ, 0 ≤ a → 0 ≤ b → ∀ t, |t - (a + b)| ≤ uu * (a + b) →
      |fl (fl (a - t) + b) - (a + b - t)| ≤ 3 * uu * (a + b) ∧ |fl (fl (a - t) + b)| ≤ 4 * uu * (a + b) := by
    intro a b ha hb t ht
    have hT : 0 ≤ a + b := add_nonneg ha hb
    have h1 := hrel (a - t)
    have h2 := hrel (fl (a - t) + b)
    have ht' := abs_le.1 ht
    have huT : uu * (a + b) ≤ a + b := by nlinarith
    have h3 : |a - t| ≤ 2 * (a + b) := by rw [abs_le]; constructor <;> linarith
    have h4 : |fl (a - t) - (a - t)| ≤ 2 * (uu * (a + b)) := h1.trans (by nlinarith)
    have h4' := abs_le.1 h4
    have h5 : |fl (a - t) + b| ≤ 3 * (uu * (a + b)) := by rw [abs_le]; constructor <;> linarith
    have h6 : |fl (fl (a - t) + b) - (fl (a - t) + b)| ≤ uu * (a + b) := h2.trans (by nlinarith)
    have h6' := abs_le.1 h6
    have h5' := abs_le.1 h5
    constructor <;> rw [abs_le] <;> constructor <;> linarith
  set T := s + x with hTd
  have hT : 0 ≤ T := add_nonneg h.hs hx
  have hT2 : T ≤ 2 * (S + x) := by linarith [h.hs2]
  have ht : |fl T - T| ≤ uu * T := by have := hrel T; rwa [abs_of_nonneg hT] at this
  have hd : ∃ d, (sumStep fl (s, c) x) = (fl T, fl (c + d)) ∧ |d - (T - fl T)| ≤ 3 * uu * T ∧ |d| ≤ 4 * uu * T := by
    unfold sumStep
    simp only
    split
    · exact ⟨_, rfl, lost s x h.hs hx _ ht⟩
    · refine ⟨_, rfl, ?_⟩
      have := lost x s hx h.hs (fl T) (by rw [add_comm x s]; exact ht)
      rwa [add_comm x s] at this
  obtain ⟨d, hd0, hd1, hd2⟩ := hd
  rw [hd0]
  simp only
  have hS' : 0 ≤ S + x := add_nonneg h.hS hx
  have hc1 : |c + d| ≤ (16 * n * uu + 8 * uu) * (S + x) := by
    refine (abs_add_le c d).trans ?_
    have h1 : 16 * n * uu * S ≤ 16 * n * uu * (S + x) := mul_le_mul_of_nonneg_left (by linarith) (by positivity)
    have h2 : 4 * uu * T ≤ 4 * uu * (2 * (S + x)) := mul_le_mul_of_nonneg_left hT2 (by positivity)
    have := h.small
    nlinarith
  have hc2 := hrel (c + d)
  push_cast at hn
  have hnu : 0 ≤ n * uu := by positivity
  have hc3 : |fl (c + d) - (c + d)| ≤ uu * (S + x) := by
    refine hc2.trans (mul_le_mul_of_nonneg_left (hc1.trans ?_) hu.le)
    have : 16 * n * uu + 8 * uu ≤ 1 := by nlinarith
    nlinarith
  have hsmall : |fl (c + d)| ≤ 16 * ((n + 1 : ℕ) : ℝ) * uu * (S + x) := by
    have h1 : |fl (c + d)| ≤ |fl (c + d) - (c + d)| + |c + d| := by
      have := abs_add_le (fl (c + d) - (c + d)) (c + d)
      simpa using this
    push_cast
    nlinarith
  have hnear : |fl T + fl (c + d) - (S + x)| ≤ 8 * ((n + 1 : ℕ) : ℝ) * uu * (S + x) := by
    have h1 : fl T + fl (c + d) - (S + x) = (fl (c + d) - (c + d)) + ((d - (T - fl T)) + (s + c - S)) := by
      rw [hTd]; ring
    rw [h1]
    refine (abs_add_le _ _).trans ((add_le_add hc3 ((abs_add_le _ _).trans (add_le_add hd1 h.near))).trans ?_)
    have h2 : 3 * uu * T ≤ 3 * uu * (2 * (S + x)) := mul_le_mul_of_nonneg_left hT2 (by positivity)
    have h3 : 8 * n * uu * S ≤ 8 * n * uu * (S + x) := mul_le_mul_of_nonneg_left (by linarith) (by positivity)
    push_cast
    nlinarith
  refine ⟨hS', (hfl T).nonneg hT, ?_, hnear, hsmall⟩
  have h1 := (abs_le.1 hnear).2
  have h2 := (abs_le.1 hsmall).1
  push_cast at h1 h2
  have h3 : 24 * (n + 1) * uu * (S + x) ≤ 1 * (S + x) := mul_le_mul_of_nonneg_right hn hS'
  nlinarith

private theorem new_from {fl : ℝ → ℝ} (hfl : Rounding fl) : ∀ (l : List ℝ) (n : ℕ) (S s c : ℝ),
    (∀ x ∈ l, 0 ≤ x) → 24 * ((n + l.length : ℕ) : ℝ) * uu ≤ 1 → Inv n S s c →
    Inv (n + l.length) (S + l.sum) (l.foldl (sumStep fl) (s, c)).1 (l.foldl (sumStep fl) (s, c)).2
  | [], n, S, s, c, _, _, h => by simpa using h
  | x :: l, n, S, s, c, hl, hn, h => by
    have hle : 24 * ((n + 1 : ℕ) : ℝ) * uu ≤ 1 := by
      refine le_trans (mul_le_mul_of_nonneg_right (mul_le_mul_of_nonneg_left ?_ (by norm_num)) uu_pos.le) hn
      rw [List.length_cons]; exact_mod_cast (by omega)
    have h1 := step_inv hfl h (hl x (by simp)) hle
    have h2 := new_from hfl l (n + 1) (S + x) _ _ (fun z hz => hl z (by simp [hz]))
      (by rw [List.length_cons] at hn; rw [show n + 1 + l.length = n + (l.length + 1) by omega]; exact hn) h1
    rw [List.sum_cons, List.length_cons, ← add_assoc S, List.foldl_cons,
      show n + (l.length + 1) = n + 1 + l.length by omega]
    exact h2

/-- either sum of numbers that are not negative -/
theorem sum_approx {fl : ℝ → ℝ} (hfl : Rounding fl) (new : Bool) (l : List ℝ) (hl : ∀ x ∈ l, 0 ≤ x)
    (hn : 24 * (l.length : ℝ) * uu ≤ 1) : Approx (20 * l.length) l.sum (pySumFl fl new l) := by
  cases new
  · have := old_from hfl l 0 0 0 hl (Approx.refl (le_refl 0))
    simp only [zero_add] at this
    exact this.mono (by omega)
  · have hu := uu_pos
    have h := new_from hfl l 0 0 0 0 hl (by rw [zero_add]; exact hn) ⟨le_refl _, le_refl _, by simp, by simp, by simp⟩
    simp only [zero_add] at h
    cases l with
    | nil =>
      have : fl 0 = 0 := by
        exact (hfl 0).eq (by simpa using isDouble_int (k := 0) (by norm_num))
      simpa [pySumFl, sumNew, this] using Approx.refl (le_refl 0)
    | cons x l =>
      have hlen : (1 : ℝ) ≤ ((x :: l).length : ℝ) := by rw [List.length_cons]; push_cast; linarith [Nat.cast_nonneg (α := ℝ) l.length]
      simp only [pySumFl, sumNew, if_true]
      generalize hs : ((x :: l).foldl (sumStep fl) (0, 0)).1 = s at *
      generalize hc : ((x :: l).foldl (sumStep fl) (0, 0)).2 = c at *
      generalize (x :: l).sum = S at *
      generalize (x :: l).length = n at *
      have hrel : |fl (s + c) - (s + c)| ≤ uu * |s + c| := (hfl (s + c)).rel
      have h8 : 8 * n * uu * S ≤ 1 * S := mul_le_mul_of_nonneg_right (by nlinarith) h.hS
      have hsc : |s + c| ≤ 2 * S := by
        have := abs_le.1 h.near
        rw [abs_le]; constructor <;> linarith [h.hS]
      have herr : |fl (s + c) - S| ≤ ((10 * n : ℕ) : ℝ) * uu * S := by
        have h1 : fl (s + c) - S = (fl (s + c) - (s + c)) + (s + c - S) := by ring
        rw [h1]
        refine (abs_add_le _ _).trans ((add_le_add (hrel.trans (mul_le_mul_of_nonneg_left hsc hu.le)) h.near).trans ?_)
        push_cast
        have : 2 * (uu * S) ≤ 2 * n * (uu * S) := by
          have := mul_le_mul_of_nonneg_right hlen (mul_nonneg hu.le h.hS)
          linarith
        nlinarith
      have := Approx.of_error h.hS herr (by push_cast; nlinarith)
      rwa [show 2 * (10 * n) = 20 * n by omega] at this

/-- a sum of terms that have been rounded -/
theorem sum_terms {k : ℕ} : ∀ {xs ys : List ℝ},
    List.Forall₂ (Approx k) xs ys → Approx k xs.sum ys.sum
  | _, _, .nil => by simpa using (Approx.refl (le_refl 0)).mono (Nat.zero_le k)
  | _, _, .cons h t => by
    simp only [List.sum_cons]
    exact h.add (sum_terms t) (le_refl k) (le_refl k)

end SpiNN.Spec
