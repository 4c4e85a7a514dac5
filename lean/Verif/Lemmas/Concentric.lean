import Verif.Lemmas.Mesh

namespace SpiNN
open Spec

theorem ringSide_eq (dx dy : Int) (n : Nat) (x y : Int) :
    ringSide dx dy n x y =
      ((List.range n).map (fun (k : Nat) => (x + dx * (k : Int), y + dy * (k : Int))),
        (x + dx * (n : Int), y + dy * (n : Int))) := by
  induction n generalizing x y with
  | zero => simp [ringSide]
  | succ n ih =>
    rw [ringSide, ih]
    rw [List.range_succ_eq_map]
    simp only [List.map_cons, List.map_map, Prod.mk.injEq]
    refine ⟨?_, ?_, ?_⟩
    · simp
      intro a _
      constructor
      · rw [Int.mul_add]; omega
      · rw [Int.mul_add]; omega
    · push_cast; rw [Int.mul_add]; omega
    · push_cast; rw [Int.mul_add]; omega

/-- the positions of one side of a ring -/
def sideList (dx dy : Int) (n : Nat) (x y : Int) : List XY :=
  (List.range n).map (fun (k : Nat) => (x + dx * (k : Int), y + dy * (k : Int)))

theorem ringWalk_eq (r : Nat) (x y : Int) :
    ringWalk r ringDirs x (y - r) =
      (sideList 1 1 r x (y - r) ++ (sideList 0 1 r (x + r) y ++
       (sideList (-1) 0 r (x + r) (y + r) ++ (sideList (-1) (-1) r x (y + r) ++
       (sideList 0 (-1) r (x - r) y ++ sideList 1 0 r (x - r) (y - r))))), (x, y - r)) := by
  simp only [ringWalk, ringDirs, ringSide_eq, sideList]
  refine Prod.ext ?_ ?_
  · simp only [List.append_nil]
    congr 1
    congr 1
    · apply List.map_congr_left; intro k _; simp only [Prod.mk.injEq]; omega
    congr 1
    · apply List.map_congr_left; intro k _; simp only [Prod.mk.injEq]; omega
    congr 1
    · apply List.map_congr_left; intro k _; simp only [Prod.mk.injEq]; omega
    congr 1
    · apply List.map_congr_left; intro k _; simp only [Prod.mk.injEq]; omega
    · apply List.map_congr_left; intro k _; simp only [Prod.mk.injEq]; omega
  · simp only [Prod.mk.injEq]; omega

theorem mem_sideList (dx dy : Int) (n : Nat) (x y : Int) (p : XY) :
    p ∈ sideList dx dy n x y ↔
      ∃ k : Int, 0 ≤ k ∧ k < n ∧ p.1 = x + dx * k ∧ p.2 = y + dy * k := by
  simp only [sideList, List.mem_map, List.mem_range]
  constructor
  · rintro ⟨k, hk, rfl⟩; exact ⟨k, by omega, by omega, rfl, rfl⟩
  · rintro ⟨k, h0, hk, h1, h2⟩
    refine ⟨k.toNat, by omega, ?_⟩
    rw [Int.toNat_of_nonneg h0]
    exact Prod.ext h1.symm h2.symm

theorem nodup_sideList (dx dy : Int) (n : Nat) (x y : Int) (h : dx = 1 ∨ dx = -1 ∨ dy = 1 ∨ dy = -1) :
    (sideList dx dy n x y).Nodup := by
  unfold sideList
  rw [List.Nodup, List.pairwise_map]
  refine List.Pairwise.imp ?_ (List.nodup_range (n := n))
  intro a b hab hEq
  simp only [Prod.mk.injEq] at hEq
  rcases h with rfl | rfl | rfl | rfl <;> omega

/-- one ring -/
def ringList (r : Nat) (x y : Int) : List XY := (ringWalk r ringDirs x (y - r)).1

theorem mem_ringList (r : Nat) (hr : 1 ≤ r) (x y : Int) (p : XY) :
    p ∈ ringList r x y ↔ hexNorm (p.1 - x) (p.2 - y) = r := by
  unfold ringList
  rw [ringWalk_eq]
  simp only [List.mem_append, mem_sideList]
  unfold hexNorm
  constructor
  · rintro (⟨k, h⟩ | ⟨k, h⟩ | ⟨k, h⟩ | ⟨k, h⟩ | ⟨k, h⟩ | ⟨k, h⟩) <;> omega
  · intro h
    obtain ⟨px, py⟩ := p
    simp only at *
    have : (px - x - (py - y) = r ∧ px - x ≠ r) ∨ (px - x = r ∧ py - y ≠ r) ∨ (py - y = r ∧ px - x ≠ 0) ∨
      (py - y - (px - x) = r ∧ px - x ≠ -r) ∨ (px - x = -r ∧ py - y ≠ -r) ∨ (py - y = -r ∧ px - x ≠ 0) := by omega
    rcases this with h1 | h1 | h1 | h1 | h1 | h1
    · exact .inl ⟨px - x, by omega⟩
    · exact .inr (.inl ⟨py - y, by omega⟩)
    · exact .inr (.inr (.inl ⟨r - (px - x), by omega⟩))
    · exact .inr (.inr (.inr (.inl ⟨-(px - x), by omega⟩)))
    · exact .inr (.inr (.inr (.inr (.inl ⟨-(py - y), by omega⟩))))
    · exact .inr (.inr (.inr (.inr (.inr ⟨px - x + r, by omega⟩))))

theorem nodup_ringList (r : Nat) (hr : 1 ≤ r) (x y : Int) : (ringList r x y).Nodup := by
  unfold ringList
  rw [ringWalk_eq]
  simp only [List.nodup_append, List.mem_append, mem_sideList]
  refine ⟨nodup_sideList _ _ _ _ _ (by omega), ⟨nodup_sideList _ _ _ _ _ (by omega),
    ⟨nodup_sideList _ _ _ _ _ (by omega), ⟨nodup_sideList _ _ _ _ _ (by omega),
    ⟨nodup_sideList _ _ _ _ _ (by omega), nodup_sideList _ _ _ _ _ (by omega), ?_⟩, ?_⟩, ?_⟩, ?_⟩, ?_⟩
  all_goals
    rintro a ⟨k, h1⟩ b h2 rfl
  · obtain ⟨l, h2⟩ := h2; omega
  · obtain ⟨l, h2⟩ | ⟨l, h2⟩ := h2 <;> omega
  · obtain ⟨l, h2⟩ | ⟨l, h2⟩ | ⟨l, h2⟩ := h2 <;> omega
  · obtain ⟨l, h2⟩ | ⟨l, h2⟩ | ⟨l, h2⟩ | ⟨l, h2⟩ := h2 <;> omega
  · obtain ⟨l, h2⟩ | ⟨l, h2⟩ | ⟨l, h2⟩ | ⟨l, h2⟩ | ⟨l, h2⟩ := h2 <;> omega

theorem length_ringList (r : Nat) (x y : Int) : (ringList r x y).length = 6 * r := by
  unfold ringList
  rw [ringWalk_eq]
  simp [sideList]; omega

theorem rings_eq (n r : Nat) (x y : Int) :
    rings (n + 1) (r + 1) x (y - r) = ringList (r + 1) x y ++ rings n (r + 2) x (y - (r + 1 : Nat)) := by
  rw [rings]
  have h : y - (r : Int) - 1 = y - ((r + 1 : Nat) : Int) := by omega
  rw [h]
  simp only [ringList, ringWalk_eq]

theorem rings_spec (n r : Nat) (x y : Int) :
    (∀ p, p ∈ rings n (r + 1) x (y - r) ↔
      (r : Int) < hexNorm (p.1 - x) (p.2 - y) ∧ hexNorm (p.1 - x) (p.2 - y) ≤ (r : Int) + n) ∧
    (rings n (r + 1) x (y - r)).Nodup ∧
    (rings n (r + 1) x (y - r)).Pairwise (fun p q =>
      hexNorm (p.1 - x) (p.2 - y) ≤ hexNorm (q.1 - x) (q.2 - y)) ∧
    (rings n (r + 1) x (y - r)).length = 3 * n * (n + 1) + 6 * n * r := by
  induction n generalizing r with
  | zero => simp [rings]
  | succ n ih =>
    rw [rings_eq]
    obtain ⟨h1, h2, h3, h4⟩ := ih (r + 1)
    have hm := mem_ringList (r + 1) (by omega) x y
    refine ⟨?_, ?_, ?_, ?_⟩
    · intro p
      rw [List.mem_append, h1, hm]
      push_cast
      omega
    · rw [List.nodup_append]
      refine ⟨nodup_ringList _ (by omega) _ _, h2, ?_⟩
      rintro a ha b hb rfl
      rw [hm] at ha
      rw [h1] at hb
      omega
    · rw [List.pairwise_append]
      refine ⟨?_, h3, ?_⟩
      · apply List.Pairwise.imp_of_mem (R := fun _ _ => True)
        · intro a b ha hb _
          rw [hm] at ha hb
          omega
        · simp [List.pairwise_iff_forall_sublist]
      · intro a ha b hb
        rw [hm] at ha
        rw [h1] at hb
        omega
    · rw [List.length_append, length_ringList, h4]
      grind

theorem hexNorm_eq_zero (x y : Int) : hexNorm x y = 0 ↔ x = 0 ∧ y = 0 := by
  unfold hexNorm; omega

theorem basicConcentric_spec (radius : Int) (hr : 0 ≤ radius) (s : XY) :
    (∀ p, p ∈ basicConcentricXys radius s ↔ hexNorm (p.1 - s.1) (p.2 - s.2) ≤ radius) ∧
    (basicConcentricXys radius s).Nodup ∧
    (basicConcentricXys radius s).Pairwise (fun p q =>
      hexNorm (p.1 - s.1) (p.2 - s.2) ≤ hexNorm (q.1 - s.1) (q.2 - s.2)) ∧
    ((basicConcentricXys radius s).length : Int) = 1 + 3 * radius * (radius + 1) := by
  obtain ⟨h1, h2, h3, h4⟩ := rings_spec radius.toNat 0 s.1 s.2
  simp only [Int.sub_zero, Nat.zero_add, Int.natCast_zero, Int.zero_add] at h1 h2 h3 h4
  unfold basicConcentricXys
  refine ⟨?_, ?_, ?_, ?_⟩
  · intro p
    rw [List.mem_cons, h1]
    have h0 := hexNorm_nonneg (p.1 - s.1) (p.2 - s.2)
    have hz := hexNorm_eq_zero (p.1 - s.1) (p.2 - s.2)
    have : p = s ↔ p.1 = s.1 ∧ p.2 = s.2 := Prod.ext_iff
    rw [this]
    omega
  · rw [List.nodup_cons]
    refine ⟨?_, h2⟩
    rw [h1]
    have hz := hexNorm_eq_zero (s.1 - s.1) (s.2 - s.2)
    omega
  · rw [List.pairwise_cons]
    refine ⟨?_, h3⟩
    intro a ha
    have hz := hexNorm_eq_zero (s.1 - s.1) (s.2 - s.2)
    have h0 := hexNorm_nonneg (a.1 - s.1) (a.2 - s.2)
    omega
  · rw [List.length_cons, h4]
    push_cast
    rw [Int.toNat_of_nonneg hr]
    grind

end SpiNN
