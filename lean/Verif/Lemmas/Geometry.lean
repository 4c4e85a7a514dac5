import Verif.Spec.Board
import Verif.Lemmas.Mesh
import Verif.Lemmas.PDict

namespace SpiNN
open Spec

/-! ### ranges -/

theorem mem_pyRange (n v : Int) : v ∈ pyRange n ↔ 0 ≤ v ∧ v < n := by
  simp only [pyRange, List.mem_map, List.mem_range]
  constructor
  · rintro ⟨k, hk, rfl⟩; omega
  · intro h; exact ⟨v.toNat, by omega, by omega⟩

theorem mem_pyRange2 (a b v : Int) : v ∈ pyRange2 a b ↔ a ≤ v ∧ v < b := by
  simp only [pyRange2, List.mem_map, List.mem_range]
  constructor
  · rintro ⟨k, hk, rfl⟩; omega
  · intro h; exact ⟨(v - a).toNat, by omega, by omega⟩

theorem mem_pyRange3 (a b s v : Int) (hs : 0 < s) :
    v ∈ pyRange3 a b s ↔ v < b ∧ ∃ k : Nat, v = a + s * k := by
  simp only [pyRange3, List.mem_map, List.mem_range]
  rw [Int.fdiv_eq_ediv_of_nonneg _ (Int.le_of_lt hs)]
  constructor
  · rintro ⟨k, hk, rfl⟩
    refine ⟨?_, k, rfl⟩
    have h1 : ((k : Int) + 1) ≤ (b - a + s - 1) / s := by omega
    have h2 : ((k : Int) + 1) * s ≤ b - a + s - 1 := (Int.le_ediv_iff_mul_le hs).1 h1
    rw [Int.add_mul, Int.mul_comm] at h2
    omega
  · rintro ⟨h, k, rfl⟩
    refine ⟨k, ?_, rfl⟩
    have h2 : ((k : Int) + 1) * s ≤ b - a + s - 1 := by
      rw [Int.add_mul, Int.mul_comm]; omega
    have h1 := (Int.le_ediv_iff_mul_le hs).2 h2
    omega

theorem nodup_pyRange3 (a b s : Int) (hs : 0 < s) : (pyRange3 a b s).Nodup := by
  unfold pyRange3
  rw [List.Nodup, List.pairwise_map]
  refine List.Pairwise.imp ?_ (List.nodup_range (n := _))
  intro i j hij heq
  have : s * (i : Int) = s * (j : Int) := by omega
  have := Int.eq_of_mul_eq_mul_left (by omega) this
  omega

theorem length_pyRange3 (a b s : Int) : (pyRange3 a b s).length = ((b - a + s - 1).fdiv s).toNat := by
  simp [pyRange3]

theorem nodup_pyRange (n : Int) : (pyRange n).Nodup := by
  unfold pyRange
  rw [List.Nodup, List.pairwise_map]
  refine List.Pairwise.imp ?_ (List.nodup_range (n := _))
  intro i j hij heq; omega

/-! ### the lattice and the hexagon -/

theorem ethLattice_iff (p : XY) : EthLattice p ↔ p.1 % 4 = 0 ∧ (p.1 + p.2) % 12 = 0 := by
  obtain ⟨x, y⟩ := p
  unfold EthLattice
  simp only [Prod.mk.injEq]
  constructor
  · rintro ⟨i, j, h | h | h⟩ <;> omega
  · rintro ⟨h1, h2⟩
    have : x % 12 = 0 ∨ x % 12 = 4 ∨ x % 12 = 8 := by omega
    rcases this with h | h | h
    · exact ⟨x / 12, y / 12, .inl (by omega)⟩
    · exact ⟨x / 12, y / 12, .inr (.inl (by omega))⟩
    · exact ⟨x / 12, y / 12, .inr (.inr (by omega))⟩

/-- two boards of the lattice never share a place -/
theorem lattice_unique {e f l m : XY} (he : EthLattice e) (hf : EthLattice f)
    (hl : OnBoard48 l) (hm : OnBoard48 m) (h1 : e.1 + l.1 = f.1 + m.1) (h2 : e.2 + l.2 = f.2 + m.2) :
    e = f ∧ l = m := by
  rw [ethLattice_iff] at he hf
  obtain ⟨ex, ey⟩ := e
  obtain ⟨fx, fy⟩ := f
  obtain ⟨lx, ly⟩ := l
  obtain ⟨mx, my⟩ := m
  simp only [OnBoard48, Prod.mk.injEq] at *
  have hx : ex - fx = -4 ∨ ex - fx = 0 ∨ ex - fx = 4 := by omega
  obtain ⟨a, ha⟩ : ∃ a, ex + ey - fx - fy = 12 * a := ⟨(ex + ey) / 12 - (fx + fy) / 12, by omega⟩
  have hs : a = -1 ∨ a = 0 ∨ a = 1 := by omega
  clear he hf
  rcases hx with hx | hx | hx <;> rcases hs with rfl | rfl | rfl <;> omega

/-- the offset of a residue pair on its board -/
theorem residue_cover : ∀ a : Fin 12, ∀ b : Fin 12, ∃ lx : Fin 8, ∃ ly : Fin 8,
    OnBoard48 ((lx : Nat), (ly : Nat)) ∧ ((a : Nat) - (lx : Nat) : Int) % 4 = 0 ∧
    (((a : Nat) - (lx : Nat) : Int) + ((b : Nat) - (ly : Nat) : Int)) % 12 = 0 := by
  decide +kernel

/-- every place is on a board of the lattice -/
theorem lattice_cover (p : XY) : ∃ e l : XY, EthLattice e ∧ OnBoard48 l ∧
    e.1 + l.1 = p.1 ∧ e.2 + l.2 = p.2 := by
  obtain ⟨x, y⟩ := p
  obtain ⟨lx, ly, h1, h2, h3⟩ := residue_cover ⟨(x % 12).toNat, by omega⟩ ⟨(y % 12).toNat, by omega⟩
  simp only at h2 h3
  refine ⟨(x - (lx : Nat), y - (ly : Nat)), ((lx : Nat), (ly : Nat)), ?_, h1, by simp, by simp⟩
  rw [ethLattice_iff]
  simp only
  have hx : ((x % 12).toNat : Int) = x % 12 := by omega
  have hy : ((y % 12).toNat : Int) = y % 12 := by omega
  rw [hx] at h2
  rw [hx, hy] at h3
  omega

theorem lattice_shift {e : XY} (he : EthLattice e) (i j : Int) :
    EthLattice (e.1 + 12 * i, e.2 + 12 * j) := by
  rw [ethLattice_iff] at *
  simp only
  omega

/-! ### chip core maps -/

theorem box_mem {P : XY → Prop} [DecidablePred P] (h : ∀ a : Fin 8, ∀ b : Fin 8, P ((a : Nat), (b : Nat)))
    (p : XY) (h0 : 0 ≤ p.1) (h1 : p.1 ≤ 7) (h2 : 0 ≤ p.2) (h3 : p.2 ≤ 7) : P p := by
  have := h ⟨p.1.toNat, by omega⟩ ⟨p.2.toNat, by omega⟩
  obtain ⟨x, y⟩ := p
  simp only at *
  rw [Int.toNat_of_nonneg h0, Int.toNat_of_nonneg h2] at this
  exact this

theorem mem_chipCoreMap_iff (k : VKind) (p : XY) : p ∈ k.chipCoreMap.keys ↔ OnBoard k p := by
  cases k
  · constructor
    · exact (by decide +kernel : ∀ q ∈ VKind.v3.chipCoreMap.keys,
        0 ≤ q.1 ∧ q.1 ≤ 1 ∧ 0 ≤ q.2 ∧ q.2 ≤ 1) p
    · intro h
      have : ∀ q : XY, 0 ≤ q.1 → q.1 ≤ 1 → 0 ≤ q.2 → q.2 ≤ 1 → q ∈ VKind.v3.chipCoreMap.keys := by
        rintro ⟨x, y⟩ h0 h1 h2 h3
        simp only at *
        have hx : x = 0 ∨ x = 1 := by omega
        have hy : y = 0 ∨ y = 1 := by omega
        clear h0 h1 h2 h3
        rcases hx with rfl | rfl <;> rcases hy with rfl | rfl <;> decide
      exact this p h.1 h.2.1 h.2.2.1 h.2.2.2
  · constructor
    · exact (by decide +kernel : ∀ q ∈ VKind.v5.chipCoreMap.keys, OnBoard48 q) p
    · intro h
      exact box_mem (P := fun p => OnBoard48 p → p ∈ VKind.v5.chipCoreMap.keys)
        (by decide +kernel) p h.1 h.2.1 h.2.2.1 h.2.2.2.1 h
  · simp [VKind.chipCoreMap, PDict.keys, OnBoard]
  · constructor
    · exact (by decide +kernel : ∀ q ∈ VKind.v248.chipCoreMap.keys, OnBoard48 q) p
    · intro h
      exact box_mem (P := fun p => OnBoard48 p → p ∈ VKind.v248.chipCoreMap.keys)
        (by decide +kernel) p h.1 h.2.1 h.2.2.1 h.2.2.2.1 h

theorem chipCoreMap_WF (k : VKind) : k.chipCoreMap.WF := by
  unfold PDict.WF
  cases k <;> decide +kernel

/-! ### sizes -/

theorem verifySize48_iff (w h : Int) : VKind.verifySize48 w h = .ok () ↔
    (w = 8 ∧ h = 8) ∨ (8 < w ∧ 8 < h ∧ 4 ∣ w ∧ 4 ∣ h) := by
  unfold VKind.verifySize48
  rw [pmod_eq_emod (by omega), pmod_eq_emod (by omega)]
  split
  · split
    · simp_all
    · simp; omega
  · split
    · simp; omega
    · split
      · simp; omega
      · split
        · simp; omega
        · simp; omega

theorem verifySize_iff (k : VKind) (w h : Option Int) : k.verifySize w h = .ok () ↔
    ∃ a b, w = some a ∧ h = some b ∧ SizeOK k a b := by
  cases w with
  | none => simp [VKind.verifySize]
  | some a =>
    cases h with
    | none => simp [VKind.verifySize]
    | some b =>
      simp only [VKind.verifySize, Option.some.injEq, exists_eq_left', exists_and_left]
      cases k <;> simp only [VKind.verifySize', SizeOK]
      · split
        · simp; omega
        · split
          · simp; omega
          · split
            · simp; omega
            · split
              · simp; omega
              · simp; omega
      · split
        · simp; omega
        · split
          · simp; omega
          · exact verifySize48_iff a b
      · split
        · simp; omega
        · split
          · simp; omega
          · split
            · simp; omega
            · split
              · simp; omega
              · simp; omega
      · split
        · simp; omega
        · split
          · simp; omega
          · exact verifySize48_iff a b

theorem verifySize_error (k : VKind) (w h : Option Int) (e : PyErr)
    (he : k.verifySize w h = .error e) : e = .machine := by
  unfold VKind.verifySize at he
  split at he
  · simpa using he.symm
  · split at he
    · simpa using he.symm
    · split at he
      · simpa using he.symm
      · split at he
        · simpa using he.symm
        · cases k <;> simp only [VKind.verifySize', VKind.verifySize48] at he <;>
            (repeat' split at he) <;> simp_all

theorem wrapFor_spec (k : VKind) (w h : Int) : WrapsAs k w h (k.wrapFor w h) := by
  cases k <;> simp only [WrapsAs, VKind.wrapFor]
  · decide
  · rw [pmod_eq_emod (by omega), pmod_eq_emod (by omega)]
    split <;> split <;> simp [wrapsX, wrapsY] <;> omega
  · decide
  · rw [pmod_eq_emod (by omega), pmod_eq_emod (by omega)]
    split <;> split <;> simp [wrapsX, wrapsY] <;> omega

/-! ### potential Ethernet chips -/

theorem mem_potential48 (w h : Int) (p : XY)
    (hew : 0 < (if w % 12 = 0 then w else w - 8 + 1))
    (heh : 0 < (if h % 12 = 0 then h else h - 8 + 1)) :
    p ∈ Geometry.spinn5.potentialEthernetChips w h ↔
      EthLattice p ∧ 0 ≤ p.1 ∧ p.1 < (if w % 12 = 0 then w else w - 8 + 1) ∧
        0 ≤ p.2 ∧ p.2 < (if h % 12 = 0 then h else h - 8 + 1) := by
  have ht : Geometry.spinn5.triadW = 12 := rfl
  have ht' : Geometry.spinn5.triadH = 12 := rfl
  have hb : Geometry.spinn5.boardW = 8 := rfl
  have hb' : Geometry.spinn5.boardH = 8 := rfl
  have hr : Geometry.spinn5.roots = [(0, 0), (4, 8), (8, 4)] := rfl
  simp only [Geometry.potentialEthernetChips, ht, ht', hb, hb', hr,
    pmod_eq_emod (show (0:Int) < 12 by omega)]
  generalize (if w % 12 = 0 then w else w - 8 + 1) = ew at *
  generalize (if h % 12 = 0 then h else h - 8 + 1) = eh at *
  rw [if_neg (by omega)]
  obtain ⟨x, y⟩ := p
  simp only [List.flatMap_cons, List.flatMap_nil, List.append_nil, List.mem_append, List.mem_flatMap,
    List.mem_map, mem_pyRange3 _ _ _ _ (show (0:Int) < 12 by omega), Prod.mk.injEq]
  rw [ethLattice_iff]
  simp only
  constructor
  · rintro (⟨b, ⟨hb, k, hk⟩, a, ⟨ha, j, hj⟩, rfl, rfl⟩ | ⟨b, ⟨hb, k, hk⟩, a, ⟨ha, j, hj⟩, rfl, rfl⟩ |
      ⟨b, ⟨hb, k, hk⟩, a, ⟨ha, j, hj⟩, rfl, rfl⟩) <;> omega
  · rintro ⟨⟨h1, h2⟩, h3, h4, h5, h6⟩
    have : x % 12 = 0 ∨ x % 12 = 4 ∨ x % 12 = 8 := by omega
    rcases this with h | h | h
    · exact .inl ⟨y, ⟨h6, (y / 12).toNat, by omega⟩, x, ⟨h4, (x / 12).toNat, by omega⟩, rfl, rfl⟩
    · exact .inr (.inl ⟨y, ⟨h6, (y / 12).toNat, by omega⟩, x, ⟨h4, (x / 12).toNat, by omega⟩, rfl, rfl⟩)
    · exact .inr (.inr ⟨y, ⟨h6, (y / 12).toNat, by omega⟩, x, ⟨h4, (x / 12).toNat, by omega⟩, rfl, rfl⟩)

theorem nodup_grid (a b c d : Int) :
    ((pyRange3 c d 12).flatMap fun y => (pyRange3 a b 12).map fun x => ((x, y) : XY)).Nodup := by
  have h1 := nodup_pyRange3 c d 12 (by omega)
  have h2 := nodup_pyRange3 a b 12 (by omega)
  generalize pyRange3 c d 12 = ys at *
  generalize pyRange3 a b 12 = xs at *
  clear a b c d
  induction ys with
  | nil => simp
  | cons y ys ih =>
    rw [List.nodup_cons] at h1
    rw [List.flatMap_cons, List.nodup_append]
    refine ⟨?_, ih h1.2, ?_⟩
    · rw [List.Nodup, List.pairwise_map]
      exact List.Pairwise.imp (fun hne heq => hne (by simpa using heq)) h2
    · intro p hp q hq heq
      subst heq
      simp only [List.mem_map, List.mem_flatMap] at hp hq
      obtain ⟨x, -, rfl⟩ := hp
      obtain ⟨y', hy', x', -, h⟩ := hq
      simp only [Prod.mk.injEq] at h
      rw [h.2] at hy'
      exact h1.1 hy'

theorem mem_grid (a b c d : Int) (p : XY) :
    p ∈ ((pyRange3 c d 12).flatMap fun y => (pyRange3 a b 12).map fun x => ((x, y) : XY)) →
    (p.1 - a) % 12 = 0 ∧ (p.2 - c) % 12 = 0 := by
  intro h
  simp only [List.mem_flatMap, List.mem_map, mem_pyRange3 _ _ _ _ (show (0:Int) < 12 by omega)] at h
  obtain ⟨y, ⟨-, k, hk⟩, x, ⟨-, j, hj⟩, rfl⟩ := h
  simp only
  omega

theorem nodup_potential48 (w h : Int) : (Geometry.spinn5.potentialEthernetChips w h).Nodup := by
  have ht : Geometry.spinn5.triadW = 12 := rfl
  have ht' : Geometry.spinn5.triadH = 12 := rfl
  have hr : Geometry.spinn5.roots = [(0, 0), (4, 8), (8, 4)] := rfl
  simp only [Geometry.potentialEthernetChips, ht, ht', hr]
  generalize (if pmod w 12 = 0 then w else w - Geometry.spinn5.boardW + 1) = ew
  generalize (if pmod h 12 = 0 then h else h - Geometry.spinn5.boardH + 1) = eh
  split
  · simp
  · simp only [List.flatMap_cons, List.flatMap_nil, List.append_nil, List.nodup_append]
    refine ⟨nodup_grid _ _ _ _, ⟨nodup_grid _ _ _ _, nodup_grid _ _ _ _, ?_⟩, ?_⟩
    · intro p hp q hq heq
      subst heq
      have h1 := mem_grid _ _ _ _ _ hp
      have h2 := mem_grid _ _ _ _ _ hq
      omega
    · intro p hp q hq heq
      subst heq
      have h1 := mem_grid _ _ _ _ _ hp
      rw [List.mem_append] at hq
      rcases hq with hq | hq
      · have h2 := mem_grid _ _ _ _ _ hq
        omega
      · have h2 := mem_grid _ _ _ _ _ hq
        omega

end SpiNN
