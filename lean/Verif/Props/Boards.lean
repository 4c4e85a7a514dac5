import Verif.Lemmas.Triad
import Verif.Lemmas.Counts

namespace SpiNN.Props
open SpiNN SpiNN.Spec

/-! ## C08 -/

/-- C08: existing and down coordinates of a board split the board's coordinates (each keeps the
board's order), for every machine. -/
theorem C08_existing_and_down (m : Machine) (ex ey : Int) (p : XY) :
    (p ∈ m.existingXysByEthernet ex ey ↔ p ∈ m.xysByEthernet ex ey ∧ m.containsXY p = true) ∧
    (p ∈ m.downXysByEthernet ex ey ↔ p ∈ m.xysByEthernet ex ey ∧ m.containsXY p = false) ∧
    (m.existingXysByEthernet ex ey).Sublist (m.xysByEthernet ex ey) ∧
    (m.downXysByEthernet ex ey).Sublist (m.xysByEthernet ex ey) ∧
    (m.existingXysByEthernet ex ey).length + (m.downXysByEthernet ex ey).length =
      (m.xysByEthernet ex ey).length := by
  simp only [Machine.existingXysByEthernet, Machine.downXysByEthernet, Machine.xysByEthernet,
    existing_eq, down_eq, List.mem_filter, Machine.containsXY]
  refine ⟨by simp, by simp, List.filter_sublist, List.filter_sublist, ?_⟩
  generalize m.wrap.xysByEthernet m.width m.height m.chipCoreMap ex ey = l
  induction l with
  | nil => rfl
  | cons a t ih => cases h : m.chips.contains a <;> simp [h] <;> omega

/-- C08: the coordinates of a board are `get_global_xy` of the board-local coordinates, in the
order of the version's table, and the core counts are those of the table. -/
theorem C08_global_of_local (m : Machine) (ex ey : Int) :
    m.xysByEthernet ex ey = m.localXys.map (fun l => m.getGlobalXY l.1 l.2 ex ey) ∧
    m.xyCoresByEthernet ex ey =
      m.chipCoreMap.items.map (fun e => (m.getGlobalXY e.1.1 e.1.2 ex ey, e.2)) ∧
    (m.xyCoresByEthernet ex ey).map (·.1) = m.xysByEthernet ex ey := by
  simp only [Machine.xysByEthernet, Machine.xyCoresByEthernet, Machine.getGlobalXY,
    Wrap.globalXY_eq, xysByEthernet_eq, xyCoresByEthernet_eq, Machine.localXys, PDict.keys]
  simp

theorem mapM_getE {K V : Type} [DecidableEq K] (d : PDict K V) (l : List K)
    (h : ∀ k ∈ l, d.contains k = true) :
    ∃ vs, l.mapM (fun k => d.getE k) = .ok vs ∧ vs.map some = l.map d.get? := by
  induction l with
  | nil => exact ⟨[], rfl, rfl⟩
  | cons k t ih =>
    obtain ⟨vs, h1, h2⟩ := ih fun k hk => h k (List.mem_cons_of_mem _ hk)
    have hk := h k List.mem_cons_self
    rw [PDict.contains, Option.isSome_iff_exists] at hk
    obtain ⟨v, hv⟩ := hk
    refine ⟨v :: vs, ?_, by simp [h2, hv]⟩
    rw [List.mapM_cons, (PDict.getE_eq_ok_iff d k v).2 hv, h1]
    rfl

/-- C08: `get_chips_by_ethernet` never fails and yields exactly the chips at the existing
coordinates, in order. -/
theorem C08_chips_by_ethernet (m : Machine) (ex ey : Int) :
    ∃ cs, m.chipsByEthernet ex ey = .ok cs ∧
      cs.map some = (m.existingXysByEthernet ex ey).map (fun p => m.getChipAt p.1 p.2) := by
  refine mapM_getE m.chips _ fun p hp => ?_
  exact ((C08_existing_and_down m ex ey p).1.1 hp).2

/-- a machine with one chip on a board with wrap around: both kinds of coordinates occur -/
def exChip (x y ex ey : Int) (ip : Option PyStr) : Chip :=
  Chip.mk' x y [0] [1, 2, 3, 4, 5] ⟨.empty, 1023⟩ 1000 ex ey ip none none

example : ∃ m m' : Machine, VKind.v5.createMachine (some 12) (some 12) "t" = .ok m ∧
    m.addChip (exChip 0 0 8 4 none) = .ok m' ∧ (0, 0) ∈ m'.existingXysByEthernet 8 8 ∧
    (8, 8) ∈ m'.downXysByEthernet 8 8 := by
  refine ⟨Machine.new .full 12 12 VKind.v5.chipCoreMap "t", _, rfl, rfl, ?_, ?_⟩ <;> decide +kernel

/-! ## C09 -/

/-- C09: on a fully wrapped machine every coordinate is on exactly one board, and at exactly one
place of it. -/
theorem C09_boards_tile (k : VKind) (hk : k = .v5 ∨ k = .v248) (a b : Int) (ha : 0 < a)
    (hb : 0 < b) (o : String) :
    ∃ m, k.createMachine (some (12 * a)) (some (12 * b)) o = .ok m ∧
      ∀ p : XY, InGrid (12 * a) (12 * b) p →
        ∃ e ∈ k.potentialEthernetChips (12 * a) (12 * b), p ∈ m.xysByEthernet e.1 e.2 ∧
          (m.xysByEthernet e.1 e.2).Nodup ∧
          ∀ f ∈ k.potentialEthernetChips (12 * a) (12 * b), p ∈ m.xysByEthernet f.1 f.2 → f = e := by
  have hs48 : (12 * a = 8 ∧ 12 * b = 8) ∨ (8 < 12 * a ∧ 8 < 12 * b ∧ 4 ∣ 12 * a ∧ 4 ∣ 12 * b) := by omega
  have hs : SizeOK k (12 * a) (12 * b) := by rcases hk with rfl | rfl <;> exact hs48
  have hv : k.verifySize (some (12 * a)) (some (12 * b)) = .ok () :=
    (verifySize_iff _ _ _).2 ⟨_, _, rfl, rfl, hs⟩
  refine ⟨Machine.new (k.wrapFor (12 * a) (12 * b)) (12 * a) (12 * b) k.chipCoreMap o, ?_, ?_⟩
  · simp [VKind.createMachine, hv]
  · intro p hp
    obtain ⟨e, he, l, hl, hq⟩ := board_cover hk (by omega) (by omega) ⟨a, rfl⟩ ⟨b, rfl⟩ hp
    refine ⟨e, he, ?_, nodup_xysByEthernet hs he, ?_⟩
    · exact (mem_xysByEthernet k _ _ _ e p).2 ⟨l, hl, hq⟩
    · intro f hf hpf
      obtain ⟨m, hm, hq'⟩ := (mem_xysByEthernet k _ _ _ f p).1 hpf
      exact (board_unique hs hf he hm hl (hq'.trans hq.symm)).1

/-! ## C10 -/

/-- C10: the boards of a machine are pairwise disjoint, each lists its coordinates once, and all
coordinates are inside the machine. -/
theorem C10_boards_disjoint_in_bounds (k : VKind) (w h : Int) (o : String) (m : Machine)
    (hm : k.createMachine (some w) (some h) o = .ok m) :
    ∀ e ∈ k.potentialEthernetChips w h,
      (m.xysByEthernet e.1 e.2).Nodup ∧
      (m.xysByEthernet e.1 e.2).length = k.nChipsPerBoard ∧
      (∀ p ∈ m.xysByEthernet e.1 e.2, InGrid w h p) ∧
      ∀ f ∈ k.potentialEthernetChips w h, e ≠ f →
        ∀ p, p ∈ m.xysByEthernet e.1 e.2 → p ∉ m.xysByEthernet f.1 f.2 := by
  unfold VKind.createMachine at hm
  split at hm
  · simp at hm
  · rename_i hv
    obtain ⟨a, b, ha, hb, hs⟩ := (verifySize_iff _ _ _).1 hv
    simp only [Option.some.injEq] at ha hb
    subst ha; subst hb
    simp only [Except.ok.injEq] at hm
    subst hm
    intro e he
    refine ⟨nodup_xysByEthernet hs he, ?_, ?_, ?_⟩
    · simp [Machine.xysByEthernet, xysByEthernet_eq, VKind.nChipsPerBoard, Machine.new, PDict.length_keys]
    · intro p hp
      obtain ⟨l, hl, rfl⟩ := (mem_xysByEthernet k _ _ _ e p).1 hp
      exact board_inGrid hs he hl
    · intro f hf hne p hp hp'
      obtain ⟨l, hl, hq⟩ := (mem_xysByEthernet k _ _ _ e p).1 hp
      obtain ⟨n, hn, hq'⟩ := (mem_xysByEthernet k _ _ _ f p).1 hp'
      exact hne (board_unique hs he hf hl hn (hq.trans hq'.symm)).1

/-- C10: what the coordinates of a board are: everything congruent to a displaced place of the
board. -/
theorem C10_board_coordinates (k : VKind) (w h : Int) (o : String) (m : Machine)
    (hm : k.createMachine (some w) (some h) o = .ok m) (e p : XY) :
    p ∈ m.xysByEthernet e.1 e.2 ↔ BoardAt k m.wrap w h e p := by
  unfold VKind.createMachine at hm
  split at hm
  · simp at hm
  · rename_i hv
    obtain ⟨a, b, ha, hb, hs⟩ := (verifySize_iff _ _ _).1 hv
    simp only [Option.some.injEq] at ha hb
    subst ha; subst hb
    simp only [Except.ok.injEq] at hm
    subst hm
    exact mem_xysByEthernet_iff_boardAt k _ hs.pos.1 hs.pos.2 e p

/-- an accepted size with wrap around in one direction and several boards -/
example : (VKind.v5.createMachine (some 12) (some 16) "t").toOption.isSome ∧
    VKind.v5.potentialEthernetChips 12 16 = [(0, 0), (4, 8), (8, 4)] := by decide +kernel

/-! ## C11 -/

/-- C11: `get_local_chip_coordinate` is the one place of the board such that going back by it
reaches a legal Ethernet position (relative to the root). -/
theorem C11_local_chip_coordinate (x y rootX rootY : Int) (l : XY) :
    Geometry.spinn5.localChipCoordinate x y rootX rootY = .ok l ↔
      OnBoard48 l ∧ EthLattice (x - rootX - l.1, y - rootY - l.2) :=
  localChipCoordinate_iff x y rootX rootY l

/-- C11: it always returns -/
theorem C11_local_chip_coordinate_total (x y rootX rootY : Int) :
    ∃ l, Geometry.spinn5.localChipCoordinate x y rootX rootY = .ok l :=
  let ⟨l, h, _⟩ := localChipCoordinate_spec x y rootX rootY
  ⟨l, h⟩

/-- C11: on a machine of any accepted size, `get_ethernet_chip_coordinates` of a coordinate of a
board is the board's Ethernet chip. -/
theorem C11_ethernet_of_board (k : VKind) (hk : k = .v5 ∨ k = .v248) (w h : Int) (o : String)
    (m : Machine) (hm : k.createMachine (some w) (some h) o = .ok m) (e p : XY)
    (he : e ∈ k.potentialEthernetChips w h) (hp : p ∈ m.xysByEthernet e.1 e.2) :
    Geometry.spinn5.ethernetChipCoordinates p.1 p.2 w h 0 0 = .ok e := by
  unfold VKind.createMachine at hm
  split at hm
  · simp at hm
  · rename_i hv
    obtain ⟨a, b, ha, hb, hs⟩ := (verifySize_iff _ _ _).1 hv
    simp only [Option.some.injEq] at ha hb
    subst ha; subst hb
    simp only [Except.ok.injEq] at hm
    subst hm
    simp only [Option.getD_some] at hp
    obtain ⟨l, hl, hq⟩ := (mem_xysByEthernet k (k.wrapFor w h) w h e p).1 hp
    have hpos := hs.pos
    have hwr := wrapFor_spec k w h
    have hin := Wrap.red_inRange (k.wrapFor w h) hpos.1 hpos.2 (l.1 + e.1, l.2 + e.2)
    rw [hq] at hin
    rw [← Wrap.red_of_inRange _ hin] at hq
    obtain ⟨i, j, h1, h2, h3, h4⟩ := red_diff _ hpos.1 hpos.2 hq
    simp only at h1 h2
    rw [mem_potential_iff hs] at he
    obtain ⟨he1, ⟨ge1, ge2, ge3, ge4⟩, -⟩ := he
    have he1' : EthLattice e := by rcases hk with rfl | rfl <;> exact he1
    have hl' : OnBoard48 l := by rcases hk with rfl | rfl <;> exact hl
    have hwr' : (wrapsX (k.wrapFor w h) ↔ 12 ∣ w) ∧ (wrapsY (k.wrapFor w h) ↔ 12 ∣ h) := by
      rcases hk with rfl | rfl <;> exact hwr
    obtain ⟨c, hc⟩ : ∃ c, i * w = 12 * c := by
      by_cases hx : wrapsX (k.wrapFor w h)
      · obtain ⟨d, rfl⟩ := hwr'.1.1 hx
        exact ⟨i * d, by rw [Int.mul_left_comm]⟩
      · exact ⟨0, by simp [h3 hx]⟩
    obtain ⟨d, hd⟩ : ∃ c, j * h = 12 * c := by
      by_cases hy : wrapsY (k.wrapFor w h)
      · obtain ⟨d, rfl⟩ := hwr'.2.1 hy
        exact ⟨j * d, by rw [Int.mul_left_comm]⟩
      · exact ⟨0, by simp [h4 hy]⟩
    have hloc : Geometry.spinn5.localChipCoordinate p.1 p.2 0 0 = .ok l := by
      rw [localChipCoordinate_iff]
      refine ⟨hl', ?_⟩
      have := lattice_shift he1' (-c) (-d)
      rwa [show e.1 + 12 * -c = p.1 - 0 - l.1 by omega, show e.2 + 12 * -d = p.2 - 0 - l.2 by omega] at this
    simp only [Geometry.ethernetChipCoordinates, hloc]
    rw [(pmod_eq_iff hpos.1 ge1 ge2).2 ⟨-i, by rw [Int.neg_mul]; omega⟩,
      (pmod_eq_iff hpos.2 ge3 ge4).2 ⟨-j, by rw [Int.neg_mul]; omega⟩]

/-- C11: with sizes that are multiples of 12 and any root, `get_ethernet_chip_coordinates` of any
coordinate is a place of the machine that is a legal Ethernet position relative to the root and
whose board, laid on the torus, holds the coordinate. -/
theorem C11_ethernet_chip_coordinates (x y a b rootX rootY : Int) (ha : 0 < a) (hb : 0 < b) :
    ∃ e, Geometry.spinn5.ethernetChipCoordinates x y (12 * a) (12 * b) rootX rootY = .ok e ∧
      InGrid (12 * a) (12 * b) e ∧ EthLattice (e.1 - rootX, e.2 - rootY) ∧
      ∃ l, OnBoard48 l ∧ Same .full (12 * a) (12 * b) (e.1 + l.1, e.2 + l.2) (x, y) := by
  obtain ⟨l, hl, h1, h2⟩ := localChipCoordinate_spec x y rootX rootY
  have hw : 0 < 12 * a := by omega
  have hh : 0 < 12 * b := by omega
  obtain ⟨i, hi⟩ := pmod_exists (x - l.1) (12 * a) hw
  obtain ⟨j, hj⟩ := pmod_exists (y - l.2) (12 * b) hh
  refine ⟨_, by simp [Geometry.ethernetChipCoordinates, hl]; rfl, ?_, ?_, l, h1, ?_⟩
  · exact ⟨pmod_nonneg hw, pmod_lt hw, pmod_nonneg hh, pmod_lt hh⟩
  · have := lattice_shift h2 (-(i * a)) (-(j * b))
    have e1 : i * (12 * a) = 12 * (i * a) := by rw [Int.mul_left_comm]
    have e2 : j * (12 * b) = 12 * (j * b) := by rw [Int.mul_left_comm]
    simp only at this
    simp only
    rwa [show x - rootX - l.1 + 12 * -(i * a) = pmod (x - l.1) (12 * a) - rootX by omega,
      show y - rootY - l.2 + 12 * -(j * b) = pmod (y - l.2) (12 * b) - rootY by omega] at this
  · simp only [Same, wrapsX, wrapsY, reduceCtorEq, or_true, if_true]
    exact ⟨⟨-i, by rw [Int.neg_mul]; omega⟩, -j, by rw [Int.neg_mul]; omega⟩

/-- C11: the float comparisons of the constructor cannot go wrong: the nearest candidate is at
least 1/5 nearer than every other. -/
theorem C11_nearest_is_unique (x y : Int) (hx : 0 ≤ x ∧ x < 12) (hy : 0 ≤ y ∧ y < 12) (u : XY)
    (hu : u ∈ Geometry.extended 12 12 [(0, 0), (4, 8), (8, 4)])
    (hne : u ≠ Geometry.locateNearest (x, y) (Geometry.extended 12 12 [(0, 0), (4, 8), (8, 4)]) (18, 17)) :
    Geometry.measure5 (x, y) (18, 17)
      (Geometry.locateNearest (x, y) (Geometry.extended 12 12 [(0, 0), (4, 8), (8, 4)]) (18, 17)) + 1 ≤
    Geometry.measure5 (x, y) (18, 17) u := by
  have := nearest_gap ⟨y.toNat, by omega⟩ ⟨x.toNat, by omega⟩ u hu
  simp only at this
  rw [Int.toNat_of_nonneg hx.1, Int.toNat_of_nonneg hy.1] at this
  exact this.resolve_left hne

example : Geometry.spinn5.ethernetChipCoordinates 1 5 24 12 0 0 = .ok (20, 4) := by decide +kernel

/-! ## C12 -/

/-- C12: `create_machine` succeeds exactly for the supported sizes. -/
theorem C12_accepts_exactly (k : VKind) (w h : Option Int) (o : String) :
    (∃ m, k.createMachine w h o = .ok m) ↔ ∃ a b, w = some a ∧ h = some b ∧ SizeOK k a b := by
  rw [← verifySize_iff]
  unfold VKind.createMachine
  cases k.verifySize w h <;> simp

/-- C12: every refusal is a `SpinnMachineException`; the same holds for `verify_size`. -/
theorem C12_refusal (k : VKind) (w h : Option Int) (o : String) (e : PyErr)
    (he : k.createMachine w h o = .error e ∨ k.verifySize w h = .error e) : e = .machine := by
  rcases he with he | he
  · unfold VKind.createMachine at he
    split at he
    · rename_i heq
      simp only [Except.error.injEq] at he
      subst he
      exact verifySize_error k w h _ heq
    · simp at he
  · exact verifySize_error k w h _ he

/-- C12: the machine created is empty, has the size and origin asked for, wraps exactly as
specified and has the version's board. -/
theorem C12_created_machine (k : VKind) (w h : Int) (o : String) (m : Machine)
    (hm : k.createMachine (some w) (some h) o = .ok m) :
    m.width = w ∧ m.height = h ∧ m.origin = o ∧ WrapsAs k w h m.wrap ∧ m.len = 0 ∧
      m.ethernetChips = [] ∧ m.bootAddr = none ∧ m.spinLinks.size = 0 ∧ m.nFpgaLinks = 0 ∧
      ∀ p, p ∈ m.localXys ↔ OnBoard k p := by
  unfold VKind.createMachine at hm
  split at hm
  · simp at hm
  · simp only [Option.getD_some, Except.ok.injEq] at hm
    subst hm
    exact ⟨rfl, rfl, rfl, wrapFor_spec k w h, rfl, rfl, rfl, rfl, rfl, mem_chipCoreMap_iff k⟩

example : SizeOK .v5 20 12 ∧ ¬ SizeOK .v5 12 8 ∧ ¬ SizeOK .v3 8 8 := by decide

/-! ## C13 -/

/-- `illegal_ethernet_message` is `None` exactly at the legal positions. -/
theorem C13_legal_positions (k : VKind) (p : XY) : k.illegalEthernet p.1 p.2 = false ↔ EthPos k p := by
  obtain ⟨x, y⟩ := p
  cases k <;> simp only [VKind.illegalEthernet, EthPos]
  · simp [Prod.ext_iff]
  · rw [ethLattice_iff, pmod_eq_emod (by omega), pmod_eq_emod (by omega)]
    split
    · simp; omega
    · split <;> simp <;> omega
  · simp [Prod.ext_iff]
  · rw [ethLattice_iff, pmod_eq_emod (by omega), pmod_eq_emod (by omega)]
    split
    · simp; omega
    · split <;> simp <;> omega

/-- C13: potential Ethernet chips are the legal positions inside the machine whose whole board
fits; none is listed twice. -/
theorem C13_potential_exact (k : VKind) (w h : Int) (o : String) (m : Machine)
    (hm : k.createMachine (some w) (some h) o = .ok m) :
    (k.potentialEthernetChips w h).Nodup ∧
    ∀ p, p ∈ k.potentialEthernetChips w h ↔
      k.illegalEthernet p.1 p.2 = false ∧ InGrid w h p ∧ BoardFits k m.wrap w h p := by
  unfold VKind.createMachine at hm
  split at hm
  · simp at hm
  · rename_i hv
    obtain ⟨a, b, ha, hb, hs⟩ := (verifySize_iff _ _ _).1 hv
    simp only [Option.some.injEq] at ha hb
    subst ha; subst hb
    simp only [Except.ok.injEq] at hm
    subst hm
    refine ⟨nodup_potential k w h, fun p => ?_⟩
    rw [C13_legal_positions]
    exact mem_potential_iff hs p

/-- the chip at (0, 0) is always among them -/
theorem C13_origin_is_potential (k : VKind) (w h : Int) (hs : SizeOK k w h) :
    (0, 0) ∈ k.potentialEthernetChips w h := by
  cases k
  · simp [VKind.potentialEthernetChips]
  · exact (mem_potential48' hs _).2 ⟨⟨0, 0, .inl rfl⟩, by simp only [SizeOK] at hs; simp; omega⟩
  · simp [VKind.potentialEthernetChips]
  · exact (mem_potential48' hs _).2 ⟨⟨0, 0, .inl rfl⟩, by simp only [SizeOK] at hs; simp; omega⟩

/-! ## C14 -/

/-- C14: `size_from_n_boards` of a 48-chip version gives a supported size with at least `n`
boards; with more than one board it is `a × b` triads, nearly square, and one row of triads less
would be too small. -/
theorem C14_enough_boards (k : VKind) (hk : k = .v5 ∨ k = .v248) (n : Int) :
    ∃ w h, k.sizeFromNBoards n = .ok (w, h) ∧ SizeOK k w h ∧
      n ≤ ((k.potentialEthernetChips w h).length : Int) ∧
      (1 < n → ∃ a b, w = 12 * a + 4 ∧ h = 12 * b + 4 ∧
        ((k.potentialEthernetChips w h).length : Int) = 3 * a * b ∧
        3 * a * (b - 1) < n ∧ b ≤ a ∧ a ≤ b + 1) := by
  have h48 : k.is48 = true := by rcases hk with rfl | rfl <;> rfl
  have hpot : ∀ w h, k.potentialEthernetChips w h = Geometry.spinn5.potentialEthernetChips w h := by
    rcases hk with rfl | rfl <;> exact fun _ _ => rfl
  have hsz : ∀ w h, SizeOK k w h ↔ ((w = 8 ∧ h = 8) ∨ (8 < w ∧ 8 < h ∧ 4 ∣ w ∧ 4 ∣ h)) := by
    rcases hk with rfl | rfl <;> exact fun _ _ => Iff.rfl
  simp only [VKind.sizeFromNBoards, h48, if_true, hpot, hsz]
  split
  · refine ⟨8, 8, rfl, .inl ⟨rfl, rfl⟩, ?_, by omega⟩
    have : (Geometry.spinn5.potentialEthernetChips 8 8).length = 1 := by decide +kernel
    omega
  · have ht := ceilDiv_spec n 3 (by omega)
    have htpos : 0 < ceilDiv n 3 := by omega
    generalize ceilDiv n 3 = t at *
    obtain ⟨ha, hle, hlt⟩ := ceilSqrt_spec t htpos
    generalize VKind.ceilSqrt t = a at *
    have hb := ceilDiv_spec t a ha
    have hbpos : 0 < ceilDiv t a := by
      rcases Int.lt_or_le 0 (ceilDiv t a) with h | h
      · exact h
      · have := Int.mul_nonpos_of_nonneg_of_nonpos (Int.le_of_lt ha) h
        omega
    simp only [VKind.sizeFromTriads]
    generalize ceilDiv t a = b at *
    have hlen := length_potential_triads a b ha hbpos
    have hab : t ≤ a * b := hb.1
    have e1 : a * (b - 1) = a * b - a := by rw [Int.mul_sub, Int.mul_one]
    have e2 : 3 * a * b = 3 * (a * b) := Int.mul_assoc 3 a b
    have e3 : 3 * a * (b - 1) = 3 * (a * (b - 1)) := Int.mul_assoc 3 a (b - 1)
    have e4 : (a - 1) * (a - 1) = a * a - 2 * a + 1 := by
      rw [Int.mul_sub, Int.sub_mul]; omega
    refine ⟨_, _, rfl, .inr (by omega), ?_, fun _ => ⟨a, b, by omega, by omega, hlen, by omega, ?_, ?_⟩⟩
    · rw [hlen]; omega
    · rcases Int.lt_or_le a b with h | h
      · have : a * a ≤ a * (b - 1) := Int.mul_le_mul_of_nonneg_left (by omega) (by omega)
        omega
      · exact h
    · rcases Int.lt_or_le (b + 1) a with h | h
      · have : a * b ≤ a * (a - 2) := Int.mul_le_mul_of_nonneg_left (by omega) (by omega)
        have e5 : a * (a - 2) = a * a - 2 * a := by rw [Int.mul_sub]; omega
        omega
      · exact h

/-- C14: whatever positive number `math.ceil(math.sqrt(...))` evaluates to, the size has at least
`n` boards: floating point rounding cannot make the machine too small. -/
theorem C14_any_width (n width : Int) (hn : 1 < n) (hw : 0 < width) :
    SizeOK .v5 (VKind.sizeFromTriads (ceilDiv n 3) width).1 (VKind.sizeFromTriads (ceilDiv n 3) width).2 ∧
    n ≤ ((VKind.v5.potentialEthernetChips (VKind.sizeFromTriads (ceilDiv n 3) width).1
      (VKind.sizeFromTriads (ceilDiv n 3) width).2).length : Int) := by
  have ht := ceilDiv_spec n 3 (by omega)
  generalize ceilDiv n 3 = t at *
  have hb := ceilDiv_spec t width hw
  have hbpos : 0 < ceilDiv t width := by
    rcases Int.lt_or_le 0 (ceilDiv t width) with h | h
    · exact h
    · have := Int.mul_nonpos_of_nonneg_of_nonpos (Int.le_of_lt hw) h
      omega
  simp only [VKind.sizeFromTriads, VKind.potentialEthernetChips, SizeOK]
  rw [length_potential_triads _ _ hw hbpos, Int.mul_assoc]
  omega

/-- C14: single board versions give their board for `n = 1` and raise for everything else. -/
theorem C14_single_board (k : VKind) (hk : k = .v3 ∨ k = .v201) (n : Int) :
    (n = 1 → k.sizeFromNBoards n = .ok k.boardShape ∧ SizeOK k k.boardShape.1 k.boardShape.2) ∧
    (n ≠ 1 → k.sizeFromNBoards n = .error .machine) := by
  rcases hk with rfl | rfl <;>
    simp +contextual [VKind.sizeFromNBoards, VKind.is48, VKind.boardShape, SizeOK,
      VKind.supportsMultipleBoards]

example : VKind.v5.sizeFromNBoards 7 = .ok (28, 28) := by decide +kernel

/-! ## C29 -/

/-- the table as a check: is this link of this chip in the table? -/
def inFpgaTable (l : XY) (d : Int) : Prop :=
  ∃ f ∈ VKind.v5.fpgaLinks, f.1 = l.1 ∧ f.2.1 = l.2 ∧ f.2.2.1 = d

instance (l : XY) (d : Int) : Decidable (inFpgaTable l d) := by unfold inFpgaTable; infer_instance

theorem fpga_boundary_tab : ∀ a : Fin 8, ∀ b : Fin 8, ∀ d ∈ [Dir.E, .NE, .N, .W, .SW, .S],
    OnBoard48 ((a : Nat), (b : Nat)) →
    (inFpgaTable ((a : Nat), (b : Nat)) d.id ↔
      ¬ OnBoard48 (((a : Nat) : Int) + d.dx, ((b : Nat) : Int) + d.dy)) := by
  decide +kernel

theorem mem_allDirs (d : Dir) : d ∈ [Dir.E, .NE, .N, .W, .SW, .S] := by cases d <;> decide

/-- C29: the table lists exactly the links that leave the board. -/
theorem C29_table_is_boundary (l : XY) (d : Dir) (hl : OnBoard48 l) :
    inFpgaTable l d.id ↔ ¬ OnBoard48 (l.1 + d.dx, l.2 + d.dy) := by
  have := hl
  obtain ⟨x, y⟩ := l
  obtain ⟨h0, h1, h2, h3, -⟩ := this
  have := fpga_boundary_tab ⟨x.toNat, by simp only at *; omega⟩ ⟨y.toNat, by simp only at *; omega⟩ d
    (mem_allDirs d)
  simp only at *
  rw [Int.toNat_of_nonneg h0, Int.toNat_of_nonneg h2] at this
  exact this hl

/-- C29: all entries are links of the board's chips; no link and no FPGA connector occurs twice;
the connectors are those of 3 FPGAs with 16 links each, all of them. -/
theorem C29_table_wellformed :
    (∀ f ∈ VKind.v5.fpgaLinks, OnBoard48 (f.1, f.2.1) ∧ 0 ≤ f.2.2.1 ∧ f.2.2.1 ≤ 5 ∧
      0 ≤ f.2.2.2.1 ∧ f.2.2.2.1 ≤ 2 ∧ 0 ≤ f.2.2.2.2 ∧ f.2.2.2.2 ≤ 15) ∧
    (VKind.v5.fpgaLinks.map fun f => (f.1, f.2.1, f.2.2.1)).Nodup ∧
    (VKind.v5.fpgaLinks.map fun f => (f.2.2.2.1, f.2.2.2.2)).Nodup ∧
    (∀ i : Fin 3, ∀ j : Fin 16, (((i : Nat) : Int), ((j : Nat) : Int)) ∈
      VKind.v5.fpgaLinks.map fun f => (f.2.2.2.1, f.2.2.2.2)) := by
  refine ⟨?_, ?_, ?_, ?_⟩ <;> decide +kernel

/-- the chip and link of the connector `(f, l)` in the table -/
def atConnector (f l : Int) (p : XY) (d : Dir) : Prop := (p.1, p.2, d.id, f, l) ∈ VKind.v5.fpgaLinks

instance (f l : Int) (p : XY) (d : Dir) : Decidable (atConnector f l p d) := by
  unfold atConnector; infer_instance

theorem around_tab : ∀ r ∈ VKind.v5.fpgaLinks, ∀ d ∈ [Dir.E, .NE, .N, .W, .SW, .S], d.id = r.2.2.1 →
    (r.2.2.2.1, r.2.2.2.2) ≠ (2, 15) →
    atConnector (Machine.nextFpgaLink r.2.2.2.1 r.2.2.2.2).1 (Machine.nextFpgaLink r.2.2.2.1 r.2.2.2.2).2
      (nextAround (r.1, r.2.1) d).1 (nextAround (r.1, r.2.1) d).2 ∧
    16 * (Machine.nextFpgaLink r.2.2.2.1 r.2.2.2.2).1 + (Machine.nextFpgaLink r.2.2.2.1 r.2.2.2.2).2 =
      16 * r.2.2.2.1 + r.2.2.2.2 + 1 := by
  decide +kernel

/-- C29: how the connectors are numbered. Connector 0 of FPGA 0 is the East link of chip (7, 3). The
connector that follows (the next of the same FPGA, after number 15 number 0 of the next FPGA) is the
next link out of the board, walking around it clockwise. -/
theorem C29_clockwise : atConnector 0 0 (7, 3) .E ∧
    ∀ (f l : Int) (p : XY) (d : Dir), atConnector f l p d → (f, l) ≠ (2, 15) →
      (l ≠ 15 → atConnector f (l + 1) (nextAround p d).1 (nextAround p d).2) ∧
      (l = 15 → atConnector (f + 1) 0 (nextAround p d).1 (nextAround p d).2) ∧
      Machine.nextFpgaLink f l = if l = 15 then (f + 1, 0) else (f, l + 1) := by
  refine ⟨by decide +kernel, fun f l p d h hne => ?_⟩
  have := (around_tab _ h d (mem_allDirs d) rfl hne).1
  simp only [Machine.nextFpgaLink] at this
  refine ⟨fun hl => ?_, fun hl => ?_, rfl⟩
  · simpa [hl] using this
  · simpa [hl] using this

/-- C29: the other versions have no FPGA links. -/
theorem C29_only_v5 (k : VKind) (hk : k ≠ .v5) : k.fpgaLinks = [] := by
  cases k <;> first | rfl | exact absurd rfl hk

/-- C29: both ends of a link from one board to another are FPGA links, whatever the machine. -/
theorem C29_both_ends (w h : Int) (o : String) (mc : Machine)
    (hm : VKind.v5.createMachine (some w) (some h) o = .ok mc) (e f : XY)
    (he : e ∈ VKind.v5.potentialEthernetChips w h) (hf : f ∈ VKind.v5.potentialEthernetChips w h)
    (hne : e ≠ f) (l m : XY) (d d' : Dir) (hl : OnBoard48 l) (hm' : OnBoard48 m)
    (hd : d'.id = Router.opposite d.id)
    (hq : mc.xyOverLink (mc.getGlobalXY l.1 l.2 e.1 e.2).1 (mc.getGlobalXY l.1 l.2 e.1 e.2).2 d.id =
      .ok (mc.getGlobalXY m.1 m.2 f.1 f.2)) :
    inFpgaTable l d.id ∧ inFpgaTable m d'.id := by
  unfold VKind.createMachine at hm
  split at hm
  · simp at hm
  · rename_i hv
    obtain ⟨a, b, ha, hb, hs⟩ := (verifySize_iff _ _ _).1 hv
    simp only [Option.some.injEq] at ha hb
    subst ha; subst hb
    simp only [Except.ok.injEq] at hm
    subst hm
    have hpos := hs.pos
    simp only [Machine.xyOverLink, Machine.getGlobalXY, Machine.new, Option.getD_some,
      Wrap.globalXY_eq] at hq
    have hstep : (VKind.wrapFor .v5 w h).red w h (l.1 + d.dx + e.1, l.2 + d.dy + e.2) =
        (VKind.wrapFor .v5 w h).red w h (m.1 + f.1, m.2 + f.2) := by
      have hadd : pyIndex linkAddTable d.id = .ok (d.dx, d.dy) := by cases d <;> decide
      unfold Wrap.xyOverLink at hq
      rw [hadd] at hq
      simp only [Except.ok.injEq] at hq
      rw [Wrap.stepBy_eq _ hpos.1 hpos.2, Wrap.red_red_add _ hpos.1 hpos.2] at hq
      simp only at hq
      rw [show l.1 + d.dx + e.1 = l.1 + e.1 + d.dx by omega,
        show l.2 + d.dy + e.2 = l.2 + e.2 + d.dy by omega]
      exact hq
    have hback : d'.dx = -d.dx ∧ d'.dy = -d.dy := by
      cases d <;> cases d' <;> revert hd <;> decide
    rw [C29_table_is_boundary l d hl, C29_table_is_boundary m d' hm']
    constructor
    · intro hon
      exact hne (board_unique hs he hf (l := (l.1 + d.dx, l.2 + d.dy)) (m := m) hon hm' hstep).1
    · intro hon
      refine hne (board_unique hs he hf (l := l) (m := (m.1 + d'.dx, m.2 + d'.dy)) hl hon ?_).1
      simp only
      have e1 := Wrap.red_red_add (VKind.wrapFor .v5 w h) hpos.1 hpos.2
        (l.1 + d.dx + e.1, l.2 + d.dy + e.2) (-d.dx) (-d.dy)
      have e2 := Wrap.red_red_add (VKind.wrapFor .v5 w h) hpos.1 hpos.2 (m.1 + f.1, m.2 + f.2)
        (-d.dx) (-d.dy)
      rw [hstep] at e1
      rw [e1] at e2
      simp only at e2
      rw [hback.1, hback.2]
      rw [show l.1 + d.dx + e.1 + -d.dx = l.1 + e.1 by omega,
        show l.2 + d.dy + e.2 + -d.dy = l.2 + e.2 by omega,
        show m.1 + f.1 + -d.dx = m.1 + -d.dx + f.1 by omega,
        show m.2 + f.2 + -d.dy = m.2 + -d.dy + f.2 by omega] at e2
      exact e2

/-- a link from the board at (0, 0) to the board at (8, 4) of a 12 × 12 machine -/
example : (Machine.new .full 12 12 VKind.v5.chipCoreMap "t").xyOverLink 7 5 0 =
    .ok ((Machine.new .full 12 12 VKind.v5.chipCoreMap "t").getGlobalXY 0 1 8 4) := by decide

end SpiNN.Props
