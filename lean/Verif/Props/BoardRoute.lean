import Verif.Spec.BoardRoute
import Verif.Props.Connected
-- imported only so that the modules which need much memory are built one after another
import Verif.Props.Cables

/-!
# Distances on a board (C96)
-/

namespace SpiNN.Props
open SpiNN Spec

private theorem len_le (x y : Int) (k : Int) :
    Wrap.lenNone x y ≤ k ↔ x ≤ k ∧ -x ≤ k ∧ y ≤ k ∧ -y ≤ k ∧ x - y ≤ k ∧ y - x ≤ k := by
  unfold Wrap.lenNone
  repeat' split
  all_goals omega

private theorem len_step {x y a b : Int} (h1 : ∀ k, Wrap.lenNone a b ≤ k → Wrap.lenNone x y ≤ k + 1)
    (h2 : ∀ k, Wrap.lenNone x y ≤ k + 1 → Wrap.lenNone a b ≤ k) : Wrap.lenNone a b + 1 = Wrap.lenNone x y := by
  have := h1 _ (Int.le_refl _)
  have := h2 (Wrap.lenNone x y - 1) (by omega)
  omega

/-- the board is convex: there is always a step towards a chip of the board that stays on the board -/
theorem board_step {l l' : XY} (h : OnBoard48 l) (h' : OnBoard48 l') (hne : l ≠ l') : ∃ d : Dir,
    OnBoard48 (l.1 + d.dx, l.2 + d.dy) ∧
    Wrap.lenNone (l'.1 - (l.1 + d.dx)) (l'.2 - (l.2 + d.dy)) + 1 = Wrap.lenNone (l'.1 - l.1) (l'.2 - l.2) := by
  obtain ⟨x, y⟩ := l
  obtain ⟨x', y'⟩ := l'
  have hne' : ¬ (x = x' ∧ y = y') := by simpa using hne
  unfold OnBoard48 at h h'
  simp only at h h'
  unfold OnBoard48
  simp only
  have key : ∀ d : Dir, (∀ k, Wrap.lenNone (x' - (x + d.dx)) (y' - (y + d.dy)) ≤ k ↔ Wrap.lenNone (x' - x) (y' - y) ≤ k + 1) →
      Wrap.lenNone (x' - (x + d.dx)) (y' - (y + d.dy)) + 1 = Wrap.lenNone (x' - x) (y' - y) :=
    fun d hd => len_step (fun k => (hd k).1) (fun k => (hd k).2)
  rcases Int.lt_trichotomy x x' with h1 | h1 | h1
  · by_cases h2 : y < y'
    · exact ⟨.NE, by simp only [Dir.dx, Dir.dy]; omega, key _ fun k => by simp only [len_le, Dir.dx, Dir.dy]; omega⟩
    · exact ⟨.E, by simp only [Dir.dx, Dir.dy]; omega, key _ fun k => by simp only [len_le, Dir.dx, Dir.dy]; omega⟩
  · by_cases h2 : y < y'
    · exact ⟨.N, by simp only [Dir.dx, Dir.dy]; omega, key _ fun k => by simp only [len_le, Dir.dx, Dir.dy]; omega⟩
    · exact ⟨.S, by simp only [Dir.dx, Dir.dy]; omega, key _ fun k => by simp only [len_le, Dir.dx, Dir.dy]; omega⟩
  · by_cases h2 : y' < y
    · exact ⟨.SW, by simp only [Dir.dx, Dir.dy]; omega, key _ fun k => by simp only [len_le, Dir.dx, Dir.dy]; omega⟩
    · exact ⟨.W, by simp only [Dir.dx, Dir.dy]; omega, key _ fun k => by simp only [len_le, Dir.dx, Dir.dy]; omega⟩

theorem board_kind {k : VKind} (hk : k = .v5 ∨ k = .v248) (l : XY) : OnBoard k l ↔ OnBoard48 l := by
  rcases hk with h | h <;> rw [h] <;> exact .rfl

theorem not_unwired48 {k : VKind} (hk : k = .v5 ∨ k = .v248) (p : XY) (d : Dir) : ¬ Unwired k p d := by
  rintro ⟨h3, -⟩
  rcases hk with h | h <;> rw [h] at h3 <;> simp at h3

/-- where a chip of a virtual machine is -/
theorem chip_place {v : Version} {cfg : DownCfg} {w h : Int} {validate : Bool} {m : Machine}
    (hm : virtualMachine v cfg w h validate = .ok m) {c : Chip} (hc : c ∈ m.chipList) :
    (c.ethX, c.ethY) ∈ v.kind.potentialEthernetChips w h ∧ OnBoard v.kind (m.getLocalXY c) ∧
    c.xy = place m.wrap w h (c.ethX, c.ethY) (m.getLocalXY c) := by
  obtain ⟨hs, hr, hwr, hw, hh, hcc, r, -⟩ := vm_facts hm
  have hpos := hs.pos
  obtain ⟨h1, h2, h3, h4, -⟩ := C34_board v cfg w h validate m hm c hc
  refine ⟨h1, h3, ?_⟩
  unfold place
  refine ((Wrap.red_eq_iff m.wrap hpos.1 hpos.2 h2.1).2 ?_).symm
  rw [Int.add_comm _ c.ethX, Int.add_comm _ c.ethY]
  exact h4

/-- the chip at a place of a board that has no faults -/
theorem place_chip' {v : Version} {cfg : DownCfg} {w h : Int} {validate : Bool} {m : Machine}
    (hm : virtualMachine v cfg w h validate = .ok m) {e l : XY} (he : e ∈ v.kind.potentialEthernetChips w h)
    (ho : OnBoard v.kind l) (hd : ¬ ChipDown cfg (place m.wrap w h e l)) :
    ∃ c ∈ m.chipList, c.xy = place m.wrap w h e l ∧ m.getChipAt (place m.wrap w h e l).1 (place m.wrap w h e l).2 = some c ∧
      (c.ethX, c.ethY) = e ∧ m.getLocalXY c = l := by
  obtain ⟨hs, hr, hwr, hw, hh, hcc, r, -⟩ := vm_facts hm
  have hpos := hs.pos
  have hat : m.isChipAt (place m.wrap w h e l).1 (place m.wrap w h e l).2 = true := by
    rw [C30_chips v cfg w h validate m hm]
    refine ⟨hd, e, he, ?_⟩
    rw [← mem_xysByEthernet_iff_boardAt _ _ hpos.1 hpos.2, mem_xysByEthernet]
    exact ⟨l, ho, rfl⟩
  obtain ⟨c, hc⟩ := Option.isSome_iff_exists.1
    (show (m.getChipAt (place m.wrap w h e l).1 (place m.wrap w h e l).2).isSome = true from hat)
  obtain ⟨hcm, hx, hy⟩ := mem_of_chip_at r hc
  have hxy : c.xy = place m.wrap w h e l := by rw [Chip.xy, hx, hy]
  obtain ⟨h1, h2, h3⟩ := chip_place hm hcm
  have heq := h3.symm.trans hxy
  unfold place at heq
  rw [hwr] at heq
  exact ⟨c, hcm, hxy, hc, board_unique hs h1 he h2 ho heq⟩

/-- C96: on a 48-chip board without chips or links down, whatever is down elsewhere, any two chips are joined by a
route that stays on the board and is as long as the distance of their positions on the board, at most 7. -/
theorem C96_board_distance (v : Version) (cfg : DownCfg) (w h : Int) (validate : Bool) (m : Machine)
    (hk : v.kind = .v5 ∨ v.kind = .v248) (hm : virtualMachine v cfg w h validate = .ok m)
    (c c' : Chip) (hc : c ∈ m.chipList) (hc' : c' ∈ m.chipList) (he : (c.ethX, c.ethY) = (c'.ethX, c'.ethY))
    (hgood : ∀ p, BoardAt v.kind m.wrap w h (c.ethX, c.ethY) p → ¬ ChipDown cfg p ∧ ∀ i, ¬ LinkDown cfg p i) :
    ∃ path, BoardRoute m (c.ethX, c.ethY) c.xy path c'.xy ∧ path.length ≤ 7 ∧
      (path.length : Int) = Wrap.none.vectorLength w h (m.getLocalXY c) (m.getLocalXY c') := by
  obtain ⟨hs, hr, hwr, hw, hh, hcc, r, -⟩ := vm_facts hm
  have hpos := hs.pos
  obtain ⟨p1, p2, p3⟩ := chip_place hm hc
  obtain ⟨-, q2, q3⟩ := chip_place hm hc'
  rw [← he] at q3
  rw [p3, q3]
  generalize m.getLocalXY c = l at *
  generalize m.getLocalXY c' = l' at *
  generalize (c.ethX, c.ethY) = e at *
  have hfree : ∀ l, OnBoard v.kind l → ¬ ChipDown cfg (place m.wrap w h e l) ∧ ∀ i, ¬ LinkDown cfg (place m.wrap w h e l) i := by
    intro l hl
    refine hgood _ ?_
    rw [← mem_xysByEthernet_iff_boardAt _ _ hpos.1 hpos.2, mem_xysByEthernet]
    exact ⟨l, hl, rfl⟩
  have hbound : Wrap.lenNone (l'.1 - l.1) (l'.2 - l.2) ≤ 7 := by
    rw [board_kind hk] at p2 q2
    unfold OnBoard48 at p2 q2
    rw [len_le]
    omega
  suffices hsuf : ∀ (n : Nat) l, OnBoard v.kind l → Wrap.lenNone (l'.1 - l.1) (l'.2 - l.2) = n →
      ∃ path, BoardRoute m e (place m.wrap w h e l) path (place m.wrap w h e l') ∧ path.length = n by
    have h0 : 0 ≤ Wrap.lenNone (l'.1 - l.1) (l'.2 - l.2) := by
      have := (len_le (l'.1 - l.1) (l'.2 - l.2) _).1 (Int.le_refl _)
      omega
    obtain ⟨path, g1, g2⟩ := hsuf (Wrap.lenNone (l'.1 - l.1) (l'.2 - l.2)).toNat l p2 (by omega)
    refine ⟨path, g1, by omega, ?_⟩
    show _ = Wrap.lenNone (l'.1 - l.1) (l'.2 - l.2)
    omega
  intro n
  induction n with
  | zero =>
    intro l hl h0
    have h1 := (len_le (l'.1 - l.1) (l'.2 - l.2) 0).1 (by omega)
    have : l = l' := by ext <;> omega
    subst this
    obtain ⟨d, -, -, hd, hde, -⟩ := place_chip' hm p1 hl (hfree l hl).1
    exact ⟨[], .stay _ d hd hde, rfl⟩
  | succ n ih =>
    intro l hl hn
    have hne : l ≠ l' := by
      rintro rfl
      have := (len_le (l.1 - l.1) (l.2 - l.2) 0).2 (by omega)
      omega
    obtain ⟨dir, g1, g2⟩ := board_step ((board_kind hk l).1 hl) ((board_kind hk l').1 q2) hne
    have g1' := (board_kind hk _).2 g1
    obtain ⟨path, hp, hlen⟩ := ih _ g1' (by simp only; omega)
    obtain ⟨d, -, -, hd, hde, -⟩ := place_chip' hm p1 hl (hfree l hl).1
    obtain ⟨d', -, -, hd', -⟩ := place_chip' hm p1 g1' (hfree _ g1').1
    have hstep := vm_step hm (p := place m.wrap w h e l) (q := place m.wrap w h e (l.1 + dir.dx, l.2 + dir.dy)) dir
      (by show (m.getChipAt _ _).isSome = true; rw [hd]; rfl) (by show (m.getChipAt _ _).isSome = true; rw [hd']; rfl)
      ((hfree l hl).2 _) (not_unwired48 hk _ _) (by
        have := xyOverLink_dir' m (by omega) (by omega) (place m.wrap w h e l).1 (place m.wrap w h e l).2 dir
        rw [this, hw, hh]
        unfold place
        rw [Wrap.red_red_add _ hpos.1 hpos.2]
        simp only [Except.ok.injEq]
        congr 1
        ext <;> simp only <;> omega)
    cases hstep with
    | go p c i lk is q hc hlk hr2 =>
      rw [hd, Option.some.injEq] at hc
      subst hc
      generalize hq : place m.wrap w h e (l.1 + dir.dx, l.2 + dir.dy) = q at *
      cases hr2 with
      | stay =>
        exact ⟨dir.id :: path, .go _ d _ lk _ _ hd hde hlk hp, by simp [hlen]⟩

private theorem small_mul {x a w : Int} (hw : 12 ≤ w) (hx : -8 ≤ x ∧ x ≤ 8) (h : x = a * w) : a = 0 := by
  rcases Int.lt_trichotomy a 0 with h1 | h1 | h1
  · have : a * w ≤ (-1) * w := Int.mul_le_mul_of_nonneg_right (by omega) (by omega)
    omega
  · exact h1
  · have : 1 * w ≤ a * w := Int.mul_le_mul_of_nonneg_right (by omega) (by omega)
    omega

/-- one link between two chips of a board is one step on the board -/
theorem board_link {v : Version} {cfg : DownCfg} {w h : Int} {validate : Bool} {m : Machine}
    (hk : v.kind = .v5 ∨ v.kind = .v248) (hm : virtualMachine v cfg w h validate = .ok m) {c c' : Chip}
    (hc : c ∈ m.chipList) (hc' : c' ∈ m.chipList) (he : (c.ethX, c.ethY) = (c'.ethX, c'.ethY)) {i : Int} {l : Link}
    (hl : c.router.getLink i = some l) (hd : (l.destX, l.destY) = c'.xy) :
    ∃ dir : Dir, i = dir.id ∧ m.getLocalXY c' = ((m.getLocalXY c).1 + dir.dx, (m.getLocalXY c).2 + dir.dy) := by
  obtain ⟨hs, hr, hwr, hw, hh, hcc, r, -⟩ := vm_facts hm
  have hpos := hs.pos
  obtain ⟨dir, rfl, -⟩ := (C31_links v cfg w h validate m hm c hc i).1 ((hasLink_iff c i).2 ⟨l, hl⟩)
  obtain ⟨-, -, -, h4⟩ := C31_destinations v cfg w h validate m hm c hc dir.id l hl
  obtain ⟨-, p2, p3⟩ := chip_place hm hc
  obtain ⟨-, q2, q3⟩ := chip_place hm hc'
  rw [board_kind hk] at p2 q2
  rw [← he] at q3
  refine ⟨dir, rfl, ?_⟩
  have hx := xyOverLink_dir' m (by omega) (by omega) c.x c.y dir
  rw [h4, hd, q3, Except.ok.injEq] at hx
  rw [show c.x = c.xy.1 from rfl, show c.y = c.xy.2 from rfl, p3, hw, hh] at hx
  unfold place at hx
  rw [Wrap.red_red_add _ hpos.1 hpos.2] at hx
  obtain ⟨a, b, ha, hb, ha', hb'⟩ := red_diff m.wrap hpos.1 hpos.2 hx
  simp only at ha hb
  have hwr' := wrapFor_spec v.kind w h
  rw [← hwr] at hwr'
  have hwraps : (wrapsX m.wrap → 12 ≤ w) ∧ (wrapsY m.wrap → 12 ≤ h) := by
    have : (wrapsX m.wrap ↔ 12 ∣ w) ∧ (wrapsY m.wrap ↔ 12 ∣ h) := by
      rcases hk with h | h <;> rw [h] at hwr' <;> exact hwr'
    exact ⟨fun h => by have := this.1.1 h; omega, fun h => by have := this.2.1 h; omega⟩
  have hdir : (-1 ≤ dir.dx ∧ dir.dx ≤ 1) ∧ -1 ≤ dir.dy ∧ dir.dy ≤ 1 := by cases dir <;> decide
  unfold OnBoard48 at p2 q2
  have ha0 : a = 0 := by
    by_cases hX : wrapsX m.wrap
    · exact small_mul (hwraps.1 hX) (x := (m.getLocalXY c').1 - (m.getLocalXY c).1 - dir.dx) (by omega) (by omega)
    · exact ha' hX
  have hb0 : b = 0 := by
    by_cases hX : wrapsY m.wrap
    · exact small_mul (hwraps.2 hX) (x := (m.getLocalXY c').2 - (m.getLocalXY c).2 - dir.dy) (by omega) (by omega)
    · exact hb' hX
  subst ha0 hb0
  ext <;> simp only <;> omega

/-- C96: no route that stays on the board is shorter, whatever chips and links are down. -/
theorem C96_never_shorter (v : Version) (cfg : DownCfg) (w h : Int) (validate : Bool) (m : Machine)
    (hk : v.kind = .v5 ∨ v.kind = .v248) (hm : virtualMachine v cfg w h validate = .ok m)
    (c c' : Chip) (hc : c ∈ m.chipList) (hc' : c' ∈ m.chipList) (e : XY) (path : List Int)
    (hr : BoardRoute m e c.xy path c'.xy) :
    Wrap.none.vectorLength w h (m.getLocalXY c) (m.getLocalXY c') ≤ path.length := by
  obtain ⟨-, -, -, -, -, -, r, -⟩ := vm_facts hm
  have hc'' := chip_at_of_mem r hc'
  replace hc := chip_at_of_mem r hc
  replace hc : m.getChipAt c.xy.1 c.xy.2 = some c := hc
  replace hc'' : m.getChipAt c'.xy.1 c'.xy.2 = some c' := hc''
  generalize c.xy = p at *
  generalize c'.xy = q at *
  show Wrap.lenNone _ _ ≤ _
  induction hr generalizing c with
  | stay p d hd hde =>
    rw [hc, Option.some.injEq] at hc''
    subst hc''
    rw [len_le]
    simp
  | go p d i l is q hd hde hl hr ih =>
    rw [hd, Option.some.injEq] at hc
    subst hc
    obtain ⟨d2, hd2, hde2⟩ : ∃ d2, m.getChipAt l.destX l.destY = some d2 ∧ (d2.ethX, d2.ethY) = e := by
      cases hr with
      | stay _ d2 hd2 hde2 => exact ⟨d2, hd2, hde2⟩
      | go _ d2 _ _ _ _ hd2 hde2 => exact ⟨d2, hd2, hde2⟩
    have hlen := ih d2 hd2 hc''
    obtain ⟨m1, -, -⟩ := mem_of_chip_at r hd
    obtain ⟨m2, hx2, hy2⟩ := mem_of_chip_at r hd2
    obtain ⟨dir, -, hloc⟩ := board_link hk hm m1 m2 (hde.trans hde2.symm) hl (by rw [Chip.xy, hx2, hy2])
    rw [hloc] at hlen
    have hdir : (-1 ≤ dir.dx ∧ dir.dx ≤ 1) ∧ (-1 ≤ dir.dy ∧ dir.dy ≤ 1) ∧ -1 ≤ dir.dx - dir.dy ∧ dir.dx - dir.dy ≤ 1 := by
      cases dir <;> decide
    rw [len_le] at hlen ⊢
    simp only [List.length_cons] at hlen ⊢
    omega

/-- C96: between boards of a small torus there may be a shorter way over the other boards. -/
theorem C96_shorter_outside : ∃ m c c', virtualMachine exV5 {} 12 12 true = .ok m ∧ c ∈ m.chipList ∧ c' ∈ m.chipList ∧
    (c.ethX, c.ethY) = (c'.ethX, c'.ethY) ∧ m.wrap.vectorLength 12 12 c.xy c'.xy = 6 ∧
    Wrap.none.vectorLength 12 12 (m.getLocalXY c) (m.getLocalXY c') = 7 := by
  have h : (match virtualMachine exV5 {} 12 12 true with
    | .ok m => (match m.getChipAt 0 3, m.getChipAt 7 4 with
      | some c, some c' => decide (c ∈ m.chipList ∧ c' ∈ m.chipList ∧ (c.ethX, c.ethY) = (c'.ethX, c'.ethY) ∧
          m.wrap.vectorLength 12 12 c.xy c'.xy = 6 ∧ Wrap.none.vectorLength 12 12 (m.getLocalXY c) (m.getLocalXY c') = 7)
      | _, _ => false)
    | .error _ => false) = true := by decide +kernel
  split at h
  case h_2 => cases h
  rename_i m hm
  split at h
  case h_2 => cases h
  rename_i c c' _ _
  exact ⟨m, c, c', hm, of_decide_eq_true h⟩

/-- a machine of three boards: the chips at the two ends of the second board are 7 steps apart though
another board has a dead chip and a dead link -/
example : ∃ m c c', virtualMachine exV5 { chips := some "1,1".toList, links := some "2,2,0".toList } 16 16 true = .ok m ∧
    c ∈ m.chipList ∧ c' ∈ m.chipList ∧ (c.xy, c'.xy) = ((8, 4), (15, 11)) ∧
    ∃ path, BoardRoute m (8, 4) c.xy path c'.xy ∧ path.length = 7 := by
  have h : (match virtualMachine exV5 { chips := some "1,1".toList, links := some "2,2,0".toList } 16 16 true with
    | .ok m => (match m.getChipAt 8 4, m.getChipAt 15 11 with
      | some c, some c' => decide (c ∈ m.chipList ∧ c' ∈ m.chipList ∧ c.xy = (8, 4) ∧ c'.xy = (15, 11) ∧
          (c.ethX, c.ethY) = (8, 4) ∧ (c'.ethX, c'.ethY) = (8, 4) ∧ m.wrap = .none ∧
          Wrap.none.vectorLength 16 16 (m.getLocalXY c) (m.getLocalXY c') = 7)
      | _, _ => false)
    | .error _ => false) = true := by decide +kernel
  split at h
  case h_2 => cases h
  rename_i m hm
  split at h
  case h_2 => cases h
  rename_i c c' _ _
  obtain ⟨h1, h2, h3, h4, h5, h6, h7, h8⟩ := of_decide_eq_true h
  refine ⟨m, c, c', hm, h1, h2, by rw [h3, h4], ?_⟩
  obtain ⟨path, g1, -, g2⟩ := C96_board_distance exV5 _ 16 16 true m (.inl rfl) hm c c' h1 h2 (h5.trans h6.symm) (by
    rintro p ⟨-, l, hl, hs⟩
    rw [h7, h5] at hs
    simp only [Same, wrapsX, wrapsY, reduceCtorEq, or_self, if_false] at hs
    obtain ⟨l1, -, l3, -⟩ := (board_kind (.inl rfl) l).1 hl
    constructor
    · rintro ⟨l, hp, c, hc, hx, -⟩
      rw [show IgnoreChip.parseString (some "1,1".toList) = .ok [⟨1, 1, none⟩] by decide +kernel, Except.ok.injEq] at hp
      subst hp
      simp only [List.mem_singleton] at hc
      subst hc
      simp only at hx
      omega
    · rintro i ⟨l, hp, c, hc, hx, -⟩
      rw [show IgnoreLink.parseString (some "2,2,0".toList) = .ok [⟨2, 2, 0, none⟩] by decide +kernel, Except.ok.injEq] at hp
      subst hp
      simp only [List.mem_singleton] at hc
      subst hc
      simp only at hx
      omega)
  rw [h5] at g1
  exact ⟨path, g1, by omega⟩

end SpiNN.Props
