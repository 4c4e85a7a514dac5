import Verif.Spec.Route
import Verif.Props.Factory
import Verif.Props.Mesh

/-!
# Perfect machines are connected (C76)
-/

namespace SpiNN.Props
open SpiNN Spec

theorem Route.append {m : Machine} {p q r : XY} {is js : List Int} (h1 : Route m p is q) (h2 : Route m q js r) :
    Route m p (is ++ js) r := by
  induction h1 with
  | stay => exact h2
  | go p c i l is q hc hl _ ih => exact .go p c i l _ r hc hl (ih h2)

/-- there and back -/
def Conn (m : Machine) (p q : XY) : Prop := (∃ is, Route m p is q) ∧ ∃ is, Route m q is p

theorem Conn.symm {m : Machine} {p q : XY} (h : Conn m p q) : Conn m q p := ⟨h.2, h.1⟩

theorem Conn.trans {m : Machine} {p q r : XY} (h1 : Conn m p q) (h2 : Conn m q r) : Conn m p r := by
  obtain ⟨⟨a, ha⟩, b, hb⟩ := h1
  obtain ⟨⟨c, hc⟩, d, hd⟩ := h2
  exact ⟨⟨_, Route.append ha hc⟩, _, Route.append hd hb⟩

/-- one step over a link that is not down and wired -/
theorem vm_step {v : Version} {cfg : DownCfg} {w h : Int} {validate : Bool} {m : Machine}
    (hm : virtualMachine v cfg w h validate = .ok m) {p q : XY} (dir : Dir)
    (hp : m.isChipAt p.1 p.2 = true) (hq : m.isChipAt q.1 q.2 = true)
    (hd : ¬ LinkDown cfg p dir.id) (hu : ¬ Unwired v.kind p dir)
    (hx : m.xyOverLink p.1 p.2 dir.id = .ok q) : Route m p [dir.id] q := by
  obtain ⟨hs, hr, hwr, hw, hh, hcc, r, -⟩ := vm_facts hm
  obtain ⟨c, hc⟩ := Option.isSome_iff_exists.1 (show (m.getChipAt p.1 p.2).isSome = true from hp)
  obtain ⟨hcm, hcx, hcy⟩ := mem_of_chip_at r hc
  have hxy : c.xy = p := by simp [Chip.xy, hcx, hcy]
  have hhas : HasLink c dir.id := by
    rw [C31_links v cfg w h validate m hm c hcm]
    refine ⟨dir, rfl, by rw [hxy]; exact hd, by rw [hxy]; exact hu, q, ?_, hq⟩
    rw [hcx, hcy]; exact hx
  rw [hasLink_iff] at hhas
  obtain ⟨l, hl⟩ := hhas
  obtain ⟨-, -, -, h4⟩ := C31_destinations v cfg w h validate m hm c hcm dir.id l hl
  rw [hcx, hcy, hx, Except.ok.injEq] at h4
  refine .go p c _ l [] q hc hl ?_
  rw [← h4]
  exact .stay q hq

/-- the opposite direction -/
def Dir.opp : Dir → Dir
  | .E => .W | .NE => .SW | .N => .S | .W => .E | .SW => .NE | .S => .N

theorem Dir.opp_id (d : Dir) : (Dir.opp d).id = Router.opposite d.id := by cases d <;> decide

theorem vm_conn {v : Version} {cfg : DownCfg} {w h : Int} {validate : Bool} {m : Machine}
    (hm : virtualMachine v cfg w h validate = .ok m) (hl : ∀ p i, ¬ LinkDown cfg p i) {p q : XY} (dir : Dir)
    (hp : m.isChipAt p.1 p.2 = true) (hq : m.isChipAt q.1 q.2 = true)
    (hu : ¬ Unwired v.kind p dir) (hu' : ¬ Unwired v.kind q (Dir.opp dir))
    (hx : m.xyOverLink p.1 p.2 dir.id = .ok q) : Conn m p q := by
  refine ⟨⟨_, vm_step hm dir hp hq (hl _ _) hu hx⟩, _, vm_step hm (Dir.opp dir) hq hp (hl _ _) hu' ?_⟩
  obtain ⟨hs, hr, hwr, hw, hh, hcc, r, -⟩ := vm_facts hm
  have hpos := hs.pos
  have hin : InRange m.wrap m.width m.height p := by
    have h1 := (C30_chips v cfg w h validate m hm p).1 hp
    obtain ⟨-, e, -, hb⟩ := h1
    rw [hw, hh]; exact hb.1
  obtain ⟨q', h1, h2⟩ := C01_over_link_and_back m.wrap m.width m.height (by omega) (by omega) p hin dir.id
    (by cases dir <;> decide) (by cases dir <;> decide)
  unfold Machine.xyOverLink at hx ⊢
  rw [hx, Except.ok.injEq] at h1
  subst h1
  rw [Dir.opp_id]; exact h2

/-- the place of a position on a board -/
def place (wr : Wrap) (w h : Int) (e l : XY) : XY := wr.red w h (l.1 + e.1, l.2 + e.2)

set_option linter.unusedSectionVars false

section boards
variable {v : Version} {cfg : DownCfg} {w h : Int} {validate : Bool} {m : Machine}
  (hk : v.kind = .v5 ∨ v.kind = .v248) (hm : virtualMachine v cfg w h validate = .ok m)
  (hc : ∀ p, ¬ ChipDown cfg p) (hl : ∀ p i, ¬ LinkDown cfg p i)
include hk hm hc hl

theorem onBoard_48 (l : XY) : OnBoard v.kind l ↔ OnBoard48 l := by
  rcases hk with h | h <;> rw [h] <;> exact .rfl

theorem place_chip {e l : XY} (he : e ∈ v.kind.potentialEthernetChips w h) (ho : OnBoard48 l) :
    m.isChipAt (place m.wrap w h e l).1 (place m.wrap w h e l).2 = true := by
  obtain ⟨hs, hr, hwr, hw, hh, hcc, r, -⟩ := vm_facts hm
  have hpos := hs.pos
  rw [C30_chips v cfg w h validate m hm]
  refine ⟨hc _, e, he, ?_⟩
  rw [← mem_xysByEthernet_iff_boardAt _ _ hpos.1 hpos.2, mem_xysByEthernet]
  exact ⟨l, (onBoard_48 hk hm hc hl l).2 ho, rfl⟩

theorem not_unwired (p : XY) (d : Dir) : ¬ Unwired v.kind p d := by
  rintro ⟨h3, -⟩
  rcases hk with h | h <;> rw [h] at h3 <;> simp at h3

theorem place_conn {e l e' l' : XY} (he : e ∈ v.kind.potentialEthernetChips w h) (ho : OnBoard48 l)
    (he' : e' ∈ v.kind.potentialEthernetChips w h) (ho' : OnBoard48 l') (dir : Dir)
    (hx : l.1 + e.1 + dir.dx = l'.1 + e'.1) (hy : l.2 + e.2 + dir.dy = l'.2 + e'.2) :
    Conn m (place m.wrap w h e l) (place m.wrap w h e' l') := by
  obtain ⟨hs, hr, hwr, hw, hh, hcc, r, -⟩ := vm_facts hm
  have hpos := hs.pos
  refine vm_conn hm hl dir (place_chip hk hm hc hl he ho) (place_chip hk hm hc hl he' ho')
    (not_unwired hk hm hc hl _ _) (not_unwired hk hm hc hl _ _) ?_
  have := xyOverLink_dir' m (by omega) (by omega) (place m.wrap w h e l).1 (place m.wrap w h e l).2 dir
  rw [this, hw, hh]
  unfold place
  rw [Wrap.red_red_add _ hpos.1 hpos.2]
  simp only [hx, hy]

/-- a board is connected -/
theorem board_conn {e : XY} (he : e ∈ v.kind.potentialEthernetChips w h) (n : Nat) :
    ∀ l, OnBoard48 l → (l.1 + l.2).toNat = n → Conn m (place m.wrap w h e l) (place m.wrap w h e (0, 0)) := by
  induction n using Nat.strongRecOn with
  | _ n ih =>
    intro l ho hn
    by_cases h0 : l = (0, 0)
    · subst h0
      exact ⟨⟨_, .stay _ (place_chip hk hm hc hl he ho)⟩, _, .stay _ (place_chip hk hm hc hl he ho)⟩
    · obtain ⟨x, y⟩ := l
      have hne : ¬ (x = 0 ∧ y = 0) := by simpa using h0
      have hcase : OnBoard48 (x - 1, y - 1) ∨ OnBoard48 (x - 1, y) ∨ OnBoard48 (x, y - 1) := by
        unfold OnBoard48 at ho ⊢
        simp only at ho ⊢
        omega
      have hxy : 0 ≤ x ∧ 0 ≤ y := ⟨ho.1, ho.2.2.1⟩
      simp only at hn
      rcases hcase with h1 | h1 | h1
      · refine (place_conn hk hm hc hl he ho he h1 .SW ?_ ?_).trans (ih _ ?_ _ h1 rfl) <;> (try simp only [Dir.dx, Dir.dy]) <;> omega
      · refine (place_conn hk hm hc hl he ho he h1 .W ?_ ?_).trans (ih _ ?_ _ h1 rfl) <;> (try simp only [Dir.dx, Dir.dy]) <;> omega
      · refine (place_conn hk hm hc hl he ho he h1 .S ?_ ?_).trans (ih _ ?_ _ h1 rfl) <;> (try simp only [Dir.dx, Dir.dy]) <;> omega

/-- two boards next to each other are connected -/
theorem boards_conn {e e' : XY} (l l' : XY) (dir : Dir) (he : e ∈ v.kind.potentialEthernetChips w h)
    (he' : e' ∈ v.kind.potentialEthernetChips w h) (ho : OnBoard48 l) (ho' : OnBoard48 l')
    (hx : l.1 + e.1 + dir.dx = l'.1 + e'.1) (hy : l.2 + e.2 + dir.dy = l'.2 + e'.2) :
    Conn m (place m.wrap w h e (0, 0)) (place m.wrap w h e' (0, 0)) :=
  ((board_conn hk hm hc hl he _ l ho rfl).symm.trans (place_conn hk hm hc hl he ho he' ho' dir hx hy)).trans
    (board_conn hk hm hc hl he' _ l' ho' rfl)

theorem potential_48 (p : XY) : p ∈ v.kind.potentialEthernetChips w h ↔
    EthLattice p ∧ 0 ≤ p.1 ∧ p.1 < w ∧ 0 ≤ p.2 ∧ p.2 < h ∧ (¬ 12 ∣ w → p.1 + 7 < w) ∧ (¬ 12 ∣ h → p.2 + 7 < h) := by
  obtain ⟨hs, -⟩ := vm_facts hm
  have hs' : (w = 8 ∧ h = 8) ∨ (8 < w ∧ 8 < h ∧ 4 ∣ w ∧ 4 ∣ h) := by
    rcases hk with h | h <;> rw [h] at hs <;> exact hs
  rcases hk with h | h <;> rw [h] <;> exact mem_potential48' hs' p

/-- every board at a multiple of twelve is connected to the first -/
theorem root_conn (n : Nat) : ∀ i j : Int, 0 ≤ i → 0 ≤ j → (i + j).toNat = n →
    (12 * i, 12 * j) ∈ v.kind.potentialEthernetChips w h →
    Conn m (place m.wrap w h (12 * i, 12 * j) (0, 0)) (place m.wrap w h (0, 0) (0, 0)) := by
  induction n using Nat.strongRecOn with
  | _ n ih =>
    intro i j hi hj hn he
    obtain ⟨hs, -⟩ := vm_facts hm
    have hs' : (w = 8 ∧ h = 8) ∨ (8 < w ∧ 8 < h ∧ 4 ∣ w ∧ 4 ∣ h) := by
      rcases hk with h | h <;> rw [h] at hs <;> exact hs
    have hpe := (potential_48 hk hm hc hl _).1 he
    simp only at hpe
    have hlat : ∀ (i j : Int), EthLattice (12 * i, 12 * j) ∧ EthLattice (12 * i + 4, 12 * j + 8) ∧
        EthLattice (12 * i + 8, 12 * j + 4) := fun i j =>
      ⟨⟨i, j, .inl rfl⟩, ⟨i, j, .inr (.inl rfl)⟩, ⟨i, j, .inr (.inr rfl)⟩⟩
    by_cases hi0 : i = 0
    · by_cases hj0 : j = 0
      · subst hi0; subst hj0
        exact ⟨⟨_, .stay _ (place_chip hk hm hc hl he (by decide))⟩, _, .stay _ (place_chip hk hm hc hl he (by decide))⟩
      · -- over the board at (4, 12 j - 4)
        have h1 : (12 * i + 4, 12 * (j - 1) + 8) ∈ v.kind.potentialEthernetChips w h := by
          rw [potential_48 hk hm hc hl]; refine ⟨(hlat _ _).2.1, ?_⟩; simp only; omega
        have h2 : (12 * i, 12 * (j - 1)) ∈ v.kind.potentialEthernetChips w h := by
          rw [potential_48 hk hm hc hl]; refine ⟨(hlat _ _).1, ?_⟩; simp only; omega
        refine ((boards_conn hk hm hc hl (4, 0) (1, 4) .E he h1 (by decide) (by decide) ?_ ?_).trans
          (boards_conn hk hm hc hl (0, 0) (4, 7) .S h1 h2 (by decide) (by decide) ?_ ?_)).trans
          (ih (i + (j - 1)).toNat ?_ i (j - 1) hi (by omega) rfl h2) <;> (try simp only [Dir.dx, Dir.dy]) <;> omega
    · by_cases hj0 : j = 0
      · have h1 : (12 * (i - 1) + 8, 12 * j + 4) ∈ v.kind.potentialEthernetChips w h := by
          rw [potential_48 hk hm hc hl]; refine ⟨(hlat _ _).2.2, ?_⟩; simp only; omega
        have h2 : (12 * (i - 1), 12 * j) ∈ v.kind.potentialEthernetChips w h := by
          rw [potential_48 hk hm hc hl]; refine ⟨(hlat _ _).1, ?_⟩; simp only; omega
        refine ((boards_conn hk hm hc hl (0, 3) (4, 0) .N he h1 (by decide) (by decide) ?_ ?_).trans
          (boards_conn hk hm hc hl (0, 0) (7, 4) .W h1 h2 (by decide) (by decide) ?_ ?_)).trans
          (ih (i - 1 + j).toNat ?_ (i - 1) j (by omega) hj rfl h2) <;> (try simp only [Dir.dx, Dir.dy]) <;> omega
      · have h1 : (12 * (i - 1) + 4, 12 * (j - 1) + 8) ∈ v.kind.potentialEthernetChips w h := by
          rw [potential_48 hk hm hc hl]; refine ⟨(hlat _ _).2.1, ?_⟩; simp only; omega
        have h2 : (12 * (i - 1), 12 * (j - 1)) ∈ v.kind.potentialEthernetChips w h := by
          rw [potential_48 hk hm hc hl]; refine ⟨(hlat _ _).1, ?_⟩; simp only; omega
        refine ((boards_conn hk hm hc hl (0, 0) (7, 4) .W he h1 (by decide) (by decide) ?_ ?_).trans
          (boards_conn hk hm hc hl (0, 0) (4, 7) .S h1 h2 (by decide) (by decide) ?_ ?_)).trans
          (ih (i - 1 + (j - 1)).toNat ?_ (i - 1) (j - 1) (by omega) (by omega) rfl h2) <;>
          (try simp only [Dir.dx, Dir.dy]) <;> omega

/-- every board is connected to the first -/
theorem all_conn {e : XY} (he : e ∈ v.kind.potentialEthernetChips w h) :
    Conn m (place m.wrap w h e (0, 0)) (place m.wrap w h (0, 0) (0, 0)) := by
  obtain ⟨⟨i, j, hij⟩, h1, h2, h3, h4, h5, h6⟩ := (potential_48 hk hm hc hl e).1 he
  have hroot : ∀ i j : Int, EthLattice (12 * i, 12 * j) := fun i j => ⟨i, j, .inl rfl⟩
  rcases hij with rfl | rfl | rfl <;> simp only at h1 h2 h3 h4 h5 h6
  · exact root_conn hk hm hc hl _ i j (by omega) (by omega) rfl he
  · have h0 : (12 * i, 12 * j) ∈ v.kind.potentialEthernetChips w h := by
      rw [potential_48 hk hm hc hl]; refine ⟨hroot _ _, ?_⟩; simp only; omega
    refine (boards_conn hk hm hc hl (0, 0) (4, 7) .S he h0 (by decide) (by decide) ?_ ?_).trans
      (root_conn hk hm hc hl _ i j (by omega) (by omega) rfl h0) <;> (try simp only [Dir.dx, Dir.dy]) <;> omega
  · have h0 : (12 * i, 12 * j) ∈ v.kind.potentialEthernetChips w h := by
      rw [potential_48 hk hm hc hl]; refine ⟨hroot _ _, ?_⟩; simp only; omega
    refine (boards_conn hk hm hc hl (0, 0) (7, 4) .W he h0 (by decide) (by decide) ?_ ?_).trans
      (root_conn hk hm hc hl _ i j (by omega) (by omega) rfl h0) <;> (try simp only [Dir.dx, Dir.dy]) <;> omega

theorem chips_conn {p : XY} (hp : m.isChipAt p.1 p.2 = true) : Conn m p (place m.wrap w h (0, 0) (0, 0)) := by
  obtain ⟨hs, hr, hwr, hw, hh, hcc, r, -⟩ := vm_facts hm
  have hpos := hs.pos
  rw [C30_chips v cfg w h validate m hm] at hp
  obtain ⟨-, e, he, hb⟩ := hp
  rw [← mem_xysByEthernet_iff_boardAt _ _ hpos.1 hpos.2, mem_xysByEthernet] at hb
  obtain ⟨l, ho, rfl⟩ := hb
  exact (board_conn hk hm hc hl he _ l ((onBoard_48 hk hm hc hl l).1 ho) rfl).trans (all_conn hk hm hc hl he)

/-- down to the Ethernet chip of the board, diagonally first -/
theorem board_route {e : XY} (he : e ∈ v.kind.potentialEthernetChips w h) (n : Nat) :
    ∀ l, OnBoard48 l → (max l.1 l.2).toNat = n → ∃ path : List Int, path.length = n ∧ ∀ k ≤ n, ∃ l', OnBoard48 l' ∧
      Route m (place m.wrap w h e l) (path.take k) (place m.wrap w h e l') ∧ (k = n → l' = (0, 0)) := by
  induction n with
  | zero =>
    intro l ho hn
    have h0 : l = (0, 0) := by
      obtain ⟨x, y⟩ := l
      have := ho.1; have := ho.2.2.1
      simp only [Prod.mk.injEq] at *; omega
    subst h0
    exact ⟨[], rfl, fun k _ => ⟨(0, 0), ho, by simpa using Route.stay _ (place_chip hk hm hc hl he ho), fun _ => rfl⟩⟩
  | succ n ih =>
    intro l ho hn
    have hstep : ∃ (dir : Dir) (l' : XY), OnBoard48 l' ∧ (max l'.1 l'.2).toNat = n ∧ l.1 + dir.dx = l'.1 ∧
        l.2 + dir.dy = l'.2 := by
      obtain ⟨x, y⟩ := l
      unfold OnBoard48 at ho
      simp only at ho hn
      by_cases hx : x = 0
      · exact ⟨.S, (x, y - 1), by unfold OnBoard48; simp only; omega, by simp only; omega, by simp only [Dir.dx]; omega,
          by simp only [Dir.dy]; omega⟩
      · by_cases hy : y = 0
        · exact ⟨.W, (x - 1, y), by unfold OnBoard48; simp only; omega, by simp only; omega, by simp only [Dir.dx]; omega,
            by simp only [Dir.dy]; omega⟩
        · exact ⟨.SW, (x - 1, y - 1), by unfold OnBoard48; simp only; omega, by simp only; omega,
            by simp only [Dir.dx]; omega, by simp only [Dir.dy]; omega⟩
    obtain ⟨dir, l', ho', hn', hx, hy⟩ := hstep
    obtain ⟨path, hlen, hpath⟩ := ih l' ho' hn'
    obtain ⟨hs, hr, hwr, hw, hh, hcc, r, -⟩ := vm_facts hm
    have hpos := hs.pos
    have h1 : Route m (place m.wrap w h e l) [dir.id] (place m.wrap w h e l') := by
      refine vm_step hm dir (place_chip hk hm hc hl he ho) (place_chip hk hm hc hl he ho') (hl _ _)
        (not_unwired hk hm hc hl _ _) ?_
      have := xyOverLink_dir' m (by omega) (by omega) (place m.wrap w h e l).1 (place m.wrap w h e l).2 dir
      rw [this, hw, hh]
      unfold place
      rw [Wrap.red_red_add _ hpos.1 hpos.2]
      simp only [← hx, ← hy, Int.add_right_comm]
    refine ⟨dir.id :: path, by simp [hlen], fun k hk' => ?_⟩
    cases k with
    | zero => exact ⟨l, ho, .stay _ (place_chip hk hm hc hl he ho), by simp⟩
    | succ k =>
      obtain ⟨l2, g1, g2, g3⟩ := hpath k (by omega)
      refine ⟨l2, g1, ?_, fun h => g3 (by omega)⟩
      rw [List.take_succ_cons]
      exact Route.append h1 g2

end boards

/-- C76: in a machine of 48-chip boards without chips or links down a packet needs at most seven links from a
chip to its Ethernet chip, and need not leave the board. -/
theorem C76_to_ethernet (v : Version) (cfg : DownCfg) (w h : Int) (validate : Bool) (m : Machine)
    (hk : v.kind = .v5 ∨ v.kind = .v248) (hm : virtualMachine v cfg w h validate = .ok m)
    (hc : ∀ p, ¬ ChipDown cfg p) (hl : ∀ p i, ¬ LinkDown cfg p i) (c : Chip) (hcm : c ∈ m.chipList) :
    ∃ path : List Int, path.length ≤ 7 ∧ Route m c.xy path (c.ethX, c.ethY) ∧
      ∀ k ≤ path.length, ∃ c' ∈ m.chipList, Route m c.xy (path.take k) c'.xy ∧
        c'.ethX = c.ethX ∧ c'.ethY = c.ethY := by
  obtain ⟨hs, hr, hwr, hw, hh, hcc, r, -⟩ := vm_facts hm
  have hpos := hs.pos
  have hat : ∀ c ∈ m.chipList, (c.ethX, c.ethY) ∈ v.kind.potentialEthernetChips w h ∧
      ∃ l, OnBoard v.kind l ∧ c.xy = place m.wrap w h (c.ethX, c.ethY) l := by
    intro c hc
    obtain ⟨h1, h2, -⟩ := C34_board v cfg w h validate m hm c hc
    rw [← mem_xysByEthernet_iff_boardAt _ _ hpos.1 hpos.2, mem_xysByEthernet] at h2
    obtain ⟨l, h3, h4⟩ := h2
    exact ⟨h1, l, h3, h4.symm⟩
  obtain ⟨he, l, ho, hxy⟩ := hat c hcm
  have ho' := (onBoard_48 hk hm hc hl l).1 ho
  obtain ⟨path, hlen, hpath⟩ := board_route hk hm hc hl he _ l ho' rfl
  rw [← hxy] at hpath
  have heth : place m.wrap w h (c.ethX, c.ethY) (0, 0) = (c.ethX, c.ethY) := by
    unfold place
    simp only [Int.zero_add]
    apply Wrap.red_of_inRange
    have := ((mem_potential_iff hs _).1 he).2.1
    exact ⟨fun _ => ⟨this.1, this.2.1⟩, fun _ => ⟨this.2.2.1, this.2.2.2⟩⟩
  refine ⟨path, ?_, ?_, fun k hk' => ?_⟩
  · have := ho'.2.1; have := ho'.2.2.2.1; omega
  · obtain ⟨l2, -, g2, g3⟩ := hpath path.length (by omega)
    rw [List.take_length, g3 hlen, heth] at g2
    exact g2
  · obtain ⟨l2, g1, g2, -⟩ := hpath k (by omega)
    have hchip := place_chip hk hm hc hl he g1
    obtain ⟨c', hc'⟩ := Option.isSome_iff_exists.1
      (show (m.getChipAt (place m.wrap w h (c.ethX, c.ethY) l2).1 (place m.wrap w h (c.ethX, c.ethY) l2).2).isSome = true
        from hchip)
    obtain ⟨hm', hx', hy'⟩ := mem_of_chip_at r hc'
    have hxy' : c'.xy = place m.wrap w h (c.ethX, c.ethY) l2 := by rw [Chip.xy, hx', hy']
    obtain ⟨he', l3, ho3, hxy3⟩ := hat c' hm'
    refine ⟨c', hm', by rw [hxy']; exact g2, ?_⟩
    have heq := hxy3.symm.trans hxy'
    unfold place at heq
    rw [hwr] at heq
    have := (board_unique hs he' he ho3 ((onBoard_48 hk hm hc hl l2).2 g1) heq).1
    simpa using this

/-- C76: in a machine built without chips or links down, of any version and size, every chip can be reached
from every chip over the links of the routers. -/
theorem C76_connected (v : Version) (cfg : DownCfg) (w h : Int) (validate : Bool) (m : Machine)
    (hm : virtualMachine v cfg w h validate = .ok m)
    (hc : ∀ p, ¬ ChipDown cfg p) (hl : ∀ p i, ¬ LinkDown cfg p i) (p q : XY)
    (hp : m.isChipAt p.1 p.2 = true) (hq : m.isChipAt q.1 q.2 = true) : ∃ path, Route m p path q := by
  obtain ⟨hs, hr, hwr, hw, hh, hcc, r, -⟩ := vm_facts hm
  have h48 : v.kind = .v5 ∨ v.kind = .v248 → ∃ path, Route m p path q := fun hk =>
    ((chips_conn hk hm hc hl hp).trans (chips_conn hk hm hc hl hq).symm).1
  have hchip := C30_chips v cfg w h validate m hm
  have hpos := hs.pos
  have hsmall : v.kind = .v3 ∨ v.kind = .v201 → ∀ p : XY, m.isChipAt p.1 p.2 = true ↔ InGrid w h p := by
    intro hk p
    rw [hchip, hwr]
    simp only [hc, not_false_eq_true, true_and]
    simp only [← mem_xysByEthernet_iff_boardAt _ _ hpos.1 hpos.2, mem_xysByEthernet]
    rcases hk with hk | hk <;> rw [hk] at hs ⊢ <;> obtain ⟨rfl, rfl⟩ := hs
    · have : VKind.v3.wrapFor 2 2 = .full := rfl
      rw [this]
      simp only [VKind.potentialEthernetChips, List.mem_singleton, exists_eq_left, OnBoard, Int.add_zero, Wrap.red]
      unfold InGrid
      constructor
      · rintro ⟨l, ⟨h1, h2, h3, h4⟩, rfl⟩
        simp only
        rw [pmod_of_range h1 (by omega), pmod_of_range h3 (by omega)]
        omega
      · rintro ⟨h1, h2, h3, h4⟩
        refine ⟨p, by omega, ?_⟩
        rw [pmod_of_range h1 (by omega), pmod_of_range h3 (by omega)]
    · have : VKind.v201.wrapFor 1 1 = .none := rfl
      rw [this]
      simp only [VKind.potentialEthernetChips, List.mem_singleton, exists_eq_left, OnBoard, Int.add_zero, Wrap.red]
      unfold InGrid
      obtain ⟨x, y⟩ := p
      simp only [Prod.mk.injEq]
      constructor
      · rintro ⟨rfl, rfl⟩; omega
      · omega
  cases hkk : v.kind with
  | v5 => exact h48 (.inl hkk)
  | v248 => exact h48 (.inr hkk)
  | v201 =>
    have hch := hsmall (.inr hkk)
    rw [hkk] at hs
    obtain ⟨rfl, rfl⟩ := hs
    have h1 := (hch p).1 hp
    have h2 := (hch q).1 hq
    unfold InGrid at h1 h2
    have : p = q := by
      obtain ⟨a, b⟩ := p; obtain ⟨c, d⟩ := q
      simp only [Prod.mk.injEq] at *; omega
    subst this
    exact ⟨[], .stay _ hp⟩
  | v3 =>
    have hch := hsmall (.inl hkk)
    rw [hkk] at hs
    obtain ⟨rfl, rfl⟩ := hs
    have hwr' : m.wrap = .full := by rw [hwr, hkk]; rfl
    have step : ∀ (a b : XY) (d : Dir), InGrid 2 2 a → InGrid 2 2 b → ¬ Unwired .v3 a d → ¬ Unwired .v3 b (Dir.opp d) →
        Wrap.full.xyOverLink 2 2 a.1 a.2 d.id = .ok b → Conn m a b := by
      intro a b d ha hb h1 h2 h3
      refine vm_conn hm hl d ((hch a).2 ha) ((hch b).2 hb) (by rw [hkk]; exact h1) (by rw [hkk]; exact h2) ?_
      unfold Machine.xyOverLink
      rw [hwr', hw, hh]; exact h3
    have e1 : Conn m (1, 0) (0, 0) := step _ _ .W (by unfold InGrid; decide) (by unfold InGrid; decide)
      (by unfold Unwired; decide) (by unfold Unwired; decide) (by decide)
    have e2 : Conn m (0, 1) (0, 0) := step _ _ .S (by unfold InGrid; decide) (by unfold InGrid; decide)
      (by unfold Unwired; decide) (by unfold Unwired; decide) (by decide)
    have e3 : Conn m (1, 1) (1, 0) := step _ _ .S (by unfold InGrid; decide) (by unfold InGrid; decide)
      (by unfold Unwired; decide) (by unfold Unwired; decide) (by decide)
    have e0 : Conn m (0, 0) (0, 0) := e2.symm.trans e2
    have all : ∀ a : XY, m.isChipAt a.1 a.2 = true → Conn m a (0, 0) := by
      intro a ha
      have := (hch a).1 ha
      obtain ⟨x, y⟩ := a
      unfold InGrid at this
      simp only at this
      have hx : x = 0 ∨ x = 1 := by omega
      have hy : y = 0 ∨ y = 1 := by omega
      rcases hx with rfl | rfl <;> rcases hy with rfl | rfl
      · exact e0
      · exact e2
      · exact e1
      · exact e3.trans e1
    exact ((all p hp).trans (all q hq).symm).1

/-- C76: no route in a virtual machine, whatever is down, is shorter than `get_vector_length` says. -/
theorem C76_never_shorter (v : Version) (cfg : DownCfg) (w h : Int) (validate : Bool) (m : Machine)
    (hm : virtualMachine v cfg w h validate = .ok m) (p q : XY) (path : List Int) (hr : Route m p path q) :
    m.wrap.vectorLength w h p q ≤ path.length := by
  obtain ⟨hs, -, hwr, hw, hh, hcc, r, -⟩ := vm_facts hm
  have hpos := hs.pos
  have hin : ∀ p : XY, m.isChipAt p.1 p.2 = true → InRange m.wrap w h p := by
    intro p hp
    obtain ⟨-, e, -, hb⟩ := (C30_chips v cfg w h validate m hm p).1 hp
    exact hb.1
  have hends : m.isChipAt p.1 p.2 = true ∧ m.isChipAt q.1 q.2 = true ∧ walk m.wrap w h p path = .ok q := by
    induction hr with
    | stay p hp => exact ⟨hp, hp, rfl⟩
    | go p c i l is q hc hl hr ih =>
      obtain ⟨hcm, hcx, hcy⟩ := mem_of_chip_at r hc
      obtain ⟨-, -, -, h4⟩ := C31_destinations v cfg w h validate m hm c hcm i l hl
      unfold Machine.xyOverLink at h4
      rw [hcx, hcy, hw, hh] at h4
      refine ⟨by simp only [Machine.isChipAt, PDict.contains]; unfold Machine.getChipAt at hc; rw [hc]; rfl, ih.2.1, ?_⟩
      simp only [walk, h4]
      exact ih.2.2
  exact (C03_vector_length_is_min_hops m.wrap w h hpos.1 hpos.2 p q (hin p hends.1) (hin q hends.2.1)).2 path hends.2.2

/-- C76: in a torus of 48-chip boards without chips or links down there is a route as short as
`get_vector_length` says between any two chips. -/
theorem C76_torus_shortest (v : Version) (cfg : DownCfg) (w h : Int) (validate : Bool) (m : Machine)
    (hk : v.kind = .v5 ∨ v.kind = .v248) (hm : virtualMachine v cfg w h validate = .ok m)
    (hc : ∀ p, ¬ ChipDown cfg p) (hl : ∀ p i, ¬ LinkDown cfg p i) (hw12 : 12 ∣ w) (hh12 : 12 ∣ h) (p q : XY)
    (hp : m.isChipAt p.1 p.2 = true) (hq : m.isChipAt q.1 q.2 = true) :
    ∃ path, Route m p path q ∧ (path.length : Int) = m.wrap.vectorLength w h p q := by
  obtain ⟨hs, -, hwr, hw, hh, hcc, r, -⟩ := vm_facts hm
  have hpos := hs.pos
  have hchip := C30_chips v cfg w h validate m hm
  have hin : ∀ p : XY, m.isChipAt p.1 p.2 = true → InRange m.wrap w h p := by
    intro p hp
    obtain ⟨-, e, -, hb⟩ := (hchip p).1 hp
    exact hb.1
  have hwf : m.wrap = .full := by
    have := wrapFor_spec v.kind w h
    rw [← hwr] at this
    have h2 : (wrapsX m.wrap ↔ 12 ∣ w) ∧ (wrapsY m.wrap ↔ 12 ∣ h) := by
      rcases hk with h | h <;> rw [h] at this <;> exact this
    have h3 := h2.1.2 hw12
    have h4 := h2.2.2 hh12
    revert h3 h4
    cases m.wrap <;> simp [wrapsX, wrapsY]
  have hall : ∀ p, InGrid w h p → m.isChipAt p.1 p.2 = true := by
    intro p hp
    rw [hchip]
    obtain ⟨e, he, l, h1, h2⟩ := board_cover hk hpos.1 hpos.2 hw12 hh12 hp
    refine ⟨hc p, e, he, ?_⟩
    rw [← mem_xysByEthernet_iff_boardAt _ _ hpos.1 hpos.2, mem_xysByEthernet, hwr]
    exact ⟨l, h1, h2⟩
  obtain ⟨path, h1, h2, h3⟩ := (C03_vector_length_is_min_hops m.wrap w h hpos.1 hpos.2 p q (hin p hp) (hin q hq)).1
  refine ⟨path, ?_, h1⟩
  clear h1
  induction path generalizing p with
  | nil =>
    simp only [walk, Except.ok.injEq] at h3
    subst h3
    exact .stay p hp
  | cons i is ih =>
    simp only [walk] at h3
    cases hx : m.wrap.xyOverLink w h p.1 p.2 i with
    | error e => rw [hx] at h3; simp at h3
    | ok a =>
      rw [hx] at h3
      simp only at h3
      have h0 := h2 i (by simp)
      have hd : ∃ d : Dir, i = d.id := by
        have : i = 0 ∨ i = 1 ∨ i = 2 ∨ i = 3 ∨ i = 4 ∨ i = 5 := by omega
        rcases this with h | h | h | h | h | h
        · exact ⟨.E, h⟩
        · exact ⟨.NE, h⟩
        · exact ⟨.N, h⟩
        · exact ⟨.W, h⟩
        · exact ⟨.SW, h⟩
        · exact ⟨.S, h⟩
      obtain ⟨d, rfl⟩ := hd
      have ha : InRange m.wrap w h a := ((C02_xy_over_link_step m.wrap w h hpos.1 hpos.2 p.1 p.2 d a).1 hx).2
      have hag : InGrid w h a := by
        rw [hwf] at ha
        exact ⟨(ha.1 (.inr rfl)).1, (ha.1 (.inr rfl)).2, (ha.2 (.inr rfl)).1, (ha.2 (.inr rfl)).2⟩
      have hs1 := vm_step hm d hp (hall a hag) (hl _ _) (not_unwired hk hm hc hl _ _)
        (by unfold Machine.xyOverLink; rw [hw, hh]; exact hx)
      exact Route.append hs1 (ih a (hall a hag) (fun i hi => h2 i (by simp [hi])) h3)

theorem nothing_down : (∀ p, ¬ ChipDown {} p) ∧ (∀ p i, ¬ LinkDown {} p i) ∧ Readable .v5 {} := by
  have h1 : IgnoreChip.parseString ({} : DownCfg).chips = .ok [] := by decide
  have h2 : IgnoreLink.parseString ({} : DownCfg).links = .ok [] := by decide
  have h3 : IgnoreCore.parseString .v5 ({} : DownCfg).cores = .ok [] := by decide
  refine ⟨?_, ?_, ⟨_, h1⟩, ⟨_, h2⟩, _, h3, by simp⟩
  · rintro p ⟨l, hl, c, hc, -⟩
    rw [h1, Except.ok.injEq] at hl
    subst hl
    simp at hc
  · rintro p i ⟨l, hl, c, hc, -⟩
    rw [h2, Except.ok.injEq] at hl
    subst hl
    simp at hc

/-- the case of all three: settings that list nothing, a torus and a machine that does not wrap, with chips
on different boards -/
example : (∃ m, virtualMachine exV5 {} 24 12 false = .ok m ∧ m.isChipAt 0 0 = true ∧ m.isChipAt 3 11 = true) ∧
    ∃ m, virtualMachine exV5 {} 20 28 false = .ok m ∧ m.isChipAt 0 0 = true ∧ m.isChipAt 19 7 = true := by
  obtain ⟨hc, hl, hr⟩ := nothing_down
  have hk : exV5.kind = .v5 ∨ exV5.kind = .v248 := .inl rfl
  constructor
  · obtain ⟨m, hm⟩ := (C30_succeeds exV5 {} 24 12).1 (by decide) hr
    have hwr : m.wrap = .full := (vm_facts hm).2.2.1
    have h1 := place_chip hk hm hc hl (e := (0, 0)) (l := (0, 0)) (by decide +kernel) (by decide)
    have h2 := place_chip hk hm hc hl (e := (20, 4)) (l := (7, 7)) (by decide +kernel) (by decide)
    rw [hwr] at h1 h2
    exact ⟨m, hm, h1, h2⟩
  · obtain ⟨m, hm⟩ := (C30_succeeds exV5 {} 20 28).1 (by decide) hr
    have hwr : m.wrap = .none := (vm_facts hm).2.2.1
    have h1 := place_chip hk hm hc hl (e := (0, 0)) (l := (0, 0)) (by decide +kernel) (by decide)
    have h2 := place_chip hk hm hc hl (e := (12, 0)) (l := (7, 7)) (by decide +kernel) (by decide)
    rw [hwr] at h1 h2
    exact ⟨m, hm, h1, h2⟩

/-- a four chip board with every link between the two rows down -/
def exSplit : DownCfg :=
  { links := some "0,0,1:0,0,2:0,0,5:1,0,2:1,0,4:1,0,5:0,1,1:0,1,2:0,1,5:1,1,2:1,1,4:1,1,5".toList }

/-- C76: `machine_repair` does not make a machine connected: with all links between the two rows of a four chip
board down, it finds nothing to repair although no chip of the upper row can be reached from the lower one. -/
theorem C76_repair_leaves_parts : ∃ m, virtualMachine { kind := .v3, maxCores := 18, maxSdram := 123469792 } exSplit 2 2 true = .ok m ∧
    (∀ repair, machineRepair { kind := .v3, maxCores := 18, maxSdram := 123469792 } repair [] m = some (.ok m)) ∧
    m.isChipAt 0 0 = true ∧ m.isChipAt 0 1 = true ∧ ∀ path, ¬ Route m (0, 0) path (0, 1) := by
  have h : (match virtualMachine { kind := .v3, maxCores := 18, maxSdram := 123469792 } exSplit 2 2 true with
      | .ok m => decide (repairFind true [] m = .ok {}) && decide (repairFind false [] m = .ok {}) &&
        m.isChipAt 0 0 && m.isChipAt 0 1 &&
        m.chipList.all fun c => c.router.linkList.all fun l => decide (c.y = 0 → l.destY = 0)
      | .error _ => false) = true := by decide +kernel
  cases hm : virtualMachine { kind := .v3, maxCores := 18, maxSdram := 123469792 } exSplit 2 2 true with
  | error e => rw [hm] at h; simp at h
  | ok m =>
    rw [hm] at h
    simp only [Bool.and_eq_true, decide_eq_true_eq] at h
    obtain ⟨⟨⟨⟨h1, h2⟩, h3⟩, h4⟩, h5⟩ := h
    refine ⟨m, rfl, fun repair => ?_, h3, h4, fun path hr => ?_⟩
    · rw [machineRepair]
      cases repair <;> simp [h1, h2]
    · obtain ⟨-, -, -, -, -, -, r, -⟩ := vm_facts hm
      have key : ∀ p is q, Route m p is q → p.2 = 0 → q.2 = 0 := by
        intro p is q hr
        induction hr with
        | stay => exact id
        | go p c i l is q hc hl _ ih =>
          intro hp
          obtain ⟨hcm, hx, hy⟩ := mem_of_chip_at r hc
          rw [List.all_eq_true] at h5
          have h6 := h5 c hcm
          rw [List.all_eq_true] at h6
          have hlm : l ∈ c.router.linkList := List.mem_map.2 ⟨_, PDict.get?_mem hl, rfl⟩
          have h7 := h6 l hlm
          simp only [decide_eq_true_eq] at h7
          exact ih (h7 (by omega))
      exact absurd (key _ _ _ hr rfl) (by decide)

end SpiNN.Props
