import Verif.Props.Detour

/-! C110, for a chip that is down, on machines that do not wrap too: its neighbours are joined around it. -/

namespace SpiNN.Props
open SpiNN SpiNN.Spec

set_option maxHeartbeats 1000000 in
private theorem fourth {l l' : XY} (ho : OnBoard48 l) (ho' : OnBoard48 l') (d : Dir) {i j : Int}
    (hlat : (l.1 + d.dx - l'.1 = 12 * i ∧ l.2 + d.dy - l'.2 = 12 * j) ∨
      (l.1 + d.dx - l'.1 = 12 * i + 4 ∧ l.2 + d.dy - l'.2 = 12 * j + 8) ∨
      (l.1 + d.dx - l'.1 = 12 * i + 8 ∧ l.2 + d.dy - l'.2 = 12 * j + 4)) :
    OnBoard48 (l.1 + d.lt.dx, l.2 + d.lt.dy) ∨ OnBoard48 (l.1 + d.rt.dx, l.2 + d.rt.dy) ∨
    (OnBoard48 (l'.1 + d.lt.lt.dx, l'.2 + d.lt.lt.dy) ∧ OnBoard48 (l.1 + d.lt.lt.dx, l.2 + d.lt.lt.dy)) ∨
    (OnBoard48 (l'.1 + d.rt.rt.dx, l'.2 + d.rt.rt.dy) ∧ OnBoard48 (l.1 + d.rt.rt.dx, l.2 + d.rt.rt.dy)) := by
  obtain ⟨x, y⟩ := l
  obtain ⟨x', y'⟩ := l'
  unfold OnBoard48 at ho ho' ⊢
  have hi : -1 ≤ i ∧ i ≤ 0 := by cases d <;> simp only [Dir.dx, Dir.dy] at * <;> omega
  have hj : -1 ≤ j ∧ j ≤ 0 := by cases d <;> simp only [Dir.dx, Dir.dy] at * <;> omega
  have hi' : i = -1 ∨ i = 0 := by omega
  have hj' : j = -1 ∨ j = 0 := by omega
  rcases hi' with rfl | rfl <;> rcases hj' with rfl | rfl <;> cases d <;>
    simp only [Dir.dx, Dir.dy, Dir.lt, Dir.rt] at * <;> omega

private theorem arc3 {l : XY} (ho : OnBoard48 l) (d : Dir) (h : OnBoard48 (l.1 + d.dx, l.2 + d.dy))
    (h3 : OnBoard48 (l.1 + d.lt.lt.lt.dx, l.2 + d.lt.lt.lt.dy)) :
    (OnBoard48 (l.1 + d.lt.dx, l.2 + d.lt.dy) ∧ OnBoard48 (l.1 + d.lt.lt.dx, l.2 + d.lt.lt.dy)) ∨
    (OnBoard48 (l.1 + d.rt.dx, l.2 + d.rt.dy) ∧ OnBoard48 (l.1 + d.rt.rt.dx, l.2 + d.rt.rt.dy)) := by
  obtain ⟨x, y⟩ := l
  unfold OnBoard48 at *
  cases d <;> simp only [Dir.dx, Dir.dy, Dir.lt, Dir.rt] at * <;> omega

private theorem arc2 {l : XY} (ho : OnBoard48 l) (d : Dir) (h : OnBoard48 (l.1 + d.dx, l.2 + d.dy))
    (h3 : OnBoard48 (l.1 + d.lt.lt.dx, l.2 + d.lt.lt.dy)) : OnBoard48 (l.1 + d.lt.dx, l.2 + d.lt.dy) := by
  obtain ⟨x, y⟩ := l
  unfold OnBoard48 at *
  cases d <;> simp only [Dir.dx, Dir.dy, Dir.lt] at * <;> omega

private theorem six (a b : Dir) : b = a ∨ b = a.lt ∨ a = b.lt ∨ b = a.lt.lt ∨ a = b.lt.lt ∨ b = a.lt.lt.lt := by
  cases a <;> cases b <;> decide

private theorem turn (d : Dir) : d.rt.lt = d ∧ d.lt.rt = d ∧ d.dx + d.lt.lt.dx = d.lt.dx ∧
    d.dy + d.lt.lt.dy = d.lt.dy ∧ d.dx + d.rt.rt.dx = d.rt.dx ∧ d.dy + d.rt.rt.dy = d.rt.dy ∧
    d.lt.lt.lt = d.rt.rt.rt := by
  cases d <;> decide

section
variable {v : Version} {cfg : DownCfg} {w h : Int} {validate : Bool} {m : Machine}

/-- the position next to `f` -/
private def nb (m : Machine) (w h : Int) (f : XY) (d : Dir) : XY := m.wrap.red w h (f.1 + d.dx, f.2 + d.dy)

/-- the neighbours of a chip `f` of the machine `m0` where nothing is down are joined around it, if each two of
them next to one another are -/
private theorem ring {m0 : Machine} (hk : v.kind = .v5 ∨ v.kind = .v248)
    (hm : virtualMachine v cfg w h validate = .ok m0) (hc : ∀ p, ¬ ChipDown cfg p) {f : XY}
    (hf : m0.isChipAt f.1 f.2 = true)
    (hrefl : ∀ d, m0.isChipAt (nb m0 w h f d).1 (nb m0 w h f d).2 = true → Conn m (nb m0 w h f d) (nb m0 w h f d))
    (hadj : ∀ d : Dir, m0.isChipAt (nb m0 w h f d).1 (nb m0 w h f d).2 = true →
      m0.isChipAt (nb m0 w h f d.lt).1 (nb m0 w h f d.lt).2 = true → Conn m (nb m0 w h f d) (nb m0 w h f d.lt))
    (d1 d2 : Dir) (h1 : m0.isChipAt (nb m0 w h f d1).1 (nb m0 w h f d1).2 = true)
    (h2 : m0.isChipAt (nb m0 w h f d2).1 (nb m0 w h f d2).2 = true) : Conn m (nb m0 w h f d1) (nb m0 w h f d2) := by
  have hpos := (vm_facts hm).1.pos
  obtain ⟨e, he, l, ho, hfe, hle⟩ := chip_board hk hm hf
  have hchip := board_chip hk hm hc
  have hnb : ∀ d : Dir, nb m0 w h f d = place m0.wrap w h e (l.1 + d.dx, l.2 + d.dy) := by
    intro d
    unfold nb
    rw [hfe]
    unfold place
    rw [Wrap.red_red_add _ hpos.1 hpos.2]
    congr 1
    exact Prod.ext (by simp only; omega) (by simp only; omega)
  have hgood : ∀ d : Dir, OnBoard48 (l.1 + d.dx, l.2 + d.dy) →
      m0.isChipAt (nb m0 w h f d).1 (nb m0 w h f d).2 = true := fun d hd => by
    rw [hnb]; exact hchip e he _ hd
  have hadj' : ∀ d : Dir, m0.isChipAt (nb m0 w h f d).1 (nb m0 w h f d).2 = true →
      m0.isChipAt (nb m0 w h f d.rt).1 (nb m0 w h f d.rt).2 = true → Conn m (nb m0 w h f d) (nb m0 w h f d.rt) := by
    intro d a b
    have := hadj d.rt b (by rw [(turn d).1]; exact a)
    rw [(turn d).1] at this
    exact this.symm
  -- neighbours on the board of `f`
  have two : ∀ a : Dir, OnBoard48 (l.1 + a.dx, l.2 + a.dy) → OnBoard48 (l.1 + a.lt.lt.dx, l.2 + a.lt.lt.dy) →
      Conn m (nb m0 w h f a) (nb m0 w h f a.lt.lt) := by
    intro a ha hb
    have hm := arc2 ho a ha hb
    exact (hadj a (hgood _ ha) (hgood _ hm)).trans (hadj a.lt (hgood _ hm) (hgood _ hb))
  have same : ∀ a b : Dir, OnBoard48 (l.1 + a.dx, l.2 + a.dy) → OnBoard48 (l.1 + b.dx, l.2 + b.dy) →
      Conn m (nb m0 w h f a) (nb m0 w h f b) := by
    intro a b ha hb
    rcases six a b with rfl | rfl | rfl | rfl | rfl | rfl
    · exact hrefl _ (hgood _ ha)
    · exact hadj _ (hgood _ ha) (hgood _ hb)
    · exact (hadj _ (hgood _ hb) (hgood _ ha)).symm
    · exact two _ ha hb
    · exact (two _ hb ha).symm
    · rcases arc3 ho a ha hb with ⟨g1, g2⟩ | ⟨g1, g2⟩
      · exact (two _ ha g2).trans (hadj _ (hgood _ g2) (hgood _ hb))
      · have := hadj' a.rt.rt (hgood _ g2) (by rw [← (turn a).2.2.2.2.2.2]; exact hgood _ hb)
        rw [← (turn a).2.2.2.2.2.2] at this
        exact ((hadj' a (hgood _ ha) (hgood _ g1)).trans (hadj' a.rt (hgood _ g1) (hgood _ g2))).trans this
  -- each neighbour is joined to one on the board of `f`
  have reach : ∀ d : Dir, m0.isChipAt (nb m0 w h f d).1 (nb m0 w h f d).2 = true →
      ∃ g : Dir, OnBoard48 (l.1 + g.dx, l.2 + g.dy) ∧ Conn m (nb m0 w h f d) (nb m0 w h f g) := by
    intro d hd
    obtain ⟨e', he', l', ho', hqe, hle'⟩ := chip_board hk hm hd
    have hq := hqe
    rw [hnb] at hq
    unfold place at hq
    obtain ⟨i, j, hlat⟩ := boards_lattice (l := l) (l' := l') hk hm hle hle' d (by
      rw [← hq]; congr 1; exact Prod.ext (by simp only; omega) (by simp only; omega))
    have hout : ∀ a b : Dir, d.dx + a.dx = b.dx → d.dy + a.dy = b.dy → OnBoard48 (l'.1 + a.dx, l'.2 + a.dy) →
        m0.isChipAt (nb m0 w h f b).1 (nb m0 w h f b).2 = true := by
      intro a b h1 h2 hb
      have e1 : nb m0 w h f b = place m0.wrap w h e' (l'.1 + a.dx, l'.2 + a.dy) := by
        have : nb m0 w h f b = m0.wrap.red w h ((nb m0 w h f d).1 + a.dx, (nb m0 w h f d).2 + a.dy) := by
          unfold nb
          rw [Wrap.red_red_add _ hpos.1 hpos.2, ← h1, ← h2, Int.add_assoc, Int.add_assoc]
        rw [this, hqe]
        unfold place
        rw [Wrap.red_red_add _ hpos.1 hpos.2]
        congr 1
        exact Prod.ext (by simp only; omega) (by simp only; omega)
      rw [e1]
      exact hchip e' he' _ hb
    obtain ⟨-, -, t1, t2, t3, t4, -⟩ := turn d
    rcases fourth ho ho' d hlat with g | g | ⟨g1, g2⟩ | ⟨g1, g2⟩
    · exact ⟨_, g, hadj d hd (hgood _ g)⟩
    · exact ⟨_, g, hadj' d hd (hgood _ g)⟩
    · have := hout _ _ t1 t2 g1
      exact ⟨_, g2, (hadj d hd this).trans (hadj d.lt this (hgood _ g2))⟩
    · have := hout _ _ t3 t4 g1
      exact ⟨_, g2, (hadj' d hd this).trans (hadj' d.rt this (hgood _ g2))⟩
  obtain ⟨a, ha, c1⟩ := reach d1 h1
  obtain ⟨b, hb, c2⟩ := reach d2 h2
  exact (c1.trans (same a b ha hb)).trans c2.symm

/-- C110: on every machine of 48 chip boards, if the only faults are a chip and links from and to it, then all
other chips still reach one another. -/
theorem C110_one_chip (v : Version) (hk : v.kind = .v5 ∨ v.kind = .v248) (cfg : DownCfg) (w h : Int)
    (validate : Bool) (m : Machine) (hm : virtualMachine v cfg w h validate = .ok m)
    (f : XY) (hc : ∀ p, InGrid w h p → ChipDown cfg p → p = f)
    (hl : ∀ p i, m.isChipAt p.1 p.2 = true → LinkDown cfg p i → p = f ∨ m.xyOverLink p.1 p.2 i = .ok f)
    (p q : XY) (hp : m.isChipAt p.1 p.2 = true) (hq : m.isChipAt q.1 q.2 = true) (hpf : p ≠ f) (hqf : q ≠ f) :
    ∃ path, Route m p path q := by
  obtain ⟨hs, -, hwr, hmw, hmh, -⟩ := vm_facts hm
  have hpos := hs.pos
  -- the same machine with nothing down but cores
  have hr0 : Readable v.kind { cfg with links := none, chips := none } := by
    have hr : Readable v.kind cfg := Classical.byContradiction fun hn => by
      obtain ⟨e, he⟩ := (C30_succeeds v cfg w h).2.2 hn validate
      rw [hm] at he
      exact absurd he (by simp)
    exact ⟨⟨[], rfl⟩, ⟨[], rfl⟩, hr.2.2⟩
  obtain ⟨m0, hm0⟩ := (C30_succeeds v { cfg with links := none, chips := none } w h).1 hs hr0
  have hl0 : ∀ p i, ¬ LinkDown { cfg with links := none, chips := none } p i := by
    rintro p i ⟨l, hl, c, hc, -⟩
    cases hl
    simp at hc
  have hc0 : ∀ p, ¬ ChipDown { cfg with links := none, chips := none } p := by
    rintro p ⟨l, hl, c, hc, -⟩
    cases hl
    simp at hc
  obtain ⟨-, -, hwr0, hmw0, hmh0, -, r0, d0, -, hcl0⟩ := vm_facts hm0
  have hgrid : ∀ p : XY, m0.isChipAt p.1 p.2 = true → InGrid w h p := by
    intro p hp
    obtain ⟨c, hc⟩ := Option.isSome_iff_exists.1 (show (m0.getChipAt p.1 p.2).isSome = true from hp)
    obtain ⟨hcm, hcx, hcy⟩ := mem_of_chip_at r0 hc
    rw [hcl0, vmChips, List.mem_map] at hcm
    obtain ⟨kv, hkv, rfl⟩ := hcm
    have := vm_inGrid hs d0 (List.mem_map_of_mem hkv)
    rwa [show kv.1 = p from Prod.ext hcx hcy] at this
  have hsub : ∀ p : XY, m.isChipAt p.1 p.2 = true → m0.isChipAt p.1 p.2 = true := by
    intro p
    rw [C30_chips v cfg w h validate m hm, C30_chips v _ w h false m0 hm0, hwr, hwr0]
    exact fun ⟨_, hb⟩ => ⟨hc0 p, hb⟩
  have hsup : ∀ p : XY, m0.isChipAt p.1 p.2 = true → p ≠ f → m.isChipAt p.1 p.2 = true := by
    intro p hp hne
    have hg := hgrid p hp
    revert hp
    rw [C30_chips v cfg w h validate m hm, C30_chips v _ w h false m0 hm0, hwr, hwr0]
    exact fun ⟨_, hb⟩ => ⟨fun hd => hne (hc p hg hd), hb⟩
  have hover : ∀ (p : XY) (d : Dir), m.xyOverLink p.1 p.2 d.id = .ok (nb m0 w h p d) := by
    intro p d
    unfold nb
    rw [xyOverLink_dir' m (by omega) (by omega), hwr, hwr0, hmw, hmh]
  have hover0 : ∀ (p : XY) (d : Dir), m0.xyOverLink p.1 p.2 d.id = .ok (nb m0 w h p d) := by
    intro p d
    unfold nb
    rw [xyOverLink_dir' m0 (by omega) (by omega), hwr0, hmw0, hmh0]
  have hun : ∀ p d, ¬ Unwired v.kind p d := by
    intro p d hu
    unfold Unwired at hu
    rcases hk with hk | hk <;> rw [hk] at hu <;> simp at hu
  -- a step between chips other than `f`
  have step : ∀ (p : XY) (d : Dir), m0.isChipAt p.1 p.2 = true → p ≠ f →
      m0.isChipAt (nb m0 w h p d).1 (nb m0 w h p d).2 = true → nb m0 w h p d ≠ f → Route m p [d.id] (nb m0 w h p d) := by
    intro p d h1 h2 h3 h4
    refine vm_step hm d (hsup _ h1 h2) (hsup _ h3 h4) ?_ (hun _ _) (hover p d)
    intro hd
    rcases hl _ _ (hsup _ h1 h2) hd with h | h
    · exact h2 h
    · rw [hover, Except.ok.injEq] at h
      exact h4 h
  have back : ∀ (p : XY) (d : Dir), m0.isChipAt p.1 p.2 = true → nb m0 w h (nb m0 w h p d) (Dir.opp d) = p := by
    intro p d hp
    have hin : InRange m0.wrap w h p := by
      obtain ⟨g1, g2, g3, g4⟩ := hgrid p hp
      exact ⟨fun _ => ⟨g1, g2⟩, fun _ => ⟨g3, g4⟩⟩
    unfold nb
    rw [Wrap.red_red_add _ hpos.1 hpos.2]
    have e1 : (Dir.opp d).dx = - d.dx := by cases d <;> rfl
    have e2 : (Dir.opp d).dy = - d.dy := by cases d <;> rfl
    rw [e1, e2, show p.1 + d.dx + -d.dx = p.1 by omega, show p.2 + d.dy + -d.dy = p.2 by omega]
    exact Wrap.red_of_inRange _ hin
  have stepc : ∀ (p : XY) (d : Dir), m0.isChipAt p.1 p.2 = true → p ≠ f →
      m0.isChipAt (nb m0 w h p d).1 (nb m0 w h p d).2 = true → nb m0 w h p d ≠ f → Conn m p (nb m0 w h p d) := by
    intro p d h1 h2 h3 h4
    refine ⟨⟨_, step p d h1 h2 h3 h4⟩, ?_⟩
    have hb := back p d h1
    have := step (nb m0 w h p d) (Dir.opp d) h3 h4 (by rw [hb]; exact h1) (by rw [hb]; exact h2)
    rw [hb] at this
    exact ⟨_, this⟩
  -- no chip is its own neighbour
  have hne : ∀ (p : XY) (d : Dir), nb m0 w h p d ≠ p := by
    intro p d heq
    have hsame := Wrap.red_same m0.wrap hpos.1 hpos.2 (p.1 + d.dx, p.2 + d.dy)
    rw [show m0.wrap.red w h (p.1 + d.dx, p.2 + d.dy) = p from heq] at hsame
    have hdvd := wraps_dvd hk hm0
    have b1 : -1 ≤ d.dx ∧ d.dx ≤ 1 ∧ -1 ≤ d.dy ∧ d.dy ≤ 1 ∧ ¬ (d.dx = 0 ∧ d.dy = 0) := by cases d <;> decide
    have z1 : d.dx = 0 := by
      have u := hsame.1
      by_cases hw : wrapsX m0.wrap
      · rw [if_pos hw] at u
        obtain ⟨c, hc⟩ := hdvd.1 hw
        obtain ⟨k, hk⟩ := u
        have e3 : k * w = 12 * (k * c) := by rw [hc, Int.mul_left_comm]
        simp only at hk
        omega
      · rw [if_neg hw] at u
        simp only at u
        omega
    have z2 : d.dy = 0 := by
      have u := hsame.2
      by_cases hw : wrapsY m0.wrap
      · rw [if_pos hw] at u
        obtain ⟨c, hc⟩ := hdvd.2 hw
        obtain ⟨k, hk⟩ := u
        have e3 : k * h = 12 * (k * c) := by rw [hc, Int.mul_left_comm]
        simp only at hk
        omega
      · rw [if_neg hw] at u
        simp only at u
        omega
    exact b1.2.2.2.2 ⟨z1, z2⟩
  have around : m0.isChipAt f.1 f.2 = true → ∀ d1 d2 : Dir,
      m0.isChipAt (nb m0 w h f d1).1 (nb m0 w h f d1).2 = true →
      m0.isChipAt (nb m0 w h f d2).1 (nb m0 w h f d2).2 = true → Conn m (nb m0 w h f d1) (nb m0 w h f d2) := by
    intro hf
    refine ring hk hm0 hc0 hf ?_ ?_
    · intro d hd
      have := hsup _ hd (hne f d)
      exact ⟨⟨[], .stay _ this⟩, [], .stay _ this⟩
    · intro d h1 h2
      have e1 : nb m0 w h (nb m0 w h f d) d.lt.lt = nb m0 w h f d.lt := by
        unfold nb
        rw [Wrap.red_red_add _ hpos.1 hpos.2]
        obtain ⟨-, -, t1, t2, -⟩ := turn d
        rw [← t1, ← t2, Int.add_assoc, Int.add_assoc]
      have := stepc (nb m0 w h f d) d.lt.lt h1 (hne f d) (by rw [e1]; exact h2) (by rw [e1]; exact hne f _)
      rw [e1] at this
      exact this
  obtain ⟨path, hroute⟩ := C76_connected v _ w h false m0 hm0 hc0 hl0 p q (hsub p hp) (hsub q hq)
  have main : ∀ p path q, Route m0 p path q → m0.isChipAt p.1 p.2 = true → q ≠ f →
      (p ≠ f → ∃ path, Route m p path q) ∧
      (p = f → ∀ d, m0.isChipAt (nb m0 w h f d).1 (nb m0 w h f d).2 = true → ∃ path, Route m (nb m0 w h f d) path q) := by
    intro p path q hroute
    induction hroute with
    | stay p _ => exact fun h1 h2 => ⟨fun _ => ⟨[], .stay p (hsup p h1 h2)⟩, fun h => absurd h h2⟩
    | go p c i l is q hcp hli hr ih =>
      intro hp hqf
      obtain ⟨hcm, hcx, hcy⟩ := mem_of_chip_at r0 hcp
      obtain ⟨d', rfl, -, -, q', hq', hqc⟩ :=
        (C31_links v _ w h false m0 hm0 c hcm i).1 ((hasLink_iff c i).2 ⟨l, hli⟩)
      obtain ⟨-, -, -, h4⟩ := C31_destinations v _ w h false m0 hm0 c hcm _ l hli
      rw [hq', Except.ok.injEq] at h4
      subst h4
      rw [hcx, hcy, hover0, Except.ok.injEq] at hq'
      obtain ⟨i1, i2⟩ := ih hqc hqf
      rw [← hq'] at hqc i1 i2
      constructor
      · intro hpf
        by_cases hn : nb m0 w h p d' = f
        · have hb := back p d' hp
          rw [hn] at hb
          have := i2 hn (Dir.opp d') (by rw [hb]; exact hp)
          rwa [hb] at this
        · obtain ⟨path, hpath⟩ := i1 hn
          exact ⟨_, Route.append (step p d' hp hpf hqc hn) hpath⟩
      · rintro rfl d hd
        obtain ⟨⟨a, ha⟩, -⟩ := around hp d d' hd hqc
        obtain ⟨path, hpath⟩ := i1 (hne p d')
        exact ⟨_, Route.append ha hpath⟩
  exact (main p path q hroute (hsub p hp) hqf).1 hpf

/-- the case of the theorem: one chip down, on three boards and on six; two of the chips left are on opposite sides
of it -/
example (w h : Int) (hs : w = 12 ∧ h = 12 ∨ w = 24 ∧ h = 12) :
    ∃ m, virtualMachine exV5 { chips := some "3,1".toList } w h false = .ok m ∧ m.isChipAt 3 1 = false ∧
      m.isChipAt 2 1 = true ∧ m.isChipAt 4 1 = true ∧ ∃ path, Route m (2, 1) path (4, 1) := by
  have hk : exV5.kind = .v5 ∨ exV5.kind = .v248 := .inl rfl
  have h1 : IgnoreChip.parseString (some "3,1".toList) = .ok [⟨3, 1, none⟩] := by decide +kernel
  have hr : Readable exV5.kind { chips := some "3,1".toList } := ⟨⟨_, h1⟩, ⟨[], rfl⟩, [], rfl, by simp⟩
  have hw12 : 12 ∣ w ∧ 12 ∣ h ∧ 5 < w ∧ 5 < h := by omega
  obtain ⟨m, hm⟩ := (C30_succeeds exV5 { chips := some "3,1".toList } w h).1
    (by rcases hs with ⟨rfl, rfl⟩ | ⟨rfl, rfl⟩ <;> decide) hr
  have hd : ∀ p, ChipDown { chips := some "3,1".toList } p ↔ p = (3, 1) := by
    intro p
    constructor
    · rintro ⟨l, hl, c, hc, e1, e2, -⟩
      rw [h1, Except.ok.injEq] at hl
      subst hl
      rw [List.mem_singleton] at hc
      subst hc
      exact Prod.ext e1.symm e2.symm
    · rintro rfl
      exact ⟨_, h1, _, List.mem_singleton.2 rfl, rfl, rfl, rfl⟩
  have hl : ∀ p i, ¬ LinkDown { chips := some "3,1".toList } p i := by
    rintro p i ⟨l, hl, c, hc, -⟩
    cases hl
    simp at hc
  have c1 := torus_chip hk hm hw12.1 hw12.2.1 (p := (2, 1)) ⟨by decide, by omega, by decide, by omega⟩
    (by rw [hd]; decide)
  have c2 := torus_chip hk hm hw12.1 hw12.2.1 (p := (4, 1)) ⟨by decide, by omega, by decide, by omega⟩
    (by rw [hd]; decide)
  refine ⟨m, hm, ?_, c1, c2, C110_one_chip exV5 hk _ w h false m hm (3, 1)
    (fun p _ => (hd p).1) (fun p i _ h => absurd h (hl p i)) _ _ c1 c2
    (by decide) (by decide)⟩
  cases hc : m.isChipAt 3 1 with
  | false => rfl
  | true => exact absurd ((hd (3, 1)).2 rfl) ((C30_chips _ _ _ _ _ _ hm (3, 1)).1 hc).1
end

end SpiNN.Props
