import Verif.Lemmas.Geometry
import Verif.Model.Machine

namespace SpiNN
open Spec

theorem Spec.SizeOK.pos {k : VKind} {w h : Int} (hs : SizeOK k w h) : 0 < w ∧ 0 < h := by
  cases k <;> simp only [SizeOK] at hs <;> omega

/-- reduce into the machine, one axis at a time -/
theorem Wrap.red_fst (wr : Wrap) (w h : Int) (p : XY) :
    (wr.red w h p).1 = if wrapsX wr then pmod p.1 w else p.1 := by
  cases wr <;> simp [Wrap.red, wrapsX]

theorem Wrap.red_snd (wr : Wrap) (w h : Int) (p : XY) :
    (wr.red w h p).2 = if wrapsY wr then pmod p.2 h else p.2 := by
  cases wr <;> simp [Wrap.red, wrapsY]

theorem xysByEthernet_eq (wr : Wrap) (w h : Int) (ccm : PDict XY Int) (ex ey : Int) :
    wr.xysByEthernet w h ccm ex ey = ccm.keys.map fun l => wr.red w h (l.1 + ex, l.2 + ey) := by
  cases wr <;> rfl

theorem xyCoresByEthernet_eq (wr : Wrap) (w h : Int) (ccm : PDict XY Int) (ex ey : Int) :
    wr.xyCoresByEthernet w h ccm ex ey =
      ccm.items.map fun e => (wr.red w h (e.1.1 + ex, e.1.2 + ey), e.2) := by
  cases wr <;> rfl

theorem existing_eq (wr : Wrap) (w h : Int) (ccm : PDict XY Int) (has : XY → Bool) (ex ey : Int) :
    wr.existingXysByEthernet w h ccm has ex ey = (wr.xysByEthernet w h ccm ex ey).filter has := by
  cases wr <;> rfl

theorem down_eq (wr : Wrap) (w h : Int) (ccm : PDict XY Int) (has : XY → Bool) (ex ey : Int) :
    wr.downXysByEthernet w h ccm has ex ey =
      (wr.xysByEthernet w h ccm ex ey).filter (fun p => !has p) := by
  cases wr <;> rfl

theorem mem_xysByEthernet (k : VKind) (wr : Wrap) (w h : Int) (e p : XY) :
    p ∈ wr.xysByEthernet w h k.chipCoreMap e.1 e.2 ↔
      ∃ l, OnBoard k l ∧ wr.red w h (l.1 + e.1, l.2 + e.2) = p := by
  rw [xysByEthernet_eq, List.mem_map]
  simp only [mem_chipCoreMap_iff]

theorem mem_xysByEthernet_iff_boardAt (k : VKind) (wr : Wrap) {w h : Int} (hw : 0 < w) (hh : 0 < h)
    (e p : XY) :
    p ∈ wr.xysByEthernet w h k.chipCoreMap e.1 e.2 ↔ BoardAt k wr w h e p := by
  rw [mem_xysByEthernet]
  unfold BoardAt
  constructor
  · rintro ⟨l, hl, rfl⟩
    refine ⟨Wrap.red_inRange wr hw hh _, l, hl, ?_⟩
    rw [Int.add_comm e.1, Int.add_comm e.2]
    exact (Wrap.red_eq_iff wr hw hh (Wrap.red_inRange wr hw hh _)).1 rfl
  · rintro ⟨hr, l, hl, hsame⟩
    refine ⟨l, hl, ?_⟩
    rw [Wrap.red_eq_iff wr hw hh hr]
    rwa [Int.add_comm l.1, Int.add_comm l.2]

/-- the size of a potential Ethernet position, in 48-chip versions -/
theorem mem_potential48' {w h : Int} (hs : (w = 8 ∧ h = 8) ∨ (8 < w ∧ 8 < h ∧ 4 ∣ w ∧ 4 ∣ h)) (p : XY) :
    p ∈ Geometry.spinn5.potentialEthernetChips w h ↔
      EthLattice p ∧ 0 ≤ p.1 ∧ p.1 < w ∧ 0 ≤ p.2 ∧ p.2 < h ∧ (¬ 12 ∣ w → p.1 + 7 < w) ∧
        (¬ 12 ∣ h → p.2 + 7 < h) := by
  rw [mem_potential48 _ _ _ (by split <;> omega) (by split <;> omega)]
  refine and_congr_right fun _ => ?_
  split <;> split <;> omega

theorem onBoard48_corners : OnBoard48 (0, 0) ∧ OnBoard48 (7, 7) := by decide

theorem mem_potential_iff {k : VKind} {w h : Int} (hs : SizeOK k w h) (p : XY) :
    p ∈ k.potentialEthernetChips w h ↔
      EthPos k p ∧ InGrid w h p ∧ BoardFits k (k.wrapFor w h) w h p := by
  have hwr := wrapFor_spec k w h
  cases k with
  | v3 =>
    obtain ⟨rfl, rfl⟩ := hs
    simp only [VKind.potentialEthernetChips, List.mem_singleton, EthPos]
    constructor
    · rintro rfl; exact ⟨rfl, by unfold InGrid; decide, fun l hl => ⟨fun h => absurd hwr.1 h, fun h => absurd hwr.2 h⟩⟩
    · exact fun h => h.1
  | v201 =>
    obtain ⟨rfl, rfl⟩ := hs
    simp only [VKind.potentialEthernetChips, List.mem_singleton, EthPos]
    constructor
    · rintro rfl
      refine ⟨rfl, by unfold InGrid; decide, fun l hl => ?_⟩
      simp only [OnBoard] at hl; subst hl
      exact ⟨fun _ => by simp, fun _ => by simp⟩
    · exact fun h => h.1
  | v5 =>
    simp only [VKind.potentialEthernetChips, EthPos]
    rw [mem_potential48' hs]
    refine and_congr_right fun _ => ?_
    simp only [WrapsAs] at hwr
    simp only [BoardFits, hwr.1, hwr.2, OnBoard, InGrid]
    constructor
    · rintro ⟨h1, h2, h3, h4, h5, h6⟩
      refine ⟨⟨h1, h2, h3, h4⟩, fun l hl => ?_⟩
      unfold OnBoard48 at hl
      exact ⟨fun hn => by have := h5 hn; omega, fun hn => by have := h6 hn; omega⟩
    · rintro ⟨⟨h1, h2, h3, h4⟩, h5⟩
      have := h5 (7, 7) onBoard48_corners.2
      exact ⟨h1, h2, h3, h4, fun hn => (this.1 hn).2, fun hn => (this.2 hn).2⟩
  | v248 =>
    simp only [VKind.potentialEthernetChips, EthPos]
    rw [mem_potential48' hs]
    refine and_congr_right fun _ => ?_
    simp only [WrapsAs] at hwr
    simp only [BoardFits, hwr.1, hwr.2, OnBoard, InGrid]
    constructor
    · rintro ⟨h1, h2, h3, h4, h5, h6⟩
      refine ⟨⟨h1, h2, h3, h4⟩, fun l hl => ?_⟩
      unfold OnBoard48 at hl
      exact ⟨fun hn => by have := h5 hn; omega, fun hn => by have := h6 hn; omega⟩
    · rintro ⟨⟨h1, h2, h3, h4⟩, h5⟩
      have := h5 (7, 7) onBoard48_corners.2
      exact ⟨h1, h2, h3, h4, fun hn => (this.1 hn).2, fun hn => (this.2 hn).2⟩

theorem nodup_potential (k : VKind) (w h : Int) : (k.potentialEthernetChips w h).Nodup := by
  cases k
  · simp [VKind.potentialEthernetChips]
  · exact nodup_potential48 w h
  · simp [VKind.potentialEthernetChips]
  · exact nodup_potential48 w h

/-- on a wrapped axis, two coordinates in range whose displaced values agree -/
theorem red_diff (wr : Wrap) {w h : Int} (hw : 0 < w) (hh : 0 < h) {p q : XY}
    (heq : wr.red w h p = wr.red w h q) :
    ∃ a b : Int, p.1 = q.1 + a * w ∧ p.2 = q.2 + b * h ∧ (¬ wrapsX wr → a = 0) ∧
      (¬ wrapsY wr → b = 0) := by
  have h1 := (Wrap.red_eq_iff wr hw hh (Wrap.red_inRange wr hw hh q)).1 heq
  have h2 := Wrap.red_same wr hw hh q
  unfold Same at h1 h2
  by_cases hx : wrapsX wr <;> by_cases hy : wrapsY wr <;> simp only [hx, hy, if_true, if_false] at h1 h2
  · obtain ⟨⟨a, ha⟩, b, hb⟩ := h1
    obtain ⟨⟨c, hc⟩, d, hd⟩ := h2
    exact ⟨a - c, b - d, by rw [Int.sub_mul]; omega, by rw [Int.sub_mul]; omega, by simp_all, by simp_all⟩
  · obtain ⟨⟨a, ha⟩, hb⟩ := h1
    obtain ⟨⟨c, hc⟩, hd⟩ := h2
    exact ⟨a - c, 0, by rw [Int.sub_mul]; omega, by omega, by simp_all, by simp_all⟩
  · obtain ⟨ha, b, hb⟩ := h1
    obtain ⟨hc, d, hd⟩ := h2
    exact ⟨0, b - d, by omega, by rw [Int.sub_mul]; omega, by simp_all, by simp_all⟩
  · exact ⟨0, 0, by omega, by omega, by simp_all, by simp_all⟩

theorem unique48 {w h : Int} (hw : 0 < w) (hh : 0 < h) (wr : Wrap)
    (hx : wrapsX wr → 12 ∣ w) (hy : wrapsY wr → 12 ∣ h) {e f l m : XY}
    (he : EthLattice e) (hf : EthLattice f) (hl : OnBoard48 l) (hm : OnBoard48 m)
    (hge : InGrid w h e) (hgf : InGrid w h f)
    (heq : wr.red w h (l.1 + e.1, l.2 + e.2) = wr.red w h (m.1 + f.1, m.2 + f.2)) :
    e = f ∧ l = m := by
  obtain ⟨a, b, h1, h2, h3, h4⟩ := red_diff wr hw hh heq
  simp only at h1 h2
  have haw : ∃ i, a * w = 12 * i := by
    by_cases hxx : wrapsX wr
    · obtain ⟨c, rfl⟩ := hx hxx
      exact ⟨a * c, by rw [Int.mul_left_comm]⟩
    · exact ⟨0, by simp [h3 hxx]⟩
  have hbh : ∃ j, b * h = 12 * j := by
    by_cases hyy : wrapsY wr
    · obtain ⟨c, rfl⟩ := hy hyy
      exact ⟨b * c, by rw [Int.mul_left_comm]⟩
    · exact ⟨0, by simp [h4 hyy]⟩
  obtain ⟨i, hi⟩ := haw
  obtain ⟨j, hj⟩ := hbh
  have hf' := lattice_shift hf i j
  obtain ⟨hef, hlm⟩ := lattice_unique he hf' hl hm (by simp only; omega) (by simp only; omega)
  refine ⟨?_, hlm⟩
  obtain ⟨ge1, ge2, ge3, ge4⟩ := hge
  obtain ⟨gf1, gf2, gf3, gf4⟩ := hgf
  have e1 : e.1 = f.1 + a * w := by rw [hef, hi]
  have e2 : e.2 = f.2 + b * h := by rw [hef, hj]
  exact Prod.ext (eq_of_range_mul hw ge1 ge2 gf1 gf2 e1) (eq_of_range_mul hh ge3 ge4 gf3 gf4 e2)

/-- boards at different legal Ethernet positions do not meet -/
theorem ethPos_unique {k : VKind} {w h : Int} (hs : SizeOK k w h) {e f l m : XY}
    (he1 : EthPos k e) (he2 : InGrid w h e) (hf1 : EthPos k f) (hf2 : InGrid w h f)
    (hl : OnBoard k l) (hm : OnBoard k m)
    (heq : (k.wrapFor w h).red w h (l.1 + e.1, l.2 + e.2) =
      (k.wrapFor w h).red w h (m.1 + f.1, m.2 + f.2)) : e = f ∧ l = m := by
  have hpos := hs.pos
  have hwr := wrapFor_spec k w h
  cases k with
  | v3 =>
    obtain ⟨rfl, rfl⟩ := hs
    simp only [EthPos] at he1 hf1
    subst he1; subst hf1
    refine ⟨rfl, ?_⟩
    obtain ⟨lx, ly⟩ := l
    obtain ⟨mx, my⟩ := m
    simp only [OnBoard] at hl hm
    simp only [VKind.wrapFor, Wrap.red, Int.add_zero, Prod.mk.injEq] at heq
    rw [pmod_of_range (by omega) (by omega), pmod_of_range (by omega) (by omega),
      pmod_of_range (by omega) (by omega), pmod_of_range (by omega) (by omega)] at heq
    exact Prod.ext heq.1 heq.2
  | v201 =>
    simp only [EthPos, OnBoard] at *
    exact ⟨he1.trans hf1.symm, hl.trans hm.symm⟩
  | v5 => exact unique48 hpos.1 hpos.2 _ hwr.1.1 hwr.2.1 he1 hf1 hl hm he2 hf2 heq
  | v248 => exact unique48 hpos.1 hpos.2 _ hwr.1.1 hwr.2.1 he1 hf1 hl hm he2 hf2 heq

theorem board_unique {k : VKind} {w h : Int} (hs : SizeOK k w h) {e f l m : XY}
    (he : e ∈ k.potentialEthernetChips w h) (hf : f ∈ k.potentialEthernetChips w h)
    (hl : OnBoard k l) (hm : OnBoard k m)
    (heq : (k.wrapFor w h).red w h (l.1 + e.1, l.2 + e.2) =
      (k.wrapFor w h).red w h (m.1 + f.1, m.2 + f.2)) : e = f ∧ l = m := by
  rw [mem_potential_iff hs] at he hf
  exact ethPos_unique hs he.1 he.2.1 hf.1 hf.2.1 hl hm heq

/-- every place of a board of the machine is inside the machine -/
theorem board_inGrid {k : VKind} {w h : Int} (hs : SizeOK k w h) {e l : XY}
    (he : e ∈ k.potentialEthernetChips w h) (hl : OnBoard k l) :
    InGrid w h ((k.wrapFor w h).red w h (l.1 + e.1, l.2 + e.2)) := by
  rw [mem_potential_iff hs] at he
  have hfit := he.2.2 l hl
  have hpos := hs.pos
  have hr := Wrap.red_inRange (k.wrapFor w h) hpos.1 hpos.2 (l.1 + e.1, l.2 + e.2)
  have h1 := Wrap.red_fst (k.wrapFor w h) w h (l.1 + e.1, l.2 + e.2)
  have h2 := Wrap.red_snd (k.wrapFor w h) w h (l.1 + e.1, l.2 + e.2)
  generalize (k.wrapFor w h).red w h (l.1 + e.1, l.2 + e.2) = q at *
  unfold InGrid
  unfold InRange at hr
  by_cases hx : wrapsX (k.wrapFor w h) <;> by_cases hy : wrapsY (k.wrapFor w h) <;>
    simp only [hx, hy, if_true, if_false] at h1 h2
  · have := hr.1 hx; have := hr.2 hy; omega
  · have := hr.1 hx; have := hfit.2 hy; omega
  · have := hfit.1 hx; have := hr.2 hy; omega
  · have := hfit.1 hx; have := hfit.2 hy; omega

theorem nodup_map_of_inj {α β : Type} {f : α → β} {l : List α} (hl : l.Nodup)
    (hf : ∀ a ∈ l, ∀ b ∈ l, f a = f b → a = b) : (l.map f).Nodup := by
  induction l with
  | nil => simp
  | cons a t ih =>
    rw [List.nodup_cons] at hl
    rw [List.map_cons, List.nodup_cons]
    refine ⟨?_, ih hl.2 fun a ha b hb => hf a (List.mem_cons_of_mem _ ha) b (List.mem_cons_of_mem _ hb)⟩
    rw [List.mem_map]
    rintro ⟨b, hb, heq⟩
    have := hf b (List.mem_cons_of_mem _ hb) a List.mem_cons_self heq
    subst this
    exact hl.1 hb

theorem nodup_xysByEthernet {k : VKind} {w h : Int} (hs : SizeOK k w h) {e : XY}
    (he : e ∈ k.potentialEthernetChips w h) :
    ((k.wrapFor w h).xysByEthernet w h k.chipCoreMap e.1 e.2).Nodup := by
  rw [xysByEthernet_eq]
  refine nodup_map_of_inj (chipCoreMap_WF k) fun l hl m hm heq => ?_
  exact (board_unique hs he he ((mem_chipCoreMap_iff k l).1 hl) ((mem_chipCoreMap_iff k m).1 hm) heq).2

/-- on a fully wrapped machine every place is on a board -/
theorem board_cover {k : VKind} (hk : k = .v5 ∨ k = .v248) {w h : Int} (hw : 0 < w) (hh : 0 < h)
    (hw12 : 12 ∣ w) (hh12 : 12 ∣ h) {p : XY} (hp : InGrid w h p) :
    ∃ e ∈ k.potentialEthernetChips w h, ∃ l, OnBoard k l ∧
      (k.wrapFor w h).red w h (l.1 + e.1, l.2 + e.2) = p := by
  have hs48 : (w = 8 ∧ h = 8) ∨ (8 < w ∧ 8 < h ∧ 4 ∣ w ∧ 4 ∣ h) := by omega
  have hs : SizeOK k w h := by rcases hk with rfl | rfl <;> exact hs48
  obtain ⟨e, l, he, hl, h1, h2⟩ := lattice_cover p
  have hl' : OnBoard k l := by rcases hk with rfl | rfl <;> exact hl
  obtain ⟨a, ha⟩ := pmod_exists e.1 w hw
  obtain ⟨b, hb⟩ := pmod_exists e.2 h hh
  obtain ⟨i, hi⟩ := hw12
  obtain ⟨j, hj⟩ := hh12
  have hlat : EthLattice (pmod e.1 w, pmod e.2 h) := by
    have := lattice_shift he (-(a * i)) (-(b * j))
    have e1 : e.1 + 12 * -(a * i) = pmod e.1 w := by
      have : a * w = 12 * (a * i) := by rw [hi, Int.mul_left_comm]
      omega
    have e2 : e.2 + 12 * -(b * j) = pmod e.2 h := by
      have : b * h = 12 * (b * j) := by rw [hj, Int.mul_left_comm]
      omega
    rwa [e1, e2] at this
  have hwr : k.wrapFor w h = .full := by
    have h12 : pmod w 12 = 0 := by rw [pmod_eq_emod (by omega)]; omega
    have h12' : pmod h 12 = 0 := by rw [pmod_eq_emod (by omega)]; omega
    rcases hk with rfl | rfl <;> simp [VKind.wrapFor, h12, h12']
  refine ⟨(pmod e.1 w, pmod e.2 h), ?_, l, hl', ?_⟩
  · have : (pmod e.1 w, pmod e.2 h) ∈ Geometry.spinn5.potentialEthernetChips w h := by
      rw [mem_potential48' hs48]
      refine ⟨hlat, pmod_nonneg hw, pmod_lt hw, pmod_nonneg hh, pmod_lt hh, ?_, ?_⟩
      · intro hn; exact absurd ⟨i, hi⟩ hn
      · intro hn; exact absurd ⟨j, hj⟩ hn
    rcases hk with rfl | rfl <;> exact this
  · rw [hwr]
    simp only [Wrap.red]
    rw [Int.add_comm l.1, Int.add_comm l.2, pmod_add_pmod _ _ _ hw, pmod_add_pmod _ _ _ hh, h1, h2,
      pmod_of_range hp.1 hp.2.1, pmod_of_range hp.2.2.1 hp.2.2.2]

end SpiNN
