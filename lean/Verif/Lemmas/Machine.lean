import Verif.Spec.Machine
import Verif.Lemmas.PDict
import Verif.Lemmas.Boards

namespace SpiNN
open Spec

/-! ### counters -/

theorem assign_getD_mem (l : List (Int × Int)) (hn : (l.map (·.1)).Nodup) (k v : Int)
    (h : PDict.lookup l k = some v) :
    (((PDict.assign l k (v + 1)).map fun (n, c) => n * c).sum : Int) = (l.map fun (n, c) => n * c).sum + k := by
  induction l with
  | nil => simp [PDict.lookup] at h
  | cons a t ih =>
    obtain ⟨k₀, v₀⟩ := a
    simp only [List.map_cons, List.nodup_cons] at hn
    simp only [PDict.lookup] at h
    simp only [PDict.assign]
    split at h
    · rename_i heq
      subst heq
      simp only [Option.some.injEq] at h
      subst h
      simp only [if_true, List.map_cons, List.sum_cons, Int.mul_add]
      omega
    · rename_i hne
      rw [if_neg hne]
      simp only [List.map_cons, List.sum_cons, ih hn.2 h]
      omega

theorem counterTotal_inc (c : PDict Int Int) (hc : c.WF) (k : Int) :
    Machine.counterTotal (counterInc c k) = Machine.counterTotal c + k := by
  unfold counterInc Machine.counterTotal
  cases h : c.get? k with
  | none =>
    have : c.contains k = false := by simp [PDict.contains, h]
    rw [PDict.set_of_not_contains _ _ _ this]
    simp
  | some v =>
    simp only [Option.getD_some, PDict.set]
    exact assign_getD_mem c.items hc k v h

theorem counterInc_WF {c : PDict Int Int} (hc : c.WF) (k : Int) : (counterInc c k).WF := hc.set _ _

theorem mem_keys_counterInc (c : PDict Int Int) (k k' : Int) :
    k' ∈ (counterInc c k).keys ↔ k' = k ∨ k' ∈ c.keys := PDict.mem_keys_set _ _ _ _

/-- `c` is the `Counter` of the values `vals` -/
structure IsCounter (c : PDict Int Int) (vals : List Int) : Prop where
  wf : c.WF
  count : ∀ n, c.get? n = if n ∈ vals then some (vals.count n : Int) else none
  total : Machine.counterTotal c = vals.sum

theorem IsCounter.empty : IsCounter .empty [] := ⟨PDict.WF_empty, by simp, rfl⟩

theorem IsCounter.inc {c : PDict Int Int} {vals : List Int} (h : IsCounter c vals) (k : Int) :
    IsCounter (counterInc c k) (vals ++ [k]) where
  wf := counterInc_WF h.wf k
  count n := by
    unfold counterInc
    rw [PDict.get?_set, h.count, h.count]
    by_cases hk : k = n
    · subst hk
      by_cases hm : k ∈ vals
      · simp [hm]
      · simp [hm, List.count_eq_zero_of_not_mem hm]
    · have h1 : List.count n [k] = 0 := by simp [List.count_cons, hk]
      have h2 : ¬ n = k := fun h => hk h.symm
      simp only [hk, if_false, List.mem_append, List.mem_singleton, h2, or_false, List.count_append, h1,
        Nat.add_zero]
  total := by rw [counterTotal_inc _ h.wf, h.total]; simp

theorem IsCounter.mem_keys {c : PDict Int Int} {vals : List Int} (h : IsCounter c vals) (n : Int) :
    n ∈ c.keys ↔ n ∈ vals := by
  rw [PDict.mem_keys_iff, h.count]
  split <;> simp_all

/-! ### the abstraction relation -/

/-- machine `m` holds exactly the chips `s` -/
structure Rep (m : Machine) (s : Chips) : Prop where
  items : m.chips.items = s.map fun c => (c.xy, c)
  nodup : (s.map Chip.xy).Nodup
  eths : m.ethernetChips = s.filter fun c => c.ip.isSome
  boot : m.bootAddr = (s.at (0, 0)).bind Chip.ip
  cores : IsCounter m.nCores (s.map Chip.nProcessors)
  sdrams : IsCounter m.sdrams (s.map Chip.sdram)
  linksWF : m.nLinks.WF
  entries : IsCounter m.nRouterEntries (s.map fun c => c.router.nEntries)

namespace Rep

theorem new (wr : Wrap) (w h : Int) (ccm : PDict XY Int) (o : String) : Rep (Machine.new wr w h ccm o) [] where
  items := rfl
  nodup := by simp
  eths := rfl
  boot := rfl
  cores := .empty
  sdrams := .empty
  linksWF := PDict.WF_empty
  entries := .empty

variable {m : Machine} {s : Chips}

theorem keys (r : Rep m s) : m.chips.keys = s.map Chip.xy := by simp [PDict.keys, r.items]
theorem values (r : Rep m s) : m.chips.values = s := by simp [PDict.values, r.items, Function.comp_def]
theorem wf (r : Rep m s) : m.chips.WF := by unfold PDict.WF; rw [r.keys]; exact r.nodup

theorem lookup_map (s : Chips) (p : XY) : PDict.lookup (s.map fun c => (c.xy, c)) p = s.at p := by
  induction s with
  | nil => rfl
  | cons c t ih =>
    simp only [List.map_cons, PDict.lookup, Chips.at, List.find?_cons]
    split
    · rename_i h; simp [h]
    · rename_i h; simp only [decide_eq_false h]; exact ih

theorem get? (r : Rep m s) (p : XY) : m.chips.get? p = s.at p := by
  unfold PDict.get?; rw [r.items]; exact lookup_map s p

theorem contains (r : Rep m s) (p : XY) : m.chips.contains p = (s.at p).isSome := by
  unfold PDict.contains; rw [r.get?]

end Rep

theorem Chips.at_mem {s : Chips} {p : XY} {c : Chip} (h : s.at p = some c) : c ∈ s ∧ c.xy = p :=
  ⟨List.mem_of_find?_eq_some h, by simpa using List.find?_some h⟩

theorem Chips.at_of_mem {s : Chips} (hn : (s.map Chip.xy).Nodup) {c : Chip} (hc : c ∈ s) :
    s.at c.xy = some c := by
  induction s with
  | nil => simp at hc
  | cons a t ih =>
    simp only [List.map_cons, List.nodup_cons] at hn
    simp only [Chips.at, List.find?_cons]
    rw [List.mem_cons] at hc
    rcases hc with rfl | hc
    · simp
    · have : a.xy ≠ c.xy := fun h => hn.1 (h ▸ List.mem_map_of_mem hc)
      simp only [decide_eq_false this]
      exact ih hn.2 hc

theorem Chips.at_eq_some_iff {s : Chips} (hn : (s.map Chip.xy).Nodup) {p : XY} {c : Chip} :
    s.at p = some c ↔ c ∈ s ∧ c.xy = p :=
  ⟨Chips.at_mem, fun ⟨h1, h2⟩ => h2 ▸ Chips.at_of_mem hn h1⟩

theorem Chips.at_eq_none_iff {s : Chips} {p : XY} : s.at p = none ↔ p ∉ s.map Chip.xy := by
  simp [Chips.at]

theorem Chips.at_isSome_iff {s : Chips} {p : XY} : (s.at p).isSome ↔ p ∈ s.map Chip.xy := by
  rw [← Option.not_isNone, Bool.not_eq_true', ← Bool.not_eq_true, Option.isNone_iff_eq_none,
    Chips.at_eq_none_iff, Classical.not_not]

theorem Chips.at_append (s t : Chips) (p : XY) : Chips.at (s ++ t) p = (s.at p).or (Chips.at t p) := by
  simp [Chips.at, List.find?_append]

theorem Rep.addChip {m : Machine} {s : Chips} (r : Rep m s) (c : Chip) :
    match m.addChip c with
    | .ok m' => s.add c = (s ++ [c], none) ∧ Rep m' (s ++ [c]) ∧ m'.wrap = m.wrap ∧
        m'.width = m.width ∧ m'.height = m.height ∧ m'.chipCoreMap = m.chipCoreMap ∧
        m'.spinLinks = m.spinLinks ∧ m'.fpgaLinks = m.fpgaLinks ∧ m'.origin = m.origin ∧
        Machine.counterTotal m'.nLinks = Machine.counterTotal m.nLinks + c.router.len
    | .error e => s.add c = (s, some e) ∧ e = .alreadyExists := by
  unfold Machine.addChip Chips.add
  rw [r.contains]
  cases h : (s.at c.xy).isSome
  · simp only [Bool.false_eq_true, if_false, true_and]
    have hnone : s.at c.xy = none := by simpa using h
    have hnm := Chips.at_eq_none_iff.1 hnone
    have hcont : m.chips.contains c.xy = false := by rw [r.contains, h]
    refine ⟨?_, counterTotal_inc _ r.linksWF _⟩
    constructor
    · simp only
      rw [PDict.set_of_not_contains _ _ _ hcont]
      simp [r.items]
    · rw [List.map_append, List.nodup_append]
      refine ⟨r.nodup, by simp, ?_⟩
      intro a ha b hb
      simp only [List.map_cons, List.map_nil, List.mem_singleton] at hb
      subst hb
      exact fun h => hnm (h ▸ ha)
    · rw [List.filter_append, ← r.eths]
      cases hip : c.ip <;> simp [hip]
    · rw [Chips.at_append]
      have hb := r.boot
      by_cases hz : c.xy = (0, 0)
      · rw [hz] at hnone
        have h2 : Chips.at [c] (0, 0) = some c := by simp [Chips.at, hz]
        rw [hnone, h2]
        rw [hnone] at hb
        simp only [hz, if_true]
        simp only [Option.bind_none] at hb
        cases hip : c.ip <;> simp [hb, hip]
      · have h2 : Chips.at [c] (0, 0) = none := by simp [Chips.at, hz]
        rw [h2]
        simp only [hz, if_false, Option.or_none, ← hb]
        cases hip : c.ip <;> rfl
    · rw [List.map_append]; exact r.cores.inc _
    · rw [List.map_append]; exact r.sdrams.inc _
    · exact counterInc_WF r.linksWF _
    · rw [List.map_append]; exact r.entries.inc _
  · simp

/-- the parts of a machine fixed at construction, and the link tables -/
def SameFrame (m m' : Machine) : Prop :=
  m'.wrap = m.wrap ∧ m'.width = m.width ∧ m'.height = m.height ∧ m'.chipCoreMap = m.chipCoreMap ∧
    m'.origin = m.origin

theorem SameFrame.refl (m : Machine) : SameFrame m m := ⟨rfl, rfl, rfl, rfl, rfl⟩

theorem SameFrame.trans {a b c : Machine} (h : SameFrame a b) (h' : SameFrame b c) : SameFrame a c := by
  unfold SameFrame at *
  obtain ⟨h1, h2, h3, h4, h5⟩ := h
  obtain ⟨g1, g2, g3, g4, g5⟩ := h'
  exact ⟨g1.trans h1, g2.trans h2, g3.trans h3, g4.trans h4, g5.trans h5⟩

theorem Rep.addChips {m : Machine} {s : Chips} (r : Rep m s) (cs : List Chip) :
    Rep (m.addChips cs).1 (s.addAll cs).1 ∧ (m.addChips cs).2 = (s.addAll cs).2 ∧
      SameFrame m (m.addChips cs).1 ∧ (m.addChips cs).1.spinLinks = m.spinLinks ∧
      (m.addChips cs).1.fpgaLinks = m.fpgaLinks ∧
      (Machine.counterTotal m.nLinks = (s.map fun c => (c.router.len : Int)).sum →
        Machine.counterTotal (m.addChips cs).1.nLinks =
          ((s.addAll cs).1.map fun c => (c.router.len : Int)).sum) := by
  induction cs generalizing m s with
  | nil => exact ⟨r, rfl, SameFrame.refl m, rfl, rfl, fun h => h⟩
  | cons c cs ih =>
    have h := r.addChip c
    simp only [Machine.addChips, Chips.addAll]
    cases hm : m.addChip c with
    | ok m' =>
      rw [hm] at h
      simp only at h
      obtain ⟨h1, h2, h3, h4, h5, h6, h7, h8, h9, h10⟩ := h
      rw [h1]
      obtain ⟨i1, i2, i3, i4, i5, i6⟩ := ih h2
      refine ⟨i1, i2, SameFrame.trans ⟨h3, h4, h5, h6, h9⟩ i3, i4.trans h7, i5.trans h8, ?_⟩
      intro hl
      refine i6 ?_
      rw [h10, hl]; simp
    | error e =>
      rw [hm] at h
      simp only at h
      rw [h.1]
      exact ⟨r, rfl, SameFrame.refl m, rfl, rfl, fun h => h⟩

/-! ### `Router.add_link` on a chip of the machine -/

theorem assign_map_present (s : Chips) (hn : (s.map Chip.xy).Nodup) (c : Chip) (f : Chip → Chip)
    (hf : ∀ d, (f d).xy = d.xy) (hc : c ∈ s) :
    PDict.assign (s.map fun c => (c.xy, c)) c.xy (f c) =
      (s.map fun d => if d.xy = c.xy then f d else d).map fun c => (c.xy, c) := by
  induction s with
  | nil => simp at hc
  | cons a t ih =>
    simp only [List.map_cons, List.nodup_cons] at hn
    simp only [List.map_cons, PDict.assign]
    by_cases h : a.xy = c.xy
    · have hac : a = c := by
        rw [List.mem_cons] at hc
        rcases hc with rfl | hc
        · rfl
        · exact absurd (h ▸ List.mem_map_of_mem hc) hn.1
      subst hac
      simp only [if_true, hf]
      congr 1
      have : t.map (fun d => if d.xy = a.xy then f d else d) = t := by
        conv => rhs; rw [← List.map_id t]
        refine List.map_congr_left fun d hd => ?_
        rw [if_neg]; rfl
        exact fun h => hn.1 (h ▸ List.mem_map_of_mem hd)
      rw [this]
    · rw [if_neg h, if_neg h]
      rw [List.mem_cons] at hc
      rcases hc with rfl | hc
      · exact absurd rfl h
      · rw [ih hn.2 hc]

theorem map_xy_update (s : Chips) (p : XY) (f : Chip → Chip) (hf : ∀ d, (f d).xy = d.xy) :
    (s.map fun d => if d.xy = p then f d else d).map Chip.xy = s.map Chip.xy := by
  rw [List.map_map]
  refine List.map_congr_left fun d _ => ?_
  simp only [Function.comp]
  split <;> simp [hf]

theorem at_update (s : Chips) (p q : XY) (f : Chip → Chip) (hf : ∀ d, (f d).xy = d.xy) :
    Chips.at (s.map fun d => if d.xy = p then f d else d) q =
      (s.at q).map fun d => if d.xy = p then f d else d := by
  induction s with
  | nil => rfl
  | cons a t ih =>
    have hxy : (if a.xy = p then f a else a).xy = a.xy := by split <;> simp [hf]
    have h1 : ∀ (b : Chip) (u : Chips), Chips.at (b :: u) q = if b.xy = q then some b else Chips.at u q := by
      intro b u
      simp only [Chips.at, List.find?_cons]
      by_cases hb : b.xy = q <;> simp [hb]
    rw [List.map_cons, h1, h1, hxy, ih]
    by_cases h : a.xy = q <;> simp [h]

theorem Rep.routerAddLink {m : Machine} {s : Chips} (r : Rep m s) (p : XY) (l : Link) :
    match m.routerAddLink p l with
    | .ok m' => ∃ s', s.addLink p l = (s', none) ∧ Rep m' s' ∧ SameFrame m m' ∧
        m'.spinLinks = m.spinLinks ∧ m'.fpgaLinks = m.fpgaLinks ∧ m'.nLinks = m.nLinks
    | .error e => s.addLink p l = (s, some e) := by
  unfold Machine.routerAddLink Chips.addLink
  rw [r.get?]
  cases hc : s.at p with
  | none => rfl
  | some c =>
    obtain ⟨hcs, hcp⟩ := Chips.at_mem hc
    simp only [Router.addLink, Router.iter]
    have hcon : (c.router.links.contains l.sourceLinkId = true) ↔
        l.sourceLinkId ∈ c.router.links.items.map (·.1) := PDict.contains_iff _ _
    by_cases hin : l.sourceLinkId ∈ c.router.links.items.map (·.1)
    · simp only [hcon.2 hin, hin, if_true]
    · have hcf : c.router.links.contains l.sourceLinkId = false := by
        cases hh : c.router.links.contains l.sourceLinkId
        · rfl
        · exact absurd (hcon.1 hh) hin
      simp only [hcf, hin, Bool.false_eq_true, if_false]
      let f : Chip → Chip := fun d =>
        { d with router := { d.router with links := ⟨d.router.links.items ++ [(l.sourceLinkId, l)]⟩ } }
      have hf : ∀ d, (f d).xy = d.xy := fun _ => rfl
      have hset : c.router.links.set l.sourceLinkId l = ⟨c.router.links.items ++ [(l.sourceLinkId, l)]⟩ :=
        PDict.set_of_not_contains _ _ _ hcf
      have hall : ∀ d ∈ s, d.xy = p → d = c := by
        intro d hd hdp
        have := (Chips.at_eq_some_iff r.nodup).2 ⟨hd, hdp⟩
        rw [hc] at this
        exact (Option.some.inj this).symm
      refine ⟨_, rfl, ?_, ⟨rfl, rfl, rfl, rfl, rfl⟩, by simp, by simp, by simp⟩
      constructor
      · simp only [PDict.set]
        rw [r.items]
        have h2 := assign_map_present s r.nodup c f hf hcs
        rw [hcp] at h2
        simp only [f] at h2
        rw [← h2]
        congr 2
        rw [← hset]; rfl
      · rw [map_xy_update s p f hf]; exact r.nodup
      · simp only
        rw [r.eths, List.filter_map]
        have hcomp : ((fun c : Chip => c.ip.isSome) ∘ fun d => if d.xy = p then f d else d) =
            fun c => c.ip.isSome := by
          funext d; simp only [Function.comp, f]; split <;> rfl
        have h2 := hcomp
        simp only [f] at h2
        rw [h2]
        refine List.map_congr_left fun d hd => ?_
        by_cases hdp : d.xy = p
        · have := hall d (List.mem_filter.1 hd).1 hdp
          subst this
          rw [if_pos hdp, if_pos hdp, hset]
        · rw [if_neg hdp, if_neg hdp]
      · have h2 := at_update s p (0, 0) f hf
        simp only [f] at h2
        rw [h2, r.boot]
        cases s.at (0, 0) with
        | none => rfl
        | some d => simp only [Option.bind_some, Option.map_some]; split <;> rfl
      · have h2 : (s.map fun d => if d.xy = p then f d else d).map Chip.nProcessors = s.map Chip.nProcessors := by
          rw [List.map_map]
          exact List.map_congr_left fun d _ => by simp only [Function.comp]; split <;> rfl
        simp only [f] at h2
        rw [h2]; exact r.cores
      · have h2 : (s.map fun d => if d.xy = p then f d else d).map Chip.sdram = s.map Chip.sdram := by
          rw [List.map_map]
          exact List.map_congr_left fun d _ => by simp only [Function.comp]; split <;> rfl
        simp only [f] at h2
        rw [h2]; exact r.sdrams
      · exact r.linksWF
      · have h2 : (s.map fun d => if d.xy = p then f d else d).map (fun c => c.router.nEntries) =
            s.map fun c => c.router.nEntries := by
          rw [List.map_map]
          exact List.map_congr_left fun d _ => by simp only [Function.comp]; split <;> rfl
        simp only [f] at h2
        rw [h2]; exact r.entries

/-! ### adding SpiNNaker and FPGA links -/

/-- only the SpiNNaker link table changes -/
def OnlySpin (m m' : Machine) : Prop := ∃ t, m' = { m with spinLinks := t }
/-- only the FPGA link table changes -/
def OnlyFpga (m m' : Machine) : Prop := ∃ t, m' = { m with fpgaLinks := t }

theorem OnlySpin.trans {a b c : Machine} (h : OnlySpin a b) (h' : OnlySpin b c) : OnlySpin a c := by
  obtain ⟨t, rfl⟩ := h
  obtain ⟨u, rfl⟩ := h'
  exact ⟨u, rfl⟩

theorem OnlyFpga.trans {a b c : Machine} (h : OnlyFpga a b) (h' : OnlyFpga b c) : OnlyFpga a c := by
  obtain ⟨t, rfl⟩ := h
  obtain ⟨u, rfl⟩ := h'
  exact ⟨u, rfl⟩

theorem onlySpin_board (e : Chip) (ip : PyStr) (i : Int) (l : List (Int × Int × Int)) (m : Machine) :
    OnlySpin m (Machine.addSpinnakerLinksBoard e ip i l m) := by
  induction l generalizing i m with
  | nil => exact ⟨m.spinLinks, rfl⟩
  | cons a t ih =>
    obtain ⟨lx, ly, link⟩ := a
    simp only [Machine.addSpinnakerLinksBoard]
    refine OnlySpin.trans ?_ (ih _ _)
    split
    · split
      · exact ⟨_, rfl⟩
      · exact ⟨m.spinLinks, rfl⟩
    · exact ⟨m.spinLinks, rfl⟩

theorem onlySpin (v : Version) (m : Machine) : OnlySpin m (m.addSpinnakerLinks v) := by
  unfold Machine.addSpinnakerLinks
  generalize m.ethernetChips = es
  induction es generalizing m with
  | nil => exact ⟨m.spinLinks, rfl⟩
  | cons e es ih =>
    rw [List.foldl_cons]
    refine OnlySpin.trans ?_ (ih _)
    split
    · exact onlySpin_board _ _ _ _ _
    · exact ⟨m.spinLinks, rfl⟩

theorem onlyFpga_board (e : Chip) (ip : PyStr) (l : List (Int × Int × Int × Int × Int)) (m : Machine) :
    OnlyFpga m (Machine.addFpgaLinksBoard e ip l m) := by
  induction l generalizing m with
  | nil => exact ⟨m.fpgaLinks, rfl⟩
  | cons a t ih =>
    obtain ⟨lx, ly, link, f, fl⟩ := a
    simp only [Machine.addFpgaLinksBoard]
    refine OnlyFpga.trans ?_ (ih _)
    split
    · exact ⟨_, rfl⟩
    · exact ⟨m.fpgaLinks, rfl⟩

theorem onlyFpga (v : Version) (m : Machine) : OnlyFpga m (m.addFpgaLinks v) := by
  unfold Machine.addFpgaLinks
  generalize m.ethernetChips = es
  induction es generalizing m with
  | nil => exact ⟨m.fpgaLinks, rfl⟩
  | cons e es ih =>
    rw [List.foldl_cons]
    refine OnlyFpga.trans ?_ (ih _)
    split
    · exact onlyFpga_board _ _ _ _
    · exact ⟨m.fpgaLinks, rfl⟩

theorem Rep.of_onlySpin {m m' : Machine} {s : Chips} (r : Rep m s) (h : OnlySpin m m') : Rep m' s := by
  obtain ⟨t, rfl⟩ := h
  exact ⟨r.items, r.nodup, r.eths, r.boot, r.cores, r.sdrams, r.linksWF, r.entries⟩

theorem Rep.of_onlyFpga {m m' : Machine} {s : Chips} (r : Rep m s) (h : OnlyFpga m m') : Rep m' s := by
  obtain ⟨t, rfl⟩ := h
  exact ⟨r.items, r.nodup, r.eths, r.boot, r.cores, r.sdrams, r.linksWF, r.entries⟩

/-! ### histories -/

theorem Rep.step {m : Machine} {s : Chips} (r : Rep m s) (v : Version) (o : Op) :
    Rep (Spec.step v m o).1 (absStep s o).1 ∧ (Spec.step v m o).2 = (absStep s o).2 ∧
      SameFrame m (Spec.step v m o).1 ∧
      (o.isAddLink = false → Machine.counterTotal m.nLinks = (s.map fun c => (c.router.len : Int)).sum →
        Machine.counterTotal (Spec.step v m o).1.nLinks =
          ((absStep s o).1.map fun c => (c.router.len : Int)).sum) := by
  cases o with
  | addChip c =>
    have h := r.addChip c
    simp only [Spec.step, absStep]
    cases hm : m.addChip c with
    | ok m' =>
      rw [hm] at h
      simp only at h
      obtain ⟨h1, h2, h3, h4, h5, h6, h7, h8, h9, h10⟩ := h
      rw [h1]
      refine ⟨h2, rfl, ⟨h3, h4, h5, h6, h9⟩, fun _ hl => ?_⟩
      rw [h10, hl]; simp
    | error e =>
      rw [hm] at h
      simp only at h
      rw [h.1]
      exact ⟨r, rfl, SameFrame.refl m, fun _ h => h⟩
  | addChips cs =>
    obtain ⟨h1, h2, h3, -, -, h4⟩ := r.addChips cs
    exact ⟨h1, h2, h3, fun _ => h4⟩
  | addLink p l =>
    have h := r.routerAddLink p l
    simp only [Spec.step, absStep]
    cases hm : m.routerAddLink p l with
    | ok m' =>
      rw [hm] at h
      simp only at h
      obtain ⟨s', h1, h2, h3, -⟩ := h
      rw [h1]
      exact ⟨h2, rfl, h3, fun h => by simp [Op.isAddLink] at h⟩
    | error e =>
      rw [hm] at h
      simp only at h
      rw [h]
      exact ⟨r, rfl, SameFrame.refl m, fun h => by simp [Op.isAddLink] at h⟩
  | addSpinnakerLinks =>
    have h := onlySpin v m
    refine ⟨r.of_onlySpin h, rfl, ?_, fun _ hl => ?_⟩
    · simp only [Spec.step]
      obtain ⟨t, ht⟩ := h
      rw [ht]; exact ⟨rfl, rfl, rfl, rfl, rfl⟩
    · simp only [Spec.step]
      obtain ⟨t, ht⟩ := h
      rw [ht]; exact hl
  | addFpgaLinks =>
    have h := onlyFpga v m
    refine ⟨r.of_onlyFpga h, rfl, ?_, fun _ hl => ?_⟩
    · simp only [Spec.step]
      obtain ⟨t, ht⟩ := h
      rw [ht]; exact ⟨rfl, rfl, rfl, rfl, rfl⟩
    · simp only [Spec.step]
      obtain ⟨t, ht⟩ := h
      rw [ht]; exact hl

theorem Rep.run {m : Machine} {s : Chips} (r : Rep m s) (v : Version) (os : List Op) :
    Rep (Spec.run v m os).1 (absRun s os).1 ∧ (Spec.run v m os).2 = (absRun s os).2 ∧
      SameFrame m (Spec.run v m os).1 ∧
      ((∀ o ∈ os, o.isAddLink = false) →
        Machine.counterTotal m.nLinks = (s.map fun c => (c.router.len : Int)).sum →
        Machine.counterTotal (Spec.run v m os).1.nLinks =
          ((absRun s os).1.map fun c => (c.router.len : Int)).sum) := by
  induction os generalizing m s with
  | nil => exact ⟨r, rfl, SameFrame.refl m, fun _ h => h⟩
  | cons o os ih =>
    obtain ⟨h1, h2, h3, h4⟩ := r.step v o
    obtain ⟨i1, i2, i3, i4⟩ := ih h1
    simp only [Spec.run, absRun]
    refine ⟨i1, by rw [h2, i2], h3.trans i3, fun ho hl => ?_⟩
    exact i4 (fun o' ho' => ho o' (List.mem_cons_of_mem _ ho')) (h4 (ho o List.mem_cons_self) hl)

theorem createMachine_ok {k : VKind} {w h : Int} {o : String} {m : Machine}
    (hm : k.createMachine (some w) (some h) o = .ok m) :
    SizeOK k w h ∧ m = Machine.new (k.wrapFor w h) w h k.chipCoreMap o := by
  unfold VKind.createMachine at hm
  split at hm
  · simp at hm
  · rename_i hv
    obtain ⟨a, b, ha, hb, hs⟩ := (verifySize_iff _ _ _).1 hv
    simp only [Option.some.injEq] at ha hb
    subst ha; subst hb
    simp only [Option.getD_some, Except.ok.injEq] at hm
    exact ⟨hs, hm.symm⟩

/-- everything known of a machine obtained from the API -/
theorem Spec.Reachable.rep {v : Version} {w h : Int} {m : Machine} (hr : Reachable v w h m) :
    SizeOK v.kind w h ∧ m.wrap = v.kind.wrapFor w h ∧ m.width = w ∧ m.height = h ∧
      m.chipCoreMap = v.kind.chipCoreMap ∧ Rep m m.chipList := by
  obtain ⟨o, ops, m₀, h0, rfl⟩ := hr
  obtain ⟨hs, rfl⟩ := createMachine_ok h0
  obtain ⟨h1, h2, ⟨f1, f2, f3, f4, -⟩, -⟩ := (Rep.new (v.kind.wrapFor w h) w h v.kind.chipCoreMap o).run v ops
  refine ⟨hs, f1, f2, f3, f4, ?_⟩
  have := h1.values
  unfold Machine.chipList
  rw [this]; exact h1

end SpiNN
