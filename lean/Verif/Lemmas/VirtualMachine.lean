import Verif.Model.VirtualMachine
import Verif.Props.Machine
import Verif.Lemmas.Links

namespace SpiNN
open Spec Props

namespace PDict
variable {K V : Type} [DecidableEq K]

theorem setAll_items (es : List (K × V)) (d : PDict K V) (hn : (d.keys ++ es.map (·.1)).Nodup) :
    (d.setAll es).items = d.items ++ es := by
  induction es generalizing d with
  | nil => simp [setAll]
  | cons a t ih =>
    have hc : d.contains a.1 = false := by
      rw [contains_false_iff]
      intro h
      rw [List.nodup_append] at hn
      exact hn.2.2 _ h a.1 (by simp) rfl
    have := ih (d.set a.1 a.2) (by
      rw [keys_set_of_not_mem _ _ _ hc]
      simpa using hn)
    rw [setAll, List.foldl_cons, ← setAll, this, set_of_not_contains _ _ _ hc]
    simp

end PDict

theorem nodup_flatMap_of {α β : Type} {f : α → List β} {l : List α} (hl : l.Nodup)
    (hf : ∀ a ∈ l, (f a).Nodup) (hd : ∀ a ∈ l, ∀ b ∈ l, ∀ x, x ∈ f a → x ∈ f b → a = b) :
    (l.flatMap f).Nodup := by
  induction l with
  | nil => simp
  | cons a t ih =>
    rw [List.nodup_cons] at hl
    rw [List.flatMap_cons, List.nodup_append]
    refine ⟨hf a List.mem_cons_self, ih hl.2 (fun b hb => hf b (List.mem_cons_of_mem _ hb))
      (fun b hb c hc => hd b (List.mem_cons_of_mem _ hb) c (List.mem_cons_of_mem _ hc)), ?_⟩
    intro x hx y hy hxy
    subst hxy
    rw [List.mem_flatMap] at hy
    obtain ⟨b, hb, hxb⟩ := hy
    have := hd a List.mem_cons_self b (List.mem_cons_of_mem _ hb) x hx hxb
    subst this
    exact hl.1 hb

/-! ### the chips of a virtual machine -/

/-- position, Ethernet and cores of all places of all boards -/
def vmPlaces (v : Version) (w h : Int) : List (XY × (XY × Int)) :=
  (v.kind.potentialEthernetChips w h).flatMap fun e =>
    v.kind.chipCoreMap.items.map fun ln =>
      ((v.kind.wrapFor w h).red w h (ln.1.1 + e.1, ln.1.2 + e.2), (e, min ln.2 v.maxCores))

/-- those not down -/
def vmEntries (v : Version) (w h : Int) (d : Down) : List (XY × (XY × Int)) :=
  (vmPlaces v w h).filter fun kv => decide (kv.1 ∉ d.chips)

theorem vmPlaces_keys (v : Version) (w h : Int) : (vmPlaces v w h).map (·.1) =
    (v.kind.potentialEthernetChips w h).flatMap fun e =>
      (v.kind.wrapFor w h).xysByEthernet w h v.kind.chipCoreMap e.1 e.2 := by
  simp only [vmPlaces, List.map_flatMap, List.map_map, xysByEthernet_eq, PDict.keys]
  rfl

theorem vmPlaces_nodup {v : Version} {w h : Int} (hs : SizeOK v.kind w h) :
    ((vmPlaces v w h).map (·.1)).Nodup := by
  rw [vmPlaces_keys]
  refine nodup_flatMap_of (nodup_potential _ _ _) (fun e he => nodup_xysByEthernet hs he) ?_
  intro a ha b hb x hxa hxb
  rw [mem_xysByEthernet] at hxa hxb
  obtain ⟨l, hl, rfl⟩ := hxa
  obtain ⟨m, hm, heq⟩ := hxb
  exact (board_unique hs ha hb hl hm heq.symm).1

theorem vmEntries_nodup {v : Version} {w h : Int} (hs : SizeOK v.kind w h) (d : Down) :
    ((vmEntries v w h d).map (·.1)).Nodup :=
  List.Nodup.sublist (List.Sublist.map _ List.filter_sublist) (vmPlaces_nodup hs)

theorem mem_vmEntries (v : Version) (w h : Int) (d : Down) (p e : XY) (n : Int) :
    (p, (e, n)) ∈ vmEntries v w h d ↔ e ∈ v.kind.potentialEthernetChips w h ∧ p ∉ d.chips ∧
      ∃ l c, v.kind.chipCoreMap.get? l = some c ∧ n = min c v.maxCores ∧
        p = (v.kind.wrapFor w h).red w h (l.1 + e.1, l.2 + e.2) := by
  simp only [vmEntries, vmPlaces, List.mem_filter, List.mem_flatMap, List.mem_map, Prod.mk.injEq,
    decide_eq_true_eq]
  constructor
  · rintro ⟨⟨e', he', ⟨l, c⟩, hl, h1, rfl, h3⟩, hd⟩
    exact ⟨he', hd, l, c, (PDict.mem_items_iff (chipCoreMap_WF _) _ _).1 hl, h3.symm, h1.symm⟩
  · rintro ⟨he, hd, l, c, hl, h1, h2⟩
    exact ⟨⟨e, he, (l, c), (PDict.mem_items_iff (chipCoreMap_WF _) _ _).2 hl, h2.symm, rfl, h1.symm⟩, hd⟩

theorem configuredChips_eq {v : Version} {w h : Int} (hs : SizeOK v.kind w h) (d : Down) (o : String) :
    configuredChips v (Machine.new (v.kind.wrapFor w h) w h v.kind.chipCoreMap o) d
      (v.kind.potentialEthernetChips w h) = ⟨vmEntries v w h d⟩ := by
  have inner : ∀ (e : XY) (l : List (XY × Int)) (c : PDict XY (XY × Int)),
      l.foldl (fun conf pn => if pn.1 ∈ d.chips then conf else conf.set pn.1 (e, min pn.2 v.maxCores)) c =
      c.setAll ((l.map fun pn => (pn.1, (e, min pn.2 v.maxCores))).filter fun kv => decide (kv.1 ∉ d.chips)) := by
    intro e l
    induction l with
    | nil => intro c; rfl
    | cons a t ih =>
      intro c
      rw [List.foldl_cons, List.map_cons]
      by_cases ha : a.1 ∈ d.chips
      · rw [if_pos ha, ih, List.filter_cons_of_neg (by simpa using ha)]
      · rw [if_neg ha, ih, List.filter_cons_of_pos (by simpa using ha)]
        rfl
  have outer : ∀ (es : List XY) (c : PDict XY (XY × Int)),
      es.foldl (fun conf e => ((Machine.new (v.kind.wrapFor w h) w h v.kind.chipCoreMap o).xyCoresByEthernet
        e.1 e.2).foldl (fun conf pn => if pn.1 ∈ d.chips then conf else
          conf.set pn.1 (e, min pn.2 v.maxCores)) conf) c =
      c.setAll ((es.flatMap fun e => v.kind.chipCoreMap.items.map fun ln =>
        ((v.kind.wrapFor w h).red w h (ln.1.1 + e.1, ln.1.2 + e.2), (e, min ln.2 v.maxCores))).filter
          fun kv => decide (kv.1 ∉ d.chips)) := by
    intro es
    induction es with
    | nil => intro c; rfl
    | cons e t ih =>
      intro c
      rw [List.foldl_cons, ih, inner, List.flatMap_cons, List.filter_append, PDict.setAll_append]
      congr 2
      rw [Machine.xyCoresByEthernet, xyCoresByEthernet_eq, List.map_map]
      rfl
  have := outer (v.kind.potentialEthernetChips w h) .empty
  unfold configuredChips
  rw [this]
  have hi := PDict.setAll_items (vmEntries v w h d) (.empty : PDict XY (XY × Int))
    (by simpa [PDict.keys, PDict.empty] using vmEntries_nodup hs d)
  have : ∀ (x : PDict XY (XY × Int)) l, x.items = l → x = ⟨l⟩ := fun x l h => by cases x; simp_all
  exact this _ _ (hi.trans rfl)

/-- the links out of a place -/
def vmLinks (v : Version) (w h : Int) (d : Down) (p : XY) : List Link :=
  allDirs.filterMap fun dir =>
    let q := (v.kind.wrapFor w h).red w h (p.1 + dir.dx, p.2 + dir.dy)
    if (p.1, p.2, dir.id) ∉ d.links ∧ q ∈ (vmEntries v w h d).map (·.1) then
      some { sourceX := p.1, sourceY := p.2, sourceLinkId := dir.id, destX := q.1, destY := q.2 }
    else none

theorem calculateLinks_eq {v : Version} {w h : Int} (hs : SizeOK v.kind w h) (d : Down) (p : XY)
    {m : Machine} (hm : m.wrap = v.kind.wrapFor w h) (hw : m.width = w) (hh : m.height = h) :
    calculateLinks m d ⟨vmEntries v w h d⟩ p (pyRange 6) = .ok (vmLinks v w h d p) := by
  have hpos := hs.pos
  subst hw; subst hh
  rw [range6_eq]
  unfold vmLinks
  generalize allDirs = ds
  induction ds with
  | nil => rfl
  | cons a t ih =>
    rw [List.map_cons, calculateLinks, ih, List.filterMap_cons]
    by_cases hl : (p.1, p.2, a.id) ∈ d.links
    · rw [if_pos hl]
      simp [hl]
    · rw [if_neg hl, xyOverLink_dir m hpos.1 hpos.2]
      simp only [PDict.contains_iff, hm, hl, not_false_iff, true_and, PDict.keys]
      split <;> rfl

theorem vmLinks_nodup (v : Version) (w h : Int) (d : Down) (p : XY) :
    ((vmLinks v w h d p).map Link.sourceLinkId).Nodup := by
  have h1 : ((vmLinks v w h d p).map Link.sourceLinkId).Sublist (allDirs.map Dir.id) := by
    unfold vmLinks
    generalize allDirs = ds
    induction ds with
    | nil => simp
    | cons a t ih =>
      rw [List.filterMap_cons]
      split
      · exact ih.cons _
      · rename_i hb
        simp only at hb
        split at hb
        · simp only [Option.some.injEq] at hb
          subst hb
          simp only [List.map_cons]
          exact ih.cons_cons _
        · simp at hb
  exact h1.nodup (by decide)

/-- the chip at a place -/
def vmChip (v : Version) (w h : Int) (d : Down) (kv : XY × (XY × Int)) : Chip :=
  Chip.mk' kv.1.1 kv.1.2 [0] (chipCores d kv.1 kv.2.2)
    { links := ⟨(vmLinks v w h d kv.1).map fun l => (l.sourceLinkId, l)⟩
      nEntries := v.kind.nRouterEntries }
    v.maxSdram kv.2.1.1 kv.2.1.2
    (if kv.1 ∈ v.kind.potentialEthernetChips w h then some (virtualIp kv.1) else none) none none

theorem createChip_eq {v : Version} {w h : Int} (hs : SizeOK v.kind w h) (d : Down)
    {m : Machine} (hm : m.wrap = v.kind.wrapFor w h) (hw : m.width = w) (hh : m.height = h)
    (kv : XY × (XY × Int)) (hkv : kv ∈ vmEntries v w h d) :
    createChip v m d ⟨vmEntries v w h d⟩ kv.1
      (if kv.1 ∈ v.kind.potentialEthernetChips w h then some (virtualIp kv.1) else none) =
      .ok (vmChip v w h d kv) := by
  unfold createChip
  rw [calculateLinks_eq hs d kv.1 hm hw hh]
  simp only
  obtain ⟨r, hr, -, hi, hn⟩ := (C63_constructor v.kind.nRouterEntries (vmLinks v w h d kv.1)).1
    (vmLinks_nodup v w h d kv.1)
  rw [hr]
  have hg : (⟨vmEntries v w h d⟩ : PDict XY (XY × Int)).getE kv.1 = .ok kv.2 := by
    rw [PDict.getE_eq_ok_iff]
    exact PDict.lookup_of_mem (vmEntries_nodup hs d) hkv
  rw [hg]
  simp only [vmChip]
  have : r = { links := ⟨(vmLinks v w h d kv.1).map fun l => (l.sourceLinkId, l)⟩
               nEntries := v.kind.nRouterEntries } := by
    obtain ⟨⟨it⟩, ne⟩ := r
    simp only [Router.iter] at hi hn
    rw [hi, hn]
  rw [this]

/-- all the chips -/
def vmChips (v : Version) (w h : Int) (d : Down) : List Chip :=
  (vmEntries v w h d).map (vmChip v w h d)

theorem vmChip_xy (v : Version) (w h : Int) (d : Down) (kv : XY × (XY × Int)) :
    (vmChip v w h d kv).xy = kv.1 := rfl

theorem vmChips_xy (v : Version) (w h : Int) (d : Down) :
    (vmChips v w h d).map Chip.xy = (vmEntries v w h d).map (·.1) := by
  simp only [vmChips, List.map_map]
  rfl

theorem addConfigured_eq {v : Version} {w h : Int} (hs : SizeOK v.kind w h) (d : Down)
    (es : List (XY × (XY × Int))) (hes : ∀ kv ∈ es, kv ∈ vmEntries v w h d) {m : Machine} {s : Chips}
    (r : Rep m s)
    (hm : m.wrap = v.kind.wrapFor w h) (hw : m.width = w) (hh : m.height = h)
    (hn : (s.map Chip.xy ++ es.map (·.1)).Nodup) :
    ∃ m', m.addChips (es.map (vmChip v w h d)) = (m', none) ∧
      addConfigured v d (v.kind.potentialEthernetChips w h) ⟨vmEntries v w h d⟩ (es.map (·.1)) m = .ok m' ∧
      Rep m' (s ++ es.map (vmChip v w h d)) := by
  induction es generalizing m s with
  | nil => exact ⟨m, rfl, rfl, by simpa using r⟩
  | cons kv t ih =>
    have ha := r.addChip (vmChip v w h d kv)
    have hnot : kv.1 ∉ s.map Chip.xy := by
      intro hmem
      rw [List.nodup_append] at hn
      exact hn.2.2 _ hmem kv.1 (by simp) rfl
    have hadd : s.add (vmChip v w h d kv) = (s ++ [vmChip v w h d kv], none) := by
      unfold Chips.add
      rw [if_neg (by rw [Chips.at_isSome_iff]; exact hnot)]
    rw [hadd] at ha
    simp only [List.map_cons, Machine.addChips, addConfigured]
    rw [createChip_eq hs d hm hw hh kv (hes kv List.mem_cons_self)]
    simp only
    cases hac : m.addChip (vmChip v w h d kv) with
    | error e => rw [hac] at ha; simp at ha
    | ok m1 =>
      rw [hac] at ha
      simp only at ha
      obtain ⟨-, h2, h3, h4, h5, -⟩ := ha
      obtain ⟨m', i1, i2, i3⟩ := ih (fun kv h => hes kv (List.mem_cons_of_mem _ h)) h2
        (h3.trans hm) (h4.trans hw) (h5.trans hh) (by
          simpa [vmChip_xy] using hn)
      exact ⟨m', i1, i2, by simpa using i3⟩

/-- the machine a virtual machine is, apart from validation -/
theorem vm_build {v : Version} {w h : Int} (hs : SizeOK v.kind w h) (cfg : DownCfg) (d : Down)
    (hd : Down.read v cfg w = .ok d) :
    ∃ m, Reachable v w h m ∧ m.chipList = vmChips v w h d ∧
      (∃ o, v.kind.createMachine (some w) (some h) "Virtual" = .ok o ∧
        m = (Spec.run v o [.addChips (vmChips v w h d), .addSpinnakerLinks, .addFpgaLinks]).1) ∧
      ∀ validate : Bool, virtualMachine v cfg w h validate =
        if validate then
          match m.validate v with
          | .error e => .error e
          | .ok () => .ok m
        else .ok m := by
  have hv : v.kind.verifySize (some w) (some h) = .ok () :=
    (verifySize_iff _ _ _).2 ⟨w, h, rfl, rfl, hs⟩
  have hc : v.kind.createMachine (some w) (some h) "Virtual" =
      .ok (Machine.new (v.kind.wrapFor w h) w h v.kind.chipCoreMap "Virtual") := by
    unfold VKind.createMachine; rw [hv]; rfl
  obtain ⟨m', h1, h2, h3⟩ := addConfigured_eq hs d (vmEntries v w h d) (fun _ h => h)
    (Rep.new (v.kind.wrapFor w h) w h v.kind.chipCoreMap "Virtual") rfl rfl rfl
    (by simpa using vmEntries_nodup hs d)
  have hrun : (Spec.run v (Machine.new (v.kind.wrapFor w h) w h v.kind.chipCoreMap "Virtual")
      [.addChips (vmChips v w h d), .addSpinnakerLinks, .addFpgaLinks]).1 =
      (m'.addSpinnakerLinks v).addFpgaLinks v := by
    simp only [Spec.run, Spec.step]
    rw [vmChips, h1]
  refine ⟨(m'.addSpinnakerLinks v).addFpgaLinks v, ⟨"Virtual", _, _, hc, hrun.symm⟩, ?_, ⟨_, hc, hrun.symm⟩, ?_⟩
  · have h4 := (h3.of_onlySpin (onlySpin v m')).of_onlyFpga (onlyFpga v _)
    have := h4.values
    simpa [Machine.chipList, vmChips] using this
  · intro validate
    unfold virtualMachine
    rw [hv, hc, hd]
    simp only
    rw [configuredChips_eq hs]
    simp only [PDict.keys]
    rw [h2]
    cases validate
    · rfl
    · simp only [if_true]
      cases Machine.validate v (Machine.addFpgaLinks v (Machine.addSpinnakerLinks v m')) <;> rfl

theorem vm_ok {v : Version} {cfg : DownCfg} {w h : Int} {validate : Bool} {m : Machine}
    (hm : virtualMachine v cfg w h validate = .ok m) :
    SizeOK v.kind w h ∧ ∃ d, Down.read v cfg w = .ok d ∧ Reachable v w h m ∧
      m.chipList = vmChips v w h d ∧ (∃ o, v.kind.createMachine (some w) (some h) "Virtual" = .ok o ∧
        m = (Spec.run v o [.addChips (vmChips v w h d), .addSpinnakerLinks, .addFpgaLinks]).1) ∧
      (validate = true → m.validate v = .ok ()) := by
  have hm' := hm
  unfold virtualMachine at hm'
  cases hv : v.kind.verifySize (some w) (some h) with
  | error e => rw [hv] at hm'; simp at hm'
  | ok u =>
    obtain ⟨a, b, ha, hb, hs⟩ := (verifySize_iff _ _ _).1 hv
    simp only [Option.some.injEq] at ha hb
    subst ha; subst hb
    rw [hv] at hm'
    cases hc : v.kind.createMachine (some w) (some h) "Virtual" with
    | error e => rw [hc] at hm'; simp at hm'
    | ok m0 =>
      rw [hc] at hm'
      cases hd : Down.read v cfg w with
      | error e => rw [hd] at hm'; simp at hm'
      | ok d =>
        obtain ⟨m1, h1, h2, h3, h4⟩ := vm_build hs cfg d hd
        rw [h4] at hm
        refine ⟨hs, d, rfl, ?_⟩
        rw [hc] at h3
        cases validate with
        | false =>
          simp only [Bool.false_eq_true, if_false, Except.ok.injEq] at hm
          subst hm
          exact ⟨h1, h2, h3, by simp⟩
        | true =>
          simp only [if_true] at hm
          cases hval : m1.validate v with
          | error e => rw [hval] at hm; simp at hm
          | ok u =>
            rw [hval] at hm
            simp only [Except.ok.injEq] at hm
            subst hm
            exact ⟨h1, h2, h3, fun _ => hval⟩

end SpiNN
