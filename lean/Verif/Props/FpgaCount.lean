import Verif.Props.LinkHistory
import Verif.Props.VirtualMachine
-- imported only so that the modules which need much memory are built one after another
import Verif.Props.Factory

/-! C108: what `n_fpga_links` counts. -/

namespace SpiNN.Props
open SpiNN SpiNN.Spec

/-- where the chip of a row of the FPGA table is on the board of `e` -/
private def rowPlace (m : Machine) (e : Chip) (a : Int × Int × Int × Int × Int) : XY :=
  m.getGlobalXY a.1 a.2.1 e.x e.y

/-- the FPGA links of the board whose Ethernet chip is `e`: the rows of the table whose chip the machine has -/
def boardRows (k : VKind) (m : Machine) (e : Chip) : List (Int × Int × Int × Int × Int) :=
  k.fpgaLinks.filter fun a => m.isChipAt (m.getGlobalXY a.1 a.2.1 e.x e.y).1 (m.getGlobalXY a.1 a.2.1 e.x e.y).2

private def rowKeys (m : Machine) (e : Chip) (ip : PyStr) (a : Int × Int × Int × Int × Int) :
    List (BoardKey × Int × Int) :=
  if a.1 = 0 ∧ a.2.1 = 0 then [(.addr ip, a.2.2.2.1, a.2.2.2.2), (.xy e.xy, a.2.2.2.1, a.2.2.2.2)]
  else [(.addr ip, a.2.2.2.1, a.2.2.2.2), (.xy (rowPlace m e a), a.2.2.2.1, a.2.2.2.2),
    (.xy e.xy, a.2.2.2.1, a.2.2.2.2)]

private def boardKeys (k : VKind) (m : Machine) (e : Chip) : List (BoardKey × Int × Int) :=
  match e.ip with
  | some ip => (boardRows k m e).flatMap (rowKeys m e ip)
  | none => []

private theorem setAll_WF' {K V : Type} [DecidableEq K] : ∀ (es : List (K × V)) (d : PDict K V), d.WF → (d.setAll es).WF
  | [], _, h => h
  | _ :: es, _, h => setAll_WF' es _ (h.set _ _)

section
variable {v : Version} {w h : Int} {m : Machine}

private theorem place_place (hr : Reachable v w h m) (hp : WellPlaced v.kind w h m) {e e' : Chip}
    (he : e ∈ m.ethernetChips) (he' : e' ∈ m.ethernetChips) {lx ly lx' ly' : Int}
    (hl : OnBoard v.kind (lx, ly)) (hl' : OnBoard v.kind (lx', ly'))
    (heq : m.getGlobalXY lx ly e.x e.y = m.getGlobalXY lx' ly' e'.x e'.y) : e = e' ∧ (lx, ly) = (lx', ly') := by
  obtain ⟨hs, hwr, hw, hh, -, r⟩ := hr.rep
  simp only [Machine.getGlobalXY, Wrap.globalXY_eq, hwr, hw, hh] at heq
  have p1 := hp.2 e he
  have p2 := hp.2 e' he'
  obtain ⟨q1, q2⟩ := ethPos_unique hs p1.1 p1.2 p2.1 p2.2 hl hl' heq
  exact ⟨ethChip_eq r he he' q1, q2⟩

private theorem place_origin (hr : Reachable v w h m) (hp : WellPlaced v.kind w h m) {e : Chip}
    (he : e ∈ m.ethernetChips) : m.getGlobalXY 0 0 e.x e.y = e.xy := by
  obtain ⟨hs, hwr, hw, hh, -, r⟩ := hr.rep
  simp only [Machine.getGlobalXY, Wrap.globalXY_eq, hwr, hw, hh, Int.zero_add]
  have g := (hp.2 e he).2
  refine Wrap.red_of_inRange _ ⟨fun _ => ⟨g.1, g.2.1⟩, fun _ => ⟨g.2.2.1, g.2.2.2⟩⟩

private theorem mem_rowKeys (hr : Reachable v w h m) (hp : WellPlaced v.kind w h m) {e : Chip}
    (he : e ∈ m.ethernetChips) (ip : PyStr) (a : Int × Int × Int × Int × Int) (key : BoardKey × Int × Int) :
    key ∈ rowKeys m e ip a ↔ key.2 = (a.2.2.2.1, a.2.2.2.2) ∧
      (key.1 = .addr ip ∨ key.1 = .xy (m.getGlobalXY a.1 a.2.1 e.x e.y) ∨ key.1 = .xy e.xy) := by
  obtain ⟨key, f, fl⟩ := key
  unfold rowKeys
  split
  · rename_i h0
    rw [h0.1, h0.2, place_origin hr hp he]
    simp only [List.mem_cons, List.not_mem_nil, or_false, Prod.mk.injEq]
    constructor
    · rintro (⟨h1, h2, h3⟩ | ⟨h1, h2, h3⟩) <;> simp [h1, h2, h3]
    · rintro ⟨⟨h1, h2⟩, h3 | h3 | h3⟩ <;> simp [h1, h2, h3]
  · simp only [List.mem_cons, List.not_mem_nil, or_false, Prod.mk.injEq, rowPlace]
    constructor
    · rintro (⟨h1, h2, h3⟩ | ⟨h1, h2, h3⟩ | ⟨h1, h2, h3⟩) <;> simp [h1, h2, h3]
    · rintro ⟨⟨h1, h2⟩, h3 | h3 | h3⟩ <;> simp [h1, h2, h3]

/-- keys of different boards differ -/
private theorem keys_board (hr : Reachable v w h m) (hp : WellPlaced v.kind w h m) {e e' : Chip}
    (he : e ∈ m.ethernetChips) (he' : e' ∈ m.ethernetChips) {key : BoardKey × Int × Int}
    (h1 : key ∈ boardKeys v.kind m e) (h2 : key ∈ boardKeys v.kind m e') : e = e' := by
  unfold boardKeys at h1 h2
  cases hip : e.ip with
  | none => simp [hip] at h1
  | some ip =>
  cases hip' : e'.ip with
  | none => simp [hip'] at h2
  | some ip' =>
  simp only [hip, hip', List.mem_flatMap] at h1 h2
  obtain ⟨a, ha, h1⟩ := h1
  obtain ⟨a', ha', h2⟩ := h2
  rw [mem_rowKeys hr hp he] at h1
  rw [mem_rowKeys hr hp he'] at h2
  have hon := fpga_onBoard v.kind a (List.mem_filter.1 ha).1
  have hon' := fpga_onBoard v.kind a' (List.mem_filter.1 ha').1
  have ho := onBoard_origin v.kind
  have r := hr.rep.2.2.2.2.2
  rcases h1.2 with h1 | h1 | h1 <;> rcases h2.2 with h2 | h2 | h2 <;> rw [h1] at h2 <;> try cases h2
  · exact hp.1 e he e' he' (hip.trans hip'.symm)
  · exact (place_place hr hp he he' hon hon' (BoardKey.xy.inj h2)).1
  · exact (place_place hr hp he he' hon ho ((BoardKey.xy.inj h2).trans (place_origin hr hp he').symm)).1
  · exact (place_place hr hp he he' ho hon' ((place_origin hr hp he).trans (BoardKey.xy.inj h2))).1
  · exact ethChip_eq r he he' (BoardKey.xy.inj h2)

private theorem nodup_rowKeys (hr : Reachable v w h m) (hp : WellPlaced v.kind w h m) {e : Chip}
    (he : e ∈ m.ethernetChips) (ip : PyStr) {a : Int × Int × Int × Int × Int} (ha : a ∈ v.kind.fpgaLinks) :
    (rowKeys m e ip a).Nodup := by
  unfold rowKeys
  split
  · simp
  · rename_i h0
    have : rowPlace m e a ≠ e.xy := by
      intro heq
      have := (place_place hr hp he he (fpga_onBoard _ a ha) (onBoard_origin _)
        (heq.trans (place_origin hr hp he).symm)).2
      exact h0 ⟨congrArg Prod.fst this, congrArg Prod.snd this⟩
    simp [this]

private theorem nodup_fpga (k : VKind) : k.fpgaLinks.Nodup := by cases k <;> decide +kernel

private theorem nodup_keys (hr : Reachable v w h m) (hp : WellPlaced v.kind w h m) :
    (m.ethernetChips.flatMap (boardKeys v.kind m)).Nodup := by
  have r := hr.rep.2.2.2.2.2
  have hn : m.ethernetChips.Nodup := by
    rw [r.eths]
    refine List.Nodup.sublist List.filter_sublist ?_
    have := r.nodup
    rw [List.Nodup, List.pairwise_map] at this
    exact this.imp fun h1 h2 => h1 (congrArg Chip.xy h2)
  rw [List.Nodup, List.pairwise_flatMap]
  refine ⟨fun e he => ?_, ?_⟩
  · unfold boardKeys
    cases hip : e.ip with
    | none => exact .nil
    | some ip =>
      simp only
      rw [List.pairwise_flatMap]
      refine ⟨fun a ha => nodup_rowKeys hr hp he ip (List.mem_filter.1 ha).1, ?_⟩
      have hnr : (boardRows v.kind m e).Nodup := (nodup_fpga v.kind).sublist List.filter_sublist
      refine List.Pairwise.imp_of_mem ?_ hnr
      intro a b ha hb hab x hx y hy hxy
      subst hxy
      rw [mem_rowKeys hr hp he] at hx hy
      exact hab (fpga_unique v.kind (List.mem_filter.1 ha).1 (List.mem_filter.1 hb).1 (hx.1.symm.trans hy.1))
  · refine List.Pairwise.imp_of_mem ?_ hn
    intro e e' he he' hne x hx y hy hxy
    subst hxy
    exact hne (keys_board hr hp he he' hx hy)

private theorem mem_keys (hr : Reachable v w h m) (hp : WellPlaced v.kind w h m) (hemp : m.fpgaLinks = .empty)
    (key : BoardKey × Int × Int) :
    key ∈ (m.addFpgaLinks v).fpgaLinks.keys ↔ key ∈ m.ethernetChips.flatMap (boardKeys v.kind m) := by
  obtain ⟨key, f, fl⟩ := key
  rw [PDict.mem_keys_iff]
  simp only [fpga_table hr hp hemp, List.mem_flatMap]
  constructor
  · rintro ⟨d, b, exy, ⟨e, he, hip, rfl, lx, ly, link, ha, h1, h2, h3, h4, h5, h6⟩, hk⟩
    refine ⟨e, he, ?_⟩
    unfold boardKeys
    simp only [hip, List.mem_flatMap]
    refine ⟨(lx, ly, link, f, fl), List.mem_filter.2 ⟨ha, ?_⟩, ?_⟩
    · simp only [← h2]; exact h1
    · rw [mem_rowKeys hr hp he]
      simp only [← h2, true_and]
      exact hk
  · rintro ⟨e, he, hk⟩
    unfold boardKeys at hk
    cases hip : e.ip with
    | none => simp [hip] at hk
    | some ip =>
    simp only [hip, List.mem_flatMap] at hk
    obtain ⟨a, ha, hk⟩ := hk
    rw [mem_rowKeys hr hp he] at hk
    obtain ⟨ha, hpres⟩ := List.mem_filter.1 ha
    obtain ⟨hf, hk⟩ := hk
    simp only [Prod.mk.injEq] at hf
    obtain ⟨rfl, rfl⟩ := hf
    exact ⟨⟨a.2.2.2.2, a.2.2.2.1, (m.getGlobalXY a.1 a.2.1 e.x e.y).1, (m.getGlobalXY a.1 a.2.1 e.x e.y).2,
      a.2.2.1, ip⟩, ip, e.xy, ⟨e, he, hip, rfl, a.1, a.2.1, a.2.2.1, ha, hpres, rfl, rfl, rfl, rfl, rfl⟩, hk⟩

private theorem length_rows (m : Machine) (e : Chip) (ip : PyStr) (l : List (Int × Int × Int × Int × Int)) :
    ((l.flatMap (rowKeys m e ip)).length : Int) + (l.countP fun a => decide (a.1 = 0 ∧ a.2.1 = 0)) = 3 * l.length := by
  induction l with
  | nil => rfl
  | cons a t ih =>
    rw [List.flatMap_cons, List.length_append, List.countP_cons, List.length_cons]
    unfold rowKeys at ih ⊢
    by_cases h0 : a.1 = 0 ∧ a.2.1 = 0
    · rw [if_pos h0, if_pos (decide_eq_true h0)]
      simp only [List.length_cons, List.length_nil]
      omega
    · rw [if_neg h0, if_neg (by simpa using h0)]
      simp only [List.length_cons, List.length_nil]
      omega

/-- C108: after the FPGA links of a machine have been added, `n_fpga_links` is three times the number of FPGA
links less three for each board. -/
theorem C108_n_fpga_links (hk : v.kind = .v5) (hr : Reachable v w h m) (hp : WellPlaced v.kind w h m)
    (hemp : m.fpgaLinks = .empty) :
    ((m.addFpgaLinks v).nFpgaLinks : Int) =
      3 * (m.ethernetChips.map fun e => ((boardRows v.kind m e).length : Int)).sum - 3 * m.ethernetChips.length := by
  have r := hr.rep.2.2.2.2.2
  have hwf : (m.addFpgaLinks v).fpgaLinks.keys.Nodup := by
    rw [addFpgaLinks_eq]
    exact setAll_WF' _ _ (by rw [hemp]; exact PDict.WF_empty)
  have hperm := (List.perm_ext_iff_of_nodup hwf (nodup_keys hr hp)).2 (mem_keys hr hp hemp)
  have hlen : (m.addFpgaLinks v).nFpgaLinks = (m.ethernetChips.flatMap (boardKeys v.kind m)).length := by
    rw [← hperm.length_eq]
    simp [Machine.nFpgaLinks, PDict.size, PDict.keys]
  have hone : ∀ e ∈ m.ethernetChips, ((boardKeys v.kind m e).length : Int) = 3 * (boardRows v.kind m e).length - 3 := by
    intro e he
    have hmem := he
    rw [r.eths, List.mem_filter] at hmem
    cases hip : e.ip with
    | none => rw [hip] at hmem; simp at hmem
    | some ip =>
    unfold boardKeys
    simp only [hip]
    have h1 := length_rows m e ip (boardRows v.kind m e)
    have h2 : (boardRows v.kind m e).countP (fun a => decide (a.1 = 0 ∧ a.2.1 = 0)) = 3 := by
      unfold boardRows
      rw [List.countP_filter]
      have h3 : v.kind.fpgaLinks.countP (fun a => decide (a.1 = 0 ∧ a.2.1 = 0)) = 3 := by rw [hk]; decide +kernel
      rw [← h3]
      refine List.countP_congr fun a _ => ?_
      simp only [Bool.and_eq_true, decide_eq_true_eq, and_iff_left_iff_imp]
      rintro ⟨h4, h5⟩
      rw [h4, h5, place_origin hr hp he, isChipAt_iff r]
      exact List.mem_map_of_mem hmem.1
    omega
  rw [hlen]
  generalize m.ethernetChips = es at hone
  induction es with
  | nil => rfl
  | cons e t ih =>
    rw [List.flatMap_cons, List.length_append, Int.natCast_add, hone e (by simp), ih fun e' he' => hone e' (by simp [he']),
      List.map_cons, List.sum_cons, List.length_cons]
    omega

/-- C108: the other versions have none. -/
theorem C108_others (hk : v.kind ≠ .v5) (hemp : m.fpgaLinks = .empty) : (m.addFpgaLinks v).nFpgaLinks = 0 := by
  have h0 : v.kind.fpgaLinks = [] := C29_only_v5 _ hk
  rw [addFpgaLinks_eq, hemp]
  have : fpgaEntries v.kind m m.ethernetChips = [] := by
    unfold fpgaEntries
    rw [h0]
    simp only [List.flatMap_nil]
    rw [List.flatMap_eq_nil_iff]
    intro e _
    cases e.ip <;> rfl
  rw [this]
  rfl
end

/-- C108: and so for the virtual machines, whatever is down. -/
theorem C108_virtual (v : Version) (hk : v.kind = .v5) (cfg : DownCfg) (w h : Int) (validate : Bool) (m : Machine)
    (hm : virtualMachine v cfg w h validate = .ok m) :
    (m.nFpgaLinks : Int) =
      3 * (m.ethernetChips.map fun e => ((boardRows v.kind m e).length : Int)).sum - 3 * m.ethernetChips.length := by
  obtain ⟨hs, d, -, hr, -, ⟨o, ho, g0⟩, -⟩ := vm_ok hm
  have hp := C30_well_placed v cfg w h validate m hm
  have h0 := (C27_no_links_at_first v _ _ "Virtual" o ho [.addChips (vmChips v w h d)]
    (by simp [noLinkTables])).2
  let m1 := (run v o [.addChips (vmChips v w h d), .addSpinnakerLinks]).1
  have hemp : m1.fpgaLinks = .empty := by
    show ((run v o [.addChips (vmChips v w h d)]).1.addSpinnakerLinks v).fpgaLinks = .empty
    rw [addSpinnakerLinks_eq]
    exact h0
  have hm1 : m = m1.addFpgaLinks v := g0
  have hr1 : Reachable v w h m1 := ⟨"Virtual", _, o, ho, rfl⟩
  have he : m.ethernetChips = m1.ethernetChips := by rw [hm1, addFpgaLinks_eq]
  have hrows : ∀ e, boardRows v.kind m e = boardRows v.kind m1 e := by
    intro e; rw [hm1, addFpgaLinks_eq]; rfl
  have := C108_n_fpga_links hk hr1 (by unfold WellPlaced at hp ⊢; rwa [he] at hp) hemp
  rw [← hm1] at this
  rw [this, he]
  simp only [hrows]

/-- C108: with all its chips a board has 48 FPGA links, and 141 are counted. -/
theorem C108_all_chips (v : Version) (hk : v.kind = .v5) (cfg : DownCfg) (w h : Int) (validate : Bool) (m : Machine)
    (hm : virtualMachine v cfg w h validate = .ok m) (hnc : ∀ p, ¬ ChipDown cfg p) :
    (∀ e ∈ m.ethernetChips, (boardRows v.kind m e).length = 48) ∧
      m.nFpgaLinks = 141 * (v.kind.potentialEthernetChips w h).length := by
  have hv := C108_virtual v hk cfg w h validate m hm
  have hl := (C35_chips v cfg w h validate m hm hnc).2
  have hone : ∀ e ∈ m.ethernetChips, (boardRows v.kind m e).length = 48 := by
    obtain ⟨hs, hr, hwr, hw, hh, hcc, r, d, hd, hcl⟩ := vm_facts hm
    have hpos := hs.pos
    intro e he
    rw [r.eths, List.mem_filter] at he
    have hpot : e.xy ∈ v.kind.potentialEthernetChips w h := by
      refine Classical.byContradiction fun hn => ?_
      have := ((C30_addresses v cfg w h validate m hm).1 e he.1).2 hn
      rw [this] at he
      simp at he
    have h48 : v.kind.fpgaLinks.length = 48 := by rw [hk]; decide +kernel
    rw [← h48, boardRows, List.filter_eq_self.2]
    intro a ha
    rw [isChipAt_iff r, hcl, vmChips_xy, mem_vm_keys hs]
    refine ⟨fun h => hnc _ (((down_spec hs hd).1 _).1 h), e.xy, hpot, ?_, (a.1, a.2.1), fpga_onBoard _ a ha, ?_⟩
    · simp only [Machine.getGlobalXY, Wrap.globalXY_eq, hwr, hw, hh]
      exact Wrap.red_inRange _ hpos.1 hpos.2 _
    · rw [← Wrap.red_eq_iff _ hpos.1 hpos.2]
      · simp only [Machine.getGlobalXY, Wrap.globalXY_eq, hwr, hw, hh, Chip.xy]
        exact congrArg _ (Prod.ext (Int.add_comm _ _) (Int.add_comm _ _))
      · simp only [Machine.getGlobalXY, Wrap.globalXY_eq, hwr, hw, hh]
        exact Wrap.red_inRange _ hpos.1 hpos.2 _
  refine ⟨hone, ?_⟩
  have hsum : ((m.ethernetChips.map fun e => ((boardRows v.kind m e).length : Int)).sum) = 48 * m.ethernetChips.length := by
    generalize m.ethernetChips = es at hone
    induction es with
    | nil => rfl
    | cons e t ih =>
      rw [List.map_cons, List.sum_cons, hone e (by simp), ih fun e' he' => hone e' (by simp [he']), List.length_cons]
      omega
  rw [← hl]
  omega

example : ∃ m, virtualMachine exV5 {} 16 16 false = .ok m ∧ m.nFpgaLinks = 423 := by
  obtain ⟨m, hm⟩ := (C30_succeeds exV5 {} 16 16).1 (by decide) (readable_default .v5)
  refine ⟨m, hm, ((C108_all_chips exV5 rfl {} 16 16 false m hm (default_not_down VKind.v5).1).2).trans ?_⟩
  decide +kernel

end SpiNN.Props
