import Verif.Props.DownSets
import Verif.Props.RepairSucceeds
import Verif.Props.Stages

/-!
# C91 Down settings of a virtual machine, or removing the same parts later
-/

namespace SpiNN.Props
open SpiNN Spec

/-! ### the origin of a machine is only carried along -/

private def orig (o : String) (m : Machine) : Machine := { m with origin := o }

private theorem addChip_orig (o : String) (m : Machine) (c : Chip) :
    (orig o m).addChip c = match m.addChip c with
      | .error e => .error e
      | .ok m' => .ok (orig o m') := by
  unfold Machine.addChip orig
  by_cases h : m.chips.contains c.xy = true <;> simp [h]

private theorem addChips_orig (o : String) (cs : List Chip) : ∀ m : Machine,
    (orig o m).addChips cs = (orig o (m.addChips cs).1, (m.addChips cs).2) := by
  induction cs with
  | nil => intro m; rfl
  | cons c cs ih =>
    intro m
    unfold Machine.addChips
    rw [addChip_orig]
    cases h : m.addChip c with
    | error e => rfl
    | ok m' => exact ih m'

private theorem spinBoard_orig (o : String) (e : Chip) (ip : PyStr) (l : List (Int × Int × Int)) :
    ∀ (i : Int) (m : Machine), Machine.addSpinnakerLinksBoard e ip i l (orig o m) =
      orig o (Machine.addSpinnakerLinksBoard e ip i l m) := by
  induction l with
  | nil => intro i m; rfl
  | cons a l ih =>
    intro i m
    obtain ⟨lx, ly, link⟩ := a
    unfold Machine.addSpinnakerLinksBoard
    have hg : (orig o m).getGlobalXY lx ly e.x e.y = m.getGlobalXY lx ly e.x e.y := rfl
    have hat : ∀ x y, (orig o m).getChipAt x y = m.getChipAt x y := fun _ _ => rfl
    simp only [hg, hat]
    rw [← ih]
    refine congrArg _ ?_
    split
    · split <;> rfl
    · rfl

private theorem fpgaBoard_orig (o : String) (e : Chip) (ip : PyStr) (l : List (Int × Int × Int × Int × Int)) :
    ∀ m : Machine, Machine.addFpgaLinksBoard e ip l (orig o m) = orig o (Machine.addFpgaLinksBoard e ip l m) := by
  induction l with
  | nil => intro m; rfl
  | cons a l ih =>
    intro m
    obtain ⟨lx, ly, link, f, fl⟩ := a
    unfold Machine.addFpgaLinksBoard
    have hg : (orig o m).getGlobalXY lx ly e.x e.y = m.getGlobalXY lx ly e.x e.y := rfl
    have hat : ∀ x y, (orig o m).getChipAt x y = m.getChipAt x y := fun _ _ => rfl
    simp only [hg, hat]
    rw [← ih]
    refine congrArg _ ?_
    split <;> rfl

private theorem foldl_orig {α : Type} (o : String) (f : Machine → α → Machine)
    (hf : ∀ m a, f (orig o m) a = orig o (f m a)) (l : List α) : ∀ m, l.foldl f (orig o m) = orig o (l.foldl f m) := by
  induction l with
  | nil => intro m; rfl
  | cons a l ih => intro m; rw [List.foldl_cons, List.foldl_cons, hf, ih]

private theorem spin_orig (v : Version) (o : String) (m : Machine) :
    (orig o m).addSpinnakerLinks v = orig o (m.addSpinnakerLinks v) := by
  unfold Machine.addSpinnakerLinks
  exact foldl_orig o _ (fun m e => by cases e.ip with
    | none => rfl
    | some ip => exact spinBoard_orig o e ip _ 0 m) _ m

private theorem fpga_orig (v : Version) (o : String) (m : Machine) :
    (orig o m).addFpgaLinks v = orig o (m.addFpgaLinks v) := by
  unfold Machine.addFpgaLinks
  exact foldl_orig o _ (fun m e => by cases e.ip with
    | none => rfl
    | some ip => exact fpgaBoard_orig o e ip _ m) _ m

private theorem validate_orig (v : Version) (o : String) (m : Machine) : (orig o m).validate v = m.validate v := by
  have hc : ∀ cs, Machine.validateChips v (orig o m) cs = Machine.validateChips v m cs := by
    intro cs
    induction cs with
    | nil => rfl
    | cons c cs ih =>
      unfold Machine.validateChips
      rw [ih]
      rfl
  unfold Machine.validate
  rw [hc]
  rfl

private theorem run_orig (v : Version) (o : String) (cs : List Chip) (m : Machine) :
    (Spec.run v (orig o m) [.addChips cs, .addSpinnakerLinks, .addFpgaLinks]).1 =
      orig o (Spec.run v m [.addChips cs, .addSpinnakerLinks, .addFpgaLinks]).1 := by
  simp only [Spec.run, Spec.step]
  rw [addChips_orig]
  simp only
  rw [spin_orig, fpga_orig]

private theorem create_orig {k : VKind} {w h : Int} {m : Machine} {o o' : String}
    (hm : k.createMachine (some w) (some h) o = .ok m) :
    k.createMachine (some w) (some h) o' = .ok (orig o' m) := by
  unfold VKind.createMachine at hm ⊢
  split at hm
  · simp at hm
  · rw [Except.ok.injEq] at hm
    rw [← hm]
    rfl

/-! ### what is left of a virtual machine -/

private theorem keepChip_vm (v : Version) (w h : Int) (d : Down) (a : List DeadLink) (kv : XY × (XY × Int)) :
    keepChip a (vmChip v w h d kv) = { vmChip v w h d kv with
      router := { links := ⟨((vmLinks v w h d kv.1).filter fun l => l.sourceLinkId ∉ deadIds a kv.1).map
        fun l => (l.sourceLinkId, l)⟩, nEntries := v.kind.nRouterEntries } } := by
  have hl : (vmChip v w h d kv).router.linkList = vmLinks v w h d kv.1 := by
    simp [vmChip, Chip.mk', Router.linkList, PDict.values, Function.comp_def]
  unfold keepChip
  rw [hl, vmChip_xy]
  split
  · rename_i he
    rw [he, List.filter_eq_self.2 (by simp)]
    rfl
  · rfl

private theorem survivors_vm {v : Version} {w h : Int} {d0 d : Down}
    {A : List XY} {a : List DeadLink}
    (hch : ∀ p ∈ (vmEntries v w h d0).map (·.1), p ∈ d.chips ↔ p ∈ A)
    (hch0 : ∀ p, p ∈ d0.chips → p ∈ d.chips)
    (hco : ∀ p q, (p, q) ∈ d.cores ↔ (p, q) ∈ d0.cores)
    (hli : ∀ p ∈ (vmEntries v w h d).map (·.1), ∀ dir : Dir, ∀ q : XY,
      q = (v.kind.wrapFor w h).red w h (p.1 + dir.dx, p.2 + dir.dy) →
      ((p.1, p.2, dir.id) ∉ d.links ∧ q ∈ (vmEntries v w h d).map (·.1) ↔
      ((p.1, p.2, dir.id) ∉ d0.links ∧ q ∈ (vmEntries v w h d0).map (·.1)) ∧ dir.id ∉ deadIds a p)) :
    survivors A a (vmChips v w h d0) = vmChips v w h d := by
  have hent : vmEntries v w h d = (vmEntries v w h d0).filter fun kv => decide (kv.1 ∉ A) := by
    unfold vmEntries
    rw [List.filter_filter]
    refine List.filter_congr fun kv hkv => ?_
    rw [Bool.eq_iff_iff, Bool.and_eq_true, decide_eq_true_eq, decide_eq_true_eq, decide_eq_true_eq]
    by_cases h0 : kv.1 ∈ d0.chips
    · exact ⟨fun hn => absurd (hch0 _ h0) hn, fun hn => absurd h0 hn.2⟩
    · have := hch kv.1 (List.mem_map.2 ⟨kv, List.mem_filter.2 ⟨hkv, by simpa using h0⟩, rfl⟩)
      rw [this]
      exact ⟨fun hn => ⟨hn, h0⟩, fun hn => hn.1⟩
  unfold survivors vmChips
  rw [List.filter_map, List.map_map, hent]
  refine List.map_congr_left fun kv hkv => ?_
  have hkv' : kv.1 ∈ (vmEntries v w h d).map (·.1) := by
    rw [hent]; exact List.mem_map_of_mem hkv
  show keepChip a (vmChip v w h d0 kv) = _
  rw [keepChip_vm]
  have hcores : chipCores d0 kv.1 kv.2.2 = chipCores d kv.1 kv.2.2 := by
    obtain ⟨h1, h2⟩ := chipCores_spec d0 kv.1 kv.2.2
    obtain ⟨h3, h4⟩ := chipCores_spec d kv.1 kv.2.2
    refine eq_of_sorted_mem h1 h3 fun q => ?_
    rw [h2, h4, hco]
  have hlinks : (vmLinks v w h d0 kv.1).filter (fun l => decide (l.sourceLinkId ∉ deadIds a kv.1)) =
      vmLinks v w h d kv.1 := by
    unfold vmLinks
    rw [List.filter_filterMap]
    refine congrArg (List.filterMap · allDirs) (funext fun dir => ?_)
    have := hli kv.1 hkv' dir _ rfl
    by_cases hc : (kv.1.1, kv.1.2, dir.id) ∉ d0.links ∧
        (v.kind.wrapFor w h).red w h (kv.1.1 + dir.dx, kv.1.2 + dir.dy) ∈ (vmEntries v w h d0).map (·.1)
    · by_cases hd : dir.id ∉ deadIds a kv.1
      · simp only [if_pos hc, if_pos (this.2 ⟨hc, hd⟩)]
        simp [Option.filter, hd]
      · simp only [if_pos hc, if_neg (fun e => hd (this.1 e).2)]
        simp [Option.filter, hd]
    · simp only [if_neg hc, if_neg (fun e => hc (this.1 e).1)]
      rfl
  unfold vmChip
  rw [hcores, hlinks]
  rfl

/-- Removing parts of a virtual machine gives the virtual machine made with these parts down: the same machine
in every attribute but its origin, or the same exception. Here `cfg0` are the settings the first machine was
made with and `cfg` lists more chips and links; the dead chips are those `cfg` lists, and a link of the first
machine is among the dead links exactly if `cfg` lists it or it leads to a dead chip. -/
theorem C91_ignore (v : Version) (cfg0 cfg : DownCfg) (w h : Int) (validate : Bool) (m0 : Machine)
    (hm0 : virtualMachine v cfg0 w h validate = .ok m0) (hrd : Readable v.kind cfg)
    (hle : DownAtMost v.kind cfg0 cfg) (hco : ∀ p q, CoreDown v.kind cfg p q → CoreDown v.kind cfg0 p q)
    (deadChips : List XY) (deadLinks : List DeadLink)
    (hA : ∀ x y, m0.isChipAt x y = true → ((x, y) ∈ deadChips ↔ ChipDown cfg (x, y)))
    (ha : ∀ c ∈ m0.chipList, c.xy ∉ deadChips → ∀ i l, c.router.getLink i = some l →
      ((∃ k, (c.x, c.y, i, k) ∈ deadLinks) ↔ LinkDown cfg c.xy i ∨ (l.destX, l.destY) ∈ deadChips)) :
    machineIgnore v m0 deadChips deadLinks =
      (virtualMachine v cfg w h true).map fun m => { m with origin := "Fixed" } := by
  obtain ⟨hr0, hreal0⟩ := vm_real hm0
  obtain ⟨hs, -, -, -, -, -, r0, d0, hd0, hcl0⟩ := vm_facts hm0
  obtain ⟨d, hd⟩ := (read_ok_iff v cfg w).2 hrd
  obtain ⟨a1, a2, a3⟩ := down_spec hs hd0
  obtain ⟨b1, b2, b3⟩ := down_spec hs hd
  have hkeys : ∀ p : XY, p ∈ (vmEntries v w h d0).map (·.1) ↔ m0.isChipAt p.1 p.2 = true := fun p => by
    rw [isChipAt_iff r0 p, hcl0, vmChips_xy]
  have hch0 : ∀ p, p ∈ d0.chips → p ∈ d.chips := fun p hp => (b1 p).2 (hle.1 p ((a1 p).1 hp))
  have hch : ∀ p ∈ (vmEntries v w h d0).map (·.1), p ∈ d.chips ↔ p ∈ deadChips := fun p hp => by
    rw [b1, hA p.1 p.2 ((hkeys p).1 hp)]
  have hsub : ∀ p, p ∈ (vmEntries v w h d).map (·.1) ↔ p ∈ (vmEntries v w h d0).map (·.1) ∧ p ∉ d.chips := fun p => by
    simp only [vmEntries, List.mem_map, List.mem_filter, decide_eq_true_eq]
    constructor
    · rintro ⟨kv, ⟨h1, h2⟩, rfl⟩; exact ⟨⟨kv, ⟨h1, fun hn => h2 (hch0 _ hn)⟩, rfl⟩, h2⟩
    · rintro ⟨⟨kv, ⟨h1, -⟩, rfl⟩, h2⟩; exact ⟨kv, ⟨h1, h2⟩, rfl⟩
  have hsurv : survivors deadChips deadLinks m0.chipList = vmChips v w h d := by
    rw [hcl0]
    refine survivors_vm hch hch0 (fun p q => ?_) fun p hp dir q hq => ?_
    · rw [a2, b2]; exact ⟨hco p q, hle.2.2 p q⟩
    · obtain ⟨hp0, hpd⟩ := (hsub p).1 hp
      have hg := vm_inGrid hs d hp
      have hpA : p ∉ deadChips := fun hn => hpd ((hch p hp0).2 hn)
      obtain ⟨kv, hkv, rfl⟩ := List.mem_map.1 hp0
      have hmem : vmChip v w h d0 kv ∈ m0.chipList := by rw [hcl0]; exact List.mem_map_of_mem hkv
      have hlink : (kv.1.1, kv.1.2, dir.id) ∉ d0.links ∧ q ∈ (vmEntries v w h d0).map (·.1) →
          (dir.id ∈ deadIds deadLinks kv.1 ↔ LinkDown cfg kv.1 dir.id ∨ q ∈ deadChips) := by
        intro hc
        rw [mem_deadIds]
        refine ha _ hmem hpA dir.id ⟨kv.1.1, kv.1.2, dir.id, q.1, q.2⟩ ?_
        refine PDict.lookup_of_mem ?_ (List.mem_map.2 ⟨⟨kv.1.1, kv.1.2, dir.id, q.1, q.2⟩, ?_, rfl⟩)
        · simp only [vmChip, Chip.mk', List.map_map]
          exact vmLinks_nodup v w h d0 kv.1
        · unfold vmLinks
          refine List.mem_filterMap.2 ⟨dir, by cases dir <;> decide, ?_⟩
          subst hq
          simp only
          rw [if_pos hc]
      constructor
      · rintro ⟨h1, h2⟩
        obtain ⟨h3, h4⟩ := (hsub q).1 h2
        have hc0 : (kv.1.1, kv.1.2, dir.id) ∉ d0.links := fun hn =>
          h1 ((b3 kv.1 dir hg).2 (((a3 kv.1 dir hg).1 hn).imp (hle.2.1 _ _) id))
        refine ⟨⟨hc0, h3⟩, fun hn => ?_⟩
        rcases (hlink ⟨hc0, h3⟩).1 hn with h5 | h5
        · exact h1 ((b3 kv.1 dir hg).2 (.inl h5))
        · exact h4 ((hch q h3).2 h5)
      · rintro ⟨hc, hn⟩
        rw [hlink hc, not_or] at hn
        refine ⟨fun h1 => ?_, (hsub q).2 ⟨hc.2, fun h4 => hn.2 ((hch q hc.2).1 h4)⟩⟩
        rcases (b3 kv.1 dir hg).1 h1 with h5 | h5
        · exact hn.1 h5
        · exact hc.1 ((a3 kv.1 dir hg).2 (.inr h5))
  obtain ⟨x, -, -, ⟨o, ho, hx⟩, e⟩ := machineIgnore_eq hr0 hreal0 deadChips deadLinks
  obtain ⟨m, -, -, ⟨o', ho', hm⟩, hv⟩ := vm_build hs cfg d hd
  have hxo : x = orig "Fixed" m := by
    rw [create_orig ho', Except.ok.injEq] at ho
    rw [hx, hsurv, ← ho, run_orig, hm]
  rw [e, hv, hxo, validate_orig]
  simp only [if_true]
  cases m.validate v <;> rfl

/-- the links of a machine that lead to the given chips -/
private def into (A : List XY) (m : Machine) : List DeadLink :=
  m.chipList.flatMap fun c => (c.router.linkList.filter fun l => decide ((l.destX, l.destY) ∈ A)).map fun l =>
    (c.x, c.y, l.sourceLinkId, 0)

private theorem mem_into {A : List XY} {m : Machine} (hc : ∀ c ∈ m.chipList, RealChip c) (x y i : Int) :
    (∃ k, (x, y, i, k) ∈ into A m) ↔ ∃ c ∈ m.chipList, c.x = x ∧ c.y = y ∧
      ∃ l, c.router.getLink i = some l ∧ (l.destX, l.destY) ∈ A := by
  simp only [into, List.mem_flatMap, List.mem_map, List.mem_filter, decide_eq_true_eq, Prod.mk.injEq]
  constructor
  · rintro ⟨k, c, hcm, l, ⟨hl, hd⟩, rfl, rfl, hi, -⟩
    exact ⟨c, hcm, rfl, rfl, l, ((hc c hcm).getLink i l).2 ⟨hl, hi⟩, hd⟩
  · rintro ⟨c, hcm, rfl, rfl, l, hl, hd⟩
    obtain ⟨h1, h2⟩ := ((hc c hcm).getLink i l).1 hl
    exact ⟨0, c, hcm, l, ⟨h1, hd⟩, rfl, rfl, h2, rfl⟩

private theorem findOneWay_all {repair : Bool} {removed : List XY} {m : Machine} {ds : List DeadLink}
    (h : ∀ d ∈ ds, ∃ q, m.xyOverLink d.1 d.2.1 d.2.2.1 = .ok q ∧ q ∈ removed) : ∀ f : Found,
    findOneWay repair removed m ds f = .ok { f with deadLinks := f.deadLinks ++ ds } := by
  induction ds with
  | nil => intro f; simp [findOneWay]
  | cons d ds ih =>
    intro f
    obtain ⟨q, h1, h2⟩ := h d List.mem_cons_self
    unfold findOneWay
    rw [h1]
    simp only [if_pos h2]
    rw [ih fun d hd => h d (List.mem_cons_of_mem _ hd)]
    simp

/-- Chips that were removed from a machine on purpose cause no error: if only the down chips, and the down
links themselves, were removed from a virtual machine, `machine_repair` with the down chips as
`removed_chips` drops the links that led to them and gives the virtual machine made with these parts down,
also without `repair_machine` (if that machine needs no repair). -/
theorem C91_removed_chips (v : Version) (cfg0 cfg : DownCfg) (w h : Int) (validate repair : Bool)
    (m0 m1 m : Machine)
    (hm0 : virtualMachine v cfg0 w h validate = .ok m0) (hm : virtualMachine v cfg w h true = .ok m)
    (hle : DownAtMost v.kind cfg0 cfg) (hco : ∀ p q, CoreDown v.kind cfg p q → CoreDown v.kind cfg0 p q)
    (removed : List XY) (deadLinks : List DeadLink)
    (hA : ∀ x y, m0.isChipAt x y = true → ((x, y) ∈ removed ↔ ChipDown cfg (x, y)))
    (ha : ∀ c ∈ m0.chipList, c.xy ∉ removed → ∀ i l, c.router.getLink i = some l →
      ((∃ k, (c.x, c.y, i, k) ∈ deadLinks) ↔ LinkDown cfg c.xy i))
    (hcons : Consistent m) (hm1 : machineIgnore v m0 removed deadLinks = .ok m1) :
    machineRepair v repair removed m1 = some (.ok { m with origin := "Fixed" }) := by
  obtain ⟨hr0, hreal0⟩ := vm_real hm0
  obtain ⟨-, -, hw0, hx0, hy0, -, r0, -⟩ := vm_facts hm0
  obtain ⟨hr1, hreal1, hval1, hat1, hch1⟩ := C37_exact v w h m0 m1 hr0 hreal0 _ _ hm1
  obtain ⟨-, hw1, hx1, hy1, -, r1⟩ := hr1.rep
  have hrd : Readable v.kind cfg := by
    obtain ⟨-, -, -, -, -, -, -, d, hd, -⟩ := vm_facts hm
    exact (read_ok_iff v cfg w).1 ⟨d, hd⟩
  have hpar : ∀ c1 ∈ m1.chipList, c1.parentLink = none := by
    intro c1 hc1
    obtain ⟨x, -, hs1, -, e⟩ := machineIgnore_eq hr0 hreal0 removed deadLinks
    have : x = m1 := by
      rw [hm1] at e
      split at e
      · simp at e
      · injection e with e; exact e.symm
    subst this
    obtain ⟨-, -, -, -, -, -, -, d0, -, hcl0⟩ := vm_facts hm0
    rw [hs1, hcl0] at hc1
    obtain ⟨c, hc, rfl⟩ := List.mem_map.1 hc1
    obtain ⟨kv, -, rfl⟩ := List.mem_map.1 (List.mem_filter.1 hc).1
    rw [keepChip_vm]
    rfl
  -- the chips of the reduced machine are those of the first one
  have hfrom : ∀ c1 ∈ m1.chipList, ∃ c ∈ m0.chipList, c.x = c1.x ∧ c.y = c1.y ∧
      c1.xy ∉ removed ∧
      ∀ i l, c1.router.getLink i = some l ↔ c.router.getLink i = some l ∧ ¬ ∃ back, (c1.x, c1.y, i, back) ∈ deadLinks := by
    intro c1 hc1
    have hg := chip_at_of_mem r1 hc1
    obtain ⟨h1, h2⟩ := (hat1 c1.x c1.y).1 ((isChipAt_iff r1 (c1.x, c1.y)).2 (List.mem_map.2 ⟨c1, hc1, rfl⟩))
    obtain ⟨c, hc⟩ := Option.isSome_iff_exists.1 h1
    have hc' : m0.getChipAt c1.x c1.y = some c := hc
    obtain ⟨hcm, hcx, hcy⟩ := mem_of_chip_at r0 hc'
    obtain ⟨g1, g2, g3⟩ := hch1 _ _ c c1 hc' hg
    exact ⟨c, hcm, hcx, hcy, h2, g3⟩
  -- dropping the links to the removed chips gives the other machine
  have hK : machineIgnore v m1 [] (into removed m1) = .ok { m with origin := "Fixed" } := by
    rw [C89_stages v w h m0 m1 hr0 hreal0 removed [] deadLinks _ hm1, List.append_nil,
      C91_ignore v cfg0 cfg w h validate m0 hm0 hrd hle hco removed _ hA ?_, hm]
    · rfl
    · intro c hc hcA i l hl
      rw [← ha c hc hcA i l hl]
      simp only [List.mem_append, exists_or]
      rw [mem_into hreal1]
      have hc1 : m1.isChipAt c.x c.y = true :=
        (hat1 _ _).2 ⟨(isChipAt_iff r0 (c.x, c.y)).2 (List.mem_map.2 ⟨c, hc, rfl⟩), hcA⟩
      obtain ⟨c1, hc1⟩ := Option.isSome_iff_exists.1 (show (m1.getChipAt c.x c.y).isSome = true from hc1)
      obtain ⟨-, -, g3⟩ := hch1 _ _ c c1 (chip_at_of_mem r0 hc) hc1
      obtain ⟨hm1c, h1x, h1y⟩ := mem_of_chip_at r1 hc1
      constructor
      · rintro (hd | ⟨c2, hc2, hx, hy, l2, hl2, hd⟩)
        · exact .inl hd
        · have : c2 = c1 := eq_of_nodup_map r1.nodup hc2 hm1c
            (Prod.ext (hx.trans h1x.symm) (hy.trans h1y.symm))
          subst this
          have := ((g3 i l2).1 hl2).1
          rw [hl] at this
          rw [Option.some.inj this]
          exact .inr hd
      · rintro (hd | hd)
        · exact .inl hd
        · by_cases hk : ∃ k, (c.x, c.y, i, k) ∈ deadLinks
          · exact .inl hk
          · exact .inr ⟨c1, hm1c, h1x, h1y, l, (g3 i l).2 ⟨hl, hk⟩, hd⟩
  generalize hKm : ({ m with origin := "Fixed" } : Machine) = K at hK ⊢
  have hKc : Consistent K := by
    subst hKm
    exact ⟨hcons.links, hcons.incoming, hcons.outgoing, hcons.parents⟩
  obtain ⟨hrK, -, -, hatK, hchK⟩ := C37_exact v w h m1 K hr1 hreal1 _ _ hK
  obtain ⟨-, -, -, -, -, rK⟩ := hrK.rep
  -- every chip is still there, with some of its links
  have hto : ∀ x y c1, m1.getChipAt x y = some c1 → ∃ cK, K.getChipAt x y = some cK ∧ SameAttributes cK c1 ∧
      ∀ i l, cK.router.getLink i = some l ↔ c1.router.getLink i = some l ∧ ¬ ∃ back, (x, y, i, back) ∈ into removed m1 := by
    intro x y c1 h1
    have : K.isChipAt x y = true := (hatK x y).2 ⟨by
      show (m1.getChipAt x y).isSome = true
      rw [h1]; rfl, by simp⟩
    obtain ⟨cK, hcK⟩ := Option.isSome_iff_exists.1 this
    obtain ⟨g1, -, g3⟩ := hchK x y c1 cK h1 hcK
    exact ⟨cK, hcK, g1, g3⟩
  have hback : ∀ x y cK, K.getChipAt x y = some cK → ∃ c1, m1.getChipAt x y = some c1 ∧ SameAttributes cK c1 ∧
      ∀ i l, cK.router.getLink i = some l → c1.router.getLink i = some l := by
    intro x y cK h1
    have : m1.isChipAt x y = true := ((hatK x y).1 (by
      show (K.getChipAt x y).isSome = true
      rw [h1]; rfl)).1
    obtain ⟨c1, hc1⟩ := Option.isSome_iff_exists.1 this
    obtain ⟨g1, -, g3⟩ := hchK x y c1 cK hc1 h1
    exact ⟨c1, hc1, g1, fun i l hl => ((g3 i l).1 hl).1⟩
  have hsubHas : ∀ {c' c : Chip} {i : Int}, (∀ i l, c'.router.getLink i = some l → c.router.getLink i = some l) →
      HasLink c' i → HasLink c i := by
    intro c' c i hsl hh
    rw [hasLink_iff] at *
    obtain ⟨l, hl⟩ := hh
    exact ⟨l, hsl i l hl⟩
  have hin : m1.unreachableIncomingLocalChips = [] := by
    rw [List.eq_nil_iff_forall_not_mem]
    intro p hp
    obtain ⟨c, hc, rfl, hno⟩ := (mem_incoming_local m1 p).1 hp
    obtain ⟨cK, hcK, hsa, -⟩ := hto _ _ c (chip_at_of_mem r1 hc)
    have : c.xy ∈ K.unreachableIncomingLocalChips := by
      refine (mem_incoming_local K _).2 ⟨cK, (mem_of_chip_at rK hcK).1, Prod.ext hsa.1 hsa.2.1, fun d n hn hl heth => ?_⟩
      obtain ⟨n1, hn1, hsn, hln⟩ := hback _ _ n hn
      refine hno d n1 (by rw [← hsa.1, ← hsa.2.1]; exact hn1) (hsubHas hln hl) ?_
      rw [← hsn.2.2.2.2.2.2.1, ← hsn.2.2.2.2.2.2.2.1, ← hsa.2.2.2.2.2.2.1, ← hsa.2.2.2.2.2.2.2.1]
      exact heth
    rw [hKc.incoming] at this
    simp at this
  have hout : m1.unreachableOutgoingLocalChips = [] := by
    rw [List.eq_nil_iff_forall_not_mem]
    intro p hp
    obtain ⟨c, hc, rfl, hno⟩ := (mem_outgoing_local m1 p).1 hp
    obtain ⟨cK, hcK, hsa, hlK⟩ := hto _ _ c (chip_at_of_mem r1 hc)
    have : c.xy ∈ K.unreachableOutgoingLocalChips := by
      refine (mem_outgoing_local K _).2 ⟨cK, (mem_of_chip_at rK hcK).1, Prod.ext hsa.1 hsa.2.1, fun d n hl hn heth => ?_⟩
      obtain ⟨n1, hn1, hsn, hln⟩ := hback _ _ n hn
      refine hno d n1 (hsubHas (fun i l hl => ((hlK i l).1 hl).1) hl) (by rw [← hsa.1, ← hsa.2.1]; exact hn1) ?_
      rw [← hsn.2.2.2.2.2.2.1, ← hsn.2.2.2.2.2.2.2.1, ← hsa.2.2.2.2.2.2.1, ← hsa.2.2.2.2.2.2.2.1]
      exact heth
    rw [hKc.outgoing] at this
    simp at this
  -- the one way links are those to the removed chips
  have how : ∀ x y i b, (x, y, i, b) ∈ m1.oneWayLinks → ∃ c l, m1.getChipAt x y = some c ∧
      c.router.getLink i = some l ∧ (l.destX, l.destY) ∈ removed := by
    intro x y i b hd
    obtain ⟨c, dir, l, hc, rfl, rfl, hl, hno⟩ := (C24_one_way_links v w h m1 hr1 x y i b).1 hd
    refine ⟨c, l, hc, hl, Classical.byContradiction fun hn => ?_⟩
    obtain ⟨cK, hcK, -, hlK⟩ := hto x y c hc
    obtain ⟨hc1, hx, hy⟩ := mem_of_chip_at r1 hc
    have hlK' : cK.router.getLink dir.id = some l := by
      refine (hlK _ _).2 ⟨hl, fun hh => ?_⟩
      obtain ⟨c2, hc2, h2x, h2y, l2, hl2, hd2⟩ := (mem_into hreal1 _ _ _).1 hh
      have : c2 = c := eq_of_nodup_map r1.nodup hc2 hc1
        (Prod.ext (h2x.trans hx.symm) (h2y.trans hy.symm))
      subst this
      rw [hl] at hl2
      rw [← Option.some.inj hl2] at hd2
      exact hn hd2
    have : (x, y, dir.id, Router.opposite dir.id) ∈ K.oneWayLinks :=
      (C24_one_way_links v w h K hrK x y dir.id _).2 ⟨cK, dir, l, hcK, rfl, rfl, hlK', fun ⟨n, hn1, hn2⟩ => by
        obtain ⟨n1, hn3, -, hn4⟩ := hback _ _ n hn1
        exact hno ⟨n1, hn3, hsubHas hn4 hn2⟩⟩
    rw [hKc.links] at this
    simp at this
  have hover : ∀ d ∈ m1.oneWayLinks, ∃ q, m1.xyOverLink d.1 d.2.1 d.2.2.1 = .ok q ∧ q ∈ removed := by
    rintro ⟨x, y, i, b⟩ hd
    obtain ⟨c, l, hc, hl, hr⟩ := how x y i b hd
    obtain ⟨hc1, rfl, rfl⟩ := mem_of_chip_at r1 hc
    obtain ⟨c0, hc0, h0x, h0y, -, hl0⟩ := hfrom c hc1
    refine ⟨_, ?_, hr⟩
    have := (C31_destinations v cfg0 w h validate m0 hm0 c0 hc0 i l ((hl0 _ _).1 hl).1).2.2.2
    unfold Machine.xyOverLink at this ⊢
    rw [hw1, hx1, hy1, ← h0x, ← h0y, ← this, hw0, hx0, hy0]
  have hsame : machineIgnore v m1 [] m1.oneWayLinks = .ok K := by
    rw [← hK]
    refine C89_sets v w h m1 hr1 hreal1 _ _ _ _ (fun _ _ _ => Iff.rfl) fun x y hxy _ i => ?_
    rw [mem_into hreal1]
    constructor
    · rintro ⟨b, hd⟩
      obtain ⟨c, l, hc, hl, hr⟩ := how x y i b hd
      obtain ⟨hc1, rfl, rfl⟩ := mem_of_chip_at r1 hc
      exact ⟨c, hc1, rfl, rfl, l, hl, hr⟩
    · rintro ⟨c, hc, rfl, rfl, l, hl, hr⟩
      obtain ⟨c0, hc0, h0x, h0y, -, hl0⟩ := hfrom c hc
      obtain ⟨dir, hdir, -⟩ := (C31_links v cfg0 w h validate m0 hm0 c0 hc0 i).1
        ((hasLink_iff _ _).2 ⟨l, ((hl0 _ _).1 hl).1⟩)
      refine ⟨Router.opposite i, (C24_one_way_links v w h m1 hr1 _ _ i _).2
        ⟨c, dir, l, chip_at_of_mem r1 hc, hdir, rfl, hl, ?_⟩⟩
      rintro ⟨n, hn, -⟩
      exact ((hat1 _ _).1 (show (m1.getChipAt l.destX l.destY).isSome = true by rw [hn]; rfl)).2 hr
  have hfind : repairFind repair removed m1 = .ok { deadLinks := m1.oneWayLinks } := by
    unfold repairFind
    rw [hin, hout]
    simp only [findUnreachable]
    rw [findOneWay_all hover]
    simp only [List.nil_append]
    exact findParents_of_ok _ fun c hc i hi => by rw [hpar c hc] at hi; simp at hi
  rw [machineRepair, hfind]
  simp only [Bool.and_false, Bool.false_eq_true, if_false, true_and]
  by_cases he : m1.oneWayLinks = []
  · rw [if_pos he]
    have := C89_stages v w h m0 m1 hr0 hreal0 removed [] deadLinks [] hm1
    rw [List.append_nil, List.append_nil, hm1] at this
    rw [he, this, Except.ok.injEq] at hsame
    rw [hsame]
  · rw [if_neg he, hsame]
    exact machineRepair_consistent hKc v repair []

/-- one chip of a four chip board down, and a link at both its ends -/
private def exPart : DownCfg := { chips := some "1,1".toList, links := some "0,0,5:0,1,2".toList }

private theorem exPart_chips (p : XY) : ChipDown exPart p ↔ p = (1, 1) := by
  have h : IgnoreChip.parseString exPart.chips = .ok [⟨1, 1, none⟩] := by decide +kernel
  unfold ChipDown
  rw [h]
  constructor
  · rintro ⟨l, hl, c, hc, hx, hy, -⟩
    rw [← Except.ok.inj hl, List.mem_singleton] at hc
    subst hc
    exact Prod.ext hx.symm hy.symm
  · rintro rfl; exact ⟨_, rfl, _, List.mem_singleton.2 rfl, rfl, rfl, rfl⟩

private theorem exPart_links (p : XY) (i : Int) :
    LinkDown exPart p i ↔ (p = (0, 0) ∧ i = 5) ∨ (p = (0, 1) ∧ i = 2) := by
  have h : IgnoreLink.parseString exPart.links = .ok [⟨0, 0, 5, none⟩, ⟨0, 1, 2, none⟩] := by decide +kernel
  unfold LinkDown
  rw [h]
  constructor
  · rintro ⟨l, hl, c, hc, hx, hy, hi, -⟩
    rw [← Except.ok.inj hl, List.mem_cons, List.mem_singleton] at hc
    rcases hc with rfl | rfl
    · exact .inl ⟨Prod.ext hx.symm hy.symm, hi.symm⟩
    · exact .inr ⟨Prod.ext hx.symm hy.symm, hi.symm⟩
  · rintro (⟨rfl, rfl⟩ | ⟨rfl, rfl⟩)
    · exact ⟨_, rfl, ⟨0, 0, 5, none⟩, by simp, rfl, rfl, rfl, rfl⟩
    · exact ⟨_, rfl, ⟨0, 1, 2, none⟩, by simp, rfl, rfl, rfl, rfl⟩

private def exPerfect : Machine := match virtualMachine exSmall {} 2 2 true with
  | .ok m => m
  | .error _ => Machine.new .none 0 0 .empty ""
private def exReduced : Machine := match virtualMachine exSmall exPart 2 2 true with
  | .ok m => m
  | .error _ => Machine.new .none 0 0 .empty ""
private def exBetween : Machine := match machineIgnore exSmall exPerfect [(1, 1)] [(0, 0, 5, 2), (0, 1, 2, 5)] with
  | .ok m => m
  | .error _ => Machine.new .none 0 0 .empty ""

/-- a case: with the links dropped, and the links that led to the chip only by the repair; the machine
between the two has one way links -/
example : exBetween.oneWayLinks ≠ [] ∧
    machineRepair exSmall false [(1, 1)] exBetween = some (.ok { exReduced with origin := "Fixed" }) ∧
    exReduced.chipCoordinates = [(0, 0), (0, 1), (1, 0)] := by
  have h0 : virtualMachine exSmall {} 2 2 true = .ok exPerfect := by decide +kernel
  have h1 : virtualMachine exSmall exPart 2 2 true = .ok exReduced := by decide +kernel
  have h2 : machineIgnore exSmall exPerfect [(1, 1)] [(0, 0, 5, 2), (0, 1, 2, 5)] = .ok exBetween := by decide +kernel
  refine ⟨by decide +kernel, ?_, by decide +kernel⟩
  refine C91_removed_chips exSmall {} exPart 2 2 true false exPerfect exBetween exReduced h0 h1 ⟨?_, ?_, ?_⟩ ?_ _ _
    ?_ ?_ ⟨by decide +kernel, by decide +kernel, by decide +kernel, ?_⟩ h2
  · rintro p ⟨l, hl, c, hc, -⟩; cases hl; simp at hc
  · rintro p i ⟨l, hl, c, hc, -⟩; cases hl; simp at hc
  · rintro p i ⟨l, hl, c, hc, -⟩; cases hl; simp at hc
  · rintro p i ⟨l, hl, c, hc, -⟩; cases hl; simp at hc
  · intro x y _
    rw [exPart_chips, List.mem_singleton]
  · intro c hc _ i l _
    rw [exPart_links]
    simp only [List.mem_cons, Prod.mk.injEq, List.not_mem_nil, or_false, Chip.xy]
    constructor
    · rintro ⟨k, ⟨h1, h2, h3, -⟩ | ⟨h1, h2, h3, -⟩⟩
      · exact .inl ⟨⟨h1, h2⟩, h3⟩
      · exact .inr ⟨⟨h1, h2⟩, h3⟩
    · rintro (⟨⟨h1, h2⟩, h3⟩ | ⟨⟨h1, h2⟩, h3⟩)
      · exact ⟨2, .inl ⟨h1, h2, h3, rfl⟩⟩
      · exact ⟨5, .inr ⟨h1, h2, h3, rfl⟩⟩
  · intro c hc i hi
    have := (vm_hyps h1).2.2.1 c hc
    rw [this] at hi
    simp at hi

end SpiNN.Props
