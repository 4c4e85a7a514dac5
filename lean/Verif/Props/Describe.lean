import Verif.Lemmas.Describe
import Verif.Props.Machine
import Verif.Props.Mesh

/-!
# C67: where a chip is; C68: the summary
-/

namespace SpiNN.Props
open SpiNN Spec

/-! ## C19 again -/

/-- C19: what `get_links_count` is after any history: half the number of (chip, link) pairs without those
added to the router of a chip of the machine (by the successful calls of `router.add_link`). -/
theorem C19_links_count_exact (v : Version) (w h : Int) (o : String) (m₀ : Machine)
    (h₀ : v.kind.createMachine (some w) (some h) o = .ok m₀) (ops : List Op) :
    (run v m₀ ops).1.getLinksCount =
      (((run v m₀ ops).1.chipList.map fun c => (c.router.linkList.length : Int)).sum -
        ((ops.zip (run v m₀ ops).2).countP fun p => p.1.isAddLink && p.2.isNone : Nat) : Rat) / 2 := by
  obtain ⟨-, rfl⟩ := createMachine_ok h₀
  have r0 := Rep.new (v.kind.wrapFor w h) w h v.kind.chipCoreMap o
  obtain ⟨r, ho, -, -⟩ := r0.run v ops
  have hc := (r0.links_run [] IsCounter.empty v ops).total
  have hs := r0.sum_run v ops
  unfold Machine.getLinksCount Machine.chipList
  rw [hc, ho, r.values]
  simp only [List.nil_append, List.map_nil, List.sum_nil, Int.zero_add] at hs ⊢
  have : (fun c : Chip => (c.router.linkList.length : Int)) = nLinksOf := rfl
  rw [this, hs]
  simp only [Rat.intCast_add, Rat.intCast_natCast]
  congr 1
  grind

example : let ops : List Op := [.addChip (exLinked 0 0 [⟨0, 0, 1, 1, 1⟩] 0 0 none), .addLink (0, 0) ⟨0, 0, 0, 1, 0⟩,
      .addLink (0, 0) ⟨0, 0, 0, 1, 0⟩, .addLink (5, 5) ⟨0, 0, 0, 1, 0⟩]
    let r := run exV5 (Machine.new .none 8 8 VKind.v5.chipCoreMap "t") ops
    r.2 = [none, none, some .alreadyExists, some .keyError] ∧ r.1.getLinksCount = 1 / 2 := by
  decide +kernel

/-! ## C67 -/

theorem nproc_show (c : Chip) : showInt c.nProcessors = (toString c.allProcessorIds.length).toList := by
  rw [showInt_eq_toString]
  have : c.nProcessors = (c.allProcessorIds.length : Int) := by simp [Chip.nProcessors, Chip.allProcessorIds]
  rw [this]; rfl
theorem chip_toStr_plain (c : Chip) (hip : c.ip = none ∨ c.ip = some []) :
    c.toStr = s!"[Chip: x={c.x}, y={c.y}, n_cores={c.allProcessorIds.length}]".toList := by
  have ht : Machine.truthy c.ip = false := by rcases hip with h | h <;> rw [h] <;> rfl
  have t1 : ", n_cores=".toList = ", ".toList ++ "n_cores=".toList := by simp
  simp only [toString_str, String.toList_append]
  delta Chip.toStr
  rw [t1, ht, if_neg (by decide), nproc_show, showInt_eq_toString, showInt_eq_toString]
  simp only [List.append_assoc, List.nil_append]
theorem chip_toStr_addr (c : Chip) (hip : ¬ (c.ip = none ∨ c.ip = some [])) :
    c.toStr = s!"[Chip: x={c.x}, y={c.y}, ip_address={addrText c.ip} n_cores={c.allProcessorIds.length}]".toList := by
  have ht : Machine.truthy c.ip = true := by rw [truthy_iff]; simpa using hip
  have t2 : ", ip_address=".toList = ", ".toList ++ "ip_address=".toList := by simp
  have t3 : " n_cores=".toList = " ".toList ++ "n_cores=".toList := by simp
  simp only [toString_str, String.toList_append]
  delta Chip.toStr
  rw [t2, t3, ht, if_pos rfl, nproc_show, showInt_eq_toString, showInt_eq_toString, showOpt_eq]
  simp only [List.append_assoc]

theorem localRaises_false {v : Version} {w h : Int} {m : Machine} (hr : Reachable v w h m) :
    m.localRaises = false := by
  obtain ⟨hs, -, rfl, rfl, -, -⟩ := hr.rep
  have := hs.pos
  unfold Machine.localRaises
  cases m.wrap <;> simp <;> omega

/-- C67: the text of `where_is_xy`. With no chip there it says so. With a chip and a boot chip it gives
the position, the address of the machine, the position on the board, from which `get_global_xy` leads
back, and the address of the board, if that Ethernet chip is on the machine. Without a boot chip it is
the text of the chip. -/
theorem C67_where_is_xy (v : Version) (w h : Int) (m : Machine) (hr : Reachable v w h m) (x y : Int) :
    (m.getChipAt x y = none → m.whereIsXY x y = s!"No chip {x}, {y} found".toList) ∧
    ∀ c, m.getChipAt x y = some c →
      (m.getChipAt 0 0 = none → m.whereIsXY x y = if c.ip = none ∨ c.ip = some [] then
          s!"[Chip: x={x}, y={y}, n_cores={c.allProcessorIds.length}]".toList
        else s!"[Chip: x={x}, y={y}, ip_address={addrText c.ip} n_cores={c.allProcessorIds.length}]".toList) ∧
      ∀ boot, m.getChipAt 0 0 = some boot → ∃ lx ly : Int,
        (∀ e, m.getChipAt c.ethX c.ethY = some e → m.whereIsXY x y =
          s!"global chip {x}, {y} on {addrText boot.ip} is chip {lx}, {ly} on {addrText e.ip}".toList) ∧
        (m.getChipAt c.ethX c.ethY = none → m.whereIsXY x y =
          s!"global chip {x}, {y} on {addrText boot.ip} is chip {lx}, {ly} ".toList) ∧
        (InRange m.wrap w h (x, y) → m.getGlobalXY lx ly c.ethX c.ethY = (x, y)) := by
  obtain ⟨hs, -, rfl, rfl, -, r⟩ := hr.rep
  have hpos := hs.pos
  have hloc := localRaises_false hr
  refine ⟨fun hn => ?_, fun c hc => ⟨fun h0 => ?_, fun boot h0 => ?_⟩⟩
  · simp only [Machine.whereIsXY, hn, showInt_eq_toString, toString_str, String.toList_append]
  · obtain ⟨-, rfl, rfl⟩ := mem_of_chip_at r hc
    unfold Machine.getChipAt at h0
    have hst : m.whereIsXY c.x c.y = c.toStr := by
      simp only [Machine.whereIsXY, hc, Machine.whereIsChip, PDict.getE, h0]
    rw [hst]
    split
    · rename_i hip; exact chip_toStr_plain c hip
    · rename_i hip; exact chip_toStr_addr c hip
  · obtain ⟨-, rfl, rfl⟩ := mem_of_chip_at r hc
    refine ⟨(m.getLocalXY c).1, (m.getLocalXY c).2, fun e he => ?_, fun he => ?_, fun hin => ?_⟩
    · unfold Machine.getChipAt at h0 he
      simp only [Machine.whereIsXY, hc, Machine.whereIsChip, PDict.getE, h0, he, hloc, Bool.false_eq_true, if_false,
        showInt_eq_toString, showOpt_eq, toString_str, String.toList_append, List.append_assoc]
      rfl
    · unfold Machine.getChipAt at h0 he
      simp only [Machine.whereIsXY, hc, Machine.whereIsChip, PDict.getE, h0, he, hloc, Bool.false_eq_true, if_false,
        showInt_eq_toString, showOpt_eq, toString_str, String.toList_append, List.append_assoc, List.append_nil]
    · exact C07_global_of_local m.wrap _ _ hpos.1 hpos.2 _ _ _ _ hin _ _ rfl

/-- C67: on a validated machine the text of a chip without an address names the boot chip's address,
a place on a board of that version, and the address of an Ethernet chip of the machine. -/
theorem C67_validated (v : Version) (w h : Int) (m : Machine) (hr : Reachable v w h m)
    (hv : m.validate v = .ok ()) (c : Chip) (hc : c ∈ m.chipList) (hip : c.ip = none ∨ c.ip = some []) :
    ∃ boot e lx ly, m.getChipAt 0 0 = some boot ∧ m.getChipAt c.ethX c.ethY = some e ∧
      m.whereIsXY c.x c.y = s!"global chip {c.x}, {c.y} on {addrText boot.ip} is chip {lx}, {ly} on {addrText e.ip}".toList ∧
      OnBoard v.kind (lx, ly) ∧ m.getGlobalXY lx ly c.ethX c.ethY = (c.x, c.y) := by
  obtain ⟨⟨boot, hb, -⟩, -, hl⟩ := (C21_validate_exact v w h m hr).1 hv
  obtain ⟨hin, -, -, he⟩ := hl c hc
  obtain ⟨⟨e, he⟩, hbd⟩ := he hip
  obtain ⟨hs, -, hw, hh, -, r⟩ := hr.rep
  have hat : m.getChipAt c.x c.y = some c := chip_at_of_mem r hc
  have hran := (C67_where_is_xy v w h m hr c.x c.y).2 c hat
  obtain ⟨lx, ly, h1, -, h3⟩ := hran.2 boot hb
  have hrange : InRange m.wrap w h (c.x, c.y) := hbd.1
  have hloc := localRaises_false hr
  refine ⟨boot, e, (m.getLocalXY c).1, (m.getLocalXY c).2, hb, he, ?_, ?_, ?_⟩
  · unfold Machine.getChipAt at hb he
    simp only [Machine.whereIsXY, hat, Machine.whereIsChip, PDict.getE, hb, he, hloc, Bool.false_eq_true, if_false,
      showInt_eq_toString, showOpt_eq, toString_str, String.toList_append, List.append_assoc]
    rfl
  · unfold Machine.getLocalXY
    rw [hw, hh]
    exact (local_onBoard_iff m.wrap hs.pos.1 hs.pos.2 (fun l hl => ⟨fun _ => (onBoard_lt hs l hl).1,
      fun _ => (onBoard_lt hs l hl).2⟩) _ _ hrange).2 hbd
  · unfold Machine.getGlobalXY Machine.getLocalXY
    rw [hw, hh]
    exact C07_global_of_local m.wrap _ _ hs.pos.1 hs.pos.2 _ _ _ _ hrange _ _ rfl

theorem whereIsXY_forms {v : Version} {w h : Int} {m : Machine} (hr : Reachable v w h m) (x y : Int) :
    (∃ t, m.whereIsXY x y = 'N' :: "o chip ".toList ++ showInt x ++ ',' :: ' ' :: (showInt y ++ ' ' :: t)) ∨
    (∃ t, m.whereIsXY x y = 'g' :: "lobal chip ".toList ++ showInt x ++ ',' :: ' ' :: (showInt y ++ ' ' :: t)) ∨
    (∃ t, m.whereIsXY x y = '[' :: "Chip: x=".toList ++ showInt x ++ ',' :: (" y=".toList ++ (showInt y ++ ',' :: t))) := by
  obtain ⟨h1, h2⟩ := C67_where_is_xy v w h m hr x y
  obtain ⟨-, -, -, -, -, r⟩ := hr.rep
  cases hc : m.getChipAt x y with
  | none =>
    left
    rw [h1 hc]
    refine ⟨"found".toList, ?_⟩
    simp only [toString_str, String.toList_append, showInt_eq_toString, List.append_assoc]
    rfl
  | some c =>
    obtain ⟨-, rfl, rfl⟩ := mem_of_chip_at r hc
    right
    cases h0 : m.getChipAt 0 0 with
    | none =>
      right
      rw [(h2 c hc).1 h0]
      split
      · refine ⟨s!" n_cores={c.allProcessorIds.length}]".toList, ?_⟩
        simp only [toString_str, String.toList_append, showInt_eq_toString, List.append_assoc]
        rfl
      · refine ⟨s!" ip_address={addrText c.ip} n_cores={c.allProcessorIds.length}]".toList, ?_⟩
        simp only [toString_str, String.toList_append, showInt_eq_toString, List.append_assoc]
        rfl
    | some boot =>
      left
      obtain ⟨lx, ly, g1, g2, -⟩ := (h2 c hc).2 boot h0
      cases he : m.getChipAt c.ethX c.ethY with
      | none =>
        rw [g2 he]
        refine ⟨s!"on {addrText boot.ip} is chip {lx}, {ly} ".toList, ?_⟩
        simp only [toString_str, String.toList_append, showInt_eq_toString, List.append_assoc]
        rfl
      | some e =>
        rw [g1 e he]
        refine ⟨s!"on {addrText boot.ip} is chip {lx}, {ly} on {addrText e.ip}".toList, ?_⟩
        simp only [toString_str, String.toList_append, showInt_eq_toString, List.append_assoc]
        rfl

/-- C67: the text tells which coordinates were asked for. -/
theorem C67_injective (v : Version) (w h : Int) (m : Machine) (hr : Reachable v w h m) (x y x' y' : Int)
    (he : m.whereIsXY x y = m.whereIsXY x' y') : x = x' ∧ y = y' := by
  have k : (',' ≠ '-' ∧ isDig ',' = false) ∧ (' ' ≠ '-' ∧ isDig ' ' = false) := by decide
  rcases whereIsXY_forms hr x y with ⟨t, h1⟩ | ⟨t, h1⟩ | ⟨t, h1⟩ <;>
    rcases whereIsXY_forms hr x' y' with ⟨t', h2⟩ | ⟨t', h2⟩ | ⟨t', h2⟩ <;>
    rw [h1, h2] at he <;> simp only [List.cons_append, List.cons.injEq, Char.reduceEq, false_and, true_and,
      List.append_assoc] at he
  all_goals
    have h3 := List.append_cancel_left he
    obtain ⟨rfl, h4⟩ := showInt_append_inj k.1 h3
    first
    | exact ⟨rfl, (showInt_append_inj k.1 (List.append_cancel_left h4)).1⟩
    | simp only [List.cons.injEq, true_and] at h4
      exact ⟨rfl, (showInt_append_inj k.2 h4).1⟩

/-- C67: `where_is_xy` and `where_is_chip` agree on the chips of the machine, and `where_is_chip` asks
nothing of the chip but its coordinates and its nearest Ethernet if there is a boot chip. -/
theorem C67_where_is_chip (m : Machine) :
    (∀ x y c, m.getChipAt x y = some c → m.whereIsXY x y = m.whereIsChip c) ∧
    (∀ boot c c', m.getChipAt 0 0 = some boot → m.localRaises = false → c.xy = c'.xy →
      (c.ethX, c.ethY) = (c'.ethX, c'.ethY) → m.whereIsChip c = m.whereIsChip c') := by
  refine ⟨fun x y c h => by simp only [Machine.whereIsXY, h], fun boot c c' h0 hl h1 h2 => ?_⟩
  unfold Machine.getChipAt at h0
  simp only [Chip.xy, Prod.mk.injEq] at h1 h2
  delta Machine.whereIsChip Machine.getLocalXY PDict.getE
  rw [h1.1, h1.2, h2.1, h2.2, h0, hl]
  rfl

/-- a machine with two chips and texts of the three kinds -/
def exWhere : Machine × List (Option PyErr) := run exV5
  (Machine.new .none 16 16 VKind.v5.chipCoreMap "t")
  [.addChip (exChip 0 0 0 0 (some "10.0.0.1".toList)), .addChip (exChip 5 9 4 8 none),
   .addChip (exChip 4 8 4 8 (some "10.0.0.2".toList))]

example : exWhere.1.whereIsXY 5 9 = "global chip 5, 9 on 10.0.0.1 is chip 1, 1 on 10.0.0.2".toList ∧
    exWhere.1.whereIsXY 5 10 = "No chip 5, 10 found".toList := by
  constructor <;> decide +kernel

example : ∃ m, Reachable exV5 16 16 m ∧ m.validate exV5 = .ok () ∧
    ∃ c ∈ m.chipList, c.xy = (5, 9) ∧ c.ip = none := by
  refine ⟨exWhere.1, ⟨"t", _, _, rfl, rfl⟩, ?_⟩
  decide +kernel

/-! ## C68 -/

theorem sortedInts_first (l : List Int) (a : Int) (h : pyIndex (Machine.sortedInts l) 0 = .ok a) :
    a ∈ l ∧ ∀ b ∈ l, a ≤ b := by
  obtain ⟨hperm, hsort⟩ := sortedInts_spec l
  generalize Machine.sortedInts l = s at *
  cases s with
  | nil => simp [pyIndex] at h
  | cons c t =>
    simp only [pyIndex] at h
    simp at h
    subst h
    rw [List.pairwise_cons] at hsort
    refine ⟨hperm.subset (by simp), fun b hb => ?_⟩
    rcases List.mem_cons.1 (hperm.symm.subset hb) with rfl | hb
    · exact Int.le_refl _
    · exact hsort.1 b hb

theorem pyIndex_ends {l : List Int} (hl : l ≠ []) : (∃ a, pyIndex l 0 = .ok a) ∧ ∃ a, pyIndex l (-1) = .ok a := by
  cases l with
  | nil => exact absurd rfl hl
  | cons a t =>
    refine ⟨⟨a, by simp [pyIndex]⟩, ?_⟩
    have h1 : ¬ ((-1 : Int) + ((a :: t).length : Int) < 0) := by simp only [List.length_cons]; omega
    have h2 : ((-1 : Int) + ((a :: t).length : Int)).toNat < (a :: t).length := by
      simp only [List.length_cons]; omega
    simp only [pyIndex, show (-1 : Int) < 0 by omega, if_true, h1, if_false, List.getElem?_eq_getElem h2]
    exact ⟨_, rfl⟩

theorem spread_empty {c : PDict Int Int} (h : IsCounter c []) : Machine.spread c = .error .indexError := by
  have hk : c.keys = [] := by
    apply List.eq_nil_iff_forall_not_mem.2
    intro n hn
    simpa using (h.mem_keys n).1 hn
  simp [Machine.spread, hk, Machine.sortedInts, pyIndex]

theorem spread_range {c : PDict Int Int} {l : List Int} (h : IsCounter c l) {lo hi : Int} (hr : Range l lo hi) :
    Machine.spread c = .ok (if lo = hi then .one lo else .between lo hi) := by
  have hmem := h.mem_keys
  obtain ⟨hperm, -⟩ := sortedInts_spec c.keys
  have hne : Machine.sortedInts c.keys ≠ [] := by
    intro he
    rw [he] at hperm
    have : lo ∈ c.keys := (hmem lo).2 hr.lo_mem
    rw [← hperm.nil_eq] at this
    simp at this
  obtain ⟨⟨a, ha⟩, b, hb⟩ := pyIndex_ends hne
  obtain ⟨a1, a2⟩ := sortedInts_first _ _ ha
  obtain ⟨b1, b2⟩ := sortedInts_last _ _ hb
  have ea : a = lo := by
    have h1 := a2 lo ((hmem lo).2 hr.lo_mem)
    have h2 := (hr.le a ((hmem a).1 a1)).1
    omega
  have eb : b = hi := by
    have h1 := b2 hi ((hmem hi).2 hr.hi_mem)
    have h2 := (hr.le b ((hmem b).1 b1)).2
    omega
  subst ea eb
  have hlen : (Machine.sortedInts c.keys).length = 1 ↔ a = b := by
    rw [hperm.length_eq]
    constructor
    · intro hl
      obtain ⟨x, hx⟩ := List.length_eq_one_iff.1 hl
      rw [hx, List.mem_singleton] at a1 b1
      rw [a1, b1]
    · intro hab
      have hall : ∀ n ∈ c.keys, n = a := by
        intro n hn
        have := hr.le n ((hmem n).1 hn)
        omega
      have hnd : c.keys.Nodup := h.wf
      cases hk : c.keys with
      | nil => rw [hk] at a1; simp at a1
      | cons x t =>
        rw [hk] at hall hnd
        cases t with
        | nil => rfl
        | cons y t =>
          exfalso
          have hx := hall x (by simp)
          have hy := hall y (by simp)
          simp [hx, hy] at hnd
  unfold Machine.spread
  simp only [ha, hb]
  by_cases hab : a = b
  · rw [if_pos (hlen.2 hab), if_pos hab]
  · rw [if_neg (fun h => hab (hlen.1 h)), if_neg hab]

theorem coresPart_cases (a b : Int) :
    (Machine.coresPart (.one a) = " ".toList ++ showInt a ++ " cores".toList) ∧
    (Machine.coresPart (.between a b) =
      "between ".toList ++ showInt a ++ " and ".toList ++ showInt b ++ " cores".toList) := by
  delta Machine.coresPart
  exact ⟨rfl, rfl⟩

theorem linksPart_cases (a b : Int) :
    (Machine.linksPart (.one a) = " ".toList ++ showInt a ++ " links.".toList) ∧
    (Machine.linksPart (.between a b) =
      "between ".toList ++ showInt a ++ " and ".toList ++ showInt b ++ " links".toList) := by
  delta Machine.linksPart
  exact ⟨rfl, rfl⟩

/-- C68: the text and the warnings of `summary_string`. For a machine with a boot chip it names the address,
the numbers of chips, cores and links, and the range of SDRAM, router entries, cores and links of the chips,
where the links are those that the chips had when they were added (see `C68_links`). It warns if the chips differ in SDRAM or router entries, with the
counts, or if the one value is not that of the version. -/
theorem C68_summary (v : Version) (w h : Int) (o : String) (m₀ : Machine)
    (h₀ : v.kind.createMachine (some w) (some h) o = .ok m₀) (ops : List Op)
    (m : Machine) (hm : m = (run v m₀ ops).1)
    (boot : Chip) (hb : m.getChipAt 0 0 = some boot) (s₁ s₂ r₁ r₂ c₁ c₂ l₁ l₂ : Int)
    (hs : Range (m.chipList.map Chip.sdram) s₁ s₂)
    (hr : Range (m.chipList.map fun c => c.router.nEntries) r₁ r₂)
    (hc : Range (m.chipList.map fun c => (c.allProcessorIds.length : Int)) c₁ c₂)
    (hl : Range ((added [] ops).map fun c => (c.router.linkList.length : Int)) l₁ l₂) :
    ∃ sdrams entries,
      Counts sdrams (m.chipList.map Chip.sdram) ∧ Counts entries (m.chipList.map fun c => c.router.nEntries) ∧
      m.summaryString v = .ok (
        (if s₁ ≠ s₂ then [.sdramMixed sdrams]
          else if s₁ ≠ v.maxSdram then [.sdramUnexpected s₁ v.maxSdram (boardOf v.kind).2] else []) ++
        (if r₁ ≠ r₂ then [.routerMixed entries]
          else if r₁ ≠ (boardOf v.kind).1 then [.routerUnexpected r₁ (boardOf v.kind).1 (boardOf v.kind).2] else []),
        let chips : Int := m.chipList.length
        let cores : Int := (m.chipList.map fun c => (c.allProcessorIds.length : Int)).sum
        let links := halfText ((added [] ops).map fun c => (c.router.linkList.length : Int)).sum
        let sdramT := if s₁ = s₂ then s!"sdram of {s₁} bytes" else s!"sdram of between {s₁} and {s₂} bytes"
        let routerT := if r₁ = r₂ then s!"router table of size {r₁}" else s!"router table sizes between {r₁} and {r₂}"
        let coresT := if c₁ = c₂ then s!" {c₁} cores" else s!"between {c₁} and {c₂} cores"
        let linksT := if l₁ = l₂ then s!" {l₁} links." else s!"between {l₁} and {l₂} links"
        (s!"Machine on {addrText boot.ip} with {chips} Chips, {cores} cores and {links} links. " ++
          s!"Chips have {sdramT}, {routerT}, {coresT} and {linksT}.").toList) := by
  have hreach : Reachable v w h m := ⟨o, ops, m₀, h₀, hm⟩
  obtain ⟨-, -, -, -, -, rep⟩ := hreach.rep
  obtain ⟨-, rfl⟩ := createMachine_ok h₀
  have r0 := Rep.new (v.kind.wrapFor w h) w h v.kind.chipCoreMap o
  have hL := r0.links_run [] IsCounter.empty v ops
  simp only [List.nil_append] at hL
  rw [← hm] at hL
  have hp : (fun c : Chip => (c.allProcessorIds.length : Int)) = Chip.nProcessors := by
    funext c; simp [Chip.nProcessors, Chip.allProcessorIds]
  rw [hp] at hc ⊢
  have hlk : (fun c : Chip => (c.router.linkList.length : Int)) = nLinksOf := rfl
  rw [hlk] at hl ⊢
  refine ⟨m.sdrams, m.nRouterEntries, rep.sdrams.count, rep.entries.count, ?_⟩
  have e1 := spread_range rep.sdrams hs
  have e2 := spread_range rep.entries hr
  have e3 := spread_range rep.cores hc
  have e4 := spread_range hL hl
  have e5 : m.bootChip = .ok boot := by
    unfold Machine.getChipAt at hb
    simp only [Machine.bootChip, PDict.getE, hb]
  have hbo : boardOf v.kind = (v.kind.nRouterEntries, v.kind.name) := by cases v.kind <;> rfl
  have hn : (m.nChips : Int) = m.chipList.length := by
    have := rep.items
    simp [Machine.nChips, PDict.size, this]
  have hhalf : ∀ t : Int, showHalf t = (halfText t).toList := by
    intro t
    unfold showHalf halfText
    rw [pmod_eq_emod (by omega), show pdiv t 2 = t / 2 from Int.fdiv_eq_ediv_of_nonneg _ (by omega), showInt_eq_toString]
    split <;> simp only [toString_str, String.toList_append]
  have p1 : Machine.sdramPart v m.sdrams (if s₁ = s₂ then .one s₁ else .between s₁ s₂) =
      ((if s₁ ≠ s₂ then [.sdramMixed m.sdrams]
          else if s₁ ≠ v.maxSdram then [.sdramUnexpected s₁ v.maxSdram (boardOf v.kind).2] else []),
        (if s₁ = s₂ then s!"sdram of {s₁} bytes" else s!"sdram of between {s₁} and {s₂} bytes").toList) := by
    by_cases h : s₁ = s₂
    · simp only [if_pos h, Machine.sdramPart, hbo, showInt_eq_toString, toString_str, String.toList_append]
      simp only [h, ne_eq, not_true_eq_false, if_false]
    · simp only [if_neg h, Machine.sdramPart, showInt_eq_toString, toString_str, String.toList_append]
      simp only [h, ne_eq, not_false_eq_true, if_true]
  have p2 : Machine.routerPart v m.nRouterEntries (if r₁ = r₂ then .one r₁ else .between r₁ r₂) =
      ((if r₁ ≠ r₂ then [.routerMixed m.nRouterEntries]
          else if r₁ ≠ (boardOf v.kind).1 then [.routerUnexpected r₁ (boardOf v.kind).1 (boardOf v.kind).2] else []),
        (if r₁ = r₂ then s!"router table of size {r₁}" else s!"router table sizes between {r₁} and {r₂}").toList) := by
    by_cases h : r₁ = r₂
    · simp only [if_pos h, Machine.routerPart, hbo, showInt_eq_toString, toString_str, String.toList_append]
      simp only [h, ne_eq, not_true_eq_false, if_false]
    · simp only [if_neg h, Machine.routerPart, showInt_eq_toString, toString_str, String.toList_append]
      simp only [h, ne_eq, not_false_eq_true, if_true]
  have p3 : Machine.coresPart (if c₁ = c₂ then .one c₁ else .between c₁ c₂) =
      (if c₁ = c₂ then s!" {c₁} cores" else s!"between {c₁} and {c₂} cores").toList := by
    by_cases h : c₁ = c₂
    · simp only [if_pos h, (coresPart_cases c₁ c₂).1, showInt_eq_toString, toString_str, String.toList_append]
    · simp only [if_neg h, (coresPart_cases c₁ c₂).2, showInt_eq_toString, toString_str, String.toList_append]
  have p4 : Machine.linksPart (if l₁ = l₂ then .one l₁ else .between l₁ l₂) =
      (if l₁ = l₂ then s!" {l₁} links." else s!"between {l₁} and {l₂} links").toList := by
    by_cases h : l₁ = l₂
    · simp only [if_pos h, (linksPart_cases l₁ l₂).1, showInt_eq_toString, toString_str, String.toList_append]
    · simp only [if_neg h, (linksPart_cases l₁ l₂).2, showInt_eq_toString, toString_str, String.toList_append]
  simp only [Machine.summaryString, e1, e2, e3, e4, e5, bind, Except.bind, p1, p2, p3, p4, hhalf, showOpt_eq,
    showInt_eq_toString, Machine.getCoresCount, rep.cores.total, hL.total, hn]
  generalize (if s₁ = s₂ then s!"sdram of {s₁} bytes" else s!"sdram of between {s₁} and {s₂} bytes") = t1
  generalize (if r₁ = r₂ then s!"router table of size {r₁}" else s!"router table sizes between {r₁} and {r₂}") = t2
  generalize (if c₁ = c₂ then s!" {c₁} cores" else s!"between {c₁} and {c₂} cores") = t3
  generalize (if l₁ = l₂ then s!" {l₁} links." else s!"between {l₁} and {l₂} links") = t4
  have q : " links. Chips have ".toList = " links. ".toList ++ "Chips have ".toList := by decide +kernel
  simp only [toString_str, String.toList_append, List.append_assoc, q]

/-- C68: if no link was added late, the chips as they were added are the chips of the machine. -/
theorem C68_links (v : Version) (w h : Int) (o : String) (m₀ : Machine)
    (h₀ : v.kind.createMachine (some w) (some h) o = .ok m₀) (ops : List Op)
    (hops : ∀ op ∈ ops, op.isAddLink = false) : added [] ops = (run v m₀ ops).1.chipList := by
  obtain ⟨-, rfl⟩ := createMachine_ok h₀
  have r0 := Rep.new (v.kind.wrapFor w h) w h v.kind.chipCoreMap o
  have hA := added_chips [] ops hops
  have hcl : (run v (Machine.new (v.kind.wrapFor w h) w h v.kind.chipCoreMap o) ops).1.chipList =
      (absRun [] ops).1 := (r0.run v ops).1.values
  rw [hcl, hA]
  rfl

/-- the extreme values of a list that is not empty -/
theorem range_exists (l : List Int) (hl : l ≠ []) : ∃ lo hi, Range l lo hi := by
  induction l with
  | nil => exact absurd rfl hl
  | cons a t ih =>
    by_cases ht : t = []
    · subst ht; exact ⟨a, a, by simp, by simp, by simp⟩
    · obtain ⟨lo, hi, h1, h2, h3⟩ := ih ht
      refine ⟨if a ≤ lo then a else lo, if hi ≤ a then a else hi, ?_, ?_, ?_⟩
      · split <;> simp [h1]
      · split <;> simp [h2]
      · intro n hn
        rcases List.mem_cons.1 hn with rfl | hn
        · split <;> split <;> omega
        · have := h3 n hn
          split <;> split <;> omega

theorem length_added (v : Version) (ops : List Op) {m : Machine} {s : Chips} (r : Rep m s) :
    (absRun s ops).1.length = s.length + (added s ops).length := by
  induction ops generalizing m s with
  | nil => simp [absRun, added]
  | cons o os ih =>
    simp only [absRun, added, List.length_append]
    rw [ih (r.step v o).1]
    have : (absStep s o).1.length = s.length + (addedBy s o).length := by
      have : s.length ≤ (absStep s o).1.length := by
        cases o with
        | addChip c => simp only [absStep, Chips.add]; split <;> simp
        | addChips cs => obtain ⟨t, ht⟩ := addAll_appends s cs; simp [absStep, ht]
        | addLink p l => simp only [absStep, length_absAddLink]; exact Nat.le_refl _
        | addSpinnakerLinks => exact Nat.le_refl _
        | addFpgaLinks => exact Nat.le_refl _
      simp only [addedBy, List.length_drop]
      omega
    omega

/-- C68: when `summary_string` raises: IndexError if there is no chip at all, KeyError if there are chips
but no boot chip (the documentation says AttributeError). Otherwise it does not. -/
theorem C68_raises (v : Version) (w h : Int) (m : Machine) (hr : Reachable v w h m) :
    (m.chipList = [] → m.summaryString v = .error .indexError) ∧
    (m.chipList ≠ [] → m.getChipAt 0 0 = none → m.summaryString v = .error .keyError) ∧
    (∀ boot, m.getChipAt 0 0 = some boot → ∃ r, m.summaryString v = .ok r) := by
  have hr' := hr
  obtain ⟨-, -, -, -, -, rep⟩ := hr.rep
  obtain ⟨o, ops, m₀, h₀, hm⟩ := hr'
  have hcre := h₀
  obtain ⟨-, rfl⟩ := createMachine_ok h₀
  have r0 := Rep.new (v.kind.wrapFor w h) w h v.kind.chipCoreMap o
  have hL := r0.links_run [] IsCounter.empty v ops
  have hlen := length_added v ops r0
  simp only [List.nil_append] at hL
  have hcl : m.chipList = (absRun [] ops).1 := by
    rw [hm]; exact (r0.run v ops).1.values
  rw [← hm] at hL
  rw [← hcl] at hlen
  refine ⟨fun he => ?_, fun hne h0 => ?_, fun boot hb => ?_⟩
  · have hs := rep.sdrams
    rw [he] at hs
    simp [Machine.summaryString, spread_empty hs, bind, Except.bind]
  · have ne : ∀ f : Chip → Int, m.chipList.map f ≠ [] := fun f => by simpa using hne
    have na : (added [] ops).map nLinksOf ≠ [] := by
      intro h
      simp only [List.map_eq_nil_iff] at h
      rw [h] at hlen
      exact hne (List.length_eq_zero_iff.1 (by simpa using hlen))
    obtain ⟨_, _, k1⟩ := range_exists _ (ne Chip.sdram)
    obtain ⟨_, _, k2⟩ := range_exists _ (ne fun c => c.router.nEntries)
    obtain ⟨_, _, k3⟩ := range_exists _ (ne Chip.nProcessors)
    obtain ⟨_, _, k4⟩ := range_exists _ na
    unfold Machine.getChipAt at h0
    simp only [Machine.summaryString, spread_range rep.sdrams k1, spread_range rep.entries k2,
      spread_range rep.cores k3, spread_range hL k4, Machine.bootChip, PDict.getE, h0, bind, Except.bind]
  · have hne : m.chipList ≠ [] := by
      intro he
      have := (mem_of_chip_at rep hb).1
      rw [he] at this; simp at this
    have ne : ∀ f : Chip → Int, m.chipList.map f ≠ [] := fun f => by simpa using hne
    have na : (added [] ops).map nLinksOf ≠ [] := by
      intro h
      simp only [List.map_eq_nil_iff] at h
      rw [h] at hlen
      exact hne (List.length_eq_zero_iff.1 (by simpa using hlen))
    obtain ⟨_, _, k1⟩ := range_exists _ (ne Chip.sdram)
    obtain ⟨_, _, k2⟩ := range_exists _ (ne fun c => c.router.nEntries)
    obtain ⟨_, _, k3⟩ := range_exists _ (ne fun c => (c.allProcessorIds.length : Int))
    obtain ⟨_, _, k4⟩ := range_exists _ na
    obtain ⟨_, _, -, -, h⟩ := C68_summary v w h o _ hcre ops m hm boot hb _ _ _ _ _ _ _ _ k1 k2 k3 k4
    exact ⟨_, h⟩

/-- the summary of a machine of three chips -/
example : (match exWhere.1.summaryString exV5 with | .ok r => some r | .error _ => none) =
    some ([.sdramUnexpected 1000 123469792 "Spin1 48 Chip"],
      ("Machine on 10.0.0.1 with 3 Chips, 18 cores and 0.0 links. " ++
      "Chips have sdram of 1000 bytes, router table of size 1023,  6 cores and  0 links..").toList) := by
  decide +kernel

end SpiNN.Props
