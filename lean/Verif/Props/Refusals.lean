import Verif.Props.Settings
import Verif.Props.VirtualMachine
import Verif.Props.DownSets

/-!
# What `virtual_machine` raises, and when (C102)
-/

namespace SpiNN.Props
open SpiNN Spec

theorem chips_read (s : Option PyStr) :
    (Read ChipText s → ∃ l, IgnoreChip.parseString s = .ok l) ∧
    (¬ Read ChipText s → IgnoreChip.parseString s = .error .valueError) := by
  constructor
  · rintro (rfl | ⟨t, rfl, hn⟩ | ⟨t, cs, rfl, hw⟩)
    · exact ⟨_, rfl⟩
    · exact ⟨_, (C53_none .v3 (some t) (.inr ⟨t, rfl, hn⟩)).1⟩
    · obtain ⟨l, hl, -⟩ := (C78_chips t).1 cs hw; exact ⟨l, hl⟩
  · intro h
    unfold Read at h
    simp only [not_or, not_exists, not_and] at h
    cases s with
    | none => exact absurd rfl h.1
    | some t => exact (C78_chips t).2.1 (fun ⟨cs, hw⟩ => h.2.2 t cs rfl hw) (h.2.1 t rfl)

theorem links_read (s : Option PyStr) :
    (Read LinkText s → ∃ l, IgnoreLink.parseString s = .ok l) ∧
    (¬ Read LinkText s → IgnoreLink.parseString s = .error .valueError) := by
  constructor
  · rintro (rfl | ⟨t, rfl, hn⟩ | ⟨t, cs, rfl, hw⟩)
    · exact ⟨_, rfl⟩
    · exact ⟨_, (C53_none .v3 (some t) (.inr ⟨t, rfl, hn⟩)).2.1⟩
    · obtain ⟨l, hl, -⟩ := (C78_links t).1 cs hw; exact ⟨l, hl⟩
  · intro h
    unfold Read at h
    simp only [not_or, not_exists, not_and] at h
    cases s with
    | none => exact absurd rfl h.1
    | some t => exact (C78_links t).2.1 (fun ⟨cs, hw⟩ => h.2.2 t cs rfl hw) (h.2.1 t rfl)

theorem cores_read (k : VKind) (s : Option PyStr) :
    (Read (CoreText k) s → ∃ l, IgnoreCore.parseString k s = .ok l) ∧
    (¬ Read (CoreText k) s → ∃ e, IgnoreCore.parseString k s = .error e ∧
      (e = .valueError ∨ e = .configError ∨ (e = .keyError ∧ k.isSpin1 = false))) := by
  constructor
  · rintro (rfl | ⟨t, rfl, hn⟩ | ⟨t, cs, rfl, hw⟩)
    · exact ⟨_, rfl⟩
    · exact ⟨_, (C53_none k (some t) (.inr ⟨t, rfl, hn⟩)).2.2⟩
    · obtain ⟨l, hl, -⟩ := (C78_cores k t).1 cs hw; exact ⟨l, hl⟩
  · intro h
    unfold Read at h
    simp only [not_or, not_exists, not_and] at h
    cases s with
    | none => exact absurd rfl h.1
    | some t =>
      rcases (C78_cores k t).2.1 (fun ⟨cs, hw⟩ => h.2.2 t cs rfl hw) (h.2.1 t rfl) with h | h | ⟨h, hk⟩
      · exact ⟨_, h, .inl rfl⟩
      · exact ⟨_, h, .inr (.inl rfl)⟩
      · exact ⟨_, h, .inr (.inr ⟨rfl, hk⟩)⟩

/-- down_cores names, without an IP address, a physical core beyond those that exist -/
def NamesUnknownCore (k : VKind) (cfg : DownCfg) : Prop :=
  ∃ s cs item c, cfg.cores = some s ∧ Written (CoreText k) s cs ∧ item ∈ cs ∧ c ∈ item ∧ c.ip = none ∧ c.p < -17

theorem ofCores_error {ps : List IgnoreCore} {e : PyErr} (h : Down.ofCores ps = .error e) : e = .keyError := by
  unfold Down.ofCores at h
  generalize ps.filter (fun c => c.ip.isNone) = l at h
  induction l with
  | nil => simp [mapE] at h
  | cons c l ih =>
    simp only [mapE] at h
    obtain ⟨h1, h2, h3, -⟩ := C55_virtual_p_partial c c
    cases hc : c.virtualP with
    | error e' =>
      rw [hc] at h
      have he : e' = .keyError := by
        by_cases hp : 0 < c.p
        · rw [h1 hp] at hc; cases hc
        · by_cases hq : -17 ≤ c.p
          · obtain ⟨q, hq⟩ := (h2 (by omega)).2 hq
            rw [hq] at hc; cases hc
          · rw [h3 (by omega)] at hc; cases hc; rfl
      simp at h
      rw [← h, he]
    | ok q =>
      rw [hc] at h
      simp only at h
      split at h
      · rename_i e' heq; cases h; exact ih heq
      · cases h

/-- what each of the settings does to the reading of all of them -/
theorem read_outcome (v : Version) (cfg : DownCfg) (w : Int) :
    (¬ Read ChipText cfg.chips → Down.read v cfg w = .error .valueError) ∧
    (Read ChipText cfg.chips → ¬ Read (CoreText v.kind) cfg.cores → ∃ e, Down.read v cfg w = .error e ∧
      (e = .valueError ∨ e = .configError ∨ (e = .keyError ∧ v.kind.isSpin1 = false))) ∧
    (Read ChipText cfg.chips → NamesUnknownCore v.kind cfg → Down.read v cfg w = .error .keyError) ∧
    (Read ChipText cfg.chips → Read (CoreText v.kind) cfg.cores → ¬ NamesUnknownCore v.kind cfg →
      ¬ Read LinkText cfg.links → Down.read v cfg w = .error .valueError) := by
  refine ⟨fun h => ?_, fun h1 h => ?_, fun h1 h => ?_, fun h1 h2 h3 h => ?_⟩
  · simp only [Down.read, (chips_read _).2 h]
  · obtain ⟨l, hl⟩ := (chips_read _).1 h1
    obtain ⟨e, he, hk⟩ := (cores_read _ _).2 h
    exact ⟨e, by simp only [Down.read, hl, he], hk⟩
  · obtain ⟨l, hl⟩ := (chips_read _).1 h1
    obtain ⟨s, cs, item, c, hs, hw, hi, hc, hip, hp⟩ := h
    obtain ⟨ps, hps, -, hm⟩ := (C78_cores v.kind s).1 cs hw
    have hno : ¬ ∃ r, Down.ofCores ps = .ok r := by
      rw [ofCores_ok_iff]
      intro hall
      obtain ⟨q, hq⟩ := hall c ((hm c).2 ⟨item, hi, hc⟩) hip
      rw [C55_closed_form] at hq
      omega
    cases ho : Down.ofCores ps with
    | ok r => exact absurd ⟨r, ho⟩ hno
    | error e =>
      have := ofCores_error ho
      subst this
      simp only [Down.read, hl, hs, hps, ho]
  · obtain ⟨l, hl⟩ := (chips_read _).1 h1
    obtain ⟨ps, hps⟩ := (cores_read _ _).1 h2
    have hlk := (links_read _).2 h
    cases ho : Down.ofCores ps with
    | ok r => simp only [Down.read, hl, hps, ho, hlk]
    | error e =>
      exfalso
      have hno : ¬ ∃ r, Down.ofCores ps = .ok r := by rw [ho]; simp
      rw [ofCores_ok_iff] at hno
      simp only [Classical.not_forall, not_exists] at hno
      obtain ⟨c, hc, hip, hq⟩ := hno
      refine h3 ?_
      rcases h2 with h0 | ⟨t, ht, hn⟩ | ⟨t, cs, ht, hw⟩
      · rw [h0] at hps; cases hps; simp at hc
      · rw [(C53_none v.kind cfg.cores (.inr ⟨t, ht, hn⟩)).2.2] at hps; cases hps; simp at hc
      · obtain ⟨ps', hps', -, hm⟩ := (C78_cores v.kind t).1 cs hw
        rw [ht, hps'] at hps
        cases hps
        obtain ⟨item, hi, hci⟩ := (hm c).1 hc
        refine ⟨t, cs, item, c, ht, hw, hi, hci, hip, ?_⟩
        refine Classical.byContradiction fun hlt => ?_
        by_cases ha : 0 < c.p
        · exact hq c.p ((C55_closed_form c c.p).2 (.inl ⟨ha, rfl⟩))
        · by_cases hb : c.p = -10
          · exact hq 0 ((C55_closed_form c 0).2 (.inr (.inl ⟨hb, rfl⟩)))
          · exact hq _ ((C55_closed_form c _).2 (.inr (.inr ⟨by omega, by omega, hb, rfl⟩)))

theorem vm_read_error {v : Version} {cfg : DownCfg} {w h : Int} {validate : Bool} {e : PyErr} (hs : SizeOK v.kind w h)
    (hd : Down.read v cfg w = .error e) : virtualMachine v cfg w h validate = .error e := by
  have hv : v.kind.verifySize (some w) (some h) = .ok () := (verifySize_iff _ _ _).2 ⟨w, h, rfl, rfl, hs⟩
  obtain ⟨o, ho⟩ : ∃ o, v.kind.createMachine (some w) (some h) "Virtual" = .ok o := by
    obtain ⟨m, hm⟩ := (C30_succeeds v {} w h).1 hs ⟨⟨_, rfl⟩, ⟨_, rfl⟩, ⟨_, rfl, by simp⟩⟩
    obtain ⟨-, -, -, -, -, ⟨o, ho, -⟩, -⟩ := vm_ok hm
    exact ⟨o, ho⟩
  simp only [virtualMachine, hv, ho, hd]

/-- C102: what `virtual_machine` does, for every version, size and setting: the checks come in this order, and the
first that fails decides which exception is raised. -/
theorem C102_outcome (v : Version) (cfg : DownCfg) (w h : Int) (validate : Bool) :
    (¬ SizeOK v.kind w h → virtualMachine v cfg w h validate = .error .machine) ∧
    (SizeOK v.kind w h →
      (¬ Read ChipText cfg.chips → virtualMachine v cfg w h validate = .error .valueError) ∧
      (Read ChipText cfg.chips →
        (¬ Read (CoreText v.kind) cfg.cores → ∃ e, virtualMachine v cfg w h validate = .error e ∧
          (e = .valueError ∨ e = .configError ∨ (e = .keyError ∧ v.kind.isSpin1 = false))) ∧
        (NamesUnknownCore v.kind cfg → virtualMachine v cfg w h validate = .error .keyError) ∧
        (Read (CoreText v.kind) cfg.cores → ¬ NamesUnknownCore v.kind cfg →
          (¬ Read LinkText cfg.links → virtualMachine v cfg w h validate = .error .valueError) ∧
          (Read LinkText cfg.links → ∃ m, virtualMachine v cfg w h false = .ok m ∧
            ((¬ ChipDown cfg (0, 0) ∧
              (∀ e ∈ v.kind.potentialEthernetChips w h, ChipDown cfg e →
                ∀ p, BoardAt v.kind m.wrap w h e p → ChipDown cfg p) ∧
              ∀ c ∈ m.chipList, (if v.kind = .v3 ∨ v.kind = .v5 then 5 else 100) ≤ c.allProcessorIds.length) →
              virtualMachine v cfg w h true = .ok m) ∧
            (¬ (¬ ChipDown cfg (0, 0) ∧
              (∀ e ∈ v.kind.potentialEthernetChips w h, ChipDown cfg e →
                ∀ p, BoardAt v.kind m.wrap w h e p → ChipDown cfg p) ∧
              ∀ c ∈ m.chipList, (if v.kind = .v3 ∨ v.kind = .v5 then 5 else 100) ≤ c.allProcessorIds.length) →
              virtualMachine v cfg w h true = .error .machine))))) := by
  have herr : ∀ e, SizeOK v.kind w h → Down.read v cfg w = .error e → virtualMachine v cfg w h validate = .error e :=
    fun e hs hd => vm_read_error hs hd
  obtain ⟨r1, r2, r3, r4⟩ := read_outcome v cfg w
  refine ⟨fun hs => (C30_succeeds v cfg w h).2.1 hs validate, fun hs => ⟨fun hc => herr _ hs (r1 hc), fun hc =>
    ⟨fun hp => ?_, fun hn => herr _ hs (r3 hc hn), fun hp hn => ⟨fun hl => herr _ hs (r4 hc hp hn hl), fun hl => ?_⟩⟩⟩⟩
  · obtain ⟨e, he, hk⟩ := r2 hc hp
    exact ⟨e, herr _ hs he, hk⟩
  · have hread : Readable v.kind cfg := (C78_readable v.kind cfg).2 ⟨hc, hl, hp, fun s cs hsome hw item hi c hci hip => by
      refine Classical.byContradiction fun hlt => ?_
      exact hn ⟨s, cs, item, c, hsome, hw, hi, hci, hip, by omega⟩⟩
    obtain ⟨m, hm⟩ := (C30_succeeds v cfg w h).1 hs hread
    have hiff := C33_validates_iff v cfg w h m hm
    refine ⟨m, hm, hiff.2, fun hno => ?_⟩
    obtain ⟨d, hd⟩ := (read_ok_iff v cfg w).2 hread
    obtain ⟨m1, -, -, -, h4⟩ := vm_build hs cfg d hd
    have hf := h4 false
    rw [hm] at hf
    simp only [Bool.false_eq_true, if_false, Except.ok.injEq] at hf
    have ht := h4 true
    rw [ht]
    subst hf
    cases hval : m.validate v with
    | ok u => rw [hval] at ht; exact absurd (hiff.1 (by simpa using ht)) hno
    | error e => rw [C21_refusal v m e hval]; simp

/-- C102: so if `virtual_machine` raises, it raises one of four exceptions, a SpinnMachineException only for an
unsupported size or a machine that does not validate, and the others only for a setting that cannot be read. -/
theorem C102_exceptions (v : Version) (cfg : DownCfg) (w h : Int) (validate : Bool) (e : PyErr)
    (he : virtualMachine v cfg w h validate = .error e) :
    (e = .machine ∧ (¬ SizeOK v.kind w h ∨ (Readable v.kind cfg ∧ validate = true))) ∨
    ((e = .valueError ∨ e = .configError ∨ e = .keyError) ∧ SizeOK v.kind w h ∧ ¬ Readable v.kind cfg) := by
  obtain ⟨h1, h2⟩ := C102_outcome v cfg w h validate
  by_cases hs : SizeOK v.kind w h
  · obtain ⟨h3, h4⟩ := h2 hs
    by_cases hread : Readable v.kind cfg
    · obtain ⟨a, b, c, d⟩ := (C78_readable v.kind cfg).1 hread
      obtain ⟨m, hm, g1, g2⟩ := ((h4 a).2.2 c (by
        rintro ⟨s, cs, item, q, k1, k2, k3, k4, k5, k6⟩
        have := d s cs k1 k2 item k3 q k4 k5
        omega)).2 b
      cases validate with
      | false => rw [hm] at he; cases he
      | true =>
        refine .inl ⟨?_, .inr ⟨hread, rfl⟩⟩
        by_cases hval : ¬ ChipDown cfg (0, 0) ∧
              (∀ e ∈ v.kind.potentialEthernetChips w h, ChipDown cfg e →
                ∀ p, BoardAt v.kind m.wrap w h e p → ChipDown cfg p) ∧
              ∀ c ∈ m.chipList, (if v.kind = .v3 ∨ v.kind = .v5 then 5 else 100) ≤ c.allProcessorIds.length
        · rw [g1 hval] at he; cases he
        · rw [g2 hval] at he; cases he; rfl
    · refine .inr ⟨?_, hs, hread⟩
      by_cases a : Read ChipText cfg.chips
      · by_cases c : Read (CoreText v.kind) cfg.cores
        · by_cases n : NamesUnknownCore v.kind cfg
          · rw [(h4 a).2.1 n] at he; cases he; exact .inr (.inr rfl)
          · by_cases b : Read LinkText cfg.links
            · refine absurd ((C78_readable v.kind cfg).2 ⟨a, b, c, fun s cs k1 k2 item k3 q k4 k5 => ?_⟩) hread
              refine Classical.byContradiction fun k6 => n ⟨s, cs, item, q, k1, k2, k3, k4, k5, by omega⟩
            · rw [((h4 a).2.2 c n).1 b] at he; cases he; exact .inl rfl
        · obtain ⟨e', he', hk⟩ := (h4 a).1 c
          rw [he'] at he
          cases he
          rcases hk with rfl | rfl | ⟨rfl, -⟩ <;> simp
      · rw [h3 a] at he; cases he; exact .inl rfl
  · rw [h1 hs] at he; cases he; exact .inl ⟨rfl, .inl hs⟩

/-- each of the outcomes occurs: sizes and settings of a four chip board -/
example : virtualMachine exSmall {} 3 3 true = .error .machine ∧
    virtualMachine exSmall { chips := some "1".toList } 2 2 false = .error .valueError ∧
    virtualMachine exSmall { cores := some "0,0,x".toList } 2 2 false = .error .configError ∧
    virtualMachine exSmall { cores := some "0,0,-20".toList } 2 2 false = .error .keyError ∧
    virtualMachine exSmall { cores := some "0,0".toList, links := some "1,1,0".toList } 2 2 false =
      .error .valueError ∧
    virtualMachine exSmall { links := some "1,1".toList } 2 2 false = .error .valueError ∧
    virtualMachine exSmall { chips := some "0,0".toList } 2 2 true = .error .machine ∧
    (match virtualMachine exSmall { chips := some "0,0".toList } 2 2 false with
      | .ok m => decide (m.nChips = 3) | .error _ => false) = true := by decide +kernel

/-- the hypothesis about unknown cores is met -/
example : NamesUnknownCore exSmall.kind { cores := some "0,0,-20".toList } := by
  have h : virtualMachine exSmall { cores := some "0,0,-20".toList } 2 2 false = .error .keyError := by decide +kernel
  have hs : SizeOK exSmall.kind 2 2 := by simp [exSmall, SizeOK]
  obtain ⟨h1, h2, h3⟩ := ((C102_outcome exSmall { cores := some "0,0,-20".toList } 2 2 false).2 hs).2 (.inl rfl)
  refine Classical.byContradiction fun hn => ?_
  by_cases hr : Read (CoreText exSmall.kind) (some "0,0,-20".toList)
  · obtain ⟨m, hm, -⟩ := (h3 hr hn).2 (.inl rfl)
    rw [hm] at h; cases h
  · obtain ⟨e, he, hk⟩ := h1 hr
    rw [he] at h
    cases h
    rcases hk with hk | hk | ⟨-, hk⟩
    · cases hk
    · cases hk
    · exact absurd hk (by decide)

end SpiNN.Props
