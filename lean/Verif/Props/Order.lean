import Verif.Props.Unused
import Verif.Props.Machine

/-!
# A machine is determined by its chips, not by its history (C74)
-/

namespace SpiNN.Props
open SpiNN Spec

theorem mem_chipList_iff {m : Machine} (r : Rep m m.chipList) (c : Chip) :
    c ∈ m.chipList ↔ m.getChipAt c.x c.y = some c := by
  constructor
  · exact chip_at_of_mem r
  · intro h; exact (mem_of_chip_at r h).1

theorem chipList_nodup {m : Machine} (r : Rep m m.chipList) : m.chipList.Nodup := by
  have := r.nodup
  rw [List.Nodup, List.pairwise_map] at this
  exact List.Pairwise.imp (fun hne heq => hne (by rw [heq])) this

theorem rep_values {m : Machine} {s : Chips} (r : Rep m s) : Rep m m.chipList := by
  unfold Machine.chipList; rw [r.values]; exact r

theorem perm_of_mem {α : Type} [DecidableEq α] {l l' : List α} (h : l.Nodup) (h' : l'.Nodup)
    (hm : ∀ a, a ∈ l ↔ a ∈ l') : l.Perm l' := by
  rw [List.perm_iff_count]
  intro a
  rw [h.count, h'.count]
  simp only [hm a]

theorem perm_sum {l l' : List Int} (h : l.Perm l') : l.sum = l'.sum := by
  induction h with
  | nil => rfl
  | cons a _ ih => simp [ih]
  | swap a b l => simp only [List.sum_cons]; omega
  | trans _ _ h1 h2 => exact h1.trans h2

/-- C74: two machines of the same size with the same chip at every coordinate answer every query in
the same way, whatever history led to them: the same numbers, the same verdict of `validate`, and the
same chips, Ethernet chips and problems (possibly in another order). -/
theorem C74_same_chips (v : Version) (w h : Int) (m m' : Machine) (hr : Reachable v w h m)
    (hr' : Reachable v w h m') (hsame : ∀ x y, m'.getChipAt x y = m.getChipAt x y) :
    m'.chipList.Perm m.chipList ∧ m'.chipCoordinates.Perm m.chipCoordinates ∧
    m'.ethernetChips.Perm m.ethernetChips ∧ m'.nChips = m.nChips ∧ m'.bootAddr = m.bootAddr ∧
    m'.getCoresCount = m.getCoresCount ∧ m'.totalCores = m.totalCores ∧
    m'.totalAvailableUserCores = m.totalAvailableUserCores ∧ m'.minNRouterEnteries = m.minNRouterEnteries ∧
    m'.validate v = m.validate v ∧ m'.getUnusedXY = m.getUnusedXY ∧
    m'.unreachableOutgoingChips.Perm m.unreachableOutgoingChips ∧
    m'.unreachableIncomingChips.Perm m.unreachableIncomingChips ∧
    m'.unreachableOutgoingLocalChips.Perm m.unreachableOutgoingLocalChips ∧
    m'.unreachableIncomingLocalChips.Perm m.unreachableIncomingLocalChips ∧
    m'.oneWayLinks.Perm m.oneWayLinks := by
  obtain ⟨hs, hwr, hw, hh, hcc, r⟩ := hr.rep
  obtain ⟨-, hwr', hw', hh', hcc', r'⟩ := hr'.rep
  have hpos := hs.pos
  have hget : ∀ p, m'.chips.get? p = m.chips.get? p := fun p => hsame p.1 p.2
  have hcon : m'.chips.contains = m.chips.contains := by
    funext p; unfold PDict.contains; rw [hget]
  have hlink : ∀ x y i, m'.isLinkAt x y i = m.isLinkAt x y i := by
    intro x y i; unfold Machine.isLinkAt; rw [hget]
  have hperm : m'.chipList.Perm m.chipList := perm_of_mem (chipList_nodup r') (chipList_nodup r) fun c => by
    rw [mem_chipList_iff r, mem_chipList_iff r', hsame]
  have hkeys : m'.chipCoordinates.Perm m.chipCoordinates := by
    unfold Machine.chipCoordinates
    rw [r.keys, r'.keys]
    exact hperm.map _
  have heths : m'.ethernetChips.Perm m.ethernetChips := by
    rw [r.eths, r'.eths]; exact hperm.filter _
  have hboot : m'.bootAddr = m.bootAddr := by
    rw [(C20_ethernet_chips v w h m hr).2.2.1, (C20_ethernet_chips v w h m' hr').2.2.1, hsame]
  have htot : m'.totalCores = m.totalCores := by
    unfold Machine.totalCores
    exact perm_sum (hperm.map _)
  refine ⟨hperm, hkeys, heths, ?_, hboot, ?_, htot, ?_, ?_, ?_, ?_, ?_, ?_, ?_, ?_, ?_⟩
  · have := hperm.length_eq
    simpa [Machine.nChips, Machine.chipList, PDict.values, PDict.size] using this
  · rw [← (C19_cores_count v w h m hr).2.1, ← (C19_cores_count v w h m' hr').2.1, htot]
  · unfold Machine.totalAvailableUserCores
    exact perm_sum (hperm.map _)
  · have hmem : ∀ n m1 m2, Reachable v w h m1 → Reachable v w h m2 → m1.chipList.Perm m2.chipList →
        m1.minNRouterEnteries = .ok n → m2.minNRouterEnteries = .ok n := by
      intro n m1 m2 q1 q2 qp qn
      obtain ⟨⟨c, hc, a1⟩, a2⟩ := C26_is_maximum v w h m1 q1 n qn
      obtain ⟨k, hk⟩ := (C26_total v w h m2 q2).2 (List.ne_nil_of_mem (qp.mem_iff.1 hc))
      obtain ⟨⟨c2, hc2, b1⟩, b2⟩ := C26_is_maximum v w h m2 q2 k hk
      have := a2 c2 (qp.mem_iff.2 hc2)
      have := b2 c (qp.mem_iff.1 hc)
      have : n = k := by omega
      rw [this]; exact hk
    have herr : ∀ (m1 : Machine) e, m1.minNRouterEnteries = .error e → e = .indexError := by
      intro m1 e he
      unfold Machine.minNRouterEnteries pyIndex at he
      simp only [show (-1 : Int) < 0 by decide, if_true] at he
      split at he
      · simpa using he.symm
      · split at he <;> simp_all
    cases hn : m.minNRouterEnteries with
    | ok n => exact hmem n m m' hr hr' hperm.symm hn
    | error e =>
      cases hn' : m'.minNRouterEnteries with
      | ok n => rw [hmem n m' m hr' hr hperm hn'] at hn; simp at hn
      | error e' => rw [herr _ _ hn, herr _ _ hn']
  · have hlegal : LegalMachine v w h m' ↔ LegalMachine v w h m := by
      unfold LegalMachine
      simp only [hsame, heths.length_eq, hperm.mem_iff, hwr, hwr']
    rw [← C21_validate_exact v w h m hr, ← C21_validate_exact v w h m' hr'] at hlegal
    cases hv : m.validate v with
    | ok u => exact hlegal.2 hv
    | error e =>
      cases hv' : m'.validate v with
      | ok u => rw [hlegal.1 hv'] at hv; simp at hv
      | error e' => rw [C21_refusal v m e hv, C21_refusal v m' e' hv']
  · obtain ⟨p, hp, h1⟩ := C25_returns_first_unused m (by omega)
    obtain ⟨p', hp', h1'⟩ := C25_returns_first_unused m' (by omega)
    have hused : ∀ q, Used m' q ↔ Used m q := by
      intro q
      unfold Used Machine.isChipAt
      rw [hcon]
      simp only [heths.mem_iff, Machine.xysByEthernet, hwr, hwr', hw, hw', hh, hh', hcc, hcc']
    have : FirstUnused m p' := by
      unfold FirstUnused at h1' ⊢
      simpa only [hused, hh, hh'] using h1'
    rw [hp, hp', firstUnused_unique m p p' h1 this]
  · unfold Machine.unreachableOutgoingChips
    simp only [hlink]
    exact hkeys.filter _
  · unfold Machine.unreachableIncomingChips
    simp only [hlink]
    exact hkeys.filter _
  · unfold Machine.unreachableOutgoingLocalChips
    simp only [hget]
    exact (hperm.filter _).map _
  · unfold Machine.unreachableIncomingLocalChips
    simp only [hget]
    exact (hperm.filter _).map _
  · unfold Machine.oneWayLinks
    simp only [hlink]
    exact hperm.flatMap_right _

theorem addAll_nodup (cs : List Chip) : ∀ s : Chips, ((s ++ cs).map Chip.xy).Nodup → s.addAll cs = (s ++ cs, none) := by
  induction cs with
  | nil => intro s _; simp [Chips.addAll]
  | cons c t ih =>
    intro s hn
    have hnot : c.xy ∉ s.map Chip.xy := by
      rw [List.map_append, List.nodup_append] at hn
      intro hmem
      exact hn.2.2 _ hmem c.xy (by simp) rfl
    have hadd : s.add c = (s ++ [c], none) := by
      unfold Chips.add
      rw [if_neg (by rw [Chips.at_isSome_iff]; exact hnot)]
    unfold Chips.addAll
    rw [hadd]
    simp only
    rw [ih _ (by simpa using hn)]
    simp

/-- C74: adding the same chips (no two at the same place) in any order to a new machine always succeeds and
gives machines with the same chip at every coordinate and the same number of links, so that they
agree on everything listed in `C74_same_chips`. -/
theorem C74_any_order (v : Version) (w h : Int) (o : String) (m₀ : Machine)
    (h₀ : v.kind.createMachine (some w) (some h) o = .ok m₀) (cs cs' : List Chip) (hn : (cs.map Chip.xy).Nodup)
    (hp : cs'.Perm cs) :
    (m₀.addChips cs).2 = none ∧ (m₀.addChips cs').2 = none ∧
    Reachable v w h (m₀.addChips cs).1 ∧ Reachable v w h (m₀.addChips cs').1 ∧
    (∀ x y, (m₀.addChips cs').1.getChipAt x y = (m₀.addChips cs).1.getChipAt x y) ∧
    (m₀.addChips cs').1.getLinksCount = (m₀.addChips cs).1.getLinksCount := by
  have hn' : (cs'.map Chip.xy).Nodup := (hp.map Chip.xy).nodup_iff.2 hn
  have hreach : ∀ cs, Reachable v w h (m₀.addChips cs).1 := by
    intro cs
    refine ⟨o, [.addChips cs], m₀, h₀, ?_⟩
    simp only [run, step]
  have hlink : ∀ cs, (m₀.addChips cs).1.getLinksCount =
      (((m₀.addChips cs).1.chipList.map fun c => (c.router.linkList.length : Int)).sum : Rat) / 2 := by
    intro cs
    have := C19_links_count_partial v w h o m₀ h₀ [.addChips cs] (by simp [Op.isAddLink])
    simpa only [run, step] using this
  obtain ⟨-, rfl⟩ := createMachine_ok h₀
  have r0 := Rep.new (v.kind.wrapFor w h) w h v.kind.chipCoreMap o
  obtain ⟨r1, e1, -⟩ := r0.addChips cs
  obtain ⟨r1', e1', -⟩ := r0.addChips cs'
  rw [addAll_nodup cs [] (by simpa using hn)] at r1 e1
  rw [addAll_nodup cs' [] (by simpa using hn')] at r1' e1'
  simp only [List.nil_append] at r1 r1' e1 e1'
  refine ⟨e1, e1', hreach cs, hreach cs', fun x y => ?_, ?_⟩
  · have hc := r1.values
    have hc' := r1'.values
    have q1 := rep_values r1
    have q1' := rep_values r1'
    apply Option.ext
    intro c
    constructor
    · intro hat
      obtain ⟨h1, rfl, rfl⟩ := mem_of_chip_at q1' hat
      refine chip_at_of_mem q1 ?_
      unfold Machine.chipList at h1 ⊢
      rw [hc'] at h1; rw [hc]; exact hp.mem_iff.1 h1
    · intro hat
      obtain ⟨h1, rfl, rfl⟩ := mem_of_chip_at q1 hat
      refine chip_at_of_mem q1' ?_
      unfold Machine.chipList at h1 ⊢
      rw [hc] at h1; rw [hc']; exact hp.mem_iff.2 h1
  · rw [hlink, hlink]
    unfold Machine.chipList
    rw [r1.values, r1'.values]
    congr 2
    exact perm_sum (hp.map _)

/-- two chips in either order -/
example : ∃ m₀, VKind.v5.createMachine (some 8) (some 8) "t" = .ok m₀ ∧
    (([exChip 0 0 0 0 (some ['a']), exChip 1 0 0 0 none].map Chip.xy).Nodup) ∧
    (m₀.addChips [exChip 0 0 0 0 (some ['a']), exChip 1 0 0 0 none]).1 ≠
      (m₀.addChips [exChip 1 0 0 0 none, exChip 0 0 0 0 (some ['a'])]).1 := by
  exact ⟨_, rfl, by decide, by decide +kernel⟩

end SpiNN.Props
