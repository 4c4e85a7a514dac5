import Verif.Lemmas.Lazy
import Verif.Props.Factory
import Verif.Lemmas.RepairPasses

/-!
# Iterators as arguments (C83)

`add_chips` and `machine_repair` accept any iterable: also a generator over the very machine that is
changed, or one that can be read only once.
-/

namespace SpiNN.Props
open Spec

/-- `machine.add_chips(f(c) for c in machine.chips)`: on a machine without chips nothing happens.
Otherwise the call always fails: with `SpinnMachineAlreadyExistsException` and the machine unchanged if
`f` puts the first chip where there is a chip, else with `RuntimeError` after exactly that one chip
was added. -/
theorem C83_add_from_self (f : Chip → Chip) (m : Machine) :
    m.addFromSelf f = match m.chipList with
      | [] => (m, none)
      | c :: _ => match m.addChip (f c) with
        | .error e => (m, some e)
        | .ok m' => (m', some .runtimeError) := by
  unfold Machine.addFromSelf
  have hlen := chipList_length m
  cases hl : m.chipList with
  | nil =>
    rw [hl] at hlen
    unfold addMapped
    have : (DictIter.live 0 m.nChips).next m.chipList = (.stop, .done) := by
      rw [hl]; simp [DictIter.next, ← hlen]
    simp [this]
  | cons c cs =>
    rw [hl] at hlen
    have h1 : (DictIter.live 0 m.nChips).next m.chipList = (.got c, .live 1 m.nChips) := by
      rw [hl]; simp [DictIter.next, ← hlen]
    have hpos : ∃ n, m.nChips = n + 1 := ⟨cs.length, by simpa using hlen.symm⟩
    obtain ⟨n, hn⟩ := hpos
    unfold addMapped
    rw [h1]
    simp only
    cases ha : m.addChip (f c) with
    | error e => rfl
    | ok m' =>
      simp only
      have hne : m'.nChips = m.nChips + 1 := by
        unfold Machine.nChips PDict.size
        rw [(addChip_items ha).1]; simp
      have h2 : (DictIter.live 1 m.nChips).next m'.chipList = (.raised .runtimeError, .broken) := by
        simp [DictIter.next, chipList_length, hne]
      rw [hn] at h2 ⊢
      unfold addMapped
      rw [h2]

/-- `machine.add_chips(machine.chips)` never changes the machine, and fails unless it is empty -/
theorem C83_add_self (v : Version) (w h : Int) (m : Machine) (hm : Reachable v w h m) :
    m.addFromSelf id = (m, if m.nChips = 0 then none else some .alreadyExists) := by
  rw [C83_add_from_self]
  have hlen := chipList_length m
  cases hl : m.chipList with
  | nil => rw [hl] at hlen; simp [← hlen]
  | cons c cs =>
    rw [hl] at hlen
    have hc : c ∈ m.chipList := by rw [hl]; exact List.mem_cons_self ..
    obtain ⟨-, -, -, -, -, r⟩ := hm.rep
    have hat := chip_at_of_mem r hc
    have : m.addChip c = .error .alreadyExists := by
      unfold Machine.addChip
      rw [if_pos]
      unfold PDict.contains
      have : m.chips.get? c.xy = some c := hat
      rw [this]; rfl
    simp only [id]
    rw [this]
    simp [← hlen]

/-! ### `machine_repair` with an iterator of removed chips -/

private theorem inIter_true {q : XY} {it it' : List XY} (h : inIter q it = (true, it')) :
    ∃ pre, it = pre ++ q :: it' ∧ q ∉ pre := by
  induction it with
  | nil => simp [inIter] at h
  | cons p ps ih =>
    unfold inIter at h
    split at h
    · rename_i hp
      simp at h
      exact ⟨[], by rw [hp, h]; rfl, by simp⟩
    · rename_i hp
      obtain ⟨pre, h1, h2⟩ := ih h
      exact ⟨p :: pre, by rw [h1]; rfl, by simp [Ne.symm hp, h2]⟩

private theorem inIter_false {q : XY} {it it' : List XY} (h : inIter q it = (false, it')) :
    q ∉ it := by
  induction it with
  | nil => simp
  | cons p ps ih =>
    unfold inIter at h
    split at h
    · simp at h
    · rename_i hp
      simp [Ne.symm hp, ih h]

private theorem sublist_skip {α : Type} {a : α} {l pre rest : List α} (hn : a ∉ pre) :
    (a :: l).Sublist (pre ++ a :: rest) ↔ l.Sublist rest := by
  induction pre with
  | nil => simp
  | cons x pre ih =>
    have hx : a ≠ x := fun h => hn (by rw [h]; exact List.mem_cons_self ..)
    have hp : a ∉ pre := fun h => hn (List.mem_cons_of_mem _ h)
    rw [← ih hp, List.cons_append]
    constructor
    · intro h
      cases h with
      | cons _ h => exact h
      | cons_cons _ h => exact absurd rfl hx
    · intro h; exact h.cons x

private def LookupsOK (m : Machine) (ds : List DeadLink) : Prop :=
  ∀ d ∈ ds, ∃ q, m.xyOverLink d.1 d.2.1 d.2.2.1 = .ok q ∧ uniDirectionError m q (d.1, d.2.1) = .ok ()

private theorem lookups_of_find {repair : Bool} {m : Machine} {ds : List DeadLink} {f g : Found}
    (h : findOneWay repair [] m ds f = .ok g) : LookupsOK m ds := by
  induction ds generalizing f with
  | nil => intro d hd; simp at hd
  | cons d ds ih =>
    unfold findOneWay at h
    split at h
    · simp at h
    · rename_i q hq
      simp only [List.not_mem_nil, if_false] at h
      split at h
      · simp at h
      · rename_i hu
        intro d' hd'
        cases hd' with
        | head => exact ⟨q, hq, hu⟩
        | tail _ hd' => exact ih h d' hd'

private theorem findIter_on {m : Machine} {ds : List DeadLink} (hl : LookupsOK m ds) (removed it : List XY)
    (f : Found) : findOneWayIter true m it ds f = findOneWay true removed m ds f := by
  induction ds generalizing it f with
  | nil => rfl
  | cons d ds ih =>
    obtain ⟨q, h1, h2⟩ := hl d (List.mem_cons_self ..)
    have ih := fun it f => ih (fun x hx => hl x (List.mem_cons_of_mem _ hx)) it f
    unfold findOneWayIter findOneWay
    rw [h1]
    simp only
    rw [h2]
    have e : f.link true d = { f with deadLinks := f.deadLinks ++ [d] } := rfl
    rw [e]
    cases inIter q it with
    | mk b it' => cases b <;> simp only [ih] <;> split <;> rfl

private theorem findIter_off {m : Machine} {ds : List DeadLink} (hl : LookupsOK m ds) (removed it : List XY)
    (hsub : ∀ q ∈ it, q ∈ removed) (f : Found)
    (h : (oneWayEnds m ds).Sublist (it.map Except.ok)) :
    findOneWayIter false m it ds f = findOneWay false removed m ds f := by
  induction ds generalizing it f with
  | nil => rfl
  | cons d ds ih =>
    obtain ⟨q, h1, h2⟩ := hl d (List.mem_cons_self ..)
    unfold findOneWayIter findOneWay
    rw [h1]
    simp only
    have hends : oneWayEnds m (d :: ds) = .ok q :: oneWayEnds m ds := by simp [oneWayEnds, h1]
    rw [hends] at h
    have hq : q ∈ it := by
      have := h.subset (List.mem_cons_self ..)
      simpa using this
    cases hi : inIter q it with
    | mk b it' =>
      cases b with
      | false => exact absurd hq (inIter_false hi)
      | true =>
        obtain ⟨pre, e, hn⟩ := inIter_true hi
        simp only
        rw [if_pos (hsub q hq)]
        refine ih (fun x hx => hl x (List.mem_cons_of_mem _ hx)) it'
          (fun x hx => hsub x (by rw [e]; simp [hx])) _ ?_
        rw [e, List.map_append, List.map_cons] at h
        refine (sublist_skip ?_).1 h
        simpa using hn

private theorem findIter_errors {m : Machine} {ds : List DeadLink} (hl : LookupsOK m ds) (it : List XY)
    (f : Found) :
    ∃ g, findOneWayIter false m it ds f = .ok g ∧ (f.errors = true → g.errors = true) ∧
      (¬ (oneWayEnds m ds).Sublist (it.map Except.ok) → g.errors = true) := by
  induction ds generalizing it f with
  | nil => exact ⟨f, rfl, fun h => h, fun h => absurd (by simp [oneWayEnds]) h⟩
  | cons d ds ih =>
    obtain ⟨q, h1, h2⟩ := hl d (List.mem_cons_self ..)
    have ih := fun it f => ih (fun x hx => hl x (List.mem_cons_of_mem _ hx)) it f
    unfold findOneWayIter
    rw [h1]
    simp only
    rw [h2]
    have hends : oneWayEnds m (d :: ds) = .ok q :: oneWayEnds m ds := by simp [oneWayEnds, h1]
    cases hi : inIter q it with
    | mk b it' =>
      cases b with
      | true =>
        simp only
        obtain ⟨pre, e, hn⟩ := inIter_true hi
        obtain ⟨g, hg, a, b⟩ := ih it' { f with deadLinks := f.deadLinks ++ [d] }
        refine ⟨g, hg, a, ?_⟩
        intro h
        apply b
        intro hs
        apply h
        rw [hends, e, List.map_append, List.map_cons]
        exact (sublist_skip (by simpa using hn)).2 hs
      | false =>
        simp only
        obtain ⟨g, hg, a, _⟩ := ih it' (f.link false d)
        exact ⟨g, hg, fun _ => a rfl, fun _ => a rfl⟩

/-- the lookups `machine_repair` makes succeed on machines with legal Ethernet chips and parents -/
private theorem lookups_ok {v : Version} {w h : Int} {m : Machine} (hr : Reachable v w h m)
    (heth : ∀ c ∈ m.chipList, m.isChipAt c.ethX c.ethY = true)
    (hpar : ∀ c ∈ m.chipList, ∀ i, c.parentLink = some i → 0 ≤ i ∧ i ≤ 5) :
    LookupsOK m m.oneWayLinks := by
  obtain ⟨f, hf⟩ := repairFind_succeeds hr heth hpar false []
  unfold repairFind at hf
  split at hf
  · simp at hf
  · split at hf
    · simp at hf
    · split at hf
      · simp at hf
      · rename_i f3 hf3
        exact lookups_of_find hf3

/-- With `repair_machine` on, an iterator of removed chips gives the same as a list of them. -/
theorem C83_repair_on (v : Version) (w h : Int) (m : Machine) (hr : Reachable v w h m)
    (heth : ∀ c ∈ m.chipList, m.isChipAt c.ethX c.ethY = true)
    (hpar : ∀ c ∈ m.chipList, ∀ i, c.parentLink = some i → 0 ≤ i ∧ i ≤ 5) (removed : List XY) :
    machineRepairIter v true removed m = machineRepair v true removed m := by
  have hl := lookups_ok hr heth hpar
  have e : repairFindIter true removed m = repairFind true removed m := by
    unfold repairFindIter repairFind
    simp only [findIter_on hl removed]
    rfl
  unfold machineRepairIter
  rw [machineRepair, e]
  rfl

/-- With `repair_machine` off, it gives the same exactly if the places that the one way links lead
to, in the order in which the links are found, occur in this order among the removed chips (which an
iterator forgets as they are read) -/
theorem C83_repair_off (v : Version) (w h : Int) (m : Machine) (hr : Reachable v w h m)
    (heth : ∀ c ∈ m.chipList, m.isChipAt c.ethX c.ethY = true)
    (hpar : ∀ c ∈ m.chipList, ∀ i, c.parentLink = some i → 0 ≤ i ∧ i ≤ 5) (removed : List XY)
    (hin : (oneWayEnds m m.oneWayLinks).Sublist (removed.map Except.ok)) :
    machineRepairIter v false removed m = machineRepair v false removed m := by
  have hl := lookups_ok hr heth hpar
  have e : repairFindIter false removed m = repairFind false removed m := by
    unfold repairFindIter repairFind
    simp only [findIter_off hl removed removed (fun _ h => h) _ hin]
    rfl
  unfold machineRepairIter
  rw [machineRepair, e]
  rfl

/-- and is refused with `SpinnMachineException` otherwise, also if a list would not be. -/
theorem C83_repair_off_refused (v : Version) (w h : Int) (m : Machine) (hr : Reachable v w h m)
    (heth : ∀ c ∈ m.chipList, m.isChipAt c.ethX c.ethY = true)
    (hpar : ∀ c ∈ m.chipList, ∀ i, c.parentLink = some i → 0 ≤ i ∧ i ≤ 5) (removed : List XY)
    (hin : ¬ (oneWayEnds m m.oneWayLinks).Sublist (removed.map Except.ok)) :
    machineRepairIter v false removed m = some (.error .machine) := by
  have hl := lookups_ok hr heth hpar
  obtain ⟨f, hf⟩ := repairFind_succeeds hr heth hpar false removed
  unfold repairFind at hf
  split at hf
  · simp at hf
  · rename_i f1 hf1
    split at hf
    · simp at hf
    · rename_i f2 hf2
      obtain ⟨g, hg, -, hge⟩ := findIter_errors hl removed f2
      have hge := hge hin
      split at hf
      · simp at hf
      · have hitem : ∀ c ∈ m.chipList, ∃ e, m.getItem (c.ethX, c.ethY) = .ok e := by
          intro c hc
          obtain ⟨e, he⟩ := Option.isSome_iff_exists.1 (heth c hc)
          exact ⟨e, (PDict.getE_eq_ok_iff _ _ _).2 he⟩
        have hover : ∀ c ∈ m.chipList, ∀ i, c.parentLink = some i →
            ∃ q, m.xyOverLink c.x c.y i = .ok q := by
          obtain ⟨hs, a1, a2, a3, -, r⟩ := hr.rep
          intro c hc i hi
          obtain ⟨h1, h2⟩ := hpar c hc i hi
          have hpos := hs.pos
          have : ∃ d : Dir, d.id = i := by
            have : i = 0 ∨ i = 1 ∨ i = 2 ∨ i = 3 ∨ i = 4 ∨ i = 5 := by omega
            rcases this with rfl | rfl | rfl | rfl | rfl | rfl
            · exact ⟨.E, rfl⟩
            · exact ⟨.NE, rfl⟩
            · exact ⟨.N, rfl⟩
            · exact ⟨.W, rfl⟩
            · exact ⟨.SW, rfl⟩
            · exact ⟨.S, rfl⟩
          obtain ⟨d, rfl⟩ := this
          exact ⟨_, xyOverLink_dir' m (by rw [a2]; exact hpos.1) (by rw [a3]; exact hpos.2) c.x c.y d⟩
        obtain ⟨k, hk⟩ := findParents_succeeds (repair := false) m.chipList g
          (fun c hc => ⟨hover c hc, hitem c hc⟩)
        have hke := (findParents_ok hk).2.2.2 (.inl hge)
        unfold machineRepairIter repairFindIter
        rw [hf1]; simp only
        rw [hf2]; simp only
        rw [hg]; simp only
        rw [hk]; simp [hke]

/-- a version 3 board built without the chip (1, 1) -/
def exThree : Machine :=
  (run { kind := .v3, maxCores := 18, maxSdram := 123469792 } (Machine.new .full 2 2 VKind.v3.chipCoreMap "t")
    [.addChip (exLinked 0 0 [⟨0, 0, 0, 1, 0⟩, ⟨0, 0, 1, 1, 1⟩, ⟨0, 0, 2, 0, 1⟩] 0 0 (some ['a'])),
     .addChip (exLinked 1 0 [⟨1, 0, 3, 0, 0⟩, ⟨1, 0, 2, 1, 1⟩] 0 0 none),
     .addChip (exLinked 0 1 [⟨0, 1, 5, 0, 0⟩] 0 0 none)]).1

/-- Two links lead to the removed chip: a list of removed chips is accepted, an iterator is refused. -/
theorem C83_iterator_differs :
    ∃ m', machineRepair { kind := .v3, maxCores := 18, maxSdram := 123469792 } false [(1, 1)] exThree =
        some (.ok m') ∧
      machineRepairIter { kind := .v3, maxCores := 18, maxSdram := 123469792 } false [(1, 1)] exThree =
        some (.error .machine) := by
  have h : ∃ m', repairPasses { kind := .v3, maxCores := 18, maxSdram := 123469792 } false 3 [(1, 1)] exThree =
      some (.ok m') := by
    have : (match repairPasses { kind := .v3, maxCores := 18, maxSdram := 123469792 } false 3 [(1, 1)] exThree with
      | some (.ok _) => true
      | _ => false) = true := by decide +kernel
    split at this
    · rename_i m' hm; exact ⟨m', hm⟩
    · simp at this
  obtain ⟨m', hm⟩ := h
  refine ⟨m', repairPasses_eq _ _ _ _ _ _ hm, ?_⟩
  have : repairFindIter false [(1, 1)] exThree =
      .ok { deadLinks := [(0, 0, 1, 4)], errors := true } := by decide +kernel
  unfold machineRepairIter
  rw [this]
  rfl

/-- the hypotheses of the theorems above hold for this machine -/
example : Reachable { kind := .v3, maxCores := 18, maxSdram := 123469792 } 2 2 exThree ∧
    (∀ c ∈ exThree.chipList, exThree.isChipAt c.ethX c.ethY = true ∧ c.parentLink = none) ∧
    oneWayEnds exThree exThree.oneWayLinks = [.ok (1, 1), .ok (1, 1)] := by
  refine ⟨⟨"t", _, _, rfl, rfl⟩, ?_, ?_⟩ <;> decide +kernel

/-- and a chip copied one place to the right is added, once -/
example : ((exThree.addFromSelf fun c => { c with x := c.x + 5 }).2 = some .runtimeError) ∧
    (exThree.addFromSelf fun c => { c with x := c.x + 5 }).1.nChips = 4 := by decide +kernel

end SpiNN.Props
