import Verif.Spec.Sharing
import Verif.Props.Factory

/-! # Lemmas on machines as objects -/

namespace SpiNN
open Spec

theorem upd_self {α : Type} (f : Nat → α) (a : Nat) (v : α) : upd f a v a = v := by simp [upd]
theorem upd_ne {α : Type} (f : Nat → α) {a b : Nat} (v : α) (h : b ≠ a) : upd f a v b = f b := by simp [upd, h]

namespace PDict
variable {K V U : Type} [DecidableEq K]

theorem lookup_mapVal (f : V → U) (l : List (K × V)) (k : K) :
    lookup (l.map fun kv => (kv.1, f kv.2)) k = (lookup l k).map f := by
  induction l with
  | nil => rfl
  | cons a l ih =>
    simp only [List.map_cons, lookup]
    split
    · rfl
    · exact ih

theorem get?_mapVal (f : V → U) (d : PDict K V) (k : K) : (d.mapVal f).get? k = (d.get? k).map f :=
  lookup_mapVal f d.items k

theorem contains_mapVal (f : V → U) (d : PDict K V) (k : K) : (d.mapVal f).contains k = d.contains k := by
  unfold contains; rw [get?_mapVal]; cases d.get? k <;> rfl

theorem assign_mapVal (f : V → U) (l : List (K × V)) (k : K) (v : V) :
    assign (l.map fun kv => (kv.1, f kv.2)) k (f v) = (assign l k v).map fun kv => (kv.1, f kv.2) := by
  induction l with
  | nil => rfl
  | cons a l ih =>
    simp only [List.map_cons, assign]
    split
    · rfl
    · rw [ih]; rfl

theorem set_mapVal (f : V → U) (d : PDict K V) (k : K) (v : V) : (d.mapVal f).set k (f v) = (d.set k v).mapVal f := by
  unfold set mapVal; simp only [PDict.mk.injEq]; exact assign_mapVal f d.items k v

theorem values_mapVal (f : V → U) (d : PDict K V) : (d.mapVal f).values = d.values.map f := by
  simp [values, mapVal]

theorem mapVal_congr {f g : V → U} {d : PDict K V} (h : ∀ v ∈ d.values, f v = g v) : d.mapVal f = d.mapVal g := by
  unfold mapVal
  congr 1
  apply List.map_congr_left
  intro kv hkv
  rw [h kv.2 (List.mem_map_of_mem hkv)]

end PDict

/-- what holds of the machines of a program with `n` routers -/
structure ObjInv (n : Nat) (o : MachineObj) : Prop where
  wf : o.chips.WF
  key : ∀ kv ∈ o.chips.items, kv.1 = kv.2.chip.xy ∧ kv.2.addr < n
  eths : o.eths = o.chips.values.filter fun c => c.chip.ip.isSome

namespace ObjInv

theorem value {n : Nat} {o : MachineObj} (h : ObjInv n o) {c : ChipObj} (hc : c ∈ o.chips.values) : c.addr < n := by
  obtain ⟨kv, hkv, rfl⟩ := List.mem_map.1 hc
  exact (h.key kv hkv).2

theorem eth {n : Nat} {o : MachineObj} (h : ObjInv n o) {c : ChipObj} (hc : c ∈ o.eths) : c ∈ o.chips.values := by
  rw [h.eths] at hc
  exact (List.mem_filter.1 hc).1

theorem mono {n n' : Nat} {o : MachineObj} (h : ObjInv n o) (hn : n ≤ n') : ObjInv n' o :=
  ⟨h.wf, fun kv hkv => ⟨(h.key kv hkv).1, by have := (h.key kv hkv).2; omega⟩, h.eths⟩

theorem get {n : Nat} {o : MachineObj} (h : ObjInv n o) {p : XY} {c : ChipObj} (hc : o.chips.get? p = some c) :
    p = c.chip.xy ∧ c.addr < n := h.key (p, c) (PDict.get?_mem hc)

theorem shell {n : Nat} {o : MachineObj} (h : ObjInv n o) (m : Machine) : ObjInv n { o with shell := m } :=
  ⟨h.wf, h.key, h.eths⟩

theorem ofShell (n : Nat) (m : Machine) : ObjInv n (.ofShell m) :=
  ⟨by simp [MachineObj.ofShell, PDict.WF], by simp [MachineObj.ofShell, PDict.empty], by simp [MachineObj.ofShell]⟩

end ObjInv

namespace MachineObj

theorem view_congr {H H' : Nat → Router} {n : Nat} {o : MachineObj} (ho : ObjInv n o) (h : ∀ a, a < n → H a = H' a) :
    o.view H = o.view H' := by
  have hc : ∀ c ∈ o.chips.values, c.deref H = c.deref H' := by
    intro c hc
    unfold ChipObj.deref
    rw [h _ (ho.value hc)]
  unfold view
  rw [PDict.mapVal_congr hc, List.map_congr_left fun c hh => hc c (ho.eth hh)]

theorem view_addChip (H : Nat → Router) (o : MachineObj) (c : ChipObj) :
    (o.view H).addChip (c.deref H) = (o.addChip H c).map (view H) := by
  unfold Machine.addChip MachineObj.addChip
  have h1 : (o.view H).chips.contains (c.deref H).xy = o.chips.contains c.chip.xy :=
    PDict.contains_mapVal _ _ _
  rw [h1]
  split
  · rfl
  · simp only [Except.map, view, Except.ok.injEq, Machine.mk.injEq, true_and]
    refine ⟨?_, rfl, ?_, rfl⟩
    · cases hc : c.chip.ip <;> simp [ChipObj.deref, hc]
    · exact PDict.set_mapVal _ _ _ _

theorem addChip_inv {H : Nat → Router} {n : Nat} {o o' : MachineObj} {c : ChipObj} (ho : ObjInv n o) (hc : c.addr < n)
    (h : o.addChip H c = .ok o') : ObjInv n o' ∧ o.chips.get? c.chip.xy = none ∧ o'.chips = o.chips.set c.chip.xy c := by
  unfold MachineObj.addChip at h
  split at h
  · cases h
  · rename_i hn
    simp only [Bool.not_eq_true] at hn
    cases h
    have hnone : o.chips.get? c.chip.xy = none := by
      unfold PDict.contains at hn
      simpa using hn
    refine ⟨⟨PDict.WF.set ho.wf _ _, ?_, ?_⟩, hnone, rfl⟩
    · intro kv hkv
      have hw : (o.chips.set c.chip.xy c).WF := PDict.WF.set ho.wf _ _
      have := (PDict.mem_items_iff hw kv.1 kv.2).1 hkv
      rw [PDict.get?_set] at this
      split at this
      · rename_i h1
        cases this
        exact ⟨h1.symm, hc⟩
      · exact ho.key kv ((PDict.mem_items_iff ho.wf _ _).2 this)
    · simp only
      rw [PDict.values_set_of_not_mem _ _ _ hn, List.filter_append, ← ho.eths]
      cases hi : c.chip.ip <;> simp [hi]

theorem view_addSpinnakerLinks (v : Version) (H : Nat → Router) (o : MachineObj) :
    (o.addSpinnakerLinks v H).view H = (o.view H).addSpinnakerLinks v := by
  obtain ⟨t, ht⟩ := onlySpin v (o.view H)
  unfold MachineObj.addSpinnakerLinks
  rw [ht]
  rfl

theorem view_addFpgaLinks (v : Version) (H : Nat → Router) (o : MachineObj) :
    (o.addFpgaLinks v H).view H = (o.view H).addFpgaLinks v := by
  obtain ⟨t, ht⟩ := onlyFpga v (o.view H)
  unfold MachineObj.addFpgaLinks
  rw [ht]
  rfl

end MachineObj

/-- no two chips of the machine have the same router at an address from `n` on -/
def FreshDistinct (n : Nat) (o : MachineObj) : Prop :=
  ∀ p q c d, o.chips.get? p = some c → o.chips.get? q = some d → n ≤ c.addr → c.addr = d.addr → p = q

/-- a dead link is given for the chip -/
def LinkListed (dead : List DeadLink) (p : XY) : Prop := ∃ d ∈ dead, (d.1, d.2.1) = p

theorem ids_nil_iff (dead : List DeadLink) (p : XY) :
    ((dead.filter fun d => (d.1, d.2.1) = p).map fun d => d.2.2.1) = [] ↔ ¬ LinkListed dead p := by
  simp only [List.map_eq_nil_iff, List.filter_eq_nil_iff, decide_eq_true_eq, LinkListed, not_exists, not_and]

theorem ignoreLoopObj_spec (n₀ : Nat) (deadChips : List XY) (dead : List DeadLink) (cs : List ChipObj) (H : Nat → Router) (n : Nat)
    (o : MachineObj) (hcs : ∀ c ∈ cs, c.addr < n₀) (hn : n₀ ≤ n) (ho : ObjInv n o) (hf : FreshDistinct n₀ o) :
    match ignoreLoopObj deadChips dead cs H n o with
    | .error e => ignoreLoop deadChips dead (cs.map (ChipObj.deref H)) (o.view H) = .error e
    | .ok (H', n', o') =>
      ignoreLoop deadChips dead (cs.map (ChipObj.deref H)) (o.view H) = .ok (o'.view H') ∧
      (∀ a, a < n → H' a = H a) ∧ n ≤ n' ∧ ObjInv n' o' ∧ FreshDistinct n₀ o' ∧
      ∀ p c', o'.chips.get? p = some c' → o.chips.get? p = some c' ∨
        ∃ c ∈ cs, c.chip.xy = p ∧ p ∉ deadChips ∧
          ((¬ LinkListed dead p ∧ c' = c) ∨ (LinkListed dead p ∧ n₀ ≤ c'.addr)) := by
  induction cs generalizing H n o with
  | nil =>
    simp only [ignoreLoopObj, List.map_nil, ignoreLoop]
    exact ⟨trivial, fun _ _ => trivial, Nat.le_refl _, ho, hf, fun p c' h => .inl h⟩
  | cons c cs ih =>
    have hcs' : ∀ d ∈ cs, d.addr < n₀ := fun d hd => hcs d (List.mem_cons_of_mem _ hd)
    have hca : c.addr < n₀ := hcs c List.mem_cons_self
    simp only [ignoreLoopObj, List.map_cons, ignoreLoop]
    have hxy : (c.deref H).xy = c.chip.xy := rfl
    rw [hxy]
    by_cases hd : c.chip.xy ∈ deadChips
    · rw [if_pos hd, if_pos hd]
      have := ih H n o hcs' hn ho hf
      revert this
      generalize ignoreLoopObj deadChips dead cs H n o = R
      cases R with
      | error e => exact fun h => h
      | ok R =>
        obtain ⟨H', n', o'⟩ := R
        rintro ⟨h1, h2, h3, h4, h5, h6⟩
        refine ⟨h1, h2, h3, h4, h5, fun p c' hp => ?_⟩
        rcases h6 p c' hp with h | ⟨d, hd, h⟩
        · exact .inl h
        · exact .inr ⟨d, List.mem_cons_of_mem _ hd, h⟩
    · rw [if_neg hd, if_neg hd]
      unfold ignoreLinks
      rw [hxy]
      generalize hids : ((dead.filter fun d => (d.1, d.2.1) = c.chip.xy).map fun d => d.2.2.1) = ids
      have hids' := ids_nil_iff dead c.chip.xy
      rw [hids] at hids'
      by_cases hi : ids = []
      · rw [if_pos hi, if_pos hi]
        simp only
        rw [MachineObj.view_addChip]
        cases ha : o.addChip H c with
        | error e => simp [Except.map]
        | ok o1 =>
          simp only [Except.map]
          obtain ⟨i1, i2, i3⟩ := MachineObj.addChip_inv ho (by omega) ha
          have hf1 : FreshDistinct n₀ o1 := by
            intro p q c1 c2 hp hq hle he
            rw [i3, PDict.get?_set] at hp hq
            split at hp
            · cases hp; omega
            · split at hq
              · cases hq; omega
              · exact hf p q c1 c2 hp hq hle he
          have := ih H n o1 hcs' hn i1 hf1
          revert this
          generalize ignoreLoopObj deadChips dead cs H n o1 = R
          cases R with
          | error e => exact fun h => h
          | ok R =>
            obtain ⟨H', n', o'⟩ := R
            rintro ⟨h1, h2, h3, h4, h5, h6⟩
            refine ⟨h1, h2, h3, h4, h5, fun p c' hp => ?_⟩
            rcases h6 p c' hp with h | ⟨d, hd, h⟩
            · rw [i3, PDict.get?_set] at h
              split at h
              · rename_i he
                cases h
                subst he
                exact .inr ⟨_, List.mem_cons_self, rfl, hd, .inl ⟨hids'.1 hi, rfl⟩⟩
              · exact .inl h
            · exact .inr ⟨d, List.mem_cons_of_mem _ hd, h⟩
      · rw [if_neg hi, if_neg hi]
        have hl : (c.deref H).router = H c.addr := rfl
        rw [hl]
        cases hr : Router.mk' ((H c.addr).linkList.filter fun l => l.sourceLinkId ∉ ids) (H c.addr).nEntries with
        | error e => simp
        | ok r =>
          simp only
          generalize hc1 : (⟨Chip.mk' c.chip.x c.chip.y c.chip.scamp c.chip.placable r c.chip.sdram
            c.chip.ethX c.chip.ethY c.chip.ip (some c.chip.tags) none, n⟩ : ChipObj) = c1
          have hder : Chip.mk' (c.deref H).x (c.deref H).y (c.deref H).scamp (c.deref H).placable r (c.deref H).sdram
              (c.deref H).ethX (c.deref H).ethY (c.deref H).ip (some (c.deref H).tags) none = c1.deref (upd H n r) := by
            rw [← hc1]
            unfold ChipObj.deref
            rw [upd_self]
            rfl
          have hview : o.view H = o.view (upd H n r) :=
            MachineObj.view_congr ho fun a ha => (upd_ne _ _ (by omega)).symm
          have hmap : cs.map (ChipObj.deref H) = cs.map (ChipObj.deref (upd H n r)) := by
            apply List.map_congr_left
            intro d hd
            unfold ChipObj.deref
            rw [upd_ne _ _ (by have := hcs' d hd; omega)]
          have hc1a : c1.addr = n := by rw [← hc1]
          have hc1x : c1.chip.xy = c.chip.xy := by rw [← hc1]; rfl
          rw [hder, hview, hmap, MachineObj.view_addChip]
          cases ha : o.addChip (upd H n r) c1 with
          | error e => simp [Except.map]
          | ok o1 =>
            simp only [Except.map]
            obtain ⟨i1, i2, i3⟩ := MachineObj.addChip_inv (ho.mono (Nat.le_succ n)) (by omega) ha
            have hf1 : FreshDistinct n₀ o1 := by
              intro p q d1 d2 hp hq hle he
              rw [i3, PDict.get?_set] at hp hq
              split at hp
              · cases hp
                split at hq
                · cases hq; simp_all
                · have := (ho.get hq).2; omega
              · split at hq
                · cases hq
                  have := (ho.get hp).2; omega
                · exact hf p q d1 d2 hp hq hle he
            have := ih (upd H n r) (n + 1) o1 hcs' (by omega) i1 hf1
            revert this
            generalize ignoreLoopObj deadChips dead cs (upd H n r) (n + 1) o1 = R
            cases R with
            | error e => exact fun h => h
            | ok R =>
              obtain ⟨H', n', o'⟩ := R
              rintro ⟨h1, h2, h3, h4, h5, h6⟩
              refine ⟨h1, fun a ha' => ?_, by omega, h4, h5, fun p c' hp => ?_⟩
              · rw [h2 a (by omega), upd_ne _ _ (by omega)]
              · rcases h6 p c' hp with h | ⟨d, hd', h⟩
                · rw [i3, PDict.get?_set] at h
                  split at h
                  · rename_i he
                    cases h
                    rw [hc1x] at he
                    subst he
                    refine .inr ⟨c, List.mem_cons_self, rfl, hd, .inr ⟨?_, by omega⟩⟩
                    exact Classical.byContradiction fun hn' => hi (hids'.2 hn')
                  · exact .inl h
                · exact .inr ⟨d, List.mem_cons_of_mem _ hd', h⟩

end SpiNN
