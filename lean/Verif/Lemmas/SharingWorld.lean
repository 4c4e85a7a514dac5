import Verif.Lemmas.Sharing

/-! # Lemmas on programs with several machines -/

namespace SpiNN
open Spec

/-- what holds in the states of a program -/
def WorldInv (W : ObjWorld) : Prop := ∀ g, g < W.nMachines → ObjInv W.nRouters (W.machines g)

/-- `W'` is `W` with more objects -/
structure Extends (W W' : ObjWorld) : Prop where
  routers : ∀ a, a < W.nRouters → W'.routers a = W.routers a
  nRouters : W.nRouters ≤ W'.nRouters
  machines : ∀ k, k < W.nMachines → W'.machines k = W.machines k
  nMachines : W.nMachines ≤ W'.nMachines

namespace Extends

theorem refl (W : ObjWorld) : Extends W W := ⟨fun _ _ => rfl, Nat.le_refl _, fun _ _ => rfl, Nat.le_refl _⟩

theorem trans {A B C : ObjWorld} (h : Extends A B) (k : Extends B C) : Extends A C :=
  ⟨fun a ha => (k.routers a (Nat.lt_of_lt_of_le ha h.nRouters)).trans (h.routers a ha), Nat.le_trans h.nRouters k.nRouters,
    fun a ha => (k.machines a (Nat.lt_of_lt_of_le ha h.nMachines)).trans (h.machines a ha),
    Nat.le_trans h.nMachines k.nMachines⟩

theorem view {W W' : ObjWorld} (h : Extends W W') (hW : WorldInv W) {k : Nat} (hk : k < W.nMachines) :
    W'.view k = W.view k := by
  unfold ObjWorld.view
  rw [h.machines k hk]
  exact MachineObj.view_congr (hW k hk) h.routers

end Extends

/-- how the chips of machine `g'` come from those of machine `g` -/
def FromObj (W W' : ObjWorld) (g g' : Nat) (deadChips : List XY) (dead : List DeadLink) : Prop :=
  ∀ p c', (W'.machines g').chips.get? p = some c' → ∃ c, (W.machines g).chips.get? p = some c ∧ p ∉ deadChips ∧
    ((¬ LinkListed dead p ∧ c' = c) ∨ (LinkListed dead p ∧ W.nRouters ≤ c'.addr))

theorem machineObj_values {n : Nat} {o : MachineObj} (ho : ObjInv n o) {c : ChipObj} (hc : c ∈ o.chips.values) :
    o.chips.get? c.chip.xy = some c := by
  obtain ⟨kv, hkv, rfl⟩ := List.mem_map.1 hc
  have := (PDict.mem_items_iff ho.wf kv.1 kv.2).1 hkv
  rwa [(ho.key kv hkv).1] at this

theorem ignore_spec {W : ObjWorld} (v : Version) {g : Nat} (deadChips : List XY) (dead : List DeadLink) (hW : WorldInv W)
    (hg : g < W.nMachines) :
    match W.ignore v g deadChips dead with
    | .error e => machineIgnore v (W.view g) deadChips dead = .error e
    | .ok (g', W') =>
      machineIgnore v (W.view g) deadChips dead = .ok (W'.view g') ∧ g' = W.nMachines ∧ W'.nMachines = W.nMachines + 1 ∧
      Extends W W' ∧ WorldInv W' ∧ FreshDistinct W.nRouters (W'.machines g') ∧ FromObj W W' g g' deadChips dead := by
  have ho := hW g hg
  unfold ObjWorld.ignore machineIgnore
  have hw : (W.view g).width = (W.machines g).shell.width := rfl
  have hh : (W.view g).height = (W.machines g).shell.height := rfl
  rw [hw, hh]
  cases h0 : v.kind.createMachine (some (W.machines g).shell.width) (some (W.machines g).shell.height) "Fixed" with
  | error e => simp
  | ok m0 =>
    simp only
    have hcl : (W.view g).chipList = (W.machines g).chips.values.map (ChipObj.deref W.routers) := PDict.values_mapVal _ _
    have hm0 : (MachineObj.ofShell m0).view W.routers = m0 := by
      obtain ⟨h1, h2⟩ : m0.chips = .empty ∧ m0.ethernetChips = [] := by
        unfold VKind.createMachine at h0
        split at h0
        · cases h0
        · cases h0; exact ⟨rfl, rfl⟩
      unfold MachineObj.view MachineObj.ofShell
      cases m0
      simp only at h1 h2
      subst h1 h2
      rfl
    have hs := ignoreLoopObj_spec W.nRouters deadChips dead (W.machines g).chips.values W.routers W.nRouters (.ofShell m0)
      (fun c hc => ho.value hc) (Nat.le_refl _) (ObjInv.ofShell _ _)
      (by intro p q c d hp; simp [MachineObj.ofShell, PDict.empty, PDict.get?, PDict.lookup] at hp)
    rw [hm0, ← hcl] at hs
    revert hs
    generalize ignoreLoopObj deadChips dead (W.machines g).chips.values W.routers W.nRouters (.ofShell m0) = R
    cases R with
    | error e => intro h; simp only; rw [h]
    | ok R =>
      obtain ⟨H, n, o1⟩ := R
      rintro ⟨h1, h2, h3, h4, h5, h6⟩
      simp only
      rw [h1]
      simp only
      have hv : ((o1.addSpinnakerLinks v H).addFpgaLinks v H).view H = ((o1.view H).addSpinnakerLinks v).addFpgaLinks v := by
        rw [MachineObj.view_addFpgaLinks, MachineObj.view_addSpinnakerLinks]
      rw [hv]
      cases hval : (((o1.view H).addSpinnakerLinks v).addFpgaLinks v).validate v with
      | error e => simp
      | ok u =>
        simp only
        refine ⟨?_, trivial, trivial, ?_, ?_, ?_, ?_⟩
        · unfold ObjWorld.view
          simp only [upd_self]
          rw [hv]
        · refine ⟨h2, h3, fun k hk => ?_, Nat.le_succ _⟩
          exact upd_ne _ _ (by omega)
        · intro k hk
          simp only at hk ⊢
          by_cases he : k = W.nMachines
          · subst he
            rw [upd_self]
            exact ⟨h4.wf, h4.key, h4.eths⟩
          · rw [upd_ne _ _ he]
            exact (hW k (by omega)).mono h3
        · rw [upd_self]
          exact h5
        · intro p c' hp
          simp only [upd_self] at hp
          rcases h6 p c' hp with h | ⟨c, hc, hcp, hnd, h⟩
          · simp [MachineObj.ofShell, PDict.empty, PDict.get?, PDict.lookup] at h
          · refine ⟨c, ?_, hnd, h⟩
            rw [← hcp]
            exact machineObj_values ho hc

/-- how the chips of the machine `repair` returns come from those of the machine it was given -/
def RepairedObj (W W' : ObjWorld) (g g' : Nat) : Prop :=
  ∀ p c', (W'.machines g').chips.get? p = some c' → ∃ c, (W.machines g).chips.get? p = some c ∧
    (c' = c ∨ W.nRouters ≤ c'.addr)

/-- what `repair` does, given that it ends with `r` -/
def RepairSpec (v : Version) (rep : Bool) (removed : List XY) (W : ObjWorld) (g : Nat)
    (r : Except PyErr (Nat × ObjWorld)) : Prop :=
    match r with
    | .error e => machineRepair v rep removed (W.view g) = some (.error e)
    | .ok (g', W') =>
      machineRepair v rep removed (W.view g) = some (.ok (W'.view g')) ∧ Extends W W' ∧ WorldInv W' ∧ g' < W'.nMachines ∧
      ((g' = g ∧ W' = W) ∨ (W.nMachines ≤ g' ∧ FreshDistinct W.nRouters (W'.machines g'))) ∧ RepairedObj W W' g g'

theorem repair_forward (v : Version) (rep : Bool) (removed : List XY) (W : ObjWorld) (g : Nat)
    (r : Except PyErr (Nat × ObjWorld)) (h : ObjWorld.repair v rep removed W g = some r) : WorldInv W → g < W.nMachines →
    RepairSpec v rep removed W g r := by
  refine ObjWorld.repair.partial_correctness v rep (motive := fun removed W g r => WorldInv W → g < W.nMachines →
    RepairSpec v rep removed W g r)
    ?_ removed W g r h
  intro rec ih removed W g r h hW hg
  unfold RepairSpec
  rw [machineRepair.eq_def]
  cases hf : repairFind rep removed (W.view g) with
  | error e => rw [hf] at h; cases h; rfl
  | ok f =>
    rw [hf] at h
    simp only at h ⊢
    by_cases h1 : (!rep && f.errors) = true
    · rw [if_pos h1] at h ⊢; cases h; rfl
    rw [if_neg h1] at h ⊢
    by_cases h2 : f.deadChips = [] ∧ f.deadLinks = []
    · rw [if_pos h2] at h ⊢
      cases h
      exact ⟨rfl, .refl _, hW, hg, .inl ⟨rfl, rfl⟩, fun p c' hp => ⟨c', hp, .inl rfl⟩⟩
    rw [if_neg h2] at h ⊢
    have hs := ignore_spec v f.deadChips f.deadLinks hW hg
    cases hi : W.ignore v g f.deadChips f.deadLinks with
    | error e =>
      rw [hi] at h hs
      simp only at h hs
      cases h
      rw [hs]
    | ok R =>
      obtain ⟨g1, W1⟩ := R
      rw [hi] at h hs
      simp only at h hs
      obtain ⟨s1, s2, s3, s4, s5, s6, s7⟩ := hs
      rw [s1]
      simp only
      have := ih _ _ _ _ h s5 (by omega)
      unfold RepairSpec at this
      revert this
      cases r with
      | error e => exact fun h => h
      | ok r =>
        obtain ⟨g', W'⟩ := r
        rintro ⟨a1, a2, a3, a4, a5, a6⟩
        refine ⟨a1, s4.trans a2, a3, a4, .inr ?_, ?_⟩
        · rcases a5 with ⟨rfl, rfl⟩ | ⟨a5, a7⟩
          · exact ⟨by omega, s6⟩
          · refine ⟨by omega, ?_⟩
            intro p q c d hp hq hle he
            by_cases hlt : W1.nRouters ≤ c.addr
            · exact a7 p q c d hp hq hlt he
            · obtain ⟨c0, hc0, hc1⟩ := a6 p c hp
              obtain ⟨d0, hd0, hd1⟩ := a6 q d hq
              have hcc : c = c0 := by rcases hc1 with h | h; exact h; omega
              have hdd : d = d0 := by rcases hd1 with h | h; exact h; omega
              subst hcc hdd
              exact s6 p q c d hc0 hd0 hle he
        · intro p c' hp
          obtain ⟨c1, hc1, h3⟩ := a6 p c' hp
          obtain ⟨c0, hc0, -, h4⟩ := s7 p c1 hc1
          refine ⟨c0, hc0, ?_⟩
          rcases h3 with rfl | h3
          · rcases h4 with ⟨-, rfl⟩ | ⟨-, h4⟩
            · exact .inl rfl
            · exact .inr h4
          · exact .inr (Nat.le_trans s4.nRouters h3)

theorem repair_backward (v : Version) (rep : Bool) (removed : List XY) (m : Machine) (r : Except PyErr Machine)
    (h : machineRepair v rep removed m = some r) : ∀ (W : ObjWorld) (g : Nat), WorldInv W → g < W.nMachines → W.view g = m →
    ∃ s, ObjWorld.repair v rep removed W g = some s := by
  refine machineRepair.partial_correctness v rep (motive := fun removed m _ => ∀ (W : ObjWorld) (g : Nat), WorldInv W →
    g < W.nMachines → W.view g = m → ∃ s, ObjWorld.repair v rep removed W g = some s) ?_ removed m r h
  intro rec ih removed m r h W g hW hg hv
  subst hv
  rw [ObjWorld.repair.eq_def]
  cases hf : repairFind rep removed (W.view g) with
  | error e => exact ⟨_, rfl⟩
  | ok f =>
    rw [hf] at h
    simp only at h ⊢
    by_cases h1 : (!rep && f.errors) = true
    · rw [if_pos h1]; exact ⟨_, rfl⟩
    rw [if_neg h1] at h ⊢
    by_cases h2 : f.deadChips = [] ∧ f.deadLinks = []
    · rw [if_pos h2]; exact ⟨_, rfl⟩
    rw [if_neg h2] at h ⊢
    have hs := ignore_spec v f.deadChips f.deadLinks hW hg
    cases hi : W.ignore v g f.deadChips f.deadLinks with
    | error e => exact ⟨_, rfl⟩
    | ok R =>
      obtain ⟨g1, W1⟩ := R
      rw [hi] at hs
      simp only at hs ⊢
      obtain ⟨s1, s2, s3, s4, s5, s6, s7⟩ := hs
      rw [s1] at h
      exact ih _ _ _ h W1 g1 s5 (by omega) rfl

theorem ObjStep.inv {v : Version} {W W' : ObjWorld} (s : ObjStep v W W') (hW : WorldInv W) : WorldInv W' := by
  cases s with
  | newRouter links n a h =>
    unfold ObjWorld.newRouter at h
    split at h
    · cases h
    · cases h
      intro g hg
      exact (hW g hg).mono (Nat.le_succ _)
  | addLink a ha l h =>
    unfold ObjWorld.routerAddLink at h
    split at h
    · cases h
    · cases h; exact hW
  | newMachine w h o g hh =>
    unfold ObjWorld.newMachine at hh
    split at hh
    · cases hh
    · cases hh
      intro k hk
      simp only at hk ⊢
      by_cases he : k = W.nMachines
      · subst he; rw [upd_self]; exact ObjInv.ofShell _ _
      · rw [upd_ne _ _ he]; exact hW k (by omega)
  | addChip g hg c hc hk h =>
    unfold ObjWorld.addChip at h
    split at h
    · cases h
    · rename_i o ho
      cases h
      intro k hk
      simp only at hk ⊢
      by_cases he : k = g
      · subst he; rw [upd_self]; exact (MachineObj.addChip_inv (hW _ hg) hc ho).1
      · rw [upd_ne _ _ he]; exact hW k hk
  | addSpinnakerLinks g hg =>
    intro k hk
    simp only [ObjWorld.addSpinnakerLinks] at hk ⊢
    by_cases he : k = g
    · subst he; rw [upd_self]; exact (hW _ hg).shell _
    · rw [upd_ne _ _ he]; exact hW k hk
  | addFpgaLinks g hg =>
    intro k hk
    simp only [ObjWorld.addFpgaLinks] at hk ⊢
    by_cases he : k = g
    · subst he; rw [upd_self]; exact (hW _ hg).shell _
    · rw [upd_ne _ _ he]; exact hW k hk
  | ignore g g' hg dc dl h =>
    have := ignore_spec v dc dl hW hg
    rw [h] at this
    exact this.2.2.2.2.1
  | repair g g' hg rep removed h => exact (repair_forward v rep removed W g _ h hW hg).2.2.1

theorem ObjReach.inv {v : Version} {W : ObjWorld} (h : ObjReach v W) : WorldInv W := by
  induction h with
  | start => intro g hg; simp [ObjWorld.empty] at hg
  | step _ s ih => exact ObjStep.inv s ih

end SpiNN
