import Verif.Lemmas.SharingReach

/-!
# C71: machines, and the routers they share

`_machine_ignore` and `machine_repair` say "Does not change the original machine!". Here routers are objects
(`Model/Sharing.lean`), so this can be said and proved, and also what it does not promise: the new machine holds `Chip`
objects of the original.
-/

namespace SpiNN.Props
open SpiNN Spec

/-! ### lookups -/

theorem view_getChipAt (W : ObjWorld) (g : Nat) (p : XY) :
    (W.view g).getChipAt p.1 p.2 = ((W.machines g).chips.get? p).map (ChipObj.deref W.routers) :=
  PDict.get?_mapVal _ _ _

theorem view_isChipAt (W : ObjWorld) (g : Nat) (p : XY) : (W.view g).isChipAt p.1 p.2 = true ↔ ∃ a, RouterAt W g p a := by
  have : (W.view g).isChipAt p.1 p.2 = ((W.view g).getChipAt p.1 p.2).isSome := rfl
  rw [this, view_getChipAt]
  unfold RouterAt
  cases h : (W.machines g).chips.get? p <;> simp

theorem RouterAt.unique {W : ObjWorld} {g : Nat} {p : XY} {a b : Nat} (h : RouterAt W g p a) (k : RouterAt W g p b) : a = b := by
  obtain ⟨c, h1, rfl⟩ := h
  obtain ⟨d, k1, rfl⟩ := k
  rw [h1] at k1
  cases k1
  rfl

/-! ### the original is not changed -/

/-- C71: whatever program came before, `_machine_ignore` gives a new machine, which is the one of `machineIgnore`
(C37), and no machine of the program looks different afterwards. -/
theorem C71_ignore (v : Version) (W : ObjWorld) (hW : ObjReach v W) (g : Nat) (hg : g < W.nMachines) (deadChips : List XY)
    (dead : List DeadLink) :
    match W.ignore v g deadChips dead with
    | .error e => machineIgnore v (W.view g) deadChips dead = .error e
    | .ok (g', W') => machineIgnore v (W.view g) deadChips dead = .ok (W'.view g') ∧ W.nMachines ≤ g' ∧
        ∀ k, k < W.nMachines → W'.view k = W.view k := by
  have hs := ignore_spec v deadChips dead (ObjReach.inv hW) hg
  cases h : W.ignore v g deadChips dead with
  | error e => rw [h] at hs; exact hs
  | ok R =>
    rw [h] at hs
    obtain ⟨s1, s2, s3, s4, -⟩ := hs
    exact ⟨s1, by omega, fun k hk => s4.view (ObjReach.inv hW) hk⟩

/-- C71: the same for `machine_repair`, which always ends; what it returns is the machine it was given, or a new one. -/
theorem C71_repair (v : Version) (W : ObjWorld) (hW : ObjReach v W) (g : Nat) (hg : g < W.nMachines) (repair : Bool)
    (removed : List XY) :
    ∃ r, ObjWorld.repair v repair removed W g = some r ∧ match r with
      | .error e => machineRepair v repair removed (W.view g) = some (.error e)
      | .ok (g', W') => machineRepair v repair removed (W.view g) = some (.ok (W'.view g')) ∧
          ((g' = g ∧ W' = W) ∨ W.nMachines ≤ g') ∧ ∀ k, k < W.nMachines → W'.view k = W.view k := by
  obtain ⟨hI, hR, hV⟩ := ObjReach.views hW
  obtain ⟨w, h, hr, hc⟩ := hV g hg
  obtain ⟨r0, h0⟩ := C38_terminates v w h repair removed _ hr hc
  obtain ⟨r, hs⟩ := repair_backward v repair removed _ r0 h0 W g hI hg rfl
  refine ⟨r, hs, ?_⟩
  have := repair_forward v repair removed W g r hs hI hg
  unfold RepairSpec at this
  revert this
  cases r with
  | error e => exact fun h => h
  | ok R =>
    obtain ⟨g', W'⟩ := R
    rintro ⟨a1, a2, a3, a4, a5, a6⟩
    exact ⟨a1, a5.imp id (·.1), fun k hk => a2.view hI hk⟩

/-- C71: every machine of such a program, whatever it shares with others, is one to which the theorems about `Reachable`
machines with `RealChip` chips apply. -/
theorem C71_reachable (v : Version) (W : ObjWorld) (hW : ObjReach v W) (g : Nat) (hg : g < W.nMachines) :
    ∃ w h, Reachable v w h (W.view g) ∧ ∀ c ∈ (W.view g).chipList, RealChip c :=
  (ObjReach.views hW).2.2 g hg

/-! ### what is shared -/

/-- C71: after `_machine_ignore` the new machine has the chips that are not dead. A chip with a dead link has a new
router, which is no other chip's; every other one has the router of the original chip. -/
theorem C71_sharing (v : Version) (W W' : ObjWorld) (hW : ObjReach v W) (g g' : Nat) (hg : g < W.nMachines)
    (deadChips : List XY) (dead : List DeadLink) (h : W.ignore v g deadChips dead = .ok (g', W')) (p : XY) :
    ((∃ a, RouterAt W' g' p a) ↔ (∃ a, RouterAt W g p a) ∧ p ∉ deadChips) ∧
    ∀ a, RouterAt W' g' p a →
      ((¬ ∃ out back, (p.1, p.2, out, back) ∈ dead) → RouterAt W g p a) ∧
      ((∃ out back, (p.1, p.2, out, back) ∈ dead) → ∀ k q, k < W'.nMachines → RouterAt W' k q a → k = g' ∧ q = p) := by
  obtain ⟨hI, hR, hV⟩ := ObjReach.views hW
  have hs := ignore_spec v deadChips dead hI hg
  rw [h] at hs
  obtain ⟨s1, s2, s3, s4, s5, s6, s7⟩ := hs
  obtain ⟨w, hh, hr, hc⟩ := hV g hg
  have hex := (C37_exact v w hh _ _ hr hc deadChips dead s1).2.2.2.1 p.1 p.2
  rw [view_isChipAt, view_isChipAt] at hex
  refine ⟨hex, ?_⟩
  have hl : LinkListed dead p ↔ ∃ out back, (p.1, p.2, out, back) ∈ dead := by
    unfold LinkListed
    constructor
    · rintro ⟨⟨x, y, o, b⟩, hd, rfl⟩; exact ⟨o, b, hd⟩
    · rintro ⟨o, b, hd⟩; exact ⟨_, hd, rfl⟩
  rw [← hl]
  rintro a ⟨c', hc', rfl⟩
  obtain ⟨c, hc0, -, hcase⟩ := s7 p c' hc'
  refine ⟨fun hn => ?_, fun hy k q hk hq => ?_⟩
  · rcases hcase with ⟨-, rfl⟩ | ⟨hy, -⟩
    · exact ⟨c', hc0, rfl⟩
    · exact absurd hy hn
  · have hle : W.nRouters ≤ c'.addr := by
      rcases hcase with ⟨hn, -⟩ | ⟨-, hle⟩
      · exact absurd hy hn
      · exact hle
    obtain ⟨d, hd, he⟩ := hq
    by_cases hkk : k < W.nMachines
    · rw [s4.machines k hkk] at hd
      have := ((hI k hkk).get hd).2
      omega
    · have : k = g' := by omega
      subst this
      exact ⟨rfl, (s6 p q c' d hc' hd hle he.symm).symm⟩

/-- C71: the machine `machine_repair` returns has, at each chip, the router of the original chip or one that no chip had
before; of its new routers no two chips have the same one. -/
theorem C71_repair_sharing (v : Version) (W W' : ObjWorld) (hW : ObjReach v W) (g g' : Nat) (hg : g < W.nMachines)
    (repair : Bool) (removed : List XY) (h : ObjWorld.repair v repair removed W g = some (.ok (g', W'))) (p : XY) (a : Nat)
    (ha : RouterAt W' g' p a) :
    RouterAt W g p a ∨ ((∀ k, k < W.nMachines → ¬ HasRouter W k a) ∧ ∀ q, RouterAt W' g' q a → q = p) := by
  obtain ⟨hI, hR, hV⟩ := ObjReach.views hW
  have := repair_forward v repair removed W g _ h hI hg
  unfold RepairSpec at this
  obtain ⟨a1, a2, a3, a4, a5, a6⟩ := this
  obtain ⟨c', hc', rfl⟩ := ha
  obtain ⟨c, hc, hcase⟩ := a6 p c' hc'
  rcases hcase with rfl | hle
  · exact .inl ⟨c', hc, rfl⟩
  · refine .inr ⟨fun k hk => ?_, fun q hq => ?_⟩
    · rintro ⟨q, d, hd, he⟩
      have := ((hI k hk).get hd).2
      omega
    · obtain ⟨d, hd, he⟩ := hq
      rcases a5 with ⟨rfl, rfl⟩ | ⟨-, hf⟩
      · have := ((hI g' hg).get hc').2
        omega
      · exact (hf p q c' d hc' hd hle he.symm).symm

/-! ### adding a link later -/

/-- C71: `add_link` on a router adds the link to the chips that have this router, in all machines, and changes nothing
else of any machine. -/
theorem C71_add_link (W W' : ObjWorld) (a : Nat) (l : Link) (h : W.routerAddLink a l = .ok W') (g : Nat) :
    (∀ p, RouterAt W g p a → ∃ c r, (W.view g).getChipAt p.1 p.2 = some c ∧ c.router.addLink l = .ok r ∧
      (W'.view g).getChipAt p.1 p.2 = some { c with router := r }) ∧
    (∀ p, ¬ RouterAt W g p a → (W'.view g).getChipAt p.1 p.2 = (W.view g).getChipAt p.1 p.2) ∧
    ∀ chips eths, { W'.view g with chips := chips, ethernetChips := eths } =
      { W.view g with chips := chips, ethernetChips := eths } := by
  unfold ObjWorld.routerAddLink at h
  split at h
  · cases h
  rename_i r hr
  cases h
  refine ⟨?_, ?_, fun _ _ => rfl⟩
  · rintro p ⟨c, hc, rfl⟩
    refine ⟨c.deref W.routers, r, ?_, hr, ?_⟩
    · rw [view_getChipAt, hc]; rfl
    · rw [view_getChipAt]
      simp only
      rw [hc]
      simp only [Option.map_some, ChipObj.deref, upd_self]
  · intro p hp
    rw [view_getChipAt, view_getChipAt]
    simp only
    cases hc : (W.machines g).chips.get? p with
    | none => rfl
    | some c =>
      simp only [Option.map_some, Option.some.injEq]
      unfold ChipObj.deref
      rw [upd_ne]
      intro he
      exact hp ⟨c, hc, he⟩

/-- C71: so a link added to a chip of the new machine is in the original machine as well, if no dead link was given for
the chip. -/
theorem C71_link_in_both (v : Version) (W W' W'' : ObjWorld) (hW : ObjReach v W) (g g' : Nat) (hg : g < W.nMachines)
    (deadChips : List XY) (dead : List DeadLink) (h : W.ignore v g deadChips dead = .ok (g', W')) (p : XY) (a : Nat) (l : Link)
    (ha : RouterAt W' g' p a) (hp : ¬ ∃ out back, (p.1, p.2, out, back) ∈ dead) (hl : W'.routerAddLink a l = .ok W'') :
    (W.view g).isLinkAt p.1 p.2 l.sourceLinkId = false ∧ (W'.view g).isLinkAt p.1 p.2 l.sourceLinkId = false ∧
    (W''.view g').isLinkAt p.1 p.2 l.sourceLinkId = true ∧ (W''.view g).isLinkAt p.1 p.2 l.sourceLinkId = true := by
  have hs := ignore_spec v deadChips dead (ObjReach.inv hW) hg
  rw [h] at hs
  obtain ⟨s1, s2, s3, s4, s5, s6, s7⟩ := hs
  have hold : RouterAt W g p a := ((C71_sharing v W W' hW g g' hg deadChips dead h p).2 a ha).1 hp
  have hold' : RouterAt W' g p a := by
    obtain ⟨c, hc, he⟩ := hold
    exact ⟨c, by rw [s4.machines g hg]; exact hc, he⟩
  have key : ∀ k, k < W'.nMachines → RouterAt W' k p a →
      (W'.view k).isLinkAt p.1 p.2 l.sourceLinkId = false ∧ (W''.view k).isLinkAt p.1 p.2 l.sourceLinkId = true := by
    intro k hk hka
    obtain ⟨c, r, h1, h2, h3⟩ := (C71_add_link W' W'' a l hl k).1 p hka
    have hr : c.router.links.contains l.sourceLinkId = false ∧ r.links.contains l.sourceLinkId = true := by
      unfold Router.addLink at h2
      split at h2
      · cases h2
      · rename_i hn
        cases h2
        refine ⟨by simpa using hn, ?_⟩
        simp [PDict.contains_set]
    have e1 : (W'.view k).chips.get? (p.1, p.2) = some c := h1
    have e3 : (W''.view k).chips.get? (p.1, p.2) = some { c with router := r } := h3
    unfold Machine.isLinkAt Router.isLink
    rw [e1, e3]
    exact hr
  have k1 := key g (by omega) hold'
  have k2 := key g' (by omega) ha
  refine ⟨?_, k1.1, k2.2, k1.2⟩
  rw [← s4.view (ObjReach.inv hW) hg]
  exact k1.1

/-- C71: machines without a router in common do not see each other's new links. -/
theorem C71_separate (v : Version) (W W' : ObjWorld) (hW : ObjReach v W) (g k : Nat) (hk : k < W.nMachines)
    (hsep : ∀ b, ¬ (HasRouter W g b ∧ HasRouter W k b)) (a : Nat) (ha : HasRouter W g a) (l : Link)
    (h : W.routerAddLink a l = .ok W') : W'.view k = W.view k := by
  have hI := ObjReach.inv hW
  rw [view_routerAddLink v hI h hk]
  have : placesOf (W.machines k) a = [] := by
    unfold placesOf
    rw [List.map_eq_nil_iff, List.filter_eq_nil_iff]
    intro kv hkv he
    refine hsep a ⟨ha, kv.1, kv.2, (PDict.mem_items_iff (hI k hk).wf _ _).1 hkv, by simpa using he⟩
  rw [this]
  rfl

/-- C71: the machine sees `add_link` on a router as one call for each of its chips with this router, so as the single
call of the other theorems if it is one chip's. -/
theorem C71_one_chip (v : Version) (W W' : ObjWorld) (hW : ObjReach v W) (a : Nat) (l : Link)
    (h : W.routerAddLink a l = .ok W') (g : Nat) (hg : g < W.nMachines) (p : XY) (hp : RouterAt W g p a)
    (hone : ∀ q, RouterAt W g q a → q = p) : (W.view g).routerAddLink p l = .ok (W'.view g) := by
  have hI := ObjReach.inv hW
  have hv := view_routerAddLink v hI h hg
  have hpl : placesOf (W.machines g) a = [p] := by
    have hnd : (placesOf (W.machines g) a).Nodup := by
      unfold placesOf
      exact (List.filter_sublist.map _).nodup (hI g hg).wf
    have hmem : ∀ q, q ∈ placesOf (W.machines g) a ↔ q = p := by
      intro q
      constructor
      · intro hq
        obtain ⟨kv, hkv, rfl⟩ := List.mem_map.1 hq
        obtain ⟨h1, h2⟩ := List.mem_filter.1 hkv
        exact hone _ ⟨kv.2, (PDict.mem_items_iff (hI g hg).wf _ _).1 h1, by simpa using h2⟩
      · rintro rfl
        obtain ⟨c, hc, he⟩ := hp
        exact List.mem_map.2 ⟨(q, c), List.mem_filter.2 ⟨PDict.get?_mem hc, by simpa using he⟩, rfl⟩
    generalize placesOf (W.machines g) a = t at hnd hmem
    cases t with
    | nil => exact absurd ((hmem p).2 rfl) (by simp)
    | cons b t =>
      have hb : b = p := (hmem b).1 List.mem_cons_self
      cases t with
      | nil => rw [hb]
      | cons b' t =>
        have hb' : b' = p := (hmem b').1 (by simp)
        subst hb hb'
        simp at hnd
  rw [hpl] at hv
  obtain ⟨c, r, h1, h2, -⟩ := (C71_add_link W W' a l h g).1 p hp
  have e1 : (W.view g).chips.get? p = some c := h1
  simp only [List.map_cons, List.map_nil, run, step] at hv
  cases hm : (W.view g).routerAddLink p l with
  | ok m => rw [hm] at hv; rw [hv]
  | error e =>
    unfold Machine.routerAddLink at hm
    rw [e1] at hm
    simp only at hm
    rw [h2] at hm
    cases hm

/-- no two chips of a machine have one router -/
def OwnRouters (W : ObjWorld) : Prop :=
  ∀ g, g < W.nMachines → ∀ p q a, RouterAt W g p a → RouterAt W g q a → p = q

theorem ignore_own {v : Version} {W W' : ObjWorld} (hI : WorldInv W) (ho : OwnRouters W) {g g' : Nat} (hg : g < W.nMachines)
    {dc : List XY} {dl : List DeadLink} (h : W.ignore v g dc dl = .ok (g', W')) : OwnRouters W' := by
  have hs := ignore_spec v dc dl hI hg
  rw [h] at hs
  obtain ⟨s1, s2, s3, s4, s5, s6, s7⟩ := hs
  intro k hk p q a hp hq
  by_cases hkk : k < W.nMachines
  · have e := s4.machines k hkk
    unfold RouterAt at hp hq
    rw [e] at hp hq
    exact ho k hkk p q a hp hq
  · have : k = g' := by omega
    subst this
    obtain ⟨c, hc, rfl⟩ := hp
    obtain ⟨d, hd, he⟩ := hq
    obtain ⟨c0, hc0, -, hcc⟩ := s7 p c hc
    obtain ⟨d0, hd0, -, hdd⟩ := s7 q d hd
    by_cases hle : W.nRouters ≤ c.addr
    · exact s6 p q c d hc hd hle he.symm
    · have e1 : c = c0 := by
        rcases hcc with ⟨-, h⟩ | ⟨-, h⟩
        · exact h
        · omega
      have e2 : d = d0 := by
        rcases hdd with ⟨-, h⟩ | ⟨-, h⟩
        · exact h
        · omega
      subst e1 e2
      exact ho g hg p q c.addr ⟨c, hc0, rfl⟩ ⟨d, hd0, he⟩

theorem repair_own (v : Version) (rep : Bool) (removed : List XY) (W : ObjWorld) (g : Nat)
    (r : Except PyErr (Nat × ObjWorld)) (h : ObjWorld.repair v rep removed W g = some r) :
    WorldInv W → OwnRouters W → g < W.nMachines → ∀ R, r = .ok R → OwnRouters R.2 := by
  refine ObjWorld.repair.partial_correctness v rep (motive := fun removed W g r => WorldInv W → OwnRouters W →
    g < W.nMachines → ∀ R, r = .ok R → OwnRouters R.2) ?_ removed W g r h
  intro rec ih removed W g r h hW hV hg R hR
  subst hR
  split at h
  · cases h
  · rename_i f hf
    split at h
    · cases h
    · split at h
      · cases h; exact hV
      · split at h
        · cases h
        · rename_i g1 W1 hi
          have hs := ignore_spec v f.deadChips f.deadLinks hW hg
          rw [hi] at hs
          obtain ⟨s1, s2, s3, s4, s5, -, -⟩ := hs
          exact ih _ _ _ _ h s5 (ignore_own hW hV hg hi) (by omega) _ rfl

/-- C71: no call makes two chips of a machine have one router, apart from `add_chip` with a chip whose router is that of a
chip of this machine. -/
theorem C71_own_routers (v : Version) (W W' : ObjWorld) (hW : ObjReach v W) (s : ObjStep v W W') (ho : OwnRouters W)
    (hadd : ∀ g c, g < W.nMachines → W.addChip g c = .ok W' → ¬ HasRouter W g c.addr) : OwnRouters W' := by
  have hI := ObjReach.inv hW
  have key : ∀ m : MachineObj, m.chips.items = [] ∨ (∃ k, k < W.nMachines ∧ m.chips = (W.machines k).chips) → ∀ p q a,
      (∃ c, m.chips.get? p = some c ∧ c.addr = a) → (∃ c, m.chips.get? q = some c ∧ c.addr = a) → p = q := by
    intro m hm p q a hp hq
    rcases hm with hm | ⟨k, hk, hm⟩
    · obtain ⟨c, hc, -⟩ := hp
      unfold PDict.get? at hc
      rw [hm] at hc
      simp [PDict.lookup] at hc
    · rw [hm] at hp hq
      exact ho k hk p q a hp hq
  cases s with
  | newRouter links n a h =>
    unfold ObjWorld.newRouter at h
    split at h
    · cases h
    · cases h; exact ho
  | addLink a ha l h =>
    unfold ObjWorld.routerAddLink at h
    split at h
    · cases h
    · cases h; exact ho
  | newMachine w h o g hh =>
    unfold ObjWorld.newMachine at hh
    split at hh
    · cases hh
    · cases hh
      intro k hk
      simp only at hk
      refine key _ ?_
      simp only
      by_cases he : k = W.nMachines
      · subst he; rw [upd_self]; exact .inl rfl
      · rw [upd_ne _ _ he]; exact .inr ⟨k, by omega, rfl⟩
  | addChip g hg c hc hk h =>
    have hno := hadd g c hg h
    unfold ObjWorld.addChip at h
    split at h
    · cases h
    · rename_i o hobj
      cases h
      intro k hk
      simp only at hk
      by_cases he : k = g
      · subst he
        obtain ⟨-, hnone, hset⟩ := MachineObj.addChip_inv (hI _ hg) hc hobj
        rintro p q a ⟨d, hd, rfl⟩ ⟨e, he, hee⟩
        simp only [upd_self] at hd he
        rw [hset, PDict.get?_set] at hd he
        split at hd
        · rename_i hp
          cases hd
          split at he
          · rename_i hq; rw [← hp, ← hq]
          · exact absurd ⟨q, e, he, hee⟩ hno
        · split at he
          · cases he
            exact absurd ⟨p, d, hd, hee.symm⟩ hno
          · exact ho k hg p q d.addr ⟨d, hd, rfl⟩ ⟨e, he, hee⟩
      · refine key _ (.inr ⟨k, hk, ?_⟩)
        simp only
        rw [upd_ne _ _ he]
  | addSpinnakerLinks g hg =>
    intro k hk
    refine key _ (.inr ⟨k, hk, ?_⟩)
    simp only [ObjWorld.addSpinnakerLinks]
    by_cases he : k = g
    · subst he; rw [upd_self]; rfl
    · rw [upd_ne _ _ he]
  | addFpgaLinks g hg =>
    intro k hk
    refine key _ (.inr ⟨k, hk, ?_⟩)
    simp only [ObjWorld.addFpgaLinks]
    by_cases he : k = g
    · subst he; rw [upd_self]; rfl
    · rw [upd_ne _ _ he]
  | ignore g g' hg dc dl h => exact ignore_own hI ho hg h
  | repair g g' hg rep removed h => exact repair_own v rep removed W g _ h hI ho hg _ rfl

/-! ### a program -/

/-- the result of a call that succeeds -/
def orElse {α : Type} (d : α) : Except PyErr α → α
  | .ok x => x
  | .error _ => d

/-- a router -/
def exShare1 : ObjWorld := (orElse (0, .empty) (ObjWorld.empty.newRouter [⟨0, 0, 0, 1, 0⟩] 1023)).2
/-- two routers -/
def exShare2 : ObjWorld := (orElse (0, .empty) (exShare1.newRouter [⟨1, 0, 3, 0, 0⟩] 1023)).2
/-- and an empty machine of one board -/
def exShare3 : ObjWorld := (orElse (0, .empty) (exShare2.newMachine exV5 (some 8) (some 8) "t")).2
/-- with the chip (0, 0) -/
def exShare4 : ObjWorld := orElse .empty (exShare3.addChip 0 ⟨exLinked 0 0 [] 0 0 (some ['a']), 0⟩)
/-- and the chip (1, 0) -/
def exShare : ObjWorld := orElse .empty (exShare4.addChip 0 ⟨exLinked 1 0 [] 0 0 none, 1⟩)
/-- and another empty machine -/
def exShareU : ObjWorld := (orElse (0, .empty) (exShare.newMachine exV5 (some 8) (some 8) "u")).2

theorem ok_orElse {α : Type} (d : α) (r : Except PyErr α) (h : r.isOk = true) : r = .ok (orElse d r) := by
  cases r with
  | ok x => rfl
  | error e => cases h

theorem exLinked_constructed (x y : Int) (ls : List Link) (ex ey : Int) (ip : Option PyStr) :
    Constructed (exLinked x y ls ex ey ip) := by
  unfold Constructed exLinked
  exact ⟨_, _, _, _, _, _, _, _, _, _, _, rfl⟩

/-- the program reaches this state -/
theorem exShare_reach : ObjReach exV5 exShare := by
  have h1 : ObjReach exV5 exShare1 := .step .start (.newRouter [⟨0, 0, 0, 1, 0⟩] 1023 _ (ok_orElse (0, .empty) _ (by decide +kernel)))
  have h2 : ObjReach exV5 exShare2 := .step h1 (.newRouter [⟨1, 0, 3, 0, 0⟩] 1023 _ (ok_orElse (0, .empty) _ (by decide +kernel)))
  have h3 : ObjReach exV5 exShare3 := .step h2 (.newMachine (some 8) (some 8) "t" _ (ok_orElse (0, .empty) _ (by decide +kernel)))
  have h4 : ObjReach exV5 exShare4 := .step h3 (.addChip 0 (by decide +kernel) ⟨exLinked 0 0 [] 0 0 (some ['a']), 0⟩
    (by decide +kernel) (exLinked_constructed 0 0 [] 0 0 (some ['a'])) (ok_orElse .empty _ (by decide +kernel)))
  exact .step h4 (.addChip 0 (by decide +kernel) ⟨exLinked 1 0 [] 0 0 none, 1⟩ (by decide +kernel)
    (exLinked_constructed 1 0 [] 0 0 none) (ok_orElse .empty _ (by decide +kernel)))

/-- after `_machine_ignore` with a dead link of (1, 0): the chip (0, 0) has router 0 in both machines, the chip (1, 0) a new
one; a link added at (0, 0) of the new machine appears in the old one -/
example :
    let R := orElse (0, exShare) (exShare.ignore exV5 0 [] [(1, 0, 3, 0)])
    let W'' := orElse R.2 (R.2.routerAddLink 0 ⟨0, 0, 2, 0, 1⟩)
    R.1 = 1 ∧ R.2.nMachines = 2 ∧ R.2.nRouters = 3 ∧
    ((R.2.machines 1).chips.get? (0, 0)).map ChipObj.addr = some 0 ∧
    ((R.2.machines 1).chips.get? (1, 0)).map ChipObj.addr = some 2 ∧
    (R.2.view 0).isLinkAt 1 0 3 = true ∧ (R.2.view 1).isLinkAt 1 0 3 = false ∧
    (R.2.view 0).isLinkAt 0 0 2 = false ∧ (W''.view 0).isLinkAt 0 0 2 = true ∧ (W''.view 1).isLinkAt 0 0 2 = true := by
  decide +kernel

/-- two machines that share nothing, for `C71_separate` -/
example : ObjReach exV5 exShareU ∧ exShareU.nMachines = 2 ∧ (∀ b, ¬ (HasRouter exShareU 0 b ∧ HasRouter exShareU 1 b)) ∧
    HasRouter exShareU 0 0 ∧ ∃ W', exShareU.routerAddLink 0 ⟨0, 0, 2, 0, 1⟩ = .ok W' := by
  refine ⟨exShare_reach.step (.newMachine (some 8) (some 8) "u" _ (ok_orElse (0, .empty) _ (by decide +kernel))), by decide +kernel, ?_,
    ⟨(0, 0), ⟨exLinked 0 0 [] 0 0 (some ['a']), 0⟩, by decide +kernel, rfl⟩, _, ok_orElse .empty _ (by decide +kernel)⟩
  rintro b ⟨-, p, c, hc, -⟩
  have h0 : (exShareU.machines 1).chips.items = [] := by decide +kernel
  unfold PDict.get? at hc
  rw [h0] at hc
  simp [PDict.lookup] at hc

end SpiNN.Props
