import Verif.Lemmas.SharingWorld

/-! # The machines of a program are machines of the other theorems -/

namespace SpiNN
open Spec Props

/-! ### routers -/

theorem addLinks_append (ls : List Link) (r r' r'' : Router) (l : Link) (h : Router.addLinks r ls = .ok r')
    (hl : r'.addLink l = .ok r'') : Router.addLinks r (ls ++ [l]) = .ok r'' := by
  induction ls generalizing r with
  | nil =>
    simp only [Router.addLinks, Except.ok.injEq] at h
    subst h
    simp only [List.nil_append, Router.addLinks, hl]
  | cons a ls ih =>
    simp only [Router.addLinks, List.cons_append] at h ⊢
    cases ha : r.addLink a with
    | error e => rw [ha] at h; cases h
    | ok r1 => rw [ha] at h; exact ih r1 h

/-- made by the constructor and changed by `add_link` -/
def RealRouter (r : Router) : Prop := ∃ ls n, Router.mk' ls n = .ok r

theorem RealRouter.addLink {r r' : Router} {l : Link} (h : RealRouter r) (hl : r.addLink l = .ok r') : RealRouter r' := by
  obtain ⟨ls, n, h⟩ := h
  exact ⟨ls ++ [l], n, addLinks_append _ _ _ _ _ h hl⟩

theorem ignoreLoopObj_real (deadChips : List XY) (dead : List DeadLink) (cs : List ChipObj) (H : Nat → Router) (n : Nat)
    (o : MachineObj) (hH : ∀ a, a < n → RealRouter (H a)) (R) (h : ignoreLoopObj deadChips dead cs H n o = .ok R) :
    ∀ a, a < R.2.1 → RealRouter (R.1 a) := by
  induction cs generalizing H n o with
  | nil => simp only [ignoreLoopObj, Except.ok.injEq] at h; subst h; exact hH
  | cons c cs ih =>
    simp only [ignoreLoopObj] at h
    split at h
    · exact ih _ _ _ hH h
    · split at h
      · split at h
        · cases h
        · exact ih _ _ _ hH h
      · split at h
        · cases h
        · rename_i r hr
          split at h
          · cases h
          · refine ih _ _ _ ?_ h
            intro a ha
            by_cases he : a = n
            · subst he; rw [upd_self]; exact ⟨_, _, hr⟩
            · rw [upd_ne _ _ he]; exact hH a (by omega)

/-- all routers of a program are made by the constructor -/
def RealRouters (W : ObjWorld) : Prop := ∀ a, a < W.nRouters → RealRouter (W.routers a)

theorem ignore_real {W : ObjWorld} {v : Version} {g : Nat} {dc : List XY} {dl : List DeadLink} {R}
    (hW : RealRouters W) (h : W.ignore v g dc dl = .ok R) : RealRouters R.2 := by
  unfold ObjWorld.ignore at h
  split at h
  · cases h
  · split at h
    · cases h
    · rename_i H n o1 hl
      simp only at h
      split at h
      · cases h
      · cases h
        exact ignoreLoopObj_real _ _ _ _ _ _ hW _ hl

theorem repair_real (v : Version) (rep : Bool) (removed : List XY) (W : ObjWorld) (g : Nat)
    (r : Except PyErr (Nat × ObjWorld)) (h : ObjWorld.repair v rep removed W g = some r) :
    RealRouters W → ∀ R, r = .ok R → RealRouters R.2 := by
  refine ObjWorld.repair.partial_correctness v rep (motive := fun removed W g r => RealRouters W → ∀ R, r = .ok R →
    RealRouters R.2) ?_ removed W g r h
  intro rec ih removed W g r h hW R hR
  subst hR
  split at h
  · cases h
  · split at h
    · cases h
    · split at h
      · cases h; exact hW
      · split at h
        · cases h
        · rename_i hi
          exact ih _ _ _ _ h (ignore_real hW hi) _ rfl

theorem RealRouters.step {v : Version} {W W' : ObjWorld} (s : ObjStep v W W') (hW : RealRouters W) : RealRouters W' := by
  cases s with
  | newRouter links n a h =>
    unfold ObjWorld.newRouter at h
    split at h
    · cases h
    · rename_i r hr
      cases h
      intro b hb
      simp only at hb ⊢
      by_cases he : b = W.nRouters
      · subst he; rw [upd_self]; exact ⟨_, _, hr⟩
      · rw [upd_ne _ _ he]; exact hW b (by omega)
  | addLink a ha l h =>
    unfold ObjWorld.routerAddLink at h
    split at h
    · cases h
    · rename_i r hr
      cases h
      intro b hb
      simp only at hb ⊢
      by_cases he : b = a
      · subst he; rw [upd_self]; exact (hW _ ha).addLink hr
      · rw [upd_ne _ _ he]; exact hW b hb
  | newMachine w h o g hh =>
    unfold ObjWorld.newMachine at hh
    split at hh
    · cases hh
    · cases hh; exact hW
  | addChip g hg c hc hk h =>
    unfold ObjWorld.addChip at h
    split at h
    · cases h
    · cases h; exact hW
  | addSpinnakerLinks g hg => exact hW
  | addFpgaLinks g hg => exact hW
  | ignore g g' hg dc dl h => exact ignore_real hW h
  | repair g g' hg rep removed h => exact repair_real v rep removed W g _ h hW _ rfl

/-! ### `add_link` on a router of several chips -/

/-- a chip with one more link -/
def withLink (l : Link) (c : Chip) : Chip :=
  { c with router := { c.router with links := c.router.links.set l.sourceLinkId l } }

theorem withLink_xy (l : Link) (c : Chip) : (withLink l c).xy = c.xy := rfl

theorem set_eq_mapVal {d : PDict XY Chip} (hwf : d.WF) (hkey : ∀ kv ∈ d.items, kv.1 = kv.2.xy) {p : XY} {c : Chip}
    (hc : d.get? p = some c) (f : Chip → Chip) :
    d.set p (f c) = d.mapVal fun d => if d.xy = p then f d else d := by
  have key : ∀ (t : List (XY × Chip)), (t.map (·.1)).Nodup → (∀ kv ∈ t, kv.1 = kv.2.xy) → PDict.lookup t p = some c →
      PDict.assign t p (f c) = t.map fun kv => (kv.1, if kv.2.xy = p then f kv.2 else kv.2) := by
    intro t
    induction t with
    | nil => intro _ _ h; simp [PDict.lookup] at h
    | cons a t ih =>
      obtain ⟨k, d⟩ := a
      intro hn hk hl
      simp only [List.map_cons, List.nodup_cons] at hn
      have hkd : k = d.xy := hk (k, d) List.mem_cons_self
      simp only [PDict.lookup, PDict.assign, List.map_cons] at hl ⊢
      by_cases h : k = p
      · rw [if_pos h] at hl ⊢
        cases hl
        rw [if_pos (hkd.symm.trans h), h]
        congr 1
        have : ∀ kv ∈ t, (kv.1, if kv.2.xy = p then f kv.2 else kv.2) = kv := by
          intro kv hkv
          rw [if_neg]
          intro he
          apply hn.1
          rw [h, ← he, ← hk kv (List.mem_cons_of_mem _ hkv)]
          exact List.mem_map_of_mem hkv
        rw [List.map_congr_left this, List.map_id']
      · rw [if_neg h] at hl ⊢
        rw [if_neg (fun he => h (hkd.trans he)), ih hn.2 (fun kv hkv => hk kv (List.mem_cons_of_mem _ hkv)) hl]
  unfold PDict.set PDict.mapVal
  rw [key d.items hwf hkey hc]

theorem PDict.mapVal_mapVal {K U V X : Type} (f : U → V) (g : V → X) (d : PDict K U) :
    (d.mapVal f).mapVal g = d.mapVal (fun x => g (f x)) := by
  simp [PDict.mapVal, Function.comp_def]

theorem run_addLinks (v : Version) (l : Link) (ps : List XY) (m : Machine) (hwf : m.chips.WF)
    (hkey : ∀ kv ∈ m.chips.items, kv.1 = kv.2.xy) (heth : ∀ c ∈ m.ethernetChips, c ∈ m.chips.values) (hps : ps.Nodup)
    (hc : ∀ p ∈ ps, ∃ c, m.chips.get? p = some c ∧ c.router.links.contains l.sourceLinkId = false) :
    (run v m (ps.map fun p => .addLink p l)).1 =
      { m with chips := m.chips.mapVal fun d => if d.xy ∈ ps then withLink l d else d
               ethernetChips := m.ethernetChips.map fun d => if d.xy ∈ ps then withLink l d else d } := by
  induction ps generalizing m with
  | nil => cases m; simp [run, PDict.mapVal]
  | cons p ps ih =>
    obtain ⟨c, h1, h2⟩ := hc p List.mem_cons_self
    simp only [List.map_cons, run]
    have hset := set_eq_mapVal hwf hkey h1 (withLink l)
    have hcxy : p = c.xy := hkey (p, c) (PDict.get?_mem h1)
    have heq : (m.ethernetChips.map fun d => if d.xy = p then { d with router := (withLink l c).router } else d) =
        m.ethernetChips.map fun d => if d.xy = p then withLink l d else d := by
      apply List.map_congr_left
      intro d hd
      by_cases h : d.xy = p
      · rw [if_pos h, if_pos h]
        obtain ⟨kv, hkv, rfl⟩ := List.mem_map.1 (heth d hd)
        have := (PDict.mem_items_iff hwf kv.1 kv.2).1 hkv
        rw [hkey kv hkv, h, h1] at this
        cases this
        rfl
      · rw [if_neg h, if_neg h]
    have hstep : step v m (.addLink p l) =
        ({ m with chips := m.chips.mapVal (fun d => if d.xy = p then withLink l d else d)
                  ethernetChips := m.ethernetChips.map fun d => if d.xy = p then withLink l d else d }, none) := by
      simp only [step, Machine.routerAddLink, h1, Router.addLink, h2, Bool.false_eq_true, if_false]
      rw [← hset, ← heq]
      rfl
    rw [hstep]
    simp only
    have hn := List.nodup_cons.1 hps
    have hkeys : ∀ d : Chip, (if d.xy = p then withLink l d else d).xy = d.xy := by
      intro d; split <;> rfl
    rw [ih]
    · simp only [PDict.mapVal_mapVal, List.map_map, Machine.mk.injEq, true_and]
      have hf : ∀ d : Chip, (if (if d.xy = p then withLink l d else d).xy ∈ ps then withLink l (if d.xy = p then withLink l d else d)
          else (if d.xy = p then withLink l d else d)) = if d.xy ∈ p :: ps then withLink l d else d := by
        intro d
        rw [hkeys]
        by_cases he : d.xy = p
        · have : d.xy ∉ ps := by rw [he]; exact hn.1
          simp [he, hn.1]
        · simp [he]
      refine ⟨?_, ?_⟩
      · exact List.map_congr_left fun d _ => hf d
      · exact ⟨PDict.mapVal_congr (d := m.chips) fun d _ => hf d, trivial⟩
    · have hwf' := hwf
      unfold PDict.WF PDict.keys at hwf'
      unfold PDict.WF PDict.keys PDict.mapVal
      simpa [Function.comp_def] using hwf'
    · intro kv hkv
      simp only [PDict.mapVal, List.mem_map] at hkv
      obtain ⟨kv0, hkv0, rfl⟩ := hkv
      simp only [hkeys]
      exact hkey kv0 hkv0
    · intro d hd
      obtain ⟨d0, hd0, rfl⟩ := List.mem_map.1 hd
      rw [PDict.values_mapVal]
      exact List.mem_map_of_mem (heth d0 hd0)
    · exact hn.2
    · intro q hq
      obtain ⟨d, hd1, hd2⟩ := hc q (List.mem_cons_of_mem _ hq)
      refine ⟨d, ?_, hd2⟩
      rw [PDict.get?_mapVal, hd1]
      have : d.xy ≠ p := by
        have hdq : q = d.xy := hkey (q, d) (PDict.get?_mem hd1)
        rw [← hdq]
        intro h
        exact hn.1 (h ▸ hq)
      simp [this]

/-- the places of the chips with the router at address `a` -/
def placesOf (o : MachineObj) (a : Nat) : List XY := (o.chips.items.filter fun kv => kv.2.addr = a).map (·.1)

theorem view_routerAddLink {W W' : ObjWorld} (v : Version) (hW : WorldInv W) {a : Nat} {l : Link}
    (h : W.routerAddLink a l = .ok W') {g : Nat} (hg : g < W.nMachines) :
    W'.view g = (run v (W.view g) ((placesOf (W.machines g) a).map fun p => .addLink p l)).1 := by
  have ho := hW g hg
  have hwf : (W.view g).chips.WF := by
    have := ho.wf
    unfold PDict.WF PDict.keys at this
    unfold ObjWorld.view MachineObj.view PDict.mapVal PDict.WF PDict.keys
    simpa [Function.comp_def] using this
  have hkey : ∀ kv ∈ (W.view g).chips.items, kv.1 = kv.2.xy := by
    intro kv hkv
    unfold ObjWorld.view MachineObj.view PDict.mapVal at hkv
    simp only [List.mem_map] at hkv
    obtain ⟨kv0, hkv0, rfl⟩ := hkv
    exact (ho.key kv0 hkv0).1
  have heth : ∀ c ∈ (W.view g).ethernetChips, c ∈ (W.view g).chips.values := by
    intro c hc
    unfold ObjWorld.view MachineObj.view at hc ⊢
    simp only [List.mem_map] at hc
    obtain ⟨d, hd, rfl⟩ := hc
    simp only
    rw [PDict.values_mapVal]
    exact List.mem_map_of_mem (ho.eth hd)
  unfold ObjWorld.routerAddLink at h
  split at h
  · cases h
  rename_i r hr
  cases h
  have hr' : (W.routers a).links.contains l.sourceLinkId = false ∧
      r = { W.routers a with links := (W.routers a).links.set l.sourceLinkId l } := by
    unfold Router.addLink at hr
    split at hr
    · cases hr
    · rename_i hn
      cases hr
      exact ⟨by simpa using hn, rfl⟩
  have hmem : ∀ c, c ∈ (W.machines g).chips.values → (c.chip.xy ∈ placesOf (W.machines g) a ↔ c.addr = a) := by
    intro c hc
    have hget := machineObj_values ho hc
    constructor
    · intro h
      obtain ⟨kv, hkv, he⟩ := List.mem_map.1 h
      obtain ⟨h1, h2⟩ := List.mem_filter.1 hkv
      have := (PDict.mem_items_iff ho.wf kv.1 kv.2).1 h1
      rw [he, hget] at this
      cases this
      simpa using h2
    · intro h
      exact List.mem_map.2 ⟨(c.chip.xy, c), List.mem_filter.2 ⟨PDict.get?_mem hget, by simpa using h⟩, rfl⟩
  rw [run_addLinks v l _ _ hwf hkey heth]
  · have hf : ∀ c ∈ (W.machines g).chips.values, c.deref (upd W.routers a r) =
        (fun d : Chip => if d.xy ∈ placesOf (W.machines g) a then withLink l d else d) (c.deref W.routers) := by
      intro c hc
      have hx : (c.deref W.routers).xy = c.chip.xy := rfl
      simp only [hx, hmem c hc]
      by_cases he : c.addr = a
      · rw [if_pos he]
        unfold ChipObj.deref withLink
        rw [he, upd_self, hr'.2]
      · rw [if_neg he]
        unfold ChipObj.deref
        rw [upd_ne _ _ he]
    unfold ObjWorld.view MachineObj.view
    simp only [PDict.mapVal_mapVal, List.map_map, Machine.mk.injEq, true_and]
    refine ⟨?_, ?_⟩
    · exact List.map_congr_left fun c hc => hf c (ho.eth hc)
    · exact ⟨PDict.mapVal_congr hf, trivial⟩
  · unfold placesOf
    exact (List.filter_sublist.map _).nodup ho.wf
  · intro p hp
    unfold placesOf at hp
    obtain ⟨kv, hkv, rfl⟩ := List.mem_map.1 hp
    obtain ⟨h1, h2⟩ := List.mem_filter.1 hkv
    have := (PDict.mem_items_iff ho.wf kv.1 kv.2).1 h1
    refine ⟨kv.2.deref W.routers, ?_, ?_⟩
    · unfold ObjWorld.view MachineObj.view
      simp only
      rw [PDict.get?_mapVal, this]
      rfl
    · have h2' : kv.2.addr = a := by simpa using h2
      unfold ChipObj.deref
      rw [h2']
      exact hr'.1

/-! ### all machines -/

/-- the machines of a program are those of the other theorems -/
def ViewsOK (v : Version) (W : ObjWorld) : Prop :=
  ∀ g, g < W.nMachines → ∃ w h, Reachable v w h (W.view g) ∧ ∀ c ∈ (W.view g).chipList, RealChip c

theorem run_append (v : Version) (m : Machine) (a b : List Op) : (run v m (a ++ b)).1 = (run v (run v m a).1 b).1 := by
  induction a generalizing m with
  | nil => rfl
  | cons o a ih => simp only [List.cons_append, run]; exact ih _

theorem Spec.Reachable.then {v : Version} {w h : Int} {m : Machine} (hr : Reachable v w h m) (ops : List Op) :
    Reachable v w h (run v m ops).1 := by
  obtain ⟨o, ops0, m0, h0, rfl⟩ := hr
  exact ⟨o, ops0 ++ ops, m0, h0, (run_append v m0 ops0 ops).symm⟩

/-- the chips are made by the constructor -/
def ObjTags (o : MachineObj) : Prop := ∀ c ∈ o.chips.values, ∃ t, c.chip.tags = orderedSet t

theorem chipList_view (W : ObjWorld) (g : Nat) :
    (W.view g).chipList = (W.machines g).chips.values.map (ChipObj.deref W.routers) := PDict.values_mapVal _ _

theorem realChips {W : ObjWorld} (hW : WorldInv W) (hR : RealRouters W) {g : Nat} (hg : g < W.nMachines) :
    (∀ c ∈ (W.view g).chipList, RealChip c) ↔ ObjTags (W.machines g) := by
  rw [chipList_view]
  constructor
  · intro h c hc
    exact (h _ (List.mem_map_of_mem hc)).tags
  · intro h c hc
    obtain ⟨d, hd, rfl⟩ := List.mem_map.1 hc
    exact ⟨hR _ ((hW g hg).value hd), h d hd⟩

theorem ignore_views {v : Version} {W : ObjWorld} (hW : WorldInv W) (hV : ViewsOK v W) {g0 : Nat} (hg0 : g0 < W.nMachines)
    {dc : List XY} {dl : List DeadLink} {g' : Nat} {W' : ObjWorld} (h : W.ignore v g0 dc dl = .ok (g', W')) : ViewsOK v W' := by
  intro g hg
  have hs := ignore_spec v dc dl hW hg0
  rw [h] at hs
  obtain ⟨s1, s2, s3, s4, s5, -, -⟩ := hs
  by_cases he : g < W.nMachines
  · rw [s4.view hW he]
    exact hV g he
  · have : g = g' := by omega
    subst this
    obtain ⟨w, hh, hr, hcs⟩ := hV g0 hg0
    have := C37_exact v w hh _ _ hr hcs dc dl s1
    exact ⟨w, hh, this.1, this.2.1⟩

theorem repair_views (v : Version) (rep : Bool) (removed : List XY) (W : ObjWorld) (g : Nat)
    (r : Except PyErr (Nat × ObjWorld)) (h : ObjWorld.repair v rep removed W g = some r) :
    WorldInv W → ViewsOK v W → g < W.nMachines → ∀ R, r = .ok R → ViewsOK v R.2 := by
  refine ObjWorld.repair.partial_correctness v rep (motive := fun removed W g r => WorldInv W → ViewsOK v W →
    g < W.nMachines → ∀ R, r = .ok R → ViewsOK v R.2) ?_ removed W g r h
  intro rec ih removed W g r h hW hV hg R hR
  subst hR
  split at h
  · cases h
  · rename_i f hf
    split at h
    · cases h
    · split at h
      · cases h; exact hV
      · split at h
        · cases h
        · rename_i g1 W1 hi
          have hs := ignore_spec v f.deadChips f.deadLinks hW hg
          rw [hi] at hs
          obtain ⟨s1, s2, s3, s4, s5, -, -⟩ := hs
          exact ih _ _ _ _ h s5 (ignore_views hW hV hg hi) (by omega) _ rfl

theorem ViewsOK.step {v : Version} {W W' : ObjWorld} (s : ObjStep v W W') (hW : WorldInv W) (hR : RealRouters W)
    (hV : ViewsOK v W) : ViewsOK v W' := by
  have hW' := ObjStep.inv s hW
  have hR' := RealRouters.step s hR
  -- a machine whose object is as before
  have same : ∀ g, g < W.nMachines → g < W'.nMachines → W'.machines g = W.machines g → W'.view g = W.view g →
      ∃ w h, Reachable v w h (W'.view g) ∧ ∀ c ∈ (W'.view g).chipList, RealChip c := by
    intro g hg hg' hm hv
    rw [hv]
    exact hV g hg
  cases s with
  | newRouter links n a h =>
    intro g hg
    unfold ObjWorld.newRouter at h
    split at h
    · cases h
    · cases h
      refine same g hg hg rfl ?_
      exact MachineObj.view_congr (hW g hg) fun b hb => upd_ne _ _ (by omega)
  | addLink a ha l h =>
    intro g hg
    have hv := fun hg => view_routerAddLink v hW h (g := g) hg
    have hm : W'.machines = W.machines ∧ W'.nMachines = W.nMachines := by
      unfold ObjWorld.routerAddLink at h
      split at h
      · cases h
      · cases h; exact ⟨rfl, rfl⟩
    have hg0 : g < W.nMachines := by omega
    obtain ⟨w, hh, hr, hc⟩ := hV g hg0
    refine ⟨w, hh, by rw [hv hg0]; exact hr.then _, ?_⟩
    rw [realChips hW' hR' hg, hm.1]
    exact (realChips hW hR hg0).1 hc
  | newMachine w h o g0 hh =>
    intro g hg
    unfold ObjWorld.newMachine at hh
    split at hh
    · cases hh
    · rename_i m0 hm
      cases hh
      by_cases he : g = W.nMachines
      · subst he
        have hws : ∃ w' h', w = some w' ∧ h = some h' ∧ m0.chips = .empty ∧ m0.ethernetChips = [] := by
          unfold VKind.createMachine at hm
          split at hm
          · cases hm
          · rename_i hv
            obtain ⟨w', h', h1, h2, -⟩ := (verifySize_iff _ _ _).1 hv
            cases hm
            exact ⟨w', h', h1, h2, rfl, rfl⟩
        obtain ⟨w', h', rfl, rfl, e1, e2⟩ := hws
        have hview : ObjWorld.view { W with machines := upd W.machines W.nMachines (.ofShell m0), nMachines := W.nMachines + 1 }
            W.nMachines = m0 := by
          unfold ObjWorld.view
          simp only [upd_self]
          unfold MachineObj.view MachineObj.ofShell
          cases m0
          simp only at e1 e2
          subst e1 e2
          rfl
        rw [hview]
        refine ⟨w', h', ⟨o, [], m0, hm, rfl⟩, ?_⟩
        intro c hc
        unfold Machine.chipList at hc
        rw [e1] at hc
        simp [PDict.empty, PDict.values] at hc
      · have hg0 : g < W.nMachines := by simp only at hg; omega
        refine same g hg0 hg (upd_ne _ _ he) ?_
        unfold ObjWorld.view
        simp only
        rw [upd_ne _ _ he]
  | addChip g0 hg0 c hc hk h =>
    intro g hg
    unfold ObjWorld.addChip at h
    split at h
    · cases h
    · rename_i o ho
      cases h
      by_cases he : g = g0
      · subst he
        obtain ⟨w, hh, hr, hcs⟩ := hV g hg0
        have hv : o.view W.routers = (run v (W.view g) [.addChip (c.deref W.routers)]).1 := by
          have := MachineObj.view_addChip W.routers (W.machines g) c
          rw [ho] at this
          simp only [Spec.run, Spec.step]
          rw [show (W.view g).addChip (c.deref W.routers) = .ok (o.view W.routers) from this]
        refine ⟨w, hh, ?_, ?_⟩
        · have : ObjWorld.view { W with machines := upd W.machines g o } g = o.view W.routers := by
            simp [ObjWorld.view, upd_self]
          rw [this, hv]
          exact hr.then _
        · rw [realChips hW' hR' hg]
          simp only [upd_self]
          have hcs' := (realChips hW hR hg0).1 hcs
          obtain ⟨-, hnone, hset⟩ := MachineObj.addChip_inv (hW _ hg0) hc ho
          intro d hd
          rw [hset] at hd
          have hn : (W.machines g).chips.contains c.chip.xy = false := by simp [PDict.contains, hnone]
          rw [PDict.values_set_of_not_mem _ _ _ hn, List.mem_append, List.mem_singleton] at hd
          rcases hd with hd | rfl
          · exact hcs' d hd
          · obtain ⟨x, y, sc, pl, r, sd, ex, ey, ip, tags, par, e⟩ := hk
            rw [e]
            unfold Chip.mk'
            cases tags with
            | some t => exact ⟨t, rfl⟩
            | none =>
              cases ip with
              | none => exact ⟨[], rfl⟩
              | some a => exact ⟨_, rfl⟩
      · refine same g hg hg (upd_ne _ _ he) ?_
        unfold ObjWorld.view
        simp only
        rw [upd_ne _ _ he]
  | addSpinnakerLinks g0 hg0 =>
    intro g hg
    by_cases he : g = g0
    · subst he
      obtain ⟨w, hh, hr, hcs⟩ := hV g hg0
      refine ⟨w, hh, ?_, ?_⟩
      · have : (W.addSpinnakerLinks v g).view g = (run v (W.view g) [.addSpinnakerLinks]).1 := by
          simp only [ObjWorld.view, ObjWorld.addSpinnakerLinks, upd_self]
          exact MachineObj.view_addSpinnakerLinks _ _ _
        rw [this]
        exact hr.then _
      · rw [realChips hW' hR' hg]
        simp only [ObjWorld.addSpinnakerLinks, upd_self]
        exact (realChips hW hR hg0).1 hcs
    · refine same g hg hg (upd_ne _ _ he) ?_
      simp only [ObjWorld.view, ObjWorld.addSpinnakerLinks]
      rw [upd_ne _ _ he]
  | addFpgaLinks g0 hg0 =>
    intro g hg
    by_cases he : g = g0
    · subst he
      obtain ⟨w, hh, hr, hcs⟩ := hV g hg0
      refine ⟨w, hh, ?_, ?_⟩
      · have : (W.addFpgaLinks v g).view g = (run v (W.view g) [.addFpgaLinks]).1 := by
          simp only [ObjWorld.view, ObjWorld.addFpgaLinks, upd_self]
          exact MachineObj.view_addFpgaLinks _ _ _
        rw [this]
        exact hr.then _
      · rw [realChips hW' hR' hg]
        simp only [ObjWorld.addFpgaLinks, upd_self]
        exact (realChips hW hR hg0).1 hcs
    · refine same g hg hg (upd_ne _ _ he) ?_
      simp only [ObjWorld.view, ObjWorld.addFpgaLinks]
      rw [upd_ne _ _ he]
  | ignore g0 g' hg0 dc dl h => exact ignore_views hW hV hg0 h
  | repair g0 g' hg0 rep removed h => exact repair_views v rep removed W g0 _ h hW hV hg0 _ rfl

theorem ObjReach.views {v : Version} {W : ObjWorld} (h : ObjReach v W) : WorldInv W ∧ RealRouters W ∧ ViewsOK v W := by
  induction h with
  | start =>
    refine ⟨?_, ?_, ?_⟩
    · intro g hg; simp [ObjWorld.empty] at hg
    · intro g hg; simp [ObjWorld.empty] at hg
    · intro g hg; simp [ObjWorld.empty] at hg
  | step _ s ih => exact ⟨ObjStep.inv s ih.1, RealRouters.step s ih.2.1, ViewsOK.step s ih.1 ih.2.1 ih.2.2⟩

end SpiNN
