import Verif.Props.Factory

/-!
# C89 Removing faulty parts in stages
-/

namespace SpiNN.Props
open SpiNN Spec

private theorem deadIds_append (a b : List DeadLink) (p : XY) : deadIds (a ++ b) p = deadIds a p ++ deadIds b p := by
  simp [deadIds]

private theorem keepChip_neg (dead : List DeadLink) (c : Chip) (h : ¬ deadIds dead c.xy = []) :
    keepChip dead c = { c with
      router := { c.router with links := ⟨(c.router.linkList.filter fun l =>
        l.sourceLinkId ∉ deadIds dead c.xy).map fun l => (l.sourceLinkId, l)⟩ }
      parentLink := none } := by
  unfold keepChip; rw [if_neg h]

private theorem keepChip_keepChip (a b : List DeadLink) (c : Chip) :
    keepChip b (keepChip a c) = keepChip (a ++ b) c := by
  by_cases ha : deadIds a c.xy = []
  · have e : keepChip a c = c := by unfold keepChip; rw [if_pos ha]
    rw [e]
    unfold keepChip
    rw [deadIds_append, ha, List.nil_append]
  · by_cases hb : deadIds b c.xy = []
    · have e : keepChip b (keepChip a c) = keepChip a c := by
        generalize hk : keepChip a c = k
        have hx : k.xy = c.xy := by rw [← hk, keepChip_xy]
        unfold keepChip
        rw [hx, if_pos hb]
      rw [e]
      unfold keepChip
      rw [deadIds_append, hb, List.append_nil]
    · rw [keepChip_neg b (keepChip a c) (by rw [keepChip_xy]; exact hb),
        keepChip_neg (a ++ b) c (by rw [deadIds_append]; simp [ha]), deadIds_append, keepChip_xy,
        keepChip_neg a c ha]
      congr 2
      simp [Router.linkList, PDict.values, Function.comp_def, List.filter_filter]
      congr 1
      apply List.filter_congr
      intro l _
      rw [Bool.and_comm]

private theorem survivors_survivors (A B : List XY) (a b : List DeadLink) (cs : List Chip) :
    survivors B b (survivors A a cs) = survivors (A ++ B) (a ++ b) cs := by
  unfold survivors
  rw [List.filter_map, List.map_map, List.filter_filter]
  have h1 : (keepChip b ∘ keepChip a) = keepChip (a ++ b) := by
    funext c; exact keepChip_keepChip a b c
  rw [h1]
  congr 1
  apply List.filter_congr
  intro c _
  simp only [Function.comp, keepChip_xy, List.mem_append]
  by_cases h1 : c.xy ∈ A <;> by_cases h2 : c.xy ∈ B <;> simp [h1, h2]

theorem ignore_of_survivors {v : Version} {w h : Int} {m m1 : Machine} (hr : Reachable v w h m)
    (hc : ∀ c ∈ m.chipList, RealChip c) (hr1 : Reachable v w h m1) (hc1 : ∀ c ∈ m1.chipList, RealChip c)
    (A B : List XY) (a b : List DeadLink)
    (hs : survivors A a m.chipList = survivors B b m1.chipList) :
    machineIgnore v m A a = machineIgnore v m1 B b := by
  obtain ⟨x, -, -, ⟨o, ho, hx⟩, e⟩ := machineIgnore_eq hr hc A a
  obtain ⟨y, -, -, ⟨o', ho', hy⟩, e'⟩ := machineIgnore_eq hr1 hc1 B b
  rw [ho] at ho'
  injection ho' with ho'
  subst ho'
  rw [e, e', hx, hy, hs]

/-- Removing chips and links from a machine, and then more from what is left, is removing them all at
once: the same machine, or the same exception. -/
theorem C89_stages (v : Version) (w h : Int) (m m1 : Machine) (hr : Reachable v w h m)
    (hc : ∀ c ∈ m.chipList, RealChip c) (A B : List XY) (a b : List DeadLink)
    (h1 : machineIgnore v m A a = .ok m1) :
    machineIgnore v m1 B b = machineIgnore v m (A ++ B) (a ++ b) := by
  obtain ⟨x, hrx, hsx, -, e⟩ := machineIgnore_eq hr hc A a
  have hx : x = m1 := by
    rw [h1] at e
    split at e
    · simp at e
    · injection e with e; exact e.symm
  subst hx
  refine ignore_of_survivors hrx (fun c hcx => ?_) hr hc _ _ _ _ ?_
  · rw [hsx] at hcx
    obtain ⟨d, hd, rfl⟩ := List.mem_map.1 hcx
    exact keepChip_real a (hc d (List.mem_filter.1 hd).1)
  · rw [hsx, survivors_survivors]

/-- Only which chips and which links are given matters: not their order, nor how often, nor what is
said to be at the other end of a link; chips and links the machine does not have do not matter
either. -/
theorem C89_sets (v : Version) (w h : Int) (m : Machine) (hr : Reachable v w h m)
    (hc : ∀ c ∈ m.chipList, RealChip c) (A B : List XY) (a b : List DeadLink)
    (hA : ∀ x y, m.isChipAt x y → ((x, y) ∈ A ↔ (x, y) ∈ B))
    (ha : ∀ x y, m.isChipAt x y → (x, y) ∉ A → ∀ i, (∃ k, (x, y, i, k) ∈ a) ↔ ∃ k, (x, y, i, k) ∈ b) :
    machineIgnore v m A a = machineIgnore v m B b := by
  obtain ⟨-, -, -, -, -, r⟩ := hr.rep
  refine ignore_of_survivors hr hc hr hc _ _ _ _ ?_
  unfold survivors
  have hf : m.chipList.filter (fun c => decide (c.xy ∉ A)) = m.chipList.filter fun c => decide (c.xy ∉ B) := by
    apply List.filter_congr
    intro c hcm
    have := hA c.x c.y ((isChipAt_iff r (c.x, c.y)).2 (List.mem_map.2 ⟨c, hcm, rfl⟩))
    exact decide_eq_decide.2 (not_congr this)
  rw [← hf]
  apply List.map_congr_left
  intro c hcm
  obtain ⟨hcm, hcA⟩ := List.mem_filter.1 hcm
  have hcA : c.xy ∉ A := by simpa using hcA
  have hid : ∀ i, i ∈ deadIds a c.xy ↔ i ∈ deadIds b c.xy := fun i => by
    rw [mem_deadIds, mem_deadIds]
    exact ha c.x c.y ((isChipAt_iff r (c.x, c.y)).2 (List.mem_map.2 ⟨c, hcm, rfl⟩)) hcA i
  have hnil : deadIds a c.xy = [] ↔ deadIds b c.xy = [] := by
    rw [List.eq_nil_iff_forall_not_mem, List.eq_nil_iff_forall_not_mem]
    simp only [hid]
  unfold keepChip
  by_cases h0 : deadIds a c.xy = []
  · rw [if_pos h0, if_pos (hnil.1 h0)]
  · rw [if_neg h0, if_neg (fun e => h0 (hnil.2 e))]
    simp only [hid]

/-- The order of the stages does not matter. -/
theorem C89_order (v : Version) (w h : Int) (m m1 m2 : Machine) (hr : Reachable v w h m)
    (hc : ∀ c ∈ m.chipList, RealChip c) (A B : List XY) (a b : List DeadLink)
    (h1 : machineIgnore v m A a = .ok m1) (h2 : machineIgnore v m B b = .ok m2) :
    machineIgnore v m1 B b = machineIgnore v m2 A a := by
  rw [C89_stages v w h m m1 hr hc A B a b h1, C89_stages v w h m m2 hr hc B A b a h2]
  refine C89_sets v w h m hr hc _ _ _ _ (fun x y _ => ?_) (fun x y _ _ i => ?_)
  · rw [List.mem_append, List.mem_append, or_comm]
  · simp only [List.mem_append, or_comm]

/-- Removing the same again gives the same machine; so does removing any part of it again. -/
theorem C89_again (v : Version) (w h : Int) (m m1 : Machine) (hr : Reachable v w h m)
    (hc : ∀ c ∈ m.chipList, RealChip c) (A B : List XY) (a b : List DeadLink)
    (h1 : machineIgnore v m A a = .ok m1) (hB : ∀ p ∈ B, p ∈ A) (hb : ∀ d ∈ b, d ∈ a) :
    machineIgnore v m1 B b = .ok m1 := by
  rw [C89_stages v w h m m1 hr hc A B a b h1, ← h1]
  refine C89_sets v w h m hr hc _ _ _ _ (fun x y _ => ?_) (fun x y _ _ i => ?_)
  · rw [List.mem_append]
    exact ⟨fun h => h.elim id (hB _), .inl⟩
  · constructor
    · rintro ⟨k, hk⟩
      exact ⟨k, (List.mem_append.1 hk).elim id (hb _)⟩
    · rintro ⟨k, hk⟩
      exact ⟨k, List.mem_append_left _ hk⟩

/-- a machine of three chips: a chip is removed, then a link, and the other way round -/
example : (match machineIgnore exV5 exOrphan [(2, 0)] [], machineIgnore exV5 exOrphan [] [(1, 0, 1, 4)] with
    | .ok m1, .ok m2 =>
      (match machineIgnore exV5 m1 [] [(1, 0, 1, 4)], machineIgnore exV5 m2 [(2, 0)] [],
          machineIgnore exV5 exOrphan [(2, 0)] [(1, 0, 1, 4)] with
        | .ok m3, .ok m4, .ok m5 => decide (m3.chipList = m4.chipList ∧ m3.chipList = m5.chipList ∧ m3.nChips = 2)
        | _, _, _ => false)
    | _, _ => false) = true := by decide +kernel

end SpiNN.Props
