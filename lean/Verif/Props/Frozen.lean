import Verif.Props.CoreSubsets

/-!
# C52: exactly how a frozen group of cores can change

`C52_changed_through_returned_subset` shows that it can. Over any history of calls on any objects: its chips never
change, it never loses a core, and it gains a core exactly if that core is added to a subset it handed out.
-/

namespace SpiNN.Props
open SpiNN Spec CoreWorld

/-- a later state of the program -/
inductive Later : CoreWorld → CoreWorld → Prop
  | refl (w) : Later w w
  | step {w w' w''} (h : Later w w') (s : CoreStep w' w'') : Later w w''

theorem Later.trans {a b c : CoreWorld} (h : Later a b) (k : Later b c) : Later a c := by
  induction k with
  | refl => exact h
  | step _ s ih => exact .step ih s

theorem Later.reach {w w' : CoreWorld} (h : CoreReach w) (l : Later w w') : CoreReach w' := by
  induction l with
  | refl => exact h
  | step _ s ih => exact .step ih s

theorem frozen_later {w w' : CoreWorld} (h : CoreReach w) {g : Nat} (hg : g < w.nGrps)
    (hf : (w.grps g).frozen = true) (l : Later w w') : g < w'.nGrps ∧ (w'.grps g).frozen = true := by
  induction l with
  | refl => exact ⟨hg, hf⟩
  | step l s ih =>
    obtain ⟨k1, k2, -⟩ := C52_step_partial _ _ (l.reach h) s g ih.1 ih.2
    exact ⟨k2, k1⟩

theorem frozen_mono {w w' : CoreWorld} (h : CoreReach w) {g : Nat} (hg : g < w.nGrps)
    (hf : (w.grps g).frozen = true) (l : Later w w') (x y p : Int) (hc : w.isCore g x y p = true) :
    w'.isCore g x y p = true := by
  induction l with
  | refl => exact hc
  | step l s ih =>
    obtain ⟨f1, f2⟩ := frozen_later h hg hf l
    obtain ⟨-, -, k3⟩ := C52_step_partial _ _ (l.reach h) s g f1 f2
    rcases k3 with k3 | ⟨a, q, -, rfl⟩
    · rw [k3]; exact ih
    · exact ((C50_steps _ (l.reach h) g f1).2.2.2 a q g x y p).2 (.inl ih)

/-- C52: what a frozen group contains later is what it contained, and the cores added to subsets it handed out. -/
theorem C52_exact (w w' : CoreWorld) (h : CoreReach w) (g : Nat) (hg : g < w.nGrps) (hf : (w.grps g).frozen = true)
    (l : Later w w') (x y p : Int) :
    w'.isCore g x y p = true ↔ w.isCore g x y p = true ∨
      ∃ w₁ a, Later w w₁ ∧ HandedOut w₁ g a ∧ (w₁.subs a).x = x ∧ (w₁.subs a).y = y ∧ Later (w₁.subsetAdd a p) w' := by
  constructor
  · intro hc
    induction l with
    | refl => exact .inl hc
    | step l s ih =>
      obtain ⟨f1, f2⟩ := frozen_later h hg hf l
      obtain ⟨-, -, k3⟩ := C52_step_partial _ _ (l.reach h) s g f1 f2
      have old : _ → _ := fun hh => (ih hh).imp id fun ⟨w₁, a, b1, b2, b3, b4, b5⟩ =>
        (⟨w₁, a, b1, b2, b3, b4, b5.step s⟩ : ∃ w₁ a, Later w w₁ ∧ HandedOut w₁ g a ∧ (w₁.subs a).x = x ∧
          (w₁.subs a).y = y ∧ Later (w₁.subsetAdd a p) _)
      rcases k3 with k3 | ⟨a, q, ha, rfl⟩
      · rw [k3] at hc
        exact old hc
      · rcases ((C50_steps _ (l.reach h) g f1).2.2.2 a q g x y p).1 hc with hc | ⟨-, rfl, rfl, rfl⟩
        · exact old hc
        · exact .inr ⟨_, a, l, ha, rfl, rfl, .refl _⟩
  · rintro (hc | ⟨w₁, a, l1, ha, rfl, rfl, l2⟩)
    · exact frozen_mono h hg hf l x y p hc
    · have hr := l1.reach h
      obtain ⟨f1, f2⟩ := frozen_later h hg hf l1
      have hlt : a < w₁.nSubs := by
        obtain ⟨xy, hxy⟩ := (mem_iter (CoreReach_inv hr) g a).1 ha
        exact ((CoreReach_inv hr).own _ _ _ hxy).1
      have hs : CoreStep w₁ (w₁.subsetAdd a p) := .subsetAdd a hlt p
      refine frozen_mono (hr.step hs) (g := g) f1 f2 l2 _ _ _ ?_
      exact ((C50_steps _ hr g f1).2.2.2 a p g _ _ p).2 (.inr ⟨ha, rfl, rfl, rfl⟩)

/-- C52: its chips never change. -/
theorem C52_chips_fixed (w w' : CoreWorld) (h : CoreReach w) (g : Nat) (hg : g < w.nGrps)
    (hf : (w.grps g).frozen = true) (l : Later w w') (x y : Int) : w'.isChip g x y = w.isChip g x y := by
  induction l with
  | refl => rfl
  | step l s ih =>
    obtain ⟨f1, f2⟩ := frozen_later h hg hf l
    have hr := l.reach h
    obtain ⟨-, -, k3⟩ := C52_step_partial _ _ hr s g f1 f2
    rw [← ih]
    rcases k3 with k3 | ⟨a, q, -, rfl⟩
    · rw [Bool.eq_iff_iff, (C50_queries _ (hr.step s) g).1, (C50_queries _ hr g).1]
      simp only [k3]
    · rfl

/-- a frozen group to which this applies -/
example : CoreReach exIntersect ∧ 1 < exIntersect.nGrps ∧ (exIntersect.grps 1).frozen = true ∧
    exIntersect.iter 1 ≠ [] :=
  ⟨exIntersect_reach, by decide +kernel, by decide +kernel, by decide +kernel⟩

end SpiNN.Props
