import Verif.Spec.CoreSubsets
import Verif.Lemmas.PDict

namespace SpiNN
open Spec

namespace CoreSubset

theorem add_x (s : CoreSubset) (p : Int) : (s.add p).x = s.x := by unfold add; split <;> rfl
theorem add_y (s : CoreSubset) (p : Int) : (s.add p).y = s.y := by unfold add; split <;> rfl
theorem mem_add (s : CoreSubset) (p q : Int) : q ∈ (s.add p).procs ↔ q ∈ s.procs ∨ q = p := by
  unfold add
  split
  · rename_i h
    exact ⟨Or.inl, fun h' => h'.elim id (fun e => e ▸ h)⟩
  · simp
theorem nodup_add {s : CoreSubset} (h : s.procs.Nodup) (p : Int) : (s.add p).procs.Nodup := by
  unfold add
  split
  · exact h
  · rename_i hp
    simp only [List.nodup_append, h, List.nodup_cons, List.not_mem_nil, not_false_eq_true,
      List.nodup_nil, and_self, List.mem_cons, or_false, true_and]
    rintro a ha b rfl rfl
    exact hp ha

theorem foldl_add (ps : List Int) : ∀ s : CoreSubset,
    (ps.foldl add s).x = s.x ∧ (ps.foldl add s).y = s.y ∧
    (∀ q, q ∈ (ps.foldl add s).procs ↔ q ∈ s.procs ∨ q ∈ ps) ∧
    (s.procs.Nodup → (ps.foldl add s).procs.Nodup) := by
  induction ps with
  | nil => intro s; simp
  | cons p t ih =>
    intro s
    obtain ⟨h1, h2, h3, h4⟩ := ih (s.add p)
    refine ⟨by rw [List.foldl_cons, h1, add_x], by rw [List.foldl_cons, h2, add_y], fun q => ?_,
      fun h => h4 (nodup_add h p)⟩
    rw [List.foldl_cons, h3, mem_add, List.mem_cons, or_assoc]

theorem mk'_spec (x y : Int) (ps : List Int) :
    (mk' x y ps).x = x ∧ (mk' x y ps).y = y ∧ (∀ q, q ∈ (mk' x y ps).procs ↔ q ∈ ps) ∧
    (mk' x y ps).procs.Nodup := by
  obtain ⟨h1, h2, h3, h4⟩ := foldl_add ps { x, y, procs := [] }
  exact ⟨h1, h2, fun q => by rw [mk', h3]; simp, h4 List.nodup_nil⟩

theorem intersect_spec (a b : CoreSubset) :
    (a.intersect b).x = a.x ∧ (a.intersect b).y = a.y ∧
    (∀ q, q ∈ (a.intersect b).procs ↔ q ∈ a.procs ∧ q ∈ b.procs) ∧ (a.intersect b).procs.Nodup := by
  have key : ∀ (ps : List Int) (s : CoreSubset),
      let r := ps.foldl (fun r p => if p ∈ b.procs then r.add p else r) s
      r.x = s.x ∧ r.y = s.y ∧ (∀ q, q ∈ r.procs ↔ q ∈ s.procs ∨ (q ∈ ps ∧ q ∈ b.procs)) ∧
      (s.procs.Nodup → r.procs.Nodup) := by
    intro ps
    induction ps with
    | nil => intro s; simp
    | cons p t ih =>
      intro s
      simp only [List.foldl_cons]
      by_cases hp : p ∈ b.procs
      · rw [if_pos hp]
        obtain ⟨h1, h2, h3, h4⟩ := ih (s.add p)
        refine ⟨by rw [h1, add_x], by rw [h2, add_y], fun q => ?_, fun h => h4 (nodup_add h p)⟩
        rw [h3, mem_add, List.mem_cons]
        constructor
        · rintro ((h | rfl) | ⟨h, h'⟩)
          · exact Or.inl h
          · exact Or.inr ⟨Or.inl rfl, hp⟩
          · exact Or.inr ⟨Or.inr h, h'⟩
        · rintro (h | ⟨rfl | h, h'⟩)
          · exact Or.inl (Or.inl h)
          · exact Or.inl (Or.inr rfl)
          · exact Or.inr ⟨h, h'⟩
      · rw [if_neg hp]
        obtain ⟨h1, h2, h3, h4⟩ := ih s
        refine ⟨h1, h2, fun q => ?_, h4⟩
        rw [h3, List.mem_cons]
        constructor
        · rintro (h | ⟨h, h'⟩)
          · exact Or.inl h
          · exact Or.inr ⟨Or.inr h, h'⟩
        · rintro (h | ⟨rfl | h, h'⟩)
          · exact Or.inl h
          · exact absurd h' hp
          · exact Or.inr ⟨h, h'⟩
  obtain ⟨h1, h2, h3, h4⟩ := key a.procs (mk' a.x a.y [])
  obtain ⟨k1, k2, k3, k4⟩ := mk'_spec a.x a.y []
  refine ⟨by rw [intersect, h1, k1], by rw [intersect, h2, k2], fun q => ?_, h4 k4⟩
  rw [intersect, h3, k3]
  simp

end CoreSubset

namespace CoreWorld

/-- the content of a group -/
def Has (w : CoreWorld) (g : Nat) (x y p : Int) : Prop :=
  ∃ a, (w.grps g).map.get? (x, y) = some a ∧ p ∈ (w.subs a).procs

theorem isCore_iff (w : CoreWorld) (g : Nat) (x y p : Int) : w.isCore g x y p = true ↔ w.Has g x y p := by
  unfold isCore Has
  cases (w.grps g).map.get? (x, y) with
  | none => simp
  | some a => simp [CoreSubset.contains]

/-- invariant of the objects of a program -/
structure Inv (w : CoreWorld) : Prop where
  nodup : ∀ a, (w.subs a).procs.Nodup
  wf : ∀ g, (w.grps g).map.WF
  own : ∀ g xy a, (w.grps g).map.get? xy = some a →
    a < w.nSubs ∧ (w.subs a).x = xy.1 ∧ (w.subs a).y = xy.2 ∧ (w.subs a).procs ≠ []
  uniq : ∀ g g' xy xy' a, (w.grps g).map.get? xy = some a → (w.grps g').map.get? xy' = some a → g = g'
  fresh : ∀ g, w.nGrps ≤ g → (w.grps g).map = .empty

theorem Inv.same_key {w : CoreWorld} (h : w.Inv) {g g' : Nat} {xy xy' : XY} {a : Nat}
    (h1 : (w.grps g).map.get? xy = some a) (h2 : (w.grps g').map.get? xy' = some a) :
    g = g' ∧ xy = xy' := by
  refine ⟨h.uniq _ _ _ _ _ h1 h2, ?_⟩
  obtain ⟨-, e1, e2, -⟩ := h.own _ _ _ h1
  obtain ⟨-, e3, e4, -⟩ := h.own _ _ _ h2
  exact Prod.ext (e1.symm.trans e3) (e2.symm.trans e4)

theorem inv_empty : (empty).Inv where
  nodup := fun _ => List.nodup_nil
  wf := fun _ => PDict.WF_empty
  own := fun g xy a h => by
    have : (empty.grps g).map = PDict.empty := rfl
    rw [this] at h; simp at h
  uniq := fun g g' xy xy' a h => by
    have : (empty.grps g).map = PDict.empty := rfl
    rw [this] at h; simp at h
  fresh := fun _ _ => rfl

/-- what a change made through group `g` may do: the group gets the cores `S`, everything else
keeps its content, and the group holds only new objects or ones it held before -/
structure Grow (w w' : CoreWorld) (g : Nat) (S : Int → Int → Int → Prop) : Prop where
  inv : w'.Inv
  nSubs : w.nSubs ≤ w'.nSubs
  nGrps : w'.nGrps = w.nGrps
  frozen : ∀ g', (w'.grps g').frozen = (w.grps g').frozen
  keep : ∀ g' xy a, (w.grps g').map.get? xy = some a → (w'.grps g').map.get? xy = some a
  new : ∀ g' xy a, (w'.grps g').map.get? xy = some a →
    (w.grps g').map.get? xy = some a ∨ (g' = g ∧ w.nSubs ≤ a)
  frame : ∀ a, a < w.nSubs → (∀ xy, (w.grps g).map.get? xy ≠ some a) → w'.subs a = w.subs a
  has : ∀ g' x y p, w'.Has g' x y p ↔ w.Has g' x y p ∨ (g' = g ∧ S x y p)

theorem Grow.refl {w : CoreWorld} (h : w.Inv) (g : Nat) : Grow w w g (fun _ _ _ => False) where
  inv := h
  nSubs := Nat.le_refl _
  nGrps := rfl
  frozen := fun _ => rfl
  keep := fun _ _ _ h => h
  new := fun _ _ _ h => Or.inl h
  frame := fun _ _ _ => rfl
  has := fun _ _ _ _ => by simp

theorem Grow.trans {w w' w'' : CoreWorld} {g : Nat} {S T : Int → Int → Int → Prop}
    (h1 : Grow w w' g S) (h2 : Grow w' w'' g T) : Grow w w'' g (fun x y p => S x y p ∨ T x y p) where
  inv := h2.inv
  nSubs := Nat.le_trans h1.nSubs h2.nSubs
  nGrps := h2.nGrps.trans h1.nGrps
  frozen := fun g' => (h2.frozen g').trans (h1.frozen g')
  keep := fun g' xy a h => h2.keep _ _ _ (h1.keep _ _ _ h)
  new := fun g' xy a h => by
    rcases h2.new _ _ _ h with h | ⟨rfl, h⟩
    · exact h1.new _ _ _ h
    · exact Or.inr ⟨rfl, Nat.le_trans h1.nSubs h⟩
  frame := fun a ha hn => by
    rw [h2.frame a (Nat.lt_of_lt_of_le ha h1.nSubs) (fun xy h => ?_), h1.frame a ha hn]
    rcases h1.new _ _ _ h with h | ⟨-, h⟩
    · exact hn xy h
    · omega
  has := fun g' x y p => by
    rw [h2.has, h1.has]
    constructor
    · rintro ((h | ⟨rfl, h⟩) | ⟨rfl, h⟩)
      · exact Or.inl h
      · exact Or.inr ⟨rfl, Or.inl h⟩
      · exact Or.inr ⟨rfl, Or.inr h⟩
    · rintro (h | ⟨rfl, h | h⟩)
      · exact Or.inl (Or.inl h)
      · exact Or.inl (Or.inr ⟨rfl, h⟩)
      · exact Or.inr ⟨rfl, h⟩

theorem Grow.congr {w w' : CoreWorld} {g : Nat} {S T : Int → Int → Int → Prop}
    (h : Grow w w' g S) (hST : ∀ x y p, (w.Has g x y p ∨ S x y p) ↔ (w.Has g x y p ∨ T x y p)) :
    Grow w w' g T where
  inv := h.inv
  nSubs := h.nSubs
  nGrps := h.nGrps
  frozen := h.frozen
  keep := h.keep
  new := h.new
  frame := h.frame
  has := fun g' x y p => by
    rw [h.has]
    by_cases hg : g' = g
    · subst hg; simpa using hST x y p
    · simp [hg]

/-- the content of an existing subset after the change -/
theorem Grow.subs {w w' : CoreWorld} {g : Nat} {S : Int → Int → Int → Prop} (h : Grow w w' g S)
    (hw : w.Inv) {a : Nat} (ha : a < w.nSubs) :
    (w'.subs a).x = (w.subs a).x ∧ (w'.subs a).y = (w.subs a).y ∧
    (∀ p ∈ (w.subs a).procs, p ∈ (w'.subs a).procs) ∧
    (∀ p ∈ (w'.subs a).procs, p ∈ (w.subs a).procs ∨ w'.Has g (w.subs a).x (w.subs a).y p) := by
  by_cases hown : ∃ xy, (w.grps g).map.get? xy = some a
  · obtain ⟨xy, hget⟩ := hown
    obtain ⟨-, hx, hy, -⟩ := hw.own _ _ _ hget
    have hget' := h.keep _ _ _ hget
    obtain ⟨-, hx', hy', -⟩ := h.inv.own _ _ _ hget'
    refine ⟨hx'.trans hx.symm, hy'.trans hy.symm, fun p hp => ?_, fun p hp => Or.inr ?_⟩
    · obtain ⟨b, hb, hp'⟩ := (h.has g xy.1 xy.2 p).2 (Or.inl ⟨a, hget, hp⟩)
      rw [show (xy.1, xy.2) = xy from rfl, hget'] at hb
      simp only [Option.some.injEq] at hb
      exact hb ▸ hp'
    · rw [hx, hy]; exact ⟨a, hget', hp⟩
  · rw [h.frame a ha (fun xy hh => hown ⟨xy, hh⟩)]
    exact ⟨rfl, rfl, fun _ h => h, fun _ h => Or.inl h⟩

theorem groupAdd_grow {w : CoreWorld} (hw : w.Inv) {g : Nat} (hg : g < w.nGrps) (x y p : Int) :
    Grow w (w.groupAdd g x y p) g (fun x' y' p' => x' = x ∧ y' = y ∧ p' = p) := by
  unfold groupAdd
  cases hget : (w.grps g).map.get? (x, y) with
  | some a =>
    obtain ⟨hlt, hx, hy, hne⟩ := hw.own _ _ _ hget
    have hsub : ∀ b, ((w.subsetAdd a p).subs b).x = (w.subs b).x ∧
        ((w.subsetAdd a p).subs b).y = (w.subs b).y ∧
        (∀ q, q ∈ ((w.subsetAdd a p).subs b).procs ↔ q ∈ (w.subs b).procs ∨ (b = a ∧ q = p)) ∧
        ((w.subsetAdd a p).subs b).procs.Nodup := by
      intro b
      simp only [subsetAdd, upd]
      by_cases hb : b = a
      · subst hb
        rw [if_pos rfl]
        exact ⟨CoreSubset.add_x _ _, CoreSubset.add_y _ _, fun q => by rw [CoreSubset.mem_add]; simp,
          CoreSubset.nodup_add (hw.nodup b) p⟩
      · rw [if_neg hb]
        exact ⟨rfl, rfl, fun q => by simp [hb], hw.nodup b⟩
    refine ⟨⟨fun b => (hsub b).2.2.2, hw.wf, fun g' xy b hb => ?_, hw.uniq, hw.fresh⟩, Nat.le_refl _,
      rfl, fun _ => rfl, fun _ _ _ h => h, fun _ _ _ h => Or.inl h, fun b hb hn => ?_, ?_⟩
    · obtain ⟨h1, h2, h3, h4⟩ := hw.own g' xy b hb
      obtain ⟨k1, k2, k3, -⟩ := hsub b
      refine ⟨h1, k1.trans h2, k2.trans h3, fun hnil => h4 ?_⟩
      apply List.eq_nil_iff_forall_not_mem.2
      intro q hq
      have := (k3 q).2 (Or.inl hq)
      rw [hnil] at this; simp at this
    · simp only [subsetAdd, upd]
      rw [if_neg]
      rintro rfl
      exact hn _ hget
    · intro g' x' y' p'
      unfold Has
      constructor
      · rintro ⟨b, hb, hp⟩
        rcases ((hsub b).2.2.1 p').1 hp with h | ⟨rfl, rfl⟩
        · exact Or.inl ⟨b, hb, h⟩
        · obtain ⟨e1, e2⟩ := hw.same_key hb hget
          simp only [Prod.mk.injEq] at e2
          exact Or.inr ⟨e1, e2.1, e2.2, rfl⟩
      · rintro (⟨b, hb, hp⟩ | ⟨rfl, rfl, rfl, rfl⟩)
        · exact ⟨b, hb, ((hsub b).2.2.1 p').2 (Or.inl hp)⟩
        · exact ⟨a, hget, ((hsub a).2.2.1 p').2 (Or.inr ⟨rfl, rfl⟩)⟩
  | none =>
    simp only [newSubset]
    obtain ⟨m1, m2, m3, m4⟩ := CoreSubset.mk'_spec x y [p]
    have hgrp : ∀ g' xy b, ((upd w.grps g { w.grps g with map := (w.grps g).map.set (x, y) w.nSubs }) g').map.get? xy = some b ↔
        ((w.grps g').map.get? xy = some b ∨ (g' = g ∧ xy = (x, y) ∧ b = w.nSubs)) := by
      intro g' xy b
      simp only [upd]
      by_cases hgg : g' = g
      · subst hgg
        rw [if_pos rfl]
        simp only [PDict.get?_set]
        by_cases hxy : (x, y) = xy
        · subst hxy
          rw [if_pos rfl, hget]
          simp [eq_comm]
        · rw [if_neg hxy]
          have : ¬ xy = (x, y) := fun h => hxy h.symm
          simp [this]
      · rw [if_neg hgg]; simp [hgg]
    have hlt : ∀ g' xy b, (w.grps g').map.get? xy = some b → b ≠ w.nSubs := fun g' xy b h => by
      have := (hw.own _ _ _ h).1; omega
    refine ⟨⟨fun b => ?_, fun g' => ?_, fun g' xy b hb => ?_, fun g' g'' xy xy' b h1 h2 => ?_,
      fun g' hg' => ?_⟩, Nat.le_succ _, rfl, fun g' => ?_, fun g' xy b hb => (hgrp _ _ _).2 (Or.inl hb),
      fun g' xy b hb => ?_, fun b hb hn => ?_, ?_⟩
    · simp only [upd]; split
      · exact m4
      · exact hw.nodup b
    · simp only [upd]; split
      · exact (hw.wf g).set _ _
      · exact hw.wf g'
    · simp only [upd]
      rcases (hgrp _ _ _).1 hb with h | ⟨rfl, rfl, rfl⟩
      · rw [if_neg (hlt _ _ _ h)]
        obtain ⟨h1, h2⟩ := hw.own _ _ _ h
        exact ⟨by omega, h2⟩
      · rw [if_pos rfl]
        refine ⟨by omega, m1, m2, fun hnil => ?_⟩
        have := (m3 p).2 (by simp)
        rw [hnil] at this; simp at this
    · rcases (hgrp _ _ _).1 h1 with k1 | ⟨rfl, rfl, rfl⟩
      · rcases (hgrp _ _ _).1 h2 with k2 | ⟨rfl, rfl, rfl⟩
        · exact hw.uniq _ _ _ _ _ k1 k2
        · exact absurd rfl (hlt _ _ _ k1)
      · rcases (hgrp _ _ _).1 h2 with k2 | ⟨h, -, -⟩
        · exact absurd rfl (hlt _ _ _ k2)
        · exact h.symm
    · simp only at hg'
      simp only [upd]
      rw [if_neg (by omega)]
      exact hw.fresh g' hg'
    · simp only [upd]; split
      · rename_i h; subst h; rfl
      · rfl
    · rcases (hgrp _ _ _).1 hb with h | ⟨h, -, rfl⟩
      · exact Or.inl h
      · exact Or.inr ⟨h, Nat.le_refl _⟩
    · simp only [upd]; rw [if_neg (by omega)]
    · intro g' x' y' p'
      unfold Has
      simp only [hgrp]
      constructor
      · rintro ⟨b, h | ⟨rfl, hxy, rfl⟩, hp⟩
        · simp only [upd] at hp
          rw [if_neg (hlt _ _ _ h)] at hp
          exact Or.inl ⟨b, h, hp⟩
        · simp only [Prod.mk.injEq] at hxy
          simp only [upd, if_true, m3, List.mem_singleton] at hp
          exact Or.inr ⟨rfl, hxy.1, hxy.2, hp⟩
      · rintro (⟨b, h, hp⟩ | ⟨rfl, rfl, rfl, rfl⟩)
        · refine ⟨b, Or.inl h, ?_⟩
          simp only [upd]
          rw [if_neg (hlt _ _ _ h)]; exact hp
        · refine ⟨w.nSubs, Or.inr ⟨rfl, rfl, rfl⟩, ?_⟩
          simp only [upd, if_true, m3, List.mem_singleton]

theorem groupAddProcs_grow (x y : Int) (g : Nat) : ∀ (ps : List Int) {w : CoreWorld}, w.Inv →
    g < w.nGrps → Grow w (ps.foldl (fun w' p => w'.groupAdd g x y p) w) g
      (fun x' y' p' => x' = x ∧ y' = y ∧ p' ∈ ps) := by
  intro ps
  induction ps with
  | nil => intro w hw hg; exact (Grow.refl hw g).congr (by simp)
  | cons p t ih =>
    intro w hw hg
    have h1 := groupAdd_grow hw hg x y p
    have h2 := ih h1.inv (by rw [h1.nGrps]; exact hg)
    refine (h1.trans h2).congr (fun x' y' p' => ?_)
    simp only [List.mem_cons]
    constructor
    · rintro (h | ⟨h1, h2, h3⟩ | ⟨h1, h2, h3⟩)
      · exact Or.inl h
      · exact Or.inr ⟨h1, h2, Or.inl h3⟩
      · exact Or.inr ⟨h1, h2, Or.inr h3⟩
    · rintro (h | ⟨h1, h2, h3 | h3⟩)
      · exact Or.inl h
      · exact Or.inr (Or.inl ⟨h1, h2, h3⟩)
      · exact Or.inr (Or.inr ⟨h1, h2, h3⟩)

/-- the cores of the subset at address `a` -/
def SubHas (w : CoreWorld) (a : Nat) (x y p : Int) : Prop :=
  x = (w.subs a).x ∧ y = (w.subs a).y ∧ p ∈ (w.subs a).procs

theorem groupAddSubset_grow {w : CoreWorld} (hw : w.Inv) {g : Nat} (hg : g < w.nGrps) (a : Nat) :
    Grow w (w.groupAddSubset g a) g (w.SubHas a) :=
  groupAddProcs_grow _ _ g _ hw hg

theorem groupAddSubsets_grow (g : Nat) : ∀ (as : List Nat) {w : CoreWorld}, w.Inv → g < w.nGrps →
    (∀ a ∈ as, a < w.nSubs) →
    Grow w (w.groupAddSubsets g as) g (fun x y p => ∃ a ∈ as, w.SubHas a x y p) := by
  intro as
  induction as with
  | nil => intro w hw hg _; exact (Grow.refl hw g).congr (by simp)
  | cons a t ih =>
    intro w hw hg hlt
    have h1 := groupAddSubset_grow hw hg a
    have h2 := ih h1.inv (by rw [h1.nGrps]; exact hg)
      (fun b hb => Nat.lt_of_lt_of_le (hlt b (List.mem_cons_of_mem _ hb)) h1.nSubs)
    refine (h1.trans h2).congr (fun x y p => ?_)
    constructor
    · rintro (h | h | ⟨b, hb, e1, e2, e3⟩)
      · exact Or.inl h
      · exact Or.inr ⟨a, List.mem_cons_self, h⟩
      · obtain ⟨k1, k2, k3, k4⟩ := h1.subs hw (hlt b (List.mem_cons_of_mem _ hb))
        rcases k4 p e3 with h | h
        · exact Or.inr ⟨b, List.mem_cons_of_mem _ hb, e1.trans k1, e2.trans k2, h⟩
        · rw [← k1, ← k2, ← e1, ← e2, h1.has] at h
          rcases h with h | ⟨-, h⟩
          · exact Or.inl h
          · exact Or.inr ⟨a, List.mem_cons_self, h⟩
    · rintro (h | ⟨b, hb, h⟩)
      · exact Or.inl h
      · rcases List.mem_cons.1 hb with rfl | hb
        · exact Or.inr (Or.inl h)
        · obtain ⟨k1, k2, k3, k4⟩ := h1.subs hw (hlt b (List.mem_cons_of_mem _ hb))
          exact Or.inr (Or.inr ⟨b, hb, h.1.trans k1.symm, h.2.1.trans k2.symm, k3 p h.2.2⟩)

/-! ### creating objects -/

theorem newSubset_inv {w : CoreWorld} (hw : w.Inv) (s : CoreSubset) (hs : s.procs.Nodup) :
    (w.newSubset s).2.Inv := by
  have hlt : ∀ g' xy b, (w.grps g').map.get? xy = some b → b ≠ w.nSubs := fun g' xy b h => by
    have := (hw.own _ _ _ h).1; omega
  refine ⟨fun b => ?_, hw.wf, fun g xy b hb => ?_, hw.uniq, hw.fresh⟩
  · simp only [newSubset, upd]; split
    · exact hs
    · exact hw.nodup b
  · simp only [newSubset, upd] at *
    rw [if_neg (hlt _ _ _ hb)]
    obtain ⟨h1, h2⟩ := hw.own _ _ _ hb
    exact ⟨by omega, h2⟩

theorem newSubset_has {w : CoreWorld} (hw : w.Inv) (s : CoreSubset) (g : Nat) (x y p : Int) :
    (w.newSubset s).2.Has g x y p ↔ w.Has g x y p := by
  have hlt : ∀ g' xy b, (w.grps g').map.get? xy = some b → b ≠ w.nSubs := fun g' xy b h => by
    have := (hw.own _ _ _ h).1; omega
  simp only [Has, newSubset, upd]
  constructor
  · rintro ⟨b, hb, hp⟩
    rw [if_neg (hlt _ _ _ hb)] at hp
    exact ⟨b, hb, hp⟩
  · rintro ⟨b, hb, hp⟩
    exact ⟨b, hb, by rw [if_neg (hlt _ _ _ hb)]; exact hp⟩

theorem emptyGroup_inv {w : CoreWorld} (hw : w.Inv) (frozen : Bool) :
    Inv { w with grps := upd w.grps w.nGrps { frozen, map := .empty }, nGrps := w.nGrps + 1 } := by
  have hget : ∀ g xy b, ((upd w.grps w.nGrps { frozen, map := .empty }) g).map.get? xy = some b →
      (w.grps g).map.get? xy = some b := by
    intro g xy b h
    simp only [upd] at h
    split at h
    · simp at h
    · exact h
  refine ⟨hw.nodup, fun g => ?_, fun g xy b hb => hw.own _ _ _ (hget _ _ _ hb),
    fun g g' xy xy' b h1 h2 => hw.uniq _ _ _ _ _ (hget _ _ _ h1) (hget _ _ _ h2), fun g hg => ?_⟩
  · simp only [upd]; split
    · exact PDict.WF_empty
    · exact hw.wf g
  · simp only [upd] at *
    rw [if_neg (by omega)]
    exact hw.fresh g (by omega)

theorem emptyGroup_get {w : CoreWorld} (hw : w.Inv) (frozen : Bool) (g : Nat) (xy : XY) :
    ((upd w.grps w.nGrps { frozen, map := .empty }) g).map.get? xy = (w.grps g).map.get? xy := by
  simp only [upd]
  split
  · rename_i h; subst h; rw [hw.fresh _ (Nat.le_refl _)]
  · rfl

theorem newGroup_grow {w : CoreWorld} (hw : w.Inv) (frozen : Bool) (as : List Nat)
    (h : ∀ a ∈ as, a < w.nSubs) :
    (w.newGroup frozen as).1 = w.nGrps ∧
    Grow { w with grps := upd w.grps w.nGrps { frozen, map := .empty }, nGrps := w.nGrps + 1 }
      (w.newGroup frozen as).2 w.nGrps (fun x y p => ∃ a ∈ as, w.SubHas a x y p) :=
  ⟨rfl, groupAddSubsets_grow w.nGrps as (emptyGroup_inv hw frozen) (Nat.lt_succ_self _) h⟩

theorem subsetAdd_inv {w : CoreWorld} (hw : w.Inv) (a : Nat) (p : Int) : (w.subsetAdd a p).Inv := by
  refine ⟨fun b => ?_, hw.wf, fun g xy b hb => ?_, hw.uniq, hw.fresh⟩
  · simp only [subsetAdd, upd]; split
    · rename_i h; subst h; exact CoreSubset.nodup_add (hw.nodup b) p
    · exact hw.nodup b
  · obtain ⟨h1, h2, h3, h4⟩ := hw.own g xy b hb
    simp only [subsetAdd, upd]
    split
    · rename_i h; subst h
      refine ⟨h1, (CoreSubset.add_x _ _).trans h2, (CoreSubset.add_y _ _).trans h3, fun hnil => ?_⟩
      have := (CoreSubset.mem_add (w.subs b) p p).2 (Or.inr rfl)
      rw [hnil] at this; simp at this
    · exact ⟨h1, h2, h3, h4⟩

theorem subsetAdd_has {w : CoreWorld} (a : Nat) (p : Int) (g : Nat) (x y q : Int) :
    (w.subsetAdd a p).Has g x y q ↔
      w.Has g x y q ∨ ((w.grps g).map.get? (x, y) = some a ∧ q = p) := by
  simp only [Has, subsetAdd, upd]
  constructor
  · rintro ⟨b, hb, hp⟩
    split at hp
    · rename_i h; subst h
      rcases (CoreSubset.mem_add _ _ _).1 hp with h | h
      · exact Or.inl ⟨b, hb, h⟩
      · exact Or.inr ⟨hb, h⟩
    · exact Or.inl ⟨b, hb, hp⟩
  · rintro (⟨b, hb, hp⟩ | ⟨hb, rfl⟩)
    · refine ⟨b, hb, ?_⟩
      split
      · rename_i h; subst h; exact (CoreSubset.mem_add _ _ _).2 (Or.inl hp)
      · exact hp
    · exact ⟨a, hb, by rw [if_pos rfl]; exact (CoreSubset.mem_add _ _ _).2 (Or.inr rfl)⟩

/-! ### intersect -/

/-- a new subset does not touch any group -/
theorem newSubset_grow {w : CoreWorld} (hw : w.Inv) (s : CoreSubset) (hs : s.procs.Nodup) (g : Nat) :
    Grow w (w.newSubset s).2 g (fun _ _ _ => False) where
  inv := newSubset_inv hw s hs
  nSubs := Nat.le_succ _
  nGrps := rfl
  frozen := fun _ => rfl
  keep := fun _ _ _ h => h
  new := fun _ _ _ h => Or.inl h
  frame := fun a ha _ => by simp only [newSubset, upd]; rw [if_neg (by omega)]
  has := fun g' x y p => by rw [newSubset_has hw]; simp

theorem intersectChip_grow {w : CoreWorld} (hw : w.Inv) {g other r : Nat} (hr : r < w.nGrps)
    (hfr : (w.grps r).frozen = false) {xy : XY} (hxy : ((w.grps g).map.get? xy).isSome) :
    ∃ w', w.intersectChip g other r xy = .ok w' ∧
      Grow w w' r (fun x y p => (x, y) = xy ∧ w.Has g x y p ∧ w.Has other x y p) := by
  obtain ⟨a, ha⟩ := Option.isSome_iff_exists.1 hxy
  obtain ⟨-, hx, hy, -⟩ := hw.own _ _ _ ha
  unfold intersectChip isChip PDict.contains
  cases hb : (w.grps other).map.get? xy with
  | none =>
    refine ⟨w, by simp, (Grow.refl hw r).congr ?_⟩
    intro x y p
    constructor
    · rintro (h | h)
      · exact Or.inl h
      · exact h.elim
    · rintro (h | ⟨rfl, -, b, hb', -⟩)
      · exact Or.inl h
      · rw [hb] at hb'; simp at hb'
  | some b =>
    have e1 : (w.grps g).map.getE xy = .ok a := (PDict.getE_eq_ok_iff _ _ _).2 ha
    have e2 : (w.grps other).map.getE xy = .ok b := (PDict.getE_eq_ok_iff _ _ _).2 hb
    obtain ⟨i1, i2, i3, i4⟩ := CoreSubset.intersect_spec (w.subs a) (w.subs b)
    have hg1 := newSubset_grow hw _ i4 r
    have hsub : ((w.newSubset ((w.subs a).intersect (w.subs b))).2.subs
        (w.newSubset ((w.subs a).intersect (w.subs b))).1) = (w.subs a).intersect (w.subs b) := by
      simp [newSubset, upd]
    rw [e1, e2]
    simp only [Option.isSome_some, if_true]
    by_cases hlen : ((w.subs a).intersect (w.subs b)).len = 0
    · refine ⟨_, by rw [hsub, if_neg (by simpa using hlen)], hg1.congr ?_⟩
      intro x y p
      constructor
      · rintro (h | h)
        · exact Or.inl h
        · exact h.elim
      · rintro (h | ⟨rfl, ⟨a', ha', hpa⟩, b', hb', hpb⟩)
        · exact Or.inl h
        · exfalso
          rw [ha] at ha'; rw [hb] at hb'
          simp only [Option.some.injEq] at ha' hb'
          subst ha'; subst hb'
          have := (i3 p).2 ⟨hpa, hpb⟩
          rw [List.length_eq_zero_iff.1 hlen] at this
          simp at this
    · have hg2 := groupAddSubset_grow hg1.inv (g := r) (by rw [hg1.nGrps]; exact hr)
        (w.newSubset ((w.subs a).intersect (w.subs b))).1
      refine ⟨_, by
        rw [hsub, if_pos hlen]
        unfold addCoreSubset
        rw [hg1.frozen, hfr]; simp, (hg1.trans hg2).congr ?_⟩
      intro x y p
      unfold SubHas
      rw [hsub, i1, i2, i3, hx, hy]
      constructor
      · rintro (h | h | ⟨h1, h2, h3, h4⟩)
        · exact Or.inl h
        · exact h.elim
        · have hk : (x, y) = xy := by rw [h1, h2]
          exact Or.inr ⟨hk, ⟨a, by rw [hk]; exact ha, h3⟩, ⟨b, by rw [hk]; exact hb, h4⟩⟩
      · rintro (h | ⟨rfl, ⟨a', ha', hpa⟩, b', hb', hpb⟩)
        · exact Or.inl h
        · rw [ha] at ha'; rw [hb] at hb'
          simp only [Option.some.injEq] at ha' hb'
          subst ha'; subst hb'
          exact Or.inr (Or.inr ⟨rfl, rfl, hpa, hpb⟩)

theorem intersectLoop_grow (g other r : Nat) (hgr : g ≠ r) (hor : other ≠ r) :
    ∀ (keys : List XY) {w : CoreWorld}, w.Inv → r < w.nGrps → (w.grps r).frozen = false →
    (∀ xy ∈ keys, ((w.grps g).map.get? xy).isSome) →
    ∃ w', intersectLoop g other r w keys = .ok w' ∧
      Grow w w' r (fun x y p => (x, y) ∈ keys ∧ w.Has g x y p ∧ w.Has other x y p) := by
  intro keys
  induction keys with
  | nil => intro w hw _ _ _; exact ⟨w, rfl, (Grow.refl hw r).congr (by simp)⟩
  | cons xy t ih =>
    intro w hw hr hfr hk
    obtain ⟨w1, h1, g1⟩ := intersectChip_grow (other := other) hw hr hfr (hk xy List.mem_cons_self)
    obtain ⟨w2, h2, g2⟩ := ih g1.inv (by rw [g1.nGrps]; exact hr) (by rw [g1.frozen]; exact hfr)
      (fun xy' h => by
        obtain ⟨a, ha⟩ := Option.isSome_iff_exists.1 (hk xy' (List.mem_cons_of_mem _ h))
        rw [g1.keep _ _ _ ha]; rfl)
    refine ⟨w2, by simp only [intersectLoop, h1, h2], (g1.trans g2).congr (fun x y p => ?_)⟩
    have hh1 : w1.Has g x y p ↔ w.Has g x y p := by rw [g1.has]; simp [hgr]
    have hh2 : w1.Has other x y p ↔ w.Has other x y p := by rw [g1.has]; simp [hor]
    rw [hh1, hh2, List.mem_cons]
    constructor
    · rintro (h | ⟨h1, h2⟩ | ⟨h1, h2⟩)
      · exact Or.inl h
      · exact Or.inr ⟨Or.inl h1, h2⟩
      · exact Or.inr ⟨Or.inr h1, h2⟩
    · rintro (h | ⟨h1 | h1, h2⟩)
      · exact Or.inl h
      · exact Or.inr (Or.inl ⟨h1, h2⟩)
      · exact Or.inr (Or.inr ⟨h1, h2⟩)

theorem intersect_grow {w : CoreWorld} (hw : w.Inv) {g other : Nat} (hg : g < w.nGrps)
    (ho : other < w.nGrps) :
    ∃ w', w.intersect g other = .ok (w.nGrps, w') ∧
      Grow { w with grps := upd w.grps w.nGrps { frozen := false, map := .empty }, nGrps := w.nGrps + 1 }
        w' w.nGrps (fun x y p => w.Has g x y p ∧ w.Has other x y p) := by
  have hgrp : (upd w.grps w.nGrps { frozen := false, map := .empty }) g = w.grps g := by
    simp only [upd]; rw [if_neg (by omega)]
  have hgrpo : (upd w.grps w.nGrps { frozen := false, map := .empty }) other = w.grps other := by
    simp only [upd]; rw [if_neg (by omega)]
  obtain ⟨w', h1, g1⟩ := intersectLoop_grow g other w.nGrps (by omega) (by omega) (w.grps g).map.keys
    (emptyGroup_inv hw false) (Nat.lt_succ_self _) (by simp [upd])
    (fun xy h => by
      simp only [hgrp]
      obtain ⟨v, hv⟩ := PDict.mem_keys_iff xy |>.1 h
      rw [hv]; rfl)
  refine ⟨w', ?_, g1.congr (fun x y p => ?_)⟩
  · simp only [intersect, newGroup, groupAddSubsets, List.foldl_nil, hgrp, h1]
  · simp only [Has, hgrp, hgrpo]
    constructor
    · rintro (h | ⟨h1, h2⟩)
      · exact Or.inl h
      · exact Or.inr h2
    · rintro (h | ⟨⟨a, ha, hp⟩, h2⟩)
      · exact Or.inl h
      · exact Or.inr ⟨PDict.mem_keys_iff _ |>.2 ⟨a, ha⟩, ⟨a, ha, hp⟩, h2⟩

end CoreWorld
end SpiNN
