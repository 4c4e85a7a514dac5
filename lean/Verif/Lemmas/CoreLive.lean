import Verif.Model.CoreLive
import Verif.Lemmas.CoreSubsets
import Verif.Lemmas.Lazy

/-! # Lemmas about iterators over core subsets -/

namespace SpiNN
open Spec

namespace CoreWorld

theorem upd_same {α : Type} (f : Nat → α) (a : Nat) : upd f a (f a) = f := by
  funext b; unfold upd; split
  · rename_i h; rw [h]
  · rfl

theorem subsetAdd_mem {w : CoreWorld} {a : Nat} {p : Int} (h : p ∈ (w.subs a).procs) :
    w.subsetAdd a p = w := by
  unfold subsetAdd CoreSubset.add
  rw [if_pos h, upd_same]

theorem groupAdd_own {w : CoreWorld} {g a : Nat} {x y p : Int} (hget : (w.grps g).map.get? (x, y) = some a)
    (h : p ∈ (w.subs a).procs) : w.groupAdd g x y p = w := by
  unfold groupAdd; rw [hget]; exact subsetAdd_mem h

/-- adding a processor of a subset to a group does not change that subset -/
theorem groupAdd_subs {w : CoreWorld} {g a : Nat} {x y p : Int} (ha : a < w.nSubs)
    (h : p ∈ (w.subs a).procs) : (w.groupAdd g x y p).subs a = w.subs a := by
  cases hget : (w.grps g).map.get? (x, y) with
  | none =>
    unfold groupAdd; rw [hget]
    simp only [newSubset, upd]
    rw [if_neg (by omega)]
  | some b =>
    by_cases hb : b = a
    · subst hb; rw [groupAdd_own hget h]
    · unfold groupAdd; rw [hget]
      simp only [subsetAdd, upd]
      rw [if_neg (fun e => hb e.symm)]

theorem groupAdd_nSubs (w : CoreWorld) (g : Nat) (x y p : Int) : w.nSubs ≤ (w.groupAdd g x y p).nSubs := by
  unfold groupAdd; split
  · simp [newSubset]
  · simp [subsetAdd]

theorem procsLoop_eq (g a : Nat) (x y : Int) (ps : List Int) : ∀ (n pos : Nat) (w : CoreWorld),
    a < w.nSubs → (w.subs a).procs = ps → ps.length < pos + n →
    procsLoop g a x y n (.live pos ps.length) w =
      ((ps.drop pos).foldl (fun w' p => w'.groupAdd g x y p) w, none) := by
  intro n
  induction n with
  | zero =>
    intro pos w _ _ hn
    rw [List.drop_eq_nil_of_le (by omega)]; rfl
  | succ n ih =>
    intro pos w ha hps hn
    unfold procsLoop
    simp only [DictIter.next, hps, ne_eq, not_true, if_false]
    by_cases hp : pos < ps.length
    · rw [List.getElem?_eq_getElem hp, List.drop_eq_getElem_cons hp, List.foldl_cons]
      have hm : ps[pos] ∈ (w.subs a).procs := hps ▸ List.getElem_mem hp
      exact ih (pos + 1) _ (Nat.lt_of_lt_of_le ha (groupAdd_nSubs ..))
        (by rw [groupAdd_subs ha hm, hps]) (by omega)
    · rw [List.getElem?_eq_none_iff.2 (by omega), List.drop_eq_nil_of_le (by omega)]; rfl

theorem addSubsetLive_eq {w : CoreWorld} {a : Nat} (g : Nat) (ha : a < w.nSubs) :
    w.addSubsetLive g a = (w.groupAddSubset g a, none) := by
  unfold addSubsetLive groupAddSubset CoreSubset.len
  rw [procsLoop_eq g a _ _ _ _ 0 w ha rfl (by omega), List.drop_zero]

theorem groupAddSubset_own {w : CoreWorld} {g a : Nat}
    (hget : (w.grps g).map.get? ((w.subs a).x, (w.subs a).y) = some a) : w.groupAddSubset g a = w := by
  unfold groupAddSubset
  have : ∀ ps : List Int, (∀ p ∈ ps, p ∈ (w.subs a).procs) →
      ps.foldl (fun w' p => w'.groupAdd g (w.subs a).x (w.subs a).y p) w = w := by
    intro ps
    induction ps with
    | nil => intro _; rfl
    | cons p ps ih =>
      intro h
      rw [List.foldl_cons, groupAdd_own hget (h p (by simp))]
      exact ih (fun q hq => h q (by simp [hq]))
  exact this _ (fun _ h => h)

theorem groupAdd_other {w : CoreWorld} {g h : Nat} (hne : h ≠ g) (x y p : Int) :
    (w.groupAdd g x y p).grps h = w.grps h := by
  unfold groupAdd; split
  · simp only [newSubset, upd]; rw [if_neg hne]
  · rfl

theorem groupAddSubset_other {w : CoreWorld} {g h : Nat} (hne : h ≠ g) (a : Nat) :
    (w.groupAddSubset g a).grps h = w.grps h := by
  unfold groupAddSubset
  generalize (w.subs a).x = x
  generalize (w.subs a).y = y
  generalize (w.subs a).procs = ps
  induction ps generalizing w with
  | nil => rfl
  | cons p ps ih => rw [List.foldl_cons, ih, groupAdd_other hne]

theorem groupAddSubset_nSubs (w : CoreWorld) (g a : Nat) : w.nSubs ≤ (w.groupAddSubset g a).nSubs := by
  unfold groupAddSubset
  generalize (w.subs a).x = x
  generalize (w.subs a).y = y
  generalize (w.subs a).procs = ps
  induction ps generalizing w with
  | nil => exact Nat.le_refl _
  | cons p ps ih => rw [List.foldl_cons]; exact Nat.le_trans (groupAdd_nSubs ..) (ih _)

theorem mem_iter_own {w : CoreWorld} (hw : w.Inv) {g a : Nat} (h : a ∈ w.iter g) :
    a < w.nSubs ∧ (w.grps g).map.get? ((w.subs a).x, (w.subs a).y) = some a := by
  obtain ⟨xy, hk⟩ := (PDict.mem_values_iff (hw.wf g) a).1 h
  obtain ⟨h1, h2, h3, -⟩ := hw.own _ _ _ hk
  refine ⟨h1, ?_⟩
  rw [h2, h3]; exact hk

theorem subsetsLoop_eq (g h : Nat) (as : List Nat) : ∀ (n pos : Nat) (w : CoreWorld),
    (∀ a ∈ as, a < w.nSubs) → (h = g → w.Inv) → w.iter h = as → as.length < pos + n →
    subsetsLoop g h n (.live pos as.length) w =
      ((as.drop pos).foldl (fun w' a => w'.groupAddSubset g a) w, none) := by
  intro n
  induction n with
  | zero =>
    intro pos w _ _ _ hn
    rw [List.drop_eq_nil_of_le (by omega)]; rfl
  | succ n ih =>
    intro pos w hlt hinv has hn
    unfold subsetsLoop
    simp only [DictIter.next, has, ne_eq, not_true, if_false]
    by_cases hp : pos < as.length
    · rw [List.getElem?_eq_getElem hp, List.drop_eq_getElem_cons hp, List.foldl_cons]
      have hm : as[pos] ∈ as := List.getElem_mem hp
      simp only [addSubsetLive_eq g (hlt _ hm)]
      by_cases hg : h = g
      · subst hg
        have e := groupAddSubset_own (mem_iter_own (hinv rfl) (g := h) (a := as[pos]) (by rw [has]; exact hm)).2
        rw [e]
        exact ih (pos + 1) w hlt hinv has (by omega)
      · refine ih (pos + 1) _ (fun a ha => Nat.lt_of_lt_of_le (hlt a ha) (groupAddSubset_nSubs ..))
          (fun e => absurd e hg) ?_ (by omega)
        unfold iter
        rw [groupAddSubset_other hg]; exact has
    · rw [List.getElem?_eq_none_iff.2 (by omega), List.drop_eq_nil_of_le (by omega)]; rfl

theorem addGroupLive_eq {w : CoreWorld} (hw : w.Inv) (g h : Nat) :
    w.addGroupLive g h = (w.groupAddSubsets g (w.iter h), none) := by
  unfold addGroupLive groupAddSubsets
  rw [subsetsLoop_eq g h _ _ 0 w (fun a ha => (mem_iter_own hw ha).1) (fun _ => hw) rfl (by omega),
    List.drop_zero]

theorem groupAddSubsets_self {w : CoreWorld} (hw : w.Inv) (g : Nat) : w.groupAddSubsets g (w.iter g) = w := by
  unfold groupAddSubsets
  have : ∀ as : List Nat, (∀ a ∈ as, a ∈ w.iter g) → as.foldl (fun w' a => w'.groupAddSubset g a) w = w := by
    intro as
    induction as with
    | nil => intro _; rfl
    | cons a as ih =>
      intro h
      rw [List.foldl_cons, groupAddSubset_own (mem_iter_own hw (h a (by simp))).2]
      exact ih (fun b hb => h b (by simp [hb]))
  exact this _ (fun _ h => h)

/-! ### what a group and a subset hold only grows at the end -/

/-- a change made through group `g` -/
structure PreG (w w' : CoreWorld) (g : Nat) : Prop where
  nSubs : w.nSubs ≤ w'.nSubs
  nGrps : w'.nGrps = w.nGrps
  maps : ∀ h, (w.grps h).map.items <+: (w'.grps h).map.items
  others : ∀ h, h ≠ g → (w'.grps h).map = (w.grps h).map
  procs : ∀ a, a < w.nSubs → (w.subs a).procs <+: (w'.subs a).procs
  frozen : ∀ h, (w'.grps h).frozen = (w.grps h).frozen

theorem PreG.refl (w : CoreWorld) (g : Nat) : PreG w w g :=
  ⟨Nat.le_refl _, rfl, fun _ => List.prefix_refl _, fun _ _ => rfl, fun _ _ => List.prefix_refl _, fun _ => rfl⟩

theorem PreG.trans {w w' w'' : CoreWorld} {g : Nat} (h : PreG w w' g) (k : PreG w' w'' g) : PreG w w'' g :=
  ⟨Nat.le_trans h.nSubs k.nSubs, k.nGrps.trans h.nGrps, fun x => (h.maps x).trans (k.maps x),
    fun x hx => (k.others x hx).trans (h.others x hx),
    fun a ha => (h.procs a ha).trans (k.procs a (Nat.lt_of_lt_of_le ha h.nSubs)),
    fun x => (k.frozen x).trans (h.frozen x)⟩

theorem add_prefix (s : CoreSubset) (p : Int) : s.procs <+: (s.add p).procs := by
  unfold CoreSubset.add; split
  · exact List.prefix_refl _
  · exact List.prefix_append _ _

theorem subsetAdd_preG (w : CoreWorld) (a g : Nat) (p : Int) : PreG w (w.subsetAdd a p) g := by
  refine ⟨Nat.le_refl _, rfl, fun _ => List.prefix_refl _, fun _ _ => rfl, fun b _ => ?_, fun _ => rfl⟩
  simp only [subsetAdd, upd]; split
  · rename_i h; subst h; exact add_prefix _ _
  · exact List.prefix_refl _

theorem newSubset_preG (w : CoreWorld) (s : CoreSubset) (g : Nat) : PreG w (w.newSubset s).2 g := by
  refine ⟨Nat.le_succ _, rfl, fun _ => List.prefix_refl _, fun _ _ => rfl, fun b hb => ?_, fun _ => rfl⟩
  simp only [newSubset, upd]
  rw [if_neg (by omega)]
  exact List.prefix_refl _

theorem groupAdd_preG (w : CoreWorld) (g : Nat) (x y p : Int) : PreG w (w.groupAdd g x y p) g := by
  cases hget : (w.grps g).map.get? (x, y) with
  | some a => unfold groupAdd; rw [hget]; exact subsetAdd_preG ..
  | none =>
    refine (newSubset_preG w (CoreSubset.mk' x y [p]) g).trans ?_
    unfold groupAdd; rw [hget]
    simp only [newSubset]
    refine ⟨Nat.le_refl _, rfl, fun h => ?_, fun h hh => ?_, fun b hb => List.prefix_refl _, fun h => ?_⟩
    · simp only [upd]; split
      · rename_i e; subst e
        simp only [PDict.set]
        rw [assign_new _ _ _ hget]; exact List.prefix_append _ _
      · exact List.prefix_refl _
    · simp only [upd]; rw [if_neg hh]
    · simp only [upd]; split
      · rename_i e; subst e; rfl
      · rfl

theorem groupAddSubset_preG (w : CoreWorld) (g a : Nat) : PreG w (w.groupAddSubset g a) g := by
  unfold groupAddSubset
  generalize (w.subs a).x = x
  generalize (w.subs a).y = y
  generalize (w.subs a).procs = ps
  induction ps generalizing w with
  | nil => exact .refl ..
  | cons p ps ih => rw [List.foldl_cons]; exact (groupAdd_preG ..).trans (ih _)

theorem groupAddSubsets_preG (w : CoreWorld) (g : Nat) (as : List Nat) : PreG w (w.groupAddSubsets g as) g := by
  unfold groupAddSubsets
  induction as generalizing w with
  | nil => exact .refl ..
  | cons a as ih => rw [List.foldl_cons]; exact (groupAddSubset_preG ..).trans (ih _)

theorem intersectChip_preG {w w' : CoreWorld} {g other r : Nat} {xy : XY}
    (h : w.intersectChip g other r xy = .ok w') : PreG w w' r := by
  unfold intersectChip at h
  split at h
  · split at h
    · rename_i a b _ _
      simp only at h
      split at h
      · unfold addCoreSubset at h
        split at h
        · simp at h
        · injection h with h; subst h
          exact (newSubset_preG ..).trans (groupAddSubset_preG ..)
      · injection h with h; subst h; exact newSubset_preG ..
    · simp at h
    · simp at h
  · injection h with h; subst h; exact .refl ..

theorem intersectLoop_preG {g other r : Nat} : ∀ (ks : List XY) {w w' : CoreWorld},
    intersectLoop g other r w ks = .ok w' → PreG w w' r
  | [], w, w', h => by unfold intersectLoop at h; injection h with h; subst h; exact .refl ..
  | k :: ks, w, w', h => by
    unfold intersectLoop at h
    split at h
    · simp at h
    · rename_i w1 h1
      exact (intersectChip_preG h1).trans (intersectLoop_preG ks h)

/-- any change -/
structure Pre (w w' : CoreWorld) : Prop where
  nSubs : w.nSubs ≤ w'.nSubs
  nGrps : w.nGrps ≤ w'.nGrps
  maps : ∀ g, g < w.nGrps → (w.grps g).map.items <+: (w'.grps g).map.items
  frozen : ∀ g, g < w.nGrps → (w'.grps g).frozen = (w.grps g).frozen
  fixed : ∀ g, g < w.nGrps → (w.grps g).frozen = true → (w'.grps g).map = (w.grps g).map
  procs : ∀ a, a < w.nSubs → (w.subs a).procs <+: (w'.subs a).procs

theorem Pre.refl (w : CoreWorld) : Pre w w :=
  ⟨Nat.le_refl _, Nat.le_refl _, fun _ _ => List.prefix_refl _, fun _ _ => rfl, fun _ _ _ => rfl,
    fun _ _ => List.prefix_refl _⟩

theorem Pre.trans {w w' w'' : CoreWorld} (h : Pre w w') (k : Pre w' w'') : Pre w w'' :=
  ⟨Nat.le_trans h.nSubs k.nSubs, Nat.le_trans h.nGrps k.nGrps,
    fun g hg => (h.maps g hg).trans (k.maps g (Nat.lt_of_lt_of_le hg h.nGrps)),
    fun g hg => (k.frozen g (Nat.lt_of_lt_of_le hg h.nGrps)).trans (h.frozen g hg),
    fun g hg hf => (k.fixed g (Nat.lt_of_lt_of_le hg h.nGrps) ((h.frozen g hg).trans hf)).trans (h.fixed g hg hf),
    fun a ha => (h.procs a ha).trans (k.procs a (Nat.lt_of_lt_of_le ha h.nSubs))⟩

theorem PreG.pre {w w' : CoreWorld} {g : Nat} (h : PreG w w' g) (hg : (w.grps g).frozen = false ∨ w.nGrps ≤ g) :
    Pre w w' :=
  ⟨h.nSubs, Nat.le_of_eq h.nGrps.symm, fun x _ => h.maps x, fun x _ => h.frozen x,
    fun x hx hf => h.others x (by
      rintro rfl
      rcases hg with hg | hg
      · rw [hg] at hf; simp at hf
      · omega),
    h.procs⟩

theorem emptyGroup_pre (w : CoreWorld) (frozen : Bool) :
    Pre w { w with grps := upd w.grps w.nGrps { frozen, map := .empty }, nGrps := w.nGrps + 1 } := by
  have hg : ∀ g, g < w.nGrps → upd w.grps w.nGrps { frozen, map := .empty } g = w.grps g := by
    intro g hg
    simp only [upd]; rw [if_neg (by omega)]
  exact ⟨Nat.le_refl _, Nat.le_succ _, fun g h => by simp only [hg g h]; exact List.prefix_refl _,
    fun g h => by simp only [hg g h], fun g h _ => by simp only [hg g h], fun _ _ => List.prefix_refl _⟩

/-- a change made through a group that did not exist before -/
theorem PreG.after {w w' : CoreWorld} {frozen : Bool}
    (h : PreG { w with grps := upd w.grps w.nGrps { frozen, map := .empty }, nGrps := w.nGrps + 1 } w' w.nGrps) :
    Pre w w' := by
  have h0 := emptyGroup_pre w frozen
  refine ⟨h.nSubs, by rw [h.nGrps]; exact h0.nGrps, fun g hg => (h0.maps g hg).trans (h.maps g),
    fun g hg => (h.frozen g).trans (h0.frozen g hg),
    fun g hg hf => (h.others g (by omega)).trans (h0.fixed g hg hf), h.procs⟩

theorem step_pre {w w' : CoreWorld} (s : CoreStep w w') : Pre w w' := by
  cases s with
  | newSubset x y ps => exact (newSubset_preG w _ w.nGrps).pre (.inr (Nat.le_refl _))
  | subsetIntersect a b _ _ => exact (newSubset_preG w _ w.nGrps).pre (.inr (Nat.le_refl _))
  | subsetAdd a _ p => exact (subsetAdd_preG w a w.nGrps p).pre (.inr (Nat.le_refl _))
  | newGroup frozen as _ => exact PreG.after (groupAddSubsets_preG ..)
  | addProcessor g _ x y p h =>
    unfold addProcessor at h
    split at h
    · simp at h
    · rename_i hf; injection h with h; subst h
      exact (groupAdd_preG ..).pre (.inl (by simpa using hf))
  | addCoreSubset g a _ _ h =>
    unfold addCoreSubset at h
    split at h
    · simp at h
    · rename_i hf; injection h with h; subst h
      exact (groupAddSubset_preG ..).pre (.inl (by simpa using hf))
  | addCoreSubsets g as _ _ h =>
    unfold addCoreSubsets at h
    split at h
    · simp at h
    · rename_i hf; injection h with h; subst h
      exact (groupAddSubsets_preG ..).pre (.inl (by simpa using hf))
  | getSubset g _ x y =>
    unfold getSubset
    split
    · exact (newSubset_preG w _ w.nGrps).pre (.inr (Nat.le_refl _))
    · exact .refl _
  | intersect g other r _ _ h =>
    unfold intersect at h
    simp only [newGroup, groupAddSubsets, List.foldl_nil] at h
    split at h
    · simp at h
    · rename_i w2 h2
      injection h with h
      injection h with h3 h4
      subst h4
      exact PreG.after (intersectLoop_preG _ h2)

theorem askAt_feedD {α : Type} (f : CoreWorld → List α) (it : DictIter) (ws : List CoreWorld) :
    askAt f it ws = feedD it (ws.map f) := by
  induction ws generalizing it with
  | nil => rfl
  | cons w ws ih => simp [askAt, feedD, ih]

end CoreWorld

theorem feedD_length {α : Type} (it : DictIter) (ls : List (List α)) : (feedD it ls).length = ls.length := by
  induction ls generalizing it with
  | nil => rfl
  | cons l ls ih => simp [feedD, ih]

theorem feedD_append {α : Type} (l : List α) : ∀ (it : DictIter) (ls : List (List α)),
    ∃ r, feedD it (ls ++ [l]) = feedD it ls ++ [r]
  | it, [] => ⟨_, rfl⟩
  | it, x :: ls => by
    obtain ⟨r, h⟩ := feedD_append l (it.next x).2 ls
    exact ⟨r, by simp [feedD, h]⟩

/-- an iterator of a dictionary that does not grow -/
theorem feedD_quiet {α : Type} (l0 : List α) (ls : List (List α)) (h : ∀ l ∈ ls, l = l0) :
    feedD (.live 0 l0.length) ls =
      (l0.map Reply.got ++ List.replicate ls.length Reply.stop).take ls.length := by
  obtain ⟨n, tail, h1, h2⟩ := feedD_live l0 ls 0 (fun l hl => by rw [h l hl]; exact List.prefix_refl _) (Nat.zero_le _)
  rw [List.drop_zero] at h1 h2
  have hlen := congrArg List.length h1
  rw [feedD_length] at hlen
  rcases h2 with ⟨ha, hb⟩ | ⟨-, -, l, hl, hne⟩
  · have ht := List.eq_replicate_of_mem ha
    rw [h1]
    by_cases h0 : tail = []
    · subst h0
      simp only [List.append_nil, List.length_map, List.length_take] at hlen
      rw [hlen, List.take_append_of_le_length (by simp; omega), List.append_nil, List.map_take]
      apply List.take_eq_take_iff.2
      simp
    · have hl := hb h0
      rw [List.take_of_length_le hl] at hlen ⊢
      simp only [List.length_append, List.length_map] at hlen
      rw [hlen, ht, List.take_append, List.take_of_length_le (by simp)]
      simp
  · exact absurd (by rw [h l hl]) hne

end SpiNN
