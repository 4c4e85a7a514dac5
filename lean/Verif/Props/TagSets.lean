import Verif.Spec.TagSets
import Verif.Props.JsonRead

/-!
# The sets behind `Chip.tag_ids` (C98)
-/

namespace SpiNN.Props
open SpiNN SpiNN.Spec

/-! ### the model -/

theorem tag_run_append (ops ops' : List TagOp) : ∀ W : TagWorld, W.run (ops ++ ops') =
    match W.run ops with | .error e => .error e | .ok W' => W'.run ops' := by
  induction ops with
  | nil => exact fun W => rfl
  | cons op ops ih =>
    intro W
    simp only [List.cons_append, TagWorld.run]
    cases h : W.step op with
    | error e => rfl
    | ok W' => exact ih W'

theorem tag_run_snoc {W W2 : TagWorld} {ops : List TagOp} {op : TagOp} (h : W.run (ops ++ [op]) = .ok W2) :
    ∃ W1, W.run ops = .ok W1 ∧ W1.step op = .ok W2 := by
  rw [tag_run_append] at h
  cases h1 : W.run ops with
  | error e => rw [h1] at h; cases h
  | ok W1 =>
    rw [h1] at h
    simp only [TagWorld.run] at h
    cases h2 : W1.step op with
    | error e => rw [h2] at h; cases h
    | ok W' => rw [h2] at h; cases h; exact ⟨W1, rfl, h2⟩

theorem made_append (ops ops' : List TagOp) : made (ops ++ ops') = made ops ++ made ops' := List.filterMap_append

theorem changesOf_append (p : Nat → Prop) [DecidablePred p] (ops ops' : List TagOp) :
    changesOf p (ops ++ ops') = changesOf p ops ++ changesOf p ops' := List.filterMap_append

theorem default_append {ops : List TagOp} (ops' : List TagOp) {k : Nat} (hk : k < (made ops).length) :
    DefaultTags (ops ++ ops') k ↔ DefaultTags ops k := by
  unfold DefaultTags
  rw [made_append, List.getElem?_append_left hk]

theorem changesOf_congr {p q : Nat → Prop} [DecidablePred p] [DecidablePred q] {ops : List TagOp}
    (h : ∀ i c, TagOp.change i c ∈ ops → (p i ↔ q i)) : changesOf p ops = changesOf q ops := by
  induction ops with
  | nil => rfl
  | cons op ops ih =>
    have ih := ih fun i c hc => h i c (List.mem_cons_of_mem _ hc)
    unfold changesOf at ih ⊢
    cases op with
    | chip ip arg => simpa using ih
    | change i c => simp only [List.filterMap_cons, h i c (List.mem_cons_self ..), ih]

/-- a change through the tags of a chip is a change of the set, and the set stays one -/
theorem C98_change (c : TagChange) (l : List Int) :
    ChangesTo c l (c.apply l) ∧ (l.Nodup → (c.apply l).Nodup) := by
  cases c with
  | add t =>
    simp only [ChangesTo, TagChange.apply]
    split
    · rename_i h
      exact ⟨fun u => ⟨.inl, fun hu => hu.elim id fun he => he ▸ h⟩, id⟩
    · rename_i h
      refine ⟨fun u => by simp, fun hl => ?_⟩
      rw [List.nodup_append]
      refine ⟨hl, by simp, fun a ha b hb => ?_⟩
      rw [List.mem_singleton] at hb
      subst hb
      exact fun he => h (he ▸ ha)
  | discard t =>
    simp only [ChangesTo, TagChange.apply]
    exact ⟨fun u => by simp, fun hl => hl.filter _⟩

/-- what holds between the text of a program and its objects -/
structure TagInv (ops : List TagOp) (W : TagWorld) : Prop where
  len : W.chips.length = (made ops).length
  valid : ∀ i c, TagOp.change i c ∈ ops → i < (made ops).length
  pos : 0 < W.nSets
  addr : ∀ k o, W.chips[k]? = some o → o.addr < W.nSets ∧ (o.addr = 0 ↔ DefaultTags ops k)
  inj : ∀ (j k : Nat) (o o' : TagChip), W.chips[j]? = some o → W.chips[k]? = some o' → o.addr = o'.addr → o.addr ≠ 0 → j = k
  dflt : W.sets 0 = applyAll [1, 2, 3, 4, 5, 6, 7] (changesOf (DefaultTags ops) ops)
  nodup : ∀ a, a < W.nSets → (W.sets a).Nodup

theorem changesOf_snoc {ops : List TagOp} {W : TagWorld} (hI : TagInv ops W) (op : TagOp) :
    changesOf (DefaultTags (ops ++ [op])) ops = changesOf (DefaultTags ops) ops :=
  changesOf_congr fun i c hc => default_append _ (hI.valid i c hc)

/-- a new chip that holds the set of the class -/
theorem inv_shared {ops : List TagOp} {W : TagWorld} (hI : TagInv ops W) (a : PyStr) :
    TagInv (ops ++ [.chip (some a) .missing]) { W with chips := W.chips ++ [⟨some a, 0⟩] } := by
  have hnew : DefaultTags (ops ++ [.chip (some a) .missing]) (made ops).length :=
    ⟨a, by rw [made_append, List.getElem?_append_right (Nat.le_refl _)]; simp [made]⟩
  refine ⟨?_, ?_, hI.pos, ?_, ?_, ?_, hI.nodup⟩
  · simp [hI.len, made]
  · intro i c hm
    rw [List.mem_append] at hm
    rcases hm with hm | hm
    · have := hI.valid i c hm
      rw [made_append, List.length_append]; omega
    · simp at hm
  · intro k o hk
    by_cases hlt : k < W.chips.length
    · rw [List.getElem?_append_left hlt] at hk
      rw [default_append _ (hI.len ▸ hlt)]
      exact hI.addr k o hk
    · rw [List.getElem?_append_right (by omega)] at hk
      have h0 : k = W.chips.length := by
        have := (List.getElem?_eq_some_iff.1 hk).1
        simp at this; omega
      subst h0
      simp only [Nat.sub_self, List.getElem?_cons_zero, Option.some.injEq] at hk
      subst hk
      exact ⟨hI.pos, fun _ => hI.len ▸ hnew, fun _ => rfl⟩
  · intro j k o o' hj hk he h0
    have hlt : ∀ {j : Nat} {o : TagChip}, (W.chips ++ [⟨some a, 0⟩])[j]? = some o → o.addr ≠ 0 →
        W.chips[j]? = some o := by
      intro j o hj h0
      by_cases hlt : j < W.chips.length
      · rwa [List.getElem?_append_left hlt] at hj
      · rw [List.getElem?_append_right (by omega)] at hj
        have : j - W.chips.length = 0 := by
          have := (List.getElem?_eq_some_iff.1 hj).1
          simp at this; omega
        rw [this] at hj
        simp only [List.getElem?_cons_zero, Option.some.injEq] at hj
        subst hj
        exact absurd rfl h0
    exact hI.inj j k o o' (hlt hj h0) (hlt hk (he ▸ h0)) he h0
  · show W.sets 0 = _
    rw [changesOf_append, changesOf_snoc hI, hI.dflt]
    simp [changesOf]

/-- a new chip with a set of its own -/
theorem inv_own {ops : List TagOp} {W : TagWorld} (hI : TagInv ops W) (ip : Option PyStr) (arg : TagArg) (l : List Int)
    (hn : ¬ (ip.isSome ∧ arg = .missing)) : TagInv (ops ++ [.chip ip arg]) (W.withOwn ip l) := by
  have hnew : ¬ DefaultTags (ops ++ [.chip ip arg]) (made ops).length := by
    rintro ⟨a, ha⟩
    rw [made_append, List.getElem?_append_right (Nat.le_refl _)] at ha
    simp only [made, List.filterMap_cons, List.filterMap_nil, Nat.sub_self, List.getElem?_cons_zero, Option.some.injEq,
      Prod.mk.injEq] at ha
    exact hn ⟨by rw [ha.1]; rfl, ha.2⟩
  have hp := hI.pos
  have split : ∀ {j : Nat} {o : TagChip}, (W.chips ++ [(⟨ip, W.nSets⟩ : TagChip)])[j]? = some o →
      (j < W.chips.length ∧ W.chips[j]? = some o) ∨ (j = W.chips.length ∧ o = ⟨ip, W.nSets⟩) := by
    intro j o hj
    by_cases hlt : j < W.chips.length
    · rw [List.getElem?_append_left hlt] at hj
      exact .inl ⟨hlt, hj⟩
    · rw [List.getElem?_append_right (by omega)] at hj
      have h0 : j = W.chips.length := by
        have := (List.getElem?_eq_some_iff.1 hj).1
        simp at this; omega
      subst h0
      simp only [Nat.sub_self, List.getElem?_cons_zero, Option.some.injEq] at hj
      exact .inr ⟨rfl, hj.symm⟩
  refine ⟨?_, ?_, by simp [TagWorld.withOwn], ?_, ?_, ?_, ?_⟩
  · simp [hI.len, made, TagWorld.withOwn]
  · intro i c hm
    rw [List.mem_append] at hm
    rcases hm with hm | hm
    · have := hI.valid i c hm
      rw [made_append, List.length_append]; omega
    · simp at hm
  · intro k o hk
    show o.addr < W.nSets + 1 ∧ _
    rcases split hk with ⟨hlt, hk⟩ | ⟨rfl, rfl⟩
    · rw [default_append _ (hI.len ▸ hlt)]
      have := hI.addr k o hk
      exact ⟨by omega, this.2⟩
    · rw [hI.len]
      exact ⟨by simp, fun h => by simp only at h; omega, fun h => absurd h hnew⟩
  · intro j k o o' hj hk he h0
    rcases split hj with ⟨hlj, hj⟩ | ⟨rfl, rfl⟩ <;> rcases split hk with ⟨hlk, hk⟩ | ⟨rfl, rfl⟩
    · exact hI.inj j k o o' hj hk he h0
    · have := (hI.addr j o hj).1
      simp only at he; omega
    · have := (hI.addr k o' hk).1
      simp only at he; omega
    · rfl
  · show (if 0 = W.nSets then orderedSet l else W.sets 0) = _
    rw [if_neg (by omega), changesOf_append, changesOf_snoc hI, hI.dflt]
    simp [changesOf]
  · intro a ha
    show (if a = W.nSets then orderedSet l else W.sets a).Nodup
    split
    · exact (orderedSet_spec l).1
    · have : a < W.nSets + 1 := ha
      exact hI.nodup a (by omega)

theorem inv_change {ops : List TagOp} {W : TagWorld} (hI : TagInv ops W) {i : Nat} {o : TagChip} (c : TagChange)
    (hi : W.chips[i]? = some o) : TagInv (ops ++ [.change i c])
      { W with sets := fun a => if a = o.addr then c.apply (W.sets a) else W.sets a } := by
  have hil : i < (made ops).length := hI.len ▸ (List.getElem?_eq_some_iff.1 hi).1
  have hm : made (ops ++ [.change i c]) = made ops := by rw [made_append]; simp [made]
  have hd : ∀ k, DefaultTags (ops ++ [.change i c]) k ↔ DefaultTags ops k := by
    intro k; unfold DefaultTags; rw [hm]
  refine ⟨by rw [hm]; exact hI.len, ?_, hI.pos, ?_, hI.inj, ?_, ?_⟩
  · intro j d hj
    rw [hm]
    rw [List.mem_append] at hj
    rcases hj with hj | hj
    · exact hI.valid j d hj
    · simp only [List.mem_singleton, TagOp.change.injEq] at hj
      exact hj.1 ▸ hil
  · intro k o' hk
    rw [hd]
    exact hI.addr k o' hk
  · rw [changesOf_append, changesOf_snoc hI]
    show (if 0 = o.addr then c.apply (W.sets 0) else W.sets 0) = _
    rw [hI.dflt]
    have hz := (hI.addr i o hi).2
    by_cases h0 : o.addr = 0
    · have : DefaultTags (ops ++ [.change i c]) i := (hd i).2 (hz.1 h0)
      rw [if_pos h0.symm]
      simp [changesOf, this, applyAll, List.foldl_append]
    · have : ¬ DefaultTags (ops ++ [.change i c]) i := fun h => h0 (hz.2 ((hd i).1 h))
      rw [if_neg (fun h => h0 h.symm)]
      simp [changesOf, this, applyAll]
  · intro a ha
    show (if a = o.addr then c.apply (W.sets a) else W.sets a).Nodup
    split
    · exact (C98_change c _).2 (hI.nodup a ha)
    · exact hI.nodup a ha

theorem tag_inv {ops : List TagOp} : ∀ {W : TagWorld}, TagWorld.start.run ops = .ok W → TagInv ops W := by
  induction ops using snoc_induction with
  | nil =>
    intro W h
    cases h
    refine ⟨rfl, by simp, by decide, by simp [TagWorld.start], by simp [TagWorld.start], by decide, ?_⟩
    intro a _
    show Chip.ipTagIds.Nodup
    decide
  | snoc ops op ih =>
    intro W h
    obtain ⟨W1, h1, h2⟩ := tag_run_snoc h
    have hI := ih h1
    match op, h2 with
    | .chip none .missing, h2 => cases h2; exact inv_own hI _ _ _ (by simp)
    | .chip (some a) .missing, h2 => cases h2; exact inv_shared hI a
    | .chip ip (.numbers l), h2 => cases h2; exact inv_own hI _ _ _ (by simp)
    | .chip ip (.ofChip i), h2 =>
      simp only [TagWorld.step] at h2
      split at h2
      · cases h2
      · cases h2; exact inv_own hI _ _ _ (by simp)
    | .change i c, h2 =>
      simp only [TagWorld.step] at h2
      split at h2
      · cases h2
      · rename_i o ho
        cases h2; exact inv_change hI c ho

/-! ### the claims -/

theorem tagIds_of {W : TagWorld} {k : Nat} {o : TagChip} (h : W.chips[k]? = some o) : W.tagIds k = .ok (W.sets o.addr) := by
  unfold TagWorld.tagIds; rw [h]

theorem chip_of_made {ops : List TagOp} {W : TagWorld} (hI : TagInv ops W) {k : Nat} (hk : k < (made ops).length) :
    ∃ o, W.chips[k]? = some o := ⟨_, List.getElem?_eq_getElem (hI.len.symm ▸ hk)⟩

/-- all Ethernet chips that were not given tags have the same tags at any time: 1 to 7, changed by what the program did
through any of these chips, of which machine ever and made before or after -/
theorem C98_default (ops : List TagOp) (W : TagWorld) (h : TagWorld.start.run ops = .ok W) (k : Nat)
    (hk : DefaultTags ops k) :
    W.tagIds k = .ok (applyAll [1, 2, 3, 4, 5, 6, 7] (changesOf (DefaultTags ops) ops)) := by
  have hI := tag_inv h
  obtain ⟨o, ho⟩ := chip_of_made hI (k := k) (by obtain ⟨a, ha⟩ := hk; exact (List.getElem?_eq_some_iff.1 ha).1)
  rw [tagIds_of ho, (hI.addr k o ho).2.2 hk, hI.dflt]

/-- a change through `tag_ids` of chip `i` is seen through the `tag_ids` of chip `i`, and if that chip was not given its
tags through those of all Ethernet chips that were not, and through no other -/
theorem C98_seen_by (ops : List TagOp) (W W' : TagWorld) (h : TagWorld.start.run ops = .ok W) (i : Nat) (c : TagChange)
    (hs : W.step (.change i c) = .ok W') (k : Nat) (l : List Int) (hk : W.tagIds k = .ok l) :
    W'.tagIds k = .ok (if k = i ∨ (DefaultTags ops i ∧ DefaultTags ops k) then c.apply l else l) := by
  have hI := tag_inv h
  simp only [TagWorld.step] at hs
  cases hi : W.chips[i]? with
  | none => rw [hi] at hs; cases hs
  | some o =>
    rw [hi] at hs
    cases hs
    cases ho : W.chips[k]? with
    | none => unfold TagWorld.tagIds at hk; rw [ho] at hk; cases hk
    | some o' =>
      rw [tagIds_of ho] at hk
      cases hk
      have ho2 : ({ W with sets := fun a => if a = o.addr then c.apply (W.sets a) else W.sets a } : TagWorld).chips[k]? =
        some o' := ho
      refine (tagIds_of ho2).trans ?_
      have e1 := (hI.addr i o hi).2
      have e2 := (hI.addr k o' ho).2
      congr 1
      show (if o'.addr = o.addr then _ else _) = _
      by_cases he : o'.addr = o.addr
      · rw [if_pos he, if_pos]
        by_cases h0 : o.addr = 0
        · exact .inr ⟨e1.1 h0, e2.1 (he.trans h0)⟩
        · exact .inl (hI.inj k i o' o ho hi he (he ▸ h0))
      · rw [if_neg he, if_neg]
        rintro (rfl | ⟨a, b⟩)
        · rw [hi] at ho; cases ho; exact he rfl
        · exact he ((e2.2 b).trans (e1.2 a).symm)

theorem tags_after_new {W W' : TagWorld} {ip : Option PyStr} {arg : TagArg}
    (hb : ∀ (k : Nat) (o : TagChip), W.chips[k]? = some o → o.addr < W.nSets)
    (h : W.step (.chip ip arg) = .ok W') {k : Nat} {l : List Int} (hk : W.tagIds k = .ok l) : W'.tagIds k = .ok l := by
  cases ho : W.chips[k]? with
  | none => unfold TagWorld.tagIds at hk; rw [ho] at hk; cases hk
  | some o =>
    rw [tagIds_of ho] at hk
    cases hk
    have hlt := (List.getElem?_eq_some_iff.1 ho).1
    have own : ∀ l, (W.withOwn ip l).tagIds k = .ok (W.sets o.addr) := by
      intro l
      rw [tagIds_of (W := W.withOwn ip l) (o := o) (by
        show (W.chips ++ [_])[k]? = _
        rw [List.getElem?_append_left hlt, ho])]
      show Except.ok (if o.addr = W.nSets then _ else _) = _
      rw [if_neg (by have := hb k o ho; omega)]
    match ip, arg, h with
    | none, .missing, h => cases h; exact own _
    | some a, .missing, h =>
      cases h
      rw [tagIds_of (W := { W with chips := _ }) (o := o) (by
        show (W.chips ++ [_])[k]? = _
        rw [List.getElem?_append_left hlt, ho])]
    | ip, .numbers l, h => cases h; exact own _
    | ip, .ofChip i, h =>
      simp only [TagWorld.step] at h
      split at h
      · cases h
      · cases h; exact own _

/-- making a chip changes the tags of no chip -/
theorem C98_new_chip (ops : List TagOp) (W W' : TagWorld) (h : TagWorld.start.run ops = .ok W) (ip : Option PyStr)
    (arg : TagArg) (hs : W.step (.chip ip arg) = .ok W') (k : Nat) (l : List Int) (hk : W.tagIds k = .ok l) :
    W'.tagIds k = .ok l :=
  tags_after_new (fun k o ho => ((tag_inv h).addr k o ho).1) hs hk

/-- the tags of a new chip: those given, each once and in the order of the first occurrence; those another chip has at
this moment, if its `tag_ids` was given (as `_machine_ignore` does for a chip that loses links); without tags given none
if it has no IP address, and else those of all such chips -/
theorem C98_initial (ops : List TagOp) (W W' : TagWorld) (h : TagWorld.start.run ops = .ok W) (ip : Option PyStr)
    (arg : TagArg) (hs : W.step (.chip ip arg) = .ok W') :
    (∀ l, arg = .numbers l → W'.tagIds (made ops).length = .ok l.eraseDups) ∧
    (∀ i, arg = .ofChip i → W'.tagIds (made ops).length = W.tagIds i ∧ i < (made ops).length) ∧
    (arg = .missing → ip = none → W'.tagIds (made ops).length = .ok []) ∧
    (arg = .missing → ip ≠ none → W'.tagIds (made ops).length =
      .ok (applyAll [1, 2, 3, 4, 5, 6, 7] (changesOf (DefaultTags ops) ops))) := by
  have hI := tag_inv h
  have own : ∀ l, (W.withOwn ip l).tagIds (made ops).length = .ok (orderedSet l) := by
    intro l
    rw [tagIds_of (W := W.withOwn ip l) (o := ⟨ip, W.nSets⟩) (by
      show (W.chips ++ [_])[(made ops).length]? = _
      rw [← hI.len, List.getElem?_append_right (Nat.le_refl _)]; simp)]
    show Except.ok (if W.nSets = W.nSets then _ else _) = _
    rw [if_pos rfl]
  refine ⟨?_, ?_, ?_, ?_⟩
  · rintro l rfl
    cases hs
    rw [own, orderedSet_eraseDups]
  · rintro i rfl
    simp only [TagWorld.step] at hs
    cases hl : W.tagIds i with
    | error e => rw [hl] at hs; cases hs
    | ok l =>
      rw [hl] at hs
      cases hs
      rw [own]
      cases ho : W.chips[i]? with
      | none => unfold TagWorld.tagIds at hl; rw [ho] at hl; cases hl
      | some o =>
        rw [tagIds_of ho] at hl
        cases hl
        exact ⟨by rw [orderedSet_of_nodup (hI.nodup _ (hI.addr i o ho).1)],
          hI.len ▸ (List.getElem?_eq_some_iff.1 ho).1⟩
  · rintro rfl rfl
    cases hs
    rw [own]; rfl
  · rintro rfl hip
    cases ip with
    | none => exact absurd rfl hip
    | some a =>
      cases hs
      rw [tagIds_of (W := { W with chips := _ }) (o := ⟨some a, 0⟩) (by
        show (W.chips ++ [_])[(made ops).length]? = _
        rw [← hI.len, List.getElem?_append_right (Nat.le_refl _)]; simp)]
      exact congrArg Except.ok hI.dflt

/-- a chip that was given its tags, or has no IP address, has them changed by exactly the changes made through its own
`tag_ids`, whatever else the program does -/
theorem C98_own (pre post : List TagOp) (ip : Option PyStr) (arg : TagArg) (W0 W1 W : TagWorld)
    (hn : ¬ (ip ≠ none ∧ arg = .missing)) (h0 : TagWorld.start.run pre = .ok W0)
    (h1 : W0.step (.chip ip arg) = .ok W1) (h : W1.run post = .ok W) :
    ∃ l, W1.tagIds (made pre).length = .ok l ∧
      W.tagIds (made pre).length = .ok (applyAll l (changesOf (fun i => i = (made pre).length) post)) := by
  have r1 : TagWorld.start.run (pre ++ [.chip ip arg]) = .ok W1 := by
    rw [tag_run_append, h0]
    simp only [TagWorld.run, h1]
  have hI1 := tag_inv r1
  obtain ⟨o, ho⟩ := chip_of_made hI1 (k := (made pre).length) (by rw [made_append]; simp [made])
  refine ⟨_, tagIds_of ho, ?_⟩
  have hnd : ∀ post, ¬ DefaultTags (pre ++ [.chip ip arg] ++ post) (made pre).length := by
    intro post
    rw [default_append _ (by rw [made_append]; simp [made])]
    rintro ⟨a, ha⟩
    rw [made_append, List.getElem?_append_right (Nat.le_refl _)] at ha
    simp only [made, List.filterMap_cons, List.filterMap_nil, Nat.sub_self, List.getElem?_cons_zero, Option.some.injEq,
      Prod.mk.injEq] at ha
    exact hn ⟨by rw [ha.1]; simp, ha.2⟩
  revert W
  induction post using snoc_induction with
  | nil => intro W h; cases h; exact tagIds_of ho
  | snoc post op ih =>
    intro W h
    obtain ⟨W2, h2, h3⟩ := tag_run_snoc h
    have ih := ih W2 h2
    have r2 : TagWorld.start.run (pre ++ [.chip ip arg] ++ post) = .ok W2 := by rw [tag_run_append, r1]; exact h2
    rw [changesOf_append]
    cases op with
    | chip ip' arg' =>
      rw [C98_new_chip _ W2 W r2 ip' arg' h3 _ _ ih]
      simp [changesOf]
    | change i c =>
      rw [C98_seen_by _ W2 W r2 i c h3 _ _ ih]
      have hd := hnd post
      by_cases hi : i = (made pre).length
      · rw [if_pos (.inl hi.symm)]
        simp [changesOf, hi, applyAll, List.foldl_append]
      · rw [if_neg]
        · simp [changesOf, hi, applyAll]
        · rintro (he | ⟨-, he⟩)
          · exact hi he.symm
          · exact hd he

/-- as long as no chip with default tags was changed through, `Chip(...)` is what the rest of the model says it is -/
theorem C98_as_modelled (ops : List TagOp) (W W' : TagWorld) (h : TagWorld.start.run ops = .ok W)
    (hc : changesOf (DefaultTags ops) ops = []) (ip : Option PyStr) (given : Option (List Int))
    (hs : W.step (.chip ip (match given with | none => .missing | some l => .numbers l)) = .ok W')
    (x y : Int) (scamp placable : List Int) (router : Router) (sdram ethX ethY : Int) (parent : Option Int) :
    W'.tagIds (made ops).length = .ok (Chip.mk' x y scamp placable router sdram ethX ethY ip given parent).tags := by
  obtain ⟨k1, -, k3, k4⟩ := C98_initial ops W W' h ip _ hs
  cases given with
  | some l => rw [k1 l rfl, ← orderedSet_eraseDups]; rfl
  | none =>
    cases ip with
    | none => rw [k3 rfl rfl]; rfl
    | some a => rw [k4 rfl (by simp), hc]; rfl

/-- two Ethernet chips with default tags, a copy of the first and a chip with tags of its own: a tag taken from the
second chip is missing in the first and in a later one, not in the copy made before; a tag added to the copy is in the
copy only -/
def exTagOps : List TagOp :=
  [.chip (some "1.2.3.4".toList) .missing, .chip (some "1.2.3.5".toList) .missing,
   .chip (some "1.2.3.4".toList) (.ofChip 0), .chip none (.numbers [2, 1, 2]), .change 1 (.discard 3), .change 2 (.add 9),
   .chip (some "1.2.3.6".toList) .missing, .chip none .missing, .change 0 (.add 8), .change 5 (.add 4)]

example : (match TagWorld.start.run exTagOps with
    | .ok W => decide ((List.range 7).map W.tagIds = [.ok [1, 2, 4, 5, 6, 7, 8], .ok [1, 2, 4, 5, 6, 7, 8],
        .ok [1, 2, 3, 4, 5, 6, 7, 9], .ok [2, 1], .ok [1, 2, 4, 5, 6, 7, 8], .ok [4], .error .indexError])
    | .error _ => false) = true := by decide +kernel

end SpiNN.Props
