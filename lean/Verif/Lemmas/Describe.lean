import Verif.Spec.Describe
import Verif.Model.Describe
import Verif.Lemmas.Machine
import Verif.Lemmas.Str

/-! # Lemmas on the texts that describe machines -/

namespace SpiNN
open Spec

theorem digChar_eq {n : Nat} (h : n < 10) : digChar n = Nat.digitChar n := by
  have : n = 0 ∨ n = 1 ∨ n = 2 ∨ n = 3 ∨ n = 4 ∨ n = 5 ∨ n = 6 ∨ n = 7 ∨ n = 8 ∨ n = 9 := by omega
  rcases this with rfl | rfl | rfl | rfl | rfl | rfl | rfl | rfl | rfl | rfl <;> rfl

theorem showNat_eq_toDigits (n : Nat) : showNat n = Nat.toDigits 10 n := by
  induction n using Nat.strongRecOn with
  | ind n ih =>
    rw [showNat]
    split
    · rename_i h
      rw [Nat.toDigits_of_lt_base h, digChar_eq h]
    · rename_i h
      rw [Nat.toDigits_of_base_le (by omega) (by omega), ih _ (by omega), digChar_eq (by omega)]

/-- numbers are printed as by Lean -/
theorem showInt_eq_toString (i : Int) : showInt i = (toString i).toList := by
  rw [Int.toString_eq_repr, Int.repr_eq_if]
  unfold showInt
  rw [showNat_eq_toDigits]
  split
  · rename_i h
    have : i.natAbs = (-i).toNat := by omega
    simp [Nat.repr, this, show ¬ 0 ≤ i by omega]
  · rename_i h
    have : i.natAbs = i.toNat := by omega
    simp [Nat.repr, this, show 0 ≤ i by omega]

theorem showOpt_eq (a : Option PyStr) : showOpt a = (addrText a).toList := by
  cases a <;> simp [showOpt, addrText]

theorem toString_str (s : String) : toString s = s := rfl

/-- the text of a number ends where another character follows -/
theorem showInt_append_inj {a b : Int} {c : Char} {s t : PyStr} (hc : c ≠ '-' ∧ isDig c = false)
    (h : showInt a ++ c :: s = showInt b ++ c :: t) : a = b ∧ s = t := by
  have h1 : ∀ i, ∀ x ∈ showInt i, (x != c) = true := by
    intro i x hx
    rcases mem_showInt hx with rfl | hd
    · simpa using Ne.symm hc.1
    · simp only [bne_iff_ne, ne_eq]; rintro rfl; simp [hc.2] at hd
  have key : ∀ i (u : PyStr), (showInt i ++ c :: u).takeWhile (· != c) = showInt i := by
    intro i u
    rw [List.takeWhile_append_of_pos (h1 i)]
    simp
  have hab : a = b := showInt_inj (by rw [← key a s, h, key])
  subst hab
  have := List.append_cancel_left h
  simp only [List.cons.injEq, true_and] at this
  exact ⟨rfl, this⟩

/-! ### the counter of links -/

/-- the number of links of a chip -/
def nLinksOf (c : Chip) : Int := c.router.linkList.length

theorem nLinksOf_len (c : Chip) : (c.router.len : Int) = nLinksOf c := by
  simp [nLinksOf, Router.len, Router.linkList, PDict.length_values]

theorem addAll_appends (s : Chips) (cs : List Chip) : ∃ t, (s.addAll cs).1 = s ++ t := by
  induction cs generalizing s with
  | nil => exact ⟨[], by simp [Chips.addAll]⟩
  | cons c cs ih =>
    unfold Chips.addAll Chips.add
    cases h : (s.at c.xy).isSome with
    | true => exact ⟨[], by simp⟩
    | false =>
      obtain ⟨t, ht⟩ := ih (s ++ [c])
      exact ⟨c :: t, by simpa using ht⟩

theorem Rep.links_addChips {m : Machine} {s : Chips} (r : Rep m s) (L : List Int) (hL : IsCounter m.nLinks L)
    (cs : List Chip) (t : List Chip) (ht : (s.addAll cs).1 = s ++ t) :
    IsCounter (m.addChips cs).1.nLinks (L ++ t.map nLinksOf) := by
  induction cs generalizing m s L t with
  | nil => simp only [Chips.addAll, List.self_eq_append_right] at ht; subst ht; simpa [Machine.addChips] using hL
  | cons c cs ih =>
    have h := r.addChip c
    simp only [Machine.addChips]
    simp only [Chips.addAll] at ht
    cases hm : m.addChip c with
    | ok m' =>
      rw [hm] at h
      simp only at h
      rw [h.1] at ht
      obtain ⟨t', ht'⟩ := addAll_appends (s ++ [c]) cs
      simp only at ht
      rw [ht', List.append_assoc] at ht
      have := List.append_cancel_left ht
      subst this
      have hn : m'.nLinks = counterInc m.nLinks c.router.len := by
        unfold Machine.addChip at hm
        split at hm
        · cases hm
        · cases hm; rfl
      have hL' : IsCounter m'.nLinks (L ++ [nLinksOf c]) := by
        rw [hn, nLinksOf_len]; exact hL.inc _
      have := ih h.2.1 _ hL' t' ht'
      simpa using this
    | error e =>
      rw [hm] at h
      simp only at h
      rw [h.1] at ht
      simp only [List.self_eq_append_right] at ht
      subst ht
      simpa using hL

theorem length_absAddLink (s : Chips) (p : XY) (l : Link) : (s.addLink p l).1.length = s.length := by
  unfold Chips.addLink
  cases s.at p with
  | none => rfl
  | some c => simp only; split <;> simp

theorem Rep.links_step {m : Machine} {s : Chips} (r : Rep m s) (L : List Int) (hL : IsCounter m.nLinks L)
    (v : Version) (o : Op) :
    IsCounter (Spec.step v m o).1.nLinks (L ++ (addedBy s o).map nLinksOf) := by
  unfold addedBy
  cases o with
  | addChip c =>
    have h := r.addChip c
    simp only [Spec.step, absStep]
    cases hm : m.addChip c with
    | ok m' =>
      rw [hm] at h
      simp only at h
      rw [h.1]
      have hn : m'.nLinks = counterInc m.nLinks c.router.len := by
        unfold Machine.addChip at hm
        split at hm
        · cases hm
        · cases hm; rfl
      simp only [hn, List.drop_left, List.map_cons, List.map_nil, ← nLinksOf_len]
      exact hL.inc _
    | error e =>
      rw [hm] at h
      simp only at h
      rw [h.1]
      simpa using hL
  | addChips cs =>
    simp only [Spec.step, absStep]
    obtain ⟨t, ht⟩ := addAll_appends s cs
    rw [ht, List.drop_left]
    exact r.links_addChips L hL cs t ht
  | addLink p l =>
    have h := r.routerAddLink p l
    simp only [Spec.step, absStep]
    rw [List.drop_eq_nil_of_le (by rw [length_absAddLink]; exact Nat.le_refl _)]
    cases hm : m.routerAddLink p l with
    | ok m' =>
      rw [hm] at h
      simp only at h
      obtain ⟨s', -, -, -, -, -, h6⟩ := h
      simp only [h6, List.map_nil, List.append_nil]
      exact hL
    | error e => simpa using hL
  | addSpinnakerLinks =>
    obtain ⟨t, ht⟩ := onlySpin v m
    simp only [Spec.step, absStep, ht, List.drop_length, List.map_nil, List.append_nil]
    exact hL
  | addFpgaLinks =>
    obtain ⟨t, ht⟩ := onlyFpga v m
    simp only [Spec.step, absStep, ht, List.drop_length, List.map_nil, List.append_nil]
    exact hL

/-- the counter of links holds the numbers of links the chips had when they were added -/
theorem Rep.links_run {m : Machine} {s : Chips} (r : Rep m s) (L : List Int) (hL : IsCounter m.nLinks L)
    (v : Version) (os : List Op) :
    IsCounter (Spec.run v m os).1.nLinks (L ++ (added s os).map nLinksOf) := by
  induction os generalizing m s L with
  | nil => simpa [Spec.run, added] using hL
  | cons o os ih =>
    have h1 := (r.step v o).1
    have h2 := r.links_step L hL v o
    have := ih h1 _ h2
    simpa [Spec.run, added] using this

/-- without links added late, the chips added are the chips of the machine -/
theorem added_chips (s : Chips) (os : List Op) (h : ∀ o ∈ os, o.isAddLink = false) :
    (absRun s os).1 = s ++ added s os := by
  induction os generalizing s with
  | nil => simp [absRun, added]
  | cons o os ih =>
    have : ∃ t, (absStep s o).1 = s ++ t := by
      cases o with
      | addChip c =>
        simp only [absStep, Chips.add]
        split
        · exact ⟨[], by simp⟩
        · exact ⟨[c], rfl⟩
      | addChips cs => exact addAll_appends s cs
      | addLink p l => simp [Op.isAddLink] at h
      | addSpinnakerLinks => exact ⟨[], by simp [absStep]⟩
      | addFpgaLinks => exact ⟨[], by simp [absStep]⟩
    obtain ⟨t, ht⟩ := this
    simp only [absRun, added, addedBy]
    rw [ih _ fun o' ho' => h o' (List.mem_cons_of_mem _ ho'), ht, List.drop_left, List.append_assoc]

theorem sum_update_one (s : Chips) (hn : (s.map Chip.xy).Nodup) (p : XY) (c : Chip) (hc : s.at p = some c)
    (f : Chip → Chip) (hf : ∀ d, nLinksOf (f d) = nLinksOf d + 1) :
    ((s.map fun d => if d.xy = p then f d else d).map nLinksOf).sum = (s.map nLinksOf).sum + 1 := by
  induction s with
  | nil => simp [Chips.at] at hc
  | cons a s ih =>
    simp only [List.map_cons, List.nodup_cons] at hn
    simp only [List.map_cons, List.sum_cons]
    by_cases ha : a.xy = p
    · have : (s.map fun d => if d.xy = p then f d else d) = s := by
        conv => rhs; rw [← List.map_id s]
        apply List.map_congr_left
        intro d hd
        rw [if_neg]
        · rfl
        · intro h; exact hn.1 (ha ▸ h ▸ List.mem_map_of_mem hd)
      rw [if_pos ha, this, hf]; omega
    · have hc' : Chips.at s p = some c := by simpa [Chips.at, List.find?_cons, ha] using hc
      rw [if_neg ha, ih hn.2 hc']; omega

theorem absAddLink_cases (s : Chips) (p : XY) (l : Link) : (∃ e, s.addLink p l = (s, some e)) ∨
    ∃ (c : Chip) (f : Chip → Chip), s.at p = some c ∧ s.addLink p l = (s.map (fun d => if d.xy = p then f d else d), none) ∧
      ∀ d, nLinksOf (f d) = nLinksOf d + 1 := by
  unfold Chips.addLink
  cases hc : s.at p with
  | none => exact Or.inl ⟨_, rfl⟩
  | some c =>
    simp only
    split
    · exact Or.inl ⟨_, rfl⟩
    · refine Or.inr ⟨c, _, rfl, rfl, fun d => ?_⟩
      simp [nLinksOf, Router.linkList, Router.iter, PDict.values]

theorem sum_absStep (s : Chips) (hn : (s.map Chip.xy).Nodup) (o : Op) :
    ((absStep s o).1.map nLinksOf).sum = (s.map nLinksOf).sum + ((addedBy s o).map nLinksOf).sum +
      (if o.isAddLink && (absStep s o).2.isNone then 1 else 0) := by
  unfold addedBy
  cases o with
  | addChip c =>
    simp only [absStep, Chips.add, Op.isAddLink]
    split <;> simp
  | addChips cs =>
    obtain ⟨t, ht⟩ := addAll_appends s cs
    simp [absStep, ht, Op.isAddLink]
  | addLink p l =>
    simp only [absStep]
    rw [List.drop_eq_nil_of_le (by rw [length_absAddLink]; exact Nat.le_refl _)]
    rcases absAddLink_cases s p l with ⟨e, he⟩ | ⟨c, f, hc, he, hf⟩
    · simp [he]
    · have := sum_update_one s hn p c hc f hf
      simp only [he, this, Op.isAddLink]
      simp
  | addSpinnakerLinks => simp [absStep, Op.isAddLink]
  | addFpgaLinks => simp [absStep, Op.isAddLink]

/-- every link was there when its chip was added, or was added late -/
theorem Rep.sum_run {m : Machine} {s : Chips} (r : Rep m s) (v : Version) (os : List Op) :
    ((absRun s os).1.map nLinksOf).sum = (s.map nLinksOf).sum + ((added s os).map nLinksOf).sum +
      ((os.zip (absRun s os).2).countP fun p => p.1.isAddLink && p.2.isNone : Nat) := by
  induction os generalizing m s with
  | nil => simp [absRun, added]
  | cons o os ih =>
    have h1 := (r.step v o).1
    have h2 := ih h1
    have h3 := sum_absStep s r.nodup o
    simp only [absRun, added, List.zip_cons_cons, List.countP_cons, List.map_append, List.sum_append]
    rw [h2, h3]
    split <;> rename_i hc <;> simp <;> omega

end SpiNN
