import Verif.Spec.Ignore

/-! Lemmas about printing, splitting and parsing. -/

namespace SpiNN
open SpiNN.Spec

theorem splitOn_ne_nil (sep : Char) (s : PyStr) : splitOn sep s ≠ [] := by
  cases s with
  | nil => simp [splitOn]
  | cons c cs =>
    simp only [splitOn]
    split
    · simp
    · split <;> simp

theorem splitOn_of_not_mem (sep : Char) (s : PyStr) (h : sep ∉ s) : splitOn sep s = [s] := by
  induction s with
  | nil => rfl
  | cons c cs ih =>
    have hc : c ≠ sep := fun he => h (by simp [he])
    simp only [splitOn, hc, if_false, ih (fun hm => h (List.mem_cons_of_mem _ hm))]

theorem splitOn_append (sep : Char) (s t : PyStr) (h : sep ∉ s) :
    splitOn sep (s ++ sep :: t) = s :: splitOn sep t := by
  induction s with
  | nil => simp [splitOn]
  | cons c cs ih =>
    have hc : c ≠ sep := fun he => h (by simp [he])
    simp only [List.cons_append, splitOn, hc, if_false, ih (fun hm => h (List.mem_cons_of_mem _ hm))]

theorem splitOn_join (sep : Char) (l : List PyStr) (hl : l ≠ []) (h : ∀ s ∈ l, sep ∉ s) :
    splitOn sep (joinWith sep l) = l := by
  induction l with
  | nil => exact absurd rfl hl
  | cons s t ih =>
    cases t with
    | nil => exact splitOn_of_not_mem _ _ (h s List.mem_cons_self)
    | cons u r =>
      simp only [joinWith]
      rw [splitOn_append _ _ _ (h s List.mem_cons_self),
        ih (by simp) (fun s hs => h s (List.mem_cons_of_mem _ hs))]

theorem mem_join {sep : Char} {l : List PyStr} {c : Char} (hc : c ∈ joinWith sep l) :
    c = sep ∨ ∃ s ∈ l, c ∈ s := by
  induction l with
  | nil => cases hc
  | cons s t ih =>
    cases t with
    | nil => exact .inr ⟨s, List.mem_cons_self, hc⟩
    | cons u r =>
      simp only [joinWith, List.mem_append, List.mem_cons] at hc
      rcases hc with hc | rfl | hc
      · exact .inr ⟨s, List.mem_cons_self, hc⟩
      · exact .inl rfl
      · rcases ih hc with h | ⟨x, hx, hcx⟩
        · exact .inl h
        · exact .inr ⟨x, List.mem_cons_of_mem _ hx, hcx⟩

/-! ### digits -/

theorem isDig_iff (c : Char) : isDig c = true ↔ '0' ≤ c ∧ c ≤ '9' := by
  have h0 : ('0' ≤ c) ↔ 48 ≤ c.toNat := Iff.rfl
  have h9 : (c ≤ '9') ↔ c.toNat ≤ 57 := Iff.rfl
  rw [h0, h9]
  simp [isDig]

theorem Spec.Digits.all {s : PyStr} (h : Digits s) : ∀ c ∈ s, isDig c = true := fun c hc =>
  (isDig_iff c).2 (h.2 c hc)

theorem digits_iff (s : PyStr) : Digits s ↔ s ≠ [] ∧ ∀ c ∈ s, isDig c = true := by
  constructor
  · exact fun h => ⟨h.1, h.all⟩
  · exact fun h => ⟨h.1, fun c hc => (isDig_iff c).1 (h.2 c hc)⟩

theorem parseDigits_digits (s : PyStr) (hs : ∀ c ∈ s, isDig c = true) (prev : Bool) (acc : Nat)
    (hp : prev = true ∨ s ≠ []) :
    parseDigits prev acc s = some (s.foldl (fun n c => 10 * n + (c.toNat - '0'.toNat)) acc) := by
  induction s generalizing prev acc with
  | nil => rcases hp with rfl | h
           · rfl
           · exact absurd rfl h
  | cons c cs ih =>
    rw [parseDigits, if_pos (hs c List.mem_cons_self),
      ih (fun c hc => hs c (List.mem_cons_of_mem _ hc)) true _ (.inl rfl), List.foldl_cons]
    have : acc * 10 + digVal c = 10 * acc + (c.toNat - '0'.toNat) := by
      rw [Nat.mul_comm]; rfl
    rw [this]

theorem isDig_not_space {c : Char} (h : isDig c = true) : isSpace c = false := by
  simp only [isDig, Bool.and_eq_true, decide_eq_true_eq] at h
  have : c ≠ ' ' := by rintro rfl; simp at h
  simp [isSpace, this]
  omega

theorem isDig_ne {c : Char} (h : isDig c = true) :
    c ≠ '-' ∧ c ≠ '+' ∧ c ≠ ',' ∧ c ≠ ':' ∧ c ≠ '.' ∧ c ≠ '_' := by
  refine ⟨?_, ?_, ?_, ?_, ?_, ?_⟩ <;> rintro rfl <;> simp [isDig] at h

theorem dropWhile_all_false {α : Type} (p : α → Bool) (l : List α) (h : ∀ a ∈ l, p a = false) :
    l.dropWhile p = l := by
  cases l with
  | nil => rfl
  | cons a t => simp [List.dropWhile_cons, h a List.mem_cons_self]

theorem pyStrip_id (s : PyStr) (h : ∀ c ∈ s, isSpace c = false) : pyStrip s = s := by
  unfold pyStrip
  rw [dropWhile_all_false _ _ h, dropWhile_all_false _ _ (fun c hc => h c (List.mem_reverse.1 hc)),
    List.reverse_reverse]

theorem pyInt_digits {s : PyStr} (hs : Digits s) : pyInt s = .ok (digitsVal s : Int) := by
  have ha := hs.all
  unfold pyInt
  rw [pyStrip_id s (fun c hc => isDig_not_space (ha c hc))]
  have hp := parseDigits_digits s ha false 0 (.inr hs.1)
  cases s with
  | nil => exact absurd rfl hs.1
  | cons c cs =>
    have := isDig_ne (ha c List.mem_cons_self)
    split
    · rename_i heq; cases heq; exact absurd rfl this.1
    · rename_i heq; cases heq; exact absurd rfl this.2.1
    · rw [hp]; rfl

theorem pyInt_neg {s : PyStr} (hs : Digits s) : pyInt ('-' :: s) = .ok (-(digitsVal s : Int)) := by
  have ha := hs.all
  unfold pyInt
  rw [pyStrip_id]
  · simp only
    rw [parseDigits_digits s ha false 0 (.inr hs.1)]
    rfl
  · intro c hc
    rcases List.mem_cons.1 hc with rfl | hc
    · decide
    · exact isDig_not_space (ha c hc)

theorem digChar_val {n : Nat} (hn : n < 10) : isDig (digChar n) = true ∧ (digChar n).toNat - '0'.toNat = n := by
  have : n = 0 ∨ n = 1 ∨ n = 2 ∨ n = 3 ∨ n = 4 ∨ n = 5 ∨ n = 6 ∨ n = 7 ∨ n = 8 ∨ n = 9 := by omega
  rcases this with rfl | rfl | rfl | rfl | rfl | rfl | rfl | rfl | rfl | rfl <;> decide

theorem showNat_digits (n : Nat) : Digits (showNat n) ∧ digitsVal (showNat n) = n := by
  induction n using Nat.strongRecOn with
  | ind n ih =>
    rw [digits_iff]
    rw [showNat]
    split
    · rename_i hn
      refine ⟨⟨by simp, ?_⟩, ?_⟩
      · intro c hc
        rw [List.mem_singleton] at hc
        subst hc
        exact (digChar_val hn).1
      · simpa [digitsVal] using (digChar_val hn).2
    · rename_i hn
      obtain ⟨hd, hv⟩ := ih (n / 10) (by omega)
      have hl : n % 10 < 10 := by omega
      refine ⟨⟨by simp, ?_⟩, ?_⟩
      · intro c hc
        rcases List.mem_append.1 hc with hc | hc
        · exact hd.all c hc
        · rw [List.mem_singleton] at hc
          subst hc
          exact (digChar_val hl).1
      · unfold digitsVal at hv ⊢
        rw [List.foldl_append, hv, List.foldl_cons, List.foldl_nil, (digChar_val hl).2]
        omega

theorem pyInt_showInt (i : Int) : pyInt (showInt i) = .ok i := by
  unfold showInt
  obtain ⟨hd, hv⟩ := showNat_digits i.natAbs
  split
  · rw [pyInt_neg hd, hv]; congr 1; omega
  · rw [pyInt_digits hd, hv]; congr 1; omega

theorem showNat_inj {a b : Nat} (h : showNat a = showNat b) : a = b := by
  rw [← (showNat_digits a).2, ← (showNat_digits b).2, h]

theorem showInt_inj {a b : Int} (h : showInt a = showInt b) : a = b := by
  have := pyInt_showInt a
  rw [h, pyInt_showInt] at this
  exact (Except.ok.inj this).symm

theorem mem_showInt {i : Int} {c : Char} (hc : c ∈ showInt i) : c = '-' ∨ isDig c = true := by
  unfold showInt at hc
  have hd := (showNat_digits i.natAbs).1.all
  split at hc
  · rcases List.mem_cons.1 hc with rfl | hc
    · exact .inl rfl
    · exact .inr (hd c hc)
  · exact .inr (hd c hc)

theorem showInt_ne_nil (i : Int) : showInt i ≠ [] := by
  unfold showInt
  split
  · simp
  · exact (showNat_digits i.natAbs).1.1

/-! ### mapE -/

theorem mapE_ok {α β : Type} {f : α → Except PyErr β} {l : List α} {r : List β} :
    mapE f l = .ok r ↔ l.length = r.length ∧ ∀ (n : Nat) (a : α) (b : β), l[n]? = some a → r[n]? = some b →
      f a = .ok b := by
  induction l generalizing r with
  | nil =>
    simp only [mapE, Except.ok.injEq]
    constructor
    · rintro rfl; simp
    · intro h; cases r with
      | nil => rfl
      | cons => simp at h
  | cons a as ih =>
    simp only [mapE]
    cases hf : f a with
    | error e =>
      simp only [reduceCtorEq, false_iff]
      rintro ⟨hl, hall⟩
      cases r with
      | nil => simp at hl
      | cons b bs =>
        have := hall 0 a b rfl rfl
        rw [hf] at this; cases this
    | ok b =>
      simp only
      cases hm : mapE f as with
      | error e =>
        simp only [reduceCtorEq, false_iff]
        rintro ⟨hl, hall⟩
        cases r with
        | nil => simp at hl
        | cons b' bs =>
          have : mapE f as = .ok bs := ih.2 ⟨by simpa using hl, fun n a b h1 h2 =>
            hall (n + 1) a b (by simpa using h1) (by simpa using h2)⟩
          rw [hm] at this; cases this
      | ok bs =>
        simp only [Except.ok.injEq]
        obtain ⟨h1, h2⟩ := ih.1 hm
        constructor
        · rintro rfl
          refine ⟨by simp [h1], fun n x y hx hy => ?_⟩
          cases n with
          | zero => simp at hx hy; subst hx; subst hy; exact hf
          | succ n => exact h2 n x y (by simpa using hx) (by simpa using hy)
        · rintro ⟨hl, hall⟩
          cases r with
          | nil => simp at hl
          | cons b' bs' =>
            have e1 := hall 0 a b' rfl rfl
            rw [hf] at e1
            cases e1
            have : mapE f as = .ok bs' := ih.2 ⟨by simpa using hl, fun n a b h1 h2 =>
              hall (n + 1) a b (by simpa using h1) (by simpa using h2)⟩
            rw [hm] at this
            cases this
            rfl

theorem mapE_map {α β γ : Type} {f : α → Except PyErr β} {g : γ → α} {r : γ → β} {l : List γ}
    (h : ∀ c ∈ l, f (g c) = .ok (r c)) : mapE f (l.map g) = .ok (l.map r) := by
  induction l with
  | nil => rfl
  | cons a t ih =>
    simp only [List.map_cons, mapE, h a List.mem_cons_self,
      ih fun c hc => h c (List.mem_cons_of_mem _ hc)]

theorem mapE_error_of_mem {α β : Type} {f : α → Except PyErr β} {l : List α} {a : α} {e : PyErr}
    (ha : a ∈ l) (he : f a = .error e) : ∃ e', mapE f l = .error e' ∧ ∃ b ∈ l, f b = .error e' := by
  induction l with
  | nil => cases ha
  | cons b t ih =>
    simp only [mapE]
    cases hb : f b with
    | error e' => exact ⟨e', rfl, b, List.mem_cons_self, hb⟩
    | ok c =>
      rcases List.mem_cons.1 ha with rfl | ha
      · rw [he] at hb; cases hb
      · obtain ⟨e', h1, b', hb', h2⟩ := ih ha
        exact ⟨e', by simp only [h1], b', List.mem_cons_of_mem _ hb', h2⟩

theorem mapE_mem {α β : Type} {f : α → Except PyErr β} {l : List α} {r : List β} (h : mapE f l = .ok r) (b : β) :
    b ∈ r ↔ ∃ a ∈ l, f a = .ok b := by
  induction l generalizing r with
  | nil => simp only [mapE, Except.ok.injEq] at h; subst h; simp
  | cons a t ih =>
    simp only [mapE] at h
    cases hf : f a with
    | error e => rw [hf] at h; cases h
    | ok c =>
      rw [hf] at h
      simp only at h
      cases hm : mapE f t with
      | error e => rw [hm] at h; cases h
      | ok cs =>
        rw [hm] at h
        cases h
        simp only [List.mem_cons, ih hm, exists_eq_or_imp, hf, Except.ok.injEq]
        constructor
        · rintro (rfl | h)
          · exact .inl rfl
          · exact .inr h
        · rintro (rfl | h)
          · exact .inl rfl
          · exact .inr h

theorem mapE_exists {α β : Type} {f : α → Except PyErr β} {l : List α} :
    (∃ r, mapE f l = .ok r) ↔ ∀ a ∈ l, ∃ b, f a = .ok b := by
  induction l with
  | nil => simp [mapE]
  | cons a t ih =>
    simp only [mapE, List.forall_mem_cons, ← ih]
    cases hf : f a with
    | error e => simp
    | ok c =>
      cases hm : mapE f t with
      | error e => simp
      | ok cs => simp

end SpiNN
