import Verif.Lemmas.Str
import Verif.Spec.Settings

/-! # Lemmas: the grammar of the down settings -/

namespace SpiNN
open Spec

theorem char_of_nat {c d : Char} (h : c.toNat = d.toNat) : c = d :=
  Char.ext (UInt32.toNat_inj.1 h)

theorem isSpace_iff (c : Char) : isSpace c = true ↔
    c ∈ [' ', '\t', '\n', '\x0b', '\x0c', '\r', '\x1c', '\x1d', '\x1e', '\x1f'] := by
  constructor
  · intro h
    simp only [isSpace, Bool.or_eq_true, Bool.and_eq_true, decide_eq_true_eq] at h
    have : c.toNat = 32 ∨ c.toNat = 9 ∨ c.toNat = 10 ∨ c.toNat = 11 ∨ c.toNat = 12 ∨ c.toNat = 13 ∨ c.toNat = 28 ∨
        c.toNat = 29 ∨ c.toNat = 30 ∨ c.toNat = 31 := by
      rcases h with (rfl | h) | h
      · exact .inl rfl
      · omega
      · omega
    rcases this with h | h | h | h | h | h | h | h | h | h
    · rw [char_of_nat (d := ' ') h]; decide
    · rw [char_of_nat (d := '\t') h]; decide
    · rw [char_of_nat (d := '\n') h]; decide
    · rw [char_of_nat (d := '\x0b') h]; decide
    · rw [char_of_nat (d := '\x0c') h]; decide
    · rw [char_of_nat (d := '\r') h]; decide
    · rw [char_of_nat (d := '\x1c') h]; decide
    · rw [char_of_nat (d := '\x1d') h]; decide
    · rw [char_of_nat (d := '\x1e') h]; decide
    · rw [char_of_nat (d := '\x1f') h]; decide
  · intro h
    simp only [List.mem_cons, List.not_mem_nil, or_false] at h
    rcases h with rfl | rfl | rfl | rfl | rfl | rfl | rfl | rfl | rfl | rfl <;> decide

theorem blank_iff (s : PyStr) : Blank s ↔ ∀ c ∈ s, isSpace c = true := by
  unfold Blank; simp only [isSpace_iff]

/-- the value of digits after a number -/
def digitsFrom (acc : Nat) (s : PyStr) : Nat := s.foldl (fun n c => 10 * n + (c.toNat - '0'.toNat)) acc

theorem join_cons_cons (sep c : Char) (s : PyStr) (t : List PyStr) :
    joinWith sep ((c :: s) :: t) = c :: joinWith sep (s :: t) := by
  cases t <;> simp [joinWith]

/-- the reader of digits, after a digit and at the start of a group -/
theorem parseDigits_iff (s : PyStr) : ∀ (acc n : Nat),
    (parseDigits true acc s = some n ↔ ∃ (d : PyStr) (gs : List PyStr), (∀ c ∈ d, isDig c = true) ∧
      (∀ g ∈ gs, Digits g) ∧ s = joinWith '_' (d :: gs) ∧ n = digitsFrom acc (d ++ gs.flatten)) ∧
    (parseDigits false acc s = some n ↔ ∃ (d : PyStr) (gs : List PyStr), d ≠ [] ∧ (∀ c ∈ d, isDig c = true) ∧
      (∀ g ∈ gs, Digits g) ∧ s = joinWith '_' (d :: gs) ∧ n = digitsFrom acc (d ++ gs.flatten)) := by
  induction s with
  | nil =>
    intro acc n
    constructor
    · simp only [parseDigits, if_true, Option.some.injEq]
      constructor
      · rintro rfl; exact ⟨[], [], by simp, by simp, by simp [joinWith], by simp [digitsFrom]⟩
      · rintro ⟨d, gs, -, -, h3, h4⟩
        cases gs with
        | nil => simp [joinWith] at h3; subst h3; simpa [digitsFrom] using h4.symm
        | cons g gs => exfalso; simp [joinWith] at h3
    · simp only [parseDigits, Bool.false_eq_true, if_false, false_iff, reduceCtorEq]
      rintro ⟨d, gs, h1, -, -, h3, -⟩
      cases gs with
      | nil => simp [joinWith] at h3; exact h1 h3
      | cons g gs => simp [joinWith] at h3
  | cons c cs ih =>
    intro acc n
    by_cases hc : isDig c = true
    · have h0 : ∀ prev, parseDigits prev acc (c :: cs) = parseDigits true (acc * 10 + digVal c) cs := by
        intro prev; simp [parseDigits, hc]
      have hv : ∀ t, digitsFrom (acc * 10 + digVal c) t = digitsFrom acc (c :: t) := by
        intro t
        simp only [digitsFrom, List.foldl_cons, digVal]
        congr 1
        have : '0'.toNat = 48 := rfl
        omega
      have key : parseDigits true (acc * 10 + digVal c) cs = some n ↔ ∃ (d : PyStr) (gs : List PyStr), d ≠ [] ∧
          (∀ c ∈ d, isDig c = true) ∧ (∀ g ∈ gs, Digits g) ∧ c :: cs = joinWith '_' (d :: gs) ∧
          n = digitsFrom acc (d ++ gs.flatten) := by
        rw [(ih _ _).1]
        constructor
        · rintro ⟨d, gs, h1, h2, h3, h4⟩
          refine ⟨c :: d, gs, by simp, ?_, h2, ?_, ?_⟩
          · intro a ha
            rcases List.mem_cons.1 ha with rfl | ha
            · exact hc
            · exact h1 a ha
          · rw [join_cons_cons, h3]
          · rw [h4, hv]; simp
        · rintro ⟨d, gs, h0, h1, h2, h3, h4⟩
          cases d with
          | nil => exact absurd rfl h0
          | cons e d =>
            rw [join_cons_cons] at h3
            injection h3 with h5 h6
            subst h5
            exact ⟨d, gs, fun a ha => h1 a (List.mem_cons_of_mem _ ha), h2, h6, by rw [hv]; simpa using h4⟩
      rw [h0, h0, key]
      refine ⟨⟨fun ⟨d, gs, _, h⟩ => ⟨d, gs, h⟩, ?_⟩, Iff.rfl⟩
      rintro ⟨d, gs, h1, h2, h3, h4⟩
      refine ⟨d, gs, ?_, h1, h2, h3, h4⟩
      rintro rfl
      cases gs with
      | nil => simp [joinWith] at h3
      | cons g gs =>
        simp only [joinWith, List.nil_append, List.cons.injEq] at h3
        rw [h3.1] at hc
        exact absurd hc (by decide)
    · constructor
      · by_cases hu : c = '_'
        · subst hu
          have : parseDigits true acc ('_' :: cs) = parseDigits false acc cs := by
            simp [parseDigits, show isDig '_' = false from by decide]
          rw [this, (ih _ _).2]
          constructor
          · rintro ⟨d, gs, h0, h1, h2, h3, h4⟩
            refine ⟨[], d :: gs, by simp, ?_, by simp [joinWith, h3], by simpa using h4⟩
            intro g hg
            rcases List.mem_cons.1 hg with rfl | hg
            · exact (digits_iff _).2 ⟨h0, h1⟩
            · exact h2 g hg
          · rintro ⟨d, gs, h1, h2, h3, h4⟩
            cases d with
            | cons e d =>
              rw [join_cons_cons] at h3
              injection h3 with h5 h6
              exact absurd (h1 e (by simp)) (by rw [← h5]; decide)
            | nil => cases gs with
              | nil => simp [joinWith] at h3
              | cons g gs =>
                simp only [joinWith, List.nil_append, List.cons.injEq, true_and] at h3
                have hg := (digits_iff _).1 (h2 g (by simp))
                exact ⟨g, gs, hg.1, hg.2, fun g' hg' => h2 g' (by simp [hg']), h3, by simpa using h4⟩
        · have : parseDigits true acc (c :: cs) = none := by simp [parseDigits, hc, hu]
          rw [this]
          simp only [reduceCtorEq, false_iff]
          rintro ⟨d, gs, h1, h2, h3, h4⟩
          cases d with
          | cons e d =>
            rw [join_cons_cons] at h3
            injection h3 with h5 h6
            exact hc (h5 ▸ h1 e (by simp))
          | nil => cases gs with
            | nil => simp [joinWith] at h3
            | cons g gs =>
              simp only [joinWith, List.nil_append, List.cons.injEq] at h3
              exact hu h3.1
      · have : parseDigits false acc (c :: cs) = none := by simp [parseDigits, hc]
        rw [this]
        simp only [reduceCtorEq, false_iff]
        rintro ⟨d, gs, h0, h1, h2, h3, h4⟩
        cases d with
        | nil => exact h0 rfl
        | cons e d =>
          rw [join_cons_cons] at h3
          injection h3 with h5 h6
          exact hc (h5 ▸ h1 e (by simp))

theorem natText_iff (s : PyStr) (n : Nat) : NatText s n ↔ parseDigits false 0 s = some n := by
  rw [(parseDigits_iff s 0 n).2]
  unfold NatText
  constructor
  · rintro ⟨groups, h1, h2, h3, h4⟩
    cases groups with
    | nil => exact absurd rfl h1
    | cons d gs =>
      have hd := (digits_iff _).1 (h2 d (by simp))
      exact ⟨d, gs, hd.1, hd.2, fun g hg => h2 g (by simp [hg]), h3, by simpa [digitsVal, digitsFrom] using h4⟩
  · rintro ⟨d, gs, h0, h1, h2, h3, h4⟩
    refine ⟨d :: gs, by simp, ?_, h3, by simpa [digitsVal, digitsFrom] using h4⟩
    intro g hg
    rcases List.mem_cons.1 hg with rfl | hg
    · exact (digits_iff _).2 ⟨h0, h1⟩
    · exact h2 g hg

/-- the characters of a number: digits and underscores, a digit at both ends -/
theorem natText_chars {s : PyStr} {n : Nat} (h : NatText s n) :
    (∀ c ∈ s, c = '_' ∨ isDig c = true) ∧ ∃ c t, s = c :: t ∧ isDig c = true := by
  obtain ⟨groups, h1, h2, h3, -⟩ := h
  constructor
  · intro c hc
    rw [h3] at hc
    rcases mem_join hc with h | ⟨g, hg, hcg⟩
    · exact .inl h
    · exact .inr ((h2 g hg).all c hcg)
  · cases groups with
    | nil => exact absurd rfl h1
    | cons d gs =>
      have hd := h2 d (by simp)
      cases d with
      | nil => exact absurd rfl hd.1
      | cons e d => exact ⟨e, joinWith '_' (d :: gs), by rw [h3, join_cons_cons], hd.all e (by simp)⟩

theorem not_space_of {c : Char} (h : c = '_' ∨ isDig c = true) : isSpace c = false := by
  rcases h with rfl | h
  · decide
  · exact isDig_not_space h

theorem dropWhile_prefix {α : Type} (p : α → Bool) (l r : List α) (h : ∀ a ∈ l, p a = true) :
    (l ++ r).dropWhile p = r.dropWhile p := by
  induction l with
  | nil => rfl
  | cons a t ih =>
    simp only [List.cons_append, List.dropWhile_cons, h a (by simp), if_true]
    exact ih fun b hb => h b (by simp [hb])

theorem exists_dropWhile {α : Type} (p : α → Bool) (l : List α) :
    ∃ t, l = t ++ l.dropWhile p ∧ ∀ a ∈ t, p a = true := by
  induction l with
  | nil => exact ⟨[], by simp, by simp⟩
  | cons a t ih =>
    by_cases h : p a = true
    · obtain ⟨u, h1, h2⟩ := ih
      refine ⟨a :: u, ?_, ?_⟩
      · rw [List.dropWhile_cons, if_pos h]; simpa using h1
      · intro b hb
        rcases List.mem_cons.1 hb with rfl | hb
        · exact h
        · exact h2 b hb
    · exact ⟨[], by rw [List.dropWhile_cons, if_neg h]; rfl, by simp⟩

/-- stripping takes away white space only -/
theorem strip_parts (s : PyStr) : ∃ before after, Blank before ∧ Blank after ∧ s = before ++ pyStrip s ++ after := by
  obtain ⟨t, h1, h2⟩ := exists_dropWhile isSpace s
  obtain ⟨u, h3, h4⟩ := exists_dropWhile isSpace (s.dropWhile isSpace).reverse
  refine ⟨t, u.reverse, (blank_iff _).2 h2, (blank_iff _).2 fun c hc => h4 c (List.mem_reverse.1 hc), ?_⟩
  have h5 := congrArg List.reverse h3
  rw [List.reverse_reverse, List.reverse_append] at h5
  unfold pyStrip
  rw [List.append_assoc, ← h5]
  exact h1

/-- stripping takes away all the white space around what has none -/
theorem strip_of_parts {before body after : PyStr} (hb : Blank before) (ha : Blank after)
    (h : ∀ c ∈ body, isSpace c = false) : pyStrip (before ++ body ++ after) = body := by
  have ha' := (blank_iff _).1 ha
  have hb' := (blank_iff _).1 hb
  unfold pyStrip
  rw [List.append_assoc, dropWhile_prefix _ _ _ hb']
  cases body with
  | nil =>
    have : ∀ l : PyStr, (∀ c ∈ l, isSpace c = true) → l.dropWhile isSpace = [] := by
      intro l hl
      have := dropWhile_prefix isSpace l [] hl
      simpa using this
    simp [this _ ha']
  | cons c t =>
    rw [List.cons_append, List.dropWhile_cons, if_neg (by simp [h c (by simp)]), ← List.cons_append,
      List.reverse_append, dropWhile_prefix _ _ _ (fun a h => ha' a (List.mem_reverse.1 h)),
      dropWhile_all_false _ _ (fun a hm => h a (List.mem_reverse.1 hm)), List.reverse_reverse]

/-- Python's `int` reads exactly the texts of integers -/
theorem pyInt_iff (s : PyStr) (i : Int) : pyInt s = .ok i ↔ IntText s i := by
  constructor
  · intro h
    obtain ⟨before, after, h1, h2, h3⟩ := strip_parts s
    unfold pyInt at h
    split at h
    · rename_i cs hcs
      split at h
      · rename_i n hn
        rw [hcs] at h3
        exact ⟨before, cs, after, n, h1, h2, (natText_iff _ _).2 hn, .inr (.inr ⟨by simpa using h3, by
          simpa using h.symm⟩)⟩
      · cases h
    · rename_i cs hcs
      split at h
      · rename_i n hn
        rw [hcs] at h3
        exact ⟨before, cs, after, n, h1, h2, (natText_iff _ _).2 hn, .inr (.inl ⟨by simpa using h3, by
          simpa using h.symm⟩)⟩
      · cases h
    · split at h
      · rename_i n hn
        exact ⟨before, pyStrip s, after, n, h1, h2, (natText_iff _ _).2 hn, .inl ⟨by simpa using h3, by
          simpa using h.symm⟩⟩
      · cases h
  · rintro ⟨before, body, after, n, h1, h2, h3, h4⟩
    have hn := (natText_iff _ _).1 h3
    obtain ⟨hc, c, t, hct, hcd⟩ := natText_chars h3
    unfold pyInt
    rcases h4 with ⟨rfl, rfl⟩ | ⟨rfl, rfl⟩ | ⟨rfl, rfl⟩
    · rw [strip_of_parts h1 h2 fun a ha => not_space_of (hc a ha)]
      have hne := isDig_ne hcd
      subst hct
      split
      · rename_i cs hcs
        injection hcs with h5 h6; exact absurd h5 hne.1
      · rename_i cs hcs
        injection hcs with h5 h6; exact absurd h5 hne.2.1
      · rw [hn]
    · rw [strip_of_parts h1 h2 (by
        intro a ha
        rcases List.mem_cons.1 ha with rfl | ha
        · decide
        · exact not_space_of (hc a ha))]
      simp only [hn]
    · rw [strip_of_parts h1 h2 (by
        intro a ha
        rcases List.mem_cons.1 ha with rfl | ha
        · decide
        · exact not_space_of (hc a ha))]
      simp only [hn]

theorem pyInt_error {s : PyStr} {e : PyErr} (h : pyInt s = .error e) : e = .valueError := by
  unfold pyInt at h
  split at h <;> split at h <;> simp_all

/-- the characters of an integer are no separators -/
theorem intText_plain {s : PyStr} {i : Int} (h : IntText s i) : Plain s := by
  obtain ⟨before, body, after, n, h1, h2, h3, h4⟩ := h
  have hc := (natText_chars h3).1
  have key : ∀ c : Char, c = ',' ∨ c = ':' → c ∉ before ∧ c ∉ body ∧ c ∉ after ∧ c ≠ '+' ∧ c ≠ '-' := by
    rintro c hcc
    refine ⟨fun h => ?_, fun h => ?_, fun h => ?_, ?_, ?_⟩
    · have := (blank_iff _).1 h1 c h
      rcases hcc with rfl | rfl <;> exact absurd this (by decide)
    · have := hc c h
      rcases hcc with rfl | rfl <;> exact absurd this (by decide)
    · have := (blank_iff _).1 h2 c h
      rcases hcc with rfl | rfl <;> exact absurd this (by decide)
    · rcases hcc with rfl | rfl <;> decide
    · rcases hcc with rfl | rfl <;> decide
  have k1 := key ',' (.inl rfl)
  have k2 := key ':' (.inr rfl)
  rcases h4 with ⟨rfl, -⟩ | ⟨rfl, -⟩ | ⟨rfl, -⟩ <;> constructor <;>
    simp [k1, k2]

/-- a split puts the text back together -/
theorem join_splitOn (sep : Char) (s : PyStr) : joinWith sep (splitOn sep s) = s ∧ ∀ t ∈ splitOn sep s, sep ∉ t := by
  induction s with
  | nil => simp [splitOn, joinWith]
  | cons c cs ih =>
    simp only [splitOn]
    by_cases hc : c = sep
    · subst hc
      rw [if_pos rfl]
      constructor
      · cases h : splitOn c cs with
        | nil => exact absurd h (splitOn_ne_nil _ _)
        | cons a t => rw [h] at ih; simp [joinWith, ih.1]
      · intro t ht
        rcases List.mem_cons.1 ht with rfl | ht
        · simp
        · exact ih.2 t ht
    · rw [if_neg hc]
      cases h : splitOn sep cs with
      | nil => exact absurd h (splitOn_ne_nil _ _)
      | cons a t =>
        rw [h] at ih
        refine ⟨by rw [join_cons_cons, ih.1], ?_⟩
        intro u hu
        rcases List.mem_cons.1 hu with rfl | hu
        · intro hm
          rcases List.mem_cons.1 hm with rfl | hm
          · exact hc rfl
          · exact ih.2 a (by simp) hm
        · exact ih.2 u (by simp [hu])

/-- the list the items of a setting stand for, by the splitting -/
theorem written_iff {α : Type} {f : PyStr → Except PyErr α} {Item : PyStr → α → Prop}
    (hp : ∀ t c, Item t c → ':' ∉ t) (hf : ∀ t c, ':' ∉ t → (f t = .ok c ↔ Item t c)) (s : PyStr) (cs : List α) :
    mapE f (splitOn ':' s) = .ok cs ↔ Written Item s cs := by
  have key : ∀ (ts : List PyStr), ts ≠ [] → (∀ t ∈ ts, ':' ∉ t) → ∀ cs,
      mapE f ts = .ok cs → Written Item (joinWith ':' ts) cs := by
    intro ts
    induction ts with
    | nil => intro h; exact absurd rfl h
    | cons t ts ih =>
      intro _ hts cs h
      simp only [mapE] at h
      split at h
      · cases h
      · rename_i c hc
        split at h
        · cases h
        · rename_i bs hbs
          injection h with h
          subst h
          have ht := (hf t c (hts t (by simp))).1 hc
          cases ts with
          | nil => simp only [mapE, Except.ok.injEq] at hbs; subst hbs; exact .last ht
          | cons u us => exact .more ht (ih (by simp) (fun v hv => hts v (by simp [hv])) bs hbs)
  constructor
  · intro h
    have hj := join_splitOn ':' s
    have := key _ (splitOn_ne_nil _ _) hj.2 cs h
    rwa [hj.1] at this
  · intro h
    induction h with
    | last hi =>
      rw [splitOn_of_not_mem _ _ (hp _ _ hi)]
      simp [mapE, (hf _ _ (hp _ _ hi)).2 hi]
    | more hi _ ih =>
      rw [splitOn_append _ _ _ (hp _ _ hi)]
      simp [mapE, (hf _ _ (hp _ _ hi)).2 hi, ih]

end SpiNN
