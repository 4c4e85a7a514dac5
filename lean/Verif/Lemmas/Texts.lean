import Verif.Model.Texts
import Verif.Lemmas.Describe
import Verif.Lemmas.Routing

/-! # Lemmas on the texts of objects: when they can be read back -/

namespace SpiNN
open Spec

/-- a text that does not go on with a number -/
def Stop (s : PyStr) : Prop := ∃ c u, s = c :: u ∧ c ≠ '-' ∧ isDig c = false

theorem Stop.append {s : PyStr} (h : Stop s) (t : PyStr) : Stop (s ++ t) := by
  obtain ⟨c, u, rfl, h1, h2⟩ := h
  exact ⟨c, u ++ t, rfl, h1, h2⟩

theorem showInt_stop_inj {a b : Int} {s t : PyStr} (hs : Stop s) (ht : Stop t)
    (h : showInt a ++ s = showInt b ++ t) : a = b ∧ s = t := by
  let f : Char → Bool := fun c => c == '-' || isDig c
  have key : ∀ i (u : PyStr), Stop u → (showInt i ++ u).takeWhile f = showInt i := by
    rintro i u ⟨c, v, rfl, h1, h2⟩
    rw [List.takeWhile_append_of_pos]
    · simp [f, h1, h2]
    · intro x hx
      rcases mem_showInt hx with rfl | hd <;> simp_all [f]
  have hab : a = b := showInt_inj (by rw [← key a s hs, h, key b t ht])
  subst hab
  exact ⟨rfl, List.append_cancel_left h⟩

theorem showInt_lit_inj {a b : Int} {lit s t : PyStr} (hl : Stop lit)
    (h : showInt a ++ (lit ++ s) = showInt b ++ (lit ++ t)) : a = b ∧ s = t := by
  obtain ⟨h1, h2⟩ := showInt_stop_inj (hl.append s) (hl.append t) h
  exact ⟨h1, List.append_cancel_left h2⟩

theorem showInt_last_inj {a b : Int} {lit : PyStr} (hl : Stop lit)
    (h : showInt a ++ lit = showInt b ++ lit) : a = b := (showInt_stop_inj hl hl h).1

/-- a text without commas, before a comma -/
theorem str_lit_inj {a b s t : PyStr} (ha : ',' ∉ a) (hb : ',' ∉ b) (h : a ++ (',' :: s) = b ++ (',' :: t)) :
    a = b ∧ s = t := by
  have key : ∀ (x u : PyStr), ',' ∉ x → (x ++ ',' :: u).takeWhile (· != ',') = x := by
    intro x u hx
    rw [List.takeWhile_append_of_pos]
    · simp
    · intro c hc
      simp only [bne_iff_ne, ne_eq]; rintro rfl; exact hx hc
  have hab : a = b := by rw [← key a s ha, h, key b t hb]
  subst hab
  have := List.append_cancel_left h
  simp only [List.cons.injEq, true_and] at this
  exact ⟨rfl, this⟩

/-- the last number of a text -/
theorem showInt_right_inj {a b : Int} {s t : PyStr} {c : Char} (hc : c ≠ '-' ∧ isDig c = false)
    (h : s ++ (c :: showInt a) = t ++ (c :: showInt b)) : s = t ∧ a = b := by
  let f : Char → Bool := fun c => c == '-' || isDig c
  have key : ∀ i (u : PyStr), ((u ++ (c :: showInt i)).reverse).takeWhile f = (showInt i).reverse := by
    intro i u
    rw [List.reverse_append, List.reverse_cons, List.append_assoc, List.takeWhile_append_of_pos]
    · simp [f, hc.1, hc.2]
    · intro x hx
      rcases mem_showInt (List.mem_reverse.1 hx) with rfl | hd <;> simp_all [f]
  have hab : a = b := showInt_inj (List.reverse_inj.1 (by rw [← key a s, h, key b t]))
  subst hab
  exact ⟨List.append_cancel_right h, rfl⟩

theorem joinStr_eq (sep : PyStr) (l : List PyStr) : joinStr sep l = sep.intercalate l := by
  induction l with
  | nil => rfl
  | cons a l ih =>
    cases l with
    | nil => simp [joinStr]
    | cons b l =>
      rw [joinStr, ih]
      simp [List.intercalate]

/-- a list of texts between commas can be read back, if each member can and the end is not mistaken for a member -/
theorem joinStr_inj {α : Type} (f : α → PyStr) {sc ec : Char} {sep e : PyStr} (hne : sc ≠ ec)
    (hf : ∀ a b (c d : Char) u v, (c = sc ∨ c = ec) → (d = sc ∨ d = ec) → f a ++ c :: u = f b ++ d :: v →
      a = b ∧ c :: u = d :: v)
    (hend : ∀ a u v, f a ++ u ≠ ec :: v) (l l' : List α) (s t : PyStr)
    (h : joinStr (sc :: sep) (l.map f) ++ (ec :: e ++ s) = joinStr (sc :: sep) (l'.map f) ++ (ec :: e ++ t)) :
    l = l' ∧ s = t := by
  induction l generalizing l' with
  | nil =>
    cases l' with
    | nil => exact ⟨rfl, by simpa [joinStr] using h⟩
    | cons b l' =>
      cases l' with
      | nil => exact absurd h.symm (hend b _ _)
      | cons b' l' =>
        simp only [List.map_cons, List.map_nil, joinStr, List.append_assoc, List.nil_append] at h
        exact absurd h.symm (hend b _ _)
  | cons a l ih =>
    cases l' with
    | nil =>
      cases l with
      | nil => exact absurd h (hend a _ _)
      | cons a' l =>
        simp only [List.map_cons, List.map_nil, joinStr, List.append_assoc, List.nil_append] at h
        exact absurd h (hend a _ _)
    | cons b l' =>
      cases l with
      | nil =>
        cases l' with
        | nil =>
          simp only [List.map_cons, List.map_nil, joinStr] at h
          obtain ⟨rfl, h2⟩ := hf a b ec ec _ _ (.inr rfl) (.inr rfl) h
          exact ⟨rfl, by simpa using h2⟩
        | cons b' l' =>
          simp only [List.map_cons, List.map_nil, joinStr, List.append_assoc] at h
          obtain ⟨-, h2⟩ := hf a b ec sc _ _ (.inr rfl) (.inl rfl) h
          simp only [List.cons.injEq] at h2
          exact absurd h2.1.symm hne
      | cons a' l =>
        cases l' with
        | nil =>
          simp only [List.map_cons, List.map_nil, joinStr, List.append_assoc] at h
          obtain ⟨-, h2⟩ := hf a b sc ec _ _ (.inl rfl) (.inr rfl) h
          simp only [List.cons.injEq] at h2
          exact absurd h2.1 hne
        | cons b' l' =>
          simp only [List.map_cons, joinStr, List.append_assoc] at h
          obtain ⟨rfl, h2⟩ := hf a b sc sc _ _ (.inl rfl) (.inl rfl) h
          simp only [List.cons_append, List.cons.injEq, true_and] at h2
          have h3 := List.append_cancel_left h2
          have := ih (b' :: l') h3
          exact ⟨by rw [this.1], this.2⟩

theorem showInts_inj (l l' : List Int) (s t : PyStr)
    (h : joinStr ", ".toList (l.map showInt) ++ ("}".toList ++ s) =
      joinStr ", ".toList (l'.map showInt) ++ ("}".toList ++ t)) : l = l' ∧ s = t := by
  refine joinStr_inj (sc := ',') (ec := '}') (sep := [' ']) (e := []) showInt (by decide) ?_ ?_ l l' s t h
  · intro a b c d u v hc hd h
    refine showInt_stop_inj ⟨c, u, rfl, ?_⟩ ⟨d, v, rfl, ?_⟩ h
    · rcases hc with rfl | rfl <;> decide
    · rcases hd with rfl | rfl <;> decide
  · intro a u v h
    cases hs : showInt a with
    | nil => exact showInt_ne_nil a hs
    | cons c r =>
      rw [hs] at h
      simp only [List.cons_append, List.cons.injEq] at h
      have : c ∈ showInt a := by rw [hs]; simp
      rw [h.1] at this
      rcases mem_showInt this with h | h
      · exact absurd h (by decide)
      · exact absurd h (by decide)

/-! ### hexadecimal numbers -/

/-- the value of a hexadecimal digit in upper case -/
def hexDigit (c : Char) : Nat := if isDig c then c.toNat - 48 else c.toNat - 55

/-- the value of hexadecimal digits -/
def hexVal (s : PyStr) : Nat := s.foldl (fun n c => 16 * n + hexDigit c) 0

theorem hexChar_spec {n : Nat} (h : n < 16) : hexDigit (hexChar n) = n ∧ hexChar n ∈ "0123456789ABCDEF".toList := by
  have : ∀ n : Fin 16, hexDigit (hexChar n) = n ∧ hexChar n ∈ "0123456789ABCDEF".toList := by decide +kernel
  exact this ⟨n, h⟩

theorem showHex_spec (n : Nat) : hexVal (showHex n) = n ∧ ∀ c ∈ showHex n, c ∈ "0123456789ABCDEF".toList := by
  induction n using Nat.strongRecOn with
  | ind n ih =>
    rw [showHex]
    split
    · rename_i h
      obtain ⟨h1, h2⟩ := hexChar_spec h
      refine ⟨by simp [hexVal, h1], fun c hc => ?_⟩
      rw [List.mem_singleton] at hc
      rwa [hc]
    · rename_i h
      obtain ⟨h1, h2⟩ := hexChar_spec (n := n % 16) (by omega)
      obtain ⟨h3, h4⟩ := ih (n / 16) (by omega)
      refine ⟨?_, fun c hc => ?_⟩
      · unfold hexVal at h3 ⊢
        rw [List.foldl_append, h3]
        simp only [List.foldl_cons, List.foldl_nil, h1]
        omega
      · rcases List.mem_append.1 hc with hc | hc
        · exact h4 c hc
        · rw [List.mem_singleton] at hc
          rwa [hc]

theorem showHex_length (n k : Nat) (hk : 0 < k) (h : n < 16 ^ k) : (showHex n).length ≤ k := by
  induction k generalizing n with
  | zero => omega
  | succ k ih =>
    rw [showHex]
    split
    · simp
    · rename_i hn
      rw [List.length_append, List.length_singleton]
      have : 0 < k := by
        rcases Nat.eq_zero_or_pos k with rfl | h'
        · simp at h; omega
        · exact h'
      have := ih (n / 16) this (by
        rw [Nat.div_lt_iff_lt_mul (by omega)]
        rwa [Nat.pow_succ] at h)
      omega

theorem showHex8_spec (n : Nat) : hexVal (showHex8 n) = n ∧ (∀ c ∈ showHex8 n, c ∈ "0123456789ABCDEF".toList) ∧
    8 ≤ (showHex8 n).length ∧ (n < 2 ^ 32 → (showHex8 n).length = 8) := by
  obtain ⟨h1, h2⟩ := showHex_spec n
  have hz : ∀ k, hexVal (List.replicate k '0' ++ showHex n) = n := by
    intro k
    induction k with
    | zero => simpa using h1
    | succ k ih =>
      rw [List.replicate_succ, List.cons_append]
      unfold hexVal at ih ⊢
      rw [List.foldl_cons]
      exact ih
  refine ⟨hz _, fun c hc => ?_, ?_, fun hn => ?_⟩
  · rcases List.mem_append.1 hc with hc | hc
    · rw [(List.mem_replicate.1 hc).2]; decide
    · exact h2 c hc
  · unfold showHex8; simp; omega
  · have := showHex_length n 8 (by omega) (by simpa using hn)
    unfold showHex8; simp; omega

theorem showHex8_lit_inj {a b : Nat} {s t : PyStr} (h : showHex8 a ++ (':' :: s) = showHex8 b ++ (':' :: t)) :
    a = b ∧ s = t := by
  have key : ∀ (n : Nat) (u : PyStr), (showHex8 n ++ ':' :: u).takeWhile (· != ':') = showHex8 n := by
    intro n u
    rw [List.takeWhile_append_of_pos]
    · simp
    · intro c hc
      have := (showHex8_spec n).2.1 c hc
      simp only [bne_iff_ne, ne_eq]; rintro rfl; exact absurd this (by decide)
  have hab : a = b := by
    rw [← (showHex8_spec a).1, ← (showHex8_spec b).1, ← key a s, h, key b t]
  subst hab
  have := List.append_cancel_left h
  simp only [List.cons.injEq, true_and] at this
  exact ⟨rfl, this⟩

end SpiNN
