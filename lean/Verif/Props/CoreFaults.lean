import Verif.Spec.CoreFaults
import Verif.Props.Refusals

/-!
# With which exception a text of `down_cores` is refused (C102)
-/

namespace SpiNN.Props
open SpiNN Spec

theorem matchSingle_minus (n : Nat) {d : PyStr} (hd : Digits d) : matchSingle (List.replicate n '-' ++ d) = true := by
  induction n with
  | zero => exact (matchSingle_digits hd).1
  | succ n ih =>
    rw [← ih]
    simp [matchSingle, List.replicate_succ]

theorem parseCores_fault (k : VKind) (s : PyStr) (e : PyErr) : k.parseCores s = .error e ↔ CoreFault k s e := by
  have hback : ∀ {s e}, CoreFault k s e → k.parseCores s = .error e := by
    intro s e h
    cases h with
    | @minus n d hn hd =>
      obtain ⟨n, rfl⟩ : ∃ m, n = m + 2 := ⟨n - 2, by omega⟩
      unfold VKind.parseCores
      rw [if_pos (matchSingle_minus _ hd), pyInt_two_minus n hd]
    | @quad x y p hsp hx hy hp hno =>
      obtain ⟨h1, h2, h3⟩ := quad_digits hx hy hp
      have hk : k = .v201 ∨ k = .v248 := by cases k <;> simp_all [VKind.isSpin1]
      have hq : k.qxQyQpToId (digitsVal [x]) (digitsVal [y]) (digitsVal [p]) = .error .keyError := by
        cases hq : k.qxQyQpToId (digitsVal [x]) (digitsVal [y]) (digitsVal [p]) with
        | ok i => exact absurd ⟨i, (C56_inverse k hk _ _ _ _).2 hq⟩ hno
        | error e =>
          unfold VKind.qxQyQpToId PDict.getE at hq
          rw [if_neg (by simp [hsp])] at hq
          split at hq
          · cases hq
          · cases hq; rfl
      unfold VKind.parseCores
      simp only [h1, h2, VKind.versionParseCores, hsp, h3, pyInt_digits hx, pyInt_digits hy, pyInt_digits hp, hq,
        Bool.false_eq_true, if_false]
    | other h1 h2 h3 =>
      rcases C54_refusal k s h1 with h | ⟨h, -⟩ | ⟨-, h4, h5⟩
      · exact h
      · exfalso
        unfold VKind.parseCores at h
        split at h
        · rename_i hm
          obtain ⟨n, hn⟩ := dropWhile_minus s
          have hd : Digits (s.dropWhile (· = '-')) := by
            simp only [matchSingle, Bool.and_eq_true, Bool.not_eq_true', List.isEmpty_eq_false_iff,
              List.all_eq_true] at hm
            exact (digits_iff _).2 hm
          generalize s.dropWhile (· = '-') = d at hn hd
          subst hn
          match n with
          | 0 => exact h1 ⟨_, .nonneg hd⟩
          | 1 => exact h1 ⟨_, .neg hd⟩
          | n + 2 => exact h2 ⟨n + 2, d, by omega, hd, rfl⟩
        · split at h
          · rename_i a b hr
            obtain ⟨ha, hb, rfl⟩ := matchRange_some hr
            simp only [pyInt_digits ha, pyInt_digits hb] at h
            cases h
          · unfold VKind.versionParseCores at h
            split at h
            · cases h
            · split at h
              · cases h
              · rename_i hsp _ a b c hq
                obtain ⟨x, y, p, hx, hy, hp, rfl, rfl, rfl, rfl⟩ := matchQuad_some hq
                exact h3 ⟨by simpa using hsp, x, y, p, hx, hy, hp, rfl⟩
      · exact absurd ⟨h4, h5⟩ h3
  refine ⟨fun h => ?_, hback⟩
  have hno : ¬ ∃ l, CoreString k s l := by
    rintro ⟨l, hl⟩
    rw [(C54_core_strings k s l).2 hl] at h
    cases h
  by_cases h1 : ∃ n d, 2 ≤ n ∧ Digits d ∧ s = List.replicate n '-' ++ d
  · obtain ⟨n, d, hn, hd, rfl⟩ := h1
    have hf : CoreFault k _ _ := .minus hn hd
    rw [hback hf] at h
    cases h
    exact hf
  · by_cases h2 : k.isSpin1 = false ∧ ∃ x y p, Digits [x] ∧ Digits [y] ∧ Digits [p] ∧ s = [x, '.', y, '.', p]
    · obtain ⟨hsp, x, y, p, hx, hy, hp, rfl⟩ := h2
      have hf : CoreFault k _ _ := .quad hsp hx hy hp (fun ⟨i, hi⟩ => hno ⟨[i], .quad hx hy hp hi⟩)
      rw [hback hf] at h
      cases h
      exact hf
    · have hf : CoreFault k _ _ := .other hno h1 h2
      rw [hback hf] at h
      cases h
      exact hf

theorem mem_joinWith_of_mem {sep c : Char} {l : List PyStr} {u : PyStr} (hu : u ∈ l) (hc : c ∈ u) :
    c ∈ joinWith sep l := by
  induction l with
  | nil => cases hu
  | cons a l ih =>
    cases l with
    | nil =>
      rw [List.mem_singleton] at hu
      exact hu ▸ hc
    | cons b l =>
      simp only [joinWith, List.mem_append, List.mem_cons]
      rcases List.mem_cons.1 hu with rfl | hu
      · exact .inl hc
      · exact .inr (.inr (ih hu))

theorem length_splitOn (c : Char) (s : PyStr) : (splitOn c s).length = s.count c + 1 := by
  induction s with
  | nil => rfl
  | cons d s ih =>
    unfold splitOn
    by_cases h : d = c
    · subst h; simp [ih]
    · rw [if_neg h, List.count_cons_of_ne (by exact fun e => h e)]
      cases hs : splitOn c s with
      | nil => rw [hs] at ih; simp at ih
      | cons a t => rw [hs] at ih; simpa using ih

theorem ofStrings_error (a b : PyStr) (ip : Option PyStr) (ps : List Int) (e : PyErr) :
    mapE (IgnoreCore.ofStrings a b ip) ps = .error e ↔
      e = .valueError ∧ ps ≠ [] ∧ ((¬ ∃ x, IntText a x) ∨ ¬ ∃ y, IntText b y) := by
  have hia : (¬ ∃ x, IntText a x) ↔ ∃ e, pyInt a = .error e := by
    simp only [← pyInt_iff]
    cases pyInt a <;> simp
  have hib : (¬ ∃ x, IntText b x) ↔ ∃ e, pyInt b = .error e := by
    simp only [← pyInt_iff]
    cases pyInt b <;> simp
  rw [hia, hib]
  cases ps with
  | nil => simp [mapE]
  | cons p ps =>
    cases ha : pyInt a with
    | error e' =>
      have := SpiNN.pyInt_error ha
      subst this
      simp [mapE, IgnoreCore.ofStrings, ha, eq_comm]
    | ok x => cases hb : pyInt b with
      | error e' =>
        have := SpiNN.pyInt_error hb
        subst this
        simp [mapE, IgnoreCore.ofStrings, ha, hb, eq_comm]
      | ok y =>
        have : mapE (IgnoreCore.ofStrings a b ip) (List.map id (p :: ps)) =
            .ok ((p :: ps).map (fun p => ⟨x, y, p, ip⟩)) := mapE_map (fun c _ => by
          simp [IgnoreCore.ofStrings, ha, hb])
        rw [List.map_id] at this
        rw [this]
        simp

theorem itemFault_iff (k : VKind) (t : PyStr) (e : PyErr) (ht : ':' ∉ t) :
    IgnoreCore.parseSingle k t = .error e ↔ ItemFault k t e := by
  have hcore : ∀ a b d ip, (match k.parseCores d with
      | .error e => (.error e : Except PyErr (List IgnoreCore))
      | .ok ps => mapE (IgnoreCore.ofStrings a b ip) ps) = .error e ↔
      CoreFault k d e ∨ ∃ ps, CoreString k d ps ∧ e = .valueError ∧ ps ≠ [] ∧
        ((¬ ∃ x, IntText a x) ∨ ¬ ∃ y, IntText b y) := by
    intro a b d ip
    rw [← parseCores_fault]
    simp only [← C54_core_strings]
    cases hd : k.parseCores d with
    | error e' => simp
    | ok ps => simp [ofStrings_error]
  constructor
  · intro h
    have hj := join_splitOn ',' t
    have hl := length_splitOn ',' t
    have hplain : ∀ u ∈ splitOn ',' t, Plain u := fun u hu => ⟨hj.2 u hu, fun hc => ht (by
      rw [← hj.1]
      exact (mem_joinWith_of_mem hu hc))⟩
    unfold IgnoreCore.parseSingle at h
    split at h
    · rename_i a b d hs
      rw [hs] at hj hplain
      have h3 : t = writeItem [a, b, d] none := hj.1.symm
      rw [h3]
      rcases (hcore a b d none).1 h with h | ⟨ps, h1, rfl, h2⟩
      · exact .cores (hplain _ (by simp)) (hplain _ (by simp)) (hplain _ (by simp)) (by simp) h
      · exact .place (hplain _ (by simp)) (hplain _ (by simp)) (hplain _ (by simp)) (by simp) h1 h2.1 h2.2
    · rename_i a b d u hs
      rw [hs] at hj hplain
      have h3 : t = writeItem [a, b, d] (some u) := hj.1.symm
      rw [h3]
      rcases (hcore a b d (some u)).1 h with h | ⟨ps, h1, rfl, h2⟩
      · exact .cores (hplain _ (by simp)) (hplain _ (by simp)) (hplain _ (by simp)) (by simpa using hplain u (by simp)) h
      · exact .place (hplain _ (by simp)) (hplain _ (by simp)) (hplain _ (by simp)) (by simpa using hplain u (by simp))
          h1 h2.1 h2.2
    · rename_i hn3 hn4
      cases h
      refine .fields (fun h2 => ?_) (fun h2 => ?_)
      · rw [h2] at hl
        match hs : splitOn ',' t with
        | [a, b, d] => exact hn3 _ _ _ hs
        | [] | [_] | [_, _] | _ :: _ :: _ :: _ :: _ => rw [hs] at hl; simp at hl
      · rw [h2] at hl
        match hs : splitOn ',' t with
        | [a, b, d, u] => exact hn4 _ _ _ _ hs
        | [] | [_] | [_, _] | [_, _, _] | _ :: _ :: _ :: _ :: _ :: _ => rw [hs] at hl; simp at hl
  · have hsplit : ∀ {a b d : PyStr} {ip : Option PyStr}, Plain a → Plain b → Plain d → (∀ t ∈ ip, Plain t) →
        splitOn ',' (writeItem [a, b, d] ip) = [a, b, d] ++ ip.toList := by
      intro a b d ip ha hb hd hip
      apply splitOn_join
      · simp
      · intro s hs
        rw [List.mem_append] at hs
        rcases hs with hs | hs
        · simp only [List.mem_cons, List.not_mem_nil, or_false] at hs
          rcases hs with rfl | rfl | rfl
          · exact ha.1
          · exact hb.1
          · exact hd.1
        · exact (hip s (by simpa using hs)).1
    have hw : ∀ {a b d : PyStr} {ip : Option PyStr}, Plain a → Plain b → Plain d → (∀ t ∈ ip, Plain t) →
        IgnoreCore.parseSingle k (writeItem [a, b, d] ip) = (match k.parseCores d with
          | .error e => (.error e : Except PyErr (List IgnoreCore))
          | .ok ps => mapE (IgnoreCore.ofStrings a b ip) ps) := by
      intro a b d ip ha hb hd hip
      unfold IgnoreCore.parseSingle
      rw [hsplit ha hb hd hip]
      cases ip <;> rfl
    intro h
    cases h with
    | fields h2 h3 =>
      have hl := length_splitOn ',' t
      unfold IgnoreCore.parseSingle
      split
      · rename_i hs; rw [hs] at hl; simp at hl; omega
      · rename_i hs; rw [hs] at hl; simp at hl; omega
      · rfl
    | cores ha hb hd hip hf => rw [hw ha hb hd hip, hcore]; exact .inl hf
    | place ha hb hd hip hc hne hp => rw [hw ha hb hd hip, hcore]; exact .inr ⟨_, hc, rfl, hne, hp⟩

theorem firstFault_iff {α : Type} {f : PyStr → Except PyErr α} {Item : PyStr → α → Prop} {Fault : PyStr → PyErr → Prop}
    (hp : ∀ t c, Item t c → ':' ∉ t) (hf : ∀ t c, ':' ∉ t → (f t = .ok c ↔ Item t c))
    (he : ∀ t e, ':' ∉ t → (f t = .error e ↔ Fault t e)) (s : PyStr) (e : PyErr) :
    mapE f (splitOn ':' s) = .error e ↔ FirstFault Item Fault s e := by
  have key : ∀ (ts : List PyStr), ts ≠ [] → (∀ t ∈ ts, ':' ∉ t) →
      mapE f ts = .error e → FirstFault Item Fault (joinWith ':' ts) e := by
    intro ts
    induction ts with
    | nil => intro h; exact absurd rfl h
    | cons t ts ih =>
      intro _ hts h
      have ht := hts t (by simp)
      simp only [mapE] at h
      split at h
      · rename_i e' he'
        cases h
        cases ts with
        | nil => exact .last ht ((he t e ht).1 he')
        | cons u us => exact .here ht ((he t e ht).1 he')
      · rename_i c hc
        split at h
        · rename_i e' he'
          cases h
          cases ts with
          | nil => simp [mapE] at he'
          | cons u us => exact .later ((hf t c ht).1 hc) (ih (by simp) (fun v hv => hts v (by simp [hv])) he')
        · cases h
  constructor
  · intro h
    have hj := join_splitOn ':' s
    have := key _ (splitOn_ne_nil _ _) hj.2 h
    rwa [hj.1] at this
  · intro h
    clear key
    induction h with
    | last ht hx => rw [splitOn_of_not_mem _ _ ht]; simp [mapE, (he _ _ ht).2 hx]
    | here ht hx => rw [splitOn_append _ _ _ ht]; simp [mapE, (he _ _ ht).2 hx]
    | later hi _ ih =>
      rw [splitOn_append _ _ _ (hp _ _ hi)]
      simp [mapE, (hf _ _ (hp _ _ hi)).2 hi, ih]

/-- C102: the exception with which a text of down_cores is refused is that of the first item that is no item, and a
text that is not "None" is refused exactly if there is one. -/
theorem C102_core_text (k : VKind) (s : PyStr) (e : PyErr) (hn : pyLower s ≠ "none".toList) :
    IgnoreCore.parseString k (some s) = .error e ↔ FirstFault (CoreText k) (ItemFault k) s e := by
  rw [← firstFault_iff (coreText_plain k) (fun t c ht => coreText_iff k t c ht) (fun t e ht => itemFault_iff k t e ht)]
  unfold IgnoreCore.parseString
  simp only [if_neg hn]
  cases mapE (IgnoreCore.parseSingle k) (splitOn ':' s) <;> simp

/-- C102: so it is for `virtual_machine`, if the size is supported and down_chips can be read: a text of down_cores
that cannot be read has a first fault, and its exception is raised. -/
theorem C102_core_fault (v : Version) (cfg : DownCfg) (w h : Int) (validate : Bool) (hs : SizeOK v.kind w h)
    (hc : Read ChipText cfg.chips) :
    (¬ Read (CoreText v.kind) cfg.cores → ∃ s e, cfg.cores = some s ∧
      FirstFault (CoreText v.kind) (ItemFault v.kind) s e) ∧
    ∀ s e, cfg.cores = some s → pyLower s ≠ "none".toList → FirstFault (CoreText v.kind) (ItemFault v.kind) s e →
      virtualMachine v cfg w h validate = .error e := by
  constructor
  · intro hr
    obtain ⟨e, he, -⟩ := (cores_read _ _).2 hr
    unfold Read at hr
    simp only [not_or, not_exists, not_and] at hr
    cases hcs : cfg.cores with
    | none => exact absurd hcs hr.1
    | some s =>
      rw [hcs] at he
      exact ⟨s, e, rfl, (C102_core_text _ _ _ (hr.2.1 s hcs)).1 he⟩
  · intro s e hcs hn hf
    have he := (C102_core_text _ _ _ hn).2 hf
    obtain ⟨l, hl⟩ := (chips_read _).1 hc
    apply vm_read_error hs
    simp only [Down.read, hl, hcs, he]

/-- the hypotheses are met: the second of three items has two minus signs, and the third is bad in another way -/
example : FirstFault (CoreText .v5) (ItemFault .v5) "0,0,1:0,0,--2:0,0,x".toList .valueError :=
  (C102_core_text .v5 _ _ (by decide +kernel)).1 (by decide +kernel)

/-- a quad location that does not exist, and a range on a chip whose coordinate is no integer -/
example : FirstFault (CoreText .v248) (ItemFault .v248) "0,0,0.0.9".toList .keyError ∧
    FirstFault (CoreText .v5) (ItemFault .v5) "a,0,2-3".toList .valueError ∧
    FirstFault (CoreText .v5) (ItemFault .v5) "0,0,0.0.9".toList .configError :=
  ⟨(C102_core_text .v248 _ _ (by decide +kernel)).1 (by decide +kernel),
    (C102_core_text .v5 _ _ (by decide +kernel)).1 (by decide +kernel),
    (C102_core_text .v5 _ _ (by decide +kernel)).1 (by decide +kernel)⟩

end SpiNN.Props
