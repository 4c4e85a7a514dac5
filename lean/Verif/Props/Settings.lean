import Verif.Lemmas.Settings
import Verif.Props.Physical
import Verif.Spec.VirtualMachine

/-!
# C78: every text of a down setting

C53 says that what was written in the documented format is read. Here the converse and the rest: any text at all is
read exactly if it is in the grammar of `Spec/Settings.lean`, as what the grammar says, and is otherwise refused; the
word none is nothing. What is down on a virtual machine is then a matter of the texts alone.
-/

namespace SpiNN.Props

open SpiNN Spec

theorem chipText_iff (t : PyStr) (c : IgnoreChip) (ht : ':' ∉ t) :
    IgnoreChip.parseSingle t = .ok c ↔ ChipText t c := by
  have ofs : ∀ a b ip, IgnoreChip.ofStrings a b ip = .ok c ↔ IntText a c.x ∧ IntText b c.y ∧ c.ip = ip := by
    intro a b ip
    unfold IgnoreChip.ofStrings
    cases ha : pyInt a with
    | error e =>
      simp only [reduceCtorEq, false_iff]
      rintro ⟨h, -⟩
      rw [← pyInt_iff, ha] at h; cases h
    | ok x => cases hb : pyInt b with
      | error e =>
        simp only [reduceCtorEq, false_iff]
        rintro ⟨-, h, -⟩
        rw [← pyInt_iff, hb] at h; cases h
      | ok y =>
        simp only [← pyInt_iff, ha, hb, Except.ok.injEq]
        cases c
        simp [eq_comm]
  constructor
  · intro h
    have hj := join_splitOn ',' t
    unfold IgnoreChip.parseSingle at h
    split at h
    · rename_i a b hs
      rw [ofs] at h
      rw [hs] at hj
      exact ⟨a, b, h.1, h.2.1, .inl ⟨h.2.2, by simpa [joinWith] using hj.1.symm⟩⟩
    · rename_i a b i hs
      rw [ofs] at h
      rw [hs] at hj
      have h1 : t = a ++ ',' :: (b ++ ',' :: i) := by simpa [joinWith] using hj.1.symm
      exact ⟨a, b, h.1, h.2.1, .inr ⟨i, h.2.2, ⟨hj.2 i (by simp), fun h2 => ht (by rw [h1]; simp [h2])⟩, h1⟩⟩
    · cases h
  · rintro ⟨a, b, ha, hb, ⟨hi, rfl⟩ | ⟨i, hi, hp, rfl⟩⟩
    · unfold IgnoreChip.parseSingle
      rw [splitOn_append _ _ _ (intText_plain ha).1, splitOn_of_not_mem _ _ (intText_plain hb).1]
      exact (ofs _ _ _).2 ⟨ha, hb, hi⟩
    · unfold IgnoreChip.parseSingle
      rw [splitOn_append _ _ _ (intText_plain ha).1, splitOn_append _ _ _ (intText_plain hb).1,
        splitOn_of_not_mem _ _ hp.1]
      exact (ofs _ _ _).2 ⟨ha, hb, hi⟩

theorem chipText_plain (t : PyStr) (c : IgnoreChip) (h : ChipText t c) : ':' ∉ t := by
  obtain ⟨a, b, ha, hb, ⟨-, rfl⟩ | ⟨i, -, hp, rfl⟩⟩ := h
  · simp [(intText_plain ha).2, (intText_plain hb).2]
  · simp [(intText_plain ha).2, (intText_plain hb).2, hp.2]

theorem linkText_iff (t : PyStr) (c : IgnoreLink) (ht : ':' ∉ t) :
    IgnoreLink.parseSingle t = .ok c ↔ LinkText t c := by
  have ofs : ∀ a b d ip, IgnoreLink.ofStrings a b d ip = .ok c ↔
      IntText a c.x ∧ IntText b c.y ∧ IntText d c.link ∧ c.ip = ip := by
    intro a b d ip
    unfold IgnoreLink.ofStrings
    cases ha : pyInt a with
    | error e =>
      simp only [reduceCtorEq, false_iff]
      rintro ⟨h, -⟩
      rw [← pyInt_iff, ha] at h; cases h
    | ok x => cases hb : pyInt b with
      | error e =>
        simp only [reduceCtorEq, false_iff]
        rintro ⟨-, h, -⟩
        rw [← pyInt_iff, hb] at h; cases h
      | ok y => cases hd : pyInt d with
        | error e =>
          simp only [reduceCtorEq, false_iff]
          rintro ⟨-, -, h, -⟩
          rw [← pyInt_iff, hd] at h; cases h
        | ok l =>
          simp only [← pyInt_iff, ha, hb, hd, Except.ok.injEq]
          cases c
          simp [eq_comm]
  constructor
  · intro h
    have hj := join_splitOn ',' t
    unfold IgnoreLink.parseSingle at h
    split at h
    · rename_i a b d hs
      rw [ofs] at h
      rw [hs] at hj
      exact ⟨a, b, d, h.1, h.2.1, h.2.2.1, .inl ⟨h.2.2.2, by simpa [joinWith] using hj.1.symm⟩⟩
    · rename_i a b d i hs
      rw [ofs] at h
      rw [hs] at hj
      have h1 : t = a ++ ',' :: (b ++ ',' :: (d ++ ',' :: i)) := by simpa [joinWith] using hj.1.symm
      exact ⟨a, b, d, h.1, h.2.1, h.2.2.1,
        .inr ⟨i, h.2.2.2, ⟨hj.2 i (by simp), fun h2 => ht (by rw [h1]; simp [h2])⟩, h1⟩⟩
    · cases h
  · rintro ⟨a, b, d, ha, hb, hd, ⟨hi, rfl⟩ | ⟨i, hi, hp, rfl⟩⟩
    · unfold IgnoreLink.parseSingle
      rw [splitOn_append _ _ _ (intText_plain ha).1, splitOn_append _ _ _ (intText_plain hb).1,
        splitOn_of_not_mem _ _ (intText_plain hd).1]
      exact (ofs _ _ _ _).2 ⟨ha, hb, hd, hi⟩
    · unfold IgnoreLink.parseSingle
      rw [splitOn_append _ _ _ (intText_plain ha).1, splitOn_append _ _ _ (intText_plain hb).1,
        splitOn_append _ _ _ (intText_plain hd).1, splitOn_of_not_mem _ _ hp.1]
      exact (ofs _ _ _ _).2 ⟨ha, hb, hd, hi⟩

theorem linkText_plain (t : PyStr) (c : IgnoreLink) (h : LinkText t c) : ':' ∉ t := by
  obtain ⟨a, b, d, ha, hb, hd, ⟨-, rfl⟩ | ⟨i, -, hp, rfl⟩⟩ := h
  · simp [(intText_plain ha).2, (intText_plain hb).2, (intText_plain hd).2]
  · simp [(intText_plain ha).2, (intText_plain hb).2, (intText_plain hd).2, hp.2]

/-- the texts of cores have no separators in them -/
theorem coreString_plain {k : VKind} {s : PyStr} {l : List Int} (h : CoreString k s l) : Plain s := by
  have dig : ∀ {d : PyStr}, Digits d → ∀ c : Char, c = ',' ∨ c = ':' → c ∉ d := by
    intro d hd c hc hm
    have := isDig_ne (hd.all c hm)
    rcases hc with rfl | rfl
    · exact this.2.2.1 rfl
    · exact this.2.2.2.1 rfl
  have key : ∀ c : Char, c = ',' ∨ c = ':' → c ∉ s := by
    intro c hc
    have hne : c ≠ '-' ∧ c ≠ '.' := by rcases hc with rfl | rfl <;> decide
    cases h with
    | nonneg hd => exact dig hd c hc
    | neg hd => simp [hne, dig hd c hc]
    | range ha hb => simp [hne, dig ha c hc, dig hb c hc]
    | quad hx hy hp =>
      have h1 := dig hx c hc
      have h2 := dig hy c hc
      have h3 := dig hp c hc
      simp only [List.mem_singleton] at h1 h2 h3
      simp [hne, h1, h2, h3]
  exact ⟨key _ (.inl rfl), key _ (.inr rfl)⟩

theorem coreText_iff (k : VKind) (t : PyStr) (l : List IgnoreCore) (ht : ':' ∉ t) :
    IgnoreCore.parseSingle k t = .ok l ↔ CoreText k t l := by
  have ofs : ∀ (a b : PyStr) (ip : Option PyStr) (ps : List Int),
      mapE (IgnoreCore.ofStrings a b ip) ps = .ok l ↔
      ∃ x y : Int, (ps ≠ [] → IntText a x ∧ IntText b y) ∧ l = ps.map (fun p => ⟨x, y, p, ip⟩) := by
    intro a b ip ps
    cases ps with
    | nil => simp [mapE, eq_comm]
    | cons p ps =>
      constructor
      · intro h
        have h1 : ∃ c, IgnoreCore.ofStrings a b ip p = .ok c := mapE_exists.1 ⟨l, h⟩ p (by simp)
        obtain ⟨c, hc⟩ := h1
        unfold IgnoreCore.ofStrings at hc
        cases ha : pyInt a with
        | error e => rw [ha] at hc; cases hc
        | ok x => cases hb : pyInt b with
          | error e => rw [ha, hb] at hc; cases hc
          | ok y =>
            refine ⟨x, y, fun _ => ⟨(pyInt_iff _ _).1 ha, (pyInt_iff _ _).1 hb⟩, ?_⟩
            have : mapE (IgnoreCore.ofStrings a b ip) (List.map id (p :: ps)) =
                .ok ((p :: ps).map (fun p => ⟨x, y, p, ip⟩)) := mapE_map (fun c _ => by
              simp [IgnoreCore.ofStrings, ha, hb])
            rw [List.map_id, h] at this
            exact Except.ok.inj this
      · rintro ⟨x, y, h, rfl⟩
        obtain ⟨ha, hb⟩ := h (by simp)
        rw [← pyInt_iff] at ha hb
        have : mapE (IgnoreCore.ofStrings a b ip) (List.map id (p :: ps)) =
            .ok ((p :: ps).map (fun p => ⟨x, y, p, ip⟩)) := mapE_map (fun c _ => by
          simp [IgnoreCore.ofStrings, ha, hb])
        rwa [List.map_id] at this
  constructor
  · intro h
    have hj := join_splitOn ',' t
    unfold IgnoreCore.parseSingle at h
    split at h
    · rename_i a b d hs
      split at h
      · cases h
      · rename_i ps hps
        rw [ofs] at h
        rw [hs] at hj
        obtain ⟨x, y, h1, h2⟩ := h
        have h3 : t = a ++ ',' :: (b ++ ',' :: d) := by simpa [joinWith] using hj.1.symm
        exact ⟨a, b, d, x, y, none, ps, (C54_core_strings _ _ _).1 hps,
          ⟨hj.2 a (by simp), fun h4 => ht (by rw [h3]; simp [h4])⟩,
          ⟨hj.2 b (by simp), fun h4 => ht (by rw [h3]; simp [h4])⟩, h1, h2, .inl ⟨rfl, h3⟩⟩
    · rename_i a b d i hs
      split at h
      · cases h
      · rename_i ps hps
        rw [ofs] at h
        rw [hs] at hj
        obtain ⟨x, y, h1, h2⟩ := h
        have h3 : t = a ++ ',' :: (b ++ ',' :: (d ++ ',' :: i)) := by simpa [joinWith] using hj.1.symm
        exact ⟨a, b, d, x, y, some i, ps, (C54_core_strings _ _ _).1 hps,
          ⟨hj.2 a (by simp), fun h4 => ht (by rw [h3]; simp [h4])⟩,
          ⟨hj.2 b (by simp), fun h4 => ht (by rw [h3]; simp [h4])⟩, h1, h2,
          .inr ⟨i, rfl, ⟨hj.2 i (by simp), fun h4 => ht (by rw [h3]; simp [h4])⟩, h3⟩⟩
    · cases h
  · rintro ⟨a, b, d, x, y, ip, ps, hd, ha, hb, h1, h2, h3⟩
    have hp := coreString_plain hd
    have hd' := (C54_core_strings _ _ _).2 hd
    unfold IgnoreCore.parseSingle
    rcases h3 with ⟨rfl, rfl⟩ | ⟨i, rfl, hi, rfl⟩
    · rw [splitOn_append _ _ _ ha.1, splitOn_append _ _ _ hb.1, splitOn_of_not_mem _ _ hp.1]
      simp only [hd']
      exact (ofs _ _ _ _).2 ⟨x, y, h1, h2⟩
    · rw [splitOn_append _ _ _ ha.1, splitOn_append _ _ _ hb.1, splitOn_append _ _ _ hp.1,
        splitOn_of_not_mem _ _ hi.1]
      simp only [hd']
      exact (ofs _ _ _ _).2 ⟨x, y, h1, h2⟩

theorem coreText_plain (k : VKind) (t : PyStr) (l : List IgnoreCore) (h : CoreText k t l) : ':' ∉ t := by
  obtain ⟨a, b, d, x, y, ip, ps, hd, ha, hb, h1, h2, h3⟩ := h
  have hp := coreString_plain hd
  rcases h3 with ⟨rfl, rfl⟩ | ⟨i, rfl, hi, rfl⟩
  · simp [ha.2, hb.2, hp.2]
  · simp [ha.2, hb.2, hp.2, hi.2]

/-- every item has a comma in it, so the word none is no list of items -/
theorem written_not_none {α : Type} {Item : PyStr → α → Prop} (hi : ∀ t c, Item t c → ',' ∈ t) {s : PyStr}
    {cs : List α} (h : Written Item s cs) : pyLower s ≠ "none".toList := by
  have hc : ',' ∈ s := by
    cases h with
    | last h => exact hi _ _ h
    | more h _ => simp [hi _ _ h]
  intro hn
  have : Char.toLower ',' ∈ pyLower s := List.mem_map_of_mem hc
  rw [hn] at this
  revert this; decide +kernel

theorem chipText_comma (t : PyStr) (c : IgnoreChip) (h : ChipText t c) : ',' ∈ t := by
  obtain ⟨a, b, ha, hb, ⟨-, rfl⟩ | ⟨i, -, hp, rfl⟩⟩ := h <;> simp
theorem linkText_comma (t : PyStr) (c : IgnoreLink) (h : LinkText t c) : ',' ∈ t := by
  obtain ⟨a, b, d, ha, hb, hd, ⟨-, rfl⟩ | ⟨i, -, hp, rfl⟩⟩ := h <;> simp
theorem coreText_comma (k : VKind) (t : PyStr) (l : List IgnoreCore) (h : CoreText k t l) : ',' ∈ t := by
  obtain ⟨a, b, d, x, y, ip, ps, hd, ha, hb, h1, h2, ⟨-, rfl⟩ | ⟨i, -, hp, rfl⟩⟩ := h <;> simp

/-- C78: a text of down_chips is read exactly if it is a list of chips in the grammar, as the set of these chips;
the word none is no chip; any other text is a ValueError. A text is a list of chips in one way only. -/
theorem C78_chips (s : PyStr) :
    (∀ cs, Written ChipText s cs →
      ∃ l, IgnoreChip.parseString (some s) = .ok l ∧ l.Nodup ∧ ∀ c, c ∈ l ↔ c ∈ cs) ∧
    ((¬ ∃ cs, Written ChipText s cs) → pyLower s ≠ "none".toList →
      IgnoreChip.parseString (some s) = .error .valueError) ∧
    (∀ cs cs', Written ChipText s cs → Written ChipText s cs' → cs = cs') := by
  have hw := written_iff chipText_plain chipText_iff s
  refine ⟨?_, ?_, ?_⟩
  · intro cs h
    unfold IgnoreChip.parseString
    simp only
    rw [if_neg (written_not_none chipText_comma h), (hw cs).2 h]
    exact ⟨_, rfl, (orderedSet_spec cs).1, (orderedSet_spec cs).2⟩
  · intro h hn
    unfold IgnoreChip.parseString
    simp only
    rw [if_neg hn]
    cases hm : mapE IgnoreChip.parseSingle (splitOn ':' s) with
    | ok cs => exact absurd ⟨cs, (hw cs).1 hm⟩ h
    | error e =>
      simp only [Except.error.injEq]
      have hno : ¬ ∀ a ∈ splitOn ':' s, ∃ b, IgnoreChip.parseSingle a = .ok b := fun h => by
        obtain ⟨r, hr⟩ := mapE_exists.2 h
        rw [hm] at hr; cases hr
      have : ∀ a e, IgnoreChip.parseSingle a = .error e → e = .valueError := by
        intro a e h
        have key : ∀ a b ip, IgnoreChip.ofStrings a b ip = .error e → e = .valueError := by
          intro a b ip h
          unfold IgnoreChip.ofStrings at h
          split at h
          · rename_i h1; injection h with h2; exact h2 ▸ pyInt_error h1
          · split at h
            · rename_i h1; injection h with h2; exact h2 ▸ pyInt_error h1
            · cases h
        unfold IgnoreChip.parseSingle at h
        split at h
        · exact key _ _ _ h
        · exact key _ _ _ h
        · exact (Except.error.inj h).symm
      obtain ⟨a, ha, hb⟩ : ∃ a ∈ splitOn ':' s, ∀ b, IgnoreChip.parseSingle a ≠ .ok b := by
        simpa using hno
      cases hc : IgnoreChip.parseSingle a with
      | ok b => exact absurd hc (hb b)
      | error e' =>
        obtain ⟨e'', h1, b, -, h2⟩ := mapE_error_of_mem ha hc
        rw [hm] at h1
        injection h1 with h1
        exact h1 ▸ this _ _ h2
  · intro cs cs' h h'
    have h1 := (hw cs).2 h
    rw [(hw cs').2 h'] at h1
    exact (Except.ok.inj h1).symm

/-- C78: the same of down_links -/
theorem C78_links (s : PyStr) :
    (∀ cs, Written LinkText s cs →
      ∃ l, IgnoreLink.parseString (some s) = .ok l ∧ l.Nodup ∧ ∀ c, c ∈ l ↔ c ∈ cs) ∧
    ((¬ ∃ cs, Written LinkText s cs) → pyLower s ≠ "none".toList →
      IgnoreLink.parseString (some s) = .error .valueError) ∧
    (∀ cs cs', Written LinkText s cs → Written LinkText s cs' → cs = cs') := by
  have hw := written_iff linkText_plain linkText_iff s
  refine ⟨?_, ?_, ?_⟩
  · intro cs h
    unfold IgnoreLink.parseString
    simp only
    rw [if_neg (written_not_none linkText_comma h), (hw cs).2 h]
    exact ⟨_, rfl, (orderedSet_spec cs).1, (orderedSet_spec cs).2⟩
  · intro h hn
    unfold IgnoreLink.parseString
    simp only
    rw [if_neg hn]
    cases hm : mapE IgnoreLink.parseSingle (splitOn ':' s) with
    | ok cs => exact absurd ⟨cs, (hw cs).1 hm⟩ h
    | error e =>
      simp only [Except.error.injEq]
      have hno : ¬ ∀ a ∈ splitOn ':' s, ∃ b, IgnoreLink.parseSingle a = .ok b := fun h => by
        obtain ⟨r, hr⟩ := mapE_exists.2 h
        rw [hm] at hr; cases hr
      have : ∀ a e, IgnoreLink.parseSingle a = .error e → e = .valueError := by
        intro a e h
        have key : ∀ a b d ip, IgnoreLink.ofStrings a b d ip = .error e → e = .valueError := by
          intro a b d ip h
          unfold IgnoreLink.ofStrings at h
          split at h
          · rename_i h1; injection h with h2; exact h2 ▸ pyInt_error h1
          · split at h
            · rename_i h1; injection h with h2; exact h2 ▸ pyInt_error h1
            · split at h
              · rename_i h1; injection h with h2; exact h2 ▸ pyInt_error h1
              · cases h
        unfold IgnoreLink.parseSingle at h
        split at h
        · exact key _ _ _ _ h
        · exact key _ _ _ _ h
        · exact (Except.error.inj h).symm
      obtain ⟨a, ha, hb⟩ : ∃ a ∈ splitOn ':' s, ∀ b, IgnoreLink.parseSingle a ≠ .ok b := by
        simpa using hno
      cases hc : IgnoreLink.parseSingle a with
      | ok b => exact absurd hc (hb b)
      | error e' =>
        obtain ⟨e'', h1, b, -, h2⟩ := mapE_error_of_mem ha hc
        rw [hm] at h1
        injection h1 with h1
        exact h1 ▸ this _ _ h2
  · intro cs cs' h h'
    have h1 := (hw cs).2 h
    rw [(hw cs').2 h'] at h1
    exact (Except.ok.inj h1).symm

/-- C78: the same of down_cores, where an item may stand for several cores; the refusal is a ValueError, a
ConfigException or, for an unknown quad location, a KeyError -/
theorem C78_cores (k : VKind) (s : PyStr) :
    (∀ cs, Written (CoreText k) s cs →
      ∃ l, IgnoreCore.parseString k (some s) = .ok l ∧ l.Nodup ∧ ∀ c, c ∈ l ↔ ∃ item ∈ cs, c ∈ item) ∧
    ((¬ ∃ cs, Written (CoreText k) s cs) → pyLower s ≠ "none".toList →
      IgnoreCore.parseString k (some s) = .error .valueError ∨
      IgnoreCore.parseString k (some s) = .error .configError ∨
      (IgnoreCore.parseString k (some s) = .error .keyError ∧ k.isSpin1 = false)) ∧
    (∀ cs cs', Written (CoreText k) s cs → Written (CoreText k) s cs' → cs = cs') := by
  have hw := written_iff (coreText_plain k) (coreText_iff k) s
  refine ⟨?_, ?_, ?_⟩
  · intro cs h
    unfold IgnoreCore.parseString
    simp only
    rw [if_neg (written_not_none (coreText_comma k) h), (hw cs).2 h]
    refine ⟨_, rfl, (orderedSet_spec _).1, fun c => ?_⟩
    rw [(orderedSet_spec _).2, List.mem_flatten]
  · intro h hn
    unfold IgnoreCore.parseString
    simp only
    rw [if_neg hn]
    cases hm : mapE (IgnoreCore.parseSingle k) (splitOn ':' s) with
    | ok cs => exact absurd ⟨cs, (hw cs).1 hm⟩ h
    | error e =>
      simp only [Except.error.injEq]
      have hno : ¬ ∀ a ∈ splitOn ':' s, ∃ b, IgnoreCore.parseSingle k a = .ok b := fun h => by
        obtain ⟨r, hr⟩ := mapE_exists.2 h
        rw [hm] at hr; cases hr
      have : ∀ a e, IgnoreCore.parseSingle k a = .error e →
          e = .valueError ∨ e = .configError ∨ (e = .keyError ∧ k.isSpin1 = false) := by
        intro a e h
        have key : ∀ a b ip ps, mapE (IgnoreCore.ofStrings a b ip) ps = .error e → e = .valueError := by
          intro a b ip ps h
          have hof : ∀ p e, IgnoreCore.ofStrings a b ip p = .error e → e = .valueError := by
            intro p e h
            unfold IgnoreCore.ofStrings at h
            split at h
            · rename_i h1; injection h with h2; exact h2 ▸ pyInt_error h1
            · split at h
              · rename_i h1; injection h with h2; exact h2 ▸ pyInt_error h1
              · cases h
          have hno : ¬ ∀ p ∈ ps, ∃ b', IgnoreCore.ofStrings a b ip p = .ok b' := fun h' => by
            obtain ⟨r, hr⟩ := mapE_exists.2 h'
            rw [h] at hr; cases hr
          obtain ⟨p, hp, hb⟩ : ∃ p ∈ ps, ∀ b', IgnoreCore.ofStrings a b ip p ≠ .ok b' := by simpa using hno
          cases hc : IgnoreCore.ofStrings a b ip p with
          | ok b => exact absurd hc (hb b)
          | error e' =>
            obtain ⟨e'', h1, b, -, h2⟩ := mapE_error_of_mem hp hc
            rw [h] at h1
            injection h1 with h1
            exact h1 ▸ hof _ _ h2
        have cores : ∀ d, k.parseCores d = .error e →
            e = .valueError ∨ e = .configError ∨ (e = .keyError ∧ k.isSpin1 = false) := by
          intro d hd
          have hno : ¬ ∃ l, CoreString k d l := fun ⟨l, hl⟩ => by
            rw [← C54_core_strings, hd] at hl; cases hl
          rcases C54_refusal k d hno with h | ⟨h, -⟩ | ⟨h, h', -⟩
          · rw [hd] at h; exact .inr (.inl (Except.error.inj h))
          · rw [hd] at h; exact .inl (Except.error.inj h)
          · rw [hd] at h; exact .inr (.inr ⟨Except.error.inj h, h'⟩)
        unfold IgnoreCore.parseSingle at h
        split at h
        · split at h
          · rename_i h1; injection h with h2; subst h2; exact cores _ h1
          · exact .inl (key _ _ _ _ h)
        · split at h
          · rename_i h1; injection h with h2; subst h2; exact cores _ h1
          · exact .inl (key _ _ _ _ h)
        · exact .inl (Except.error.inj h).symm
      obtain ⟨a, ha, hb⟩ : ∃ a ∈ splitOn ':' s, ∀ b, IgnoreCore.parseSingle k a ≠ .ok b := by
        simpa using hno
      cases hc : IgnoreCore.parseSingle k a with
      | ok b => exact absurd hc (hb b)
      | error e' =>
        obtain ⟨e'', h1, b, -, h2⟩ := mapE_error_of_mem ha hc
        rw [hm] at h1
        injection h1 with h1
        exact h1 ▸ this _ _ h2
  · intro cs cs' h h'
    have h1 := (hw cs).2 h
    rw [(hw cs').2 h'] at h1
    exact (Except.ok.inj h1).symm

/-- C78: what is down for `virtual_machine` (C30-C32), by the texts of the settings alone -/
theorem C78_down (k : VKind) (cfg : DownCfg) (p : XY) (i q : Int) :
    (ChipDown cfg p ↔ ∃ s cs, cfg.chips = some s ∧ Written ChipText s cs ∧ ⟨p.1, p.2, none⟩ ∈ cs) ∧
    (LinkDown cfg p i ↔ ∃ s cs, cfg.links = some s ∧ Written LinkText s cs ∧ ⟨p.1, p.2, i, none⟩ ∈ cs) ∧
    (CoreDown k cfg p q ↔ ∃ s cs, cfg.cores = some s ∧ Written (CoreText k) s cs ∧
      ∃ item ∈ cs, ∃ n : Int, ⟨p.1, p.2, n, none⟩ ∈ item ∧
        ((0 < n ∧ q = n) ∨ (n = -10 ∧ q = 0) ∨ (-17 ≤ n ∧ n ≤ 0 ∧ n ≠ -10 ∧ q = 1 - n))) := by
  refine ⟨?_, ?_, ?_⟩
  · constructor
    · rintro ⟨l, h1, c, hc, hx, hy, hi⟩
      cases hs : cfg.chips with
      | none => rw [hs] at h1; injection h1 with h1; subst h1; cases hc
      | some s =>
        rw [hs] at h1
        obtain ⟨w1, w2, -⟩ := C78_chips s
        by_cases hn : pyLower s = "none".toList
        · have := (C53_none k (some s) (.inr ⟨s, rfl, hn⟩)).1
          rw [h1] at this; injection this with h2; subst h2; cases hc
        · by_cases hw : ∃ cs, Written ChipText s cs
          · obtain ⟨cs, hw⟩ := hw
            obtain ⟨l', h2, -, h3⟩ := w1 cs hw
            rw [h1] at h2; injection h2 with h2; subst h2
            refine ⟨s, cs, rfl, hw, ?_⟩
            have : c = ⟨p.1, p.2, none⟩ := by cases c; simp_all
            rw [← this]; exact (h3 c).1 hc
          · rw [w2 hw hn] at h1; cases h1
    · rintro ⟨s, cs, hs, hw, hm⟩
      obtain ⟨l, h1, -, h2⟩ := (C78_chips s).1 cs hw
      exact ⟨l, hs ▸ h1, _, (h2 _).2 hm, rfl, rfl, rfl⟩
  · constructor
    · rintro ⟨l, h1, c, hc, hx, hy, hk, hi⟩
      cases hs : cfg.links with
      | none => rw [hs] at h1; injection h1 with h1; subst h1; cases hc
      | some s =>
        rw [hs] at h1
        obtain ⟨w1, w2, -⟩ := C78_links s
        by_cases hn : pyLower s = "none".toList
        · have := (C53_none k (some s) (.inr ⟨s, rfl, hn⟩)).2.1
          rw [h1] at this; injection this with h2; subst h2; cases hc
        · by_cases hw : ∃ cs, Written LinkText s cs
          · obtain ⟨cs, hw⟩ := hw
            obtain ⟨l', h2, -, h3⟩ := w1 cs hw
            rw [h1] at h2; injection h2 with h2; subst h2
            refine ⟨s, cs, rfl, hw, ?_⟩
            have : c = ⟨p.1, p.2, i, none⟩ := by cases c; simp_all
            rw [← this]; exact (h3 c).1 hc
          · rw [w2 hw hn] at h1; cases h1
    · rintro ⟨s, cs, hs, hw, hm⟩
      obtain ⟨l, h1, -, h2⟩ := (C78_links s).1 cs hw
      exact ⟨l, hs ▸ h1, _, (h2 _).2 hm, rfl, rfl, rfl, rfl⟩
  · constructor
    · rintro ⟨l, h1, c, hc, hx, hy, hq, hi⟩
      cases hs : cfg.cores with
      | none => rw [hs] at h1; injection h1 with h1; subst h1; cases hc
      | some s =>
        rw [hs] at h1
        obtain ⟨w1, w2, -⟩ := C78_cores k s
        by_cases hn : pyLower s = "none".toList
        · have := (C53_none k (some s) (.inr ⟨s, rfl, hn⟩)).2.2
          rw [h1] at this; injection this with h2; subst h2; cases hc
        · by_cases hw : ∃ cs, Written (CoreText k) s cs
          · obtain ⟨cs, hw⟩ := hw
            obtain ⟨l', h2, -, h3⟩ := w1 cs hw
            rw [h1] at h2; injection h2 with h2; subst h2
            obtain ⟨item, hit, hci⟩ := (h3 c).1 hc
            refine ⟨s, cs, rfl, hw, item, hit, c.p, ?_, (C55_closed_form c q).1 hq⟩
            have : c = ⟨p.1, p.2, c.p, none⟩ := by cases c; simp_all
            rw [← this]; exact hci
          · rcases w2 hw hn with h | h | ⟨h, -⟩ <;> rw [h] at h1 <;> cases h1
    · rintro ⟨s, cs, hs, hw, item, hit, n, hm, hq⟩
      obtain ⟨l, h1, -, h2⟩ := (C78_cores k s).1 cs hw
      exact ⟨l, hs ▸ h1, _, (h2 _).2 ⟨item, hit, hm⟩, rfl, rfl, (C55_closed_form _ q).2 hq, rfl⟩

/-- a text is nothing, or a list of items -/
def Read {α : Type} (Item : PyStr → α → Prop) (s : Option PyStr) : Prop :=
  s = none ∨ (∃ t, s = some t ∧ pyLower t = "none".toList) ∨ ∃ t cs, s = some t ∧ Written Item t cs

/-- C78: the settings with which `virtual_machine` works (C30), by their texts: all three are nothing or lists of
items, and every core without an address is a virtual one or a physical one from 0 to 17 -/
theorem C78_readable (k : VKind) (cfg : DownCfg) :
    Readable k cfg ↔ Read ChipText cfg.chips ∧ Read LinkText cfg.links ∧ Read (CoreText k) cfg.cores ∧
      ∀ s cs, cfg.cores = some s → Written (CoreText k) s cs → ∀ item ∈ cs, ∀ c ∈ item, c.ip = none → -17 ≤ c.p := by
  have h1 : (∃ l, IgnoreChip.parseString cfg.chips = .ok l) ↔ Read ChipText cfg.chips := by
    unfold Read
    cases hs : cfg.chips with
    | none => simp [IgnoreChip.parseString]
    | some s =>
      obtain ⟨w1, w2, -⟩ := C78_chips s
      constructor
      · rintro ⟨l, hl⟩
        by_cases hn : pyLower s = "none".toList
        · exact .inr (.inl ⟨s, rfl, hn⟩)
        · by_cases hw : ∃ cs, Written ChipText s cs
          · obtain ⟨cs, hw⟩ := hw; exact .inr (.inr ⟨s, cs, rfl, hw⟩)
          · rw [w2 hw hn] at hl; cases hl
      · rintro (h | ⟨t, h, hn⟩ | ⟨t, cs, h, hw⟩)
        · cases h
        · injection h with h; subst h
          exact ⟨_, (C53_none k (some s) (.inr ⟨s, rfl, hn⟩)).1⟩
        · injection h with h; subst h
          obtain ⟨l, hl, -⟩ := w1 cs hw; exact ⟨l, hl⟩
  have h2 : (∃ l, IgnoreLink.parseString cfg.links = .ok l) ↔ Read LinkText cfg.links := by
    unfold Read
    cases hs : cfg.links with
    | none => simp [IgnoreLink.parseString]
    | some s =>
      obtain ⟨w1, w2, -⟩ := C78_links s
      constructor
      · rintro ⟨l, hl⟩
        by_cases hn : pyLower s = "none".toList
        · exact .inr (.inl ⟨s, rfl, hn⟩)
        · by_cases hw : ∃ cs, Written LinkText s cs
          · obtain ⟨cs, hw⟩ := hw; exact .inr (.inr ⟨s, cs, rfl, hw⟩)
          · rw [w2 hw hn] at hl; cases hl
      · rintro (h | ⟨t, h, hn⟩ | ⟨t, cs, h, hw⟩)
        · cases h
        · injection h with h; subst h
          exact ⟨_, (C53_none k (some s) (.inr ⟨s, rfl, hn⟩)).2.1⟩
        · injection h with h; subst h
          obtain ⟨l, hl, -⟩ := w1 cs hw; exact ⟨l, hl⟩
  have hq : ∀ c : IgnoreCore, (∃ q, c.virtualP = .ok q) ↔ -17 ≤ c.p := by
    intro c
    simp only [C55_closed_form]
    constructor
    · rintro ⟨q, h⟩; omega
    · intro h
      by_cases ha : 0 < c.p
      · exact ⟨_, .inl ⟨ha, rfl⟩⟩
      · by_cases hb : c.p = -10
        · exact ⟨0, .inr (.inl ⟨hb, rfl⟩)⟩
        · exact ⟨_, .inr (.inr ⟨h, by omega, hb, rfl⟩)⟩
  have h3 : (∃ l, IgnoreCore.parseString k cfg.cores = .ok l ∧ ∀ c ∈ l, c.ip = none → ∃ q, c.virtualP = .ok q) ↔
      Read (CoreText k) cfg.cores ∧ ∀ s cs, cfg.cores = some s → Written (CoreText k) s cs →
        ∀ item ∈ cs, ∀ c ∈ item, c.ip = none → -17 ≤ c.p := by
    simp only [hq]
    unfold Read
    cases hs : cfg.cores with
    | none => simp [IgnoreCore.parseString]
    | some s =>
      obtain ⟨w1, w2, w3⟩ := C78_cores k s
      constructor
      · rintro ⟨l, hl, hc⟩
        by_cases hn : pyLower s = "none".toList
        · refine ⟨.inr (.inl ⟨s, rfl, hn⟩), ?_⟩
          intro t cs h hw
          injection h with h; subst h
          exact absurd hn (written_not_none (coreText_comma k) hw)
        · by_cases hw : ∃ cs, Written (CoreText k) s cs
          · obtain ⟨cs, hw⟩ := hw
            refine ⟨.inr (.inr ⟨s, cs, rfl, hw⟩), ?_⟩
            intro t cs' h hw' item hit c hci hip
            injection h with h; subst h
            obtain ⟨l', hl', -, hm⟩ := w1 cs' hw'
            rw [hl] at hl'; injection hl' with hl'; subst hl'
            exact hc c ((hm c).2 ⟨item, hit, hci⟩) hip
          · rcases w2 hw hn with h | h | ⟨h, -⟩ <;> rw [h] at hl <;> cases hl
      · rintro ⟨h | ⟨t, h, hn⟩ | ⟨t, cs, h, hw⟩, hp⟩
        · cases h
        · injection h with h; subst h
          exact ⟨_, (C53_none k (some s) (.inr ⟨s, rfl, hn⟩)).2.2, by simp⟩
        · injection h with h; subst h
          obtain ⟨l, hl, -, hm⟩ := w1 cs hw
          refine ⟨l, hl, fun c hc hip => ?_⟩
          obtain ⟨item, hit, hci⟩ := (hm c).1 hc
          exact hp s cs rfl hw item hit c hci hip
  unfold Readable
  rw [h1, h2, h3]

/-- a text that nobody would call documented: white space, a plus and an underscore in the numbers -/
example : Written ChipText " 4,+1_0 :-0,7,ab".toList [⟨4, 10, none⟩, ⟨0, 7, some "ab".toList⟩] := by
  have e : " 4,+1_0 :-0,7,ab".toList = " 4,+1_0 ".toList ++ ':' :: "-0,7,ab".toList := by decide +kernel
  rw [e]
  refine .more ?_ (.last ?_)
  · rw [← chipText_iff _ _ (by decide +kernel)]; decide +kernel
  · rw [← chipText_iff _ _ (by decide +kernel)]; decide +kernel

/-- an empty range hides what is wrong with the chip: no core is down, and nothing is refused -/
example : Written (CoreText .v5) "x,y,5-3".toList [[]] ∧
    IgnoreCore.parseString .v5 (some "x,y,5-3".toList) = .ok [] ∧
    IgnoreCore.parseString .v5 (some "x,y,3-5".toList) = .error .valueError := by
  refine ⟨.last ((coreText_iff _ _ _ (by decide +kernel)).1 (by decide +kernel)), by decide +kernel, by decide +kernel⟩

example : Readable .v5 { chips := some "NoNe".toList, cores := some "1,1,-10".toList } ∧
    CoreDown .v5 { cores := some "1,1,-10".toList } (1, 1) 0 := by
  refine ⟨⟨⟨[], by decide +kernel⟩, ⟨[], by decide +kernel⟩, [⟨1, 1, -10, none⟩], by decide +kernel, ?_⟩,
    [⟨1, 1, -10, none⟩], by decide +kernel, ⟨1, 1, -10, none⟩, by simp, rfl, rfl, by decide +kernel, rfl⟩
  intro c hc _
  rw [List.mem_singleton.1 hc]
  exact ⟨0, by decide +kernel⟩

end SpiNN.Props
