import Verif.Props.JsonRead

/-!
# C66: which exception a document that is not accepted leads to
-/

namespace SpiNN.Props
open SpiNN SpiNN.Spec

theorem bind_error_iff {α β : Type} (x : Except PyErr α) (f : α → Except PyErr β) (e : PyErr) :
    (x >>= f) = .error e ↔ x = .error e ∨ ∃ a, x = .ok a ∧ f a = .error e := by
  cases x <;> simp [bind, Except.bind]

theorem ary_err {j : Json} {e : PyErr} (h : j.ary = .error e) : e = .valueError ∧ BadArr (some j) := by
  cases j <;> simp [Json.ary] at h <;> exact ⟨h.symm, ⟨_, rfl⟩, by simp⟩

theorem object_err {j : Json} {e : PyErr} (h : j.object = .error e) : e = .valueError ∧ BadObj (some j) := by
  cases j <;> simp [Json.object] at h <;> exact ⟨h.symm, ⟨_, rfl⟩, by simp⟩

theorem string_err {j : Json} {e : PyErr} (h : j.string = .error e) : e = .valueError ∧ BadStr (some j) := by
  cases j <;> simp [Json.string] at h <;> exact ⟨h.symm, ⟨_, rfl⟩, by simp⟩

theorem pyInt_err {s : PyStr} {e : PyErr} (h : pyInt s = .error e) : e = .valueError := by
  unfold pyInt at h
  repeat' split at h
  all_goals simp at h
  all_goals exact h.symm

theorem int_err {j : Json} {e : PyErr} (h : j.int = .error e) : e = .valueError ∧ BadInt (some j) := by
  refine ⟨?_, ⟨_, rfl⟩, fun n hn => ?_⟩
  · cases j with
    | num n => simp [Json.int] at h
    | str s => exact pyInt_err h
    | bool b => simp [Json.int] at h
    | _ => simpa [Json.int] using h.symm
  · rw [← int_ok, h] at hn
    simp at hn

theorem getE_err {o : PDict String Json} {k : String} {e : PyErr} (h : o.getE k = .error e) :
    e = .keyError ∧ jKey (.obj o.items) k = none := by
  unfold PDict.getE at h
  rw [get?_jKey] at h
  split at h
  · simp at h
  · rename_i h'; exact ⟨by simpa using h.symm, h'⟩

theorem pyIndex_err {l : List Json} {n : Nat} {e : PyErr} (h : pyIndex l (n : Int) = .error e) :
    e = .indexError ∧ l[n]? = none := by
  unfold pyIndex at h
  rw [if_neg (by omega), if_neg (by omega), Int.toNat_natCast] at h
  split at h
  · simp at h
  · rename_i h'; exact ⟨by simpa using h.symm, h'⟩

theorem readRes_err {d : Json} {e : PyErr} (h : readRes d = .error e) : ResFault d e := by
  simp only [readRes, bind_error_iff, object_ok, getE_ok, int_ok, ary_ok] at h
  rcases h with h | ⟨o, rfl, h⟩
  · obtain ⟨rfl, hf⟩ := object_err h
    exact .object hf
  rcases h with h | ⟨mon, h1, h⟩
  · obtain ⟨rfl, hf⟩ := getE_err h
    exact .missing _ "monitors" rfl (by simp) hf
  rcases h with h | ⟨a, h2, h⟩
  · obtain ⟨rfl, hf⟩ := getE_err h
    exact .missing _ "routerEntries" rfl (by simp) hf
  rcases h with h | ⟨n, h3, h⟩
  · obtain ⟨rfl, hf⟩ := int_err h
    exact .int "routerEntries" (by simp) (h2 ▸ hf)
  rcases h with h | ⟨b, h4, h⟩
  · obtain ⟨rfl, hf⟩ := getE_err h
    exact .missing _ "sdram" rfl (by simp) hf
  rcases h with h | ⟨n', h5, h⟩
  · obtain ⟨rfl, hf⟩ := int_err h
    exact .int "sdram" (by simp) (h4 ▸ hf)
  rcases h with h | ⟨t, h6, h⟩
  · obtain ⟨rfl, hf⟩ := getE_err h
    exact .missing _ "tags" rfl (by simp) hf
  rcases h with h | ⟨t', h7, h⟩
  · obtain ⟨rfl, hf⟩ := ary_err h
    exact .tags (h6 ▸ hf)
  · simp at h

theorem readExceptions_err {o : PDict String Json} {r : JRes} {e : PyErr} (h : readExceptions r o = .error e) :
    (∃ k ∈ ["routerEntries", "sdram"], ∃ v, jKey (.obj o.items) k = some v ∧ v.int = .error e) ∨
    (∃ v, jKey (.obj o.items) "tags" = some v ∧ v.ary = .error e) := by
  unfold readExceptions at h
  simp only [get?_jKey] at h
  simp only [List.mem_cons, List.not_mem_nil, or_false, exists_eq_or_imp, exists_eq_left]
  cases hb : jKey (.obj o.items) "routerEntries" <;>
    cases hc : jKey (.obj o.items) "sdram" <;> cases hd : jKey (.obj o.items) "tags" <;>
    simp only [hb, hc, hd, bind_error_iff, Except.ok.injEq, reduceCtorEq, false_or, or_false, and_false,
      exists_false, exists_eq_left', Option.some.injEq, false_and] at h ⊢
  all_goals grind

theorem readOverrides_err {l : List Json} {r : JRes} {e : PyErr} (h : readOverrides l r = .error e) :
    e = .valueError ∧ (BadObj l[3]? ∨
      (∃ k ∈ ["routerEntries", "sdram"], BadInt (l[3]?.bind fun x => jKey x k)) ∨
      BadArr (l[3]?.bind fun x => jKey x "tags")) := by
  unfold readOverrides at h
  split at h
  · rename_i hl
    rw [show (3 : Int) = ((3 : Nat) : Int) from rfl] at h
    simp only [bind_error_iff, pyIndex_ok] at h
    rcases h with h | ⟨x, hx, h⟩
    · obtain ⟨-, h⟩ := pyIndex_err h
      rw [List.getElem?_eq_none_iff] at h
      omega
    rcases h with h | ⟨o, ho, h⟩
    · obtain ⟨rfl, hf⟩ := object_err h
      exact ⟨rfl, .inl (hx ▸ hf)⟩
    rw [object_ok] at ho
    subst ho
    rw [hx]
    simp only [Option.bind_some]
    rcases readExceptions_err h with ⟨k, hk, v, hv, h⟩ | ⟨v, hv, h⟩
    · obtain ⟨rfl, hf⟩ := int_err h
      exact ⟨rfl, .inr (.inl ⟨k, hk, hv ▸ hf⟩)⟩
    · obtain ⟨rfl, hf⟩ := ary_err h
      exact ⟨rfl, .inr (.inr (hv ▸ hf))⟩
  · simp at h

theorem jResource_override {std eth : Json} {l : List Json} {k : String} {v : Json}
    (h : (l[3]?.bind fun x => jKey x k) = some v) : jResource std eth (.arr l) k = some v := by
  unfold jResource jNth
  simp only [h]

theorem mapE_err {f : Json → Except PyErr Int} {l : List Json} {e : PyErr} (h : mapE f l = .error e) :
    ∃ t ∈ l, f t = .error e := by
  induction l with
  | nil => simp [mapE] at h
  | cons a t ih =>
    simp only [mapE] at h
    split at h
    · rename_i e' he
      simp only [Except.error.injEq] at h
      subst h
      exact ⟨a, by simp, he⟩
    · split at h
      · rename_i e' he
        simp only [Except.error.injEq] at h
        subst h
        obtain ⟨t', h1, h2⟩ := ih he
        exact ⟨t', by simp [h1], h2⟩
      · simp at h

theorem readPair_err {o : PDict String Json} {e : PyErr} (h : readPair o = .error e) :
    (e = .keyError ∧ jKey (.obj o.items) "ethernet" = none) ∨
    (e = .valueError ∧ ∃ v, jKey (.obj o.items) "ethernet" = some v ∧ ∀ a b, v ≠ .arr [a, b]) := by
  simp only [readPair, bind_error_iff, getE_ok, ary_ok] at h
  rcases h with h | ⟨v, hv, h⟩
  · exact .inl (getE_err h)
  rcases h with h | ⟨l, rfl, h⟩
  · obtain ⟨rfl, hf⟩ := ary_err h
    exact .inr ⟨rfl, v, hv, fun a b hab => hf.2 _ (by rw [hab])⟩
  · split at h
    · simp at h
    · rename_i hne
      simp only [Except.error.injEq] at h
      exact .inr ⟨h.symm, _, hv, fun a b hab => hne a b (by simpa using hab)⟩

theorem readChip_err (m : Machine) (hw : 0 < m.width) (hh : 0 < m.height) (std eth cj : Json) (s e : JRes)
    (hs : readRes std = .ok s) (he : readRes eth = .ok e) (x : PyErr) (h : readChip m s e cj = .error x) :
    ChipFault std eth cj x := by
  rw [readRes_ok] at hs he
  simp only [readChip, bind_error_iff, ary_ok] at h
  rcases h with h | ⟨l, rfl, h⟩
  · obtain ⟨rfl, hf⟩ := ary_err h
    exact .array hf
  have short : ∀ n : Nat, n ≤ 2 → l[n]? = none → l.length < 3 := by
    intro n hn h
    rw [List.getElem?_eq_none_iff] at h
    omega
  rcases h with h | ⟨d, h2, h⟩
  · obtain ⟨rfl, hf⟩ := pyIndex_err (n := 2) h
    exact .short l rfl (short 2 (by omega) hf)
  have h2' : l[2]? = some d := (pyIndex_ok l 2 _).1 h2
  rcases h with h | ⟨o, ho, h⟩
  · obtain ⟨rfl, hf⟩ := object_err h
    exact .object 2 (by omega) (by omega) (by show BadObj l[2]?; rw [h2']; exact hf)
  rw [object_ok] at ho
  subst ho
  have det : ∀ k, jDetail (.arr l) k = jKey (.obj o.items) k := by
    intro k; simp [jDetail, jNth, h2']
  rcases h with h | ⟨xj, hx, h⟩
  · obtain ⟨rfl, hf⟩ := pyIndex_err (n := 0) h
    exact .short l rfl (short 0 (by omega) hf)
  have hx' : l[0]? = some xj := (pyIndex_ok l 0 _).1 hx
  rcases h with h | ⟨xx, hxx, h⟩
  · obtain ⟨rfl, hf⟩ := int_err h
    exact .xy 0 (by omega) (by show BadInt l[0]?; rw [hx']; exact hf)
  rcases h with h | ⟨yj, hy, h⟩
  · obtain ⟨rfl, hf⟩ := pyIndex_err (n := 1) h
    exact .short l rfl (short 1 (by omega) hf)
  have hy' : l[1]? = some yj := (pyIndex_ok l 1 _).1 hy
  rcases h with h | ⟨yy, hyy, h⟩
  · obtain ⟨rfl, hf⟩ := int_err h
    exact .xy 1 (by omega) (by show BadInt l[1]?; rw [hy']; exact hf)
  rcases h with h | ⟨⟨a, b⟩, hp, h⟩
  · rcases readPair_err h with ⟨rfl, hf⟩ | ⟨rfl, v, hv, hf⟩
    · exact .missing _ "ethernet" h2' (by simp) hf
    · exact .ethernet v (by rw [det]; exact hv) hf
  rw [readPair_ok] at hp
  rcases h with h | ⟨⟨ip, kr⟩, hk, h⟩
  · unfold readKind at h
    rw [get?_jKey] at h
    split at h
    · rename_i v hv
      split at h
      · simp at h
      · rename_i x' hx
        simp only [Except.error.injEq] at h
        subst h
        obtain ⟨rfl, hf⟩ := string_err hx
        exact .ip (by rw [det, hv]; exact hf)
    · simp at h
  rw [readKind_ok] at hk
  have hkr : ResIs (jKey (if (jKey (.obj o.items) "ipAddress").isSome then eth else std)) kr := by
    rw [hk.2]; split <;> assumption
  rcases h with h | ⟨r, hr, h⟩
  · obtain ⟨rfl, hf⟩ := readOverrides_err h
    rcases hf with h | ⟨k, hk, h⟩ | h
    · exact .object 3 (by omega) (by omega) h
    · obtain ⟨⟨v, hv⟩, h'⟩ := h
      refine .int k hk ⟨⟨v, jResource_override hv⟩, ?_⟩
      rw [jResource_override hv, ← hv]
      exact h'
    · obtain ⟨⟨v, hv⟩, h'⟩ := h
      refine .tags ⟨⟨v, jResource_override hv⟩, ?_⟩
      rw [jResource_override hv, ← hv]
      exact h'
  rw [readOverrides_ok _ _ _ hkr] at hr
  simp only [resource_eq std eth l o h2'] at hr
  obtain ⟨hex, q1, q2, q3, q4⟩ := hr
  rcases h with h | ⟨u, hmon, h⟩
  · unfold checkMonitors at h
    split at h
    · rename_i hm
      simp only [Except.error.injEq] at h
      subst h
      refine .monitors ?_
      rw [q1]
      intro v hv hc
      simp only [Option.some.injEq] at hv
      subst hv
      exact hm ((isInt_iff _ _).2 hc)
    · simp at h
  rcases h with h | ⟨dead, hdead, h⟩
  · unfold readDead at h
    rw [get?_jKey] at h
    split at h
    · rename_i v hv
      obtain ⟨rfl, hf⟩ := ary_err h
      exact .deadLinks (by rw [det, hv]; exact hf)
    · simp at h
  rw [readLinks_doc m hw hh] at h
  obtain ⟨r0, hr0, -, -⟩ := docRouter m hw hh dead xx yy r.routerEntries
  rcases h with h | ⟨ls, hls, h⟩
  · simp at h
  simp only [Except.ok.injEq] at hls
  subst hls
  rw [hr0] at h
  rcases h with h | ⟨rt, -, h⟩
  · simp at h
  rcases h with h | ⟨nj, hn, h⟩
  · obtain ⟨rfl, hf⟩ := getE_err h
    exact .missing _ "cores" h2' (by simp) hf
  rw [getE_ok] at hn
  rcases h with h | ⟨n, hni, h⟩
  · obtain ⟨rfl, hf⟩ := int_err h
    exact .cores (by rw [det, hn]; exact hf)
  rcases h with h | ⟨bx, hbx, h⟩
  · obtain ⟨rfl, hf⟩ := int_err h
    exact .ethernetInt a b (by rw [det]; exact hp) (.inl hf)
  rcases h with h | ⟨byy, hby, h⟩
  · obtain ⟨rfl, hf⟩ := int_err h
    exact .ethernetInt a b (by rw [det]; exact hp) (.inr hf)
  rcases h with h | ⟨ts, hts, h⟩
  · obtain ⟨t, ht, h⟩ := mapE_err h
    obtain ⟨rfl, hf⟩ := int_err h
    exact .tag r.tags t q4 ht hf
  · simp at h

/-- reading the list of chips fails because of an entry, or because two have the same coordinates -/
theorem readChips_err (std eth : Json) (s e : JRes)
    (hs : readRes std = .ok s) (he : readRes eth = .ok e) (x : PyErr) : ∀ (js : List Json) (m : Machine)
    (sc : Chips), Rep m sc → 0 < m.width → 0 < m.height → readChips s e js m = .error x →
    (∃ cj ∈ js, ChipFault std eth cj x) ∨ (x = .alreadyExists ∧
      ∃ (b : Nat) (cj : Json) (x y : Int), js[b]? = some cj ∧ JInt (jNth cj 0) x ∧ JInt (jNth cj 1) y ∧
        ((x, y) ∈ sc.map Chip.xy ∨ ∃ a cj', a < b ∧ js[a]? = some cj' ∧ JInt (jNth cj' 0) x ∧
          JInt (jNth cj' 1) y)) := by
  intro js
  induction js with
  | nil => intro m sc _ _ _ h; simp [readChips] at h
  | cons j t ih =>
    intro m sc r hw hh h
    simp only [readChips, bind_error_iff] at h
    rcases h with h | ⟨c, hc, h⟩
    · exact .inl ⟨j, by simp, readChip_err m hw hh std eth j s e hs he x h⟩
    have hd := readChip_sound m hw hh std eth j s e hs he c hc
    have hadd := r.addChip c
    rcases h with h | ⟨m₁, hm, h⟩
    · rw [h] at hadd
      have hx : x = .alreadyExists := by
        unfold Machine.addChip at h
        split at h
        · simpa using h.symm
        · simp at h
      refine .inr ⟨hx, 0, j, c.x, c.y, rfl, hd.x, hd.y, .inl ?_⟩
      apply Decidable.byContradiction
      intro hn
      have : sc.at c.xy = none := Chips.at_eq_none_iff.2 hn
      simp [Chips.add, this] at hadd
    · rw [hm] at hadd
      obtain ⟨-, r₁, f1, f2, f3, f4, -, -, f5, -⟩ := hadd
      rcases ih m₁ _ r₁ (by omega) (by omega) h with ⟨cj, h1, h2⟩ | ⟨rfl, b, cj, a1, a2, h1, h2, h3, h4⟩
      · exact .inl ⟨cj, by simp [h1], h2⟩
      · refine .inr ⟨rfl, b + 1, cj, a1, a2, by simpa using h1, h2, h3, ?_⟩
        rcases h4 with h4 | ⟨a, cj', g1, g2, g3, g4⟩
        · rw [List.map_append, List.mem_append] at h4
          rcases h4 with h4 | h4
          · exact .inl h4
          · simp only [List.map_cons, List.map_nil, List.mem_singleton, Chip.xy, Prod.mk.injEq] at h4
            obtain ⟨rfl, rfl⟩ := h4
            exact .inr ⟨0, j, by omega, rfl, hd.x, hd.y⟩
        · exact .inr ⟨a + 1, cj', by omega, by simpa using g2, g3, g4⟩

/-- C66: the exceptions. If `machine_from_json` raises `e`, then something is wrong with the document that
`e` stands for: KeyError for a missing field, ValueError for a field of the wrong type, IndexError for
an entry with less than three parts, NotImplementedError for a chip that does not have one monitor,
SpinnMachineException for a size the version does not support and
SpinnMachineAlreadyExistsException for two entries with the same coordinates. -/
theorem C66_refusal (v : Version) (j : Json) (e : PyErr) (h : machineFromJson v j = .error e) :
    Fault (SizeOK v.kind) j e := by
  simp only [machineFromJson, bind_error_iff] at h
  rcases h with h | ⟨o, ho, h⟩
  · obtain ⟨rfl, hf⟩ := object_err h
    exact .object hf
  rw [object_ok] at ho
  subst ho
  rcases h with h | ⟨wj, hwj, h⟩
  · obtain ⟨rfl, hf⟩ := getE_err h
    exact .missing _ "width" rfl (by simp) hf
  rw [getE_ok] at hwj
  rcases h with h | ⟨w, hw, h⟩
  · obtain ⟨rfl, hf⟩ := int_err h
    exact .int "width" (by simp) (hwj ▸ hf)
  rcases h with h | ⟨hj, hhj, h⟩
  · obtain ⟨rfl, hf⟩ := getE_err h
    exact .missing _ "height" rfl (by simp) hf
  rw [getE_ok] at hhj
  rcases h with h | ⟨hh, hhh, h⟩
  · obtain ⟨rfl, hf⟩ := int_err h
    exact .int "height" (by simp) (hhj ▸ hf)
  rw [int_ok, ← hwj] at hw
  rw [int_ok, ← hhj] at hhh
  rcases h with h | ⟨m₀, h0, h⟩
  · have : v.kind.verifySize (some w) (some hh) = .error e := by
      unfold VKind.createMachine at h
      split at h
      · rename_i e' he
        simp only [Except.error.injEq] at h
        rw [he, h]
      · simp at h
    have he := verifySize_error _ _ _ _ this
    subst he
    refine .size w hh hw hhh fun hs => ?_
    rw [(verifySize_iff _ _ _).2 ⟨w, hh, rfl, rfl, hs⟩] at this
    simp at this
  rcases h with h | ⟨sj, hsj, h⟩
  · obtain ⟨rfl, hf⟩ := getE_err h
    exact .missing _ "standardResources" rfl (by simp) hf
  rw [getE_ok] at hsj
  rcases h with h | ⟨s, hs, h⟩
  · exact .resources "standardResources" sj e (by simp) hsj (readRes_err h)
  rcases h with h | ⟨ej, hej, h⟩
  · obtain ⟨rfl, hf⟩ := getE_err h
    exact .missing _ "ethernetResources" rfl (by simp) hf
  rw [getE_ok] at hej
  rcases h with h | ⟨er, he, h⟩
  · exact .resources "ethernetResources" ej e (by simp) hej (readRes_err h)
  rcases h with h | ⟨cj, hcj, h⟩
  · obtain ⟨rfl, hf⟩ := getE_err h
    exact .missing _ "chips" rfl (by simp) hf
  rw [getE_ok] at hcj
  rcases h with h | ⟨cs, hcs, h⟩
  · obtain ⟨rfl, hf⟩ := ary_err h
    exact .chips (hcj ▸ hf)
  rw [ary_ok] at hcs
  subst hcs
  rcases h with h | ⟨m₁, h1, h⟩
  · obtain ⟨hsz, rfl⟩ := createMachine_ok h0
    have hpos := hsz.pos
    have r0 := Rep.new (v.kind.wrapFor w hh) w hh v.kind.chipCoreMap "Json"
    rcases readChips_err sj ej s er hs he e cs _ [] r0 hpos.1 hpos.2 h with ⟨c, hc, hf⟩ | ⟨rfl, b, c, x, y, g1, g2, g3, g4⟩
    · exact .chip sj ej c cs e hsj hej hcj hc hf
    · rcases g4 with g4 | ⟨a, c', k1, k2, k3, k4⟩
      · simp at g4
      · exact .twice cs a b c' c x y hcj k1 k2 g1 k3 k4 g2 g3
  · simp at h

theorem resFault_bad {d : Json} {e : PyErr} (h : ResFault d e) : ¬ JDefaults d := by
  rintro ⟨⟨a, ha⟩, ⟨b, hb⟩, ⟨c, hc⟩, ⟨t, ht⟩⟩
  cases h with
  | object h =>
    cases d with
    | obj l => exact h.2 l rfl
    | _ => simp [jKey] at ha
  | missing i k hd hk h =>
    simp only [List.mem_cons, List.not_mem_nil, or_false] at hk
    rcases hk with rfl | rfl | rfl | rfl
    · rw [h] at ha; simp at ha
    · rw [h] at hb; obtain ⟨v, hv⟩ := jInt_some hb; simp at hv
    · rw [h] at hc; obtain ⟨v, hv⟩ := jInt_some hc; simp at hv
    · rw [h] at ht; simp at ht
  | int k hk h =>
    simp only [List.mem_cons, List.not_mem_nil, or_false] at hk
    rcases hk with rfl | rfl
    · exact h.2 _ hb
    · exact h.2 _ hc
  | tags h => exact h.2 _ ht

theorem chipFault_bad {m : Machine} {std eth cj : Json} {e : PyErr} (h : ChipFault std eth cj e) (c : Chip) :
    ¬ DocChip m std eth cj c := by
  intro d
  obtain ⟨a, b, he, ha, hb⟩ := d.ethernet
  obtain ⟨n, hn, -, -⟩ := d.cores
  obtain ⟨js, ts, ht, htl, hti, -⟩ := d.tags
  obtain ⟨dead, hdead, -⟩ := d.links
  have h2 : ∃ i, jNth cj 2 = some (.obj i) := by
    unfold jDetail at he
    cases h : jNth cj 2 with
    | none => simp [h] at he
    | some v =>
      cases v with
      | obj i => exact ⟨i, rfl⟩
      | _ => simp [h, jKey] at he
  obtain ⟨i, h2⟩ := h2
  have det : ∀ k, jDetail cj k = jKey (.obj i) k := by intro k; simp [jDetail, h2]
  cases h with
  | array h =>
    cases cj with
    | arr l => exact h.2 l rfl
    | _ => simp [jNth] at h2
  | short l hl hlen =>
    subst hl
    simp only [jNth] at h2
    have := (List.getElem?_eq_some_iff.1 h2).1
    omega
  | xy k hk h =>
    have : k = 0 ∨ k = 1 := by omega
    rcases this with rfl | rfl
    · exact h.2 _ d.x
    · exact h.2 _ d.y
  | object k hk hk' h =>
    have : k = 2 ∨ k = 3 := by omega
    rcases this with rfl | rfl
    · exact h.2 _ h2
    · obtain ⟨⟨v, hv⟩, h⟩ := h
      obtain ⟨l, rfl⟩ := d.exceptions v hv
      exact h l hv
  | missing i' k hi hk h =>
    rw [h2] at hi
    simp only [Option.some.injEq, Json.obj.injEq] at hi
    subst hi
    rw [← det] at h
    simp only [List.mem_cons, List.not_mem_nil, or_false] at hk
    rcases hk with rfl | rfl
    · rw [he] at h; simp at h
    · obtain ⟨v, hv⟩ := jInt_some hn
      rw [hv] at h; simp at h
  | ethernet v hv h =>
    rw [he] at hv
    exact h a b (by simpa using hv.symm)
  | ethernetInt a' b' hv h =>
    rw [he] at hv
    simp only [Option.some.injEq, Json.arr.injEq, List.cons.injEq, and_true] at hv
    obtain ⟨rfl, rfl⟩ := hv
    rcases h with h | h
    · exact h.2 _ ha
    · exact h.2 _ hb
  | cores h => exact h.2 _ hn
  | ip h =>
    obtain ⟨⟨v, hv⟩, h⟩ := h
    have hip := d.ip
    rw [hv] at hip h
    cases hc : c.ip with
    | none => simp [hc] at hip
    | some a => rw [hc] at hip; exact h a hip
  | deadLinks h =>
    obtain ⟨⟨v, hv⟩, h⟩ := h
    rcases hdead with ⟨h', -⟩ | h'
    · rw [hv] at h'; simp at h'
    · exact h _ h'
  | monitors h =>
    obtain ⟨v, hv, h1⟩ := d.monitors
    exact h v hv h1
  | int k hk h =>
    simp only [List.mem_cons, List.not_mem_nil, or_false] at hk
    rcases hk with rfl | rfl
    · exact h.2 _ d.entries
    · exact h.2 _ d.sdram
  | tags h => exact h.2 _ ht
  | tag l t hl hmem h =>
    rw [ht] at hl
    simp only [Option.some.injEq, Json.arr.injEq] at hl
    subst hl
    obtain ⟨k, hk, rfl⟩ := List.getElem_of_mem hmem
    exact h.2 _ (hti k js[k] (ts[k]'(by omega)) (by simp) (by simp))

/-- C66: a document with any of the faults is refused, with the exception of one of its faults. So if
all that is wrong with it stands for the same exception, that is the one raised. -/
theorem C66_faulty (v : Version) (j : Json) (e : PyErr) (hf : Fault (SizeOK v.kind) j e) :
    ∃ e', machineFromJson v j = .error e' ∧ Fault (SizeOK v.kind) j e' := by
  cases hm : machineFromJson v j with
  | error e' => exact ⟨e', rfl, C66_refusal v j e' hm⟩
  | ok m =>
    exfalso
    obtain ⟨⟨d1, d2, std, eth, es, d3, d4, d5, d6, d7, d8, d9⟩, hn, m₀, h0, -⟩ := C66_read v j m hm
    obtain ⟨hsz, -⟩ := createMachine_ok h0
    cases hf with
    | object h =>
      cases j with
      | obj l => exact h.2 l rfl
      | _ => simp [jKey] at d3
    | missing i k hi hk h =>
      obtain ⟨a, ha⟩ := jInt_some d1
      obtain ⟨b, hb⟩ := jInt_some d2
      simp only [List.mem_cons, List.not_mem_nil, or_false] at hk
      rcases hk with rfl | rfl | rfl | rfl | rfl <;> simp_all
    | int k hk h =>
      simp only [List.mem_cons, List.not_mem_nil, or_false] at hk
      rcases hk with rfl | rfl
      · exact h.2 _ d1
      · exact h.2 _ d2
    | size w hh hw hh' hs =>
      rw [jInt_unique hw d1, jInt_unique hh' d2] at hs
      exact hs hsz
    | resources k d e hk hd h =>
      simp only [List.mem_cons, List.not_mem_nil, or_false] at hk
      rcases hk with rfl | rfl
      · rw [d3] at hd
        simp only [Option.some.injEq] at hd
        exact resFault_bad h (hd ▸ d6)
      · rw [d4] at hd
        simp only [Option.some.injEq] at hd
        exact resFault_bad h (hd ▸ d7)
    | chips h => exact h.2 _ d5
    | chip std' eth' cj es' e g1 g2 g3 g4 g5 =>
      rw [d3] at g1; rw [d4] at g2; rw [d5] at g3
      simp only [Option.some.injEq, Json.arr.injEq] at g1 g2 g3
      subst g1 g2 g3
      obtain ⟨k, hk, rfl⟩ := List.getElem_of_mem g4
      exact chipFault_bad g5 _ (d9 k es[k] (m.chipList[k]'(by omega)) (by simp) (by simp))
    | twice es' a b cj cj' x y g1 g2 g3 g4 g5 g6 g7 g8 =>
      rw [d5] at g1
      simp only [Option.some.injEq, Json.arr.injEq] at g1
      subst g1
      have hb : b < m.chipList.length := by
        rw [← d8]; exact (List.getElem?_eq_some_iff.1 g4).1
      have ha : a < m.chipList.length := by omega
      have da := d9 a cj m.chipList[a] g3 (by simp)
      have db := d9 b cj' m.chipList[b] g4 (by simp)
      have heq : m.chipList[a].xy = m.chipList[b].xy := by
        simp only [Chip.xy, jInt_unique da.x g5, jInt_unique da.y g6, jInt_unique db.x g7, jInt_unique db.y g8]
      have := List.pairwise_iff_getElem.1 hn a b (by simpa using ha) (by simpa using hb) g2
      simp only [List.getElem_map] at this
      exact this heq

/-- documents for the example: size 8 by 8, these entries -/
def exDocOf (es : List Json) : Json :=
  let res : Json := .obj [("monitors", .num 1), ("routerEntries", .num 1023), ("sdram", .num 100), ("tags", .arr [])]
  .obj [("height", .num 8), ("width", .num 8), ("standardResources", res), ("ethernetResources", res),
    ("chips", .arr es)]

/-- an entry for the example -/
def exEntry (x : Json) (more : List Json) : Json :=
  .arr ([x, .num 0, .obj [("cores", .num 18), ("ethernet", jNums [0, 0])]] ++ more)

/-- which exception, if any -/
def raisedBy (j : Json) : Option PyErr :=
  match machineFromJson exV5 j with | .ok _ => none | .error e => some e

/-- non-vacuity: all of these faults occur, and the entries without a fault are accepted -/
example : raisedBy (exDocOf [exEntry (.num 0) [], exEntry (.num 1) []]) = none ∧
    raisedBy (exDocOf [exEntry (.num 0) [], exEntry (.num 1) [], exEntry (.str "1".toList) []]) = some .alreadyExists ∧
    raisedBy (exDocOf [exEntry (.num 0) [], exEntry (.str "x".toList) []]) = some .valueError ∧
    raisedBy (exDocOf [exEntry (.num 0) [], .arr [.num 1, .num 1]]) = some .indexError ∧
    raisedBy (exDocOf [exEntry (.num 0) [.obj [("monitors", .num 2)]]]) = some .notImplemented ∧
    raisedBy (exDocOf [.arr [.num 0, .num 0, .obj [("cores", .num 18)]]]) = some .keyError ∧
    raisedBy (.obj [("width", .num 8), ("height", .num 9)]) = some .machine ∧
    raisedBy (exDocOf [exEntry (.num 0) [.obj [("monitors", .float (some 1))]], exEntry (.bool true) []]) = none ∧
    raisedBy (exDocOf [exEntry (.num 0) [], exEntry (.num 1) [], exEntry (.bool true) []]) = some .alreadyExists ∧
    raisedBy (exDocOf [exEntry (.float (some 0)) []]) = some .valueError ∧
    raisedBy (exDocOf [exEntry .null []]) = some .valueError ∧
    raisedBy (exDocOf [exEntry (.num 0) [.obj [("monitors", .float (some (3/2)))]]]) = some .notImplemented := by
  decide +kernel

end SpiNN.Props
