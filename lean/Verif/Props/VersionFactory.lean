import Verif.Spec.VersionFactory
import Verif.Props.Boards

namespace SpiNN.Props
open SpiNN SpiNN.Spec SpiNN.VersionFactory

/-! ## C58 -/

/-- C58: a version is made exactly if neither width nor height is configured or both are, with a size
that the version supports; otherwise SpinnMachineException. -/
theorem C58_accepts_exactly (k : VKind) (cfg : Cfg) :
    ((∃ v, Version.init k cfg = .ok v) ↔ (cfg.width = none ∧ cfg.height = none) ∨
      ∃ w h, cfg.width = some w ∧ cfg.height = some h ∧ SizeOK k w h) ∧
    (∀ e, Version.init k cfg = .error e → e = .machine) := by
  have hv : ∀ w h, (k.verifySize (some w) (some h) = .ok () ↔ SizeOK k w h) := by
    intro w h
    rw [verifySize_iff]
    constructor
    · rintro ⟨a, b, ha, hb, hs⟩
      simp only [Option.some.injEq] at ha hb
      subst ha; subst hb; exact hs
    · intro hs; exact ⟨w, h, rfl, rfl, hs⟩
  unfold Version.init Version.verifyConfigSize
  cases hw : cfg.width with
  | none =>
    cases hh : cfg.height with
    | none => simp
    | some h => simp
  | some w =>
    cases hh : cfg.height with
    | none => simp
    | some h =>
      simp only
      have := hv w h
      cases hs : k.verifySize (some w) (some h) with
      | ok u => rw [hs] at this; simpa using this
      | error e =>
        rw [hs] at this
        have he := verifySize_error _ _ _ _ hs
        simp_all

/-- C58: the limits are the smaller of the hardware's and the configured ones. -/
theorem C58_limits (k : VKind) (cfg : Cfg) (v : Version) (hv : Version.init k cfg = .ok v) :
    v.kind = k ∧
    v.maxCores = (let dflt := if k = .v3 ∨ k = .v5 then 18 else 153
      match cfg.maxMachineCore with
      | none => dflt
      | some n => min n dflt) ∧
    v.maxSdram = (let dflt := if k = .v3 ∨ k = .v5 then 123469792 else 1073741824
      match cfg.maxSdram with
      | none => dflt
      | some n => min n dflt) := by
  unfold Version.init at hv
  split at hv
  · simp at hv
  · simp only [Except.ok.injEq] at hv
    subst hv
    refine ⟨rfl, ?_, ?_⟩
    · cases h : cfg.maxMachineCore <;> cases k <;> simp [Version.limit, VKind.defaultMaxCores, VKind.isSpin1] <;>
        split <;> omega
    · cases h : cfg.maxSdram <;> cases k <;> simp [Version.limit, VKind.defaultMaxSdram, VKind.isSpin1] <;>
        split <;> omega

example : ∃ v, Version.init .v5 { width := some 16, height := some 12, maxMachineCore := some 10 } = .ok v ∧
    v.maxCores = 10 := ⟨_, rfl, rfl⟩
example : Version.init .v5 { width := some 16 } = .error .machine := rfl

/-! ## C57 -/


theorem shorten_eq (s : PyStr) : VersionStrings.shorten s = squash s := by
  unfold VersionStrings.shorten squash pyLower
  rw [List.filter_filter, List.filter_filter]
  refine List.filter_congr fun c _ => ?_
  by_cases h1 : c = '_' <;> by_cases h2 : c = '-' <;> by_cases h3 : c = ' ' <;> simp [h1, h2, h3]

/-- the group of a version string -/
def groupOf (vs : VersionStrings) : String × List Int :=
  match vs with
  | .any => ("any", vs.options) | .fourPlus => ("fourplus", vs.options) | .big => ("big", vs.options)
  | .eightByEight => ("eightbyeigth", vs.options) | .withFpgas => ("withfpgas", vs.options)

theorem groupOf_spec (vs : VersionStrings) : groupOf vs ∈ groups ∧ (groupOf vs).1.toList = vs.shortStr ∧
    (groupOf vs).2 = vs.options ∧ vs ∈ VersionStrings.all ∧ 0 < vs.options.length := by
  cases vs <;> decide +kernel

theorem groups_spec (g : String × List Int) (hg : g ∈ groups) : ∃ vs, groupOf vs = g := by
  simp only [groups, List.mem_cons, List.not_mem_nil, or_false] at hg
  rcases hg with rfl | rfl | rfl | rfl | rfl
  · exact ⟨.any, rfl⟩
  · exact ⟨.fourPlus, rfl⟩
  · exact ⟨.big, rfl⟩
  · exact ⟨.eightByEight, rfl⟩
  · exact ⟨.withFpgas, rfl⟩

theorem shortStr_inj (a b : VersionStrings) (h : a.shortStr = b.shortStr) : a = b := by
  revert h; cases a <;> cases b <;> decide +kernel

theorem fromString_ok (s : PyStr) (vs : VersionStrings) :
    VersionStrings.fromString s = .ok vs ↔ squash s = vs.shortStr := by
  unfold VersionStrings.fromString
  rw [shorten_eq]
  cases h : VersionStrings.all.find? fun vs => squash s = vs.shortStr with
  | none =>
    rw [List.find?_eq_none] at h
    have := h vs (groupOf_spec vs).2.2.2.1
    simpa using this
  | some u =>
    have hu := List.find?_some h
    simp only [decide_eq_true_eq] at hu
    simp only [Except.ok.injEq]
    constructor
    · rintro rfl; exact hu
    · intro hv; exact shortStr_inj _ _ (hu.symm.trans hv)

theorem fromString_error (s : PyStr) (e : PyErr) (h : VersionStrings.fromString s = .error e) : e = .machine := by
  unfold VersionStrings.fromString at h
  split at h <;> simp_all

theorem pyIndex_mod (l : List Int) (hl : 0 < l.length) (minor : Int) :
    ∃ k : Nat, (k : Int) = minor % l.length ∧ ∃ n, l[k]? = some n ∧
      pyIndex l (pmod minor l.length) = .ok n := by
  have h1 := Int.emod_nonneg minor (b := (l.length : Int)) (by omega)
  have h2 := Int.emod_lt_of_pos minor (b := (l.length : Int)) (by omega)
  have hp : pmod minor l.length = minor % (l.length : Int) := pmod_eq_emod (by omega)
  refine ⟨(minor % (l.length : Int)).toNat, by omega, l[(minor % (l.length : Int)).toNat]'(by omega),
    List.getElem?_eq_getElem _, ?_⟩
  unfold pyIndex
  rw [hp]
  rw [if_neg (by omega)]
  rw [if_neg (by omega), List.getElem?_eq_getElem (by omega)]

theorem getCfgVersion_ok (minor : Int) (cfg : MachineCfg) (a : Option Int) :
    getCfgVersion minor cfg = .ok a ↔ Asks minor cfg a := by
  unfold getCfgVersion
  cases h2 : cfg.versions with
  | none =>
    simp only [Except.ok.injEq]
    constructor
    · rintro rfl
      cases h1 : cfg.version with
      | none => exact .nothing h1 h2
      | some n => exact .number n h1 h2
    · intro h
      cases h with
      | nothing h1 _ => exact h1
      | number n h1 _ => exact h1
      | group s _ _ _ _ _ h2' => rw [h2] at h2'; simp at h2'
  | some s =>
    cases h1 : cfg.version with
    | some n =>
      simp only [reduceCtorEq, false_iff]
      intro h
      cases h with
      | nothing h1' _ => rw [h1] at h1'; simp at h1'
      | number n _ h2' => rw [h2] at h2'; simp at h2'
      | group s _ _ _ _ h1' => rw [h1] at h1'; simp at h1'
    | none =>
      cases hf : VersionStrings.fromString s with
      | error e =>
        simp only [hf, reduceCtorEq, false_iff]
        intro h
        cases h with
        | nothing _ h2' => rw [h2] at h2'; simp at h2'
        | number n _ h2' => rw [h2] at h2'; simp at h2'
        | group s' name l k n _ h2' hl hs hk hn =>
          rw [h2] at h2'
          simp only [Option.some.injEq] at h2'
          subst h2'
          obtain ⟨vs, hvs⟩ := groups_spec _ hl
          have := (fromString_ok s vs).2 (by rw [hs, ← (groupOf_spec vs).2.1, hvs])
          rw [hf] at this; simp at this
      | ok vs =>
        obtain ⟨g1, g2, g3, -, g5⟩ := groupOf_spec vs
        obtain ⟨k, hk, n, hn, hp⟩ := pyIndex_mod vs.options g5 minor
        simp only [hf, hp, Except.ok.injEq]
        have hs := (fromString_ok s vs).1 hf
        constructor
        · rintro rfl
          exact .group s (groupOf vs).1 vs.options k n h1 h2 (by rw [← g3]; exact g1) (by rw [hs, g2]) hk hn
        · intro h
          cases h with
          | nothing _ h2' => rw [h2] at h2'; simp at h2'
          | number n _ h2' => rw [h2] at h2'; simp at h2'
          | group s' name l k' n' _ h2' hl hs' hk' hn' =>
            rw [h2] at h2'
            simp only [Option.some.injEq] at h2'
            subst h2'
            obtain ⟨us, hus⟩ := groups_spec _ hl
            have hu : us = vs := by
              apply shortStr_inj
              rw [← hs, hs', ← (groupOf_spec us).2.1, hus]
            subst hu
            have hl' : l = us.options := by rw [← (groupOf_spec us).2.2.1, hus]
            subst hl'
            have : k' = k := by omega
            subst this
            rw [hn] at hn'
            exact hn'

theorem getCfgVersion_error (minor : Int) (cfg : MachineCfg) (e : PyErr)
    (h : getCfgVersion minor cfg = .error e) : e = .machine := by
  unfold getCfgVersion at h
  split at h
  · simp at h
  · split at h
    · simpa using h.symm
    · split at h
      · rename_i hf; simp only [Except.error.injEq] at h; subst h; exact fromString_error _ _ hf
      · rename_i vs hf
        obtain ⟨-, -, -, -, g5⟩ := groupOf_spec vs
        obtain ⟨k, hk, n, hn, hp⟩ := pyIndex_mod vs.options g5 minor
        rw [hp] at h; simp at h

theorem getUrlVersion_eq (cfg : MachineCfg) : getUrlVersion cfg =
    if Conflicting cfg then .error .machine else .ok (if HasServer cfg then some 5 else none) := by
  obtain ⟨c, v, vs, s, r, m, b⟩ := cfg
  cases s <;> cases r <;> cases m <;> cases b <;> simp [getUrlVersion, Conflicting, HasServer]

theorem numberToVersion_ok (cfg : MachineCfg) (n : Int) (v : Version) :
    numberToVersion cfg n = .ok v ↔ Numbered v.kind n ∧ Version.init v.kind cfg.toCfg = .ok v := by
  have hk : ∀ k, Version.init k cfg.toCfg = .ok v → v.kind = k := fun k h => (C58_limits k _ v h).1
  unfold numberToVersion
  constructor
  · intro h
    split at h
    · have := hk _ h; rw [this]; exact ⟨by assumption, h⟩
    · split at h
      · have := hk _ h; rw [this]; exact ⟨by assumption, h⟩
      · split at h
        · have := hk _ h; rw [this]; exact ⟨by assumption, h⟩
        · split at h
          · have := hk _ h; rw [this]; exact ⟨by assumption, h⟩
          · simp at h
  · rintro ⟨h1, h2⟩
    cases hkk : v.kind <;> rw [hkk] at h1 h2 <;> simp only [Numbered] at h1
    · rw [if_pos h1]; exact h2
    · rw [if_neg (by omega), if_pos h1]; exact h2
    · rw [if_neg (by omega), if_neg (by omega), if_pos h1]; exact h2
    · rw [if_neg (by omega), if_neg (by omega), if_neg (by omega), if_pos h1]; exact h2

theorem numberToVersion_error (cfg : MachineCfg) (n : Int) (e : PyErr)
    (h : numberToVersion cfg n = .error e) : e = .machine := by
  unfold numberToVersion at h
  split at h
  · exact (C58_accepts_exactly _ _).2 e h
  · split at h
    · exact (C58_accepts_exactly _ _).2 e h
    · split at h
      · exact (C58_accepts_exactly _ _).2 e h
      · split at h
        · exact (C58_accepts_exactly _ _).2 e h
        · simpa using h.symm

/-- C57: every failure is a SpinnMachineException. -/
theorem C57_errors (minor : Int) (cfg : MachineCfg) (e : PyErr) (h : versionFactory minor cfg = .error e) :
    e = .machine := by
  unfold versionFactory at h
  cases hc : getCfgVersion minor cfg with
  | error e' =>
    simp only [hc, bind, Except.bind, Except.error.injEq] at h
    subst h; exact getCfgVersion_error _ _ _ hc
  | ok a =>
    cases hu : getUrlVersion cfg with
    | error e' =>
      rw [getUrlVersion_eq] at hu
      split at hu
      · rw [getUrlVersion_eq, hc] at h
        simp_all [bind, Except.bind]
      · simp at hu
    | ok u =>
      cases hs : getSizeVersion cfg with
      | error e' =>
        simp only [hc, hu, hs, bind, Except.bind, Except.error.injEq] at h
        subst h
        unfold getSizeVersion at hs
        split at hs
        · split at hs <;> simp_all
        · split at hs
          · simpa using hs.symm
          · split at hs
            · simp at hs
            · split at hs <;> simp at hs
      | ok sv =>
        have hn := fun n e' => numberToVersion_error cfg n e'
        simp only [hc, hu, hs, bind, Except.bind] at h
        have hvo : ∀ e', versionOf cfg a u = .error e' → e' = .machine := by
          intro e' he
          unfold versionOf at he
          cases a with
          | none =>
            cases u with
            | none => simp at he
            | some u =>
              simp only [bind, Except.bind] at he
              cases hx : numberToVersion cfg u with
              | ok x => simp [hx] at he
              | error x => simp only [hx, Except.error.injEq] at he; subst he; exact hn _ _ hx
          | some c =>
            cases u with
            | none =>
              simp only [bind, Except.bind] at he
              cases hx : numberToVersion cfg c with
              | ok x => simp [hx] at he
              | error x => simp only [hx, Except.error.injEq] at he; subst he; exact hn _ _ hx
            | some u =>
              simp only [bind, Except.bind] at he
              cases hx : numberToVersion cfg c with
              | error x => simp only [hx, Except.error.injEq] at he; subst he; exact hn _ _ hx
              | ok x =>
                cases hy : numberToVersion cfg u with
                | error y => simp only [hx, hy, Except.error.injEq] at he; subst he; exact hn _ _ hy
                | ok y =>
                  simp only [hx, hy] at he
                  split at he
                  · simp at he
                  · simpa using he.symm
        cases hv : versionOf cfg a u with
        | error e' => simp only [hv, Except.error.injEq] at h; subst h; exact hvo _ hv
        | ok ov =>
          simp only [hv] at h
          cases sv with
          | none => cases ov <;> simp_all
          | some s =>
            cases ov with
            | none => exact hn _ _ h
            | some v =>
              cases hx : numberToVersion cfg s with
              | error x => simp only [hx, Except.error.injEq] at h; subst h; exact hn _ _ hx
              | ok x =>
                simp only [hx] at h
                split at h
                · simp at h
                · simpa using h.symm

/-- the settings that give a size, and the version number it stands for -/
theorem getSizeVersion_ok (cfg : MachineCfg) (s : Option Int) : getSizeVersion cfg = .ok s ↔
    (cfg.width = none ∧ cfg.height = none ∧ s = none) ∨
    ∃ w h, cfg.width = some w ∧ cfg.height = some h ∧
      s = some (if w = 2 ∧ h = 2 then 3 else if w = 1 ∧ h = 1 then 201 else 5) := by
  unfold getSizeVersion
  cases hh : cfg.height <;> cases hw : cfg.width <;> simp
  · exact eq_comm
  · rename_i h w
    by_cases h1 : w = 2 ∧ h = 2
    · obtain ⟨rfl, rfl⟩ := h1; simp [eq_comm]
    · have h1' : ¬ (h = w ∧ w = 2) := by omega
      by_cases h2 : w = 1 ∧ h = 1
      · obtain ⟨rfl, rfl⟩ := h2; simp [eq_comm]
      · have h2' : ¬ (h = w ∧ w = 1) := by omega
        simp [h1, h1', h2, h2', eq_comm]

/-- the version of the number and of the server -/
theorem versionOf_ok (cfg : MachineCfg) (a u : Option Int) (ov : Option Version) :
    versionOf cfg a u = .ok ov ↔ (a = none ∧ u = none ∧ ov = none) ∨
      ∃ v, ov = some v ∧ (a ≠ none ∨ u ≠ none) ∧ Version.init v.kind cfg.toCfg = .ok v ∧
        (∀ n, a = some n → Numbered v.kind n) ∧ (∀ n, u = some n → Numbered v.kind n) := by
  have hn := numberToVersion_ok cfg
  have one : ∀ n : Int, (numberToVersion cfg n >>= fun v => Except.ok (some v)) = .ok ov ↔ ∃ v, ov = some v ∧ Version.init v.kind cfg.toCfg = .ok v ∧ Numbered v.kind n := by
    intro n
    cases hx : numberToVersion cfg n with
    | error e =>
      simp only [bind, Except.bind, reduceCtorEq, false_iff]
      rintro ⟨v, -, h1, h2⟩
      rw [(hn n v).2 ⟨h2, h1⟩] at hx; simp at hx
    | ok x =>
      simp only [bind, Except.bind, Except.ok.injEq]
      have hx' := (hn n x).1 hx
      constructor
      · rintro rfl; exact ⟨x, rfl, hx'.2, hx'.1⟩
      · rintro ⟨v, rfl, h1, h2⟩
        have := (hn n v).2 ⟨h2, h1⟩
        rw [hx] at this
        simpa using this
  unfold versionOf
  cases a with
  | none =>
    cases u with
    | none => simp [eq_comm]
    | some u => refine (one _).trans ?_; simp
  | some c =>
    cases u with
    | none => refine (one _).trans ?_; simp
    | some u =>
      simp only [bind, Except.bind]
      cases hx : numberToVersion cfg c with
      | error e =>
        simp only [reduceCtorEq, false_iff, false_and, false_or, not_exists, not_and]
        rintro v - - h1 h2 -
        rw [(hn c v).2 ⟨h2 c rfl, h1⟩] at hx; simp at hx
      | ok x =>
        have hx' := (hn c x).1 hx
        cases hy : numberToVersion cfg u with
        | error e =>
          simp only [reduceCtorEq, false_iff, false_and, false_or, not_exists, not_and]
          rintro v - - h1 - h3
          rw [(hn u v).2 ⟨h3 u rfl, h1⟩] at hy; simp at hy
        | ok y =>
          have hy' := (hn u y).1 hy
          simp only [Version.eq, decide_eq_true_eq]
          by_cases he : x.kind = y.kind
          · simp only [he, if_true, Except.ok.injEq]
            constructor
            · rintro rfl
              refine .inr ⟨x, rfl, by simp, hx'.2, ?_, ?_⟩
              · intro n hn; simp only [Option.some.injEq] at hn; subst hn; exact hx'.1
              · intro n hn; simp only [Option.some.injEq] at hn; subst hn; rw [he]; exact hy'.1
            · rintro (⟨h, -⟩ | ⟨v, rfl, -, h1, h2, h3⟩)
              · simp at h
              · have := (hn c v).2 ⟨h2 c rfl, h1⟩
                rw [hx] at this
                simpa using this
          · simp only [he, if_false, reduceCtorEq, false_iff, false_and, false_or, not_exists, not_and]
            rintro v - - h1 h2 h3
            have e1 := (hn c v).2 ⟨h2 c rfl, h1⟩
            have e2 := (hn u v).2 ⟨h3 u rfl, h1⟩
            rw [hx] at e1; rw [hy] at e2
            simp only [Except.ok.injEq] at e1 e2
            exact he (by rw [e1, e2])

theorem numbered_inj (k k' : VKind) (n : Int) (h : Numbered k n) (h' : Numbered k' n) : k = k' := by
  cases k <;> cases k' <;> simp only [Numbered] at h h' <;> first | rfl | omega

/-- all of `version_factory` -/
theorem versionFactory_ok (minor : Int) (cfg : MachineCfg) (v : Version) :
    versionFactory minor cfg = .ok v ↔ ¬ Conflicting cfg ∧ Version.init v.kind cfg.toCfg = .ok v ∧
      ∃ a, Asks minor cfg a ∧ (∀ n, a = some n → Numbered v.kind n) ∧ (HasServer cfg → v.kind = .v5) ∧
      ((cfg.width = none ∧ cfg.height = none ∧ (a ≠ none ∨ HasServer cfg)) ∨
       ∃ w h, cfg.width = some w ∧ cfg.height = some h ∧
        Numbered v.kind (if w = 2 ∧ h = 2 then 3 else if w = 1 ∧ h = 1 then 201 else 5)) := by
  have num5 : ∀ k, Numbered k 5 ↔ k = .v5 := by intro k; cases k <;> simp [Numbered]
  have initk : ∀ v' : Version, Version.init v'.kind cfg.toCfg = .ok v' → v'.kind = v.kind →
      Version.init v.kind cfg.toCfg = .ok v → v' = v := by
    intro v' h1 h2 h3
    rw [h2, h3] at h1; simpa using h1.symm
  unfold versionFactory
  rw [getUrlVersion_eq]
  by_cases hcf : Conflicting cfg
  · simp only [hcf, if_true, not_true, false_and, iff_false]
    cases getCfgVersion minor cfg <;> simp [bind, Except.bind]
  · simp only [hcf, if_false, not_false_iff, true_and]
    constructor
    · intro h
      cases hc : getCfgVersion minor cfg with
      | error e => simp [hc, bind, Except.bind] at h
      | ok a =>
        have ha := (getCfgVersion_ok minor cfg a).1 hc
        cases hs : getSizeVersion cfg with
        | error e => simp [hc, hs, bind, Except.bind] at h
        | ok s =>
          simp only [hc, hs, bind, Except.bind] at h
          cases hv : versionOf cfg a (if HasServer cfg then some 5 else none) with
          | error e => simp [hv] at h
          | ok ov =>
            simp only [hv] at h
            rw [versionOf_ok] at hv
            rw [getSizeVersion_ok] at hs
            rcases hv with ⟨rfl, hsv, rfl⟩ | ⟨x, rfl, hx1, hx2, hx3, hx4⟩
            · have hns : ¬ HasServer cfg := by intro hh; simp [hh] at hsv
              rcases hs with ⟨-, -, rfl⟩ | ⟨w, hh, hw, hhh, rfl⟩
              · simp at h
              · simp only at h
                obtain ⟨n1, n2⟩ := (numberToVersion_ok _ _ _).1 h
                exact ⟨n2, none, ha, by simp, fun h => absurd h hns, .inr ⟨w, hh, hw, hhh, n1⟩⟩
            · have hserver : HasServer cfg → x.kind = .v5 := by
                intro hh; exact (num5 _).1 (hx4 5 (by simp [hh]))
              rcases hs with ⟨hw, hhh, rfl⟩ | ⟨w, hh, hw, hhh, rfl⟩
              · simp only [Except.ok.injEq] at h
                subst h
                refine ⟨hx2, a, ha, hx3, hserver, .inl ⟨hw, hhh, ?_⟩⟩
                rcases hx1 with h | h
                · exact .inl h
                · refine .inr (Classical.byContradiction fun hh => h (by simp [hh]))
              · simp only at h
                split at h
                · simp at h
                · rename_i y hy
                  obtain ⟨n1, n2⟩ := (numberToVersion_ok _ _ _).1 hy
                  split at h
                  · rename_i heq
                    simp only [Except.ok.injEq] at h
                    subst h
                    simp only [Version.eq, decide_eq_true_eq] at heq
                    exact ⟨hx2, a, ha, hx3, hserver, .inr ⟨w, hh, hw, hhh, by rw [heq]; exact n1⟩⟩
                  · simp at h
    · rintro ⟨hi, a, ha, h1, h2, h3⟩
      have hc := (getCfgVersion_ok minor cfg a).2 ha
      simp only [hc, bind, Except.bind]
      have huv : ∀ n, (if HasServer cfg then some (5 : Int) else none) = some n → Numbered v.kind n := by
        intro n hn
        split at hn
        · rename_i hh
          simp only [Option.some.injEq] at hn
          subst hn; rw [h2 hh]; exact .inr rfl
        · simp at hn
      rcases h3 with ⟨hw, hh, h3⟩ | ⟨w, h, hw, hh, h3⟩
      · have hs := (getSizeVersion_ok cfg none).2 (.inl ⟨hw, hh, rfl⟩)
        have hv := (versionOf_ok cfg a (if HasServer cfg then some 5 else none) (some v)).2
          (.inr ⟨v, rfl, by
            rcases h3 with h | h
            · exact .inl h
            · exact .inr (by simp [h]), hi, h1, huv⟩)
        simp [hs, hv]
      · have hs := (getSizeVersion_ok cfg _).2 (.inr ⟨w, h, hw, hh, rfl⟩)
        have hnv := (numberToVersion_ok cfg _ v).2 ⟨h3, hi⟩
        by_cases hsome : a ≠ none ∨ HasServer cfg
        · have hv := (versionOf_ok cfg a (if HasServer cfg then some 5 else none) (some v)).2
            (.inr ⟨v, rfl, by
              rcases hsome with h | h
              · exact .inl h
              · exact .inr (by simp [h]), hi, h1, huv⟩)
          simp only [hs, hv, hnv]
          simp [Version.eq]
        · have hnone : a = none ∧ ¬ HasServer cfg :=
            ⟨Classical.byContradiction fun h => hsome (.inl h), fun h => hsome (.inr h)⟩
          have hv := (versionOf_ok cfg a (if HasServer cfg then some 5 else none) none).2
            (.inl ⟨hnone.1, by simp [hnone.2], rfl⟩)
          simp only [hs, hv, hnv]

/-- C57: a version that is returned agrees with every setting; there is at least one setting that
identifies it and no conflict; and it has the limits of its class (`C58`). -/
theorem C57_sound (minor : Int) (cfg : MachineCfg) (v : Version) (h : versionFactory minor cfg = .ok v) :
    ¬ Conflicting cfg ∧ Identified cfg ∧ Agrees minor cfg v.kind ∧ Version.init v.kind cfg.toCfg = .ok v := by
  obtain ⟨h1, h2, a, ha, h3, h4, h5⟩ := (versionFactory_ok minor cfg v).1 h
  have hsize := (C58_accepts_exactly v.kind cfg.toCfg).1.1 ⟨v, h2⟩
  refine ⟨h1, ?_, ⟨⟨a, ha, h3⟩, h4, hsize⟩, h2⟩
  rcases h5 with ⟨-, -, h5 | h5⟩ | ⟨w, h, hw, hh, -⟩
  · cases ha with
    | nothing => simp at h5
    | number n h => exact .inl (by simp [h])
    | group s _ _ _ _ _ h => exact .inr (.inl (by simp [h]))
  · exact .inr (.inr (.inl h5))
  · exact .inr (.inr (.inr ⟨by simp [hw], by simp [hh]⟩))

/-- C57: a conflict, no setting that identifies the version, or settings that no version agrees with
raise SpinnMachineException. -/
theorem C57_refused (minor : Int) (cfg : MachineCfg)
    (h : Conflicting cfg ∨ ¬ Identified cfg ∨ ¬ ∃ k, Agrees minor cfg k) :
    versionFactory minor cfg = .error .machine := by
  cases hv : versionFactory minor cfg with
  | error e => rw [C57_errors minor cfg e hv]
  | ok v =>
    obtain ⟨h1, h2, h3, -⟩ := C57_sound minor cfg v hv
    rcases h with h | h | h
    · exact absurd h h1
    · exact absurd h2 h
    · exact absurd ⟨_, h3⟩ h

/-- C57 (partial): if the settings do not conflict, identify the version and agree with the class `k`,
and not both version 248 and a size are configured, a version is returned, of class `k` if a number or
server is configured. Missing: version 248 with a size, which is always refused
(`C57_248_with_size_refused`). -/
theorem C57_accepts_partial (minor : Int) (cfg : MachineCfg) (k : VKind) (h1 : ¬ Conflicting cfg)
    (h2 : Identified cfg) (h3 : Agrees minor cfg k) (h4 : ¬ (Asks minor cfg (some 248) ∧ HasSize cfg)) :
    ∃ v, versionFactory minor cfg = .ok v ∧
      (cfg.version ≠ none ∨ cfg.versions ≠ none ∨ HasServer cfg → v.kind = k) := by
  obtain ⟨⟨a, ha, hak⟩, hserver, hsize⟩ := h3
  have hask : (cfg.version ≠ none ∨ cfg.versions ≠ none) ↔ a ≠ none := by
    cases ha with
    | nothing h h' => simp [h, h']
    | number n h h' => simp [h, h']
    | group s _ _ _ _ h h' => simp [h, h']
  rcases hsize with ⟨hw, hh⟩ | ⟨w, h, hw, hh, hs⟩
  · obtain ⟨v, hv⟩ := (C58_accepts_exactly k cfg.toCfg).1.2 (.inl ⟨hw, hh⟩)
    have hvk := (C58_limits k _ v hv).1
    subst hvk
    refine ⟨v, (versionFactory_ok minor cfg v).2 ⟨h1, hv, a, ha, hak, hserver, .inl ⟨hw, hh, ?_⟩⟩, fun _ => rfl⟩
    rcases h2 with h | h | h | h
    · exact .inl (hask.1 (.inl h))
    · exact .inl (hask.1 (.inr h))
    · exact .inr h
    · exact absurd hw h.1
  · -- the class the size stands for
    have hsz : ∃ k', SizeOK k' w h ∧
        Numbered k' (if w = 2 ∧ h = 2 then 3 else if w = 1 ∧ h = 1 then 201 else 5) ∧ (k ≠ .v248 → k' = k) := by
      cases k with
      | v3 => obtain ⟨rfl, rfl⟩ := hs; exact ⟨.v3, ⟨rfl, rfl⟩, by simp [Numbered], fun _ => rfl⟩
      | v201 => obtain ⟨rfl, rfl⟩ := hs; exact ⟨.v201, ⟨rfl, rfl⟩, by simp [Numbered], fun _ => rfl⟩
      | v5 =>
        refine ⟨.v5, hs, ?_, fun _ => rfl⟩
        simp only [SizeOK] at hs
        rw [if_neg (by omega), if_neg (by omega)]; exact .inr rfl
      | v248 =>
        refine ⟨.v5, hs, ?_, fun h => absurd rfl h⟩
        simp only [SizeOK] at hs
        rw [if_neg (by omega), if_neg (by omega)]; exact .inr rfl
    obtain ⟨k', hs', hn', hkk⟩ := hsz
    have hsrc : (a ≠ none ∨ HasServer cfg) → k' = k := by
      rintro (h | h)
      · apply hkk
        rintro rfl
        cases a with
        | none => simp at h
        | some n =>
          have := hak n rfl
          simp only [Numbered] at this
          subst this
          exact h4 ⟨ha, by simp [hw], by simp [hh]⟩
      · apply hkk
        rw [hserver h]; simp
    obtain ⟨v, hv⟩ := (C58_accepts_exactly k' cfg.toCfg).1.2 (.inr ⟨w, h, hw, hh, hs'⟩)
    have hvk := (C58_limits k' _ v hv).1
    subst hvk
    refine ⟨v, (versionFactory_ok minor cfg v).2 ⟨h1, hv, a, ha, ?_, ?_, .inr ⟨w, h, hw, hh, hn'⟩⟩, ?_⟩
    · intro n hn
      rw [hsrc (.inl (by simp [hn]))]; exact hak n hn
    · intro hh; rw [hsrc (.inr hh)]; exact hserver hh
    · rintro (h | h | h)
      · exact hsrc (.inl (hask.1 (.inl h)))
      · exact hsrc (.inl (hask.1 (.inr h)))
      · exact hsrc (.inr h)

/-- C57: version 248 with a configured size is always refused, although 8 × 8 is the size of its
board: the size is taken to mean version 5. -/
theorem C57_248_with_size_refused (minor : Int) (cfg : MachineCfg) (ha : Asks minor cfg (some 248))
    (hs : HasSize cfg) : versionFactory minor cfg = .error .machine := by
  cases hv : versionFactory minor cfg with
  | error e => rw [C57_errors minor cfg e hv]
  | ok v =>
    obtain ⟨-, hi, a, ha', h3, -, h5⟩ := (versionFactory_ok minor cfg v).1 hv
    have : a = some 248 := by
      have e1 := (getCfgVersion_ok minor cfg _).2 ha
      have e2 := (getCfgVersion_ok minor cfg _).2 ha'
      rw [e1] at e2; simpa using e2.symm
    have hk := numbered_inj _ .v248 248 (h3 248 this) rfl
    rcases h5 with ⟨hw, -⟩ | ⟨w, h, hw, hh, h5⟩
    · exact absurd hw hs.1
    · rw [hk] at h5
      simp only [Numbered] at h5
      split at h5
      · omega
      · split at h5 <;> omega

/-- such a configuration agrees with version 248 in every setting -/
theorem C57_248_consistent : let cfg : MachineCfg := { version := some 248, width := some 8, height := some 8 }
    ¬ Conflicting cfg ∧ Identified cfg ∧ Agrees 11 cfg .v248 ∧ versionFactory 11 cfg = .error .machine := by
  refine ⟨by decide, .inl (by simp), ⟨⟨some 248, .number 248 rfl rfl, ?_⟩, ?_, .inr ⟨8, 8, rfl, rfl, by decide⟩⟩, rfl⟩
  · rintro n hn; simp only [Option.some.injEq] at hn; subst hn; rfl
  · rintro (h | h) <;> simp at h

/-- C57: the name of the group of eight by eight boards is only accepted with the spelling mistake of
the table. -/
theorem C57_eight_by_eight (minor : Int) :
    (∃ v, versionFactory minor { versions := some "Eight by eigth".toList } = .ok v) ∧
    versionFactory minor { versions := some "eight by eight".toList } = .error .machine := by
  have e1 : VersionStrings.fromString "Eight by eigth".toList = .ok .eightByEight := by decide +kernel
  have e2 : VersionStrings.fromString "eight by eight".toList = .error .machine := by decide +kernel
  constructor
  · obtain ⟨k, hk, n, hn, hp⟩ := pyIndex_mod VersionStrings.eightByEight.options (by decide) minor
    have hcfg : getCfgVersion minor { versions := some "Eight by eigth".toList } = .ok (some n) := by
      unfold getCfgVersion
      simp only [e1, hp]
    have hn2 : n = 5 ∨ n = 248 := by
      have := List.mem_of_getElem? hn
      simpa [VersionStrings.options] using this
    have ha := (getCfgVersion_ok _ _ _).1 hcfg
    obtain ⟨k', hk'⟩ : ∃ k', Numbered k' n := by
      rcases hn2 with rfl | rfl
      · exact ⟨.v5, .inr rfl⟩
      · exact ⟨.v248, rfl⟩
    obtain ⟨v, hv, -⟩ := C57_accepts_partial minor { versions := some "Eight by eigth".toList } k'
      (by simp [Conflicting]) (.inr (.inl (by simp)))
      ⟨⟨some n, ha, by intro m hm; simp only [Option.some.injEq] at hm; subst hm; exact hk'⟩,
        by rintro (h | h) <;> simp at h, .inl ⟨rfl, rfl⟩⟩ (by rintro ⟨-, h, -⟩; simp at h)
    exact ⟨v, hv⟩
  · unfold versionFactory getCfgVersion
    simp only [e2, bind, Except.bind]

/-- the hypotheses of `C57_accepts_partial` hold of a group with a server and a size -/
example : let cfg : MachineCfg := { versions := some "With-FPGAs".toList, spallocServer := some "s".toList, width := some 16, height := some 12 }
    ∃ v, versionFactory 11 cfg = .ok v ∧ v.kind = .v5 := by
  refine ⟨{ kind := .v5, maxCores := 18, maxSdram := 123469792 }, ?_, rfl⟩
  decide +kernel

end SpiNN.Props
