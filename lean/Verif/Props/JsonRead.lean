import Verif.Props.Json
import Verif.Lemmas.DataView

/-!
# C66: what `machine_from_json` makes of any document
-/

namespace SpiNN.Props
open SpiNN SpiNN.Spec

theorem bind_ok_iff {α β : Type} (x : Except PyErr α) (f : α → Except PyErr β) (b : β) :
    (x >>= f) = .ok b ↔ ∃ a, x = .ok a ∧ f a = .ok b := by
  cases x <;> simp [bind, Except.bind]

theorem ary_ok (j : Json) (l : List Json) : j.ary = .ok l ↔ j = .arr l := by
  cases j <;> simp [Json.ary]

theorem object_ok (j : Json) (o : PDict String Json) : j.object = .ok o ↔ j = .obj o.items := by
  obtain ⟨items⟩ := o
  cases j <;> simp [Json.object]

theorem string_ok (j : Json) (s : PyStr) : j.string = .ok s ↔ j = .str s := by
  cases j <;> simp [Json.string]

theorem int_ok (j : Json) (n : Int) : j.int = .ok n ↔ JInt (some j) n := by
  cases j with
  | bool b => cases b <;> simp [Json.int, JInt] <;> omega
  | _ => simp [Json.int, JInt]

theorem isInt_iff (n : Int) (j : Json) : j.isInt n = true ↔ JEq j n := by
  cases j with
  | bool b => cases b <;> simp [Json.isInt, JEq] <;> omega
  | float v => cases v <;> simp [Json.isInt, JEq]
  | _ => simp [Json.isInt, JEq]

theorem lookup_jKey (l : List (String × Json)) (k : String) : PDict.lookup l k = jKey (.obj l) k := by
  unfold jKey
  induction l with
  | nil => rfl
  | cons a t ih =>
    obtain ⟨k', v⟩ := a
    simp only [PDict.lookup, List.find?_cons]
    by_cases h : k' = k
    · simp [h]
    · simpa [h] using ih

theorem getE_ok (o : PDict String Json) (k : String) (v : Json) :
    o.getE k = .ok v ↔ jKey (.obj o.items) k = some v := by
  unfold PDict.getE PDict.get?
  rw [lookup_jKey]
  cases jKey (.obj o.items) k <;> simp

theorem get?_jKey (o : PDict String Json) (k : String) : o.get? k = jKey (.obj o.items) k := lookup_jKey _ _

theorem pyIndex_ok {α : Type} (l : List α) (n : Nat) (a : α) : pyIndex l (n : Int) = .ok a ↔ l[n]? = some a := by
  unfold pyIndex
  rw [if_neg (by omega), if_neg (by omega), Int.toNat_natCast]
  cases l[n]? <;> simp

theorem orderedSet_eraseDups {α : Type} [DecidableEq α] (l : List α) : orderedSet l = l.eraseDups := by
  induction l using snoc_induction with
  | nil => rfl
  | snoc l a ih =>
    have hm : ∀ x, x ∈ l.eraseDups ↔ x ∈ l := fun x => List.mem_eraseDups
    unfold orderedSet at ih ⊢
    rw [List.foldl_append, ih, List.eraseDups_append]
    simp only [List.foldl_cons, List.foldl_nil, hm]
    by_cases h : a ∈ l
    · simp [h, List.removeAll]
    · have : [a].eraseDups = [a] := by simp [List.eraseDups_cons]
      simp [h, List.removeAll, this]

theorem jInt_unique {j : Option Json} {a b : Int} (ha : JInt j a) (hb : JInt j b) : a = b := by
  cases j with
  | none => simp [JInt] at ha
  | some j =>
    rw [← int_ok] at ha hb
    rw [ha] at hb
    simpa using hb

/-- the resources `r` are those given by `f` -/
structure ResIs (f : String → Option Json) (r : JRes) : Prop where
  monitors : f "monitors" = some r.monitors
  entries : JInt (f "routerEntries") r.routerEntries
  sdram : JInt (f "sdram") r.sdram
  tags : f "tags" = some (.arr r.tags)

theorem jInt_some {j : Option Json} {n : Int} (h : JInt j n) : ∃ v, j = some v := by
  rcases h with rfl | ⟨s, rfl, -⟩ | ⟨rfl, -⟩ | ⟨rfl, -⟩ <;> exact ⟨_, rfl⟩

theorem readRes_ok (j : Json) (r : JRes) : readRes j = .ok r ↔ ResIs (jKey j) r := by
  simp only [readRes, bind_ok_iff, object_ok, getE_ok, int_ok, ary_ok]
  constructor
  · rintro ⟨o, rfl, mon, h1, e, h2, en, h3, d, h4, sd, h5, t, h6, ts, rfl, h7⟩
    simp only [Except.ok.injEq] at h7
    subst h7
    exact ⟨h1, by rw [h2]; exact h3, by rw [h4]; exact h5, h6⟩
  · rintro ⟨h1, h2, h3, h4⟩
    obtain ⟨a, ha⟩ := jInt_some h2
    obtain ⟨b, hb⟩ := jInt_some h3
    cases j with
    | obj l => exact ⟨⟨l⟩, rfl, _, h1, a, ha, _, ha ▸ h2, b, hb, _, hb ▸ h3, _, h4, _, rfl, rfl⟩
    | _ => simp [jKey] at h1

theorem readExceptions_ok (f : String → Option Json) (r r' : JRes) (hf : ResIs f r) (o : PDict String Json) :
    readExceptions r o = .ok r' ↔ ResIs (fun k => match jKey (.obj o.items) k with
      | some v => some v
      | none => f k) r' := by
  obtain ⟨g1, g2, g3, g4⟩ := hf
  unfold readExceptions
  simp only [get?_jKey]
  constructor
  · intro h
    refine ⟨?_, ?_, ?_, ?_⟩
    all_goals
      cases ha : jKey (.obj o.items) "monitors" <;> cases hb : jKey (.obj o.items) "routerEntries" <;>
      cases hc : jKey (.obj o.items) "sdram" <;> cases hd : jKey (.obj o.items) "tags" <;>
      simp only [ha, hb, hc, hd, bind_ok_iff, Except.ok.injEq, int_ok, ary_ok, exists_eq_left'] at h ⊢
    all_goals grind
  · rintro ⟨h1, h2, h3, h4⟩
    cases ha : jKey (.obj o.items) "monitors" <;> cases hb : jKey (.obj o.items) "routerEntries" <;>
      cases hc : jKey (.obj o.items) "sdram" <;> cases hd : jKey (.obj o.items) "tags" <;>
      simp only [ha, hb, hc, hd, bind_ok_iff, Except.ok.injEq, int_ok, ary_ok, exists_eq_left'] at h1 h2 h3 h4 ⊢
    all_goals
      obtain ⟨m', e', s', t'⟩ := r'
      simp only at h1 h2 h3 h4
      grind [jInt_unique]

theorem readOverrides_ok (f : String → Option Json) (r r' : JRes) (hf : ResIs f r) (l : List Json) :
    readOverrides l r = .ok r' ↔ (∀ e, l[3]? = some e → ∃ i, e = .obj i) ∧
      ResIs (fun k => match l[3]?.bind fun e => jKey e k with
        | some v => some v
        | none => f k) r' := by
  unfold readOverrides
  cases h3 : l[3]? with
  | none =>
    have : ¬ l.length > 3 := by
      intro h
      rw [List.getElem?_eq_none_iff] at h3
      omega
    rw [if_neg this]
    simp only [Except.ok.injEq, Option.bind_none]
    constructor
    · rintro rfl; exact ⟨by simp, hf⟩
    · rintro ⟨-, h⟩
      obtain ⟨m', e', s', t'⟩ := r'
      obtain ⟨m, e, s, t⟩ := r
      have h1 := hf.monitors.symm.trans h.monitors
      have h2 := hf.tags.symm.trans h.tags
      have h3 := jInt_unique hf.entries h.entries
      have h4 := jInt_unique hf.sdram h.sdram
      simp_all
  | some e =>
    have : l.length > 3 := by
      have := (List.getElem?_eq_some_iff.1 h3).1
      omega
    rw [if_pos this]
    have hp : ∀ a, pyIndex l 3 = .ok a ↔ a = e := by
      intro a
      rw [show (3 : Int) = ((3 : Nat) : Int) from rfl, pyIndex_ok, h3]
      simp [eq_comm]
    simp only [bind_ok_iff, hp, exists_eq_left, object_ok, Option.some.injEq, Option.bind_some]
    constructor
    · rintro ⟨o, rfl, h⟩
      rw [readExceptions_ok f r r' hf] at h
      exact ⟨by rintro _ rfl; exact ⟨_, rfl⟩, h⟩
    · rintro ⟨h, h'⟩
      obtain ⟨i, rfl⟩ := h e rfl
      exact ⟨⟨i⟩, rfl, (readExceptions_ok f r r' hf ⟨i⟩).2 h'⟩

/-- the links of an entry with these dead links -/
def docLinks (m : Machine) (dead : List Json) (x y : Int) : List Link :=
  (allDirs.filter fun d => !dead.any (Json.isInt d.id)).map fun d =>
    let q := m.wrap.red m.width m.height (x + d.dx, y + d.dy)
    { sourceX := x, sourceY := y, sourceLinkId := d.id, destX := q.1, destY := q.2 }

theorem readLinks_doc (m : Machine) (hw : 0 < m.width) (hh : 0 < m.height) (dead : List Json) (x y : Int) :
    readLinks m dead x y (pyRange 6) = .ok (docLinks m dead x y) := by
  rw [range6_eq]
  unfold docLinks
  generalize allDirs = ds
  induction ds with
  | nil => rfl
  | cons a t ih =>
    rw [List.map_cons, readLinks, ih, xyOverLink_dir' m hw hh, List.filter_cons]
    cases h : dead.any (Json.isInt a.id) <;> simp

theorem docLinks_nodup (m : Machine) (dead : List Json) (x y : Int) :
    ((docLinks m dead x y).map Link.sourceLinkId).Nodup := by
  unfold docLinks
  rw [List.map_map]
  have : ((allDirs.filter fun d => !dead.any (Json.isInt d.id)).map Dir.id).Sublist (allDirs.map Dir.id) :=
    List.filter_sublist.map _
  exact this.nodup (by decide)

theorem docRouter (m : Machine) (hw : 0 < m.width) (hh : 0 < m.height) (dead : List Json) (x y n : Int) :
    ∃ r, Router.mk' (docLinks m dead x y) n = .ok r ∧ r.nEntries = n ∧
      ∀ i l, r.getLink i = some l ↔ 0 ≤ i ∧ i < 6 ∧ (∀ d ∈ dead, ¬ JEq d i) ∧ l.sourceLinkId = i ∧
        (l.sourceX, l.sourceY) = (x, y) ∧ m.xyOverLink x y i = .ok (l.destX, l.destY) := by
  obtain ⟨r, hr, -, hi, hn⟩ := (C63_constructor n _).1 (docLinks_nodup m dead x y)
  refine ⟨r, hr, hn, fun i l => ?_⟩
  have hwf : r.links.WF := by
    unfold PDict.WF PDict.keys
    unfold Router.iter at hi
    rw [hi]
    simpa [Function.comp_def] using docLinks_nodup m dead x y
  have hdead : ∀ i, dead.any (Json.isInt i) = false ↔ ∀ d ∈ dead, ¬ JEq d i := by
    intro i
    rw [List.any_eq_false]
    simp only [isInt_iff]
  rw [Router.getLink, ← PDict.mem_items_iff hwf]
  unfold Router.iter at hi
  rw [hi]
  simp only [docLinks, List.mem_map, List.mem_filter, List.map_map, Function.comp]
  constructor
  · rintro ⟨d, ⟨-, hd⟩, he⟩
    simp only [Prod.mk.injEq] at he
    obtain ⟨rfl, rfl⟩ := he
    refine ⟨?_, ?_, ?_, rfl, rfl, xyOverLink_dir' m hw hh _ _ _⟩
    · cases d <;> decide
    · cases d <;> decide
    · rw [← hdead]; simpa using hd
  · rintro ⟨h0, h6, hd, h1, h2, h3⟩
    obtain ⟨d, rfl⟩ := dir_of_range h0 h6
    refine ⟨d, ⟨mem_allDirs d, ?_⟩, ?_⟩
    · rw [← hdead] at hd; simpa using hd
    · rw [xyOverLink_dir' m hw hh] at h3
      obtain ⟨sx, sy, si, dx, dy⟩ := l
      simp only [Prod.mk.injEq, Except.ok.injEq] at h1 h2 h3
      simp [h1, h2, h3]

theorem pyRange2_placable (n : Int) (l : List Int) :
    (∀ k : Nat, l[k]? = if (k : Int) + 1 < n then some ((k : Int) + 1) else none) ↔ l = pyRange2 1 n := by
  constructor
  · intro h
    apply List.ext_getElem?
    intro i
    rw [h, pyRange2_getElem]
  · rintro rfl k
    exact pyRange2_getElem n k

theorem nth_ok (j : Json) (l : List Json) (h : j = .arr l) (n : Nat) (a : Json) :
    pyIndex l (n : Int) = .ok a ↔ jNth j n = some a := by
  subst h; rw [pyIndex_ok]; rfl

theorem readPair_ok (o : PDict String Json) (a b : Json) :
    readPair o = .ok (a, b) ↔ jKey (.obj o.items) "ethernet" = some (.arr [a, b]) := by
  simp only [readPair, bind_ok_iff, getE_ok, ary_ok]
  constructor
  · rintro ⟨j, h, l, rfl, h'⟩
    split at h'
    · simp only [Except.ok.injEq, Prod.mk.injEq] at h'
      obtain ⟨rfl, rfl⟩ := h'
      exact h
    · simp at h'
  · intro h
    exact ⟨_, h, _, rfl, rfl⟩

theorem readKind_ok (s e : JRes) (o : PDict String Json) (ip : Option PyStr) (r : JRes) :
    readKind s e o = .ok (ip, r) ↔ jKey (.obj o.items) "ipAddress" = ip.map .str ∧
      r = if (jKey (.obj o.items) "ipAddress").isSome then e else s := by
  unfold readKind
  rw [get?_jKey]
  cases h : jKey (.obj o.items) "ipAddress" with
  | none =>
    cases ip <;> simp [eq_comm]
  | some a =>
    cases a <;> cases ip <;> simp [Json.string, eq_comm]

theorem readDead_ok (o : PDict String Json) (dead : List Json) :
    readDead o = .ok dead ↔ (jKey (.obj o.items) "deadLinks" = none ∧ dead = [] ∨
      jKey (.obj o.items) "deadLinks" = some (.arr dead)) := by
  unfold readDead
  rw [get?_jKey]
  cases h : jKey (.obj o.items) "deadLinks" with
  | none => simp [eq_comm]
  | some a => simp [ary_ok]

theorem resource_eq (std eth : Json) (l : List Json) (o : PDict String Json) (h2 : l[2]? = some (.obj o.items))
    (k : String) : (match l[3]?.bind fun e => jKey e k with
      | some v => some v
      | none => jKey (if (jKey (.obj o.items) "ipAddress").isSome then eth else std) k) =
      jResource std eth (.arr l) k := by
  simp only [jResource, jNth, jDetail, h2, Option.bind_some]
  cases l[3]?.bind fun e => jKey e k <;> rfl

theorem readChip_sound (m : Machine) (hw : 0 < m.width) (hh : 0 < m.height) (std eth cj : Json) (s e : JRes)
    (hs : readRes std = .ok s) (he : readRes eth = .ok e) (c : Chip) (h : readChip m s e cj = .ok c) :
    DocChip m std eth cj c := by
  rw [readRes_ok] at hs he
  simp only [readChip, bind_ok_iff, ary_ok] at h
  obtain ⟨l, rfl, d, h2, o, hd, xj, hx, x, hxi, yj, hy, y, hyi, ⟨a, b⟩, hp, ⟨ip, kr⟩, hk, r, hr, u, hmon, dead,
   
    hdead, ls, hls, router, hrt, nj, hn, n, hni, bx, hbx, byy, hby, ts, hts, hc⟩ := h
  rw [object_ok] at hd
  subst hd
  have h2' : l[2]? = some (.obj o.items) := (pyIndex_ok l 2 _).1 h2
  have hx' : l[0]? = some xj := (pyIndex_ok l 0 _).1 hx
  have hy' : l[1]? = some yj := (pyIndex_ok l 1 _).1 hy
  rw [readPair_ok] at hp
  rw [readKind_ok] at hk
  rw [readDead_ok] at hdead
  rw [readLinks_doc m hw hh] at hls
  simp only [Except.ok.injEq] at hls
  subst hls
  obtain ⟨r0, hr0, hr1, hr2⟩ := docRouter m hw hh dead x y r.routerEntries
  rw [hr0] at hrt
  simp only [Except.ok.injEq] at hrt
  subst hrt
  simp only [Except.ok.injEq] at hc
  subst hc
  have hkr : ResIs (jKey (if (jKey (.obj o.items) "ipAddress").isSome then eth else std)) kr := by
    rw [hk.2]; split <;> assumption
  rw [readOverrides_ok _ _ _ hkr] at hr
  simp only [resource_eq std eth l o h2'] at hr
  obtain ⟨hex, q1, q2, q3, q4⟩ := hr
  have det : ∀ k, jDetail (.arr l) k = jKey (.obj o.items) k := by
    intro k; simp [jDetail, jNth, h2']
  have hmon' : JEq r.monitors 1 := by
    unfold checkMonitors at hmon
    rw [← isInt_iff]
    cases h : r.monitors.isInt 1 <;> simp [h] at hmon ⊢
  rw [int_ok] at hxi hyi hni hbx hby
  rw [getE_ok] at hn
  rw [mapE_ok] at hts
  refine ⟨?_, ?_, ⟨a, b, ?_, hbx, hby⟩, ?_, hex, ?_, ?_, q3, ⟨r.tags, ts, q4, hts.1, ?_, orderedSet_eraseDups ts⟩,
    ⟨n, ?_, rfl, ?_⟩, ⟨dead, ?_, hr2⟩⟩
  · show JInt l[0]? x
    rw [hx']; exact hxi
  · show JInt l[1]? y
    rw [hy']; exact hyi
  · rw [det]; exact hp
  · rw [det]; exact hk.1
  · exact ⟨_, q1, hmon'⟩
  · rw [show (Chip.mk' x y [0] (pyRange2 1 n) r0 r.sdram bx byy ip (some ts) none).router.nEntries =
      r.routerEntries from hr1]
    exact q2
  · intro k j t hj ht
    rw [← int_ok]
    exact hts.2 k j t hj ht
  · rw [det, hn]; exact hni
  · exact fun k => pyRange2_getElem n k
  · rw [det]; exact hdead

/-- an entry describes one chip -/
theorem docChip_unique (m : Machine) (std eth cj : Json) (c c' : Chip) (h : DocChip m std eth cj c)
    (h' : DocChip m std eth cj c') : SameChip c c' := by
  have hip : c.ip = c'.ip := by
    have := h.ip.symm.trans h'.ip
    cases h1 : c.ip <;> cases h2 : c'.ip <;> simp [h1, h2] at this ⊢
    exact this
  obtain ⟨a, b, he, ha, hb⟩ := h.ethernet
  obtain ⟨a', b', he', ha', hb'⟩ := h'.ethernet
  rw [he] at he'
  simp only [Option.some.injEq, Json.arr.injEq, List.cons.injEq, and_true] at he'
  obtain ⟨rfl, rfl⟩ := he'
  obtain ⟨n, hn, hsc, hpl⟩ := h.cores
  obtain ⟨n', hn', hsc', hpl'⟩ := h'.cores
  have := jInt_unique hn hn'
  subst this
  obtain ⟨js, ts, ht, htl, hti, hte⟩ := h.tags
  obtain ⟨js', ts', ht', htl', hti', hte'⟩ := h'.tags
  rw [ht] at ht'
  simp only [Option.some.injEq, Json.arr.injEq] at ht'
  subst ht'
  have hts : ts = ts' := by
    apply List.ext_getElem (by omega)
    intro k h1 h2
    exact jInt_unique (hti k js[k] _ (by simp) (by simp)) (hti' k js[k] _ (by simp) (by simp))
  subst hts
  obtain ⟨dead, hd, hl⟩ := h.links
  obtain ⟨dead', hd', hl'⟩ := h'.links
  have hdd : dead = dead' := by
    rcases hd with ⟨h1, rfl⟩ | h1 <;> rcases hd' with ⟨h2, rfl⟩ | h2
    · rfl
    · rw [h1] at h2; simp at h2
    · rw [h1] at h2; simp at h2
    · rw [h1] at h2; simpa using h2
  subst hdd
  have hx := jInt_unique h.x h'.x
  have hy := jInt_unique h.y h'.y
  have hxy : c'.xy = c.xy := by simp [Chip.xy, hx, hy]
  refine ⟨hxy, hsc'.trans hsc.symm, ?_, (jInt_unique h.sdram h'.sdram).symm,
    (jInt_unique h.entries h'.entries).symm, ?_, hip.symm, hte'.trans hte.symm, ?_⟩
  · rw [(pyRange2_placable _ _).1 hpl, (pyRange2_placable _ _).1 hpl']
  · rw [jInt_unique ha ha', jInt_unique hb hb']
  · intro i
    apply Option.ext
    intro l
    rw [hl, hl', hxy, hx, hy]

theorem readChip_complete (m : Machine) (hw : 0 < m.width) (hh : 0 < m.height) (std eth cj : Json) (s e : JRes)
    (hs : readRes std = .ok s) (he : readRes eth = .ok e) (c : Chip) (h : DocChip m std eth cj c) :
    ∃ c', readChip m s e cj = .ok c' := by
  rw [readRes_ok] at hs he
  obtain ⟨a, b, hp, ha, hb⟩ := h.ethernet
  obtain ⟨n, hn, -, -⟩ := h.cores
  obtain ⟨js, ts, ht, htl, hti, hte⟩ := h.tags
  obtain ⟨dead, hd, -⟩ := h.links
  obtain ⟨xj, hx⟩ := jInt_some h.x
  obtain ⟨yj, hy⟩ := jInt_some h.y
  obtain ⟨nj, hnj⟩ := jInt_some hn
  have hcj : ∃ l, cj = .arr l := by
    cases cj with
    | arr l => exact ⟨l, rfl⟩
    | _ => simp [jNth] at hx
  obtain ⟨l, rfl⟩ := hcj
  have h2 : ∃ o : PDict String Json, l[2]? = some (.obj o.items) := by
    unfold jDetail jNth at hp
    simp only at hp
    cases h2 : l[2]? with
    | none => simp [h2] at hp
    | some d =>
      cases d with
      | obj i => exact ⟨⟨i⟩, rfl⟩
      | _ => simp [h2, jKey] at hp
  obtain ⟨o, h2⟩ := h2
  have det : ∀ k, jDetail (.arr l) k = jKey (.obj o.items) k := by
    intro k; simp [jDetail, jNth, h2]
  have hkr : ResIs (jKey (if (jKey (.obj o.items) "ipAddress").isSome then eth else std))
      (if (jKey (.obj o.items) "ipAddress").isSome then e else s) := by
    split <;> assumption
  obtain ⟨mv, hmv, hm1⟩ := h.monitors
  have hr : readOverrides l (if (jKey (.obj o.items) "ipAddress").isSome then e else s) =
      .ok ⟨mv, c.router.nEntries, c.sdram, js⟩ := by
    rw [readOverrides_ok _ _ _ hkr]
    simp only [resource_eq std eth l o h2]
    exact ⟨h.exceptions, hmv, h.entries, h.sdram, ht⟩
  have hcm : checkMonitors ⟨mv, c.router.nEntries, c.sdram, js⟩ = .ok () := by
    unfold checkMonitors
    rw [if_neg (by simpa using (isInt_iff _ _).2 hm1)]
  have hip := h.ip
  rw [det] at hp hd hip hnj
  rw [det, hnj] at hn
  obtain ⟨r0, hr0, -, -⟩ := docRouter m hw hh dead c.x c.y c.router.nEntries
  simp only [readChip, bind_ok_iff, ary_ok]
  have hx0 : l[0]? = some xj := hx
  have hy0 : l[1]? = some yj := hy
  refine ⟨_, l, rfl, _, (pyIndex_ok l 2 _).2 h2, o, (object_ok _ _).2 rfl, xj, (pyIndex_ok l 0 _).2 hx0, c.x,
    (int_ok _ _).2 (hx ▸ h.x), yj, (pyIndex_ok l 1 _).2 hy0, c.y, (int_ok _ _).2 (hy ▸ h.y), (a, b),
    (readPair_ok _ _ _).2 hp, (c.ip, _), (readKind_ok _ _ _ _ _).2 ⟨hip, rfl⟩, _, hr, (), hcm, dead,
    (readDead_ok _ _).2 hd, _, readLinks_doc m hw hh _ _ _, r0, hr0, nj, (getE_ok _ _ _).2 hnj, n,
    (int_ok _ _).2 hn, _, (int_ok _ _).2 ha, _, (int_ok _ _).2 hb, ts, mapE_ok.2 ⟨htl, ?_⟩, rfl⟩
  intro k j t hj ht
  rw [int_ok]
  exact hti k j t hj ht

theorem DocChip.congr {m m' : Machine} (hf : SameFrame m m') {std eth cj : Json} {c : Chip} :
    DocChip m' std eth cj c ↔ DocChip m std eth cj c := by
  have hx : ∀ x y i, m'.xyOverLink x y i = m.xyOverLink x y i := by
    intro x y i
    obtain ⟨h1, h2, h3, -, -⟩ := hf
    simp [Machine.xyOverLink, h1, h2, h3]
  constructor
  · rintro ⟨h1, h2, h3, h4, h5, h6, h7, h8, h9, h10, dead, h11, h12⟩
    exact ⟨h1, h2, h3, h4, h5, h6, h7, h8, h9, h10, dead, h11, fun i l => by rw [h12, hx]⟩
  · rintro ⟨h1, h2, h3, h4, h5, h6, h7, h8, h9, h10, dead, h11, h12⟩
    exact ⟨h1, h2, h3, h4, h5, h6, h7, h8, h9, h10, dead, h11, fun i l => by rw [h12, hx]⟩

theorem readChips_sound (v : Version) (std eth : Json) (s e : JRes)
    (hs : readRes std = .ok s) (he : readRes eth = .ok e) : ∀ (js : List Json) (m m' : Machine) (sc : Chips),
    Rep m sc → 0 < m.width → 0 < m.height → readChips s e js m = .ok m' →
    ∃ cs : List Chip, Rep m' (sc ++ cs) ∧ SameFrame m m' ∧ m' = (run v m (cs.map .addChip)).1 ∧
      js.length = cs.length ∧
      ∀ (k : Nat) cj c, js[k]? = some cj → cs[k]? = some c → DocChip m std eth cj c := by
  intro js
  induction js with
  | nil =>
    intro m m' sc r _ _ h
    simp only [readChips, Except.ok.injEq] at h
    subst h
    exact ⟨[], by simpa using r, .refl m, rfl, rfl, by simp⟩
  | cons j t ih =>
    intro m m' sc r hw hh h
    simp only [readChips, bind_ok_iff] at h
    obtain ⟨c, hc, m₁, hm, h⟩ := h
    have hadd := r.addChip c
    rw [hm] at hadd
    obtain ⟨-, r₁, f1, f2, f3, f4, -, -, f5, -⟩ := hadd
    have hf : SameFrame m m₁ := ⟨f1, f2, f3, f4, f5⟩
    obtain ⟨cs, g1, g2, g3, g4, g5⟩ := ih m₁ m' _ r₁ (by omega) (by omega) h
    refine ⟨c :: cs, by simpa using g1, hf.trans g2, ?_, by simp [g4], ?_⟩
    · rw [g3]
      simp only [List.map_cons, run, step, hm]
    · intro k cj d h1 h2
      cases k with
      | zero =>
        simp only [List.getElem?_cons_zero, Option.some.injEq] at h1 h2
        subst h1 h2
        exact readChip_sound m hw hh std eth _ s e hs he _ hc
      | succ k =>
        simp only [List.getElem?_cons_succ] at h1 h2
        exact (DocChip.congr hf).1 (g5 k cj d h1 h2)

theorem readChips_complete (std eth : Json) (s e : JRes)
    (hs : readRes std = .ok s) (he : readRes eth = .ok e) : ∀ (js : List Json) (cs : List Chip) (m : Machine)
    (sc : Chips), Rep m sc → 0 < m.width → 0 < m.height → js.length = cs.length →
    (∀ (k : Nat) cj c, js[k]? = some cj → cs[k]? = some c → DocChip m std eth cj c) →
    ((sc ++ cs).map Chip.xy).Nodup → ∃ m', readChips s e js m = .ok m' := by
  intro js
  induction js with
  | nil => intro cs m sc _ _ _ _ _ _; exact ⟨m, rfl⟩
  | cons j t ih =>
    intro cs m sc r hw hh hl hd hn
    cases cs with
    | nil => simp at hl
    | cons c cs =>
      have hdc := hd 0 j c rfl rfl
      obtain ⟨c', hc'⟩ := readChip_complete m hw hh std eth j s e hs he c hdc
      have hsame := docChip_unique m std eth j c c' hdc (readChip_sound m hw hh std eth j s e hs he c' hc')
      have hnone : sc.at c'.xy = none := by
        rw [hsame.xy]
        apply Chips.at_eq_none_iff.2
        rw [List.map_append, List.nodup_append] at hn
        exact fun h => hn.2.2 _ h c.xy (by simp) rfl
      have hadd := r.addChip c'
      cases hm : m.addChip c' with
      | error e =>
        rw [hm] at hadd
        simp [Chips.add, hnone] at hadd
      | ok m₁ =>
        rw [hm] at hadd
        obtain ⟨-, r₁, f1, f2, f3, f4, -, -, f5, -⟩ := hadd
        have hf : SameFrame m m₁ := ⟨f1, f2, f3, f4, f5⟩
        have hn' : (((sc ++ [c']) ++ cs).map Chip.xy).Nodup := by
          simpa [List.map_append, hsame.xy] using hn
        obtain ⟨m', h⟩ := ih cs m₁ _ r₁ (by omega) (by omega) (by simpa using hl)
          (fun k cj d h1 h2 => (DocChip.congr hf).2 (hd (k + 1) cj d (by simpa using h1) (by simpa using h2))) hn'
        exact ⟨m', by simp [readChips, hc', hm, h, bind, Except.bind]⟩

theorem run_append (v : Version) : ∀ (os os' : List Op) (a : Machine),
    (run v a (os ++ os')).1 = (run v (run v a os).1 os').1 := by
  intro os
  induction os with
  | nil => intro os' a; rfl
  | cons o t ih => intro os' a; simp only [List.cons_append, run]; exact ih os' _

/-- C66: what is read. If `machine_from_json` accepts a document, the machine has the width and height
written there and its chips are, in order, those that the entries describe: coordinates, cores, SDRAM,
router entries, nearest Ethernet, IP address and tags as written (the exceptions of a chip before the
defaults of its kind), and the six standard links but the dead ones, wired as in a machine of that size.
The machine is the one made by adding these chips, then the SpiNNaker links and the FPGA links. -/
theorem C66_read (v : Version) (j : Json) (m : Machine) (hm : machineFromJson v j = .ok m) :
    Doc m j m.chipList ∧ (m.chipList.map Chip.xy).Nodup ∧
    ∃ m₀, v.kind.createMachine (some m.width) (some m.height) "Json" = .ok m₀ ∧
      m = (run v m₀ (m.chipList.map .addChip ++ [.addSpinnakerLinks, .addFpgaLinks])).1 := by
  simp only [machineFromJson, bind_ok_iff, object_ok, getE_ok, int_ok, ary_ok] at hm
  obtain ⟨o, rfl, wj, hwj, w, hw, hj, hhj, h, hh, m₀, h0, sj, hsj, s, hs, ej, hej, e, he, cj, hcj, cs, rfl, m₁, h1,
    h2⟩ := hm
  obtain ⟨hsz, rfl⟩ := createMachine_ok h0
  have hpos := hsz.pos
  have r0 := Rep.new (v.kind.wrapFor w h) w h v.kind.chipCoreMap "Json"
  obtain ⟨chips, g1, g2, g3, g4, g5⟩ := readChips_sound v sj ej s e hs he cs _ m₁ [] r0 hpos.1 hpos.2 h1
  simp only [List.nil_append] at g1
  simp only [Except.ok.injEq] at h2
  have r2 := (g1.of_onlySpin (onlySpin v m₁)).of_onlyFpga (onlyFpga v _)
  obtain ⟨t1, ht1⟩ := onlySpin v m₁
  obtain ⟨t2, ht2⟩ := onlyFpga v (m₁.addSpinnakerLinks v)
  have hfin : SameFrame m₁ ((m₁.addSpinnakerLinks v).addFpgaLinks v) := by
    rw [ht2, ht1]; exact ⟨rfl, rfl, rfl, rfl, rfl⟩
  have hframe := g2.trans hfin
  rw [h2] at hframe r2
  have hcl : m.chipList = chips := r2.values
  have hw' : m.width = w := hframe.2.1
  have hh' : m.height = h := hframe.2.2.1
  rw [readRes_ok] at hs he
  rw [hcl, hw', hh']
  refine ⟨⟨?_, ?_, sj, ej, cs, hsj, hej, hcj, ?_, ?_, g4, ?_⟩, r2.nodup, _, h0, ?_⟩
  · rw [hwj, hw']; exact hw
  · rw [hhj, hh']; exact hh
  · exact ⟨⟨_, hs.monitors⟩, ⟨_, hs.entries⟩, ⟨_, hs.sdram⟩, ⟨_, hs.tags⟩⟩
  · exact ⟨⟨_, he.monitors⟩, ⟨_, he.entries⟩, ⟨_, he.sdram⟩, ⟨_, he.tags⟩⟩
  · intro k c d hc hd
    exact (DocChip.congr hframe).2 (g5 k c d hc hd)
  · rw [run_append, ← g3, ← h2]
    rfl

/-- C66: what is accepted. `machine_from_json` succeeds exactly if the document is complete: a size the
version supports, well formed defaults, and entries that describe chips at different coordinates. -/
theorem C66_accepts (v : Version) (j : Json) : (∃ m, machineFromJson v j = .ok m) ↔
    ∃ w h m₀ chips, v.kind.createMachine (some w) (some h) "Json" = .ok m₀ ∧ Doc m₀ j chips ∧
      (chips.map Chip.xy).Nodup := by
  constructor
  · rintro ⟨m, hm⟩
    obtain ⟨hd, hn, m₀, h0, h1⟩ := C66_read v j m hm
    refine ⟨_, _, m₀, m.chipList, h0, ?_, hn⟩
    obtain ⟨hs, rfl⟩ := createMachine_ok h0
    have hr : Reachable v m.width m.height m := ⟨_, _, _, h0, h1⟩
    obtain ⟨-, hwr, -, -, hcc, -⟩ := hr.rep
    obtain ⟨d1, d2, std, eth, es, d3, d4, d5, d6, d7, d8, d9⟩ := hd
    refine ⟨d1, d2, std, eth, es, d3, d4, d5, d6, d7, d8, ?_⟩
    intro k c d hc hd
    have := d9 k c d hc hd
    generalize m.origin = o at *
    have hf : ∀ a b : Machine, a.wrap = b.wrap → a.width = b.width → a.height = b.height →
        DocChip a std eth c d → DocChip b std eth c d := by
      intro a b e1 e2 e3
      have hx : ∀ x y i, a.xyOverLink x y i = b.xyOverLink x y i := by
        intro x y i; simp [Machine.xyOverLink, e1, e2, e3]
      rintro ⟨q1, q2, q3, q4, q5, q6, q7, q8, q9, q10, dead, q11, q12⟩
      exact ⟨q1, q2, q3, q4, q5, q6, q7, q8, q9, q10, dead, q11, fun i l => by rw [q12, hx]⟩
    exact hf _ _ hwr rfl rfl this
  · rintro ⟨w, h, m₀, chips, h0, hd, hn⟩
    obtain ⟨d1, d2, std, eth, es, d3, d4, d5, d6, d7, d8, d9⟩ := hd
    obtain ⟨hsz, rfl⟩ := createMachine_ok h0
    have hpos := hsz.pos
    have r0 := Rep.new (v.kind.wrapFor w h) w h v.kind.chipCoreMap "Json"
    obtain ⟨wj, hwj⟩ := jInt_some d1
    obtain ⟨hj, hhj⟩ := jInt_some d2
    have res : ∀ d, JDefaults d → ∃ s, readRes d = .ok s := by
      rintro d ⟨⟨a, ha⟩, ⟨b, hb⟩, ⟨c, hc⟩, ⟨t, ht⟩⟩
      exact ⟨⟨a, b, c, t⟩, (readRes_ok _ _).2 ⟨ha, hb, hc, ht⟩⟩
    obtain ⟨s, hs⟩ := res std d6
    obtain ⟨e, he⟩ := res eth d7
    obtain ⟨m', hm'⟩ := readChips_complete std eth s e hs he es chips _ [] r0 hpos.1 hpos.2 d8 d9 (by simpa using hn)
    have hobj : ∃ o : PDict String Json, j = .obj o.items := by
      cases j with
      | obj l => exact ⟨⟨l⟩, rfl⟩
      | _ => simp [jKey] at hwj
    obtain ⟨o, rfl⟩ := hobj
    simp only [machineFromJson, bind_ok_iff, object_ok, getE_ok, int_ok, ary_ok]
    exact ⟨_, o, rfl, wj, hwj, w, hwj ▸ d1, hj, hhj, h, hhj ▸ d2, _, h0, std, d3, s, hs, eth, d4, e, he, _, d5, es,
      rfl, m', hm', rfl⟩

/-- C66: an entry describes one chip only, so the document determines the chips of the machine. -/
theorem C66_determined (v : Version) (j : Json) (m : Machine) (chips : List Chip)
    (hm : machineFromJson v j = .ok m) (hd : Doc m j chips) :
    chips.length = m.chipList.length ∧
    ∀ (k : Nat) c c', m.chipList[k]? = some c → chips[k]? = some c' → SameChip c c' := by
  obtain ⟨⟨-, -, std, eth, es, d3, d4, d5, -, -, d8, d9⟩, -, -⟩ := C66_read v j m hm
  obtain ⟨-, -, std', eth', es', e3, e4, e5, -, -, e8, e9⟩ := hd
  rw [d3] at e3; rw [d4] at e4; rw [d5] at e5
  simp only [Option.some.injEq, Json.arr.injEq] at e3 e4 e5
  subst e3 e4 e5
  refine ⟨by omega, fun k c c' h1 h2 => ?_⟩
  have hk : k < es.length := by
    rw [d8]; exact (List.getElem?_eq_some_iff.1 h1).1
  exact docChip_unique m std eth es[k] c c' (d9 k _ _ (by simp) h1) (e9 k _ _ (by simp) h2)

/-- a document for the example: an Ethernet chip with exceptions, and a chip whose cores are a string
and whose dead links are odd (the string "1" is not link 1, but `False` is link 0 and `5.0` link 5) -/
def exDoc : Json :=
  let res (n s : Int) (t : List Int) : Json := .obj [("monitors", .num 1), ("routerEntries", .num n), ("sdram", .num s),
    ("tags", jNums t)]
  .obj [("height", .num 8), ("width", .str "8".toList), ("standardResources", res 1023 100 []),
    ("ethernetResources", res 1000 90 [1, 2]), ("chips", .arr [
      .arr [.num 0, .num 0, .obj [("cores", .num 18), ("ethernet", jNums [0, 0]), ("ipAddress", .str "a".toList)],
        .obj [("sdram", .num 80), ("tags", jNums [3, 1, 3])]],
      .arr [.num 1, .num 1, .obj [("cores", .str "4".toList), ("ethernet", jNums [0, 0]),
        ("deadLinks", .arr [.bool false, .str "1".toList, .float (some 5)])]]])]

/-- the example is accepted, and the chips are as written -/
example : ∃ m a b, machineFromJson exV5 exDoc = .ok m ∧ m.chipList = [a, b] ∧
    (a.sdram = 80 ∧ a.tags = [3, 1] ∧ a.router.nEntries = 1000 ∧ a.ip = some ['a'] ∧ a.router.len = 6) ∧
    (b.sdram = 100 ∧ b.tags = [] ∧ b.router.nEntries = 1023 ∧ b.ip = none ∧ b.placable = [1, 2, 3]) ∧
    b.router.links.keys = [1, 2, 3, 4] := by
  have hb : (match machineFromJson exV5 exDoc with
    | .ok m => match m.chipList with
      | [a, b] => decide
        ((a.sdram = 80 ∧ a.tags = [3, 1] ∧ a.router.nEntries = 1000 ∧ a.ip = some ['a'] ∧ a.router.len = 6) ∧
        (b.sdram = 100 ∧ b.tags = [] ∧ b.router.nEntries = 1023 ∧ b.ip = none ∧ b.placable = [1, 2, 3]) ∧
        b.router.links.keys = [1, 2, 3, 4])
      | _ => false
    | .error _ => false) = true := by decide +kernel
  cases hm : machineFromJson exV5 exDoc with
  | error e => rw [hm] at hb; simp at hb
  | ok m =>
    rw [hm] at hb
    dsimp only at hb
    split at hb
    · rename_i a b hl
      exact ⟨m, a, b, rfl, hl, of_decide_eq_true hb⟩
    · simp at hb

end SpiNN.Props
