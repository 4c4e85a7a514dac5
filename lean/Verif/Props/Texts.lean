import Verif.Lemmas.Texts
import Verif.Props.Routing
import Verif.Props.Machine
import Verif.Props.CoreSubsets

/-!
# C70: what the texts of objects tell

The texts are what is printed in reports, logs and error messages. Two objects can be told apart by their texts
exactly as far as these theorems say.
-/

namespace SpiNN.Props
open SpiNN Spec

/-! ### links and routers -/

theorem link_text_inj (a b : Link) (s t : PyStr) (h : a.toStr ++ s = b.toStr ++ t) : a = b ∧ s = t := by
  obtain ⟨a1, a2, a3, a4, a5⟩ := a
  obtain ⟨b1, b2, b3, b4, b5⟩ := b
  delta Link.toStr at h
  simp only [List.append_assoc] at h
  replace h := List.append_cancel_left h
  obtain ⟨rfl, h1⟩ := showInt_lit_inj ⟨_, _, rfl, by decide, by decide⟩ h
  obtain ⟨rfl, h2⟩ := showInt_lit_inj ⟨_, _, rfl, by decide, by decide⟩ h1
  obtain ⟨rfl, h3⟩ := showInt_lit_inj ⟨_, _, rfl, by decide, by decide⟩ h2
  obtain ⟨rfl, h4⟩ := showInt_lit_inj ⟨_, _, rfl, by decide, by decide⟩ h3
  obtain ⟨rfl, h5⟩ := showInt_lit_inj ⟨_, _, rfl, by decide, by decide⟩ h4
  exact ⟨rfl, h5⟩

/-- C70: links have the same text exactly if they have the same source, link id and destination. -/
theorem C70_link (a b : Link) : a.toStr = b.toStr ↔ (a.sourceX = b.sourceX ∧ a.sourceY = b.sourceY ∧
    a.sourceLinkId = b.sourceLinkId ∧ a.destX = b.destX ∧ a.destY = b.destY) := by
  constructor
  · intro h
    obtain ⟨rfl, -⟩ := link_text_inj a b [] [] (by rw [h])
    simp
  · obtain ⟨a1, a2, a3, a4, a5⟩ := a
    rintro ⟨rfl, rfl, rfl, rfl, rfl⟩
    rfl

example : (Link.toStr ⟨0, 0, 1, 1, 1⟩) =
    "[Link: source_x=0, source_y=0, source_link_id=1, destination_x=1, destination_y=1]".toList := by decide +kernel

/-- C70: routers have the same text exactly if they have as many entries and the same links, in the same order. -/
theorem C70_router (a b : Router) : a.toStr = b.toStr ↔ (a.nEntries = b.nEntries ∧ a.linkList = b.linkList) := by
  constructor
  · intro h
    unfold Router.toStr at h
    replace h := List.append_cancel_left h
    obtain ⟨h1, h2⟩ := showInt_lit_inj ⟨_, _, rfl, by decide, by decide⟩ h
    refine ⟨h1, (joinStr_inj (sc := ',') (ec := ']') (sep := [' ']) (e := [']']) (s := []) (t := []) Link.toStr
      (by decide) ?_ ?_ _ _ h2).1⟩
    · intro a b c d u v _ _ h
      exact link_text_inj a b _ _ h
    · intro a u v h
      delta Link.toStr at h
      have h' := congrArg List.head? h
      simp at h'
  · rintro ⟨h1, h2⟩
    unfold Router.toStr
    rw [h1, show a.links.values = b.links.values from h2]

/-- the text of a router with two links -/
example : (Router.mk' [⟨0, 0, 1, 1, 1⟩, ⟨0, 0, 0, 1, 0⟩] 1023).map Router.toStr =
    .ok ("[Router: available_entries=1023, links=[" ++
      "[Link: source_x=0, source_y=0, source_link_id=1, destination_x=1, destination_y=1], " ++
      "[Link: source_x=0, source_y=0, source_link_id=0, destination_x=1, destination_y=0]]]").toList := by
  decide +kernel

/-! ### machines -/

theorem wrap_text_inj (a b : Wrap) (s t : PyStr) (h : s ++ a.label.toList = t ++ b.label.toList) : a = b ∧ s = t := by
  have hr := congrArg (fun l => (List.reverse l).take 6) h
  have key : ∀ (w : Wrap) (u : PyStr), ((u ++ w.label.toList).reverse).take 6 = (w.label.toList.reverse).take 6 := by
    intro w u
    rw [List.reverse_append, List.take_append_of_le_length]
    cases w <;> decide
  simp only [key] at hr
  have : a = b := by revert hr; cases a <;> cases b <;> decide
  subst this
  exact ⟨rfl, List.append_cancel_right h⟩

/-- C70: the text of a machine tells where it came from, how it wraps, its width and height and the number of its
chips, and nothing else. -/
theorem C70_machine (a b : Machine) : a.toStr = b.toStr ↔ (a.origin = b.origin ∧ a.wrap = b.wrap ∧
    a.width = b.width ∧ a.height = b.height ∧ a.nChips = b.nChips) := by
  constructor
  · intro h
    have form : ∀ m : Machine, m.toStr =
        '[' :: ((((((m.origin.toList ++ m.wrap.label.toList) ++ "Machine: width".toList) ++ ('=' :: showInt m.width)) ++
          ", height".toList) ++ ('=' :: showInt m.height)) ++ ", n_chips".toList ++ ('=' :: showInt m.chips.size)) ++
          "]".toList := by
      intro m
      delta Machine.toStr
      simp
    rw [form, form] at h
    replace h := List.append_cancel_right h
    simp only [List.cons.injEq, true_and] at h
    obtain ⟨h1, e1⟩ := showInt_right_inj (by decide) h
    replace h1 := List.append_cancel_right h1
    obtain ⟨h2, e2⟩ := showInt_right_inj (by decide) h1
    replace h2 := List.append_cancel_right h2
    obtain ⟨h3, e3⟩ := showInt_right_inj (by decide) h2
    replace h3 := List.append_cancel_right h3
    obtain ⟨e4, h4⟩ := wrap_text_inj _ _ _ _ h3
    exact ⟨String.toList_inj.1 h4, e4, e3, e2, Int.ofNat.inj e1⟩
  · rintro ⟨h1, h2, h3, h4, h5⟩
    unfold Machine.toStr
    rw [h1, h2, h3, h4]
    rw [show a.chips.size = b.chips.size from h5]

/-- the texts of machines that wrap in the four ways, with no origin; an origin may look like a wrap -/
example : (Machine.new .none 8 8 VKind.v5.chipCoreMap "").toStr = "[NoWrapMachine: width=8, height=8, n_chips=0]".toList ∧
    (Machine.new .full 12 12 VKind.v5.chipCoreMap "").toStr = "[WrappedMachine: width=12, height=12, n_chips=0]".toList ∧
    (Machine.new .horizontal 12 16 VKind.v5.chipCoreMap "No").toStr =
      "[NoHorWrapMachine: width=12, height=16, n_chips=0]".toList ∧
    (Machine.new .vertical 16 12 VKind.v5.chipCoreMap "Wrapped").toStr =
      "[WrappedVerWrapMachine: width=16, height=12, n_chips=0]".toList := by
  refine ⟨?_, ?_, ?_, ?_⟩ <;> decide +kernel

/-! ### SpiNNaker links -/

/-- C70: the text of a SpiNNaker link tells its id, its chip and its board, but not the link of the chip: what is
printed as the link is the id again. -/
theorem C70_spinnaker_link (a b : SpinLinkData) : a.toStr = b.toStr ↔
    (a.linkId = b.linkId ∧ a.x = b.x ∧ a.y = b.y ∧ a.board = b.board) := by
  obtain ⟨a1, a2, a3, a4, a5⟩ := a
  obtain ⟨b1, b2, b3, b4, b5⟩ := b
  constructor
  · intro h
    unfold SpinLinkData.toStr at h
    replace h := List.append_cancel_left h
    obtain ⟨rfl, h1⟩ := showInt_lit_inj ⟨_, _, rfl, by decide, by decide⟩ h
    obtain ⟨rfl, h2⟩ := showInt_lit_inj ⟨_, _, rfl, by decide, by decide⟩ h1
    obtain ⟨rfl, h3⟩ := showInt_lit_inj ⟨_, _, rfl, by decide, by decide⟩ h2
    obtain ⟨-, h4⟩ := showInt_lit_inj ⟨_, _, rfl, by decide, by decide⟩ h3
    exact ⟨rfl, rfl, rfl, h4⟩
  · rintro ⟨rfl, rfl, rfl, rfl⟩
    rfl

/-- two links that are not equal, with the same text: for link 4 of the chip, "link:0" is printed -/
theorem C70_spinnaker_link_hides_link : ∃ a b : SpinLinkData, a ≠ b ∧ a.toStr = b.toStr ∧
    a.toStr = "id:0 x:0 y:0 link:0 ip".toList ∧ a.link = 4 :=
  ⟨⟨0, 0, 0, 4, "ip".toList⟩, ⟨0, 0, 0, 3, "ip".toList⟩, by decide, rfl, by decide +kernel, rfl⟩

/-! ### routing entries -/

theorem built_nodup {e : RoutingEntry} (h : Built e) :
    (∀ l, e.procs = some l → l.Nodup) ∧ (∀ l, e.links = some l → l.Nodup) := by
  have hc : ∀ r, (RoutingEntry.calcIds r).1.Nodup ∧ (RoutingEntry.calcIds r).2.Nodup := fun r =>
    ⟨(nodup_pyRange _).sublist List.filter_sublist, (nodup_pyRange _).sublist List.filter_sublist⟩
  induction h with
  | ids hp hl h =>
    obtain ⟨-, -, h3, h4⟩ := RoutingEntry.mk_ids h
    rw [h3, h4]
    exact ⟨fun l e => by cases e; exact (orderedSet_spec _).1, fun l e => by cases e; exact (orderedSet_spec _).1⟩
  | route h => cases h; exact ⟨fun l e => (by cases e), fun l e => (by cases e)⟩
  | @merge a b e ha hb h iha ihb =>
    obtain ⟨e', h1, -, -, h2 | h2⟩ := RoutingEntry.merge_ok a b
    · rw [h] at h1; cases h1; rw [h2.2]; exact iha
    · rw [h] at h1; cases h1; rw [h2.2.1, h2.2.2]; exact ⟨fun l e => (by cases e), fun l e => (by cases e)⟩
  | @readProcs e he ih =>
    unfold RoutingEntry.readProcs
    split
    · exact ih
    · exact ⟨fun l h => by cases h; exact (hc _).1, fun l h => by cases h; exact (hc _).2⟩
  | @readLinks e he ih =>
    unfold RoutingEntry.readLinks
    split
    · exact ih
    · exact ⟨fun l h => by cases h; exact (hc _).1, fun l h => by cases h; exact (hc _).2⟩

theorem built_ids_nodup {e : RoutingEntry} (h : Built e) : e.processorIds.Nodup ∧ e.linkIds.Nodup := by
  obtain ⟨h1, h2⟩ := built_nodup h
  have hc : ∀ r, (RoutingEntry.calcIds r).1.Nodup ∧ (RoutingEntry.calcIds r).2.Nodup := fun r =>
    ⟨(nodup_pyRange _).sublist List.filter_sublist, (nodup_pyRange _).sublist List.filter_sublist⟩
  unfold RoutingEntry.processorIds RoutingEntry.linkIds RoutingEntry.readProcs RoutingEntry.readLinks
  constructor
  · cases hp : e.procs with
    | none => exact (hc _).1
    | some l => exact h1 l hp
  · cases hp : e.links with
    | none => exact (hc _).2
    | some l => exact h2 l hp

theorem sortedInts_ext {l l' : List Int} (hn : l.Nodup) (hn' : l'.Nodup) :
    Machine.sortedInts l = Machine.sortedInts l' ↔ ∀ a, a ∈ l ↔ a ∈ l' := by
  obtain ⟨p, s⟩ := sortedInts_spec l
  obtain ⟨p', s'⟩ := sortedInts_spec l'
  constructor
  · intro h a
    rw [← p.mem_iff, ← p'.mem_iff, h]
  · intro h
    refine List.Perm.eq_of_pairwise (le := (· ≤ ·)) (fun a b _ _ h1 h2 => Int.le_antisymm h1 h2) s s' ?_
    exact p.trans (((List.perm_ext_iff_of_nodup hn hn').2 h).trans p'.symm)

theorem entry_text_inj (a b : RoutingEntry) (h : a.toStr = b.toStr) :
    Machine.sortedInts a.processorIds = Machine.sortedInts b.processorIds ∧
    Machine.sortedInts a.linkIds = Machine.sortedInts b.linkIds ∧ a.defaultable = b.defaultable := by
  delta RoutingEntry.toStr at h
  replace h := List.append_cancel_left h
  obtain ⟨h1, h2⟩ := showInts_inj _ _ (":{".toList ++ _) (":{".toList ++ _) h
  replace h2 := List.append_cancel_left h2
  obtain ⟨h3, h4⟩ := showInts_inj _ _ _ _ h2
  refine ⟨h1, h3, ?_⟩
  revert h4
  cases a.defaultable <;> cases b.defaultable <;> simp

/-- C70: the text of a routing entry lists its processors and its links, each in ascending order and once, and tells
if it is defaultable. -/
theorem C70_routing_entry_form (e : RoutingEntry) (he : Built e) : ∃ ps ls : List Int,
    e.toStr = (("{" ++ ", ".intercalate (ps.map toString) ++ "}:{" ++ ", ".intercalate (ls.map toString) ++ "}") ++
      if e.defaultable then "(defaultable)" else "").toList ∧
    ps.Pairwise (· < ·) ∧ (∀ p, p ∈ ps ↔ p ∈ e.processorIds) ∧
    ls.Pairwise (· < ·) ∧ (∀ l, l ∈ ls ↔ l ∈ e.linkIds) := by
  obtain ⟨n1, n2⟩ := built_ids_nodup he
  have key : ∀ l : List Int, l.Nodup → (Machine.sortedInts l).Pairwise (· < ·) ∧
      ∀ a, a ∈ Machine.sortedInts l ↔ a ∈ l := by
    intro l hn
    obtain ⟨p, s⟩ := sortedInts_spec l
    refine ⟨?_, fun a => p.mem_iff⟩
    have hn' : (Machine.sortedInts l).Pairwise (· ≠ ·) := p.nodup_iff.2 hn
    exact (s.and hn').imp (fun {a b} h => by omega)
  refine ⟨_, _, ?_, (key _ n1).1, (key _ n1).2, (key _ n2).1, (key _ n2).2⟩
  have hmap : ∀ l : List Int, joinStr ", ".toList (l.map showInt) = (", ".intercalate (l.map toString)).toList := by
    intro l
    rw [joinStr_eq, String.toList_intercalate, List.map_map]
    congr 1
    apply List.map_congr_left
    intro a _
    exact showInt_eq_toString a
  delta RoutingEntry.toStr
  rw [hmap, hmap]
  cases e.defaultable <;> simp [String.toList_append]

/-- C70: routing entries made of existing processors and links have the same text exactly if they are equal. -/
theorem C70_routing_entry (a b : RoutingEntry) (ha : Built a) (hb : Built b)
    (hra : a.route < 2 ^ 24) (hrb : b.route < 2 ^ 24) : a.toStr = b.toStr ↔ a.eq b = true := by
  obtain ⟨na, la⟩ := built_ids_nodup ha
  obtain ⟨nb, lb⟩ := built_ids_nodup hb
  rw [eq_iff, ← C44_same_targets a b ha hb hra hrb, ← sortedInts_ext na nb, ← sortedInts_ext la lb]
  constructor
  · intro h
    obtain ⟨h1, h2, h3⟩ := entry_text_inj a b h
    exact ⟨⟨h1, h2⟩, h3⟩
  · rintro ⟨⟨h1, h2⟩, h3⟩
    unfold RoutingEntry.toStr
    rw [h1, h2, h3]

/-- an entry given as a route and one given by its targets, out of order -/
example : ∃ a b, Built a ∧ Built b ∧ a.route < 2 ^ 24 ∧ b.route < 2 ^ 24 ∧ a ≠ b ∧
    a.toStr = "{1, 17}:{0, 5}".toList ∧ b.toStr = "{1, 17}:{0, 5}".toList := by
  refine ⟨_, _, .ids (ps := .many [17, 1]) (ls := .many [5, 0]) (ip := none) (il := none) (by decide) (by decide) rfl,
    .route (r := 2 ^ 23 + 2 ^ 7 + 2 ^ 5 + 1) (d := none) rfl, ?_, ?_, ?_, ?_, ?_⟩ <;> decide +kernel

/-- C70: without the bound on the routes the text hides the bits above 24. -/
theorem C70_high_bits_hidden : ∃ a b, RoutingEntry.mk' (spinnakerRoute := some 1) = .ok a ∧
    RoutingEntry.mk' (spinnakerRoute := some (2 ^ 24 + 1)) = .ok b ∧ a.eq b = false ∧ a.toStr = b.toStr :=
  ⟨_, _, rfl, rfl, by decide +kernel, by decide +kernel⟩

/-- C70: multicast routing entries have the same text exactly if they are equal. -/
theorem C70_multicast (a b : MulticastRoutingEntry) (ha : Built a.entry) (hb : Built b.entry)
    (hra : a.spinnakerRoute < 2 ^ 24) (hrb : b.spinnakerRoute < 2 ^ 24) : a.toStr = b.toStr ↔ a.eq b = true := by
  have hd : a.eq b = true ↔ (a.key = b.key ∧ a.mask = b.mask ∧ a.entry.eq b.entry = true) := by
    unfold MulticastRoutingEntry.eq
    by_cases h1 : a.key = b.key <;> by_cases h2 : a.mask = b.mask <;> simp [h1, h2]
  rw [hd, ← C70_routing_entry _ _ ha hb hra hrb]
  constructor
  · intro h
    unfold MulticastRoutingEntry.toStr at h
    replace h := List.append_cancel_left h
    obtain ⟨h1, h2⟩ := showHex8_lit_inj (s := "0x".toList ++ _) (t := "0x".toList ++ _) h
    replace h2 := List.append_cancel_left h2
    obtain ⟨h3, h4⟩ := showHex8_lit_inj (s := _) (t := _) h2
    exact ⟨h1, h3, h4⟩
  · rintro ⟨h1, h2, h3⟩
    unfold MulticastRoutingEntry.toStr
    rw [h1, h2, h3]

/-- the number written by hexadecimal digits, most significant first -/
def hexNumber : PyStr → Nat
  | [] => 0
  | c :: s => (if c ≤ '9' then c.toNat - '0'.toNat else c.toNat - 'A'.toNat + 10) * 16 ^ s.length + hexNumber s

theorem hexVal_eq (s : PyStr) (hs : ∀ c ∈ s, c ∈ "0123456789ABCDEF".toList) : hexVal s = hexNumber s := by
  have key : ∀ (s : PyStr) (acc : Nat), (∀ c ∈ s, c ∈ "0123456789ABCDEF".toList) →
      s.foldl (fun n c => 16 * n + hexDigit c) acc = acc * 16 ^ s.length + hexNumber s := by
    intro s
    induction s with
    | nil => intro acc _; simp [hexNumber]
    | cons c s ih =>
      intro acc h
      have hc : hexDigit c = (if c ≤ '9' then c.toNat - '0'.toNat else c.toNat - 'A'.toNat + 10) := by
        have : ∀ c ∈ "0123456789ABCDEF".toList,
          hexDigit c = (if c ≤ '9' then c.toNat - '0'.toNat else c.toNat - 'A'.toNat + 10) := by decide +kernel
        exact this c (h c (by simp))
      rw [List.foldl_cons, ih _ (fun c hc => h c (by simp [hc])), hexNumber, ← hc, List.length_cons, Nat.pow_succ,
        Nat.add_mul, Nat.mul_comm 16 acc, Nat.mul_assoc, Nat.mul_comm 16]
      omega
  unfold hexVal
  rw [key s 0 hs]
  simp

/-- C70: the key and the mask of up to 32 bits are printed as eight hexadecimal digits in upper case. -/
theorem C70_multicast_form (m : MulticastRoutingEntry) (hk : m.key < 2 ^ 32) (hm : m.mask < 2 ^ 32) :
    ∃ ks ms : PyStr, m.toStr = "0x".toList ++ ks ++ ":0x".toList ++ ms ++ ":".toList ++ m.entry.toStr ∧
      ks.length = 8 ∧ (∀ c ∈ ks, c ∈ "0123456789ABCDEF".toList) ∧ hexNumber ks = m.key ∧
      ms.length = 8 ∧ (∀ c ∈ ms, c ∈ "0123456789ABCDEF".toList) ∧ hexNumber ms = m.mask := by
  obtain ⟨k1, k2, -, k4⟩ := showHex8_spec m.key
  obtain ⟨m1, m2, -, m4⟩ := showHex8_spec m.mask
  refine ⟨showHex8 m.key, showHex8 m.mask, ?_, k4 hk, k2, ?_, m4 hm, m2, ?_⟩
  · delta MulticastRoutingEntry.toStr
    simp only [List.append_assoc]
  · rw [← hexVal_eq _ k2]; exact k1
  · rw [← hexVal_eq _ m2]; exact m1

example : ((RoutingEntry.mk' (processorIds := some (.many [3])) (linkIds := some (.many [0])) (incomingLink := some 3)).bind
    fun e => (MulticastRoutingEntry.mk' 0xAB10 0xFFFFFFFF e).map MulticastRoutingEntry.toStr) =
    .ok "0x0000AB10:0xFFFFFFFF:{3}:{0}(defaultable)".toList := by decide +kernel

/-! ### tags -/

theorem comma_split {a b s t : PyStr} {l : PyStr} (ha : ',' ∉ a) (hb : ',' ∉ b)
    (h : a ++ (',' :: l ++ s) = b ++ (',' :: l ++ t)) : a = b ∧ s = t := by
  obtain ⟨h1, h2⟩ := str_lit_inj ha hb h
  exact ⟨h1, List.append_cancel_left h2⟩

/-- C70: if no address has a comma, IP tags have the same text exactly if they have the same board, destination chip,
tag, port, address, strip flag and traffic identifier. -/
theorem C70_iptag (a b : IPTag) (h1 : ',' ∉ a.boardAddress) (h2 : ',' ∉ b.boardAddress) (h3 : ',' ∉ a.ipAddress)
    (h4 : ',' ∉ b.ipAddress) : a.toStr = b.toStr ↔ a = b := by
  constructor
  · obtain ⟨a1, a2, a3, a4, a5, a6, a7, a8⟩ := a
    obtain ⟨b1, b2, b3, b4, b5, b6, b7, b8⟩ := b
    intro h
    delta IPTag.toStr at h
    replace h := List.append_cancel_left h
    obtain ⟨rfl, g1⟩ := comma_split (l := " destination_x=".toList) h1 h2 h
    obtain ⟨rfl, g2⟩ := showInt_lit_inj ⟨_, _, rfl, by decide, by decide⟩ g1
    obtain ⟨rfl, g3⟩ := showInt_lit_inj ⟨_, _, rfl, by decide, by decide⟩ g2
    obtain ⟨rfl, g4⟩ := showInt_lit_inj ⟨_, _, rfl, by decide, by decide⟩ g3
    obtain ⟨rfl, g5⟩ := showInt_lit_inj ⟨_, _, rfl, by decide, by decide⟩ g4
    obtain ⟨rfl, g6⟩ := comma_split (l := " strip_sdp=".toList) h3 h4 g5
    have g7 : a5 = b5 := by
      revert g6
      cases a5 <;> cases b5 <;> simp [showBool]
    subst g7
    have g8 := List.append_cancel_right (List.append_cancel_left (List.append_cancel_left g6))
    cases g8
    rfl
  · rintro rfl; rfl

/-- C70: so tags with the same text are equal, but equal tags may have different texts: `==` does not look at the
destination. -/
theorem C70_iptag_eq :
    (∀ a b : IPTag, ',' ∉ a.boardAddress → ',' ∉ b.boardAddress → ',' ∉ a.ipAddress → ',' ∉ b.ipAddress →
      a.toStr = b.toStr → a.eq b = true) ∧
    ∃ a b : IPTag, a.eq b = true ∧ a.toStr ≠ b.toStr := by
  constructor
  · intro a b h1 h2 h3 h4 h
    rw [(C70_iptag a b h1 h2 h3 h4).1 h]
    simp [IPTag.eq]
  · refine ⟨IPTag.mk' "b".toList 0 0 1 "i".toList 2, IPTag.mk' "b".toList 0 1 1 "i".toList 2, ?_, ?_⟩ <;> decide +kernel

example : (IPTag.mk' "10.1".toList 0 1 2 "10.2".toList 17 (trafficIdentifier := "T".toList)).toStr =
    ("IPTag(board_address=10.1, destination_x=0, destination_y=1, tag=2, port=17, ip_address=10.2, strip_sdp=False, " ++
      "traffic_identifier=T)").toList := by decide +kernel

/-- C70: if no address has a comma, reverse IP tags have the same text exactly if all that they were made of is the
same; `==` would say that they are different objects. -/
theorem C70_reverse_iptag (ba ba' : PyStr) (t p x y c s t' p' x' y' c' s' : Int) (h1 : ',' ∉ ba) (h2 : ',' ∉ ba') :
    (ReverseIPTag.mk' ba t p x y c s).toStr = (ReverseIPTag.mk' ba' t' p' x' y' c' s').toStr ↔
      (ba = ba' ∧ t = t' ∧ p = p' ∧ x = x' ∧ y = y' ∧ c = c' ∧ s = s') := by
  constructor
  · intro h
    unfold ReverseIPTag.toStr ReverseIPTag.mk' at h
    dsimp only at h
    replace h := List.append_cancel_left h
    obtain ⟨rfl, g1⟩ := comma_split (l := " tag=".toList) h1 h2 h
    obtain ⟨rfl, g2⟩ := showInt_lit_inj ⟨_, _, rfl, by decide, by decide⟩ g1
    obtain ⟨rfl, g3⟩ := showInt_lit_inj ⟨_, _, rfl, by decide, by decide⟩ g2
    obtain ⟨rfl, g4⟩ := showInt_lit_inj ⟨_, _, rfl, by decide, by decide⟩ g3
    obtain ⟨rfl, g5⟩ := showInt_lit_inj ⟨_, _, rfl, by decide, by decide⟩ g4
    obtain ⟨rfl, g6⟩ := showInt_lit_inj ⟨_, _, rfl, by decide, by decide⟩ g5
    have := showInt_last_inj ⟨_, _, rfl, by decide, by decide⟩ g6
    subst this
    simp
  · rintro ⟨rfl, rfl, rfl, rfl, rfl, rfl, rfl⟩
    rfl

example : (ReverseIPTag.mk' "10.1".toList 1 17895 2 3 4).toStr =
    "ReverseIPTag(board_address=10.1, tag=1, port=17895, destination_x=2, destination_y=3, destination_p=4, sdp_port=1)".toList := by
  decide +kernel

/-! ### groups of cores -/

theorem xy_text_inj (a b : XY) (s t : PyStr) (h : showXY a ++ s = showXY b ++ t) : a = b ∧ s = t := by
  obtain ⟨a1, a2⟩ := a
  obtain ⟨b1, b2⟩ := b
  delta showXY at h
  simp only [List.append_assoc] at h
  replace h := List.append_cancel_left h
  obtain ⟨rfl, h1⟩ := showInt_lit_inj ⟨_, _, rfl, by decide, by decide⟩ h
  obtain ⟨rfl, h2⟩ := showInt_lit_inj ⟨_, _, rfl, by decide, by decide⟩ h1
  exact ⟨rfl, h2⟩

theorem joinNil_inj (l l' : List XY) (h : joinStr [] (l.map showXY) = joinStr [] (l'.map showXY)) : l = l' := by
  have flat : ∀ l : List XY, joinStr [] (l.map showXY) = l.flatMap showXY := by
    intro l
    induction l with
    | nil => rfl
    | cons a l ih =>
      cases l with
      | nil => simp [joinStr]
      | cons b l =>
        rw [List.map_cons, List.map_cons, joinStr, ← List.map_cons (f := showXY), ih]
        simp
  rw [flat, flat] at h
  induction l generalizing l' with
  | nil =>
    cases l' with
    | nil => rfl
    | cons b l' =>
      have := congrArg List.length h
      simp [showXY] at this
  | cons a l ih =>
    cases l' with
    | nil =>
      have := congrArg List.length h
      simp [showXY] at this
    | cons b l' =>
      obtain ⟨rfl, h2⟩ := xy_text_inj a b _ _ h
      rw [ih _ h2]

/-- C70: the text of a group of cores tells its chips, in the order in which they were first given, and no cores. -/
theorem C70_core_subsets (w : CoreWorld) (hw : CoreReach w) (g h : Nat) :
    (w.grps g).toStr = (w.grps h).toStr ↔
      (w.iter g).map (fun a => ((w.subs a).x, (w.subs a).y)) = (w.iter h).map (fun a => ((w.subs a).x, (w.subs a).y)) := by
  have inv := CoreReach_inv hw
  have keys : ∀ g, (w.grps g).map.keys = (w.iter g).map (fun a => ((w.subs a).x, (w.subs a).y)) := by
    intro g
    unfold CoreWorld.iter PDict.keys PDict.values
    rw [List.map_map]
    apply List.map_congr_left
    rintro ⟨xy, a⟩ hm
    obtain ⟨-, h1, h2, -⟩ := inv.own g xy a ((PDict.mem_items_iff (inv.wf g) _ _).1 hm)
    exact Prod.ext h1.symm h2.symm
  unfold CoreGroup.toStr
  rw [keys, keys]
  exact ⟨joinNil_inj _ _, fun h => by rw [h]⟩

/-- C70: so groups with different cores may have the same text. -/
theorem C70_core_subsets_hide_cores : ∃ (w : CoreWorld) (g h : Nat), CoreReach w ∧ g ≠ h ∧
    (w.grps g).toStr = "(0, 1)(2, -3)".toList ∧ (w.grps h).toStr = "(0, 1)(2, -3)".toList ∧
    w.isCore g 0 1 5 = true ∧ w.isCore h 0 1 5 = false := by
  refine ⟨_, 0, 1, .step (.step (.step (.step (.step (.step .start (.newGroup false [] (by simp)))
    (.newGroup false [] (by simp))) (.addProcessor 0 (by decide) 0 1 5 rfl)) (.addProcessor 0 (by decide) 2 (-3) 1 rfl))
    (.addProcessor 1 (by decide) 0 1 6 rfl)) (.addProcessor 1 (by decide) 2 (-3) 1 rfl), by decide, ?_, ?_, ?_, ?_⟩ <;>
    decide +kernel

end SpiNN.Props
