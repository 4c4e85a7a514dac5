import Verif.Spec.Energy
import Verif.Lemmas.PDict

namespace SpiNN.Props
open SpiNN SpiNN.Spec SpiNN.Energy

theorem cost_eq (n : String) : costPerPacketType.get? n = joules n := by
  by_cases h : n ∈ costPerPacketType.keys
  · have : ∀ n ∈ costPerPacketType.keys, costPerPacketType.get? n = joules n := by decide +kernel
    exact this n h
  · rw [(PDict.get?_eq_none_iff _ _).2 h]
    have hk : costPerPacketType.keys = ["Local_Multicast_Packets", "External_Multicast_Packets", "Reinjected",
      "Local_P2P_Packets", "External_P2P_Packets", "Local_NN_Packets", "External_NN_Packets", "Local_FR_Packets",
      "External_FR_Packets"] := rfl
    rw [hk] at h
    unfold joules
    rw [if_neg, if_neg]
    · intro h'; apply h
      simp only [List.mem_cons, List.not_mem_nil, or_false] at h' ⊢
      rcases h' with h' | h' | h' | h' <;> simp only [h', true_or, or_true]
    · intro h'; apply h
      simp only [List.mem_cons, List.not_mem_nil, or_false] at h' ⊢
      rcases h' with h' | h' | h' | h' | h' <;> simp only [h', true_or, or_true]

theorem packetsEnergy_ok (l : List (String × Int)) (h : ∀ nv ∈ l, joules nv.1 ≠ none) :
    packetsEnergy l = .ok (l.map fun nv => nv.2 * (joules nv.1).getD 0).sum := by
  induction l with
  | nil => rfl
  | cons nv l ih =>
    obtain ⟨n, v⟩ := nv
    have h1 := h (n, v) (by simp)
    simp only [packetsEnergy, PDict.getE, cost_eq]
    cases hj : joules n with
    | none => exact absurd hj h1
    | some c =>
      simp only
      rw [ih fun nv hnv => h nv (by simp [hnv])]
      simp [hj]

theorem packetsEnergy_error (l : List (String × Int)) (h : ¬ ∀ nv ∈ l, joules nv.1 ≠ none) :
    packetsEnergy l = .error .keyError := by
  induction l with
  | nil => simp at h
  | cons nv l ih =>
    obtain ⟨n, v⟩ := nv
    simp only [packetsEnergy, PDict.getE, cost_eq]
    cases hj : joules n with
    | none => rfl
    | some c =>
      simp only
      rw [ih (by intro hl; apply h; intro nv hnv; rcases List.mem_cons.1 hnv with rfl | hm; · simp [hj]
                 · exact hl nv hm)]

theorem sum_flatMap {α : Type} (l : List α) (f : α → List Rat) : (l.flatMap f).sum = (l.map fun a => (f a).sum).sum := by
  induction l with
  | nil => rfl
  | cons a l ih => simp [ih]

theorem routerActive_ok (rp : RouterPackets) (h : KnownPackets rp) : routerActive rp = .ok (packetJoules rp) := by
  unfold routerActive
  rw [packetsEnergy_ok]
  · unfold packetJoules
    rw [List.map_flatMap, sum_flatMap]
  · intro nv hnv
    obtain ⟨p, hp, hn⟩ := List.mem_flatMap.1 hnv
    exact h p hp nv.1 (List.mem_map.2 ⟨nv, hn, rfl⟩)

theorem routerActive_error (rp : RouterPackets) (h : ¬ KnownPackets rp) : routerActive rp = .error .keyError := by
  unfold routerActive
  apply packetsEnergy_error
  intro hl
  apply h
  intro p hp n hn
  obtain ⟨nv, hnv, rfl⟩ := List.mem_map.1 hn
  exact hl nv (List.mem_flatMap.2 ⟨p, hp, hnv⟩)

theorem coreActive_eq (t : ChipActiveTime) : coreActive t = activeSeconds t * (34 / 1000) := by
  unfold coreActive activeSeconds wattsPerCoreActive
  induction t.values with
  | nil => simp
  | cons a l ih => simp only [List.map_cons, List.sum_cons, ih]; grind

/-! ## C62 -/

/-- C62: the idle energy is a number of watts times the time. A version 3 board has no frames and at
most one board. -/
theorem C62_idle (k : VKind) (hk : k = .v3 ∨ k = .v5) (t : Rat) (frames boards chips : Int) :
    idle k t frames boards chips =
      if k = .v3 ∧ (frames ≠ 0 ∨ boards > 1) then .error .machine
      else .ok (idleWatts k frames boards chips * t) := by
  unfold idleWatts
  rcases hk with rfl | rfl
  · simp only [idle, true_and, if_true, wattsPerIdleChip, watts4ChipBoard]
    by_cases hf : frames = 0
    · subst hf
      by_cases hb : boards > 1
      · simp [hb]
      · by_cases h0 : boards = 0
        · subst h0; simp; grind
        · have : ¬ 1 < boards := by omega
          by_cases h1 : boards = 1
          · subst h1; simp; grind
          · simp [h0, h1, this]; grind
    · simp [hf]
  · simp only [idle, reduceCtorEq, false_and, if_false, wattsPerIdleChip, watts48ChipBoard, wattsFrameIdle, wattsBox,
      Except.ok.injEq]
    by_cases hf : frames = 0
    · subst hf
      by_cases h1 : boards = 1
      · subst h1; simp; grind
      · by_cases hb : 1 < boards
        · have : boards ≠ 0 := by omega
          simp [h1, hb, this]; grind
        · by_cases h0 : boards = 0
          · subst h0; simp; grind
          · simp [h0, h1, hb]; grind
    · by_cases h1 : boards = 1
      · subst h1; simp [hf]; grind
      · by_cases hb : 1 < boards
        · have : boards ≠ 0 := by omega
          simp only [ne_eq, hf, not_false_eq_true, if_true, hb, h1, if_false, this]; grind
        · by_cases h0 : boards = 0
          · subst h0; simp; grind
          · simp [h0, h1, hb]; grind

/-- C62: the active energy is the idle energy, plus the cost of each packet, plus 0.034 W for the
active time, plus for version 5 the overhead of each frame; an unknown packet type raises KeyError. -/
theorem C62_active (k : VKind) (hk : k = .v3 ∨ k = .v5) (t : Rat) (frames boards chips : Int)
    (times : ChipActiveTime) (rp : RouterPackets) :
    active k t frames boards chips times rp =
      match idle k t frames boards chips with
      | .error e => .error e
      | .ok i => open Classical in if KnownPackets rp then
          .ok (i + packetJoules rp + activeSeconds times * (34 / 1000) +
            (if k = .v5 then (frames : Rat) * (37163558 / 1000000) * t else 0))
        else .error .keyError := by
  rcases hk with rfl | rfl
  · simp only [active, bind, Except.bind]
    cases idle .v3 t frames boards chips with
    | error e => rfl
    | ok i =>
      by_cases h : KnownPackets rp
      · simp only [h, reduceCtorEq, if_false, if_true, routerActive_ok rp h, coreActive_eq]
        congr 1; grind
      · simp [h, routerActive_error rp h]
  · simp only [active, bind, Except.bind]
    cases idle .v5 t frames boards chips with
    | error e => rfl
    | ok i =>
      by_cases h : KnownPackets rp
      · simp only [h, if_true, routerActive_ok rp h, coreActive_eq, wattsFrameActive]
        congr 1
        by_cases hf : frames = 0
        · subst hf; simp; grind
        · simp only [ne_eq, hf, not_false_eq_true, if_true]; grind
      · simp [h, routerActive_error rp h]

/-- C62: no energy or packet types for SpiNNaker2 versions. -/
theorem C62_spin2 (k : VKind) (hk : k = .v201 ∨ k = .v248) (t : Rat) (frames boards chips : Int)
    (times : ChipActiveTime) (rp : RouterPackets) :
    idle k t frames boards chips = .error .notImplemented ∧
    active k t frames boards chips times rp = .error .notImplemented ∧
    packetTypes k = .error .notImplemented := by
  rcases hk with rfl | rfl <;> exact ⟨rfl, rfl, rfl⟩

/-- C62: get_router_report_packet_types gives exactly the types with a cost. -/
theorem C62_packet_types (k : VKind) (hk : k = .v3 ∨ k = .v5) :
    ∃ l, packetTypes k = .ok l ∧ l.Nodup ∧ ∀ n, n ∈ l ↔ joules n ≠ none := by
  refine ⟨costPerPacketType.keys, by rcases hk with rfl | rfl <;> rfl, by decide +kernel, ?_⟩
  intro n
  rw [PDict.mem_keys_iff, cost_eq]
  cases joules n <;> simp

theorem idleWatts_nonneg (k : VKind) (frames boards chips : Int) (h1 : 0 ≤ frames) (h2 : 0 ≤ boards)
    (h3 : 0 ≤ chips) : 0 ≤ idleWatts k frames boards chips := by
  have c1 : (0 : Rat) ≤ frames := by exact_mod_cast h1
  have c2 : (0 : Rat) ≤ boards := by exact_mod_cast h2
  have c3 : (0 : Rat) ≤ chips := by exact_mod_cast h3
  unfold idleWatts
  split <;> split <;> (try split) <;> (try split) <;> grind

/-- C62: for a time and counts that are not negative the idle energy is not negative. -/
theorem C62_idle_nonneg (k : VKind) (hk : k = .v3 ∨ k = .v5) (t : Rat) (frames boards chips : Int) (i : Rat)
    (ht : 0 ≤ t) (h1 : 0 ≤ frames) (h2 : 0 ≤ boards) (h3 : 0 ≤ chips)
    (hi : idle k t frames boards chips = .ok i) : 0 ≤ i := by
  rw [C62_idle k hk] at hi
  split at hi
  · simp at hi
  · simp only [Except.ok.injEq] at hi
    subst hi
    exact Rat.mul_nonneg (idleWatts_nonneg k frames boards chips h1 h2 h3) ht

/-- C62: the idle energy of two periods is the sum. -/
theorem C62_idle_additive (k : VKind) (hk : k = .v3 ∨ k = .v5) (t u : Rat) (frames boards chips : Int) (i j : Rat)
    (hi : idle k t frames boards chips = .ok i) (hj : idle k u frames boards chips = .ok j) :
    idle k (t + u) frames boards chips = .ok (i + j) := by
  rw [C62_idle k hk] at hi hj ⊢
  split at hi
  · simp at hi
  · rename_i hc
    rw [if_neg hc] at hj ⊢
    simp only [Except.ok.injEq] at hi hj ⊢
    subst hi; subst hj; grind

theorem sum_nonneg (l : List Rat) (h : ∀ x ∈ l, 0 ≤ x) : 0 ≤ l.sum := by
  induction l with
  | nil => simp
  | cons a l ih =>
    have h1 := h a (by simp)
    have h2 := ih fun x hx => h x (by simp [hx])
    simp only [List.sum_cons]
    grind

theorem joules_nonneg (n : String) : 0 ≤ (joules n).getD 0 := by
  unfold joules
  split
  · decide +kernel
  · split <;> decide +kernel

/-- C62: with times, counts and packets that are not negative the active energy is at least the idle
energy. -/
theorem C62_active_ge_idle (k : VKind) (hk : k = .v3 ∨ k = .v5) (t : Rat) (frames boards chips : Int)
    (times : ChipActiveTime) (rp : RouterPackets) (i a : Rat) (ht : 0 ≤ t) (h1 : 0 ≤ frames)
    (htimes : ∀ x ∈ times.values, 0 ≤ x.1) (hrp : ∀ p ∈ rp.values, ∀ n ∈ p.values, 0 ≤ n)
    (hi : idle k t frames boards chips = .ok i) (ha : active k t frames boards chips times rp = .ok a) :
    i ≤ a := by
  rw [C62_active k hk, hi] at ha
  simp only at ha
  split at ha
  · simp only [Except.ok.injEq] at ha
    subst ha
    have p1 : 0 ≤ packetJoules rp := by
      unfold packetJoules
      apply sum_nonneg
      intro x hx
      obtain ⟨p, hp, rfl⟩ := List.mem_map.1 hx
      apply sum_nonneg
      intro y hy
      obtain ⟨nv, hnv, rfl⟩ := List.mem_map.1 hy
      refine Rat.mul_nonneg ?_ (joules_nonneg _)
      have := hrp p hp nv.2 (List.mem_map.2 ⟨nv, hnv, rfl⟩)
      exact_mod_cast this
    have p2 : 0 ≤ activeSeconds times := by
      unfold activeSeconds
      apply sum_nonneg
      intro x hx
      obtain ⟨p, hp, rfl⟩ := List.mem_map.1 hx
      exact htimes p hp
    have p3 : 0 ≤ (frames : Rat) * (37163558 / 1000000) * t := by
      have c1 : (0 : Rat) ≤ frames := by exact_mod_cast h1
      exact Rat.mul_nonneg (Rat.mul_nonneg c1 (by decide +kernel)) ht
    split <;> grind
  · simp at ha

theorem sum_assign {K V : Type} [DecidableEq K] (f : K × V → Rat) (l : List (K × V)) (k : K) (v old : V)
    (h : PDict.lookup l k = some old) :
    ((PDict.assign l k v).map f).sum = (l.map f).sum + f (k, v) - f (k, old) := by
  induction l with
  | nil => simp [PDict.lookup] at h
  | cons a l ih =>
    obtain ⟨k', v'⟩ := a
    simp only [PDict.lookup] at h
    simp only [PDict.assign]
    split at h
    · rename_i he
      subst he
      simp only [Option.some.injEq] at h
      subst h
      simp only [if_true, List.map_cons, List.sum_cons]; grind
    · rename_i he
      simp only [he, if_false, List.map_cons, List.sum_cons, ih h]; grind

/-- C62: each packet more costs its joules. -/
theorem C62_packets (k : VKind) (hk : k = .v3 ∨ k = .v5) (t : Rat) (frames boards chips : Int)
    (times : ChipActiveTime) (rp : RouterPackets) (a c : Rat) (xy : XY) (p : PDict String Int) (name : String)
    (n extra : Int) (hp : rp.get? xy = some p) (hn : p.get? name = some n) (hc : joules name = some c)
    (ha : active k t frames boards chips times rp = .ok a) :
    active k t frames boards chips times (rp.set xy (p.set name (n + extra))) = .ok (a + extra * c) := by
  rw [C62_active k hk] at ha ⊢
  cases hi : idle k t frames boards chips with
  | error e => simp [hi] at ha
  | ok i =>
    simp only [hi] at ha ⊢
    split at ha
    · rename_i hkn
      simp only [Except.ok.injEq] at ha
      have hkeys : (p.set name (n + extra)).keys = p.keys :=
        PDict.keys_set_of_mem _ _ _ (by simp [PDict.contains, hn])
      have hkn' : KnownPackets (rp.set xy (p.set name (n + extra))) := by
        intro q hq m hm
        obtain ⟨kv, hkv, rfl⟩ := List.mem_map.1 hq
        have : ∀ (l : List (XY × PDict String Int)) (kv), kv ∈ PDict.assign l xy (p.set name (n + extra)) →
            kv ∈ l ∨ kv.2 = p.set name (n + extra) := by
          intro l
          induction l with
          | nil => intro kv h; simp only [PDict.assign, List.mem_singleton] at h; subst h; exact .inr rfl
          | cons b l ih =>
            intro kv h
            simp only [PDict.assign] at h
            split at h
            · rcases List.mem_cons.1 h with rfl | h
              · exact .inr rfl
              · exact .inl (by simp [h])
            · rcases List.mem_cons.1 h with rfl | h
              · exact .inl (by simp)
              · rcases ih kv h with h | h
                · exact .inl (by simp [h])
                · exact .inr h
        rcases this _ _ hkv with h | h
        · exact hkn kv.2 (List.mem_map.2 ⟨kv, h, rfl⟩) m hm
        · rw [h, hkeys] at hm
          exact hkn p (List.mem_map.2 ⟨_, PDict.get?_mem hp, rfl⟩) m hm
      rw [if_pos hkn']
      congr 1
      subst ha
      have e1 : packetJoules (rp.set xy (p.set name (n + extra))) = packetJoules rp + extra * c := by
        unfold packetJoules PDict.values
        rw [List.map_map, List.map_map]
        have s1 := sum_assign (fun kv : XY × PDict String Int =>
          (kv.2.items.map fun nv => (nv.2 : Rat) * (joules nv.1).getD 0).sum) rp.items xy (p.set name (n + extra)) p hp
        have s2 := sum_assign (fun nv : String × Int => (nv.2 : Rat) * (joules nv.1).getD 0) p.items name (n + extra) n hn
        simp only [hc, Option.getD_some] at s2
        have e3 : ((n + extra : Int) : Rat) = (n : Rat) + extra := Rat.intCast_add _ _
        rw [e3] at s2
        have : (rp.set xy (p.set name (n + extra))).items = PDict.assign rp.items xy (p.set name (n + extra)) := rfl
        rw [this]
        show (List.map (fun kv : XY × PDict String Int =>
          (kv.2.items.map fun nv => (nv.2 : Rat) * (joules nv.1).getD 0).sum) _).sum = _
        rw [s1]
        have : (p.set name (n + extra)).items = PDict.assign p.items name (n + extra) := rfl
        simp only [this, s2]
        show _ = (List.map (fun kv : XY × PDict String Int =>
          (kv.2.items.map fun nv => (nv.2 : Rat) * (joules nv.1).getD 0).sum) _).sum + _
        grind
      rw [e1]; grind
    · simp at ha

/-- C62 (partial): each second of active time more costs 0.034 J. Missing: the number of cores of the
chip is not used (`C62_ignores_core_count`). -/
theorem C62_core_time_partial (k : VKind) (hk : k = .v3 ∨ k = .v5) (t : Rat) (frames boards chips : Int)
    (times : ChipActiveTime) (rp : RouterPackets) (a : Rat) (xy : XY) (s extra : Rat) (n n' : Int)
    (hs : times.get? xy = some (s, n)) (ha : active k t frames boards chips times rp = .ok a) :
    active k t frames boards chips (times.set xy (s + extra, n')) rp = .ok (a + extra * (34 / 1000)) := by
  rw [C62_active k hk] at ha ⊢
  cases hi : idle k t frames boards chips with
  | error e => simp [hi] at ha
  | ok i =>
    simp only [hi] at ha ⊢
    split at ha
    · rename_i hkn
      simp only [Except.ok.injEq] at ha
      rw [if_pos hkn]
      congr 1
      subst ha
      have s1 := sum_assign (fun kv : XY × (Rat × Int) => kv.2.1) times.items xy (s + extra, n') (s, n) hs
      have e1 : activeSeconds (times.set xy (s + extra, n')) = activeSeconds times + extra := by
        unfold activeSeconds PDict.values
        rw [List.map_map, List.map_map]
        have : (times.set xy (s + extra, n')).items = PDict.assign times.items xy (s + extra, n') := rfl
        rw [this]
        show (List.map (fun kv : XY × (Rat × Int) => kv.2.1) _).sum = (List.map (fun kv : XY × (Rat × Int) => kv.2.1) _).sum + _
        rw [s1]; grind
      rw [e1]; grind
    · simp at ha

/-- C62: the number of active cores of a chip makes no difference, so if the time is that of the chip
its energy does not depend on every core. -/
theorem C62_ignores_core_count (k : VKind) (hk : k = .v3 ∨ k = .v5) (t : Rat) (frames boards chips : Int)
    (times : ChipActiveTime) (rp : RouterPackets) (a : Rat) (xy : XY) (s : Rat) (n n' : Int)
    (hs : times.get? xy = some (s, n)) (ha : active k t frames boards chips times rp = .ok a) :
    active k t frames boards chips (times.set xy (s, n')) rp = .ok a := by
  have := C62_core_time_partial k hk t frames boards chips times rp a xy s 0 n n' hs ha
  have e1 : s + 0 = s := by grind
  have e2 : a + 0 * (34 / 1000) = a := by grind
  rw [e1, e2] at this
  exact this

/-- two boards in a frame for ten seconds -/
example : active .v5 10 1 2 96 ⟨[((0, 0), (5, 17))]⟩ ⟨[((0, 0), ⟨[("Reinjected", 1000000000)]⟩)]⟩ =
    .ok (2 * 2684 / 10 + 1170 + 37163558 / 100000 + 1 + 5 * 34 / 1000) := by decide +kernel

end SpiNN.Props
