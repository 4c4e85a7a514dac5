import Verif.Lemmas.FloatSum
import Verif.Props.Energy

/-!
# C86 Energy in floating point
-/

namespace SpiNN.Props
open SpiNN SpiNN.Spec SpiNN.Energy

/-- the number of packet counts and active times -/
def energyTerms (times : ChipActiveTime) (rp : RouterPackets) : ℕ :=
  (rp.values.map PDict.size).sum + times.size

private theorem rounded {fl : ℝ → ℝ} (hfl : Rounding fl) {x : ℝ} (hx : 0 ≤ x) : Approx 1 x (fl x) :=
  (Approx.refl hx).fl hfl

private theorem int_rounded {fl : ℝ → ℝ} (hfl : Rounding fl) {n : Int} (hn : 0 ≤ n) : Approx 1 (n : ℝ) (fl n) :=
  rounded hfl (by exact_mod_cast hn)

private theorem frame_overhead {fl : ℝ → ℝ} (hfl : Rounding fl) :
    Approx 11 (37.163558 : ℝ) (wattsFrameActiveFl fl) := by
  unfold wattsFrameActiveFl
  have h117 : fl 117 = 117 := (hfl 117).eq (by simpa using isDouble_int (k := 117) (by norm_num))
  have h1 := (hfl 154.163558).rel
  rw [abs_of_pos (by norm_num : (0 : ℝ) < 154.163558), show (1 : ℝ) / 2 ^ 53 = uu from rfl] at h1
  have h1' := abs_le.1 h1
  have h2 : Approx (2 * 5) (37.163558 : ℝ) (fl 154.163558 - fl 117) := by
    refine Approx.of_error (by norm_num) ?_ (by have := uu_small; push_cast; linarith)
    rw [h117, abs_le]
    push_cast
    have := uu_pos
    constructor <;> linarith
  exact h2.fl hfl

private theorem lookup_rel {R : Rat → ℝ → Prop} : ∀ {l : List (String × Rat)} {l' : List (String × ℝ)},
    List.Forall₂ (fun a b => a.1 = b.1 ∧ R a.2 b.2) l l' → ∀ n,
    (PDict.lookup l n = none ∧ PDict.lookup l' n = none) ∨
    ∃ c c', PDict.lookup l n = some c ∧ PDict.lookup l' n = some c' ∧ R c c'
  | _, _, .nil, n => .inl ⟨rfl, rfl⟩
  | (a, c) :: l, (b, c') :: l', .cons h t, n => by
    obtain ⟨h1, h2⟩ := h
    simp only at h1 h2
    subst h1
    simp only [PDict.lookup]
    by_cases he : a = n
    · simp only [he, if_true]; exact .inr ⟨c, c', rfl, rfl, h2⟩
    · simp only [he, if_false]; exact lookup_rel t n

private theorem cost_rel {fl : ℝ → ℝ} (hfl : Rounding fl) (n : String) :
    (costPerPacketType.getE n = .error .keyError ∧ (costPerPacketTypeFl fl).getE n = .error .keyError) ∨
    ∃ c c', costPerPacketType.getE n = .ok c ∧ (costPerPacketTypeFl fl).getE n = .ok c' ∧ Approx 3 (c : ℝ) c' := by
  have h40 : fl 40 = 40 := (hfl 40).eq (by simpa using isDouble_int (k := 40) (by norm_num))
  have h72 : fl 72 = 72 := (hfl 72).eq (by simpa using isDouble_int (k := 72) (by norm_num))
  have hp : Approx 3 ((joulesPerPacket : Rat) : ℝ) (joulesPerPacketFl fl) := by
    have := (((rounded hfl (by norm_num : (0 : ℝ) ≤ 0.000000000025)).mul
      (Approx.refl (by norm_num : (0 : ℝ) ≤ 40))).fl hfl).mono (by omega : 1 + 0 + 1 ≤ 3)
    unfold joulesPerPacketFl joulesPerRouterBitFl joulesPerPacket joulesPerRouterBit
    rw [h40]
    convert this using 1
    norm_num
  have hq : Approx 3 ((joulesPerPacketWithPayload : Rat) : ℝ) (joulesPerPacketWithPayloadFl fl) := by
    have := (((rounded hfl (by norm_num : (0 : ℝ) ≤ 0.000000000025)).mul
      (Approx.refl (by norm_num : (0 : ℝ) ≤ 72))).fl hfl).mono (by omega : 1 + 0 + 1 ≤ 3)
    unfold joulesPerPacketWithPayloadFl joulesPerRouterBitFl joulesPerPacketWithPayload joulesPerRouterBit
    rw [h72]
    convert this using 1
    norm_num
  have h := lookup_rel (R := fun c c' => Approx 3 (c : ℝ) c') (l := costPerPacketType.items)
    (l' := (costPerPacketTypeFl fl).items) (by
      unfold costPerPacketType costPerPacketTypeFl
      exact .cons ⟨rfl, hp⟩ (.cons ⟨rfl, hp⟩ (.cons ⟨rfl, hp⟩ (.cons ⟨rfl, hq⟩ (.cons ⟨rfl, hq⟩ (.cons ⟨rfl, hp⟩
        (.cons ⟨rfl, hp⟩ (.cons ⟨rfl, hq⟩ (.cons ⟨rfl, hq⟩ .nil))))))))) n
  rcases h with ⟨h1, h2⟩ | ⟨c, c', h1, h2, h3⟩
  · left; simp [PDict.getE, PDict.get?, h1, h2]
  · right; exact ⟨c, c', by simp [PDict.getE, PDict.get?, h1], by simp [PDict.getE, PDict.get?, h2], h3⟩

private theorem packets_error {fl : ℝ → ℝ} (hfl : Rounding fl) (e : PyErr) : ∀ l : List (String × Int),
    packetTermsFl fl l = .error e ↔ packetsEnergy l = .error e
  | [] => by simp [packetTermsFl, packetsEnergy]
  | (n, v) :: l => by
    have ih := packets_error hfl e l
    unfold packetTermsFl packetsEnergy
    rcases cost_rel hfl n with ⟨h1, h2⟩ | ⟨c, c', h1, h2, -⟩
    · simp only [h1, h2, Except.error.injEq]
    · rw [h1, h2]
      simp only
      cases h : packetTermsFl fl l <;> cases h' : packetsEnergy l <;> simp only [h, h', reduceCtorEq,
        iff_false, false_iff, Except.error.injEq] at ih ⊢
      · exact ih
      · exact fun he => ih he
      · exact fun he => ih he

private theorem packets_ok {fl : ℝ → ℝ} (hfl : Rounding fl) : ∀ (l : List (String × Int)) (s : Rat),
    (∀ nv ∈ l, 0 ≤ nv.2) → packetsEnergy l = .ok s →
    ∃ xs ys, packetTermsFl fl l = .ok ys ∧ List.Forall₂ (Approx 5) xs ys ∧ xs.sum = (s : ℝ) ∧ ys.length = l.length ∧
      ∀ y ∈ ys, IsDouble y
  | [], s, _, h => by
    simp only [packetsEnergy, Except.ok.injEq] at h
    subst h
    exact ⟨[], [], rfl, .nil, by simp, rfl, by simp⟩
  | (n, v) :: l, s, hv, h => by
    unfold packetsEnergy at h
    rcases cost_rel hfl n with ⟨h1, h2⟩ | ⟨c, c', h1, h2, h3⟩
    · rw [h1] at h; cases h
    · rw [h1] at h
      simp only at h
      cases h' : packetsEnergy l with
      | error e => rw [h'] at h; cases h
      | ok s' =>
        rw [h'] at h
        simp only [Except.ok.injEq] at h
        obtain ⟨xs, ys, g1, g2, g3, g4, g5⟩ := packets_ok hfl l s' (fun nv hnv => hv nv (by simp [hnv])) h'
        refine ⟨v * c :: xs, fl (fl v * c') :: ys, by unfold packetTermsFl; rw [h2, g1], .cons ?_ g2, ?_, by simp [g4],
          List.forall_mem_cons.2 ⟨(hfl _).1, g5⟩⟩
        · exact ((int_rounded hfl (hv (n, v) (by simp))).mul h3).fl hfl
        · rw [← h, List.sum_cons, g3]; push_cast; ring

private theorem router_ok {fl : ℝ → ℝ} (hfl : Rounding fl) (new : Bool) (N e : ℕ)
    (hsum : ∀ l : List ℝ, (∀ x ∈ l, 0 ≤ x ∧ IsDouble x) → l.length ≤ N → Approx e l.sum (pySumFl fl new l))
    (rp : RouterPackets) (s : Rat)
    (hrp : ∀ p ∈ rp.values, ∀ n ∈ p.values, 0 ≤ n) (h : routerActive rp = .ok s)
    (hn : (rp.values.map PDict.size).sum ≤ N) :
    ∃ s', routerActiveFl fl new rp = .ok s' ∧ Approx (5 + e) (s : ℝ) s' := by
  unfold routerActive at h
  obtain ⟨xs, ys, h1, h2, h3, h4, hd⟩ := packets_ok hfl _ s (by
    rintro nv hnv
    obtain ⟨p, hp, hnv⟩ := List.mem_flatMap.1 hnv
    exact hrp p hp _ (List.mem_map.2 ⟨nv, hnv, rfl⟩)) h
  have hlen : ys.length = (rp.values.map PDict.size).sum := by
    rw [h4, List.length_flatMap]; rfl
  refine ⟨_, by unfold routerActiveFl; rw [h1], ?_⟩
  have h5 := sum_terms h2
  rw [h3] at h5
  have h6 := hsum ys (by
    intro y hy
    refine ⟨?_, hd y hy⟩
    obtain ⟨i, hi, rfl⟩ := List.mem_iff_getElem.1 hy
    exact ((List.forall₂_iff_get.1 h2).2 i (by rw [(List.forall₂_iff_get.1 h2).1]; exact hi) hi).nonneg)
    (by rw [hlen]; exact hn)
  exact h5.trans h6

private theorem core_ok {fl : ℝ → ℝ} (hfl : Rounding fl) (new : Bool) (N e : ℕ)
    (hsum : ∀ l : List ℝ, (∀ x ∈ l, 0 ≤ x ∧ IsDouble x) → l.length ≤ N → Approx e l.sum (pySumFl fl new l))
    (times : ChipActiveTime)
    (ht : ∀ x ∈ times.values, 0 ≤ x.1) (hn : times.size ≤ N) :
    Approx (2 + e) ((coreActive times : Rat) : ℝ) (coreActiveFl fl new times) := by
  have h2 : List.Forall₂ (Approx 2) (times.values.map fun x => (x.1 : ℝ) * 0.034)
      (times.values.map fun x => fl ((x.1 : ℝ) * wattsPerCoreActiveFl fl)) := by
    rw [List.forall₂_map_left_iff, List.forall₂_map_right_iff, List.forall₂_same]
    intro x hx
    exact ((Approx.refl (by exact_mod_cast ht x hx)).mul (rounded hfl (by norm_num))).fl hfl
  have h3 : (times.values.map fun x => (x.1 : ℝ) * 0.034).sum = ((coreActive times : Rat) : ℝ) := by
    unfold coreActive wattsPerCoreActive
    induction times.values with
    | nil => simp
    | cons a l ih => simp only [List.map_cons, List.sum_cons, ih]; push_cast; norm_num
  have h5 := sum_terms h2
  rw [h3] at h5
  have h6 := hsum (times.values.map fun x => fl ((x.1 : ℝ) * wattsPerCoreActiveFl fl)) (by
    intro y hy
    obtain ⟨x, hx, rfl⟩ := List.mem_map.1 hy
    exact ⟨(hfl _).nonneg (mul_nonneg (by exact_mod_cast ht x hx) ((hfl _).nonneg (by norm_num))), (hfl _).1⟩)
    (by simpa [PDict.values, PDict.size] using hn)
  exact h5.trans h6

private theorem idle_approx {fl : ℝ → ℝ} (hfl : Rounding fl) (k : VKind) (t : Rat) (frames boards chips : Int)
    (ht : 0 ≤ t) (h1 : 0 ≤ frames) (h2 : 0 ≤ boards) (h3 : 0 ≤ chips) (i : Rat)
    (hi : idle k t frames boards chips = .ok i) :
    ∃ i', idleFl fl k t frames boards chips = .ok i' ∧ Approx 5 (i : ℝ) i' ∧ IsDouble i' := by
  have htr : Approx 0 (t : ℝ) t := Approx.refl (by exact_mod_cast ht)
  have prod : ∀ (n : Int) (w : ℝ), 0 ≤ n → 0 ≤ w → Approx 4 (n * w * t) (fl (fl (fl n * fl w) * t)) :=
    fun n w hn hw => ((((int_rounded hfl hn).mul (rounded hfl hw)).fl hfl).mul htr).fl hfl
  cases k with
  | v3 =>
    unfold idle at hi
    unfold idleFl
    simp only at hi ⊢
    split at hi
    · cases hi
    rename_i hf
    rw [if_neg hf]
    split at hi
    · cases hi
    rename_i hb
    rw [if_neg hb]
    split at hi
    · rename_i hb0
      rw [if_pos hb0]
      injection hi with hi
      refine ⟨_, rfl, ?_, (hfl _).1⟩
      have := (prod chips 0.35 h3 (by norm_num)).mono (by omega : 4 ≤ 5)
      rw [← hi, wattsPerIdleChip, wattsPerIdleChipFl]
      convert this using 1
      push_cast; norm_num
    · rename_i hb0
      rw [if_neg hb0]
      injection hi with hi
      refine ⟨_, rfl, ?_, (hfl _).1⟩
      have := (((rounded hfl (by norm_num : (0 : ℝ) ≤ 3.56)).mul htr).fl hfl).mono (by omega : 1 + 0 + 1 ≤ 5)
      rw [← hi, watts4ChipBoard, watts4ChipBoardFl]
      convert this using 1
      push_cast; norm_num
  | v5 =>
    unfold idle at hi
    unfold idleFl
    simp only [Except.ok.injEq] at hi
    have hE : Approx 4 (((if boards = 0 then chips * wattsPerIdleChip * t
        else boards * watts48ChipBoard * t : Rat)) : ℝ)
        (if boards = 0 then fl (fl (fl chips * wattsPerIdleChipFl fl) * t)
        else fl (fl (fl boards * watts48ChipBoardFl fl) * t)) := by
      split
      · have := prod chips 0.35 h3 (by norm_num)
        rw [wattsPerIdleChip, wattsPerIdleChipFl]
        convert this using 1
        push_cast; norm_num
      · have := prod boards 26.84 h2 (by norm_num)
        rw [watts48ChipBoard, watts48ChipBoardFl]
        convert this using 1
        push_cast; norm_num
    have hEd : IsDouble (if boards = 0 then fl (fl (fl chips * wattsPerIdleChipFl fl) * t)
        else fl (fl (fl boards * watts48ChipBoardFl fl) * t)) := by
      split
      · exact (hfl _).1
      · exact (hfl _).1
    refine ⟨_, rfl, ?_⟩
    rw [← hi]
    generalize (if boards = 0 then chips * wattsPerIdleChip * t else boards * watts48ChipBoard * t : Rat) = E at *
    generalize (if boards = 0 then fl (fl (fl chips * wattsPerIdleChipFl fl) * t)
        else fl (fl (fl boards * watts48ChipBoardFl fl) * t)) = E' at *
    split
    · split
      · refine ⟨?_, (hfl _).1⟩
        have hm : 0 ≤ frames * wattsFrameIdleInt := Int.mul_nonneg h1 (by decide)
        have := (hE.add (((int_rounded hfl hm).mul htr).fl hfl) (le_refl 4) (by omega : 1 + 0 + 1 ≤ 4)).fl hfl
        rw [wattsFrameIdle]
        convert this using 1
        unfold wattsFrameIdleInt
        push_cast; ring
      · split
        · refine ⟨?_, (hfl _).1⟩
          have := (hE.add (prod frames 5.04 h1 (by norm_num)) (le_refl 4) (le_refl 4)).fl hfl
          rw [wattsBox, wattsBoxFl]
          convert this using 1
          push_cast; norm_num
        · exact ⟨hE.mono (by omega), hEd⟩
    · exact ⟨hE.mono (by omega), hEd⟩
  | v201 => cases hi
  | v248 => cases hi

private theorem bind_ok {α β : Type} {x : Except PyErr α} {a : α} {f : α → Except PyErr β} (h : x = .ok a) :
    (x >>= f) = f a := by rw [h]; rfl

private theorem bind_err {α β : Type} {x : Except PyErr α} {e : PyErr} {f : α → Except PyErr β} (h : x = .error e) :
    (x >>= f) = .error e := by rw [h]; rfl

/-- The idle energy: the same exceptions. -/
theorem C86_idle_exceptions (fl : ℝ → ℝ) (k : VKind) (t : Rat) (frames boards chips : Int) (e : PyErr) :
    idleFl fl k t frames boards chips = .error e ↔ idle k t frames boards chips = .error e := by
  cases k with
  | v3 =>
    unfold idleFl idle
    simp only
    split
    · simp
    · split
      · simp
      · split <;> simp
  | v5 => unfold idleFl idle; simp
  | v201 => simp [idleFl, idle]
  | v248 => simp [idleFl, idle]

private theorem router_error {fl : ℝ → ℝ} (hfl : Rounding fl) (new : Bool) (rp : RouterPackets) (e : PyErr) :
    routerActiveFl fl new rp = .error e ↔ routerActive rp = .error e := by
  unfold routerActiveFl routerActive
  rw [← packets_error hfl]
  cases packetTermsFl fl (rp.values.flatMap fun p => p.items) <;> simp

/-- The active energy: the same exceptions. -/
theorem C86_active_exceptions (fl : ℝ → ℝ) (hfl : Rounding fl) (new : Bool) (k : VKind) (t : Rat)
    (frames boards chips : Int) (times : ChipActiveTime) (rp : RouterPackets) (e : PyErr) :
    activeFl fl new k t frames boards chips times rp = .error e ↔
    active k t frames boards chips times rp = .error e := by
  have hi := C86_idle_exceptions fl k t frames boards chips
  have hr := router_error hfl new rp
  cases k with
  | v3 =>
    unfold activeFl active
    cases h1 : idle .v3 t frames boards chips with
    | error e1 => simp only [bind_err ((hi e1).2 h1), bind_err (rfl : (Except.error e1 : Except PyErr Rat) = .error e1),
        Except.error.injEq]
    | ok i =>
      cases h2 : idleFl fl .v3 t frames boards chips with
      | error e1 => rw [(hi e1).1 h2] at h1; cases h1
      | ok i' =>
        cases h3 : routerActive rp with
        | error e1 => simp only [bind_ok rfl, (hr e1).2 h3, bind_err rfl, Except.error.injEq]
        | ok r =>
          cases h4 : routerActiveFl fl new rp with
          | error e1 => rw [(hr e1).1 h4] at h3; cases h3
          | ok r' => simp [bind_ok rfl]
  | v5 =>
    unfold activeFl active
    cases h1 : idle .v5 t frames boards chips with
    | error e1 => simp only [bind_err ((hi e1).2 h1), bind_err (rfl : (Except.error e1 : Except PyErr Rat) = .error e1),
        Except.error.injEq]
    | ok i =>
      cases h2 : idleFl fl .v5 t frames boards chips with
      | error e1 => rw [(hi e1).1 h2] at h1; cases h1
      | ok i' =>
        cases h3 : routerActive rp with
        | error e1 => simp only [bind_ok rfl, (hr e1).2 h3, bind_err rfl, Except.error.injEq]
        | ok r =>
          cases h4 : routerActiveFl fl new rp with
          | error e1 => rw [(hr e1).1 h4] at h3; cases h3
          | ok r' => simp [bind_ok rfl]
  | v201 => simp [activeFl, active]
  | v248 => simp [activeFl, active]

/-- The idle energy is that of exact arithmetic up to ten units of the last place. -/
theorem C86_idle_close (fl : ℝ → ℝ) (hfl : Rounding fl) (k : VKind) (t : Rat) (frames boards chips : Int)
    (ht : 0 ≤ t) (h1 : 0 ≤ frames) (h2 : 0 ≤ boards) (h3 : 0 ≤ chips) (i : Rat)
    (hi : idle k t frames boards chips = .ok i) :
    ∃ i', idleFl fl k t frames boards chips = .ok i' ∧ |i' - i| ≤ 10 / 2 ^ 53 * i := by
  obtain ⟨i', h4, h5, -⟩ := idle_approx hfl k t frames boards chips ht h1 h2 h3 i hi
  refine ⟨i', h4, ?_⟩
  have := h5.error (by have := uu_small; push_cast; linarith)
  refine this.trans (le_of_eq ?_)
  unfold uu
  push_cast
  ring

private theorem active_approx' {fl : ℝ → ℝ} (hfl : Rounding fl) (new : Bool) (N e : ℕ)
    (hsum : ∀ l : List ℝ, (∀ x ∈ l, 0 ≤ x ∧ IsDouble x) → l.length ≤ N → Approx e l.sum (pySumFl fl new l))
    (k : VKind) (t : Rat)
    (frames boards chips : Int) (times : ChipActiveTime) (rp : RouterPackets) (ht : 0 ≤ t) (h1 : 0 ≤ frames)
    (h2 : 0 ≤ boards) (h3 : 0 ≤ chips) (htimes : ∀ x ∈ times.values, 0 ≤ x.1)
    (hrp : ∀ p ∈ rp.values, ∀ n ∈ p.values, 0 ≤ n) (hn : energyTerms times rp ≤ N) (a : Rat)
    (ha : active k t frames boards chips times rp = .ok a) :
    ∃ i' a', idleFl fl k t frames boards chips = .ok i' ∧ activeFl fl new k t frames boards chips times rp = .ok a' ∧
      Approx (e + 17) (a : ℝ) a' ∧ i' ≤ a' := by
  have hc := core_ok hfl new N e hsum times htimes (by unfold energyTerms at hn; omega)
  have hrouter : ∀ r, routerActive rp = .ok r → _ := fun r hr =>
    router_ok hfl new N e hsum rp r hrp hr (by unfold energyTerms at hn; omega)
  have up : ∀ {x y : ℝ}, IsDouble x → 0 ≤ y → x ≤ fl (x + y) := fun hx hy =>
    (hfl _).le_of_le hx (by linarith)
  cases k with
  | v3 =>
    unfold active at ha
    cases hi : idle .v3 t frames boards chips with
    | error e => rw [hi] at ha; cases ha
    | ok i =>
      cases hr : routerActive rp with
      | error e => rw [hi, hr] at ha; cases ha
      | ok r =>
        obtain ⟨i', h4, h5, h6⟩ := idle_approx hfl .v3 t frames boards chips ht h1 h2 h3 i hi
        obtain ⟨r', h7, h8⟩ := hrouter r hr
        rw [hi, hr] at ha
        injection ha with ha
        refine ⟨i', _, h4, by unfold activeFl; rw [h4, h7]; rfl, ?_, ?_⟩
        · have := (((h5.add h8 (m := e + 15) (by omega)
            (by omega)).fl hfl).add hc (le_refl _) (by omega)).fl hfl
          rw [← ha]
          push_cast
          exact this
        · exact (up h6 h8.nonneg).trans (up (hfl _).1 hc.nonneg)
  | v5 =>
    unfold active at ha
    cases hi : idle .v5 t frames boards chips with
    | error e => rw [hi] at ha; cases ha
    | ok i =>
      cases hr : routerActive rp with
      | error e => rw [hi, hr] at ha; cases ha
      | ok r =>
        obtain ⟨i', h4, h5, h6⟩ := idle_approx hfl .v5 t frames boards chips ht h1 h2 h3 i hi
        obtain ⟨r', h7, h8⟩ := hrouter r hr
        rw [hi, hr] at ha
        injection ha with ha
        have hcont : Approx 14 (((if frames ≠ 0 then frames * wattsFrameActive * t else 0 : Rat)) : ℝ)
            (if frames ≠ 0 then fl (fl (fl frames * wattsFrameActiveFl fl) * t) else 0) := by
          split
          · have := ((((int_rounded hfl h1).mul (frame_overhead hfl)).fl hfl).mul
              (Approx.refl (by exact_mod_cast ht : (0 : ℝ) ≤ t))).fl hfl
            rw [wattsFrameActive]
            convert this using 1
            push_cast; norm_num
          · simpa using (Approx.refl (le_refl 0)).mono (Nat.zero_le 14)
        refine ⟨i', _, h4, by unfold activeFl; simp only; rw [h4, h7]; rfl, ?_, ?_⟩
        · have := (((((hcont.add h5 (le_refl 14) (by omega)).fl hfl).add h8 (m := e + 15)
            (by omega) (by omega)).fl hfl).add hc (le_refl _) (by omega)).fl hfl
          rw [← ha]
          push_cast
          exact this
        · have h9 := up h6 hcont.nonneg
          rw [add_comm] at h9
          exact (h9.trans (up (hfl _).1 h8.nonneg)).trans (up (hfl _).1 hc.nonneg)
  | v201 => cases ha
  | v248 => cases ha

private theorem active_approx {fl : ℝ → ℝ} (hfl : Rounding fl) (new : Bool) (k : VKind) (t : Rat)
    (frames boards chips : Int) (times : ChipActiveTime) (rp : RouterPackets) (ht : 0 ≤ t) (h1 : 0 ≤ frames)
    (h2 : 0 ≤ boards) (h3 : 0 ≤ chips) (htimes : ∀ x ∈ times.values, 0 ≤ x.1)
    (hrp : ∀ p ∈ rp.values, ∀ n ∈ p.values, 0 ≤ n) (hn : energyTerms times rp ≤ 2 ^ 45) (a : Rat)
    (ha : active k t frames boards chips times rp = .ok a) :
    ∃ i' a', idleFl fl k t frames boards chips = .ok i' ∧ activeFl fl new k t frames boards chips times rp = .ok a' ∧
      Approx (20 * energyTerms times rp + 17) (a : ℝ) a' ∧ i' ≤ a' := by
  refine active_approx' hfl new (energyTerms times rp) _ (fun l hl hlen => ?_) k t frames boards chips times rp ht h1 h2
    h3 htimes hrp (le_refl _) a ha
  refine (sum_approx hfl new l (fun x hx => (hl x hx).1) ?_).mono (by omega)
  have : (l.length : ℝ) ≤ 2 ^ 45 := by exact_mod_cast hlen.trans hn
  unfold uu
  rw [mul_one_div, div_le_one (by positivity)]
  calc 24 * (l.length : ℝ) ≤ 24 * 2 ^ 45 := by linarith
    _ ≤ 2 ^ 53 := by norm_num

/-- From Python 3.12 on `sum` gives back what each addition loses, so that the active energy is that of
exact arithmetic up to 42 units of the last place, however many terms (up to a million) are added. -/
theorem C86_active_close_new (fl : ℝ → ℝ) (hfl : Rounding fl) (k : VKind) (t : Rat)
    (frames boards chips : Int) (times : ChipActiveTime) (rp : RouterPackets) (ht : 0 ≤ t) (h1 : 0 ≤ frames)
    (h2 : 0 ≤ boards) (h3 : 0 ≤ chips) (htimes : ∀ x ∈ times.values, 0 ≤ x.1)
    (hrp : ∀ p ∈ rp.values, ∀ n ∈ p.values, 0 ≤ n) (hn : energyTerms times rp ≤ 2 ^ 20) (a : Rat)
    (ha : active k t frames boards chips times rp = .ok a) :
    ∃ a', activeFl fl true k t frames boards chips times rp = .ok a' ∧ |a' - a| ≤ 42 / 2 ^ 53 * a := by
  obtain ⟨i', a', -, h4, h5, -⟩ := active_approx' hfl true (2 ^ 20) (2 * 2) (fun l hl hlen => by
      refine Approx.of_error (List.sum_nonneg fun x hx => (hl x hx).1) ?_ (by have := uu_small; push_cast; linarith)
      exact_mod_cast new_sum_approx hfl l hl hlen)
    k t frames boards chips times rp ht h1 h2 h3 htimes hrp hn a ha
  refine ⟨a', h4, ?_⟩
  have := h5.error (by have := uu_small; push_cast; linarith)
  refine this.trans (le_of_eq ?_)
  unfold uu
  push_cast
  ring

/-- The active energy is that of exact arithmetic up to a relative error that grows with the number of
terms that are added. -/
theorem C86_active_close (fl : ℝ → ℝ) (hfl : Rounding fl) (new : Bool) (k : VKind) (t : Rat)
    (frames boards chips : Int) (times : ChipActiveTime) (rp : RouterPackets) (ht : 0 ≤ t) (h1 : 0 ≤ frames)
    (h2 : 0 ≤ boards) (h3 : 0 ≤ chips) (htimes : ∀ x ∈ times.values, 0 ≤ x.1)
    (hrp : ∀ p ∈ rp.values, ∀ n ∈ p.values, 0 ≤ n) (hn : energyTerms times rp ≤ 2 ^ 45) (a : Rat)
    (ha : active k t frames boards chips times rp = .ok a) :
    ∃ a', activeFl fl new k t frames boards chips times rp = .ok a' ∧
      |a' - a| ≤ (40 * energyTerms times rp + 34) / 2 ^ 53 * a := by
  obtain ⟨i', a', -, h4, h5, -⟩ := active_approx hfl new k t frames boards chips times rp ht h1 h2 h3 htimes hrp hn a ha
  refine ⟨a', h4, ?_⟩
  have := h5.error (by
    have : (energyTerms times rp : ℝ) ≤ 2 ^ 45 := by exact_mod_cast hn
    unfold uu
    rw [mul_one_div, div_le_one (by positivity)]
    push_cast
    calc 2 * (20 * (energyTerms times rp : ℝ) + 17) ≤ 2 * (20 * 2 ^ 45 + 17) := by linarith
      _ ≤ 2 ^ 53 := by norm_num)
  refine this.trans (le_of_eq ?_)
  unfold uu
  push_cast
  ring

/-- The active energy the program computes is never less than the idle energy it computes: no rounding
turns the overhead into a gain. Neither is negative. -/
theorem C86_active_ge_idle (fl : ℝ → ℝ) (hfl : Rounding fl) (new : Bool) (k : VKind) (t : Rat)
    (frames boards chips : Int) (times : ChipActiveTime) (rp : RouterPackets) (ht : 0 ≤ t) (h1 : 0 ≤ frames)
    (h2 : 0 ≤ boards) (h3 : 0 ≤ chips) (htimes : ∀ x ∈ times.values, 0 ≤ x.1)
    (hrp : ∀ p ∈ rp.values, ∀ n ∈ p.values, 0 ≤ n) (hn : energyTerms times rp ≤ 2 ^ 45) (i a : ℝ)
    (hi : idleFl fl k t frames boards chips = .ok i)
    (ha : activeFl fl new k t frames boards chips times rp = .ok a) : 0 ≤ i ∧ i ≤ a := by
  cases h : active k t frames boards chips times rp with
  | error e => rw [(C86_active_exceptions fl hfl new k t frames boards chips times rp e).2 h] at ha; cases ha
  | ok a0 =>
    obtain ⟨i', a', g1, g2, -, g4⟩ :=
      active_approx hfl new k t frames boards chips times rp ht h1 h2 h3 htimes hrp hn a0 h
    rw [hi] at g1
    rw [ha] at g2
    injection g1 with g1
    injection g2 with g2
    subst g1 g2
    refine ⟨?_, g4⟩
    cases h' : idle k t frames boards chips with
    | error e => rw [(C86_idle_exceptions fl k t frames boards chips e).2 h'] at hi; cases hi
    | ok i0 =>
      obtain ⟨i', g1, g2, -⟩ := idle_approx hfl k t frames boards chips ht h1 h2 h3 i0 h'
      rw [hi] at g1
      injection g1 with g1
      exact g1 ▸ g2.nonneg

/-- rounding keeps the order -/
private theorem fl_mono {fl : ℝ → ℝ} (hfl : Rounding fl) {x y : ℝ} (h : x ≤ y) : fl x ≤ fl y := by
  by_contra hlt
  rw [not_le] at hlt
  have h1 := (hfl x).2 _ (hfl y).1
  have h2 := (hfl y).2 _ (hfl x).1
  rcases eq_or_lt_of_le h with rfl | hxy
  · exact lt_irrefl _ hlt
  · rcases le_total (fl x) x with hx | hx
    · have : fl y < x := by linarith
      rw [abs_of_nonneg (by linarith), abs_of_nonneg (by linarith)] at h2
      linarith
    · rw [abs_of_nonpos (by linarith)] at h1
      rcases le_total x (fl y) with hy | hy
      · rw [abs_of_nonpos (by linarith)] at h1
        linarith
      · rw [abs_of_nonneg (by linarith)] at h1
        rw [abs_of_nonneg (by linarith)] at h2
        rcases le_total (fl x) y with hz | hz
        · rw [abs_of_nonneg (by linarith)] at h2
          linarith
        · rw [abs_of_nonpos (by linarith)] at h2
          linarith

/-- The idle energy the program computes never falls when the time grows. -/
theorem C86_idle_monotone (fl : ℝ → ℝ) (hfl : Rounding fl) (k : VKind) (t t' : Rat) (frames boards chips : Int)
    (ht : t ≤ t') (h1 : 0 ≤ frames) (h2 : 0 ≤ boards) (h3 : 0 ≤ chips) (i i' : ℝ)
    (hi : idleFl fl k t frames boards chips = .ok i) (hi' : idleFl fl k t' frames boards chips = .ok i') : i ≤ i' := by
  have htr : (t : ℝ) ≤ t' := by exact_mod_cast ht
  have hint : ∀ n : Int, 0 ≤ n → 0 ≤ fl (n : ℝ) := fun n hn => (hfl _).nonneg (by exact_mod_cast hn)
  have prod : ∀ (n : Int) (w : ℝ), 0 ≤ n → 0 ≤ w → fl (fl (fl n * fl w) * t) ≤ fl (fl (fl n * fl w) * t') :=
    fun n w hn hw => fl_mono hfl (mul_le_mul_of_nonneg_left htr
      ((hfl _).nonneg (mul_nonneg (hint n hn) ((hfl _).nonneg hw))))
  cases k with
  | v3 =>
    unfold idleFl at hi hi'
    simp only at hi hi'
    split at hi
    · cases hi
    rename_i hf
    rw [if_neg hf] at hi'
    split at hi
    · cases hi
    rename_i hb
    rw [if_neg hb] at hi'
    split at hi
    · rename_i hb0
      rw [if_pos hb0] at hi'
      injection hi with hi
      injection hi' with hi'
      rw [← hi, ← hi']
      exact prod chips _ h3 (by norm_num)
    · rename_i hb0
      rw [if_neg hb0] at hi'
      injection hi with hi
      injection hi' with hi'
      rw [← hi, ← hi']
      exact fl_mono hfl (mul_le_mul_of_nonneg_left htr ((hfl _).nonneg (by norm_num)))
  | v5 =>
    unfold idleFl at hi hi'
    simp only [Except.ok.injEq] at hi hi'
    have hE : (if boards = 0 then fl (fl (fl chips * wattsPerIdleChipFl fl) * t)
        else fl (fl (fl boards * watts48ChipBoardFl fl) * t)) ≤
        (if boards = 0 then fl (fl (fl chips * wattsPerIdleChipFl fl) * t')
        else fl (fl (fl boards * watts48ChipBoardFl fl) * t')) := by
      split
      · exact prod chips _ h3 (by norm_num)
      · exact prod boards _ h2 (by norm_num)
    rw [← hi, ← hi']
    split
    · split
      · refine fl_mono hfl (add_le_add hE (fl_mono hfl (mul_le_mul_of_nonneg_left htr (hint _ ?_))))
        exact Int.mul_nonneg h1 (by decide)
      · split
        · exact fl_mono hfl (add_le_add hE (prod frames _ h1 (by norm_num)))
        · exact hE
    · exact hE
  | v201 => cases hi
  | v248 => cases hi

/-- two boards in a frame for ten seconds: with either sum the program is within a tenth of a
nanojoule of the exact energy -/
example : ∃ fl, Rounding fl ∧ ∀ new, ∃ a', activeFl fl new .v5 10 1 2 96 ⟨[((0, 0), (5, 17))]⟩
      ⟨[((0, 0), ⟨[("Reinjected", 1000000000)]⟩)]⟩ = .ok a' ∧
    |a' - (2 * 2684 / 10 + 1170 + 37163558 / 100000 + 1 + 5 * 34 / 1000)| ≤ 1 / 10000000000 := by
  obtain ⟨fl, h⟩ := rounding_exists
  refine ⟨fl, h, fun new => ?_⟩
  obtain ⟨a', h1, h2⟩ := C86_active_close fl h new .v5 10 1 2 96 ⟨[((0, 0), (5, 17))]⟩
    ⟨[((0, 0), ⟨[("Reinjected", 1000000000)]⟩)]⟩ (by decide) (by decide) (by decide) (by decide) (by decide)
    (by decide) (by decide) (2 * 2684 / 10 + 1170 + 37163558 / 100000 + 1 + 5 * 34 / 1000) (by decide +kernel)
  refine ⟨a', h1, ?_⟩
  rw [show energyTerms ⟨[((0, 0), (5, 17))]⟩ ⟨[((0, 0), ⟨[("Reinjected", 1000000000)]⟩)]⟩ = 2 from rfl] at h2
  push_cast at h2
  refine h2.trans ?_
  norm_num

/-- a thousand routers that each count a packet: from Python 3.12 on the error stays 42 units -/
example : ∃ fl, Rounding fl ∧ ∃ a', activeFl fl true .v5 10 1 2 96 ⟨[((0, 0), (5, 17))]⟩
      ⟨(List.range 1000).map fun i => ((i, 0), ⟨[("Reinjected", 1000000000)]⟩)⟩ = .ok a' ∧
    |a' - (2 * 2684 / 10 + 1170 + 37163558 / 100000 + 1000 + 5 * 34 / 1000)| ≤ 1 / 10000000000 := by
  obtain ⟨fl, h⟩ := rounding_exists
  refine ⟨fl, h, ?_⟩
  obtain ⟨a', h1, h2⟩ := C86_active_close_new fl h .v5 10 1 2 96 ⟨[((0, 0), (5, 17))]⟩
    ⟨(List.range 1000).map fun i => ((i, 0), ⟨[("Reinjected", 1000000000)]⟩)⟩ (by decide) (by decide) (by decide)
    (by decide) (by decide) (by decide +kernel) (by decide +kernel)
    (2 * 2684 / 10 + 1170 + 37163558 / 100000 + 1000 + 5 * 34 / 1000) (by decide +kernel)
  refine ⟨a', h1, ?_⟩
  push_cast at h2
  refine h2.trans ?_
  norm_num

end SpiNN.Props
