import Verif.Model.RoutingInt
import Verif.Props.Routing

/-!
# C90 Routes, keys and masks may be any integers
-/

namespace SpiNN.Spec
open SpiNN

/-- bit `i` of an integer in two's complement: for negative numbers too, the parity of the number
divided by `2 ^ i` and rounded down -/
def BitZ (z : Int) (i : Nat) : Prop := z / 2 ^ i % 2 = 1

/-- the entries a program can hold if it uses existing processors and links, or any integers as routes -/
inductive BuiltZ : IntEntry → Prop
  | entry {e} (h : Built e) : BuiltZ (.ofEntry e)
  | route (r : Int) (d : Option Bool) : BuiltZ (.ofRoute r d)
  | merge {a b} (ha : BuiltZ a) (hb : BuiltZ b) : BuiltZ (a.merge b)

end SpiNN.Spec

namespace SpiNN.Props
open SpiNN Spec

private theorem testBit_iff (z : Int) (i : Nat) : z.testBit i = true ↔ BitZ z i := by
  unfold BitZ
  cases z with
  | ofNat m =>
    have : (Int.ofNat m).testBit i = m.testBit i := rfl
    rw [this, Nat.testBit_eq_decide_div_mod_eq, decide_eq_true_eq]
    have e : (Int.ofNat m) / 2 ^ i % 2 = ((m / 2 ^ i % 2 : Nat) : Int) := by push_cast; rfl
    rw [e]; omega
  | negSucc m =>
    have : (Int.negSucc m).testBit i = !m.testBit i := rfl
    rw [this, Nat.testBit_eq_decide_div_mod_eq]
    have hp : (0 : Int) < 2 ^ i := Int.pow_pos (by decide)
    have e : Int.negSucc m / 2 ^ i = -((m / 2 ^ i : Nat) : Int) - 1 := by
      rw [Int.negSucc_ediv _ hp]
      rw [Int.natCast_ediv]
      have : ((2 ^ i : Nat) : Int) = 2 ^ i := by push_cast; rfl
      rw [this]
      show -(((m : Int) / 2 ^ i) + 1) = _
      omega
    rw [e]
    simp only [Bool.not_eq_true', decide_eq_false_iff_not]
    omega

private theorem bitZ_land (a b : Int) (i : Nat) : BitZ (Int.land a b) i ↔ BitZ a i ∧ BitZ b i := by
  rw [← testBit_iff, ← testBit_iff, ← testBit_iff, Int.testBit_land, Bool.and_eq_true]

private theorem bitZ_lor (a b : Int) (i : Nat) : BitZ (Int.lor a b) i ↔ BitZ a i ∨ BitZ b i := by
  rw [← testBit_iff, ← testBit_iff, ← testBit_iff, Int.testBit_lor, Bool.or_eq_true]

private theorem eq_of_bits {a b : Int} (h : ∀ i, BitZ a i ↔ BitZ b i) : a = b := by
  simp only [← testBit_iff, ← Bool.eq_iff_iff] at h
  have big : ∀ m n : Nat, m.testBit (m + n) = false := fun m n =>
    Nat.testBit_lt_two_pow (Nat.lt_of_lt_of_le Nat.lt_two_pow_self (Nat.pow_le_pow_right (by decide) (by omega)))
  have hn : ∀ (m : Nat) i, (Int.negSucc m).testBit i = !m.testBit i := fun _ _ => rfl
  have hp : ∀ (m : Nat) i, (Int.ofNat m).testBit i = m.testBit i := fun _ _ => rfl
  cases a with
  | ofNat m =>
    cases b with
    | ofNat n => exact congrArg Int.ofNat (Nat.eq_of_testBit_eq h)
    | negSucc n =>
      have := h (m + n)
      rw [hn, hp, big, Nat.add_comm, big] at this
      simp at this
  | negSucc m =>
    cases b with
    | ofNat n =>
      have := h (m + n)
      rw [hn, hp, big, Nat.add_comm, big] at this
      simp at this
    | negSucc n =>
      refine congrArg Int.negSucc (Nat.eq_of_testBit_eq fun i => ?_)
      have := h i
      rw [hn, hn] at this
      exact Bool.not_inj this

private theorem bitZ_one (n i : Nat) : BitZ ((1 <<< n : Nat) : Int) i ↔ i = n := by
  rw [← testBit_iff]
  have : (((1 <<< n : Nat) : Int)).testBit i = (1 <<< n : Nat).testBit i := rfl
  rw [this, Nat.one_shiftLeft, Nat.testBit_two_pow, decide_eq_true_eq]
  exact eq_comm

private theorem bitZ_zero (i : Nat) : ¬ BitZ 0 i := by unfold BitZ; simp

private theorem land_one (r : Int) (n : Nat) : Int.land r ((1 <<< n : Nat) : Int) ≠ 0 ↔ BitZ r n := by
  constructor
  · intro h
    refine Classical.byContradiction fun hn => h (eq_of_bits fun i => ?_)
    rw [bitZ_land, bitZ_one]
    constructor
    · rintro ⟨h1, rfl⟩; exact absurd h1 hn
    · intro h; exact absurd h (bitZ_zero i)
  · intro h e
    have : BitZ (Int.land r ((1 <<< n : Nat) : Int)) n := (bitZ_land _ _ _).2 ⟨h, (bitZ_one n n).2 rfl⟩
    rw [e] at this
    exact bitZ_zero n this

private theorem mem_calc_procs (r : Int) (p : Int) :
    p ∈ (IntEntry.calcIds r).1 ↔ ProcId p ∧ BitZ r (6 + p).toNat := by
  unfold IntEntry.calcIds ProcId
  show p ∈ List.filter _ _ ↔ _
  rw [List.mem_filter, RoutingEntry.mem_pyRange_iff, decide_eq_true_eq, land_one]
  show (0 ≤ p ∧ p < 18) ∧ _ ↔ _
  rw [show p < 18 ↔ p ≤ 17 by omega]
  exact Iff.rfl

private theorem mem_calc_links (r : Int) (l : Int) :
    l ∈ (IntEntry.calcIds r).2 ↔ LinkId l ∧ BitZ r l.toNat := by
  unfold IntEntry.calcIds LinkId
  show l ∈ List.filter _ _ ↔ _
  rw [List.mem_filter, RoutingEntry.mem_pyRange_iff, decide_eq_true_eq, land_one]
  show (0 ≤ l ∧ l < 6) ∧ _ ↔ _
  rw [show l < 6 ↔ l ≤ 5 by omega]

private theorem bitZ_nat (n i : Nat) : BitZ (n : Int) i ↔ n.testBit i = true := (testBit_iff _ _).symm

/-- An entry made from any integer has the processors and links that the integer has bits for in two's
complement (bit `i` for link `i`, bit `6 + p` for processor `p`); higher bits do not matter. -/
theorem C90_route_ids (r : Int) (d : Option Bool) :
    (∀ p, p ∈ (IntEntry.ofRoute r d).processorIds ↔ ProcId p ∧ BitZ r (6 + p).toNat) ∧
    (∀ l, l ∈ (IntEntry.ofRoute r d).linkIds ↔ LinkId l ∧ BitZ r l.toNat) ∧
    ((IntEntry.ofRoute r d).defaultable = true ↔ d = some true) := by
  refine ⟨mem_calc_procs r, mem_calc_links r, ?_⟩
  cases d with
  | none => simp [IntEntry.ofRoute]
  | some b => simp [IntEntry.ofRoute]

/-- `Router.convert_spinnaker_route_to_routing_ids` reads the same bits -/
theorem C90_convert (r : Int) :
    (∀ p, p ∈ (Router.convertInt r).1 ↔ ProcId p ∧ BitZ r (6 + p).toNat) ∧
    (∀ l, l ∈ (Router.convertInt r).2 ↔ LinkId l ∧ BitZ r l.toNat) := ⟨mem_calc_procs r, mem_calc_links r⟩

private theorem low_bits (r : Int) (i : Nat) (hi : i < 24) : BitZ r i ↔ BitZ (r % 2 ^ 24) i := by
  unfold BitZ
  have h : (2 : Int) ^ 24 = 2 ^ i * (2 * 2 ^ (23 - i)) := by
    rw [← Int.pow_succ', ← Int.pow_add]; congr 1; omega
  have hp : (2 : Int) ^ i ≠ 0 := Int.ne_of_gt (Int.pow_pos (by decide))
  have e : r / 2 ^ i = r % 2 ^ 24 / 2 ^ i + 2 * (2 ^ (23 - i) * (r / 2 ^ 24)) := by
    have := Int.emod_add_mul_ediv r (2 ^ 24)
    generalize hs : r % 2 ^ 24 = s at *
    generalize hq : r / 2 ^ 24 = q at *
    rw [← this, h, Int.mul_assoc, Int.add_mul_ediv_left _ _ hp, Int.mul_assoc]
  rw [e, Int.add_mul_emod_self_left]

/-- Only the low 24 bits of a route count: the entry has the targets of the entry made from the route
modulo `2 ^ 24` (a word that the router's register holds), of whatever sign the route is. -/
theorem C90_low_bits (r : Int) (d d' : Option Bool) :
    ∃ e, RoutingEntry.mk' (spinnakerRoute := some (r % 2 ^ 24).toNat) (defaultable := d') = .ok e ∧
      e.route < 2 ^ 24 ∧
      (∀ p, p ∈ (IntEntry.ofRoute r d).processorIds ↔ p ∈ e.processorIds) ∧
      (∀ l, l ∈ (IntEntry.ofRoute r d).linkIds ↔ l ∈ e.linkIds) := by
  have h0 := Int.emod_nonneg r (show (2 : Int) ^ 24 ≠ 0 by decide)
  have h1 := Int.emod_lt_of_pos r (show (0 : Int) < 2 ^ 24 by decide)
  refine ⟨_, rfl, ?_, fun p => ?_, fun l => ?_⟩
  · show (r % 2 ^ 24).toNat < 2 ^ 24
    have : ((2 : Int) ^ 24).toNat = 2 ^ 24 := by decide +kernel
    omega
  · refine Iff.trans (mem_calc_procs r p) (Iff.trans ?_ (RoutingEntry.mem_calcIds_procs _ p).symm)
    refine and_congr_right fun hp => ?_
    rw [low_bits r _ (by unfold ProcId at hp; omega), ← bitZ_nat, Int.toNat_of_nonneg h0]
  · refine Iff.trans (mem_calc_links r l) (Iff.trans ?_ (RoutingEntry.mem_calcIds_links _ l).symm)
    refine and_congr_right fun hp => ?_
    rw [low_bits r _ (by unfold LinkId at hp; omega), ← bitZ_nat, Int.toNat_of_nonneg h0]

/-- the ids held by an entry say what its route says -/
private theorem built_ids {e : IntEntry} (h : BuiltZ e) :
    (∀ p, p ∈ e.processorIds ↔ ProcId p ∧ BitZ e.route (6 + p).toNat) ∧
    (∀ l, l ∈ e.linkIds ↔ LinkId l ∧ BitZ e.route l.toNat) := by
  induction h with
  | entry h =>
    rename_i e
    have hw := RoutingEntry.wf_of_built h
    have hr : (IntEntry.ofEntry e).route = (e.route : Int) := rfl
    constructor
    · intro p
      rw [hr, bitZ_nat]
      show p ∈ e.procs.getD _ ↔ _
      cases hc : e.procs with
      | some ps => exact hw.1 ps hc p
      | none =>
        refine Iff.trans (mem_calc_procs _ p) ?_
        rw [hr, bitZ_nat]
    · intro l
      rw [hr, bitZ_nat]
      show l ∈ e.links.getD _ ↔ _
      cases hc : e.links with
      | some ls => exact hw.2 ls hc l
      | none =>
        refine Iff.trans (mem_calc_links _ l) ?_
        rw [hr, bitZ_nat]
  | route r d => exact ⟨mem_calc_procs r, mem_calc_links r⟩
  | merge _ _ iha _ =>
    rename_i a b _ _ _
    unfold IntEntry.merge
    split
    · exact iha
    · exact ⟨mem_calc_procs _, mem_calc_links _⟩

private theorem lor_self (a : Int) : Int.lor a a = a :=
  eq_of_bits fun i => by rw [bitZ_lor, or_self]

private theorem lor_comm (a b : Int) : Int.lor a b = Int.lor b a :=
  eq_of_bits fun i => by rw [bitZ_lor, bitZ_lor, or_comm]

private theorem lor_assoc (a b c : Int) : Int.lor (Int.lor a b) c = Int.lor a (Int.lor b c) :=
  eq_of_bits fun i => by rw [bitZ_lor, bitZ_lor, bitZ_lor, bitZ_lor, or_assoc]

/-- `==` compares the routes as integers, all bits of them, and the two flags -/
theorem C90_equal (a b : IntEntry) :
    (a.eq b = true ↔ (∀ i, BitZ a.route i ↔ BitZ b.route i) ∧ a.defaultable = b.defaultable) ∧
    (a.eq b = true → a.hash = b.hash) := by
  have h : a.eq b = true ↔ a.route = b.route ∧ a.defaultable = b.defaultable := by
    simp only [IntEntry.eq]
    by_cases h : a.route = b.route <;> simp [h]
  constructor
  · rw [h]
    exact and_congr_left fun _ => ⟨fun e i => by rw [e], eq_of_bits⟩
  · intro e
    obtain ⟨h1, h2⟩ := h.1 e
    unfold IntEntry.hash
    rw [h1, h2]

private theorem eqz_iff (a b : IntEntry) : a.eq b = true ↔ a.route = b.route ∧ a.defaultable = b.defaultable := by
  simp only [IntEntry.eq]
  by_cases h : a.route = b.route <;> simp [h]

private theorem mergez (a b : IntEntry) : (a.merge b).route = Int.lor a.route b.route ∧
    ((a.merge b).defaultable = true ↔ a.route = b.route ∧ a.defaultable = true ∧ b.defaultable = true) := by
  unfold IntEntry.merge
  cases h : a.eq b with
  | true =>
    obtain ⟨h1, h2⟩ := (eqz_iff a b).1 h
    simp [h1, h2, lor_self]
  | false =>
    have hn : ¬ (a.route = b.route ∧ a.defaultable = b.defaultable) := fun e => by
      rw [(eqz_iff a b).2 e] at h; exact absurd h (by decide)
    refine ⟨rfl, ?_⟩
    simp only [Bool.false_eq_true, if_false, IntEntry.ofRoute, Option.getD_some, false_iff]
    rintro ⟨h1, h2, h3⟩
    exact hn ⟨h1, by rw [h2, h3]⟩

/-- `merge` of entries with routes of either sign gives the union of their targets; the result is
defaultable only if the two are equal and defaultable. -/
theorem C90_merge_union (a b : IntEntry) (ha : BuiltZ a) (hb : BuiltZ b) :
    (∀ p, p ∈ (a.merge b).processorIds ↔ p ∈ a.processorIds ∨ p ∈ b.processorIds) ∧
    (∀ l, l ∈ (a.merge b).linkIds ↔ l ∈ a.linkIds ∨ l ∈ b.linkIds) ∧
    (∀ i, BitZ (a.merge b).route i ↔ BitZ a.route i ∨ BitZ b.route i) ∧
    ((a.merge b).defaultable = true ↔ a.eq b = true ∧ a.defaultable = true) := by
  obtain ⟨h1, h2⟩ := mergez a b
  refine ⟨fun p => ?_, fun l => ?_, fun i => ?_, ?_⟩
  · rw [(built_ids (.merge ha hb)).1, (built_ids ha).1, (built_ids hb).1, h1, bitZ_lor]
    exact and_or_left
  · rw [(built_ids (.merge ha hb)).2, (built_ids ha).2, (built_ids hb).2, h1, bitZ_lor]
    exact and_or_left
  · rw [h1, bitZ_lor]
  · rw [h2, eqz_iff]
    constructor
    · rintro ⟨e, d, d'⟩; exact ⟨⟨e, by rw [d, d']⟩, d⟩
    · rintro ⟨⟨e, d⟩, d'⟩; exact ⟨e, d', by rw [← d, d']⟩

/-- `merge` is idempotent, commutative and associative as compared by `==`, for routes of either sign -/
theorem C90_merge_laws (a b c : IntEntry) :
    a.merge a = a ∧ (a.merge b).eq (b.merge a) = true ∧
    ((a.merge b).merge c).eq (a.merge (b.merge c)) = true := by
  refine ⟨?_, ?_, ?_⟩
  · unfold IntEntry.merge
    rw [if_pos ((eqz_iff a a).2 ⟨rfl, rfl⟩)]
  · refine (eqz_iff _ _).2 ⟨by rw [(mergez a b).1, (mergez b a).1, lor_comm], ?_⟩
    rw [Bool.eq_iff_iff, (mergez a b).2, (mergez b a).2]
    constructor <;> rintro ⟨h, h', h''⟩ <;> exact ⟨h.symm, h'', h'⟩
  · refine (eqz_iff _ _).2 ⟨by
      rw [(mergez (a.merge b) c).1, (mergez a (b.merge c)).1, (mergez a b).1, (mergez b c).1, lor_assoc], ?_⟩
    rw [Bool.eq_iff_iff, (mergez (a.merge b) c).2, (mergez a (b.merge c)).2, (mergez a b).2, (mergez b c).2,
      (mergez a b).1, (mergez b c).1]
    constructor
    · rintro ⟨e1, ⟨e2, d1, d2⟩, d3⟩
      rw [e2, lor_self] at e1
      exact ⟨by rw [← e1, lor_self, e2], d1, e1, d2, d3⟩
    · rintro ⟨e1, d1, e2, d2, d3⟩
      rw [e2, lor_self] at e1
      exact ⟨by rw [e1, e2, lor_self], ⟨by rw [e1, e2], d1, d2⟩, d3⟩

/-- A multicast entry is made exactly if every bit of the key, of infinitely many if it is negative, is in
the mask; otherwise `SpinnMachineInvalidParameterException`. -/
theorem C90_key_mask (key mask : Int) (e : IntEntry) :
    (∃ m, IntMulticast.mk' key mask e = .ok m ∧ m.key = key ∧ m.mask = mask ∧ m.entry = e ∧
      ∀ i, BitZ key i → BitZ mask i) ∨
    (IntMulticast.mk' key mask e = .error .invalidParameter ∧ ∃ i, BitZ key i ∧ ¬ BitZ mask i) := by
  unfold IntMulticast.mk'
  by_cases h : Int.land key mask = key
  · refine Or.inl ⟨_, by rw [if_neg (by simpa using h)], rfl, rfl, rfl, fun i hi => ?_⟩
    rw [← h, bitZ_land] at hi
    exact hi.2
  · refine Or.inr ⟨by rw [if_pos h], Classical.byContradiction fun hn => h (eq_of_bits fun i => ?_)⟩
    rw [bitZ_land]
    refine ⟨fun h => h.1, fun hk => ⟨hk, Classical.byContradiction fun hm => hn ⟨i, hk, hm⟩⟩⟩

/-- a negative number has a bit at every position that its absolute value does not reach, a non-negative
number has none there -/
private theorem sign_bit (z : Int) (i : Nat) (h : z.natAbs ≤ 2 ^ i) (h' : z.natAbs < 2 ^ i ∨ z < 0) :
    BitZ z i ↔ z < 0 := by
  have hc : ((2 ^ i : Nat) : Int) = 2 ^ i := by push_cast; rfl
  have hp : (0 : Int) < 2 ^ i := Int.pow_pos (by decide)
  unfold BitZ
  by_cases hz : z < 0
  · have : z / 2 ^ i = -1 := by
      refine Int.ediv_eq_iff_of_pos hp |>.2 ?_
      omega
    rw [this]
    simp [hz]
  · have : z / 2 ^ i = 0 := Int.ediv_eq_zero_of_lt (by omega) (by omega)
    rw [this]
    simp [hz]

/-- So a negative key needs a negative mask, the mask `-1` takes every key, and the key 0 goes with every
mask. -/
theorem C90_key_signs (key mask : Int) (e : IntEntry) :
    (key < 0 → 0 ≤ mask → IntMulticast.mk' key mask e = .error .invalidParameter) ∧
    IntMulticast.mk' key (-1) e = .ok ⟨key, -1, e⟩ ∧
    IntMulticast.mk' 0 mask e = .ok ⟨0, mask, e⟩ := by
  have ok : ∀ k m : Int, (∀ i, BitZ k i → BitZ m i) → IntMulticast.mk' k m e = .ok ⟨k, m, e⟩ := by
    intro k m h
    unfold IntMulticast.mk'
    rw [if_neg]
    intro hn
    refine hn (eq_of_bits fun i => ?_)
    rw [bitZ_land]
    exact ⟨fun h => h.1, fun hk => ⟨hk, h i hk⟩⟩
  refine ⟨fun hk hm => ?_, ok _ _ fun i _ => ?_, ok _ _ fun i h => absurd h (bitZ_zero i)⟩
  · rcases C90_key_mask key mask e with ⟨m, -, -, -, -, h⟩ | ⟨h, -⟩
    · have big : ∀ m n : Nat, m < 2 ^ (m + n) := fun m n =>
        Nat.lt_of_lt_of_le Nat.lt_two_pow_self (Nat.pow_le_pow_right (by decide) (by omega))
      have b1 := big key.natAbs mask.natAbs
      have b2 := big mask.natAbs key.natAbs
      rw [Nat.add_comm] at b2
      have := h _ ((sign_bit key (key.natAbs + mask.natAbs) (by omega) (by omega)).2 hk)
      have := (sign_bit mask (key.natAbs + mask.natAbs) (by omega) (by omega)).1 this
      omega
    · exact h
  · exact (sign_bit (-1) i (Nat.one_le_two_pow) (Or.inr (by decide))).2 (by decide)

/-- Merging multicast entries raises exactly if the keys or the masks differ; otherwise key and mask stay
and the targets are merged. (`a` is an entry that could be created.) -/
theorem C90_multicast_merge (a b : IntMulticast) (ha : IntMulticast.mk' a.key a.mask a.entry = .ok a) :
    (a.merge b = .error .invalidParameter ↔ a.key ≠ b.key ∨ a.mask ≠ b.mask) ∧
    (a.key = b.key ∧ a.mask = b.mask → a.merge b = .ok ⟨a.key, a.mask, a.entry.merge b.entry⟩) := by
  have hkm : Int.land a.key a.mask = a.key := by
    unfold IntMulticast.mk' at ha
    split at ha
    · simp at ha
    · rename_i h; simpa using h
  unfold IntMulticast.merge IntMulticast.mk'
  by_cases hk : b.key = a.key
  · by_cases hm : b.mask = a.mask
    · simp [hk, hm, hkm]
    · simp only [hk, hm, ne_eq, not_true, if_false, not_false_eq_true, if_true, true_iff]
      exact ⟨Or.inr fun h => hm h.symm, fun h => absurd h.2.symm hm⟩
  · simp only [hk, ne_eq, not_false_eq_true, if_true, true_iff]
    exact ⟨Or.inl fun h => hk h.symm, fun h => absurd h.1.symm hk⟩

/-- `==` of multicast entries: same key, same mask and equal targets; equal ones have equal hashes -/
theorem C90_multicast_equal (a b : IntMulticast) :
    (a.eq b = true ↔ a.key = b.key ∧ a.mask = b.mask ∧ a.entry.eq b.entry = true) ∧
    (a.eq b = true → a.hash = b.hash) := by
  have h : a.eq b = true ↔ a.key = b.key ∧ a.mask = b.mask ∧ a.entry.eq b.entry = true := by
    unfold IntMulticast.eq
    by_cases h1 : a.key = b.key <;> by_cases h2 : a.mask = b.mask <;> simp [h1, h2]
  refine ⟨h, fun e => ?_⟩
  obtain ⟨h1, h2, h3⟩ := h.1 e
  unfold IntMulticast.hash
  rw [h1, h2, (C90_equal _ _).2 h3]

private theorem lor_nat (m n : Nat) : Int.lor (m : Int) (n : Int) = ((m ||| n : Nat) : Int) := rfl
private theorem land_nat (m n : Nat) : Int.land (m : Int) (n : Int) = ((m &&& n : Nat) : Int) := rfl

/-- For entries without negative numbers all of this is what C43 to C48 say: ids, flag, `==`, hash, `merge`,
and the multicast entries are the same in both models. -/
theorem C90_agrees (a b : RoutingEntry) (key mask : Nat) :
    (IntEntry.ofEntry a).processorIds = a.processorIds ∧ (IntEntry.ofEntry a).linkIds = a.linkIds ∧
    (IntEntry.ofEntry a).defaultable = a.defaultable ∧
    (IntEntry.ofEntry a).eq (.ofEntry b) = a.eq b ∧ (IntEntry.ofEntry a).hash = (a.hash : Int) ∧
    (∀ e, a.merge b = .ok e → (IntEntry.ofEntry a).merge (.ofEntry b) = .ofEntry e) ∧
    (∀ m, MulticastRoutingEntry.mk' key mask a = .ok m →
      IntMulticast.mk' key mask (.ofEntry a) = .ok ⟨m.key, m.mask, .ofEntry m.entry⟩) ∧
    (∀ x, MulticastRoutingEntry.mk' key mask a = .error x →
      IntMulticast.mk' key mask (.ofEntry a) = .error x) := by
  have hids : IntEntry.calcIds (a.route : Int) = RoutingEntry.calcIds a.route := by
    unfold IntEntry.calcIds RoutingEntry.calcIds
    refine Prod.ext ?_ ?_ <;>
    · show List.filter _ _ = List.filter _ _
      refine List.filter_congr fun p _ => decide_eq_decide.2 ?_
      rw [land_nat]
      exact not_congr Int.natCast_eq_zero
  have heq : (IntEntry.ofEntry a).eq (.ofEntry b) = a.eq b := by
    rw [Bool.eq_iff_iff, eqz_iff, eq_iff]
    exact and_congr_left fun _ => Int.ofNat_inj
  refine ⟨?_, ?_, rfl, heq, ?_, ?_, ?_, ?_⟩
  · unfold IntEntry.processorIds RoutingEntry.processorIds RoutingEntry.readProcs
    show a.procs.getD (IntEntry.calcIds (a.route : Int)).1 = _
    rw [hids]
    cases a.procs <;> rfl
  · unfold IntEntry.linkIds RoutingEntry.linkIds RoutingEntry.readLinks
    show a.links.getD (IntEntry.calcIds (a.route : Int)).2 = _
    rw [hids]
    cases a.links <;> rfl
  · unfold IntEntry.hash RoutingEntry.hash
    show (a.route : Int) * 29 * (if a.defaultable = true then 1 else 0) * 131 = _
    cases a.defaultable <;> simp
  · intro e h
    unfold IntEntry.merge
    unfold RoutingEntry.merge at h
    rw [heq]
    cases hq : a.eq b with
    | true => rw [hq, if_pos rfl, Except.ok.injEq] at h; rw [if_pos rfl, h]
    | false =>
      rw [hq, if_neg (by decide), RoutingEntry.mk_route, Except.ok.injEq] at h
      rw [if_neg (by decide), ← h]
      rfl
  · intro m h
    unfold MulticastRoutingEntry.mk' at h
    unfold IntMulticast.mk'
    rw [land_nat]
    split at h
    · exact absurd h (by simp)
    · rename_i hk
      rw [Except.ok.injEq] at h
      subst h
      simp only [ne_eq, Decidable.not_not] at hk
      rw [if_neg (by rw [hk]; simp)]
  · intro x h
    unfold MulticastRoutingEntry.mk' at h
    unfold IntMulticast.mk'
    rw [land_nat]
    split at h
    · rename_i hk
      rw [if_pos (fun e => hk (Int.ofNat_inj.1 e))]
      rw [Except.error.injEq] at h ⊢
      exact h
    · exact absurd h (by simp)

/-- The route `-1` sends to every processor and every link, as `2 ^ 24 - 1` does, but the two entries are
not `==`; and a merge with it keeps all. -/
theorem C90_minus_one (d : Option Bool) :
    (∀ p, p ∈ (IntEntry.ofRoute (-1) d).processorIds ↔ ProcId p) ∧
    (∀ l, l ∈ (IntEntry.ofRoute (-1) d).linkIds ↔ LinkId l) ∧
    (IntEntry.ofRoute (-1) d).processorIds = (IntEntry.ofRoute (2 ^ 24 - 1) d).processorIds ∧
    (IntEntry.ofRoute (-1) d).linkIds = (IntEntry.ofRoute (2 ^ 24 - 1) d).linkIds ∧
    (IntEntry.ofRoute (-1) d).eq (IntEntry.ofRoute (2 ^ 24 - 1) d) = false := by
  have hb : ∀ i, BitZ (-1) i := fun i =>
    (sign_bit (-1) i (Nat.one_le_two_pow) (Or.inr (by decide))).2 (by decide)
  refine ⟨fun p => ?_, fun l => ?_, ?_, ?_, ?_⟩
  · rw [(C90_route_ids _ d).1]; exact and_iff_left (hb _)
  · rw [(C90_route_ids _ d).2.1]; exact and_iff_left (hb _)
  · show (IntEntry.calcIds (-1)).1 = (IntEntry.calcIds (2 ^ 24 - 1)).1
    decide +kernel
  · show (IntEntry.calcIds (-1)).2 = (IntEntry.calcIds (2 ^ 24 - 1)).2
    decide +kernel
  · unfold IntEntry.eq
    exact if_pos (show (-1 : Int) ≠ 2 ^ 24 - 1 by decide)

/-- a case: -64 has all the bits from 6 up; merged with 5 it also has the links 0 and 2 -/
example : (IntEntry.ofRoute (-64) none).processorIds = pyRange 18 ∧ (IntEntry.ofRoute (-64) none).linkIds = [] ∧
    ((IntEntry.ofRoute (-64) none).merge (.ofRoute 5 none)).linkIds = [0, 2] ∧
    ((IntEntry.ofRoute (-64) none).merge (.ofRoute 5 none)).route = -59 ∧
    BuiltZ ((IntEntry.ofRoute (-64) none).merge (.ofRoute 5 none)) :=
  ⟨by decide +kernel, by decide +kernel, by decide +kernel, by decide +kernel, .merge (.route _ _) (.route _ _)⟩
example (e : IntEntry) : IntMulticast.mk' (-16) (-8) e = .ok ⟨-16, -8, e⟩ ∧
    IntMulticast.mk' (-8) (-16) e = .error .invalidParameter ∧
    IntMulticast.mk' (-8) 0xFFFFFFF8 e = .error .invalidParameter := ⟨rfl, rfl, rfl⟩

end SpiNN.Props
