import Verif.Model.Equality

/-!
# Equality and hashing: C49, C65
-/

namespace SpiNN.Props
open SpiNN

theorem routing_eq_iff (a b : RoutingEntry) :
    a.eq b = true ↔ a.route = b.route ∧ a.defaultable = b.defaultable := by
  simp only [RoutingEntry.eq]
  by_cases h : a.route = b.route <;> simp [h]

theorem multicast_eq_iff (a b : MulticastRoutingEntry) :
    a.eq b = true ↔ a.key = b.key ∧ a.mask = b.mask ∧ a.entry.eq b.entry = true := by
  simp only [MulticastRoutingEntry.eq]
  by_cases h : a.key = b.key
  · by_cases h' : a.mask = b.mask <;> simp [h, h']
  · simp [h]

theorem coreSubset_eq_iff (a b : CoreSubset) :
    a.eq b = true ↔ a.x = b.x ∧ a.y = b.y ∧ ∀ p, p ∈ a.procs ↔ p ∈ b.procs := by
  simp only [CoreSubset.eq, Bool.and_eq_true, decide_eq_true_eq, List.all_eq_true, and_assoc]
  constructor
  · rintro ⟨h1, h2, h3, h4⟩; exact ⟨h1, h2, fun p => ⟨h3 p, h4 p⟩⟩
  · rintro ⟨h1, h2, h3⟩; exact ⟨h1, h2, fun p => (h3 p).1, fun p => (h3 p).2⟩

/-- what makes two objects equal: same class and the same compared data -/
theorem C49_eq_meaning (a b : PyObj) : pyEq a b = true ↔
    (∃ e f, a = .routing e ∧ b = .routing f ∧ e.route = f.route ∧ e.defaultable = f.defaultable) ∨
    (∃ e f, a = .multicast e ∧ b = .multicast f ∧ e.key = f.key ∧ e.mask = f.mask ∧
      e.entry.route = f.entry.route ∧ e.entry.defaultable = f.entry.defaultable) ∨
    (∃ i, a = .ignoreChip i ∧ b = .ignoreChip i) ∨ (∃ i, a = .ignoreCore i ∧ b = .ignoreCore i) ∨
    (∃ i, a = .ignoreLink i ∧ b = .ignoreLink i) ∨
    (∃ s t, a = .ipTag s ∧ b = .ipTag t ∧ { s with destX := 0, destY := 0 } = { t with destX := 0, destY := 0 }) ∨
    (∃ d, a = .fpgaLink d ∧ b = .fpgaLink d) ∨ (∃ d, a = .spinLink d ∧ b = .spinLink d) ∨
    (∃ s t, a = .coreSubset s ∧ b = .coreSubset t ∧ s.x = t.x ∧ s.y = t.y ∧
      ∀ p, s.contains p = true ↔ t.contains p = true) ∨
    (∃ v u, a = .version v ∧ b = .version u ∧ v.kind = u.kind) := by
  cases a <;> cases b <;>
    simp [pyEq, routing_eq_iff, multicast_eq_iff, coreSubset_eq_iff, Version.eq, CoreSubset.contains]
  · rename_i a b; cases a; cases b; simp [IgnoreChip.eq, and_assoc]; grind
  · rename_i a b; cases a; cases b; simp [IgnoreCore.eq, and_assoc]; grind
  · rename_i a b; cases a; cases b; simp [IgnoreLink.eq, and_assoc]; grind
  · rename_i a b; cases a; cases b; simp [IPTag.eq, and_assoc]; grind
  · rename_i a b; cases a; cases b; simp [FpgaLinkData.eq, and_assoc]; grind
  · rename_i a b; cases a; cases b; simp [SpinLinkData.eq, and_assoc]; grind

/-- C49: `==` is an equivalence relation on all objects of these classes together -/
theorem C49_equivalence (a b c : PyObj) :
    pyEq a a = true ∧ (pyEq a b = true → pyEq b a = true) ∧
    (pyEq a b = true → pyEq b c = true → pyEq a c = true) := by
  refine ⟨?_, ?_, ?_⟩
  · rw [C49_eq_meaning]
    cases a <;> simp
  · rw [C49_eq_meaning, C49_eq_meaning]
    cases a <;> cases b <;> simp <;> grind
  · intro h h'
    cases a <;> cases b <;> first | exact absurd h Bool.false_ne_true | skip
    all_goals (cases c <;> first | exact absurd h' Bool.false_ne_true | skip)
    all_goals
      simp [pyEq, routing_eq_iff, multicast_eq_iff, coreSubset_eq_iff, Version.eq, IgnoreChip.eq,
        IgnoreCore.eq, IgnoreLink.eq, IPTag.eq, FpgaLinkData.eq, SpinLinkData.eq] at h h' ⊢
      grind

/-- C49: equal objects have equal hashes (of the version classes, none has a hash). -/
theorem C49_hash (a b : PyObj) (h : pyEq a b = true) : pyHash a = pyHash b := by
  rw [C49_eq_meaning] at h
  rcases h with ⟨e, f, rfl, rfl, h1, h2⟩ | ⟨e, f, rfl, rfl, h1, h2, h3, h4⟩ | ⟨i, rfl, rfl⟩ |
    ⟨i, rfl, rfl⟩ | ⟨i, rfl, rfl⟩ | ⟨s, t, rfl, rfl, h⟩ | ⟨d, rfl, rfl⟩ | ⟨d, rfl, rfl⟩ |
    ⟨s, t, rfl, rfl, h1, h2, h3⟩ | ⟨v, u, rfl, rfl, h⟩
  · simp [pyHash, RoutingEntry.hash, h1, h2]
  · simp [pyHash, MulticastRoutingEntry.hash, RoutingEntry.hash, h1, h2, h3, h4]
  · rfl
  · rfl
  · rfl
  · simp only [IPTag.mk.injEq] at h
    simp [pyHash, h]
  · rfl
  · rfl
  · simp only [pyHash, h1, h2, Except.ok.injEq, HashOf.coreSubset.injEq, Prod.mk.injEq, true_and]
    funext p
    have := h3 p
    simp only [CoreSubset.contains, decide_eq_true_eq] at this
    simp [this]
  · rfl

/-- cases: subsets with the cores in another order are equal; entries of different classes with
the same content are not -/
example : pyEq (.coreSubset (CoreSubset.mk' 1 2 [3, 4])) (.coreSubset (CoreSubset.mk' 1 2 [4, 3, 4])) = true := by
  decide +kernel
example : pyEq (.ignoreCore ⟨1, 2, 3, none⟩) (.ignoreLink ⟨1, 2, 3, none⟩) = false := rfl
example : ∀ e, pyEq (.multicast ⟨4, 4, e⟩) (.routing e) = false := fun _ => rfl

/-- C49: what is hashed of a tag, a link to the outside or a core subset tells all that equality looks
at, so unequal ones only collide if the tuples do. -/
theorem C49_hash_tells (a b : PyObj) (h : pyHash a = pyHash b)
    (ha : (∃ t, a = .ipTag t) ∨ (∃ d, a = .fpgaLink d) ∨ (∃ d, a = .spinLink d) ∨ ∃ s, a = .coreSubset s) :
    pyEq a b = true := by
  rcases ha with ⟨t, rfl⟩ | ⟨d, rfl⟩ | ⟨d, rfl⟩ | ⟨s, rfl⟩ <;> cases b <;>
    simp only [pyHash, Except.ok.injEq, reduceCtorEq, HashOf.ipTag.injEq, HashOf.fpgaLink.injEq,
      HashOf.spinLink.injEq, HashOf.coreSubset.injEq, Prod.mk.injEq] at h
  · simp [pyEq, IPTag.eq, h]
  · simp [Version.hash] at h
  · simp [pyEq, FpgaLinkData.eq, h]
  · simp [Version.hash] at h
  · simp [pyEq, SpinLinkData.eq, h]
  · simp [Version.hash] at h
  · obtain ⟨h1, h2, h3⟩ := h
    simp only [pyEq, coreSubset_eq_iff, h1, h2, true_and]
    intro p
    simpa [CoreSubset.contains] using congrFun h3 p
  · simp [Version.hash] at h

/-- different tags have different tuples -/
example : pyHash (.spinLink ⟨0, 1, 2, 3, "b".toList⟩) ≠ pyHash (.spinLink ⟨0, 2, 2, 3, "b".toList⟩) :=
  fun h => absurd (C49_hash_tells _ _ h (.inr (.inr (.inl ⟨_, rfl⟩)))) (by decide)

/-- the hash of a `CoreSubset` changes when a processor is added, so it must not be changed while
it is in a set or a dictionary key -/
theorem C49_core_subset_hash_changes (s : CoreSubset) (p : Int) (hp : s.contains p = false) :
    pyHash (.coreSubset (s.add p)) ≠ pyHash (.coreSubset s) := by
  have hp' : p ∉ s.procs := by simpa [CoreSubset.contains] using hp
  intro h
  simp only [pyHash, Except.ok.injEq, HashOf.coreSubset.injEq, Prod.mk.injEq] at h
  have := congrFun h.2.2 p
  simp [CoreSubset.add, hp'] at this

/-- two tags that differ only in the chip they send to are equal -/
theorem C49_iptag_ignores_destination (b ip : PyStr) (t port : Int) (strip : Bool) (tr : PyStr)
    (x y x' y' : Int) :
    (IPTag.mk' b x y t ip port strip tr).eq (IPTag.mk' b x' y' t ip port strip tr) = true := by
  simp [IPTag.eq, IPTag.mk']

/-- the binary digit `k` of an integer in two's complement -/
def bit (k : Nat) (i : Int) : Prop := (i / 2 ^ k) % 2 = 1

theorem bit_ofNat (k m : Nat) : bit k (.ofNat m) ↔ m.testBit k = true := by
  unfold bit
  rw [Nat.testBit_eq_decide_div_mod_eq, decide_eq_true_eq, Int.ofNat_eq_natCast]
  have : ((m : Int) / 2 ^ k) = ((m / 2 ^ k : Nat) : Int) := by simp
  rw [this]
  omega

theorem bit_negSucc (k m : Nat) : bit k (.negSucc m) ↔ m.testBit k = false := by
  unfold bit
  rw [Nat.testBit_eq_decide_div_mod_eq, decide_eq_false_iff_not]
  have h : (Int.negSucc m) / ((2 ^ k : Nat) : Int) = -((m / 2 ^ k : Nat) : Int) - 1 := by
    have hp : 0 < 2 ^ k := Nat.two_pow_pos k
    have h1 := Nat.div_add_mod m (2 ^ k)
    have h2 := Nat.mod_lt m hp
    rw [Int.ediv_eq_iff_of_pos (by exact_mod_cast hp)]
    rw [Int.negSucc_eq]
    constructor
    · have : ((2 ^ k : Nat) : Int) * ((m / 2 ^ k : Nat) : Int) + ((m % 2 ^ k : Nat) : Int) = m := by exact_mod_cast h1
      grind
    · have : ((2 ^ k : Nat) : Int) * ((m / 2 ^ k : Nat) : Int) + ((m % 2 ^ k : Nat) : Int) = m := by exact_mod_cast h1
      grind
  have h' : (Int.negSucc m) / (2 : Int) ^ k = -((m / 2 ^ k : Nat) : Int) - 1 := by
    rw [← h]; simp
  rw [h']
  omega

/-- `|` on integers of any sign sets the digits set in one of them -/
theorem pyOr_bit (k : Nat) (a b : Int) : bit k (pyOr a b) ↔ bit k a ∨ bit k b := by
  cases a <;> cases b <;> simp only [pyOr, bit_ofNat, bit_negSucc, Nat.testBit_or, Nat.testBit_and,
    Nat.testBit_xor] <;> grind

theorem pyOr_add (a b : Int) (k : Nat) (ha : 0 ≤ a) (hb : 0 ≤ b) (hb' : b < 2 ^ k) :
    pyOr (a * 2 ^ k) b = a * 2 ^ k + b := by
  obtain ⟨m, rfl⟩ := Int.eq_ofNat_of_zero_le ha
  obtain ⟨n, rfl⟩ := Int.eq_ofNat_of_zero_le hb
  have hn : n < 2 ^ k := by exact_mod_cast hb'
  have h1 : ((m : Int) * 2 ^ k) = Int.ofNat (m * 2 ^ k) := by simp
  rw [h1]
  show Int.ofNat (m * 2 ^ k ||| n) = _
  rw [← Nat.shiftLeft_eq, ← Nat.shiftLeft_add_eq_or_of_lt hn]
  simp

/-- C49: hashes of ignored chips, cores and links on a machine of at most 256 x 256 chips tell their
coordinates, so there are no collisions but for the same item on boards with different addresses. -/
theorem C49_ignore_hashes_differ (a b x y p q : Int) (ip ip' : Option PyStr)
    (ha : 0 ≤ a) (hx : 0 ≤ x) (hb : 0 ≤ b ∧ b < 256) (hy : 0 ≤ y ∧ y < 256) (hp : 0 ≤ p ∧ p < 256) (hq : 0 ≤ q ∧ q < 256) :
    (pyHash (.ignoreChip ⟨a, b, ip⟩) = pyHash (.ignoreChip ⟨x, y, ip'⟩) ↔ (a, b) = (x, y)) ∧
    (pyHash (.ignoreCore ⟨a, b, p, ip⟩) = pyHash (.ignoreCore ⟨x, y, q, ip'⟩) ↔ (a, b, p) = (x, y, q)) ∧
    (pyHash (.ignoreLink ⟨a, b, p, ip⟩) = pyHash (.ignoreLink ⟨x, y, q, ip'⟩) ↔ (a, b, p) = (x, y, q)) := by
  have key : ∀ u v w : Int, 0 ≤ u → 0 ≤ v → v < 256 → 0 ≤ w → w < 256 →
      pyOr (pyOr (u * 2 ^ 16) (v * 2 ^ 8)) w = u * 65536 + v * 256 + w := by
    intro u v w h1 h2 h3 h4 h5
    rw [show u * 2 ^ 16 = u * 2 ^ 16 from rfl, pyOr_add u (v * 2 ^ 8) 16 h1 (by omega) (by omega)]
    rw [show u * 2 ^ 16 + v * 2 ^ 8 = (u * 256 + v) * 2 ^ 8 by omega,
      pyOr_add (u * 256 + v) w 8 (by omega) h4 (by omega)]
    omega
  have k1 := pyOr_add a b 8 ha hb.1 (by omega)
  have k2 := pyOr_add x y 8 hx hy.1 (by omega)
  have k3 := key a b p ha hb.1 hb.2 hp.1 hp.2
  have k4 := key x y q hx hy.1 hy.2 hq.1 hq.2
  simp only [pyHash, k1, k2, k3, k4, Except.ok.injEq, HashOf.int.injEq, Prod.mk.injEq]
  omega

example : pyHash (.ignoreCore ⟨3, 4, 5, none⟩) = .ok (.int 197637) ∧ pyOr (3 * 2 ^ 8) (-5) = -5 := ⟨rfl, by decide⟩

/-! ### C65 version objects -/

/-- C65: versions are equal exactly if they are of the same class, which is if they have the same
number; the cfg limits they were created with do not count; hashing one raises `TypeError`. -/
theorem C65_versions (a b : Version) :
    (pyEq (.version a) (.version b) = true ↔ a.kind.number = b.kind.number) ∧
    pyHash (.version a) = .error .typeError := by
  refine ⟨?_, rfl⟩
  simp only [pyEq, Version.eq, decide_eq_true_eq]
  cases a.kind <;> cases b.kind <;> simp <;> decide

/-- a case: two version 5 objects with different cfg limits are equal -/
example : pyEq (.version ⟨.v5, 18, 1000⟩) (.version ⟨.v5, 10, 2000⟩) = true := by decide

end SpiNN.Props
