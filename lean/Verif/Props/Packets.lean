import Verif.Spec.Packets
import Verif.Props.Routing
import Verif.Props.Mesh

/-!
# C84 What keys, masks and defaultable entries mean for packets
-/

namespace SpiNN.Props
open SpiNN SpiNN.Spec

/-- A multicast entry can be made exactly if there is a packet it is for; its key is one, and the
packets it is for are those that have the bits of the key where the mask has bits. -/
theorem C84_entry_has_packets (key mask : Nat) (e : RoutingEntry) :
    ((∃ m, MulticastRoutingEntry.mk' key mask e = .ok m) ↔ ∃ k, Matches ⟨key, mask, e⟩ k) ∧
    ∀ m, MulticastRoutingEntry.mk' key mask e = .ok m → Matches m key ∧
      ∀ k, Matches m k ↔ ∀ i, mask.testBit i = true → (k.testBit i = true ↔ key.testBit i = true) := by
  unfold MulticastRoutingEntry.mk'
  by_cases hk : key &&& mask = key
  · simp only [hk, ne_eq, not_true_eq_false, if_false, Except.ok.injEq, exists_eq', true_iff,
      forall_eq']
    have hb : ∀ i, (key.testBit i && mask.testBit i) = key.testBit i := fun i => by
      rw [← Nat.testBit_and, hk]
    refine ⟨⟨key, hb⟩, hb, fun k => ?_⟩
    unfold Matches
    simp only
    constructor
    · intro h i hi
      have := h i
      rw [hi, Bool.and_true] at this
      rw [this]
    · intro h i
      have := hb i
      cases hm : mask.testBit i with
      | false => rw [hm, Bool.and_false] at this; rw [Bool.and_false]; exact this
      | true =>
        rw [Bool.and_true]
        have := h i hm
        cases h1 : k.testBit i <;> cases h2 : key.testBit i <;> simp_all
  · simp only [hk, ne_eq, not_false_eq_true, if_true, reduceCtorEq, exists_false, false_iff, false_imp_iff,
      implies_true, and_true]
    rintro ⟨k, h⟩
    refine hk (Nat.eq_of_testBit_eq fun i => ?_)
    have := h i
    simp only at this
    rw [Nat.testBit_and, ← this]
    cases k.testBit i <;> cases mask.testBit i <;> rfl

/-- The merge of two entries is for the same packets, and sends them to where either of the two
does. -/
theorem C84_merge_packets (a b : MulticastRoutingEntry)
    (ha : MulticastRoutingEntry.mk' a.key a.mask a.entry = .ok a)
    (hba : Built a.entry) (hbb : Built b.entry) (m : MulticastRoutingEntry) (h : a.merge b = .ok m) :
    (∀ k, (Matches m k ↔ Matches a k) ∧ (Matches m k ↔ Matches b k)) ∧
    ∀ k, Matches m k → ∀ inc,
      (∀ p, p ∈ (routePacket [m] k inc).1 ↔
        p ∈ (routePacket [a] k inc).1 ∨ p ∈ (routePacket [b] k inc).1) ∧
      ∀ l, l ∈ (routePacket [m] k inc).2 ↔
        l ∈ (routePacket [a] k inc).2 ∨ l ∈ (routePacket [b] k inc).2 := by
  obtain ⟨h1, h2⟩ := C48_merge a b ha hba hbb
  by_cases hkm : a.key = b.key ∧ a.mask = b.mask
  · obtain ⟨m', hm', hk, hmk, hp, hl, -⟩ := h2 hkm
    rw [h] at hm'
    cases hm'
    have e1 : ∀ k, Matches m k ↔ Matches a k := fun k => by unfold Matches; rw [hk, hmk]
    have e2 : ∀ k, Matches m k ↔ Matches b k := fun k => by
      unfold Matches; rw [hk, hmk, hkm.1, hkm.2]
    refine ⟨fun k => ⟨e1 k, e2 k⟩, fun k hmk inc => ?_⟩
    have x1 := (e1 k).1 hmk
    have x2 := (e2 k).1 hmk
    simp only [routePacket, List.find?_cons, hmk, x1, x2, decide_true]
    exact ⟨hp, hl⟩
  · rw [h1.2 (by
      rcases Decidable.em (a.key = b.key) with hh | hh
      · exact .inr fun hc => hkm ⟨hh, hc⟩
      · exact .inl hh)] at h
    cases h

/-- An entry without processors (and without repeated links) is `defaultable` exactly if a router
would do the same without it, for packets that come in where the entry says. -/
theorem C84_defaultable_iff (ls : IdArg) (hls : ls.toList.Nodup) (hl : ∀ l ∈ ls.toList, LinkId l)
    (inc : Dir) (e : RoutingEntry)
    (he : RoutingEntry.mk' (processorIds := some (.many [])) (linkIds := some ls)
      (incomingLink := some inc.id) = .ok e)
    (key mask : Nat) (m : MulticastRoutingEntry) (hm : MulticastRoutingEntry.mk' key mask e = .ok m) :
    m.defaultable = true ↔
      ∀ k, Matches m k → SameTargets (routePacket [m] k inc) (routePacket [] k inc) := by
  obtain ⟨e', he', hd⟩ := C47_defaultable_partial ls hls hl (some inc.id)
    (by intro i hi; cases hi; cases inc <;> decide)
  rw [he] at he'
  cases he'
  have hmatch := ((C84_entry_has_packets key mask e).2 m hm).1
  have hme : m.entry = e := by
    unfold MulticastRoutingEntry.mk' at hm
    split at hm
    · cases hm
    · cases hm; rfl
  have hprocs : e.processorIds = [] := by
    have := (RoutingEntry.mk_ids he).2.2.1
    simp [RoutingEntry.processorIds, RoutingEntry.readProcs, this, IdArg.toList, orderedSet]
  have hop : ∀ out, Opposite inc.id out ↔ out = inc.reverse.id := by
    intro out
    constructor
    · rintro ⟨d, f, h1, rfl, h3, h4⟩
      cases inc <;> cases d <;> simp [Dir.id] at h1 <;> cases f <;> simp [Dir.dx, Dir.dy] at h3 h4 <;> rfl
    · rintro rfl
      exact ⟨inc, inc.reverse, rfl, rfl, by cases inc <;> decide, by cases inc <;> decide⟩
  show m.entry.defaultable = true ↔ _
  rw [hme, hd]
  constructor
  · rintro ⟨-, i, out, hi, ho, hll⟩ k hk
    cases hi
    rw [(hop out).1 ho] at hll
    simp only [routePacket, List.find?_cons, hk, decide_true, SameTargets, List.find?_nil,
      MulticastRoutingEntry.processorIds, MulticastRoutingEntry.linkIds, hme, hprocs, List.mem_singleton]
    exact ⟨fun _ => trivial, hll⟩
  · intro h
    have h1 := (h key hmatch).2
    simp only [routePacket, List.find?_cons, hmatch, decide_true, List.find?_nil,
      MulticastRoutingEntry.linkIds, hme, List.mem_singleton] at h1
    exact ⟨hprocs, inc.id, inc.reverse.id, rfl, (hop _).2 rfl, h1⟩

/-- A table may be shortened: a `defaultable` entry (without processors) can be left out, as far as
packets that come in where it says are concerned, if no later entry of the table is for the same
packets. -/
theorem C84_drop_defaultable (pre post : List MulticastRoutingEntry) (ls : IdArg) (inc : Dir)
    (e : RoutingEntry) (hls : ls.toList.Nodup) (hl : ∀ l ∈ ls.toList, LinkId l)
    (he : RoutingEntry.mk' (processorIds := some (.many [])) (linkIds := some ls)
      (incomingLink := some inc.id) = .ok e)
    (key mask : Nat) (m : MulticastRoutingEntry) (hm : MulticastRoutingEntry.mk' key mask e = .ok m)
    (hdef : m.defaultable = true)
    (hpost : ∀ f ∈ post, ∀ k, Matches m k → ¬ Matches f k) (k : Nat) :
    SameTargets (routePacket (pre ++ m :: post) k inc) (routePacket (pre ++ post) k inc) ∧
    (¬ Matches m k → ∀ i, routePacket (pre ++ m :: post) k i = routePacket (pre ++ post) k i) := by
  refine ⟨?_, fun hk i => ?_⟩
  · have h0 := (C84_defaultable_iff ls hls hl inc e he key mask m hm).1 hdef k
    simp only [routePacket, List.find?_append, List.find?_cons]
    cases hpre : pre.find? fun m => decide (Matches m k) with
    | some f => exact ⟨fun _ => Iff.rfl, fun _ => Iff.rfl⟩
    | none =>
      by_cases hk : Matches m k
      · have hn : post.find? (fun m => decide (Matches m k)) = none := by
          rw [List.find?_eq_none]
          intro f hf
          simpa using hpost f hf k hk
        have := h0 hk
        simp only [routePacket, List.find?_cons, hk, decide_true, List.find?_nil] at this
        simpa [hk, hn] using this
      · simp only [hk, decide_false]
        exact ⟨fun _ => Iff.rfl, fun _ => Iff.rfl⟩
  · simp only [routePacket, List.find?_append, List.find?_cons, hk, decide_false]

/-- With processors (C47) leaving out an entry that is called `defaultable` loses packets: this one
is for core 1 too. -/
theorem C84_delivery_lost : ∃ e m, RoutingEntry.mk' (processorIds := some (.one 1)) (linkIds := some (.one 3))
      (incomingLink := some 0) = .ok e ∧ MulticastRoutingEntry.mk' 0x40 0xF0 e = .ok m ∧
    m.defaultable = true ∧ routePacket [m] 0x45 .E = ([1], [3]) ∧ routePacket [] 0x45 .E = ([], [3]) :=
  ⟨_, _, rfl, rfl, by decide +kernel, by decide +kernel, by decide +kernel⟩

/-- Defaultable entries make a packet go straight on: one that is sent over the link of direction `d`
and finds a defaultable entry (for the link it comes in over) at each of `n` chips, is then `n + 1`
steps of this direction from where it started, on any machine. -/
theorem C84_straight (wr : Wrap) (w h : Int) (hw : 0 < w) (hh : 0 < h) (p : XY) (hp : InRange wr w h p)
    (d : Dir) (es : List RoutingEntry)
    (hes : ∀ e ∈ es, e.defaultable = true ∧ ∃ ps ls, RoutingEntry.mk' (processorIds := some ps)
      (linkIds := some ls) (incomingLink := some d.reverse.id) = .ok e) :
    ∃ q, walk wr w h p (d.id :: es.flatMap (·.linkIds)) = .ok q ∧
      Same wr w h (p.1 + (es.length + 1) * d.dx, p.2 + (es.length + 1) * d.dy) q ∧ InRange wr w h q := by
  have hlink : ∀ e ∈ es, e.linkIds = [d.id] := by
    intro e he
    obtain ⟨hd, ps, ls, hmk⟩ := hes e he
    obtain ⟨i, hi, -, hlist⟩ := (C47_exact ps ls none _ e hmk).1.1 hd
    cases hi
    have h2 := (RoutingEntry.mk_ids hmk).2.2.2
    have hpm : pmod (d.reverse.id + 3) 6 = d.id := by cases d <;> decide
    rw [hpm] at hlist
    simp [RoutingEntry.linkIds, RoutingEntry.readLinks, h2, hlist, orderedSet]
  have hflat : es.flatMap (·.linkIds) = List.replicate es.length d.id := by
    clear hes
    induction es with
    | nil => rfl
    | cons e es ih =>
      rw [List.flatMap_cons, ih (fun e he => hlink e (List.mem_cons_of_mem _ he)),
        hlink e List.mem_cons_self]
      rfl
  have hdisp : ∀ n : Nat, disp (List.replicate n d.id) = some ((n : Int) * d.dx, (n : Int) * d.dy) := by
    intro n
    induction n with
    | zero => simp [disp]
    | succ n ih =>
      have hidx : pyIndex linkAddTable d.id = .ok (d.dx, d.dy) := by cases d <;> decide
      simp only [List.replicate_succ, disp, ih, hidx, Option.some.injEq, Prod.mk.injEq]
      push_cast
      constructor <;> rw [Int.add_mul, Int.one_mul, Int.add_comm]
  refine ⟨wr.red w h (p.1 + (es.length + 1) * d.dx, p.2 + (es.length + 1) * d.dy), ?_, wr.red_same hw hh _,
    wr.red_inRange hw hh _⟩
  rw [walk_eq wr hw hh _ _ _ hp, hflat]
  exact ⟨_, hdisp (es.length + 1), by push_cast; rfl⟩

/-- a case: over the edge of a torus -/
example : ∃ e, RoutingEntry.mk' (processorIds := some (.many [])) (linkIds := some (.one 1))
      (incomingLink := some (Dir.reverse .NE).id) = .ok e ∧ e.defaultable = true ∧
    walk .full 12 12 (10, 5) (Dir.NE.id :: [e, e].flatMap (·.linkIds)) = .ok (1, 8) :=
  ⟨_, rfl, by decide, by decide +kernel⟩

/-- a table with a defaultable entry that can be left out -/
example : ∃ e f m n, RoutingEntry.mk' (processorIds := some (.many [])) (linkIds := some (.one 3))
      (incomingLink := some (Dir.E).id) = .ok e ∧
    RoutingEntry.mk' (processorIds := some (.one 4)) (linkIds := some (.many [])) = .ok f ∧
    MulticastRoutingEntry.mk' 0x40 0xF0 e = .ok m ∧ MulticastRoutingEntry.mk' 0x80 0xC0 f = .ok n ∧
    m.defaultable = true ∧ Matches m 0x47 ∧ ¬ Matches m 0x87 ∧ routePacket [m, n] 0x87 .E = ([4], []) ∧
    ∀ k, Matches m k → ¬ Matches n k := by
  refine ⟨_, _, _, _, rfl, rfl, rfl, rfl, by decide, by decide +kernel, by decide +kernel,
    by decide +kernel, fun k h1 h2 => ?_⟩
  have a := h1 7
  have b := h2 7
  have : Nat.testBit 0xF0 7 = true ∧ Nat.testBit 0x40 7 = false ∧ Nat.testBit 0xC0 7 = true ∧
    Nat.testBit 0x80 7 = true := by decide
  simp only [this.1, this.2.1, this.2.2.1, this.2.2.2, Bool.and_true] at a b
  rw [a] at b
  cases b

end SpiNN.Props
