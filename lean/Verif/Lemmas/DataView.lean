import Verif.Spec.DataView

namespace SpiNN.Spec
open SpiNN

theorem heldMachine_snoc (evs : List Event) (e : Event) : heldMachine (evs ++ [e]) =
    match e with
    | .set m => some m
    | .drop | .hard | .setup | .mock => none
    | _ => heldMachine evs := by
  cases e <;> simp [heldMachine, Event.resets]

theorem heldGenerator_snoc (evs : List Event) (e : Event) : heldGenerator (evs ++ [e]) =
    match e with
    | .generator i => some (.user i)
    | .mock => some .mock
    | .setup => none
    | _ => heldGenerator evs := by
  cases e <;> simp [heldGenerator, Event.clears]

theorem heldVersion_snoc (evs : List Event) (e : Event) : heldVersion (evs ++ [e]) =
    match e with
    | .version v => some v
    | .mock | .setup => none
    | _ => heldVersion evs := by
  cases e <;> simp [heldVersion, Event.clears]

theorem heldMap_snoc (evs : List Event) (e : Event) : heldMap (evs ++ [e]) =
    match e with
    | .vToP m => some m
    | .hard | .mock | .setup => none
    | _ => heldMap evs := by
  cases e <;> simp [heldMap, Event.resets]

theorem since_snoc (p : Event → Bool) (evs : List Event) (e : Event) :
    since p (evs ++ [e]) = if p e then [] else since p evs ++ [e] := by
  unfold since
  cases h : p e <;> simp [h]

theorem accessed_snoc (evs : List Event) (e : Event) : accessed (evs ++ [e]) =
    match e with
    | .access => true
    | .hard | .mock | .setup => false
    | _ => accessed evs := by
  unfold accessed
  rw [since_snoc]
  cases e <;> simp [Event.resets]

theorem nMonitors_snoc (evs : List Event) (e : Event) : nMonitors (evs ++ [e]) =
    match e with
    | .monitor _ => nMonitors evs + 1
    | .hard | .mock | .setup => 0
    | _ => nMonitors evs := by
  unfold nMonitors
  rw [since_snoc]
  cases e <;> simp [Event.resets]

theorem nAllMonitors_snoc (evs : List Event) (e : Event) : nAllMonitors (evs ++ [e]) =
    match e with
    | .monitor true => nAllMonitors evs + 1
    | .hard | .mock | .setup => 0
    | _ => nAllMonitors evs := by
  unfold nAllMonitors
  rw [since_snoc]
  cases e with
  | monitor b => cases b <;> simp [Event.resets]
  | _ => simp [Event.resets]

/-- the state holds what the events say -/
structure Holds (s : DView) (evs : List Event) : Prop where
  machine : s.machine = heldMachine evs
  generator : s.generator = heldGenerator evs
  version : s.version = heldVersion evs
  quads : s.quadMap = (heldVersion evs).bind fun v => v.kind.quadsMaps
  vToP : s.vToP = heldMap evs
  accessed : s.userAccessed = accessed evs
  eth : s.ethernetMonitors = nMonitors evs
  all : s.allMonitors = nAllMonitors evs

theorem Holds.new : Holds .new [] := by
  constructor <;> rfl

theorem truthy_quads (o : Option Version) :
    DView.truthy (o.bind fun v => v.kind.quadsMaps) = match o with
      | some v => !v.kind.isSpin1
      | none => false := by
  cases o with
  | none => rfl
  | some v =>
    simp only [Option.bind_some, VKind.quadsMaps]
    cases hv : v.kind.isSpin1 <;> simp [DView.truthy]
    decide +kernel

theorem truthy_map {K V : Type} (o : Option (PDict K V)) :
    DView.truthy o = true ↔ ∃ m, o = some m ∧ m.size ≠ 0 := by
  cases o <;> simp [DView.truthy]

theorem Holds.version_step (env : Env) {s : DView} {evs : List Event} (h : Holds s evs) :
    Holds (s.getMachineVersion env).1 (evs ++ versionEvents env evs) ∧
      (s.getMachineVersion env).2 = versionResult env evs := by
  unfold DView.getMachineVersion versionEvents versionResult
  rw [h.version]
  cases hv : heldVersion evs with
  | some v => simpa using h
  | none =>
    cases hf : VersionFactory.versionFactory env.minor env.cfg with
    | error e => simpa using h
    | ok v =>
      have h' : Holds { s with version := some v, quadMap := v.kind.quadsMaps } (evs ++ [.version v]) := by
        constructor <;>
          simp [heldMachine_snoc, heldGenerator_snoc, heldVersion_snoc, heldMap_snoc, accessed_snoc,
            nMonitors_snoc, nAllMonitors_snoc, h.machine, h.generator, h.vToP, h.accessed, h.eth, h.all]
      have hq := truthy_quads (some v)
      simp only [Option.bind_some] at hq
      have ht : DView.truthy s.vToP = true ↔ ∃ m, heldMap evs = some m ∧ m.size ≠ 0 := by
        rw [truthy_map, h.vToP]
      simp only [hq, ht]
      by_cases hb : v.kind.isSpin1 = true
      · simp only [hb, Bool.not_true, Bool.false_eq_true, false_and, if_false, not_true, and_true]
        exact h'
      · simp only [hb, Bool.not_false, true_and, not_false_eq_true, Bool.false_eq_true]
        split <;> exact ⟨h', rfl⟩

theorem heldQuads_eq (evs : List Event) :
    heldQuads evs = DView.truthy ((heldVersion evs).bind fun v => v.kind.quadsMaps) := by
  rw [truthy_quads]; rfl

theorem Holds.call (env : Env) {s : DView} {evs : List Event} (h : Holds s evs) (c : Call) :
    Holds (s.call env c).1 (evs ++ callEvents env evs c) := by
  have mk : ∀ (s' : DView) (e : Event),
      s'.machine = (match e with
        | .set m => some m
        | .drop | .hard | .setup | .mock => none
        | _ => s.machine) →
      s'.generator = (match e with
        | .generator i => some (.user i)
        | .mock => some .mock
        | .setup => none
        | _ => s.generator) →
      s'.version = (match e with
        | .version v => some v
        | .mock | .setup => none
        | _ => s.version) →
      s'.quadMap = (match e with
        | .version v => v.kind.quadsMaps
        | .mock | .setup => none
        | _ => s.quadMap) →
      s'.vToP = (match e with
        | .vToP m => some m
        | .hard | .mock | .setup => none
        | _ => s.vToP) →
      s'.userAccessed = (match e with
        | .access => true
        | .hard | .mock | .setup => false
        | _ => s.userAccessed) →
      s'.ethernetMonitors = (match e with
        | .monitor _ => s.ethernetMonitors + 1
        | .hard | .mock | .setup => 0
        | _ => s.ethernetMonitors) →
      s'.allMonitors = (match e with
        | .monitor true => s.allMonitors + 1
        | .hard | .mock | .setup => 0
        | _ => s.allMonitors) → Holds s' (evs ++ [e]) := by
    intro s' e h1 h2 h3 h4 h5 h6 h7 h8
    constructor
    · rw [h1, heldMachine_snoc, h.machine]
    · rw [h2, heldGenerator_snoc, h.generator]
    · rw [h3, heldVersion_snoc, h.version]
    · rw [h4, heldVersion_snoc, h.quads]; cases e <;> rfl
    · rw [h5, heldMap_snoc, h.vToP]
    · rw [h6, accessed_snoc, h.accessed]
    · rw [h7, nMonitors_snoc, h.eth]; cases e <;> rfl
    · rw [h8, nAllMonitors_snoc, h.all]
      cases e with
      | monitor b => cases b <;> rfl
      | _ => rfl
  cases c with
  | mock => exact mk _ _ rfl rfl rfl rfl rfl rfl rfl rfl
  | setup => exact mk _ _ rfl rfl rfl rfl rfl rfl rfl rfl
  | hardReset => exact mk _ _ rfl rfl rfl rfl rfl rfl rfl rfl
  | clearMachine => exact mk _ _ rfl rfl rfl rfl rfl rfl rfl rfl
  | setMachine m =>
    cases m with
    | none => simpa [DView.call, callEvents] using h
    | some m => exact mk _ _ rfl rfl rfl rfl rfl rfl rfl rfl
  | setGenerator m =>
    cases m with
    | none => simpa [DView.call, callEvents] using h
    | some m => exact mk _ _ rfl rfl rfl rfl rfl rfl rfl rfl
  | addMonitor b => cases b <;> exact mk _ _ rfl rfl rfl rfl rfl rfl rfl rfl
  | getVersion => exact (h.version_step env).1
  | setVToP m =>
    simp only [DView.call, DView.setVToP, callEvents]
    rw [heldQuads_eq, ← h.quads, ← h.vToP]
    cases hq : DView.truthy s.quadMap with
    | true => simpa using h
    | false =>
      cases hm : s.vToP with
      | some x => simpa using h
      | none =>
        simp only [Bool.false_eq_true, if_false, ne_eq, not_true, or_false]
        exact mk _ _ rfl rfl rfl rfl rfl rfl rfl rfl
  | physicalQuad p =>
    simp only [DView.call, callEvents]
    have hv := h.version_step env
    unfold DView.physicalQuad
    cases hq : s.quadMap with
    | some q =>
      have : versionEvents env evs = [] := by
        rw [h.quads] at hq
        unfold versionEvents
        cases hv : heldVersion evs with
        | none => rw [hv] at hq; simp at hq
        | some v => rfl
      simpa [this] using h
    | none =>
      simp only
      split
      · rename_i s' e heq; rw [heq] at hv; exact hv.1
      · rename_i s' v heq
        rw [heq] at hv
        split <;> exact hv.1
  | softReset => simpa [DView.call, callEvents, DView.softReset] using h
  | _ => simpa [DView.call, callEvents] using h

theorem Holds.calls (env : Env) (cs : List Call) : ∀ {s : DView} {evs : List Event}, Holds s evs →
    Holds (s.calls env cs) (evs ++ callsEvents env evs cs) := by
  induction cs with
  | nil => intro s evs h; simpa [DView.calls, callsEvents] using h
  | cons c cs ih =>
    intro s evs h
    have := ih (h.call env c)
    simpa [DView.calls, callsEvents] using this

theorem Holds.set {s : DView} {evs : List Event} (h : Holds s evs) (env : Env) (m : Machine) :
    Holds { s with machine := some m } (evs ++ [.set m]) := h.call env (.setMachine (some m))

theorem Holds.generator_step (env : Env) {s : DView} {evs : List Event} (h : Holds s evs) (g : Gen) :
    Holds (s.runGenerator env g).1 (evs ++ (genEvents env evs g).1) ∧
      (s.runGenerator env g).2 = (genEvents env evs g).2 := by
  cases g with
  | user i => exact ⟨h.calls env _, rfl⟩
  | mock =>
    have hv := h.version_step env
    unfold DView.runGenerator genEvents
    cases hr : s.getMachineVersion env with
    | mk s' r =>
      rw [hr] at hv
      simp only at hv
      obtain ⟨h1, h2⟩ := hv
      rw [← h2]
      cases r with
      | error e => exact ⟨h1, rfl⟩
      | ok v =>
        simp only
        cases hm : virtualMachineByBoards v env.down 1 true with
        | error e => exact ⟨h1, rfl⟩
        | ok m =>
          refine ⟨?_, rfl⟩
          have := h1.set env m
          simpa using this

theorem Holds.access (env : Env) {s : DView} {evs : List Event} (h : Holds s evs) :
    Holds (if env.userMode then
      { (if env.softReset then { s with machine := none } else s) with userAccessed := true }
      else s) (evs ++ accessEvents env) := by
  unfold accessEvents
  cases env.userMode with
  | false => simpa using h
  | true =>
    cases env.softReset with
    | false =>
      simp only [if_true, Bool.false_eq_true, if_false]
      constructor <;> simp [heldMachine_snoc, heldGenerator_snoc, heldVersion_snoc, heldMap_snoc, accessed_snoc,
            nMonitors_snoc, nAllMonitors_snoc, h.machine, h.generator, h.version, h.quads, h.vToP, h.eth, h.all]
    | true =>
      simp only [if_true]
      have e : evs ++ [Event.access, .drop] = (evs ++ [Event.access]) ++ [Event.drop] := by simp
      rw [e]
      constructor <;> simp only [heldMachine_snoc, heldGenerator_snoc, heldVersion_snoc, heldMap_snoc, accessed_snoc,
            nMonitors_snoc, nAllMonitors_snoc, h.generator, h.version, h.quads, h.vToP, h.eth, h.all]

theorem Holds.getMachine (env : Env) {s : DView} {evs : List Event} (h : Holds s evs) :
    Holds (s.getMachine env).1 (evs ++ machineEvents env evs) ∧
      (s.getMachine env).2 = machineResult env evs := by
  have ha := h.access env
  unfold DView.getMachine machineEvents machineResult
  simp only
  generalize (if env.userMode then
      { (if env.softReset then { s with machine := none } else s) with userAccessed := true }
      else s : DView) = s' at ha
  rw [ha.machine, ha.generator]
  cases hm : heldMachine (evs ++ accessEvents env) with
  | some m => exact ⟨ha, rfl⟩
  | none =>
    cases hg : heldGenerator (evs ++ accessEvents env) with
    | none => exact ⟨ha, rfl⟩
    | some g =>
      simp only
      have hr := ha.generator_step env g
      generalize genEvents env (evs ++ accessEvents env) g = ge at hr
      generalize s'.runGenerator env g = r at hr
      obtain ⟨s'', r⟩ := r
      obtain ⟨es, er⟩ := ge
      obtain ⟨h1, h2⟩ := hr
      simp only at h1 h2
      subst h2
      cases r with
      | some e => exact ⟨by simpa using h1, rfl⟩
      | none =>
        simp only
        rw [h1.machine]
        cases heldMachine (evs ++ accessEvents env ++ es) <;> exact ⟨by simpa using h1, rfl⟩

theorem Holds.getChipAt (env : Env) (x y : Int) {s : DView} {evs : List Event} (h : Holds s evs) :
    Holds (s.getChipAt env x y).1 (evs ++ machineEvents env evs) ∧
      (s.getChipAt env x y).2 = match machineResult env evs with
        | .error e => .error e
        | .ok m => m.chips.getE (x, y) := by
  have := h.getMachine env
  unfold DView.getChipAt
  generalize s.getMachine env = r at this
  obtain ⟨s', r⟩ := r
  obtain ⟨h1, h2⟩ := this
  simp only at h1 h2
  subst h2
  split <;> rename_i heq <;> simp only [Prod.mk.injEq] at heq <;> obtain ⟨rfl, heq⟩ := heq <;> rw [heq] <;> exact ⟨h1, rfl⟩

theorem Holds.step {s : DView} {evs : List Event} (h : Holds s evs) (e : Env × DOp) :
    Holds (dstep s e) (evs ++ opEvents e.1 evs e.2) := by
  obtain ⟨env, op⟩ := e
  cases op with
  | call c => exact h.call env c
  | getMachine => exact (h.getMachine env).1
  | getChipAt x y => exact (h.getChipAt env x y).1

/-- the state after any history holds what its events say -/
theorem holds_after (h : History) : Holds (after h) (events h) := by
  have : ∀ (h : History) (s : DView) (evs : List Event), Holds s evs →
      Holds (h.foldl dstep s) (eventsFrom evs h) := by
    intro h
    induction h with
    | nil => intro s evs hs; exact hs
    | cons e h ih => intro s evs hs; exact ih _ _ (hs.step e)
  exact this h _ _ .new

theorem eventsFrom_append (evs : List Event) (h h' : History) :
    eventsFrom evs (h ++ h') = eventsFrom (eventsFrom evs h) h' := by
  induction h generalizing evs with
  | nil => rfl
  | cons e h ih => obtain ⟨env, op⟩ := e; exact ih _

theorem snoc_induction {α : Type} {P : List α → Prop} (nil : P []) (snoc : ∀ l a, P l → P (l ++ [a])) (l : List α) :
    P l := by
  have : ∀ l : List α, P l.reverse := by
    intro l
    induction l with
    | nil => exact nil
    | cons a l ih => rw [List.reverse_cons]; exact snoc _ _ ih
  simpa using this l.reverse

/-- the events a call can make after the events `evs` -/
def Allowed (evs : List Event) : Event → Prop
  | .vToP _ => heldQuads evs = false ∧ heldMap evs = none
  | .version _ => heldVersion evs = none
  | _ => True

/-- the events of a history are made one after the other -/
theorem events_induction {P : List Event → Prop} (snoc : ∀ evs e, P evs → Allowed evs e → P (evs ++ [e]))
    (evs : List Event) (hp : P evs) (h : History) : P (eventsFrom evs h) := by
  have hversion : ∀ env evs, P evs → P (evs ++ versionEvents env evs) := by
    intro env evs hp
    unfold versionEvents
    cases hv : heldVersion evs with
    | some v => simpa using hp
    | none =>
      cases VersionFactory.versionFactory env.minor env.cfg with
      | error e => simpa using hp
      | ok v => exact snoc _ _ hp hv
  have hcall : ∀ env evs c, P evs → P (evs ++ callEvents env evs c) := by
    intro env evs c hp
    cases c with
    | getVersion => exact hversion env evs hp
    | physicalQuad p => exact hversion env evs hp
    | setVToP m =>
      simp only [callEvents]
      split
      · simpa using hp
      · rename_i hn
        refine snoc _ _ hp ⟨?_, ?_⟩
        · cases hq : heldQuads evs with
          | false => rfl
          | true => exact absurd (.inl hq) hn
        · exact Classical.byContradiction fun h => hn (.inr h)
    | setMachine m =>
      cases m with
      | none => simpa [callEvents] using hp
      | some m => exact snoc _ _ hp trivial
    | setGenerator m =>
      cases m with
      | none => simpa [callEvents] using hp
      | some m => exact snoc _ _ hp trivial
    | mock => exact snoc _ _ hp trivial
    | setup => exact snoc _ _ hp trivial
    | hardReset => exact snoc _ _ hp trivial
    | clearMachine => exact snoc _ _ hp trivial
    | addMonitor b => exact snoc _ _ hp trivial
    | _ => simpa [callEvents] using hp
  have hcalls : ∀ env cs evs, P evs → P (evs ++ callsEvents env evs cs) := by
    intro env cs
    induction cs with
    | nil => intro evs hp; simpa [callsEvents] using hp
    | cons c cs ih =>
      intro evs hp
      have := ih _ (hcall env evs c hp)
      simpa [callsEvents] using this
  have hgen : ∀ env evs g, P evs → P (evs ++ (genEvents env evs g).1) := by
    intro env evs g hp
    cases g with
    | user i => exact hcalls env _ evs hp
    | mock =>
      simp only [genEvents]
      split
      · exact hversion env evs hp
      · split
        · exact hversion env evs hp
        · rename_i m _
          have := snoc _ (.set m) (hversion env evs hp) trivial
          rw [List.append_assoc] at this
          exact this
  have hacc : ∀ env evs, P evs → P (evs ++ accessEvents env) := by
    intro env evs hp
    unfold accessEvents
    split
    · split
      · have := snoc _ .drop (snoc _ .access hp trivial) trivial
        simpa using this
      · exact snoc _ _ hp trivial
    · simpa using hp
  have hmach : ∀ env evs, P evs → P (evs ++ machineEvents env evs) := by
    intro env evs hp
    unfold machineEvents
    simp only
    split
    · have := hgen env _ ‹_› (hacc env evs hp)
      rw [List.append_assoc] at this
      exact this
    · exact hacc env evs hp
  induction h generalizing evs with
  | nil => exact hp
  | cons e h ih =>
    obtain ⟨env, op⟩ := e
    apply ih
    cases op with
    | call c => exact hcall env evs c hp
    | getMachine => exact hmach env evs hp
    | getChipAt x y => exact hmach env evs hp

/-- a later history only adds events -/
theorem eventsFrom_prefix (evs : List Event) (h : History) : ∃ new, eventsFrom evs h = evs ++ new := by
  refine events_induction (P := fun l => ∃ new, l = evs ++ new) ?_ evs ⟨[], by simp⟩ h
  rintro l e ⟨new, rfl⟩ -
  exact ⟨new ++ [e], by simp⟩

end SpiNN.Spec
