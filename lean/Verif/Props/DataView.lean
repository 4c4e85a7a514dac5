import Verif.Lemmas.DataView
import Verif.Props.Machine

namespace SpiNN.Props
open SpiNN SpiNN.Spec

/-! ## What the specification means -/

theorem snoc_cons_iff {α : Type} {Q : α → Prop} (a : α) (l : List α) (e : α) :
    (∃ pre post, l ++ [e] = pre ++ a :: post ∧ ∀ x ∈ post, Q x) ↔
      e = a ∨ (Q e ∧ ∃ pre post, l = pre ++ a :: post ∧ ∀ x ∈ post, Q x) := by
  constructor
  · rintro ⟨pre, post, h, hq⟩
    induction post using snoc_induction with
    | nil =>
      obtain ⟨-, h⟩ := List.append_inj' h rfl
      simp only [List.cons.injEq, and_true] at h
      exact .inl h
    | snoc post x _ =>
      rw [← List.cons_append, ← List.append_assoc] at h
      obtain ⟨h1, h2⟩ := List.append_inj' h rfl
      simp only [List.cons.injEq, and_true] at h2
      subst h2
      exact .inr ⟨hq e (by simp), pre, post, h1, fun x hx => hq x (by simp [hx])⟩
  · rintro (rfl | ⟨he, pre, post, rfl, hq⟩)
    · exact ⟨l, [], rfl, by simp⟩
    · refine ⟨pre, post ++ [e], by simp, ?_⟩
      intro x hx
      rcases List.mem_append.1 hx with h | h
      · exact hq x h
      · simp only [List.mem_singleton] at h; subst h; exact he

/-- the machine held is the last one set, with no drop or reset since -/
theorem heldMachine_iff (evs : List Event) (m : Machine) : heldMachine evs = some m ↔
    ∃ pre post, evs = pre ++ .set m :: post ∧
      ∀ e ∈ post, (∀ m', e ≠ .set m') ∧ e ≠ .drop ∧ e ≠ .hard ∧ e ≠ .setup ∧ e ≠ .mock := by
  induction evs using snoc_induction with
  | nil => simp [heldMachine]
  | snoc evs e ih =>
    rw [heldMachine_snoc, snoc_cons_iff, ← ih]
    cases e <;> simp

/-- user code asked for the machine, with no reset since -/
theorem accessed_iff (evs : List Event) : accessed evs = true ↔
    ∃ pre post, evs = pre ++ .access :: post ∧ ∀ e ∈ post, e ≠ .hard ∧ e ≠ .setup ∧ e ≠ .mock := by
  induction evs using snoc_induction with
  | nil => simp [accessed, since]
  | snoc evs e ih =>
    rw [accessed_snoc, snoc_cons_iff, ← ih]
    cases e <;> simp

/-! ## C59 -/

/-- C59: what `get_machine` does after any history. A machine held (set, and not dropped or reset since)
is returned; user code after a soft reset drops it first. Otherwise the generator runs, and the machine
it set is returned. An exception is raised if there is no generator, if it raises, or if it sets no
machine. -/
theorem C59_get_machine (h : History) (env : Env) :
    ((after h).getMachine env).2 = machineResult env (events h) := ((holds_after h).getMachine env).2

/-- C59: the last machine set is returned, and no generator runs. -/
theorem C59_last_set (h : History) (env : Env) (m : Machine) (pre post : List Event)
    (hu : ¬ (env.userMode = true ∧ env.softReset = true)) (he : events h = pre ++ .set m :: post)
    (hp : ∀ e ∈ post, (∀ m', e ≠ .set m') ∧ e ≠ .drop ∧ e ≠ .hard ∧ e ≠ .setup ∧ e ≠ .mock) :
    ((after h).getMachine env).2 = .ok m ∧
    events (h ++ [(env, .getMachine)]) = events h ++ (if env.userMode then [.access] else []) := by
  have hm : heldMachine (events h) = some m := (heldMachine_iff _ _).2 ⟨pre, post, he, hp⟩
  have ha : accessEvents env = if env.userMode then [.access] else [] := by
    unfold accessEvents
    cases h1 : env.userMode <;> cases h2 : env.softReset <;> simp_all
  have hm' : heldMachine (events h ++ accessEvents env) = some m := by
    rw [ha]
    cases env.userMode with
    | false => simpa using hm
    | true => simpa [heldMachine_snoc] using hm
  constructor
  · rw [C59_get_machine]
    simp [machineResult, hm']
  · unfold events
    rw [eventsFrom_append]
    simp only [eventsFrom, opEvents, machineEvents]
    show events h ++ _ = _
    have : eventsFrom [] h = events h := rfl
    rw [this, hm', ha]

/-- C59: without a machine (none set since the last drop or reset, or user code after a soft reset) the
generator runs once, and the machine it set is returned. -/
theorem C59_generated (h : History) (env : Env) (i : Nat) (m : Machine)
    (hm : heldMachine (events h) = none ∨ (env.userMode = true ∧ env.softReset = true))
    (hg : heldGenerator (events h) = some (.user i)) (hr : (env.gens i).raises = none)
    (he : (env.gens i).calls = [.setMachine (some m)]) :
    ((after h).getMachine env).2 = .ok m ∧ heldMachine (events (h ++ [(env, .getMachine)])) = some m := by
  have hm' : heldMachine (events h ++ accessEvents env) = none := by
    unfold accessEvents
    rcases hm with hm | ⟨h1, h2⟩
    · cases env.userMode <;> cases env.softReset <;> simp [heldMachine_snoc, hm]
      have e : events h ++ [Event.access, .drop] = (events h ++ [Event.access]) ++ [Event.drop] := by simp
      rw [e, heldMachine_snoc]
    · simp only [h1, h2, if_true]
      have e : events h ++ [Event.access, .drop] = (events h ++ [Event.access]) ++ [Event.drop] := by simp
      rw [e, heldMachine_snoc]
  have hg' : heldGenerator (events h ++ accessEvents env) = some (.user i) := by
    unfold accessEvents
    cases env.userMode <;> cases env.softReset <;> simp [heldGenerator_snoc, hg]
    have e : events h ++ [Event.access, .drop] = (events h ++ [Event.access]) ++ [Event.drop] := by simp
    rw [e, heldGenerator_snoc, heldGenerator_snoc]; exact hg
  have hge : genEvents env (events h ++ accessEvents env) (.user i) = ([.set m], none) := by
    simp [genEvents, he, hr, callsEvents, callEvents]
  constructor
  · rw [C59_get_machine]
    simp only [machineResult, hm', hg', hge]
    rw [heldMachine_snoc]
  · unfold events
    rw [eventsFrom_append]
    have : eventsFrom [] h = events h := rfl
    simp only [eventsFrom, opEvents, machineEvents, this, hm', hg', hge]
    rw [← List.append_assoc, heldMachine_snoc]

/-- C59: without a machine and a generator get_machine raises. -/
theorem C59_unavailable (h : History) (env : Env) (hm : heldMachine (events h) = none)
    (hg : heldGenerator (events h) = none) :
    ((after h).getMachine env).2 = .error .dataNotYetAvailable := by
  rw [C59_get_machine]
  have e : ∀ l : List Event, l ++ [Event.access, .drop] = (l ++ [Event.access]) ++ [Event.drop] := by simp
  have hm' : heldMachine (events h ++ accessEvents env) = none := by
    unfold accessEvents
    cases env.userMode <;> cases env.softReset <;> simp only [if_true, if_false, Bool.false_eq_true,
      List.append_nil, e, heldMachine_snoc, hm]
  have hg' : heldGenerator (events h ++ accessEvents env) = none := by
    unfold accessEvents
    cases env.userMode <;> cases env.softReset <;> simp only [if_true, if_false, Bool.false_eq_true,
      List.append_nil, e, heldGenerator_snoc, hg]
  simp [machineResult, hm', hg']

/-- C59: get_chip_at is the chip of the machine that get_machine returns, or KeyError. -/
theorem C59_get_chip_at (h : History) (env : Env) (x y : Int) :
    ((after h).getChipAt env x y).2 = (match machineResult env (events h) with
      | .error e => .error e
      | .ok m => match m.getChipAt x y with
        | some c => .ok c
        | none => .error .keyError) ∧
    ((after h).getChipAt env x y).1 = ((after h).getMachine env).1 := by
  constructor
  · rw [((holds_after h).getChipAt env x y).2]
    cases machineResult env (events h) with
    | error e => rfl
    | ok m =>
      simp only [PDict.getE, Machine.getChipAt]
      cases m.chips.get? (x, y) <;> rfl
  · unfold DView.getChipAt
    split <;> rename_i heq <;> rw [heq]

/-- C59: get_user_accessed_machine is true exactly if user code asked for the machine since the last
hard reset, setup or mock. -/
theorem C59_user_accessed (h : History) (env : Env) :
    (after h).call env .userAccessed = (after h, .ok (.bool (accessed (events h)))) ∧
    (accessed (events h) = true ↔ ∃ pre post, events h = pre ++ .access :: post ∧
      ∀ e ∈ post, e ≠ .hard ∧ e ≠ .setup ∧ e ≠ .mock) := by
  refine ⟨?_, accessed_iff _⟩
  simp only [DView.call, (holds_after h).accessed]

/-- C59: an access event is exactly a call of get_machine or get_chip_at in user mode. -/
theorem C59_access_events (env : Env) (evs : List Event) (op : DOp) (hop : ∀ c, op ≠ .call c) :
    (opEvents env evs op).head? = (if env.userMode then some .access else (opEvents env evs op).head?) ∧
    (env.userMode = true → .access ∈ opEvents env evs op) := by
  have : ∀ evs, (machineEvents env evs).head? = (if env.userMode then some .access else (machineEvents env evs).head?) ∧
    (env.userMode = true → .access ∈ machineEvents env evs) := by
    intro evs
    unfold machineEvents accessEvents
    cases env.userMode with
    | false => simp
    | true => simp only [if_true]; split <;> simp
  cases op with
  | call c => exact absurd rfl (hop c)
  | getMachine => exact this evs
  | getChipAt x y => exact this evs

/-- C59: calls other than get_machine and get_chip_at are no user access -/
theorem C59_no_access (env : Env) (evs : List Event) (c : Call) : Event.access ∉ callEvents env evs c := by
  have hv : Event.access ∉ versionEvents env evs := by
    unfold versionEvents; split
    · simp
    · split <;> simp
  cases c with
  | setMachine m => cases m <;> simp [callEvents]
  | setGenerator m => cases m <;> simp [callEvents]
  | getVersion => exact hv
  | physicalQuad p => exact hv
  | setVToP m => simp only [callEvents]; split <;> simp
  | _ => simp [callEvents]

/-- C59: has_machine, has_existing_machine, get_nearest_ethernet and the other readers change nothing. -/
theorem C59_readers_change_nothing (s : DView) (env : Env) (c : Call)
    (hc : c = .hasMachine ∨ c = .hasExisting ∨ (∃ x y, c = .nearestEthernet x y) ∨ c = .userAccessed ∨
      c = .allMonitors ∨ c = .ethernetMonitors ∨ (∃ xy p, c = .physicalCore xy p) ∨
      (∃ xy p, c = .physicalString xy p) ∨ (∃ x y, c = .whereIsXY x y) ∨ (∃ chip, c = .whereIsChip chip) ∨ c = .softReset ∨ c = .setMachine none ∨ c = .setGenerator none) :
    (s.call env c).1 = s := by
  rcases hc with rfl | rfl | ⟨x, y, rfl⟩ | rfl | rfl | rfl | ⟨x, y, rfl⟩ | ⟨x, y, rfl⟩ | ⟨x, y, rfl⟩ |
    ⟨c, rfl⟩ | rfl | rfl | rfl <;> rfl

/-- C59: has_existing_machine says whether a machine is held; has_machine is also true in mock mode;
get_nearest_ethernet reads the machine held, and gives its argument if there is none. -/
theorem C59_readers (h : History) (env : Env) (x y : Int) :
    (((after h).call env .hasExisting).2 = .ok (.bool (heldMachine (events h)).isSome)) ∧
    (((after h).call env .hasMachine).2 = .ok (.bool ((heldMachine (events h)).isSome || env.mocked))) ∧
    (((after h).call env (.nearestEthernet x y)).2 = .ok (.xy
      (match heldMachine (events h) with
      | none => (x, y)
      | some m => match m.getChipAt x y with
        | none => (x, y)
        | some c => (c.ethX, c.ethY)))) := by
  have hh := holds_after h
  refine ⟨by simp only [DView.call, hh.machine], by simp only [DView.call, hh.machine], ?_⟩
  simp only [DView.call, DView.nearestEthernet, hh.machine]
  cases heldMachine (events h) with
  | none => rfl
  | some m =>
    simp only [PDict.getE, Machine.getChipAt]
    cases m.chips.get? (x, y) <;> rfl

/-- C67: `where_is_xy` and `where_is_chip` of the data view ask the machine that is held, after any history;
without one they say so. They never make a machine (`C59_readers_change_nothing`). -/
theorem C67_data_view (h : History) (env : Env) (x y : Int) (c : Chip) :
    ((after h).call env (.whereIsXY x y)).2 = .ok (.text (match heldMachine (events h) with
      | none => "No Machine created yet".toList
      | some m => m.whereIsXY x y)) ∧
    ((after h).call env (.whereIsChip c)).2 = .ok (.text (match heldMachine (events h) with
      | none => "Chip is from a previous machine".toList
      | some m => m.whereIsChip c)) := by
  have hh := holds_after h
  simp only [DView.call, DView.whereIsXY, DView.whereIsChip, hh.machine]
  cases heldMachine (events h) <;> exact ⟨rfl, rfl⟩

/-- C59: set_machine and set_machine_generator refuse other values with TypeError. -/
theorem C59_types (s : DView) (env : Env) :
    s.call env (.setMachine none) = (s, .error .typeError) ∧
    s.call env (.setGenerator none) = (s, .error .typeError) := ⟨rfl, rfl⟩

/-- C59: right after mock mode is entered, get_machine gives a virtual machine of one board of the
configured version. -/
theorem C59_mock (h : History) (env0 env : Env) :
    ((after (h ++ [(env0, .call .mock)])).getMachine env).2 =
      match VersionFactory.versionFactory env.minor env.cfg with
      | .error e => .error e
      | .ok v => virtualMachineByBoards v env.down 1 true := by
  rw [C59_get_machine]
  have e1 : events (h ++ [(env0, .call .mock)]) = events h ++ [.mock] := by
    unfold events; rw [eventsFrom_append]; rfl
  have e : ∀ l : List Event, l ++ [Event.access, .drop] = (l ++ [Event.access]) ++ [Event.drop] := by simp
  rw [e1]
  generalize hl : events h ++ [Event.mock] ++ accessEvents env = l
  have hm : heldMachine l = none := by
    subst hl; unfold accessEvents
    cases env.userMode <;> cases env.softReset <;> simp only [if_true, if_false, Bool.false_eq_true,
      List.append_nil, e, heldMachine_snoc]
  have hg : heldGenerator l = some .mock := by
    subst hl; unfold accessEvents
    cases env.userMode <;> cases env.softReset <;> simp only [if_true, if_false, Bool.false_eq_true,
      List.append_nil, e, heldGenerator_snoc]
  have hv : heldVersion l = none := by
    subst hl; unfold accessEvents
    cases env.userMode <;> cases env.softReset <;> simp only [if_true, if_false, Bool.false_eq_true,
      List.append_nil, e, heldVersion_snoc]
  have hp : heldMap l = none := by
    subst hl; unfold accessEvents
    cases env.userMode <;> cases env.softReset <;> simp only [if_true, if_false, Bool.false_eq_true,
      List.append_nil, e, heldMap_snoc]
  simp only [machineResult, hl, hm, hg, genEvents, versionResult, hv, hp]
  cases hf : VersionFactory.versionFactory env.minor env.cfg with
  | error e => simp
  | ok v =>
    simp only [reduceCtorEq, false_and, exists_false, and_false, if_false]
    cases hb : virtualMachineByBoards v env.down 1 true with
    | error e => simp
    | ok m =>
      simp only
      rw [← List.append_assoc, heldMachine_snoc]

/-- an outside world: nothing configured, generator 0 sets `m`, generator 1 sets nothing, and the others
raise -/
def exEnv (m : Machine) (user soft : Bool) : Env :=
  { minor := 11, cfg := {}, down := {}, userMode := user, softReset := soft, mocked := false,
    gens := fun
      | 0 => ⟨[.setMachine (some m)], none⟩
      | 1 => ⟨[], none⟩
      | _ => ⟨[.setMachine (some m)], some .valueError⟩ }

/-- set, hard reset, generator, and a user access -/
example (m m' : Machine) : let env := exEnv m true false
    let h : History := [(env, .call (.setMachine (some m'))), (env, .call .hardReset),
      (env, .call (.setGenerator (some 0))), (env, .getMachine)]
    heldMachine (events h) = some m ∧ accessed (events h) = true ∧
    ((after h).getMachine (exEnv m' false true)).2 = .ok m ∧
    ((after h).getMachine (exEnv m' true true)).2 = .ok m' ∧
    ((after (h.take 2)).getMachine (exEnv m' true true)).2 = .error .dataNotYetAvailable :=
  ⟨rfl, rfl, rfl, rfl, rfl⟩

/-- a generator that sets nothing, and one that raises: the machine it set before is then held -/
example (m : Machine) : let env := exEnv m true false
    (((after [(env, .call (.setGenerator (some 1)))]).getMachine env).2 = .error .machine) ∧
    (((after [(env, .call (.setGenerator (some 2)))]).getMachine env).2 = .error .valueError) ∧
    (((after [(env, .call (.setGenerator (some 2))), (env, .getMachine)]).getMachine env).2 = .ok m) :=
  ⟨rfl, rfl, rfl⟩

/-! ## C60 -/

/-- C60: set_v_to_p_map is accepted exactly if there is no quad map and none was accepted since the
last reset; otherwise SpinnMachineException and nothing changes. -/
theorem C60_set_map (h : History) (env : Env) (m : VToP) :
    (((after h).call env (.setVToP m)).2 = if heldQuads (events h) = true ∨ heldMap (events h) ≠ none then
      .error .machine else .ok .unit) ∧
    ((heldQuads (events h) = true ∨ heldMap (events h) ≠ none) → ((after h).call env (.setVToP m)).1 = after h) := by
  have hh := holds_after h
  simp only [DView.call, DView.setVToP]
  rw [heldQuads_eq, ← hh.quads, ← hh.vToP]
  cases hq : DView.truthy (after h).quadMap with
  | true => simp
  | false => cases hm : (after h).vToP <;> simp

theorem heldMap_iff (evs : List Event) (m : VToP) : heldMap evs = some m ↔
    ∃ pre post, evs = pre ++ .vToP m :: post ∧
      ∀ e ∈ post, (∀ m', e ≠ .vToP m') ∧ e ≠ .hard ∧ e ≠ .setup ∧ e ≠ .mock := by
  induction evs using snoc_induction with
  | nil => simp [heldMap]
  | snoc evs e ih =>
    rw [heldMap_snoc, snoc_cons_iff, ← ih]
    cases e <;> simp

theorem heldMap_mono (pre post : List Event) (hp : ∀ e ∈ post, e ≠ .hard ∧ e ≠ .setup ∧ e ≠ .mock)
    (h : heldMap pre ≠ none) : heldMap (pre ++ post) ≠ none := by
  induction post using snoc_induction with
  | nil => simpa using h
  | snoc post e ih =>
    have := ih fun x hx => hp x (by simp [hx])
    have he := hp e (by simp)
    rw [← List.append_assoc, heldMap_snoc]
    cases e <;> simp_all

/-- C60: once a map was accepted, every later call raises until the next reset. -/
theorem C60_once (h1 h2 : History) (env env' : Env) (m m' : VToP)
    (hok : ((after h1).call env (.setVToP m)).2 = .ok .unit)
    (new : List Event) (hnew : events (h1 ++ (env, .call (.setVToP m)) :: h2) = events h1 ++ new)
    (hr : ∀ e ∈ new, e ≠ .hard ∧ e ≠ .setup ∧ e ≠ .mock) :
    ((after (h1 ++ (env, .call (.setVToP m)) :: h2)).call env' (.setVToP m')).2 = .error .machine := by
  rw [(C60_set_map h1 env m).1] at hok
  split at hok
  · simp at hok
  · rename_i hn
    rw [(C60_set_map _ env' m').1, if_pos]
    right
    have e1 : events (h1 ++ [(env, .call (.setVToP m))]) = events h1 ++ [.vToP m] := by
      unfold events
      rw [eventsFrom_append]
      have : eventsFrom [] h1 = events h1 := rfl
      simp only [eventsFrom, opEvents, callEvents, this]
      rw [if_neg hn]
    have e2 : h1 ++ (env, .call (.setVToP m)) :: h2 = (h1 ++ [(env, DOp.call (.setVToP m))]) ++ h2 := by simp
    have e3 : events (h1 ++ (env, .call (.setVToP m)) :: h2) = eventsFrom (events h1 ++ [.vToP m]) h2 := by
      rw [e2, ← e1]; unfold events; rw [eventsFrom_append]
    obtain ⟨new', h'⟩ := eventsFrom_prefix (events h1 ++ [.vToP m]) h2
    rw [e3, h']
    apply heldMap_mono
    · intro e he
      apply hr
      rw [e3, h', List.append_assoc] at hnew
      rw [← List.append_cancel_left hnew]
      simp [he]
    · rw [heldMap_snoc]; simp

/-- C60: what get_physical_core_id gives: the entry of the map accepted since the last reset. -/
theorem C60_physical_core (h : History) (env : Env) (xy : XY) (p : Int) :
    ((after h).call env (.physicalCore xy p)).2 = match heldMap (events h) with
      | none => .error .dataNotYetAvailable
      | some m => match m.get? xy with
        | none => .error .keyError
        | some row => match pyIndex row p with
          | .ok n => .ok (.int n)
          | .error e => .error e := by
  simp only [DView.call, DView.physicalCore, (holds_after h).vToP]
  cases heldMap (events h) with
  | none => rfl
  | some m =>
    simp only [PDict.getE]
    cases m.get? xy with
    | none => rfl
    | some row =>
      simp only
      cases pyIndex row p <;> rfl

/-- C60: get_machine_version gives the version made before, else makes it from the settings; it raises
if the settings are wrong, or if that gives a quad map besides a map. -/
theorem C60_get_version (h : History) (env : Env) :
    ((after h).call env .getVersion).2 = (match versionResult env (events h) with
      | .ok v => .ok (.version v)
      | .error e => .error e) := by
  simp only [DView.call, ((holds_after h).version_step env).2]
  cases versionResult env (events h) <;> rfl

/-- C60: what get_physical_quad gives: an entry of the quad map of the version (SpiNNaker2 only). -/
theorem C60_physical_quad (h : History) (env : Env) (p : Int) :
    ((after h).call env (.physicalQuad p)).2 = match versionResult env (events h) with
      | .error e => .error e
      | .ok v => if v.kind.isSpin1 then .error .dataNotYetAvailable else
        match VKind.quadMap.get? p with
        | some q => .ok (.quad q)
        | none => .error .keyError := by
  have hh := holds_after h
  have hv := hh.version_step env
  simp only [DView.call, DView.physicalQuad]
  cases hq : (after h).quadMap with
  | some q =>
    rw [hh.quads] at hq
    cases hvv : heldVersion (events h) with
    | none => rw [hvv] at hq; simp at hq
    | some v =>
      rw [hvv] at hq
      simp only [Option.bind_some, VKind.quadsMaps] at hq
      unfold versionResult
      rw [hvv]
      cases hs : v.kind.isSpin1 with
      | true => rw [hs] at hq; simp at hq
      | false =>
        rw [hs] at hq
        simp only [Bool.false_eq_true, if_false, Option.some.injEq] at hq
        subst hq
        simp only [hs, Bool.false_eq_true, if_false, PDict.getE]
        cases VKind.quadMap.get? p <;> rfl
  | none =>
    simp only
    generalize (after h).getMachineVersion env = r at hv
    obtain ⟨s', r⟩ := r
    obtain ⟨h1, h2⟩ := hv
    simp only at h1 h2
    rw [← h2]
    cases r with
    | error e => rfl
    | ok v =>
      simp only
      have hv' : heldVersion (events h ++ versionEvents env (events h)) = some v := by
        unfold versionResult at h2
        unfold versionEvents
        cases hvv : heldVersion (events h) with
        | some v' => rw [hvv] at h2; simp only [Except.ok.injEq] at h2; subst h2; simpa using hvv
        | none =>
          rw [hvv] at h2
          cases hf : VersionFactory.versionFactory env.minor env.cfg with
          | error e => simp [hf] at h2
          | ok v' =>
            simp only [hf] at h2
            split at h2
            · simp at h2
            · simp only [Except.ok.injEq] at h2; subst h2; rw [heldVersion_snoc]
      rw [h1.quads, hv']
      simp only [Option.bind_some, VKind.quadsMaps]
      cases hs : v.kind.isSpin1 with
      | true => simp
      | false =>
        simp only [Bool.false_eq_true, if_false, PDict.getE]
        cases VKind.quadMap.get? p <;> rfl

/-- C60: get_physical_string never raises; it describes the entry of the map if one is held, else the
entry of the quad map if there is one, and is empty if there is no entry. -/
theorem C60_physical_string (h : History) (env : Env) (xy : XY) (p : Int) :
    (after h).call env (.physicalString xy p) = (after h, .ok (.text (
      match heldMap (events h) with
      | some m => match m.get? xy with
        | none => []
        | some row => match pyIndex row p with
          | .ok n => " (ph: ".toList ++ showInt n ++ ")".toList
          | .error _ => []
      | none => if heldQuads (events h) then
          match VKind.quadMap.get? p with
          | some (qx, qy, qp) =>
            " (qpe:".toList ++ showInt qx ++ ", ".toList ++ showInt qy ++ ", ".toList ++ showInt qp ++ ")".toList
          | none => []
        else []))) := by
  have hh := holds_after h
  simp only [DView.call, DView.physicalString, DView.physicalCore, hh.vToP, hh.quads, PDict.getE]
  cases heldMap (events h) with
  | some m =>
    simp only
    cases m.get? xy with
    | none => rfl
    | some row => simp only; cases pyIndex row p <;> rfl
  | none =>
    have key : ((heldVersion (events h)).bind fun v => v.kind.quadsMaps) =
        if heldQuads (events h) then some VKind.quadMap else none := by
      unfold heldQuads VKind.quadsMaps
      cases heldVersion (events h) with
      | none => rfl
      | some v => cases hs : v.kind.isSpin1 <;> simp [hs]
    rw [key]
    cases heldQuads (events h) with
    | false => rfl
    | true => simp only [if_true]; cases VKind.quadMap.get? p <;> rfl

theorem exclusive_of (h : History)
    (hno : ∀ pre v post, events h = pre ++ .version v :: post → ¬ v.kind.isSpin1 = true →
      ¬ ∃ m, heldMap pre = some m ∧ m.size ≠ 0) :
    ¬ (heldQuads (events h) = true ∧ ∃ m, heldMap (events h) = some m ∧ m.size ≠ 0) := by
  refine events_induction (P := fun evs => (∀ pre v post, evs = pre ++ .version v :: post → ¬ v.kind.isSpin1 = true →
      ¬ ∃ m, heldMap pre = some m ∧ m.size ≠ 0) →
    ¬ (heldQuads evs = true ∧ ∃ m, heldMap evs = some m ∧ m.size ≠ 0)) ?_ [] ?_ h hno
  · intro evs e ih ha hno
    have ih := ih fun pre v post he => hno pre v (post ++ [e]) (by rw [he]; simp)
    unfold heldQuads
    rw [heldMap_snoc, heldVersion_snoc]
    cases e with
    | version v =>
      have := hno evs v [] rfl
      simp only
      rintro ⟨h1, h2⟩
      exact this (by simpa using h1) h2
    | vToP m =>
      simp only
      intro h
      have h1 : heldQuads evs = true := h.1
      rw [ha.1] at h1; simp at h1
    | hard => simp
    | mock => simp
    | setup => simp
    | _ => exact ih
  · intro _; simp [heldMap]

/-- C60 (partial): as long as no call made a SpiNNaker2 version while a map was set (such a call raises
SpinnMachineException), get_physical_core_id and get_physical_quad do not both work. Missing: the
exception does not undo the update, so after it both work (`C60_both_after_exception`). -/
theorem C60_exclusive_partial (h : History)
    (hno : ∀ pre v post, events h = pre ++ .version v :: post → ¬ v.kind.isSpin1 = true →
      ¬ ∃ m, heldMap pre = some m ∧ m.size ≠ 0) (env env' : Env) (xy : XY) (p p' : Int) (n q : Out) :
    ¬ (((after h).call env (.physicalCore xy p)).2 = .ok n ∧ ((after h).call env' (.physicalQuad p')).2 = .ok q) := by
  rintro ⟨h1, h2⟩
  rw [C60_physical_core] at h1
  rw [C60_physical_quad] at h2
  have hm : ∃ m, heldMap (events h) = some m ∧ m.size ≠ 0 := by
    cases hm : heldMap (events h) with
    | none => simp [hm] at h1
    | some m =>
      refine ⟨m, rfl, ?_⟩
      intro hs
      have : m = ⟨[]⟩ := by
        obtain ⟨l⟩ := m
        have : l.length = 0 := hs
        rw [List.eq_nil_of_length_eq_zero this]
      subst this
      simp [hm, PDict.get?, PDict.lookup] at h1
  have hq : heldQuads (events h) = false := by
    cases hq : heldQuads (events h) with
    | false => rfl
    | true => exact absurd ⟨hq, hm⟩ (exclusive_of h hno)
  unfold heldQuads at hq
  unfold versionResult at h2
  cases hv : heldVersion (events h) with
  | some v =>
    rw [hv] at hq h2
    simp only [Bool.not_eq_false'] at hq
    simp [hq] at h2
  | none =>
    rw [hv] at h2
    cases hf : VersionFactory.versionFactory env'.minor env'.cfg with
    | error e => simp [hf] at h2
    | ok v =>
      simp only [hf] at h2
      by_cases hs : v.kind.isSpin1 = true
      · simp [hs] at h2
      · rw [if_pos ⟨hs, hm⟩] at h2; simp at h2

/-- C60: the full property fails. With a map set, get_machine_version of a SpiNNaker2 version raises,
but keeps the version and its quad map: from then on it succeeds and both maps are used. -/
theorem C60_both_after_exception : ∃ (h : History) (env : Env),
    ((after h).call env .getVersion).2 = .error .machine ∧
    (let h' := h ++ [(env, .call .getVersion)]
     (((after h').call env (.physicalCore (0, 0) 1)).2 = .ok (.int 7)) ∧
     (((after h').call env (.physicalQuad 1)).2 = .ok (.quad (7, 6, 0))) ∧
     ∃ v, ((after h').call env .getVersion).2 = .ok (.version v)) := by
  let env : Env :=
    { minor := 11, cfg := { version := some 201 }, down := {}, userMode := false, softReset := false
      mocked := false, gens := fun _ => ⟨[], none⟩ }
  refine ⟨[(env, .call (.setVToP ⟨[((0, 0), [0, 7])]⟩))], env, ?_, ?_, ?_, ?_⟩
  · decide +kernel
  · decide +kernel
  · decide +kernel
  · exact ⟨{ kind := .v201, maxCores := 153, maxSdram := 1073741824 }, by decide +kernel⟩

/-- the hypotheses of `C60_exclusive_partial` and `C60_once` hold of a 48 chip board with a map -/
example (env : Env) (m : VToP) (hc : env.cfg = { version := some 5 }) :
    let h : History := [(env, .call .getVersion), (env, .call (.setVToP m))]
    (∃ v, events h = [.version v, .vToP m] ∧ v.kind = .v5) ∧
    (((after [(env, .call .getVersion)]).call env (.setVToP m)).2 = .ok .unit) := by
  have hf : ∃ v, VersionFactory.versionFactory env.minor env.cfg = .ok v ∧ v.kind = .v5 := by
    rw [hc]; exact ⟨_, rfl, rfl⟩
  obtain ⟨v, hv, hk⟩ := hf
  have h1 : events [(env, .call .getVersion)] = [.version v] := by
    simp [events, eventsFrom, opEvents, callEvents, versionEvents, hv, heldVersion]
  have hq : heldQuads [.version v] = false := by
    simp [heldQuads, heldVersion, hk, VKind.isSpin1]
  have hm : heldMap [.version v] = none := rfl
  refine ⟨⟨v, ?_, hk⟩, ?_⟩
  · have : events [(env, .call .getVersion), (env, .call (.setVToP m))] =
        eventsFrom (events [(env, .call .getVersion)]) [(env, .call (.setVToP m))] := by
      unfold events; rw [← eventsFrom_append]; rfl
    rw [this, h1]
    simp [eventsFrom, opEvents, callEvents, hq, hm]
  · rw [(C60_set_map _ _ _).1, h1]
    simp [hq, hm]

/-! ## C61 -/

/-- C61: the counts are the calls of add_monitor_core since the last hard reset, setup or mock. -/
theorem C61_counts (h : History) (env : Env) :
    ((after h).call env .ethernetMonitors).2 = .ok (.int (nMonitors (events h))) ∧
    ((after h).call env .allMonitors).2 = .ok (.int (nAllMonitors (events h))) ∧
    nAllMonitors (events h) ≤ nMonitors (events h) := by
  have hh := holds_after h
  refine ⟨by simp only [DView.call, hh.eth], by simp only [DView.call, hh.all], ?_⟩
  unfold nAllMonitors nMonitors
  refine List.countP_mono_left ?_
  intro e _ he
  cases e with
  | monitor b => rfl
  | _ => simp at he

example (env : Env) : let h : History := [(env, .call (.addMonitor true)), (env, .call .hardReset),
    (env, .call (.addMonitor true)), (env, .call (.addMonitor false)), (env, .call .softReset)]
    nMonitors (events h) = 2 ∧ nAllMonitors (events h) = 1 := ⟨rfl, rfl⟩

end SpiNN.Props
