import Verif.Spec.LiveLinks
import Verif.Props.LinkHistory
import Verif.Lemmas.Lazy
import Verif.Model.VirtualMachine

/-!
# Reading links while links are added (C97)
-/

namespace SpiNN.Props
open SpiNN Spec

section generic
variable {σ α : Type} {entries : σ → List α}

private theorem ask_done : ∀ ss : List σ, askDict entries .done ss = List.replicate ss.length .stop
  | [] => rfl
  | s :: ss => by simp only [askDict, DictIter.next, ask_done ss, List.length_cons, List.replicate_succ]

private theorem ask_broken : ∀ ss : List σ, askDict entries .broken ss = List.replicate ss.length (.raised .runtimeError)
  | [] => rfl
  | s :: ss => by simp only [askDict, DictIter.next, ask_broken ss, List.length_cons, List.replicate_succ]

private theorem ask_from (l : List α) (b : List σ) (hb : ∀ s ∈ b, (entries s).length ≠ l.length) :
    ∀ (a : List σ) (pos : Nat), pos ≤ l.length → (∀ s ∈ a, entries s = l) →
      askDict entries (.live pos l.length) (a ++ b) = reads (l.drop pos) a.length ++
        List.replicate b.length (if l.length - pos < a.length then .stop else .raised .runtimeError)
  | [], pos, hp, _ => by
    cases b with
    | nil => rfl
    | cons s b =>
      simp only [List.nil_append, askDict, DictIter.next]
      rw [if_pos (hb s (by simp))]
      simp [ask_broken, List.replicate_succ, reads]
  | s :: a, pos, hp, ha => by
    have hs := ha s (by simp)
    simp only [List.cons_append, askDict, DictIter.next, hs, ne_eq, not_true_eq_false, if_false]
    by_cases hlt : pos < l.length
    · rw [List.getElem?_eq_getElem hlt]
      simp only
      rw [ask_from l b hb a (pos + 1) hlt (fun s hs => ha s (by simp [hs]))]
      have hd : l.drop pos = l[pos] :: l.drop (pos + 1) := List.drop_eq_getElem_cons hlt
      unfold reads
      rw [hd, List.map_cons, List.cons_append, List.length_cons, List.take_succ_cons]
      have e1 : ((l.drop (pos + 1)).map Reply.got ++ List.replicate (a.length + 1) (Reply.stop : Reply α)).take a.length =
          ((l.drop (pos + 1)).map Reply.got ++ List.replicate a.length (Reply.stop : Reply α)).take a.length := by
        rw [List.take_append, List.take_append, List.take_replicate, List.take_replicate]
        congr 2
        omega
      rw [e1]
      have e2 : (l.length - pos < a.length + 1) = (l.length - (pos + 1) < a.length) := by
        apply propext; omega
      simp only [e2, List.cons_append]
    · have hpos : pos = l.length := by omega
      subst hpos
      rw [List.getElem?_eq_none (by omega)]
      simp only
      rw [ask_done]
      simp [reads, List.replicate_succ]

theorem ask_reads (l : List α) (a b : List σ) (ha : ∀ s ∈ a, entries s = l) (hb : ∀ s ∈ b, (entries s).length ≠ l.length) :
    askDict entries (.live 0 l.length) (a ++ b) = reads l a.length ++
      List.replicate b.length (if l.length < a.length then .stop else .raised .runtimeError) := by
  have := ask_from l b hb a 0 (Nat.zero_le _) ha
  simpa using this

theorem ask_map {β : Type} (f : α → β) : ∀ (ss : List σ) (it : DictIter),
    (askDict entries it ss).map (Reply.map f) = askDict (fun s => (entries s).map f) it ss
  | [], _ => rfl
  | s :: ss, it => by
    have : (it.next ((entries s).map f)) = ((it.next (entries s)).1.map f, (it.next (entries s)).2) := by
      cases it with
      | done => rfl
      | broken => rfl
      | live pos size =>
        simp only [DictIter.next, List.length_map, List.getElem?_map]
        split
        · rfl
        · cases (entries s)[pos]? <;> rfl
    simp only [askDict, List.map_cons, this, ask_map f ss]

end generic

/-! ### Routers -/

private theorem addLink_len {r r' : Router} {l : Link} (h : r.addLink l = .ok r') : r'.len = r.len + 1 := by
  unfold Router.addLink at h
  split at h
  · cases h
  · rename_i hc
    injection h with h
    subst h
    unfold Router.len
    rw [← PDict.length_keys, ← PDict.length_keys]
    simp only
    rw [PDict.keys_set_of_not_mem _ _ _ (by simpa using hc)]
    simp

private theorem after_len : ∀ (steps : List RouterStep) (r : Router), r.len ≤ (routerAfter r steps).len
  | [], r => Nat.le_refl _
  | .next :: rest, r => after_len rest r
  | .add l :: rest, r => by
    unfold routerAfter
    split
    · rename_i r' h
      have := addLink_len h
      have := after_len rest r'
      omega
    · exact after_len rest r

/-- a router that has as many links as before is the router from before -/
theorem after_same : ∀ (steps : List RouterStep) (r : Router), (routerAfter r steps).len = r.len →
    routerAfter r steps = r ∧ ∀ r' ∈ routerMoments r steps, r' = r
  | [], r, _ => ⟨rfl, by simp [routerMoments]⟩
  | .next :: rest, r, h => by
    obtain ⟨h1, h2⟩ := after_same rest r h
    exact ⟨h1, by simpa [routerMoments] using h2⟩
  | .add l :: rest, r, h => by
    unfold routerAfter at h
    unfold routerAfter routerMoments
    split at h
    · rename_i r' h'
      have := addLink_len h'
      have := after_len rest r'
      omega
    · exact after_same rest r h

private theorem moments_len : ∀ (steps : List RouterStep) (r : Router), ∀ r' ∈ routerMoments r steps, r.len ≤ r'.len
  | [], r, r', h => by simp [routerMoments] at h
  | .next :: rest, r, r', h => by
    simp only [routerMoments, List.mem_cons] at h
    rcases h with rfl | h
    · exact Nat.le_refl _
    · exact moments_len rest r r' h
  | .add l :: rest, r, r', h => by
    unfold routerMoments at h
    split at h
    · rename_i r2 h2
      have := addLink_len h2
      have := moments_len rest r2 r' h
      omega
    · exact moments_len rest r r' h

private theorem moments_count : ∀ (steps : List RouterStep) (r : Router), (routerMoments r steps).length = steps.count .next
  | [], r => rfl
  | .next :: rest, r => by simp [routerMoments, moments_count rest r]
  | .add l :: rest, r => by
    unfold routerMoments
    split <;> simp [moments_count rest]

private theorem moments_cat : ∀ (a b : List RouterStep) (r : Router),
    routerMoments r (a ++ b) = routerMoments r a ++ routerMoments (routerAfter r a) b
  | [], b, r => rfl
  | .next :: rest, b, r => by simp [routerMoments, routerAfter, moments_cat rest b r]
  | .add l :: rest, b, r => by
    simp only [List.cons_append, routerMoments, routerAfter]
    split <;> exact moments_cat rest b _

private theorem watch_router {α : Type} (entries : Router → List α) (hlen : ∀ r, (entries r).length = r.len) (r : Router)
    (steps : List RouterStep) (pre post : List RouterStep) (l : Link) (r' : Router) (hs : steps = pre ++ .add l :: post)
    (hpre : (routerAfter r pre).len = r.len) (hl : (routerAfter r pre).addLink l = .ok r') :
    askDict entries (.live 0 r.len) (routerMoments r steps) = reads (entries r) (pre.count .next) ++
      List.replicate (post.count .next) (if r.len < pre.count .next then .stop else .raised .runtimeError) := by
  obtain ⟨h1, h2⟩ := after_same pre r hpre
  rw [h1] at hl
  subst hs
  rw [moments_cat, h1]
  have hm : routerMoments r (.add l :: post) = routerMoments r' post := by simp only [routerMoments, hl]
  rw [hm, ← hlen r, ask_reads (entries r), moments_count, moments_count]
  · intro s hs; rw [h2 s hs]
  · intro s hs
    have := moments_len post r' s hs
    have := addLink_len hl
    rw [hlen, hlen]
    omega

private theorem watch_router_quiet {α : Type} (entries : Router → List α) (hlen : ∀ r, (entries r).length = r.len)
    (r : Router) (steps : List RouterStep) (hq : (routerAfter r steps).len = r.len) :
    askDict entries (.live 0 r.len) (routerMoments r steps) = reads (entries r) (steps.count .next) := by
  obtain ⟨-, h2⟩ := after_same steps r hq
  have := ask_reads (entries := entries) (entries r) (routerMoments r steps) [] (by intro s hs; rw [h2 s hs]) (by simp)
  rw [List.append_nil, hlen, moments_count] at this
  simpa using this

private theorem links_len (r : Router) : r.linkList.length = r.len := PDict.length_values _
private theorem iter_len (r : Router) : r.iter.length = r.len := rfl

/-- C97: as long as no link is added (attempts to add one that is there fail), `router.links` and `iter(router)` read
all links in order and then stop. -/
theorem C97_router_quiet (r : Router) (steps : List RouterStep) (hq : (routerAfter r steps).len = r.len) :
    r.watchLinks (routerMoments r steps) = reads r.linkList (steps.count .next) ∧
    r.watchIter (routerMoments r steps) = reads r.iter (steps.count .next) :=
  ⟨watch_router_quiet _ links_len r steps hq, watch_router_quiet _ iter_len r steps hq⟩

/-- C97: once a link has been added, every `next()` raises `RuntimeError`, unless the iterator had stopped before: then
it stops for ever. No link is ever left out silently, none comes twice and none of the new links comes at all. -/
theorem C97_router_added (r r' : Router) (pre post : List RouterStep) (l : Link)
    (hpre : (routerAfter r pre).len = r.len) (hl : (routerAfter r pre).addLink l = .ok r') :
    r.watchLinks (routerMoments r (pre ++ .add l :: post)) = reads r.linkList (pre.count .next) ++
      List.replicate (post.count .next) (if r.len < pre.count .next then .stop else .raised .runtimeError) ∧
    r.watchIter (routerMoments r (pre ++ .add l :: post)) = reads r.iter (pre.count .next) ++
      List.replicate (post.count .next) (if r.len < pre.count .next then .stop else .raised .runtimeError) :=
  ⟨watch_router _ links_len r _ pre post l r' rfl hpre hl, watch_router _ iter_len r _ pre post l r' rfl hpre hl⟩

/-- C97: these are all programs. -/
theorem C97_router_all (steps : List RouterStep) : ∀ r : Router, (routerAfter r steps).len = r.len ∨
    ∃ pre l post r', steps = pre ++ .add l :: post ∧ (routerAfter r pre).len = r.len ∧
      (routerAfter r pre).addLink l = .ok r' := by
  induction steps with
  | nil => exact fun r => .inl rfl
  | cons st rest ih =>
    intro r
    cases st with
    | next =>
      rcases ih r with h | ⟨pre, l, post, r', rfl, h1, h2⟩
      · exact .inl h
      · exact .inr ⟨.next :: pre, l, post, r', rfl, h1, h2⟩
    | add l =>
      cases hl : r.addLink l with
      | ok r' => exact .inr ⟨[], l, rest, r', rfl, rfl, hl⟩
      | error e =>
        rcases ih r with h | ⟨pre, l', post, r', rfl, h1, h2⟩
        · left; simpa only [routerAfter, hl] using h
        · refine .inr ⟨.add l :: pre, l', post, r', rfl, ?_, ?_⟩ <;> simpa only [routerAfter, hl]

/-- a router with two links, a third added after one was read: the next call raises; one that is there already is
refused and nothing happens -/
example : let r : Router := ⟨⟨[(0, ⟨0, 0, 0, 1, 0⟩), (2, ⟨0, 0, 2, 0, 1⟩)]⟩, 1023⟩
    r.watchLinks (routerMoments r [.next, .add ⟨0, 0, 2, 5, 5⟩, .next, .add ⟨0, 0, 1, 1, 1⟩, .next, .next]) =
      [.got ⟨0, 0, 0, 1, 0⟩, .got ⟨0, 0, 2, 0, 1⟩, .raised .runtimeError, .raised .runtimeError] ∧
    r.watchLinks (routerMoments r [.next, .next, .next, .add ⟨0, 0, 1, 1, 1⟩, .next]) =
      [.got ⟨0, 0, 0, 1, 0⟩, .got ⟨0, 0, 2, 0, 1⟩, .stop, .stop] := by decide

/-! ### SpiNNaker links -/

section dict
variable {K V : Type} [DecidableEq K]

private theorem setAll_cons (d : PDict K V) (kv : K × V) (es : List (K × V)) :
    d.setAll (kv :: es) = (d.set kv.1 kv.2).setAll es := rfl

private theorem set_prefix (d : PDict K V) (k : K) (v : V) : d.keys <+: (d.set k v).keys := by
  cases h : d.contains k with
  | true => rw [PDict.keys_set_of_mem _ _ _ h]; exact List.prefix_refl _
  | false => rw [PDict.keys_set_of_not_mem _ _ _ h]; exact List.prefix_append _ _

private theorem setAll_prefix : ∀ (es : List (K × V)) (d : PDict K V), d.keys <+: (d.setAll es).keys
  | [], _ => List.prefix_refl _
  | _ :: es, d => (set_prefix d _ _).trans (setAll_prefix es _)

private theorem setAll_WF : ∀ (es : List (K × V)) (d : PDict K V), d.WF → (d.setAll es).WF
  | [], _, h => h
  | _ :: es, _, h => setAll_WF es _ (h.set _ _)

private theorem setAll_contains : ∀ (es : List (K × V)) (d : PDict K V) (kv : K × V), kv ∈ es → (d.setAll es).contains kv.1 = true
  | [], _, kv, h => by simp at h
  | a :: es, d, kv, h => by
    rw [setAll_cons, PDict.contains_iff]
    rcases List.mem_cons.1 h with rfl | h
    · refine (setAll_prefix es _).subset ?_
      rw [PDict.mem_keys_set]; exact .inl rfl
    · exact (PDict.contains_iff _ _).1 (setAll_contains es _ kv h)

private theorem setAll_keys : ∀ (es : List (K × V)) (d : PDict K V), (∀ kv ∈ es, d.contains kv.1 = true) →
    (d.setAll es).keys = d.keys
  | [], _, _ => rfl
  | a :: es, d, h => by
    have h1 := PDict.keys_set_of_mem d a.1 a.2 (h a (by simp))
    rw [setAll_cons, setAll_keys es _ (fun kv hkv => ?_), h1]
    rw [PDict.contains_iff, h1, ← PDict.contains_iff]
    exact h kv (by simp [hkv])

private theorem setAll_other : ∀ (es : List (K × V)) (d : PDict K V) (k : K), (∀ kv ∈ es, kv.1 ≠ k) →
    (d.setAll es).get? k = d.get? k
  | [], _, _, _ => rfl
  | a :: es, d, k, h => by
    rw [setAll_cons, setAll_other es _ k (fun kv hkv => h kv (by simp [hkv])), PDict.get?_set_ne _ _ (h a (by simp))]

private theorem setAll_any : ∀ (es : List (K × V)) (d d' : PDict K V) (k : K), (∃ kv ∈ es, kv.1 = k) →
    (d.setAll es).get? k = (d'.setAll es).get? k
  | [], _, _, _, h => by simp at h
  | a :: es, d, d', k, h => by
    rw [setAll_cons, setAll_cons]
    by_cases he : ∃ kv ∈ es, kv.1 = k
    · exact setAll_any es _ _ k he
    · have h1 : ∀ kv ∈ es, kv.1 ≠ k := fun kv hkv hk => he ⟨kv, hkv, hk⟩
      have h2 : a.1 = k := by
        obtain ⟨kv, hkv, hk⟩ := h
        rcases List.mem_cons.1 hkv with rfl | hkv
        · exact hk
        · exact absurd ⟨kv, hkv, hk⟩ he
      rw [setAll_other es _ k h1, setAll_other es _ k h1, h2, PDict.get?_set_self, PDict.get?_set_self]

private theorem items_ext : ∀ (l l' : List (K × V)), (l.map (·.1)).Nodup → l.map (·.1) = l'.map (·.1) →
    (∀ k, PDict.lookup l k = PDict.lookup l' k) → l = l'
  | [], [], _, _, _ => rfl
  | [], _ :: _, _, h, _ => by simp at h
  | _ :: _, [], _, h, _ => by simp at h
  | (k, v) :: l, (k', v') :: l', hn, h, hg => by
    simp only [List.map_cons, List.cons.injEq] at h
    obtain ⟨rfl, h⟩ := h
    rw [List.map_cons, List.nodup_cons] at hn
    have h1 := hg k
    simp only [PDict.lookup, if_true, Option.some.injEq] at h1
    subst h1
    refine congrArg _ (items_ext l l' hn.2 h fun k2 => ?_)
    have h2 := hg k2
    simp only [PDict.lookup] at h2
    by_cases hk : k = k2
    · subst hk
      have a1 := (PDict.get?_eq_none_iff ⟨l⟩ k).2 hn.1
      have a2 := (PDict.get?_eq_none_iff ⟨l'⟩ k).2 (show k ∉ l'.map (·.1) from h ▸ hn.1)
      exact a1.trans a2.symm
    · simpa only [if_neg hk] using h2

private theorem setAll_again (es : List (K × V)) (d : PDict K V) (hd : d.WF) : (d.setAll es).setAll es = d.setAll es := by
  have hk := setAll_keys es (d.setAll es) (setAll_contains es d)
  have h : ((d.setAll es).setAll es).items = (d.setAll es).items := by
    refine items_ext _ _ (setAll_WF es _ (setAll_WF es _ hd)) hk fun k => ?_
    by_cases he : ∃ kv ∈ es, kv.1 = k
    · exact setAll_any es _ _ k he
    · exact setAll_other es _ k fun kv hkv hk => he ⟨kv, hkv, hk⟩
  generalize (d.setAll es).setAll es = a at h
  generalize d.setAll es = b at h
  cases a; cases b; simp only at h; rw [h]

end dict

private theorem step_keys (v : Version) (m : Machine) (o : Op) : m.spinLinks.keys <+: (step v m o).1.spinLinks.keys := by
  by_cases ho : o = .addSpinnakerLinks
  · subst ho
    simp only [step]
    rw [addSpinnakerLinks_eq]
    exact setAll_prefix _ _
  · rw [step_spin ho]; exact List.prefix_refl _

private theorem step_WF (v : Version) (m : Machine) (o : Op) (h : m.spinLinks.WF) : (step v m o).1.spinLinks.WF := by
  by_cases ho : o = .addSpinnakerLinks
  · subst ho
    simp only [step]
    rw [addSpinnakerLinks_eq]
    exact setAll_WF _ _ h
  · rw [step_spin ho]; exact h

private theorem mAfter_keys (v : Version) : ∀ (steps : List MachineStep) (m : Machine),
    m.spinLinks.keys <+: (machineAfter v m steps).spinLinks.keys
  | [], _ => List.prefix_refl _
  | .next :: rest, m => mAfter_keys v rest m
  | .call o :: rest, m => (step_keys v m o).trans (mAfter_keys v rest _)

private theorem mMoments_keys (v : Version) : ∀ (steps : List MachineStep) (m : Machine), ∀ m' ∈ machineMoments v m steps,
    m.spinLinks.keys <+: m'.spinLinks.keys ∧ m'.spinLinks.keys <+: (machineAfter v m steps).spinLinks.keys
  | [], m, m', h => by simp [machineMoments] at h
  | .next :: rest, m, m', h => by
    simp only [machineMoments, List.mem_cons] at h
    rcases h with rfl | h
    · exact ⟨List.prefix_refl _, mAfter_keys v rest m'⟩
    · exact mMoments_keys v rest m m' h
  | .call o :: rest, m, m', h => by
    obtain ⟨h1, h2⟩ := mMoments_keys v rest _ m' h
    exact ⟨(step_keys v m o).trans h1, h2⟩

private theorem mMoments_count (v : Version) : ∀ (steps : List MachineStep) (m : Machine),
    (machineMoments v m steps).length = nexts steps
  | [], m => rfl
  | .next :: rest, m => by simp [machineMoments, nexts, mMoments_count v rest m]
  | .call o :: rest, m => mMoments_count v rest _

private theorem mMoments_cat (v : Version) : ∀ (a b : List MachineStep) (m : Machine),
    machineMoments v m (a ++ b) = machineMoments v m a ++ machineMoments v (machineAfter v m a) b
  | [], b, m => rfl
  | .next :: rest, b, m => by simp [machineMoments, machineAfter, mMoments_cat v rest b m]
  | .call o :: rest, b, m => mMoments_cat v rest b _

private theorem mMoments_WF (v : Version) : ∀ (steps : List MachineStep) (m : Machine), m.spinLinks.WF →
    ∀ m' ∈ machineMoments v m steps, m'.spinLinks.WF
  | [], m, _, m', h => by simp [machineMoments] at h
  | .next :: rest, m, hw, m', h => by
    simp only [machineMoments, List.mem_cons] at h
    rcases h with rfl | h
    · exact hw
    · exact mMoments_WF v rest m hw m' h
  | .call o :: rest, m, hw, m', h => mMoments_WF v rest _ (step_WF v m o hw) m' h

private theorem run_WF (v : Version) : ∀ (ops : List Op) (m : Machine), m.spinLinks.WF → (run v m ops).1.spinLinks.WF
  | [], _, h => h
  | o :: ops, m, h => run_WF v ops _ (step_WF v m o h)

private theorem reach_WF {v : Version} {w h : Int} {m : Machine} (hr : Reachable v w h m) : m.spinLinks.WF := by
  obtain ⟨o, ops, m0, h0, rfl⟩ := hr
  refine run_WF v ops m0 ?_
  have := (created_tables h0).1
  rw [this]
  exact PDict.WF_empty

private theorem same_of_prefix {α : Type} {a b : List α} (h : a <+: b) (hl : b.length = a.length) : b = a :=
  (h.eq_of_length hl.symm).symm

private theorem spin_map (m : Machine) (ms : List Machine) :
    (m.watchSpin ms).map (Reply.map (·.1)) = askDict (fun m' : Machine => m'.spinLinks.keys) (.live 0 m.spinLinks.keys.length) ms := by
  unfold Machine.watchSpin
  rw [ask_map, PDict.length_keys]
  rfl

/-- C97: as long as the machine gets no new SpiNNaker link, whatever is called meanwhile, `spinnaker_links` reads all
keys in order and then stops. -/
theorem C97_spin_quiet (v : Version) (m : Machine) (steps : List MachineStep)
    (hq : (machineAfter v m steps).spinLinks.size = m.spinLinks.size) :
    (m.watchSpin (machineMoments v m steps)).map (Reply.map (·.1)) = reads m.spinLinks.keys (nexts steps) := by
  rw [← PDict.length_keys, ← PDict.length_keys] at hq
  have hfin := same_of_prefix (mAfter_keys v steps m) hq
  have := ask_reads (entries := fun m' : Machine => m'.spinLinks.keys) m.spinLinks.keys (machineMoments v m steps) []
    (by
      intro m' hm'
      obtain ⟨h1, h2⟩ := mMoments_keys v steps m m' hm'
      refine same_of_prefix h1 ?_
      have := h1.length_le
      have := h2.length_le
      omega) (by simp)
  rw [spin_map]
  rw [List.append_nil, mMoments_count] at this
  simpa using this

/-- C97: once a call has added a SpiNNaker link, every `next()` raises `RuntimeError`, unless the iterator had stopped
before. -/
theorem C97_spin_added (v : Version) (m : Machine) (pre post : List MachineStep) (o : Op)
    (hpre : (machineAfter v m pre).spinLinks.size = m.spinLinks.size)
    (ho : (step v (machineAfter v m pre) o).1.spinLinks.size ≠ m.spinLinks.size) :
    (m.watchSpin (machineMoments v m (pre ++ .call o :: post))).map (Reply.map (·.1)) =
      reads m.spinLinks.keys (nexts pre) ++ List.replicate (nexts post)
        (if m.spinLinks.size < nexts pre then .stop else .raised .runtimeError) := by
  simp only [← PDict.length_keys] at hpre ho ⊢
  have hfin := same_of_prefix (mAfter_keys v pre m) hpre
  have := ask_reads (entries := fun m' : Machine => m'.spinLinks.keys) m.spinLinks.keys (machineMoments v m pre)
    (machineMoments v (machineAfter v m pre) (.call o :: post))
    (by
      intro m' hm'
      obtain ⟨h1, h2⟩ := mMoments_keys v pre m m' hm'
      refine same_of_prefix h1 ?_
      have := h1.length_le
      have := h2.length_le
      omega)
    (by
      intro m' hm'
      obtain ⟨h1, -⟩ := mMoments_keys v post _ m' hm'
      have h2 := h1.length_le
      have h3 := ((mAfter_keys v pre m).trans (step_keys v _ o)).length_le
      omega)
  rw [spin_map, mMoments_cat, this, mMoments_count, mMoments_count]
  rfl

/-- C97: what is read is what the machine says at that moment. -/
theorem C97_spin_values (v : Version) (w h : Int) (m : Machine) (hr : Reachable v w h m) (steps : List MachineStep)
    (n : Nat) (key : BoardKey) (i : Int) (d : SpinLinkData)
    (hg : (m.watchSpin (machineMoments v m steps))[n]? = some (.got ((key, i), d))) :
    ∃ m', (machineMoments v m steps)[n]? = some m' ∧ m'.spinLinks.get? (key, i) = some d := by
  have hw := mMoments_WF v steps m (reach_WF hr)
  unfold Machine.watchSpin at hg
  generalize machineMoments v m steps = ms at *
  generalize DictIter.live 0 m.spinLinks.size = it at *
  induction ms generalizing n it with
  | nil => simp [askDict] at hg
  | cons s ms ih =>
    cases n with
    | zero =>
      simp only [askDict, List.getElem?_cons_zero, Option.some.injEq] at hg ⊢
      refine ⟨s, rfl, ?_⟩
      have hmem : ((key, i), d) ∈ s.spinLinks.items := by
        cases it with
        | done => simp [DictIter.next] at hg
        | broken => simp [DictIter.next] at hg
        | live pos size =>
          simp only [DictIter.next] at hg
          split at hg
          · simp at hg
          · split at hg
            · rename_i a ha
              simp only [Reply.got.injEq] at hg
              subst hg
              exact List.mem_of_getElem? ha
            · simp at hg
      exact (PDict.mem_items_iff (hw s (by simp)) _ _).1 hmem
    | succ n =>
      simp only [askDict, List.getElem?_cons_succ] at hg ⊢
      exact ih n (fun m' hm' => hw m' (by simp [hm'])) _ hg

/-- C97: calling `add_spinnaker_links` again, with no other call in between, changes nothing; so it can be called while
the links are read. -/
theorem C97_spin_again (v : Version) (w h : Int) (m : Machine) (hr : Reachable v w h m) :
    (m.addSpinnakerLinks v).addSpinnakerLinks v = m.addSpinnakerLinks v := by
  have e : ∀ t : PDict (BoardKey × Int) SpinLinkData,
      spinEntries v.kind { m with spinLinks := t } m.ethernetChips = spinEntries v.kind m m.ethernetChips := by
    intro t
    unfold spinEntries
    refine congrArg (fun f => List.flatMap f m.ethernetChips) (funext fun e' => ?_)
    cases e'.ip with
    | none => rfl
    | some ip' => exact spinEntriesBoard_congr _ _ _ _ _ _
  rw [addSpinnakerLinks_eq v m, addSpinnakerLinks_eq]
  simp only [e]
  rw [setAll_again _ _ (reach_WF hr)]

private theorem step_fpga_WF (v : Version) (m : Machine) (o : Op) (h : m.fpgaLinks.WF) : (step v m o).1.fpgaLinks.WF := by
  by_cases ho : o = .addFpgaLinks
  · subst ho
    simp only [step]
    rw [addFpgaLinks_eq]
    exact setAll_WF _ _ h
  · rw [step_fpga ho]; exact h

private theorem run_fpga_WF (v : Version) : ∀ (ops : List Op) (m : Machine), m.fpgaLinks.WF → (run v m ops).1.fpgaLinks.WF
  | [], _, h => h
  | o :: ops, m, h => run_fpga_WF v ops _ (step_fpga_WF v m o h)

/-- C97: and so for `add_fpga_links`. -/
theorem C97_fpga_again (v : Version) (w h : Int) (m : Machine) (hr : Reachable v w h m) :
    (m.addFpgaLinks v).addFpgaLinks v = m.addFpgaLinks v := by
  have hwf : m.fpgaLinks.WF := by
    obtain ⟨o, ops, m0, h0, rfl⟩ := hr
    refine run_fpga_WF v ops m0 ?_
    rw [(created_tables h0).2]
    exact PDict.WF_empty
  have e : ∀ t : PDict (BoardKey × Int × Int) FpgaLinkData,
      fpgaEntries v.kind { m with fpgaLinks := t } m.ethernetChips = fpgaEntries v.kind m m.ethernetChips := fun t => rfl
  rw [addFpgaLinks_eq v m, addFpgaLinks_eq]
  simp only [e]
  rw [setAll_again _ _ hwf]

/-- a board whose links are read while `add_spinnaker_links` is called again -/
example : (match virtualMachine exV5 {} 8 8 true with
    | .ok m => decide ((m.watchSpin (machineMoments exV5 m [.next, .call .addSpinnakerLinks, .next, .next])).map
        (Reply.map (·.1)) = [.got (.addr "127.0.0.0".toList, 0), .got (.xy (0, 0), 0), .stop])
    | .error _ => false) = true := by decide +kernel

/-- a second Ethernet chip: with its links, not before, the iterator fails -/
example : let m := (run exV5 (Machine.new .full 12 12 VKind.v5.chipCoreMap "t")
      [.addChip (exChip 0 0 0 0 (some ['a'])), .addSpinnakerLinks]).1
    let pre : List MachineStep := [.next, .call (.addChip (exChip 4 8 4 8 (some ['b'])))]
    (machineAfter exV5 m pre).spinLinks.size = m.spinLinks.size ∧
    (step exV5 (machineAfter exV5 m pre) .addSpinnakerLinks).1.spinLinks.size ≠ m.spinLinks.size ∧
    m.watchSpin (machineMoments exV5 m (pre ++ .call .addSpinnakerLinks :: [.next, .next])) =
      [.got ((.addr ['a'], 0), ⟨0, 0, 0, 4, ['a']⟩), .raised .runtimeError, .raised .runtimeError] := by decide +kernel

end SpiNN.Props
