import Verif.Py.Basic

set_option linter.unusedSectionVars false

namespace SpiNN
namespace PDict
variable {K V : Type} [DecidableEq K]

/-- no key occurs twice; holds of every dict built from the empty one by assignments -/
def WF (d : PDict K V) : Prop := d.keys.Nodup

theorem lookup_assign (l : List (K × V)) (k k' : K) (v : V) :
    lookup (assign l k v) k' = if k = k' then some v else lookup l k' := by
  induction l with
  | nil => simp [assign, lookup]
  | cons a t ih =>
    obtain ⟨k₀, v₀⟩ := a
    simp only [assign]
    split
    · rename_i h; subst h
      simp only [lookup]; split <;> simp_all
    · simp only [lookup, ih]
      split <;> split <;> simp_all

theorem get?_set (d : PDict K V) (k k' : K) (v : V) :
    (d.set k v).get? k' = if k = k' then some v else d.get? k' := lookup_assign _ _ _ _

theorem get?_set_self (d : PDict K V) (k : K) (v : V) : (d.set k v).get? k = some v := by
  simp [get?_set]

theorem get?_set_ne (d : PDict K V) {k k' : K} (v : V) (h : k ≠ k') :
    (d.set k v).get? k' = d.get? k' := by simp [get?_set, h]

@[simp] theorem get?_empty (k : K) : (empty : PDict K V).get? k = none := rfl
@[simp] theorem contains_empty (k : K) : (empty : PDict K V).contains k = false := rfl
@[simp] theorem keys_empty : (empty : PDict K V).keys = [] := rfl
@[simp] theorem values_empty : (empty : PDict K V).values = [] := rfl
@[simp] theorem items_empty : (empty : PDict K V).items = [] := rfl

theorem contains_set (d : PDict K V) (k k' : K) (v : V) :
    (d.set k v).contains k' = (decide (k = k') || d.contains k') := by
  simp only [contains, get?_set]; split <;> simp_all

theorem lookup_isSome_iff (l : List (K × V)) (k : K) :
    (lookup l k).isSome ↔ k ∈ l.map (·.1) := by
  induction l with
  | nil => simp [lookup]
  | cons a t ih =>
    obtain ⟨k₀, v₀⟩ := a
    simp only [lookup, List.map_cons, List.mem_cons]
    split
    · simp_all
    · rename_i h
      simp only [ih]
      constructor
      · exact .inr
      · rintro (rfl | h') <;> simp_all

theorem contains_iff (d : PDict K V) (k : K) : d.contains k = true ↔ k ∈ d.keys :=
  lookup_isSome_iff _ _

theorem get?_eq_none_iff (d : PDict K V) (k : K) : d.get? k = none ↔ k ∉ d.keys := by
  rw [← contains_iff, contains]
  cases d.get? k <;> simp

theorem contains_false_iff (d : PDict K V) (k : K) : d.contains k = false ↔ k ∉ d.keys := by
  rw [← contains_iff]; simp

theorem lookup_mem {l : List (K × V)} {k : K} {v : V} (h : lookup l k = some v) : (k, v) ∈ l := by
  induction l with
  | nil => simp [lookup] at h
  | cons a t ih =>
    obtain ⟨k₀, v₀⟩ := a
    simp only [lookup] at h
    split at h
    · simp_all
    · exact List.mem_cons_of_mem _ (ih h)

theorem get?_mem {d : PDict K V} {k : K} {v : V} (h : d.get? k = some v) : (k, v) ∈ d.items :=
  lookup_mem h

theorem lookup_of_mem {l : List (K × V)} (hn : (l.map (·.1)).Nodup) {k : K} {v : V}
    (h : (k, v) ∈ l) : lookup l k = some v := by
  induction l with
  | nil => simp at h
  | cons a t ih =>
    obtain ⟨k₀, v₀⟩ := a
    simp only [List.map_cons, List.nodup_cons] at hn
    simp only [lookup]
    rw [List.mem_cons] at h
    rcases h with h | h
    · simp at h; simp [h]
    · split
      · rename_i heq; subst heq
        exact absurd (List.mem_map_of_mem (f := (·.1)) h) hn.1
      · exact ih hn.2 h

theorem mem_items_iff {d : PDict K V} (hd : d.WF) (k : K) (v : V) :
    (k, v) ∈ d.items ↔ d.get? k = some v :=
  ⟨lookup_of_mem hd, lookup_mem⟩

theorem mem_values_iff {d : PDict K V} (hd : d.WF) (v : V) :
    v ∈ d.values ↔ ∃ k, d.get? k = some v := by
  simp only [values, List.mem_map, Prod.exists]
  constructor
  · rintro ⟨k, v', h, rfl⟩; exact ⟨k, (mem_items_iff hd _ _).1 h⟩
  · rintro ⟨k, h⟩; exact ⟨k, v, get?_mem h, rfl⟩

theorem mem_keys_iff {d : PDict K V} (k : K) : k ∈ d.keys ↔ ∃ v, d.get? k = some v := by
  rw [← contains_iff, contains, Option.isSome_iff_exists]

theorem assign_of_not_mem (l : List (K × V)) (k : K) (v : V) (h : k ∉ l.map (·.1)) :
    assign l k v = l ++ [(k, v)] := by
  induction l with
  | nil => rfl
  | cons a t ih =>
    obtain ⟨k₀, v₀⟩ := a
    simp only [List.map_cons, List.mem_cons, not_or] at h
    simp only [assign, List.cons_append]
    rw [if_neg (fun h' => h.1 h'.symm), ih h.2]

theorem set_of_not_contains (d : PDict K V) (k : K) (v : V) (h : d.contains k = false) :
    d.set k v = ⟨d.items ++ [(k, v)]⟩ := by
  rw [contains_false_iff] at h
  simp only [set]
  rw [assign_of_not_mem _ _ _ h]

theorem assign_keys_of_mem (l : List (K × V)) (k : K) (v : V) (h : k ∈ l.map (·.1)) :
    (assign l k v).map (·.1) = l.map (·.1) := by
  induction l with
  | nil => simp at h
  | cons a t ih =>
    obtain ⟨k₀, v₀⟩ := a
    simp only [assign]
    split
    · simp
    · rename_i hne
      simp only [List.map_cons, List.mem_cons] at h ⊢
      rcases h with h | h
      · exact absurd h.symm hne
      · rw [ih h]

theorem keys_set_of_mem (d : PDict K V) (k : K) (v : V) (h : d.contains k = true) :
    (d.set k v).keys = d.keys := assign_keys_of_mem _ _ _ ((contains_iff d k).1 h)

theorem keys_set_of_not_mem (d : PDict K V) (k : K) (v : V) (h : d.contains k = false) :
    (d.set k v).keys = d.keys ++ [k] := by
  rw [set_of_not_contains _ _ _ h]; simp [keys]

theorem values_set_of_not_mem (d : PDict K V) (k : K) (v : V) (h : d.contains k = false) :
    (d.set k v).values = d.values ++ [v] := by
  rw [set_of_not_contains _ _ _ h]; simp [values]

theorem WF_empty : (empty : PDict K V).WF := by simp [WF]

theorem WF.set {d : PDict K V} (hd : d.WF) (k : K) (v : V) : (d.set k v).WF := by
  unfold WF
  cases h : d.contains k
  · rw [keys_set_of_not_mem _ _ _ h]
    rw [contains_false_iff] at h
    rw [List.nodup_append]
    refine ⟨hd, by simp, ?_⟩
    intro a ha b hb
    simp at hb; subst hb
    intro h'; subst h'; exact h ha
  · rw [keys_set_of_mem _ _ _ h]; exact hd

theorem mem_keys_set (d : PDict K V) (k k' : K) (v : V) :
    k' ∈ (d.set k v).keys ↔ k' = k ∨ k' ∈ d.keys := by
  rw [← contains_iff, ← contains_iff, contains_set, Bool.or_eq_true, decide_eq_true_iff]
  exact or_congr_left eq_comm

theorem WF_ofList (l : List (K × V)) : (ofList l).WF := by
  unfold ofList
  have : ∀ (l : List (K × V)) (d : PDict K V), d.WF →
      (l.foldl (fun d kv => d.set kv.1 kv.2) d).WF := by
    intro l
    induction l with
    | nil => intro d h; exact h
    | cons a t ih => intro d h; exact ih _ (h.set _ _)
  exact this l _ WF_empty

theorem getE_eq_ok_iff (d : PDict K V) (k : K) (v : V) : d.getE k = .ok v ↔ d.get? k = some v := by
  unfold getE; split <;> simp_all

theorem getE_error (d : PDict K V) (k : K) (h : d.get? k = none) : d.getE k = .error .keyError := by
  simp [getE, h]

theorem length_keys (d : PDict K V) : d.keys.length = d.size := by simp [keys, size]
theorem length_values (d : PDict K V) : d.values.length = d.size := by simp [values, size]

end PDict
end SpiNN
