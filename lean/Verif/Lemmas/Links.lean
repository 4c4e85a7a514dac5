import Verif.Lemmas.Machine
import Verif.Lemmas.Boards

/-! Helper lemmas about the SpiNNaker and FPGA link tables. -/

namespace SpiNN
open SpiNN.Spec

namespace PDict
variable {K V : Type} [DecidableEq K]

/-- assign a list of items, one after the other -/
def setAll (d : PDict K V) (es : List (K × V)) : PDict K V := es.foldl (fun d kv => d.set kv.1 kv.2) d

theorem setAll_append (d : PDict K V) (a b : List (K × V)) : d.setAll (a ++ b) = (d.setAll a).setAll b := by
  simp [setAll]

theorem setAll_get? (es : List (K × V)) (d : PDict K V)
    (hf : ∀ k v v', (k, v) ∈ es → (k, v') ∈ es → v = v') (k : K) (v : V) :
    (d.setAll es).get? k = some v ↔ (k, v) ∈ es ∨ (d.get? k = some v ∧ ∀ v', (k, v') ∉ es) := by
  induction es generalizing d with
  | nil => simp [setAll]
  | cons a t ih =>
    obtain ⟨k1, v1⟩ := a
    have hf' : ∀ k v v', (k, v) ∈ t → (k, v') ∈ t → v = v' := fun k v v' h h' =>
      hf k v v' (List.mem_cons_of_mem _ h) (List.mem_cons_of_mem _ h')
    have := ih (d.set k1 v1) hf'
    rw [setAll] at this ⊢
    rw [List.foldl_cons, this, get?_set]
    by_cases hk : k1 = k
    · subst hk
      simp only [if_true, Option.some.injEq, List.mem_cons, Prod.mk.injEq, true_and]
      constructor
      · rintro (h | ⟨h, -⟩)
        · exact .inl (.inr h)
        · exact .inl (.inl h.symm)
      · rintro ((h | h) | ⟨-, h⟩)
        · subst h
          by_cases ht : ∃ v', (k1, v') ∈ t
          · obtain ⟨v', hv'⟩ := ht
            have := hf k1 v v' List.mem_cons_self (List.mem_cons_of_mem _ hv')
            subst this
            exact .inl hv'
          · exact .inr ⟨rfl, fun v' hv' => ht ⟨v', hv'⟩⟩
        · exact .inl h
        · exact absurd (Or.inl rfl) (h v1)
    · simp only [List.mem_cons, Prod.mk.injEq]
      rw [if_neg hk]
      have hk' : ¬ k = k1 := fun h => hk h.symm
      simp [hk']

/-- starting from an empty dict -/
theorem setAll_empty_get? {es : List (K × V)}
    (hf : ∀ k v v', (k, v) ∈ es → (k, v') ∈ es → v = v') (k : K) (v : V) :
    ((empty : PDict K V).setAll es).get? k = some v ↔ (k, v) ∈ es := by
  rw [setAll_get? es _ hf]; simp

end PDict

/-! ### SpiNNaker links -/

/-- the table entries for one row of the SpiNNaker link table -/
def spinRow (m : Machine) (e : Chip) (ip : PyStr) (i : Int) (a : Int × Int × Int) :
    List ((BoardKey × Int) × SpinLinkData) :=
  let g := m.getGlobalXY a.1 a.2.1 e.x e.y
  match m.getChipAt g.1 g.2 with
  | some c => if ¬ c.router.isLink a.2.2 then
      [((.addr ip, i), ⟨i, g.1, g.2, a.2.2, ip⟩), ((.xy (g.1, g.2), i), ⟨i, g.1, g.2, a.2.2, ip⟩)] else []
  | none => []

/-- the entries of a board -/
def spinEntriesBoard (m : Machine) (e : Chip) (ip : PyStr) : Int → List (Int × Int × Int) →
    List ((BoardKey × Int) × SpinLinkData)
  | _, [] => []
  | i, a :: rest => spinRow m e ip i a ++ spinEntriesBoard m e ip (i + 1) rest

/-- the entries of all boards -/
def spinEntries (k : VKind) (m : Machine) (es : List Chip) : List ((BoardKey × Int) × SpinLinkData) :=
  es.flatMap fun e => match e.ip with
    | some ip => spinEntriesBoard m e ip 0 k.spinnakerLinks
    | none => []

theorem spinEntriesBoard_congr (m : Machine) (t : PDict (BoardKey × Int) SpinLinkData) (e : Chip)
    (ip : PyStr) (i : Int) (l : List (Int × Int × Int)) :
    spinEntriesBoard { m with spinLinks := t } e ip i l = spinEntriesBoard m e ip i l := by
  induction l generalizing i with
  | nil => rfl
  | cons a r ih => simp only [spinEntriesBoard, ih]; rfl

theorem addSpinnakerLinksBoard_eq (m : Machine) (e : Chip) (ip : PyStr) (i : Int)
    (l : List (Int × Int × Int)) :
    Machine.addSpinnakerLinksBoard e ip i l m =
      { m with spinLinks := m.spinLinks.setAll (spinEntriesBoard m e ip i l) } := by
  induction l generalizing i m with
  | nil => rfl
  | cons a r ih =>
    obtain ⟨lx, ly, link⟩ := a
    simp only [Machine.addSpinnakerLinksBoard]
    rw [ih]
    simp only [spinEntriesBoard, PDict.setAll_append]
    unfold spinRow
    simp only
    cases m.getChipAt (m.getGlobalXY lx ly e.x e.y).1 (m.getGlobalXY lx ly e.x e.y).2 with
    | none => rfl
    | some c =>
      simp only
      split
      · simp only [Machine.addSpinnakerLink, spinEntriesBoard_congr]
        rfl
      · rfl

theorem addSpinnakerLinks_eq (v : Version) (m : Machine) :
    m.addSpinnakerLinks v = { m with spinLinks := m.spinLinks.setAll (spinEntries v.kind m m.ethernetChips) } := by
  unfold Machine.addSpinnakerLinks
  suffices h : ∀ (es : List Chip) (m : Machine), (es.foldl (fun m e => match e.ip with
      | some ip => Machine.addSpinnakerLinksBoard e ip 0 v.kind.spinnakerLinks m
      | none => m) m) = { m with spinLinks := m.spinLinks.setAll (spinEntries v.kind m es) } from h _ m
  intro es
  induction es with
  | nil => intro m; rfl
  | cons e es ih =>
    intro m
    rw [List.foldl_cons, ih]
    simp only [spinEntries, List.flatMap_cons, PDict.setAll_append]
    cases e.ip with
    | none => simp [PDict.setAll]
    | some ip =>
      simp only [addSpinnakerLinksBoard_eq]
      congr 2
      refine congrArg (fun f => List.flatMap f es) (funext fun e' => ?_)
      cases e'.ip with
      | none => rfl
      | some ip' => exact spinEntriesBoard_congr _ _ _ _ _ _

theorem mem_spinEntriesBoard (m : Machine) (e : Chip) (ip : PyStr) (i : Int) (l : List (Int × Int × Int))
    (x : (BoardKey × Int) × SpinLinkData) :
    x ∈ spinEntriesBoard m e ip i l ↔ ∃ (n : Nat) (a : Int × Int × Int), l[n]? = some a ∧
      x ∈ spinRow m e ip (i + n) a := by
  induction l generalizing i with
  | nil => simp [spinEntriesBoard]
  | cons a r ih =>
    simp only [spinEntriesBoard, List.mem_append, ih]
    constructor
    · rintro (h | ⟨n, b, hn, hb⟩)
      · exact ⟨0, a, rfl, by simpa using h⟩
      · refine ⟨n + 1, b, by simpa using hn, ?_⟩
        have : i + 1 + (n : Int) = i + ((n + 1 : Nat) : Int) := by omega
        rwa [this] at hb
    · rintro ⟨n, b, hn, hb⟩
      cases n with
      | zero =>
        simp only [List.getElem?_cons_zero, Option.some.injEq] at hn
        subst hn
        exact .inl (by simpa using hb)
      | succ n =>
        refine .inr ⟨n, b, by simpa using hn, ?_⟩
        have : i + 1 + (n : Int) = i + ((n + 1 : Nat) : Int) := by omega
        rwa [this]

/-! ### FPGA links -/

/-- the table entries for one row of the FPGA link table -/
def fpgaRow (m : Machine) (e : Chip) (ip : PyStr) (a : Int × Int × Int × Int × Int) :
    List ((BoardKey × Int × Int) × FpgaLinkData) :=
  let g := m.getGlobalXY a.1 a.2.1 e.x e.y
  match m.getChipAt g.1 g.2 with
  | some c =>
      [((.addr ip, a.2.2.2.1, a.2.2.2.2), ⟨a.2.2.2.2, a.2.2.2.1, c.x, c.y, a.2.2.1, ip⟩),
       ((.xy (c.x, c.y), a.2.2.2.1, a.2.2.2.2), ⟨a.2.2.2.2, a.2.2.2.1, c.x, c.y, a.2.2.1, ip⟩),
       ((.xy (e.x, e.y), a.2.2.2.1, a.2.2.2.2), ⟨a.2.2.2.2, a.2.2.2.1, c.x, c.y, a.2.2.1, ip⟩)]
  | none => []

/-- the entries of all boards -/
def fpgaEntries (k : VKind) (m : Machine) (es : List Chip) : List ((BoardKey × Int × Int) × FpgaLinkData) :=
  es.flatMap fun e => match e.ip with
    | some ip => k.fpgaLinks.flatMap (fpgaRow m e ip)
    | none => []

theorem addFpgaLinksBoard_eq (m : Machine) (e : Chip) (ip : PyStr)
    (l : List (Int × Int × Int × Int × Int)) :
    Machine.addFpgaLinksBoard e ip l m =
      { m with fpgaLinks := m.fpgaLinks.setAll (l.flatMap (fpgaRow m e ip)) } := by
  induction l generalizing m with
  | nil => rfl
  | cons a r ih =>
    obtain ⟨lx, ly, link, f, fl⟩ := a
    simp only [Machine.addFpgaLinksBoard]
    rw [ih]
    simp only [List.flatMap_cons, PDict.setAll_append]
    have : ∀ t, fpgaRow { m with fpgaLinks := t } e ip = fpgaRow m e ip := fun t => rfl
    conv => rhs; unfold fpgaRow
    simp only
    cases m.getChipAt (m.getGlobalXY lx ly e.x e.y).1 (m.getGlobalXY lx ly e.x e.y).2 with
    | none => rfl
    | some c =>
      simp only [Machine.addFpgaLink, this]
      rfl

theorem addFpgaLinks_eq (v : Version) (m : Machine) :
    m.addFpgaLinks v = { m with fpgaLinks := m.fpgaLinks.setAll (fpgaEntries v.kind m m.ethernetChips) } := by
  unfold Machine.addFpgaLinks
  suffices h : ∀ (es : List Chip) (m : Machine), (es.foldl (fun m e => match e.ip with
      | some ip => Machine.addFpgaLinksBoard e ip v.kind.fpgaLinks m
      | none => m) m) = { m with fpgaLinks := m.fpgaLinks.setAll (fpgaEntries v.kind m es) } from h _ m
  intro es
  induction es with
  | nil => intro m; rfl
  | cons e es ih =>
    intro m
    rw [List.foldl_cons, ih]
    simp only [fpgaEntries, List.flatMap_cons, PDict.setAll_append]
    cases e.ip with
    | none => simp [PDict.setAll]
    | some ip =>
      simp only [addFpgaLinksBoard_eq]
      rfl

end SpiNN
