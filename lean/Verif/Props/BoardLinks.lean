import Verif.Spec.BoardLinks
import Verif.Props.Shift
import Verif.Props.VirtualMachine
import Verif.Lemmas.Counts

/-! C107: how many links a machine has. -/

namespace SpiNN.Props
open SpiNN SpiNN.Spec

/-- the side a link of a chip leaves the board by -/
def sideOf (l : XY) (d : Dir) : Option XY :=
  if OnBoard48 (l.1 + d.dx, l.2 + d.dy) then none
  else boardsAround.find? fun o => decide (OnBoard48 (l.1 + d.dx - o.1, l.2 + d.dy - o.2))

private theorem side_tab : ∀ x : Fin 8, ∀ y : Fin 8, ∀ d ∈ allDirs,
    OnBoard48 (((x : Nat) : Int), ((y : Nat) : Int)) →
    ¬ OnBoard48 (((x : Nat) : Int) + d.dx, ((y : Nat) : Int) + d.dy) →
    ∃ o ∈ boardsAround, sideOf (((x : Nat) : Int), ((y : Nat) : Int)) d = some o ∧
      OnBoard48 (((x : Nat) : Int) + d.dx - o.1, ((y : Nat) : Int) + d.dy - o.2) := by decide +kernel

private theorem side_spec {l : XY} (hl : OnBoard48 l) (d : Dir)
    (hd : ¬ OnBoard48 (l.1 + d.dx, l.2 + d.dy)) :
    ∃ o ∈ boardsAround, sideOf l d = some o ∧ OnBoard48 (l.1 + d.dx - o.1, l.2 + d.dy - o.2) := by
  have := hl
  obtain ⟨x, y⟩ := l
  obtain ⟨h0, h1, h2, h3, -⟩ := this
  have := side_tab ⟨x.toNat, by simp only at *; omega⟩ ⟨y.toNat, by simp only at *; omega⟩ d (mem_allDirs d)
  simp only at *
  rw [Int.toNat_of_nonneg h0, Int.toNat_of_nonneg h2] at this
  exact this hl hd

/-- each side has eight links, and 240 link ends stay on the board -/
private theorem side_counts (k : VKind) (hk : k = .v5 ∨ k = .v248) :
    ((k.chipCoreMap.items.map (·.1)).flatMap fun l => allDirs.map (sideOf l)).Perm
      (List.replicate 240 none ++ boardsAround.flatMap fun o => List.replicate 8 (some o)) := by
  rcases hk with rfl | rfl <;> decide +kernel

theorem around_lattice : ∀ o ∈ boardsAround, EthLattice o := by
  intro o ho
  simp only [boardsAround, List.mem_cons, List.not_mem_nil, or_false] at ho
  rcases ho with rfl | rfl | rfl | rfl | rfl | rfl
  · exact ⟨0, 0, .inr (.inr rfl)⟩
  · exact ⟨0, 0, .inr (.inl rfl)⟩
  · exact ⟨-1, 0, .inr (.inr rfl)⟩
  · exact ⟨-1, -1, .inr (.inl rfl)⟩
  · exact ⟨-1, -1, .inr (.inr rfl)⟩
  · exact ⟨0, -1, .inr (.inl rfl)⟩

private theorem place_eq (wr : Wrap) {w h : Int} (hw : 0 < w) (hh : 0 < h) (p : XY) :
    placeOn wr w h p = wr.red w h p := by
  cases wr <;> simp [placeOn, Wrap.red, wrapsX, wrapsY, pmod_eq_emod, hw, hh]

/-- whether the place a link leads to is on some board -/
theorem target_iff {k : VKind} (hk : k = .v5 ∨ k = .v248) {w h : Int} (hs : SizeOK k w h) {e l : XY}
    (he : e ∈ k.potentialEthernetChips w h) (hl : OnBoard48 l) (d : Dir) :
    (∃ f ∈ k.potentialEthernetChips w h, BoardAt k (k.wrapFor w h) w h f
      ((k.wrapFor w h).red w h (((k.wrapFor w h).red w h (l.1 + e.1, l.2 + e.2)).1 + d.dx,
        ((k.wrapFor w h).red w h (l.1 + e.1, l.2 + e.2)).2 + d.dy))) ↔
    ∀ o, sideOf l d = some o →
      placeOn (k.wrapFor w h) w h (e.1 + o.1, e.2 + o.2) ∈ k.potentialEthernetChips w h := by
  have hpos := hs.pos
  have hon : ∀ p, OnBoard k p ↔ OnBoard48 p := by rcases hk with rfl | rfl <;> exact fun p => Iff.rfl
  have hlat : ∀ p, EthPos k p ↔ EthLattice p := by rcases hk with rfl | rfl <;> exact fun p => Iff.rfl
  have hwr : k.wrapFor w h = VKind.v5.wrapFor w h := by rcases hk with rfl | rfl <;> rfl
  rw [Wrap.red_red_add _ hpos.1 hpos.2]
  simp only [BoardAt, hon, Wrap.red_inRange _ hpos.1 hpos.2, true_and]
  simp only [← Wrap.red_eq_iff _ hpos.1 hpos.2 (Wrap.red_inRange _ hpos.1 hpos.2 _)]
  by_cases hd : OnBoard48 (l.1 + d.dx, l.2 + d.dy)
  · have hside : sideOf l d = none := by unfold sideOf; rw [if_pos hd]
    rw [hside]
    refine ⟨fun _ _ h => (nomatch h), fun _ => ⟨e, he, _, hd, ?_⟩⟩
    exact congrArg _ (Prod.ext (by simp only; omega) (by simp only; omega))
  · obtain ⟨o, ho, hside, hl'⟩ := side_spec hl d hd
    rw [hside]
    simp only [Option.some.injEq, forall_eq', place_eq _ hpos.1 hpos.2]
    constructor
    · rintro ⟨f, hf, l', hon', heq⟩
      obtain ⟨a, b, h1, h2, h3, h4⟩ := red_diff _ hpos.1 hpos.2 heq
      simp only at h1 h2
      have hf' := (mem_potential_iff hs f).1 hf
      have he' := (mem_potential_iff hs e).1 he
      obtain ⟨m1, m2⟩ : 12 ∣ a * w ∧ 12 ∣ b * h := by
        have hw5 := wrapFor_spec .v5 w h
        rw [hwr] at h3 h4
        constructor
        · by_cases hx : wrapsX (VKind.v5.wrapFor w h)
          · exact Int.dvd_trans (hw5.1.1 hx) (Int.dvd_mul_left _ _)
          · rw [h3 hx]; simp
        · by_cases hy : wrapsY (VKind.v5.wrapFor w h)
          · exact Int.dvd_trans (hw5.2.1 hy) (Int.dvd_mul_left _ _)
          · rw [h4 hy]; simp
      have e1 := lattice_mod (lattice_add ((hlat _).1 he'.1) (around_lattice o ho)) m1 m2
      obtain ⟨q1, -⟩ := lattice_unique ((hlat _).1 hf'.1) e1 hon' hl' (by simp only; omega) (by simp only; omega)
      have hg := hf'.2.1
      have hin : InRange (k.wrapFor w h) w h f := ⟨fun _ => ⟨hg.1, hg.2.1⟩, fun _ => ⟨hg.2.2.1, hg.2.2.2⟩⟩
      rw [(Wrap.red_eq_iff _ hpos.1 hpos.2 hin).2]
      · exact hf
      · rw [q1]
        unfold Same
        constructor
        · split
          · exact ⟨-a, by rw [Int.neg_mul]; simp only; omega⟩
          · rename_i hx; rw [h3 hx]; simp
        · split
          · exact ⟨-b, by rw [Int.neg_mul]; simp only; omega⟩
          · rename_i hx; rw [h4 hx]; simp
    · intro hf
      refine ⟨_, hf, _, hl', ?_⟩
      rw [Wrap.red_red_add _ hpos.1 hpos.2]
      exact congrArg _ (Prod.ext (by simp only; omega) (by simp only; omega))

private theorem sum_flatMap {α β : Type} (es : List α) (f : α → List β) (F : β → Int) (g : α → Int)
    (h : ∀ e ∈ es, ((f e).map F).sum = g e) : ((es.flatMap f).map F).sum = (es.map g).sum := by
  induction es with
  | nil => rfl
  | cons e t ih =>
    rw [List.flatMap_cons, List.map_append, List.sum_append, h e (by simp), ih fun e' he' => h e' (by simp [he']),
      List.map_cons, List.sum_cons]

private theorem sum_countP {α β γ : Type} (ls : List α) (ds : List β) (s : α → β → γ) (p : γ → Bool) :
    (ls.map fun l => ((ds.countP fun d => p (s l d) : Nat) : Int)).sum =
      (((ls.flatMap fun l => ds.map (s l)).countP p : Nat) : Int) := by
  induction ls with
  | nil => rfl
  | cons l t ih =>
    rw [List.map_cons, List.sum_cons, ih, List.flatMap_cons, List.countP_append, List.countP_map, Int.natCast_add]
    rfl

private theorem countP_sides (os : List XY) (p : Option XY → Bool) :
    (os.flatMap fun o => List.replicate 8 (some o)).countP p = 8 * os.countP fun o => p (some o) := by
  induction os with
  | nil => rfl
  | cons o t ih =>
    rw [List.flatMap_cons, List.countP_append, ih, List.countP_replicate, List.countP_cons]
    split <;> omega

/-- C107: a machine of 48-chip boards without down chips or links has 120 links on each board and 4 for every
side of a board with a board next to it (each link between two boards counted from both). -/
theorem C107_links (v : Version) (hk : v.kind = .v5 ∨ v.kind = .v248) (cfg : DownCfg) (w h : Int)
    (validate : Bool) (m : Machine) (hm : virtualMachine v cfg w h validate = .ok m)
    (hnc : ∀ p, ¬ ChipDown cfg p) (hnl : ∀ p i, ¬ LinkDown cfg p i) :
    m.getLinksCount = ((120 * ((v.kind.potentialEthernetChips w h).length : Int) +
      4 * ((v.kind.potentialEthernetChips w h).map fun e =>
        (sidesWithBoard m.wrap w h (v.kind.potentialEthernetChips w h) e : Int)).sum : Int) : Rat) := by
  obtain ⟨hs, hr, hwr, hw, hh, hcc, r, d0, hd0, hcl⟩ := vm_facts hm
  obtain ⟨-, d', hd', -, -, ⟨o, ho, hrun⟩, -⟩ := vm_ok hm
  obtain ⟨d, hd, hall⟩ := vm_all_chips hm hnc
  have hpos := hs.pos
  have hcount := C19_links_count_partial v _ _ "Virtual" o ho
    [.addChips (vmChips v w h d'), .addSpinnakerLinks, .addFpgaLinks] (by simp [Op.isAddLink])
  rw [← hrun] at hcount
  have hon : ∀ p, OnBoard v.kind p ↔ OnBoard48 p := by rcases hk with hk | hk <;> rw [hk] <;> exact fun p => Iff.rfl
  have hkeys : ∀ q, q ∈ (vmEntries v w h d).map (·.1) ↔ ∃ e ∈ v.kind.potentialEthernetChips w h,
      BoardAt v.kind (v.kind.wrapFor w h) w h e q := by
    intro q
    rw [mem_vm_keys hs d q]
    exact and_iff_right fun h => hnc _ (((down_spec hs hd).1 _).1 h)
  have hsum : (m.chipList.map fun c => (c.router.linkList.length : Int)).sum =
      ((v.kind.potentialEthernetChips w h).map fun e =>
        240 + 8 * (sidesWithBoard m.wrap w h (v.kind.potentialEthernetChips w h) e : Int)).sum := by
    rw [hall, List.map_map, vmPlaces]
    refine sum_flatMap _ _ _ _ fun e he => ?_
    rw [List.map_map]
    have hone : ∀ ln ∈ v.kind.chipCoreMap.items,
        (((fun c => (c.router.linkList.length : Int)) ∘ vmChip v w h d) ∘ fun ln : XY × Int =>
          ((v.kind.wrapFor w h).red w h (ln.1.1 + e.1, ln.1.2 + e.2), (e, min ln.2 v.maxCores))) ln =
        ((allDirs.countP fun dir => (fun s : Option XY => decide (∀ o, s = some o →
          placeOn (v.kind.wrapFor w h) w h (e.1 + o.1, e.2 + o.2) ∈ v.kind.potentialEthernetChips w h))
            (sideOf ln.1 dir) : Nat) : Int) := by
      intro ln hln
      have hl : OnBoard48 ln.1 := (hon _).1 ((mem_chipCoreMap_iff _ _).1
        (List.mem_map_of_mem (f := fun q : XY × Int => q.1) hln))
      have hlen : (vmLinks v w h d ((v.kind.wrapFor w h).red w h (ln.1.1 + e.1, ln.1.2 + e.2))).length =
          allDirs.countP fun dir => (fun s : Option XY => decide (∀ o, s = some o →
            placeOn (v.kind.wrapFor w h) w h (e.1 + o.1, e.2 + o.2) ∈ v.kind.potentialEthernetChips w h))
            (sideOf ln.1 dir) := by
        unfold vmLinks
        rw [List.length_filterMap_eq_countP]
        refine List.countP_congr fun dir _ => ?_
        have hgrid : InGrid w h ((v.kind.wrapFor w h).red w h (ln.1.1 + e.1, ln.1.2 + e.2)) := by
          refine vm_inGrid hs d ((hkeys _).2 ⟨e, he, Wrap.red_inRange _ hpos.1 hpos.2 _, ln.1, (hon _).2 hl, ?_⟩)
          rw [← Wrap.red_eq_iff _ hpos.1 hpos.2 (Wrap.red_inRange _ hpos.1 hpos.2 _)]
          exact congrArg _ (Prod.ext (by simp only; omega) (by simp only; omega))
        have hnd : (((v.kind.wrapFor w h).red w h (ln.1.1 + e.1, ln.1.2 + e.2)).1,
            ((v.kind.wrapFor w h).red w h (ln.1.1 + e.1, ln.1.2 + e.2)).2, dir.id) ∉ d.links := by
          rw [(down_spec hs hd).2.2 _ dir hgrid]
          rintro (h | h)
          · exact hnl _ _ h
          · unfold Unwired at h
            rcases hk with hk | hk <;> rw [hk] at h <;> simp at h
        simp only [decide_eq_true_eq, ← target_iff hk hs he hl dir, ← hkeys]
        constructor
        · intro h'
          apply Classical.byContradiction
          intro hn
          rw [if_neg fun h2 => hn h2.2] at h'
          cases h'
        · intro h'
          rw [if_pos ⟨hnd, h'⟩]
          rfl
      simp only [Function.comp, vmChip, Chip.mk', Router.linkList, PDict.values, List.length_map, hlen]
    rw [List.map_congr_left hone]
    have hp := (side_counts v.kind hk).countP_eq fun s : Option XY => decide (∀ o, s = some o →
      placeOn (v.kind.wrapFor w h) w h (e.1 + o.1, e.2 + o.2) ∈ v.kind.potentialEthernetChips w h)
    have := sum_countP (v.kind.chipCoreMap.items.map (·.1)) allDirs sideOf fun s : Option XY =>
      decide (∀ o, s = some o →
        placeOn (v.kind.wrapFor w h) w h (e.1 + o.1, e.2 + o.2) ∈ v.kind.potentialEthernetChips w h)
    rw [List.map_map] at this
    refine Eq.trans this ?_
    rw [hp, List.countP_append, countP_sides, List.countP_replicate, hwr]
    simp [sidesWithBoard]
  have hdouble : ∀ (es : List XY) (g : XY → Int), (es.map fun e => 240 + 8 * g e).sum =
      2 * (120 * (es.length : Int) + 4 * (es.map g).sum) := by
    intro es g
    induction es with
    | nil => rfl
    | cons x t ih => simp only [List.map_cons, List.sum_cons, List.length_cons, ih]; omega
  rw [hcount, hsum, hdouble _ fun e => (sidesWithBoard m.wrap w h (v.kind.potentialEthernetChips w h) e : Int)]
  rw [Rat.intCast_mul]
  grind

/-- the length of an axis of `n` triads, wrapped or open -/
def axis (wr : Bool) (n : Nat) : Int := if wr then 12 * (n : Int) else 12 * (n : Int) + 4

/-- there is room for a board at this coordinate -/
def room (wr : Bool) (n : Nat) (x : Int) : Bool := wr || decide (0 ≤ x ∧ x ≤ 12 * (n : Int) - 4)

def starts (n : Nat) (r : Int) : List Int := (List.range n).map fun (i : Nat) => r + 12 * (i : Int)

private theorem range_count (n : Nat) (c : Int) (h4 : 4 ∣ c) (h1 : -12 ≤ c) (h2 : c ≤ 20) :
    (List.range n).countP (fun (i : Nat) => decide (0 ≤ c + 12 * (i : Int) ∧ c + 12 * (i : Int) ≤ 12 * (n : Int) - 4)) =
      if 0 ≤ c ∧ c ≤ 8 then n else n - 1 := by
  cases n with
  | zero => simp
  | succ n =>
    split
    · rename_i hc
      have := (List.countP_eq_length (l := List.range (n + 1)) (p := fun i : Nat =>
        decide (0 ≤ c + 12 * (i : Int) ∧ c + 12 * (i : Int) ≤ 12 * ((n + 1 : Nat) : Int) - 4))).2 (by
          intro i hi
          rw [List.mem_range] at hi
          simp only [decide_eq_true_eq]
          omega)
      rw [this, List.length_range]
    · rename_i hc
      by_cases hn : c < 0
      · rw [List.range_succ_eq_map, List.countP_cons_of_neg (by simp only [decide_eq_true_eq]; omega),
          List.countP_map]
        have := (List.countP_eq_length (l := List.range n) (p := (fun i : Nat =>
          decide (0 ≤ c + 12 * (i : Int) ∧ c + 12 * (i : Int) ≤ 12 * ((n + 1 : Nat) : Int) - 4)) ∘ Nat.succ)).2 (by
            intro i hi
            rw [List.mem_range] at hi
            simp only [Function.comp, decide_eq_true_eq]
            omega)
        rw [this, List.length_range]
        rfl
      · rw [List.range_succ, List.countP_append, List.countP_singleton, if_neg (by
          simp only [decide_eq_true_eq]; omega)]
        have := (List.countP_eq_length (l := List.range n) (p := fun i : Nat =>
          decide (0 ≤ c + 12 * (i : Int) ∧ c + 12 * (i : Int) ≤ 12 * ((n + 1 : Nat) : Int) - 4))).2 (by
            intro i hi
            rw [List.mem_range] at hi
            simp only [decide_eq_true_eq]
            omega)
        rw [this, List.length_range]
        omega

theorem starts_count (wr : Bool) (n : Nat) (r o : Int) (h4 : 4 ∣ r + o) (h1 : -12 ≤ r + o) (h2 : r + o ≤ 20) :
    (starts n r).countP (fun x => room wr n (x + o)) = if wr = true ∨ (0 ≤ r + o ∧ r + o ≤ 8) then n else n - 1 := by
  unfold starts
  rw [List.countP_map]
  cases wr with
  | true => simp [room, Function.comp_def]
  | false =>
    simp only [room, Bool.false_or, Function.comp_def, Bool.false_eq_true, false_or]
    rw [← range_count n (r + o) h4 h1 h2]
    congr 1
    funext i
    congr 1
    rw [show r + 12 * (i : Int) + o = r + o + 12 * (i : Int) by omega]

theorem grid_count (xs ys : List Int) (P Q : Int → Bool) :
    (ys.flatMap fun y => xs.map fun x => ((x, y) : XY)).countP (fun e => P e.1 && Q e.2) =
      ys.countP Q * xs.countP P := by
  induction ys with
  | nil => simp
  | cons y t ih =>
    rw [List.flatMap_cons, List.countP_append, ih, List.countP_map, List.countP_cons]
    simp only [Function.comp_def]
    cases hq : Q y <;> simp [Nat.add_mul, Nat.add_comm]

private theorem swap_count {α β : Type} (es : List α) (os : List β) (p : α → β → Bool) :
    (es.map fun e => ((os.countP fun o => p e o : Nat) : Int)).sum =
      (os.map fun o => ((es.countP fun e => p e o : Nat) : Int)).sum := by
  induction es with
  | nil => induction os with
    | nil => rfl
    | cons o u ih => simpa using ih
  | cons e t ih =>
    rw [List.map_cons, List.sum_cons, ih]
    clear ih
    induction os with
    | nil => rfl
    | cons o u ih =>
      simp only [List.map_cons, List.sum_cons, List.countP_cons] at ih ⊢
      split <;> omega

private theorem starts_eq (wr : Bool) (n : Nat) (r : Int) (hr : r = 0 ∨ r = 4 ∨ r = 8) :
    pyRange3 r (if wr then axis wr n else axis wr n - 8 + 1) 12 = starts n r := by
  unfold pyRange3 starts
  rw [Int.fdiv_eq_ediv_of_nonneg _ (show (0:Int) ≤ 12 by omega)]
  congr 2
  unfold axis
  rcases hr with rfl | rfl | rfl <;> cases wr <;> simp only [if_true, Bool.false_eq_true, if_false] <;> omega

theorem potential_eq (wx wy : Bool) (a b : Nat) (ha : 0 < a) (hb : 0 < b) :
    Geometry.spinn5.potentialEthernetChips (axis wx a) (axis wy b) =
      [((0 : Int), (0 : Int)), (4, 8), (8, 4)].flatMap fun r => (starts b r.2).flatMap fun y =>
        (starts a r.1).map fun x => ((x, y) : XY) := by
  have ht : Geometry.spinn5.triadW = 12 := rfl
  have ht' : Geometry.spinn5.triadH = 12 := rfl
  have hb1 : Geometry.spinn5.boardW = 8 := rfl
  have hb' : Geometry.spinn5.boardH = 8 := rfl
  have hr : Geometry.spinn5.roots = [(0, 0), (4, 8), (8, 4)] := rfl
  have hax : ∀ wr n, (axis wr n) % 12 = 0 ↔ wr = true := by
    intro wr n
    cases wr
    · simp only [axis, Bool.false_eq_true, if_false, iff_false]; omega
    · simp only [axis, if_true, iff_true]; omega
  simp only [Geometry.potentialEthernetChips, ht, ht', hb1, hb', hr,
    pmod_eq_emod (show (0:Int) < 12 by omega), hax]
  rw [if_neg]
  · simp only [List.flatMap_cons, List.flatMap_nil, List.append_nil]
    rw [starts_eq wx a 0 (by simp), starts_eq wy b 0 (by simp), starts_eq wx a 4 (by simp),
      starts_eq wy b 8 (by simp), starts_eq wx a 8 (by simp), starts_eq wy b 4 (by simp)]
  · cases wx <;> cases wy <;> simp only [axis, if_true, Bool.false_eq_true, if_false] <;> omega

theorem axis_pos (wr : Bool) {n : Nat} (hn : 0 < n) : 8 < axis wr n ∧ 4 ∣ axis wr n := by
  cases wr <;> simp only [axis, if_true, Bool.false_eq_true, if_false] <;> omega

theorem room_iff (wx wy : Bool) {a b : Nat} (ha : 0 < a) (hb : 0 < b) {p : XY} (hp : EthLattice p) :
    placeOn (VKind.v5.wrapFor (axis wx a) (axis wy b)) (axis wx a) (axis wy b) p ∈
      Geometry.spinn5.potentialEthernetChips (axis wx a) (axis wy b) ↔
    (room wx a p.1 && room wy b p.2) = true := by
  have hw := wrapFor_spec .v5 (axis wx a) (axis wy b)
  simp only [WrapsAs] at hw
  have hax : ∀ wr n, 12 ∣ (axis wr n) ↔ wr = true := by
    intro wr n
    cases wr
    · simp only [axis, Bool.false_eq_true, if_false, iff_false]; omega
    · simp only [axis, if_true, iff_true]; omega
  have h1 := axis_pos wx ha
  have h2 := axis_pos wy hb
  rw [mem_potential48' (.inr ⟨h1.1, h2.1, h1.2, h2.2⟩)]
  simp only [placeOn, hw.1, hw.2, hax]
  have hl : EthLattice (if wx = true then p.1 % axis wx a else p.1, if wy = true then p.2 % axis wy b else p.2) := by
    have m1 : 12 ∣ (if wx = true then p.1 % axis wx a else p.1) - p.1 := by
      split
      · rename_i h; subst h
        have := Int.mul_ediv_add_emod p.1 (axis true a)
        have h3 : 12 ∣ axis true a * (p.1 / axis true a) := Int.dvd_trans ((hax _ _).2 rfl) (Int.dvd_mul_right _ _)
        omega
      · simp
    have m2 : 12 ∣ (if wy = true then p.2 % axis wy b else p.2) - p.2 := by
      split
      · rename_i h; subst h
        have := Int.mul_ediv_add_emod p.2 (axis true b)
        have h3 : 12 ∣ axis true b * (p.2 / axis true b) := Int.dvd_trans ((hax _ _).2 rfl) (Int.dvd_mul_right _ _)
        omega
      · simp
    have := lattice_mod hp m1 m2
    rwa [show p.1 + ((if wx = true then p.1 % axis wx a else p.1) - p.1) =
        (if wx = true then p.1 % axis wx a else p.1) by omega,
      show p.2 + ((if wy = true then p.2 % axis wy b else p.2) - p.2) =
        (if wy = true then p.2 % axis wy b else p.2) by omega] at this
  rw [and_iff_right hl]
  have hx : 0 ≤ p.1 % axis wx a ∧ p.1 % axis wx a < axis wx a :=
    ⟨Int.emod_nonneg _ (by omega), Int.emod_lt_of_pos _ (by omega)⟩
  have hy : 0 ≤ p.2 % axis wy b ∧ p.2 % axis wy b < axis wy b :=
    ⟨Int.emod_nonneg _ (by omega), Int.emod_lt_of_pos _ (by omega)⟩
  rw [ethLattice_iff] at hp
  clear hl hax hw
  cases wx <;> cases wy <;>
    simp only [room, axis, if_true, Bool.false_eq_true, if_false, Bool.true_or, Bool.false_or, Bool.and_eq_true,
      decide_eq_true_eq, not_true, not_false_eq_true, forall_const, false_imp_iff, true_and, and_true] at * <;>
    first | omega | exact iff_of_true ⟨hx.1, hx.2, hy.1, hy.2⟩ trivial

/-- links of a machine of triads of any wrapping: each open axis loses part of the sides -/
private theorem grid_sides (wx wy : Bool) (a b : Nat) (ha : 0 < a) (hb : 0 < b) :
    ((Geometry.spinn5.potentialEthernetChips (axis wx a) (axis wy b)).map fun e =>
      (sidesWithBoard (VKind.v5.wrapFor (axis wx a) (axis wy b)) (axis wx a) (axis wy b)
        (Geometry.spinn5.potentialEthernetChips (axis wx a) (axis wy b)) e : Int)).sum =
    6 * (a : Int) * b + 4 * ((if wx then (a : Int) else a - 1) * b + a * (if wy then (b : Int) else b - 1) +
      (if wx then (a : Int) else a - 1) * (if wy then (b : Int) else b - 1)) := by
  have hsw := swap_count (Geometry.spinn5.potentialEthernetChips (axis wx a) (axis wy b)) boardsAround
    fun e o => room wx a (e.1 + o.1) && room wy b (e.2 + o.2)
  have hmap : ((Geometry.spinn5.potentialEthernetChips (axis wx a) (axis wy b)).map fun e =>
      (sidesWithBoard (VKind.v5.wrapFor (axis wx a) (axis wy b)) (axis wx a) (axis wy b)
        (Geometry.spinn5.potentialEthernetChips (axis wx a) (axis wy b)) e : Int)) =
      (Geometry.spinn5.potentialEthernetChips (axis wx a) (axis wy b)).map fun e =>
        ((boardsAround.countP fun o => room wx a (e.1 + o.1) && room wy b (e.2 + o.2) : Nat) : Int) := by
    refine List.map_congr_left fun e he => ?_
    have h1 := axis_pos wx ha
    have h2 := axis_pos wy hb
    have hle := ((mem_potential48' (.inr ⟨h1.1, h2.1, h1.2, h2.2⟩) e).1 he).1
    unfold sidesWithBoard
    congr 1
    refine List.countP_congr fun o ho => ?_
    rw [decide_eq_true_eq]
    exact room_iff wx wy ha hb (lattice_add hle (around_lattice o ho))
  rw [hmap, hsw, potential_eq wx wy a b ha hb]
  simp only [boardsAround, List.map_cons, List.map_nil, List.sum_cons, List.sum_nil, List.flatMap_cons,
    List.flatMap_nil, List.append_nil, List.countP_append]
  have hg : ∀ r1 r2 o1 o2 : Int, 4 ∣ r1 + o1 ∧ -12 ≤ r1 + o1 ∧ r1 + o1 ≤ 20 ∧ 4 ∣ r2 + o2 ∧ -12 ≤ r2 + o2 ∧
      r2 + o2 ≤ 20 → ((starts b r2).flatMap fun y => (starts a r1).map fun x => ((x, y) : XY)).countP
        (fun e => room wx a (e.1 + o1) && room wy b (e.2 + o2)) =
      (if wy = true ∨ (0 ≤ r2 + o2 ∧ r2 + o2 ≤ 8) then b else b - 1) *
        (if wx = true ∨ (0 ≤ r1 + o1 ∧ r1 + o1 ≤ 8) then a else a - 1) := by
    intro r1 r2 o1 o2 hc
    rw [← starts_count wx a r1 o1 hc.1 hc.2.1 hc.2.2.1, ← starts_count wy b r2 o2 hc.2.2.2.1 hc.2.2.2.2.1
      hc.2.2.2.2.2]
    exact grid_count (starts a r1) (starts b r2) (fun x => room wx a (x + o1)) fun y => room wy b (y + o2)
  simp (disch := decide) only [hg]
  obtain ⟨a, rfl⟩ : ∃ n, a = n + 1 := ⟨a - 1, by omega⟩
  obtain ⟨b, rfl⟩ : ∃ n, b = n + 1 := ⟨b - 1, by omega⟩
  cases wx <;> cases wy <;> simp <;> grind

private theorem grid_links (v : Version) (hk : v.kind = .v5 ∨ v.kind = .v248) (cfg : DownCfg) (wx wy : Bool)
    (a b : Nat) (ha : 0 < a) (hb : 0 < b) (validate : Bool) (m : Machine)
    (hm : virtualMachine v cfg (axis wx a) (axis wy b) validate = .ok m)
    (hnc : ∀ p, ¬ ChipDown cfg p) (hnl : ∀ p i, ¬ LinkDown cfg p i) :
    m.getLinksCount = ((384 * (a : Int) * b + 16 * ((if wx then (a : Int) else a - 1) * b +
      a * (if wy then (b : Int) else b - 1) +
      (if wx then (a : Int) else a - 1) * (if wy then (b : Int) else b - 1)) : Int) : Rat) := by
  have hpot : v.kind.potentialEthernetChips (axis wx a) (axis wy b) =
      Geometry.spinn5.potentialEthernetChips (axis wx a) (axis wy b) := by
    rcases hk with hk | hk <;> rw [hk] <;> rfl
  have hwr : v.kind.wrapFor (axis wx a) (axis wy b) = VKind.v5.wrapFor (axis wx a) (axis wy b) := by
    rcases hk with hk | hk <;> rw [hk] <;> rfl
  rw [C107_links v hk cfg _ _ validate m hm hnc hnl, (vm_facts hm).2.2.1, hwr, hpot, grid_sides wx wy a b ha hb]
  have hlen : ((Geometry.spinn5.potentialEthernetChips (axis wx a) (axis wy b)).length : Int) = 3 * a * b := by
    rw [potential_eq wx wy a b ha hb]
    simp only [List.flatMap_cons, List.flatMap_nil, List.append_nil, List.length_append, length_grid, starts,
      List.length_map, List.length_range]
    grind
  rw [hlen]
  congr 1
  grind

/-- C107: a machine of `a` by `b` triads with all four edges open. -/
theorem C107_open (v : Version) (hk : v.kind = .v5 ∨ v.kind = .v248) (cfg : DownCfg) (a b : Nat)
    (ha : 0 < a) (hb : 0 < b) (validate : Bool) (m : Machine)
    (hm : virtualMachine v cfg (12 * a + 4) (12 * b + 4) validate = .ok m)
    (hnc : ∀ p, ¬ ChipDown cfg p) (hnl : ∀ p i, ¬ LinkDown cfg p i) :
    m.getLinksCount = ((432 * (a : Int) * b - 32 * a - 32 * b + 16 : Int) : Rat) := by
  rw [grid_links v hk cfg false false a b ha hb validate m hm hnc hnl]
  congr 1
  simp only [Bool.false_eq_true, if_false]
  grind

/-- C107: a machine of `a` by `b` triads that wraps horizontally only. -/
theorem C107_horizontal (v : Version) (hk : v.kind = .v5 ∨ v.kind = .v248) (cfg : DownCfg) (a b : Nat)
    (ha : 0 < a) (hb : 0 < b) (validate : Bool) (m : Machine)
    (hm : virtualMachine v cfg (12 * a) (12 * b + 4) validate = .ok m)
    (hnc : ∀ p, ¬ ChipDown cfg p) (hnl : ∀ p i, ¬ LinkDown cfg p i) :
    m.getLinksCount = ((432 * (a : Int) * b - 32 * a : Int) : Rat) := by
  rw [grid_links v hk cfg true false a b ha hb validate m hm hnc hnl]
  congr 1
  simp only [Bool.false_eq_true, if_false, if_true]
  grind

/-- C107: a machine of `a` by `b` triads that wraps vertically only. -/
theorem C107_vertical (v : Version) (hk : v.kind = .v5 ∨ v.kind = .v248) (cfg : DownCfg) (a b : Nat)
    (ha : 0 < a) (hb : 0 < b) (validate : Bool) (m : Machine)
    (hm : virtualMachine v cfg (12 * a + 4) (12 * b) validate = .ok m)
    (hnc : ∀ p, ¬ ChipDown cfg p) (hnl : ∀ p i, ¬ LinkDown cfg p i) :
    m.getLinksCount = ((432 * (a : Int) * b - 32 * b : Int) : Rat) := by
  rw [grid_links v hk cfg false true a b ha hb validate m hm hnc hnl]
  congr 1
  simp only [Bool.false_eq_true, if_false, if_true]
  grind

/-- C107: a machine of `a` by `b` triads that wraps in both directions: every chip has all its six links. -/
theorem C107_torus (v : Version) (hk : v.kind = .v5 ∨ v.kind = .v248) (cfg : DownCfg) (a b : Nat)
    (ha : 0 < a) (hb : 0 < b) (validate : Bool) (m : Machine)
    (hm : virtualMachine v cfg (12 * a) (12 * b) validate = .ok m)
    (hnc : ∀ p, ¬ ChipDown cfg p) (hnl : ∀ p i, ¬ LinkDown cfg p i) :
    m.getLinksCount = ((432 * (a : Int) * b : Int) : Rat) := by
  rw [grid_links v hk cfg true true a b ha hb validate m hm hnc hnl]
  congr 1
  simp only [if_true]
  grind

/-- C107: a single 48-chip board has 120 links, counted once each. -/
theorem C107_one_board (v : Version) (hk : v.kind = .v5 ∨ v.kind = .v248) (cfg : DownCfg) (validate : Bool)
    (m : Machine) (hm : virtualMachine v cfg 8 8 validate = .ok m)
    (hnc : ∀ p, ¬ ChipDown cfg p) (hnl : ∀ p i, ¬ LinkDown cfg p i) : m.getLinksCount = 120 := by
  rw [C107_links v hk cfg 8 8 validate m hm hnc hnl, (vm_facts hm).2.2.1]
  rcases hk with hk | hk <;> rw [hk] <;> decide +kernel

example : ∃ m, virtualMachine exV5 {} 16 16 false = .ok m ∧ m.getLinksCount = 384 := by
  obtain ⟨m, hm⟩ := (C30_succeeds exV5 {} 16 16).1 (by decide) (readable_default .v5)
  obtain ⟨h1, h2, -⟩ := default_not_down VKind.v5
  exact ⟨m, hm, (C107_open exV5 (.inl rfl) {} 1 1 (by decide) (by decide) false m hm h1 h2).trans (by decide +kernel)⟩

/-- C107: on a machine of one triad each board has four of its sides at the edge; wrapped, none. -/
example : sidesWithBoard .none 16 16 [(0, 0), (4, 8), (8, 4)] (4, 8) = 2 ∧
    sidesWithBoard .full 12 12 [(0, 0), (4, 8), (8, 4)] (4, 8) = 6 := by decide

end SpiNN.Props
