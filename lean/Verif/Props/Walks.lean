import Verif.Props.Mesh

/-! C105: walks over links - only how often each link is taken matters, and walks can be taken back. -/

namespace SpiNN.Props
open SpiNN SpiNN.Spec

/-- C105: the links of a walk may be taken in any order: the result is the same (also if a link id is not
acceptable: then every order raises `IndexError`). -/
theorem C105_any_order (wr : Wrap) (w h : Int) (hw : 0 < w) (hh : 0 < h) (p : XY) (path path' : List Int)
    (hp : path.Perm path') : walk wr w h p path = walk wr w h p path' := by
  have step : ∀ (p : XY) (l : Int) (a : XY), pyIndex linkAddTable l = .ok a →
      wr.xyOverLink w h p.1 p.2 l = .ok (wr.red w h (p.1 + a.1, p.2 + a.2)) := by
    intro p l a ha
    simp only [Wrap.xyOverLink, ha, wr.stepBy_eq hw hh]
  have bad : ∀ (p : XY) (l : Int) (e : PyErr), pyIndex linkAddTable l = .error e →
      wr.xyOverLink w h p.1 p.2 l = .error e := by
    intro p l e he
    simp only [Wrap.xyOverLink, he]
  have err : ∀ (l : Int) (e : PyErr), pyIndex linkAddTable l = .error e → e = .indexError := by
    intro l e he
    by_cases hb : -6 ≤ l ∧ l ≤ 5
    · obtain ⟨a, ha⟩ : ∃ a, pyIndex linkAddTable l = .ok a := by
        have : ∀ l ∈ [-6, -5, -4, -3, -2, -1, 0, 1, 2, 3, 4, 5], ∃ a, pyIndex linkAddTable l = .ok a := by
          intro l hl
          simp only [List.mem_cons, List.not_mem_nil, or_false] at hl
          rcases hl with rfl | rfl | rfl | rfl | rfl | rfl | rfl | rfl | rfl | rfl | rfl | rfl <;>
            exact ⟨_, rfl⟩
        refine this l ?_
        simp only [List.mem_cons, List.not_mem_nil, or_false]
        omega
      rw [ha] at he; exact absurd he (by simp)
    · rw [pyIndex_err l hb] at he
      simpa using he.symm
  induction hp generalizing p with
  | nil => rfl
  | cons l _ ih =>
    simp only [walk]
    split
    · exact ih _
    · rfl
  | swap l l' ls =>
    simp only [walk]
    cases h1 : pyIndex linkAddTable l with
    | ok a =>
      cases h2 : pyIndex linkAddTable l' with
      | ok b =>
        rw [step p l a h1, step p l' b h2]
        simp only
        rw [step _ l a h1, step _ l' b h2, wr.red_red_add hw hh, wr.red_red_add hw hh]
        simp only [Int.add_right_comm]
      | error e =>
        rw [step p l a h1, bad p l' e h2]
        simp only
        rw [bad _ l' e h2]
    | error e =>
      cases h2 : pyIndex linkAddTable l' with
      | ok b =>
        rw [bad p l e h1, step p l' b h2]
        simp only
        rw [bad _ l e h1]
      | error e' =>
        rw [bad p l e h1, bad p l' e' h2, err l e h1, err l' e' h2]
  | trans _ _ ih1 ih2 => exact (ih1 p).trans (ih2 p)

private theorem disp_counts (path : List Int) (hl : ∀ l ∈ path, 0 ≤ l ∧ l ≤ 5) :
    disp path = some ((path.count 0 + path.count 1 - path.count 3 - path.count 4 : Int),
      (path.count 1 + path.count 2 - path.count 4 - path.count 5 : Int)) := by
  induction path with
  | nil => simp [disp]
  | cons l ls ih =>
    have ih := ih fun l h => hl l (List.mem_cons_of_mem _ h)
    have hb := hl l List.mem_cons_self
    have hc : l = 0 ∨ l = 1 ∨ l = 2 ∨ l = 3 ∨ l = 4 ∨ l = 5 := by omega
    rcases hc with rfl | rfl | rfl | rfl | rfl | rfl <;>
      · simp only [disp, ih, pyIndex, linkAddTable]
        simp
        omega

/-- C105: where a walk ends follows from how often each of the six links is taken. -/
theorem C105_end (wr : Wrap) (w h : Int) (hw : 0 < w) (hh : 0 < h) (p : XY) (hp : InRange wr w h p)
    (path : List Int) (hl : ∀ l ∈ path, 0 ≤ l ∧ l ≤ 5) :
    ∃ q, walk wr w h p path = .ok q ∧ InRange wr w h q ∧
      Same wr w h (p.1 + path.count 0 + path.count 1 - path.count 3 - path.count 4,
        p.2 + path.count 1 + path.count 2 - path.count 4 - path.count 5) q := by
  refine ⟨_, (walk_eq wr hw hh _ _ _ hp).2 ⟨_, disp_counts path hl, rfl⟩, wr.red_inRange hw hh _, ?_⟩
  have hs := wr.red_same hw hh (p.1 + (path.count 0 + path.count 1 - path.count 3 - path.count 4 : Int),
    p.2 + (path.count 1 + path.count 2 - path.count 4 - path.count 5 : Int))
  have e1 : p.1 + path.count 0 + path.count 1 - path.count 3 - path.count 4 =
    p.1 + (path.count 0 + path.count 1 - path.count 3 - path.count 4 : Int) := by omega
  have e2 : p.2 + path.count 1 + path.count 2 - path.count 4 - path.count 5 =
    p.2 + (path.count 1 + path.count 2 - path.count 4 - path.count 5 : Int) := by omega
  rw [e1, e2]
  exact hs

/-- C105: the vector `get_vector` returns may be walked in any order, and with detours that cancel: every walk
that goes East `x` times more than West, North `y` times more than South and South West `z` times more than North
East ends at the destination. -/
theorem C105_vector_walked (wr : Wrap) (w h : Int) (hw : 0 < w) (hh : 0 < h) (s d : XY)
    (hs : InRange wr w h s) (hd : InRange wr w h d) (x y z : Int) (hv : wr.vector w h s d = (x, y, z))
    (path : List Int) (hl : ∀ l ∈ path, 0 ≤ l ∧ l ≤ 5)
    (hx : (path.count 0 - path.count 3 : Int) = x) (hy : (path.count 2 - path.count 5 : Int) = y)
    (hz : (path.count 4 - path.count 1 : Int) = z) : walk wr w h s path = .ok d := by
  obtain ⟨h1, -⟩ := C04_vector_is_shortest wr w h hw hh s d x y z hv
  rw [walk_eq wr hw hh _ _ _ hs]
  refine ⟨_, disp_counts path hl, (wr.red_eq_iff hw hh hd).2 ?_⟩
  have e1 : s.1 + (path.count 0 + path.count 1 - path.count 3 - path.count 4 : Int) = s.1 + x - z := by omega
  have e2 : s.2 + (path.count 1 + path.count 2 - path.count 4 - path.count 5 : Int) = s.2 + y - z := by omega
  simp only [e1, e2]
  exact h1

private theorem walk_append (wr : Wrap) (w h : Int) (p : XY) (a b : List Int) :
    walk wr w h p (a ++ b) = match walk wr w h p a with
      | .ok q => walk wr w h q b
      | .error e => .error e := by
  induction a generalizing p with
  | nil => rfl
  | cons l ls ih =>
    simp only [List.cons_append, walk]
    split
    · exact ih _
    · rfl

/-- C105: a walk is taken back by the opposite links in the opposite order. -/
theorem C105_back (wr : Wrap) (w h : Int) (hw : 0 < w) (hh : 0 < h) (p q : XY) (hp : InRange wr w h p)
    (path : List Int) (hl : ∀ l ∈ path, 0 ≤ l ∧ l ≤ 5) (hq : walk wr w h p path = .ok q) :
    walk wr w h q (path.reverse.map Router.opposite) = .ok p := by
  induction path generalizing p with
  | nil => simp only [walk, Except.ok.injEq] at hq; subst hq; rfl
  | cons l ls ih =>
    have hb := hl l List.mem_cons_self
    obtain ⟨q1, h1, h2⟩ := C01_over_link_and_back wr w h hw hh p hp l hb.1 hb.2
    simp only [walk, h1] at hq
    have hin : InRange wr w h q1 := by
      unfold Wrap.xyOverLink at h1
      split at h1
      · simp only [Except.ok.injEq] at h1
        rw [← h1, wr.stepBy_eq hw hh]
        exact wr.red_inRange hw hh _
      · simp at h1
    have := ih q1 hin (fun l h => hl l (List.mem_cons_of_mem _ h)) hq
    rw [List.reverse_cons, List.map_append, walk_append, this]
    simp only [List.map_cons, List.map_nil, walk, h2]

/-- C105: going around a wrapped axis, or once around the triangle East, North, South West, ends where it
started. -/
theorem C105_around (wr : Wrap) (w h : Int) (hw : 0 < w) (hh : 0 < h) (p : XY) (hp : InRange wr w h p) :
    (wrapsX wr → walk wr w h p (List.replicate w.toNat 0) = .ok p) ∧
    (wrapsY wr → walk wr w h p (List.replicate h.toNat 2) = .ok p) ∧
    walk wr w h p [0, 2, 4] = .ok p := by
  have key : ∀ (path : List Int) (d : XY), disp path = some d → Same wr w h (p.1 + d.1, p.2 + d.2) p →
      walk wr w h p path = .ok p := fun path d hd hs =>
    (walk_eq wr hw hh _ _ _ hp).2 ⟨d, hd, (wr.red_eq_iff hw hh hp).2 hs⟩
  refine ⟨fun hx => ?_, fun hy => ?_, ?_⟩
  · refine key _ _ (disp_replicate _ 0 (1, 0) (by decide)) ⟨?_, ?_⟩
    · rw [if_pos hx]
      refine ⟨1, ?_⟩
      simp only
      rw [Int.toNat_of_nonneg (by omega)]
      omega
    · simp only [Int.mul_zero, Int.add_zero]
      split
      · exact ⟨0, by omega⟩
      · trivial
  · refine key _ _ (disp_replicate _ 2 (0, 1) (by decide)) ⟨?_, ?_⟩
    · simp only [Int.mul_zero, Int.add_zero]
      split
      · exact ⟨0, by omega⟩
      · trivial
    · rw [if_pos hy]
      refine ⟨1, ?_⟩
      simp only
      rw [Int.toNat_of_nonneg (by omega)]
      omega
  · refine key _ (0, 0) (by decide) ⟨?_, ?_⟩
    · simp only [Int.add_zero]
      split
      · exact ⟨0, by omega⟩
      · trivial
    · simp only [Int.add_zero]
      split
      · exact ⟨0, by omega⟩
      · trivial

/-- C105: on a torus, going straight on along a diagonal comes back after exactly the common multiples of the
sides. -/
theorem C105_diagonal (w h : Int) (hw : 0 < w) (hh : 0 < h) (p : XY) (hp : InGrid w h p) (n : Nat) :
    walk .full w h p (List.replicate n 1) = .ok p ↔ w ∣ n ∧ h ∣ n := by
  have hin : InRange .full w h p := ⟨fun _ => ⟨hp.1, hp.2.1⟩, fun _ => hp.2.2⟩
  rw [walk_eq .full hw hh _ _ _ hin, disp_replicate n 1 (1, 1) (by decide)]
  simp only [Int.mul_one, Option.some.injEq, exists_eq_left']
  rw [Wrap.red_eq_iff .full hw hh hin]
  unfold Same
  rw [if_pos (show wrapsX .full from .inr rfl), if_pos (show wrapsY .full from .inr rfl)]
  constructor
  · rintro ⟨⟨k, hk⟩, l, hl⟩
    simp only at hk hl
    exact ⟨⟨k, by rw [Int.mul_comm]; omega⟩, ⟨l, by rw [Int.mul_comm]; omega⟩⟩
  · rintro ⟨⟨k, hk⟩, l, hl⟩
    exact ⟨⟨k, by simp only; rw [hk, Int.mul_comm]⟩, ⟨l, by simp only; rw [hl, Int.mul_comm]⟩⟩

example : InRange .full 12 12 (11, 0) ∧ walk .full 12 12 (11, 0) [0, 5, 5, 1] = .ok (1, 11) ∧
    walk .full 12 12 (11, 0) [5, 1, 0, 5] = .ok (1, 11) ∧
    walk .full 12 12 (1, 11) [4, 2, 2, 3] = .ok (11, 0) := by
  refine ⟨by simp [InRange], by decide, by decide, by decide⟩

example : walk .full 12 12 (3, 4) (List.replicate 12 1) = .ok (3, 4) := by decide

end SpiNN.Props
