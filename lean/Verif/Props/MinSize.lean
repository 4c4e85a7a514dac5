import Verif.Props.VirtualMachine

/-! C106: which machine `virtual_machine_by_min_size` gives. -/

namespace SpiNN.Props
open SpiNN SpiNN.Spec

private theorem shape48 {k : VKind} (hk : k = .v5 ∨ k = .v248) :
    k.boardShape = (8, 8) ∧
    ∀ a b, SizeOK k a b ↔ (a = 8 ∧ b = 8) ∨ (8 < a ∧ 8 < b ∧ 4 ∣ a ∧ 4 ∣ b) := by
  rcases hk with h | h <;> rw [h] <;> exact ⟨rfl, fun _ _ => Iff.rfl⟩

private theorem minSize48 {k : VKind} (hk : k = .v5 ∨ k = .v248) (w h : Int) :
    ∃ a b, minSize k w h = (8 * a, 8 * b) ∧
      ((w ≤ 8 ∧ 8 < h ∧ a = 2 ∧ h ≤ 8 * b ∧ 8 * (b - 1) < h) ∨
       (h ≤ 8 ∧ 8 < w ∧ b = 2 ∧ w ≤ 8 * a ∧ 8 * (a - 1) < w) ∨
       ((w ≤ 8 ↔ h ≤ 8) ∧ w ≤ 8 * a ∧ 8 * (a - 1) < w ∧ h ≤ 8 * b ∧ 8 * (b - 1) < h)) := by
  unfold minSize
  simp only [(shape48 hk).1]
  have k1 := ceilDiv_spec w 8 (by omega)
  have k2 := ceilDiv_spec h 8 (by omega)
  have k3 := ceilDiv_spec (8 * 2) 8 (by omega)
  refine ⟨_, _, rfl, ?_⟩
  by_cases h1 : w ≤ 8 ∧ h > 8
  · rw [if_pos h1, if_neg (by omega)]
    omega
  · rw [if_neg h1]
    by_cases h2 : h ≤ 8 ∧ w > 8
    · rw [if_pos h2]; omega
    · rw [if_neg h2]; omega

/-- C106: on the versions with 48-chip boards the machine is the smallest of those that are large enough and whose
sides are multiples of the side of a board. -/
theorem C106_smallest (v : Version) (hk : v.kind = .v5 ∨ v.kind = .v248) (cfg : DownCfg) (w h : Int)
    (validate : Bool) (m : Machine) (hm : virtualMachineByMinSize v cfg w h validate = .ok m) :
    w ≤ m.width ∧ h ≤ m.height ∧ 8 ∣ m.width ∧ 8 ∣ m.height ∧ SizeOK v.kind m.width m.height ∧
    ∀ w' h', SizeOK v.kind w' h' → 8 ∣ w' → 8 ∣ h' → w ≤ w' → h ≤ h' → m.width ≤ w' ∧ m.height ≤ h' := by
  obtain ⟨hs, -, -, e1, e2, -⟩ := vm_facts hm
  have hok := (shape48 hk).2
  obtain ⟨a, b, he, hc⟩ := minSize48 hk w h
  rw [he] at hs e1 e2
  rw [e1, e2]
  simp only at hs ⊢
  refine ⟨by omega, by omega, ⟨a, rfl⟩, ⟨b, rfl⟩, hs, ?_⟩
  rintro w' h' hs' ⟨c, rfl⟩ ⟨d, rfl⟩ l1 l2
  rw [hok] at hs hs'
  omega

/-- C106: it exists exactly if both numbers are positive, or one of them is more than the side of a board;
otherwise `SpinnMachineException` is raised. -/
theorem C106_accepts (v : Version) (hk : v.kind = .v5 ∨ v.kind = .v248) (cfg : DownCfg) (w h : Int) :
    ((0 < w ∧ 0 < h) ∨ 8 < w ∨ 8 < h → Readable v.kind cfg →
      ∃ m, virtualMachineByMinSize v cfg w h false = .ok m) ∧
    (¬ ((0 < w ∧ 0 < h) ∨ 8 < w ∨ 8 < h) → ∀ validate,
      virtualMachineByMinSize v cfg w h validate = .error .machine) := by
  obtain ⟨a, b, he, hc⟩ := minSize48 hk w h
  have hok := (shape48 hk).2
  unfold virtualMachineByMinSize
  rw [he]
  simp only
  constructor
  · intro hp hread
    refine (C30_succeeds v cfg _ _).1 ?_ hread
    rw [hok]; omega
  · intro hp
    refine (C30_succeeds v cfg _ _).2.1 ?_
    rw [hok]; omega

/-- C106: it need not be the smallest supported machine that is large enough: for nine by nine it is 16 by 16, and
12 by 12 is supported and large enough. -/
theorem C106_not_smallest_supported (v : Version) (hk : v.kind = .v5 ∨ v.kind = .v248) (cfg : DownCfg)
    (validate : Bool) (m : Machine) (hm : virtualMachineByMinSize v cfg 9 9 validate = .ok m) :
    m.width = 16 ∧ m.height = 16 ∧ SizeOK v.kind 12 12 := by
  obtain ⟨hs, -, -, e1, e2, -⟩ := vm_facts hm
  obtain ⟨a, b, he, hc⟩ := minSize48 hk 9 9
  rw [he] at e1 e2
  simp only at e1 e2
  rw [(shape48 hk).2]
  omega

/-- C106: asking for what a machine made this way has gives the same size again. -/
theorem C106_again (v : Version) (hk : v.kind = .v5 ∨ v.kind = .v248) (cfg : DownCfg) (w h : Int)
    (validate : Bool) (m : Machine) (hm : virtualMachineByMinSize v cfg w h validate = .ok m) :
    virtualMachineByMinSize v cfg m.width m.height validate = .ok m := by
  obtain ⟨hs, -, -, e1, e2, -⟩ := vm_facts hm
  obtain ⟨a, b, he, hc⟩ := minSize48 hk w h
  rw [he] at e1 e2 hs
  simp only at e1 e2 hs
  have hok := (shape48 hk).2
  rw [hok] at hs
  obtain ⟨a', b', he', hc'⟩ := minSize48 hk m.width m.height
  have : minSize v.kind m.width m.height = minSize v.kind w h := by
    rw [he', he, Prod.mk.injEq]
    rw [e1, e2] at hc'
    omega
  unfold virtualMachineByMinSize at hm ⊢
  rw [this]
  exact hm

example : ∃ m, virtualMachineByMinSize exV5 {} 3 20 false = .ok m ∧ m.width = 16 ∧ m.height = 24 := by
  obtain ⟨m, hm⟩ := (C106_accepts exV5 (.inl rfl) {} 3 20).1 (.inl (by omega)) (readable_default _)
  have hsz : minSize exV5.kind 3 20 = (16, 24) := by decide +kernel
  have hm' : virtualMachine exV5 {} 16 24 false = .ok m := by
    have h2 := hm
    unfold virtualMachineByMinSize at h2
    rw [hsz] at h2
    exact h2
  obtain ⟨-, -, -, e1, e2, -⟩ := vm_facts hm'
  exact ⟨m, hm, e1, e2⟩

end SpiNN.Props
