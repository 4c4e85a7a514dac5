import Verif.Props.Connected

/-! The chips of machines that wrap in both directions, for the examples of C110. -/

namespace SpiNN.Props
open SpiNN SpiNN.Spec

section
variable {v : Version} {cfg : DownCfg} {w h : Int} {validate : Bool} {m : Machine}

theorem full_wrap (hk : v.kind = .v5 ∨ v.kind = .v248) (hm : virtualMachine v cfg w h validate = .ok m)
    (hw12 : 12 ∣ w) (hh12 : 12 ∣ h) : m.wrap = .full := by
  have := wrapFor_spec v.kind w h
  rw [← (vm_facts hm).2.2.1] at this
  have h2 : (wrapsX m.wrap ↔ 12 ∣ w) ∧ (wrapsY m.wrap ↔ 12 ∣ h) := by
    rcases hk with h | h <;> rw [h] at this <;> exact this
  have h3 := h2.1.2 hw12
  have h4 := h2.2.2 hh12
  revert h3 h4
  cases m.wrap <;> simp [wrapsX, wrapsY]

theorem torus_chip (hk : v.kind = .v5 ∨ v.kind = .v248) (hm : virtualMachine v cfg w h validate = .ok m)
    (hw12 : 12 ∣ w) (hh12 : 12 ∣ h) {p : XY} (hp : InGrid w h p) (hc : ¬ ChipDown cfg p) :
    m.isChipAt p.1 p.2 = true := by
  have hs := (vm_facts hm).1
  have hpos := hs.pos
  rw [C30_chips v cfg w h validate m hm]
  obtain ⟨e, he, l, h1, h2⟩ := board_cover hk hpos.1 hpos.2 hw12 hh12 hp
  refine ⟨hc, e, he, ?_⟩
  rw [← mem_xysByEthernet_iff_boardAt _ _ hpos.1 hpos.2, mem_xysByEthernet, (vm_facts hm).2.2.1]
  exact ⟨l, h1, h2⟩
end

end SpiNN.Props
