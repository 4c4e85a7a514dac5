import Verif.Spec.VirtualMachine

/-!
# Comparing down settings
-/

namespace SpiNN.Spec
open SpiNN

/-- `cfg'` lists at least what `cfg` lists -/
def DownAtMost (k : VKind) (cfg cfg' : DownCfg) : Prop :=
  (∀ p, ChipDown cfg p → ChipDown cfg' p) ∧ (∀ p i, LinkDown cfg p i → LinkDown cfg' p i) ∧
  ∀ p q, CoreDown k cfg p q → CoreDown k cfg' p q

/-- `cfg'` lists the same chips and cores as `cfg`, and on a torus or mesh of the given size a link
exactly if `cfg` lists it or the same link seen from its other end -/
def BothEnds (k : VKind) (wr : Wrap) (w h : Int) (cfg cfg' : DownCfg) : Prop :=
  (∀ p, ChipDown cfg' p ↔ ChipDown cfg p) ∧ (∀ p q, CoreDown k cfg' p q ↔ CoreDown k cfg p q) ∧
  ∀ (p : XY) (d : Dir), InGrid w h p → (LinkDown cfg' p d.id ↔
    LinkDown cfg p d.id ∨ ∃ q, wr.xyOverLink w h p.1 p.2 d.id = .ok q ∧ LinkDown cfg q (Router.opposite d.id))

end SpiNN.Spec
