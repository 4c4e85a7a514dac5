import Verif.Model.Factory

/-! # `machine_repair` computed with a bound on the number of passes -/

namespace SpiNN

/-- `machine_repair` with a bound on the number of passes -/
def repairPasses (v : Version) (repair : Bool) : Nat → List XY → Machine → Option (Except PyErr Machine)
  | 0, _, _ => none
  | n + 1, removed, m => match repairFind repair removed m with
    | .error e => some (.error e)
    | .ok f =>
      if !repair && f.errors then some (.error .machine)
      else if f.deadChips = [] ∧ f.deadLinks = [] then some (.ok m)
      else match machineIgnore v m f.deadChips f.deadLinks with
        | .error e => some (.error e)
        | .ok m' => repairPasses v repair n [] m'

/-- if it ends within the bound it is `machine_repair` -/
theorem repairPasses_eq (v : Version) (repair : Bool) (n : Nat) (removed : List XY) (m : Machine)
    (r : Except PyErr Machine) (h : repairPasses v repair n removed m = some r) :
    machineRepair v repair removed m = some r := by
  induction n generalizing removed m with
  | zero => simp [repairPasses] at h
  | succ n ih =>
    rw [machineRepair]
    unfold repairPasses at h
    split at h
    · rename_i e he; rw [he]; exact h
    · rename_i f hf
      rw [hf]; simp only
      split at h
      · rename_i h1; rw [if_pos h1]; exact h
      · rename_i h1; rw [if_neg h1]
        split at h
        · rename_i h2; rw [if_pos h2]; exact h
        · rename_i h2; rw [if_neg h2]
          split at h
          · rename_i e he; rw [he]; exact h
          · rename_i m1 hm1; rw [hm1]; exact ih _ _ h

end SpiNN
