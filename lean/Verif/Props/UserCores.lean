import Verif.Props.VirtualMachine

/-! # C16: the cores of a machine made for a number of cores, exactly -/

namespace SpiNN.Props
open SpiNN Spec

theorem _root_.List.Perm.sum_int {l l' : List Int} (h : l.Perm l') : l.sum = l'.sum := by
  induction h with
  | nil => rfl
  | cons a _ ih => simp [ih]
  | swap a b l => simp; omega
  | trans _ _ h1 h2 => exact h1.trans h2

theorem sum_replicate_int (n : Nat) (a : Int) : (List.replicate n a).sum = n * a := by
  induction n with
  | zero => simp
  | succ n ih => rw [List.replicate_succ, List.sum_cons, ih]; grind

/-- C16, in general: what the machine for `n` cores has, with any limit `M` on the cores per chip. There are at least
as many boards as needed for `n` cores without the limit, and the placable cores of a board are counted with the
limit. -/
theorem C16_user_cores_exact (v : Version) (ethMon allMon n : Int) (validate : Bool) (m : Machine)
    (hm : virtualMachineByCores v {} ethMon allMon n validate = .ok m) (hmax : 1 ≤ v.maxCores) :
    let M := v.maxCores
    m.totalAvailableUserCores = m.ethernetChips.length * (match v.kind with
      | .v3 => 4 * (min 18 M - 1)
      | .v5 => 40 * (min 18 M - 1) + 8 * (min 17 M - 1)
      | .v201 => min 153 M - 1
      | .v248 => 37 * (min 153 M - 1) + 9 * (min 152 M - 1) + 2 * (min 151 M - 1)) ∧
    let cores := (match v.kind with
      | .v3 => 68 - ethMon - 4 * allMon
      | .v5 => 808 - ethMon - 48 * allMon
      | .v201 => 152 - ethMon - allMon
      | .v248 => 7283 - ethMon - 48 * allMon)
    (0 < cores → n ≤ cores * m.ethernetChips.length) := by
  intro M
  have hcores : v.kind.coresPerBoard ethMon allMon =
      (match v.kind with
        | .v3 => 68 - ethMon - 4 * allMon
        | .v5 => 808 - ethMon - 48 * allMon
        | .v201 => 152 - ethMon - allMon
        | .v248 => 7283 - ethMon - 48 * allMon) := by
    unfold VKind.coresPerBoard
    have hsum : v.kind.chipCoreMap.values.sum =
      (match v.kind with | .v3 => 72 | .v5 => 856 | .v201 => 153 | .v248 => 7331) := by
      cases v.kind <;> decide +kernel
    have hc : v.kind.nChipsPerBoard =
      (match v.kind with | .v3 => 4 | .v5 => 48 | .v201 => 1 | .v248 => 48) := by cases v.kind <;> rfl
    have hsc : v.kind.nScampCores = 1 := by cases v.kind <;> rfl
    rw [hsum, hc, hsc]
    cases v.kind <;> dsimp only <;> omega
  unfold virtualMachineByCores VKind.sizeFromNCores at hm
  by_cases hz : v.kind.coresPerBoard ethMon allMon = 0
  · rw [if_pos hz] at hm; simp at hm
  rw [if_neg hz] at hm
  have hb : virtualMachineByBoards v {} (-(pdiv (-n) (v.kind.coresPerBoard ethMon allMon))) validate =
      .ok m := hm
  have hle := C14_by_boards v _ validate m hb
  constructor
  · unfold virtualMachineByBoards at hb
    cases hsz : v.kind.sizeFromNBoards (-(pdiv (-n) (v.kind.coresPerBoard ethMon allMon))) with
    | error e => rw [hsz] at hb; simp at hb
    | ok s =>
      rw [hsz] at hb
      obtain ⟨h1, h2, h3⟩ := default_not_down v.kind
      obtain ⟨h4, h5⟩ := C35_chips v {} _ _ validate m hb h1
      rw [(vm_core_sums hb h1 h3 hmax).2, h5]
      congr 1
      have hperm : v.kind.chipCoreMap.values.Perm (match v.kind with
          | .v3 => List.replicate 4 18
          | .v5 => List.replicate 40 18 ++ List.replicate 8 17
          | .v201 => [153]
          | .v248 => List.replicate 37 153 ++ List.replicate 9 152 ++ List.replicate 2 151) := by
        cases v.kind <;> decide +kernel
      have := (hperm.map (fun n => min n v.maxCores - 1)).sum_int
      rw [this]
      cases v.kind <;> simp [sum_replicate_int, List.sum_append] <;> omega
  · intro cores hpos
    have hpos : 0 < v.kind.coresPerBoard ethMon allMon := hcores ▸ hpos
    have := ceil_boards hpos hle
    rw [hcores, Int.mul_comm] at this
    exact this

/-- with a limit of five cores per chip there are 192 placable cores on a board, not 808 -/
example : ∃ (v : Version) (m : Machine), Version.init .v5 { maxMachineCore := some 5 } = .ok v ∧
    virtualMachineByCores v {} 0 0 800 true = .ok m ∧ 1 ≤ v.maxCores := by
  obtain ⟨m, hm⟩ := C33_no_down { kind := .v5, maxCores := 5, maxSdram := 123469792 } 8 8 (by decide) (by decide)
  refine ⟨_, m, rfl, ?_, by decide⟩
  have : VKind.v5.sizeFromNCores 0 0 800 = .ok (8, 8) := by decide +kernel
  unfold virtualMachineByCores
  simp only [this]
  exact hm

end SpiNN.Props
