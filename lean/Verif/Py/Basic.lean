/-!
# The fragment of Python the model relies on

Exceptions as values, list indexing with negative indices, `range`, floor
division and the insertion ordered `dict`.
-/

namespace SpiNN

/-- A coordinate pair; `XY` of `spinn_utilities.typing.coords` is `tuple(int, int)`. -/
abbrev XY := Int × Int

/-- The exceptions raised by the modelled code (messages are dropped).
`machine`, `alreadyExists`, `invalidParameter` are the classes of
`spinn_machine/exceptions.py` (lines 18-98); the next block are Python built-ins; the
last ones come from `spinn_utilities`. -/
inductive PyErr where
  | machine            -- SpinnMachineException
  | alreadyExists      -- SpinnMachineAlreadyExistsException
  | invalidParameter   -- SpinnMachineInvalidParameterException
  | keyError | valueError | indexError | typeError | assertionError | attributeError
  | zeroDivision | notImplemented | runtimeError
  | dataNotYetAvailable  -- spinn_utilities DataNotYetAvialable
  | configError          -- spinn_utilities ConfigException
  deriving DecidableEq, Repr

instance {ε α : Type} [DecidableEq ε] [DecidableEq α] : DecidableEq (Except ε α) := fun a b =>
  match a, b with
  | .ok x, .ok y => if h : x = y then isTrue (by rw [h]) else isFalse (by simpa using h)
  | .error x, .error y => if h : x = y then isTrue (by rw [h]) else isFalse (by simpa using h)
  | .ok _, .error _ => isFalse (by simp)
  | .error _, .ok _ => isFalse (by simp)

/-- Python `l[i]`: negative indices count from the end, others out of range raise
`IndexError`. -/
def pyIndex {α : Type} (l : List α) (i : Int) : Except PyErr α :=
  let j := if i < 0 then i + (l.length : Int) else i
  if j < 0 then .error .indexError
  else match l[j.toNat]? with
    | some a => .ok a
    | none => .error .indexError

/-- Python `a % b` (for `b ≠ 0`; `b = 0` raises ZeroDivisionError in Python and is
excluded by the hypotheses of the theorems). -/
def pmod (a b : Int) : Int := Int.fmod a b

/-- Python `a // b` (for `b ≠ 0`). -/
def pdiv (a b : Int) : Int := Int.fdiv a b

/-- Python `range(n)` for an `int` `n` (empty for `n ≤ 0`). -/
def pyRange (n : Int) : List Int := (List.range n.toNat).map (fun (i : Nat) => (i : Int))

/-- Python `range(a, b)`. -/
def pyRange2 (a b : Int) : List Int :=
  (List.range (b - a).toNat).map (fun (i : Nat) => a + (i : Int))

/-- Python `range(a, b, s)` for a positive step `s` (`ceil((b - a) / s)` items). -/
def pyRange3 (a b s : Int) : List Int :=
  (List.range ((b - a + s - 1).fdiv s).toNat).map (fun (i : Nat) => a + s * (i : Int))

/-- Python `math.ceil(a / b)` for `b > 0`, computed exactly. -/
def ceilDiv (a b : Int) : Int := -(Int.fdiv (-a) b)

/-- A Python `dict`: an association list in insertion order. -/
structure PDict (K V : Type) where
  items : List (K × V)
  deriving Repr

namespace PDict
variable {K V : Type}

instance [DecidableEq K] [DecidableEq V] : DecidableEq (PDict K V) := fun a b =>
  match a, b with
  | ⟨x⟩, ⟨y⟩ => if h : x = y then isTrue (by rw [h]) else isFalse (by simpa using h)

/-- `dict()` -/
def empty : PDict K V := ⟨[]⟩

instance : Inhabited (PDict K V) := ⟨empty⟩

/-- lookup in the items -/
def lookup [DecidableEq K] : List (K × V) → K → Option V
  | [], _ => none
  | (k', v) :: t, k => if k' = k then some v else lookup t k

/-- assignment in the items: overwrite in place, else append -/
def assign [DecidableEq K] : List (K × V) → K → V → List (K × V)
  | [], k, v => [(k, v)]
  | (k', v') :: t, k, v => if k' = k then (k', v) :: t else (k', v') :: assign t k v

/-- `d.get(k)` -/
def get? [DecidableEq K] (d : PDict K V) (k : K) : Option V := lookup d.items k

/-- `d[k] = v` -/
def set [DecidableEq K] (d : PDict K V) (k : K) (v : V) : PDict K V := ⟨assign d.items k v⟩

/-- `k in d` -/
def contains [DecidableEq K] (d : PDict K V) (k : K) : Bool := (d.get? k).isSome

/-- `d[k]` -/
def getE [DecidableEq K] (d : PDict K V) (k : K) : Except PyErr V :=
  match d.get? k with
  | some v => .ok v
  | none => .error .keyError

/-- `d.keys()` -/
def keys (d : PDict K V) : List K := d.items.map (·.1)

/-- `d.values()` -/
def values (d : PDict K V) : List V := d.items.map (·.2)

/-- `len(d)` -/
def size (d : PDict K V) : Nat := d.items.length

/-- `dict(pairs)`: later pairs overwrite earlier ones -/
def ofList [DecidableEq K] (l : List (K × V)) : PDict K V :=
  l.foldl (fun d kv => d.set kv.1 kv.2) empty

end PDict
end SpiNN
