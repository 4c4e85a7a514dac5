import Verif.Model.Chip

/-!
# Python strings as lists of characters

Only what the parsers use: `split`, `lower`, `int(...)`, decimal printing. Non-ASCII digits and
white space, which Python's `int` and `\d` also accept, are not modelled.
-/

namespace SpiNN

/-- Python `s.split(sep)` for a one character separator -/
def splitOn (sep : Char) : PyStr → List PyStr
  | [] => [[]]
  | c :: cs =>
    if c = sep then [] :: splitOn sep cs
    else match splitOn sep cs with
      | [] => [[c]]
      | h :: t => (c :: h) :: t

/-- Python `s.lower()` -/
def pyLower (s : PyStr) : PyStr := s.map Char.toLower

/-- white space removed by `int()` -/
def isSpace (c : Char) : Bool :=
  c = ' ' || (9 ≤ c.toNat && c.toNat ≤ 13) || (28 ≤ c.toNat && c.toNat ≤ 31)

/-- a decimal digit -/
def isDig (c : Char) : Bool := 48 ≤ c.toNat && c.toNat ≤ 57

/-- value of a digit -/
def digVal (c : Char) : Nat := c.toNat - 48

/-- digits, with single underscores between digits; `prev`: the last character was a digit -/
def parseDigits : Bool → Nat → PyStr → Option Nat
  | prev, acc, [] => if prev then some acc else none
  | prev, acc, c :: cs =>
    if isDig c then parseDigits true (acc * 10 + digVal c) cs
    else if c = '_' && prev then parseDigits false acc cs
    else none

/-- strip white space -/
def pyStrip (s : PyStr) : PyStr := ((s.dropWhile isSpace).reverse.dropWhile isSpace).reverse

/-- Python `int(s)` of a string -/
def pyInt (s : PyStr) : Except PyErr Int :=
  match pyStrip s with
  | '-' :: cs => match parseDigits false 0 cs with
    | some n => .ok (-(n : Int))
    | none => .error .valueError
  | '+' :: cs => match parseDigits false 0 cs with
    | some n => .ok n
    | none => .error .valueError
  | cs => match parseDigits false 0 cs with
    | some n => .ok n
    | none => .error .valueError

/-- the decimal digit of a number below ten -/
def digChar (n : Nat) : Char := Char.ofNat (48 + n)

/-- decimal digits of a number -/
def showNat (n : Nat) : PyStr :=
  if n < 10 then [digChar n] else showNat (n / 10) ++ [digChar (n % 10)]

/-- Python `str(i)` of an int -/
def showInt (i : Int) : PyStr := if i < 0 then '-' :: showNat i.natAbs else showNat i.natAbs

/-- collect the results of parsing, stopping at the first exception -/
def mapE {α β : Type} (f : α → Except PyErr β) : List α → Except PyErr (List β)
  | [] => .ok []
  | a :: as => match f a with
    | .error e => .error e
    | .ok b => match mapE f as with
      | .error e => .error e
      | .ok bs => .ok (b :: bs)

end SpiNN
