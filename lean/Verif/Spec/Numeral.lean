/-!
# Reading numerals

What a numeral means, independent of how the programs print one.
-/

namespace Verif.Spec.Numeral

/-- The value of a digit: `0`-`9`, `a`-`f`. -/
def digit (c : Char) : Option Nat :=
  if 48 ≤ c.toNat ∧ c.toNat ≤ 57 then some (c.toNat - 48)
  else if 97 ≤ c.toNat ∧ c.toNat ≤ 102 then some (c.toNat - 87)
  else none

/-- Reads digits of base `b` behind a number that has been read. -/
def readFrom (b : Nat) : Nat → List Char → Option Nat
  | a, [] => some a
  | a, c :: l => match digit c with
    | some d => if d < b then readFrom b (b * a + d) l else none
    | none => none

/-- The number that a numeral of base `b` stands for; there is at least one digit. -/
def read (b : Nat) (l : List Char) : Option Nat := if l = [] then none else readFrom b 0 l

/-- A number in base 16 behind `0x`. -/
def readHex : List Char → Option Nat
  | '0' :: 'x' :: l => read 16 l
  | _ => none

/-- A decimal number that may have a sign. -/
def readInt : List Char → Option Int
  | '-' :: l => (read 10 l).map fun n => -(n : Int)
  | '+' :: l => (read 10 l).map fun n => (n : Int)
  | l => (read 10 l).map fun n => (n : Int)

end Verif.Spec.Numeral
