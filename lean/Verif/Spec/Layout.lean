import Verif.Model.Raw
/-!
# The SFrame file format, as numbers

Independent of the reader: integers at byte positions, and where the parts of a section are.
Positions are those of the SFrame specification (version 1 and 2).  The function info byte, which the
code does not keep as the specification says, is in `Spec/Entry.lean` (as in raw/v2.rs) and in
`Spec/Published.lean` (as in the specification).
-/

namespace Verif.Spec

/-- The unsigned integer a byte string stands for. -/
def natOf : Endian → List U8 → Nat
  | .little, bs => bs.foldr (fun b acc => b.toNat + 256 * acc) 0
  | .big, bs => bs.foldl (fun acc b => 256 * acc + b.toNat) 0

/-- The unsigned `n`-byte integer at position `p`. -/
def uintAt (o : Endian) (s : List U8) (p n : Nat) : Nat := natOf o ((s.drop p).take n)

/-- Two's complement reading of an `n`-byte integer. -/
def signed (n v : Nat) : Int := if 2 * v < 256 ^ n then (v : Int) else (v : Int) - (256 ^ n : Nat)

/-- The signed `n`-byte integer at position `p`. -/
def sintAt (o : Endian) (s : List U8) (p n : Nat) : Int := signed n (uintAt o s p n)

/-- The part of `s` from position `p` of length `n`. -/
def span (s : List U8) (p n : Nat) : List U8 := (s.drop p).take n

/-! ### Header fields -/

section
variable (o : Endian) (s : List U8)

def magic : Nat := uintAt o s 0 2
def version : Nat := uintAt o s 2 1
def flags : Nat := uintAt o s 3 1
def abi : Nat := uintAt o s 4 1
def fixedFp : Int := sintAt o s 5 1
def fixedRa : Int := sintAt o s 6 1
def auxLen : Nat := uintAt o s 7 1
def numFdes : Nat := uintAt o s 8 4
def numFres : Nat := uintAt o s 12 4
def freLen : Nat := uintAt o s 16 4
def fdeOff : Nat := uintAt o s 20 4
def freOff : Nat := uintAt o s 24 4

/-- Size of one FDE in the table. -/
def fdeSize : Nat := if version o s = 1 then 17 else 20

/-- Where the sub-sections are counted from. -/
def bodyPos : Nat := 28 + auxLen o s
/-- Where the FDE table begins. -/
def tablePos : Nat := bodyPos o s + fdeOff o s
/-- Where FDE number `i` begins. -/
def fdePos (i : Nat) : Nat := tablePos o s + i * fdeSize o s
/-- Where the FRE sub-section begins. -/
def fresPos : Nat := bodyPos o s + freOff o s

/-- The error that `load` must report, checks in the documented order. -/
def loadError : Option ReadError :=
  if s.length < 4 then some .unexpectedEof
  else if magic o s ≠ 0xDEE2 then some .incorrectEndian
  else if version o s ≠ 1 ∧ version o s ≠ 2 then
    some (.unsupportedVersion (BitVec.ofNat 8 (version o s)))
  else if s.length < 28 then some .unexpectedEof
  else if s.length < bodyPos o s then some .unexpectedEof
  else if s.length < tablePos o s + numFdes o s * fdeSize o s then some .unexpectedEof
  else if s.length < fresPos o s + freLen o s then some .unexpectedEof
  else none

/-- A loadable section. -/
structure Loads : Prop where
  magic : magic o s = 0xDEE2
  version : version o s = 1 ∨ version o s = 2
  header : 28 ≤ s.length
  aux : bodyPos o s ≤ s.length
  table : tablePos o s + numFdes o s * fdeSize o s ≤ s.length
  fres : fresPos o s + freLen o s ≤ s.length

end

end Verif.Spec
