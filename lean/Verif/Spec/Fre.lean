import Verif.Spec.Layout
import Verif.Model.Read
/-!
# The frame row entry format, as numbers
-/

namespace Verif.Spec

/-- What a frame row entry says. -/
structure FreView where
  start : Nat
  base : BaseReg
  mangled : Bool
  offsets : List Int
  deriving DecidableEq, Repr

/-- Width of the start address: bits 0-2 of the FDE info byte (raw/v2.rs:108-121; the specification has
bits 0-3, see C118). -/
def addrWidth (fdeInfo : Nat) : Option Nat :=
  match fdeInfo % 8 with
  | 0 => some 1
  | 1 => some 2
  | 2 => some 4
  | _ => none

/-- Width of the stored offsets: bits 5-6 of the FRE info byte. -/
def offsetWidth (freInfo : Nat) : Option Nat :=
  match freInfo / 32 % 4 with
  | 0 => some 1
  | 1 => some 2
  | 2 => some 4
  | _ => none

/-- Decoding of one entry at the start of `fres`: start address, info byte (bit 0 base register,
bits 1-4 offset count, bits 5-6 offset width, bit 7 mangled), offsets; and the bytes that follow. -/
def decodeFre (o : Endian) (fdeInfo : Nat) (fres : List U8) :
    Except ReadError (FreView × List U8) :=
  match addrWidth fdeInfo with
  | none => .error (.unsupportedFreType (match fdeInfo % 8 with
      | 3 => .reserved3 | 4 => .reserved4 | 5 => .reserved5 | 6 => .reserved6 | _ => .reserved7))
  | some w =>
    if fres.length < w + 1 then .error .unexpectedEof
    else
      let b := uintAt o fres w 1
      let count := b / 2 % 16
      if 3 < count then .error (.invalidFreOffsetCount (BitVec.ofNat 8 count))
      else
        match offsetWidth b with
        | none => .error (.unsupportedFreOffset .reserved3)
        | some z =>
          if fres.length < w + 1 + z * count then .error .unexpectedEof
          else .ok (
            { start := uintAt o fres 0 w
              base := if b % 2 = 1 then .sp else .fp
              mangled := decide (b / 128 % 2 = 1)
              offsets := (List.range count).map fun i => sintAt o fres (w + 1 + z * i) z },
            fres.drop (w + 1 + z * count))

/-- The first `n` entries, up to and including the first undecodable one. -/
def decodeFres (o : Endian) (fdeInfo : Nat) : Nat → List U8 → List (Except ReadError FreView)
  | 0, _ => []
  | n + 1, fres =>
    match decodeFre o fdeInfo fres with
    | .error e => [.error e]
    | .ok (v, rest) => .ok v :: decodeFres o fdeInfo n rest

/-- The optional value of an accessor that fails only with `MissingFreOffset`. -/
def orMissing : Option Int → Except ReadError Int
  | some x => .ok x
  | none => .error .missingFreOffset

end Verif.Spec
