import Verif.Model.Convert
import Verif.Model.Dump
/-!
# The texts of errors and warnings

`Display` of the errors of both crates, and the text of the warnings of the converter.  The texts that
`gimli` contributes are a parameter.
-/

namespace Verif

/-! ### Numbers -/

/-- `{}` of an unsigned integer. -/
def fmtNat (n : Nat) : String := String.ofList (Nat.toDigits 10 n)

/-- `{:#0w$x}`: the prefix `0x`, zeros up to the width `w`, and the digits. -/
def fmtAltHexPad (w n : Nat) : String :=
  "0x" ++ String.ofList (List.replicate (w - 2 - (Nat.toDigits 16 n).length) '0' ++ Nat.toDigits 16 n)

/-- `{:#x}` (a signed integer as its two's complement). -/
def fmtAltHex (n : Nat) : String := "0x" ++ String.ofList (Nat.toDigits 16 n)

/-- `{:+}` of an `i64`. -/
def fmtSigned64 (x : I64) : String :=
  if x.toInt < 0 then "-" ++ fmtNat x.toInt.natAbs else "+" ++ fmtNat x.toInt.natAbs

/-! ### The `sframe` crate -/

/-- sframe/src/error.rs:37-61 -/
def ReadError.text : ReadError → String
  | .unsupportedVersion v => "unsupported sframe version (" ++ fmtNat v.toNat ++ ")"
  | .unsupportedFdeType t => "unsupported FDE type (" ++ fmtNat t.toU8.toNat ++ ")"
  | .unsupportedFreType t => "unsupported FRE type (" ++ fmtNat t.toU8.toNat ++ ")"
  | .unsupportedFreOffset t => "unsupported FRE offset type (" ++ fmtNat t.toU8.toNat ++ ")"
  | .unexpectedEof => "unexpected end-of-input when reading sframe section"
  | .incorrectEndian => "the section endianness does not match that of the reader"
  | .invalidFdeRepBlockSize => "FDE had a repeated block size of 0"
  | .missingFreOffset => "FRE was missing an expected offset"
  | .invalidFreOffsetCount n =>
    "FRE had too many offset values (expected 1 to 3, got " ++ fmtNat n.toNat ++ " instead)"

/-- sframe/src/write.rs:656-681 -/
def FrameRowError.text : FrameRowError → String
  | .startAddressTooLarge => "FRE start offset was larger than 0x10000000"
  | .startAddressLargerThanRepSize => "FRE start offset was larger than the specified FDE repetition size"
  | .startAddressOutsideFde => "FRE start address outside of the address range of its FDE"
  | .missingRaOffset => "FRE was missing a required offset for the return address"
  | .missingFpOffset => "FRE was missing a required offset for the frame pointer"
  | .unexpectedRaOffset =>
    "provided return address offset did not match the offset specified in the section header"
  | .unexpectedFpOffset =>
    "provided function pointer offset did not match the one specified in the section header"
  | .duplicateRow => "FDE already contains a row with the same start address"

/-- sframe/src/write.rs:703-714 -/
def EmitError.text : EmitError → String
  | .overlappingFdes => "multiple FDEs cover the same address ranges"
  | .sectionTooLarge => "sframe section length would be too large to represent offsets"

/-- sframedump/src/main.rs:115: the line on stderr for a row that cannot be decoded. -/
def decodeErrorText (e : ReadError) : String := "  error decoding FRE: " ++ e.text

/-! ### The converter -/

/-- What `gimli` contributes to the texts: `Display` of its errors, the names of registers, `Debug`
of the rules that the converter does not print itself, and `Debug` of an expression (taken as a function
of its operations). -/
structure GimliText where
  error : GErr → String
  register : Architecture → Reg → Option String
  rule : RegRule → String
  expr : Expr → String

/-- dwarf2sframe2/src/error.rs:40-63 -/
def ConvError.text (g : GimliText) : ConvError → String
  | .invalidEhFrameEntry e => "invalid .eh_frame entry: " ++ g.error e
  | .invalidDwarfFde e => "invalid DWARF FDE: " ++ g.error e
  | .invalidUnwindTable e => "invalid DWARF unwind table: " ++ g.error e
  | .invalidStartAddress a =>
    "DWARF FDE start address " ++ fmtAltHex a.toNat ++ " larger than 0x10000000"
  | .invalidRowOffset _ off =>
    "DWARF FDE row offset " ++ fmtAltHex off.toNat ++ " larger than 0x10000000"
  | .invalidFunctionLength a len =>
    "DWARF FDE for address " ++ fmtAltHex a.toNat ++ " had length " ++ fmtAltHex len.toNat ++
      " larger than 0x10000000"

/-- display.rs:18-30 `DisplayRegister` -/
def registerText (g : GimliText) (arch : Architecture) (r : Reg) : String :=
  match g.register arch r with
  | some name => name
  | none => fmtNat r.toNat

/-- display.rs:43-57 `RegisterRule` -/
def ruleText (g : GimliText) (arch : Architecture) : RegRule → String
  | .undefined => "<undefined>"
  | .sameValue => "<same>"
  | .offset o => "*(CFA" ++ fmtSigned64 o ++ ")"
  | .valOffset o => "CFA" ++ fmtSigned64 o
  | .register r => registerText g arch r
  | .constant v => fmtNat v.toNat
  | rule => g.rule rule

/-- lib.rs:338-341, 349, 370-373, 384-387, 399-402, 413-416, 426-429 -/
def WarnMsg.text (g : GimliText) (arch : Architecture) : WarnMsg → String
  | .cfaRegister r => "unsupported CFA source register `" ++ registerText g arch r ++ "`"
  | .cfaExpression => "CFA recovery rule requires evaluating a DWARF expression"
  | .cfaOffset o => "CFA register offset " ++ fmtAltHex o.toNat ++
      " too large to be represented in the SFrame format"
  | .fpOffset o => "FP register offset " ++ fmtAltHex o.toNat ++
      " too large to represented in the SFrame format"
  | .fpRule r => "Unsupport FP recovery rule: `" ++ ruleText g arch r ++ "`"
  | .raOffset o => "RA register offset " ++ fmtAltHex o.toNat ++
      " too large to represented in the SFrame format"
  | .raRule r => "Unsupport RA recovery rule: `" ++ ruleText g arch r ++ "`"

/-- lib.rs:461-463, and the prefix of the line on stderr (290). -/
def Warning.text (g : GimliText) (arch : Architecture) (w : Warning) : String :=
  "warning: FDE for " ++ fmtAltHexPad 10 w.start.toNat ++ "+" ++ fmtAltHexPad w.digits w.offset.toNat ++
    ": " ++ w.msg.text g arch

end Verif
