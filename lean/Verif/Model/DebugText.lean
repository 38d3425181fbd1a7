import Verif.Model.Debug
import Verif.Model.Cfi
import Verif.Model.Texts
/-!
# Model of the text that `{:?}` and `{:#?}` give for a section

`Model/Debug.lean` models which values are shown.  Here they are laid out as the builders of `core::fmt`
(`DebugStruct`, `DebugTuple`, `DebugList`) do it, on one line for `{:?}` and on many lines, indented by
`PadAdapter`, for `{:#?}`.  Other flags (`{:x?}`, widths) are not modelled.
-/

namespace Verif

/-- How a value is shown: as one word, or by one of the builders of `core::fmt`. -/
inductive DbgShape | word | record | tuple | list
  deriving DecidableEq, Repr

mutual
/-- A value as it is handed to the formatter: a shape, a name, and the parts. -/
inductive DbgVal
  | mk (shape : DbgShape) (name : String) (parts : DbgParts)
/-- The parts of a value, each with its label.  Parts of tuples and lists have the empty label. -/
inductive DbgParts
  | nil
  | cons (label : String) (value : DbgVal) (rest : DbgParts)
end

namespace DbgVal

/-- `DebugStruct`, `DebugTuple` and `DebugList` on one line: what comes before the first part.  A record
without any part is shown as its name alone, and so is a tuple. -/
def opening : DbgShape → DbgParts → List Char
  | .word, _ => []
  | .record, .nil => []
  | .record, .cons .. => " { ".toList
  | .tuple, .nil => []
  | .tuple, .cons .. => ['(']
  | .list, _ => ['[']

/-- What comes after the last part, on one line. -/
def closing : DbgShape → DbgParts → List Char
  | .word, _ => []
  | .record, .nil => []
  | .record, .cons .. => " }".toList
  | .tuple, .nil => []
  | .tuple, .cons .. => [')']
  | .list, _ => [']']

/-- `DebugStruct::field` writes the name of the field and a colon. -/
def labelText : DbgShape → String → List Char
  | .record, l => l.toList ++ ": ".toList
  | _, _ => []

mutual
/-- The text of a value on one line. -/
def line : DbgVal → List Char
  | .mk k name ps => name.toList ++ opening k ps ++ lineParts k true ps ++ closing k ps
/-- The parts, separated by a comma and a space. -/
def lineParts : DbgShape → Bool → DbgParts → List Char
  | _, _, .nil => []
  | k, first, .cons l v rest =>
    (if first then [] else ", ".toList) ++ labelText k l ++ line v ++ lineParts k false rest
end

/-- `core::fmt::builders::PadAdapter::write_str`: four spaces at the start of every line; the flag says
whether the next character starts a line. -/
def padAdapter : Bool → List Char → List Char
  | _, [] => []
  | onNewline, c :: cs => (if onNewline then "    ".toList else []) ++ c :: padAdapter (c == '\n') cs

/-- What comes before the first part when shown on many lines. -/
def openingLines : DbgShape → DbgParts → List Char
  | .word, _ => []
  | .record, .nil => []
  | .record, .cons .. => " {\n".toList
  | .tuple, .nil => []
  | .tuple, .cons .. => "(\n".toList
  | .list, .nil => ['[']
  | .list, .cons .. => "[\n".toList

/-- What comes after the last part when shown on many lines. -/
def closingLines : DbgShape → DbgParts → List Char
  | .word, _ => []
  | .record, .nil => []
  | .record, .cons .. => ['}']
  | .tuple, .nil => []
  | .tuple, .cons .. => [')']
  | .list, _ => [']']

mutual
/-- The text of a value on many lines (`{:#?}`). -/
def lines : DbgVal → List Char
  | .mk k name ps =>
    name.toList ++ openingLines k ps ++ padAdapter true (linesParts k ps) ++ closingLines k ps
/-- The parts, each followed by a comma and a line break. -/
def linesParts : DbgShape → DbgParts → List Char
  | _, .nil => []
  | k, .cons l v rest => labelText k l ++ lines v ++ ",\n".toList ++ linesParts k rest
end

/-- The text: `{:#?}` if `alternate` is set, `{:?}` if not. -/
def text (alternate : Bool) (v : DbgVal) : String :=
  String.ofList (if alternate then v.lines else v.line)

end DbgVal

/-! ### How each value is shown -/

/-- A single word. -/
def DbgVal.word (s : String) : DbgVal := .mk .word s .nil

/-- Parts without labels. -/
def DbgParts.ofList : List DbgVal → DbgParts
  | [] => .nil
  | v :: vs => .cons "" v (DbgParts.ofList vs)

/-- A tuple of one value, as derived `Debug` shows a tuple variant or struct. -/
def DbgVal.one (name : String) (v : DbgVal) : DbgVal := .mk .tuple name (.cons "" v .nil)

/-- A list (`debug_list`, and slices). -/
def DbgVal.seq (vs : List DbgVal) : DbgVal := .mk .list "" (DbgParts.ofList vs)

/-- The derived `Debug` of `Option`. -/
def DbgVal.option {α : Type} (f : α → DbgVal) : Option α → DbgVal
  | none => .word "None"
  | some x => .one "Some" (f x)

/-- The derived `Debug` of `Result`. -/
def DbgVal.result {ε α : Type} (g : ε → DbgVal) (f : α → DbgVal) : Except ε α → DbgVal
  | .error e => .one "Err" (g e)
  | .ok x => .one "Ok" (f x)

/-- `Debug` of an unsigned integer. -/
def DbgVal.unsigned {n : Nat} (x : BitVec n) : DbgVal := .word (fmtNat x.toNat)

/-- `Debug` of a signed integer. -/
def DbgVal.signed {n : Nat} (x : BitVec n) : DbgVal := .word (fmtInt x)

/-- The derived `Debug` of raw/v2.rs:165-185 `FdeType`. -/
def DbgVal.fdeType : RawFdeType → DbgVal
  | .pcInc => .word "PcInc"
  | .pcMask => .word "PcMask"

/-- The derived `Debug` of raw/v2.rs:157-162 `Aarch64PauthKey`. -/
def DbgVal.pauthKey : PauthKey → DbgVal
  | .A => .word "A"
  | .B => .word "B"

/-- The derived `Debug` of raw/v2.rs:188-216 `FreType`. -/
def DbgVal.freType : FreType → DbgVal
  | .addr1 => .word "Addr1"
  | .addr2 => .word "Addr2"
  | .addr4 => .word "Addr4"
  | .reserved3 => .word "_Reserved3"
  | .reserved4 => .word "_Reserved4"
  | .reserved5 => .word "_Reserved5"
  | .reserved6 => .word "_Reserved6"
  | .reserved7 => .word "_Reserved7"

/-- The derived `Debug` of raw/v2.rs:299-309 `FreOffset`. -/
def DbgVal.freOffset : FreOffset → DbgVal
  | .b1 => .word "_1B"
  | .b2 => .word "_2B"
  | .b4 => .word "_4B"
  | .reserved3 => .word "_Reserved3"

/-- The derived `Debug` of raw/v2.rs:311-316 `FreBaseRegId`. -/
def DbgVal.baseReg : BaseReg → DbgVal
  | .fp => .word "Fp"
  | .sp => .word "Sp"

/-- The derived `Debug` of error.rs:6-35 `ReadError`. -/
def DbgVal.readError : ReadError → DbgVal
  | .unsupportedVersion v => .one "UnsupportedVersion" (.unsigned v)
  | .unsupportedFdeType t => .one "UnsupportedFdeType" (.fdeType t)
  | .unsupportedFreType t => .one "UnsupportedFreType" (.freType t)
  | .unsupportedFreOffset t => .one "UnsupportedFreOffset" (.freOffset t)
  | .unexpectedEof => .word "UnexpectedEof"
  | .incorrectEndian => .word "IncorrectEndian"
  | .invalidFreOffsetCount n => .one "InvalidFreOffsetCount" (.unsigned n)
  | .invalidFdeRepBlockSize => .word "InvalidFdeRepBlockSize"
  | .missingFreOffset => .word "MissingFreOffset"

/-- The `Debug` instances that the `c_enum` crate generates for `Version` (raw/mod.rs:37-51) and `Abi`
(raw/v2.rs:55-66) are not in the repository; they are parameters. -/
structure EnumShown where
  version : U8 → DbgVal
  abi : U8 → DbgVal

/-- raw/mod.rs:14-30, the derived `Debug` of `Preamble`.  zerocopy shows a `U16` as a tuple of its name
and the number; `Flags` derives `Debug` on the tuple struct (raw/mod.rs:53-69). -/
def DbgVal.preamble (t : EnumShown) (p : Preamble) : DbgVal :=
  .mk .record "Preamble" <|
    .cons "magic" (.one "U16" (.unsigned p.magic)) <|
    .cons "version" (t.version p.version) <|
    .cons "flags" (.one "Flags" (.unsigned p.flags)) .nil

/-- read.rs:695-705. -/
def DbgVal.row (r : RowDebug) : DbgVal :=
  .mk .record "FrameRowEntry" <|
    .cons "start_address" (.unsigned r.startAddress) <|
    .cons "cfa_base_reg_id" (.baseReg r.baseReg) <|
    .cons "mangled_ra_p" (.word (fmtBool r.mangled)) <|
    .cons "offsets" (.seq (r.offsets.map .signed)) .nil

/-- read.rs:474-492: the parts that both versions end with. -/
def DbgVal.fdeTail (d : FdeDebug) : DbgParts :=
  .cons "num_fres" (.unsigned d.numFres) <|
  .cons "start_fre_off" (.unsigned d.startFreOff) <|
  .cons "fres" (.seq (d.fres.map (.result .readError .row))) .nil

/-- read.rs:453-494.  `rep_size` is there for version 2 only.  `{:#x}` shows a signed number as the
unsigned one with the same bits. -/
def DbgVal.fde (d : FdeDebug) : DbgVal :=
  .mk .record "FuncDescEntry" <|
    .cons "start_address" (.word (fmtAltHex d.startAddress.toNat)) <|
    .cons "size" (.unsigned d.size) <|
    .cons "fdetype" (.fdeType d.fdetype) <|
    .cons "pauth_key" (.pauthKey d.pauthKey) <|
    match d.repSize with
    | none => fdeTail d
    | some r => .cons "rep_size" (.unsigned r) (fdeTail d)

/-- read.rs:217-237. -/
def DbgVal.sframe (t : EnumShown) (d : SFrameDebug) : DbgVal :=
  .mk .record "SFrame" <|
    .cons "preamble" (.preamble t d.preamble) <|
    .cons "abi_arch" (t.abi d.abiArch) <|
    .cons "fixed_fp_offset" (.option .signed d.fixedFpOffset) <|
    .cons "fixed_ra_offset" (.option .signed d.fixedRaOffset) <|
    .cons "num_fdes" (.unsigned d.numFdes) <|
    .cons "num_fres" (.unsigned d.numFres) <|
    .cons "fdes" (.seq (d.fdes.map .fde)) .nil

/-- `format!("{:?}", section)`, or `{:#?}` if `alternate` is set. -/
def SFrame.debugText {o : Endian} (t : EnumShown) (alternate : Bool) (s : SFrame o) : Rust String :=
  s.debug.bind fun d => .ok ((DbgVal.sframe t d).text alternate)

end Verif
