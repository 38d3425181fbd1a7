import Verif.Base.Rust
/-!
# What the converters see of the `gimli` crate (0.28.1)

`gimli` parses `.eh_frame`.  It is not modelled; the values it hands out are arbitrary data here, so
every theorem about the converters holds for whatever `gimli` may return.  The contract assumed is:

* iterating over the entries, the rows of an FDE, its instructions and the operations of an
  expression ends, and is a function of the section and the base addresses only;
* `PartialFrameDescriptionEntry::parse` calls its callback once, with the CIE offset stored in the
  entry and with the base addresses passed to `entries`, and its result depends only on the entry
  and on what the callback returns;
* `cie_from_offset` is a function of the section, the base addresses and the offset.
-/

namespace Verif

/-- `gimli::Error`, opaque. -/
structure GErr where
  code : Nat
  deriving DecidableEq, Repr

/-- `gimli::Register` -/
abbrev Reg := U16

/-- `gimli::X86_64::{RBP, RSP, RA}` and `gimli::AArch64::{X29, X30, SP}`: DWARF register numbers
of the two psABIs. -/
def Reg.X86_64_RBP : Reg := 6
@[inherit_doc Reg.X86_64_RBP] def Reg.X86_64_RSP : Reg := 7
@[inherit_doc Reg.X86_64_RBP] def Reg.X86_64_RA : Reg := 16
@[inherit_doc Reg.X86_64_RBP] def Reg.AArch64_X29 : Reg := 29
@[inherit_doc Reg.X86_64_RBP] def Reg.AArch64_X30 : Reg := 30
@[inherit_doc Reg.X86_64_RBP] def Reg.AArch64_SP : Reg := 31

/-- `gimli::DieReference<usize>` -/
inductive DieRef
  | unit (offset : U64)
  | debugInfo (offset : U64)
  deriving DecidableEq, Repr

/-- `gimli::Operation` (0.28.1).  The variants that the code does not name are `other`, given by their
`Debug` text. -/
inductive Op
  | deref (baseType : U64) (size : U8) (space : Bool)
  | drop
  | pick (index : U8)
  | swap
  | rot
  | abs
  | and
  | div
  | mul
  | neg
  | not
  | plus
  | plusConstant (value : U64)
  | shl
  | shr
  | xor
  | bra (target : I16)
  | eq
  | ge
  | lt
  | gt
  | le
  | ne
  | skip (target : I16)
  | unsignedConstant (value : U64)
  | signedConstant (value : I64)
  | register (register : Reg)
  | registerOffset (register : Reg) (offset : I64) (baseType : U64)
  | frameOffset (offset : I64)
  | nop
  | pushObjectAddress
  | call (offset : DieRef)
  | tls
  | stackValue
  | other (debug : String)
  deriving DecidableEq, Repr

/-- `gimli::Expression`, as the results of decoding its operations one by one (an error ends it). -/
abbrev Expr := List (Except GErr Op)

/-- `gimli::CfaRule` -/
inductive CfaRule
  | registerAndOffset (register : Reg) (offset : I64)
  | expression (e : Expr)
  deriving DecidableEq, Repr

/-- `gimli::RegisterRule` (`#[non_exhaustive]`; these are all variants of 0.28.1). -/
inductive RegRule
  | undefined
  | sameValue
  | offset (o : I64)
  | valOffset (o : I64)
  | register (r : Reg)
  | expression (e : Expr)
  | valExpression (e : Expr)
  | architectural
  | constant (v : U64)
  deriving DecidableEq, Repr

/-- `gimli::UnwindTableRow`.  `registers` are the items of `UnwindTableRow::registers()`. -/
structure DwRow where
  start : U64
  end_ : U64
  cfa : CfaRule
  registers : List (Reg × RegRule)
  deriving DecidableEq, Repr

/-- `UnwindTableRow::register`: the rule of a register, `Undefined` if it has none. -/
def DwRow.register (row : DwRow) (r : Reg) : RegRule := (row.registers.lookup r).getD .undefined

/-- `gimli::CallFrameInstruction` (`#[non_exhaustive]`; these are all variants of 0.28.1). -/
inductive Insn
  | setLoc (address : U64)
  | advanceLoc (delta : U32)
  | defCfa (register : Reg) (offset : U64)
  | defCfaSf (register : Reg) (factoredOffset : I64)
  | defCfaRegister (register : Reg)
  | defCfaOffset (offset : U64)
  | defCfaOffsetSf (factoredOffset : I64)
  | defCfaExpression (expression : Expr)
  | undefined (register : Reg)
  | sameValue (register : Reg)
  | offset (register : Reg) (factoredOffset : U64)
  | offsetExtendedSf (register : Reg) (factoredOffset : I64)
  | valOffset (register : Reg) (factoredOffset : U64)
  | valOffsetSf (register : Reg) (factoredOffset : I64)
  | register (dest src : Reg)
  | expression (register : Reg) (expression : Expr)
  | valExpression (register : Reg) (expression : Expr)
  | restore (register : Reg)
  | rememberState
  | restoreState
  | argsSize (size : U64)
  | negateRaState
  | nop
  deriving DecidableEq, Repr

/-- The expression of an instruction. -/
def Insn.expr? : Insn → Option Expr
  | .defCfaExpression e => some e
  | .expression _ e => some e
  | .valExpression _ e => some e
  | _ => none

/-- `gimli::FrameDescriptionEntry`: `initial_address()`, `len()`, the items of `instructions(..)`,
the result of `rows(..)` and the items of its `next_row()`. -/
structure DwFde where
  initial : U64
  len : U64
  instructions : List (Except GErr Insn)
  rows : Except GErr (List (Except GErr DwRow))

/-- `gimli::CommonInformationEntry`, opaque. -/
structure Cie where
  data : List U8
  deriving DecidableEq, Repr

/-- `gimli::CieOrFde`.  An FDE carries the offset of its CIE and what `parse` makes of the CIE. -/
inductive Entry
  | cie
  | fde (cieOffset : Nat) (parse : Except GErr Cie → Except GErr DwFde)

/-- `gimli::SectionBaseAddresses` -/
structure SectionBases where
  section_ : Option U64
  text : Option U64
  data : Option U64
  deriving DecidableEq, Repr

/-- `gimli::BaseAddresses` -/
structure Bases where
  ehFrameHdr : SectionBases
  ehFrame : SectionBases
  deriving DecidableEq, Repr

namespace Bases

/-- `BaseAddresses::default()` -/
def default : Bases := { ehFrameHdr := ⟨none, none, none⟩, ehFrame := ⟨none, none, none⟩ }

/-- `set_eh_frame_hdr` -/
def setEhFrameHdr (b : Bases) (a : U64) : Bases :=
  { b with ehFrameHdr := { b.ehFrameHdr with section_ := some a, data := some a } }

/-- `set_eh_frame` -/
def setEhFrame (b : Bases) (a : U64) : Bases :=
  { b with ehFrame := { b.ehFrame with section_ := some a } }

/-- `set_text` -/
def setText (b : Bases) (a : U64) : Bases :=
  { ehFrameHdr := { b.ehFrameHdr with text := some a }, ehFrame := { b.ehFrame with text := some a } }

/-- `set_got` -/
def setGot (b : Bases) (a : U64) : Bases :=
  { b with ehFrame := { b.ehFrame with data := some a } }

end Bases

/-- `gimli::EhFrame`: its byte order, the items of `entries(bases)` (an error ends the iteration),
and `cie_from_offset(bases, offset)`. -/
structure EhFrame where
  bigEndian : Bool
  entries : Bases → List (Except GErr Entry)
  cieFromOffset : Bases → Nat → Except GErr Cie

end Verif
