import Verif.Model.Texts
import Verif.Spec.Builder
import Verif.Spec.Convert
import Verif.Spec.Image
import Verif.Spec.Fre
import Verif.Spec.Layout
import Verif.Spec.Numeral
import Verif.Spec.DebugText
import Verif.Model.Report1
/-!
# What the messages say

A message is understood by how it begins.  A table gives for each beginning what the message then says of
the input; the claim may use the rest of the message, as that contains numbers and names.
-/

namespace Verif.Spec.Messages
open Numeral

/-- Beginnings of messages, and what they say of an input. -/
abbrev Table (α : Type) := List (String × (List Char → α → Prop))

/-- The message begins in one of the ways of the table, and what it says is so. -/
def Truthful {α : Type} (t : Table α) (s : List Char) (x : α) : Prop :=
  (∃ e ∈ t, ∃ rest, s = e.1.toList ++ rest) ∧ ∀ e ∈ t, ∀ rest, s = e.1.toList ++ rest → e.2 rest x

/-- The text is a decimal number and what comes after it. -/
def Decimal (s : List Char) (n : Nat) (after : String) : Prop :=
  ∃ d, s = d ++ after.toList ∧ read 10 d = some n

/-- The text is a number in base 16 and what comes after it. -/
def Hex (s : List Char) (n : Nat) (after : String) : Prop :=
  ∃ d, s = d ++ after.toList ∧ readHex d = some n

/-! ### Adding a row -/

/-- Why a row is refused.  (The limits themselves are the subject of C73; "function pointer" is to be
understood as frame pointer.) -/
def rowTable : Table (FuncDescBuilder × FrameRowBuilder) := [
  ("FRE start offset was larger than 0x10000000",
    fun rest x => rest = [] ∧ 0x10000000 ≤ x.2.startAddress.toNat),
  ("FRE start offset was larger than the specified FDE repetition size",
    fun rest x => rest = [] ∧ ∃ rep, x.1.repSize = some rep ∧ rep.toNat ≤ x.2.startAddress.toNat),
  ("FRE start address outside of the address range of its FDE",
    fun rest x => rest = [] ∧ x.1.size.toNat ≤ x.2.startAddress.toNat),
  ("FRE was missing a required offset for the return address",
    fun rest x => rest = [] ∧ ∃ y, x.2.offsets = some y ∧ y.ra = none ∧ x.1.options.fixedRa = none),
  ("FRE was missing a required offset for the frame pointer",
    fun rest x => rest = [] ∧ ∃ y, x.2.offsets = some y ∧ y.fp = none ∧ x.1.options.fixedFp = none),
  ("provided return address offset did not match the offset specified in the section header",
    fun rest x => rest = [] ∧ ∃ y given fixed, x.2.offsets = some y ∧ y.ra = some given ∧
      x.1.options.fixedRa = some fixed ∧ given.toInt ≠ fixed.val.toInt),
  ("provided function pointer offset did not match the one specified in the section header",
    fun rest x => rest = [] ∧ ∃ y given fixed, x.2.offsets = some y ∧ y.fp = some given ∧
      x.1.options.fixedFp = some fixed ∧ given.toInt ≠ fixed.val.toInt),
  ("FDE already contains a row with the same start address",
    fun rest x => rest = [] ∧ ∃ r ∈ rows x.1, r.startAddress = x.2.startAddress)]

/-! ### Building a section -/

/-- Why a section is not built. -/
def buildTable : Table SFrameBuilder := [
  ("multiple FDEs cover the same address ranges", fun rest b => rest = [] ∧ Overlapping (functions b)),
  ("sframe section length would be too large to represent offsets",
    fun rest b => rest = [] ∧ ¬ Representable (functions b))]

/-! ### Reading -/

/-- Why a section is not loaded. -/
def loadTable (o : Endian) : Table (List U8) := [
  ("unsupported sframe version (",
    fun rest s => Decimal rest (version o s) ")" ∧ version o s ≠ 1 ∧ version o s ≠ 2),
  ("unexpected end-of-input when reading sframe section", fun rest s => rest = [] ∧
    (s.length < 28 ∨ s.length < bodyPos o s ∨ s.length < tablePos o s + numFdes o s * fdeSize o s ∨
      s.length < fresPos o s + freLen o s)),
  ("the section endianness does not match that of the reader",
    fun rest s => rest = [] ∧ magic o s ≠ 0xDEE2)]

/-- Why a row is not read: `x` is the info byte of the function and the bytes at the row. -/
def freTable (o : Endian) : Table (Nat × List U8) := [
  ("unsupported FRE type (", fun rest x => Decimal rest (x.1 % 8) ")" ∧ 3 ≤ x.1 % 8),
  ("unsupported FRE offset type (", fun rest x => ∃ w, addrWidth x.1 = some w ∧
    Decimal rest (uintAt o x.2 w 1 / 32 % 4) ")" ∧ 3 ≤ uintAt o x.2 w 1 / 32 % 4),
  ("FRE had too many offset values (expected 1 to 3, got ", fun rest x => ∃ w, addrWidth x.1 = some w ∧
    Decimal rest (uintAt o x.2 w 1 / 2 % 16) " instead)" ∧ 3 < uintAt o x.2 w 1 / 2 % 16),
  ("unexpected end-of-input when reading sframe section", fun rest x => rest = [] ∧
    ∃ w, addrWidth x.1 = some w ∧ (x.2.length < w + 1 ∨ ∃ z, offsetWidth (uintAt o x.2 w 1) = some z ∧
      x.2.length < w + 1 + z * (uintAt o x.2 w 1 / 2 % 16)))]

/-! ### The converter -/

/-- Why a section is not converted. -/
def convTable (g : GimliText) : Table (EhFrame × Bases) := [
  ("invalid .eh_frame entry: ", fun rest x => ∃ e, rest = (g.error e).toList ∧ .error e ∈ x.1.entries x.2),
  ("invalid DWARF FDE: ", fun rest x => ∃ e, rest = (g.error e).toList ∧
    ((∃ off parse, .ok (.fde off parse) ∈ x.1.entries x.2 ∧ parse (x.1.cieFromOffset x.2 off) = .error e) ∨
      ∃ fde, .ok fde ∈ inputs x.1 x.2 ∧ dumpError fde = some e)),
  ("invalid DWARF unwind table: ", fun rest x => ∃ e, rest = (g.error e).toList ∧
    ∃ fde, .ok fde ∈ inputs x.1 x.2 ∧ (fde.rows = .error e ∨ ∃ l, fde.rows = .ok l ∧ .error e ∈ l)),
  ("DWARF FDE start address ", fun rest x => ∃ fde, .ok fde ∈ inputs x.1 x.2 ∧
    Hex rest fde.initial.toNat " larger than 0x10000000" ∧ 0x10000000 < fde.initial.toNat),
  ("DWARF FDE row offset ", fun rest x => ∃ fde l r, .ok fde ∈ inputs x.1 x.2 ∧ fde.rows = .ok l ∧ .ok r ∈ l ∧
    Hex rest (r.start - fde.initial).toNat " larger than 0x10000000" ∧ 0x10000000 < (r.start - fde.initial).toNat),
  ("DWARF FDE for address ", fun rest x => ∃ fde a b, .ok fde ∈ inputs x.1 x.2 ∧
    rest = a ++ " had length ".toList ++ b ∧ readHex a = some fde.initial.toNat ∧
    Hex b fde.len.toNat " larger than 0x10000000" ∧ 0x10000000 < fde.len.toNat)]

/-- The text is the name of the register, or its number if it has none. -/
def Named (name : Reg → Option String) (r : Reg) (t : List Char) : Prop :=
  match name r with
  | some n => t = n.toList
  | none => read 10 t = some r.toNat

/-- The text tells the rule; `other` is what gimli prints for the rules that have no text of their own. -/
def ShowsRule (name : Reg → Option String) (other : RegRule → String) (t : List Char) : RegRule → Prop
  | .undefined => t = "<undefined>".toList
  | .sameValue => t = "<same>".toList
  | .offset o => ∃ d, t = "*(CFA".toList ++ d ++ ")".toList ∧ readInt d = some o.toInt
  | .valOffset o => ∃ d, t = "CFA".toList ++ d ∧ readInt d = some o.toInt
  | .register r => Named name r t
  | .constant v => read 10 t = some v.toNat
  | rule => t = (other rule).toList

/-- Why a row is not expressed. -/
def warnTable (g : GimliText) (arch : Architecture) : Table DwRow := [
  ("unsupported CFA source register `", fun rest row => ∃ r o t, row.cfa = .registerAndOffset r o ∧
    r.toNat ≠ spNum arch ∧ r.toNat ≠ fpNum arch ∧ rest = t ++ "`".toList ∧ Named (g.register arch) r t),
  ("CFA recovery rule requires evaluating a DWARF expression",
    fun rest row => rest = [] ∧ ∃ e, row.cfa = .expression e),
  ("CFA register offset ", fun rest row => ∃ r o, row.cfa = .registerAndOffset r o ∧ ¬ Fits32 o.toInt ∧
    Hex rest o.toNat " too large to be represented in the SFrame format"),
  ("FP register offset ", fun rest row => ∃ o, row.register (BitVec.ofNat 16 (fpNum arch)) = .offset o ∧
    ¬ Fits32 o.toInt ∧ Hex rest o.toNat " too large to represented in the SFrame format"),
  ("Unsupport FP recovery rule: `", fun rest row => fpRules arch row = none ∧ ∃ t, rest = t ++ "`".toList ∧
    ShowsRule (g.register arch) g.rule t (row.register (BitVec.ofNat 16 (fpNum arch)))),
  ("RA register offset ", fun rest row => ∃ o, row.register (BitVec.ofNat 16 (raNum arch)) = .offset o ∧
    ¬ Fits32 o.toInt ∧ Hex rest o.toNat " too large to represented in the SFrame format"),
  ("Unsupport RA recovery rule: `", fun rest row => raRules arch row = none ∧ ∃ t, rest = t ++ "`".toList ∧
    ShowsRule (g.register arch) g.rule t (row.register (BitVec.ofNat 16 (raNum arch))))]

/-- The line of a warning: it names the function, the offset of the row, and why the row is not expressed. -/
def ShowsWarning (g : GimliText) (arch : Architecture) (s : List Char) (fde : DwFde) (row : DwRow) : Prop :=
  ∃ a b msg, s = "warning: FDE for ".toList ++ a ++ "+".toList ++ b ++ ": ".toList ++ msg ∧
    readHex a = some fde.initial.toNat ∧ readHex b = some (row.start.toNat - fde.initial.toNat) ∧
    Truthful (warnTable g arch) msg row

/-! ### The lines of the legacy converter -/

/-- What the legacy converter prints for a rule without a text of its own: gimli's text, or the listing of the
expression. -/
def legacyOther (t : LegacyText) (a : ObjArch) : RegRule → String
  | .expression e => expressionText (t.ruleName a) "        " e
  | rule => t.rule rule

/-- The line of a register names it and tells its rule. -/
def ShowsRegister (t : LegacyText) (a : ObjArch) (s : List Char) (x : Reg × RegRule) : Prop :=
  ∃ n r, s = "    reg:    ".toList ++ n ++ " = ".toList ++ r ∧ Named t.name x.1 n ∧
    ShowsRule (t.ruleName a) (legacyOther t a) r x.2

/-- The lines of a row tell its range, its CFA, and the rules of its registers in order. -/
def ShowsDwRow (t : LegacyText) (a : ObjArch) (lines : List (List Char)) (row : DwRow) : Prop :=
  ∃ first cfa regs, lines = first :: cfa :: regs ∧
    (∃ x y, first = "  - offset: ".toList ++ x ++ " (end = ".toList ++ y ++ ")".toList ∧
      readHex x = some row.start.toNat ∧ readHex y = some row.end_.toNat) ∧
    (∃ z, cfa = "    cfa:    ".toList ++ z ∧ match row.cfa with
      | .registerAndOffset r o => ∃ n d, z = n ++ d ∧ Named t.name r n ∧ readInt d = some o.toInt ∧
          (d.head? = some '+' ∨ d.head? = some '-')
      | .expression e => z = (expressionText t.name "            " e).toList) ∧
    DebugText.Matched (ShowsRegister t a) regs row.registers

end Verif.Spec.Messages
