import Verif.Model.Dwarfdump
import Verif.Spec.CfiText
/-!
# Reading the entries that `dwarfdump` prints

A line is a label, a colon and a value.
-/

namespace Verif.Spec.DwarfText

/-- The label of a line and what stands behind it. -/
def field (line : List Char) : List Char × List Char :=
  ((line.takeWhile (· != ':')).dropWhile (· == ' '), (line.dropWhile (· != ':')).drop 2)

/-! ### Values -/

/-- A number in base 16. -/
def Hex (n : Nat) (t : List Char) : Prop := Numeral.readHex t = some n

/-- A decimal number. -/
def Dec (n : Nat) (t : List Char) : Prop := Numeral.read 10 t = some n

/-- The encoding of a pointer, of which bits 4 to 6 are what it is relative to and bits 0 to 3 the format; `show_` is
how such are printed. -/
def Encoding (show_ : U8 → String) (e : U8) (t : List Char) : Prop :=
  t = (show_ (BitVec.ofNat 8 (e.toNat / 16 % 8 * 16))).toList ++ '/' :: (show_ (BitVec.ofNat 8 (e.toNat % 16))).toList

/-- A pointer; one to where the pointer is stands in parentheses. -/
def Ptr : Pointer → List Char → Prop
  | .direct p, t => Hex p.toNat t
  | .indirect p, t => ∃ u, DebugText.inside '(' ')' t = some ([], u) ∧ Hex p.toNat u

/-- An encoding and behind a space a pointer. -/
def EncodedPtr (show_ : U8 → String) (x : U8 × Pointer) (t : List Char) : Prop :=
  ∃ a b, t = a ++ ' ' :: b ∧ ' ' ∉ b ∧ Encoding show_ x.1 a ∧ Ptr x.2 b

/-- A size, and in parentheses where the range ends. -/
def Range (start len : Nat) (t : List Char) : Prop :=
  ∃ a b, Listing.words t = [a, "(end_addr".toList, "=".toList, b] ∧ Hex len a ∧
    ∃ c, Listing.before ")" b = some c ∧ Hex ((start + len) % 2 ^ 64) c

/-- A field that there may be. -/
def perhaps {α : Type} (label : String) (x : Option α) (value : α → List Char → Prop) :
    List (String × (List Char → Prop)) :=
  (x.map fun a => (label, value a)).toList

/-- The fields of a CIE. -/
def cieFields (name : Reg → Option String) (show_ : U8 → String) (c : DumpCie) : List (String × (List Char → Prop)) :=
  [("length", Hex c.entryLen.toNat), ("version", Hex c.version.toNat), ("code_align", Dec c.codeAlign.toNat),
   ("data_align", fun t => Numeral.readInt t = some c.dataAlign.toInt),
   ("ra_register", fun t => (CfiText.Operand.reg c.raRegister).Shown name t)] ++
  perhaps "lsda_encoding" c.lsdaEncoding (Encoding show_) ++
  perhaps "personality" c.personality (EncodedPtr show_) ++
  perhaps "fde_encoding" c.fdeEncoding (Encoding show_)

/-- The first fields of an FDE. -/
def fdeFields (entryLen cieOffset : U64) : List (String × (List Char → Prop)) :=
  [("length", Hex entryLen.toNat), ("CIE_pointer", Hex cieOffset.toNat)]

/-- The fields of the function of an FDE. -/
def functionFields (f : DumpFde) : List (String × (List Char → Prop)) :=
  [("start_addr", Hex f.initial.toNat), ("range_size", Range f.initial.toNat f.len.toNat)] ++
  perhaps "lsda" f.lsda Ptr ++ [("Instructions", fun t => t = [])]

/-- Lines show fields. -/
def Fields (fs : List (String × (List Char → Prop))) (ls : List (List Char)) : Prop :=
  DebugText.Matched (fun f l => (field l).1 = f.1.toList ∧ f.2 (field l).2) fs ls

/-! ### Entries -/

/-- The line that opens an entry. -/
def Opens (kind : String) (offset : U64) (l : List Char) : Prop :=
  Hex offset.toNat (field l).1 ∧ (field l).2 = kind.toList

/-- All instructions can be decoded. -/
def Decoded (l : List (Except GErr Insn)) : Prop := ∀ x ∈ l, x.isOk = true

/-- Lines show a CIE: its fields, its instructions, and if these can be decoded a line that says so. -/
def ShowsCie (name : Reg → Option String) (show_ : U8 → String) (error : GErr → String) (c : DumpCie)
    (ls : List (List Char)) : Prop :=
  ∃ opening fields insns mark, ls = [] :: opening :: (fields ++ insns ++ mark ++ [[]]) ∧
    Opens "CIE" c.offset opening ∧ Fields (cieFields name show_ c) fields ∧
    CfiText.Lists true name error c.instructions insns ∧
    ((Decoded c.instructions ∧ Fields [("Instructions", fun t => t = "Init State:".toList)] mark) ∨
     (¬ Decoded c.instructions ∧ mark = []))

/-- Lines show an FDE, of which `f` is what it says of a function, or why that is not known. -/
def ShowsFde (name : Reg → Option String) (error : GErr → String) (offset entryLen cieOffset : U64)
    (f : Except GErr DumpFde) (ls : List (List Char)) : Prop :=
  ∃ opening fields rest, ls = [] :: opening :: (fields ++ rest) ∧
    Opens "FDE" offset opening ∧ Fields (fdeFields entryLen cieOffset) fields ∧
    match f with
    | .error e => Fields [("Failed to parse FDE", fun t => t = (error e).toList)] rest
    | .ok f => ∃ fields insns, rest = fields ++ insns ++ [[]] ∧ Fields (functionFields f) fields ∧
        CfiText.Lists true name error f.instructions insns

end Verif.Spec.DwarfText
