import Verif.Spec.Fre
import Verif.Spec.Numeral
/-!
# Reading a text of the form that `{:?}` gives

A reader that knows brackets, commas and labels only, and what it should find in the text of a section.
-/

namespace Verif.Spec.DebugText

/-- Without spaces at either end. -/
def trim (s : List Char) : List Char :=
  ((s.dropWhile (· == ' ')).reverse.dropWhile (· == ' ')).reverse

/-- How many brackets are open behind a character, if `d` were before it. -/
def depth (d : Nat) (c : Char) : Nat :=
  if c = '(' ∨ c = '[' ∨ c = '{' then d + 1 else if c = ')' ∨ c = ']' ∨ c = '}' then d - 1 else d

/-- Splits at the commas that stand in no bracket; `acc` is the piece so far, backwards. -/
def split : Nat → List Char → List Char → List (List Char)
  | _, acc, [] => [acc.reverse]
  | d, acc, c :: s => if d = 0 ∧ c = ',' then acc.reverse :: split 0 [] s else split (depth d c) (c :: acc) s

/-- The pieces between commas. -/
def items (s : List Char) : List (List Char) := if trim s = [] then [] else (split 0 [] s).map trim

/-- What comes before the first bracket `l` and what stands from there to the last character, which is
the bracket `r`. -/
def inside (l r : Char) (s : List Char) : Option (List Char × List Char) :=
  match s.dropWhile (· != l) with
  | [] => none
  | _ :: t => if t.getLast? = some r then some (trim (s.takeWhile (· != l)), t.dropLast) else none

/-- The values of a list. -/
def list (s : List Char) : Option (List (List Char)) :=
  (inside '[' ']' s).bind fun x => if x.1 = [] then some (items x.2) else none

/-- The value that stands in parentheses behind a name. -/
def wrapped (name : String) (s : List Char) : Option (List Char) :=
  (inside '(' ')' s).bind fun x => if x.1 = name.toList then some x.2 else none

/-- The fields of a record of a name: labels and values. -/
def record (name : String) (s : List Char) : Option (List (List Char × List Char)) :=
  (inside '{' '}' s).bind fun x => if x.1 = name.toList then
    some ((items x.2).map fun p => (p.takeWhile (· != ':'), trim ((p.dropWhile (· != ':')).drop 1))) else none

/-- The value behind a label. -/
def field (fs : List (List Char × List Char)) (label : String) : Option (List Char) := fs.lookup label.toList

/-- Two lists of the same length whose members are related. -/
def Matched {α β : Type} (R : α → β → Prop) : List α → List β → Prop
  | [], [] => True
  | a :: as, b :: bs => R a b ∧ Matched R as bs
  | _, _ => False

/-- A text without spaces and line breaks. -/
def dense (s : List Char) : List Char := s.filter fun c => c != ' ' && c != '\n'

/-- A text without the commas that stand directly before a closing bracket. -/
def closeUp : List Char → List Char
  | [] => []
  | [c] => [c]
  | c :: d :: s => if c = ',' ∧ (d = ')' ∨ d = ']' ∨ d = '}') then closeUp (d :: s) else c :: closeUp (d :: s)

/-! ### What the texts should say -/

/-- The variants of raw/v2.rs:188-216 by number. -/
def freTypeNames : List String :=
  ["Addr1", "Addr2", "Addr4", "_Reserved3", "_Reserved4", "_Reserved5", "_Reserved6", "_Reserved7"]

/-- The variants of raw/v2.rs:299-309 by number. -/
def freOffsetNames : List String := ["_1B", "_2B", "_4B", "_Reserved3"]

/-- The variants of raw/v2.rs:165-185 by number. -/
def fdeTypeNames : List String := ["PcInc", "PcMask"]

/-- The text of an error (error.rs:6-35): its name, and in parentheses the number or the variant that
was found. -/
def ShowsError (s : List Char) : ReadError → Prop
  | .unsupportedVersion v => (wrapped "UnsupportedVersion" s).bind (Numeral.read 10) = some v.toNat
  | .unsupportedFdeType t => wrapped "UnsupportedFdeType" s = fdeTypeNames[t.toU8.toNat]?.map String.toList
  | .unsupportedFreType t => wrapped "UnsupportedFreType" s = freTypeNames[t.toU8.toNat]?.map String.toList
  | .unsupportedFreOffset t => wrapped "UnsupportedFreOffset" s = freOffsetNames[t.toU8.toNat]?.map String.toList
  | .unexpectedEof => s = "UnexpectedEof".toList
  | .incorrectEndian => s = "IncorrectEndian".toList
  | .invalidFreOffsetCount n => (wrapped "InvalidFreOffsetCount" s).bind (Numeral.read 10) = some n.toNat
  | .invalidFdeRepBlockSize => s = "InvalidFdeRepBlockSize".toList
  | .missingFreOffset => s = "MissingFreOffset".toList

/-- The text of a row. -/
def ShowsRow (s : List Char) (v : FreView) : Prop :=
  ∃ fs, record "FrameRowEntry" s = some fs ∧
    (field fs "start_address").bind (Numeral.read 10) = some v.start ∧
    field fs "cfa_base_reg_id" = some (if v.base = .fp then "Fp" else "Sp").toList ∧
    field fs "mangled_ra_p" = some (if v.mangled then "true" else "false").toList ∧
    ∃ l, (field fs "offsets").bind list = some l ∧ l.map Numeral.readInt = v.offsets.map some

/-- The text of what reading a row gave. -/
def ShowsResult (s : List Char) : Except ReadError FreView → Prop
  | .ok v => ∃ t, wrapped "Ok" s = some t ∧ ShowsRow t v
  | .error e => ∃ t, wrapped "Err" s = some t ∧ ShowsError t e

/-- The text of an optional signed number. -/
def ShowsOption (s : List Char) : Option Int → Prop
  | none => s = "None".toList
  | some x => (wrapped "Some" s).bind Numeral.readInt = some x

end Verif.Spec.DebugText
