import Verif.Spec.Fre
import Verif.Spec.Builder
import Verif.Spec.Numeral
import Verif.Spec.DebugText
/-!
# Reading the listing of a section

A reader of text as `sframedump` prints it, which knows words, labels and numerals only, and what it
should find for a section.
-/

namespace Verif.Spec.Listing

/-- A row of the listing; `u` is read as `none`. -/
structure Row where
  start : Int
  cfa : Option (BaseReg × Int)
  fp : Option Int
  ra : Option Int
  signed : Bool
  deriving DecidableEq, Repr

/-- A function of the listing. -/
structure Func where
  index : Nat
  pc : Int
  size : Nat
  kind : FdeType
  rows : List Row
  deriving DecidableEq, Repr

/-- A listing. -/
structure Listing where
  version : Nat
  flags : Nat
  numFdes : Nat
  numFres : Nat
  abi : List Char
  fixedFp : Option Int
  fixedRa : Option Int
  funcs : List Func
  deriving DecidableEq, Repr

/-! ### Reading -/

/-- Splits at the character `sep`; `acc` is the piece so far, backwards.  Empty pieces are kept. -/
def splitAt (sep : Char) : List Char → List Char → List (List Char)
  | acc, [] => [acc.reverse]
  | acc, c :: s => if c = sep then acc.reverse :: splitAt sep [] s else splitAt sep (c :: acc) s

/-- The words of a line. -/
def words (s : List Char) : List (List Char) := (splitAt ' ' [] s).filter (· ≠ [])

/-- The lines of a text, each of which ends with a newline. -/
def lines (s : List Char) : List (List Char) := (splitAt '\n' [] s).dropLast

/-- An address of 32 bits in two's complement. -/
def address (n : Nat) : Int := if n < 2 ^ 31 then n else n - 2 ^ 32

/-- `u`, or an offset from the CFA. -/
def offset : List Char → Option (Option Int)
  | ['u'] => some none
  | 'c' :: 'f' :: 'a' :: l => (Numeral.readInt l).map some
  | _ => none

/-- `u`, or an offset from a register. -/
def register : List Char → Option (Option (BaseReg × Int))
  | ['u'] => some none
  | 's' :: 'p' :: l => (Numeral.readInt l).map fun x => some (.sp, x)
  | 'f' :: 'p' :: l => (Numeral.readInt l).map fun x => some (.fp, x)
  | _ => none

/-- The words of a row. -/
def rowWords (a c f r : List Char) (signed : Bool) : Option Row :=
  (Numeral.read 16 a).bind fun n => (register c).bind fun cfa => (offset f).bind fun fp =>
    (offset r).bind fun ra => some ⟨address n, cfa, fp, ra, signed⟩

/-- The line of a row; `[s]` marks a signed return address. -/
def row (line : List Char) : Option Row :=
  match words line with
  | [a, c, f, r] => rowWords a c f r false
  | [a, c, f, r, m] => if m = "[s]".toList then rowWords a c f r true else none
  | _ => none

/-- The heading of a function, with the mark of its type. -/
def heading (line : List Char) : Option FdeType :=
  match words line with
  | [s, c, f, r] =>
    if [s, c, f, r] = ["STARTPC", "CFA", "FP", "RA"].map String.toList then some .pcInc else none
  | [s, m, c, f, r] =>
    if [s, c, f, r] ≠ ["STARTPC", "CFA", "FP", "RA"].map String.toList then none
    else if m = "[m]".toList then some .pcMask
    else if m = "[1]".toList then some .pcMaskV1
    else none
  | _ => none

/-- What stands before a last part `e`. -/
def before (e : String) (s : List Char) : Option (List Char) :=
  if e.toList.isSuffixOf s then some (s.take (s.length - e.toList.length)) else none

/-- The line of a function: its number, address and size. -/
def func (line : List Char) : Option (Nat × Int × Nat) :=
  match words line with
  | [w1, w2, i, w3, w4, p, w5, w6, n, w7] =>
    if [w1, w2, w3, w4, w5, w6, w7] = ["func", "idx", "pc", "=", "size", "=", "bytes"].map String.toList then
      match i with
      | '[' :: i =>
        ((before "]:" i).bind (Numeral.read 10)).bind fun i =>
          ((before "," p).bind Numeral.readHex).bind fun p =>
            (Numeral.read 10 n).bind fun n => some (i, address p, n)
      | _ => none
    else none
  | _ => none

/-- The rows up to an empty line, and the lines behind it. -/
def rows : List (List Char) → Option (List Row × List (List Char))
  | [] => none
  | l :: ls =>
    if words l = [] then some ([], ls)
    else (row l).bind fun r => (rows ls).bind fun (rs, rest) => some (r :: rs, rest)

/-- The functions; `fuel` bounds their number. -/
def funcs : Nat → List (List Char) → Option (List Func)
  | _, [] => some []
  | fuel + 1, f :: h :: ls =>
    (func f).bind fun (i, p, n) => (heading h).bind fun k => (rows ls).bind fun (rs, rest) =>
      (funcs fuel rest).bind fun fs => some (⟨i, p, n, k, rs⟩ :: fs)
  | _, _ => none

/-- The value behind a label. -/
def labelled (label : String) (line : List Char) : Option (List Char) :=
  if DebugText.trim (line.takeWhile (· != ':')) = label.toList then
    some (DebugText.trim ((line.dropWhile (· != ':')).drop 1))
  else none

/-- A number or `none`. -/
def fixed (s : List Char) : Option (Option Int) :=
  if s = "none".toList then some none else (Numeral.readInt s).map some

/-- A whole listing. -/
def read (text : List Char) : Option Listing :=
  match lines text with
  | l0 :: l1 :: l2 :: l3 :: l4 :: l5 :: l6 :: l7 :: l8 :: l9 :: ls =>
    if l0 = "Header:".toList ∧ words l8 = [] ∧ l9 = "Function Index:".toList then
      ((labelled "Version" l1).bind (Numeral.read 10)).bind fun version =>
      ((labelled "Flags" l2).bind Numeral.readHex).bind fun flags =>
      ((labelled "Num FDEs" l3).bind (Numeral.read 10)).bind fun numFdes =>
      ((labelled "Num FREs" l4).bind (Numeral.read 10)).bind fun numFres =>
      (labelled "Arch/ABI" l5).bind fun abi =>
      ((labelled "Fixed FP Offset" l6).bind fixed).bind fun fixedFp =>
      ((labelled "Fixed RA Offset" l7).bind fixed).bind fun fixedRa =>
      (funcs ls.length ls).bind fun fs => some ⟨version, flags, numFdes, numFres, abi, fixedFp, fixedRa, fs⟩
    else none
  | _ => none

/-! ### What should be found -/

/-- The row for a decoded entry of a function at `start`; a fixed offset of 0 is none. -/
def listedRow (fixedFp fixedRa start : Int) (v : FreView) : Row :=
  { start := (start + v.start).bmod (2 ^ 32)
    cfa := v.offsets[0]?.map fun x => (v.base, x)
    fp := if fixedFp ≠ 0 then some fixedFp
      else if fixedRa ≠ 0 then v.offsets[1]? else v.offsets[2]?
    ra := if fixedRa ≠ 0 then some fixedRa else v.offsets[1]?
    signed := v.mangled }

/-- The function for an entry of the table: its rows are those that can be decoded, up to the first that
cannot. -/
def listedFunc {o : Endian} (fixedFp fixedRa : Int) (idx : Nat) (e : FuncDescEntry o) : Func :=
  { index := idx
    pc := e.startAddress.toInt
    size := e.size.toNat
    kind := e.fdetype
    rows := ((decodeFres o e.fde.info.toNat e.fde.numFres.toNat e.fres).filterMap Except.toOption).map
      (listedRow fixedFp fixedRa e.startAddress.toInt) }

/-- A fixed offset; 0 stands for none. -/
def fixedOf (x : Int) : Option Int := if x = 0 then none else some x

/-- The listing of a section with the functions `es`. -/
def ofSection {o : Endian} (abiText : U8 → String) (s : SFrame o) (es : List (FuncDescEntry o)) : Listing :=
  { version := s.version.toNat
    flags := s.flags.toNat
    numFdes := s.numFdes.toNat
    numFres := s.numFres.toNat
    abi := DebugText.trim (abiText s.abi).toList
    fixedFp := fixedOf s.fixedFp.toInt
    fixedRa := fixedOf s.fixedRa.toInt
    funcs := es.mapIdx fun i e => listedFunc s.fixedFp.toInt s.fixedRa.toInt i e }

/-- The row for a row of a builder: fixed offsets are those of the section. -/
def builtRow (so : SFrameOptions) (f : FuncDescBuilder) (r : FrameRowBuilder) : Row :=
  { start := (f.startAddress.toInt + r.startAddress.toNat).bmod (2 ^ 32)
    cfa := r.offsets.map fun x => (r.baseReg, x.cfa.toInt)
    fp := match so.fixedFp with
      | some v => some v.val.toInt
      | none => r.offsets.bind fun x => x.fp.map BitVec.toInt
    ra := match so.fixedRa with
      | some v => some v.val.toInt
      | none => r.offsets.bind fun x => x.ra.map BitVec.toInt
    signed := r.mangled }

/-- The listing of what was put into a builder. -/
def ofBuilder (abiText : U8 → String) (b : SFrameBuilder) : Listing :=
  { version := 2
    flags := b.options.flags.toNat
    numFdes := (functions b).length
    numFres := ((functions b).map fun f => (Spec.rows f).length).sum
    abi := DebugText.trim (abiText b.options.abiArch).toList
    fixedFp := b.options.fixedFp.map fun v => v.val.toInt
    fixedRa := b.options.fixedRa.map fun v => v.val.toInt
    funcs := (functions b).mapIdx fun i f =>
      { index := i
        pc := f.startAddress.toInt
        size := f.size.toNat
        kind := if f.repSize.isSome then .pcMask else .pcInc
        rows := (Spec.rows f).map (builtRow b.options f) } }

end Verif.Spec.Listing
