import Verif.Model.Object
import Verif.Model.Read
/-!
# Model of `crates/sframedump/src/main.rs`

The output is a list of lines, as data; `DumpLine.text` gives the text of the lines that describe
functions and rows.  Writing to stdout is assumed to succeed; argument parsing is not modelled.
-/

namespace Verif

/-- A line of output.  `decodeError` goes to stderr, the others to stdout. -/
inductive DumpLine
  /-- main.rs:69-92: the lines of the header -/
  | header (version flags : U8) (numFdes numFres : U32) (abi : U8) (fixedFp fixedRa : Option I8)
  /-- main.rs:95-100 -/
  | func (idx : Nat) (pc : I32) (size : U32)
  /-- main.rs:108 -/
  | columns (ty : FdeType)
  /-- main.rs:145-149; `none` is printed as `u` -/
  | row (start : I32) (base : BaseReg) (cfa fp ra : Option I32) (mangled : Bool)
  /-- main.rs:115 -/
  | decodeError (e : ReadError)
  /-- main.rs:152 -/
  | blank
  deriving DecidableEq, Repr

/-! ### Text -/

/-- `{:x}` of an integer of 32 bits (a signed one as its two's complement). -/
def fmtHex (x : BitVec 32) : String := String.ofList (Nat.toDigits 16 x.toNat)

/-- `{:016x}` -/
def fmtHex16 (x : BitVec 32) : String :=
  let s := Nat.toDigits 16 x.toNat
  String.ofList (List.replicate (16 - s.length) '0' ++ s)

/-- `{:+}` of an `i32`. -/
def fmtSigned (x : I32) : String :=
  if x.toInt < 0 then "-" ++ String.ofList (Nat.toDigits 10 x.toInt.natAbs)
  else "+" ++ String.ofList (Nat.toDigits 10 x.toInt.natAbs)

/-- `{: <12}` -/
def padRight12 (s : String) : String := s ++ String.ofList (List.replicate (12 - s.length) ' ')

/-- main.rs:125-138: an offset from a register, or `u`. -/
def fmtOffset (base : String) : Option I32 → String
  | some offset => base ++ fmtSigned offset
  | none => "u"

/-- main.rs:120-123 -/
def fmtBase : BaseReg → String
  | .fp => "fp"
  | .sp => "sp"

/-- main.rs:102-106 -/
def fmtMarker : FdeType → String
  | .pcInc => "   "
  | .pcMask => "[m]"
  | .pcMaskV1 => "[1]"

/-- `{}` of an optional `i8` as printed on lines 75-92. -/
def fmtFixed : Option I8 → String
  | some x => (if x.toInt < 0 then "-" else "") ++ String.ofList (Nat.toDigits 10 x.toInt.natAbs)
  | none => "none"

/-- main.rs:69-92: the lines of the header.  The name of the ABI is printed by the `Debug` instance
that the macro `c_enum!` generates; `abiText` stands for it. -/
def headerText (abiText : U8 → String) (version flags : U8) (numFdes numFres : U32) (abi : U8)
    (fixedFp fixedRa : Option I8) : List String := [
  "Header:",
  "  Version:  " ++ String.ofList (Nat.toDigits 10 version.toNat),
  "  Flags:    0x" ++ String.ofList (Nat.toDigits 16 flags.toNat),
  "  Num FDEs: " ++ String.ofList (Nat.toDigits 10 numFdes.toNat),
  "  Num FREs: " ++ String.ofList (Nat.toDigits 10 numFres.toNat),
  "  Arch/ABI: " ++ abiText abi,
  "  Fixed FP Offset: " ++ fmtFixed fixedFp,
  "  Fixed RA Offset: " ++ fmtFixed fixedRa,
  "",
  "Function Index:"]

/-- The text of a line of stdout (the header apart). -/
def DumpLine.text : DumpLine → Option String
  -- 95-100
  | .func idx pc size => some ("  func idx [" ++ String.ofList (Nat.toDigits 10 idx) ++ "]: pc = 0x" ++
      fmtHex pc ++ ", size = " ++ String.ofList (Nat.toDigits 10 size.toNat) ++ " bytes")
  -- 108
  | .columns ty => some ("  STARTPC " ++ fmtMarker ty ++ "      CFA          FP           RA")
  -- 120-149
  | .row start base cfa fp ra mangled => some ("  " ++ fmtHex16 start ++ " " ++
      padRight12 (fmtOffset (fmtBase base) cfa) ++ " " ++ padRight12 (fmtOffset "cfa" fp) ++ " " ++
      fmtOffset "cfa" ra ++ (if mangled then " [s]" else ""))
  -- 152
  | .blank => some ""
  | _ => none

/-- The lines of text on stdout. -/
def DumpLine.stdout (abiText : U8 → String) : DumpLine → List String
  | .header version flags numFdes numFres abi fixedFp fixedRa =>
    headerText abiText version flags numFdes numFres abi fixedFp fixedRa
  | l => l.text.toList

/-- Everything printed to stdout: `writeln!` ends each line. -/
def stdoutText (abiText : U8 → String) (ls : List DumpLine) : String :=
  String.join ((ls.flatMap (DumpLine.stdout abiText)).map (· ++ "\n"))

/-! ### Control flow -/

variable {o : Endian}

/-- What has been printed, and how the run ended. -/
abbrev Printed := List DumpLine × Rust Unit

/-- `x; y`: what `x` prints, then if `x` returns what `y` prints. -/
def Printed.andThen (x : Printed) (y : Printed) : Printed :=
  match x with
  | (ls, .ok ()) => (ls ++ y.1, y.2)
  | x => x

/-- main.rs:120-149: the line of a row. -/
def dumpRow (dbg : Bool) (s : SFrame o) (fre : FrameRowEntry o) : Printed :=
  match fre.startAddress dbg with
  | .ok start => ([.row start fre.baseReg fre.cfaOffset.toOption (fre.fpOffset s).toOption
      (fre.raOffset s).toOption fre.mangled], .ok ())
  | .panic p => ([], .panic p)
  | .diverge => ([], .diverge)

/-- main.rs:110-150: the loop over the rows. -/
def dumpRowsFuel (dbg : Bool) (s : SFrame o) : Nat → FrameRowIter o → Printed
  | fuel, it =>
    match it.next with
    | .panic p => ([], .panic p)
    | .diverge => ([], .diverge)
    | .ok (none, _) => ([], .ok ())
    -- 113-117
    | .ok (some (.error e), _) => ([.decodeError e], .ok ())
    | .ok (some (.ok fre), it') =>
      (dumpRow dbg s fre).andThen (match fuel with
        | 0 => ([], .diverge)
        | fuel + 1 => dumpRowsFuel dbg s fuel it')

/-- main.rs:95-152: one function. -/
def dumpFde (dbg : Bool) (s : SFrame o) (idx : Nat) (e : FuncDescEntry o) : Printed :=
  -- 95-108
  Printed.andThen ([.func idx e.startAddress e.size, .columns e.fdetype], .ok ()) <|
  -- 110-150
  Printed.andThen (dumpRowsFuel dbg s e.fde.numFres.toNat e.iter)
  -- 152
  ([.blank], .ok ())

/-- main.rs:94-153: the loop over the functions. -/
def dumpFdesFuel (dbg : Bool) (s : SFrame o) : Nat → Nat → FuncDescIter o → Printed
  | fuel, idx, it =>
    match it.next with
    | (none, _) => ([], .ok ())
    | (some e, it') =>
      (dumpFde dbg s idx e).andThen (match fuel with
        | 0 => ([], .diverge)
        | fuel + 1 => dumpFdesFuel dbg s fuel (idx + 1) it')

/-- main.rs:68-156 `dump`. -/
def dump (dbg : Bool) (s : SFrame o) : Printed :=
  Printed.andThen
    ([.header s.version s.flags s.numFdes s.numFres s.abi s.fixedFpOffset s.fixedRaOffset], .ok ())
    (dumpFdesFuel dbg s s.iter.sizeHint.1 0 s.iter)

/-- main.rs:45-66 of `main`: the lines printed and the result.  `SFrame` is `SFrame<NativeEndian>`. -/
def sframedump (dbg : Bool) (w : World) (path : String) : List DumpLine × Rust (Except CliError Unit) :=
  match w.openFile path with
  | none => ([], .ok (.error .open_))
  | some file =>
  match w.mmap file with
  | none => ([], .ok (.error .mmap))
  | some data =>
  match w.parse data with
  | none => ([], .ok (.error .parse))
  | some file =>
  match file.sectionByName ".sframe" with
  | none => ([], .ok (.error .noSection))
  | some section_ =>
  match section_.data with
  | none => ([], .ok (.error .decompress))
  | some data =>
  match SFrame.load w.host data with
  | .panic p => ([], .panic p)
  | .diverge => ([], .diverge)
  | .ok (.error e) => ([], .ok (.error (.load e)))
  | .ok (.ok sframe) => ((dump dbg sframe).1, (dump dbg sframe).2.bind fun () => .ok (.ok ()))

end Verif
