import Verif.Model.Dump
import Verif.Model.Main1
import Verif.Model.Main2
import Verif.Model.Texts
/-!
# The tools as processes: arguments of `sframedump`, exit codes, reports of errors

`main` returns `anyhow::Result<()>`.  Contract assumed of `std` and `anyhow`: an error is reported on stderr, as the chain of
its messages, outermost first, and the process ends with code 1; a panic ends it with code 101.

`getopts` is a parameter: what it makes of the arguments.  `clap` is not modelled.
-/

namespace Verif

/-! ### Reports -/

/-- What is not ours in a report: `gimli`'s texts, `Debug` of the architectures that are not supported, the text of an error of the operating system
or of a crate, and `FrameDescriptionEntry::offset` of the function at which the legacy converter stops. -/
structure OtherText where
  gimli : GimliText
  arch : ObjArch → String
  cause : CliError → String
  fdeOffset : Nat

/-- dwarf2sframe2/src/main.rs:34-113: the messages of an error, outermost first.  The errors of the other tools are given
no text. -/
def report2 (t : OtherText) (args : Args2) : CliError → List String
  -- 34
  | .open_ => ["failed to open `" ++ args.input ++ "`", t.cause .open_]
  -- 35-36
  | .mmap => ["failed to mmap `" ++ args.input ++ "`", t.cause .mmap]
  -- 37-38
  | .parse => ["failed to parse `" ++ args.input ++ "`", t.cause .parse]
  -- 46
  | .architecture a => ["Unsupported architecture: " ++ t.arch a]
  -- 51
  | .noSection => ["elf binary has no .eh_frame section"]
  -- 53-55
  | .decompress => ["failed to decompress the .eh_frame section", t.cause .decompress]
  -- 82; `Error` has no `source`, error.rs:66
  | .convert e => [e.text t.gimli]
  -- 88
  | .build e => ["failed to build the sframe section", e.text]
  -- 106-108
  | .emit => ["failed to emit the sframe object", t.cause .emit]
  -- 110-111
  | .write => ["failed to write to `" ++ args.output ++ "`", t.cause .write]
  | .legacy _ | .load _ => []

/-- `{:x?}` of a `u64`. -/
def fmtHex64 (x : U64) : String := String.ofList (Nat.toDigits 16 x.toNat)

/-- dwarf2sframe/src/main.rs:86-306: the messages of an error of the conversion. -/
def LegacyError.report (t : OtherText) : LegacyError → List String
  -- 86
  | .entry e => ["failed to read .eh_frame entry", t.gimli.error e]
  -- 95
  | .parse e => ["failed to parse the frame descriptor entry", t.gimli.error e]
  -- 101-108
  | .start a => ["DWARF FDE at " ++ fmtNat t.fdeOffset ++ " has an initial address " ++ fmtHex64 a ++
      " greater than 0x10000000 which cannot be represented in the SFrame format"]
  -- 110-117
  | .len l => ["DWARF FDE at " ++ fmtNat t.fdeOffset ++ " has function length " ++ fmtHex64 l ++
      " greater than 0x10000000 which cannot be represented in the SFrame format"]
  -- 121-123
  | .rows e => ["failed to read the rows of a FDE", t.gimli.error e]
  -- 138-144: `?` without a context
  | .dump e => [t.gimli.error e]
  -- 148-151
  | .nextRow e => ["failed to evaluate FDE unwind table row", t.gimli.error e]
  -- 152-160
  | .rowOffset => ["DWARF FDE unwind table row start address offset is greater than " ++
      "0x10000000 and cannot be represented in the SFrame format"]
  -- 304-306
  | .row e => ["Failed to build an invalid row for the FDE", e.text]

/-- dwarf2sframe/src/main.rs:34-347: the messages of an error.  The errors of the other tools are given no text. -/
def report1 (t : OtherText) (args : Args1) : CliError → List String
  -- 34
  | .open_ => ["failed to open `" ++ args.input ++ "`", t.cause .open_]
  -- 35-36
  | .mmap => ["failed to mmap `" ++ args.input ++ "`", t.cause .mmap]
  -- 37-38
  | .parse => ["failed to parse `" ++ args.input ++ "`", t.cause .parse]
  -- 46
  | .noSection => ["elf binary has no .eh_frame section"]
  -- 48-50
  | .decompress => ["failed to decompress the .eh_frame section", t.cause .decompress]
  -- 86-306
  | .legacy e => e.report t
  -- 317-319
  | .build e => ["failed to build the sframe section", e.text]
  -- 342-344
  | .emit => ["failed to emit the sframe object", t.cause .emit]
  -- 346-347
  | .write => ["failed to write to `" ++ args.output ++ "`", t.cause .write]
  | .architecture _ | .convert _ | .load _ => []

/-- sframedump/src/main.rs:46-61: the messages of an error.  The errors of the other tools are given no text. -/
def reportDump (t : OtherText) (path : String) : CliError → List String
  -- 46
  | .open_ => ["failed to open `" ++ path ++ "`", t.cause .open_]
  -- 47-48
  | .mmap => ["failed to mmap `" ++ path ++ "`", t.cause .mmap]
  -- 49-50
  | .parse => ["failed to parse `" ++ path ++ "`", t.cause .parse]
  -- 54
  | .noSection => ["elf binary has no .sframe section"]
  -- 57-59
  | .decompress => ["failed to decompress the .eh_frame section", t.cause .decompress]
  -- 61
  | .load e => ["failed to decode .sframe section", e.text]
  | _ => []

/-! ### `sframedump` with its arguments -/

/-- What a process does to the outside: the listing on stdout and stderr, whether the help text is printed on stderr, the
messages of the error that it reports, and the exit code (`none` if it does not end). -/
structure Ended where
  lines : List DumpLine
  help : Bool
  report : List String
  code : Option Nat
  deriving DecidableEq, Repr

/-- What `getopts` makes of the arguments: whether there is a flag `-h` or `--help`, and what is not an option; or the
text of its error. -/
structure Matches where
  help : Bool
  free : List String
  deriving DecidableEq, Repr

/-- The exit code of a run. -/
def exitCode {α : Type} : Rust (Except CliError α) → Option Nat
  | .ok (.ok _) => some 0
  | .ok (.error _) => some 1
  | .panic _ => some 101
  | .diverge => none

/-- The report of a run. -/
def reportOf {α : Type} (text : CliError → List String) : Rust (Except CliError α) → List String
  | .ok (.error e) => text e
  | _ => []

/-- sframedump/src/main.rs:26-66 `main`. -/
def sframedumpMain (dbg : Bool) (t : OtherText) (w : World) (parse : List String → Except String Matches)
    (args : List String) : Ended :=
  -- 30
  match parse args with
  | .error e => ⟨[], false, [e], some 1⟩
  | .ok m =>
    -- 32-35
    if m.help then ⟨[], true, [], some 0⟩
    -- 37-39
    else if m.free.isEmpty then ⟨[], false, ["no object file input provided"], some 1⟩
    -- 41-43
    else if m.free.length != 1 then
      ⟨[], false, ["at most one object file can be provided as an input"], some 1⟩
    else
      -- 45-66
      let path := m.free[0]!
      let (ls, r) := sframedump dbg w path
      ⟨ls, false, reportOf (reportDump t path) r, exitCode r⟩

/-- dwarf2sframe2/src/main.rs:30-114 `main`, after argument parsing: the report and the exit code. -/
def ended2 (dbg : Bool) (t : OtherText) (w : World) (args : Args2) : List String × Option Nat :=
  (reportOf (report2 t args) (runMain2 dbg w args).1, exitCode (runMain2 dbg w args).1)

/-- dwarf2sframe/src/main.rs:30-350 `main`, after argument parsing: the report and the exit code. -/
def ended1 (dbg : Bool) (t : OtherText) (w : World) (args : Args1) : List String × Option Nat :=
  (reportOf (report1 t args) (runMain1 dbg w args).1, exitCode (runMain1 dbg w args).1)

end Verif
