import Verif.Model.Dump
import Verif.Model.Report
import Verif.Model.Report1
import Verif.Model.Main2
/-!
# The tools with streams that fail

The other files assume that printing succeeds.  Here stdout and stderr may refuse what is printed at any time, as a full
disk or a pipe without a reader does.  (If there is no descriptor at all, `std` takes it as a success.)

Contract assumed of `std`: `write_all` hands over a part of the bytes from the start, and fails unless the part is the
whole; `BufWriter` is modelled as it is in the standard library (capacity 8192); dropping it writes what is left and
ignores a failure; `println!` and `eprintln!` panic if they fail.  "Stdout" is `std::io::Stdout`; the line that it
may hold back in a buffer of its own counts as written.
-/

namespace Verif

/-- A stream, by what happens to attempt number `k` to hand over bytes: how many of them it takes (all if the number is
large enough), and whether a `flush` of it succeeds. -/
structure Sink where
  takes : Nat → List UInt8 → Nat
  flushes : Nat → Bool

/-- `std::io::BufWriter` on a sink: the buffer, what the sink has taken, the number of attempts so far. -/
structure BufWriter where
  buf : List UInt8
  sent : List UInt8
  attempts : Nat
  deriving DecidableEq, Repr

namespace BufWriter

/-- `BufWriter::new` -/
def new : BufWriter := { buf := [], sent := [], attempts := 0 }

/-- The default capacity. -/
def capacity : Nat := 8192

/-- Handing over `bytes`: whether all are taken, and the writer, with what is left of them in the buffer. -/
def handOver (k : Sink) (w : BufWriter) (bytes : List UInt8) : Bool × BufWriter :=
  let n := k.takes w.attempts bytes
  (decide (bytes.length ≤ n),
    { buf := bytes.drop n, sent := w.sent ++ bytes.take n, attempts := w.attempts + 1 })

/-- `flush_buf` -/
def flushBuf (k : Sink) (w : BufWriter) : Bool × BufWriter := handOver k w w.buf

/-- `write_all`: into the buffer if there is room; else the buffer is emptied first, and what would fill it goes to the
sink directly (if that fails, the buffer stays empty). -/
def writeAll (k : Sink) (w : BufWriter) (bytes : List UInt8) : Bool × BufWriter :=
  if bytes.length < capacity - w.buf.length then (true, { w with buf := w.buf ++ bytes })
  else
    let (ok, w) := if bytes.length > capacity - w.buf.length then w.flushBuf k else (true, w)
    if !ok then (false, w)
    else if bytes.length ≥ capacity then
      let (ok, w') := w.handOver k bytes
      (ok, { w' with buf := [] })
    else (true, { w with buf := w.buf ++ bytes })

/-- `flush` -/
def flush (k : Sink) (w : BufWriter) : Bool × BufWriter :=
  let (ok, w) := w.flushBuf k
  (ok && k.flushes w.attempts, w)

/-- `Drop for BufWriter`: the result is ignored. -/
def drop (k : Sink) (w : BufWriter) : BufWriter := (w.flushBuf k).2

end BufWriter

/-- What is done with the writer. -/
inductive StreamOp
  | write (bytes : List UInt8)
  | flush
  deriving DecidableEq, Repr

/-- The operations in order, each with `?`: whether all succeed, and the writer in the end. -/
def runOps (k : Sink) : List StreamOp → BufWriter → Bool × BufWriter
  | [], w => (true, w)
  | op :: ops, w =>
    match (match op with
      | .write bytes => w.writeAll k bytes
      | .flush => w.flush k) with
    | (true, w) => runOps k ops w
    | (false, w) => (false, w)

/-- The bytes of a text. -/
def utf8 (s : String) : List UInt8 := s.toList.flatMap String.utf8EncodeChar

/-- How a formatting macro cuts a line into pieces; each is written with `write_all`. -/
abbrev Cut := String → List (List UInt8)

/-- A line printed with `writeln!`. -/
def writeLine (cut : Cut) (line : String) : List StreamOp := (cut (line ++ "\n")).map .write

/-- sframedump/src/main.rs:68-156: what `dump` does with the writer. -/
def dumpOps (abiText : U8 → String) (cut : Cut) (ls : List DumpLine) : List StreamOp :=
  ls.flatMap fun
  -- 114-115
  | .decodeError _ => [.flush]
  | l => (l.stdout abiText).flatMap (writeLine cut)

/-- Why `sframedump` fails: as before, or since stdout fails (`none`). -/
abbrev StreamError := Option CliError

/-- sframedump/src/main.rs:26-66, on a stdout that may fail: the result, and what stdout has taken when the process
ends.  Stderr is assumed to work. -/
def sframedumpOn (k : Sink) (abiText : U8 → String) (cut : Cut) (dbg : Bool) (w : World) (path : String) :
    Rust (Except StreamError Unit) × List UInt8 :=
  let (ls, r) := sframedump dbg w path
  let (ok, bw) := runOps k (dumpOps abiText cut ls) BufWriter.new
  -- 63-66: `w` is dropped at the end of `main`, without a `flush`
  (if ok then r.bind fun x => .ok (x.mapError some) else .ok (.error none), (bw.drop k).sent)

/-- dwarfdump.rs:58-116, on a stdout that may fail: the run, and what stdout has taken in the end (`stdout` is what is
printed if nothing fails).  Stderr is assumed to work. -/
def dwarfdumpOn (k : Sink) (cut : Cut) (dbg : Bool) (w : DumpWorld) (arg : Option String) :
    DumpRun × List UInt8 :=
  let run := dwarfdump dbg w arg
  -- 111-113
  let (ok, bw) := runOps k (run.stdout.flatMap (writeLine cut)) BufWriter.new
  -- 75-78, 37-41
  let message := "Failed to dump '" ++ (arg.getD "" ++ "': IoError")
  let failed : DumpRun := { stdout := run.stdout, stderr := [message], result := .ok (.ok ()) }
  if !ok then (failed, (bw.drop k).sent)
  -- 114, if line 113 succeeds
  else if run.stderr = [] ∧ run.result = .ok (.ok ()) then
    let (ok, bw) := bw.flush k
    (if ok then run else failed, (bw.drop k).sent)
  else (run, (bw.drop k).sent)

/-- Stdout and stderr of a converter: whether print number `i` of the run succeeds.  A print that fails is a panic, or an
error if it is in the listing of instructions (`writeln!` with `?`); `listing` says where that is. -/
structure Console where
  works : Nat → Bool
  listing : Nat → Bool

/-- The first of `n` prints that fails. -/
def Console.firstFailure (c : Console) (n : Nat) : Option Nat := (List.range n).find? fun i => !c.works i

/-- dwarf2sframe2/src/main.rs: what is printed in a run.  Only line 82 prints. -/
def main2Prints (dbg : Bool) (g : GimliText) (w : World) (args : Args2) : List Event :=
  match (w.openFile args.input).bind w.mmap with
  | none => []
  | some data =>
    match w.parse data with
    | none => []
    | some file =>
      match cliArch file.architecture with
      | none => []
      | some arch =>
        match (file.sectionByName ".eh_frame").bind (·.data) with
        | none => []
        | some data =>
          (dwarf2sframeT dbg g (w.ehFrame data file.endianness)
            (cliOptions args arch file.endianness (cliBases file))).1

/-- `dwarf2sframe2` with streams that may fail: all of its prints come before the file is written.  `io` is
`gimli::Error::Io`, to which `?` converts an error of stdout (dump.rs). -/
def runMain2On (c : Console) (io : GErr) (dbg : Bool) (g : GimliText) (w : World) (args : Args2) :
    Rust (Except CliError Unit) × List WriteCall :=
  match c.firstFailure (main2Prints dbg g w args).length with
  | none => runMain2 dbg w args
  | some i => (if c.listing i then .ok (.error (.convert (.invalidDwarfFde io))) else .panic .explicit, [])

/-- The legacy converter with streams that may fail, likewise. -/
def runMain1On (c : Console) (io : GErr) (dbg : Bool) (t : LegacyText) (w : World) (args : Args1) :
    Rust (Except CliError Unit) × List WriteCall :=
  match c.firstFailure (main1Prints dbg t w args).length with
  | none => runMain1 dbg w args
  | some i => (if c.listing i then .ok (.error (.legacy (.dump io))) else .panic .explicit, [])

end Verif
