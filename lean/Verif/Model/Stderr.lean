import Verif.Model.Stream
import Verif.Model.Process
/-!
# The dumpers with a stderr that fails, and crates/bpfunwind

`Model/Stream.lean` assumes that the messages of `sframedump` and `dwarfdump` can be printed.  Here stderr may refuse them.

Contract assumed of `std`: `eprintln!` panics if it fails, and the writer is dropped when the panic unwinds; the report of an
error that `main` returns, and that of a panic, are tried once and their failures ignored.
-/

namespace Verif

/-- Stderr: whether it takes message number `i` of the run. -/
abbrev Stderr := Nat → Bool

/-- What `dump` of `sframedump` does: something with the writer, or an `eprintln!`. -/
inductive DumpStep
  | out (op : StreamOp)
  | message
  deriving DecidableEq, Repr

/-- sframedump/src/main.rs:68-156: what `dump` does. -/
def dumpSteps (abiText : U8 → String) (cut : Cut) (ls : List DumpLine) : List DumpStep :=
  ls.flatMap fun
  -- 114-115
  | .decodeError _ => [.out .flush, .message]
  | l => ((l.stdout abiText).flatMap (writeLine cut)).map .out

/-- How the steps end: all succeed, stdout fails, or `eprintln!` panics. -/
inductive StepsEnd
  | done
  | stdout
  | stderr
  deriving DecidableEq, Repr

/-- The steps in order, from message number `n` on. -/
def runSteps (k : Sink) (e : Stderr) : List DumpStep → Nat → BufWriter → StepsEnd × BufWriter
  | [], _, w => (.done, w)
  | .message :: steps, n, w => if e n then runSteps k e steps (n + 1) w else (.stderr, w)
  | .out op :: steps, n, w =>
    match (match op with
      | .write bytes => w.writeAll k bytes
      | .flush => w.flush k) with
    | (true, w) => runSteps k e steps n w
    | (false, w) => (.stdout, w)

/-- sframedump/src/main.rs:45-66, with a stdout and a stderr that may fail: the result, and what stdout has taken when the
process ends. -/
def sframedumpWith (k : Sink) (e : Stderr) (abiText : U8 → String) (cut : Cut) (dbg : Bool) (w : World) (path : String) :
    Rust (Except StreamError Unit) × List UInt8 :=
  let (ls, r) := sframedump dbg w path
  let (end_, bw) := runSteps k e (dumpSteps abiText cut ls) 0 BufWriter.new
  (match end_ with
    | .done => r.bind fun x => .ok (x.mapError some)
    | .stdout => .ok (.error none)
    | .stderr => .panic .explicit, (bw.drop k).sent)

/-- The exit code of a run. -/
def codeOf {ε α : Type} : Rust (Except ε α) → Option Nat
  | .ok (.ok _) => some 0
  | .ok (.error _) => some 1
  | .panic _ => some 101
  | .diverge => none

/-- sframedump/src/main.rs:26-66 `main`, as `sframedumpMain`, with streams that may fail: the exit code, and what stdout has
taken. -/
def sframedumpProcess (k : Sink) (e : Stderr) (abiText : U8 → String) (cut : Cut) (dbg : Bool) (w : World)
    (parse : List String → Except String Matches) (args : List String) : Option Nat × List UInt8 :=
  -- 30
  match parse args with
  | .error _ => (some 1, [])
  | .ok m =>
    -- 32-35
    if m.help then (if e 0 then some 0 else some 101, [])
    -- 37-43
    else if m.free.isEmpty then (some 1, [])
    else if m.free.length != 1 then (some 1, [])
    else
      -- 45-66
      let (r, out) := sframedumpWith k e abiText cut dbg w m.free[0]!
      (codeOf r, out)

/-- dwarfdump.rs:58-81 `main`, with streams that may fail: the exit code, what stdout has taken and what stderr has taken of
line 77. -/
def dwarfdumpProcess (k : Sink) (e : Stderr) (cut : Cut) (dbg : Bool) (w : DumpWorld) (arg : Option String) :
    Option Nat × List UInt8 × List String :=
  let (run, out) := dwarfdumpOn k cut dbg w arg
  match run.stderr with
  | [] => (codeOf run.result, out, [])
  -- 77; there is one message at most
  | m :: _ => if e 0 then (codeOf run.result, out, [m]) else (some 101, out, [])

/-- bpfunwind/src/lib.rs:1-3 `add` -/
def bpfAdd (dbg : Bool) (left right : U64) : Rust U64 :=
  if dbg && decide (2 ^ 64 ≤ left.toNat + right.toNat) then .panic .overflow else .ok (left + right)

end Verif
