import Verif.Spec.Convert
import Verif.Model.Report
/-!
# The debug dump of the converter, function by function
-/

namespace Verif.Spec

/-- The lines for a function before its instructions. -/
def reportTop (fde : DwFde) : List String :=
  ["FDE:", " start_address: " ++ fmtAltHexPad 10 fde.initial.toNat,
    "    range_size: " ++ (fmtAltHexPad 10 fde.len.toNat ++ (" (end_addr = " ++
      (fmtAltHexPad 10 (fde.initial + fde.len).toNat ++ ")")))]

/-- The instructions of a function. -/
def reportCode (g : GimliText) (arch : Architecture) (fde : DwFde) : List String :=
  (listInstructions false (g.register arch) g.error fde.instructions).1

/-- The lines for a function before its rows. -/
def reportHead (g : GimliText) (arch : Architecture) (fde : DwFde) : List String :=
  reportTop fde ++ reportCode g arch fde ++ ["", "Rows:"]

/-- The lines for a row: its range, its CFA and the rules of its registers. -/
def reportRow (g : GimliText) (arch : Architecture) (row : DwRow) : List String :=
  ["  - offset: " ++ (fmtAltHexPad 10 row.start.toNat ++ (" (end = " ++ (fmtAltHexPad 10 row.end_.toNat ++ ")"))),
    "    cfa:    " ++ match row.cfa with
      | .registerAndOffset r o => registerText g arch r ++ fmtSigned64 o
      | .expression e => g.expr e] ++
  row.registers.map fun x => "    reg:    " ++ (registerText g arch x.1 ++ (" = " ++ ruleText g arch x.2))

/-- The lines for a function. -/
def reportFde (g : GimliText) (arch : Architecture) (fde : DwFde) : List String :=
  reportHead g arch fde ++ (rowsOf fde).flatMap (reportRow g arch) ++ [""]

/-- The debug dump of some functions. -/
def report (g : GimliText) (arch : Architecture) (fdes : List DwFde) : List String :=
  fdes.flatMap (reportFde g arch)

/-- The warning for a row, if one is due. -/
def rowWarning (opts : Options) (fde : DwFde) (row : DwRow) : List Warning :=
  if opts.warnings ∧ row.start ≠ row.end_ then
    ((complaint opts.arch row).map fun msg => {
      start := fde.initial
      offset := row.start - fde.initial
      digits := (fde.len.toNat.log2 + 3) / 4 + 2
      msg := msg }).toList
  else []

/-- The warnings for the rows of some functions. -/
def warningsOf (opts : Options) (fdes : List DwFde) : List Warning :=
  fdes.flatMap fun fde => (rowsOf fde).flatMap (rowWarning opts fde)

/-- What is printed for the input at which the conversion stops: on stdout if the debug dump is on, and
on stderr. -/
inductive Trail (dbg : Bool) (g : GimliText) (so : SFrameOptions) (opts : Options) :
    Except ConvError DwFde → List String → List Warning → Prop
  /-- An entry that cannot be parsed: nothing. -/
  | unread (e) : Trail dbg g so opts (.error e) [] []
  /-- The end of the function overflows: two lines. -/
  | overflow (fde) : dbg = true → DumpOverflows opts fde → Trail dbg g so opts (.ok fde) ((reportTop fde).take 2) []
  /-- An operation that cannot be decoded: the instructions up to there. -/
  | dump (fde) : ¬ (dbg = true ∧ DumpOverflows opts fde) → ¬ DumpOk opts fde →
      Trail dbg g so opts (.ok fde) (reportTop fde ++ reportCode g opts.arch fde) []
  /-- Start or length too large, or rows that cannot be had: everything but the rows. -/
  | refused (fde) : ¬ (dbg = true ∧ DumpOverflows opts fde) → DumpOk opts fde →
      (2147483647 < fde.initial.toNat ∨ 2147483647 < fde.len.toNat ∨ ∃ e, fde.rows = .error e) →
      Trail dbg g so opts (.ok fde) (reportHead g opts.arch fde) []
  /-- A row that cannot be decoded: the rows before it. -/
  | undecodable (fde rs e rest) : DumpOk opts fde → fde.initial.toNat ≤ 2147483647 → fde.len.toNat ≤ 2147483647 →
      fde.rows = .ok (rs.map .ok ++ .error e :: rest) → Clean so opts.arch fde rs →
      Trail dbg g so opts (.ok fde) (reportHead g opts.arch fde ++ rs.flatMap (reportRow g opts.arch))
        (rs.flatMap (rowWarning opts fde))
  /-- A row too far from the start of the function: the rows up to and including it, and no warning for it. -/
  | far (fde rs r rest) : DumpOk opts fde → fde.initial.toNat ≤ 2147483647 → fde.len.toNat ≤ 2147483647 →
      fde.rows = .ok (rs.map .ok ++ .ok r :: rest) → Clean so opts.arch fde rs → r.start ≠ r.end_ → ¬ Near fde r →
      Trail dbg g so opts (.ok fde) (reportHead g opts.arch fde ++ (rs ++ [r]).flatMap (reportRow g opts.arch))
        (rs.flatMap (rowWarning opts fde))
  /-- A row that cannot stand in the function: the rows up to and including it, and its warning unless the
  function is empty. -/
  | misplaced (fde rs r rest) : DumpOk opts fde → fde.initial.toNat ≤ 2147483647 → fde.len.toNat ≤ 2147483647 →
      fde.rows = .ok (rs.map .ok ++ .ok r :: rest) → Clean so opts.arch fde rs → r.start ≠ r.end_ → Near fde r →
      ¬ Clean so opts.arch fde (rs ++ [r]) →
      Trail dbg g so opts (.ok fde) (reportHead g opts.arch fde ++ (rs ++ [r]).flatMap (reportRow g opts.arch))
        (rs.flatMap (rowWarning opts fde) ++ if fde.len = 0#64 then [] else rowWarning opts fde r)

end Verif.Spec
