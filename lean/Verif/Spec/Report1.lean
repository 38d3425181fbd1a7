import Verif.Spec.Legacy
import Verif.Spec.Report
import Verif.Model.Report1
/-!
# The output of the legacy converter, function by function
-/

namespace Verif.Spec

/-- The lines for a function before its rows. -/
def legacyCode (t : LegacyText) (fde : DwFde) : List String :=
  reportTop fde ++ "  Instructions:" :: (listInstructions true t.name t.error fde.instructions).1

/-- The line with the range of a row. -/
def offsetLine1 (row : DwRow) : String :=
  "  - offset: " ++ (fmtAltHexPad 10 row.start.toNat ++ (" (end = " ++ (fmtAltHexPad 10 row.end_.toNat ++ ")")))

/-- The line (or lines) of the CFA. -/
def cfaLine1 (t : LegacyText) : CfaRule → String
  | .registerAndOffset r o => "    cfa:    " ++ (regText t.name r ++ fmtSigned64 o)
  | .expression e => "    cfa:    " ++ expressionText t.name "            " e

/-- The line (or lines) of a register. -/
def regLine1 (t : LegacyText) (a : ObjArch) (x : Reg × RegRule) : String :=
  "    reg:    " ++ (regText t.name x.1 ++ (" = " ++ t.ruleText a x.2))

/-- The lines of a row. -/
def legacyLines (t : LegacyText) (a : ObjArch) (row : DwRow) : List String :=
  offsetLine1 row :: cfaLine1 t row.cfa :: row.registers.map (regLine1 t a)

/-- What is wrong with the CFA. -/
def legacyCfaNote (row : DwRow) : Option RowNote :=
  match row.cfa with
  | .expression e => some (.cfaExpression e)
  | .registerAndOffset r o =>
    if r.toNat ≠ 6 ∧ r.toNat ≠ 7 then some (.cfaRegister r)
    else if Fits32 o.toInt then none else some (.cfaOffset o)

/-- What is wrong with the place of the frame pointer. -/
def legacyFpNote (row : DwRow) : Option RowNote :=
  match row.register 6 with
  | .offset o => if Fits32 o.toInt then none else some (.fpOffset o)
  | _ => none

/-- What is wrong with the place of the return address. -/
def legacyRaNote (row : DwRow) : Option RowNote :=
  match row.register 16 with
  | .offset o => if Fits32 o.toInt then none else some (.raOffset o)
  | rule => some (.raRule rule)

/-- The first reason, if any, why a row cannot be expressed. -/
def legacyComplaint (row : DwRow) : Option RowNote :=
  ((legacyCfaNote row).or (legacyFpNote row)).or (legacyRaNote row)

/-- The message about the rule for RBP: any rule but an offset. -/
def fpMessage (row : DwRow) : List Event1 :=
  match row.register 6 with
  | .offset _ => []
  | .undefined => []
  | rule => [.fpRule rule]

/-- It is printed only if the CFA is fine. -/
def legacyFpMessage (row : DwRow) : List Event1 :=
  if legacyCfaNote row = none then fpMessage row else []

/-- A number in decimal. -/
def intText (x : Int) : String := if x < 0 then "-" ++ fmtNat x.natAbs else fmtNat x.natAbs

/-- A number, or none. -/
def placeText : Option Int → String
  | none => "None"
  | some x => "Some(" ++ (intText x ++ ")")

/-- The line that shows the rules that are stored. -/
def sframeLine (r : Rules) : String :=
  "    sframe: FrameRowOffsets { cfa: " ++ (intText r.cfa ++ (", ra: Some(" ++ (intText r.ra ++ ("), fp: " ++
    (placeText r.fp ++ " }")))))

/-- What is printed after the lines of a row: the rules that are stored, or why there are none. -/
def legacyOutcome (row : DwRow) : List Event1 :=
  legacyFpMessage row ++
  match legacyTranslate row with
  | some r => [.out (sframeLine r)]
  | none => (legacyComplaint row).toList.map .note

/-- All that is printed for a row. -/
def legacyRowEvents (t : LegacyText) (a : ObjArch) (row : DwRow) : List Event1 :=
  (legacyLines t a row).map .out ++ legacyOutcome row

/-- All that is printed for a function. -/
def legacyFdeEvents (t : LegacyText) (a : ObjArch) (fde : DwFde) : List Event1 :=
  (legacyCode t fde ++ ["", "Rows:"]).map .out ++ (rowsOf fde).flatMap (legacyRowEvents t a) ++ [.out ""]

/-- Why a row near its function cannot stand in it after the rows `rs`. -/
def misplacement (fde : DwFde) (rs : List DwRow) (row : DwRow) : Option FrameRowError :=
  if 2 ^ 28 ≤ row.start.toNat - fde.initial.toNat then some .startAddressTooLarge
  else if fde.len.toNat ≤ row.start.toNat - fde.initial.toNat then some .startAddressOutsideFde
  else if row.start ∈ rs.map DwRow.start then some .duplicateRow
  else none

/-- Rows that can be printed and can stand in the function. -/
structure Settled (fde : DwFde) (rs : List DwRow) : Prop where
  printable : ∀ r ∈ rs, Printable r
  inside : ∀ r ∈ rs, fde.initial.toNat ≤ r.start.toNat ∧
    r.start.toNat < fde.initial.toNat + fde.len.toNat ∧ r.start.toNat < fde.initial.toNat + 2 ^ 28
  distinct : rs.Pairwise fun r r' => r.start ≠ r'.start

/-- A function whose rows are read: neither its place nor its instructions nor its table are refused. -/
structure TableRead (fde : DwFde) (xs : List (Except GErr DwRow)) : Prop where
  start : fde.initial.toNat ≤ 2147483647
  len : fde.len.toNat ≤ 2147483647
  rows : fde.rows = .ok xs
  dump : dumpError fde = none

/-- What is printed for a function up to some of its rows. -/
def legacyPart (t : LegacyText) (a : ObjArch) (fde : DwFde) (rs : List DwRow) : List Event1 :=
  (legacyCode t fde ++ ["", "Rows:"]).map .out ++ rs.flatMap (legacyRowEvents t a)

/-- The end of the conversion at an input: what is printed for it, and the error or panic. -/
inductive Trail1 (dbg : Bool) (t : LegacyText) (a : ObjArch) :
    Except ConvError DwFde → List Event1 → Rust LegacyError → Prop
  /-- An entry that cannot be read. -/
  | entry (e) : Trail1 dbg t a (.error (.invalidEhFrameEntry e)) [] (.ok (.entry e))
  /-- A function that cannot be parsed. -/
  | parse (e) : Trail1 dbg t a (.error (.invalidDwarfFde e)) [] (.ok (.parse e))
  /-- The function starts too far up. -/
  | start (fde) : 2147483647 < fde.initial.toNat → Trail1 dbg t a (.ok fde) [] (.ok (.start fde.initial))
  /-- The function is too long. -/
  | len (fde) : fde.initial.toNat ≤ 2147483647 → 2147483647 < fde.len.toNat →
      Trail1 dbg t a (.ok fde) [] (.ok (.len fde.len))
  /-- The rows cannot be had. -/
  | rows (fde e) : fde.initial.toNat ≤ 2147483647 → fde.len.toNat ≤ 2147483647 → fde.rows = .error e →
      Trail1 dbg t a (.ok fde) [] (.ok (.rows e))
  /-- An operation in an instruction that cannot be decoded. -/
  | dump (fde xs e) : fde.initial.toNat ≤ 2147483647 → fde.len.toNat ≤ 2147483647 → fde.rows = .ok xs →
      dumpError fde = some e → Trail1 dbg t a (.ok fde) ((legacyCode t fde).map .out) (.ok (.dump e))
  /-- A row that cannot be decoded. -/
  | undecodable (fde rs e rest) : TableRead fde (rs.map .ok ++ .error e :: rest) → Settled fde rs →
      Trail1 dbg t a (.ok fde) (legacyPart t a fde rs) (.ok (.nextRow e))
  /-- A row before or too far from the start of the function: nothing of it is printed. -/
  | far (fde rs row rest) : TableRead fde (rs.map .ok ++ .ok row :: rest) → Settled fde rs → ¬ Near fde row →
      Trail1 dbg t a (.ok fde) (legacyPart t a fde rs)
        (if dbg = true ∧ row.start.toNat < fde.initial.toNat then .panic .overflow else .ok .rowOffset)
  /-- The expression for the CFA cannot be decoded: the range of the row is printed. -/
  | badCfa (fde rs row rest e) : TableRead fde (rs.map .ok ++ .ok row :: rest) → Settled fde rs → Near fde row →
      row.cfa = .expression e → ¬ Decodable e →
      Trail1 dbg t a (.ok fde) (legacyPart t a fde rs ++ [.out (offsetLine1 row)]) (.panic .unwrap)
  /-- The expression for a register cannot be decoded: what precedes it in the row is printed. -/
  | badRule (fde rs row rest xs r e ys) : TableRead fde (rs.map .ok ++ .ok row :: rest) → Settled fde rs →
      Near fde row → Printable { row with registers := xs } → row.registers = xs ++ (r, .expression e) :: ys →
      ¬ Decodable e →
      Trail1 dbg t a (.ok fde) (legacyPart t a fde rs ++ ((legacyLines t a { row with registers := xs }).map .out ++
        [.part ("    reg:    " ++ (regText t.name r ++ " = "))])) (.panic .explicit)
  /-- A row that cannot stand in the function: all of it is printed, and the error, unless another one was. -/
  | misplaced (fde rs row rest e) : TableRead fde (rs.map .ok ++ .ok row :: rest) → Settled fde rs →
      Near fde row → Printable row → misplacement fde rs row = some e →
      Trail1 dbg t a (.ok fde) (legacyPart t a fde rs ++ (legacyRowEvents t a row ++
        if (legacyTranslate row).isSome then [.note (.add e)] else [])) (.ok (.row e))

end Verif.Spec
