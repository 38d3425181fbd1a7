import Verif.Model.Main1
import Verif.Model.Dwarfdump
/-!
# What the legacy converter prints

`crates/dwarf2sframe/src/main.rs` once more, with its output on stdout and stderr, also if it then fails or
panics.  The messages of panics and of the final error are not part of it, and neither is the part of a line
on stderr that is printed before a panic.  Printing is assumed to succeed, and what has been
printed of a line is on stdout also if the rest of the line panics.  That the results are those of
`Model/Main1.lean` is proved (`C94_result`).

Messages on stderr are data.  Their `Debug` text (`anyhow`) is not modelled.
-/

namespace Verif

/-- `object::Architecture`: more architectures that this tool tells from the others. -/
def ObjArch.x86_64_x32 : ObjArch := .other 2
@[inherit_doc ObjArch.x86_64_x32] def ObjArch.riscv32 : ObjArch := .other 3
@[inherit_doc ObjArch.x86_64_x32] def ObjArch.riscv64 : ObjArch := .other 4
@[inherit_doc ObjArch.x86_64_x32] def ObjArch.loongArch64 : ObjArch := .other 5

/-- What gimli contributes to the texts. -/
structure LegacyText where
  /-- `gimli::X86_64::register_name` and so on -/
  registerName : RegTable → Reg → Option String
  /-- `Display for gimli::Error` -/
  error : GErr → String
  /-- `Debug for gimli::RegisterRule` -/
  rule : RegRule → String

/-- fmthelp.rs:26-41 `regname`: the names of registers in rules. -/
def LegacyText.ruleName (t : LegacyText) (a : ObjArch) : Reg → Option String :=
  if a = .x86_64 then t.registerName .x86_64
  else if a = .x86_64_x32 then t.registerName .x86
  else if a = .aarch64 then t.registerName .aarch64
  else if a = .arm then t.registerName .arm
  else if a = .riscv32 ∨ a = .riscv64 then t.registerName .riscv
  else if a = .loongArch64 then t.registerName .loongArch
  else fun _ => none

/-- White space, for `str::trim`.  (In Rust also some characters outside ASCII, none of which begins or ends
a text that is trimmed here, if the `Debug` texts of gimli do not begin or end with one.) -/
def isBlank (c : Char) : Bool := c = ' ' || c = '\n' || c = '\t' || c = '\r'

/-- `str::trim` -/
def trimText (s : String) : String :=
  String.ofList ((s.toList.dropWhile isBlank).reverse.dropWhile isBlank).reverse

/-- fmthelp.rs:73-138 `dump_expression` into a string, and `trim`. -/
def expressionText (name : Reg → Option String) (indent : String) (e : Expr) : String :=
  trimText (String.join ((listExpression true name indent e).1.map (· ++ "\n")))

/-- fmthelp.rs:44-70 `Display for RegisterRule`, if it succeeds (see `formatRule`). -/
def LegacyText.ruleText (t : LegacyText) (a : ObjArch) : RegRule → String
  | .undefined => "<undefined>"
  | .sameValue => "<same>"
  | .offset o => "*(CFA" ++ fmtSigned64 o ++ ")"
  | .valOffset o => "CFA" ++ fmtSigned64 o
  | .register r => regText (t.ruleName a) r
  | .constant v => fmtNat v.toNat
  | .expression e => expressionText (t.ruleName a) "        " e
  | rule => t.rule rule

/-- main.rs:133-136 `register_name` -/
def LegacyText.name (t : LegacyText) : Reg → Option String := t.registerName .x86_64

/-- `Debug for Option<i32>` -/
def optionText : Option I32 → String
  | none => "None"
  | some x => "Some(" ++ (fmtInt x ++ ")")

/-- sframe/src/write.rs:546 `derive(Debug)` for `FrameRowOffsets` -/
def FrameRowOffsets.text (x : FrameRowOffsets) : String :=
  "FrameRowOffsets { cfa: " ++ (fmtInt x.cfa ++ (", ra: " ++ (optionText x.ra ++ (", fp: " ++ (optionText x.fp ++ " }")))))

/-- The errors of the closure (main.rs:200-284), printed on stderr. -/
inductive RowNote
  /-- 205-208 -/
  | cfaRegister (r : Reg)
  /-- 210-217 -/
  | cfaExpression (e : Expr)
  /-- 222-225 -/
  | cfaOffset (o : I64)
  /-- 236-241 -/
  | fpOffset (o : I64)
  /-- 257-261 -/
  | raOffset (o : I64)
  /-- 265-268 -/
  | raRule (rule : RegRule)
  /-- 279-281 -/
  | add (e : FrameRowError)
  deriving DecidableEq

/-- What is printed. -/
inductive Event1
  /-- `println!` -/
  | out (line : String)
  /-- what `println!` has printed when it panics -/
  | part (text : String)
  /-- 245-248: the rule for RBP that is not supported -/
  | fpRule (rule : RegRule)
  /-- 286: the error of the closure -/
  | note (n : RowNote)
  deriving DecidableEq

/-- A computation with what it prints before it ends or panics. -/
abbrev Shown (α : Type) := List Event1 × Rust α

namespace Shown

/-- A computation that prints nothing. -/
def lift {α : Type} (x : Rust α) : Shown α := ([], x)

/-- A value. -/
def pure {α : Type} (a : α) : Shown α := ([], .ok a)

/-- Printing. -/
def say (es : List Event1) : Shown Unit := (es, .ok ())

/-- One computation after the other. -/
def bind {α β : Type} (x : Shown α) (f : α → Shown β) : Shown β :=
  match x.2 with
  | .ok a => (x.1 ++ (f a).1, (f a).2)
  | .panic p => (x.1, .panic p)
  | .diverge => (x.1, .diverge)

end Shown

/-- main.rs:169-190: the line of the CFA.  The text is made before anything of the line is printed. -/
def LegacyText.cfaT (t : LegacyText) (cfa : CfaRule) : Shown Unit :=
  match cfa with
  | .registerAndOffset r o => Shown.say [.out ("    cfa:    " ++ (regText t.name r ++ fmtSigned64 o))]
  | .expression e =>
    match dumpExpression e with
    | .ok () => Shown.say [.out ("    cfa:    " ++ expressionText t.name "            " e)]
    | .error _ => Shown.lift (.panic .unwrap)

/-- main.rs:192-198: the line of a register. -/
def LegacyText.registerT (t : LegacyText) (a : ObjArch) (x : Reg × RegRule) : Shown Unit :=
  match formatRule x.2 with
  | .ok () => Shown.say [.out ("    reg:    " ++ (regText t.name x.1 ++ (" = " ++ t.ruleText a x.2)))]
  | r => ([.part ("    reg:    " ++ (regText t.name x.1 ++ " = "))], r)

/-- main.rs:192-198: the lines of the registers. -/
def LegacyText.registersT (t : LegacyText) (a : ObjArch) : List (Reg × RegRule) → Shown Unit
  | [] => Shown.pure ()
  | x :: rest => (t.registerT a x).bind fun _ => t.registersT a rest

/-- main.rs:162-198: the lines of a row. -/
def LegacyText.rowT (t : LegacyText) (a : ObjArch) (row : DwRow) : Shown Unit :=
  -- 162-166
  (Shown.say [.out ("  - offset: " ++ (fmtAltHexPad 10 row.start.toNat ++ (" (end = " ++
    (fmtAltHexPad 10 row.end_.toNat ++ ")"))))]).bind fun _ =>
  (t.cfaT row.cfa).bind fun _ =>
  t.registersT a row.registers

/-- main.rs:201-218: base register and offset of the CFA. -/
def legacyCfaT (row : DwRow) : Except RowNote (BaseReg × I64) :=
  match row.cfa with
  | .registerAndOffset register offset =>
    if register = Reg.X86_64_RBP then .ok (BaseReg.fp, offset)
    else if register = Reg.X86_64_RSP then .ok (.sp, offset)
    else .error (.cfaRegister register)
  | .expression e => .error (.cfaExpression e)

/-- main.rs:234-253: the offset of the saved RBP, if it is saved. -/
def legacyFpT (row : DwRow) : Shown (Except RowNote (Option I32)) :=
  match row.register Reg.X86_64_RBP with
  | .offset offset =>
    match i32TryFromI64 offset with
    | some x => Shown.pure (.ok (some x))
    | none => Shown.pure (.error (.fpOffset offset))
  | .undefined => Shown.pure (.ok none)
  | rule =>
    (Shown.lift (formatRule rule)).bind fun _ =>
    (Shown.say [.fpRule rule]).bind fun _ => Shown.pure (.ok none)

/-- main.rs:255-269: the offset of the return address. -/
def legacyRaT (row : DwRow) : Shown (Except RowNote I32) :=
  match row.register Reg.X86_64_RA with
  | .offset offset =>
    match i32TryFromI64 offset with
    | some x => Shown.pure (.ok x)
    | none => Shown.pure (.error (.raOffset offset))
  | rule => (Shown.lift (formatRule rule)).bind fun _ => Shown.pure (.error (.raRule rule))

/-- main.rs:271-283: the row is shown and added. -/
def legacyAddT (start : U32) (sfde : FuncDescBuilder) (base : BaseReg) (offsets : FrameRowOffsets) :
    Shown (Except RowNote FuncDescBuilder) :=
  (Shown.say [.out ("    sframe: " ++ offsets.text)]).bind fun _ =>
  -- 279-283
  match sfde.row (FrameRowBuilder.new base start offsets) with
  | .ok sfde => Shown.pure (.ok sfde)
  | .error e => Shown.pure (.error (.add e))

/-- main.rs:228-283: the closure after the CFA. -/
def legacyRestT (start : U32) (row : DwRow) (sfde : FuncDescBuilder) (base : BaseReg) (cfa : I32) :
    Shown (Except RowNote FuncDescBuilder) :=
  (legacyFpT row).bind fun
  | .error n => Shown.pure (.error n)
  | .ok fp =>
    (legacyRaT row).bind fun
    | .error n => Shown.pure (.error n)
    | .ok ra => legacyAddT start sfde base { cfa := cfa, fp := fp, ra := some ra }

/-- main.rs:200-284: the closure. -/
def legacyTryT (start : U32) (row : DwRow) (sfde : FuncDescBuilder) : Shown (Except RowNote FuncDescBuilder) :=
  match legacyCfaT row with
  | .error n => Shown.pure (.error n)
  | .ok (base, offset) =>
    -- 220-226
    match i32TryFromI64 offset with
    | none => Shown.pure (.error (.cfaOffset offset))
    | some cfa => legacyRestT start row sfde base cfa

/-- main.rs:200-307: one row is added to the function, as an invalid row if that fails. -/
def legacyRowT (start : U32) (row : DwRow) (sfde : FuncDescBuilder) : Shown (Except FrameRowError FuncDescBuilder) :=
  (legacyTryT start row sfde).bind fun
  | .ok sfde => Shown.pure (.ok sfde)
  | .error n => (Shown.say [.note n]).bind fun _ => Shown.pure (sfde.row (FrameRowBuilder.invalid start))

/-- main.rs:148-308: the loop over the rows of a function. -/
def legacyRowsT (dbg : Bool) (t : LegacyText) (a : ObjArch) (fde : DwFde) :
    List (Except GErr DwRow) → FuncDescBuilder → Shown (Except LegacyError FuncDescBuilder)
  | [], sfde => Shown.pure (.ok sfde)
  | .error e :: _, _ => Shown.pure (.error (.nextRow e))
  | .ok row :: rows, sfde =>
    -- 152-160
    (Shown.lift (subU64 dbg row.start fde.initial)).bind fun d =>
    match u32TryFromU64 d with
    | none => Shown.pure (.error .rowOffset)
    | some start =>
      if start.toNat < i32Max then
        (t.rowT a row).bind fun _ =>
        (legacyRowT start row sfde).bind fun
        | .error e => Shown.pure (.error (.row e))
        | .ok sfde => legacyRowsT dbg t a fde rows sfde
      else Shown.pure (.error .rowOffset)

/-- main.rs:98-313: one function. -/
def legacyFdeT (dbg : Bool) (t : LegacyText) (a : ObjArch) (sframe : SFrameBuilder) (fde : DwFde) :
    Shown (Except LegacyError SFrameBuilder) :=
  -- 101-117
  if fde.initial.toNat > i32Max then Shown.pure (.error (.start fde.initial))
  else if fde.len.toNat > i32Max then Shown.pure (.error (.len fde.len))
  else
    -- 119-123
    let sfde := FuncDescBuilder.new sframe.options (fde.initial.setWidth 32) (fde.len.setWidth 32)
    match fde.rows with
    | .error e => Shown.pure (.error (.rows e))
    | .ok rows =>
      -- 125-131
      (Shown.say [.out "FDE:", .out (" start_address: " ++ fmtAltHexPad 10 fde.initial.toNat)]).bind fun _ =>
      (Shown.lift (addU64 dbg fde.initial fde.len)).bind fun end_ =>
      (Shown.say [.out ("    range_size: " ++ (fmtAltHexPad 10 fde.len.toNat ++ (" (end_addr = " ++
        (fmtAltHexPad 10 end_.toNat ++ ")"))))]).bind fun _ =>
      -- 138-144, dump.rs:21-23
      let r := listInstructions true t.name t.error fde.instructions
      (Shown.say (("  Instructions:" :: r.1).map .out)).bind fun _ =>
      match r.2 with
      | .error e => Shown.pure (.error (.dump e))
      | .ok () =>
        -- 145-146
        (Shown.say [.out "", .out "Rows:"]).bind fun _ =>
        -- 148-308
        (legacyRowsT dbg t a fde rows sfde).bind fun
        | .error e => Shown.pure (.error e)
        | .ok sfde =>
          -- 310-313
          (Shown.lift sfde.mergeAdjacentFres).bind fun sfde =>
          (Shown.lift (sframe.fde sfde)).bind fun sframe =>
          (Shown.say [.out ""]).bind fun _ => Shown.pure (.ok sframe)

/-- main.rs:86-314: the loop over the entries. -/
def legacyEntriesT (dbg : Bool) (t : LegacyText) (a : ObjArch) (eh : EhFrame) (bases : Bases) :
    List (Except GErr Entry) → List (Nat × Except GErr Cie) → SFrameBuilder →
    Shown (Except LegacyError SFrameBuilder)
  | [], _, sframe => Shown.pure (.ok sframe)
  | .error e :: _, _, _ => Shown.pure (.error (.entry e))
  | .ok .cie :: entries, cies, sframe => legacyEntriesT dbg t a eh bases entries cies sframe
  | .ok (.fde offset parse) :: entries, cies, sframe =>
    match parse (lookupCie (Options.new .amd64 bases) eh cies offset).1 with
    | .error e => Shown.pure (.error (.parse e))
    | .ok fde =>
      (legacyFdeT dbg t a sframe fde).bind fun
      | .error e => Shown.pure (.error e)
      | .ok sframe =>
        legacyEntriesT dbg t a eh bases entries (lookupCie (Options.new .amd64 bases) eh cies offset).2 sframe

/-- main.rs:81-316: the conversion. -/
def legacyConvertT (dbg : Bool) (t : LegacyText) (a : ObjArch) (eh : EhFrame) (bases : Bases) :
    Shown (Except LegacyError SFrameBuilder) :=
  (legacyEntriesT dbg t a eh bases (eh.entries bases) [] (SFrameBuilder.new legacyOptions)).bind fun
  | .error e => Shown.pure (.error e)
  | .ok sframe => (Shown.lift (sframe.mergeAdjacentFdes dbg)).bind fun sframe => Shown.pure (.ok sframe)

/-- main.rs:60-79: the addresses of sections. -/
def legacyAddresses (file : ObjFile) : List String :=
  (match file.sectionByName ".eh_frame_hdr" with
    | some s => [".eh_frame_hdr: " ++ fmtAltHexPad 10 s.address.toNat]
    | none => []) ++
  (match file.sectionByName ".eh_frame" with
    | some s => [".eh_frame:     " ++ fmtAltHexPad 10 s.address.toNat]
    | none => []) ++
  (match file.sectionByName ".text" with
    | some s => [".text:         " ++ fmtAltHexPad 10 s.address.toNat]
    | none => []) ++
  (match file.sectionByName ".got" with
    | some s => [".got:          " ++ fmtAltHexPad 10 s.address.toNat]
    | none => [])

/-- main.rs:30-350: what `main` prints.  Nothing is printed before line 62 or after line 313. -/
def main1Prints (dbg : Bool) (t : LegacyText) (w : World) (args : Args1) : List Event1 :=
  match (w.openFile args.input).bind w.mmap with
  | none => []
  | some data =>
    match w.parse data with
    | none => []
    | some file =>
      match (file.sectionByName ".eh_frame").bind (·.data) with
      | none => []
      | some data =>
        (legacyAddresses file).map .out ++
          (legacyConvertT dbg t file.architecture (w.ehFrame data file.endianness) (cliBases file)).1

/-- What is on stdout. -/
def printed (es : List Event1) : String := String.join (es.map fun
  | .out l => l ++ "\n"
  | .part s => s
  | _ => "")

/-- The messages on stderr: rules for RBP, and errors of the closure. -/
def noted (es : List Event1) : List (RegRule ⊕ RowNote) := es.filterMap fun
  | .fpRule r => some (.inl r)
  | .note n => some (.inr n)
  | _ => none

end Verif
