import Verif.Model.Report
import Verif.Model.Report1
import Verif.Model.Stream
import Verif.Model.Process
/-!
# The converters print by print

`Model/Report.lean` and `Model/Report1.lean` once more, on streams that may refuse what is printed.  `println!` and `eprintln!` panic
if they fail; the instructions of a function are listed with `writeln!` and `?`, where a failure is an error
(`gimli::Error::Io`).  What a stream takes of something it refuses is left open.
-/

namespace Verif

/-- A computation that prints.  It is given which prints of the run succeed, by number, and how many there have been, and gives
what it prints, each with whether it is in a listing of instructions, and its result. -/
def Printing (ε α : Type) := (Nat → Bool) → Nat → List (ε × Bool) × Rust α

namespace Printing
variable {ε α β : Type}

/-- A computation that prints nothing. -/
def lift (x : Rust α) : Printing ε α := fun _ _ => ([], x)

/-- A value. -/
def pure (a : α) : Printing ε α := lift (.ok a)

/-- One computation after the other. -/
def bind (x : Printing ε α) (f : α → Printing ε β) : Printing ε β := fun k n =>
  match x k n with
  | (es, .ok a) => (es ++ (f a k (n + es.length)).1, (f a k (n + es.length)).2)
  | (es, .panic p) => (es, .panic p)
  | (es, .diverge) => (es, .diverge)

/-- `println!` or `eprintln!`, in turn -/
def say : List ε → Printing ε Unit
  | [] => pure ()
  | e :: es => fun k n =>
    if k n then ((e, false) :: (say es k (n + 1)).1, (say es k (n + 1)).2) else ([], .panic .explicit)

/-- `writeln!(..)?`, in turn: whether all succeed -/
def list : List ε → Printing ε Bool
  | [] => pure true
  | e :: es => fun k n =>
    if k n then ((e, true) :: (list es k (n + 1)).1, (list es k (n + 1)).2) else ([], .ok false)

end Printing

/-! ### `dwarf2sframe2` -/

/-- dwarf2sframe2/src/lib.rs:244-304: the loop over the rows of a function. -/
def convertRowsP (dbg : Bool) (g : GimliText) (opts : Options) (fde : DwFde) :
    List (Except GErr DwRow) → FuncDescBuilder → Printing Event (Except ConvError FuncDescBuilder)
  | [], sfde => Printing.pure (.ok sfde)
  | .error e :: _, _ => Printing.pure (.error (.invalidUnwindTable e))
  | .ok row :: rows, sfde =>
    -- 245-267
    (Printing.say ((if opts.debugdump then rowLines g opts.arch row else []).map Event.out)).bind fun _ =>
    -- 269-274
    if row.start = row.end_ then convertRowsP dbg g opts fde rows sfde
    else
      -- 276-284
      (Printing.lift (rowStart dbg fde row)).bind fun
      | .error e => Printing.pure (.error e)
      | .ok start =>
        -- 286-296
        (Printing.lift (convertRow dbg opts fde row)).bind fun r =>
        (match r with
          | .ok fre => Printing.pure (Except.ok fre)
          | .error (.warning w) =>
            (Printing.say (w.toList.map Event.err)).bind fun _ => Printing.pure (.ok (FrameRowBuilder.invalid start))
          | .error (.fatal e) => Printing.pure (.error e)).bind fun
        | .error e => Printing.pure (.error e)
        | .ok fre =>
          -- 299-303
          match sfde.row fre with
          | .error _ => Printing.lift (.panic .explicit)
          | .ok sfde => convertRowsP dbg g opts fde rows sfde

/-- dwarf2sframe2/src/lib.rs:206-223: the debug dump of a function before its rows. -/
def dumpFdeP (dbg : Bool) (g : GimliText) (io : GErr) (arch : Architecture) (fde : DwFde) :
    Printing Event (Except ConvError Unit) :=
  -- 207-212
  (Printing.say ((fdeTop fde).map Event.out)).bind fun _ =>
  (Printing.lift (addU64 dbg fde.initial fde.len)).bind fun end_ =>
  (Printing.say [Event.out (fdeRange fde end_)]).bind fun _ =>
  -- 214-220
  let r := listInstructions false (g.register arch) g.error fde.instructions
  (Printing.list (r.1.map Event.out)).bind fun
  | false => Printing.pure (.error (.invalidDwarfFde io))
  | true =>
    match r.2 with
    | .error e => Printing.pure (.error (.invalidDwarfFde e))
    -- 221-222
    | .ok () => (Printing.say [Event.out "", Event.out "Rows:"]).bind fun _ => Printing.pure (.ok ())

/-- dwarf2sframe2/src/lib.rs:203-314: one function. -/
def convertFdeP (dbg : Bool) (g : GimliText) (io : GErr) (opts : Options) (sframe : SFrameBuilder) (fde : DwFde) :
    Printing Event (Except ConvError SFrameBuilder) :=
  -- 206-223
  (if opts.debugdump then dumpFdeP dbg g io opts.arch fde else Printing.pure (.ok ())).bind fun
  | .error e => Printing.pure (.error e)
  | .ok () =>
    -- 225-229
    if fde.initial.toNat > i32Max then Printing.pure (.error (.invalidStartAddress fde.initial))
    -- 231-236
    else if fde.len.toNat > i32Max then Printing.pure (.error (.invalidFunctionLength fde.initial fde.len))
    else
      -- 238-242
      let sfde := FuncDescBuilder.new sframe.options (fde.initial.setWidth 32) (fde.len.setWidth 32)
      match fde.rows with
      | .error e => Printing.pure (.error (.invalidUnwindTable e))
      | .ok rows =>
        -- 244-304
        (convertRowsP dbg g opts fde rows sfde).bind fun
        | .error e => Printing.pure (.error e)
        | .ok sfde =>
          -- 306-308
          (Printing.lift (if opts.mergeFres then sfde.mergeAdjacentFres else .ok sfde)).bind fun sfde =>
          -- 310
          (Printing.lift (sframe.fde sfde)).bind fun sframe =>
          -- 312-314
          (Printing.say ((if opts.debugdump then [""] else []).map Event.out)).bind fun _ =>
          Printing.pure (.ok sframe)

/-- dwarf2sframe2/src/lib.rs:191-315: the loop over the entries. -/
def convertEntriesP (dbg : Bool) (g : GimliText) (io : GErr) (opts : Options) (eh : EhFrame) :
    List (Except GErr Entry) → SFrameBuilder → List (Nat × Except GErr Cie) →
    Printing Event (Except ConvError SFrameBuilder)
  | [], sframe, _ => Printing.pure (.ok sframe)
  | .error e :: _, _, _ => Printing.pure (.error (.invalidEhFrameEntry e))
  | .ok .cie :: entries, sframe, cies => convertEntriesP dbg g io opts eh entries sframe cies
  | .ok (.fde offset parse) :: entries, sframe, cies =>
    match parse (lookupCie opts eh cies offset).1 with
    | .error e => Printing.pure (.error (.invalidDwarfFde e))
    | .ok fde =>
      (convertFdeP dbg g io opts sframe fde).bind fun
      | .error e => Printing.pure (.error e)
      | .ok sframe => convertEntriesP dbg g io opts eh entries sframe (lookupCie opts eh cies offset).2

/-- dwarf2sframe2/src/lib.rs:142-178 `dwarf2sframe`. -/
def dwarf2sframeP (dbg : Bool) (g : GimliText) (io : GErr) (eh : EhFrame) (opts : Options) :
    Printing Event (Except ConvError SFrameBuilder) :=
  -- 165-170
  (convertEntriesP dbg g io opts eh (eh.entries opts.bases) (SFrameBuilder.new (sectionOptions eh opts)) []).bind fun
  | .error e => Printing.pure (.error e)
  | .ok sframe =>
    -- 172-177
    (Printing.lift (if opts.mergeFdes then sframe.mergeAdjacentFdes dbg else .ok sframe)).bind fun sframe =>
    Printing.pure (.ok sframe)

/-- dwarf2sframe2/src/main.rs:30-114 `main`, as `main2`, of which only line 82 prints. -/
def main2P (k : Nat → Bool) (io : GErr) (dbg : Bool) (g : GimliText) (w : World) (args : Args2) : Prog Unit := do
  -- 34-42
  let file ← Prog.orFail (w.openFile args.input) .open_
  let data ← Prog.orFail (w.mmap file) .mmap
  let file ← Prog.orFail (w.parse data) .parse
  let endian := file.endianness
  -- 43-47
  let arch ← Prog.orFail (cliArch file.architecture) (.architecture file.architecture)
  -- 49-55
  let section_ ← Prog.orFail (file.sectionByName ".eh_frame") .noSection
  let data ← Prog.orFail section_.data .decompress
  -- 57-74
  let ehFrame := w.ehFrame data endian
  let bases := cliBases file
  -- 76-82
  let options := cliOptions args arch endian bases
  let sframe ← Prog.lift ((dwarf2sframeP dbg g io ehFrame options k 0).2.bind fun r => .ok (r.mapError .convert))
  -- 84-88
  let bytes ← Prog.lift ((sframe.build dbg endian).bind fun r => .ok (r.mapError .build))
  -- 90-103
  let outobj := OutObject.new file.architecture file.endianness
  let (outobj, section_) := outobj.addSection ".sframe"
  let outobj := outobj.setSectionData section_ bytes 8
  -- 105-108
  let data ← Prog.orFail (w.emit outobj) .emit
  -- 110-113
  Prog.fsWrite w args.output data

/-- Running the program: its result and the calls of `fs::write`. -/
def runMain2P (k : Nat → Bool) (io : GErr) (dbg : Bool) (g : GimliText) (w : World) (args : Args2) :
    Rust (Except CliError Unit) × List WriteCall :=
  main2P k io dbg g w args []

/-! ### The legacy converter -/

/-- dwarf2sframe/src/main.rs:169-190: the line of the CFA. -/
def LegacyText.cfaP (t : LegacyText) (cfa : CfaRule) : Printing Event1 Unit :=
  match cfa with
  | .registerAndOffset r o => Printing.say [.out ("    cfa:    " ++ (regText t.name r ++ fmtSigned64 o))]
  | .expression e =>
    match dumpExpression e with
    | .ok () => Printing.say [.out ("    cfa:    " ++ expressionText t.name "            " e)]
    | .error _ => Printing.lift (.panic .unwrap)

/-- dwarf2sframe/src/main.rs:192-198: the line of a register. -/
def LegacyText.registerP (t : LegacyText) (a : ObjArch) (x : Reg × RegRule) : Printing Event1 Unit :=
  match formatRule x.2 with
  | .ok () => Printing.say [.out ("    reg:    " ++ (regText t.name x.1 ++ (" = " ++ t.ruleText a x.2)))]
  | r => (Printing.say [.part ("    reg:    " ++ (regText t.name x.1 ++ " = "))]).bind fun _ => Printing.lift r

/-- dwarf2sframe/src/main.rs:192-198: the lines of the registers. -/
def LegacyText.registersP (t : LegacyText) (a : ObjArch) : List (Reg × RegRule) → Printing Event1 Unit
  | [] => Printing.pure ()
  | x :: rest => (t.registerP a x).bind fun _ => t.registersP a rest

/-- dwarf2sframe/src/main.rs:162-198: the lines of a row. -/
def LegacyText.rowP (t : LegacyText) (a : ObjArch) (row : DwRow) : Printing Event1 Unit :=
  -- 162-166
  (Printing.say [.out ("  - offset: " ++ (fmtAltHexPad 10 row.start.toNat ++ (" (end = " ++
    (fmtAltHexPad 10 row.end_.toNat ++ ")"))))]).bind fun _ =>
  (t.cfaP row.cfa).bind fun _ =>
  t.registersP a row.registers

/-- dwarf2sframe/src/main.rs:234-253: the offset of the saved RBP, if it is saved. -/
def legacyFpP (row : DwRow) : Printing Event1 (Except RowNote (Option I32)) :=
  match row.register Reg.X86_64_RBP with
  | .offset offset =>
    match i32TryFromI64 offset with
    | some x => Printing.pure (.ok (some x))
    | none => Printing.pure (.error (.fpOffset offset))
  | .undefined => Printing.pure (.ok none)
  | rule =>
    (Printing.lift (formatRule rule)).bind fun _ =>
    (Printing.say [.fpRule rule]).bind fun _ => Printing.pure (.ok none)

/-- dwarf2sframe/src/main.rs:255-269: the offset of the return address. -/
def legacyRaP (row : DwRow) : Printing Event1 (Except RowNote I32) :=
  match row.register Reg.X86_64_RA with
  | .offset offset =>
    match i32TryFromI64 offset with
    | some x => Printing.pure (.ok x)
    | none => Printing.pure (.error (.raOffset offset))
  | rule => (Printing.lift (formatRule rule)).bind fun _ => Printing.pure (.error (.raRule rule))

/-- dwarf2sframe/src/main.rs:271-283: the row is shown and added. -/
def legacyAddP (start : U32) (sfde : FuncDescBuilder) (base : BaseReg) (offsets : FrameRowOffsets) :
    Printing Event1 (Except RowNote FuncDescBuilder) :=
  (Printing.say [.out ("    sframe: " ++ offsets.text)]).bind fun _ =>
  -- 279-283
  match sfde.row (FrameRowBuilder.new base start offsets) with
  | .ok sfde => Printing.pure (.ok sfde)
  | .error e => Printing.pure (.error (.add e))

/-- dwarf2sframe/src/main.rs:228-283: the closure after the CFA. -/
def legacyRestP (start : U32) (row : DwRow) (sfde : FuncDescBuilder) (base : BaseReg) (cfa : I32) :
    Printing Event1 (Except RowNote FuncDescBuilder) :=
  (legacyFpP row).bind fun
  | .error n => Printing.pure (.error n)
  | .ok fp =>
    (legacyRaP row).bind fun
    | .error n => Printing.pure (.error n)
    | .ok ra => legacyAddP start sfde base { cfa := cfa, fp := fp, ra := some ra }

/-- dwarf2sframe/src/main.rs:200-284: the closure. -/
def legacyTryP (start : U32) (row : DwRow) (sfde : FuncDescBuilder) : Printing Event1 (Except RowNote FuncDescBuilder) :=
  match legacyCfaT row with
  | .error n => Printing.pure (.error n)
  | .ok (base, offset) =>
    -- 220-226
    match i32TryFromI64 offset with
    | none => Printing.pure (.error (.cfaOffset offset))
    | some cfa => legacyRestP start row sfde base cfa

/-- dwarf2sframe/src/main.rs:200-307: one row is added to the function, as an invalid row if that fails. -/
def legacyRowP (start : U32) (row : DwRow) (sfde : FuncDescBuilder) : Printing Event1 (Except FrameRowError FuncDescBuilder) :=
  (legacyTryP start row sfde).bind fun
  | .ok sfde => Printing.pure (.ok sfde)
  | .error n => (Printing.say [.note n]).bind fun _ => Printing.pure (sfde.row (FrameRowBuilder.invalid start))

/-- dwarf2sframe/src/main.rs:148-308: the loop over the rows of a function. -/
def legacyRowsP (dbg : Bool) (t : LegacyText) (a : ObjArch) (fde : DwFde) :
    List (Except GErr DwRow) → FuncDescBuilder → Printing Event1 (Except LegacyError FuncDescBuilder)
  | [], sfde => Printing.pure (.ok sfde)
  | .error e :: _, _ => Printing.pure (.error (.nextRow e))
  | .ok row :: rows, sfde =>
    -- 152-160
    (Printing.lift (subU64 dbg row.start fde.initial)).bind fun d =>
    match u32TryFromU64 d with
    | none => Printing.pure (.error .rowOffset)
    | some start =>
      if start.toNat < i32Max then
        (t.rowP a row).bind fun _ =>
        (legacyRowP start row sfde).bind fun
        | .error e => Printing.pure (.error (.row e))
        | .ok sfde => legacyRowsP dbg t a fde rows sfde
      else Printing.pure (.error .rowOffset)

/-- dwarf2sframe/src/main.rs:98-313: one function. -/
def legacyFdeP (dbg : Bool) (t : LegacyText) (io : GErr) (a : ObjArch) (sframe : SFrameBuilder) (fde : DwFde) :
    Printing Event1 (Except LegacyError SFrameBuilder) :=
  -- 101-117
  if fde.initial.toNat > i32Max then Printing.pure (.error (.start fde.initial))
  else if fde.len.toNat > i32Max then Printing.pure (.error (.len fde.len))
  else
    -- 119-123
    let sfde := FuncDescBuilder.new sframe.options (fde.initial.setWidth 32) (fde.len.setWidth 32)
    match fde.rows with
    | .error e => Printing.pure (.error (.rows e))
    | .ok rows =>
      -- 125-131
      (Printing.say [.out "FDE:", .out (" start_address: " ++ fmtAltHexPad 10 fde.initial.toNat)]).bind fun _ =>
      (Printing.lift (addU64 dbg fde.initial fde.len)).bind fun end_ =>
      (Printing.say [.out ("    range_size: " ++ (fmtAltHexPad 10 fde.len.toNat ++ (" (end_addr = " ++
        (fmtAltHexPad 10 end_.toNat ++ ")"))))]).bind fun _ =>
      -- 138-144, dump.rs:21-23
      let r := listInstructions true t.name t.error fde.instructions
      (Printing.list (("  Instructions:" :: r.1).map Event1.out)).bind fun
      | false => Printing.pure (.error (.dump io))
      | true =>
      match r.2 with
      | .error e => Printing.pure (.error (.dump e))
      | .ok () =>
        -- 145-146
        (Printing.say [.out "", .out "Rows:"]).bind fun _ =>
        -- 148-308
        (legacyRowsP dbg t a fde rows sfde).bind fun
        | .error e => Printing.pure (.error e)
        | .ok sfde =>
          -- 310-313
          (Printing.lift sfde.mergeAdjacentFres).bind fun sfde =>
          (Printing.lift (sframe.fde sfde)).bind fun sframe =>
          (Printing.say [.out ""]).bind fun _ => Printing.pure (.ok sframe)

/-- dwarf2sframe/src/main.rs:86-314: the loop over the entries. -/
def legacyEntriesP (dbg : Bool) (t : LegacyText) (io : GErr) (a : ObjArch) (eh : EhFrame) (bases : Bases) :
    List (Except GErr Entry) → List (Nat × Except GErr Cie) → SFrameBuilder →
    Printing Event1 (Except LegacyError SFrameBuilder)
  | [], _, sframe => Printing.pure (.ok sframe)
  | .error e :: _, _, _ => Printing.pure (.error (.entry e))
  | .ok .cie :: entries, cies, sframe => legacyEntriesP dbg t io a eh bases entries cies sframe
  | .ok (.fde offset parse) :: entries, cies, sframe =>
    match parse (lookupCie (Options.new .amd64 bases) eh cies offset).1 with
    | .error e => Printing.pure (.error (.parse e))
    | .ok fde =>
      (legacyFdeP dbg t io a sframe fde).bind fun
      | .error e => Printing.pure (.error e)
      | .ok sframe =>
        legacyEntriesP dbg t io a eh bases entries (lookupCie (Options.new .amd64 bases) eh cies offset).2 sframe

/-- dwarf2sframe/src/main.rs:81-316: the conversion. -/
def legacyConvertP (dbg : Bool) (t : LegacyText) (io : GErr) (a : ObjArch) (eh : EhFrame) (bases : Bases) :
    Printing Event1 (Except LegacyError SFrameBuilder) :=
  (legacyEntriesP dbg t io a eh bases (eh.entries bases) [] (SFrameBuilder.new legacyOptions)).bind fun
  | .error e => Printing.pure (.error e)
  | .ok sframe => (Printing.lift (sframe.mergeAdjacentFdes dbg)).bind fun sframe => Printing.pure (.ok sframe)

/-- dwarf2sframe/src/main.rs:30-350 `main`, as `main1`, of which lines 60-79 and 81-316 print. -/
def main1P (k : Nat → Bool) (io : GErr) (dbg : Bool) (t : LegacyText) (w : World) (args : Args1) : Prog Unit := do
  -- 34-42
  let file ← Prog.orFail (w.openFile args.input) .open_
  let data ← Prog.orFail (w.mmap file) .mmap
  let file ← Prog.orFail (w.parse data) .parse
  let endian := file.endianness
  -- 44-52
  let section_ ← Prog.orFail (file.sectionByName ".eh_frame") .noSection
  let data ← Prog.orFail section_.data .decompress
  let ehFrame := w.ehFrame data endian
  -- 60-316
  let bases := cliBases file
  let converted := (Printing.say ((legacyAddresses file).map Event1.out)).bind fun _ =>
    legacyConvertP dbg t io file.architecture ehFrame bases
  let sframe ← Prog.lift ((converted k 0).2.bind fun r => .ok (r.mapError .legacy))
  -- 317-319
  let bytes ← Prog.lift ((sframe.build dbg w.host).bind fun r => .ok (r.mapError .build))
  -- 326-339
  let outobj := OutObject.new file.architecture file.endianness
  let (outobj, section_) := outobj.addSection ".sframe"
  let outobj := outobj.setSectionData section_ bytes 8
  -- 341-344
  let data ← Prog.orFail (w.emit outobj) .emit
  -- 346-349
  Prog.fsWrite w args.output data

/-- Running the program: its result and the calls of `fs::write`. -/
def runMain1P (k : Nat → Bool) (io : GErr) (dbg : Bool) (t : LegacyText) (w : World) (args : Args1) :
    Rust (Except CliError Unit) × List WriteCall :=
  main1P k io dbg t w args []

/-! ### The processes -/

/-- `main` of `dwarf2sframe2` in the runtime of Rust: the exit code and the calls of `fs::write`.  The report of an error is printed
by `Termination::report`, which ignores a failure. -/
def process2 (k : Nat → Bool) (io : GErr) (dbg : Bool) (g : GimliText) (w : World) (args : Args2) :
    Option Nat × List WriteCall :=
  (exitCode (runMain2P k io dbg g w args).1, (runMain2P k io dbg g w args).2)

/-- The same of the legacy converter. -/
def process1 (k : Nat → Bool) (io : GErr) (dbg : Bool) (t : LegacyText) (w : World) (args : Args1) :
    Option Nat × List WriteCall :=
  (exitCode (runMain1P k io dbg t w args).1, (runMain1P k io dbg t w args).2)

end Verif
