import Verif.Model.Main2
/-!
# Model of the legacy converter, `crates/dwarf2sframe/src/main.rs` (with the control flow of
`dump.rs` and `fmthelp.rs`)

Printing is not modelled, except that it may fail: `dump_cfi_instructions` (the control flow of
dump.rs is that of dwarf2sframe2/src/dump.rs) and the formatting of DWARF expressions.
-/

namespace Verif

/-- fmthelp.rs:44-70 `Display for RegisterRule`, used by `println!`, `eprintln!` and `format!`, all of
which panic if it fails.  It fails on a rule `Expression` with an operation that cannot be decoded
(fmthelp.rs:84); `ValExpression` is printed by its `Debug` instance. -/
def formatRule : RegRule → Rust Unit
  | .expression e =>
    match dumpExpression e with
    | .ok () => .ok ()
    | .error _ => .panic .explicit
  | _ => .ok ()

/-- main.rs:192-198: printing the rules of the registers. -/
def printRegisters : List (Reg × RegRule) → Rust Unit
  | [] => .ok ()
  | (_, rule) :: rest => (formatRule rule).bind fun _ => printRegisters rest

/-- main.rs:167-198: printing the rules of a row. -/
def printRow (row : DwRow) : Rust Unit :=
  -- 169-189
  (match row.cfa with
    | .registerAndOffset _ _ => Rust.ok ()
    | .expression e =>
      match dumpExpression e with
      | .ok () => .ok ()
      | .error _ => .panic .unwrap).bind fun _ =>
  -- 192-198
  printRegisters row.registers

/-- main.rs:201-218: base register and offset of the CFA; `none` if the closure returns an error. -/
def legacyCfa (row : DwRow) : Option (BaseReg × I64) :=
  match row.cfa with
  | .registerAndOffset register offset =>
    if register = Reg.X86_64_RBP then some (BaseReg.fp, offset)
    else if register = Reg.X86_64_RSP then some (.sp, offset)
    else none
  | .expression _ => none

/-- main.rs:234-253: the offset of the saved RBP, if it is saved. -/
def legacyFpOf (row : DwRow) : Rust (Option (Option I32)) :=
  match row.register Reg.X86_64_RBP with
  | .offset offset => .ok ((i32TryFromI64 offset).map some)
  | .undefined => .ok (some none)
  | rule => (formatRule rule).bind fun _ => .ok (some none)

/-- main.rs:255-269: the offset of the return address. -/
def legacyRaOf (row : DwRow) : Rust (Option I32) :=
  match row.register Reg.X86_64_RA with
  | .offset offset => .ok (i32TryFromI64 offset)
  | rule => (formatRule rule).bind fun _ => .ok none

/-- main.rs:200-275: the rules of a row; `none` if the closure returns with an error. -/
def legacyRules (row : DwRow) : Rust (Option (BaseReg × FrameRowOffsets)) :=
  match legacyCfa row with
  | none => .ok none
  | some (base, offset) =>
    -- 220-226
    match i32TryFromI64 offset with
    | none => .ok none
    | some cfa =>
      (legacyFpOf row).bind fun
      | none => .ok none
      | some fp =>
        (legacyRaOf row).bind fun
        | none => .ok none
        | some ra => .ok (some (base, { cfa := cfa, fp := fp, ra := some ra }))

/-- main.rs:200-307: one row is added to the function, as an invalid row if that fails. -/
def legacyRow (start : U32) (row : DwRow) (sfde : FuncDescBuilder) :
    Rust (Except FrameRowError FuncDescBuilder) :=
  (legacyRules row).bind fun
  | none => .ok (sfde.row (FrameRowBuilder.invalid start))
  | some (base, offsets) =>
    -- 279-281
    match sfde.row (FrameRowBuilder.new base start offsets) with
    | .ok sfde => .ok (.ok sfde)
    | .error _ => .ok (sfde.row (FrameRowBuilder.invalid start))

/-- main.rs:148-308: the loop over the rows of a function.  No row is skipped. -/
def legacyRows (dbg : Bool) (fde : DwFde) :
    List (Except GErr DwRow) → FuncDescBuilder → Rust (Except LegacyError FuncDescBuilder)
  | [], sfde => .ok (.ok sfde)
  | .error e :: _, _ => .ok (.error (.nextRow e))
  | .ok row :: rows, sfde =>
    -- 152-160
    (subU64 dbg row.start fde.initial).bind fun d =>
    match u32TryFromU64 d with
    | none => .ok (.error .rowOffset)
    | some start =>
      if start.toNat < i32Max then
        -- 162-198
        (printRow row).bind fun _ =>
        (legacyRow start row sfde).bind fun
        | .error e => .ok (.error (.row e))
        | .ok sfde => legacyRows dbg fde rows sfde
      else .ok (.error .rowOffset)

/-- main.rs:98-313: one function. -/
def legacyFde (dbg : Bool) (sframe : SFrameBuilder) (fde : DwFde) :
    Rust (Except LegacyError SFrameBuilder) :=
  -- 101-117
  if fde.initial.toNat > i32Max then .ok (.error (.start fde.initial))
  else if fde.len.toNat > i32Max then .ok (.error (.len fde.len))
  else
    -- 119-123
    let sfde := FuncDescBuilder.new sframe.options (fde.initial.setWidth 32) (fde.len.setWidth 32)
    match fde.rows with
    | .error e => .ok (.error (.rows e))
    | .ok rows =>
      -- 127-131
      (addU64 dbg fde.initial fde.len).bind fun _ =>
      -- 138-144
      match dumpCfiInstructions fde.instructions with
      | .error e => .ok (.error (.dump e))
      | .ok () =>
        -- 148-308
        (legacyRows dbg fde rows sfde).bind fun
        | .error e => .ok (.error e)
        | .ok sfde =>
          -- 310-311
          (sfde.mergeAdjacentFres).bind fun sfde =>
          (sframe.fde sfde).bind fun sframe => .ok (.ok sframe)

/-- main.rs:86-314: the loop over the entries, with the cache of CIEs.  The callback is that of the
newer tool; of its options only the bases matter. -/
def legacyEntries (dbg : Bool) (eh : EhFrame) (bases : Bases) :
    List (Except GErr Entry) → List (Nat × Except GErr Cie) → SFrameBuilder →
    Rust (Except LegacyError SFrameBuilder)
  | [], _, sframe => .ok (.ok sframe)
  | .error e :: _, _, _ => .ok (.error (.entry e))
  | .ok .cie :: entries, cies, sframe => legacyEntries dbg eh bases entries cies sframe
  | .ok (.fde offset parse) :: entries, cies, sframe =>
    match parse (lookupCie (Options.new .amd64 bases) eh cies offset).1 with
    | .error e => .ok (.error (.parse e))
    | .ok fde =>
      (legacyFde dbg sframe fde).bind fun
      | .error e => .ok (.error e)
      | .ok sframe =>
        legacyEntries dbg eh bases entries (lookupCie (Options.new .amd64 bases) eh cies offset).2 sframe

/-- main.rs:54-58: the options of the section. -/
def legacyOptions : SFrameOptions := SFrameOptions.new.abi Abi.AMD64_ENDIAN_LITTLE

/-- main.rs:81-316: the conversion. -/
def legacyConvert (dbg : Bool) (eh : EhFrame) (bases : Bases) : Rust (Except LegacyError SFrameBuilder) :=
  (legacyEntries dbg eh bases (eh.entries bases) [] (SFrameBuilder.new legacyOptions)).bind fun
  | .error e => .ok (.error e)
  | .ok sframe => (sframe.mergeAdjacentFdes dbg).bind fun sframe => .ok (.ok sframe)

/-- main.rs:22-28 `Args`. -/
structure Args1 where
  input : String
  output : String
  deriving DecidableEq, Repr

/-- main.rs:30-350 `main` of `dwarf2sframe`. -/
def main1 (dbg : Bool) (w : World) (args : Args1) : Prog Unit := do
  -- 34-42
  let file ← Prog.orFail (w.openFile args.input) .open_
  let data ← Prog.orFail (w.mmap file) .mmap
  let file ← Prog.orFail (w.parse data) .parse
  let endian := file.endianness
  -- 44-52
  let section_ ← Prog.orFail (file.sectionByName ".eh_frame") .noSection
  let data ← Prog.orFail section_.data .decompress
  let ehFrame := w.ehFrame data endian
  -- 60-79
  let bases := cliBases file
  -- 81-316
  let sframe ← Prog.lift ((legacyConvert dbg ehFrame bases).bind fun r => .ok (r.mapError .legacy))
  -- 317-319
  let bytes ← Prog.lift ((sframe.build dbg w.host).bind fun r => .ok (r.mapError .build))
  -- 326-339
  let outobj := OutObject.new file.architecture file.endianness
  let (outobj, section_) := outobj.addSection ".sframe"
  let outobj := outobj.setSectionData section_ bytes 8
  -- 341-344
  let data ← Prog.orFail (w.emit outobj) .emit
  -- 346-349
  Prog.fsWrite w args.output data

/-- Running the program: its result and the calls of `fs::write`. -/
def runMain1 (dbg : Bool) (w : World) (args : Args1) : Rust (Except CliError Unit) × List WriteCall :=
  main1 dbg w args []

end Verif
