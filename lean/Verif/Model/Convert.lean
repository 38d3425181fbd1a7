import Verif.Model.Gimli
import Verif.Model.Write
/-!
# Model of `crates/dwarf2sframe2/src/lib.rs` (with `error.rs` and the control flow of `dump.rs`)

Printing to stdout is not modelled, except for the errors of `dump_cfi_instructions`; the warnings
printed to stderr are collected in a list, as data instead of text.  `dbg` is the build profile.
-/

namespace Verif

/-- lib.rs:107-113 `Architecture`. -/
inductive Architecture | amd64 | aarch64
  deriving DecidableEq, Repr

namespace Architecture

/-- lib.rs:116-121 -/
def fp : Architecture → Reg
  | .amd64 => Reg.X86_64_RBP
  | .aarch64 => Reg.AArch64_X29

/-- lib.rs:123-128 -/
def sp : Architecture → Reg
  | .amd64 => Reg.X86_64_RSP
  | .aarch64 => Reg.AArch64_SP

/-- lib.rs:130-139 -/
def ra : Architecture → Reg
  | .amd64 => Reg.X86_64_RA
  | .aarch64 => Reg.AArch64_X30

end Architecture

/-- lib.rs:25-33 `Options`. -/
structure Options where
  arch : Architecture
  mergeFres : Bool
  mergeFdes : Bool
  warnings : Bool
  debugdump : Bool
  endian : Option Endian
  bases : Bases
  deriving DecidableEq, Repr

/-- lib.rs:36-46 `Options::new`. -/
def Options.new (arch : Architecture) (bases : Bases) : Options where
  arch := arch
  mergeFdes := true
  mergeFres := true
  warnings := false
  debugdump := false
  endian := none
  bases := bases

namespace Options

/-- lib.rs:54-57 `Options::merge_fres`. -/
def setMergeFres (o : Options) (merge : Bool) : Options := { o with mergeFres := merge }

/-- lib.rs:66-69 `Options::merge_fdes`. -/
def setMergeFdes (o : Options) (merge : Bool) : Options := { o with mergeFdes := merge }

/-- lib.rs:75-78 `Options::endian`.  The argument is what `Into<Option<Endian>>` gives: `some e` for
an `Endian` (as main.rs:80 passes one). -/
def setEndian (o : Options) (endian : Option Endian) : Options := { o with endian := endian }

/-- lib.rs:86-89 `Options::arch`. -/
def setArch (o : Options) (arch : Architecture) : Options := { o with arch := arch }

/-- lib.rs:92-95 `Options::bases`. -/
def setBases (o : Options) (bases : Bases) : Options := { o with bases := bases }

/-- lib.rs:98-101 `Options::debugdump`. -/
def setDebugdump (o : Options) (dump : Bool) : Options := { o with debugdump := dump }

/-- lib.rs:103-106 `Options::warnings`. -/
def setWarnings (o : Options) (warnings : Bool) : Options := { o with warnings := warnings }

end Options

/-- error.rs:7-39 `Error`. -/
inductive ConvError
  | invalidEhFrameEntry (e : GErr)
  | invalidDwarfFde (e : GErr)
  | invalidUnwindTable (e : GErr)
  | invalidStartAddress (address : U64)
  | invalidRowOffset (address offset : U64)
  | invalidFunctionLength (address len : U64)
  deriving DecidableEq, Repr

/-- The messages given to `warn` (lib.rs:338-341, 349, 370-373, 384-387, 399-402, 413-416, 426-429). -/
inductive WarnMsg
  | cfaRegister (r : Reg)
  | cfaExpression
  | cfaOffset (o : I64)
  | fpOffset (o : I64)
  | fpRule (r : RegRule)
  | raOffset (o : I64)
  | raRule (r : RegRule)
  deriving DecidableEq, Repr

/-- The text built by `warn` (lib.rs:461-463), as data. -/
structure Warning where
  start : U64
  offset : U64
  digits : Nat
  msg : WarnMsg
  deriving DecidableEq, Repr

/-- lib.rs:467-470 `ConvertRowError`.  With warnings off the text is empty (`none`). -/
inductive RowError
  | fatal (e : ConvError)
  | warning (w : Option Warning)
  deriving DecidableEq, Repr

/-- dump.rs:202-262 `dump_expression`: fails with the first operation that cannot be decoded. -/
def dumpExpression : Expr → Except GErr Unit
  | [] => .ok ()
  | .error e :: _ => .error e
  | .ok _ :: rest => dumpExpression rest

/-- dump.rs:7-200 `dump_cfi_instructions`: an instruction that cannot be decoded ends the dump
without error (27-30), an operation that cannot be decoded is an error. -/
def dumpCfiInstructions : List (Except GErr Insn) → Except GErr Unit
  | [] => .ok ()
  | .error _ :: _ => .ok ()
  | .ok i :: rest =>
    match i.expr? with
    | none => dumpCfiInstructions rest
    | some e =>
      match dumpExpression e with
      | .error e => .error e
      | .ok () => dumpCfiInstructions rest

/-- lib.rs:443-464 `warn`.  `ilog2` panics for length 0. -/
def warn (dbg : Bool) (opts : Options) (fde : DwFde) (row : DwRow) (msg : WarnMsg) : Rust RowError :=
  -- 453-455
  if !opts.warnings then .ok (.warning none)
  else
    -- 457-463
    (subU64 dbg row.start fde.initial).bind fun offset =>
    if fde.len = 0#64 then .panic .ilog2
    else .ok (.warning (some {
      start := fde.initial
      offset := offset
      digits := (fde.len.toNat.log2 + 3) / 4 + 2
      msg := msg }))

/-- `return Err(self.warn(..))` -/
def warnErr {α : Type} (dbg : Bool) (opts : Options) (fde : DwFde) (row : DwRow) (msg : WarnMsg) :
    Rust (Except RowError α) :=
  (warn dbg opts fde row msg).bind fun e => .ok (.error e)

/-- lib.rs:276-284 and 354-362: the offset of a row from the start of its function. -/
def rowStart (dbg : Bool) (fde : DwFde) (row : DwRow) : Rust (Except ConvError U32) :=
  (subU64 dbg row.start fde.initial).bind fun d =>
  match u32TryFromU64 d with
  | some addr =>
    if addr.toNat < i32Max then .ok (.ok addr)
    else (subU64 dbg row.start fde.initial).bind fun d =>
      .ok (.error (.invalidRowOffset row.start d))
  | none => (subU64 dbg row.start fde.initial).bind fun d =>
      .ok (.error (.invalidRowOffset row.start d))

/-- lib.rs:330-352: base register and offset of the CFA. -/
def cfaOf (dbg : Bool) (opts : Options) (fde : DwFde) (row : DwRow) :
    Rust (Except RowError (BaseReg × I64)) :=
  match row.cfa with
  | .registerAndOffset register offset =>
    if register = opts.arch.sp then .ok (.ok (.sp, offset))
    else if register = opts.arch.fp then .ok (.ok (.fp, offset))
    else warnErr dbg opts fde row (.cfaRegister register)
  | .expression _ => warnErr dbg opts fde row .cfaExpression

/-- lib.rs:378-405: the offset of the saved FP, if it is saved. -/
def fpOf (dbg : Bool) (opts : Options) (fde : DwFde) (row : DwRow) :
    Rust (Except RowError (Option I32)) :=
  match row.register opts.arch.fp with
  | .offset offset =>
    match i32TryFromI64 offset with
    | some offset => .ok (.ok (some offset))
    | none => warnErr dbg opts fde row (.fpOffset offset)
  | .sameValue => .ok (.ok none)
  | .undefined => .ok (.ok none)
  | rule => warnErr dbg opts fde row (.fpRule rule)

/-- lib.rs:407-432: the offset of the return address. -/
def raOf (dbg : Bool) (opts : Options) (fde : DwFde) (row : DwRow) :
    Rust (Except RowError I32) :=
  match row.register opts.arch.ra with
  | .offset offset =>
    match i32TryFromI64 offset with
    | some offset => .ok (.ok offset)
    | none => warnErr dbg opts fde row (.raOffset offset)
  | rule => warnErr dbg opts fde row (.raRule rule)

/-- lib.rs:320-441 `convert_row`. -/
def convertRow (dbg : Bool) (opts : Options) (fde : DwFde) (row : DwRow) :
    Rust (Except RowError FrameRowBuilder) :=
  -- 330-352
  (cfaOf dbg opts fde row).bind fun
  | .error e => .ok (.error e)
  | .ok (base, offset) =>
    -- 354-362
    (rowStart dbg fde row).bind fun
    | .error e => .ok (.error (.fatal e))
    | .ok rowStart =>
      -- 364-376
      match i32TryFromI64 offset with
      | none => warnErr dbg opts fde row (.cfaOffset offset)
      | some cfa =>
        -- 378-405
        (fpOf dbg opts fde row).bind fun
        | .error e => .ok (.error e)
        | .ok fpOffset =>
          -- 407-432
          (raOf dbg opts fde row).bind fun
          | .error e => .ok (.error e)
          | .ok raOffset =>
            -- 434-440
            .ok (.ok (FrameRowBuilder.new base rowStart
              { cfa := cfa, fp := fpOffset, ra := some raOffset }))

/-- lib.rs:244-304: the loop over the rows of a function.  State: `sfde` and the warnings printed. -/
def convertRows (dbg : Bool) (opts : Options) (fde : DwFde) :
    List (Except GErr DwRow) → FuncDescBuilder → List Warning →
    Rust (Except ConvError (FuncDescBuilder × List Warning))
  | [], sfde, log => .ok (.ok (sfde, log))
  | .error e :: _, _, _ => .ok (.error (.invalidUnwindTable e))
  | .ok row :: rows, sfde, log =>
    -- 269-274
    if row.start = row.end_ then convertRows dbg opts fde rows sfde log
    else
      -- 276-284
      (rowStart dbg fde row).bind fun
      | .error e => .ok (.error e)
      | .ok start =>
        -- 286-296
        (convertRow dbg opts fde row).bind fun r =>
        match (match r with
          | .ok fre => Except.ok (fre, log)
          | .error (.warning w) => .ok (FrameRowBuilder.invalid start, log ++ w.toList)
          | .error (.fatal e) => .error e) with
        | .error e => .ok (.error e)
        | .ok (fre, log) =>
          -- 299-303
          match sfde.row fre with
          | .error _ => .panic .explicit
          | .ok sfde => convertRows dbg opts fde rows sfde log

/-- The state of `Dwarf2SFrame::convert`: the section, the parsed CIEs by offset, the warnings. -/
structure ConvState where
  sframe : SFrameBuilder
  cies : List (Nat × Except GErr Cie)
  log : List Warning

/-- lib.rs:203-314: one function. -/
def convertFde (dbg : Bool) (opts : Options) (st : ConvState) (fde : DwFde) :
    Rust (Except ConvError ConvState) :=
  -- 206-223
  (if opts.debugdump then
    (addU64 dbg fde.initial fde.len).bind fun _ => Rust.ok (dumpCfiInstructions fde.instructions)
  else .ok (.ok ())).bind fun
  | .error e => .ok (.error (.invalidDwarfFde e))
  | .ok () =>
    -- 225-229
    if fde.initial.toNat > i32Max then .ok (.error (.invalidStartAddress fde.initial))
    -- 231-236
    else if fde.len.toNat > i32Max then .ok (.error (.invalidFunctionLength fde.initial fde.len))
    else
      -- 238-242
      let sfde := FuncDescBuilder.new st.sframe.options (fde.initial.setWidth 32) (fde.len.setWidth 32)
      match fde.rows with
      | .error e => .ok (.error (.invalidUnwindTable e))
      | .ok rows =>
        -- 244-304
        (convertRows dbg opts fde rows sfde st.log).bind fun
        | .error e => .ok (.error e)
        | .ok (sfde, log) =>
          -- 306-308
          (if opts.mergeFres then sfde.mergeAdjacentFres else .ok sfde).bind fun sfde =>
          -- 310
          (st.sframe.fde sfde).bind fun sframe =>
          .ok (.ok { st with sframe := sframe, log := log })

/-- lib.rs:195-199: the callback that looks up a CIE, with the new cache. -/
def lookupCie (opts : Options) (eh : EhFrame) (cies : List (Nat × Except GErr Cie)) (offset : Nat) :
    Except GErr Cie × List (Nat × Except GErr Cie) :=
  match cies.lookup offset with
  | some cie => (cie, cies)
  | none =>
    let cie := eh.cieFromOffset opts.bases offset
    (cie, (offset, cie) :: cies)

/-- lib.rs:191-315: the loop over the entries. -/
def convertEntries (dbg : Bool) (opts : Options) (eh : EhFrame) :
    List (Except GErr Entry) → ConvState → Rust (Except ConvError ConvState)
  | [], st => .ok (.ok st)
  | .error e :: _, _ => .ok (.error (.invalidEhFrameEntry e))
  | .ok .cie :: entries, st => convertEntries dbg opts eh entries st
  | .ok (.fde offset parse) :: entries, st =>
    match parse (lookupCie opts eh st.cies offset).1 with
    | .error e => .ok (.error (.invalidDwarfFde e))
    | .ok fde =>
      (convertFde dbg opts { st with cies := (lookupCie opts eh st.cies offset).2 } fde).bind fun
      | .error e => .ok (.error e)
      | .ok st => convertEntries dbg opts eh entries st

/-- lib.rs:146-156: the ABI identifier. -/
def chooseAbi (eh : EhFrame) (opts : Options) : U8 :=
  let endian := if eh.bigEndian then Endian.big else Endian.little
  match opts.arch, opts.endian.getD endian with
  | .aarch64, .little => Abi.AARCH64_ENDIAN_LITTLE
  | .aarch64, .big => Abi.AARCH64_ENDIAN_BIG
  | .amd64, .little => Abi.AMD64_ENDIAN_LITTLE
  | _, _ => Abi.INVALID

/-- lib.rs:158-163: the options of the section. -/
def sectionOptions (eh : EhFrame) (opts : Options) : SFrameOptions :=
  let abi := chooseAbi eh opts
  let sfoptions := SFrameOptions.new.abi abi
  if abi = Abi.AMD64_ENDIAN_LITTLE then sfoptions.fixedRaOffset (some (-8)) else sfoptions

/-- lib.rs:142-178 `dwarf2sframe`, with the warnings printed if it succeeds. -/
def dwarf2sframeLog (dbg : Bool) (eh : EhFrame) (opts : Options) :
    Rust (Except ConvError (SFrameBuilder × List Warning)) :=
  -- 165-170
  (convertEntries dbg opts eh (eh.entries opts.bases)
    { sframe := SFrameBuilder.new (sectionOptions eh opts), cies := [], log := [] }).bind fun
  | .error e => .ok (.error e)
  | .ok st =>
    -- 172-177
    (if opts.mergeFdes then st.sframe.mergeAdjacentFdes dbg else .ok st.sframe).bind fun sframe =>
    .ok (.ok (sframe, st.log))

/-- lib.rs:142-178 `dwarf2sframe`. -/
def dwarf2sframe (dbg : Bool) (eh : EhFrame) (opts : Options) : Rust (Except ConvError SFrameBuilder) :=
  (dwarf2sframeLog dbg eh opts).bind fun r => .ok (r.map Prod.fst)

end Verif
