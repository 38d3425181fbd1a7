import Verif.Model.Cfi
/-!
# Model of `crates/dwarf2sframe/src/bin/dwarfdump.rs`

The output is the lines of stdout, the lines of stderr and the result of `main`.  Writing is assumed to
succeed; what has been written to the `BufWriter` is on stdout in the end, since it is flushed when it is
dropped, also on an error and on a panic.  The listing of instructions is that of `Model/Cfi.lean`.
-/

namespace Verif

/-- `object::Architecture::Arm` and `I386`, which this tool tells from the others as well. -/
def ObjArch.arm : ObjArch := .other 0
@[inherit_doc ObjArch.arm] def ObjArch.i386 : ObjArch := .other 1

/-- `gimli::Pointer` -/
inductive Pointer
  | direct (p : U64)
  | indirect (p : U64)
  deriving DecidableEq, Repr

/-- `gimli::CommonInformationEntry`: what the accessors give.  Encodings are `gimli::DwEhPe`. -/
structure DumpCie where
  offset : U64
  entryLen : U64
  version : U8
  codeAlign : U64
  dataAlign : I64
  raRegister : Reg
  lsdaEncoding : Option U8
  personality : Option (U8 × Pointer)
  fdeEncoding : Option U8
  instructions : List (Except GErr Insn)

/-- `gimli::FrameDescriptionEntry`: what the accessors give. -/
structure DumpFde where
  initial : U64
  len : U64
  lsda : Option Pointer
  instructions : List (Except GErr Insn)

/-- `gimli::CieOrFde`.  As in `Model/Gimli.lean`, an FDE carries what `parse` makes of the CIE. -/
inductive DumpEntry
  | cie (cie : DumpCie)
  | fde (offset entryLen cieOffset : U64) (parse : Except GErr Cie → Except GErr DumpFde)

/-- `gimli::EhFrame`, with its address size and vendor set. -/
structure DumpFrame where
  entries : Bases → List (Except GErr DumpEntry)
  cieFromOffset : Bases → U64 → Except GErr Cie

/-- `gimli::Vendor` -/
inductive Vendor
  | default
  | aarch64
  deriving DecidableEq, Repr

/-- The tables of names of registers in gimli. -/
inductive RegTable
  | arm
  | aarch64
  | x86
  | x86_64
  | riscv
  | loongArch
  deriving DecidableEq, Repr

/-- Everything that gimli and object answer to this tool. -/
structure DumpWorld where
  world : World
  /-- `file.architecture().address_size()`, in bytes -/
  addressSize : ObjArch → Option U8
  /-- `gimli::EhFrame::load` of the data, then `set_address_size` and `set_vendor` -/
  frame : List U8 → Endian → U8 → Vendor → DumpFrame
  /-- `gimli::Arm::register_name` and so on -/
  registerName : RegTable → Reg → Option String
  /-- `Display for gimli::DwEhPe` -/
  encoding : U8 → String
  /-- `Display for gimli::Error` -/
  error : GErr → String
  /-- `Debug for gimli::Error` -/
  debugError : GErr → String

/-- 141-146: the names of registers that are used. -/
def DumpWorld.archRegisterName (w : DumpWorld) (a : ObjArch) : Reg → Option String :=
  if a = .arm ∨ a = .aarch64 then w.registerName .arm
  else if a = .i386 then w.registerName .x86
  else if a = .x86_64 then w.registerName .x86_64
  else fun _ => none

/-- 152-164: the base addresses. -/
def dumpBases (file : ObjFile) : Bases :=
  let bases := Bases.default
  -- 153-155
  let bases := match file.sectionByName ".eh_frame_hdr" with
    | some section_ => bases.setEhFrameHdr section_.address
    | none => bases
  -- 156-158
  let bases := match file.sectionByName ".eh_frame" with
    | some section_ => bases.setEhFrame section_.address
    | none => bases
  -- 159-161
  let bases := match file.sectionByName ".text" with
    | some section_ => bases.setText section_.address
    | none => bases
  -- 162-164
  match file.sectionByName ".got" with
    | some section_ => bases.setGot section_.address
    | none => bases

/-- `encoding.application()` and `encoding.format()`, printed with a slash between them. -/
def DumpWorld.encodingText (w : DumpWorld) (e : U8) : String :=
  w.encoding (e &&& 0x70) ++ "/" ++ w.encoding (e &&& 0x0f)

/-- 263-273 `dump_pointer` -/
def Pointer.text : Pointer → String
  | .direct p => fmtAltHexPad 18 p.toNat
  | .indirect p => "(" ++ fmtAltHexPad 18 p.toNat ++ ")"

/-- 181-219: the lines of a CIE before its instructions, for the names `name` of registers. -/
def DumpWorld.cieLines (w : DumpWorld) (name : Reg → Option String) (c : DumpCie) : List String :=
  ["",
   fmtAltHexPad 10 c.offset.toNat ++ ": CIE",
   "        length: " ++ fmtAltHexPad 10 c.entryLen.toNat,
   "       version: " ++ fmtAltHexPad 4 c.version.toNat,
   "    code_align: " ++ fmtNat c.codeAlign.toNat,
   "    data_align: " ++ fmtInt c.dataAlign,
   "   ra_register: " ++ regText name c.raRegister] ++
  -- 194-201
  (match c.lsdaEncoding with
    | some e => [" lsda_encoding: " ++ w.encodingText e]
    | none => []) ++
  -- 202-211
  (match c.personality with
    | some (e, p) => ["   personality: " ++ w.encodingText e ++ " " ++ p.text]
    | none => []) ++
  -- 212-219
  (match c.fdeEncoding with
    | some e => ["  fde_encoding: " ++ w.encodingText e]
    | none => [])

/-- 276-477 `dump_cfi_instructions`: whether the loop has come to the end of the instructions. -/
def listedAll (l : List (Except GErr Insn)) : Bool := l.all fun
  | .ok _ => true
  | .error _ => false

/-- 276-477 `dump_cfi_instructions`: the lines and the result. -/
def DumpWorld.cfiLines (w : DumpWorld) (name : Reg → Option String) (isInitial : Bool)
    (l : List (Except GErr Insn)) : List String × Except GErr Unit :=
  let r := listInstructions true name w.error l
  -- 292-294, 302-307
  ((if isInitial then [] else ["  Instructions:"]) ++ r.1 ++
    (match r.2 with
      | .ok () => if isInitial && listedAll l then ["  Instructions: Init State:"] else []
      | .error _ => []), r.2)

/-- 230-234: the callback that looks up a CIE, with the new cache. -/
def dumpLookup (frame : DumpFrame) (bases : Bases) (cies : List (U64 × Except GErr Cie)) (offset : U64) :
    Except GErr Cie × List (U64 × Except GErr Cie) :=
  match cies.lookup offset with
  | some cie => (cie, cies)
  | none =>
    let cie := frame.cieFromOffset bases offset
    (cie, (offset, cie) :: cies)

/-- 177-260: the loop over the entries: the lines, and the result of the function. -/
def DumpWorld.entryLines (w : DumpWorld) (dbg : Bool) (name : Reg → Option String) (frame : DumpFrame)
    (bases : Bases) : List (Except GErr DumpEntry) → List (U64 × Except GErr Cie) →
    List String × Rust (Except GErr Unit)
  -- 179
  | [], _ => ([], .ok (.ok ()))
  -- 178
  | .error e :: _, _ => ([], .ok (.error e))
  -- 180-223
  | .ok (.cie c) :: entries, cies =>
    match w.cfiLines name true c.instructions with
    | (ls, .error e) => (w.cieLines name c ++ ls, .ok (.error e))
    | (ls, .ok ()) =>
      let r := w.entryLines dbg name frame bases entries cies
      (w.cieLines name c ++ ls ++ [""] ++ r.1, r.2)
  -- 224-258
  | .ok (.fde offset entryLen cieOffset parse) :: entries, cies =>
    let head := ["",
      fmtAltHexPad 10 offset.toNat ++ ": FDE",
      "        length: " ++ fmtAltHexPad 10 entryLen.toNat,
      "   CIE_pointer: " ++ fmtAltHexPad 10 cieOffset.toNat]
    let found := dumpLookup frame bases cies cieOffset
    match parse found.1 with
    | .error e =>
      let r := w.entryLines dbg name frame bases entries found.2
      (head ++ ["Failed to parse FDE: " ++ w.error e] ++ r.1, r.2)
    | .ok fde =>
      let head := head ++ ["    start_addr: " ++ fmtAltHexPad 18 fde.initial.toNat]
      match addU64 dbg fde.initial fde.len with
      | .panic p => (head, .panic p)
      | .diverge => (head, .diverge)
      | .ok end_ =>
        let head := head ++ ["    range_size: " ++ fmtAltHexPad 18 fde.len.toNat ++ " (end_addr = " ++
          fmtAltHexPad 18 end_.toNat ++ ")"] ++
          (match fde.lsda with
            | some p => ["          lsda: " ++ p.text]
            | none => [])
        match w.cfiLines name false fde.instructions with
        | (ls, .error e) => (head ++ ls, .ok (.error e))
        | (ls, .ok ()) =>
          let r := w.entryLines dbg name frame bases entries found.2
          (head ++ ls ++ [""] ++ r.1, r.2)

/-- 118-261 `dump_eh_frame` of the data of the section. -/
def DumpWorld.dumpEhFrame (w : DumpWorld) (dbg : Bool) (file : ObjFile) (data : List U8) :
    List String × Rust (Except GErr Unit) :=
  -- 124-129
  let addressSize := (w.addressSize file.architecture).getD 8
  -- 133-136
  let vendor := if file.architecture = .aarch64 then Vendor.aarch64 else .default
  let frame := w.frame data file.endianness addressSize vendor
  let bases := dumpBases file
  let r := w.entryLines dbg (w.archRegisterName file.architecture) frame bases (frame.entries bases) []
  ("Exception handling frame information for section .eh_frame" :: r.1, r.2)

/-- 83-100 `load_file_section`; `none` if decompressing fails. -/
def loadFileSection (file : ObjFile) : Option (List U8) :=
  match file.sectionByName ".eh_frame" with
  | some section_ => section_.data
  | none => some []

/-- A run of the tool. -/
structure DumpRun where
  stdout : List String
  stderr : List String
  result : Rust (Except CliError Unit)
  deriving DecidableEq

/-- A run that fails before anything is printed. -/
def DumpRun.fail (r : Rust (Except CliError Unit)) : DumpRun := { stdout := [], stderr := [], result := r }

/-- 77: the line on stderr (25-29 `Display for Error`). -/
def DumpWorld.failedText (w : DumpWorld) (path : String) (e : GErr) : String :=
  "Failed to dump '" ++ path ++ "': GimliError(" ++ w.debugError e ++ ")"

/-- 75-78: what is made of the result of `dump_file`. -/
def DumpWorld.report (w : DumpWorld) (path : String) : List String × Rust (Except GErr Unit) → DumpRun
  | (ls, .ok (.ok ())) => { stdout := ls, stderr := [], result := .ok (.ok ()) }
  | (ls, .ok (.error e)) => { stdout := ls, stderr := [w.failedText path e], result := .ok (.ok ()) }
  | (ls, .panic p) => { stdout := ls, stderr := [], result := .panic p }
  | (ls, .diverge) => { stdout := ls, stderr := [], result := .diverge }

/-- 58-81 `main`.  `arg` is the first argument, if there is one.  The text that is printed for an error
or a panic of `main` is left out. -/
def dwarfdump (dbg : Bool) (w : DumpWorld) (arg : Option String) : DumpRun :=
  match arg with
  -- 59-62
  | none => .fail (.panic .unwrap)
  | some path =>
    -- 64-68
    match w.world.openFile path with
    | none => .fail (.ok (.error .open_))
    | some h =>
    match w.world.mmap h with
    | none => .fail (.ok (.error .mmap))
    | some bytes =>
    match w.world.parse bytes with
    | none => .fail (.ok (.error .parse))
    | some file =>
    -- 112
    match loadFileSection file with
    | none => .fail (.panic .unwrap)
    | some data => w.report path (w.dumpEhFrame dbg file data)

end Verif
