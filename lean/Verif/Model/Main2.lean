import Verif.Model.Object
/-!
# Model of `crates/dwarf2sframe2/src/main.rs`
-/

namespace Verif

/-- main.rs:10-28 `Args`. -/
structure Args2 where
  input : String
  output : String
  debugDump : Bool
  warnings : Bool
  noOpt : Bool
  deriving DecidableEq, Repr

/-- main.rs:59-74 (textually the same in the legacy tool, dwarf2sframe/src/main.rs:60-79, but for
printing): the base addresses. -/
def cliBases (file : ObjFile) : Bases :=
  let bases := Bases.default
  -- 60-62
  let bases := match file.sectionByName ".eh_frame_hdr" with
    | some section_ => bases.setEhFrameHdr section_.address
    | none => bases
  -- 64-66
  let bases := match file.sectionByName ".eh_frame" with
    | some section_ => bases.setEhFrame section_.address
    | none => bases
  -- 68-70
  let bases := match file.sectionByName ".text" with
    | some section_ => bases.setText section_.address
    | none => bases
  -- 72-74
  match file.sectionByName ".got" with
    | some section_ => bases.setText section_.address
    | none => bases

/-- main.rs:76-81: the options of the converter. -/
def cliOptions (args : Args2) (arch : Architecture) (endian : Endian) (bases : Bases) : Options :=
  (((((Options.new arch bases).setDebugdump args.debugDump).setMergeFdes (!args.noOpt)).setMergeFres
    (!args.noOpt)).setEndian (some endian)).setWarnings args.warnings

/-- main.rs:43-47: the architecture. -/
def cliArch : ObjArch → Option Architecture
  | .x86_64 => some .amd64
  | .aarch64 => some .aarch64
  | .other _ => none

/-- main.rs:30-114 `main` of `dwarf2sframe2`. -/
def main2 (dbg : Bool) (w : World) (args : Args2) : Prog Unit := do
  -- 34-42
  let file ← Prog.orFail (w.openFile args.input) .open_
  let data ← Prog.orFail (w.mmap file) .mmap
  let file ← Prog.orFail (w.parse data) .parse
  let endian := file.endianness
  -- 43-47
  let arch ← Prog.orFail (cliArch file.architecture) (.architecture file.architecture)
  -- 49-55
  let section_ ← Prog.orFail (file.sectionByName ".eh_frame") .noSection
  let data ← Prog.orFail section_.data .decompress
  -- 57-74
  let ehFrame := w.ehFrame data endian
  let bases := cliBases file
  -- 76-82
  let options := cliOptions args arch endian bases
  let sframe ← Prog.lift ((dwarf2sframe dbg ehFrame options).bind fun r => .ok (r.mapError .convert))
  -- 84-88
  let bytes ← Prog.lift ((sframe.build dbg endian).bind fun r => .ok (r.mapError .build))
  -- 90-103
  let outobj := OutObject.new file.architecture file.endianness
  let (outobj, section_) := outobj.addSection ".sframe"
  let outobj := outobj.setSectionData section_ bytes 8
  -- 105-108
  let data ← Prog.orFail (w.emit outobj) .emit
  -- 110-113
  Prog.fsWrite w args.output data

/-- Running the program: its result and the calls of `fs::write`. -/
def runMain2 (dbg : Bool) (w : World) (args : Args2) : Rust (Except CliError Unit) × List WriteCall :=
  main2 dbg w args []

end Verif
