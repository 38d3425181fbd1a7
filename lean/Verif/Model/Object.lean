import Verif.Model.Convert
/-!
# What the command-line tools see of the `object` crate and of the operating system

Neither is modelled; a `World` is an arbitrary choice of everything they may answer.  The contract
assumed is: an object file has one architecture, one byte order and a list of sections with names;
`section_by_name` gives the first section with the name; emitting an object, opening, mapping and
writing a file either succeed or fail.  Argument parsing and printing are not modelled.
-/

namespace Verif

/-- `object::Architecture`; the tools tell two of them from the others. -/
inductive ObjArch
  | x86_64
  | aarch64
  | other (code : Nat)
  deriving DecidableEq, Repr

/-- `object::Section`: `name()`, `address()` and `uncompressed_data()` (`none` if that fails). -/
structure ObjSection where
  name : String
  address : U64
  data : Option (List U8)
  deriving DecidableEq, Repr

/-- `object::File`: `endianness()`, `architecture()`, `sections()`. -/
structure ObjFile where
  endianness : Endian
  architecture : ObjArch
  sections : List ObjSection
  deriving DecidableEq, Repr

/-- `section_by_name` -/
def ObjFile.sectionByName (f : ObjFile) (name : String) : Option ObjSection :=
  f.sections.find? fun s => s.name == name

/-- A section of `object::write::Object` (of kind `Debug`). -/
structure OutSection where
  name : String
  data : List U8
  align : Nat
  deriving DecidableEq, Repr

/-- `object::write::Object` (ELF). -/
structure OutObject where
  architecture : ObjArch
  endianness : Endian
  sections : List OutSection
  deriving DecidableEq, Repr

/-- `Object::new(Elf, architecture, endianness)` -/
def OutObject.new (architecture : ObjArch) (endianness : Endian) : OutObject :=
  { architecture := architecture, endianness := endianness, sections := [] }

/-- `add_section(debug segment, name, Debug)`: the object and the number of the new section. -/
def OutObject.addSection (x : OutObject) (name : String) : OutObject × Nat :=
  ({ x with sections := x.sections ++ [{ name := name, data := [], align := 1 }] }, x.sections.length)

/-- `set_section_data(section, data, align)` -/
def OutObject.setSectionData (x : OutObject) (i : Nat) (data : List U8) (align : Nat) : OutObject :=
  { x with sections := x.sections.modify i fun s => { s with data := data, align := align } }

/-- The answers of the environment. -/
structure World where
  /-- `File::open`: a handle -/
  openFile : String → Option Nat
  /-- `Mmap::map` -/
  mmap : Nat → Option (List U8)
  /-- `object::File::parse` -/
  parse : List U8 → Option ObjFile
  /-- `gimli::EhFrame::new(data, endian)` -/
  ehFrame : List U8 → Endian → EhFrame
  /-- `Object::emit` -/
  emit : OutObject → Option (List U8)
  /-- `std::fs::write`: whether it succeeds -/
  write : String → List U8 → Bool
  /-- the byte order of the host -/
  host : Endian

/-- Why the legacy converter fails (dwarf2sframe/src/main.rs:86, 95, 101-108, 110-117, 121-123,
138-144, 148-150, 152-160, 304-306). -/
inductive LegacyError
  | entry (e : GErr)
  | parse (e : GErr)
  | start (address : U64)
  | len (len : U64)
  | rows (e : GErr)
  | dump (e : GErr)
  | nextRow (e : GErr)
  | rowOffset
  | row (e : FrameRowError)
  deriving DecidableEq, Repr

/-- Why a tool fails: the message of the `anyhow` error. -/
inductive CliError
  | open_
  | mmap
  | parse
  | architecture (a : ObjArch)
  | noSection
  | decompress
  | convert (e : ConvError)
  | legacy (e : LegacyError)
  | build (e : EmitError)
  | load (e : ReadError)
  | emit
  | write
  deriving DecidableEq, Repr

/-- What a tool does to the outside: a call of `std::fs::write`. -/
structure WriteCall where
  path : String
  data : List U8
  deriving DecidableEq, Repr

/-- A program with effects: from the calls of `fs::write` made so far to the result and the calls
made in the end. -/
def Prog (α : Type) := List WriteCall → Rust (Except CliError α) × List WriteCall

namespace Prog

/-- Pure computation without effects. -/
def lift {α : Type} (x : Rust (Except CliError α)) : Prog α := fun calls => (x, calls)

/-- `Ok(a)` -/
def pure {α : Type} (a : α) : Prog α := lift (.ok (.ok a))

/-- `return Err(e)` -/
def fail {α : Type} (e : CliError) : Prog α := lift (.ok (.error e))

/-- Sequencing with `?`. -/
def bind {α β : Type} (x : Prog α) (f : α → Prog β) : Prog β := fun calls =>
  match x calls with
  | (.ok (.ok a), calls) => f a calls
  | (.ok (.error e), calls) => (.ok (.error e), calls)
  | (.panic p, calls) => (.panic p, calls)
  | (.diverge, calls) => (.diverge, calls)

instance : Monad Prog where
  pure := Prog.pure
  bind := Prog.bind

/-- `x.context(..)?` -/
def orFail {α : Type} (x : Option α) (e : CliError) : Prog α :=
  match x with
  | some a => pure a
  | none => fail e

/-- `std::fs::write(path, data).context(..)?` -/
def fsWrite (w : World) (path : String) (data : List U8) : Prog Unit := fun calls =>
  (if w.write path data then .ok (.ok ()) else .ok (.error .write), calls ++ [⟨path, data⟩])

end Prog

end Verif
