import Verif.Model.Process
import Verif.Props.Main2
import Verif.Props.Main1
import Verif.Props.Text
import Verif.Props.Texts
/-!
# The tools as processes: C108, C109
-/

namespace Verif
open Spec

/-! ### The step at which a tool fails -/

/-- The file at `path` can be opened, mapped, and parsed as the object `file`. -/
def Spec.Parsed (w : World) (path : String) (file : ObjFile) : Prop :=
  ∃ h d, w.openFile path = some h ∧ w.mmap h = some d ∧ w.parse d = some file

/-- Opening the object file at `path` fails, at its first, second or third step. -/
inductive Spec.InputFails (w : World) (path : String) : CliError → Prop
  | open_ : w.openFile path = none → InputFails w path .open_
  | mmap (h) : w.openFile path = some h → w.mmap h = none → InputFails w path .mmap
  | parse (h d) : w.openFile path = some h → w.mmap h = some d → w.parse d = none → InputFails w path .parse

/-- The object file has no section of the name, or one that cannot be decompressed. -/
inductive Spec.SectionFails (file : ObjFile) (name : String) : CliError → Prop
  | missing : file.sectionByName name = none → SectionFails file name .noSection
  | packed (s) : file.sectionByName name = some s → s.data = none → SectionFails file name .decompress

/-- The section of the name is there and decompresses to `data`. -/
def Spec.HasSection (file : ObjFile) (name : String) (data : List U8) : Prop :=
  ∃ s, file.sectionByName name = some s ∧ s.data = some data

/-- The first step of `sframedump` that fails. -/
inductive Spec.FailsDump (w : World) (path : String) : CliError → Prop
  | input (e) : InputFails w path e → FailsDump w path e
  | section_ (file e) : Parsed w path file → SectionFails file ".sframe" e → FailsDump w path e
  | load (file data e) : Parsed w path file → HasSection file ".sframe" data →
      SFrame.load w.host data = .ok (.error e) → FailsDump w path (.load e)

/-- The architectures of object files that the newer converter supports. -/
def Spec.Supported (a : ObjArch) (arch : Architecture) : Prop :=
  a = .x86_64 ∧ arch = .amd64 ∨ a = .aarch64 ∧ arch = .aarch64

/-- The first step of `dwarf2sframe2` that fails. -/
inductive Spec.Fails2 (dbg : Bool) (w : World) (args : Args2) : CliError → Prop
  | input (e) : InputFails w args.input e → Fails2 dbg w args e
  | architecture (file) : Parsed w args.input file → (∀ arch, ¬ Supported file.architecture arch) →
      Fails2 dbg w args (.architecture file.architecture)
  | section_ (file arch e) : Parsed w args.input file → Supported file.architecture arch →
      SectionFails file ".eh_frame" e → Fails2 dbg w args e
  | convert (file arch data e) : Parsed w args.input file → Supported file.architecture arch →
      HasSection file ".eh_frame" data →
      dwarf2sframe dbg (w.ehFrame data file.endianness)
        (toolOptions args arch file) = .ok (.error e) →
      Fails2 dbg w args (.convert e)
  | build (file arch data b e) : Parsed w args.input file → Supported file.architecture arch →
      HasSection file ".eh_frame" data →
      dwarf2sframe dbg (w.ehFrame data file.endianness)
        (toolOptions args arch file) = .ok (.ok b) →
      b.build dbg file.endianness = .ok (.error e) → Fails2 dbg w args (.build e)
  | emit (file arch eh b bytes) : Parsed w args.input file → Supported file.architecture arch →
      HasSection file ".eh_frame" eh →
      dwarf2sframe dbg (w.ehFrame eh file.endianness)
        (toolOptions args arch file) = .ok (.ok b) →
      b.build dbg file.endianness = .ok (.ok bytes) →
      w.emit ⟨file.architecture, file.endianness, [⟨".sframe", bytes, 8⟩]⟩ = none → Fails2 dbg w args .emit
  | write (file arch eh b bytes out) : Parsed w args.input file → Supported file.architecture arch →
      HasSection file ".eh_frame" eh →
      dwarf2sframe dbg (w.ehFrame eh file.endianness)
        (toolOptions args arch file) = .ok (.ok b) →
      b.build dbg file.endianness = .ok (.ok bytes) →
      w.emit ⟨file.architecture, file.endianness, [⟨".sframe", bytes, 8⟩]⟩ = some out →
      w.write args.output out = false → Fails2 dbg w args .write

/-- The first step of the legacy converter that fails. -/
inductive Spec.Fails1 (dbg : Bool) (w : World) (args : Args1) : CliError → Prop
  | input (e) : InputFails w args.input e → Fails1 dbg w args e
  | section_ (file e) : Parsed w args.input file → SectionFails file ".eh_frame" e → Fails1 dbg w args e
  | convert (file data e) : Parsed w args.input file → HasSection file ".eh_frame" data →
      legacyConvert dbg (w.ehFrame data file.endianness) (toolBases file) = .ok (.error e) →
      Fails1 dbg w args (.legacy e)
  | build (file data b e) : Parsed w args.input file → HasSection file ".eh_frame" data →
      legacyConvert dbg (w.ehFrame data file.endianness) (toolBases file) = .ok (.ok b) →
      b.build dbg w.host = .ok (.error e) → Fails1 dbg w args (.build e)
  | emit (file data b bytes) : Parsed w args.input file → HasSection file ".eh_frame" data →
      legacyConvert dbg (w.ehFrame data file.endianness) (toolBases file) = .ok (.ok b) →
      b.build dbg w.host = .ok (.ok bytes) →
      w.emit ⟨file.architecture, file.endianness, [⟨".sframe", bytes, 8⟩]⟩ = none → Fails1 dbg w args .emit
  | write (file data b bytes out) : Parsed w args.input file → HasSection file ".eh_frame" data →
      legacyConvert dbg (w.ehFrame data file.endianness) (toolBases file) = .ok (.ok b) →
      b.build dbg w.host = .ok (.ok bytes) →
      w.emit ⟨file.architecture, file.endianness, [⟨".sframe", bytes, 8⟩]⟩ = some out →
      w.write args.output out = false → Fails1 dbg w args .write

theorem Spec.Parsed.unique {w : World} {path : String} {f g : ObjFile} (hf : Parsed w path f)
    (hg : Parsed w path g) : f = g := by
  obtain ⟨h, d, h1, h2, h3⟩ := hf
  obtain ⟨h', d', h1', h2', h3'⟩ := hg
  rw [h1] at h1'; cases h1'
  rw [h2] at h2'; cases h2'
  rw [h3] at h3'; cases h3'
  rfl

theorem Spec.HasSection.unique {file : ObjFile} {name : String} {d d' : List U8} (h : HasSection file name d)
    (h' : HasSection file name d') : d = d' := by
  obtain ⟨s, h1, h2⟩ := h
  obtain ⟨s', h1', h2'⟩ := h'
  rw [h1] at h1'; cases h1'
  rw [h2] at h2'; cases h2'
  rfl

/-- What `sframedump` does with a file. -/
theorem sframedump_cases (dbg : Bool) (w : World) (path : String) :
    (∃ e, FailsDump w path e ∧ sframedump dbg w path = ([], .ok (.error e))) ∨
    ∃ file data s, Readable w path file data ∧ SFrame.load w.host data = .ok (.ok s) ∧
      sframedump dbg w path = ((dump dbg s).1, (dump dbg s).2.bind fun () => .ok (.ok ())) := by
  cases h1 : w.openFile path with
  | none => exact .inl ⟨_, .input _ (.open_ h1), by unfold sframedump; rw [h1]⟩
  | some h =>
  cases h2 : w.mmap h with
  | none => exact .inl ⟨_, .input _ (.mmap h h1 h2), by unfold sframedump; rw [h1]; simp only []; rw [h2]⟩
  | some d =>
  cases h3 : w.parse d with
  | none =>
    exact .inl ⟨_, .input _ (.parse h d h1 h2 h3), by
      unfold sframedump; rw [h1]; simp only []; rw [h2]; simp only []; rw [h3]⟩
  | some file =>
  have hp : Parsed w path file := ⟨h, d, h1, h2, h3⟩
  cases h4 : file.sectionByName ".sframe" with
  | none =>
    exact .inl ⟨_, .section_ file _ hp (.missing h4), by
      unfold sframedump; rw [h1]; simp only []; rw [h2]; simp only []; rw [h3]; simp only []; rw [h4]⟩
  | some s =>
  cases h5 : s.data with
  | none =>
    exact .inl ⟨_, .section_ file _ hp (.packed s h4 h5), by
      unfold sframedump; rw [h1]; simp only []; rw [h2]; simp only []; rw [h3]; simp only []; rw [h4]
      simp only []; rw [h5]⟩
  | some data =>
  have hr : Readable w path file data := ⟨⟨h, d, h1, h2, h3⟩, s, h4, h5⟩
  rw [sframedump_readable hr]
  rcases C01_load_total w.host data with ⟨s', h6⟩ | h6 | h6 | ⟨v, _, _, h6⟩ <;> rw [h6]
  · exact .inr ⟨file, data, s', hr, h6, rfl⟩
  · exact .inl ⟨_, .load file data _ hp ⟨s, h4, h5⟩ h6, rfl⟩
  · exact .inl ⟨_, .load file data _ hp ⟨s, h4, h5⟩ h6, rfl⟩
  · exact .inl ⟨_, .load file data _ hp ⟨s, h4, h5⟩ h6, rfl⟩

theorem Spec.Readable.split {w : World} {path : String} {file : ObjFile} {data : List U8} :
    Readable w path file data ↔ Parsed w path file ∧ HasSection file ".sframe" data :=
  ⟨fun h => ⟨h.input, h.section_⟩, fun h => ⟨h.1, h.2⟩⟩

/-- A file whose section can be loaded is one at which no step fails. -/
theorem Spec.FailsDump.not_loads {w : World} {path : String} {e : CliError} (he : FailsDump w path e)
    {file : ObjFile} {data : List U8} {s : SFrame w.host} (hp : Parsed w path file)
    (hs : HasSection file ".sframe" data) (hl : SFrame.load w.host data = .ok (.ok s)) : False := by
  cases he with
  | input e he =>
    obtain ⟨h, d, h1, h2, h3⟩ := hp
    cases he with
    | open_ h' => rw [h1] at h'; cases h'
    | mmap h' a b => rw [h1] at a; cases a; rw [h2] at b; cases b
    | parse h' d' a b c => rw [h1] at a; cases a; rw [h2] at b; cases b; rw [h3] at c; cases c
  | section_ file' e hp' he =>
    cases hp.unique hp'
    obtain ⟨s, h1, h2⟩ := hs
    cases he with
    | missing h' => rw [h1] at h'; cases h'
    | packed s' a b => rw [h1] at a; cases a; rw [h2] at b; cases b
  | load file' data' e hp' hs' he =>
    cases hp.unique hp'
    cases hs.unique hs'
    rw [hl] at he; cases he

/-- The dump of a loaded section returns or panics. -/
theorem dump_ends {o : Endian} (dbg : Bool) {bytes : List U8} {f : SFrame o}
    (h : SFrame.load o bytes = .ok (.ok f)) : (dump dbg f).2 = .ok () ∨ ∃ p, (dump dbg f).2 = .panic p := by
  obtain ⟨es, _, _, _, h1, h2⟩ := C55_dump_partial dbg h
  by_cases hb : ∃ e ∈ es, BadFn dbg e
  · exact .inr (h2 hb).1
  · exact .inl (by rw [h1 hb])

/-! ### C108 -/

/-- `main` with exactly one file and without the flag. -/
theorem sframedumpMain_one {dbg : Bool} {t : OtherText} {w : World} {parse : List String → Except String Matches}
    {args : List String} {path : String} (h : parse args = .ok ⟨false, [path]⟩) :
    sframedumpMain dbg t w parse args = ⟨(sframedump dbg w path).1, false,
      reportOf (reportDump t path) (sframedump dbg w path).2, exitCode (sframedump dbg w path).2⟩ := by
  unfold sframedumpMain
  rw [h]
  rfl

/-- The other ways to call it. -/
theorem sframedumpMain_other {dbg : Bool} {t : OtherText} {w : World} {parse : List String → Except String Matches}
    {args : List String} (h : ¬ ∃ path, parse args = .ok ⟨false, [path]⟩) :
    ((∃ free, parse args = .ok ⟨true, free⟩) ∧ sframedumpMain dbg t w parse args = ⟨[], true, [], some 0⟩) ∨
    ((∀ free, parse args ≠ .ok ⟨true, free⟩) ∧
      ∃ m, (∀ w, sframedumpMain dbg t w parse args = ⟨[], false, [m], some 1⟩)) := by
  cases hp : parse args with
  | error e => exact .inr ⟨nofun, e, fun w => by unfold sframedumpMain; rw [hp]⟩
  | ok m =>
    obtain ⟨help, free⟩ := m
    cases help with
    | true => exact .inl ⟨⟨free, rfl⟩, by unfold sframedumpMain; rw [hp]; rfl⟩
    | false =>
      refine .inr ⟨nofun, ?_⟩
      match free, hp with
      | [], hp => exact ⟨_, fun w => by unfold sframedumpMain; rw [hp]; rfl⟩
      | [path], hp => exact absurd ⟨path, hp⟩ h
      | a :: b :: l, hp => exact ⟨_, fun w => by unfold sframedumpMain; rw [hp]; rfl⟩

/-- **C108** `sframedump` ends with code 0 exactly if help was asked for, which is then all that is printed, or exactly
one file was given, it is readable, its section loads, and the whole listing was printed, without a report. -/
theorem C108_success (dbg : Bool) (t : OtherText) (w : World) (parse : List String → Except String Matches)
    (args : List String) (r : Ended) :
    (sframedumpMain dbg t w parse args = r ∧ r.code = some 0) ↔
      (∃ free, parse args = .ok ⟨true, free⟩ ∧ r = ⟨[], true, [], some 0⟩) ∨
      ∃ path file data s ls, parse args = .ok ⟨false, [path]⟩ ∧ Readable w path file data ∧
        SFrame.load w.host data = .ok (.ok s) ∧ dump dbg s = (ls, .ok ()) ∧ r = ⟨ls, false, [], some 0⟩ := by
  by_cases hp : ∃ path, parse args = .ok ⟨false, [path]⟩
  · obtain ⟨path, hp⟩ := hp
    rw [sframedumpMain_one hp]
    constructor
    · rintro ⟨rfl, h⟩
      refine .inr ?_
      rcases sframedump_cases dbg w path with ⟨e, _, hr⟩ | ⟨file, data, s, h1, h2, hr⟩ <;> rw [hr] at h ⊢
      · cases h
      · cases hd : (dump dbg s).2 with
        | ok u => exact ⟨path, file, data, s, (dump dbg s).1, hp, h1, h2, by rw [← hd], by rw [Rust.bind_ok]; rfl⟩
        | panic p => rw [hd] at h; cases h
        | diverge => rw [hd] at h; cases h
    · rintro (⟨free, h, _⟩ | ⟨path', file, data, s, ls, h, h1, h2, h3, rfl⟩)
      · rw [hp] at h; cases h
      · rw [hp] at h; cases h
        refine ⟨?_, rfl⟩
        rw [sframedump_readable h1, h2]
        simp only []
        rw [h3]
        rfl
  · rcases sframedumpMain_other (dbg := dbg) (t := t) (w := w) hp with ⟨⟨free, h⟩, hr⟩ | ⟨h, m, hr⟩
    · rw [hr]
      constructor
      · rintro ⟨rfl, _⟩
        exact .inl ⟨free, h, rfl⟩
      · rintro (⟨_, _, rfl⟩ | ⟨path, _, _, _, _, h', _⟩)
        · exact ⟨rfl, rfl⟩
        · exact absurd ⟨path, h'⟩ hp
    · rw [hr]
      constructor
      · rintro ⟨rfl, h⟩
        cases h
      · rintro (⟨_, h', _⟩ | ⟨path, _, _, _, _, h', _⟩)
        · exact absurd h' (h _)
        · exact absurd ⟨path, h'⟩ hp

/-- **C108** It always ends.  If it reports an error, which is a message at least, then it ends with code 1 and has printed
nothing else; else with 0, or with 101 by a panic, which only a section that loads can cause. -/
theorem C108_failure (dbg : Bool) (t : OtherText) (w : World) (parse : List String → Except String Matches)
    (args : List String) :
    let r := sframedumpMain dbg t w parse args
    (r.code = some 0 ∧ r.report = []) ∨
    (r.code = some 1 ∧ r.report ≠ [] ∧ r.lines = [] ∧ r.help = false) ∨
    (r.code = some 101 ∧ r.report = [] ∧ r.help = false ∧
      ∃ path file data s, parse args = .ok ⟨false, [path]⟩ ∧ Readable w path file data ∧
        SFrame.load w.host data = .ok (.ok s) ∧ (dump dbg s).2.Panics ∧ r.lines = (dump dbg s).1) := by
  by_cases hp : ∃ path, parse args = .ok ⟨false, [path]⟩
  · obtain ⟨path, hp⟩ := hp
    simp only []
    rw [sframedumpMain_one hp]
    rcases sframedump_cases dbg w path with ⟨e, he, hr⟩ | ⟨file, data, s, h1, h2, hr⟩ <;> rw [hr]
    · refine .inr (.inl ⟨rfl, ?_, rfl, rfl⟩)
      cases he with
      | input _ he => cases he <;> exact nofun
      | section_ _ _ _ he => cases he <;> exact nofun
      | load => exact nofun
    · rcases dump_ends dbg h2 with hd | ⟨p, hd⟩
      · rw [hd]; exact .inl ⟨rfl, rfl⟩
      · refine .inr (.inr ⟨by rw [hd]; rfl, by rw [hd]; rfl, rfl, path, file, data, s, hp, h1, h2, ⟨p, hd⟩, rfl⟩)
  · rcases sframedumpMain_other (dbg := dbg) (t := t) (w := w) hp with ⟨_, hr⟩ | ⟨_, m, hr⟩ <;> simp only [] <;>
      rw [hr]
    · exact .inl ⟨rfl, rfl⟩
    · exact .inr (.inl ⟨rfl, nofun, rfl, rfl⟩)

/-- **C108** Unless exactly one file is given, and help is not asked for, nothing depends on the files that there are. -/
theorem C108_no_file (dbg : Bool) (t : OtherText) (parse : List String → Except String Matches) (args : List String)
    (h : ¬ ∃ path, parse args = .ok ⟨false, [path]⟩) (w w' : World) :
    sframedumpMain dbg t w parse args = sframedumpMain dbg t w' parse args ∧
    (sframedumpMain dbg t w parse args).lines = [] := by
  rcases sframedumpMain_other (dbg := dbg) (t := t) (w := w) h with ⟨⟨f, h1⟩, hr⟩ | ⟨h1, m, hr⟩
  · rcases sframedumpMain_other (dbg := dbg) (t := t) (w := w') h with ⟨_, hr'⟩ | ⟨h1', _⟩
    · rw [hr, hr']; exact ⟨rfl, rfl⟩
    · exact absurd h1 (h1' f)
  · rw [hr, hr]; exact ⟨rfl, rfl⟩

/-- A simple reading of arguments. -/
def Samples.getopts (args : List String) : Except String Matches :=
  if args.any fun a => a.startsWith "-" && a != "-h" && a != "--help" then .error "Unrecognized option"
  else .ok ⟨args.any fun a => a.startsWith "-", args.filter fun a => !a.startsWith "-"⟩

/-- Texts of others. -/
def Samples.otherText : OtherText :=
  ⟨⟨fun _ => "unexpected end of input", fun _ _ => none, fun _ => "", fun _ => ""⟩, fun _ => "I386", fun _ => "No such file or directory (os error 2)", 24⟩

/-- A listing of a file; help; a file that does not exist; no file; two files; a wrong option; and a section on which the
dump panics after the lines of its first function. -/
example (dbg : Bool) :
    let run := fun data args => sframedumpMain dbg Samples.otherText (Samples.dumpWorld .little .little data)
      Samples.getopts args
    (run Samples.v2 ["x"]).code = some 0 ∧ (run Samples.v2 ["x"]).lines.length = 10 ∧
    run Samples.v2 ["x", "--help"] = ⟨[], true, [], some 0⟩ ∧
    run Samples.v2 ["y"] = ⟨[], false, ["failed to open `y`", "No such file or directory (os error 2)"], some 1⟩ ∧
    run Samples.v2 [] = ⟨[], false, ["no object file input provided"], some 1⟩ ∧
    run Samples.v2 ["x", "x"] = ⟨[], false, ["at most one object file can be provided as an input"], some 1⟩ ∧
    run Samples.v2 ["-q", "x"] = ⟨[], false, ["Unrecognized option"], some 1⟩ ∧
    run [1, 2] ["x"] = ⟨[], false, ["failed to decode .sframe section",
      "unexpected end-of-input when reading sframe section"], some 1⟩ ∧
    (run (Samples.v2.set 71 0x20) ["x"]).code = some 101 := by
  cases dbg <;> decide +kernel

/-! ### C109: the step -/

theorem Spec.FailsDump.runs {w : World} {path : String} {e : CliError} (dbg : Bool) (he : FailsDump w path e) :
    sframedump dbg w path = ([], .ok (.error e)) := by
  unfold sframedump
  cases he with
  | input e he =>
    cases he with
    | open_ h1 => rw [h1]
    | mmap h h1 h2 => rw [h1]; simp only []; rw [h2]
    | parse h d h1 h2 h3 => rw [h1]; simp only []; rw [h2]; simp only []; rw [h3]
  | section_ file e hp he =>
    obtain ⟨h, d, h1, h2, h3⟩ := hp
    rw [h1]; simp only []; rw [h2]; simp only []; rw [h3]; simp only []
    cases he with
    | missing h4 => rw [h4]
    | packed s h4 h5 => rw [h4]; simp only []; rw [h5]
  | load file data e hp hs he =>
    obtain ⟨h, d, h1, h2, h3⟩ := hp
    obtain ⟨s, h4, h5⟩ := hs
    rw [h1]; simp only []; rw [h2]; simp only []; rw [h3]; simp only []; rw [h4]; simp only []; rw [h5]
    simp only []; rw [he]

/-- **C109**, the step: `sframedump` returns an error exactly if a step fails, and the first one that does is what the
error says. -/
theorem C109_step_dump (dbg : Bool) (w : World) (path : String) (e : CliError) :
    (sframedump dbg w path).2 = .ok (.error e) ↔ FailsDump w path e := by
  constructor
  · intro h
    rcases sframedump_cases dbg w path with ⟨e', he, hr⟩ | ⟨file, data, s, h1, h2, hr⟩ <;> rw [hr] at h
    · cases h; exact he
    · rcases dump_ends dbg h2 with hd | ⟨p, hd⟩ <;> rw [hd] at h <;> cases h
  · intro h
    rw [h.runs dbg]

theorem Prog.orFail_some {α β : Type} {x : Option α} {a : α} (h : x = some a) (e : CliError) (f : α → Prog β) (cs) :
    Prog.bind (Prog.orFail x e) f cs = f a cs := by subst h; rfl

theorem Prog.orFail_none {α β : Type} {x : Option α} (h : x = none) (e : CliError) (f : α → Prog β) (cs) :
    Prog.bind (Prog.orFail x e) f cs = (.ok (.error e), cs) := by subst h; rfl

theorem Prog.lift_ok {α β ε : Type} {x : Rust (Except ε α)} {a : α} (h : x = .ok (.ok a)) (g : ε → CliError)
    (f : α → Prog β) (cs) :
    Prog.bind (Prog.lift (x.bind fun r => .ok (r.mapError g))) f cs = f a cs := by subst h; rfl

theorem Prog.lift_error {α β ε : Type} {x : Rust (Except ε α)} {e : ε} (h : x = .ok (.error e)) (g : ε → CliError)
    (f : α → Prog β) (cs) :
    Prog.bind (Prog.lift (x.bind fun r => .ok (r.mapError g))) f cs = (.ok (.error (g e)), cs) := by subst h; rfl

theorem Prog.lift_cases {α β ε : Type} (x : Rust (Except ε α)) (g : ε → CliError) (f : α → Prog β) (cs)
    {e : CliError} (h : (Prog.bind (Prog.lift (x.bind fun r => .ok (r.mapError g))) f cs).1 = .ok (.error e)) :
    (∃ e', x = .ok (.error e') ∧ e = g e') ∨ ∃ a, x = .ok (.ok a) ∧ (f a cs).1 = .ok (.error e) := by
  rcases x with (e' | a) | p | _
  · cases h; exact .inl ⟨e', rfl, rfl⟩
  · exact .inr ⟨a, rfl, h⟩
  · cases h
  · cases h

theorem Prog.orFail_cases {α β : Type} (x : Option α) (e₀ : CliError) (f : α → Prog β) (cs)
    {e : CliError} (h : (Prog.bind (Prog.orFail x e₀) f cs).1 = .ok (.error e)) :
    (x = none ∧ e = e₀) ∨ ∃ a, x = some a ∧ (f a cs).1 = .ok (.error e) := by
  cases x with
  | none => cases h; exact .inl ⟨rfl, rfl⟩
  | some a => exact .inr ⟨a, rfl, h⟩

/-- The steps that open the input. -/
theorem input_cases {β : Type} {w : World} {path : String} {f : ObjFile → Prog β} {cs : List WriteCall} {e : CliError}
    (h : (Prog.bind (Prog.orFail (w.openFile path) .open_) (fun file =>
      Prog.bind (Prog.orFail (w.mmap file) .mmap) fun data =>
      Prog.bind (Prog.orFail (w.parse data) .parse) f) cs).1 = .ok (.error e)) :
    InputFails w path e ∨ ∃ file, Parsed w path file ∧ (f file cs).1 = .ok (.error e) := by
  rcases Prog.orFail_cases _ _ _ _ h with ⟨h1, rfl⟩ | ⟨a, h1, h⟩
  · exact .inl (.open_ h1)
  rcases Prog.orFail_cases _ _ _ _ h with ⟨h2, rfl⟩ | ⟨d, h2, h⟩
  · exact .inl (.mmap a h1 h2)
  rcases Prog.orFail_cases _ _ _ _ h with ⟨h3, rfl⟩ | ⟨file, h3, h⟩
  · exact .inl (.parse a d h1 h2 h3)
  exact .inr ⟨file, ⟨a, d, h1, h2, h3⟩, h⟩

@[inherit_doc input_cases]
theorem input_fails {β : Type} {w : World} {path : String} (f : ObjFile → Prog β) (cs : List WriteCall) {e : CliError}
    (h : InputFails w path e) :
    (Prog.bind (Prog.orFail (w.openFile path) .open_) (fun file =>
      Prog.bind (Prog.orFail (w.mmap file) .mmap) fun data =>
      Prog.bind (Prog.orFail (w.parse data) .parse) f) cs) = (.ok (.error e), cs) := by
  cases h with
  | open_ h1 => rw [Prog.orFail_none h1]
  | mmap h h1 h2 => rw [Prog.orFail_some h1, Prog.orFail_none h2]
  | parse h d h1 h2 h3 => rw [Prog.orFail_some h1, Prog.orFail_some h2, Prog.orFail_none h3]

@[inherit_doc input_cases]
theorem input_parsed {β : Type} {w : World} {path : String} {file : ObjFile} (f : ObjFile → Prog β) (cs : List WriteCall)
    (h : Parsed w path file) :
    (Prog.bind (Prog.orFail (w.openFile path) .open_) (fun file =>
      Prog.bind (Prog.orFail (w.mmap file) .mmap) fun data =>
      Prog.bind (Prog.orFail (w.parse data) .parse) f) cs) = f file cs := by
  obtain ⟨a, d, h1, h2, h3⟩ := h
  rw [Prog.orFail_some h1, Prog.orFail_some h2, Prog.orFail_some h3]

/-- The steps that find the section. -/
theorem section_cases {β : Type} {file : ObjFile} {name : String} {f : List U8 → Prog β} {cs : List WriteCall}
    {e : CliError}
    (h : (Prog.bind (Prog.orFail (file.sectionByName name) .noSection) (fun s =>
      Prog.bind (Prog.orFail s.data .decompress) f) cs).1 = .ok (.error e)) :
    SectionFails file name e ∨ ∃ data, HasSection file name data ∧ (f data cs).1 = .ok (.error e) := by
  rcases Prog.orFail_cases _ _ _ _ h with ⟨h1, rfl⟩ | ⟨s, h1, h⟩
  · exact .inl (.missing h1)
  rcases Prog.orFail_cases _ _ _ _ h with ⟨h2, rfl⟩ | ⟨d, h2, h⟩
  · exact .inl (.packed s h1 h2)
  exact .inr ⟨d, ⟨s, h1, h2⟩, h⟩

@[inherit_doc section_cases]
theorem section_fails {β : Type} {file : ObjFile} {name : String} (f : List U8 → Prog β) (cs : List WriteCall)
    {e : CliError} (h : SectionFails file name e) :
    (Prog.bind (Prog.orFail (file.sectionByName name) .noSection) (fun s =>
      Prog.bind (Prog.orFail s.data .decompress) f) cs) = (.ok (.error e), cs) := by
  cases h with
  | missing h1 => rw [Prog.orFail_none h1]
  | packed s h1 h2 => rw [Prog.orFail_some h1, Prog.orFail_none h2]

@[inherit_doc section_cases]
theorem section_has {β : Type} {file : ObjFile} {name : String} {data : List U8} (f : List U8 → Prog β)
    (cs : List WriteCall) (h : HasSection file name data) :
    (Prog.bind (Prog.orFail (file.sectionByName name) .noSection) (fun s =>
      Prog.bind (Prog.orFail s.data .decompress) f) cs) = f data cs := by
  obtain ⟨s, h1, h2⟩ := h
  rw [Prog.orFail_some h1, Prog.orFail_some h2]

/-- The output object. -/
theorem outObject_eq (a : ObjArch) (e : Endian) (bytes : List U8) :
    OutObject.setSectionData ((OutObject.new a e).addSection ".sframe").1
      ((OutObject.new a e).addSection ".sframe").2 bytes 8 = ⟨a, e, [⟨".sframe", bytes, 8⟩]⟩ := rfl

theorem fsWrite_error {w : World} {path : String} {data : List U8} {cs : List WriteCall} {e : CliError} :
    (Prog.fsWrite w path data cs).1 = .ok (.error e) ↔ w.write path data = false ∧ e = .write := by
  unfold Prog.fsWrite
  cases w.write path data <;> simp
  exact eq_comm

theorem supported_iff {a : ObjArch} {arch : Architecture} : cliArch a = some arch ↔ Supported a arch := by
  cases a <;> cases arch <;> simp [cliArch, Supported]

theorem unsupported_iff {a : ObjArch} : cliArch a = none ↔ ∀ arch, ¬ Supported a arch := by
  simp only [← supported_iff]
  cases cliArch a <;> simp

/-- **C109**, the step, for the newer converter. -/
theorem C109_step_newer (dbg : Bool) (w : World) (args : Args2) (e : CliError) :
    (runMain2 dbg w args).1 = .ok (.error e) ↔ Fails2 dbg w args e := by
  unfold runMain2 main2
  simp only [Bind.bind, cliOptions_eq]
  constructor
  · intro h
    rcases input_cases h with h | ⟨file, hp, h⟩
    · exact .input _ h
    rcases Prog.orFail_cases _ _ _ _ h with ⟨h1, rfl⟩ | ⟨arch, ha', h⟩
    · exact .architecture file hp (unsupported_iff.1 h1)
    have ha := supported_iff.1 ha'
    rcases section_cases h with h | ⟨data, hs, h⟩
    · exact .section_ file arch _ hp ha h
    rcases Prog.lift_cases _ _ _ _ h with ⟨e', h1, rfl⟩ | ⟨b, hb, h⟩
    · exact .convert file arch data e' hp ha hs h1
    rcases Prog.lift_cases _ _ _ _ h with ⟨e', h1, rfl⟩ | ⟨bytes, hy, h⟩
    · exact .build file arch data b e' hp ha hs hb h1
    simp only [outObject_eq] at h
    rcases Prog.orFail_cases _ _ _ _ h with ⟨h1, rfl⟩ | ⟨out, ho, h⟩
    · exact .emit file arch data b bytes hp ha hs hb hy h1
    obtain ⟨h1, rfl⟩ := fsWrite_error.1 h
    exact .write file arch data b bytes out hp ha hs hb hy ho h1
  · intro h
    cases h with
    | input e h => rw [input_fails _ _ h]
    | architecture file hp h1 => rw [input_parsed _ _ hp, Prog.orFail_none (unsupported_iff.2 h1)]
    | section_ file arch e hp ha h1 => rw [input_parsed _ _ hp, Prog.orFail_some (supported_iff.2 ha), section_fails _ _ h1]
    | convert file arch data e hp ha hs h1 =>
      rw [input_parsed _ _ hp, Prog.orFail_some (supported_iff.2 ha), section_has _ _ hs, Prog.lift_error h1]
    | build file arch data b e hp ha hs hb h1 =>
      rw [input_parsed _ _ hp, Prog.orFail_some (supported_iff.2 ha), section_has _ _ hs, Prog.lift_ok hb, Prog.lift_error h1]
    | emit file arch data b bytes hp ha hs hb hy h1 =>
      rw [input_parsed _ _ hp, Prog.orFail_some (supported_iff.2 ha), section_has _ _ hs, Prog.lift_ok hb, Prog.lift_ok hy]
      simp only [outObject_eq]
      rw [Prog.orFail_none h1]
    | write file arch data b bytes out hp ha hs hb hy ho h1 =>
      rw [input_parsed _ _ hp, Prog.orFail_some (supported_iff.2 ha), section_has _ _ hs, Prog.lift_ok hb, Prog.lift_ok hy]
      simp only [outObject_eq]
      rw [Prog.orFail_some ho]
      exact fsWrite_error.2 ⟨h1, rfl⟩

/-- **C109**, the step, for the legacy converter. -/
theorem C109_step_legacy (dbg : Bool) (w : World) (args : Args1) (e : CliError) :
    (runMain1 dbg w args).1 = .ok (.error e) ↔ Fails1 dbg w args e := by
  unfold runMain1 main1
  simp only [Bind.bind, cliBases_eq]
  constructor
  · intro h
    rcases input_cases h with h | ⟨file, hp, h⟩
    · exact .input _ h
    rcases section_cases h with h | ⟨data, hs, h⟩
    · exact .section_ file _ hp h
    rcases Prog.lift_cases _ _ _ _ h with ⟨e', h1, rfl⟩ | ⟨b, hb, h⟩
    · exact .convert file data e' hp hs h1
    rcases Prog.lift_cases _ _ _ _ h with ⟨e', h1, rfl⟩ | ⟨bytes, hy, h⟩
    · exact .build file data b e' hp hs hb h1
    simp only [outObject_eq] at h
    rcases Prog.orFail_cases _ _ _ _ h with ⟨h1, rfl⟩ | ⟨out, ho, h⟩
    · exact .emit file data b bytes hp hs hb hy h1
    obtain ⟨h1, rfl⟩ := fsWrite_error.1 h
    exact .write file data b bytes out hp hs hb hy ho h1
  · intro h
    cases h with
    | input e h => rw [input_fails _ _ h]
    | section_ file e hp h1 => rw [input_parsed _ _ hp, section_fails _ _ h1]
    | convert file data e hp hs h1 =>
      rw [input_parsed _ _ hp, section_has _ _ hs, Prog.lift_error h1]
    | build file data b e hp hs hb h1 =>
      rw [input_parsed _ _ hp, section_has _ _ hs, Prog.lift_ok hb, Prog.lift_error h1]
    | emit file data b bytes hp hs hb hy h1 =>
      rw [input_parsed _ _ hp, section_has _ _ hs, Prog.lift_ok hb, Prog.lift_ok hy]
      simp only [outObject_eq]
      rw [Prog.orFail_none h1]
    | write file data b bytes out hp hs hb hy ho h1 =>
      rw [input_parsed _ _ hp, section_has _ _ hs, Prog.lift_ok hb, Prog.lift_ok hy]
      simp only [outObject_eq]
      rw [Prog.orFail_some ho]
      exact fsWrite_error.2 ⟨h1, rfl⟩

end Verif
