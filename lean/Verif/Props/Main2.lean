import Verif.Model.Main2
import Verif.Props.Convert3
/-!
# The command-line tool `dwarf2sframe2`: C53, C54
-/

namespace Verif
open Spec

/-- The address of the first section with a name. -/
def Spec.addressOf (file : ObjFile) (name : String) : Option U64 :=
  (file.sections.find? fun s => s.name = name).map ObjSection.address

/-- The base addresses the tool passes to `gimli` (wrong for files with a `.got` section, see C53). -/
def Spec.toolBases (file : ObjFile) : Bases :=
  let text := (addressOf file ".got").or (addressOf file ".text")
  { ehFrameHdr := ⟨addressOf file ".eh_frame_hdr", text, addressOf file ".eh_frame_hdr"⟩
    ehFrame := ⟨addressOf file ".eh_frame", text, none⟩ }

/-- The options the tool gives to the converter: both merges unless `--no-opt` is given, the byte order
of the input, the rest as on the command line. -/
def Spec.toolOptions (args : Args2) (arch : Architecture) (file : ObjFile) : Options where
  arch := arch
  mergeFres := !args.noOpt
  mergeFdes := !args.noOpt
  warnings := args.warnings
  debugdump := args.debugDump
  endian := some file.endianness
  bases := toolBases file

theorem sectionByName_address (file : ObjFile) (name : String) :
    (file.sectionByName name).map ObjSection.address = addressOf file name := by
  unfold ObjFile.sectionByName addressOf
  congr 1

theorem cliBases_eq (file : ObjFile) : cliBases file = toolBases file := by
  simp only [toolBases, ← sectionByName_address]
  unfold cliBases
  cases file.sectionByName ".eh_frame_hdr" <;> cases file.sectionByName ".eh_frame" <;>
    cases file.sectionByName ".text" <;> cases file.sectionByName ".got" <;>
    simp [Bases.default, Bases.setEhFrameHdr, Bases.setEhFrame, Bases.setText]

theorem cliOptions_eq (args : Args2) (arch : Architecture) (file : ObjFile) :
    cliOptions args arch file.endianness (cliBases file) = toolOptions args arch file := by
  rw [cliBases_eq]; rfl

/-- All stages before writing the output succeed: `out` is the emitted object. -/
structure Spec.Made (dbg : Bool) (w : World) (args : Args2) (file : ObjFile) (arch : Architecture)
    (eh : EhFrame) (b : SFrameBuilder) (bytes out : List U8) : Prop where
  input : ∃ h d, w.openFile args.input = some h ∧ w.mmap h = some d ∧ w.parse d = some file
  supported : file.architecture = (match arch with | .amd64 => .x86_64 | .aarch64 => .aarch64)
  section_ : ∃ s data, file.sectionByName ".eh_frame" = some s ∧ s.data = some data ∧
    eh = w.ehFrame data file.endianness
  convert : dwarf2sframe dbg eh (toolOptions args arch file) = .ok (.ok b)
  build : b.build dbg file.endianness = .ok (.ok bytes)
  emit : w.emit ⟨file.architecture, file.endianness, [⟨".sframe", bytes, 8⟩]⟩ = some out

theorem cliArch_eq {a : ObjArch} {arch : Architecture} :
    cliArch a = some arch ↔ a = (match arch with | .amd64 => .x86_64 | .aarch64 => .aarch64) := by
  cases a <;> cases arch <;> simp [cliArch]

theorem Prog.orFail_bind {α β : Type} (x : Option α) (e : CliError) (f : α → Prog β) (cs) :
    Prog.bind (Prog.orFail x e) f cs =
      match x with
      | some a => f a cs
      | none => (.ok (.error e), cs) := by
  cases x <;> rfl

theorem Prog.lift_bind {α β : Type} (x : Rust (Except CliError α)) (f : α → Prog β) (cs) :
    Prog.bind (Prog.lift x) f cs =
      match x with
      | .ok (.ok a) => f a cs
      | .ok (.error e) => (.ok (.error e), cs)
      | .panic p => (.panic p, cs)
      | .diverge => (.diverge, cs) := by
  rcases x with (_ | _) | _ | _ <;> rfl

/-- The run of the tool: either some stage before the output fails and nothing is written, or all
succeed and the emitted object is written. -/
theorem runMain2_cases (dbg : Bool) (w : World) (args : Args2) :
    ((runMain2 dbg w args).2 = [] ∧ (runMain2 dbg w args).1 ≠ .ok (.ok ()) ∧
      (runMain2 dbg w args).1 ≠ .ok (.error .write) ∧
      ¬ ∃ file arch eh b bytes out, Made dbg w args file arch eh b bytes out) ∨
    ∃ file arch eh b bytes out, Made dbg w args file arch eh b bytes out ∧
      runMain2 dbg w args = (if w.write args.output out then .ok (.ok ()) else .ok (.error .write),
        [⟨args.output, out⟩]) := by
  unfold runMain2 main2
  simp only [Bind.bind]
  rw [Prog.orFail_bind]
  cases h1 : w.openFile args.input with
  | none =>
    refine .inl ⟨rfl, nofun, nofun, ?_⟩
    rintro ⟨file, arch, eh, b, bytes, out, h⟩
    obtain ⟨_, _, h, _⟩ := h.input
    rw [h1] at h; cases h
  | some h =>
  simp only []
  rw [Prog.orFail_bind]
  cases h2 : w.mmap h with
  | none =>
    refine .inl ⟨rfl, nofun, nofun, ?_⟩
    rintro ⟨file, arch, eh, b, bytes, out, h⟩
    obtain ⟨_, _, h, h', _⟩ := h.input
    rw [h1] at h; cases h
    rw [h2] at h'; cases h'
  | some d =>
  simp only []
  rw [Prog.orFail_bind]
  cases h3 : w.parse d with
  | none =>
    refine .inl ⟨rfl, nofun, nofun, ?_⟩
    rintro ⟨file, arch, eh, b, bytes, out, h⟩
    obtain ⟨_, _, h, h', h''⟩ := h.input
    rw [h1] at h; cases h
    rw [h2] at h'; cases h'
    rw [h3] at h''; cases h''
  | some file =>
  have hfile : ∀ {file' arch eh b bytes out}, Made dbg w args file' arch eh b bytes out → file' = file := by
    intro file' arch eh b bytes out h
    obtain ⟨_, _, h, h', h''⟩ := h.input
    rw [h1] at h; cases h
    rw [h2] at h'; cases h'
    rw [h3] at h''; cases h''
    rfl
  simp only []
  rw [Prog.orFail_bind]
  cases h4 : cliArch file.architecture with
  | none =>
    refine .inl ⟨rfl, nofun, nofun, ?_⟩
    rintro ⟨file', arch, eh, b, bytes, out, h⟩
    cases hfile h
    rw [cliArch_eq.2 h.supported] at h4; cases h4
  | some arch =>
  have harch : ∀ {arch' eh b bytes out}, Made dbg w args file arch' eh b bytes out → arch' = arch := by
    intro arch' eh b bytes out h
    rw [cliArch_eq.2 h.supported] at h4; cases h4; rfl
  simp only []
  rw [Prog.orFail_bind]
  cases h5 : file.sectionByName ".eh_frame" with
  | none =>
    refine .inl ⟨rfl, nofun, nofun, ?_⟩
    rintro ⟨file', arch, eh, b, bytes, out, h⟩
    cases hfile h
    obtain ⟨_, _, h, _⟩ := h.section_
    rw [h5] at h; cases h
  | some s =>
  simp only []
  rw [Prog.orFail_bind]
  cases h6 : s.data with
  | none =>
    refine .inl ⟨rfl, nofun, nofun, ?_⟩
    rintro ⟨file', arch, eh, b, bytes, out, h⟩
    cases hfile h
    obtain ⟨_, _, h, h', _⟩ := h.section_
    rw [h5] at h; cases h
    rw [h6] at h'; cases h'
  | some data =>
  have heh : ∀ {arch' eh b bytes out}, Made dbg w args file arch' eh b bytes out →
      eh = w.ehFrame data file.endianness := by
    intro arch' eh b bytes out h
    obtain ⟨_, _, h, h', h''⟩ := h.section_
    rw [h5] at h; cases h
    rw [h6] at h'; cases h'
    exact h''
  simp only []
  rw [Prog.lift_bind]
  rw [cliOptions_eq]
  cases h7 : dwarf2sframe dbg (w.ehFrame data file.endianness) (toolOptions args arch file) with
  | panic p =>
    refine .inl ⟨rfl, nofun, nofun, ?_⟩
    rintro ⟨file', arch, eh, b, bytes, out, h⟩
    cases hfile h; cases harch h; cases heh h
    have := h.convert
    rw [h7] at this; cases this
  | diverge =>
    refine .inl ⟨rfl, nofun, nofun, ?_⟩
    rintro ⟨file', arch, eh, b, bytes, out, h⟩
    cases hfile h; cases harch h; cases heh h
    have := h.convert
    rw [h7] at this; cases this
  | ok r =>
  cases r with
  | error e =>
    refine .inl ⟨rfl, nofun, nofun, ?_⟩
    rintro ⟨file', arch, eh, b, bytes, out, h⟩
    cases hfile h; cases harch h; cases heh h
    have := h.convert
    rw [h7] at this; cases this
  | ok b =>
  simp only [Rust.bind_ok, Except.mapError]
  rw [Prog.lift_bind]
  cases h8 : b.build dbg file.endianness with
  | panic p =>
    refine .inl ⟨rfl, nofun, nofun, ?_⟩
    rintro ⟨file', arch, eh, b, bytes, out, h⟩
    cases hfile h; cases harch h; cases heh h
    have := h.convert
    rw [h7] at this; cases this
    have := h.build
    rw [h8] at this; cases this
  | diverge =>
    refine .inl ⟨rfl, nofun, nofun, ?_⟩
    rintro ⟨file', arch, eh, b, bytes, out, h⟩
    cases hfile h; cases harch h; cases heh h
    have := h.convert
    rw [h7] at this; cases this
    have := h.build
    rw [h8] at this; cases this
  | ok r =>
  cases r with
  | error e =>
    refine .inl ⟨rfl, nofun, nofun, ?_⟩
    rintro ⟨file', arch, eh, b, bytes, out, h⟩
    cases hfile h; cases harch h; cases heh h
    have := h.convert
    rw [h7] at this; cases this
    have := h.build
    rw [h8] at this; cases this
  | ok bytes =>
  simp only [Rust.bind_ok]
  rw [Prog.orFail_bind]
  have hobj : OutObject.setSectionData ((OutObject.new file.architecture file.endianness).addSection ".sframe").1
      ((OutObject.new file.architecture file.endianness).addSection ".sframe").2 bytes 8
      = ⟨file.architecture, file.endianness, [⟨".sframe", bytes, 8⟩]⟩ := rfl
  rw [hobj]
  cases h9 : w.emit ⟨file.architecture, file.endianness, [⟨".sframe", bytes, 8⟩]⟩ with
  | none =>
    refine .inl ⟨rfl, nofun, nofun, ?_⟩
    rintro ⟨file', arch, eh, b, bytes, out, h⟩
    cases hfile h; cases harch h; cases heh h
    have := h.convert
    rw [h7] at this; cases this
    have := h.build
    rw [h8] at this; cases this
    have := h.emit
    rw [h9] at this; cases this
  | some out =>
    exact .inr ⟨file, arch, _, b, bytes, out, ⟨⟨h, d, h1, h2, h3⟩, cliArch_eq.1 h4,
      ⟨s, data, h5, h6, rfl⟩, h7, h8, h9⟩, rfl⟩

/-- The stages have one outcome. -/
theorem Spec.Made.unique {dbg : Bool} {w : World} {args : Args2} {file file' arch arch' eh eh' b b'}
    {bytes bytes' out out' : List U8} (h : Made dbg w args file arch eh b bytes out)
    (h' : Made dbg w args file' arch' eh' b' bytes' out') : file = file' ∧ out = out' := by
  obtain ⟨⟨_, _, a1, a2, a3⟩, a4, ⟨_, _, a5, a6, rfl⟩, a7, a8, a9⟩ := h
  obtain ⟨⟨_, _, c1, c2, c3⟩, c4, ⟨_, _, c5, c6, rfl⟩, c7, c8, c9⟩ := h'
  rw [a1] at c1; cases c1
  rw [a2] at c2; cases c2
  rw [a3] at c3; cases c3
  rw [a5] at c5; cases c5
  rw [a6] at c6; cases c6
  have := (cliArch_eq.2 a4).symm.trans (cliArch_eq.2 c4)
  cases this
  rw [a7] at c7; cases c7
  rw [a8] at c8; cases c8
  rw [a9] at c9; cases c9
  exact ⟨rfl, rfl⟩

/-! ### C54 -/

/-- **C54.**  The tool succeeds iff every stage does; it then has written, once and to the output
path only, the object with the architecture and byte order of the input whose single section is
`.sframe` with the bytes built from the converted functions in the byte order of the input. -/
theorem C54_success (dbg : Bool) (w : World) (args : Args2) (calls : List WriteCall) :
    runMain2 dbg w args = (.ok (.ok ()), calls) ↔
      ∃ file arch eh b bytes out, Made dbg w args file arch eh b bytes out ∧
        w.write args.output out = true ∧ calls = [⟨args.output, out⟩] := by
  rcases runMain2_cases dbg w args with ⟨_, h2, _, h4⟩ | ⟨file, arch, eh, b, bytes, out, hm, hr⟩
  · constructor
    · intro h; rw [h] at h2; exact absurd rfl h2
    · rintro ⟨file, arch, eh, b, bytes, out, hm, _⟩
      exact absurd ⟨file, arch, eh, b, bytes, out, hm⟩ h4
  · constructor
    · intro h
      rw [hr] at h
      cases hx : w.write args.output out <;> rw [hx] at h
      · cases h
      · exact ⟨file, arch, eh, b, bytes, out, hm, hx, (congrArg Prod.snd h).symm⟩
    · rintro ⟨file', arch', eh', b', bytes', out', hm', hx, rfl⟩
      obtain ⟨_, rfl⟩ := hm.unique hm'
      rw [hr, if_pos hx]

/-- **C54.**  Every failure other than that of the write itself, every panic and every hang leaves
the output file untouched. -/
theorem C54_failure (dbg : Bool) (w : World) (args : Args2)
    (h : (runMain2 dbg w args).1 ≠ .ok (.ok ())) (hw : (runMain2 dbg w args).1 ≠ .ok (.error .write)) :
    (runMain2 dbg w args).2 = [] := by
  rcases runMain2_cases dbg w args with ⟨h1, _⟩ | ⟨file, arch, eh, b, bytes, out, hm, hr⟩
  · exact h1
  · rw [hr] at h hw
    cases hx : w.write args.output out <;> rw [hx] at h hw
    · exact absurd rfl hw
    · exact absurd rfl h

/-- **C54.**  Nothing but a complete object is ever written. -/
theorem C54_only_complete_objects (dbg : Bool) (w : World) (args : Args2) (c : WriteCall)
    (h : c ∈ (runMain2 dbg w args).2) :
    ∃ file arch eh b bytes, Made dbg w args file arch eh b bytes c.data ∧ c.path = args.output := by
  rcases runMain2_cases dbg w args with ⟨h1, _⟩ | ⟨file, arch, eh, b, bytes, out, hm, hr⟩
  · rw [h1] at h; cases h
  · rw [hr] at h
    rcases List.mem_singleton.1 h with rfl
    exact ⟨file, arch, eh, b, bytes, hm, rfl⟩

/-- **C54.**  What the written section says: it loads in the byte order of the file, declares the ABI
of the file's architecture and byte order, and lists the converted functions in order. -/
theorem C54_section (dbg : Bool) (w : World) (args : Args2) {file arch eh b bytes out}
    (h : Made dbg w args file arch eh b bytes out) :
    ∃ s es, SFrame.load file.endianness bytes = .ok (.ok s) ∧ s.iter.collect = .ok es ∧
      s.abi.toNat = abiCode arch file.endianness ∧
      es.map (fun e => e.startAddress) = (functions b).map FuncDescBuilder.startAddress := by
  obtain ⟨s, es, h1, h2, _, _, h5, _, _, _, _, _, h11, _, h13⟩ :=
    C30_round_trip dbg dbg file.endianness b (converted_reachable h.convert) bytes h.build
  refine ⟨s, es, h1, h2, ?_, ?_⟩
  · rw [h5]
    exact (C43_options dbg eh _ b h.convert).1
  · refine List.ext_getElem? fun i => ?_
    rw [List.getElem?_map, List.getElem?_map]
    cases hf : (functions b)[i]? with
    | none =>
      have : es[i]? = none := by
        rw [List.getElem?_eq_none_iff] at hf ⊢; omega
      rw [this]; rfl
    | some f =>
      have hi : i < es.length := by
        have := (List.getElem?_eq_some_iff.1 hf).1; omega
      obtain ⟨e, he⟩ : ∃ e, es[i]? = some e := ⟨_, List.getElem?_eq_getElem hi⟩
      rw [he]
      exact congrArg some (h13 i f e hf he).1

namespace Samples

/-- A file with an `.eh_frame`, a `.text` and, if `got`, a `.got` section. -/
def objFile (got : Bool) : ObjFile :=
  { endianness := .little, architecture := .x86_64
    sections := [⟨".text", 0x1000, some []⟩, ⟨".eh_frame", 0x2000, some [1, 2, 3]⟩] ++
      if got then [⟨".got", 0x4000, some []⟩] else [] }

/-- An `.eh_frame` with one function at 0x10 after the text base, of one row. -/
def textRel : EhFrame :=
  { bigEndian := false
    entries := fun bases => match bases.ehFrame.text with
      | some text => [.ok (.fde 0 fun _ => .ok
          { initial := text + 0x10, len := 0x20, instructions := []
            rows := .ok [.ok { dwRow1 with start := text + 0x10, end_ := text + 0x30 }] })]
      | none => [.error ⟨0⟩]
    cieFromOffset := fun _ _ => .ok ⟨[]⟩ }

/-- A world with this file; the emitted object is the content of its first section. -/
def world (got : Bool) : World :=
  { openFile := fun p => if p = "in" then some 3 else none
    mmap := fun _ => some [0x7f]
    parse := fun _ => some (objFile got)
    ehFrame := fun _ _ => textRel
    emit := fun x => x.sections.head?.map OutSection.data
    write := fun _ _ => true
    host := .little }

/-- Arguments of the tool. -/
def args2 : Args2 := { input := "in", output := "out", debugDump := false, warnings := true, noOpt := false }

/-- The section with the one function at `start`. -/
def oneAt (start : I32) : SFrameBuilder :=
  { options := opts
    fdes := [(start, { FuncDescBuilder.new opts start 0x20 with
      fres := [(0, ⟨0, some ⟨8, none, none⟩, false, .sp⟩)] })] }

end Samples

/-- The stages succeed, the run writes the section. -/
example (dbg : Bool) : runMain2 dbg (Samples.world false) Samples.args2 =
    (.ok (.ok ()), [⟨"out", image .little (Samples.oneAt 0x1010)⟩]) := by
  cases dbg <;> decide +kernel

/-- A failure of the last stage before the write; a failure of the write. -/
example (dbg : Bool) :
    runMain2 dbg { Samples.world false with emit := fun _ => none } Samples.args2 = (.ok (.error .emit), []) ∧
    runMain2 dbg { Samples.world false with write := fun _ _ => false } Samples.args2 =
      (.ok (.error .write), [⟨"out", image .little (Samples.oneAt 0x1010)⟩]) := by
  cases dbg <;> decide +kernel

/-! ### C53 -/

/-- The bases as C53 has them (and as `gimli` documents them: `.eh_frame_hdr` and `.got` are the data
bases of `.eh_frame_hdr` and `.eh_frame`). -/
def Spec.properBases (file : ObjFile) : Bases :=
  { ehFrameHdr := ⟨addressOf file ".eh_frame_hdr", addressOf file ".text", addressOf file ".eh_frame_hdr"⟩
    ehFrame := ⟨addressOf file ".eh_frame", addressOf file ".text", addressOf file ".got"⟩ }

/-- **C53 is false of the code**: the address of `.got` replaces that of `.text`, and is not passed
as the data base. -/
theorem C53_got_replaces_text :
    cliBases (Samples.objFile true) ≠ properBases (Samples.objFile true) ∧
    (cliBases (Samples.objFile true)).ehFrame.text = addressOf (Samples.objFile true) ".got" ∧
    (cliBases (Samples.objFile true)).ehFrame.data = none := by
  decide +kernel

/-- **C53 is false of the code**, seen from outside: a function whose address is stored relative to
`.text` is written with the wrong address, as if relative to `.got`; with the proper bases the address
is right. -/
theorem C53_wrong_address (dbg : Bool) :
    dwarf2sframe dbg Samples.textRel { toolOptions Samples.args2 .amd64 (Samples.objFile true) with
      bases := properBases (Samples.objFile true) } = .ok (.ok (Samples.oneAt 0x1010)) ∧
    runMain2 dbg (Samples.world true) Samples.args2 =
      (.ok (.ok ()), [⟨"out", image .little (Samples.oneAt 0x4010)⟩]) := by
  cases dbg <;> decide +kernel

/-- **C53**, what holds: the bases of `.eh_frame_hdr` and of `.eh_frame` are right; those of the text
and of the data are right if, and only if, there is no section `.got`.  Missing: files with a
`.got` section. -/
theorem C53_bases_partial (file : ObjFile) :
    (cliBases file).ehFrame.section_ = addressOf file ".eh_frame" ∧
    (cliBases file).ehFrameHdr.section_ = addressOf file ".eh_frame_hdr" ∧
    (cliBases file).ehFrameHdr.data = addressOf file ".eh_frame_hdr" ∧
    (cliBases file).ehFrame.text = (addressOf file ".got").or (addressOf file ".text") ∧
    (cliBases file).ehFrameHdr.text = (addressOf file ".got").or (addressOf file ".text") ∧
    (cliBases file).ehFrame.data = none ∧
    (cliBases file = properBases file ↔ addressOf file ".got" = none) := by
  simp only [properBases, ← sectionByName_address]
  unfold cliBases
  cases file.sectionByName ".eh_frame_hdr" <;> cases file.sectionByName ".eh_frame" <;>
    cases file.sectionByName ".text" <;> cases file.sectionByName ".got" <;>
    simp [Bases.default, Bases.setEhFrameHdr, Bases.setEhFrame, Bases.setText]

/-- Of the DWARF parser, the converter asks for the entries and the CIEs with the bases given. -/
theorem convert_congr {dbg : Bool} {opts : Options} {eh eh' : EhFrame}
    (h1 : eh.entries opts.bases = eh'.entries opts.bases)
    (h2 : ∀ off, eh.cieFromOffset opts.bases off = eh'.cieFromOffset opts.bases off)
    (h3 : opts.endian ≠ none ∨ eh.bigEndian = eh'.bigEndian) :
    dwarf2sframe dbg eh opts = dwarf2sframe dbg eh' opts := by
  have hl : ∀ cies off, lookupCie opts eh cies off = lookupCie opts eh' cies off := by
    intro cies off
    unfold lookupCie
    rw [h2]
  have hs : sectionOptions eh opts = sectionOptions eh' opts := by
    unfold sectionOptions chooseAbi
    rcases h3 with h3 | h3
    · cases he : opts.endian with
      | none => exact absurd he h3
      | some e => rfl
    · rw [h3]
  have he : ∀ es st, convertEntries dbg opts eh es st = convertEntries dbg opts eh' es st := by
    intro es
    induction es with
    | nil => intro st; rfl
    | cons x es ih =>
      intro st
      rcases x with e | (_ | ⟨off, parse⟩)
      · rfl
      · exact ih st
      · rw [convertEntries, convertEntries, hl]
        cases parse (lookupCie opts eh' st.cies off).1 with
        | error e => rfl
        | ok fde =>
          show Rust.bind _ _ = Rust.bind _ _
          congr 1
          funext r
          cases r with
          | error e => rfl
          | ok st => exact ih st
  unfold dwarf2sframe dwarf2sframeLog
  rw [h1, hs, he]

/-- **C53**, no other bases are used: what the parser would say with other bases has no effect. -/
theorem C53_only_these_bases (dbg : Bool) (w : World) (args : Args2)
    (eh' : List U8 → Endian → EhFrame)
    (h : ∀ hd d file data, w.openFile args.input = some hd → w.mmap hd = some d →
      w.parse d = some file →
      (eh' data file.endianness).entries (toolBases file)
        = (w.ehFrame data file.endianness).entries (toolBases file) ∧
      ∀ off, (eh' data file.endianness).cieFromOffset (toolBases file) off
        = (w.ehFrame data file.endianness).cieFromOffset (toolBases file) off) :
    runMain2 dbg { w with ehFrame := eh' } args = runMain2 dbg w args := by
  simp only [← cliBases_eq] at h
  unfold runMain2 main2
  simp only [Bind.bind]
  rw [Prog.orFail_bind, Prog.orFail_bind]
  cases h1 : w.openFile args.input with
  | none => rfl
  | some hd =>
  simp only []
  rw [Prog.orFail_bind, Prog.orFail_bind]
  cases h2 : w.mmap hd with
  | none => rfl
  | some d =>
  simp only []
  rw [Prog.orFail_bind, Prog.orFail_bind]
  cases h3 : w.parse d with
  | none => rfl
  | some file =>
  simp only []
  rw [Prog.orFail_bind, Prog.orFail_bind]
  cases h4 : cliArch file.architecture with
  | none => rfl
  | some arch =>
  simp only []
  rw [Prog.orFail_bind, Prog.orFail_bind]
  cases h5 : file.sectionByName ".eh_frame" with
  | none => rfl
  | some s =>
  simp only []
  rw [Prog.orFail_bind, Prog.orFail_bind]
  cases h6 : s.data with
  | none => rfl
  | some data =>
  simp only []
  have := h hd d file data h1 h2 h3
  rw [convert_congr (dbg := dbg) (opts := cliOptions args arch file.endianness (cliBases file))
    (eh := eh' data file.endianness) (eh' := w.ehFrame data file.endianness) this.1 this.2 (.inl nofun)]
  rfl

/-- A parser that says something else for all other bases. -/
example (dbg : Bool) :
    let other : EhFrame := { Samples.textRel with
      entries := fun b => if b = toolBases (Samples.objFile false) then Samples.textRel.entries b else [] }
    other.entries Bases.default ≠ Samples.textRel.entries Bases.default ∧
    (other.entries (toolBases (Samples.objFile false)) = Samples.textRel.entries (toolBases (Samples.objFile false))) ∧
    runMain2 dbg { Samples.world false with ehFrame := fun _ _ => other } Samples.args2 =
      runMain2 dbg (Samples.world false) Samples.args2 := by
  refine ⟨?_, ?_, ?_⟩
  · intro h
    have h := congrArg List.length h
    revert h
    decide +kernel
  · simp
  · cases dbg <;> decide +kernel

end Verif
