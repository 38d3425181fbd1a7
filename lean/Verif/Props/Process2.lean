import Verif.Props.Process
/-!
# What the report of an error names: C109
-/

namespace Verif
open Spec

/-- The steps of the tools. -/
inductive Spec.Step
  | opening | mapping | parsing | architecture | finding | decompressing | converting | building | decoding | emitting
  | writing
  deriving DecidableEq, Repr

/-- The step of an error. -/
def Spec.stepOf : CliError → Step
  | .open_ => .opening
  | .mmap => .mapping
  | .parse => .parsing
  | .architecture _ => .architecture
  | .noSection => .finding
  | .decompress => .decompressing
  | .convert _ | .legacy _ => .converting
  | .build _ => .building
  | .load _ => .decoding
  | .emit => .emitting
  | .write => .writing

/-- The file that a step is about, given the input and the output. -/
def Spec.fileOf (input output : String) : CliError → Option String
  | .open_ | .mmap | .parse => some input
  | .write => some output
  | _ => none

/-- The first line of a report has `s` in it. -/
def Spec.Mentions (report : List String) (s : String) : Prop :=
  ∃ pre post rest, report = (pre ++ s ++ post) :: rest

/-- Texts of `gimli` cannot be taken for texts of the tools. -/
def Spec.Apart (g : GimliText) : Prop :=
  ∀ e, ∀ p ∈ ["failed to", "Failed to", "DWARF FDE", "elf binary"], ¬ p.toList <+: (g.error e).toList

/-! ### How first lines begin -/

/-- The beginnings of first lines. -/
def lineStarts : List String := [
  "failed to open `",
  "failed to mmap `",
  "failed to parse `",
  "Unsupported architecture: ",
  "elf binary has no ",
  "failed to decompress the ",
  "invalid .eh_frame entry: ",
  "invalid DWARF FDE: ",
  "invalid DWARF unwind table: ",
  "DWARF FDE start address ",
  "DWARF FDE row offset ",
  "DWARF FDE for address ",
  "failed to read .eh_frame entry",
  "failed to parse the frame descriptor entry",
  "DWARF FDE at ",
  "failed to read the rows of a FDE",
  "failed to evaluate FDE unwind table row",
  "DWARF FDE unwind table row start address offset is greater than ",
  "Failed to build an invalid row for the FDE",
  "failed to build the sframe section",
  "failed to emit the sframe object",
  "failed to write to `",
  "failed to decode .sframe section"]

/-- One of them. -/
def lineStart (i : Fin 23) : String := lineStarts[i.val]'i.isLt

/-- No beginning is the beginning of another. -/
theorem lineStart_apart : ∀ i j : Fin 23, (lineStart i).toList.isPrefixOf (lineStart j).toList = true → i = j := by
  decide +kernel

theorem lineStart_inj {i j : Fin 23} {x y : String} (h : lineStart i ++ x = lineStart j ++ y) : i = j ∧ x = y := by
  have hij : i = j := by
    have h := congrArg String.toList h
    rw [String.toList_append, String.toList_append] at h
    have h1 : (lineStart i).toList <+: (lineStart j).toList ++ y.toList := ⟨_, h⟩
    have h2 : (lineStart j).toList <+: (lineStart j).toList ++ y.toList := ⟨_, rfl⟩
    rcases List.prefix_or_prefix_of_prefix h1 h2 with h | h
    · exact lineStart_apart i j (List.isPrefixOf_iff_prefix.2 h)
    · exact (lineStart_apart j i (List.isPrefixOf_iff_prefix.2 h)).symm
  subst hij
  exact ⟨rfl, prefix_cancel h⟩

/-! ### The first lines -/

/-- The first line of a report of the newer converter: how it begins, and the rest. -/
def first2 (t : OtherText) (args : Args2) : CliError → Fin 23 × String
  | .open_ => (0, args.input ++ "`")
  | .mmap => (1, args.input ++ "`")
  | .parse => (2, args.input ++ "`")
  | .architecture a => (3, t.arch a)
  | .noSection => (4, ".eh_frame section")
  | .decompress => (5, ".eh_frame section")
  | .convert e => match e with
    | .invalidEhFrameEntry e => (6, t.gimli.error e)
    | .invalidDwarfFde e => (7, t.gimli.error e)
    | .invalidUnwindTable e => (8, t.gimli.error e)
    | .invalidStartAddress a => (9, fmtAltHex a.toNat ++ " larger than 0x10000000")
    | .invalidRowOffset _ off => (10, fmtAltHex off.toNat ++ " larger than 0x10000000")
    | .invalidFunctionLength a len => (11, fmtAltHex a.toNat ++ " had length " ++ fmtAltHex len.toNat ++
      " larger than 0x10000000")
  | .build _ => (19, "")
  | .emit => (20, "")
  | .write => (21, args.output ++ "`")
  | _ => (22, "")

/-- Errors of the newer converter. -/
def Spec.Newer : CliError → Prop
  | .legacy _ | .load _ => False
  | _ => True

/-- Errors of the legacy converter. -/
def Spec.Legacy : CliError → Prop
  | .architecture _ | .convert _ | .load _ => False
  | _ => True

/-- Errors of `sframedump`. -/
def Spec.Dumper : CliError → Prop
  | .open_ | .mmap | .parse | .noSection | .decompress | .load _ => True
  | _ => False

theorem head_append {l a b : String} {r r' : List String} (h : (l = a ++ b) ∧ r = r') : l :: r = (a ++ b) :: r' := by
  rw [h.1, h.2]

theorem report2_first (t : OtherText) (args : Args2) (e : CliError) (he : Newer e) :
    ∃ rest, report2 t args e = (lineStart (first2 t args e).1 ++ (first2 t args e).2) :: rest := by
  cases e with
  | convert e =>
    cases e <;> refine ⟨_, head_append ⟨?_, rfl⟩⟩ <;>
      first | rfl | (simp only [ConvError.text, first2]; simp only [String.append_assoc]; rfl)
  | legacy => exact absurd he id
  | load => exact absurd he id
  | build => exact ⟨_, head_append ⟨(String.append_empty).symm, rfl⟩⟩
  | emit => exact ⟨_, head_append ⟨(String.append_empty).symm, rfl⟩⟩
  | noSection => exact ⟨_, head_append ⟨show _ = lineStart 4 ++ ".eh_frame section" by decide +kernel, rfl⟩⟩
  | decompress => exact ⟨_, head_append ⟨show _ = lineStart 5 ++ ".eh_frame section" by decide +kernel, rfl⟩⟩
  | architecture => exact ⟨_, head_append ⟨rfl, rfl⟩⟩
  | _ => exact ⟨_, head_append ⟨String.append_assoc, rfl⟩⟩

/-- The first line of a report of the legacy converter; the listing of instructions apart. -/
def first1 (t : OtherText) (args : Args1) : CliError → Fin 23 × String
  | .open_ => (0, args.input ++ "`")
  | .mmap => (1, args.input ++ "`")
  | .parse => (2, args.input ++ "`")
  | .noSection => (4, ".eh_frame section")
  | .decompress => (5, ".eh_frame section")
  | .legacy e => match e with
    | .entry _ => (12, "")
    | .parse _ => (13, "")
    | .start a => (14, fmtNat t.fdeOffset ++ " has an initial address " ++ fmtHex64 a ++
      " greater than 0x10000000 which cannot be represented in the SFrame format")
    | .len l => (14, fmtNat t.fdeOffset ++ " has function length " ++ fmtHex64 l ++
      " greater than 0x10000000 which cannot be represented in the SFrame format")
    | .rows _ => (15, "")
    | .dump _ => (22, "")
    | .nextRow _ => (16, "")
    | .rowOffset => (17, "0x10000000 and cannot be represented in the SFrame format")
    | .row _ => (18, "")
  | .build _ => (19, "")
  | .emit => (20, "")
  | .write => (21, args.output ++ "`")
  | _ => (22, "")

theorem report1_first (t : OtherText) (args : Args1) (e : CliError) (he : Legacy e) (hd : ∀ g, e ≠ .legacy (.dump g)) :
    ∃ rest, report1 t args e = (lineStart (first1 t args e).1 ++ (first1 t args e).2) :: rest := by
  cases e with
  | legacy e =>
    cases e with
    | dump g => exact absurd rfl (hd g)
    | start a =>
      refine ⟨_, head_append ⟨?_, rfl⟩⟩
      simp only [first1, String.append_assoc]; rfl
    | len a =>
      refine ⟨_, head_append ⟨?_, rfl⟩⟩
      simp only [first1, String.append_assoc]; rfl
    | rowOffset => exact ⟨_, head_append ⟨rfl, rfl⟩⟩
    | _ => exact ⟨_, head_append ⟨(String.append_empty).symm, rfl⟩⟩
  | convert => exact absurd he id
  | architecture => exact absurd he id
  | load => exact absurd he id
  | build => exact ⟨_, head_append ⟨(String.append_empty).symm, rfl⟩⟩
  | emit => exact ⟨_, head_append ⟨(String.append_empty).symm, rfl⟩⟩
  | noSection => exact ⟨_, head_append ⟨show _ = lineStart 4 ++ ".eh_frame section" by decide +kernel, rfl⟩⟩
  | decompress => exact ⟨_, head_append ⟨show _ = lineStart 5 ++ ".eh_frame section" by decide +kernel, rfl⟩⟩
  | _ => exact ⟨_, head_append ⟨String.append_assoc, rfl⟩⟩

/-- The first line of a report of `sframedump`. -/
def firstDump (path : String) : CliError → Fin 23 × String
  | .open_ => (0, path ++ "`")
  | .mmap => (1, path ++ "`")
  | .parse => (2, path ++ "`")
  | .noSection => (4, ".sframe section")
  | .decompress => (5, ".eh_frame section")
  | _ => (22, "")

theorem reportDump_first (t : OtherText) (path : String) (e : CliError) (he : Dumper e) :
    ∃ rest, reportDump t path e = (lineStart (firstDump path e).1 ++ (firstDump path e).2) :: rest := by
  cases e with
  | noSection => exact ⟨_, head_append ⟨show _ = lineStart 4 ++ ".sframe section" by decide +kernel, rfl⟩⟩
  | decompress => exact ⟨_, head_append ⟨show _ = lineStart 5 ++ ".eh_frame section" by decide +kernel, rfl⟩⟩
  | load => exact ⟨_, head_append ⟨(String.append_empty).symm, rfl⟩⟩
  | open_ => exact ⟨_, head_append ⟨String.append_assoc, rfl⟩⟩
  | mmap => exact ⟨_, head_append ⟨String.append_assoc, rfl⟩⟩
  | parse => exact ⟨_, head_append ⟨String.append_assoc, rfl⟩⟩
  | _ => exact absurd he id

/-! ### The step and the file can be read off -/

/-- The step of a beginning. -/
def stepOfStart (i : Fin 23) : Step :=
  [.opening, .mapping, .parsing, .architecture, .finding, .decompressing, .converting, .converting, .converting, .converting,
    .converting, .converting, .converting, .converting, .converting, .converting, .converting, .converting, .converting,
    .building, .emitting, .writing, .decoding][i.val]'i.isLt

/-- The file named, with the quote after it. -/
def fileOfStart (i : Fin 23) (rest : String) : Option String :=
  if i = 0 ∨ i = 1 ∨ i = 2 ∨ i = 21 then some rest else none

theorem first2_step (t : OtherText) (args : Args2) (e : CliError) (he : Newer e) :
    stepOf e = stepOfStart (first2 t args e).1 ∧
    (fileOf args.input args.output e).map (· ++ "`") = fileOfStart (first2 t args e).1 (first2 t args e).2 := by
  cases e with
  | legacy => exact absurd he id
  | load => exact absurd he id
  | convert e => cases e <;> exact ⟨rfl, rfl⟩
  | _ => exact ⟨rfl, rfl⟩

theorem first1_step (t : OtherText) (args : Args1) (e : CliError) (he : Legacy e) (hd : ∀ g, e ≠ .legacy (.dump g)) :
    stepOf e = stepOfStart (first1 t args e).1 ∧
    (fileOf args.input args.output e).map (· ++ "`") = fileOfStart (first1 t args e).1 (first1 t args e).2 := by
  cases e with
  | convert => exact absurd he id
  | architecture => exact absurd he id
  | load => exact absurd he id
  | legacy e => cases e <;> first | exact absurd rfl (hd _) | exact ⟨rfl, rfl⟩
  | _ => exact ⟨rfl, rfl⟩

theorem firstDump_step (path : String) (e : CliError) (he : Dumper e) :
    stepOf e = stepOfStart (firstDump path e).1 ∧
    (fileOf path "" e).map (· ++ "`") = fileOfStart (firstDump path e).1 (firstDump path e).2 := by
  cases e <;> first | exact absurd he id | exact ⟨rfl, rfl⟩

theorem quote_inj {f g : Option String} (h : f.map (· ++ "`") = g.map (· ++ "`")) : f = g := by
  cases f <;> cases g
  · rfl
  · cases h
  · cases h
  · rw [suffix_cancel (Option.some.inj h)]

theorem Spec.Fails2.newer {dbg : Bool} {w : World} {args : Args2} {e : CliError} (h : Fails2 dbg w args e) : Newer e := by
  cases h with
  | input _ h => cases h <;> trivial
  | section_ _ _ _ _ _ h => cases h <;> trivial
  | _ => trivial

theorem Spec.Fails1.legacy {dbg : Bool} {w : World} {args : Args1} {e : CliError} (h : Fails1 dbg w args e) : Legacy e := by
  cases h with
  | input _ h => cases h <;> trivial
  | section_ _ _ _ h => cases h <;> trivial
  | _ => trivial

theorem Spec.FailsDump.dumper {w : World} {path : String} {e : CliError} (h : FailsDump w path e) : Dumper e := by
  cases h with
  | input _ h => cases h <;> trivial
  | section_ _ _ _ h => cases h <;> trivial
  | _ => trivial

/-- **C109** Two runs of the newer converter whose reports have the same first line have failed at the same step, at the same
file if the step is about one. -/
theorem C109_line_newer {dbg dbg' : Bool} {w w' : World} {args args' : Args2} {e e' : CliError} (t t' : OtherText)
    (h : (runMain2 dbg w args).1 = .ok (.error e)) (h' : (runMain2 dbg' w' args').1 = .ok (.error e'))
    (hl : (ended2 dbg t w args).1.head? = (ended2 dbg' t' w' args').1.head?) :
    stepOf e = stepOf e' ∧ fileOf args.input args.output e = fileOf args'.input args'.output e' := by
  have he := ((C109_step_newer _ _ _ _).1 h).newer
  have he' := ((C109_step_newer _ _ _ _).1 h').newer
  obtain ⟨r, hr⟩ := report2_first t args e he
  obtain ⟨r', hr'⟩ := report2_first t' args' e' he'
  obtain ⟨h1, h2⟩ := first2_step t args e he
  obtain ⟨h1', h2'⟩ := first2_step t' args' e' he'
  simp only [ended2, h, h', reportOf, hr, hr', List.head?_cons] at hl
  obtain ⟨h3, h4⟩ := lineStart_inj (Option.some.inj hl)
  exact ⟨by rw [h1, h1', h3], quote_inj (by rw [h2, h2', h3, h4])⟩

/-- **C109** for `sframedump`. -/
theorem C109_line_dump {dbg dbg' : Bool} {w w' : World} {path path' : String} {e e' : CliError} (t t' : OtherText)
    (h : (sframedump dbg w path).2 = .ok (.error e)) (h' : (sframedump dbg' w' path').2 = .ok (.error e'))
    (hl : (reportDump t path e).head? = (reportDump t' path' e').head?) :
    stepOf e = stepOf e' ∧ fileOf path "" e = fileOf path' "" e' := by
  have he := ((C109_step_dump _ _ _ _).1 h).dumper
  have he' := ((C109_step_dump _ _ _ _).1 h').dumper
  obtain ⟨r, hr⟩ := reportDump_first t path e he
  obtain ⟨r', hr'⟩ := reportDump_first t' path' e' he'
  obtain ⟨h1, h2⟩ := firstDump_step path e he
  obtain ⟨h1', h2'⟩ := firstDump_step path' e' he'
  simp only [hr, hr', List.head?_cons] at hl
  obtain ⟨h3, h4⟩ := lineStart_inj (Option.some.inj hl)
  exact ⟨by rw [h1, h1', h3], quote_inj (by rw [h2, h2', h3, h4])⟩

/-- A text of `gimli` is not a first line of the legacy converter. -/
theorem apart_first {t t' : OtherText} (ht : Apart t.gimli) (g : GErr) (args : Args1) {e : CliError} (he : Legacy e)
    (hd : ∀ g, e ≠ .legacy (.dump g)) :
    t.gimli.error g ≠ lineStart (first1 t' args e).1 ++ (first1 t' args e).2 := by
  intro h
  have h3 : (first1 t' args e).1 ≠ 3 ∧ (first1 t' args e).1 ≠ 6 ∧ (first1 t' args e).1 ≠ 7 ∧
      (first1 t' args e).1 ≠ 8 := by
    cases e with
    | legacy e => cases e <;> exact ⟨nofun, nofun, nofun, nofun⟩
    | _ => exact ⟨nofun, nofun, nofun, nofun⟩
  have hp : ∀ i : Fin 23, i ≠ 3 ∧ i ≠ 6 ∧ i ≠ 7 ∧ i ≠ 8 →
      ∃ p ∈ ["failed to", "Failed to", "DWARF FDE", "elf binary"], p.toList.isPrefixOf (lineStart i).toList = true := by
    decide +kernel
  obtain ⟨p, hm, hp⟩ := hp _ h3
  refine ht g p hm ?_
  rw [h, String.toList_append]
  exact (List.isPrefixOf_iff_prefix.1 hp).trans (List.prefix_append _ _)

/-- **C109** for the legacy converter; that the texts of `gimli` are none of the tool's is assumed, since one of
its errors has no text besides. -/
theorem C109_line_legacy {dbg dbg' : Bool} {w w' : World} {args args' : Args1} {e e' : CliError} (t t' : OtherText)
    (ht : Apart t.gimli) (ht' : Apart t'.gimli)
    (h : (runMain1 dbg w args).1 = .ok (.error e)) (h' : (runMain1 dbg' w' args').1 = .ok (.error e'))
    (hl : (ended1 dbg t w args).1.head? = (ended1 dbg' t' w' args').1.head?) :
    stepOf e = stepOf e' ∧ fileOf args.input args.output e = fileOf args'.input args'.output e' := by
  have he := ((C109_step_legacy _ _ _ _).1 h).legacy
  have he' := ((C109_step_legacy _ _ _ _).1 h').legacy
  simp only [ended1, h, h', reportOf] at hl
  by_cases hd : ∀ g, e ≠ .legacy (.dump g)
  · obtain ⟨r, hr⟩ := report1_first t args e he hd
    by_cases hd' : ∀ g, e' ≠ .legacy (.dump g)
    · obtain ⟨r', hr'⟩ := report1_first t' args' e' he' hd'
      obtain ⟨h1, h2⟩ := first1_step t args e he hd
      obtain ⟨h1', h2'⟩ := first1_step t' args' e' he' hd'
      simp only [hr, hr', List.head?_cons] at hl
      obtain ⟨h3, h4⟩ := lineStart_inj (Option.some.inj hl)
      exact ⟨by rw [h1, h1', h3], quote_inj (by rw [h2, h2', h3, h4])⟩
    · simp only [Classical.not_forall, Decidable.not_not] at hd'
      obtain ⟨g, rfl⟩ := hd'
      rw [hr] at hl
      exact absurd (Option.some.inj hl).symm (apart_first ht' g args he hd)
  · simp only [Classical.not_forall, Decidable.not_not] at hd
    obtain ⟨g, rfl⟩ := hd
    by_cases hd' : ∀ g, e' ≠ .legacy (.dump g)
    · obtain ⟨r', hr'⟩ := report1_first t' args' e' he' hd'
      rw [hr'] at hl
      exact absurd (Option.some.inj hl) (apart_first ht g args' he' hd')
    · simp only [Classical.not_forall, Decidable.not_not] at hd'
      obtain ⟨g', rfl⟩ := hd'
      exact ⟨rfl, rfl⟩

/-! ### What the first line names -/

/-- What the first line should name: the file, the section, the architecture, or the kind of information. -/
def Spec.subject (section_ input output : String) (arch : ObjArch → String) : CliError → String
  | .open_ | .mmap | .parse => input
  | .write => output
  | .architecture a => arch a
  | .noSection | .decompress => section_
  | .load _ => section_
  | .convert (.invalidEhFrameEntry _) | .legacy (.entry _) => section_
  | .legacy (.parse _) => "frame descriptor entry"
  | .convert (.invalidUnwindTable _) => "unwind table"
  | .convert _ | .legacy _ => "FDE"
  | .build _ | .emit => "sframe"

theorem mentions_lit (pre s post : String) {l x m : String} {rest : List String} (h : l = pre ++ s ++ post)
    (hm : m = l ++ x) : Mentions (m :: rest) s :=
  ⟨pre, post ++ x, rest, by rw [hm, h, String.append_assoc]⟩

/-- **C109** The first line of a report of the newer converter names the file, section, architecture, or kind of
information that the failing step is about. -/
theorem C109_names_newer {dbg : Bool} {w : World} {args : Args2} {e : CliError} (t : OtherText)
    (h : (runMain2 dbg w args).1 = .ok (.error e)) :
    Mentions (ended2 dbg t w args).1 (subject ".eh_frame" args.input args.output t.arch e) := by
  have he := ((C109_step_newer _ _ _ _).1 h).newer
  simp only [ended2, h, reportOf]
  cases e with
  | legacy => exact absurd he id
  | load => exact absurd he id
  | open_ => exact ⟨"failed to open `", "`", _, rfl⟩
  | mmap => exact ⟨"failed to mmap `", "`", _, rfl⟩
  | parse => exact ⟨"failed to parse `", "`", _, rfl⟩
  | write => exact ⟨"failed to write to `", "`", _, rfl⟩
  | architecture a => exact ⟨"Unsupported architecture: ", "", [], head_append ⟨(String.append_empty).symm, rfl⟩⟩
  | noSection =>
    exact ⟨"elf binary has no ", " section", _, head_append
      ⟨show _ = "elf binary has no " ++ ".eh_frame" ++ " section" by decide +kernel, rfl⟩⟩
  | decompress =>
    exact ⟨"failed to decompress the ", " section", _, head_append
      ⟨show _ = "failed to decompress the " ++ ".eh_frame" ++ " section" by decide +kernel, rfl⟩⟩
  | build =>
    exact ⟨"failed to build the ", " section", _, head_append
      ⟨show _ = "failed to build the " ++ "sframe" ++ " section" by decide +kernel, rfl⟩⟩
  | emit =>
    exact ⟨"failed to emit the ", " object", _, head_append
      ⟨show _ = "failed to emit the " ++ "sframe" ++ " object" by decide +kernel, rfl⟩⟩
  | convert e =>
    cases e with
    | invalidEhFrameEntry g =>
      refine ⟨"invalid ", " entry: " ++ t.gimli.error g, [], head_append ⟨?_, rfl⟩⟩
      rw [← String.append_assoc]
      exact congrArg (· ++ t.gimli.error g)
        (show "invalid .eh_frame entry: " = "invalid " ++ ".eh_frame" ++ " entry: " by decide +kernel)
    | invalidDwarfFde g =>
      refine ⟨"invalid DWARF ", ": " ++ t.gimli.error g, [], head_append ⟨?_, rfl⟩⟩
      rw [← String.append_assoc]
      exact congrArg (· ++ t.gimli.error g)
        (show "invalid DWARF FDE: " = "invalid DWARF " ++ "FDE" ++ ": " by decide +kernel)
    | invalidUnwindTable g =>
      refine ⟨"invalid DWARF ", ": " ++ t.gimli.error g, [], head_append ⟨?_, rfl⟩⟩
      rw [← String.append_assoc]
      exact congrArg (· ++ t.gimli.error g)
        (show "invalid DWARF unwind table: " = "invalid DWARF " ++ "unwind table" ++ ": " by decide +kernel)
    | invalidStartAddress a =>
      exact mentions_lit _ _ _ (x := fmtAltHex a.toNat ++ " larger than 0x10000000")
        (show "DWARF FDE start address " = "DWARF " ++ "FDE" ++ " start address " by decide +kernel) String.append_assoc
    | invalidRowOffset _ a =>
      exact mentions_lit _ _ _ (x := fmtAltHex a.toNat ++ " larger than 0x10000000")
        (show "DWARF FDE row offset " = "DWARF " ++ "FDE" ++ " row offset " by decide +kernel) String.append_assoc
    | invalidFunctionLength a l =>
      exact mentions_lit _ _ _ (x := fmtAltHex a.toNat ++ (" had length " ++ (fmtAltHex l.toNat ++
        " larger than 0x10000000")))
        (show "DWARF FDE for address " = "DWARF " ++ "FDE" ++ " for address " by decide +kernel)
        (String.append_assoc.trans (String.append_assoc.trans String.append_assoc))

theorem mentions_whole (pre s post : String) {m : String} {rest : List String} (h : m = pre ++ s ++ post) :
    Mentions (m :: rest) s := ⟨pre, post, rest, by rw [h]⟩

/-- **C109** for the legacy converter.  Missing: a failure of the listing of instructions, which is false, see
`C109_no_step`. -/
theorem C109_names_legacy_partial {dbg : Bool} {w : World} {args : Args1} {e : CliError} (t : OtherText)
    (h : (runMain1 dbg w args).1 = .ok (.error e)) (hd : ∀ g, e ≠ .legacy (.dump g)) :
    Mentions (ended1 dbg t w args).1 (subject ".eh_frame" args.input args.output t.arch e) := by
  have he := ((C109_step_legacy _ _ _ _).1 h).legacy
  simp only [ended1, h, reportOf]
  cases e with
  | convert => exact absurd he id
  | architecture => exact absurd he id
  | load => exact absurd he id
  | open_ => exact ⟨"failed to open `", "`", _, rfl⟩
  | mmap => exact ⟨"failed to mmap `", "`", _, rfl⟩
  | parse => exact ⟨"failed to parse `", "`", _, rfl⟩
  | write => exact ⟨"failed to write to `", "`", _, rfl⟩
  | noSection =>
    exact mentions_whole "elf binary has no " ".eh_frame" " section" (by decide +kernel)
  | decompress =>
    exact mentions_whole "failed to decompress the " ".eh_frame" " section" (by decide +kernel)
  | build =>
    exact mentions_whole "failed to build the " "sframe" " section" (by decide +kernel)
  | emit =>
    exact mentions_whole "failed to emit the " "sframe" " object" (by decide +kernel)
  | legacy e =>
    cases e with
    | dump g => exact absurd rfl (hd g)
    | entry g => exact mentions_whole "failed to read " ".eh_frame" " entry" (by decide +kernel)
    | parse g => exact mentions_whole "failed to parse the " "frame descriptor entry" "" (by decide +kernel)
    | rows g => exact mentions_whole "failed to read the rows of a " "FDE" "" (by decide +kernel)
    | nextRow g => exact mentions_whole "failed to evaluate " "FDE" " unwind table row" (by decide +kernel)
    | row g => exact mentions_whole "Failed to build an invalid row for the " "FDE" "" (by decide +kernel)
    | rowOffset =>
      exact mentions_whole "DWARF " "FDE" " unwind table row start address offset is greater than 0x10000000 and cannot be represented in the SFrame format"
        (by decide +kernel)
    | start a =>
      exact mentions_lit "DWARF " "FDE" " at " (x := fmtNat t.fdeOffset ++ (" has an initial address " ++ (fmtHex64 a ++
        " greater than 0x10000000 which cannot be represented in the SFrame format")))
        (show "DWARF FDE at " = _ by decide +kernel)
        (String.append_assoc.trans (String.append_assoc.trans String.append_assoc))
    | len a =>
      exact mentions_lit "DWARF " "FDE" " at " (x := fmtNat t.fdeOffset ++ (" has function length " ++ (fmtHex64 a ++
        " greater than 0x10000000 which cannot be represented in the SFrame format")))
        (show "DWARF FDE at " = _ by decide +kernel)
        (String.append_assoc.trans (String.append_assoc.trans String.append_assoc))

/-- **C109** for `sframedump`.  Missing: a section that cannot be decompressed, which is false, see
`C109_wrong_section`. -/
theorem C109_names_dump_partial {dbg : Bool} {w : World} {path : String} {e : CliError} (t : OtherText)
    (h : (sframedump dbg w path).2 = .ok (.error e)) (hd : e ≠ .decompress) :
    Mentions (reportDump t path e) (subject ".sframe" path "" t.arch e) := by
  have he := ((C109_step_dump _ _ _ _).1 h).dumper
  cases e with
  | open_ => exact ⟨"failed to open `", "`", _, rfl⟩
  | mmap => exact ⟨"failed to mmap `", "`", _, rfl⟩
  | parse => exact ⟨"failed to parse `", "`", _, rfl⟩
  | noSection => exact mentions_whole "elf binary has no " ".sframe" " section" (by decide +kernel)
  | load => exact mentions_whole "failed to decode " ".sframe" " section" (by decide +kernel)
  | decompress => exact absurd rfl hd
  | _ => exact absurd he id

/-- A text that is nowhere in the first line. -/
theorem not_mentions {l s : String} {rest : List String}
    (h : ∀ n : Fin (l.toList.length + 1), s.toList.isPrefixOf (l.toList.drop n) = false) : ¬ Mentions (l :: rest) s := by
  rintro ⟨pre, post, r, hr⟩
  have hl : l = pre ++ s ++ post := (List.cons.inj hr).1
  have hll := congrArg String.toList hl
  rw [String.toList_append, String.toList_append] at hll
  have := h ⟨pre.toList.length, by rw [hll]; simp; omega⟩
  simp only [hll, List.append_assoc, List.drop_left] at this
  rw [List.isPrefixOf_iff_prefix.2 (List.prefix_append _ _)] at this
  cases this

/-- A world in which the file `"x"` has a section `.sframe` that cannot be decompressed, and no other. -/
def Samples.packedWorld : World :=
  { Samples.dumpWorld .little .little [] with parse := fun _ => some ⟨.little, .x86_64, [⟨".sframe", 0, none⟩]⟩ }

/-- **C109 is false of the code**: when `.sframe` cannot be decompressed, `sframedump` blames `.eh_frame`, which
it does not use and the file need not have. -/
theorem C109_wrong_section (dbg : Bool) (t : OtherText) :
    (∀ h d file, Samples.packedWorld.openFile "x" = some h → Samples.packedWorld.mmap h = some d →
      Samples.packedWorld.parse d = some file → file.sectionByName ".eh_frame" = none) ∧
    (sframedump dbg Samples.packedWorld "x").2 = .ok (.error .decompress) ∧
    Mentions (reportDump t "x" .decompress) ".eh_frame" ∧
    ¬ Mentions (reportDump t "x" .decompress) (subject ".sframe" "x" "" t.arch .decompress) := by
  refine ⟨fun h d file _ _ h3 => by cases h3; decide +kernel, by cases dbg <;> decide +kernel,
    mentions_whole "failed to decompress the " ".eh_frame" " section" (by decide +kernel), ?_⟩
  refine not_mentions ?_
  change ∀ n, ".sframe".toList.isPrefixOf _ = false
  decide +kernel

/-- A world in which the file `"x"` is an object file with the unwind information `eh`; `emits` and `writes` say
whether these steps succeed. -/
def Samples.stepWorld (arch : ObjArch) (eh : EhFrame) (emits writes : Bool) : World where
  openFile := fun p => if p = "x" then some 0 else none
  mmap := fun _ => some []
  parse := fun _ => some ⟨.little, arch, [⟨".eh_frame", 0, some []⟩]⟩
  ehFrame := fun _ _ => eh
  emit := fun _ => if emits then some [1] else none
  write := fun _ _ => writes
  host := .little

/-- A function with an expression that cannot be decoded in an instruction. -/
def Samples.badListing : EhFrame :=
  Samples.ehOf [{ Samples.dwFde with instructions := [.ok (.defCfaExpression [.ok .abs, .error ⟨5⟩])] }]

/-- **C109 is false of the code**: when the legacy converter cannot list the instructions of a function, it reports
the text of `gimli` alone, here one that names neither the file, nor the section, nor what was done. -/
theorem C109_no_step (dbg : Bool) :
    (runMain1 dbg (Samples.stepWorld .x86_64 Samples.badListing true true) ⟨"x", "y"⟩).1 =
      .ok (.error (.legacy (.dump ⟨5⟩))) ∧
    (∀ t w args, (runMain1 dbg w args).1 = .ok (.error (.legacy (.dump ⟨5⟩))) →
      ended1 dbg t w args = ([t.gimli.error ⟨5⟩], some 1)) ∧
    ¬ Mentions ["unexpected end of input"] (subject ".eh_frame" "x" "y" Samples.otherText.arch (.legacy (.dump ⟨5⟩))) := by
  refine ⟨by cases dbg <;> decide +kernel, fun t w args h => by simp only [ended1, h]; rfl, not_mentions ?_⟩
  change ∀ n, "FDE".toList.isPrefixOf _ = false
  decide +kernel

/-- The text of `gimli` used here is apart from those of the tools, as required. -/
example : Apart Samples.otherText.gimli := by
  intro e p hp h
  have : ∀ p ∈ ["failed to", "Failed to", "DWARF FDE", "elf binary"],
      p.toList.isPrefixOf "unexpected end of input".toList = false := by decide +kernel
  exact absurd (List.isPrefixOf_iff_prefix.2 h) (by rw [show Samples.otherText.gimli.error e = "unexpected end of input" from rfl, this p hp]; exact nofun)

/-- Reports of the newer converter: the input does not exist; the architecture is not supported; a function that cannot
be converted; an object that cannot be emitted; an output that cannot be written; and none. -/
example (dbg : Bool) :
    let run := fun arch eh emits writes input =>
      ended2 dbg Samples.otherText (Samples.stepWorld arch eh emits writes) ⟨input, "out", false, false, false⟩
    run .x86_64 (Samples.ehOf [Samples.dwFde]) true true "in" =
      (["failed to open `in`", "No such file or directory (os error 2)"], some 1) ∧
    run (.other 0) (Samples.ehOf [Samples.dwFde]) true true "x" = (["Unsupported architecture: I386"], some 1) ∧
    run .x86_64 (Samples.ehOf [{ Samples.dwFde with initial := 0x80000000 }]) true true "x" =
      (["DWARF FDE start address 0x80000000 larger than 0x10000000"], some 1) ∧
    run .x86_64 (Samples.ehOf [Samples.dwFde]) false true "x" =
      (["failed to emit the sframe object", "No such file or directory (os error 2)"], some 1) ∧
    run .x86_64 (Samples.ehOf [Samples.dwFde]) true false "x" =
      (["failed to write to `out`", "No such file or directory (os error 2)"], some 1) ∧
    run .x86_64 (Samples.ehOf [Samples.dwFde]) true true "x" = ([], some 0) := by
  cases dbg <;> decide +kernel

/-- Reports of the legacy converter. -/
example (dbg : Bool) :
    let run := fun eh emits input =>
      ended1 dbg Samples.otherText (Samples.stepWorld .x86_64 eh emits true) ⟨input, "out"⟩
    run (Samples.ehOf [Samples.dwFde]) true "in" =
      (["failed to open `in`", "No such file or directory (os error 2)"], some 1) ∧
    run (Samples.ehOf [Samples.dwFde]) true "x" = (["Failed to build an invalid row for the FDE",
      "FDE already contains a row with the same start address"], some 1) ∧
    run (Samples.ehOf [{ Samples.dwFde with initial := 0x80000000 }]) true "x" =
      (["DWARF FDE at 24 has an initial address 80000000 greater than 0x10000000 which cannot be represented in the SFrame format"],
        some 1) ∧
    run Samples.badListing true "x" = (["unexpected end of input"], some 1) ∧
    run (Samples.ehOf []) false "x" =
      (["failed to emit the sframe object", "No such file or directory (os error 2)"], some 1) := by
  cases dbg <;> decide +kernel

end Verif
