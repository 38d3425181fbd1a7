import Verif.Proofs.Report1
import Verif.Props.Main1
/-!
# C94–C96: what the legacy converter prints
-/

namespace Verif

open Spec

namespace Samples

/-- Names of a few registers. -/
def legacyText : LegacyText where
  registerName
    | .x86_64, r => if r = 6 then some "RBP" else if r = 7 then some "RSP" else if r = 16 then some "RA" else none
    | .aarch64, r => if r = 6 then some "X6" else if r = 7 then some "X7" else if r = 16 then some "X16" else none
    | _, _ => none
  error _ := "error"
  rule _ := "Architectural"

end Samples

/-! ### C94 -/

/-- **C94** The legacy converter with its output gives the results of the legacy converter. -/
theorem C94_result (dbg : Bool) (t : LegacyText) (a : ObjArch) (eh : EhFrame) (bases : Bases) :
    (legacyConvertT dbg t a eh bases).2 = legacyConvert dbg eh bases := legacyConvertT_snd dbg t a eh bases

/-- **C94** On success it prints the report of all functions of the section, in the order of the input; this
determines the order of the messages on stderr among the lines on stdout as well. -/
theorem C94_success {dbg : Bool} {t : LegacyText} {a : ObjArch} {eh : EhFrame} {bases : Bases} {b : SFrameBuilder}
    (h : legacyConvert dbg eh bases = .ok (.ok b)) :
    ∃ fdes : List DwFde, inputs eh bases = fdes.map .ok ∧
      (legacyConvertT dbg t a eh bases).1 = fdes.flatMap (legacyFdeEvents t a) := by
  have hs := legacyConvertT_snd dbg t a eh bases
  rcases legacyConvertT_cases dbg t a eh bases with ⟨fdes, h1, -, h2⟩ | ⟨fdes, x, rest, out, r, -, -, -, h2⟩
  · exact ⟨fdes, h1, by rw [h2]⟩
  · rw [h2, h] at hs
    cases r <;> cases hs

/-- **C94** Otherwise there is an input at which it stops: it prints the report of the functions before it
and of the part of it that `Trail1` says, and ends with the error or panic that `Trail1` says. -/
theorem C94_stopped {dbg : Bool} {t : LegacyText} {a : ObjArch} {eh : EhFrame} {bases : Bases}
    (h : ∀ b, legacyConvert dbg eh bases ≠ .ok (.ok b)) :
    ∃ (fdes : List DwFde) (x : Except ConvError DwFde) (rest : List (Except ConvError DwFde)) (out : List Event1)
      (r : Rust LegacyError), inputs eh bases = fdes.map .ok ++ x :: rest ∧
      (∀ fde ∈ fdes, LegacyConvertible fde) ∧ Trail1 dbg t a x out r ∧
      (legacyConvertT dbg t a eh bases).1 = fdes.flatMap (legacyFdeEvents t a) ++ out ∧
      legacyConvert dbg eh bases = r.bind fun e => .ok (.error e) := by
  have hs := legacyConvertT_snd dbg t a eh bases
  rcases legacyConvertT_cases dbg t a eh bases with ⟨fdes, h1, -, h2⟩ | ⟨fdes, x, rest, out, r, h1, h2, h3, h4⟩
  · rw [h2] at hs
    exact absurd hs.symm (h _)
  · rw [h4] at hs
    exact ⟨fdes, x, rest, out, r, h1, h2, h3, by rw [h4], hs.symm⟩

example (dbg : Bool) : (legacyConvertT dbg Samples.legacyText .x86_64
      (Samples.ehOf [Samples.fdeWith Samples.rbxRow]) Bases.default).1 =
    [.out "FDE:", .out " start_address: 0x00001000", .out "    range_size: 0x00000020 (end_addr = 0x00001020)",
      .out "  Instructions:", .out "", .out "Rows:", .out "  - offset: 0x00001000 (end = 0x00001001)",
      .out "    cfa:    RSP+8", .out "    reg:    RBP = <undefined>", .out "    reg:    RA = *(CFA-8)",
      .out "    sframe: FrameRowOffsets { cfa: 8, ra: Some(-8), fp: None }",
      .out "  - offset: 0x00001001 (end = 0x00001010)", .out "    cfa:    RSP+16", .out "    reg:    RBP = 3",
      .out "    reg:    RA = *(CFA-8)", .fpRule (.register 3),
      .out "    sframe: FrameRowOffsets { cfa: 16, ra: Some(-8), fp: None }", .out ""] := by
  cases dbg <;> decide +kernel

-- A rule that cannot be decoded: the line is printed up to it.
example (dbg : Bool) : (legacyConvertT dbg Samples.legacyText .x86_64
      (Samples.ehOf [Samples.fdeWith Samples.badRow]) Bases.default).1 =
    [.out "FDE:", .out " start_address: 0x00001000", .out "    range_size: 0x00000020 (end_addr = 0x00001020)",
      .out "  Instructions:", .out "", .out "Rows:", .out "  - offset: 0x00001000 (end = 0x00001001)",
      .out "    cfa:    RSP+8", .out "    reg:    RBP = <undefined>", .out "    reg:    RA = *(CFA-8)",
      .out "    sframe: FrameRowOffsets { cfa: 8, ra: Some(-8), fp: None }",
      .out "  - offset: 0x00001001 (end = 0x00001010)", .out "    cfa:    RSP+16", .part "    reg:    3 = "] ∧
    legacyConvert dbg (Samples.ehOf [Samples.fdeWith Samples.badRow]) Bases.default = .panic .explicit := by
  cases dbg <;> decide +kernel

-- Two rows with the same start: the rules of the second are shown, and then the error of adding it.
example (dbg : Bool) : (legacyConvertT dbg Samples.legacyText .x86_64 (Samples.ehOf [Samples.dwFde]) Bases.default).1 =
    [.out "FDE:", .out " start_address: 0x00001000", .out "    range_size: 0x00000020 (end_addr = 0x00001020)",
      .out "  Instructions:", .out "                DW_CFA_nop", .out "", .out "Rows:",
      .out "  - offset: 0x00001000 (end = 0x00001001)", .out "    cfa:    RSP+8",
      .out "    reg:    RBP = <undefined>", .out "    reg:    RA = *(CFA-8)",
      .out "    sframe: FrameRowOffsets { cfa: 8, ra: Some(-8), fp: None }",
      .out "  - offset: 0x00001001 (end = 0x00001001)", .out "    cfa:    RSP+16",
      .out "    reg:    RBP = *(CFA-16)", .out "    reg:    RA = *(CFA-8)",
      .out "    sframe: FrameRowOffsets { cfa: 16, ra: Some(-8), fp: Some(-16) }",
      .out "  - offset: 0x00001001 (end = 0x00001010)", .out "    cfa:    RSP+16",
      .out "    reg:    RBP = *(CFA-16)", .out "    reg:    RA = *(CFA-8)",
      .out "    sframe: FrameRowOffsets { cfa: 16, ra: Some(-8), fp: Some(-16) }", .note (.add .duplicateRow)] ∧
    legacyConvert dbg (Samples.ehOf [Samples.dwFde]) Bases.default = .ok (.error (.row .duplicateRow)) := by
  cases dbg <;> decide +kernel

/-- The lines with the addresses of sections. -/
def Spec.addressLines (file : ObjFile) : List String :=
  [(".eh_frame_hdr", ".eh_frame_hdr: "), (".eh_frame", ".eh_frame:     "), (".text", ".text:         "),
    (".got", ".got:          ")].filterMap fun x =>
      (file.sectionByName x.1).map fun s => x.2 ++ fmtAltHexPad 10 s.address.toNat

/-- The input of the tool: a file with a section that can be read. -/
structure Spec.Opened1 (w : World) (args : Args1) (file : ObjFile) (eh : EhFrame) : Prop where
  input : ∃ h d, w.openFile args.input = some h ∧ w.mmap h = some d ∧ w.parse d = some file
  section_ : ∃ s data, file.sectionByName ".eh_frame" = some s ∧ s.data = some data ∧
    eh = w.ehFrame data file.endianness

theorem legacyAddresses_eq (file : ObjFile) : legacyAddresses file = addressLines file := by
  unfold legacyAddresses addressLines
  simp only [List.filterMap_cons, List.filterMap_nil]
  cases file.sectionByName ".eh_frame_hdr" <;> cases file.sectionByName ".eh_frame" <;>
    cases file.sectionByName ".text" <;> cases file.sectionByName ".got" <;> rfl

/-- **C94** The tool prints the addresses of the sections and then what the conversion prints; nothing if
there is no section to convert. -/
theorem C94_run (dbg : Bool) (t : LegacyText) (w : World) (args : Args1) :
    (∀ file eh, Opened1 w args file eh → main1Prints dbg t w args =
      (addressLines file).map .out ++ (legacyConvertT dbg t file.architecture eh (toolBases file)).1) ∧
    ((∀ file eh, ¬ Opened1 w args file eh) → main1Prints dbg t w args = []) := by
  constructor
  · rintro file eh ⟨⟨h, d, h1, h2, h3⟩, s, data, h4, h5, rfl⟩
    unfold main1Prints
    rw [h1]
    simp only [Option.bind_some]
    rw [h2]
    simp only
    rw [h3]
    simp only
    rw [h4]
    simp only [Option.bind_some]
    rw [h5]
    simp only
    rw [legacyAddresses_eq, cliBases_eq]
  · intro hn
    unfold main1Prints
    cases h1 : w.openFile args.input with
    | none => rfl
    | some h =>
      simp only [Option.bind_some]
      cases h2 : w.mmap h with
      | none => rfl
      | some d =>
        simp only
        cases h3 : w.parse d with
        | none => rfl
        | some file =>
          simp only
          cases h4 : file.sectionByName ".eh_frame" with
          | none => rfl
          | some s =>
            simp only [Option.bind_some]
            cases h5 : s.data with
            | none => rfl
            | some data => exact absurd ⟨⟨h, d, h1, h2, h3⟩, s, data, h4, h5, rfl⟩ (hn file (w.ehFrame data file.endianness))

example (dbg : Bool) : main1Prints dbg Samples.legacyText (Samples.world1 .x86_64 .little .little) Samples.args1 =
    [.out ".eh_frame:     0x00002000", .out ".text:         0x00001000", .out "FDE:",
      .out " start_address: 0x00001010", .out "    range_size: 0x00000020 (end_addr = 0x00001030)",
      .out "  Instructions:", .out "", .out "Rows:", .out "  - offset: 0x00001010 (end = 0x00001030)",
      .out "    cfa:    RSP+8", .out "    reg:    RBP = <undefined>", .out "    reg:    RA = *(CFA-8)",
      .out "    sframe: FrameRowOffsets { cfa: 8, ra: Some(-8), fp: None }", .out ""] := by
  cases dbg <;> decide +kernel

example : Opened1 (Samples.world1 .x86_64 .little .little) Samples.args1
    { Samples.objFile false with architecture := .x86_64, endianness := .little }
    Samples.textRel :=
  ⟨⟨3, [0x7f], by decide +kernel, rfl, rfl⟩, ⟨".eh_frame", 0x2000, some [1, 2, 3]⟩, [1, 2, 3], by decide +kernel, rfl, rfl⟩

/-! ### C95 -/

theorem noted_append (a b : List Event1) : noted (a ++ b) = noted a ++ noted b := by simp [noted]
theorem noted_out (ls : List String) : noted (ls.map .out) = [] := by
  simp [noted, List.filterMap_map, Function.comp_def]

/-- Exactly when something is said about a row. -/
theorem noted_row (t : LegacyText) (a : ObjArch) (row : DwRow) :
    noted (legacyRowEvents t a row) = [] ↔ legacyTranslate row ≠ none ∧ fpMessage row = [] := by
  unfold legacyRowEvents
  rw [noted_append, noted_out, List.nil_append]
  have hm : ∀ row, noted (fpMessage row) = [] ↔ fpMessage row = [] := by
    intro row
    unfold fpMessage
    cases row.register 6 <;> simp [noted]
  unfold legacyOutcome
  rw [noted_append]
  cases ht : legacyTranslate row with
  | none =>
    have hc : legacyComplaint row ≠ none := by
      intro hc
      unfold legacyComplaint at hc
      rw [Option.or_eq_none_iff, Option.or_eq_none_iff] at hc
      obtain ⟨⟨h1, h2⟩, h3⟩ := hc
      rcases legacyCfaT_cases row with ⟨n, -, h, -⟩ | ⟨b, o, -, -, h, -⟩ | ⟨b, o, -, -, -, -, h4⟩
      · rw [h1] at h; cases h
      · rw [h1] at h; cases h
      · have h5 : legacyFp row ≠ none := by
          unfold legacyFpNote at h2
          unfold legacyFp
          cases hr : row.register 6 with
          | offset o =>
            rw [hr] at h2
            simp only at h2 ⊢
            split at h2
            · rename_i hf; rw [if_pos hf]; exact nofun
            · cases h2
          | _ => exact nofun
        have h6 : raRules .amd64 row ≠ none := by
          have h16 : (BitVec.ofNat 16 (raNum .amd64)) = (16 : Reg) := rfl
          unfold legacyRaNote at h3
          unfold raRules
          rw [h16]
          cases hr : row.register 16 with
          | offset o =>
            rw [hr] at h3
            simp only at h3 ⊢
            split at h3
            · rename_i hf; rw [if_pos hf]; exact nofun
            · cases h3
          | _ => rw [hr] at h3; cases h3
        unfold legacyTranslate at ht
        rw [h4] at ht
        cases h7 : legacyFp row with
        | none => exact h5 h7
        | some fp =>
          cases h8 : raRules .amd64 row with
          | none => exact h6 h8
          | some ra => rw [h7, h8] at ht; cases ht
    constructor
    · intro h
      simp only at h
      rw [List.append_eq_nil_iff] at h
      cases hn : legacyComplaint row with
      | none => exact absurd hn hc
      | some n => rw [hn] at h; exact absurd h.2 (by simp [noted])
    · rintro ⟨h, -⟩; exact absurd rfl h
  | some r =>
    have hcfa : legacyCfaNote row = none := by
      rcases legacyCfaT_cases row with ⟨n, -, -, h⟩ | ⟨b, o, -, -, -, h⟩ | ⟨b, o, -, -, -, h, -⟩
      · unfold legacyTranslate at ht; rw [h] at ht; cases ht
      · unfold legacyTranslate at ht; rw [h] at ht; cases ht
      · exact h
    unfold legacyFpMessage
    rw [if_pos hcfa]
    simp only
    rw [show noted [Event1.out (sframeLine r)] = [] from rfl, List.append_nil, hm]
    exact ⟨fun h => ⟨nofun, h⟩, fun h => h.2⟩

theorem fpMessage_nil {row : DwRow} : fpMessage row = [] ↔
    (∃ o, row.register 6 = .offset o) ∨ row.register 6 = .undefined := by
  unfold fpMessage
  cases row.register 6 <;> simp

/-- **C95 is false of the code**: it complains about a row whose rules it stores faithfully, if RBP has the
rule "same value". -/
theorem C95_spurious (t : LegacyText) (a : ObjArch) :
    (∃ row : DwRow, translate .amd64 row ≠ none ∧ legacyTranslate row = translate .amd64 row ∧
      noted (legacyRowEvents t a row) ≠ []) := by
  refine ⟨{ Samples.dwRow1 with registers := Samples.x86Regs .sameValue (.offset (-8)) }, by decide +kernel,
    by decide +kernel, fun h => ?_⟩
  have := fpMessage_nil.1 ((noted_row t a _).1 h).2
  rcases this with ⟨o, h⟩ | h
  · exact absurd h (by show RegRule.sameValue ≠ _; exact nofun)
  · exact absurd h (by show RegRule.sameValue ≠ _; exact nofun)

/-- **C95** The tool complains about a row if and only if SFrame cannot express its rules, if the rule for RBP
is not "same value".  Missing: rows with this rule. -/
theorem C95_row_partial (t : LegacyText) (a : ObjArch) (row : DwRow) (h : row.register 6 ≠ .sameValue) :
    noted (legacyRowEvents t a row) ≠ [] ↔ translate .amd64 row = none := by
  have h6 : (BitVec.ofNat 16 (fpNum .amd64)) = (6 : Reg) := rfl
  refine Decidable.not_iff_comm.1 (Iff.symm ?_)
  rw [noted_row, fpMessage_nil]
  constructor
  · rintro ⟨h1, h2⟩ h3
    rw [legacyTranslate_eq, h3] at h1
    · exact h1 rfl
    · unfold fpRules legacyFp
      rw [h6]
      rcases h2 with ⟨o, h2⟩ | h2
      · rw [h2]
        simp only
        split
        · exact .inl nofun
        · exact .inr rfl
      · rw [h2]; exact .inl nofun
  · intro h1
    have hfp : fpRules .amd64 row ≠ none := by
      intro h2
      unfold translate at h1
      rw [h2] at h1
      cases hc : cfaRules .amd64 row <;> rw [hc] at h1 <;> exact h1 rfl
    refine ⟨by rw [legacyTranslate_eq (.inl hfp)]; exact h1, ?_⟩
    unfold fpRules at hfp
    rw [h6] at hfp
    cases hr : row.register 6 with
    | offset o => exact .inl ⟨o, rfl⟩
    | undefined => exact .inr rfl
    | sameValue => exact absurd hr h
    | _ => rw [hr] at hfp; exact absurd rfl hfp

/-- **C95**, exactly: the tool complains about the rows that SFrame cannot express and about all rows with the rule
"same value" for RBP. -/
theorem C95_exact_partial (t : LegacyText) (a : ObjArch) (row : DwRow) :
    noted (legacyRowEvents t a row) ≠ [] ↔ translate .amd64 row = none ∨ row.register 6 = .sameValue := by
  by_cases h : row.register 6 = .sameValue
  · refine ⟨fun _ => .inr h, fun _ hn => ?_⟩
    rcases fpMessage_nil.1 ((noted_row t a _).1 hn).2 with ⟨o, h'⟩ | h'
    · rw [h] at h'; cases h'
    · rw [h] at h'; cases h'
  · rw [C95_row_partial t a row h]
    exact ⟨.inl, fun h' => h'.resolve_right h⟩

/-- Of the three sample rows, one is expressed without a message, one with a message and one not at all. -/
example : (translate .amd64 Samples.dwRow1).isSome ∧ Samples.dwRow1.register 6 ≠ .sameValue ∧
    (translate .amd64 { Samples.dwRow1 with registers := Samples.x86Regs .sameValue (.offset (-8)) }).isSome ∧
    translate .amd64 Samples.rbxRow = none := by decide +kernel

/-- **C95** Nothing is lost in silence: if the tool says nothing on stderr and succeeds, then every row of every
function has been stored with the rules it has. -/
theorem C95_silent {dbg : Bool} {t : LegacyText} {a : ObjArch} {eh : EhFrame} {bases : Bases} {b : SFrameBuilder}
    (h : legacyConvert dbg eh bases = .ok (.ok b)) (hs : noted (legacyConvertT dbg t a eh bases).1 = [])
    {fdes : List DwFde} (hin : inputs eh bases = fdes.map .ok) :
    ∀ fde ∈ fdes, ∀ row ∈ rowsOf fde, translate .amd64 row ≠ none ∧ legacyTranslate row = translate .amd64 row := by
  obtain ⟨fdes', h1, h2⟩ := C94_success (t := t) (a := a) h
  rw [hin] at h1
  cases map_ok_inj h1
  rw [h2] at hs
  have hflat : ∀ {α : Type} (l : List α) (f : α → List Event1), noted (l.flatMap f) = [] → ∀ x ∈ l, noted (f x) = [] := by
    intro α l f hl x hx
    induction l with
    | nil => cases hx
    | cons y l ih =>
      rw [List.flatMap_cons, noted_append, List.append_eq_nil_iff] at hl
      rcases List.mem_cons.1 hx with rfl | hx
      · exact hl.1
      · exact ih hl.2 hx
  intro fde hf row hr
  have h3 := hflat _ _ hs fde hf
  unfold legacyFdeEvents at h3
  rw [noted_append, noted_append, List.append_eq_nil_iff, List.append_eq_nil_iff] at h3
  have h4 := hflat _ _ h3.1.2 row hr
  have heq : legacyTranslate row = translate .amd64 row := by
    refine legacyTranslate_eq ?_
    have h6 : (BitVec.ofNat 16 (fpNum .amd64)) = (6 : Reg) := rfl
    unfold fpRules legacyFp
    rw [h6]
    rcases fpMessage_nil.1 ((noted_row t a row).1 h4).2 with ⟨o, h5⟩ | h5
    · rw [h5]
      simp only
      split
      · exact .inl nofun
      · exact .inr rfl
    · rw [h5]; exact .inl nofun
  exact ⟨by rw [← heq]; exact ((noted_row t a row).1 h4).1, heq⟩

/-! ### C96 -/

/-- The table of names for the architecture of a file. -/
def Spec.namesOf (t : LegacyText) : ObjArch → Reg → Option String
  | .x86_64 => t.registerName .x86_64
  | .aarch64 => t.registerName .aarch64
  | .other n =>
    match ([(0, .arm), (2, .x86), (3, .riscv), (4, .riscv), (5, .loongArch)] : List (Nat × RegTable)).lookup n with
    | some table => t.registerName table
    | none => fun _ => none

/-- The line of a register that has been moved to another one, with the names that the architecture of the file
has for them. -/
def Spec.movedLine (t : LegacyText) (a : ObjArch) (x r : Reg) : String :=
  "    reg:    " ++ (regText (namesOf t a) x ++ (" = " ++ regText (namesOf t a) r))

/-- **C96 is false of the code**: the report for an AArch64 file shows the rule that register X6 is in X7 as
"RBP = X7". -/
theorem C96_wrong_names :
    regLine1 Samples.legacyText .aarch64 (6, .register 7) = "    reg:    RBP = X7" ∧
    movedLine Samples.legacyText .aarch64 6 7 = "    reg:    X6 = X7" := by
  decide +kernel

/-- **C96 is false of the code**: the report of a run on an AArch64 file gives the CFA by the stack pointer of
x86-64. -/
theorem C96_wrong_run (dbg : Bool) :
    .out "    cfa:    RSP+8" ∈ main1Prints dbg Samples.legacyText (Samples.world1 .aarch64 .little .little) Samples.args1 ∧
    regText (namesOf Samples.legacyText .aarch64) 7 = "X7" := by
  cases dbg <;> decide +kernel

theorem ruleName_eq (t : LegacyText) (a : ObjArch) : t.ruleName a = namesOf t a := by
  cases a with
  | x86_64 => rfl
  | aarch64 => rfl
  | other n =>
    by_cases h0 : n = 0
    · subst h0; rfl
    by_cases h2 : n = 2
    · subst h2; rfl
    by_cases h3 : n = 3
    · subst h3; rfl
    by_cases h4 : n = 4
    · subst h4; rfl
    by_cases h5 : n = 5
    · subst h5; rfl
    unfold LegacyText.ruleName ObjArch.x86_64_x32 ObjArch.arm ObjArch.riscv32 ObjArch.riscv64 ObjArch.loongArch64 namesOf
    simp [List.lookup, h0, h2, h3, h4, h5, beq_eq_false_iff_ne.2 h0, beq_eq_false_iff_ne.2 h2,
      beq_eq_false_iff_ne.2 h3, beq_eq_false_iff_ne.2 h4, beq_eq_false_iff_ne.2 h5]

/-- **C96** For an x86-64 file all registers are named as its architecture does.  Missing: all other files, for
which this holds only of the registers in the rules. -/
theorem C96_names_partial (t : LegacyText) :
    (∀ x r, regLine1 t .x86_64 (x, .register r) = movedLine t .x86_64 x r) ∧
    (∀ r o, cfaLine1 t (.registerAndOffset r o) = "    cfa:    " ++ (regText (namesOf t .x86_64) r ++ fmtSigned64 o)) ∧
    (∀ e, cfaLine1 t (.expression e) = "    cfa:    " ++ expressionText (namesOf t .x86_64) "            " e) ∧
    (∀ fde, legacyCode t fde = reportTop fde ++ "  Instructions:" ::
      (listInstructions true (namesOf t .x86_64) t.error fde.instructions).1) :=
  ⟨fun _ _ => rfl, fun _ _ => rfl, fun _ => rfl, fun _ => rfl⟩

/-- **C96** In the rules, registers have the names of the architecture of the file; before them, those of
x86-64. -/
theorem C96_rules (t : LegacyText) (a : ObjArch) (x : Reg) :
    (∀ r, regLine1 t a (x, .register r) = "    reg:    " ++ (regText (namesOf t .x86_64) x ++
      (" = " ++ regText (namesOf t a) r))) ∧
    (∀ e, regLine1 t a (x, .expression e) = "    reg:    " ++ (regText (namesOf t .x86_64) x ++
      (" = " ++ expressionText (namesOf t a) "        " e))) := by
  rw [← ruleName_eq t a]
  exact ⟨fun _ => rfl, fun _ => rfl⟩

/-- **C96** The names are right for a register exactly if its name is that of x86-64. -/
theorem C96_iff (t : LegacyText) (a : ObjArch) (x r : Reg) :
    regLine1 t a (x, .register r) = movedLine t a x r ↔
      regText (namesOf t a) x = regText (namesOf t .x86_64) x := by
  rw [(C96_rules t a x).1]
  unfold movedLine
  constructor
  · intro h
    exact (suffix_cancel (prefix_cancel h)).symm
  · intro h
    rw [h]

example : regText (namesOf Samples.legacyText .aarch64) 3 = regText (namesOf Samples.legacyText .x86_64) 3 := by
  decide +kernel

end Verif
