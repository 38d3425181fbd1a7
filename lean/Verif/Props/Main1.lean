import Verif.Proofs.Main1
import Verif.Props.Main2
/-!
# The legacy tool `dwarf2sframe`: C56, C57
-/

namespace Verif
open Spec

namespace Samples

/-- A row like `dwRow2` but with RBP kept in RBX. -/
def rbxRow : DwRow := { dwRow2 with registers := x86Regs (.register 3) (.offset (-8)) }

/-- A row with a malformed rule for RBX, which neither tool needs. -/
def badRow : DwRow := { dwRow2 with registers := (3, .expression [.error ⟨1⟩]) :: x86Regs .undefined (.offset (-8)) }

/-- A function with the row `r`. -/
def fdeWith (r : DwRow) : DwFde := { oneRow r with rows := .ok [.ok dwRow1, .ok r] }

/-- What the legacy tool makes of it if the second row has the given offsets. -/
def legacyFn (x : FrameRowOffsets) : FuncDescBuilder :=
  { FuncDescBuilder.new legacyOptions 0x1000 0x20 with
    fres := [(0, ⟨0, some ⟨8, some (-8), none⟩, false, .sp⟩), (1, ⟨1, some x, false, .sp⟩)] }

end Samples

/-! ### C56 -/

/-- **C56 is false of the code**: if RBP is kept in another register, SFrame has no rules to express
this; the newer tool emits an invalid row, the legacy tool rules that say that RBP is not saved. -/
theorem C56_wrong_rules (dbg : Bool) :
    translate .amd64 Samples.rbxRow = none ∧
    legacyConvert dbg (Samples.ehOf [Samples.fdeWith Samples.rbxRow]) Bases.default
      = .ok (.ok { options := legacyOptions, fdes := [(0x1000, Samples.legacyFn ⟨16, some (-8), none⟩)] }) ∧
    (rows (Samples.legacyFn ⟨16, some (-8), none⟩)).map (meaning legacyOptions)
      = [some ⟨.sp, 8, none, -8⟩, some ⟨.sp, 16, none, -8⟩] := by
  cases dbg <;> decide +kernel

/-- **C56 is false of the code**: a row of width zero, which the newer tool skips, makes the legacy
tool fail. -/
theorem C56_zero_width (dbg : Bool) :
    (∃ b, dwarf2sframe dbg (Samples.ehOf [Samples.dwFde]) (Options.new .amd64 Bases.default) = .ok (.ok b)) ∧
    legacyConvert dbg (Samples.ehOf [Samples.dwFde]) Bases.default = .ok (.error (.row .duplicateRow)) := by
  refine ⟨⟨{ options := Samples.opts, fdes := [(0x1000, Samples.convFn)] }, ?_⟩, ?_⟩ <;>
    cases dbg <;> decide +kernel

/-- **C56 is false of the code**: a malformed rule for a register that SFrame does not care about
makes the legacy tool panic. -/
theorem C56_malformed_rule (dbg : Bool) :
    (∃ b, dwarf2sframe dbg (Samples.ehOf [Samples.fdeWith Samples.badRow]) (Options.new .amd64 Bases.default)
      = .ok (.ok b)) ∧
    (legacyConvert dbg (Samples.ehOf [Samples.fdeWith Samples.badRow]) Bases.default).Panics := by
  refine ⟨⟨{ options := Samples.opts, fdes := [(0x1000, { FuncDescBuilder.new Samples.opts 0x1000 0x20 with fres := [(0, ⟨0, some ⟨8, none, none⟩, false, .sp⟩), (1, ⟨1, some ⟨16, none, none⟩, false, .sp⟩)] })] }, ?_⟩, .explicit, ?_⟩ <;>
    cases dbg <;> decide +kernel

/-- **C56**, when the legacy tool converts: every entry is well-formed, every function can be
handled (`LegacyConvertible`).  It then has a function for each start address, that of the last
entry with it.  Missing: it does not convert all that the newer tool converts. -/
theorem C56_succeeds_iff_partial (dbg : Bool) (eh : EhFrame) (bases : Bases) :
    (∃ b, legacyConvert dbg eh bases = .ok (.ok b)) ↔
      ∃ fdes : List DwFde, inputs eh bases = fdes.map .ok ∧ ∀ fde ∈ fdes, LegacyConvertible fde := by
  constructor
  · rintro ⟨b, h⟩
    obtain ⟨fdes, h1, h2, _⟩ := legacyConvert_iff.1 h
    exact ⟨fdes, h1, h2⟩
  · rintro ⟨fdes, h1, h2⟩
    exact ⟨_, legacyConvert_iff.2 ⟨fdes, h1, h2, rfl⟩⟩

theorem lastWith_map {fdes : List DwFde} {fde : DwFde} (h : LastWith fdes fde) :
    LastWith (fdes.map tidyFde) (tidyFde fde) := by
  obtain ⟨pre, post, rfl, h⟩ := h
  refine ⟨pre.map tidyFde, post.map tidyFde, by simp, fun f hf => ?_⟩
  obtain ⟨g, hg, rfl⟩ := List.mem_map.1 hf
  exact h g hg

/-- The legacy reading of a row is the proper one unless the rule for RBP cannot be expressed. -/
theorem legacyTranslate_eq {row : DwRow} (h : fpRules .amd64 row ≠ none ∨ legacyFp row = none) :
    legacyTranslate row = translate .amd64 row := by
  have hfp : legacyFp row = fpRules .amd64 row := by
    revert h
    unfold legacyFp fpRules
    rw [show BitVec.ofNat 16 (fpNum .amd64) = (6 : Reg) from rfl]
    cases row.register 6 with
    | offset o => intro _; rfl
    | undefined => intro _; rfl
    | sameValue => intro _; rfl
    | _ => intro h; rcases h with h | h <;> first | exact absurd rfl h | cases h
  unfold legacyTranslate translate
  rw [hfp]

/-- **C56**, the rules the legacy tool emits: the row that governs an address gives the rules of the
DWARF row that covers it, except that a rule for RBP that SFrame cannot express is taken as "not
saved".  Hence it agrees with the newer tool where there is no such rule.  Missing: rows with such
a rule. -/
theorem C56_unwinds_partial (dbg : Bool) (eh : EhFrame) (bases : Bases) (b : SFrameBuilder)
    (h : legacyConvert dbg eh bases = .ok (.ok b)) (fdes : List DwFde)
    (hin : inputs eh bases = fdes.map .ok) (fde : DwFde) (hl : LastWith fdes fde)
    (hw : WellFormed (rowsOf fde)) :
    ∃ f ∈ functions b, f.startAddress.toInt = fde.initial.toNat ∧ f.size.toNat = fde.len.toNat ∧
      ∀ row ∈ rowsOf fde, ∀ a : Nat, row.start.toNat ≤ a → a < row.end_.toNat →
        ∃ r, governingRow (rows f) (a - fde.initial.toNat) = some r ∧ r.mangled = false ∧
          meaning b.options r = legacyTranslate row ∧
          (fpRules .amd64 row ≠ none → meaning b.options r = translate .amd64 row) := by
  obtain ⟨fdes', hin', hc, rfl⟩ := legacyConvert_iff.1 h
  rw [hin] at hin'
  cases map_ok_inj hin'
  have hcv : ∀ fde ∈ fdes.map tidyFde, Convertible legacyOptions (legacyLike bases) fde := by
    intro g hg
    obtain ⟨g, hg', rfl⟩ := List.mem_map.1 hg
    exact ((legacyConvertible_iff bases g).1 (hc g hg')).1
  have hl' := lastWith_map hl
  have hcv' := hcv _ hl'.mem
  refine ⟨_, (mem_functions (fun g hg => (hcv g hg).start) _).2 ⟨_, hl', rfl⟩, fnFor_start hcv',
    fnFor_size hcv', ?_⟩
  intro row hrow a ha1 ha2
  have hlive : tidy row ∈ live (rowsOf (tidyFde fde)) := by
    rw [rowsOf_tidy, live_tidy]
    exact List.mem_map_of_mem hrow
  obtain ⟨r, h1, h2, h3⟩ := fnFor_governs legacyOptions_fp hcv' hlive (a := a) ha1 fun row' hrow' hle => by
    rw [rowsOf_tidy, live_tidy] at hrow'
    obtain ⟨row', hr', rfl⟩ := List.mem_map.1 hrow'
    exact hw.no_inner (row := row) (row' := row') hrow hr' ha2 hle
  have h3 : meaning legacyOptions r = translate .amd64 (tidy row) := h3
  rw [tidy_translate] at h3
  refine ⟨r, h1, h2, h3, fun hf => ?_⟩
  rw [← legacyTranslate_eq (.inl hf)]
  exact h3

/-- **C56**, every function the legacy tool emits is that of an input. -/
theorem C56_functions (dbg : Bool) (eh : EhFrame) (bases : Bases) (b : SFrameBuilder)
    (h : legacyConvert dbg eh bases = .ok (.ok b)) (fdes : List DwFde)
    (hin : inputs eh bases = fdes.map .ok) :
    (∀ f ∈ functions b, ∃ fde, LastWith fdes fde ∧ f.startAddress.toInt = fde.initial.toNat ∧
      f.size.toNat = fde.len.toNat ∧
      ∀ r ∈ rows f, ∃ row ∈ rowsOf fde, r.startAddress.toNat = row.start.toNat - fde.initial.toNat ∧
        meaning b.options r = legacyTranslate row) ∧
    ∀ fde ∈ fdes, ∃ f ∈ functions b, f.startAddress.toInt = fde.initial.toNat := by
  obtain ⟨fdes', hin', hc, rfl⟩ := legacyConvert_iff.1 h
  rw [hin] at hin'
  cases map_ok_inj hin'
  have hcv : ∀ fde ∈ fdes.map tidyFde, Convertible legacyOptions (legacyLike bases) fde := by
    intro g hg
    obtain ⟨g, hg', rfl⟩ := List.mem_map.1 hg
    exact ((legacyConvertible_iff bases g).1 (hc g hg')).1
  have hmem := fun f => mem_functions (so := legacyOptions) (opts := legacyLike bases)
    (fun g hg => (hcv g hg).start) f
  refine ⟨fun f hf => ?_, fun fde hfde => ?_⟩
  · obtain ⟨g, hg, rfl⟩ := (hmem f).1 hf
    obtain ⟨pre, post, heq, hpost⟩ := hg
    obtain ⟨pre', rest', rfl, hpre, hrest⟩ := List.map_eq_append_iff.1 heq
    obtain ⟨fde, post', rfl, rfl, rfl⟩ := List.map_eq_cons_iff.1 hrest
    have hl : LastWith (pre' ++ fde :: post') fde :=
      ⟨pre', post', rfl, fun x hx => hpost (tidyFde x) (List.mem_map_of_mem hx)⟩
    have hcv' := hcv (tidyFde fde) (List.mem_map_of_mem hl.mem)
    refine ⟨fde, hl, fnFor_start hcv', fnFor_size hcv', fun r hr => ?_⟩
    obtain ⟨d, hd, rfl⟩ := fnFor_rows legacyOptions_fp hcv' hr
    have hp := hcv'.clean.placed d hd
    rw [rowsOf_tidy, live_tidy] at hd
    obtain ⟨row, hrow, rfl⟩ := List.mem_map.1 hd
    refine ⟨row, hrow, rowOf_start (arch := .amd64) hp.near, ?_⟩
    have := meaning_stored legacyOptions_fp hp
    rw [show (legacyLike bases).arch = .amd64 from rfl, tidy_translate] at this
    exact this
  · obtain ⟨g, hl, hi⟩ := exists_last ⟨fde, hfde, rfl⟩
    have hl' := lastWith_map hl
    refine ⟨_, (hmem _).2 ⟨_, hl', rfl⟩, ?_⟩
    rw [fnFor_start (hcv _ hl'.mem)]
    show (g.initial.toNat : Int) = _
    rw [hi]

/-- **C56**, whatever the newer tool converts, the legacy tool converts if the dump goes
through, the rows can be printed and there is no row of width zero.  Missing: inputs without these
properties. -/
theorem C56_converts_partial (dbg : Bool) (eh : EhFrame) (opts : Options) (b : SFrameBuilder)
    (h : dwarf2sframe dbg eh opts = .ok (.ok b))
    (hfde : ∀ fde, .ok fde ∈ inputs eh opts.bases → dumpError fde = none ∧
      ∀ r ∈ rowsOf fde, Printable r ∧ r.start ≠ r.end_) :
    ∃ b', legacyConvert dbg eh opts.bases = .ok (.ok b') := by
  obtain ⟨fdes, hin, hc, rfl⟩ := dwarf2sframe_ok_iff.1 h
  refine (C56_succeeds_iff_partial dbg eh opts.bases).2 ⟨fdes, hin, fun fde hf => ?_⟩
  obtain ⟨hd, hr⟩ := hfde fde (by rw [hin]; exact List.mem_map_of_mem hf)
  have hcv := hc fde hf
  have hlive : live (rowsOf fde) = rowsOf fde := by
    unfold live
    rw [List.filter_eq_self]
    intro r hm
    simpa using (hr r hm).2
  obtain ⟨h1, h2⟩ := hcv.clean
  rw [hlive] at h1 h2
  exact ⟨hcv.start, hcv.len, hd, hcv.rows, fun r hm => (hr r hm).1,
    fun r hm => ⟨(h1 r hm).after, (h1 r hm).inside, (h1 r hm).small⟩, h2⟩

/-- A function that both tools convert, with the same meaning. -/
example (dbg : Bool) : legacyConvert dbg (Samples.ehOf [Samples.fdeWith Samples.dwRow2]) Bases.default
      = .ok (.ok { options := legacyOptions, fdes := [(0x1000, Samples.legacyFn ⟨16, some (-8), some (-16)⟩)] }) ∧
    LastWith [Samples.fdeWith Samples.dwRow2] (Samples.fdeWith Samples.dwRow2) ∧
    WellFormed (rowsOf (Samples.fdeWith Samples.dwRow2)) ∧
    fpRules .amd64 Samples.dwRow2 = some (some (-16)) ∧ dumpError (Samples.fdeWith Samples.dwRow2) = none ∧
    ∀ r ∈ rowsOf (Samples.fdeWith Samples.dwRow2), Printable r ∧ r.start ≠ r.end_ := by
  refine ⟨by cases dbg <;> decide +kernel, ⟨[], [], rfl, by simp⟩, ?_, by decide +kernel, by decide +kernel, ?_⟩
  · rw [show rowsOf (Samples.fdeWith Samples.dwRow2) = [Samples.dwRow1, Samples.dwRow2] from rfl]
    unfold WellFormed
    decide +kernel
  · rw [show rowsOf (Samples.fdeWith Samples.dwRow2) = [Samples.dwRow1, Samples.dwRow2] from rfl]
    intro r hr
    have hr : r = Samples.dwRow1 ∨ r = Samples.dwRow2 := by simpa using hr
    rcases hr with rfl | rfl
    · refine ⟨⟨nofun, ?_⟩, by decide +kernel⟩
      intro x hx
      have hx : x = (6, .undefined) ∨ x = (16, .offset (-8)) := by simpa [Samples.dwRow1, Samples.x86Regs] using hx
      rcases hx with rfl | rfl <;> exact nofun
    · refine ⟨⟨nofun, ?_⟩, by decide +kernel⟩
      intro x hx
      have hx : x = (6, .offset (-16)) ∨ x = (16, .offset (-8)) := by simpa [Samples.dwRow2, Samples.x86Regs] using hx
      rcases hx with rfl | rfl <;> exact nofun

/-! ### C57 -/

/-- All stages of the legacy tool before writing the output succeed: `out` is the emitted object. -/
structure Spec.Made1 (dbg : Bool) (w : World) (args : Args1) (file : ObjFile)
    (eh : EhFrame) (b : SFrameBuilder) (bytes out : List U8) : Prop where
  input : ∃ h d, w.openFile args.input = some h ∧ w.mmap h = some d ∧ w.parse d = some file
  section_ : ∃ s data, file.sectionByName ".eh_frame" = some s ∧ s.data = some data ∧
    eh = w.ehFrame data file.endianness
  convert : legacyConvert dbg eh (toolBases file) = .ok (.ok b)
  build : b.build dbg w.host = .ok (.ok bytes)
  emit : w.emit ⟨file.architecture, file.endianness, [⟨".sframe", bytes, 8⟩]⟩ = some out

/-- A stage that cannot write: it ends the program, or the program goes on with its value. -/
theorem Prog.orFail_step {α β : Type} (x : Option α) (e : CliError) (f : α → Prog β) (cs) :
    (x = none ∧ Prog.bind (Prog.orFail x e) f cs = (.ok (.error e), cs)) ∨
    ∃ a, x = some a ∧ Prog.bind (Prog.orFail x e) f cs = f a cs := by
  cases x with
  | none => exact .inl ⟨rfl, rfl⟩
  | some a => exact .inr ⟨a, rfl, rfl⟩

@[inherit_doc Prog.orFail_step]
theorem Prog.lift_step {α β ε : Type} (x : Rust (Except ε α)) (g : ε → CliError) (f : α → Prog β) (cs) :
    ((∀ a, x ≠ .ok (.ok a)) ∧
      ∃ r, Prog.bind (Prog.lift (x.bind fun r => .ok (r.mapError g))) f cs = (r, cs) ∧
        (∀ a, r ≠ .ok (.ok a)) ∧ ∀ e, r = .ok (.error e) → ∃ e', e = g e') ∨
    ∃ a, x = .ok (.ok a) ∧ Prog.bind (Prog.lift (x.bind fun r => .ok (r.mapError g))) f cs = f a cs := by
  rcases x with (e | a) | p | _
  · exact .inl ⟨nofun, _, rfl, nofun, fun e' h => by cases h; exact ⟨e, rfl⟩⟩
  · exact .inr ⟨a, rfl, rfl⟩
  · exact .inl ⟨nofun, _, rfl, nofun, nofun⟩
  · exact .inl ⟨nofun, _, rfl, nofun, nofun⟩

/-- The run of the legacy tool. -/
theorem runMain1_cases (dbg : Bool) (w : World) (args : Args1) :
    ((runMain1 dbg w args).2 = [] ∧ (∀ a, (runMain1 dbg w args).1 ≠ .ok (.ok a)) ∧
      (runMain1 dbg w args).1 ≠ .ok (.error .write) ∧
      ¬ ∃ file eh b bytes out, Made1 dbg w args file eh b bytes out) ∨
    ∃ file eh b bytes out, Made1 dbg w args file eh b bytes out ∧
      runMain1 dbg w args = (if w.write args.output out then .ok (.ok ()) else .ok (.error .write),
        [⟨args.output, out⟩]) := by
  unfold runMain1 main1
  simp only [Bind.bind]
  rcases Prog.orFail_step (w.openFile args.input) .open_ _ [] with ⟨hx, h⟩ | ⟨h1, e1, h⟩ <;> rw [h]
  · refine .inl ⟨rfl, nofun, nofun, ?_⟩
    rintro ⟨_, _, _, _, _, ⟨_, _, h, _⟩, _⟩
    rw [hx] at h; cases h
  rcases Prog.orFail_step (w.mmap h1) .mmap _ [] with ⟨hx, h⟩ | ⟨d, e2, h⟩ <;> rw [h]
  · refine .inl ⟨rfl, nofun, nofun, ?_⟩
    rintro ⟨_, _, _, _, _, ⟨_, _, h, h', _⟩, _⟩
    rw [e1] at h; cases h
    rw [hx] at h'; cases h'
  rcases Prog.orFail_step (w.parse d) .parse _ [] with ⟨hx, h⟩ | ⟨file, e3, h⟩ <;> rw [h]
  · refine .inl ⟨rfl, nofun, nofun, ?_⟩
    rintro ⟨_, _, _, _, _, ⟨_, _, h, h', h''⟩, _⟩
    rw [e1] at h; cases h
    rw [e2] at h'; cases h'
    rw [hx] at h''; cases h''
  have hfile : ∀ {file' eh b bytes out}, Made1 dbg w args file' eh b bytes out → file' = file := by
    intro file' eh b bytes out h
    obtain ⟨_, _, h, h', h''⟩ := h.input
    rw [e1] at h; cases h
    rw [e2] at h'; cases h'
    rw [e3] at h''; cases h''
    rfl
  rcases Prog.orFail_step (file.sectionByName ".eh_frame") .noSection _ [] with ⟨hx, h⟩ | ⟨s, e4, h⟩ <;> rw [h]
  · refine .inl ⟨rfl, nofun, nofun, ?_⟩
    rintro ⟨_, _, _, _, _, h⟩
    cases hfile h
    obtain ⟨_, _, h, _⟩ := h.section_
    rw [hx] at h; cases h
  rcases Prog.orFail_step s.data .decompress _ [] with ⟨hx, h⟩ | ⟨data, e5, h⟩ <;> rw [h]
  · refine .inl ⟨rfl, nofun, nofun, ?_⟩
    rintro ⟨_, _, _, _, _, h⟩
    cases hfile h
    obtain ⟨_, _, h, h', _⟩ := h.section_
    rw [e4] at h; cases h
    rw [hx] at h'; cases h'
  have heh : ∀ {eh b bytes out}, Made1 dbg w args file eh b bytes out →
      eh = w.ehFrame data file.endianness := by
    intro eh b bytes out h
    obtain ⟨_, _, h, h', h''⟩ := h.section_
    rw [e4] at h; cases h
    rw [e5] at h'; cases h'
    exact h''
  rcases Prog.lift_step (legacyConvert dbg (w.ehFrame data file.endianness) (cliBases file)) .legacy _ []
    with ⟨hx, r, h, hr, hr'⟩ | ⟨b, e6, h⟩ <;> rw [h] <;> (first | rw [cliBases_eq] at hx | rw [cliBases_eq] at e6)
  · refine .inl ⟨rfl, hr, fun h => (by obtain ⟨_, h⟩ := hr' _ h; cases h), ?_⟩
    rintro ⟨_, _, b, _, _, h⟩
    cases hfile h; cases heh h
    exact hx b h.convert
  rcases Prog.lift_step (b.build dbg w.host) .build _ [] with ⟨hx, r, h, hr, hr'⟩ | ⟨bytes, e7, h⟩ <;> rw [h]
  · refine .inl ⟨rfl, hr, fun h => (by obtain ⟨_, h⟩ := hr' _ h; cases h), ?_⟩
    rintro ⟨_, _, b', bytes, _, h⟩
    cases hfile h; cases heh h
    have := e6.symm.trans h.convert
    cases this
    exact hx bytes h.build
  have hobj : OutObject.setSectionData ((OutObject.new file.architecture file.endianness).addSection ".sframe").1
      ((OutObject.new file.architecture file.endianness).addSection ".sframe").2 bytes 8
      = ⟨file.architecture, file.endianness, [⟨".sframe", bytes, 8⟩]⟩ := rfl
  simp only [hobj]
  rcases Prog.orFail_step (w.emit ⟨file.architecture, file.endianness, [⟨".sframe", bytes, 8⟩]⟩) .emit
    (fun data => Prog.fsWrite w args.output data) [] with ⟨hx, h⟩ | ⟨out, e8, h⟩ <;> rw [h]
  · refine .inl ⟨rfl, nofun, nofun, ?_⟩
    rintro ⟨_, _, b', bytes, _, h⟩
    cases hfile h; cases heh h
    have := e6.symm.trans h.convert
    cases this
    have := e7.symm.trans h.build
    cases this
    have := hx.symm.trans h.emit
    cases this
  · exact .inr ⟨file, _, b, bytes, out, ⟨⟨h1, d, e1, e2, e3⟩, ⟨s, data, e4, e5, rfl⟩, e6, e7, e8⟩, rfl⟩

theorem legacy_reachable {dbg dbg' : Bool} {eh : EhFrame} {bases : Bases} {b : SFrameBuilder}
    (h : legacyConvert dbg eh bases = .ok (.ok b)) :
    SFrameBuilder.Reachable dbg' b ∧ b.options = legacyOptions := by
  obtain ⟨fdes, _, hc, rfl⟩ := legacyConvert_iff.1 h
  refine ⟨more_reachable legacyOptions_fp (.new _) fun f hf => ?_, rfl⟩
  obtain ⟨g, hg, rfl⟩ := List.mem_map.1 hf
  exact ((legacyConvertible_iff bases g).1 (hc g hg)).1

/-- **C57**, what is written: an object for the architecture and the byte order of the input file, whose
section is readable in the byte order of the *host* and declares little-endian AMD64, whatever the
file is. -/
theorem C57_section (dbg : Bool) (w : World) (args : Args1) {file eh b bytes out}
    (h : Made1 dbg w args file eh b bytes out) :
    (∃ s es, SFrame.load w.host bytes = .ok (.ok s) ∧ s.abi.toNat = abiCode .amd64 .little ∧
      s.fixedRaOffset = none ∧ s.fixedFpOffset = none ∧ s.iter.collect = .ok es ∧
      es.map (fun e => e.startAddress) = (functions b).map FuncDescBuilder.startAddress) ∧
    ∀ o, o ≠ w.host → SFrame.load o bytes = .ok (.error .incorrectEndian) := by
  obtain ⟨hr, ho⟩ := legacy_reachable (dbg' := dbg) h.convert
  obtain ⟨s, es, h1, h2, _, _, h5, h6, h7, _, _, _, h11, _, h13⟩ :=
    C30_round_trip dbg dbg w.host b hr bytes h.build
  refine ⟨⟨s, es, h1, ?_, ?_, ?_, h2, ?_⟩, fun o hne =>
    C04_wrong_endian dbg dbg w.host o (Ne.symm hne) b hr bytes h.build⟩
  · rw [h5, ho]; rfl
  · rw [h7, ho]; rfl
  · rw [h6, ho]; rfl
  · refine List.ext_getElem? fun i => ?_
    rw [List.getElem?_map, List.getElem?_map]
    cases hf : (functions b)[i]? with
    | none =>
      have : es[i]? = none := by
        rw [List.getElem?_eq_none_iff] at hf ⊢; omega
      rw [this]; rfl
    | some f =>
      have hi : i < es.length := by
        have := (List.getElem?_eq_some_iff.1 hf).1; omega
      obtain ⟨e, he⟩ : ∃ e, es[i]? = some e := ⟨_, List.getElem?_eq_getElem hi⟩
      rw [he]
      exact congrArg some (h13 i f e hf he).1

namespace Samples

/-- A world like `world`, on the given host, with a file of the given architecture and byte order. -/
def world1 (arch : ObjArch) (o host : Endian) : World :=
  { world false with
    parse := fun _ => some { objFile false with architecture := arch, endianness := o }
    host := host }

/-- Arguments of the legacy tool. -/
def args1 : Args1 := { input := "in", output := "out" }

/-- The section it makes of `textRel`. -/
def legacyOne : SFrameBuilder :=
  { options := legacyOptions
    fdes := [(0x1010, { FuncDescBuilder.new legacyOptions 0x1010 0x20 with
      fres := [(0, ⟨0, some ⟨8, some (-8), none⟩, false, .sp⟩)] })] }

end Samples

/-- **C57 is false of the code**: for an AArch64 file it writes a section that declares AMD64 (and
that takes DWARF registers 6, 7 and 16 for FP, SP and RA). -/
theorem C57_wrong_architecture (dbg : Bool) :
    runMain1 dbg (Samples.world1 .aarch64 .little .little) Samples.args1 =
      (.ok (.ok ()), [⟨"out", image .little Samples.legacyOne⟩]) ∧
    ∃ s, SFrame.load .little (image .little Samples.legacyOne) = .ok (.ok s) ∧
      s.abi.toNat = abiCode .amd64 .little := by
  refine ⟨by cases dbg <;> decide +kernel, readBack .little Samples.legacyOne, by decide +kernel, rfl⟩

/-- **C57 is false of the code**: for a big-endian file on a little-endian host it writes a section that
cannot be read in the byte order of the file. -/
theorem C57_wrong_byte_order (dbg : Bool) :
    runMain1 dbg (Samples.world1 .aarch64 .big .little) Samples.args1 =
      (.ok (.ok ()), [⟨"out", image .little Samples.legacyOne⟩]) ∧
    SFrame.load .big (image .little Samples.legacyOne) = .ok (.error .incorrectEndian) := by
  refine ⟨by cases dbg <;> decide +kernel, by decide +kernel⟩

/-- The ABI code of a file. -/
def Spec.fileAbi (file : ObjFile) : Option Nat :=
  match file.architecture with
  | .x86_64 => some (abiCode .amd64 file.endianness)
  | .aarch64 => some (abiCode .aarch64 file.endianness)
  | .other _ => none

/-- **C57**, when it holds: the section declares the architecture and byte order of the file and is
written in the byte order of the file exactly if the file is for little-endian x86-64 and the
host is little-endian.  Missing: all other files and hosts. -/
theorem C57_iff_partial (dbg : Bool) (w : World) (args : Args1) {file eh b bytes out}
    (h : Made1 dbg w args file eh b bytes out) :
    (∃ s, SFrame.load file.endianness bytes = .ok (.ok s) ∧ fileAbi file = some s.abi.toNat) ↔
      file.architecture = .x86_64 ∧ file.endianness = .little ∧ w.host = .little := by
  obtain ⟨⟨s, es, h1, h2, _⟩, h3⟩ := C57_section dbg w args h
  constructor
  · rintro ⟨s', hs, ha⟩
    have hhost : file.endianness = w.host := by
      by_cases he : file.endianness = w.host
      · exact he
      · rw [h3 _ he] at hs; cases hs
    have habi : s'.abi.toNat = abiCode .amd64 .little := by
      revert s' hs
      rw [hhost, h1]
      intro s' hs _
      cases hs
      exact h2
    rw [habi] at ha
    unfold fileAbi at ha
    cases hf : file.architecture <;> cases he : file.endianness <;> rw [hf, he] at ha <;>
      simp [abiCode] at ha
    exact ⟨rfl, rfl, by rw [← hhost, he]⟩
  · rintro ⟨h4, h5, h6⟩
    have hhost : file.endianness = w.host := by rw [h5, h6]
    rw [hhost]
    exact ⟨s, h1, by unfold fileAbi; rw [h4, h5]; exact congrArg some h2.symm⟩

/-- A little-endian x86-64 file on a little-endian host. -/
example (dbg : Bool) : runMain1 dbg (Samples.world1 .x86_64 .little .little) Samples.args1 =
    (.ok (.ok ()), [⟨"out", image .little Samples.legacyOne⟩]) := by
  cases dbg <;> decide +kernel

/-- **C57**, the run: it succeeds iff every stage does, and writes nothing but the emitted object. -/
theorem C57_success (dbg : Bool) (w : World) (args : Args1) (calls : List WriteCall) :
    runMain1 dbg w args = (.ok (.ok ()), calls) ↔
      ∃ file eh b bytes out, Made1 dbg w args file eh b bytes out ∧
        w.write args.output out = true ∧ calls = [⟨args.output, out⟩] := by
  have huniq : ∀ {file file' eh eh' b b' bytes bytes' out out'}, Made1 dbg w args file eh b bytes out →
      Made1 dbg w args file' eh' b' bytes' out' → out = out' := by
    rintro file file' eh eh' b b' bytes bytes' out out' ⟨⟨_, _, a1, a2, a3⟩, ⟨_, _, a5, a6, rfl⟩, a7, a8, a9⟩
      ⟨⟨_, _, c1, c2, c3⟩, ⟨_, _, c5, c6, rfl⟩, c7, c8, c9⟩
    rw [a1] at c1; cases c1
    rw [a2] at c2; cases c2
    rw [a3] at c3; cases c3
    rw [a5] at c5; cases c5
    rw [a6] at c6; cases c6
    rw [a7] at c7; cases c7
    rw [a8] at c8; cases c8
    rw [a9] at c9; cases c9
    rfl
  rcases runMain1_cases dbg w args with ⟨_, h2, _, h4⟩ | ⟨file, eh, b, bytes, out, hm, hr⟩
  · constructor
    · intro h; rw [h] at h2; exact absurd rfl (h2 ())
    · rintro ⟨file, eh, b, bytes, out, hm, _⟩
      exact absurd ⟨file, eh, b, bytes, out, hm⟩ h4
  · constructor
    · intro h
      rw [hr] at h
      cases hx : w.write args.output out <;> rw [hx] at h
      · cases h
      · exact ⟨file, eh, b, bytes, out, hm, hx, (congrArg Prod.snd h).symm⟩
    · rintro ⟨file', eh', b', bytes', out', hm', hx, rfl⟩
      cases huniq hm hm'
      rw [hr, if_pos hx]

end Verif
