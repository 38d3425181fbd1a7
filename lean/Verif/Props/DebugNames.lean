import Verif.Proofs.DebugRead
import Verif.Props.DebugText
import Verif.Props.Numeral
/-!
# Behind each label of a printed section stands the value of that name: C120
-/

namespace Verif
open Spec Spec.DebugText

variable {o : Endian}

/-- The text of a function. -/
def Spec.DebugText.ShowsFde (s : List Char) (e : FuncDescEntry o) : Prop :=
  ∃ fs, record "FuncDescEntry" s = some fs ∧
    (field fs "start_address").bind Numeral.readHex = some e.startAddress.toNat ∧
    (field fs "size").bind (Numeral.read 10) = some e.size.toNat ∧
    field fs "fdetype" = some (if e.fdetype = .pcInc then "PcInc" else "PcMask").toList ∧
    field fs "pauth_key" = some (if e.pauthKey = .A then "A" else "B").toList ∧
    (field fs "rep_size").map (Numeral.read 10) = e.repBlockSize.map (fun r => some r.toNat) ∧
    (field fs "num_fres").bind (Numeral.read 10) = some e.fde.numFres.toNat ∧
    (field fs "start_fre_off").bind (Numeral.read 10) = some e.fde.startFreOff.toNat ∧
    ∃ l, (field fs "fres").bind list = some l ∧
      Matched ShowsResult l (decodeFres o e.fde.info.toNat e.fde.numFres.toNat e.fres)

/-- The text of a section. -/
def Spec.DebugText.ShowsSection (t : EnumShown) (x : List Char) (s : SFrame o) (es : List (FuncDescEntry o)) : Prop :=
  ∃ fs, record "SFrame" x = some fs ∧
    (∃ p ps, field fs "preamble" = some p ∧ record "Preamble" p = some ps ∧
      ((field ps "magic").bind (wrapped "U16")).bind (Numeral.read 10) = some s.preamble.magic.toNat ∧
      field ps "version" = some (t.version s.preamble.version).line ∧
      ((field ps "flags").bind (wrapped "Flags")).bind (Numeral.read 10) = some s.preamble.flags.toNat) ∧
    field fs "abi_arch" = some (t.abi s.abi).line ∧
    (∃ y, field fs "fixed_fp_offset" = some y ∧ ShowsOption y (s.fixedFpOffset.map BitVec.toInt)) ∧
    (∃ y, field fs "fixed_ra_offset" = some y ∧ ShowsOption y (s.fixedRaOffset.map BitVec.toInt)) ∧
    (field fs "num_fdes").bind (Numeral.read 10) = some s.numFdes.toNat ∧
    (field fs "num_fres").bind (Numeral.read 10) = some s.numFres.toNat ∧
    ∃ l, (field fs "fdes").bind list = some l ∧ Matched ShowsFde l es

theorem matched_map {α β γ : Type} {R : β → γ → Prop} {f : α → β} {g : α → γ} :
    ∀ {l : List α}, (∀ x ∈ l, R (f x) (g x)) → Matched R (l.map f) (l.map g)
  | [], _ => trivial
  | x :: l, h => ⟨h x (by simp), matched_map fun y hy => h y (by simp [hy])⟩

theorem matched_index {α β : Type} {R : α → β → Prop} : ∀ {l : List α} {m : List β}, l.length = m.length →
    (∀ (i : Nat) a b, l[i]? = some a → m[i]? = some b → R a b) → Matched R l m
  | [], [], _, _ => trivial
  | a :: l, b :: m, hl, h => ⟨h 0 a b rfl rfl, matched_index (by simpa using hl) fun i x y hx hy =>
      h (i + 1) x y (by simpa using hx) (by simpa using hy)⟩
  | [], _ :: _, hl, _ => by simp at hl
  | _ :: _, [], hl, _ => by simp at hl

namespace DbgVal

theorem unsigned_read {n : Nat} (x : BitVec n) : Numeral.read 10 (DbgVal.unsigned x).line = some x.toNat := by
  unfold unsigned; rw [word_line]; exact C119_decimal _

theorem signed_read {n : Nat} (x : BitVec n) : Numeral.readInt (DbgVal.signed x).line = some x.toInt := by
  unfold signed; rw [word_line]; exact C119_signed.1 x

theorem one_read {n : String} {v : DbgVal} (h : n.toList.all (fun c => decide (¬ Structural c)) = true)
    (hn : n ≠ "") (hv : v.Plain) : wrapped n (DbgVal.one n v).line = some v.line :=
  wrapped_line (lit_one h hn hv)

theorem seq_read {vs : List DbgVal} (h : ∀ v ∈ vs, v.Plain) : list (DbgVal.seq vs).line = some (vs.map line) :=
  list_line (ofList_plain h)

theorem showsError (e : ReadError) : ShowsError (DbgVal.readError e).line e := by
  cases e with
  | unsupportedVersion v =>
    simp only [ShowsError, readError, one_read (n := "UnsupportedVersion") (by decide +kernel) (by decide +kernel)
      (unsigned_plain _), Option.bind_some, unsigned_read]
  | invalidFreOffsetCount v =>
    simp only [ShowsError, readError, one_read (n := "InvalidFreOffsetCount") (by decide +kernel) (by decide +kernel)
      (unsigned_plain _), Option.bind_some, unsigned_read]
  | unsupportedFdeType t =>
    simp only [ShowsError, readError, one_read (n := "UnsupportedFdeType") (by decide +kernel) (by decide +kernel)
      (fdeType_plain _)]
    cases t <;> (simp only [fdeType, word_line]; decide +kernel)
  | unsupportedFreType t =>
    simp only [ShowsError, readError, one_read (n := "UnsupportedFreType") (by decide +kernel) (by decide +kernel)
      (freType_plain _)]
    cases t <;> (simp only [freType, word_line]; decide +kernel)
  | unsupportedFreOffset t =>
    simp only [ShowsError, readError, one_read (n := "UnsupportedFreOffset") (by decide +kernel) (by decide +kernel)
      (freOffset_plain _)]
    cases t <;> (simp only [freOffset, word_line]; decide +kernel)
  | unexpectedEof => simp only [ShowsError, readError, word_line]
  | incorrectEndian => simp only [ShowsError, readError, word_line]
  | invalidFdeRepBlockSize => simp only [ShowsError, readError, word_line]
  | missingFreOffset => simp only [ShowsError, readError, word_line]

theorem signeds_plain (l : List I32) : ∀ v ∈ l.map DbgVal.signed, v.Plain := fun v hv => by
  obtain ⟨x, _, rfl⟩ := List.mem_map.mp hv; exact signed_plain x

theorem showsRow (r : RowDebug) : ShowsRow (DbgVal.row r).line (shownRow r) := by
  refine ⟨_, record_line (row_plain r), ?_, ?_, ?_, (r.offsets.map DbgVal.signed).map line, ?_, ?_⟩
  · show (some (DbgVal.unsigned r.startAddress).line).bind _ = _
    rw [Option.bind_some, unsigned_read]; rfl
  · show some (DbgVal.baseReg r.baseReg).line = _
    have : ∀ b : BaseReg, (DbgVal.baseReg b).line = (if b = .fp then "Fp" else "Sp").toList := fun b => by
      cases b <;> (simp only [baseReg, word_line]; decide +kernel)
    exact congrArg some (this r.baseReg)
  · show some (DbgVal.word (fmtBool r.mangled)).line = _
    have : ∀ b : Bool, (DbgVal.word (fmtBool b)).line = (if b then "true" else "false").toList := fun b => by
      rw [word_line]; cases b <;> decide +kernel
    exact congrArg some (this r.mangled)
  · show (some (DbgVal.seq (r.offsets.map DbgVal.signed)).line).bind _ = _
    rw [Option.bind_some, seq_read (signeds_plain _)]
  · simp [shownRow, signed_read, Function.comp_def]

theorem showsResult (x : Except ReadError RowDebug) :
    ShowsResult (DbgVal.result .readError .row x).line (x.map shownRow) := by
  cases x with
  | error e => exact ⟨_, one_read (by decide +kernel) (by decide +kernel) (readError_plain e), showsError e⟩
  | ok r => exact ⟨_, one_read (by decide +kernel) (by decide +kernel) (row_plain r), showsRow r⟩

theorem showsOption (x : Option I8) : ShowsOption (DbgVal.option .signed x).line (x.map BitVec.toInt) := by
  cases x with
  | none => simp only [option, word_line, ShowsOption, Option.map_none]
  | some x =>
    simp only [option, ShowsOption, Option.map_some]
    rw [one_read (by decide +kernel) (by decide +kernel) (signed_plain x), Option.bind_some, signed_read]

theorem results_plain (l : List (Except ReadError RowDebug)) :
    ∀ v ∈ l.map (DbgVal.result DbgVal.readError DbgVal.row), v.Plain := fun v hv => by
  obtain ⟨x, _, rfl⟩ := List.mem_map.mp hv; exact result_plain readError_plain row_plain x

theorem showsFde {e : FuncDescEntry o} {d : FdeDebug} (h : ShownFde e d) : ShowsFde (DbgVal.fde d).line e := by
  have hrows : Matched ShowsResult ((d.fres.map (DbgVal.result DbgVal.readError DbgVal.row)).map line)
      (decodeFres o e.fde.info.toNat e.fde.numFres.toNat e.fres) := by
    rw [← h.rows, List.map_map]
    exact matched_map fun x _ => showsResult x
  have hfres : (some (DbgVal.seq (d.fres.map (DbgVal.result DbgVal.readError DbgVal.row))).line).bind list =
      some ((d.fres.map (DbgVal.result DbgVal.readError DbgVal.row)).map line) := by
    rw [Option.bind_some, seq_read (results_plain _)]
  have hty : (DbgVal.fdeType d.fdetype).line = (if e.fdetype = .pcInc then "PcInc" else "PcMask").toList := by
    have := h.mask
    cases hd : d.fdetype with
    | pcInc =>
      rw [hd] at this
      have : e.fdetype = .pcInc := Classical.byContradiction fun hn => by cases this.2 hn
      rw [if_pos this]; simp only [fdeType, word_line]
    | pcMask => rw [if_neg (this.1 hd)]; simp only [fdeType, word_line]
  have hkey : (DbgVal.pauthKey d.pauthKey).line = (if e.pauthKey = .A then "A" else "B").toList := by
    rw [h.pauth]
    cases e.pauthKey <;> (simp only [pauthKey, word_line]; decide +kernel)
  refine ⟨_, record_line (fde_plain d), ?_, ?_, ?_, ?_, ?_, ?_, ?_, _, ?_, hrows⟩
  · show (some (DbgVal.word (fmtAltHex d.startAddress.toNat)).line).bind _ = _
    rw [Option.bind_some, word_line, C119_hex.2.2.1, h.start]
  · show (some (DbgVal.unsigned d.size).line).bind _ = _
    rw [Option.bind_some, unsigned_read, h.size]
  · show some (DbgVal.fdeType d.fdetype).line = _
    rw [hty]
  · show some (DbgVal.pauthKey d.pauthKey).line = _
    rw [hkey]
  · rw [← h.rep]
    cases d.repSize with
    | none => rfl
    | some r =>
      show (some (DbgVal.unsigned r).line).map _ = _
      rw [Option.map_some, unsigned_read]; rfl
  · have : field (labelled (match d.repSize with
        | none => fdeTail d
        | some r => .cons "rep_size" (.unsigned r) (fdeTail d))) "num_fres" = some (DbgVal.unsigned d.numFres).line := by
      cases d.repSize <;> rfl
    refine (congrArg (Option.bind · _) this).trans ?_
    rw [Option.bind_some, unsigned_read, h.numFres]
  · have : field (labelled (match d.repSize with
        | none => fdeTail d
        | some r => .cons "rep_size" (.unsigned r) (fdeTail d))) "start_fre_off" = some (DbgVal.unsigned d.startFreOff).line := by
      cases d.repSize <;> rfl
    refine (congrArg (Option.bind · _) this).trans ?_
    rw [Option.bind_some, unsigned_read, h.startFreOff]
  · have : field (labelled (match d.repSize with
        | none => fdeTail d
        | some r => .cons "rep_size" (.unsigned r) (fdeTail d))) "fres" =
          some (DbgVal.seq (d.fres.map (DbgVal.result DbgVal.readError DbgVal.row))).line := by
      cases d.repSize <;> rfl
    exact (congrArg (Option.bind · _) this).trans hfres

end DbgVal

/-- **C120**: in the text that `{:?}` gives of a section, a reader that knows brackets, commas and labels
only finds behind each label the value of that name, for the section, its functions and their rows. -/
theorem C120_section {t : EnumShown} (ht : EnumContract t) (s : SFrame o) {x : String}
    (h : s.debugText t false = .ok x) :
    ∃ es, s.iter.collect = .ok es ∧ ShowsSection t x.toList s es := by
  unfold SFrame.debugText at h
  obtain ⟨d, hd, hx⟩ := Rust.bind_eq_ok.mp h
  injection hx with hx
  have hx : x.toList = (DbgVal.sframe t d).line := by rw [← hx]; simp [DbgVal.text]
  obtain ⟨es, hc, hp, hg⟩ := C67_debug s
  have hno : ∀ e ∈ es, ¬ RowOutside e := fun e he ho => by
    obtain ⟨p, hp⟩ := hp.2 ⟨e, he, ho⟩
    rw [hd] at hp; cases hp
  obtain ⟨d', hd', h1, h2, h3, h4, h5, h6, h7, h8⟩ := hg hno
  rw [hd] at hd'
  injection hd' with hd'
  subst hd'
  have hplain : ∀ v ∈ d.fdes.map DbgVal.fde, v.Plain := fun v hv => by
    obtain ⟨x, _, rfl⟩ := List.mem_map.mp hv; exact DbgVal.fde_plain x
  refine ⟨es, hc, _, hx ▸ DbgVal.record_line (DbgVal.sframe_plain ht d), ?_, ?_, ?_, ?_, ?_, ?_,
    (d.fdes.map DbgVal.fde).map DbgVal.line, ?_, ?_⟩
  · refine ⟨(DbgVal.preamble t d.preamble).line, _, rfl, DbgVal.record_line (DbgVal.preamble_plain ht _), ?_, ?_, ?_⟩
    · show ((some (DbgVal.one "U16" (.unsigned d.preamble.magic)).line).bind _).bind _ = _
      rw [Option.bind_some, DbgVal.one_read (by decide +kernel) (by decide +kernel) (DbgVal.unsigned_plain _),
        Option.bind_some, DbgVal.unsigned_read, h1]
    · show some (t.version d.preamble.version).line = _
      rw [h1]
    · show ((some (DbgVal.one "Flags" (.unsigned d.preamble.flags)).line).bind _).bind _ = _
      rw [Option.bind_some, DbgVal.one_read (by decide +kernel) (by decide +kernel) (DbgVal.unsigned_plain _),
        Option.bind_some, DbgVal.unsigned_read, h1]
  · show some (t.abi d.abiArch).line = _
    rw [h2]
  · exact ⟨_, rfl, h3 ▸ DbgVal.showsOption _⟩
  · exact ⟨_, rfl, h4 ▸ DbgVal.showsOption _⟩
  · show (some (DbgVal.unsigned d.numFdes).line).bind _ = _
    rw [Option.bind_some, DbgVal.unsigned_read, h5]
  · show (some (DbgVal.unsigned d.numFres).line).bind _ = _
    rw [Option.bind_some, DbgVal.unsigned_read, h6]
  · show (some (DbgVal.seq (d.fdes.map DbgVal.fde)).line).bind _ = _
    rw [Option.bind_some, DbgVal.seq_read hplain]
  · rw [List.map_map]
    refine matched_index (by simpa using h7) fun i a e ha he => ?_
    rw [List.getElem?_map] at ha
    obtain ⟨y, hy, rfl⟩ := Option.map_eq_some_iff.1 ha
    exact DbgVal.showsFde (h8 i e y he hy)

/-- **C120**: the text of an error names it and the value it carries. -/
theorem C120_errors (e : ReadError) : ShowsError ((DbgVal.readError e).text false).toList e := by
  have : ((DbgVal.readError e).text false).toList = (DbgVal.readError e).line := by simp [DbgVal.text]
  rw [this]; exact DbgVal.showsError e

/-- **C120**: `{:#?}` gives the same text as `{:?}` up to spaces, line breaks and the commas before
closing brackets. -/
theorem C120_lines {t : EnumShown} (ht : EnumContract t) (s : SFrame o) {x y : String}
    (hx : s.debugText t false = .ok x) (hy : s.debugText t true = .ok y) :
    closeUp (dense y.toList) = dense x.toList := by
  unfold SFrame.debugText at hx hy
  obtain ⟨d, hd, hx⟩ := Rust.bind_eq_ok.mp hx
  obtain ⟨d', hd', hy⟩ := Rust.bind_eq_ok.mp hy
  rw [hd] at hd'
  injection hd' with hd'
  subst hd'
  injection hx with hx
  injection hy with hy
  have := DbgVal.tidy_lines _ (DbgVal.sframe_plain ht d) []
  rw [← hx, ← hy]
  simpa [DbgVal.text, closeUp] using this

example : closeUp (dense "S {\n    a: [\n        1,\n        2,\n    ],\n}".toList) = dense "S { a: [1, 2] }".toList := by
  decide +kernel

/-- The reader at work on a literal text. -/
example : (record "FrameRowEntry"
      "FrameRowEntry { start_address: 4, cfa_base_reg_id: Sp, mangled_ra_p: false, offsets: [16, -16] }".toList).bind
      (fun fs => (field fs "offsets").bind list) = some ["16".toList, "-16".toList] ∧
    wrapped "Err" "Err(UnexpectedEof)".toList = some "UnexpectedEof".toList ∧
    wrapped "Ok" "Err(UnexpectedEof)".toList = none := by decide +kernel

/-- The sample section meets the hypothesis and has two functions. -/
example : ∃ x es, Samples.v2F.debugText Samples.enums false = .ok x ∧ Samples.v2F.iter.collect = .ok es ∧
    es.length = 2 ∧ ShowsSection Samples.enums x.toList Samples.v2F es := by
  have h : ∃ d, Samples.v2F.debug = .ok d := by
    have : (match Samples.v2F.debug with | .ok _ => true | _ => false) = true := by decide +kernel
    split at this
    · next d hd => exact ⟨d, hd⟩
    · cases this
  obtain ⟨d, hd⟩ := h
  have hx : Samples.v2F.debugText Samples.enums false = .ok ((DbgVal.sframe Samples.enums d).text false) := by
    unfold SFrame.debugText; rw [hd]; rfl
  obtain ⟨es, hc, hs⟩ := C120_section Samples.enums_contract _ hx
  have hn : (match Samples.v2F.iter.collect with | .ok l => l.length | _ => 0) = 2 := by decide +kernel
  rw [hc] at hn
  exact ⟨_, es, hx, hc, hn, hs⟩

/-- It is printed in both ways. -/
example : ∃ x y, Samples.v2F.debugText Samples.enums false = .ok x ∧ Samples.v2F.debugText Samples.enums true = .ok y ∧
    closeUp (dense y.toList) = dense x.toList := by
  have h : ∃ d, Samples.v2F.debug = .ok d := by
    have : (match Samples.v2F.debug with | .ok _ => true | _ => false) = true := by decide +kernel
    split at this
    · next d hd => exact ⟨d, hd⟩
    · cases this
  obtain ⟨d, hd⟩ := h
  have hx : ∀ b, Samples.v2F.debugText Samples.enums b = .ok ((DbgVal.sframe Samples.enums d).text b) := fun b => by
    unfold SFrame.debugText; rw [hd]; rfl
  exact ⟨_, _, hx false, hx true, C120_lines Samples.enums_contract _ (hx false) (hx true)⟩

end Verif
