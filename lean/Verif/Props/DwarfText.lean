import Verif.Spec.DwarfText
import Verif.Props.CfiText
import Verif.Props.Dwarfdump
/-!
# The entries that dwarfdump prints read back: C124
-/

namespace Verif
open Spec

namespace DwarfText
open Spec.DwarfText

/-! ### Fields -/

theorem field_mk {label : List Char} (hc : ':' ∉ label) (hs : label.head? ≠ some ' ') (k : Nat) (v : List Char) :
    field (List.replicate k ' ' ++ (label ++ ':' :: ' ' :: v)) = (label, v) := by
  have h0 : ∀ c ∈ List.replicate k ' ' ++ label, (c != ':') = true := by
    intro c h
    rcases List.mem_append.1 h with h | h
    · rw [List.eq_of_mem_replicate h]; rfl
    · exact bne_iff_ne.2 fun e => hc (e ▸ h)
  have e : List.replicate k ' ' ++ (label ++ ':' :: ' ' :: v) = (List.replicate k ' ' ++ label) ++ ':' :: ' ' :: v := by simp
  unfold field
  rw [e, List.takeWhile_append_of_pos h0, List.dropWhile_append_of_pos h0, List.takeWhile_cons_of_neg (by simp),
    List.dropWhile_cons_of_neg (by simp), List.append_nil]
  rw [List.dropWhile_append_of_pos (by intro c h; rw [List.eq_of_mem_replicate h]; rfl)]
  cases label with
  | nil => rfl
  | cons c l => rw [List.dropWhile_cons_of_neg (by simpa using hs)]; rfl

/-- A line of a label and a value. -/
theorem field_line {s label : String} (k : Nat) (hs : s.toList = List.replicate k ' ' ++ (label.toList ++ [':', ' ']))
    (hl : ':' ∉ label.toList ∧ label.toList.head? ≠ some ' ') (v : String) :
    field (s ++ v).toList = (label.toList, v.toList) := by
  rw [String.toList_append, hs, List.append_assoc, List.append_assoc]
  exact field_mk hl.1 hl.2 k _

theorem shown_line {s label : String} (k : Nat) (hs : s.toList = List.replicate k ' ' ++ (label.toList ++ [':', ' ']))
    (hl : ':' ∉ label.toList ∧ label.toList.head? ≠ some ' ') {P : List Char → Prop} {v : String} (h : P v.toList) :
    (field (s ++ v).toList).1 = label.toList ∧ P (field (s ++ v).toList).2 := by
  rw [field_line k hs hl]; exact ⟨rfl, h⟩

theorem fields_append {fs gs : List (String × (List Char → Prop))} {ls ms : List (List Char)} (h : Fields fs ls)
    (h' : Fields gs ms) : Fields (fs ++ gs) (ls ++ ms) := by
  induction fs generalizing ls with
  | nil => cases ls with
    | nil => exact h'
    | cons => exact h.elim
  | cons f fs ih => cases ls with
    | nil => exact h.elim
    | cons l ls => exact ⟨h.1, ih h.2⟩

theorem fields_perhaps {α : Type} {label : String} {x : Option α} {value : α → List Char → Prop} {line : α → String}
    (h : ∀ a, (field (line a).toList).1 = label.toList ∧ value a (field (line a).toList).2) :
    Fields (perhaps label x value) ((x.map line).toList.map String.toList) := by
  cases x with
  | none => exact trivial
  | some a => exact ⟨h a, trivial⟩

/-! ### Values -/

theorem hex_pad (w n : Nat) : Hex n (fmtAltHexPad w n).toList := C119_hex.2.2.2 w n

theorem app_bits : ∀ e : U8, e &&& 0x70 = BitVec.ofNat 8 (e.toNat / 16 % 8 * 16) := by decide +kernel
theorem format_bits : ∀ e : U8, e &&& 0x0f = BitVec.ofNat 8 (e.toNat % 16) := by decide +kernel

theorem encoding_text (w : DumpWorld) (e : U8) : Encoding w.encoding e (w.encodingText e).toList := by
  unfold Encoding DumpWorld.encodingText
  rw [app_bits, format_bits, String.toList_append, String.toList_append]
  simp

theorem pad_noSpace (k n : Nat) : ' ' ∉ (fmtAltHexPad k n).toList :=
  not_mem_altHexPad (by decide) (by decide) k n

theorem ptr_text (p : Pointer) : Ptr p p.text.toList ∧ ' ' ∉ p.text.toList := by
  cases p with
  | direct p => exact ⟨hex_pad _ _, pad_noSpace _ _⟩
  | indirect p =>
    have e : (Pointer.indirect p).text.toList = [] ++ '(' :: ((fmtAltHexPad 18 p.toNat).toList ++ [')']) := by
      simp [Pointer.text]
    constructor
    · refine ⟨_, ?_, hex_pad 18 p.toNat⟩
      rw [e, DbgVal.inside_mk (by simp)]
      rfl
    · rw [e]
      have := pad_noSpace 18 p.toNat
      simpa using this

theorem encodedPtr_text (w : DumpWorld) (x : U8 × Pointer) :
    EncodedPtr w.encoding x (w.encodingText x.1 ++ (" " ++ x.2.text)).toList :=
  ⟨_, _, by simp, (ptr_text x.2).2, encoding_text w x.1, (ptr_text x.2).1⟩

theorem range_text (s n : U64) : Range s.toNat n.toNat
    (fmtAltHexPad 18 n.toNat ++ (" (end_addr = " ++ (fmtAltHexPad 18 (s + n).toNat ++ ")"))).toList := by
  have hne : ∀ k n, (fmtAltHexPad k n).toList ≠ [] := by
    intro k n h
    have := C119_hex.2.2.2 k n
    rw [h] at this; cases this
  refine ⟨(fmtAltHexPad 18 n.toNat).toList, (fmtAltHexPad 18 (s + n).toNat).toList ++ ")".toList, ?_, hex_pad _ _,
    _, Listing.before_append _ _, ?_⟩
  · rw [String.toList_append, String.toList_append, String.toList_append,
      show " (end_addr = ".toList = ' ' :: ("(end_addr".toList ++ ' ' :: ("=".toList ++ [' '])) by decide +kernel]
    rw [List.cons_append, Listing.words_cons (pad_noSpace _ _) (hne _ _), List.append_assoc, List.cons_append,
      Listing.words_cons (by decide) (by decide), List.append_assoc, List.cons_append, List.nil_append,
      Listing.words_cons (by decide) (by decide), Listing.words_last]
    · have := pad_noSpace 18 (s + n).toNat
      simpa using this
    · simp
  · have := hex_pad 18 (s + n).toNat
    rwa [BitVec.toNat_add] at this

/-! ### Entries -/

theorem opens_line (k : String) (o : U64) {t : String} (h : t.toList = ':' :: ' ' :: k.toList) :
    Opens k o (fmtAltHexPad 10 o.toNat ++ t).toList := by
  have hc : ':' ∉ (fmtAltHexPad 10 o.toNat).toList := not_mem_altHexPad (by decide) (by decide) _ _
  have hs : (fmtAltHexPad 10 o.toNat).toList.head? ≠ some ' ' := by rw [fmtAltHexPad_toList]; simp
  have := field_mk hc hs 0 k.toList
  unfold Opens
  rw [List.replicate_zero, List.nil_append] at this
  rw [String.toList_append, h, this]
  exact ⟨hex_pad _ _, rfl⟩

theorem cie_fields (w : DumpWorld) (name : Reg → Option String) (c : DumpCie) :
    Fields (cieFields name w.encoding c) ((w.cieBody name c).tail.map String.toList) := by
  have e : (w.cieBody name c).tail =
    [ "        length: " ++ fmtAltHexPad 10 c.entryLen.toNat,
      "       version: " ++ fmtAltHexPad 4 c.version.toNat,
      "    code_align: " ++ fmtNat c.codeAlign.toNat,
      "    data_align: " ++ fmtInt c.dataAlign,
      "   ra_register: " ++ regText name c.raRegister] ++
    (c.lsdaEncoding.map fun e => " lsda_encoding: " ++ w.encodingText e).toList ++
    (c.personality.map fun p => "   personality: " ++ (w.encodingText p.1 ++ (" " ++ p.2.text))).toList ++
    (c.fdeEncoding.map fun e => "  fde_encoding: " ++ w.encodingText e).toList := by
    simp [DumpWorld.cieBody, String.append_assoc]
  rw [e, List.map_append, List.map_append, List.map_append]
  refine fields_append (fields_append (fields_append ?_ ?_) ?_) ?_
  · exact ⟨shown_line (label := "length") 8 (by decide +kernel) (by decide +kernel) (hex_pad _ _),
      shown_line (label := "version") 7 (by decide +kernel) (by decide +kernel) (hex_pad _ _),
      shown_line (label := "code_align") 4 (by decide +kernel) (by decide +kernel) (C119_decimal _),
      shown_line (label := "data_align") 4 (P := fun t => Numeral.readInt t = some c.dataAlign.toInt) (by decide +kernel) (by decide +kernel)
        (C119_signed.1 _),
      shown_line (label := "ra_register") 3 (P := fun t => (CfiText.Operand.reg c.raRegister).Shown name t) (by decide +kernel)
        (by decide +kernel) (CfiText.reg_shown _), trivial⟩
  · exact fields_perhaps fun a => shown_line 1 (by decide +kernel) (by decide +kernel) (encoding_text w a)
  · exact fields_perhaps fun a => shown_line 3 (by decide +kernel) (by decide +kernel) (encodedPtr_text w a)
  · exact fields_perhaps fun a => shown_line 2 (by decide +kernel) (by decide +kernel) (encoding_text w a)

theorem listedAll_iff (l : List (Except GErr Insn)) : listedAll l = true ↔ Decoded l := by
  unfold listedAll Decoded
  rw [List.all_eq_true]
  constructor
  · intro h x hx
    have := h x hx
    cases x <;> simp_all [Except.isOk, Except.toBool]
  · intro h x hx
    have := h x hx
    cases x <;> simp_all [Except.isOk, Except.toBool]

theorem listed_ok {name : Reg → Option String} {error : GErr → String} {l : List (Except GErr Insn)}
    (h : ∀ e, ¬ Fails l e) : (listInstructions true name error l).2 = .ok () := (list_passes true name error l).2 h

end DwarfText

namespace Spec.DwarfText

/-- Lines show an entry. -/
def Shows (name : Reg → Option String) (show_ : U8 → String) (error : GErr → String) :
    Shown → List (List Char) → Prop
  | .cie c, ls => ShowsCie name show_ error c ls
  | .fde o l p f, ls => ShowsFde name error o l p f ls

end Spec.DwarfText

open DwarfText in
/-- **C124**: the lines of an entry that the dump comes to the end of. -/
theorem C124_entry (w : DumpWorld) (dbg : Bool) {name : Reg → Option String} (hn : RegNames name) {s : Shown}
    (h : s.Passes dbg) : DwarfText.Shows name w.encoding w.error s ((w.block dbg name s).map String.toList) := by
  unfold DumpWorld.block
  match s, h with
  | .cie c, h =>
    have he := endingOf_passes w name (b := true) h.1
    have hl := listed_ok (name := name) (error := w.error) h.1
    rw [show (Shown.cie c).insns = c.instructions from rfl] at he hl
    rw [DumpWorld.body]
    simp only [he]
    refine ⟨_, _, ((listInstructions true name w.error c.instructions).1).map String.toList,
      (if listedAll c.instructions then ["  Instructions: Init State:"] else []).map String.toList, ?_,
      opens_line "CIE" c.offset (t := ": CIE") (by decide +kernel), cie_fields w name c, C123_listing hn true w.error c.instructions, ?_⟩
    · simp only [DumpWorld.cfiLines, hl]
      simp [DumpWorld.cieBody]
    · by_cases hd : Decoded c.instructions
      · rw [(listedAll_iff _).2 hd]
        exact .inl ⟨hd, by decide +kernel, trivial⟩
      · rw [if_neg (fun h => hd ((listedAll_iff _).1 h))]
        exact .inr ⟨hd, rfl⟩
  | .fde o l p (.error e), h =>
    refine ⟨_, [("        length: " ++ fmtAltHexPad 10 l.toNat).toList,
      ("   CIE_pointer: " ++ fmtAltHexPad 10 p.toNat).toList], _, rfl, opens_line "FDE" o (t := ": FDE") (by decide +kernel),
      ⟨shown_line (label := "length") 8 (by decide +kernel) (by decide +kernel) (hex_pad _ _),
       shown_line (label := "CIE_pointer") 3 (by decide +kernel) (by decide +kernel) (hex_pad _ _), trivial⟩, ?_⟩
    exact ⟨shown_line (label := "Failed to parse FDE") 0 (P := fun t => t = (w.error e).toList) (by decide +kernel) (by decide +kernel) rfl, trivial⟩
  | .fde o l p (.ok f), h =>
    have he := endingOf_passes w name (b := false) h.1
    have hl := listed_ok (name := name) (error := w.error) h.1
    rw [show (Shown.fde o l p (.ok f)).insns = f.instructions from rfl] at he hl
    rw [DumpWorld.body, if_neg (fun h' => h.2 h'.1 h'.2)]
    simp only [he]
    refine ⟨_, [("        length: " ++ fmtAltHexPad 10 l.toNat).toList,
      ("   CIE_pointer: " ++ fmtAltHexPad 10 p.toNat).toList],
      ((w.fdeBody name f (f.initial + f.len)) ++ [""]).map String.toList, by simp [fdeHead],
      opens_line "FDE" o (t := ": FDE") (by decide +kernel),
      ⟨shown_line (label := "length") 8 (by decide +kernel) (by decide +kernel) (hex_pad _ _),
       shown_line (label := "CIE_pointer") 3 (by decide +kernel) (by decide +kernel) (hex_pad _ _), trivial⟩, ?_⟩
    refine ⟨([ "    start_addr: " ++ fmtAltHexPad 18 f.initial.toNat,
        "    range_size: " ++ (fmtAltHexPad 18 f.len.toNat ++ (" (end_addr = " ++
          (fmtAltHexPad 18 (f.initial + f.len).toNat ++ ")")))].map String.toList ++
        (f.lsda.map fun p => "          lsda: " ++ p.text).toList.map String.toList) ++ ["  Instructions:"].map String.toList,
      ((listInstructions true name w.error f.instructions).1).map String.toList, ?_, ?_,
      C123_listing hn true w.error f.instructions⟩
    · simp only [DumpWorld.fdeBody, DumpWorld.cfiLines, hl]
      simp [String.append_assoc]
    · refine fields_append (fields_append ?_ ?_) ?_
      · exact ⟨shown_line (label := "start_addr") 4 (by decide +kernel) (by decide +kernel) (hex_pad _ _),
          shown_line (label := "range_size") 4 (by decide +kernel) (by decide +kernel) (range_text _ _), trivial⟩
      · exact fields_perhaps fun a => shown_line 10 (by decide +kernel) (by decide +kernel) (ptr_text a).1
      · exact ⟨by decide +kernel, trivial⟩

/-- **C124**: the lines of a file up to the place where the dump stops. -/
theorem C124_prefix (dbg : Bool) {w : DumpWorld} {path : String} {file : ObjFile} {data : List U8}
    (hn : RegNames (w.archRegisterName file.architecture)) (ho : Opened w path file data) {pre : List Shown}
    {rest : List (Except GErr Shown)} (h : entriesOf w file data = pre.map .ok ++ rest)
    (hp : ∀ s ∈ pre, s.Passes dbg) :
    ∃ (block : Shown → List String) (tail : List String),
      (dwarfdump dbg w (some path)).stdout = "Exception handling frame information for section .eh_frame" ::
        (pre.flatMap block ++ tail) ∧
      ∀ s ∈ pre, DwarfText.Shows (w.archRegisterName file.architecture) w.encoding w.error s
        ((block s).map String.toList) := by
  refine ⟨w.block dbg (w.archRegisterName file.architecture),
    (w.dumpList dbg (w.archRegisterName file.architecture) rest).1, ?_, fun s hs => C124_entry w dbg hn (hp s hs)⟩
  rw [dwarfdump_opened ho, dumpEhFrame_eq, (report_ok w path _ _).2.2.1, h,
    dumpList_passes w dbg (w.archRegisterName file.architecture) hp]

/-- **C124**: if the tool succeeds and prints nothing to stderr then stdout is a heading and behind it, in their
order, the entries of the section, each with its kind, offset, fields and instructions. -/
theorem C124_run (dbg : Bool) {w : DumpWorld} {path : String} {file : ObjFile} {data : List U8}
    (hn : RegNames (w.archRegisterName file.architecture)) (ho : Opened w path file data)
    (hr : (dwarfdump dbg w (some path)).result = .ok (.ok ())) (he : (dwarfdump dbg w (some path)).stderr = []) :
    ∃ (entries : List Shown) (block : Shown → List String),
      entriesOf w file data = entries.map .ok ∧
      (dwarfdump dbg w (some path)).stdout = "Exception handling frame information for section .eh_frame" ::
        entries.flatMap block ∧
      ∀ s ∈ entries, DwarfText.Shows (w.archRegisterName file.architecture) w.encoding w.error s
        ((block s).map String.toList) := by
  rw [dwarfdump_opened ho, dumpEhFrame_eq] at hr he ⊢
  obtain ⟨r1, -, r3, r4, -⟩ := report_ok w path ("Exception handling frame information for section .eh_frame" ::
    (w.dumpList dbg (w.archRegisterName file.architecture) (entriesOf w file data)).1)
    (w.dumpList dbg (w.archRegisterName file.architecture) (entriesOf w file data)).2
  obtain ⟨x, hx⟩ := r1.1 hr
  have ha : AllPass dbg (entriesOf w file data) := by
    rw [← (dumpList_result w dbg (w.archRegisterName file.architecture) _).1, hx]
    cases x with
    | ok u => rfl
    | error e => exact absurd hx (r4.1 he e)
  obtain ⟨pre, hp, hq⟩ := ha
  refine ⟨pre, w.block dbg (w.archRegisterName file.architecture), hp, ?_, fun s hs => C124_entry w dbg hn (hq s hs)⟩
  rw [r3, hp]
  have := dumpList_passes w dbg (w.archRegisterName file.architecture) hq []
  rw [List.append_nil] at this
  rw [this]
  simp [DumpWorld.dumpList]

/-! ### Examples -/

example : DwarfText.field "   CIE_pointer: 0x00000000".toList = ("CIE_pointer".toList, "0x00000000".toList) ∧
    DwarfText.field "0x00000018: FDE".toList = ("0x00000018".toList, "FDE".toList) ∧
    DwarfText.field "  Instructions:".toList = ("Instructions".toList, []) ∧
    DwarfText.Encoding (fun e => fmtNat e.toNat) 0x9b "16/11".toList ∧
    DwarfText.Range 0x1010 0x20 "0x0000000000000020 (end_addr = 0x0000000000001030)".toList := by
  refine ⟨by decide +kernel, by decide +kernel, by decide +kernel, by unfold DwarfText.Encoding; decide +kernel, ?_⟩
  exact DwarfText.range_text 0x1010 0x20

/-- The hypotheses hold of a run, and the entries can be passed. -/
example : RegNames ((Samples.dwWorld .x86_64 (some [])
      [.ok (.cie (Samples.dwCie [.ok (.defCfa 7 8)]))]).archRegisterName .x86_64) ∧
    Opened (Samples.dwWorld .x86_64 (some []) [.ok (.cie (Samples.dwCie [.ok (.defCfa 7 8)]))]) "x"
      (Samples.dumpFile .x86_64 (some [])) [] ∧
    (dwarfdump true (Samples.dwWorld .x86_64 (some []) [.ok (.cie (Samples.dwCie [.ok (.defCfa 7 8)]))])
      (some "x")).result = .ok (.ok ()) ∧
    (dwarfdump true (Samples.dwWorld .x86_64 (some []) [.ok (.cie (Samples.dwCie [.ok (.defCfa 7 8)]))])
      (some "x")).stderr = [] ∧
    (Shown.cie (Samples.dwCie [.ok (.defCfa 7 8)])).Passes true := by
  refine ⟨?_, ⟨⟨0, [], by decide +kernel, rfl, rfl⟩, by decide +kernel⟩, by decide +kernel, by decide +kernel, ?_, ?_⟩
  · exact Samples.regNames
  · exact (list_passes true (fun _ => none) (fun _ => "") _).1 rfl
  · exact fun _ h => h

end Verif
