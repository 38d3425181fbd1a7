import Verif.Model.Texts
import Verif.Proofs.Text
import Verif.Props.Convert3
import Verif.Props.Samples
/-!
# The texts of errors and warnings: C71, C72, C73, C74, C75
-/

namespace Verif
open Spec

/-! ### Numbers -/

theorem fmtNat_toList (n : Nat) : (fmtNat n).toList = Nat.toDigits 10 n := by simp [fmtNat]

theorem fmtNat_inj {m n : Nat} (h : fmtNat m = fmtNat n) : m = n :=
  toDigits10_inj (by rw [← fmtNat_toList, ← fmtNat_toList, h])

theorem fmtAltHex_toList (n : Nat) : (fmtAltHex n).toList = '0' :: 'x' :: Nat.toDigits 16 n := by
  simp [fmtAltHex]

theorem fmtAltHexPad_toList (w n : Nat) : (fmtAltHexPad w n).toList =
    '0' :: 'x' :: (List.replicate (w - 2 - (Nat.toDigits 16 n).length) '0' ++ Nat.toDigits 16 n) := by
  simp [fmtAltHexPad]

/-- The digits with their zeros can be read back. -/
theorem pad_inj {k k' m n : Nat} (h : List.replicate k '0' ++ Nat.toDigits 16 m =
    List.replicate k' '0' ++ Nat.toDigits 16 n) : m = n := by
  have h := congrArg (undigits 16) h
  rw [undigits_pad, undigits_pad, undigits_toDigits (by omega) (by omega),
    undigits_toDigits (by omega) (by omega)] at h
  exact h

theorem not_mem_altHexPad {c : Char} (hc : ¬ IsDigit c) (hx : c ≠ 'x') (w n : Nat) :
    c ∉ (fmtAltHexPad w n).toList := by
  rw [fmtAltHexPad_toList]
  have h0 : c ≠ '0' := fun h => hc (h ▸ by decide)
  simp only [List.mem_cons, List.mem_append, List.mem_replicate, not_or, not_and]
  exact ⟨h0, hx, fun _ => h0, not_mem_toDigits (by omega) (by omega) hc _⟩

/-! ### C71 -/

theorem RawFdeType.toU8_inj {a b : RawFdeType} (h : a.toU8.toNat = b.toU8.toNat) : a = b := by
  cases a <;> cases b <;> first | rfl | exact absurd h (by decide)

theorem FreType.toU8_inj {a b : FreType} (h : a.toU8.toNat = b.toU8.toNat) : a = b := by
  cases a <;> cases b <;> first | rfl | exact absurd h (by decide)

theorem FreOffset.toU8_inj {a b : FreOffset} (h : a.toU8.toNat = b.toU8.toNat) : a = b := by
  cases a <;> cases b <;> first | rfl | exact absurd h (by decide)

theorem take_lit (k : Nat) (s x : String) (h : k ≤ s.toList.length) :
    (s ++ x).toList.take k = s.toList.take k := by
  rw [String.toList_append, List.take_append_of_le_length h]

theorem take_lit2 (k : Nat) (s x y : String) (h : k ≤ s.toList.length) :
    (s ++ x ++ y).toList.take k = s.toList.take k := by
  rw [String.append_assoc, take_lit k s _ h]

theorem take_lit4 (k : Nat) (s v x y z : String) (h : k ≤ s.toList.length) :
    (s ++ v ++ x ++ y ++ z).toList.take k = s.toList.take k := by
  rw [String.append_assoc, String.append_assoc, String.append_assoc, take_lit k s _ h]

/-- A number for each kind of error. -/
def ReadError.kind : ReadError → Fin 9
  | .unsupportedVersion _ => 0
  | .unsupportedFdeType _ => 1
  | .unsupportedFreType _ => 2
  | .unsupportedFreOffset _ => 3
  | .unexpectedEof => 4
  | .incorrectEndian => 5
  | .invalidFdeRepBlockSize => 6
  | .missingFreOffset => 7
  | .invalidFreOffsetCount _ => 8

/-- The beginning of the text tells the kind. -/
def ReadError.tag : Fin 9 → List Char
  | 0 => "unsupported sfram".toList
  | 1 => "unsupported FDE t".toList
  | 2 => "unsupported FRE t".toList
  | 3 => "unsupported FRE o".toList
  | 4 => "unexpected end-of".toList
  | 5 => "the section endia".toList
  | 6 => "FDE had a repeate".toList
  | 7 => "FRE was missing a".toList
  | 8 => "FRE had too many ".toList

theorem ReadError.tag_inj : ∀ i j, ReadError.tag i = ReadError.tag j → i = j := by decide +kernel

theorem ReadError.take_text (e : ReadError) : e.text.toList.take 17 = tag e.kind := by
  cases e with
  | unexpectedEof => decide +kernel
  | incorrectEndian => decide +kernel
  | invalidFdeRepBlockSize => decide +kernel
  | missingFreOffset => decide +kernel
  | unsupportedVersion v =>
    exact (take_lit2 17 "unsupported sframe version (" _ _ (by decide +kernel)).trans
      (show _ = tag 0 by decide +kernel)
  | unsupportedFdeType v =>
    exact (take_lit2 17 "unsupported FDE type (" _ _ (by decide +kernel)).trans
      (show _ = tag 1 by decide +kernel)
  | unsupportedFreType v =>
    exact (take_lit2 17 "unsupported FRE type (" _ _ (by decide +kernel)).trans
      (show _ = tag 2 by decide +kernel)
  | unsupportedFreOffset v =>
    exact (take_lit2 17 "unsupported FRE offset type (" _ _ (by decide +kernel)).trans
      (show _ = tag 3 by decide +kernel)
  | invalidFreOffsetCount v =>
    exact (take_lit2 17 "FRE had too many offset values (expected 1 to 3, got " _ _ (by decide +kernel)).trans
      (show _ = tag 8 by decide +kernel)

theorem fmtNat_between {l r : String} {m n : Nat} (h : l ++ fmtNat m ++ r = l ++ fmtNat n ++ r) : m = n := by
  have h := congrArg String.toList h
  rw [String.toList_append, String.toList_append, String.toList_append, String.toList_append,
    List.append_cancel_right_eq, List.append_cancel_left_eq, fmtNat_toList, fmtNat_toList] at h
  exact toDigits10_inj h

/-- **C71** The texts of the errors of the `sframe` crate tell the errors apart. -/
theorem C71_read (e e' : ReadError) (h : e.text = e'.text) : e = e' := by
  have ht : e.kind = e'.kind := ReadError.tag_inj _ _ (by rw [← ReadError.take_text, h, ReadError.take_text])
  have hk : e.kind.val = e'.kind.val := by rw [ht]
  clear ht
  cases e <;> cases e' <;> simp only [ReadError.kind] at hk <;> first | (exfalso; exact absurd hk (by decide)) | skip
  · rw [BitVec.eq_of_toNat_eq (fmtNat_between h)]
  · rw [RawFdeType.toU8_inj (fmtNat_between h)]
  · rw [FreType.toU8_inj (fmtNat_between h)]
  · rw [FreOffset.toU8_inj (fmtNat_between h)]
  · rfl
  · rfl
  · rw [BitVec.eq_of_toNat_eq (fmtNat_between h)]
  · rfl
  · rfl

/-- **C71** for the builder. -/
theorem C71_row (e e' : FrameRowError) (h : e.text = e'.text) : e = e' := by
  cases e <;> cases e' <;> first | rfl | exact absurd h (by decide)

/-- **C71** for writing a section. -/
theorem C71_emit (e e' : EmitError) (h : e.text = e'.text) : e = e' := by
  cases e <;> cases e' <;> first | rfl | exact absurd h (by decide)

/-- Sample texts. -/
example : (ReadError.invalidFreOffsetCount 12).text =
      "FRE had too many offset values (expected 1 to 3, got 12 instead)" ∧
    (ReadError.unsupportedFreType .reserved5).text = "unsupported FRE type (5)" ∧
    (ReadError.unsupportedVersion 5).text = "unsupported sframe version (5)" := by decide +kernel

/-! ### C72 -/

/-- The two errors say the same, up to the address of a row. -/
def Spec.SameReport (g : GimliText) : ConvError → ConvError → Prop
  | .invalidEhFrameEntry a, .invalidEhFrameEntry b => g.error a = g.error b
  | .invalidDwarfFde a, .invalidDwarfFde b => g.error a = g.error b
  | .invalidUnwindTable a, .invalidUnwindTable b => g.error a = g.error b
  | .invalidStartAddress a, .invalidStartAddress b => a = b
  | .invalidRowOffset _ x, .invalidRowOffset _ y => x = y
  | .invalidFunctionLength a x, .invalidFunctionLength b y => a = b ∧ x = y
  | _, _ => False

/-- A number for each kind of error. -/
def ConvError.kind : ConvError → Fin 6
  | .invalidEhFrameEntry _ => 0
  | .invalidDwarfFde _ => 1
  | .invalidUnwindTable _ => 2
  | .invalidStartAddress _ => 3
  | .invalidRowOffset _ _ => 4
  | .invalidFunctionLength _ _ => 5

/-- The beginning of the text tells the kind. -/
def ConvError.tag : Fin 6 → List Char
  | 0 => "invalid .eh_fra".toList
  | 1 => "invalid DWARF F".toList
  | 2 => "invalid DWARF u".toList
  | 3 => "DWARF FDE start".toList
  | 4 => "DWARF FDE row o".toList
  | 5 => "DWARF FDE for a".toList

theorem ConvError.tag_inj : ∀ i j, ConvError.tag i = ConvError.tag j → i = j := by decide +kernel

theorem ConvError.take_text (g : GimliText) (e : ConvError) : (e.text g).toList.take 15 = tag e.kind := by
  cases e with
  | invalidEhFrameEntry e =>
    exact (take_lit 15 "invalid .eh_frame entry: " _ (by decide +kernel)).trans
      (show _ = tag 0 by decide +kernel)
  | invalidDwarfFde e =>
    exact (take_lit 15 "invalid DWARF FDE: " _ (by decide +kernel)).trans
      (show _ = tag 1 by decide +kernel)
  | invalidUnwindTable e =>
    exact (take_lit 15 "invalid DWARF unwind table: " _ (by decide +kernel)).trans
      (show _ = tag 2 by decide +kernel)
  | invalidStartAddress a =>
    exact (take_lit2 15 "DWARF FDE start address " _ _ (by decide +kernel)).trans
      (show _ = tag 3 by decide +kernel)
  | invalidRowOffset a x =>
    exact (take_lit2 15 "DWARF FDE row offset " _ _ (by decide +kernel)).trans
      (show _ = tag 4 by decide +kernel)
  | invalidFunctionLength a x =>
    exact (take_lit4 15 "DWARF FDE for address " _ _ _ _ (by decide +kernel)).trans
      (show _ = tag 5 by decide +kernel)

theorem prefix_cancel {l x y : String} (h : l ++ x = l ++ y) : x = y := by
  have h := congrArg String.toList h
  rw [String.toList_append, String.toList_append, List.append_cancel_left_eq] at h
  exact String.toList_injective h

theorem suffix_cancel {r x y : String} (h : x ++ r = y ++ r) : x = y := by
  have h := congrArg String.toList h
  rw [String.toList_append, String.toList_append, List.append_cancel_right_eq] at h
  exact String.toList_injective h

theorem fmtAltHex_inj {m n : Nat} (h : fmtAltHex m = fmtAltHex n) : m = n := by
  have h := congrArg String.toList (prefix_cancel h)
  rw [String.toList_ofList, String.toList_ofList] at h
  exact toDigits16_inj h

/-- What precedes the first separator of two strings, and what follows it. -/
theorem sep_string {a a' b b' : String} (c : Char) (t : String) (ha : c ∉ a.toList) (ha' : c ∉ a'.toList)
    (h : a ++ (String.ofList (c :: t.toList) ++ b) = a' ++ (String.ofList (c :: t.toList) ++ b')) :
    a = a' ∧ b = b' := by
  have h := congrArg String.toList h
  simp only [String.toList_append, String.toList_ofList, List.cons_append] at h
  obtain ⟨h1, h2⟩ := sep_inj ha ha' h
  rw [List.append_cancel_left_eq] at h2
  exact ⟨String.toList_injective h1, String.toList_injective h2⟩

theorem not_mem_altHex {c : Char} (hc : ¬ IsDigit c) (hx : c ≠ 'x') (n : Nat) :
    c ∉ (fmtAltHex n).toList := by
  rw [fmtAltHex_toList]
  have h0 : c ≠ '0' := fun h => hc (h ▸ by decide)
  simp only [List.mem_cons, not_or]
  exact ⟨h0, hx, not_mem_toDigits (by omega) (by omega) hc _⟩

/-- **C72, what holds**: two errors of the converter have the same text exactly if they say the same, up
to the address of the row in `InvalidRowOffset`. -/
theorem C72_text_partial (g : GimliText) (e e' : ConvError) :
    e.text g = e'.text g ↔ SameReport g e e' := by
  constructor
  · intro h
    have ht : e.kind = e'.kind :=
      ConvError.tag_inj _ _ (by rw [← ConvError.take_text g, h, ConvError.take_text])
    have hk : e.kind.val = e'.kind.val := by rw [ht]
    clear ht
    cases e <;> cases e' <;> simp only [ConvError.kind] at hk <;>
      first | (exfalso; exact absurd hk (by decide)) | skip
    · exact prefix_cancel h
    · exact prefix_cancel h
    · exact prefix_cancel h
    · exact BitVec.eq_of_toNat_eq (fmtAltHex_inj (prefix_cancel (suffix_cancel h)))
    · exact BitVec.eq_of_toNat_eq (fmtAltHex_inj (prefix_cancel (suffix_cancel h)))
    · have h := suffix_cancel h
      rw [String.append_assoc, String.append_assoc, String.append_assoc, String.append_assoc] at h
      have h := prefix_cancel h
      obtain ⟨h1, h2⟩ := sep_string ' ' "had length " (not_mem_altHex (by decide) (by decide) _)
        (not_mem_altHex (by decide) (by decide) _) h
      exact ⟨BitVec.eq_of_toNat_eq (fmtAltHex_inj h1), BitVec.eq_of_toNat_eq (fmtAltHex_inj h2)⟩
  · intro h
    cases e <;> cases e' <;> simp only [SameReport] at h
    · exact congrArg ("invalid .eh_frame entry: " ++ ·) h
    · exact congrArg ("invalid DWARF FDE: " ++ ·) h
    · exact congrArg ("invalid DWARF unwind table: " ++ ·) h
    · rw [h]
    · unfold ConvError.text; rw [h]
    · rw [h.1, h.2]

namespace Samples

/-- A function whose only row starts 0x80000000 after it. -/
def farFde (start : U64) : DwFde :=
  { initial := start, len := 0x20, instructions := [],
    rows := .ok [.ok { dwRow1 with start := start + 0x80000000, end_ := start + 0x80000001 }] }

end Samples

/-- **C72 is false of the code**: of a row that starts too far from its function, the text gives neither
the address nor the function. -/
theorem C72_rows_alike (dbg : Bool) (g : GimliText) : ∃ e e',
    dwarf2sframe dbg (Samples.ehOf [Samples.farFde 0x1000]) Samples.convOpts = .ok (.error e) ∧
    dwarf2sframe dbg (Samples.ehOf [Samples.farFde 0x2000]) Samples.convOpts = .ok (.error e') ∧
    e ≠ e' ∧ e.text g = "DWARF FDE row offset 0x80000000 larger than 0x10000000" ∧ e'.text g = e.text g := by
  refine ⟨.invalidRowOffset 0x80001000 0x80000000, .invalidRowOffset 0x80002000 0x80000000,
    by cases dbg <;> decide +kernel, by cases dbg <;> decide +kernel, by decide,
    show "DWARF FDE row offset " ++ fmtAltHex (0x80000000 : U64).toNat ++ " larger than 0x10000000" = _ by
      decide +kernel, rfl⟩

/-- Two reports of the same and of different errors. -/
example (g : GimliText) : SameReport g (.invalidFunctionLength 1 2) (.invalidFunctionLength 1 2) ∧
    ¬ SameReport g (.invalidFunctionLength 1 2) (.invalidFunctionLength 1 3) ∧
    ¬ SameReport g (.invalidFunctionLength 1 2) (.invalidStartAddress 1) :=
  ⟨⟨rfl, rfl⟩, fun h => absurd h.2 (by decide), fun h => h⟩

/-! ### C73 -/

/-- **C73 is false of the code**: by the texts, a start above 0x10000000 is refused.  A function that starts
there is converted. -/
theorem C73_start_limit (dbg : Bool) (g : GimliText) :
    (ConvError.invalidStartAddress 0x80000000).text g =
      "DWARF FDE start address 0x80000000 larger than 0x10000000" ∧
    ∃ b, dwarf2sframe dbg (Samples.ehOf [{ initial := 0x20000000, len := 0x20, instructions := [], rows := .ok [.ok
      { Samples.dwRow1 with start := 0x20000000, end_ := 0x20000020 }] }]) Samples.convOpts = .ok (.ok b) ∧
      (functions b).map FuncDescBuilder.startAddress = [0x20000000] := by
  refine ⟨show "DWARF FDE start address " ++ fmtAltHex (0x80000000 : U64).toNat ++ " larger than 0x10000000" = _ by
    decide +kernel, { options := Samples.opts, fdes := [(0x20000000, { FuncDescBuilder.new Samples.opts 0x20000000 0x20 with
      fres := [(0, ⟨0, some ⟨8, none, none⟩, false, .sp⟩)] })] }, ?_, rfl⟩
  cases dbg <;> decide +kernel

/-- **C73 is false of the code**: a row that starts at exactly 0x10000000, or at exactly the repetition
size, is refused as larger. -/
theorem C73_row_limit (opts : SFrameOptions) :
    (∀ r : FrameRowBuilder, r.startAddress = 0x10000000 →
      (FuncDescBuilder.new opts 0 0x20000000).row r = .error .startAddressTooLarge) ∧
    FrameRowError.startAddressTooLarge.text = "FRE start offset was larger than 0x10000000" ∧
    (∀ r : FrameRowBuilder, r.startAddress = 16 →
      ({ FuncDescBuilder.new opts 0 0x20000000 with repSize := some 16 }).row r =
        .error .startAddressLargerThanRepSize) ∧
    FrameRowError.startAddressLargerThanRepSize.text =
      "FRE start offset was larger than the specified FDE repetition size" := by
  refine ⟨fun r hr => ?_, rfl, fun r hr => ?_, rfl⟩
  · rw [FuncDescBuilder.row_eq, FuncDescBuilder.checkRow, hr]; rfl
  · rw [FuncDescBuilder.row_eq, FuncDescBuilder.checkRow, hr]; simp

/-- **C73 is false of the code**: by the text, a row has at least one offset.  A row without is read. -/
theorem C73_count_limit :
    (ReadError.invalidFreOffsetCount 4).text = "FRE had too many offset values (expected 1 to 3, got 4 instead)" ∧
    ∃ r, FrameRowEntry.load .little (.v2 ⟨0x1000, 0x20, 0, 1, 0, 0, 0⟩) [0, 1] = .ok (.ok (r, [])) ∧
      r.storedOffsets = [] := by
  refine ⟨by decide +kernel, _, rfl, by decide +kernel⟩

/-- **C73 is false of the code**: what is no SFrame section in any byte order is refused because of the byte
order. -/
theorem C73_byte_order : (∀ o, SFrame.load o [0x7F, 0x45, 0x4C, 0x46] = .ok (.error .incorrectEndian)) ∧
    ReadError.incorrectEndian.text = "the section endianness does not match that of the reader" :=
  ⟨fun o => by cases o <;> decide +kernel, rfl⟩

/-- A blamed input exceeds `i32::MAX`, or for a row reaches it. -/
theorem error_large {dbg : Bool} {eh : EhFrame} {opts : Options} {e : ConvError}
    (h : dwarf2sframe dbg eh opts = .ok (.error e)) :
    (∀ a, e = .invalidStartAddress a → 2147483647 < a.toNat) ∧
    (∀ a l, e = .invalidFunctionLength a l → 2147483647 < l.toNat) ∧
    (∀ a x, e = .invalidRowOffset a x → 2147483647 ≤ x.toNat) := by
  obtain ⟨fdes, x, rest, hin, _, hb⟩ := (C44_error dbg eh opts e).1 h
  have hitem : ∀ {e}, Except.error e ∈ inputs eh opts.bases →
      ∃ g, e = .invalidEhFrameEntry g ∨ e = .invalidDwarfFde g := by
    intro e he
    obtain ⟨y, _, hy⟩ := List.mem_filterMap.1 he
    cases y with
    | error g => simp at hy; exact ⟨g, .inl hy.symm⟩
    | ok y =>
      cases y with
      | cie => simp at hy
      | fde off parse =>
        simp only at hy
        split at hy
        · rename_i g _; simp at hy; exact ⟨g, .inr hy.symm⟩
        · simp at hy
  rcases hb with rfl | ⟨fde, rfl, hf⟩
  · obtain ⟨g, rfl | rfl⟩ := hitem (e := e) (by rw [hin]; simp)
    · exact ⟨by simp, by simp, by simp⟩
    · exact ⟨by simp, by simp, by simp⟩
  · cases hf with
    | dump => exact ⟨by simp, by simp, by simp⟩
    | start _ _ h2 =>
      refine ⟨fun a ha => ?_, by simp, by simp⟩
      cases ha; exact h2
    | len _ _ _ h2 =>
      refine ⟨by simp, fun a l ha => ?_, by simp⟩
      cases ha; exact h2
    | table => exact ⟨by simp, by simp, by simp⟩
    | row rs x rest _ _ hs _ _ _ hi _ =>
      cases x with
      | error g => simp [itemError] at hi; subst hi; exact ⟨by simp, by simp, by simp⟩
      | ok r =>
        simp only [itemError] at hi
        split at hi
        · rename_i hr
          simp at hi; subst hi
          refine ⟨by simp, by simp, fun a x hx => ?_⟩
          cases hx
          have hn := hr.2
          unfold Near at hn
          rw [BitVec.toNat_sub]
          have h1 := r.start.isLt
          have h2 := fde.initial.isLt
          omega
        · simp at hi

/-- **C73, what holds**: where a size is to blame, it is at least the limit named; too many offsets are
more than three; and a section with the right magic number is never blamed for its byte order. -/
theorem C73_limits_partial :
    (∀ (dbg : Bool) (eh : EhFrame) (opts : Options) (a x : U64),
      (dwarf2sframe dbg eh opts = .ok (.error (.invalidStartAddress a)) → 0x10000000 < a.toNat) ∧
      (dwarf2sframe dbg eh opts = .ok (.error (.invalidFunctionLength a x)) → 0x10000000 < x.toNat) ∧
      (dwarf2sframe dbg eh opts = .ok (.error (.invalidRowOffset a x)) → 0x10000000 < x.toNat)) ∧
    (∀ (f : FuncDescBuilder) (r : FrameRowBuilder), f.Reachable →
      (f.row r = .error .startAddressTooLarge → 0x10000000 ≤ r.startAddress.toNat) ∧
      (f.row r = .error .startAddressLargerThanRepSize →
        ∃ rep, f.repSize = some rep ∧ rep.toNat ≤ r.startAddress.toNat) ∧
      (f.row r = .error .startAddressOutsideFde → f.size.toNat ≤ r.startAddress.toNat)) ∧
    (∀ (o : Endian) (fde : Fde) (fres : List U8) (n : U8),
      FrameRowEntry.load o fde fres = .ok (.error (.invalidFreOffsetCount n)) → 3 < n.toNat) ∧
    (∀ (o : Endian) (s : List U8), SFrame.load o s = .ok (.error .incorrectEndian) → magic o s ≠ 0xDEE2) := by
  refine ⟨fun dbg eh opts a x => ⟨fun h => ?_, fun h => ?_, fun h => ?_⟩, fun f r hf => ?_,
    fun o fde fres n h => ?_, fun o s h => ?_⟩
  · have := (error_large h).1 a rfl; omega
  · have := (error_large h).2.1 a x rfl; omega
  · have := (error_large h).2.2 a x rfl; omega
  · simp only [(C24_row f hf r).1, rowError_cases]
    refine ⟨fun h => ?_, fun h => ?_, fun h => ?_⟩
    · split at h
      · omega
      · repeat' split at h
        all_goals simp at h
    · split at h
      · simp at h
      · split at h
        · rename_i hrep
          cases hr : f.repSize with
          | none => simp [hr] at hrep
          | some rep =>
            rw [hr] at hrep
            refine ⟨rep, rfl, ?_⟩
            simp at hrep; omega
        · repeat' split at h
          all_goals simp at h
    · split at h
      · simp at h
      · split at h
        · simp at h
        · split at h
          · omega
          · repeat' split at h
            all_goals simp at h
  · have hd := freLoad_spec o fde fres
    split at hd
    · rename_i e he
      rw [hd] at h
      simp only [Rust.ok.injEq, Except.error.injEq] at h
      subst h
      unfold decodeFre at he
      split at he
      · simp at he
      · split at he
        · simp at he
        · simp only at he
          split at he
          · simp only [Except.error.injEq, ReadError.invalidFreOffsetCount.injEq] at he
            rw [← he, BitVec.toNat_ofNat]
            rw [Nat.mod_eq_of_lt (by omega)]; assumption
          · split at he
            · simp at he
            · split at he <;> simp at he
    · split at hd
      · obtain ⟨r, hr, _⟩ := hd; rw [hr] at h; simp at h
      · rw [hd] at h; simp at h
  · rw [C02_load_error] at h
    unfold loadError at h
    split at h
    · simp at h
    · split at h
      · assumption
      · repeat' split at h
        all_goals simp at h

/-- Each of the errors occurs. -/
example (dbg : Bool) : dwarf2sframe dbg (Samples.ehOf [{ Samples.dwFde with initial := 0x80000000 }])
      Samples.convOpts = .ok (.error (.invalidStartAddress 0x80000000)) ∧
    dwarf2sframe dbg (Samples.ehOf [{ Samples.dwFde with len := 0x80000000 }])
      Samples.convOpts = .ok (.error (.invalidFunctionLength 0x1000 0x80000000)) ∧
    dwarf2sframe dbg (Samples.ehOf [Samples.farFde 0x1000])
      Samples.convOpts = .ok (.error (.invalidRowOffset 0x80001000 0x80000000)) ∧
    FrameRowEntry.load .little (.v2 ⟨0x1000, 0x20, 0, 1, 0, 0, 0⟩) [0, 8] =
      .ok (.error (.invalidFreOffsetCount 4)) := by
  refine ⟨?_, ?_, ?_, rfl⟩ <;> cases dbg <;> decide +kernel

/-! ### C74 -/

namespace Spec

/-- The errors of loading a section. -/
inductive LoadErr : ReadError → Prop
  | eof : LoadErr .unexpectedEof
  | endian : LoadErr .incorrectEndian
  | version (v : U8) : v ≠ 1 → v ≠ 2 → LoadErr (.unsupportedVersion v)

/-- The errors of decoding a row. -/
inductive RowErr : ReadError → Prop
  | eof : RowErr .unexpectedEof
  | freType (t : FreType) : 3 ≤ t.toU8.toNat → RowErr (.unsupportedFreType t)
  | freOffset : RowErr (.unsupportedFreOffset .reserved3)
  | count (n : U8) : 4 ≤ n.toNat → n.toNat ≤ 15 → RowErr (.invalidFreOffsetCount n)

end Spec

/-- The errors of `decodeFre`. -/
theorem decodeFre_error {o : Endian} {info : Nat} {fres : List U8} {e : ReadError}
    (h : decodeFre o info fres = .error e) : RowErr e := by
  unfold decodeFre at h
  split at h
  · rename_i hw
    simp only [Except.error.injEq] at h
    subst h
    split <;> exact .freType _ (by decide)
  · split at h
    · simp only [Except.error.injEq] at h; subst h; exact .eof
    · simp only at h
      split at h
      · simp only [Except.error.injEq] at h
        subst h
        refine .count _ ?_ ?_ <;> rw [BitVec.toNat_ofNat] <;> omega
      · split at h
        · simp only [Except.error.injEq] at h; subst h; exact .freOffset
        · split at h
          · simp only [Except.error.injEq] at h; subst h; exact .eof
          · simp at h

theorem load_row_error {o : Endian} {fde : Fde} {fres : List U8} {e : ReadError}
    (h : FrameRowEntry.load o fde fres = .ok (.error e)) : RowErr e := by
  have hd := freLoad_spec o fde fres
  split at hd
  · rename_i e' he
    rw [hd] at h
    cases h
    exact decodeFre_error he
  · split at hd
    · obtain ⟨r, hr, _⟩ := hd; rw [hr] at h; simp at h
    · rw [hd] at h; simp at h

/-- **C74** The errors of `load` are these. -/
theorem C74_load (o : Endian) (e : ReadError) :
    (∃ s, SFrame.load o s = .ok (.error e)) ↔ LoadErr e := by
  constructor
  · rintro ⟨s, h⟩
    rw [C02_load_error] at h
    unfold loadError at h
    split at h
    · cases h; exact .eof
    · split at h
      · cases h; exact .endian
      · split at h
        · rename_i hv
          cases h
          have hlt : version o s < 256 := by
            unfold version uintAt
            cases hd : s.drop 2 with
            | nil => cases o <;> decide
            | cons b t => have := b.isLt; cases o <;> simpa [natOf] using this
          refine .version _ ?_ ?_
          · intro h; have := congrArg BitVec.toNat h; rw [BitVec.toNat_ofNat, Nat.mod_eq_of_lt hlt] at this
            exact hv.1 this
          · intro h; have := congrArg BitVec.toNat h; rw [BitVec.toNat_ofNat, Nat.mod_eq_of_lt hlt] at this
            exact hv.2 this
        · repeat' split at h
          all_goals cases h
          all_goals exact .eof
  · rintro (_ | _ | ⟨v, h1, h2⟩)
    · exact ⟨[], by cases o <;> rfl⟩
    · exact ⟨[0, 0, 0, 0], by cases o <;> rfl⟩
    · cases o
      · refine ⟨[0xE2, 0xDE, v, 0], ?_⟩
        revert v; decide +kernel
      · refine ⟨[0xDE, 0xE2, v, 0], ?_⟩
        revert v; decide +kernel

/-- **C74** The errors of a row iterator are these. -/
theorem C74_rows (o : Endian) (e : ReadError) :
    (∃ it it' : FrameRowIter o, it.next = .ok (some (.error e), it')) ↔ RowErr e := by
  constructor
  · rintro ⟨it, it', h⟩
    unfold FrameRowIter.next at h
    split at h
    · simp at h
    · rw [Rust.bind_eq_ok] at h
      obtain ⟨x, hx, h⟩ := h
      cases x with
      | ok y => simp at h
      | error e' =>
        simp at h
        rw [h.1] at hx
        exact load_row_error hx
  · intro h
    have ex : ∀ info fres, (FrameRowEntry.load o (.v2 ⟨0, 1, 0, 1, info, 0, 0⟩) fres = .ok (.error e)) →
        ∃ it it' : FrameRowIter o, it.next = .ok (some (.error e), it') := by
      intro info fres h
      refine ⟨⟨.v2 ⟨0, 1, 0, 1, info, 0, 0⟩, fres, 0⟩, ⟨.v2 ⟨0, 1, 0, 1, info, 0, 0⟩, fres, u32Max⟩, ?_⟩
      unfold FrameRowIter.next
      split
      · rename_i hle
        exact absurd (show (1 : Nat) ≤ 0 from hle) (by decide)
      · simp only [h, Rust.bind_ok]
    cases h with
    | eof => exact ex 0 [] (by cases o <;> rfl)
    | freType t ht => exact ex t.toU8 [] (by cases o <;> cases t <;> first | rfl | exact absurd ht (by decide))
    | freOffset => exact ex 0 [0, 0x60] (by cases o <;> rfl)
    | count n h1 h2 =>
      refine ex 0 [0, n <<< 1] ?_
      clear ex; cases o <;> revert n <;> decide +kernel

/-- **C74** The offset accessors of a row report only `MissingFreOffset`. -/
theorem C74_accessors {o : Endian} (s : SFrame o) (r : FrameRowEntry o) (e : ReadError)
    (h : r.cfaOffset = .error e ∨ r.raOffset s = .error e ∨ r.fpOffset s = .error e) :
    e = .missingFreOffset := by
  obtain ⟨h1, h2, h3⟩ := C21_offset_accessors r s
  have key : ∀ {x : Except ReadError I32} {y : Option Int}, x.map BitVec.toInt = orMissing y → x = .error e →
      e = .missingFreOffset := by
    intro x y h hx
    subst hx
    cases y with
    | none => simpa [Except.map, orMissing] using h
    | some y => simp [Except.map, orMissing] at h
  rcases h with h | h | h
  · exact key h1 h
  · exact key h2 h
  · exact key h3 h

theorem scanRows_error {o : Endian} {p : FrameRowEntry o → Bool} {fde : Fde} {n : Nat} {fres : List U8}
    {e : ReadError} (h : scanRows o p fde n fres = .ok (.error e)) : RowErr e := by
  induction n generalizing fres with
  | zero => simp [scanRows] at h
  | succ n ih =>
    unfold scanRows at h
    rw [Rust.bind_eq_ok] at h
    obtain ⟨x, hx, h⟩ := h
    cases x with
    | ok y =>
      simp only at h
      split at h
      · simp at h
      · exact ih h
    | error e' => simp at h; rw [h] at hx; exact load_row_error hx

/-- **C74** The errors of `get_fre_for_address` are those of a row, and the repetition size 0. -/
theorem C74_lookup (o : Endian) (dbg : Bool) (e : ReadError) :
    (∃ (f : FuncDescEntry o) (a : I32), f.getFreForAddress dbg a = .ok (.error e)) ↔
      RowErr e ∨ e = .invalidFdeRepBlockSize := by
  constructor
  · rintro ⟨f, a, h⟩
    unfold FuncDescEntry.getFreForAddress at h
    split at h
    · simp at h
    · rw [Rust.bind_eq_ok] at h
      obtain ⟨rel, _, h⟩ := h
      split at h
      · simp at h
      · split at h
        · rw [FuncDescEntry.scan_eq] at h; exact .inl (scanRows_error h)
        · split at h
          · simp at h
          · simp only at h
            split at h
            · simp at h; exact .inr h.symm
            · rw [FuncDescEntry.scan_eq] at h; exact .inl (scanRows_error h)
        · rw [FuncDescEntry.scan_eq] at h; exact .inl (scanRows_error h)
  · intro h
    have ex : ∀ info fres, ((FuncDescEntry.mk (o := o) (.v2 ⟨0, 1, 0, 1, info, 0, 0⟩) fres).getFreForAddress dbg 0 =
        .ok (.error e)) → ∃ (f : FuncDescEntry o) (a : I32), f.getFreForAddress dbg a = .ok (.error e) :=
      fun info fres h => ⟨_, _, h⟩
    rcases h with h | rfl
    · cases h with
      | eof => exact ex 0 [] (by clear ex; cases o <;> cases dbg <;> decide +kernel)
      | freType t ht =>
        refine ex t.toU8 [] ?_
        clear ex
        cases o <;> cases dbg <;> cases t <;> first | exact absurd ht (by decide) | decide +kernel
      | freOffset => exact ex 0 [0, 0x60] (by clear ex; cases o <;> cases dbg <;> decide +kernel)
      | count n h1 h2 =>
        refine ex 0 [0, n <<< 1] ?_
        clear ex; cases o <;> cases dbg <;> revert n <;> decide +kernel
    · exact ex 8 [] (by clear ex; cases o <;> cases dbg <;> decide +kernel)

/-- Some of the errors are possible, `UnsupportedFdeType` is not. -/
example : LoadErr (.unsupportedVersion 3) ∧ ¬ LoadErr (.unsupportedVersion 2) ∧ ¬ LoadErr .missingFreOffset ∧
    RowErr (.invalidFreOffsetCount 7) ∧ ¬ RowErr (.unsupportedFdeType .pcMask) :=
  ⟨.version _ (by decide) (by decide), fun h => by cases h; contradiction, fun h => (by cases h),
    .count _ (by decide) (by decide), fun h => (by cases h)⟩

/-! ### C75 -/

/-- What is assumed of the texts that `gimli` contributes: no two registers have the same name; a name
starts neither with a decimal digit nor with `<` or `*`, and contains neither `+`, `-` nor `(`; and the
`Debug` texts start with the name of the kind of rule. -/
structure Spec.Names (g : GimliText) (arch : Architecture) : Prop where
  distinct : ∀ {r r' n}, g.register arch r = some n → g.register arch r' = some n → r = r'
  first : ∀ {r n}, g.register arch r = some n →
    ∃ c t, n.toList = c :: t ∧ c.isDigit = false ∧ c ≠ '<' ∧ c ≠ '*'
  plain : ∀ {r n}, g.register arch r = some n → '+' ∉ n.toList ∧ '-' ∉ n.toList ∧ '(' ∉ n.toList
  notKind : ∀ {r n}, g.register arch r = some n → n ≠ "Architectural"
  expression : ∀ e, ∃ t, g.rule (.expression e) = "Expression(" ++ t
  valExpression : ∀ e, ∃ t, g.rule (.valExpression e) = "ValExpression(" ++ t
  architectural : g.rule .architectural = "Architectural"

/-- Rules that read the same: equal ones; a register without a name and the constant of the same value; and
two expressions that `gimli` prints the same. -/
inductive Spec.SameRule (g : GimliText) (arch : Architecture) : RegRule → RegRule → Prop
  | refl (r) : SameRule g arch r r
  | number {r v} : g.register arch r = none → r.toNat = v.toNat →
      SameRule g arch (.register r) (.constant v)
  | number' {r v} : g.register arch r = none → r.toNat = v.toNat →
      SameRule g arch (.constant v) (.register r)
  | expression {e e'} : g.rule (.expression e) = g.rule (.expression e') →
      SameRule g arch (.expression e) (.expression e')
  | valExpression {e e'} : g.rule (.valExpression e) = g.rule (.valExpression e') →
      SameRule g arch (.valExpression e) (.valExpression e')

/-- The kind of rule, as it can be read off its text. -/
def ruleClass : List Char → Nat
  | [] => 10
  | c :: t =>
    if c.isDigit then 0
    else if c = '<' then (if t.head? = some 'u' then 1 else 2)
    else if c = '*' then 3
    else if '(' ∈ c :: t then (if c = 'E' then 4 else 5)
    else if '+' ∈ c :: t ∨ '-' ∈ c :: t then 6
    else if c :: t = "Architectural".toList then 7
    else 8

theorem ruleClass_cons (c : Char) (t : List Char) : ruleClass (c :: t) =
    if c.isDigit then 0
    else if c = '<' then (if t.head? = some 'u' then 1 else 2)
    else if c = '*' then 3
    else if '(' ∈ c :: t then (if c = 'E' then 4 else 5)
    else if '+' ∈ c :: t ∨ '-' ∈ c :: t then 6
    else if c :: t = "Architectural".toList then 7
    else 8 := rfl

theorem fmtNat_head (n : Nat) : ∃ c t, (fmtNat n).toList = c :: t ∧ c.isDigit = true := by
  rw [fmtNat_toList]
  cases h : Nat.toDigits 10 n with
  | nil => exact absurd h Nat.toDigits_ne_nil
  | cons c t => exact ⟨c, t, rfl, Nat.isDigit_of_mem_toDigits (b := 10) (n := n) (by decide) (by decide) (by rw [h]; simp)⟩

theorem class_number (n : Nat) : ruleClass (fmtNat n).toList = 0 := by
  obtain ⟨c, t, h, hd⟩ := fmtNat_head n
  rw [h]; simp [ruleClass, hd]

theorem fmtSigned64_inj {x y : I64} (h : fmtSigned64 x = fmtSigned64 y) : x = y := by
  unfold fmtSigned64 at h
  split at h <;> split at h
  · have := fmtNat_inj (prefix_cancel h)
    exact toInt_of_sign (by omega) this
  · have h := congrArg (fun s => s.toList.head?) h
    simp at h
  · have h := congrArg (fun s => s.toList.head?) h
    simp at h
  · have := fmtNat_inj (prefix_cancel h)
    exact toInt_of_sign (by omega) this

theorem fmtSigned64_sign (x : I64) : '(' ∉ (fmtSigned64 x).toList ∧
    ('+' ∈ (fmtSigned64 x).toList ∨ '-' ∈ (fmtSigned64 x).toList) := by
  have := not_mem_toDigits (b := 10) (c := '(') (by omega) (by omega) (by decide) x.toInt.natAbs
  unfold fmtSigned64
  split <;> simp [fmtNat_toList, this]

theorem class_name {g : GimliText} {arch : Architecture} (hg : Spec.Names g arch) {r : Reg} {n : String}
    (h : g.register arch r = some n) : ruleClass n.toList = 8 := by
  obtain ⟨c, t, hn, h1, h2, h3⟩ := hg.first h
  obtain ⟨h4, h5, h6⟩ := hg.plain h
  have h7 : n.toList ≠ "Architectural".toList := fun e => hg.notKind h (String.toList_injective e)
  rw [hn] at h4 h5 h6 h7 ⊢
  rw [ruleClass_cons]
  rw [if_neg (by simp [h1]), if_neg h2, if_neg h3, if_neg h6, if_neg (by simp only [h4, h5, or_self, not_false_iff]), if_neg h7]

/-- The class of the text of a rule. -/
def RegRule.class (g : GimliText) (arch : Architecture) : RegRule → Nat
  | .undefined => 1
  | .sameValue => 2
  | .offset _ => 3
  | .valOffset _ => 6
  | .register r => if (g.register arch r).isSome then 8 else 0
  | .expression _ => 4
  | .valExpression _ => 5
  | .architectural => 7
  | .constant _ => 0

theorem class_rule {g : GimliText} {arch : Architecture} (hg : Spec.Names g arch) (r : RegRule) :
    ruleClass (ruleText g arch r).toList = r.class g arch := by
  cases r with
  | undefined => exact (show ruleClass "<undefined>".toList = 1 by decide +kernel)
  | sameValue => exact (show ruleClass "<same>".toList = 2 by decide +kernel)
  | offset x =>
    show ruleClass (("*(CFA" ++ fmtSigned64 x) ++ ")").toList = 3
    simp only [String.toList_append]
    rfl
  | valOffset x =>
    show ruleClass ("CFA" ++ fmtSigned64 x).toList = 6
    simp only [String.toList_append]
    obtain ⟨h1, h2⟩ := fmtSigned64_sign x
    show ruleClass ('C' :: 'F' :: 'A' :: (fmtSigned64 x).toList) = 6
    rw [ruleClass_cons]
    rw [if_neg (by decide), if_neg (by decide), if_neg (by decide), if_neg (by simp [h1]),
      if_pos (by simpa using h2)]
  | register r =>
    show ruleClass (registerText g arch r).toList = if (g.register arch r).isSome then 8 else 0
    unfold registerText
    cases h : g.register arch r with
    | some n => exact class_name hg h
    | none => exact class_number _
  | expression e =>
    obtain ⟨t, ht⟩ := hg.expression e
    show ruleClass (g.rule (.expression e)).toList = 4
    rw [ht, String.toList_append]
    show ruleClass ('E' :: ("xpression(".toList ++ t.toList)) = 4
    rw [ruleClass_cons]
    rw [if_neg (by decide), if_neg (by decide), if_neg (by decide), if_pos (by simp), if_pos rfl]
  | valExpression e =>
    obtain ⟨t, ht⟩ := hg.valExpression e
    show ruleClass (g.rule (.valExpression e)).toList = 5
    rw [ht, String.toList_append]
    show ruleClass ('V' :: ("alExpression(".toList ++ t.toList)) = 5
    rw [ruleClass_cons]
    rw [if_neg (by decide), if_neg (by decide), if_neg (by decide), if_pos (by simp), if_neg (by decide)]
  | architectural =>
    show ruleClass (g.rule .architectural).toList = 7
    rw [hg.architectural]; decide
  | constant v => exact class_number _

theorem registerText_inj {g : GimliText} {arch : Architecture} (hg : Spec.Names g arch) {r r' : Reg}
    (h : registerText g arch r = registerText g arch r') : r = r' := by
  unfold registerText at h
  cases h1 : g.register arch r with
  | some n =>
    cases h2 : g.register arch r' with
    | some n' =>
      rw [h1, h2] at h
      simp only at h
      subst h
      exact hg.distinct h1 h2
    | none =>
      rw [h1, h2] at h
      have := class_name hg h1
      simp only at h
      rw [h, class_number] at this
      exact absurd this (by decide)
  | none =>
    cases h2 : g.register arch r' with
    | some n' =>
      rw [h1, h2] at h
      have := class_name hg h2
      simp only at h
      rw [← h, class_number] at this
      exact absurd this (by decide)
    | none =>
      rw [h1, h2] at h
      exact BitVec.eq_of_toNat_eq (fmtNat_inj h)

/-- The text of a rule determines it, up to what `SameRule` lists. -/
theorem ruleText_iff {g : GimliText} {arch : Architecture} (hg : Spec.Names g arch) (r r' : RegRule) :
    ruleText g arch r = ruleText g arch r' ↔ Spec.SameRule g arch r r' := by
  constructor
  · intro h
    have hc := class_rule hg r
    rw [h, class_rule hg r'] at hc
    cases r <;> cases r' <;> simp only [RegRule.class] at hc <;>
      first | (exfalso; exact absurd hc (by decide)) |
        (exfalso; split at hc <;> exact absurd hc (by decide)) | skip
    · exact .refl _
    · exact .refl _
    · rw [fmtSigned64_inj (prefix_cancel (suffix_cancel h))]; exact .refl _
    · rw [fmtSigned64_inj (prefix_cancel h)]; exact .refl _
    · rw [registerText_inj hg h]; exact .refl _
    · split at hc
      · exact absurd hc (by decide)
      · rename_i hn
        have hn := Option.not_isSome_iff_eq_none.1 hn
        refine .number hn (fmtNat_inj ?_)
        simpa only [ruleText, registerText, hn] using h
    · exact .expression h
    · exact .valExpression h
    · exact .refl _
    · split at hc
      · exact absurd hc (by decide)
      · rename_i hn
        have hn := Option.not_isSome_iff_eq_none.1 hn
        refine .number' hn (fmtNat_inj ?_)
        simpa only [ruleText, registerText, hn] using h.symm
    · rw [BitVec.eq_of_toNat_eq (fmtNat_inj h)]; exact .refl _
  · intro h
    cases h with
    | refl => rfl
    | number h1 h2 => simp only [ruleText, registerText, h1, h2]
    | number' h1 h2 => simp only [ruleText, registerText, h1, h2]
    | expression h => exact h
    | valExpression h => exact h

/-- Messages that say the same. -/
inductive Spec.SameMsg (g : GimliText) (arch : Architecture) : WarnMsg → WarnMsg → Prop
  | refl (m) : SameMsg g arch m m
  | fpRule {r r'} : Spec.SameRule g arch r r' → SameMsg g arch (.fpRule r) (.fpRule r')
  | raRule {r r'} : Spec.SameRule g arch r r' → SameMsg g arch (.raRule r) (.raRule r')

def WarnMsg.kind : WarnMsg → Fin 7
  | .cfaRegister _ => 0
  | .cfaExpression => 1
  | .cfaOffset _ => 2
  | .fpOffset _ => 3
  | .fpRule _ => 4
  | .raOffset _ => 5
  | .raRule _ => 6

def WarnMsg.tag : Fin 7 → List Char
  | 0 => "unsupported CFA ".toList
  | 1 => "CFA recovery rul".toList
  | 2 => "CFA register off".toList
  | 3 => "FP register offs".toList
  | 4 => "Unsupport FP rec".toList
  | 5 => "RA register offs".toList
  | 6 => "Unsupport RA rec".toList

theorem WarnMsg.tag_inj : ∀ i j, WarnMsg.tag i = WarnMsg.tag j → i = j := by decide +kernel

theorem WarnMsg.take_text (g : GimliText) (arch : Architecture) (m : WarnMsg) :
    (m.text g arch).toList.take 16 = tag m.kind := by
  cases m with
  | cfaRegister r =>
    exact (take_lit2 16 "unsupported CFA source register `" _ _ (by decide +kernel)).trans
      (show _ = tag 0 by decide +kernel)
  | cfaExpression =>
    exact (show List.take 16 "CFA recovery rule requires evaluating a DWARF expression".toList = tag 1 by
      decide +kernel)
  | cfaOffset o =>
    exact (take_lit2 16 "CFA register offset " _ _ (by decide +kernel)).trans
      (show _ = tag 2 by decide +kernel)
  | fpOffset o =>
    exact (take_lit2 16 "FP register offset " _ _ (by decide +kernel)).trans
      (show _ = tag 3 by decide +kernel)
  | fpRule r =>
    exact (take_lit2 16 "Unsupport FP recovery rule: `" _ _ (by decide +kernel)).trans
      (show _ = tag 4 by decide +kernel)
  | raOffset o =>
    exact (take_lit2 16 "RA register offset " _ _ (by decide +kernel)).trans
      (show _ = tag 5 by decide +kernel)
  | raRule r =>
    exact (take_lit2 16 "Unsupport RA recovery rule: `" _ _ (by decide +kernel)).trans
      (show _ = tag 6 by decide +kernel)

theorem warnText_iff {g : GimliText} {arch : Architecture} (hg : Spec.Names g arch) (m m' : WarnMsg) :
    m.text g arch = m'.text g arch ↔ Spec.SameMsg g arch m m' := by
  constructor
  · intro h
    have hk : m.kind = m'.kind := by
      apply WarnMsg.tag_inj
      rw [← WarnMsg.take_text g arch, ← WarnMsg.take_text g arch, h]
    cases m <;> cases m' <;> simp only [WarnMsg.kind] at hk <;>
      first | (exfalso; exact absurd hk (by decide)) | skip
    · rw [registerText_inj hg (prefix_cancel (suffix_cancel h))]; exact .refl _
    · exact .refl _
    · rw [BitVec.eq_of_toNat_eq (fmtAltHex_inj (prefix_cancel (suffix_cancel h)))]; exact .refl _
    · rw [BitVec.eq_of_toNat_eq (fmtAltHex_inj (prefix_cancel (suffix_cancel h)))]; exact .refl _
    · exact .fpRule ((ruleText_iff hg _ _).1 (prefix_cancel (suffix_cancel h)))
    · rw [BitVec.eq_of_toNat_eq (fmtAltHex_inj (prefix_cancel (suffix_cancel h)))]; exact .refl _
    · exact .raRule ((ruleText_iff hg _ _).1 (prefix_cancel (suffix_cancel h)))
  · intro h
    cases h with
    | refl => rfl
    | fpRule h => exact congrArg (fun s => "Unsupport FP recovery rule: `" ++ s ++ "`") ((ruleText_iff hg _ _).2 h)
    | raRule h => exact congrArg (fun s => "Unsupport RA recovery rule: `" ++ s ++ "`") ((ruleText_iff hg _ _).2 h)

theorem append_five (l a b c : String) :
    l ++ a ++ "+" ++ b ++ ": " ++ c =
      l ++ (a ++ (String.ofList ('+' :: "".toList) ++ (b ++ (String.ofList (':' :: " ".toList) ++ c)))) := by
  have h1 : "+" = String.ofList ('+' :: "".toList) := by decide +kernel
  have h2 : ": " = String.ofList (':' :: " ".toList) := by decide +kernel
  rw [h1, h2]
  simp only [String.append_assoc]

/-- **C75, what holds**: two lines of warning with the same text are of the same function, of the same row,
and give the same reason, where a register without a name and a constant read the same. -/
theorem C75_text_partial {g : GimliText} {arch : Architecture} (hg : Spec.Names g arch) (w w' : Warning)
    (h : w.text g arch = w'.text g arch) :
    w.start = w'.start ∧ w.offset = w'.offset ∧ Spec.SameMsg g arch w.msg w'.msg := by
  unfold Warning.text at h
  rw [append_five, append_five] at h
  have h := prefix_cancel h
  obtain ⟨h1, h⟩ := sep_string '+' "" (not_mem_altHexPad (by decide) (by decide) _ _)
    (not_mem_altHexPad (by decide) (by decide) _ _) h
  obtain ⟨h2, h⟩ := sep_string ':' " " (not_mem_altHexPad (by decide) (by decide) _ _)
    (not_mem_altHexPad (by decide) (by decide) _ _) h
  refine ⟨?_, ?_, (warnText_iff hg _ _).1 h⟩
  · have h1 := congrArg String.toList h1
    rw [fmtAltHexPad_toList, fmtAltHexPad_toList] at h1
    simp only [List.cons.injEq, true_and] at h1
    exact BitVec.eq_of_toNat_eq (pad_inj h1)
  · have h2 := congrArg String.toList h2
    rw [fmtAltHexPad_toList, fmtAltHexPad_toList] at h2
    simp only [List.cons.injEq, true_and] at h2
    exact BitVec.eq_of_toNat_eq (pad_inj h2)

namespace Samples

/-- A function whose only row gives the frame pointer by the rule `r`. -/
def fpRuleFde (r : RegRule) : DwFde :=
  { initial := 0x1000, len := 0x20, instructions := [],
    rows := .ok [.ok { dwRow1 with start := 0x1004, end_ := 0x1020, registers := x86Regs r (.offset (-8)) }] }

/-- The section that results. -/
def fpRuleOut : SFrameBuilder :=
  { options := opts, fdes := [(0x1000, { convFn with fres := [(4, ⟨4, none, false, .fp⟩)] })] }

end Samples

/-- **C75 is false of the code**: a frame pointer that is in a register without a name, and one that is a
constant, give the same warning. -/
theorem C75_number (dbg : Bool) (g : GimliText) (hg : g.register .amd64 200 = none) : ∃ b w w',
    dwarf2sframeLog dbg (Samples.ehOf [Samples.fpRuleFde (.register 200)])
      { Samples.convOpts with warnings := true } = .ok (.ok (b, [w])) ∧
    dwarf2sframeLog dbg (Samples.ehOf [Samples.fpRuleFde (.constant 200)])
      { Samples.convOpts with warnings := true } = .ok (.ok (b, [w'])) ∧
    w ≠ w' ∧ w.text g .amd64 = w'.text g .amd64 ∧
    w'.text g .amd64 = "warning: FDE for 0x00001000+0x04: Unsupport FP recovery rule: `200`" := by
  have ht : (Warning.mk 0x1000 4 4 (.fpRule (.constant 200))).text g .amd64 =
      "warning: FDE for 0x00001000+0x04: Unsupport FP recovery rule: `200`" := by
    show "warning: FDE for " ++ fmtAltHexPad 10 (0x1000 : U64).toNat ++ "+" ++ fmtAltHexPad 4 (4 : U64).toNat ++
      ": " ++ ("Unsupport FP recovery rule: `" ++ fmtNat (200 : U64).toNat ++ "`") = _
    decide +kernel
  refine ⟨Samples.fpRuleOut, ⟨0x1000, 4, 4, .fpRule (.register 200)⟩, ⟨0x1000, 4, 4, .fpRule (.constant 200)⟩,
    by cases dbg <;> decide +kernel, by cases dbg <;> decide +kernel, by decide, ?_, ht⟩
  refine congrArg (fun s => "warning: FDE for " ++ fmtAltHexPad 10 (0x1000 : U64).toNat ++ "+" ++
    fmtAltHexPad 4 (4 : U64).toNat ++ ": " ++ ("Unsupport FP recovery rule: `" ++ s ++ "`")) ?_
  show registerText g .amd64 200 = fmtNat (200 : U64).toNat
  unfold registerText
  rw [hg]
  rfl

namespace Samples

/-- Texts with the names of two registers. -/
def names : GimliText where
  error _ := "error"
  register _ r := if r = 6 then some "RBP" else if r = 7 then some "RSP" else none
  rule
    | .expression _ => "Expression(Expression(..))"
    | .valExpression _ => "ValExpression(Expression(..))"
    | _ => "Architectural"
  expr _ := "Expression(..)"

end Samples

/-- Such names meet what is assumed of them. -/
example : Spec.Names Samples.names .amd64 := by
  have reg : ∀ {r n}, Samples.names.register .amd64 r = some n → (r = 6 ∧ n = "RBP") ∨ (r = 7 ∧ n = "RSP") := by
    intro r n h
    simp only [Samples.names] at h
    split at h
    · rename_i h6; exact .inl ⟨h6, (Option.some.inj h).symm⟩
    · split at h
      · rename_i h7; exact .inr ⟨h7, (Option.some.inj h).symm⟩
      · cases h
  constructor
  · intro r r' n h h'
    rcases reg h with ⟨h1, h2⟩ | ⟨h1, h2⟩ <;> rcases reg h' with ⟨h3, h4⟩ | ⟨h3, h4⟩
    · rw [h1, h3]
    · exact absurd (h2.symm.trans h4) (by decide)
    · exact absurd (h2.symm.trans h4) (by decide)
    · rw [h1, h3]
  · intro r n h
    rcases reg h with ⟨-, rfl⟩ | ⟨-, rfl⟩
    · exact ⟨'R', ['B', 'P'], by decide, by decide, by decide, by decide⟩
    · exact ⟨'R', ['S', 'P'], by decide, by decide, by decide, by decide⟩
  · intro r n h
    rcases reg h with ⟨-, rfl⟩ | ⟨-, rfl⟩ <;> decide
  · intro r n h
    rcases reg h with ⟨-, rfl⟩ | ⟨-, rfl⟩ <;> decide
  · exact fun _ => ⟨"Expression(..))", show "Expression(Expression(..))" = _ by decide +kernel⟩
  · exact fun _ => ⟨"Expression(..))", show "ValExpression(Expression(..))" = _ by decide +kernel⟩
  · rfl

end Verif
