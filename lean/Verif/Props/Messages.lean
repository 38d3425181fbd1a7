import Verif.Spec.Messages
import Verif.Props.Texts
import Verif.Props.Numeral
import Verif.Props.Convert3
import Verif.Props.Write
import Verif.Props.Report1
/-!
# What the messages say is so: C121
-/

namespace Verif
open Spec Spec.Messages

/-! ### Tables -/

/-- Two texts that differ at some place. -/
def differ (p q : List Char) : Bool := (p.zip q).any fun x => x.1 != x.2

theorem differ_append : ∀ {p q : List Char}, differ p q = true → ∀ a b, p ++ a ≠ q ++ b
  | [], _, h, _, _ => by simp [differ] at h
  | _ :: _, [], h, _, _ => by simp [differ] at h
  | c :: p, d :: q, h, a, b => by
    intro he
    simp only [List.cons_append, List.cons.injEq] at he
    simp only [differ, List.zip_cons_cons, List.any_cons, Bool.or_eq_true] at h
    rcases h with h | h
    · simp [he.1] at h
    · exact differ_append (p := p) (q := q) h a b he.2

/-- The beginnings are all different. -/
def apartTexts : List String → Bool
  | [] => true
  | p :: l => l.all (fun q => differ p.toList q.toList) && apartTexts l

theorem apartTexts_get : ∀ {l : List String}, apartTexts l = true → ∀ {i j : Nat} {p q : String}, i < j →
    l[i]? = some p → l[j]? = some q → differ p.toList q.toList = true
  | [], _, _, _, _, _, _, hi, _ => by simp at hi
  | x :: l, h, i, j, p, q, hij, hi, hj => by
    simp only [apartTexts, Bool.and_eq_true, List.all_eq_true] at h
    cases j with
    | zero => omega
    | succ j =>
      rw [List.getElem?_cons_succ] at hj
      cases i with
      | zero =>
        have : x = p := by simpa using hi
        subst this
        exact h.1 q (List.mem_of_getElem? hj)
      | succ i =>
        rw [List.getElem?_cons_succ] at hi
        exact apartTexts_get h.2 (by omega) hi hj

/-- With such beginnings it is enough to look at the one that fits. -/
theorem truthful_of {α : Type} {t : Table α} (ht : apartTexts (t.map Prod.fst) = true) {s : List Char} {x : α}
    (i : Nat) {p : String} {c : List Char → α → Prop} (hi : t[i]? = some (p, c)) {rest : List Char}
    (hs : s = p.toList ++ rest) (hc : c rest x) : Truthful t s x := by
  refine ⟨⟨_, List.mem_of_getElem? hi, rest, hs⟩, fun e he rest' hs' => ?_⟩
  obtain ⟨j, hj⟩ := List.mem_iff_getElem?.1 he
  have hi' : (t.map Prod.fst)[i]? = some p := by rw [List.getElem?_map, hi]; rfl
  have hj' : (t.map Prod.fst)[j]? = some e.1 := by rw [List.getElem?_map, hj]; rfl
  rcases Nat.lt_trichotomy i j with h | h | h
  · exact absurd (hs.symm.trans hs') (differ_append (apartTexts_get ht h hi' hj') _ _)
  · subst h
    rw [hi] at hj
    cases hj
    have := List.append_cancel_left (hs.symm.trans hs')
    exact this ▸ hc
  · exact absurd (hs'.symm.trans hs) (differ_append (apartTexts_get ht h hj' hi') _ _)

theorem decimal_fmt {n : Nat} {a : String} : Decimal ((fmtNat n).toList ++ a.toList) n a := ⟨_, rfl, C119_decimal n⟩

theorem hex_fmt {n : Nat} {a : String} : Hex ((fmtAltHex n).toList ++ a.toList) n a := ⟨_, rfl, C119_hex.2.2.1 n⟩

/-! ### Adding a row -/

/-- **C121, what holds**: the message with which a row is refused is true of the row, if "function pointer" is
read as frame pointer. -/
theorem C121_row_partial (f : FuncDescBuilder) (hf : f.Reachable) (r : FrameRowBuilder) {e : FrameRowError}
    (h : f.row r = .error e) : Truthful rowTable e.text.toList (f, r) := by
  have ht : apartTexts (rowTable.map Prod.fst) = true := by decide +kernel
  rw [(C24_row f hf r).1, rowError_cases] at h
  split at h
  · cases h
    exact truthful_of ht 0 rfl (List.append_nil _).symm ⟨rfl, by dsimp only; omega⟩
  split at h
  · next hrep =>
    cases h
    refine truthful_of ht 1 rfl (List.append_nil _).symm ⟨rfl, ?_⟩
    dsimp only
    cases hr : f.repSize with
    | none => simp [hr] at hrep
    | some rep => rw [hr] at hrep; exact ⟨rep, rfl, by simpa using hrep⟩
  split at h
  · cases h
    exact truthful_of ht 2 rfl (List.append_nil _).symm ⟨rfl, by dsimp only; omega⟩
  have key : ∀ {fixed : Option NonZeroI8} {given : Option I32}, ¬ fixedAllows fixed given = true →
      ∃ y v, given = some y ∧ fixed = some v ∧ y.toInt ≠ v.val.toInt := by
    intro fixed given hn
    unfold fixedAllows at hn
    split at hn
    · next v y => exact ⟨y, v, rfl, rfl, fun h => hn (by simp [h])⟩
    · exact absurd rfl hn
  split at h
  · next hx =>
    cases h
    refine truthful_of ht 5 rfl (List.append_nil _).symm ⟨rfl, ?_⟩
    dsimp only
    cases ho : r.offsets with
    | none => simp [ho] at hx
    | some x =>
      rw [ho] at hx
      obtain ⟨y, v, h1, h2, h3⟩ := key hx
      exact ⟨x, y, v, rfl, h1, h2, h3⟩
  split at h
  · next hx =>
    cases h
    refine truthful_of ht 6 rfl (List.append_nil _).symm ⟨rfl, ?_⟩
    dsimp only
    cases ho : r.offsets with
    | none => simp [ho] at hx
    | some x =>
      rw [ho] at hx
      obtain ⟨y, v, h1, h2, h3⟩ := key hx
      exact ⟨x, y, v, rfl, h1, h2, h3⟩
  split at h
  · next hx =>
    cases h
    refine truthful_of ht 7 rfl (List.append_nil _).symm ⟨rfl, ?_⟩
    simpa using hx
  · cases h

/-- The words occur in the text. -/
def Spec.Messages.mentions (p : List Char) : List Char → Bool
  | [] => p.isEmpty
  | c :: s => p.isPrefixOf (c :: s) || mentions p s

/-- **C121 is false of the code**: a row whose frame pointer offset is not that of the header is refused with a
message that speaks of a function pointer, and not of the frame pointer. -/
theorem C121_function_pointer : ∃ (f : FuncDescBuilder) (r : FrameRowBuilder) (y : FrameRowOffsets) (e : FrameRowError),
    f.Reachable ∧ r.offsets = some y ∧ y.fp = some (-24) ∧ f.options.fixedFp = some ⟨0xF0, by decide⟩ ∧
    f.row r = .error e ∧ mentions "frame pointer".toList e.text.toList = false ∧
    mentions "function pointer".toList e.text.toList = true ∧
    mentions "frame pointer".toList FrameRowError.missingFpOffset.text.toList = true :=
  ⟨FuncDescBuilder.new { Samples.opts with fixedFp := some ⟨0xF0, by decide⟩ } 0 0x20,
    ⟨0, some ⟨16, none, some (-24)⟩, false, .sp⟩, _, .unexpectedFpOffset, .new _ _ _, rfl, rfl, rfl, by decide +kernel,
    by decide +kernel, by decide +kernel, by decide +kernel⟩

/-! ### Building a section -/

/-- **C121**: the message with which a section is not built is true of the builder. -/
theorem C121_build (dbg dbg' : Bool) (o : Endian) (b : SFrameBuilder) (hb : SFrameBuilder.Reachable dbg' b)
    {e : EmitError} (h : b.build dbg o = .ok (.error e)) : Truthful buildTable e.text.toList b := by
  have ht : apartTexts (buildTable.map Prod.fst) = true := by decide +kernel
  cases e with
  | overlappingFdes =>
    exact truthful_of ht 0 rfl (List.append_nil _).symm ⟨rfl, (C26_overlap dbg dbg' o b hb ⟨_, h⟩).1 h⟩
  | sectionTooLarge =>
    exact truthful_of ht 1 rfl (List.append_nil _).symm ⟨rfl, ((C29_too_large dbg dbg' o b hb ⟨_, h⟩).1 h).2⟩

/-! ### Reading -/

theorem text_shape (p a : String) (n : Nat) : (p ++ fmtNat n ++ a).toList = p.toList ++ ((fmtNat n).toList ++ a.toList) := by
  simp

theorem version_lt (o : Endian) (s : List U8) : version o s < 256 := by
  unfold version uintAt
  cases hd : s.drop 2 with
  | nil => cases o <;> decide
  | cons b t => have := b.isLt; cases o <;> simpa [natOf] using this

/-- **C121**: the message with which a section is not loaded is true of its bytes. -/
theorem C121_load (o : Endian) (s : List U8) {e : ReadError} (h : SFrame.load o s = .ok (.error e)) :
    Truthful (loadTable o) e.text.toList s := by
  have ht : apartTexts ((loadTable o).map Prod.fst) = true := by cases o <;> decide +kernel
  rw [C02_load_error] at h
  unfold loadError at h
  split at h
  · cases h; exact truthful_of ht 1 rfl (List.append_nil _).symm ⟨rfl, .inl (by omega)⟩
  split at h
  · next hm => cases h; exact truthful_of ht 2 rfl (List.append_nil _).symm ⟨rfl, hm⟩
  split at h
  · next hv =>
    cases h
    refine truthful_of ht 0 rfl (text_shape _ _ _) ⟨?_, hv⟩
    rw [BitVec.toNat_ofNat, Nat.mod_eq_of_lt (version_lt o s)]
    exact decimal_fmt
  split at h
  · cases h; exact truthful_of ht 1 rfl (List.append_nil _).symm ⟨rfl, .inl (by omega)⟩
  split at h
  · next hl => cases h; exact truthful_of ht 1 rfl (List.append_nil _).symm ⟨rfl, .inr (.inl hl)⟩
  split at h
  · next hl => cases h; exact truthful_of ht 1 rfl (List.append_nil _).symm ⟨rfl, .inr (.inr (.inl hl))⟩
  split at h
  · next hl => cases h; exact truthful_of ht 1 rfl (List.append_nil _).symm ⟨rfl, .inr (.inr (.inr hl))⟩
  · cases h

theorem decodeFre_truth {o : Endian} {info : Nat} {fres : List U8} {e : ReadError}
    (h : decodeFre o info fres = .error e) : Truthful (freTable o) e.text.toList (info, fres) := by
  have ht : apartTexts ((freTable o).map Prod.fst) = true := by cases o <;> decide +kernel
  unfold decodeFre at h
  split at h
  · next hw =>
    simp only [Except.error.injEq] at h
    subst h
    refine truthful_of ht 0 rfl (text_shape _ _ _) ?_
    have h3 : 3 ≤ info % 8 := by
      have h0 : info % 8 = 0 ∨ info % 8 = 1 ∨ info % 8 = 2 ∨ 3 ≤ info % 8 := by omega
      unfold addrWidth at hw
      rcases h0 with h | h | h | h
      · rw [h] at hw; cases hw
      · rw [h] at hw; cases hw
      · rw [h] at hw; cases hw
      · exact h
    refine ⟨?_, h3⟩
    have h8 : info % 8 = 3 ∨ info % 8 = 4 ∨ info % 8 = 5 ∨ info % 8 = 6 ∨ info % 8 = 7 := by omega
    dsimp only
    rcases h8 with h | h | h | h | h <;> rw [h] <;> exact decimal_fmt
  · next w hw =>
    split at h
    · next hl =>
      simp only [Except.error.injEq] at h; subst h
      exact truthful_of ht 3 rfl (List.append_nil _).symm ⟨rfl, w, hw, .inl hl⟩
    · simp only at h
      split at h
      · next hc =>
        simp only [Except.error.injEq] at h; subst h
        refine truthful_of ht 2 rfl (text_shape _ _ _) ⟨w, hw, ?_, hc⟩
        rw [BitVec.toNat_ofNat, Nat.mod_eq_of_lt (by omega)]
        exact decimal_fmt
      · split at h
        · next hz =>
          simp only [Except.error.injEq] at h; subst h
          have h3 : uintAt o fres w 1 / 32 % 4 = 3 := by
            have h0 : uintAt o fres w 1 / 32 % 4 = 0 ∨ uintAt o fres w 1 / 32 % 4 = 1 ∨ uintAt o fres w 1 / 32 % 4 = 2 ∨
                uintAt o fres w 1 / 32 % 4 = 3 := by omega
            unfold offsetWidth at hz
            rcases h0 with h | h | h | h
            · rw [h] at hz; cases hz
            · rw [h] at hz; cases hz
            · rw [h] at hz; cases hz
            · exact h
          refine truthful_of ht 1 rfl (text_shape _ _ _) ⟨w, hw, ?_, by dsimp only; omega⟩
          dsimp only
          rw [h3]
          exact decimal_fmt
        · next z hz =>
          split at h
          · next hl =>
            simp only [Except.error.injEq] at h; subst h
            exact truthful_of ht 3 rfl (List.append_nil _).symm ⟨rfl, w, hw, .inr ⟨z, hz, hl⟩⟩
          · simp at h

theorem loadRow_truth {o : Endian} {fde : Fde} {fres : List U8} {e : ReadError}
    (h : FrameRowEntry.load o fde fres = .ok (.error e)) :
    Truthful (freTable o) e.text.toList (fde.info.toNat, fres) := by
  have hd := freLoad_spec o fde fres
  split at hd
  · next e' he =>
    rw [hd] at h
    cases h
    exact decodeFre_truth he
  · split at hd
    · obtain ⟨r, hr, _⟩ := hd; rw [hr] at h; simp at h
    · rw [hd] at h; simp at h

/-- **C121**: the message for a row that is not read is true of the bytes at which the row is. -/
theorem C121_rows {o : Endian} (it it' : FrameRowIter o) {e : ReadError} (h : it.next = .ok (some (.error e), it')) :
    Truthful (freTable o) e.text.toList (it.fde.info.toNat, it.fres) := by
  unfold FrameRowIter.next at h
  split at h
  · simp at h
  · rw [Rust.bind_eq_ok] at h
    obtain ⟨x, hx, h⟩ := h
    cases x with
    | ok y => simp at h
    | error e' =>
      simp at h
      rw [h.1] at hx
      exact loadRow_truth hx

theorem loadRow_rest {o : Endian} {fde : Fde} {fres rest : List U8} {r : FrameRowEntry o}
    (h : FrameRowEntry.load o fde fres = .ok (.ok (r, rest))) : ∃ k, rest = fres.drop k := by
  have hd := freLoad_spec o fde fres
  split at hd
  · rw [hd] at h; simp at h
  · next v rest' he =>
    split at hd
    · obtain ⟨r', hr, _⟩ := hd
      rw [hr] at h
      simp only [Rust.ok.injEq, Except.ok.injEq, Prod.mk.injEq] at h
      rw [← h.2]
      unfold decodeFre at he
      split at he
      · cases he
      · split at he
        · cases he
        · simp only at he
          split at he
          · cases he
          · split at he
            · cases he
            · split at he
              · cases he
              · simp only [Except.ok.injEq, Prod.mk.injEq] at he
                exact ⟨_, he.2.symm⟩
    · rw [hd] at h; simp at h

theorem scanRows_truth {o : Endian} {p : FrameRowEntry o → Bool} {fde : Fde} {n : Nat} {fres : List U8}
    {e : ReadError} (h : scanRows o p fde n fres = .ok (.error e)) :
    ∃ k, Truthful (freTable o) e.text.toList (fde.info.toNat, fres.drop k) := by
  induction n generalizing fres with
  | zero => simp [scanRows] at h
  | succ n ih =>
    unfold scanRows at h
    rw [Rust.bind_eq_ok] at h
    obtain ⟨x, hx, h⟩ := h
    cases x with
    | ok y =>
      obtain ⟨r, rest⟩ := y
      simp only at h
      split at h
      · simp at h
      · obtain ⟨k, hk⟩ := loadRow_rest hx
        obtain ⟨k', hk'⟩ := ih h
        exact ⟨k + k', by rw [hk, List.drop_drop] at hk'; exact hk'⟩
    | error e' => simp at h; rw [h] at hx; exact ⟨0, by simpa using loadRow_truth hx⟩

/-- **C121**: the message of a lookup is true of the bytes at one of the rows, or says that the repetition
size is 0, and it is. -/
theorem C121_lookup {o : Endian} (dbg : Bool) (f : FuncDescEntry o) (a : I32) {e : ReadError}
    (h : f.getFreForAddress dbg a = .ok (.error e)) :
    (∃ k, Truthful (freTable o) e.text.toList (f.fde.info.toNat, f.fres.drop k)) ∨
    e.text = "FDE had a repeated block size of 0" ∧ f.repBlockSize = some 0 := by
  unfold FuncDescEntry.getFreForAddress at h
  split at h
  · simp at h
  · rw [Rust.bind_eq_ok] at h
    obtain ⟨rel, _, h⟩ := h
    split at h
    · simp at h
    · split at h
      · rw [FuncDescEntry.scan_eq] at h; exact .inl (scanRows_truth h)
      · split at h
        · simp at h
        · next b hb =>
          simp only at h
          split at h
          · next h0 =>
            simp at h; subst h
            exact .inr ⟨rfl, by
              rw [hb]; congr 1
              apply BitVec.eq_of_toNat_eq
              have h1 : b.toNat % 4294967296 = 0 := by simpa using congrArg BitVec.toNat h0
              have h2 := b.isLt
              show b.toNat = 0
              omega⟩
          · rw [FuncDescEntry.scan_eq] at h; exact .inl (scanRows_truth h)
      · rw [FuncDescEntry.scan_eq] at h; exact .inl (scanRows_truth h)

/-- **C121**: a message of the offset accessors says that an offset is missing, and it is. -/
theorem C121_accessors {o : Endian} (s : SFrame o) (r : FrameRowEntry o) (e : ReadError) :
    (r.cfaOffset = .error e → e.text = "FRE was missing an expected offset" ∧ r.storedOffsets = []) ∧
    (r.raOffset s = .error e → e.text = "FRE was missing an expected offset" ∧ s.fixedRaOffset = none ∧
      r.storedOffsets.length < 2) ∧
    (r.fpOffset s = .error e → e.text = "FRE was missing an expected offset" ∧ s.fixedFpOffset = none ∧
      r.storedOffsets.length < (if s.fixedRaOffset.isSome then 2 else 3)) := by
  have hm : ReadError.missingFreOffset.text = "FRE was missing an expected offset" := rfl
  refine ⟨fun h => ?_, fun h => ?_, fun h => ?_⟩
  · unfold FrameRowEntry.cfaOffset at h
    cases hx : r.storedOffsets[0]? with
    | none => rw [hx] at h; cases h; exact ⟨hm, by simpa using hx⟩
    | some x => rw [hx] at h; cases h
  · unfold FrameRowEntry.raOffset at h
    cases hf : s.fixedRaOffset with
    | some x => rw [hf] at h; cases h
    | none =>
      rw [hf] at h
      simp only at h
      cases hx : r.storedOffsets[1]? with
      | none => rw [hx] at h; cases h; exact ⟨hm, rfl, by have := List.getElem?_eq_none_iff.1 hx; omega⟩
      | some x => rw [hx] at h; cases h
  · unfold FrameRowEntry.fpOffset at h
    cases hf : s.fixedFpOffset with
    | some x => rw [hf] at h; cases h
    | none =>
      rw [hf] at h
      simp only at h
      cases hr : s.fixedRaOffset with
      | none =>
        rw [hr] at h
        simp only at h
        cases hx : r.storedOffsets[2]? with
        | none =>
          have := List.getElem?_eq_none_iff.1 hx
          simp [hx] at h; subst h; exact ⟨hm, rfl, by simp; omega⟩
        | some x => simp [hx] at h
      | some y =>
        rw [hr] at h
        simp only at h
        cases hx : r.storedOffsets[1]? with
        | none =>
          have := List.getElem?_eq_none_iff.1 hx
          simp [hx] at h; subst h; exact ⟨hm, rfl, by simp; omega⟩
        | some x => simp [hx] at h

/-! ### The converter -/

theorem hex_large {n : Nat} {a : String} (p : String) :
    (p ++ fmtAltHex n ++ a).toList = p.toList ++ ((fmtAltHex n).toList ++ a.toList) := by simp

theorem inputs_error {eh : EhFrame} {bases : Bases} {e : ConvError} (h : Except.error e ∈ inputs eh bases) :
    (∃ g, e = .invalidEhFrameEntry g ∧ .error g ∈ eh.entries bases) ∨
    ∃ g off parse, e = .invalidDwarfFde g ∧ .ok (.fde off parse) ∈ eh.entries bases ∧
      parse (eh.cieFromOffset bases off) = .error g := by
  obtain ⟨y, hm, hy⟩ := List.mem_filterMap.1 h
  cases y with
  | error g => simp at hy; exact .inl ⟨g, hy.symm, hm⟩
  | ok y =>
    cases y with
    | cie => simp at hy
    | fde off parse =>
      simp only at hy
      split at hy
      · next g hg => simp at hy; exact .inr ⟨g, off, parse, hy.symm, hm, hg⟩
      · simp at hy

/-- **C121**: the message with which a conversion fails is true of the input. -/
theorem C121_converter (dbg : Bool) (g : GimliText) (eh : EhFrame) (opts : Options) {e : ConvError}
    (h : dwarf2sframe dbg eh opts = .ok (.error e)) :
    Truthful (convTable g) (e.text g).toList (eh, opts.bases) := by
  have ht : apartTexts ((convTable g).map Prod.fst) = true := by
    show apartTexts ["invalid .eh_frame entry: ", "invalid DWARF FDE: ", "invalid DWARF unwind table: ",
      "DWARF FDE start address ", "DWARF FDE row offset ", "DWARF FDE for address "] = true
    decide +kernel
  obtain ⟨fdes, x, rest, hin, _, hb⟩ := (C44_error dbg eh opts e).1 h
  have hx : x ∈ inputs eh opts.bases := by rw [hin]; simp
  rcases hb with rfl | ⟨fde, rfl, hf⟩
  · rcases inputs_error hx with ⟨e', rfl, hm⟩ | ⟨e', off, parse, rfl, hm, hp⟩
    · exact truthful_of ht 0 rfl (String.toList_append) ⟨e', rfl, hm⟩
    · exact truthful_of ht 1 rfl (String.toList_append) ⟨e', rfl, .inl ⟨off, parse, hm, hp⟩⟩
  · cases hf with
    | dump e' _ _ hd => exact truthful_of ht 1 rfl (String.toList_append) ⟨e', rfl, .inr ⟨fde, hx, hd⟩⟩
    | start _ _ h2 =>
      have hs : ((ConvError.invalidStartAddress fde.initial).text g).toList = "DWARF FDE start address ".toList ++
          ((fmtAltHex fde.initial.toNat).toList ++ " larger than 0x10000000".toList) := by
        unfold ConvError.text; exact hex_large _
      have h3 : 0x10000000 < fde.initial.toNat := by omega
      exact truthful_of ht 3 rfl hs ⟨fde, hx, hex_fmt, h3⟩
    | len _ _ _ h2 =>
      have h3 : 0x10000000 < fde.len.toNat := by omega
      refine truthful_of ht 5 rfl (rest := (fmtAltHex fde.initial.toNat).toList ++ " had length ".toList ++
        ((fmtAltHex fde.len.toNat).toList ++ " larger than 0x10000000".toList)) ?_
        ⟨fde, _, _, hx, rfl, C119_hex.2.2.1 _, hex_fmt, h3⟩
      unfold ConvError.text
      simp only [String.toList_append, List.append_assoc]
    | table e' _ _ _ hr => exact truthful_of ht 2 rfl (String.toList_append) ⟨e', rfl, fde, hx, .inl hr⟩
    | row rs y rest' _ _ hs _ hr _ hi _ =>
      have hy : y ∈ rs.map Except.ok ++ y :: rest' := by simp
      cases y with
      | error e' =>
        simp [itemError] at hi; subst hi
        exact truthful_of ht 2 rfl (String.toList_append) ⟨e', rfl, fde, hx, .inr ⟨_, hr, hy⟩⟩
      | ok r =>
        have hlarge := (error_large h).2.2
        simp only [itemError] at hi
        split at hi
        · simp at hi; subst hi
          have := hlarge _ _ rfl
          have hs : ((ConvError.invalidRowOffset r.start (r.start - fde.initial)).text g).toList =
              "DWARF FDE row offset ".toList ++
                ((fmtAltHex (r.start - fde.initial).toNat).toList ++ " larger than 0x10000000".toList) := by
            unfold ConvError.text; exact hex_large _
          exact truthful_of ht 4 rfl hs ⟨fde, _, r, hx, hr, hy, hex_fmt, by omega⟩
        · simp at hi

theorem named_text (g : GimliText) (arch : Architecture) (r : Reg) :
    Named (g.register arch) r (registerText g arch r).toList := by
  unfold Named registerText
  cases g.register arch r with
  | none => exact C119_decimal _
  | some n => rfl

theorem shows_rule (g : GimliText) (arch : Architecture) (rule : RegRule) :
    ShowsRule (g.register arch) g.rule (ruleText g arch rule).toList rule := by
  cases rule with
  | undefined => rfl
  | sameValue => rfl
  | offset o => exact ⟨(fmtSigned64 o).toList, by simp [ruleText], (C119_signed.2.2.1 o).1⟩
  | valOffset o => exact ⟨(fmtSigned64 o).toList, by simp [ruleText], (C119_signed.2.2.1 o).1⟩
  | register r => exact named_text g arch r
  | constant v => exact C119_decimal _
  | expression e => rfl
  | valExpression e => rfl
  | architectural => rfl

theorem warn_truth (g : GimliText) (arch : Architecture) (row : DwRow) {m : WarnMsg}
    (h : complaint arch row = some m) : Truthful (warnTable g arch) (m.text g arch).toList row := by
  have ht : apartTexts ((warnTable g arch).map Prod.fst) = true := by
    show apartTexts ["unsupported CFA source register `", "CFA recovery rule requires evaluating a DWARF expression",
      "CFA register offset ", "FP register offset ", "Unsupport FP recovery rule: `", "RA register offset ",
      "Unsupport RA recovery rule: `"] = true
    decide +kernel
  have hbig : ∀ (p a : String) (n : Nat), (p ++ fmtAltHex n ++ a).toList = p.toList ++ ((fmtAltHex n).toList ++ a.toList) :=
    fun p a n => hex_large p
  have htick : ∀ (p x : String), (p ++ x ++ "`").toList = p.toList ++ (x.toList ++ "`".toList) := fun p x => by simp
  have hcfa : ∀ {m}, cfaComplaint arch row = some m → Truthful (warnTable g arch) (m.text g arch).toList row := by
    intro m h
    unfold cfaComplaint at h
    split at h
    · next e he => cases h; exact truthful_of ht 1 rfl (List.append_nil _).symm ⟨rfl, e, he⟩
    · next r o he =>
      split at h
      · next hr =>
        cases h
        exact truthful_of ht 0 rfl (by unfold WarnMsg.text; exact htick _ _)
          ⟨r, o, _, he, hr.1, hr.2, rfl, named_text g arch r⟩
      · split at h
        · next hf =>
          cases h
          exact truthful_of ht 2 rfl (by unfold WarnMsg.text; exact hbig _ _ _) ⟨r, o, he, hf, hex_fmt⟩
        · cases h
  have hfp : ∀ {m}, fpComplaint arch row = some m → Truthful (warnTable g arch) (m.text g arch).toList row := by
    intro m h
    cases hr : row.register (BitVec.ofNat 16 (fpNum arch)) with
    | offset o =>
      simp only [fpComplaint, hr] at h
      split at h
      · cases h
      · next hf =>
        cases h
        exact truthful_of ht 3 rfl (by unfold WarnMsg.text; exact hbig _ _ _) ⟨o, hr, hf, hex_fmt⟩
    | undefined => simp only [fpComplaint, hr] at h; cases h
    | sameValue => simp only [fpComplaint, hr] at h; cases h
    | valOffset _ =>
      simp only [fpComplaint, hr, Option.some.injEq] at h
      subst h
      exact truthful_of ht 4 rfl (by unfold WarnMsg.text; exact htick _ _)
        ⟨by simp only [fpRules, hr], _, rfl, by rw [hr]; exact shows_rule g arch _⟩
    | register _ =>
      simp only [fpComplaint, hr, Option.some.injEq] at h
      subst h
      exact truthful_of ht 4 rfl (by unfold WarnMsg.text; exact htick _ _)
        ⟨by simp only [fpRules, hr], _, rfl, by rw [hr]; exact shows_rule g arch _⟩
    | expression _ =>
      simp only [fpComplaint, hr, Option.some.injEq] at h
      subst h
      exact truthful_of ht 4 rfl (by unfold WarnMsg.text; exact htick _ _)
        ⟨by simp only [fpRules, hr], _, rfl, by rw [hr]; exact shows_rule g arch _⟩
    | valExpression _ =>
      simp only [fpComplaint, hr, Option.some.injEq] at h
      subst h
      exact truthful_of ht 4 rfl (by unfold WarnMsg.text; exact htick _ _)
        ⟨by simp only [fpRules, hr], _, rfl, by rw [hr]; exact shows_rule g arch _⟩
    | architectural =>
      simp only [fpComplaint, hr, Option.some.injEq] at h
      subst h
      exact truthful_of ht 4 rfl (by unfold WarnMsg.text; exact htick _ _)
        ⟨by simp only [fpRules, hr], _, rfl, by rw [hr]; exact shows_rule g arch _⟩
    | constant _ =>
      simp only [fpComplaint, hr, Option.some.injEq] at h
      subst h
      exact truthful_of ht 4 rfl (by unfold WarnMsg.text; exact htick _ _)
        ⟨by simp only [fpRules, hr], _, rfl, by rw [hr]; exact shows_rule g arch _⟩
  have hra : ∀ {m}, raComplaint arch row = some m → Truthful (warnTable g arch) (m.text g arch).toList row := by
    intro m h
    cases hr : row.register (BitVec.ofNat 16 (raNum arch)) with
    | offset o =>
      simp only [raComplaint, hr] at h
      split at h
      · cases h
      · next hf =>
        cases h
        exact truthful_of ht 5 rfl (by unfold WarnMsg.text; exact hbig _ _ _) ⟨o, hr, hf, hex_fmt⟩
    | undefined =>
      simp only [raComplaint, hr, Option.some.injEq] at h
      subst h
      exact truthful_of ht 6 rfl (by unfold WarnMsg.text; exact htick _ _)
        ⟨by simp only [raRules, hr], _, rfl, by rw [hr]; exact shows_rule g arch _⟩
    | sameValue =>
      simp only [raComplaint, hr, Option.some.injEq] at h
      subst h
      exact truthful_of ht 6 rfl (by unfold WarnMsg.text; exact htick _ _)
        ⟨by simp only [raRules, hr], _, rfl, by rw [hr]; exact shows_rule g arch _⟩
    | valOffset _ =>
      simp only [raComplaint, hr, Option.some.injEq] at h
      subst h
      exact truthful_of ht 6 rfl (by unfold WarnMsg.text; exact htick _ _)
        ⟨by simp only [raRules, hr], _, rfl, by rw [hr]; exact shows_rule g arch _⟩
    | register _ =>
      simp only [raComplaint, hr, Option.some.injEq] at h
      subst h
      exact truthful_of ht 6 rfl (by unfold WarnMsg.text; exact htick _ _)
        ⟨by simp only [raRules, hr], _, rfl, by rw [hr]; exact shows_rule g arch _⟩
    | expression _ =>
      simp only [raComplaint, hr, Option.some.injEq] at h
      subst h
      exact truthful_of ht 6 rfl (by unfold WarnMsg.text; exact htick _ _)
        ⟨by simp only [raRules, hr], _, rfl, by rw [hr]; exact shows_rule g arch _⟩
    | valExpression _ =>
      simp only [raComplaint, hr, Option.some.injEq] at h
      subst h
      exact truthful_of ht 6 rfl (by unfold WarnMsg.text; exact htick _ _)
        ⟨by simp only [raRules, hr], _, rfl, by rw [hr]; exact shows_rule g arch _⟩
    | architectural =>
      simp only [raComplaint, hr, Option.some.injEq] at h
      subst h
      exact truthful_of ht 6 rfl (by unfold WarnMsg.text; exact htick _ _)
        ⟨by simp only [raRules, hr], _, rfl, by rw [hr]; exact shows_rule g arch _⟩
    | constant _ =>
      simp only [raComplaint, hr, Option.some.injEq] at h
      subst h
      exact truthful_of ht 6 rfl (by unfold WarnMsg.text; exact htick _ _)
        ⟨by simp only [raRules, hr], _, rfl, by rw [hr]; exact shows_rule g arch _⟩
  unfold complaint at h
  cases h1 : cfaComplaint arch row with
  | some m1 => rw [h1] at h; cases h; exact hcfa h1
  | none =>
    cases h2 : fpComplaint arch row with
    | some m2 => rw [h1, h2] at h; cases h; exact hfp h2
    | none => rw [h1, h2] at h; exact hra h

theorem matched_of_map {α β γ : Type} {R : α → β → Prop} {f : α → γ} {g : β → γ} :
    ∀ {l : List α} {m : List β}, l.map f = m.map g → (∀ x y, f x = g y → R x y) → DebugText.Matched R l m
  | [], [], _, _ => trivial
  | x :: l, y :: m, h, hr => by
    simp only [List.map_cons, List.cons.injEq] at h
    exact ⟨hr x y h.1, matched_of_map h.2 hr⟩
  | [], _ :: _, h, _ => by simp at h
  | _ :: _, [], h, _ => by simp at h

/-- **C121**: the lines of the warnings of a conversion name, in the order of the input, each function and row
that SFrame cannot express, and what they say of the row is so. -/
theorem C121_warnings (dbg : Bool) (g : GimliText) (eh : EhFrame) (opts : Options) (b : SFrameBuilder)
    (log : List Warning) (h : dwarf2sframeLog dbg eh opts = .ok (.ok (b, log))) (fdes : List DwFde)
    (hin : inputs eh opts.bases = fdes.map .ok) (hw : opts.warnings = true) :
    DebugText.Matched (fun w x => ShowsWarning g opts.arch (Warning.text g opts.arch w).toList x.1 x.2) log
      (fdes.flatMap fun fde => ((live (rowsOf fde)).filter fun r => (translate opts.arch r).isNone).map (fde, ·)) := by
  have := (C59_warnings dbg eh opts b log h fdes hin).2 hw
  refine matched_of_map (f := fun w => (w.start.toNat, w.offset.toNat, some w.msg))
    (g := fun x => (x.1.initial.toNat, x.2.start.toNat - x.1.initial.toNat, complaint opts.arch x.2)) ?_ ?_
  · rw [this, List.map_flatMap]
    congr 1
    funext fde
    rw [List.map_map]
    rfl
  · intro w x he
    simp only [Prod.mk.injEq] at he
    refine ⟨(fmtAltHexPad 10 w.start.toNat).toList, (fmtAltHexPad w.digits w.offset.toNat).toList,
      (w.msg.text g opts.arch).toList, ?_, ?_, ?_, warn_truth g opts.arch x.2 he.2.2.symm⟩
    · unfold Warning.text
      simp only [String.toList_append]
    · rw [C119_hex.2.2.2, he.1]
    · rw [C119_hex.2.2.2, he.2.1]

/-! ### The lines of the legacy converter -/

theorem named_regText (name : Reg → Option String) (r : Reg) : Named name r (regText name r).toList := by
  unfold Named regText
  cases name r with
  | none => exact C119_decimal _
  | some n => rfl

theorem legacy_rule (t : LegacyText) (a : ObjArch) (rule : RegRule) :
    ShowsRule (t.ruleName a) (legacyOther t a) (t.ruleText a rule).toList rule := by
  cases rule with
  | undefined => rfl
  | sameValue => rfl
  | offset o => exact ⟨(fmtSigned64 o).toList, by simp [LegacyText.ruleText], (C119_signed.2.2.1 o).1⟩
  | valOffset o => exact ⟨(fmtSigned64 o).toList, by simp [LegacyText.ruleText], (C119_signed.2.2.1 o).1⟩
  | register r => exact named_regText _ r
  | constant v => exact C119_decimal _
  | expression e => rfl
  | valExpression e => rfl
  | architectural => rfl

/-- The lines among the events. -/
def outLines (es : List Event1) : List (List Char) := es.filterMap fun
  | .out s => some s.toList
  | _ => none

theorem registersT_shows (t : LegacyText) (a : ObjArch) : ∀ (l : List (Reg × RegRule)) {u : Unit},
    (t.registersT a l).2 = .ok u → DebugText.Matched (ShowsRegister t a) (outLines (t.registersT a l).1) l
  | [], _, _ => trivial
  | x :: l, u, h => by
    unfold LegacyText.registersT at h ⊢
    unfold LegacyText.registerT at h ⊢
    cases hf : formatRule x.2 with
    | panic p => rw [hf] at h; cases h
    | diverge => rw [hf] at h; cases h
    | ok _ =>
      rw [hf] at h
      refine ⟨⟨(regText t.name x.1).toList, (t.ruleText a x.2).toList, ?_, named_regText _ _, legacy_rule t a x.2⟩,
        registersT_shows t a l h⟩
      simp

/-- **C121**: the lines that the legacy converter prints for a row tell its range, its CFA and the rules of its
registers. -/
theorem C121_legacy (t : LegacyText) (a : ObjArch) (row : DwRow) {u : Unit} (h : (t.rowT a row).2 = .ok u) :
    ShowsDwRow t a (outLines (t.rowT a row).1) row := by
  have hfirst : ∃ x y, ("  - offset: " ++ (fmtAltHexPad 10 row.start.toNat ++ (" (end = " ++
      (fmtAltHexPad 10 row.end_.toNat ++ ")")))).toList = "  - offset: ".toList ++ x ++ " (end = ".toList ++ y ++ ")".toList ∧
      Numeral.readHex x = some row.start.toNat ∧ Numeral.readHex y = some row.end_.toNat :=
    ⟨(fmtAltHexPad 10 row.start.toNat).toList, (fmtAltHexPad 10 row.end_.toNat).toList, by simp,
      C119_hex.2.2.2 _ _, C119_hex.2.2.2 _ _⟩
  unfold LegacyText.rowT LegacyText.cfaT at h ⊢
  cases hc : row.cfa with
  | registerAndOffset r o =>
    rw [hc] at h
    refine ⟨_, _, _, rfl, hfirst, ⟨(regText t.name r ++ fmtSigned64 o).toList, by simp, ?_⟩,
      registersT_shows t a row.registers (u := u) h⟩
    rw [hc]
    refine ⟨(regText t.name r).toList, (fmtSigned64 o).toList, by simp, named_regText _ _, (C119_signed.2.2.1 o).1, ?_⟩
    rcases Int.lt_or_le o.toInt 0 with ho | ho
    · exact .inr ((C119_signed.2.2.1 o).2.1.2 ho)
    · exact .inl ((C119_signed.2.2.1 o).2.2.2 ho)
  | expression e =>
    rw [hc] at h
    cases hd : dumpExpression e with
    | error e' => dsimp only at h; rw [hd] at h; cases h
    | ok _ =>
      dsimp only at h ⊢
      rw [hd] at h ⊢
      refine ⟨_, _, _, rfl, hfirst, ⟨(expressionText t.name "            " e).toList, by simp, ?_⟩,
        registersT_shows t a row.registers (u := u) h⟩
      rw [hc]

/-! ### Samples -/

/-- The messages of the samples begin as in the tables, and the numbers are those of the input. -/
example : SFrame.load .little [0xE2, 0xDE, 9, 0] = .ok (.error (.unsupportedVersion 9)) ∧
    (ReadError.unsupportedVersion 9).text.toList = "unsupported sframe version (".toList ++ "9)".toList ∧
    Decimal "9)".toList 9 ")" :=
  ⟨by decide +kernel, by decide +kernel, "9".toList, by decide +kernel, by decide +kernel⟩

/-- A message that is not true: the version is 2. -/
example : ¬ Truthful (loadTable .little) "unsupported sframe version (2)".toList [0xE2, 0xDE, 2, 0] := fun h =>
  (h.2 _ (List.mem_of_getElem? (i := 0) rfl) "2)".toList (by decide +kernel)).2.2 (by decide +kernel)

/-- The hypotheses can be met: a row is refused, two functions overlap, a row type is unknown, a repetition size
is 0, an offset is missing, a function starts too far, a row is not expressed. -/
example (dbg : Bool) : (∃ r, (FuncDescBuilder.new Samples.opts 0 0x20).row r = .error .startAddressOutsideFde) ∧
    (Samples.pair (-8) 16 4 4).build dbg .big = .ok (.error .overlappingFdes) ∧
    (FrameRowIter.mk (o := .little) (.v2 ⟨0, 1, 0, 1, 5, 0, 0⟩) [] 0).next =
      .ok (some (.error (.unsupportedFreType .reserved5)), ⟨.v2 ⟨0, 1, 0, 1, 5, 0, 0⟩, [], u32Max⟩) ∧
    (FuncDescEntry.mk (o := .little) (.v2 ⟨0, 1, 0, 1, 8, 0, 0⟩) []).getFreForAddress dbg 0 =
      .ok (.error .invalidFdeRepBlockSize) ∧
    dwarf2sframe dbg (Samples.ehOf [{ Samples.dwFde with initial := 0x80000000 }]) Samples.convOpts =
      .ok (.error (.invalidStartAddress 0x80000000)) ∧
    (∃ b w, dwarf2sframeLog dbg (Samples.ehOf [Samples.dwFde]) { Samples.convOpts with warnings := true } =
      .ok (.ok (b, [w]))) ∧
    inputs (Samples.ehOf [Samples.dwFde]) Samples.convOpts.bases = [Samples.dwFde].map .ok := by
  refine ⟨⟨⟨0x20, none, false, .sp⟩, by decide +kernel⟩, ?_, by decide +kernel, ?_, ?_,
    ⟨{ options := Samples.opts, fdes := [(0x1000, Samples.convFn)] }, ⟨0x1000, 0x10, 4, .cfaExpression⟩, ?_⟩, rfl⟩ <;>
  cases dbg <;> decide +kernel

/-- The lines of a row are printed. -/
example (t : LegacyText) : ((t.rowT .x86_64 Samples.dwRow2).2 = .ok ()) := rfl

end Verif
