import Verif.Props.Dwarfdump
/-!
# The text of `dwarfdump`: C90
-/

namespace Verif
open Spec

namespace Spec

/-- What is assumed of the names of pointer encodings: they are distinct and contain neither slashes
nor ends of line. -/
structure EncNames (enc : U8 → String) : Prop where
  distinct : ∀ {x y}, enc x = enc y → x = y
  plain : ∀ x, '/' ∉ (enc x).toList ∧ '\n' ∉ (enc x).toList

/-- A pointer encoding without the flag `DW_EH_PE_indirect`. -/
def seenEnc (e : U8) : U8 := e &&& 0x7f

/-- Two entries are the same as far as the dump shows them: offsets, lengths, versions, factors, registers,
addresses and pointers are the same, encodings up to the flag `DW_EH_PE_indirect`, and the instructions as
far as they can be decoded.  Of a function whose end overflows only the start is shown. -/
inductive SameEntry (dbg : Bool) (error : GErr → String) : Shown → Shown → Prop
  | cie {c c' : DumpCie} : c.offset = c'.offset → c.entryLen = c'.entryLen → c.version = c'.version →
      c.codeAlign = c'.codeAlign → c.dataAlign = c'.dataAlign → c.raRegister = c'.raRegister →
      c.lsdaEncoding.map seenEnc = c'.lsdaEncoding.map seenEnc →
      c.personality.map (fun p => (seenEnc p.1, p.2)) = c'.personality.map (fun p => (seenEnc p.1, p.2)) →
      c.fdeEncoding.map seenEnc = c'.fdeEncoding.map seenEnc →
      SameListing true error c.instructions c'.instructions → SameEntry dbg error (.cie c) (.cie c')
  | failed {o l p e e'} : error e = error e' →
      SameEntry dbg error (.fde o l p (.error e)) (.fde o l p (.error e'))
  | overflow {o l p} {f f' : DumpFde} : dbg = true → 2 ^ 64 ≤ f.initial.toNat + f.len.toNat →
      2 ^ 64 ≤ f'.initial.toNat + f'.len.toNat → f.initial = f'.initial →
      SameEntry dbg error (.fde o l p (.ok f)) (.fde o l p (.ok f'))
  | fde {o l p} {f f' : DumpFde} : (dbg = true → f.initial.toNat + f.len.toNat < 2 ^ 64) →
      f.initial = f'.initial → f.len = f'.len → f.lsda = f'.lsda →
      SameListing true error f.instructions f'.instructions →
      SameEntry dbg error (.fde o l p (.ok f)) (.fde o l p (.ok f'))

/-- Two sections are the same as far as the dump shows them: entry by entry, up to the end, up to an entry
that cannot be read, for the same reason, or up to an entry in which the dump stops. -/
inductive SameDump (dbg : Bool) (error : GErr → String) :
    List (Except GErr Shown) → List (Except GErr Shown) → Prop
  | nil : SameDump dbg error [] []
  | stop {e r r'} : SameDump dbg error (.error e :: r) (.error e :: r')
  | entry {s s' r r'} : SameEntry dbg error s s' → (s.Passes dbg → SameDump dbg error r r') →
      SameDump dbg error (.ok s :: r) (.ok s' :: r')

/-- All `Debug` texts of operations in the entries are as assumed. -/
def EntryDebugs (l : List (Except GErr Shown)) : Prop := ∀ s, .ok s ∈ l → Debugs s.insns

end Spec

/-! ### Fields -/

theorem hexPad_inj {k m n : Nat} (h : fmtAltHexPad k m = fmtAltHexPad k n) : m = n := by
  have h := congrArg String.toList h
  rw [fmtAltHexPad_toList, fmtAltHexPad_toList] at h
  exact pad_inj (List.cons.inj (List.cons.inj h).2).2

theorem hexPad_bv {n k : Nat} {x y : BitVec n} (h : fmtAltHexPad k x.toNat = fmtAltHexPad k y.toNat) : x = y :=
  BitVec.eq_of_toNat_eq (hexPad_inj h)

theorem Pointer.text_inj {p q : Pointer} (h : p.text = q.text) : p = q := by
  have key : ∀ (a b : Nat) (s : String), fmtAltHexPad 18 a ≠ "(" ++ s := by
    intro a b s h
    have h := congrArg String.toList h
    rw [fmtAltHexPad_toList, String.toList_append] at h
    exact absurd (List.cons.inj h).1 (by decide)
  cases p <;> cases q
  · rw [hexPad_bv h]
  · exact absurd (h.trans (String.append_assoc ..)) (key _ 0 _)
  · exact absurd (h.symm.trans (String.append_assoc ..)) (key _ 0 _)
  · rw [hexPad_bv (prefix_cancel (suffix_cancel h))]

theorem seen_split (e : U8) : seenEnc e = (e &&& 0x70) ||| (e &&& 0x0f) := by
  unfold seenEnc
  rw [← BitVec.and_or_distrib_left]
  rfl

theorem seen_parts (e : U8) : e &&& 0x70 = seenEnc e &&& 0x70 ∧ e &&& 0x0f = seenEnc e &&& 0x0f := by
  unfold seenEnc
  rw [BitVec.and_assoc, BitVec.and_assoc]
  exact ⟨rfl, rfl⟩

theorem encodingText_iff {w : DumpWorld} (he : EncNames w.encoding) {e e' : U8} :
    w.encodingText e = w.encodingText e' ↔ seenEnc e = seenEnc e' := by
  constructor
  · intro h
    unfold DumpWorld.encodingText at h
    rw [String.append_assoc, String.append_assoc] at h
    obtain ⟨h1, h2⟩ := sep_string '/' "" (he.plain _).1 (he.plain _).1 h
    rw [seen_split, seen_split, he.distinct h1, he.distinct h2]
  · intro h
    unfold DumpWorld.encodingText
    rw [(seen_parts e).1, (seen_parts e).2, (seen_parts e').1, (seen_parts e').2, h]

theorem encodingText_newline {w : DumpWorld} (he : EncNames w.encoding) (e : U8) :
    '\n' ∉ (w.encodingText e).toList := by
  unfold DumpWorld.encodingText
  rw [String.toList_append, String.toList_append]
  simp only [List.mem_append, not_or]
  exact ⟨⟨(he.plain _).2, by decide⟩, (he.plain _).2⟩

theorem Pointer.text_mem {c : Char} (hc : c = ' ' ∨ c = '\n') (p : Pointer) : c ∉ p.text.toList := by
  have key : ∀ k n, c ∉ (fmtAltHexPad k n).toList := by
    rcases hc with rfl | rfl <;> exact not_mem_altHexPad (by decide) (by decide)
  cases p with
  | direct p => exact key _ _
  | indirect p =>
    show c ∉ ("(" ++ _ ++ ")").toList
    rw [String.toList_append, String.toList_append]
    simp only [List.mem_append, not_or]
    refine ⟨⟨?_, key _ _⟩, ?_⟩ <;> rcases hc with rfl | rfl <;> decide

/-- What is before and after the last separator. -/
theorem sep_last {a a' b b' : String} (c : Char) (hb : c ∉ b.toList) (hb' : c ∉ b'.toList)
    (h : a ++ (String.ofList [c] ++ b) = a' ++ (String.ofList [c] ++ b')) : a = a' ∧ b = b' := by
  have h := congrArg (fun s => s.toList.reverse) h
  simp only [String.toList_append, String.toList_ofList, List.reverse_append, List.reverse_cons,
    List.nil_append, List.append_assoc, List.cons_append] at h
  obtain ⟨h1, h2⟩ := sep_inj (by simpa using hb) (by simpa using hb') h
  exact ⟨String.toList_injective (List.reverse_inj.1 h2), String.toList_injective (List.reverse_inj.1 h1)⟩

theorem personality_iff {w : DumpWorld} (he : EncNames w.encoding) {p p' : U8 × Pointer} :
    "   personality: " ++ w.encodingText p.1 ++ " " ++ p.2.text =
      "   personality: " ++ w.encodingText p'.1 ++ " " ++ p'.2.text ↔
    (seenEnc p.1, p.2) = (seenEnc p'.1, p'.2) := by
  constructor
  · intro h
    rw [String.append_assoc, String.append_assoc, String.append_assoc, String.append_assoc] at h
    obtain ⟨h1, h2⟩ := sep_last ' ' (Pointer.text_mem (.inl rfl) _) (Pointer.text_mem (.inl rfl) _) (prefix_cancel h)
    rw [(encodingText_iff he).1 h1, Pointer.text_inj h2]
  · intro h
    have h1 := congrArg Prod.fst h
    have h2 := congrArg Prod.snd h
    rw [(encodingText_iff he).2 h1, show p.2 = p'.2 from h2]

/-- The characters that tell the lines of a CIE apart. -/
def first4 (s : String) : List Char := s.toList.take 4

theorem first4_lit (s x : String) (h : 4 ≤ s.toList.length) : first4 (s ++ x) = first4 s := take_lit 4 s x h

/-- An optional line with four known characters, and what follows it, can be told apart. -/
theorem opt_lines {k : List Char} {x x' : Option String} {r r' : List String}
    (hx : ∀ s, x = some s → first4 s = k) (hx' : ∀ s, x' = some s → first4 s = k)
    (hr : ∀ s t, r = s :: t → first4 s ≠ k) (hr' : ∀ s t, r' = s :: t → first4 s ≠ k)
    (h : x.toList ++ r = x'.toList ++ r') : x = x' ∧ r = r' := by
  have hl := split_lines (P := fun s => first4 s = k) (l := x.toList) (l' := x'.toList)
    (fun s hs => hx s (by simpa using hs)) (fun s hs => hx' s (by simpa using hs)) hr hr' h
  refine ⟨?_, hl.2⟩
  cases x <;> cases x' <;> simp_all

/-! ### Listings -/

/-- A line that is not blank and contains no end of line. -/
def GoodLine (l : String) : Prop := l ≠ "" ∧ '\n' ∉ l.toList

theorem goodLine_lit (s x : String) (h : s ≠ "" ∧ '\n' ∉ s.toList) (hx : '\n' ∉ x.toList) : GoodLine (s ++ x) := by
  refine ⟨fun h' => ?_, ?_⟩
  · have h' := congrArg String.toList h'
    rw [String.toList_append] at h'
    exact h.1 (String.toList_injective (List.append_eq_nil_iff.1 h').1)
  · rw [String.toList_append, List.mem_append, not_or]; exact ⟨h.2, hx⟩

/-- What holds of the lines of instructions and operations holds of all lines of a listing. -/
theorem list_all {full : Bool} {name : Reg → Option String} {error : GErr → String} {P : String → Prop}
    {a : List (Except GErr Insn)} (hi : ∀ i : Insn, P (i.line name))
    (ho : ∀ i ex op, .ok i ∈ a → i.expr? = some ex → .ok op ∈ ex → P (op.line full name indent18))
    (hf : ∀ e, P (failedLine error e)) : ∀ l ∈ (listInstructions full name error a).1, P l := by
  induction a with
  | nil => intro l hl; cases hl
  | cons x r ih =>
    have ih := ih (fun i ex op h => ho i ex op (List.mem_cons_of_mem _ h))
    cases x with
    | error e =>
      intro l hl
      rw [List.mem_singleton.1 (show l ∈ [failedLine error e] from hl)]
      exact hf e
    | ok i =>
      cases he : i.expr? with
      | none =>
        rw [list_plain full name error he]
        intro l hl
        rcases List.mem_cons.1 hl with rfl | hl
        · exact hi i
        · exact ih l hl
      | some ex =>
        rcases expr_cases ex with ⟨os, hx⟩ | ⟨os, x, t, hx⟩
        · rw [list_expr full name error (he.trans (congrArg some hx))]
          intro l hl
          rcases List.mem_cons.1 hl with rfl | hl
          · exact hi i
          · rcases List.mem_append.1 hl with hl | hl
            · obtain ⟨op, hop, rfl⟩ := List.mem_map.1 hl
              exact ho i ex op (List.mem_cons_self ..) he (by rw [hx]; exact List.mem_map_of_mem hop)
            · exact ih l hl
        · rw [list_aborted full name error (he.trans (congrArg some hx))]
          intro l hl
          rcases List.mem_cons.1 hl with rfl | hl
          · exact hi i
          · obtain ⟨op, hop, rfl⟩ := List.mem_map.1 hl
            exact ho i ex op (List.mem_cons_self ..) he
              (by rw [hx]; exact List.mem_append_left _ (List.mem_map_of_mem hop))

theorem list_good (full : Bool) {name : Reg → Option String} (hn : RegNames name) {error : GErr → String}
    (he : ∀ e, '\n' ∉ (error e).toList) {a : List (Except GErr Insn)} (ha : Debugs a) :
    ∀ l ∈ (listInstructions full name error a).1, GoodLine l := by
  refine list_all (fun i => ⟨fun h => ?_, Insn.line_newline hn i⟩) (fun i ex op h1 h2 h3 => ⟨fun h => ?_, ?_⟩)
    (fun e => goodLine_lit _ _ ⟨by decide, by decide +kernel⟩ (he e))
  · obtain ⟨t, ht⟩ := i.line_toList name
    rw [h] at ht
    cases ht
  · by_cases hd : ∃ d, op = .other d
    · obtain ⟨d, rfl⟩ := hd
      obtain ⟨c, t, h4, -⟩ := (ha i ex d h1 h2 h3).first
      rw [show d = "" from h] at h4
      cases h4
    · rw [Op.line_eq _ _ _ op (fun d hd' => hd ⟨d, hd'⟩)] at h
      have := take_lit 1 indent18 (spaced (op.words full name)) (by decide +kernel)
      rw [h] at this
      exact absurd this (by decide +kernel)
  · exact Op.line_newline hn full (fun d hd => ha i ex d h1 h2 (hd ▸ h3))

/-- The last line of a listing that does not come to the end of the instructions. -/
theorem list_last {name : Reg → Option String} {error : GErr → String} {a : List (Except GErr Insn)}
    (h : (listInstructions true name error a).2 = .ok ()) (ha : listedAll a = false) :
    ∃ e, (listInstructions true name error a).1.getLast? = some (failedLine error e) := by
  induction a with
  | nil => cases ha
  | cons x r ih =>
    cases x with
    | error e => exact ⟨e, rfl⟩
    | ok i =>
      have ha : listedAll r = false := by simpa [listedAll] using ha
      cases he : i.expr? with
      | none =>
        rw [list_plain true name error he] at h ⊢
        obtain ⟨e, h1⟩ := ih h ha
        refine ⟨e, ?_⟩
        show (_ :: _).getLast? = _
        rw [List.getLast?_cons, h1]; rfl
      | some ex =>
        rcases expr_cases ex with ⟨os, hx⟩ | ⟨os, x, t, hx⟩
        · rw [list_expr true name error (he.trans (congrArg some hx))] at h ⊢
          obtain ⟨e, h1⟩ := ih h ha
          refine ⟨e, ?_⟩
          show (_ :: (_ ++ _)).getLast? = _
          rw [List.getLast?_cons, List.getLast?_append, h1]; rfl
        · rw [list_aborted true name error (he.trans (congrArg some hx))] at h
          cases h

theorem sameListing_all {error : GErr → String} {a b : List (Except GErr Insn)} (h : SameListing true error a b)
    (ha : ∀ e, ¬ Fails a e) : listedAll a = listedAll b := by
  induction h with
  | nil => rfl
  | failed _ => rfl
  | plain hi _ ih =>
    exact ih (fun e he => ha e ((fails_whole (whole_none hi) _ e).2 he))
  | expr _ hi _ _ _ ih =>
    exact ih (fun e he => ha e ((fails_whole (whole_ops hi) _ e).2 he))
  | aborted _ hi _ _ => exact absurd ((fails_here hi _ _).2 rfl) (ha _)

/-- The lines of instructions and their result tell as much as `SameListing` says. -/
theorem cfi_iff {w : DumpWorld} {name : Reg → Option String} (hn : RegNames name) (b : Bool)
    {l l' : List (Except GErr Insn)} (hl : Debugs l) (hl' : Debugs l') :
    w.cfiLines name b l = w.cfiLines name b l' ↔ SameListing true w.error l l' := by
  rw [← list_iff hn true w.error hl hl']
  constructor
  · intro h
    have h2 : (listInstructions true name w.error l).2 = (listInstructions true name w.error l').2 :=
      (cfi_result w name b l).symm.trans ((congrArg Prod.snd h).trans (cfi_result w name b l'))
    refine Prod.ext ?_ h2
    have h1 := congrArg Prod.fst h
    unfold DumpWorld.cfiLines at h1
    simp only [← h2, List.append_assoc, List.append_cancel_left_eq] at h1
    cases hr : (listInstructions true name w.error l).2 with
    | error e => rw [hr] at h1; simpa using h1
    | ok u =>
      rw [hr] at h1 h2
      have key : ∀ {x y : List (Except GErr Insn)}, (listInstructions true name w.error y).2 = .ok () →
          listedAll y = false →
          (listInstructions true name w.error x).1 ++ ["  Instructions: Init State:"] ≠
          (listInstructions true name w.error y).1 := by
        intro x y hy hf hxy
        obtain ⟨e, he⟩ := list_last hy hf
        rw [← hxy, List.getLast?_append, List.getLast?_singleton, Option.some_or] at he
        have h3 := take_lit 1 "Failed to decode CFI instruction: " (w.error e) (by decide +kernel)
        rw [show "Failed to decode CFI instruction: " ++ w.error e = failedLine w.error e from rfl,
          ← Option.some.inj he] at h3
        exact absurd h3 (by decide +kernel)
      cases b with
      | false => simpa using h1
      | true =>
        simp only [Bool.true_and] at h1
        cases hx : listedAll l <;> cases hx' : listedAll l' <;> rw [hx, hx'] at h1
        · simpa using h1
        · exact absurd (by simpa using h1.symm) (key hr hx)
        · exact absurd (by simpa using h1) (key h2.symm hx')
        · simpa using h1
  · intro h
    have hs := (list_iff hn true w.error hl hl').1 h
    unfold DumpWorld.cfiLines
    rw [h]
    dsimp only
    cases hr : (listInstructions true name w.error l').2 with
    | error e => rfl
    | ok u =>
      have : listedAll l = listedAll l' := by
        refine sameListing_all hs ((list_passes true name w.error l).1 ?_)
        rw [h]; exact hr
      rw [this]

theorem cfi_first {w : DumpWorld} {name : Reg → Option String} (l : List (Except GErr Insn)) (x : String)
    (t : List String) (h : (w.cfiLines name true l).1 = x :: t) :
    first4 x = [' ', ' ', ' ', ' '] ∨ first4 x = [' ', ' ', 'I', 'n'] ∨ first4 x = ['F', 'a', 'i', 'l'] := by
  cases l with
  | nil =>
    have : "  Instructions: Init State:" = x := (List.cons.inj h).1
    rw [← this]; exact .inr (.inl (by decide +kernel))
  | cons a r =>
    cases a with
    | error e =>
      have : failedLine w.error e = x := (List.cons.inj h).1
      rw [← this]
      exact .inr (.inr ((first4_lit "Failed to decode CFI instruction: " _ (by decide +kernel)).trans
        (show _ = _ by decide +kernel)))
    | ok i =>
      have h1 := list_ok true name w.error i r
      unfold DumpWorld.cfiLines at h
      cases hl : (listInstructions true name w.error (.ok i :: r)).1 with
      | nil => rw [hl] at h1; cases h1
      | cons y ys =>
        rw [hl] at h1
        simp only [hl, if_true, List.nil_append, List.cons_append] at h
        rw [← (List.cons.inj h).1, Option.some.inj h1]
        obtain ⟨t, ht⟩ := i.line_toList name
        unfold first4
        rw [ht]
        exact .inl rfl

theorem cfi_good {w : DumpWorld} {name : Reg → Option String} (hn : RegNames name)
    (he : ∀ e, '\n' ∉ (w.error e).toList) (b : Bool) {l : List (Except GErr Insn)} (hl : Debugs l) :
    ∀ x ∈ (w.cfiLines name b l).1, GoodLine x := by
  intro x hx
  unfold DumpWorld.cfiLines at hx
  simp only [List.mem_append] at hx
  rcases hx with (hx | hx) | hx
  · cases b with
    | true => cases hx
    | false =>
      rw [List.mem_singleton.1 (show x ∈ ["  Instructions:"] from hx)]
      exact ⟨by decide, by decide +kernel⟩
  · exact list_good true hn he hl x hx
  · cases hr : (listInstructions true name w.error l).2 with
    | error e => rw [hr] at hx; cases hx
    | ok u =>
      rw [hr] at hx
      dsimp only at hx
      split at hx
      · rw [List.mem_singleton.1 hx]
        exact ⟨by decide, by decide +kernel⟩
      · cases hx

/-! ### Entries -/

theorem map_iff {α β γ : Type} {f : α → β} {g : α → γ} (h : ∀ x y, f x = f y ↔ g x = g y) {a b : Option α} :
    a.map f = b.map f ↔ a.map g = b.map g := by
  cases a <;> cases b <;> simp [h]

theorem lsda_iff {w : DumpWorld} (he : EncNames w.encoding) (x y : U8) :
    " lsda_encoding: " ++ w.encodingText x = " lsda_encoding: " ++ w.encodingText y ↔ seenEnc x = seenEnc y :=
  ⟨fun h => (encodingText_iff he).1 (prefix_cancel h), fun h => by rw [(encodingText_iff he).2 h]⟩

theorem fdeEnc_iff {w : DumpWorld} (he : EncNames w.encoding) (x y : U8) :
    "  fde_encoding: " ++ w.encodingText x = "  fde_encoding: " ++ w.encodingText y ↔ seenEnc x = seenEnc y :=
  ⟨fun h => (encodingText_iff he).1 (prefix_cancel h), fun h => by rw [(encodingText_iff he).2 h]⟩

theorem lsda_first (w : DumpWorld) (x : Option U8) (s : String)
    (h : x.map (fun e => " lsda_encoding: " ++ w.encodingText e) = some s) : first4 s = [' ', 'l', 's', 'd'] := by
  cases x with
  | none => cases h
  | some e =>
    rw [← Option.some.inj h]
    exact (first4_lit " lsda_encoding: " _ (by decide +kernel)).trans (show _ = _ by decide +kernel)

theorem personality_first (w : DumpWorld) (x : Option (U8 × Pointer)) (s : String)
    (h : x.map (fun p => "   personality: " ++ w.encodingText p.1 ++ " " ++ p.2.text) = some s) :
    first4 s = [' ', ' ', ' ', 'p'] := by
  cases x with
  | none => cases h
  | some e =>
    rw [← Option.some.inj h]
    dsimp only
    rw [String.append_assoc, String.append_assoc]
    exact (first4_lit "   personality: " _ (by decide +kernel)).trans (show _ = _ by decide +kernel)

theorem fdeEnc_first (w : DumpWorld) (x : Option U8) (s : String)
    (h : x.map (fun e => "  fde_encoding: " ++ w.encodingText e) = some s) : first4 s = [' ', ' ', 'f', 'd'] := by
  cases x with
  | none => cases h
  | some e =>
    rw [← Option.some.inj h]
    exact (first4_lit "  fde_encoding: " _ (by decide +kernel)).trans (show _ = _ by decide +kernel)

/-- The first of an optional line and others. -/
theorem opt_first {P : String → Prop} {x : Option String} {r : List String} (hx : ∀ s, x = some s → P s)
    (hr : ∀ s t, r = s :: t → P s) (s : String) (t : List String) (h : x.toList ++ r = s :: t) : P s := by
  cases x with
  | none => exact hr s t h
  | some y => exact hx s (by rw [(List.cons.inj h).1])

/-- The lines of a CIE tell its fields. -/
theorem cie_lines_iff {w : DumpWorld} (he : EncNames w.encoding) {name : Reg → Option String} (hn : RegNames name)
    {c c' : DumpCie} :
    w.cieBody name c ++ (w.cfiLines name true c.instructions).1 =
      w.cieBody name c' ++ (w.cfiLines name true c'.instructions).1 ↔
    (c.offset = c'.offset ∧ c.entryLen = c'.entryLen ∧ c.version = c'.version ∧
      c.codeAlign = c'.codeAlign ∧ c.dataAlign = c'.dataAlign ∧ c.raRegister = c'.raRegister ∧
      c.lsdaEncoding.map seenEnc = c'.lsdaEncoding.map seenEnc ∧
      c.personality.map (fun p => (seenEnc p.1, p.2)) = c'.personality.map (fun p => (seenEnc p.1, p.2)) ∧
      c.fdeEncoding.map seenEnc = c'.fdeEncoding.map seenEnc) ∧
    (w.cfiLines name true c.instructions).1 = (w.cfiLines name true c'.instructions).1 := by
  rw [← map_iff (lsda_iff he), ← map_iff (fun _ _ => personality_iff he), ← map_iff (fdeEnc_iff he)]
  unfold DumpWorld.cieBody
  simp only [List.cons_append, List.append_assoc, List.cons.injEq]
  have h3 : ∀ (c : DumpCie) (s : String) (t : List String),
      (c.fdeEncoding.map fun e => "  fde_encoding: " ++ w.encodingText e).toList ++
        (w.cfiLines name true c.instructions).1 = s :: t →
      first4 s = [' ', ' ', 'f', 'd'] ∨ first4 s = [' ', ' ', ' ', ' '] ∨ first4 s = [' ', ' ', 'I', 'n'] ∨
        first4 s = ['F', 'a', 'i', 'l'] := fun c s t h =>
    opt_first (P := fun s => first4 s = [' ', ' ', 'f', 'd'] ∨ first4 s = [' ', ' ', ' ', ' '] ∨
      first4 s = [' ', ' ', 'I', 'n'] ∨ first4 s = ['F', 'a', 'i', 'l'])
      (fun s hs => .inl (fdeEnc_first w _ s hs)) (fun s t h => .inr (cfi_first _ s t h)) s t h
  have h2 : ∀ (c : DumpCie) (s : String) (t : List String),
      (c.personality.map fun p => "   personality: " ++ w.encodingText p.1 ++ " " ++ p.2.text).toList ++
      ((c.fdeEncoding.map fun e => "  fde_encoding: " ++ w.encodingText e).toList ++
        (w.cfiLines name true c.instructions).1) = s :: t →
      first4 s = [' ', ' ', ' ', 'p'] ∨
      first4 s = [' ', ' ', 'f', 'd'] ∨ first4 s = [' ', ' ', ' ', ' '] ∨ first4 s = [' ', ' ', 'I', 'n'] ∨
        first4 s = ['F', 'a', 'i', 'l'] := fun c s t h =>
    opt_first (P := fun s => first4 s = [' ', ' ', ' ', 'p'] ∨ first4 s = [' ', ' ', 'f', 'd'] ∨
      first4 s = [' ', ' ', ' ', ' '] ∨
      first4 s = [' ', ' ', 'I', 'n'] ∨ first4 s = ['F', 'a', 'i', 'l'])
      (fun s hs => .inl (personality_first w _ s hs)) (fun s t h => .inr (h3 c s t h)) s t h
  constructor
  · rintro ⟨a1, a2, a3, a4, a5, a6, a7⟩
    obtain ⟨b1, b2⟩ := opt_lines (k := [' ', 'l', 's', 'd']) (lsda_first w _) (lsda_first w _)
      (fun s t h hk => by rcases h2 c s t h with h | h | h | h | h <;> rw [h] at hk <;> exact absurd hk (by decide))
      (fun s t h hk => by rcases h2 c' s t h with h | h | h | h | h <;> rw [h] at hk <;> exact absurd hk (by decide)) a7
    obtain ⟨b3, b4⟩ := opt_lines (k := [' ', ' ', ' ', 'p']) (personality_first w _) (personality_first w _)
      (fun s t h hk => by rcases h3 c s t h with h | h | h | h <;> rw [h] at hk <;> exact absurd hk (by decide))
      (fun s t h hk => by rcases h3 c' s t h with h | h | h | h <;> rw [h] at hk <;> exact absurd hk (by decide)) b2
    obtain ⟨b5, b6⟩ := opt_lines (k := [' ', ' ', 'f', 'd']) (fdeEnc_first w _) (fdeEnc_first w _)
      (fun s t h hk => by rcases cfi_first _ s t h with h | h | h <;> rw [h] at hk <;> exact absurd hk (by decide))
      (fun s t h hk => by rcases cfi_first _ s t h with h | h | h <;> rw [h] at hk <;> exact absurd hk (by decide)) b4
    exact ⟨⟨hexPad_bv (suffix_cancel a1), hexPad_bv (prefix_cancel a2), hexPad_bv (prefix_cancel a3),
      BitVec.eq_of_toNat_eq (fmtNat_inj (prefix_cancel a4)), fmtInt_inj (prefix_cancel a5),
      regText_inj hn (prefix_cancel a6), b1, b3, b5⟩, b6⟩
  · rintro ⟨⟨a1, a2, a3, a4, a5, a6, a7, a8, a9⟩, a10⟩
    rw [a1, a2, a3, a4, a5, a6, a7, a8, a9, a10]
    exact ⟨rfl, rfl, rfl, rfl, rfl, rfl, rfl⟩

theorem endingOf_inj {x y : Except GErr Unit} (h : endingOf x = endingOf y) : x = y := by
  match x, y, h with
  | .ok (), .ok (), _ => rfl
  | .error e, .error e', h => cases h; rfl

/-- The lines of an FDE tell its fields. -/
theorem fde_lines_iff {w : DumpWorld} {name : Reg → Option String} {f f' : DumpFde} :
    w.fdeBody name f (f.initial + f.len) = w.fdeBody name f' (f'.initial + f'.len) ↔
    (f.initial = f'.initial ∧ f.len = f'.len ∧ f.lsda = f'.lsda) ∧
    (w.cfiLines name false f.instructions).1 = (w.cfiLines name false f'.instructions).1 := by
  unfold DumpWorld.fdeBody
  simp only [List.cons.injEq]
  have hl : ∀ (x : Option Pointer) (s : String), x.map (fun p => "          lsda: " ++ p.text) = some s →
      first4 s = [' ', ' ', ' ', ' '] := by
    intro x s h
    cases x with
    | none => cases h
    | some p =>
      rw [← Option.some.inj h]
      exact (first4_lit "          lsda: " _ (by decide +kernel)).trans (show _ = _ by decide +kernel)
  have hi : ∀ (l : List (Except GErr Insn)) (s : String) (t : List String),
      (w.cfiLines name false l).1 = s :: t → first4 s ≠ [' ', ' ', ' ', ' '] := by
    intro l s t h
    have : "  Instructions:" = s := (List.cons.inj h).1
    rw [← this]; decide +kernel
  constructor
  · rintro ⟨a1, a2, a3⟩
    obtain ⟨b1, b2⟩ := opt_lines (hl _) (hl _) (hi _) (hi _) a3
    have a2 := suffix_cancel a2
    rw [String.append_assoc, String.append_assoc, String.append_assoc, String.append_assoc] at a2
    obtain ⟨c1, -⟩ := sep_string ' ' "(end_addr = " (not_mem_altHexPad (by decide) (by decide) _ _)
      (not_mem_altHexPad (by decide) (by decide) _ _) (prefix_cancel a2)
    refine ⟨⟨hexPad_bv (prefix_cancel a1), hexPad_bv c1, ?_⟩, b2⟩
    have := (map_iff (g := id) (fun p q => ⟨fun h => Pointer.text_inj (prefix_cancel h), fun h => by
      rw [show p = q from h]⟩)).1 b1
    simpa using this
  · rintro ⟨⟨a1, a2, a3⟩, a4⟩
    rw [a1, a2, a3, a4]
    exact ⟨rfl, rfl, rfl⟩

theorem fdeHead_iff {o l p o' l' p' : U64} {r r' : List String} :
    fdeHead o l p r = fdeHead o' l' p' r' ↔ (o = o' ∧ l = l' ∧ p = p') ∧ r = r' := by
  unfold fdeHead
  simp only [List.cons.injEq]
  constructor
  · rintro ⟨a1, a2, a3, a4⟩
    exact ⟨⟨hexPad_bv (suffix_cancel a1), hexPad_bv (prefix_cancel a2), hexPad_bv (prefix_cancel a3)⟩, a4⟩
  · rintro ⟨⟨rfl, rfl, rfl⟩, rfl⟩
    exact ⟨rfl, rfl, rfl, rfl⟩

/-- A CIE and an FDE differ in their third line. -/
theorem cie_ne_fde {w : DumpWorld} {name : Reg → Option String} {c : DumpCie} {o l p : U64} {r r' : List String} :
    w.cieBody name c ++ r ≠ fdeHead o l p r' := by
  intro h
  unfold DumpWorld.cieBody fdeHead at h
  simp only [List.cons_append, List.cons.injEq] at h
  have h := congrArg first4 h.2.2.1
  rw [first4_lit "       version: " _ (by decide +kernel), first4_lit "   CIE_pointer: " _ (by decide +kernel)] at h
  exact absurd h (by decide +kernel)

theorem failed_ne_start {s : String} {a : Nat} {r r' : List String} :
    ("Failed to parse FDE: " ++ s) :: r ≠ ("    start_addr: " ++ fmtAltHexPad 18 a) :: r' := by
  intro h
  have h := congrArg first4 (List.cons.inj h).1
  rw [first4_lit "Failed to parse FDE: " _ (by decide +kernel), first4_lit "    start_addr: " _ (by decide +kernel)] at h
  exact absurd h (by decide +kernel)

/-- The lines of an entry and what follows them tell as much as `SameEntry` says. -/
theorem body_iff {w : DumpWorld} (he : EncNames w.encoding) {name : Reg → Option String} (hn : RegNames name)
    (dbg : Bool) {s s' : Shown} (hs : Debugs s.insns) (hs' : Debugs s'.insns) :
    w.body dbg name s = w.body dbg name s' ↔ SameEntry dbg w.error s s' := by
  match s, s', hs, hs' with
  | .cie c, .cie c', hs, hs' =>
    constructor
    · intro h
      have h1 := congrArg Prod.fst h
      have h2 := congrArg Prod.snd h
      obtain ⟨⟨a1, a2, a3, a4, a5, a6, a7, a8, a9⟩, a10⟩ := (cie_lines_iff he hn).1 h1
      exact .cie a1 a2 a3 a4 a5 a6 a7 a8 a9 ((cfi_iff hn true hs hs').1 (Prod.ext a10 (endingOf_inj h2)))
    · intro h
      cases h with
      | cie a1 a2 a3 a4 a5 a6 a7 a8 a9 a10 =>
        have hc := (cfi_iff (w := w) hn true hs hs').2 a10
        refine Prod.ext ((cie_lines_iff he hn).2 ⟨⟨a1, a2, a3, a4, a5, a6, a7, a8, a9⟩, congrArg Prod.fst hc⟩) ?_
        show endingOf _ = endingOf _
        rw [show (w.cfiLines name true c.instructions).2 = (w.cfiLines name true c'.instructions).2 from
          congrArg Prod.snd hc]
  | .cie c, .fde o l p (.error e), hs, hs' =>
    exact ⟨fun h => absurd (congrArg Prod.fst h) cie_ne_fde, fun h => by cases h⟩
  | .fde o l p (.error e), .cie c, hs, hs' =>
    exact ⟨fun h => absurd (congrArg Prod.fst h).symm cie_ne_fde, fun h => by cases h⟩
  | .cie c, .fde o l p (.ok f), hs, hs' =>
    refine ⟨fun h => ?_, fun h => by cases h⟩
    rw [DumpWorld.body, DumpWorld.body] at h
    split at h <;> exact absurd (congrArg Prod.fst h) cie_ne_fde
  | .fde o l p (.ok f), .cie c, hs, hs' =>
    refine ⟨fun h => ?_, fun h => by cases h⟩
    rw [DumpWorld.body, DumpWorld.body] at h
    split at h <;> exact absurd (congrArg Prod.fst h).symm cie_ne_fde
  | .fde o l p (.error e), .fde o' l' p' (.error e'), hs, hs' =>
    constructor
    · intro h
      obtain ⟨⟨rfl, rfl, rfl⟩, h2⟩ := fdeHead_iff.1 (congrArg Prod.fst h)
      exact .failed (prefix_cancel (List.cons.inj h2).1)
    · intro h
      cases h with
      | failed h => rw [DumpWorld.body, DumpWorld.body, h]
  | .fde o l p (.error e), .fde o' l' p' (.ok f), hs, hs' =>
    refine ⟨fun h => ?_, fun h => by cases h⟩
    rw [DumpWorld.body, DumpWorld.body] at h
    split at h <;> exact absurd (fdeHead_iff.1 (congrArg Prod.fst h)).2 failed_ne_start
  | .fde o' l' p' (.ok f), .fde o l p (.error e), hs, hs' =>
    refine ⟨fun h => ?_, fun h => by cases h⟩
    rw [DumpWorld.body, DumpWorld.body] at h
    split at h <;> exact absurd (fdeHead_iff.1 (congrArg Prod.fst h)).2.symm failed_ne_start
  | .fde o l p (.ok f), .fde o' l' p' (.ok f'), hs, hs' =>
    rw [DumpWorld.body, DumpWorld.body]
    constructor
    · intro h
      split at h <;> split at h
      · rename_i h1 h2
        obtain ⟨⟨rfl, rfl, rfl⟩, h3⟩ := fdeHead_iff.1 (congrArg Prod.fst h)
        exact .overflow h1.1 h1.2 h2.2 (hexPad_bv (prefix_cancel (List.cons.inj h3).1))
      · have h3 := (List.cons.inj (fdeHead_iff.1 (congrArg Prod.fst h)).2).2
        cases h3
      · have h3 := (List.cons.inj (fdeHead_iff.1 (congrArg Prod.fst h)).2).2
        cases h3
      · rename_i h1 h2
        obtain ⟨⟨rfl, rfl, rfl⟩, h3⟩ := fdeHead_iff.1 (congrArg Prod.fst h)
        obtain ⟨⟨a1, a2, a3⟩, a4⟩ := fde_lines_iff.1 h3
        refine .fde (fun hd => ?_) a1 a2 a3 ((cfi_iff hn false hs hs').1
          (Prod.ext a4 (endingOf_inj (congrArg Prod.snd h))))
        exact Nat.lt_of_not_le fun h => h1 ⟨hd, h⟩
    · intro h
      cases h with
      | overflow hd h1 h2 h3 => rw [if_pos ⟨hd, h1⟩, if_pos ⟨hd, h2⟩, h3]
      | fde h1 a1 a2 a3 a4 =>
        have hc := (cfi_iff (w := w) hn false hs hs').2 a4
        have ho : ¬ (dbg = true ∧ 2 ^ 64 ≤ f.initial.toNat + f.len.toNat) := fun h =>
          absurd h.2 (Nat.not_le_of_lt (h1 h.1))
        rw [if_neg ho, if_neg (by rw [← a1, ← a2]; exact ho),
          fde_lines_iff.2 ⟨⟨a1, a2, a3⟩, congrArg Prod.fst hc⟩,
          show (w.cfiLines name false f.instructions).2 = (w.cfiLines name false f'.instructions).2 from
            congrArg Prod.snd hc]

/-! ### The whole dump -/

section
variable {w : DumpWorld} (he : EncNames w.encoding) {name : Reg → Option String} (hn : RegNames name)
  (hx : ∀ e, '\n' ∉ (w.error e).toList) (dbg : Bool)

theorem hexPad_newline (k n : Nat) : '\n' ∉ (fmtAltHexPad k n).toList :=
  not_mem_altHexPad (by decide) (by decide) k n

theorem goodLine_hex (k n : Nat) (t : String) (ht : '\n' ∉ t.toList) : GoodLine (fmtAltHexPad k n ++ t) := by
  refine ⟨fun h => ?_, ?_⟩
  · have h := congrArg String.toList h
    rw [String.toList_append, fmtAltHexPad_toList] at h
    cases h
  · rw [String.toList_append, List.mem_append, not_or]; exact ⟨hexPad_newline k n, ht⟩

theorem fdeHead_good {o l p : U64} {r : List String} (hr : ∀ x ∈ r, GoodLine x) :
    ∀ x ∈ fdeHead o l p r, GoodLine x := by
  intro x h
  unfold fdeHead at h
  rcases List.mem_cons.1 h with rfl | h
  · exact goodLine_hex _ _ _ (by decide +kernel)
  rcases List.mem_cons.1 h with rfl | h
  · exact goodLine_lit _ _ ⟨by decide, by decide +kernel⟩ (hexPad_newline _ _)
  rcases List.mem_cons.1 h with rfl | h
  · exact goodLine_lit _ _ ⟨by decide, by decide +kernel⟩ (hexPad_newline _ _)
  · exact hr x h

include he hn hx in
theorem body_good {s : Shown} (hs : Debugs s.insns) : ∀ x ∈ (w.body dbg name s).1, GoodLine x := by
  match s, hs with
  | .cie c, hs =>
    intro x h
    rcases List.mem_append.1 h with h | h
    · unfold DumpWorld.cieBody at h
      rcases List.mem_cons.1 h with rfl | h
      · exact goodLine_hex _ _ _ (by decide +kernel)
      rcases List.mem_cons.1 h with rfl | h
      · exact goodLine_lit _ _ ⟨by decide, by decide +kernel⟩ (hexPad_newline _ _)
      rcases List.mem_cons.1 h with rfl | h
      · exact goodLine_lit _ _ ⟨by decide, by decide +kernel⟩ (hexPad_newline _ _)
      rcases List.mem_cons.1 h with rfl | h
      · exact goodLine_lit _ _ ⟨by decide, by decide +kernel⟩ (sep_newline.nat _)
      rcases List.mem_cons.1 h with rfl | h
      · exact goodLine_lit _ _ ⟨by decide, by decide +kernel⟩ (sep_newline.int _)
      rcases List.mem_cons.1 h with rfl | h
      · exact goodLine_lit _ _ ⟨by decide, by decide +kernel⟩ (sep_newline.reg hn (.inr (.inr rfl)) _)
      rcases List.mem_append.1 h with h | h
      · cases hl : c.lsdaEncoding with
        | none => rw [hl] at h; cases h
        | some e =>
          rw [hl] at h
          rw [List.mem_singleton.1 (show x ∈ [_] from h)]
          exact goodLine_lit _ _ ⟨by decide, by decide +kernel⟩ (encodingText_newline he _)
      rcases List.mem_append.1 h with h | h
      · cases hl : c.personality with
        | none => rw [hl] at h; cases h
        | some e =>
          rw [hl] at h
          rw [List.mem_singleton.1 (show x ∈ [_] from h)]
          dsimp only
          rw [String.append_assoc, String.append_assoc]
          refine goodLine_lit _ _ ⟨by decide, by decide +kernel⟩ ?_
          rw [String.toList_append, String.toList_append]
          simp only [List.mem_append, not_or]
          exact ⟨encodingText_newline he _, by decide, Pointer.text_mem (.inr rfl) _⟩
      · cases hl : c.fdeEncoding with
        | none => rw [hl] at h; cases h
        | some e =>
          rw [hl] at h
          rw [List.mem_singleton.1 (show x ∈ [_] from h)]
          exact goodLine_lit _ _ ⟨by decide, by decide +kernel⟩ (encodingText_newline he _)
    · exact cfi_good hn hx true hs x h
  | .fde o l p (.error e), hs =>
    refine fdeHead_good fun x h => ?_
    rw [List.mem_singleton.1 h]
    exact goodLine_lit _ _ ⟨by decide, by decide +kernel⟩ (hx e)
  | .fde o l p (.ok f), hs =>
    rw [DumpWorld.body]
    split
    · refine fdeHead_good fun x h => ?_
      rw [List.mem_singleton.1 h]
      exact goodLine_lit _ _ ⟨by decide, by decide +kernel⟩ (hexPad_newline _ _)
    · refine fdeHead_good fun x h => ?_
      unfold DumpWorld.fdeBody at h
      rcases List.mem_cons.1 h with rfl | h
      · exact goodLine_lit _ _ ⟨by decide, by decide +kernel⟩ (hexPad_newline _ _)
      rcases List.mem_cons.1 h with rfl | h
      · rw [String.append_assoc, String.append_assoc, String.append_assoc]
        refine goodLine_lit _ _ ⟨by decide, by decide +kernel⟩ ?_
        rw [String.toList_append, String.toList_append, String.toList_append]
        simp only [List.mem_append, not_or]
        exact ⟨hexPad_newline _ _, by decide +kernel, hexPad_newline _ _, by decide⟩
      rcases List.mem_append.1 h with h | h
      · cases hl : f.lsda with
        | none => rw [hl] at h; cases h
        | some e =>
          rw [hl] at h
          rw [List.mem_singleton.1 (show x ∈ [_] from h)]
          exact goodLine_lit _ _ ⟨by decide, by decide +kernel⟩ (Pointer.text_mem (.inr rfl) _)
      · exact cfi_good hn hx false hs x h

/-- The fourth line of an entry tells whether it is an FDE that could not be parsed. -/
theorem body_next (s : Shown) : (w.body dbg name s).2 = .next ↔
    (w.body dbg name s).1[3]?.bind (fun l => l.toList.head?) = some 'F' := by
  match s with
  | .cie c =>
    have h1 : (w.body dbg name (.cie c)).1[3]? = some ("    code_align: " ++ fmtNat c.codeAlign.toNat) := rfl
    rw [h1]
    refine ⟨fun h => ?_, fun h => ?_⟩
    · have h : endingOf _ = _ := h
      cases hr : (w.cfiLines name true c.instructions).2 <;> rw [hr] at h <;> cases h
    · have h2 := first4_lit "    code_align: " (fmtNat c.codeAlign.toNat) (by decide +kernel)
      have h : ("    code_align: " ++ fmtNat c.codeAlign.toNat).toList.head? = some 'F' := h
      unfold first4 at h2
      have h3 : (("    code_align: " ++ fmtNat c.codeAlign.toNat).toList.take 4).head? = some 'F' := by
        rw [List.head?_take]; exact h
      rw [h2] at h3
      exact absurd h3 (by decide +kernel)
  | .fde o l p (.error e) =>
    refine ⟨fun _ => ?_, fun _ => rfl⟩
    have h1 : (w.body dbg name (.fde o l p (.error e))).1[3]? = some ("Failed to parse FDE: " ++ w.error e) := rfl
    rw [h1]
    show ("Failed to parse FDE: " ++ w.error e).toList.head? = some 'F'
    have h2 := first4_lit "Failed to parse FDE: " (w.error e) (by decide +kernel)
    unfold first4 at h2
    have h3 : (("Failed to parse FDE: " ++ w.error e).toList.take 4).head? = some 'F' := by
      rw [h2]; decide +kernel
    rw [List.head?_take] at h3; exact h3
  | .fde o l p (.ok f) =>
    have h1 : (w.body dbg name (.fde o l p (.ok f))).1[3]? =
        some ("    start_addr: " ++ fmtAltHexPad 18 f.initial.toNat) := by
      rw [DumpWorld.body]; split <;> rfl
    rw [h1]
    refine ⟨fun h => ?_, fun h => ?_⟩
    · rw [DumpWorld.body] at h
      split at h
      · cases h
      · have h : endingOf _ = _ := h
        cases hr : (w.cfiLines name false f.instructions).2 <;> rw [hr] at h <;> cases h
    · have h2 := first4_lit "    start_addr: " (fmtAltHexPad 18 f.initial.toNat) (by decide +kernel)
      have h : ("    start_addr: " ++ fmtAltHexPad 18 f.initial.toNat).toList.head? = some 'F' := h
      unfold first4 at h2
      have h3 : (("    start_addr: " ++ fmtAltHexPad 18 f.initial.toNat).toList.take 4).head? = some 'F' := by
        rw [List.head?_take]; exact h
      rw [h2] at h3
      exact absurd h3 (by decide +kernel)

/-- A dump has no lines or begins with a blank one. -/
theorem dump_first (l : List (Except GErr Shown)) (x : String) (t : List String)
    (h : (w.dumpList dbg name l).1 = x :: t) : ¬ x ≠ "" := by
  match l, h with
  | [], h => cases h
  | .error e :: _, h => cases h
  | .ok s :: r, h =>
    rw [DumpWorld.dumpList] at h
    split at h <;> exact fun hx => hx (List.cons.inj h).1.symm

include he hn hx in
/-- The lines of a dump and its result tell as much as `SameDump` says. -/
theorem dumpList_iff {a b : List (Except GErr Shown)} (ha : EntryDebugs a) (hb : EntryDebugs b) :
    w.dumpList dbg name a = w.dumpList dbg name b ↔ SameDump dbg w.error a b := by
  constructor
  · intro h
    induction a generalizing b with
    | nil =>
      match b, h with
      | [], _ => exact .nil
      | .error e :: _, h => cases congrArg Prod.snd h
      | .ok s :: r, h =>
        have h := congrArg Prod.fst h
        rw [DumpWorld.dumpList, DumpWorld.dumpList] at h
        split at h <;> cases h
    | cons x a ih =>
      match x, b, h with
      | .error e, [], h => cases congrArg Prod.snd h
      | .error e, .error e' :: _, h =>
        have h : Rust.ok (Except.error e) = Rust.ok (Except.error e') := congrArg Prod.snd h
        cases h; exact .stop
      | .error e, .ok s :: r, h =>
        have h := congrArg Prod.fst h
        rw [DumpWorld.dumpList, DumpWorld.dumpList] at h
        split at h <;> cases h
      | .ok s, [], h =>
        have h := congrArg Prod.fst h
        rw [DumpWorld.dumpList, DumpWorld.dumpList] at h
        split at h <;> cases h
      | .ok s, .error e :: _, h =>
        have h := congrArg Prod.fst h
        rw [DumpWorld.dumpList, DumpWorld.dumpList] at h
        split at h <;> cases h
      | .ok s, .ok s' :: b, h =>
        have hs := ha s (List.mem_cons_self ..)
        have hs' := hb s' (List.mem_cons_self ..)
        have ha' : EntryDebugs a := fun s hs => ha s (List.mem_cons_of_mem _ hs)
        have hb' : EntryDebugs b := fun s hs => hb s (List.mem_cons_of_mem _ hs)
        have ih := @ih b ha' hb'
        have g := body_good he hn hx dbg hs
        have g' := body_good he hn hx dbg hs'
        have n := body_next (w := w) (name := name) dbg s
        have n' := body_next (w := w) (name := name) dbg s'
        have key : w.body dbg name s = w.body dbg name s' ∧
            (s.Passes dbg → w.dumpList dbg name a = w.dumpList dbg name b) := by
          have hstop : ∀ r, (w.body dbg name s).2 = .stop r → ¬ s.Passes dbg := by
            intro r hr hp
            rcases body_passes w dbg name hp with h | h <;> rw [h] at hr <;> cases hr
          have h1 := congrArg Prod.fst h
          have h2 := congrArg Prod.snd h
          rw [DumpWorld.dumpList, DumpWorld.dumpList] at h1 h2
          have blank : ∀ (r : List String) (x : String) (t : List String), "" :: r = x :: t → ¬ x ≠ "" :=
            fun r x t h hx => hx (List.cons.inj h).1.symm
          have none : ∀ (x : String) (t : List String), ([] : List String) = x :: t → ¬ x ≠ "" :=
            fun x t h => by cases h
          have df := dump_first (w := w) (name := name) dbg
          have split := @split_lines (fun x => x ≠ "") (w.body dbg name s).1 (w.body dbg name s').1
          have split := fun r r' => @split r r' (fun x hx => (g x hx).1) (fun x hx => (g' x hx).1)
          cases hq : w.body dbg name s with
          | mk ls en => cases hq' : w.body dbg name s' with
            | mk ls' en' =>
              rw [hq] at h1 h2 n split
              rw [hq'] at h1 h2 n' split
              rw [hq] at hstop
              dsimp only at h1 h2 n n' split hstop
              cases en <;> cases en' <;> dsimp only at h1 h2 n n'
              · obtain ⟨rfl, e2⟩ := split _ _ (df a) (df b) (List.cons.inj h1).2
                exact ⟨rfl, fun _ => Prod.ext e2 h2⟩
              · obtain ⟨rfl, e2⟩ := split _ _ (df a) (blank _) (List.cons.inj h1).2
                cases n'.2 (n.1 rfl)
              · obtain ⟨rfl, e2⟩ := split _ _ (df a) none (by rw [List.append_nil]; exact (List.cons.inj h1).2)
                cases n'.2 (n.1 rfl)
              · obtain ⟨rfl, e2⟩ := split _ _ (blank _) (df b) (List.cons.inj h1).2
                cases n.2 (n'.1 rfl)
              · obtain ⟨rfl, e2⟩ := split _ _ (blank _) (blank _) (List.cons.inj h1).2
                exact ⟨rfl, fun _ => Prod.ext (List.cons.inj e2).2 h2⟩
              · obtain ⟨rfl, e2⟩ := split _ _ (blank _) none (by rw [List.append_nil]; exact (List.cons.inj h1).2)
                cases e2
              · obtain ⟨rfl, e2⟩ := split _ _ none (df b) (by rw [List.append_nil]; exact (List.cons.inj h1).2)
                cases n.2 (n'.1 rfl)
              · obtain ⟨rfl, e2⟩ := split _ _ none (blank _) (by rw [List.append_nil]; exact (List.cons.inj h1).2)
                cases e2
              · rename_i r r'
                have := (List.cons.inj h1).2
                subst this
                cases h2
                exact ⟨rfl, fun hp => absurd hp (hstop _ rfl)⟩
        exact .entry ((body_iff he hn dbg hs hs').1 key.1) (fun hp => ih (key.2 hp))
  · intro h
    induction h with
    | nil => rfl
    | stop => rfl
    | @entry s s' r r' h1 h2 ih =>
      have hs := ha s (List.mem_cons_self ..)
      have hs' := hb s' (List.mem_cons_self ..)
      have ih := fun hp => ih hp (fun s hs => ha s (List.mem_cons_of_mem _ hs))
        (fun s hs => hb s (List.mem_cons_of_mem _ hs))
      have hbody := (body_iff he hn dbg hs hs').2 h1
      rw [DumpWorld.dumpList, DumpWorld.dumpList, ← hbody]
      rcases shown_cases dbg s with hp | ⟨hd, ho⟩ | ⟨hd, e, hf⟩
      · rw [ih hp]
      · have := body_overflows w dbg name hd ho
        cases hq : w.body dbg name s with
        | mk ls en => rw [hq] at this; cases this; rfl
      · have := body_fails w dbg name hd hf
        cases hq : w.body dbg name s with
        | mk ls en => rw [hq] at this; cases this; rfl

include he hn hx in
/-- The lines of a dump contain no ends of line. -/
theorem dumpList_newline {a : List (Except GErr Shown)} (ha : EntryDebugs a) :
    ∀ l ∈ (w.dumpList dbg name a).1, '\n' ∉ l.toList := by
  induction a with
  | nil => intro l h; cases h
  | cons x a ih =>
    have ih := ih (fun s hs => ha s (List.mem_cons_of_mem _ hs))
    cases x with
    | error e => intro l h; cases h
    | ok s =>
      have g := body_good he hn hx dbg (ha s (List.mem_cons_self ..))
      intro l h
      rw [DumpWorld.dumpList] at h
      cases hq : w.body dbg name s with
      | mk ls en =>
        rw [hq] at h g
        cases en
        · rcases List.mem_cons.1 h with rfl | h
          · decide
          · rcases List.mem_append.1 h with h | h
            · exact (g l h).2
            · exact ih l h
        · rcases List.mem_cons.1 h with rfl | h
          · decide
          · rcases List.mem_append.1 h with h | h
            · exact (g l h).2
            · rcases List.mem_cons.1 h with rfl | h
              · decide
              · exact ih l h
        · rcases List.mem_cons.1 h with rfl | h
          · decide
          · exact (g l h).2

end

/-- **C90**, what holds: the texts of the dumps of two sections, and their results, are the same exactly if the
sections are the same as far as `SameDump` says: all entries with all their fields and instructions up to the
end or the place where the dump stops, but of pointer encodings not whether they are indirect.  Missing: that
flag. -/
theorem C90_text_partial {w : DumpWorld} (dbg : Bool) {file file' : ObjFile} {data data' : List U8}
    (harch : file.architecture = file'.architecture)
    (hn : RegNames (w.archRegisterName file.architecture)) (he : EncNames w.encoding)
    (hx : ∀ e, '\n' ∉ (w.error e).toList)
    (ha : EntryDebugs (entriesOf w file data)) (hb : EntryDebugs (entriesOf w file' data')) :
    (textOf (w.dumpEhFrame dbg file data).1 = textOf (w.dumpEhFrame dbg file' data').1 ∧
      (w.dumpEhFrame dbg file data).2 = (w.dumpEhFrame dbg file' data').2) ↔
    SameDump dbg w.error (entriesOf w file data) (entriesOf w file' data') := by
  rw [← dumpList_iff he hn hx dbg ha hb, dumpEhFrame_eq, dumpEhFrame_eq, ← harch]
  constructor
  · rintro ⟨h1, h2⟩
    have lines : ∀ {l : List (Except GErr Shown)}, EntryDebugs l →
        ∀ x ∈ "Exception handling frame information for section .eh_frame" ::
          (w.dumpList dbg (w.archRegisterName file.architecture) l).1, '\n' ∉ x.toList := by
      intro l hl x hxx
      rcases List.mem_cons.1 hxx with rfl | hxx
      · decide +kernel
      · exact dumpList_newline he hn hx dbg hl x hxx
    exact Prod.ext (List.cons.inj (textOf_inj (lines ha) (lines hb) h1)).2 h2
  · intro h
    rw [h]
    exact ⟨rfl, rfl⟩

/-- **C90 is false of the code**: two sections with different entries have the same dump, as the flag
`DW_EH_PE_indirect` of an encoding is not shown. -/
theorem C90_indirect (dbg : Bool) (arch : ObjArch) (insns : List (Except GErr Insn)) :
    ({ Samples.dwCie insns with lsdaEncoding := some 0x1b } : DumpCie) ≠
      { Samples.dwCie insns with lsdaEncoding := some 0x9b } ∧
    dwarfdump dbg (Samples.dwWorld arch (some [])
      [.ok (.cie { Samples.dwCie insns with lsdaEncoding := some 0x1b })]) (some "x") =
    dwarfdump dbg (Samples.dwWorld arch (some [])
      [.ok (.cie { Samples.dwCie insns with lsdaEncoding := some 0x9b })]) (some "x") := by
  refine ⟨fun h => ?_, rfl⟩
  have h : some (0x1b : U8) = some 0x9b := congrArg DumpCie.lsdaEncoding h
  exact absurd h (by decide)

/-- The hypothesis of `C90_text_partial` about the names of encodings is met by the sample. -/
theorem Samples.dwWorld_encoding (arch : ObjArch) (data : Option (List U8)) (es : List (Except GErr DumpEntry)) :
    EncNames (Samples.dwWorld arch data es).encoding where
  distinct h := BitVec.eq_of_toNat_eq (fmtNat_inj (prefix_cancel h))
  plain x := by
    show '/' ∉ ("DW_EH_PE_" ++ fmtNat x.toNat).toList ∧ '\n' ∉ ("DW_EH_PE_" ++ fmtNat x.toNat).toList
    revert x
    decide +kernel

/-- A world in which a section has the one or the other CIE. -/
def Samples.twoCies : DumpWorld := { Samples.dwWorld .x86_64 (some []) [] with
  frame := fun data _ _ _ => {
    entries := fun _ => [.ok (.cie (Samples.dwCie (if data = [] then Samples.pltInsns.map .ok else [])))]
    cieFromOffset := fun _ _ => .ok ⟨[]⟩ } }

example (dbg : Bool) :
    RegNames (Samples.twoCies.archRegisterName ObjArch.x86_64) ∧ EncNames Samples.twoCies.encoding ∧
    (∀ e, '\n' ∉ (Samples.twoCies.error e).toList) ∧
    EntryDebugs (entriesOf Samples.twoCies (Samples.dumpFile .x86_64 (some [])) []) ∧
    EntryDebugs (entriesOf Samples.twoCies (Samples.dumpFile .x86_64 (some [1])) [1]) ∧
    ¬ SameDump dbg Samples.twoCies.error
      (entriesOf Samples.twoCies (Samples.dumpFile .x86_64 (some [])) [])
      (entriesOf Samples.twoCies (Samples.dumpFile .x86_64 (some [1])) [1]) := by
  have d1 : EntryDebugs (entriesOf Samples.twoCies (Samples.dumpFile .x86_64 (some [])) []) := by
    intro s hs
    cases List.mem_singleton.1 (show Except.ok s ∈ [Except.ok (Shown.cie
      (Samples.dwCie (Samples.pltInsns.map .ok)))] from hs)
    exact Samples.pltDebugs
  have d2 : EntryDebugs (entriesOf Samples.twoCies (Samples.dumpFile .x86_64 (some [1])) [1]) := by
    intro s hs
    cases List.mem_singleton.1 (show Except.ok s ∈ [Except.ok (Shown.cie (Samples.dwCie []))] from hs)
    exact fun i e d h => (by cases h)
  refine ⟨Samples.regNames, Samples.dwWorld_encoding .x86_64 (some []) [],
    fun _ => show '\n' ∉ "error".toList by decide, d1, d2, fun h => ?_⟩
  have h := (C90_text_partial (w := Samples.twoCies) dbg
    (file := Samples.dumpFile .x86_64 (some [])) (file' := Samples.dumpFile .x86_64 (some [1])) rfl Samples.regNames
    (Samples.dwWorld_encoding .x86_64 (some []) []) (fun _ => show '\n' ∉ "error".toList by decide) d1 d2).2 h
  exact absurd h.1 (by cases dbg <;> decide +kernel)

end Verif
