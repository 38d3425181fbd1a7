import Verif.Spec.CfiText
import Verif.Props.Cfi
import Verif.Props.Listing
/-!
# Call frame instructions are listed under their names, with their operands: C123
-/

namespace Verif
open Spec

namespace CfiText
open Spec.CfiText Spec.Listing

/-! ### Operands -/

theorem reg_shown {name : Reg → Option String} (r : Reg) :
    (Operand.reg r).Shown name (regText name r).toList := by
  show (match name r with | some n => _ | none => _)
  unfold regText
  cases h : name r with
  | none => exact C119_decimal _
  | some n => exact rfl

theorem nat_shown {name : Reg → Option String} (n : Nat) : (Operand.unsigned n).Shown name (fmtNat n).toList :=
  C119_decimal n

theorem int_shown {name : Reg → Option String} {k : Nat} (x : BitVec k) :
    (Operand.signed x.toInt).Shown name (fmtInt x).toList := C119_signed.1 x

theorem hex_shown {name : Reg → Option String} (n : Nat) : (Operand.address n).Shown name (fmtAltHex n).toList :=
  C119_hex.2.2.1 n

theorem truth_shown {name : Reg → Option String} (b : Bool) : (Operand.truth b).Shown name (fmtBool b).toList := by
  cases b <;> rfl

theorem wrapped_mk {n : String} {v : List Char} (h : '(' ∉ n.toList) (ht : DebugText.trim n.toList = n.toList) :
    Spec.DebugText.wrapped n (n.toList ++ '(' :: (v ++ [')'])) = some v := by
  unfold Spec.DebugText.wrapped
  rw [DbgVal.inside_mk h]
  simp [ht]

theorem nested_mk {n m : String} (v : List Char) (f : List Char → Option Nat) (h : '(' ∉ n.toList)
    (ht : DebugText.trim n.toList = n.toList) (h' : '(' ∉ m.toList) (ht' : DebugText.trim m.toList = m.toList) :
    ((Spec.DebugText.wrapped n (n.toList ++ '(' :: ((m.toList ++ '(' :: (v ++ [')'])) ++ [')']))).bind
      (Spec.DebugText.wrapped m)).bind f = f v := by
  rw [wrapped_mk h ht, Option.bind_some, wrapped_mk h' ht', Option.bind_some]

theorem nested_text {s : String} {a b : List Char} (h : s.toList = a ++ '(' :: (b ++ ['('])) (t : String) :
    (s ++ t ++ "))").toList = a ++ '(' :: ((b ++ '(' :: (t.toList ++ [')'])) ++ [')']) := by
  rw [String.toList_append, String.toList_append, h, show "))".toList = [')', ')'] from rfl]
  simp

theorem unit_text (o : U64) : (DieRef.unit o).text.toList = "UnitRef".toList ++ '(' ::
    (("UnitOffset".toList ++ '(' :: ((fmtNat o.toNat).toList ++ [')'])) ++ [')']) := by
  unfold DieRef.text
  exact nested_text (by decide +kernel) _

theorem unit_shown {name : Reg → Option String} (o : U64) :
    (Operand.unit o.toNat).Shown name (DieRef.unit o).text.toList := by
  rw [unit_text]
  exact (nested_mk _ _ (by decide) (by decide +kernel) (by decide) (by decide +kernel)).trans (C119_decimal _)

theorem info_text (o : U64) : (DieRef.debugInfo o).text.toList = "DebugInfoRef".toList ++ '(' ::
    (("DebugInfoOffset".toList ++ '(' :: ((fmtNat o.toNat).toList ++ [')'])) ++ [')']) := by
  unfold DieRef.text
  exact nested_text (by decide +kernel) _

theorem info_shown {name : Reg → Option String} (o : U64) :
    (Operand.debugInfo o.toNat).Shown name (DieRef.debugInfo o).text.toList := by
  rw [info_text]
  exact (nested_mk _ _ (by decide) (by decide +kernel) (by decide) (by decide +kernel)).trans (C119_decimal _)

seal fmtNat fmtInt fmtBool regText DieRef.text fmtAltHex in
/-- The operands of an instruction. -/
theorem insn_operands (name : Reg → Option String) (i : Insn) :
    DebugText.Matched (fun x t => Operand.Shown name x t) (operands i) ((i.words name).2.map String.toList) := by
  cases i <;> first
    | exact trivial
    | exact ⟨reg_shown _, trivial⟩
    | exact ⟨nat_shown _, trivial⟩
    | exact ⟨int_shown _, trivial⟩
    | exact ⟨hex_shown _, trivial⟩
    | exact ⟨rfl, trivial⟩
    | exact ⟨reg_shown _, nat_shown _, trivial⟩
    | exact ⟨reg_shown _, int_shown _, trivial⟩
    | exact ⟨reg_shown _, reg_shown _, trivial⟩
    | exact ⟨reg_shown _, rfl, trivial⟩

seal fmtNat fmtInt fmtBool regText DieRef.text fmtAltHex in
/-- The operands of an operation. -/
theorem op_operands (full : Bool) (name : Reg → Option String) (op : Op) :
    DebugText.Matched (fun x t => Operand.Shown name x t) (opOperands full op)
      ((op.words full name).2.map String.toList) := by
  cases op with
  | deref b s sp => cases full
                    · exact ⟨nat_shown _, truth_shown _, trivial⟩
                    · exact ⟨nat_shown _, nat_shown _, truth_shown _, trivial⟩
  | registerOffset r x b => cases full
                            · exact ⟨reg_shown _, int_shown _, trivial⟩
                            · exact ⟨reg_shown _, int_shown _, nat_shown _, trivial⟩
  | call r => cases r
              · exact ⟨unit_shown _, trivial⟩
              · exact ⟨info_shown _, trivial⟩
  | _ => first
    | exact trivial
    | exact ⟨reg_shown _, trivial⟩
    | exact ⟨nat_shown _, trivial⟩
    | exact ⟨int_shown _, trivial⟩

theorem shown_ne_nil {name : Reg → Option String} (hn : RegNames name) {x : Operand} {t : List Char}
    (h : x.Shown name t) : t ≠ [] := by
  rintro rfl
  cases x with
  | reg r =>
    change (match name r with | some n => _ | none => _) at h
    cases hr : name r with
    | none => rw [hr] at h; cases h
    | some n =>
      rw [hr] at h
      obtain ⟨c, t, h1, _⟩ := hn.first hr
      change [] = n.toList at h
      rw [h1] at h; cases h
  | truth b =>
    change [] = (if b = true then "true" else "false").toList at h
    revert h; cases b <;> decide
  | more =>
    change [] = "...".toList at h
    revert h; decide
  | _ => cases h

theorem matched_ne_nil {name : Reg → Option String} (hn : RegNames name) : ∀ {xs : List Operand} {ts : List (List Char)},
    DebugText.Matched (fun x t => Operand.Shown name x t) xs ts → ∀ t ∈ ts, t ≠ []
  | [], [], _ => by simp
  | x :: xs, t :: ts, h => by
    intro u hu
    rcases List.mem_cons.1 hu with rfl | hu
    · exact shown_ne_nil hn h.1
    · exact matched_ne_nil hn h.2 u hu
  | [], _ :: _, h => h.elim
  | _ :: _, [], h => h.elim

/-! ### Lines -/

theorem splitAt_acc (sep : Char) : ∀ (s acc : List Char), ∃ h t, splitAt sep [] s = h :: t ∧
    splitAt sep acc s = (acc.reverse ++ h) :: t
  | [], acc => ⟨[], [], by simp [splitAt]⟩
  | c :: s, acc => by
    by_cases hc : c = sep
    · exact ⟨[], splitAt sep [] s, by simp [splitAt, hc]⟩
    · obtain ⟨h, t, h1, h2⟩ := splitAt_acc sep s [c]
      obtain ⟨h', t', h1', h2'⟩ := splitAt_acc sep s (c :: acc)
      rw [h1] at h1'
      obtain ⟨rfl, rfl⟩ := List.cons.inj h1'
      refine ⟨c :: h, t, ?_, ?_⟩
      · rw [splitAt, if_neg hc, h2]; rfl
      · rw [splitAt, if_neg hc, h2']; simp

theorem flatten_filter (l : List (List Char)) : (l.filter (· ≠ [])).flatten = l.flatten := by
  induction l with
  | nil => rfl
  | cons a l ih => cases a <;> simp_all

theorem splitAt_flatten (sep : Char) (s : List Char) : (splitAt sep [] s).flatten = s.filter (· != sep) := by
  induction s with
  | nil => rfl
  | cons c s ih =>
    by_cases hc : c = sep
    · subst hc; rw [splitAt, if_pos rfl]; simp [ih]
    · obtain ⟨h, t, h1, h2⟩ := splitAt_acc sep s [c]
      rw [splitAt, if_neg hc, h2, List.filter_cons, if_pos (by simpa using hc), ← ih, h1]
      rfl

/-- The words of a text that begins with another character than a space. -/
theorem words_first {c : Char} (hc : c ≠ ' ') (s : List Char) : ∃ o os, words (c :: s) = (c :: o) :: os ∧
    List.flatten (o :: os) = s.filter (· != ' ') := by
  obtain ⟨h, t, h1, h2⟩ := splitAt_acc ' ' s [c]
  refine ⟨h, t.filter (· ≠ []), ?_, ?_⟩
  · unfold words; rw [splitAt, if_neg hc, h2]; rfl
  · rw [List.flatten_cons, flatten_filter, ← splitAt_flatten, h1]; rfl

theorem filter_noSpace {s : List Char} (h : ' ' ∉ s) : s.filter (· != ' ') = s :=
  List.filter_eq_self.2 fun _ hc => bne_iff_ne.2 fun e => h (e ▸ hc)

theorem splitAt_commas {a : List Char} {as : List (List Char)} (ha : ',' ∉ a) (has : ∀ x ∈ as, ',' ∉ x) :
    splitAt ',' [] (a ++ as.flatMap fun x => ',' :: x) = a :: as := by
  induction as generalizing a with
  | nil => rw [List.flatMap_nil, List.append_nil, Listing.splitAt_last ha]
  | cons b as ih =>
    rw [List.flatMap_cons, List.cons_append, Listing.splitAt_sep ha, ih (has b (by simp)) fun x hx => has x (by simp [hx])]

/-- The line of a word and operands in parentheses. -/
theorem parts_called {w : String} {as : List String} (k : Nat) (hw : ' ' ∉ w.toList) (hne : w.toList ≠ [])
    (has : ∀ a ∈ as, ' ' ∉ a.toList ∧ ',' ∉ a.toList) :
    parts (List.replicate k ' ' ++ (called (w, as)).toList) = some (w.toList, as.map String.toList) := by
  unfold parts
  rw [Listing.words_spaces]
  cases as with
  | nil => rw [called_nil, Listing.words_last hw hne]; rfl
  | cons a as =>
    rw [called_cons, Listing.words_cons hw hne]
    obtain ⟨o, os, h1, h2⟩ := words_first (c := '(') (by decide)
      ((a.toList ++ (as.map String.toList).flatMap (fun a => ',' :: ([' '] ++ a))) ++ [')'])
    rw [h1]
    simp only
    rw [h2]
    have hf : ((as.map String.toList).flatMap fun a => ',' :: ([' '] ++ a)).filter (· != ' ') =
        (as.map String.toList).flatMap fun x => ',' :: x := by
      clear h1 h2
      induction as with
      | nil => rfl
      | cons b as ih =>
        rw [List.map_cons, List.flatMap_cons, List.filter_append, List.flatMap_cons,
          ih fun x hx => by rcases List.mem_cons.1 hx with rfl | hx
                            · exact has _ (by simp)
                            · exact has x (by simp [hx])]
        have := filter_noSpace (has b (by simp)).1
        simp [this]
    rw [List.filter_append, List.filter_append, hf, filter_noSpace (has a (by simp)).1,
      show [')'].filter (· != ' ') = ")".toList from rfl, Listing.before_append]
    rw [Option.map_some, splitAt_commas (has a (by simp)).2]
    · rfl
    · intro x hx
      obtain ⟨b, hb, rfl⟩ := List.mem_map.1 hx
      exact (has b (by simp [hb])).2

/-- The line of a word and operands behind it. -/
theorem words_spaced {w : String} {as : List String} (k : Nat) (hw : ' ' ∉ w.toList) (hne : w.toList ≠ [])
    (has : ∀ a ∈ as, ' ' ∉ a.toList ∧ a.toList ≠ []) :
    words (List.replicate k ' ' ++ (spaced (w, as)).toList) = w.toList :: as.map String.toList := by
  rw [Listing.words_spaces, spaced_toList]
  induction as generalizing w with
  | nil => rw [List.map_nil, List.flatMap_nil, List.append_nil, Listing.words_last hw hne]
  | cons a as ih =>
    rw [List.map_cons, List.flatMap_cons]
    rw [List.cons_append, Listing.words_cons hw hne, List.nil_append, ih (has a (by simp)).1 (has a (by simp)).2
      fun x hx => has x (by simp [hx])]

theorem indent_mk {k : Nat} {c : Char} (hc : c ≠ ' ') (t : List Char) :
    indent (List.replicate k ' ' ++ c :: t) = k := by
  unfold indent
  rw [List.takeWhile_append_of_pos (by intro x hx; rw [List.eq_of_mem_replicate hx]; rfl), List.takeWhile_cons,
    if_neg (by simpa using hc)]
  simp

theorem op_indent : indent18.toList = List.replicate 18 ' ' := by decide +kernel

theorem op_first' : ∀ i < 34, ∃ t, (Op.wordOf i).toList = 'D' :: t := by
  intro i hi
  have : ∀ i < 34, (Op.wordOf i).toList.take 1 = ['D'] := by decide +kernel
  cases h : (Op.wordOf i).toList with
  | nil => have := this i hi; rw [h] at this; cases this
  | cons c t => have := this i hi; rw [h] at this; cases this; exact ⟨t, rfl⟩

theorem op_code_lt {op : Op} (h : ∀ d, op ≠ .other d) : op.code < 34 := by
  cases op <;> first | exact absurd rfl (h _) | simp [Op.code]

theorem op_first {full : Bool} {name : Reg → Option String} {op : Op} (h : ∀ d, op ≠ .other d) :
    ∃ t, (op.words full name).1.toList = 'D' :: t := by
  rw [Op.word_eq _ _ _ h]; exact op_first' _ (op_code_lt h)

seal Op.words in
/-- The words of the line of an operation. -/
theorem op_words {name : Reg → Option String} (hn : RegNames name) (full : Bool) {op : Op} (h : ∀ d, op ≠ .other d) :
    words (op.line full name indent18).toList =
      (op.words full name).1.toList :: (op.words full name).2.map String.toList := by
  rw [Op.line_eq _ _ _ _ h, String.toList_append, op_indent]
  refine words_spaced 18 ?_ ?_ fun a ha => ⟨?_, ?_⟩
  · rw [Op.word_eq _ _ _ h]; exact (Op.wordOf_space op).1
  · obtain ⟨t, ht⟩ := op_first (full := full) (name := name) h
    rw [ht]; simp
  · exact Op.operands sep_space (.inl rfl) hn full op a ha
  · exact matched_ne_nil hn (op_operands full name op) _ (List.mem_map_of_mem ha)

end CfiText

/-! ### The theorems -/

theorem CfiText.insn_name (name : Reg → Option String) (i : Insn) :
    CfiText.IsName CfiText.cfaNames (CfiText.opcodes i) (i.words name).1.toList := by
  cases i <;> exact ⟨_, List.mem_cons_self, _, rfl, rfl⟩

open CfiText in
seal Insn.words in
/-- **C123**: an instruction stands on its line under its name in DWARF, with the operands that DWARF gives it, in
that order. -/
theorem C123_instruction {name : Reg → Option String} (hn : RegNames name) (i : Insn) :
    CfiText.ShowsInsn name i (i.line name).toList ∧ CfiText.indent (i.line name).toList = 16 := by
  constructor
  · refine ⟨(i.words name).1.toList, (i.words name).2.map String.toList, ?_, ?_, insn_operands name i⟩
    · unfold Insn.line
      rw [String.toList_append, show "                ".toList = List.replicate 16 ' ' by decide +kernel]
      refine parts_called 16 ?_ ?_ fun a ha => ⟨?_, ?_⟩
      · rw [Insn.word_eq]; exact (Insn.wordOf_space i).1
      · rw [Insn.word_eq]
        have : ∀ i < 23, (Insn.wordOf i).toList ≠ [] := by decide +kernel
        exact this _ i.code_lt
      · exact Insn.operands sep_space (.inl rfl) hn i a ha
      · exact Insn.operands sep_comma (.inr (.inl rfl)) hn i a ha
    · exact insn_name name i
  · obtain ⟨t, ht⟩ := i.line_toList name
    rw [ht, indent_mk (by decide)]

open CfiText in
seal Op.words in
/-- **C123**: an operation that is printed at all by the program itself has its operands behind the first word. -/
theorem C123_operands {name : Reg → Option String} (hn : RegNames name) (full : Bool) {op : Op}
    (h : ∀ d, op ≠ .other d) :
    CfiText.ShowsOp full name op (op.line full name indent18).toList ∧
    CfiText.indent (op.line full name indent18).toList = 18 := by
  refine ⟨⟨_, _, op_words hn full h, op_operands full name op⟩, ?_⟩
  obtain ⟨t, ht⟩ := op_first (full := full) (name := name) h
  rw [Op.line_eq _ _ _ _ h, String.toList_append, op_indent, show op.words full name =
    ((op.words full name).1, (op.words full name).2) from rfl, spaced_toList, ht]
  exact indent_mk (by decide) _

namespace Spec.CfiText

/-- The operations that are listed under a name that DWARF does not have. -/
def Strange : Op → Prop
  | .plusConstant _ | .unsignedConstant _ | .signedConstant _ | .register _ | .registerOffset _ _ _
  | .frameOffset _ | .call _ | .tls | .other _ => True
  | _ => False

end Spec.CfiText

open CfiText in
/-- **C123**, partial: the first word of the line of an operation is its name in DWARF for all operations but these:
`DW_OP_plus_uconst`, constants, registers, `DW_OP_fbreg`, calls, `DW_OP_form_tls_address`, and those that are printed
by their `Debug` text.  Missing: those. -/
theorem C123_names_partial {name : Reg → Option String} (hn : RegNames name) (full : Bool) (op : Op) :
    CfiText.NamesOp op (op.line full name indent18).toList ↔ ¬ CfiText.Strange op := by
  by_cases h : ∃ d, op = .other d
  · obtain ⟨d, rfl⟩ := h
    refine ⟨?_, fun h => absurd trivial h⟩
    rintro ⟨_, _, _, h, _⟩
    cases h
  · have h : ∀ d, op ≠ .other d := fun d hd => h ⟨d, hd⟩
    have hw := op_words hn full h
    have key : CfiText.NamesOp op (op.line full name indent18).toList ↔
        ∃ codes, CfiText.opOpcodes op = some codes ∧ CfiText.IsName CfiText.opNames codes (op.words full name).1.toList := by
      constructor
      · rintro ⟨codes, n, os, h1, h2, h3⟩
        rw [hw] at h2
        obtain ⟨rfl, rfl⟩ := List.cons.inj h2
        exact ⟨codes, h1, h3⟩
      · rintro ⟨codes, h1, h3⟩
        exact ⟨codes, _, _, h1, hw, h3⟩
    rw [key]
    have no : ∀ {codes : List Nat} {t : List Char}, ¬ CfiText.IsName CfiText.opNames codes t →
        ∀ {P : Prop}, P → ((∃ c, some codes = some c ∧ CfiText.IsName CfiText.opNames c t) ↔ ¬ P) := by
      intro codes t hn P hP
      refine ⟨?_, fun h => absurd hP h⟩
      rintro ⟨c, hc, h2⟩
      cases hc
      exact absurd h2 hn
    cases op with
    | other d => exact absurd rfl (h d)
    | plusConstant _ => exact no (t := "DW_OP_plusconstant".toList) (by decide +kernel) trivial
    | unsignedConstant _ => exact no (t := "DW_OP_uconst".toList) (by decide +kernel) trivial
    | signedConstant _ => exact no (t := "DW_OP_sconst".toList) (by decide +kernel) trivial
    | register _ => exact no (t := "DW_OP_register".toList) (by decide +kernel) trivial
    | registerOffset _ _ _ => exact no (t := "DW_OP_register_offset".toList) (by decide +kernel) trivial
    | frameOffset _ => exact no (t := "DW_OP_frame_offset".toList) (by decide +kernel) trivial
    | call _ => exact no (t := "DW_OP_call".toList) (by decide +kernel) trivial
    | tls => exact no (t := "DW_OP_tls".toList) (by decide +kernel) trivial
    | _ => exact ⟨fun _ => id, fun _ => ⟨_, rfl, _, List.mem_cons_self, _, rfl, rfl⟩⟩

/-- **C123** does not hold for all operations: the constant of an address is listed as `DW_OP_plusconstant`, and an
operation such as `DW_OP_or` by its `Debug` text, which is not indented either. -/
theorem C123_names_false : (∀ full (v : U64), ¬ CfiText.NamesOp (.plusConstant v)
      (Op.line full (fun _ => none) indent18 (.plusConstant v)).toList) ∧
    ∀ full d, ¬ CfiText.NamesOp (.other d) (Op.line full (fun _ => none) indent18 (.other d)).toList := by
  have hn : RegNames (fun _ => none) := ⟨(by simp), (by simp), (by simp)⟩
  exact ⟨fun full v h => (C123_names_partial hn full _).1 h trivial,
    fun full d h => (C123_names_partial hn full _).1 h trivial⟩

theorem CfiText.matched_ops {name : Reg → Option String} (hn : RegNames name) (full : Bool) : ∀ ops : List Op,
    Spec.DebugText.Matched (fun op t => CfiText.OpLine full name op t) ops
      ((ops.map (Op.line full name indent18)).map String.toList)
  | [] => trivial
  | op :: ops => by
    refine ⟨?_, CfiText.matched_ops hn full ops⟩
    by_cases h : ∃ d, op = .other d
    · obtain ⟨d, rfl⟩ := h
      exact rfl
    · have h : ∀ d, op ≠ .other d := fun d hd => h ⟨d, hd⟩
      have := C123_operands hn full h
      cases op with
      | other d => exact absurd rfl (h d)
      | _ => exact this

/-- **C123**: the listing of instructions: behind the line of an instruction stand those of its operations. -/
theorem C123_listing {name : Reg → Option String} (hn : RegNames name) (full : Bool) (error : GErr → String)
    (l : List (Except GErr Insn)) :
    CfiText.Lists full name error l ((listInstructions full name error l).1.map String.toList) := by
  induction l with
  | nil => exact rfl
  | cons a l ih =>
    cases a with
    | error e =>
      show _ = _
      rw [listInstructions, List.map_cons, String.toList_append, List.map_nil]
    | ok i =>
      have hi := C123_instruction hn i
      cases he : i.expr? with
      | none =>
        rw [list_plain full name error he]
        refine ⟨(i.line name).toList, [], [], _, rfl, hi.1, hi.2, trivial, .inl ⟨?_, ih⟩⟩
        rw [he]; rfl
      | some e =>
        rcases expr_cases e with ⟨ops, rfl⟩ | ⟨ops, x, t, rfl⟩
        · rw [list_expr full name error he]
          refine ⟨(i.line name).toList, ops, _, _, by rw [List.map_cons, List.map_append], hi.1, hi.2,
            CfiText.matched_ops hn full ops, .inl ⟨?_, ih⟩⟩
          rw [he]; rfl
        · rw [list_aborted full name error he]
          refine ⟨(i.line name).toList, ops, _, [], by rw [List.map_cons, List.append_nil], hi.1, hi.2,
            CfiText.matched_ops hn full ops, .inr ⟨⟨x, t, ?_⟩, rfl⟩⟩
          rw [he]; rfl

/-! ### Examples -/

/-- The reader on lines as they are printed. -/
example : CfiText.parts "                DW_CFA_offset (rbp, 2)".toList =
      some ("DW_CFA_offset".toList, ["rbp".toList, "2".toList]) ∧
    CfiText.parts "                DW_CFA_nop".toList = some ("DW_CFA_nop".toList, []) ∧
    CfiText.parts "                DW_CFA_offset rbp 2".toList = none ∧
    CfiText.indent "                DW_CFA_nop".toList = 16 := by decide +kernel

/-- The line of an instruction with a register that has a name and one that has none. -/
example : RegNames Samples.regName ∧
    (Insn.register 6 40).line Samples.regName = "                DW_CFA_register (rbp, 40)" ∧
    CfiText.operands (.register 6 40) = [.reg 6, .reg 40] ∧
    (CfiText.Operand.reg 6).Shown Samples.regName "rbp".toList ∧
    (CfiText.Operand.reg 40).Shown Samples.regName "40".toList ∧
    ¬ (CfiText.Operand.reg 6).Shown Samples.regName "6".toList := by
  refine ⟨Samples.regNames, by decide +kernel, rfl, ?_, ?_, ?_⟩
  · exact CfiText.reg_shown (name := Samples.regName) 6
  · exact CfiText.reg_shown (name := Samples.regName) 40
  · show ¬ "6".toList = "rbp".toList
    decide +kernel

/-- Operations that have and that have not the name of DWARF. -/
example : ¬ CfiText.Strange (.bra (-3)) ∧ CfiText.Strange (.signedConstant (-3)) ∧
    (∀ d, Op.bra (-3) ≠ .other d) ∧
    Op.line false Samples.regName indent18 (.bra (-3)) = "                  DW_OP_bra -3" ∧
    Op.line false Samples.regName indent18 (.signedConstant (-3)) = "                  DW_OP_sconst -3" ∧
    CfiText.opNames.lookup 0x28 = some "DW_OP_bra" ∧ CfiText.opNames.lookup 0x11 = some "DW_OP_consts" :=
  ⟨fun h => h, trivial, (fun _ h => Op.noConfusion h), by decide +kernel, by decide +kernel, by decide +kernel, by decide +kernel⟩

/-- A listing with an expression, of which the last operation cannot be decoded. -/
example : (listInstructions true Samples.regName (fun _ => "?")
      [.ok (.defCfa 7 8), .ok (.defCfaExpression [.ok (.registerOffset 7 8 0), .ok .plus, .error ⟨4⟩]), .ok .nop]).1 =
    ["                DW_CFA_def_cfa (rsp, 8)", "                DW_CFA_def_cfa_expression (...)",
     "                  DW_OP_register_offset rsp 8 0", "                  DW_OP_plus"] := by decide +kernel

end Verif
