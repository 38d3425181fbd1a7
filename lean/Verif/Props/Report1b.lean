import Verif.Props.Report1
import Verif.Props.Report
/-!
# C97, C98: what the output of the legacy converter determines
-/

namespace Verif

open Spec

namespace Spec

/-- The first and the last character of a text are not blank. -/
structure Trimmed (s : String) : Prop where
  first : s.toList.head?.map isBlank = some false
  last : s.toList.getLast?.map isBlank = some false

/-- What is assumed of names of registers. -/
structure RuleNames (name : Reg → Option String) : Prop where
  names : RegNames name
  blank : ∀ {r n}, name r = some n → ∀ c ∈ n.toList, isBlank c = false
  first : ∀ {r n}, name r = some n → n.toList.head? ≠ some '<' ∧ n.toList.head? ≠ some '*'
  plain : ∀ {r n}, name r = some n → '+' ∉ n.toList ∧ '-' ∉ n.toList ∧ '(' ∉ n.toList
  word : ∀ {r n}, name r = some n → n.toList.take 3 ≠ "DW_".toList
  notKind : ∀ {r n}, name r = some n → n ≠ "Architectural"

/-- What is assumed of the texts that `gimli` contributes to the output. -/
structure LegacyNames (t : LegacyText) (a : ObjArch) : Prop where
  shown : RuleNames t.name
  rules : RuleNames (t.ruleName a)
  error : ∀ e, '\n' ∉ (t.error e).toList
  rule : ∀ r, '\n' ∉ (t.rule r).toList
  valExpression : ∀ e, ∃ s, t.rule (.valExpression e) = "ValExpression(" ++ s
  architectural : t.rule .architectural = "Architectural"

/-- What is assumed of the `Debug` text of an operation: it is on one line, without blanks at the ends, and is
not the text of another operation or of a rule. -/
structure OpDebug (t : LegacyText) (a : ObjArch) (d : String) : Prop where
  trimmed : Trimmed d
  line : '\n' ∉ d.toList
  word : d.toList.take 3 ≠ "DW_".toList
  rule : ∀ r, (∀ e, r ≠ .expression e) → d ≠ t.ruleText a r
  cfa : ∀ r o, d ≠ regText t.name r ++ fmtSigned64 o

/-- The operations of an expression that are printed by their `Debug` text have such a text. -/
def ExprDebugs (t : LegacyText) (a : ObjArch) (e : Expr) : Prop := ∀ d, .ok (.other d) ∈ e → OpDebug t a d

/-- So have those of a row. -/
structure RowDebugs (t : LegacyText) (a : ObjArch) (row : DwRow) : Prop where
  cfa : ∀ e, row.cfa = .expression e → ExprDebugs t a e
  registers : ∀ x ∈ row.registers, ∀ e, x.2 = .expression e → ExprDebugs t a e

/-- Rules that read the same: equal ones; a register without a name and the constant of the same value; and
two expressions for values that `gimli` prints the same. -/
inductive SameRule1 (t : LegacyText) (a : ObjArch) : RegRule → RegRule → Prop
  | refl (r) : SameRule1 t a r r
  | number {r v} : t.ruleName a r = none → r.toNat = v.toNat → SameRule1 t a (.register r) (.constant v)
  | number' {r v} : t.ruleName a r = none → r.toNat = v.toNat → SameRule1 t a (.constant v) (.register r)
  | valExpression {e e'} : t.rule (.valExpression e) = t.rule (.valExpression e') →
      SameRule1 t a (.valExpression e) (.valExpression e')

/-- Rows with the same range, CFA and registers, with rules that read the same. -/
structure SameDwRow1 (t : LegacyText) (a : ObjArch) (x y : DwRow) : Prop where
  start : x.start = y.start
  end_ : x.end_ = y.end_
  cfa : x.cfa = y.cfa
  registers : Each (fun p q => p.1 = q.1 ∧ SameRule1 t a p.2 q.2) x.registers y.registers

/-- Functions at the same place with the same instructions, whose rows say the same. -/
structure SameFunction1 (t : LegacyText) (a : ObjArch) (x y : DwFde) : Prop where
  initial : x.initial = y.initial
  len : x.len = y.len
  instructions : SameListing true t.error x.instructions y.instructions
  rows : Each (SameDwRow1 t a) (rowsOf x) (rowsOf y)

end Spec

/-! ### Trimming -/

theorem getLast?_append_some {α : Type} {a b : List α} {x : α} (h : b.getLast? = some x) : (a ++ b).getLast? = some x := by
  rw [List.getLast?_append, h]; rfl

/-- The last character is not blank. -/
def Ends (s : String) : Prop := s.toList.getLast?.map isBlank = some false

instance (s : String) : Decidable (Ends s) := by unfold Ends; infer_instance

theorem ends_append {a b : String} (h : Ends b) : Ends (a ++ b) := by
  unfold Ends at h ⊢
  cases hb : b.toList.getLast? with
  | none => rw [hb] at h; cases h
  | some c => rw [hb] at h; rw [String.toList_append, getLast?_append_some hb]; exact h

theorem ends_all {s : String} (h0 : s.toList ≠ []) (h : ∀ c ∈ s.toList, isBlank c = false) : Ends s := by
  unfold Ends
  cases hb : s.toList.getLast? with
  | none => exact absurd (List.getLast?_eq_none_iff.1 hb) h0
  | some c => rw [Option.map_some, h c (List.mem_of_getLast? hb)]

theorem digit_blank {c : Char} (h : c.isDigit = true) : isBlank c = false := by
  cases hb : isBlank c with
  | false => rfl
  | true =>
    unfold isBlank at hb
    simp only [Bool.or_eq_true, decide_eq_true_eq] at hb
    rcases hb with ((rfl | rfl) | rfl) | rfl <;> exact absurd h (by decide)

theorem fmtNat_digits (n : Nat) : ∀ c ∈ (fmtNat n).toList, c.isDigit = true := by
  intro c hc
  rw [fmtNat_toList] at hc
  exact Nat.isDigit_of_mem_toDigits (b := 10) (by decide) (by decide) hc

theorem fmtNat_ne_nil (n : Nat) : (fmtNat n).toList ≠ [] := by
  rw [fmtNat_toList]; exact Nat.toDigits_ne_nil

theorem fmtNat_ends (n : Nat) : Ends (fmtNat n) :=
  ends_all (fmtNat_ne_nil n) fun c hc => digit_blank (fmtNat_digits n c hc)

theorem fmtInt_ends {k : Nat} (x : BitVec k) : Ends (fmtInt x) := by
  unfold fmtInt
  split
  · exact ends_append (fmtNat_ends _)
  · exact fmtNat_ends _

theorem fmtBool_ends (b : Bool) : Ends (fmtBool b) := by cases b <;> decide +kernel

theorem dieRef_ends (r : DieRef) : Ends r.text := by
  cases r <;> exact ends_append (by decide +kernel)

theorem Spec.RegNames.ne_nil {name : Reg → Option String} (hn : RegNames name) {r n} (h : name r = some n) : n.toList ≠ [] := by
  obtain ⟨c, t, h1, -⟩ := hn.first h
  rw [h1]; exact nofun

theorem regText_ends {name : Reg → Option String} (hn : RuleNames name) (r : Reg) : Ends (regText name r) := by
  unfold regText
  cases h : name r with
  | none => exact fmtNat_ends _
  | some n => exact ends_all (hn.names.ne_nil h) (hn.blank h)

/-! ### Operations -/

/-- An operation without indentation. -/
def bareOp (name : Reg → Option String) (op : Op) : String := spaced (op.words true name)

theorem Op.wordOf_dw : ∀ i < 34, (Op.wordOf i).toList.take 3 = "DW_".toList ∧ 3 ≤ (Op.wordOf i).toList.length := by
  decide +kernel

theorem Op.code_named {op : Op} (h : ∀ d, op ≠ .other d) : op.code < 34 := by
  cases op <;> first | exact absurd rfl (h _) | simp [Op.code]

theorem bareOp_dw (name : Reg → Option String) {op : Op} (h : ∀ d, op ≠ .other d) :
    (bareOp name op).toList.take 3 = "DW_".toList := by
  obtain ⟨h1, h2⟩ := Op.wordOf_dw _ (Op.code_named h)
  have hp : (op.words true name) = ((op.words true name).1, (op.words true name).2) := rfl
  unfold bareOp
  rw [hp, spaced_toList, Op.word_eq _ _ _ h, List.take_append_of_le_length h2, h1]

theorem bareOp_other (name : Reg → Option String) (d : String) : bareOp name (.other d) = d := by
  show d ++ "" = d
  simp

theorem spaced_ends {w : String} {as : List String} (hw : Ends w) (ha : ∀ x ∈ as, Ends x) : Ends (spaced (w, as)) := by
  rcases List.eq_nil_or_concat as with rfl | ⟨xs, x, rfl⟩
  · have h : spaced (w, []) = w := by
      show w ++ "" = w
      simp
    rw [h]; exact hw
  · have hx : Ends x := ha x (by simp)
    unfold Ends at hx ⊢
    rw [spaced_toList]
    cases hb : x.toList.getLast? with
    | none => rw [hb] at hx; cases hx
    | some c =>
      rw [hb] at hx
      rw [List.concat_eq_append, List.map_append, List.flatMap_append, ← List.append_assoc]
      have h1 : (List.map String.toList [x]).flatMap (fun a => ' ' :: ([] ++ a)) = [' '] ++ x.toList := by simp
      rw [h1, getLast?_append_some (getLast?_append_some hb)]
      exact hx

theorem Op.wordOf_ends : ∀ i < 34, Ends (Op.wordOf i) := by decide +kernel

seal fmtNat fmtInt fmtBool regText DieRef.text fmtAltHex in
theorem Op.operands_ends {name : Reg → Option String} (hn : RuleNames name) (op : Op) :
    ∀ a ∈ (op.words true name).2, Ends a := by
  cases op <;> simp only [Op.words, List.not_mem_nil, false_imp_iff, implies_true, List.mem_cons, or_false,
    forall_eq, if_true, forall_eq_or_imp]
  all_goals first
    | exact ⟨fmtNat_ends _, fmtNat_ends _, fmtBool_ends _⟩
    | exact ⟨regText_ends hn _, fmtInt_ends _, fmtNat_ends _⟩
    | exact fmtNat_ends _
    | exact fmtInt_ends _
    | exact regText_ends hn _
    | exact dieRef_ends _

theorem bareOp_ends {t : LegacyText} {a : ObjArch} {name : Reg → Option String} (hn : RuleNames name) {op : Op}
    (hd : ∀ d, op = .other d → OpDebug t a d) : Ends (bareOp name op) := by
  by_cases ho : ∃ d, op = .other d
  · obtain ⟨d, rfl⟩ := ho
    rw [bareOp_other]; exact (hd d rfl).trimmed.last
  · have ho' : ∀ d, op ≠ .other d := fun d hd => ho ⟨d, hd⟩
    have hw : Ends (op.words true name).1 := by
      rw [Op.word_eq _ _ _ ho']
      exact Op.wordOf_ends _ (Op.code_named ho')
    exact spaced_ends (w := (op.words true name).1) (as := (op.words true name).2) hw (Op.operands_ends hn op)

theorem bareOp_first {t : LegacyText} {a : ObjArch} (name : Reg → Option String) {op : Op}
    (hd : ∀ d, op = .other d → OpDebug t a d) :
    ∃ c s, (bareOp name op).toList = c :: s ∧ isBlank c = false := by
  by_cases ho : ∃ d, op = .other d
  · obtain ⟨d, rfl⟩ := ho
    rw [bareOp_other]
    have := (hd d rfl).trimmed.first
    cases h : d.toList with
    | nil => rw [h] at this; cases this
    | cons c s => rw [h] at this; exact ⟨c, s, rfl, Option.some.inj this⟩
  · have h := bareOp_dw name (fun d hd => ho ⟨d, hd⟩)
    cases h' : (bareOp name op).toList with
    | nil => rw [h'] at h; exact absurd h (by decide +kernel)
    | cons c s =>
      rw [h', show "DW_".toList = ['D', 'W', '_'] by decide +kernel, List.take_succ_cons] at h
      rw [(List.cons.inj h).1]
      exact ⟨_, _, rfl, by decide⟩

/-- The texts of different operations are different. -/
theorem bareOp_inj {t : LegacyText} {a : ObjArch} {name : Reg → Option String} (hn : RuleNames name) {x y : Op}
    (hx : ∀ d, x = .other d → OpDebug t a d) (hy : ∀ d, y = .other d → OpDebug t a d)
    (h : bareOp name x = bareOp name y) : x = y := by
  by_cases hxo : ∃ d, x = .other d
  · obtain ⟨d, rfl⟩ := hxo
    by_cases hyo : ∃ d, y = .other d
    · obtain ⟨d', rfl⟩ := hyo
      rw [bareOp_other, bareOp_other] at h
      rw [h]
    · have := bareOp_dw name (fun d hd => hyo ⟨d, hd⟩)
      rw [← h, bareOp_other] at this
      exact absurd this (hx d rfl).word
  · have hx' : ∀ d, x ≠ .other d := fun d hd => hxo ⟨d, hd⟩
    by_cases hyo : ∃ d, y = .other d
    · obtain ⟨d', rfl⟩ := hyo
      have := bareOp_dw name hx'
      rw [h, bareOp_other] at this
      exact absurd this (hy d' rfl).word
    · have hy' : ∀ d, y ≠ .other d := fun d hd => hyo ⟨d, hd⟩
      obtain ⟨h1, h2⟩ := spaced_pair (by rw [Op.word_eq _ _ _ hx']; exact (Op.wordOf_space _).1)
        (by rw [Op.word_eq _ _ _ hy']; exact (Op.wordOf_space _).1)
        (Op.operands sep_space (.inl rfl) hn.names true x) (Op.operands sep_space (.inl rfl) hn.names true y) h
      rw [Op.word_eq _ _ _ hx', Op.word_eq _ _ _ hy'] at h1
      have := Op.words_inj hn.names (Op.wordOf_inj _ x.code_lt _ y.code_lt h1) h2 hx'
      rwa [seenOp_full] at this

/-- An indentation. -/
structure Indent (s : String) : Prop where
  blank : ∀ c ∈ s.toList, isBlank c = true
  space : ∃ u, s.toList = ' ' :: u
  line : '\n' ∉ s.toList

theorem indent8 : Indent "        " := ⟨by decide +kernel, ⟨"       ".toList, by decide +kernel⟩, by decide +kernel⟩
theorem indent12 : Indent "            " :=
  ⟨by decide +kernel, ⟨"           ".toList, by decide +kernel⟩, by decide +kernel⟩

theorem opLine_inj {t : LegacyText} {a : ObjArch} {name : Reg → Option String} (hn : RuleNames name) {i : String}
    (hi : Indent i) {x y : Op}
    (hx : ∀ d, x = .other d → OpDebug t a d) (hy : ∀ d, y = .other d → OpDebug t a d)
    (h : x.line true name i = y.line true name i) : x = y := by
  have key : ∀ {d s : String}, OpDebug t a d → d ≠ i ++ s := by
    rintro d s hd rfl
    obtain ⟨u, hu⟩ := hi.space
    have := hd.trimmed.first
    rw [String.toList_append, hu] at this
    exact absurd (Option.some.inj this) (by decide)
  by_cases hxo : ∃ d, x = .other d
  · obtain ⟨d, rfl⟩ := hxo
    by_cases hyo : ∃ d, y = .other d
    · obtain ⟨d', rfl⟩ := hyo
      exact congrArg Op.other h
    · rw [Op.line_eq _ _ _ y (fun d hd => hyo ⟨d, hd⟩)] at h
      exact absurd h (key (hx d rfl))
  · by_cases hyo : ∃ d, y = .other d
    · obtain ⟨d', rfl⟩ := hyo
      rw [Op.line_eq _ _ _ x (fun d hd => hxo ⟨d, hd⟩)] at h
      exact absurd h.symm (key (hy d' rfl))
    · rw [Op.line_eq _ _ _ y (fun d hd => hyo ⟨d, hd⟩), Op.line_eq _ _ _ x (fun d hd => hxo ⟨d, hd⟩)] at h
      exact bareOp_inj hn hx hy (prefix_cancel h)

theorem opLine_cases {name : Reg → Option String} {i : String} {x : Op} :
    (∃ d, x = .other d ∧ x.line true name i = d) ∨
    ((∀ d, x ≠ .other d) ∧ x.line true name i = i ++ bareOp name x) := by
  by_cases hxo : ∃ d, x = .other d
  · obtain ⟨d, rfl⟩ := hxo
    exact .inl ⟨d, rfl, rfl⟩
  · exact .inr ⟨fun d hd => hxo ⟨d, hd⟩, Op.line_eq _ _ _ x (fun d hd => hxo ⟨d, hd⟩)⟩

/-! ### Expressions -/

/-- The lines of an expression. -/
def exprLines (name : Reg → Option String) (i : String) : List Op → List String
  | [] => [""]
  | op :: ops => bareOp name op :: ops.map (Op.line true name i)

/-- Lines of which the first one starts with `p`. -/
def prepend (p : String) : List String → List String
  | [] => []
  | l :: ls => (p ++ l) :: ls

theorem dropWhile_blank {a b : List Char} (ha : ∀ c ∈ a, isBlank c = true) (hb : b.head?.map isBlank = some false) :
    (a ++ b).dropWhile isBlank = b := by
  induction a with
  | nil =>
    cases b with
    | nil => rfl
    | cons c b =>
      rw [List.nil_append, List.dropWhile_cons, if_neg]
      rw [Option.some.inj hb]; decide
  | cons c a ih =>
    rw [List.cons_append, List.dropWhile_cons, if_pos (ha c (by simp))]
    exact ih fun c hc => ha c (by simp [hc])

/-- Text with blanks around it. -/
theorem trimText_eq {a b s : String} (ha : ∀ c ∈ a.toList, isBlank c = true) (hb : ∀ c ∈ b.toList, isBlank c = true)
    (hs : Trimmed s) : trimText (a ++ s ++ b) = s := by
  have h0 : s.toList ≠ [] := fun h => by have := hs.first; rw [h] at this; cases this
  have h1 : (a ++ s ++ b).toList = a.toList ++ (s.toList ++ b.toList) := by
    rw [String.toList_append, String.toList_append, List.append_assoc]
  have h2 : ((s.toList ++ b.toList).head?).map isBlank = some false := by
    cases h : s.toList with
    | nil => exact absurd h h0
    | cons c t => have := hs.first; rw [h] at this; exact this
  have h3 : (s.toList.reverse.head?).map isBlank = some false := by
    rw [List.head?_reverse]; exact hs.last
  unfold trimText
  rw [h1, dropWhile_blank ha h2, List.reverse_append,
    dropWhile_blank (fun c hc => hb c (List.mem_reverse.1 hc)) h3, List.reverse_reverse, String.ofList_toList]

theorem opLine_ends {t : LegacyText} {a : ObjArch} {name : Reg → Option String} (hn : RuleNames name) {i : String} {op : Op}
    (hd : ∀ d, op = .other d → OpDebug t a d) : Ends (op.line true name i) := by
  rcases opLine_cases (name := name) (i := i) (x := op) with ⟨d, h1, h2⟩ | ⟨h1, h2⟩
  · rw [h2]; exact (hd d h1).trimmed.last
  · rw [h2]; exact ends_append (bareOp_ends hn hd)

theorem textOf_cons (l : String) (ls : List String) : textOf (l :: ls) = l ++ "\n" ++ textOf ls := by
  apply String.toList_injective
  rw [textOf_toList, String.toList_append, String.toList_append, textOf_toList, List.flatMap_cons]
  rfl

theorem textOf_append (a b : List String) : textOf (a ++ b) = textOf a ++ textOf b := by
  apply String.toList_injective
  rw [textOf_toList, String.toList_append, textOf_toList, textOf_toList, List.flatMap_append]

theorem textOf_nil : textOf [] = "" := rfl

/-- The text of some lines that do not end with blanks, but for the last newline. -/
theorem textOf_ends : ∀ {l : String} {ls : List String}, Ends l → (∀ x ∈ ls, Ends x) →
    ∃ s, textOf (l :: ls) = l ++ s ++ "\n" ∧ Ends (l ++ s)
  | l, [], hl, _ => ⟨"", by rw [textOf_cons, textOf_nil]; simp, by simpa using hl⟩
  | l, x :: ls, hl, hls => by
    obtain ⟨s, h1, h2⟩ := textOf_ends (l := x) (ls := ls) (hls x (by simp)) fun y hy => hls y (by simp [hy])
    refine ⟨"\n" ++ (x ++ s), ?_, ?_⟩
    · rw [textOf_cons, h1]; simp only [String.append_assoc]
    · rw [← String.append_assoc]; exact ends_append h2

/-- The text of an expression is that of its lines. -/
theorem expressionText_eq {t : LegacyText} {a : ObjArch} {name : Reg → Option String} (hn : RuleNames name) {i : String}
    (hi : Indent i) {ops : List Op} (hd : ∀ d, Op.other d ∈ ops → OpDebug t a d) (p : String) :
    p ++ expressionText name i (ops.map .ok) ++ "\n" = textOf (prepend p (exprLines name i ops)) := by
  unfold expressionText
  rw [listExpression_ok]
  show p ++ trimText (textOf (ops.map (Op.line true name i))) ++ "\n" = _
  cases ops with
  | nil =>
    have h : trimText (textOf (List.map (Op.line true name i) [])) = "" :=
      (show trimText "" = "" by decide +kernel)
    rw [h]
    simp [exprLines, prepend, textOf_cons, textOf_nil]
  | cons op ops =>
    have hop : ∀ d, op = .other d → OpDebug t a d := fun d h => hd d (by simp [h])
    have hls : ∀ x ∈ ops.map (Op.line true name i), Ends x := by
      intro x hx
      obtain ⟨o, ho, rfl⟩ := List.mem_map.1 hx
      exact opLine_ends (t := t) (a := a) hn fun d h => hd d (by simp [← h, ho])
    obtain ⟨s, h1, h2⟩ := textOf_ends (bareOp_ends hn hop) hls
    have h3 : textOf (bareOp name op :: ops.map (Op.line true name i)) =
        bareOp name op ++ "\n" ++ textOf (ops.map (Op.line true name i)) := textOf_cons _ _
    have hfirst : (bareOp name op ++ s).toList.head?.map isBlank = some false := by
      obtain ⟨c, u, h4, h5⟩ := bareOp_first name hop
      rw [String.toList_append, h4, List.cons_append, List.head?_cons, Option.map_some, h5]
    have hind : ∃ j : String, (∀ c ∈ j.toList, isBlank c = true) ∧ op.line true name i = j ++ bareOp name op := by
      rcases opLine_cases (name := name) (i := i) (x := op) with ⟨d, h4, h5⟩ | ⟨h4, h5⟩
      · exact ⟨"", (fun c hc => absurd hc (by rw [String.toList_empty]; exact List.not_mem_nil)), by rw [h5, h4, bareOp_other]; simp⟩
      · exact ⟨i, hi.blank, h5⟩
    obtain ⟨j, hj, hline⟩ := hind
    have h6 : textOf ((op :: ops).map (Op.line true name i)) = j ++ (bareOp name op ++ s) ++ "\n" := by
      rw [h1] at h3
      rw [List.map_cons, textOf_cons, hline]
      simp only [String.append_assoc] at h3 ⊢
      rw [← h3]
    rw [h6, trimText_eq hj (by decide +kernel) ⟨hfirst, h2⟩]
    show _ = textOf ((p ++ bareOp name op) :: ops.map (Op.line true name i))
    rw [h1] at h3
    rw [textOf_cons]
    simp only [String.append_assoc] at h3 ⊢
    rw [← h3]

theorem op_debug {t : LegacyText} {a : ObjArch} {op : Op} {ops : List Op} (hd : ∀ d, Op.other d ∈ ops → OpDebug t a d)
    (h : op ∈ ops) : ∀ d, op = .other d → OpDebug t a d := fun d e => hd d (e ▸ h)

theorem bareOp_ne {t : LegacyText} {a : ObjArch} (name : Reg → Option String) {op : Op}
    (hd : ∀ d, op = .other d → OpDebug t a d) : bareOp name op ≠ "" := by
  intro h
  obtain ⟨c, s, h1, -⟩ := bareOp_first name hd
  rw [h] at h1
  cases h1

theorem map_inj_mem {α β : Type} {f : α → β} {as bs : List α} (hf : ∀ a ∈ as, ∀ b ∈ bs, f a = f b → a = b)
    (h : as.map f = bs.map f) : as = bs := by
  induction as generalizing bs with
  | nil => cases bs with
    | nil => rfl
    | cons b bs => cases h
  | cons a as ih => cases bs with
    | nil => cases h
    | cons b bs =>
      obtain ⟨h1, h2⟩ := List.cons.inj h
      rw [hf a (by simp) b (by simp) h1, ih (fun x hx y hy => hf x (by simp [hx]) y (by simp [hy])) h2]

theorem exprLines_inj {t : LegacyText} {a : ObjArch} {name : Reg → Option String} (hn : RuleNames name) {i : String}
    (hi : Indent i) {ops ops' : List Op} (hd : ∀ d, Op.other d ∈ ops → OpDebug t a d)
    (hd' : ∀ d, Op.other d ∈ ops' → OpDebug t a d) (h : exprLines name i ops = exprLines name i ops') : ops = ops' := by
  cases ops with
  | nil =>
    cases ops' with
    | nil => rfl
    | cons y ys => exact absurd (List.cons.inj h).1.symm (bareOp_ne name (op_debug hd' (by simp)))
  | cons x xs =>
    cases ops' with
    | nil => exact absurd (List.cons.inj h).1 (bareOp_ne name (op_debug hd (by simp)))
    | cons y ys =>
      obtain ⟨h1, h2⟩ := List.cons.inj h
      rw [bareOp_inj hn (op_debug hd (by simp)) (op_debug hd' (by simp)) h1, map_inj_mem (fun x hx y hy =>
        opLine_inj hn hi (op_debug hd (by simp [hx])) (op_debug hd' (by simp [hy]))) h2]

/-- A single line is not the text of an expression. -/
theorem exprLines_single {t : LegacyText} {a : ObjArch} {name : Reg → Option String} {i : String} {ops : List Op}
    (hd : ∀ d, Op.other d ∈ ops → OpDebug t a d) {s : String} (h0 : s ≠ "") (h1 : s.toList.take 3 ≠ "DW_".toList)
    (h2 : ∀ d, OpDebug t a d → d ≠ s) : exprLines name i ops ≠ [s] := by
  intro h
  cases ops with
  | nil => exact h0 (List.cons.inj h).1.symm
  | cons x xs =>
    have h := (List.cons.inj h).1
    by_cases hx : ∃ d, x = .other d
    · obtain ⟨d, rfl⟩ := hx
      rw [bareOp_other] at h
      exact h2 d (hd d (by simp)) h
    · exact h1 (h ▸ bareOp_dw name fun d hd => hx ⟨d, hd⟩)

/-- The operations of an expression. -/
def opsOf (e : Expr) : List Op := e.filterMap fun x => x.toOption

theorem decodable_ops {e : Expr} (h : Decodable e) : e = (opsOf e).map .ok := by
  induction e with
  | nil => rfl
  | cons x e ih =>
    obtain ⟨op, rfl⟩ := h x (by simp)
    exact congrArg (_ :: ·) (ih fun y hy => h y (by simp [hy]))

theorem ops_debug {t : LegacyText} {a : ObjArch} {e : Expr} (h : Decodable e) (hd : ExprDebugs t a e) :
    ∀ d, Op.other d ∈ opsOf e → OpDebug t a d := by
  intro d hm
  apply hd d
  rw [decodable_ops h]
  exact List.mem_map_of_mem hm

/-! ### Rules -/

/-- The lines of a rule. -/
def ruleLines (t : LegacyText) (a : ObjArch) : RegRule → List String
  | .expression e => exprLines (t.ruleName a) "        " (opsOf e)
  | rule => [t.ruleText a rule]

theorem ruleLines_eq (t : LegacyText) (a : ObjArch) {r : RegRule} (h : ∀ e, r ≠ .expression e) :
    ruleLines t a r = [t.ruleText a r] := by
  cases r <;> first | rfl | exact absurd rfl (h _)

theorem regText_plain {name : Reg → Option String} (hn : RuleNames name) (r : Reg) :
    '+' ∉ (regText name r).toList ∧ '-' ∉ (regText name r).toList ∧
    '(' ∉ (regText name r).toList ∧ ' ' ∉ (regText name r).toList ∧ '\n' ∉ (regText name r).toList := by
  unfold regText
  cases h : name r with
  | some n =>
    obtain ⟨h1, h2, h3⟩ := hn.plain h
    obtain ⟨h4, -, h5⟩ := hn.names.plain h
    exact ⟨h1, h2, h3, h4, h5⟩
  | none =>
    exact ⟨not_mem_fmtNat (by decide) _, not_mem_fmtNat (by decide) _, not_mem_fmtNat (by decide) _,
      not_mem_fmtNat (by decide) _, not_mem_fmtNat (by decide) _⟩

theorem fmtNat_dw (n : Nat) (s : List Char) : ((fmtNat n).toList ++ s).take 3 ≠ "DW_".toList := by
  intro h
  cases hc : (fmtNat n).toList with
  | nil => exact fmtNat_ne_nil n hc
  | cons c cs =>
    have := fmtNat_digits n c (by rw [hc]; simp)
    rw [hc, show "DW_".toList = ['D', 'W', '_'] by decide +kernel, List.cons_append, List.take_succ_cons] at h
    rw [(List.cons.inj h).1] at this
    exact absurd this (by decide)

/-- What is not the start of an operation remains so with something else after it. -/
theorem dw_append {n : List Char} {c : Char} {s : List Char} (h : n.take 3 ≠ ['D', 'W', '_']) (h1 : c ≠ 'D')
    (h2 : c ≠ 'W') (h3 : c ≠ '_') : (n ++ c :: s).take 3 ≠ ['D', 'W', '_'] := by
  rcases n with _ | ⟨x, _ | ⟨y, _ | ⟨z, n⟩⟩⟩
  · intro h'; exact h1 (List.cons.inj h').1
  · intro h'; exact h2 (List.cons.inj (List.cons.inj h').2).1
  · intro h'; exact h3 (List.cons.inj (List.cons.inj (List.cons.inj h').2).2).1
  · exact h

theorem dw_list : "DW_".toList = ['D', 'W', '_'] := by decide +kernel

theorem regText_dw {name : Reg → Option String} (hn : RuleNames name) (r : Reg) :
    (regText name r).toList.take 3 ≠ "DW_".toList := by
  unfold regText
  cases h : name r with
  | some n => exact hn.word h
  | none => have := fmtNat_dw r.toNat []; rwa [List.append_nil] at this

theorem regText_ne {name : Reg → Option String} (hn : RuleNames name) (r : Reg) : (regText name r).toList ≠ [] := by
  unfold regText
  cases h : name r with
  | some n => exact hn.names.ne_nil h
  | none => exact fmtNat_ne_nil _

theorem signed_toList (x : I64) : ∃ c s, (fmtSigned64 x).toList = c :: s ∧ (c = '+' ∨ c = '-') := by
  unfold fmtSigned64
  split
  · exact ⟨'-', (fmtNat _).toList, by rw [String.toList_append]; rfl, .inr rfl⟩
  · exact ⟨'+', (fmtNat _).toList, by rw [String.toList_append]; rfl, .inl rfl⟩

/-- A register and an offset are not the text of an operation. -/
theorem cfaText_dw {name : Reg → Option String} (hn : RuleNames name) (r : Reg) (o : I64) :
    (regText name r ++ fmtSigned64 o).toList.take 3 ≠ "DW_".toList := by
  obtain ⟨c, s, h1, h2⟩ := signed_toList o
  rw [String.toList_append, h1, dw_list]
  have := regText_dw hn r
  rw [dw_list] at this
  rcases h2 with rfl | rfl <;> exact dw_append this (by decide) (by decide) (by decide)

theorem lit_dw (s x : String) (h : 3 ≤ s.toList.length ∧ s.toList.take 3 ≠ "DW_".toList) :
    (s ++ x).toList.take 3 ≠ "DW_".toList := by rw [take_lit 3 s x h.1]; exact h.2

theorem ne_empty {s : String} (h : s.toList ≠ []) : s ≠ "" := fun e => h (by rw [e]; rfl)

theorem lit_ne (s x : String) (h : s.toList ≠ []) : s ++ x ≠ "" := by
  apply ne_empty
  rw [String.toList_append]
  intro h'
  exact h (List.append_eq_nil_iff.1 h').1

/-- A rule that is not an expression does not read like one. -/
theorem ruleText_dw {t : LegacyText} {a : ObjArch} (ht : LegacyNames t a) {r : RegRule} (h : ∀ e, r ≠ .expression e) :
    (t.ruleText a r).toList.take 3 ≠ "DW_".toList ∧ t.ruleText a r ≠ "" := by
  cases r with
  | undefined => exact (show "<undefined>".toList.take 3 ≠ "DW_".toList ∧ "<undefined>" ≠ "" by decide +kernel)
  | sameValue => exact (show "<same>".toList.take 3 ≠ "DW_".toList ∧ "<same>" ≠ "" by decide +kernel)
  | offset o =>
    show ("*(CFA" ++ fmtSigned64 o ++ ")").toList.take 3 ≠ _ ∧ "*(CFA" ++ fmtSigned64 o ++ ")" ≠ ""
    rw [String.append_assoc]
    exact ⟨lit_dw _ _ (by decide +kernel), lit_ne _ _ (by decide +kernel)⟩
  | valOffset o => exact ⟨lit_dw "CFA" _ (by decide +kernel), lit_ne "CFA" _ (by decide +kernel)⟩
  | register r => exact ⟨regText_dw ht.rules r, ne_empty (regText_ne ht.rules r)⟩
  | constant v =>
    have := fmtNat_dw v.toNat []
    rw [List.append_nil] at this
    exact ⟨this, ne_empty (fmtNat_ne_nil _)⟩
  | expression e => exact absurd rfl (h e)
  | valExpression e =>
    obtain ⟨s, hs⟩ := ht.valExpression e
    show (t.rule (.valExpression e)).toList.take 3 ≠ _ ∧ t.rule (.valExpression e) ≠ ""
    rw [hs]
    exact ⟨lit_dw _ _ (by decide +kernel), lit_ne _ _ (by decide +kernel)⟩
  | architectural =>
    show (t.rule .architectural).toList.take 3 ≠ _ ∧ t.rule .architectural ≠ ""
    rw [ht.architectural]
    decide +kernel

/-- The texts as the newer converter has them. -/
def pseudoRule (t : LegacyText) : RegRule → String
  | .expression _ => "Expression("
  | r => t.rule r

@[inherit_doc pseudoRule]
def pseudo (t : LegacyText) (a : ObjArch) : GimliText :=
  { Samples.names with register := fun _ => t.ruleName a, rule := pseudoRule t }

theorem pseudo_names {t : LegacyText} {a : ObjArch} (ht : LegacyNames t a) : Spec.Names (pseudo t a) .amd64 where
  distinct := ht.rules.names.distinct
  first := by
    intro r n h
    obtain ⟨c, s, h1, h2⟩ := ht.rules.names.first h
    obtain ⟨h3, h4⟩ := ht.rules.first h
    rw [h1] at h3 h4
    exact ⟨c, s, h1, h2, fun e => h3 (by rw [e]; rfl), fun e => h4 (by rw [e]; rfl)⟩
  plain := ht.rules.plain
  notKind := ht.rules.notKind
  expression := fun _ => ⟨"", by show "Expression(" = _; simp⟩
  valExpression := ht.valExpression
  architectural := ht.architectural

theorem pseudo_text (t : LegacyText) (a : ObjArch) {r : RegRule} (h : ∀ e, r ≠ .expression e) :
    ruleText (pseudo t a) .amd64 r = t.ruleText a r := by
  cases r
  case expression e => exact absurd rfl (h e)
  all_goals rfl

/-- Rules that are not expressions. -/
theorem plainRule_iff {t : LegacyText} {a : ObjArch} (ht : LegacyNames t a) {r r' : RegRule}
    (h : ∀ e, r ≠ .expression e) (h' : ∀ e, r' ≠ .expression e) :
    t.ruleText a r = t.ruleText a r' ↔ SameRule1 t a r r' := by
  rw [← pseudo_text t a h, ← pseudo_text t a h', ruleText_iff (pseudo_names ht)]
  constructor
  · intro hs
    cases hs with
    | refl => exact .refl _
    | number h1 h2 => exact .number h1 h2
    | number' h1 h2 => exact .number' h1 h2
    | expression => exact absurd rfl (h _)
    | valExpression hv => exact .valExpression hv
  · intro hs
    cases hs with
    | refl => exact .refl _
    | number h1 h2 => exact .number h1 h2
    | number' h1 h2 => exact .number' h1 h2
    | valExpression hv => exact .valExpression hv

/-- A rule whose expression, if it is one, can be decoded and has good texts. -/
def GoodRule (t : LegacyText) (a : ObjArch) (r : RegRule) : Prop :=
  ∀ e, r = .expression e → Decodable e ∧ ExprDebugs t a e

theorem ruleLines_iff {t : LegacyText} {a : ObjArch} (ht : LegacyNames t a) {r r' : RegRule}
    (h : GoodRule t a r) (h' : GoodRule t a r') : ruleLines t a r = ruleLines t a r' ↔ SameRule1 t a r r' := by
  by_cases he : ∃ e, r = .expression e
  · obtain ⟨e, rfl⟩ := he
    obtain ⟨h1, h2⟩ := h e rfl
    by_cases he' : ∃ e', r' = .expression e'
    · obtain ⟨e', rfl⟩ := he'
      obtain ⟨h1', h2'⟩ := h' e' rfl
      constructor
      · intro hl
        have := exprLines_inj ht.rules indent8 (ops_debug h1 h2) (ops_debug h1' h2') hl
        rw [decodable_ops h1, this, ← decodable_ops h1']
        exact .refl _
      · intro hs
        cases hs
        rfl
    · have hn' : ∀ e, r' ≠ .expression e := fun e hr => he' ⟨e, hr⟩
      constructor
      · intro hl
        rw [ruleLines_eq t a hn'] at hl
        obtain ⟨h3, h4⟩ := ruleText_dw ht hn'
        exact absurd hl (exprLines_single (ops_debug h1 h2) h4 h3 fun d hd => hd.rule r' hn')
      · intro hs
        cases hs
        exact absurd rfl (hn' e)
  · have hn : ∀ e, r ≠ .expression e := fun e hr => he ⟨e, hr⟩
    by_cases he' : ∃ e', r' = .expression e'
    · obtain ⟨e', rfl⟩ := he'
      obtain ⟨h1', h2'⟩ := h' e' rfl
      constructor
      · intro hl
        rw [ruleLines_eq t a hn] at hl
        obtain ⟨h3, h4⟩ := ruleText_dw ht hn
        exact absurd hl.symm (exprLines_single (ops_debug h1' h2') h4 h3 fun d hd => hd.rule r hn)
      · intro hs
        cases hs
        exact absurd rfl (hn e')
    · have hn' : ∀ e, r' ≠ .expression e := fun e hr => he' ⟨e, hr⟩
      rw [ruleLines_eq t a hn, ruleLines_eq t a hn', ← plainRule_iff ht hn hn']
      exact ⟨fun h => (List.cons.inj h).1, fun h => by rw [h]⟩

/-! ### Items -/

/-- The lines of a CFA. -/
def cfaLines (t : LegacyText) : CfaRule → List String
  | .registerAndOffset r o => [regText t.name r ++ fmtSigned64 o]
  | .expression e => exprLines t.name "            " (opsOf e)

/-- A CFA whose expression, if it is one, can be decoded and has good texts. -/
def GoodCfa (t : LegacyText) (a : ObjArch) (c : CfaRule) : Prop :=
  ∀ e, c = .expression e → Decodable e ∧ ExprDebugs t a e

theorem cfaLines_inj {t : LegacyText} {a : ObjArch} (ht : LegacyNames t a) {c c' : CfaRule} (h : GoodCfa t a c)
    (h' : GoodCfa t a c') (hl : cfaLines t c = cfaLines t c') : c = c' := by
  have hne : ∀ r o, regText t.name r ++ fmtSigned64 o ≠ "" := fun r o => lit_ne _ _ (regText_ne ht.shown r)
  cases c with
  | registerAndOffset r o =>
    cases c' with
    | registerAndOffset r' o' =>
      obtain ⟨h1, h2, -⟩ := regText_plain ht.shown r
      obtain ⟨h1', h2', -⟩ := regText_plain ht.shown r'
      obtain ⟨h3, rfl⟩ := signed_inj h1 h2 h1' h2' (List.cons.inj hl).1
      rw [regText_inj ht.shown.names h3]
    | expression e =>
      obtain ⟨h1, h2⟩ := h' e rfl
      exact absurd hl.symm (exprLines_single (ops_debug h1 h2) (hne r o) (cfaText_dw ht.shown r o) fun d hd => hd.cfa r o)
  | expression e =>
    obtain ⟨h1, h2⟩ := h e rfl
    cases c' with
    | registerAndOffset r' o' =>
      exact absurd hl (exprLines_single (ops_debug h1 h2) (hne r' o') (cfaText_dw ht.shown r' o') fun d hd => hd.cfa r' o')
    | expression e' =>
      obtain ⟨h1', h2'⟩ := h' e' rfl
      rw [decodable_ops h1, exprLines_inj ht.shown indent12 (ops_debug h1 h2) (ops_debug h1' h2') hl, ← decodable_ops h1']

/-- The parts of a row after its range. -/
inductive Item
  | cfa (c : CfaRule)
  | reg (x : Reg × RegRule)
  | stored (r : Rules)

/-- The lines of a part. -/
def Item.lines (t : LegacyText) (a : ObjArch) : Item → List String
  | .cfa c => prepend "    cfa:    " (cfaLines t c)
  | .reg x => prepend "    reg:    " (prepend (regText t.name x.1 ++ " = ") (ruleLines t a x.2))
  | .stored r => [sframeLine r]

/-- A part without expressions that cannot be decoded or have bad texts. -/
def Item.Good (t : LegacyText) (a : ObjArch) : Item → Prop
  | .cfa c => GoodCfa t a c
  | .reg x => GoodRule t a x.2
  | .stored _ => True

/-- Parts that say the same, not counting what is stored. -/
inductive SameItem (t : LegacyText) (a : ObjArch) : Item → Item → Prop
  | cfa (c) : SameItem t a (.cfa c) (.cfa c)
  | reg {x y : Reg × RegRule} : x.1 = y.1 → SameRule1 t a x.2 y.2 → SameItem t a (.reg x) (.reg y)
  | stored (r r') : SameItem t a (.stored r) (.stored r')

/-- The first five characters. -/
def first5 (s : String) : List Char := s.toList.take 5

/-- A line that is not the first of a part. -/
def Later (s : String) : Prop := first5 s ≠ first5 "    c" ∧ first5 s ≠ first5 "    r" ∧ first5 s ≠ first5 "    s"

theorem first5_lit (s x : String) (h : 5 ≤ s.toList.length) : first5 (s ++ x) = first5 s := take_lit 5 s x h

theorem opLine_later {t : LegacyText} {a : ObjArch} {name : Reg → Option String} {i : String} {op : Op}
    (hi : i = "        " ∨ i = "            ") (hd : ∀ d, op = .other d → OpDebug t a d) :
    Later (op.line true name i) ∧ first4 (op.line true name i) ≠ first4 "  - " := by
  rcases opLine_cases (name := name) (i := i) (x := op) with ⟨d, h1, h2⟩ | ⟨h1, h2⟩
  · rw [h2]
    have := (hd d h1).trimmed.first
    cases hl : d.toList with
    | nil => rw [hl] at this; cases this
    | cons c cs =>
      rw [hl] at this
      have hc : c ≠ ' ' := by
        rintro rfl
        exact absurd (Option.some.inj this) (by decide)
      have key : ∀ {k : Nat} {s : List Char}, d.toList.take (k + 1) ≠ ' ' :: s := by
        intro k s h
        rw [hl, List.take_succ_cons] at h
        exact hc (List.cons.inj h).1
      have h4 : first4 "  - " = ' ' :: " - ".toList := by decide +kernel
      have h5 : first5 "    c" = ' ' :: "   c".toList := by decide +kernel
      have h6 : first5 "    r" = ' ' :: "   r".toList := by decide +kernel
      have h7 : first5 "    s" = ' ' :: "   s".toList := by decide +kernel
      refine ⟨⟨?_, ?_, ?_⟩, ?_⟩
      · rw [h5]; exact key
      · rw [h6]; exact key
      · rw [h7]; exact key
      · rw [h4]; exact key
  · rw [h2]
    unfold Later
    rcases hi with rfl | rfl
    · rw [first5_lit _ _ (by decide +kernel), first4_lit _ _ (by decide +kernel)]
      decide +kernel
    · rw [first5_lit _ _ (by decide +kernel), first4_lit _ _ (by decide +kernel)]
      decide +kernel

theorem exprLines_later {t : LegacyText} {a : ObjArch} {name : Reg → Option String} {i : String}
    (hi : i = "        " ∨ i = "            ") {ops : List Op} (hd : ∀ d, Op.other d ∈ ops → OpDebug t a d) :
    ∃ l ls, exprLines name i ops = l :: ls ∧ ∀ x ∈ ls, Later x ∧ first4 x ≠ first4 "  - " := by
  cases ops with
  | nil => exact ⟨_, _, rfl, by simp⟩
  | cons op ops =>
    refine ⟨_, _, rfl, fun x hx => ?_⟩
    obtain ⟨o, ho, rfl⟩ := List.mem_map.1 hx
    exact opLine_later hi (op_debug hd (by simp [ho]))

theorem ruleLines_later {t : LegacyText} {a : ObjArch} {r : RegRule} (h : GoodRule t a r) :
    ∃ l ls, ruleLines t a r = l :: ls ∧ ∀ x ∈ ls, Later x ∧ first4 x ≠ first4 "  - " := by
  by_cases he : ∃ e, r = .expression e
  · obtain ⟨e, rfl⟩ := he
    obtain ⟨h1, h2⟩ := h e rfl
    exact exprLines_later (.inl rfl) (ops_debug h1 h2)
  · exact ⟨_, [], ruleLines_eq t a fun e h => he ⟨e, h⟩, by simp⟩

theorem cfaLines_later {t : LegacyText} {a : ObjArch} {c : CfaRule} (h : GoodCfa t a c) :
    ∃ l ls, cfaLines t c = l :: ls ∧ ∀ x ∈ ls, Later x ∧ first4 x ≠ first4 "  - " := by
  cases c with
  | registerAndOffset r o => exact ⟨_, [], rfl, by simp⟩
  | expression e =>
    obtain ⟨h1, h2⟩ := h e rfl
    exact exprLines_later (.inr rfl) (ops_debug h1 h2)

/-- What the first line of a part starts with. -/
def Item.key : Item → List Char
  | .cfa _ => first5 "    c"
  | .reg _ => first5 "    r"
  | .stored _ => first5 "    s"

theorem item_lines {t : LegacyText} {a : ObjArch} {x : Item} (h : x.Good t a) :
    ∃ l ls, x.lines t a = l :: ls ∧ first5 l = x.key ∧ first4 l ≠ first4 "  - " ∧
      ∀ y ∈ ls, Later y ∧ first4 y ≠ first4 "  - " := by
  cases x with
  | cfa c =>
    obtain ⟨l, ls, h1, h2⟩ := cfaLines_later (t := t) (a := a) (c := c) h
    refine ⟨"    cfa:    " ++ l, ls, ?_, ?_, ?_, h2⟩
    · show prepend _ (cfaLines t c) = _
      rw [h1]; rfl
    · exact (first5_lit _ _ (by decide +kernel)).trans (show first5 "    cfa:    " = first5 "    c" by decide +kernel)
    · rw [first4_lit _ _ (by decide +kernel)]; decide +kernel
  | reg x =>
    obtain ⟨l, ls, h1, h2⟩ := ruleLines_later (t := t) (a := a) (r := x.2) h
    refine ⟨"    reg:    " ++ (regText t.name x.1 ++ " = " ++ l), ls, ?_, ?_, ?_, h2⟩
    · show prepend _ (prepend _ (ruleLines t a x.2)) = _
      rw [h1]; rfl
    · exact (first5_lit _ _ (by decide +kernel)).trans (show first5 "    reg:    " = first5 "    r" by decide +kernel)
    · rw [first4_lit _ _ (by decide +kernel)]; decide +kernel
  | stored r =>
    refine ⟨_, [], rfl, ?_, ?_, by simp⟩
    · exact (first5_lit "    sframe: FrameRowOffsets { cfa: " _ (by decide +kernel)).trans
        (show first5 "    sframe: FrameRowOffsets { cfa: " = first5 "    s" by decide +kernel)
    · unfold sframeLine
      rw [first4_lit _ _ (by decide +kernel)]; decide +kernel

theorem item_key (x : Item) {l : String} (h : first5 l = x.key) : ¬ Later l := by
  cases x
  · exact fun hl => hl.1 h
  · exact fun hl => hl.2.1 h
  · exact fun hl => hl.2.2 h

theorem prepend_inj {p : String} {as bs : List String} (h : prepend p as = prepend p bs) : as = bs := by
  cases as <;> cases bs <;> first | rfl | (cases h; done) | skip
  obtain ⟨h1, h2⟩ := List.cons.inj h
  rw [prefix_cancel h1, h2]

theorem item_iff {t : LegacyText} {a : ObjArch} (ht : LegacyNames t a) {x y : Item} (hx : x.Good t a) (hy : y.Good t a)
    (h : x.lines t a = y.lines t a) : SameItem t a x y := by
  obtain ⟨l, ls, h1, h2, -⟩ := item_lines hx
  obtain ⟨l', ls', h1', h2', -⟩ := item_lines hy
  have hk : x.key = y.key := by
    rw [h1, h1'] at h
    rw [← h2, ← h2', (List.cons.inj h).1]
  cases x with
  | cfa c => cases y with
    | cfa c' => rw [cfaLines_inj ht hx hy (prepend_inj h)]; exact .cfa _
    | reg y => exact absurd hk (show first5 "    c" ≠ first5 "    r" by decide +kernel)
    | stored r => exact absurd hk (show first5 "    c" ≠ first5 "    s" by decide +kernel)
  | reg x => cases y with
    | cfa c' => exact absurd hk (show first5 "    r" ≠ first5 "    c" by decide +kernel)
    | reg y =>
      have h := prepend_inj (show prepend _ _ = prepend _ _ from h)
      obtain ⟨l, ls, h3, -⟩ := ruleLines_later (t := t) (a := a) (r := x.2) hx
      obtain ⟨l', ls', h3', -⟩ := ruleLines_later (t := t) (a := a) (r := y.2) hy
      rw [h3, h3'] at h
      obtain ⟨h4, h5⟩ := List.cons.inj (show (_ ++ l) :: ls = (_ ++ l') :: ls' from h)
      rw [String.append_assoc, String.append_assoc] at h4
      obtain ⟨h6, h7⟩ := sep_string ' ' "= " (regText_plain ht.shown x.1).2.2.2.1 (regText_plain ht.shown y.1).2.2.2.1 h4
      exact .reg (regText_inj ht.shown.names h6) ((ruleLines_iff ht hx hy).1 (by rw [h3, h3', h7, h5]))
    | stored r => exact absurd hk (show first5 "    r" ≠ first5 "    s" by decide +kernel)
  | stored r => cases y with
    | cfa c' => exact absurd hk (show first5 "    s" ≠ first5 "    c" by decide +kernel)
    | reg y => exact absurd hk (show first5 "    s" ≠ first5 "    r" by decide +kernel)
    | stored r' => exact .stored _ _

/-- Lists of blocks of lines of which only the first are marked. -/
theorem each_blocks {α : Type} {f : α → List String} {P : String → Prop} {as bs : List α}
    (hf : ∀ a ∈ as, ∃ h t, f a = h :: t ∧ ¬ P h ∧ ∀ x ∈ t, P x)
    (hf' : ∀ a ∈ bs, ∃ h t, f a = h :: t ∧ ¬ P h ∧ ∀ x ∈ t, P x) (h : as.flatMap f = bs.flatMap f) :
    Each (fun a b => f a = f b) as bs := by
  have key : ∀ (cs : List α), (∀ a ∈ cs, ∃ h t, f a = h :: t ∧ ¬ P h ∧ ∀ x ∈ t, P x) →
      ∀ x t, cs.flatMap f = x :: t → ¬ P x := by
    intro cs hc x t hx
    cases cs with
    | nil => cases hx
    | cons c cs =>
      obtain ⟨h, t', h1, h2, -⟩ := hc c (by simp)
      rw [List.flatMap_cons, h1] at hx
      rw [← (List.cons.inj hx).1]; exact h2
  induction as generalizing bs with
  | nil => cases bs with
    | nil => exact .nil
    | cons b bs =>
      obtain ⟨h', t, h1, -⟩ := hf' b (by simp)
      rw [List.flatMap_cons, h1] at h
      cases h
  | cons a as ih => cases bs with
    | nil =>
      obtain ⟨h', t, h1, -⟩ := hf a (by simp)
      rw [List.flatMap_cons, h1] at h
      cases h
    | cons b bs =>
      obtain ⟨x, t, h1, -, h2⟩ := hf a (by simp)
      obtain ⟨x', t', h1', -, h2'⟩ := hf' b (by simp)
      have ha := fun y hy => hf y (List.mem_cons_of_mem _ hy)
      have hb := fun y hy => hf' y (List.mem_cons_of_mem _ hy)
      rw [List.flatMap_cons, List.flatMap_cons, h1, h1'] at h
      obtain ⟨h3, h4⟩ := List.cons.inj h
      obtain ⟨h5, h6⟩ := split_lines h2 h2' (key as ha) (key bs hb) h4
      exact .cons (by rw [h1, h1', h3, h5]) (ih ha hb h6)

/-! ### Rows -/

/-- The parts of a row. -/
def items (row : DwRow) : List Item :=
  .cfa row.cfa :: (row.registers.map .reg ++ (legacyTranslate row).toList.map .stored)

/-- The lines of a row, one by one. -/
def rowLines1 (t : LegacyText) (a : ObjArch) (row : DwRow) : List String :=
  offsetLine1 row :: (items row).flatMap (Item.lines t a)

/-- A row that can be printed and has good texts. -/
def GoodRow (t : LegacyText) (a : ObjArch) (row : DwRow) : Prop := Printable row ∧ RowDebugs t a row

theorem items_good {t : LegacyText} {a : ObjArch} {row : DwRow} (h : GoodRow t a row) : ∀ x ∈ items row, x.Good t a := by
  intro x hx
  rcases List.mem_cons.1 hx with rfl | hx
  · exact fun e he => ⟨h.1.1 e he, h.2.cfa e he⟩
  · rcases List.mem_append.1 hx with hx | hx
    · obtain ⟨y, hy, rfl⟩ := List.mem_map.1 hx
      exact fun e he => ⟨h.1.2 y hy e he, h.2.registers y hy e he⟩
    · obtain ⟨y, -, rfl⟩ := List.mem_map.1 hx
      trivial

theorem same_registers {t : LegacyText} {a : ObjArch} {xs ys : List (Reg × RegRule)} {r r' : List Rules}
    (h : Each (SameItem t a) (xs.map .reg ++ r.map .stored) (ys.map .reg ++ r'.map .stored)) :
    Each (fun p q => p.1 = q.1 ∧ SameRule1 t a p.2 q.2) xs ys := by
  induction xs generalizing ys with
  | nil => cases ys with
    | nil => exact .nil
    | cons y ys =>
      cases r with
      | nil => cases h
      | cons s r =>
        cases h with
        | cons h _ => cases h
  | cons x xs ih => cases ys with
    | nil =>
      cases r' with
      | nil => cases h
      | cons s r' =>
        cases h with
        | cons h _ => cases h
    | cons y ys =>
      cases h with
      | cons h h' =>
        cases h with
        | reg h1 h2 => exact .cons ⟨h1, h2⟩ (ih h')

theorem same_lookup1 {t : LegacyText} {a : ObjArch} {as bs : List (Reg × RegRule)}
    (h : Each (fun p q => p.1 = q.1 ∧ SameRule1 t a p.2 q.2) as bs) (r : Reg) :
    SameRule1 t a ((as.lookup r).getD .undefined) ((bs.lookup r).getD .undefined) := by
  induction h with
  | nil => exact .refl _
  | @cons a b as bs hab _ ih =>
    obtain ⟨ra, va⟩ := a
    obtain ⟨rb, vb⟩ := b
    obtain ⟨h1, h2⟩ := hab
    dsimp only at h1 h2
    subst h1
    rw [List.lookup_cons, List.lookup_cons]
    cases r == ra
    · exact ih
    · exact h2

/-- Rows that read the same are translated alike. -/
theorem same_translate1 {t : LegacyText} {a : ObjArch} {x y : DwRow} (h : SameDwRow1 t a x y) :
    legacyTranslate x = legacyTranslate y := by
  have hc : cfaRules .amd64 x = cfaRules .amd64 y := by
    unfold cfaRules
    rw [h.cfa]
  have hf : legacyFp x = legacyFp y := by
    have := same_lookup1 h.registers 6
    unfold legacyFp DwRow.register
    generalize ((x.registers.lookup _).getD _) = u at this ⊢
    generalize ((y.registers.lookup _).getD _) = v at this ⊢
    cases this <;> rfl
  have hr : raRules .amd64 x = raRules .amd64 y := by
    have := same_lookup1 h.registers (BitVec.ofNat 16 (raNum .amd64))
    unfold raRules DwRow.register
    generalize ((x.registers.lookup _).getD _) = u at this ⊢
    generalize ((y.registers.lookup _).getD _) = v at this ⊢
    cases this <;> rfl
  unfold legacyTranslate
  rw [hc, hf, hr]

theorem sameItem_cfa {t : LegacyText} {a : ObjArch} {c c' : CfaRule} (h : SameItem t a (.cfa c) (.cfa c')) : c = c' := by
  cases h; rfl

theorem rowLines1_iff {t : LegacyText} {a : ObjArch} (ht : LegacyNames t a) {x y : DwRow} (hx : GoodRow t a x)
    (hy : GoodRow t a y) : rowLines1 t a x = rowLines1 t a y ↔ SameDwRow1 t a x y := by
  have hb : ∀ {row : DwRow}, GoodRow t a row → ∀ i ∈ items row,
      ∃ h t', i.lines t a = h :: t' ∧ ¬ Later h ∧ ∀ x ∈ t', Later x := by
    intro row hr i hi
    obtain ⟨l, ls, h1, h2, -, h3⟩ := item_lines (items_good hr i hi)
    exact ⟨l, ls, h1, item_key i h2, fun y hy => (h3 y hy).1⟩
  constructor
  · intro h
    obtain ⟨h1, h2⟩ := List.cons.inj h
    obtain ⟨h4, h5⟩ := range_inj ⟨"(end = ".toList, by decide +kernel⟩ h1
    have h6 := (each_blocks (hb hx) (hb hy) h2).imp fun i hi j hj =>
      item_iff ht (items_good hx i hi) (items_good hy j hj)
    cases h6 with
    | cons h7 h8 =>
      exact ⟨h4, h5, sameItem_cfa h7, same_registers h8⟩
  · intro h
    unfold rowLines1 items offsetLine1
    rw [h.start, h.end_, h.cfa, same_translate1 h]
    congr 1
    rw [List.flatMap_cons, List.flatMap_cons, List.flatMap_append, List.flatMap_append]
    congr 2
    rw [List.flatMap_map, List.flatMap_map]
    refine Spec.Each.flatMap_eq (h.registers.imp fun p hp q hq hpq => ?_)
    show prepend _ (prepend _ _) = prepend _ (prepend _ _)
    rw [hpq.1, (ruleLines_iff ht (fun e he => ⟨hx.1.2 p hp e he, hx.2.registers p hp e he⟩)
      (fun e he => ⟨hy.1.2 q hq e he, hy.2.registers q hq e he⟩)).2 hpq.2]

theorem rowLines1_block {t : LegacyText} {a : ObjArch} {row : DwRow} (h : GoodRow t a row) :
    ∃ l ls, rowLines1 t a row = l :: ls ∧ ¬ (first4 l ≠ first4 "  - ") ∧ ∀ x ∈ ls, first4 x ≠ first4 "  - " := by
  refine ⟨_, _, rfl, fun hn => hn ?_, fun x hx => ?_⟩
  · exact (first4_lit "  - offset: " _ (by decide +kernel)).trans (by decide +kernel)
  · obtain ⟨i, hi, hx⟩ := List.mem_flatMap.1 hx
    obtain ⟨l, ls, h1, -, h2, h3⟩ := item_lines (items_good h i hi)
    rw [h1] at hx
    rcases List.mem_cons.1 hx with rfl | hx
    · exact h2
    · exact (h3 x hx).2

theorem rowsLines1_iff {t : LegacyText} {a : ObjArch} (ht : LegacyNames t a) {xs ys : List DwRow}
    (hx : ∀ r ∈ xs, GoodRow t a r) (hy : ∀ r ∈ ys, GoodRow t a r) :
    xs.flatMap (rowLines1 t a) = ys.flatMap (rowLines1 t a) ↔ Each (SameDwRow1 t a) xs ys :=
  ⟨fun h => (each_blocks (fun r hr => rowLines1_block (hx r hr)) (fun r hr => rowLines1_block (hy r hr)) h).imp
      fun r hr r' hr' => (rowLines1_iff ht (hx r hr) (hy r' hr')).1,
   fun h => Spec.Each.flatMap_eq (h.imp fun r hr r' hr' => (rowLines1_iff ht (hx r hr) (hy r' hr')).2)⟩

/-! ### Text -/

theorem bareOp_newline {t : LegacyText} {a : ObjArch} {name : Reg → Option String} (hn : RuleNames name) {op : Op}
    (hd : ∀ d, op = .other d → OpDebug t a d) : '\n' ∉ (bareOp name op).toList := by
  by_cases ho : ∃ d, op = .other d
  · obtain ⟨d, rfl⟩ := ho
    rw [bareOp_other]; exact (hd d rfl).line
  · have ho' : ∀ d, op ≠ .other d := fun d hd => ho ⟨d, hd⟩
    have := Op.operands sep_newline (.inr (.inr rfl)) hn.names true op
    have hw : '\n' ∉ (op.words true name).1.toList := by
      rw [Op.word_eq _ _ _ ho']; exact (Op.wordOf_space _).2
    have hp : (op.words true name) = ((op.words true name).1, (op.words true name).2) := rfl
    unfold bareOp
    rw [hp, spaced_toList]
    simp only [List.mem_append, not_or, List.mem_flatMap, List.mem_map, List.mem_cons, List.nil_append]
    refine ⟨hw, ?_⟩
    rintro ⟨x, ⟨y, hy, rfl⟩, h | h⟩
    · exact absurd h (by decide)
    · exact this y hy h

theorem opLine_good {t : LegacyText} {a : ObjArch} {name : Reg → Option String} (hn : RuleNames name) {i : String}
    (hi : Indent i) {op : Op} (hd : ∀ d, op = .other d → OpDebug t a d) : GoodLine (op.line true name i) := by
  refine ⟨fun h => ?_, ?_⟩
  · have := opLine_ends (i := i) hn hd
    rw [h] at this
    exact absurd this (by decide +kernel)
  · rcases opLine_cases (name := name) (i := i) (x := op) with ⟨d, h1, h2⟩ | ⟨h1, h2⟩
    · rw [h2]; exact (hd d h1).line
    · rw [h2]; exact not_mem_append hi.line (bareOp_newline hn hd)

/-- Lines of which the first has no newline and the others are good. -/
def FirstLine (ls : List String) : Prop := ∃ l r, ls = l :: r ∧ '\n' ∉ l.toList ∧ ∀ x ∈ r, GoodLine x

theorem firstLine_prepend {p : String} {ls : List String} (hp : '\n' ∉ p.toList) (h : FirstLine ls) :
    FirstLine (prepend p ls) := by
  obtain ⟨l, r, rfl, h1, h2⟩ := h
  exact ⟨_, r, rfl, not_mem_append hp h1, h2⟩

theorem firstLine_good {p : String} {ls : List String} (hp : p ≠ "" ∧ '\n' ∉ p.toList) (h : FirstLine ls) :
    ∀ x ∈ prepend p ls, GoodLine x := by
  obtain ⟨l, r, rfl, h1, h2⟩ := h
  intro x hx
  rcases List.mem_cons.1 (show x ∈ (p ++ l) :: r from hx) with rfl | hx
  · exact goodLine_lit p l hp h1
  · exact h2 x hx

theorem exprLines_firstLine {t : LegacyText} {a : ObjArch} {name : Reg → Option String} (hn : RuleNames name) {i : String}
    (hi : Indent i) {ops : List Op} (hd : ∀ d, Op.other d ∈ ops → OpDebug t a d) : FirstLine (exprLines name i ops) := by
  cases ops with
  | nil => exact ⟨_, _, rfl, by decide, by simp⟩
  | cons op ops =>
    refine ⟨_, _, rfl, bareOp_newline hn (op_debug hd (by simp)), fun x hx => ?_⟩
    obtain ⟨o, ho, rfl⟩ := List.mem_map.1 hx
    exact opLine_good hn hi (op_debug hd (by simp [ho]))

theorem ruleText_newline1 {t : LegacyText} {a : ObjArch} (ht : LegacyNames t a) {r : RegRule}
    (h : ∀ e, r ≠ .expression e) : '\n' ∉ (t.ruleText a r).toList := by
  cases r with
  | undefined => exact (show '\n' ∉ "<undefined>".toList by decide +kernel)
  | sameValue => exact (show '\n' ∉ "<same>".toList by decide +kernel)
  | offset o =>
    exact not_mem_append (not_mem_append (by decide +kernel) (fmtSigned64_newline o)) (by decide +kernel)
  | valOffset o => exact not_mem_append (by decide +kernel) (fmtSigned64_newline o)
  | register r => exact (regText_plain ht.rules r).2.2.2.2
  | constant v => exact not_mem_fmtNat (by decide) _
  | expression e => exact absurd rfl (h e)
  | valExpression e => exact ht.rule _
  | architectural => exact ht.rule _

theorem ruleLines_firstLine {t : LegacyText} {a : ObjArch} (ht : LegacyNames t a) {r : RegRule} (h : GoodRule t a r) :
    FirstLine (ruleLines t a r) := by
  by_cases he : ∃ e, r = .expression e
  · obtain ⟨e, rfl⟩ := he
    obtain ⟨h1, h2⟩ := h e rfl
    exact exprLines_firstLine ht.rules indent8 (ops_debug h1 h2)
  · have hn : ∀ e, r ≠ .expression e := fun e h => he ⟨e, h⟩
    exact ⟨_, [], ruleLines_eq t a hn, ruleText_newline1 ht hn, by simp⟩

theorem cfaLines_firstLine {t : LegacyText} {a : ObjArch} (ht : LegacyNames t a) {c : CfaRule} (h : GoodCfa t a c) :
    FirstLine (cfaLines t c) := by
  cases c with
  | registerAndOffset r o =>
    exact ⟨_, [], rfl, not_mem_append (regText_plain ht.shown r).2.2.2.2 (fmtSigned64_newline o), by simp⟩
  | expression e =>
    obtain ⟨h1, h2⟩ := h e rfl
    exact exprLines_firstLine ht.shown indent12 (ops_debug h1 h2)

theorem intText_newline (x : Int) : '\n' ∉ (intText x).toList := by
  unfold intText
  split
  · exact not_mem_append (by decide) (not_mem_fmtNat (by decide) _)
  · exact not_mem_fmtNat (by decide) _

theorem placeText_newline (x : Option Int) : '\n' ∉ (placeText x).toList := by
  cases x with
  | none => exact (show '\n' ∉ "None".toList by decide +kernel)
  | some x => exact not_mem_append (by decide +kernel) (not_mem_append (intText_newline x) (by decide))

theorem item_good {t : LegacyText} {a : ObjArch} (ht : LegacyNames t a) {x : Item} (h : x.Good t a) :
    ∀ l ∈ x.lines t a, GoodLine l := by
  cases x with
  | cfa c => exact firstLine_good (by decide +kernel) (cfaLines_firstLine ht h)
  | reg x =>
    exact firstLine_good (by decide +kernel) (firstLine_prepend
      (not_mem_append (regText_plain ht.shown x.1).2.2.2.2 (by decide +kernel)) (ruleLines_firstLine ht h))
  | stored r =>
    intro l hl
    rw [List.mem_singleton.1 hl]
    exact goodLine_lit _ _ (by decide +kernel) (not_mem_append (intText_newline _) (not_mem_append (by decide +kernel)
      (not_mem_append (intText_newline _) (not_mem_append (by decide +kernel)
        (not_mem_append (placeText_newline _) (by decide +kernel))))))

theorem row_good {t : LegacyText} {a : ObjArch} (ht : LegacyNames t a) {row : DwRow} (h : GoodRow t a row) :
    ∀ l ∈ rowLines1 t a row, GoodLine l := by
  intro l hl
  rcases List.mem_cons.1 hl with rfl | hl
  · exact goodLine_lit _ _ ⟨by decide +kernel, by decide +kernel⟩ (not_mem_append (hexPad_newline _ _)
      (not_mem_append (by decide +kernel) (not_mem_append (hexPad_newline _ _) (by decide +kernel))))
  · obtain ⟨i, hi, hl⟩ := List.mem_flatMap.1 hl
    exact item_good ht (items_good h i hi) l hl

theorem join_append (a b : List String) : String.join (a ++ b) = String.join a ++ String.join b := by
  apply String.toList_injective
  rw [String.toList_append, Text.join_toList, Text.join_toList, Text.join_toList, List.flatMap_append]

theorem printed_append (a b : List Event1) : printed (a ++ b) = printed a ++ printed b := by
  unfold printed
  rw [List.map_append, join_append]

theorem printed_out (ls : List String) : printed (ls.map .out) = textOf ls := by
  unfold printed textOf
  rw [List.map_map]
  rfl

theorem printed_flatMap {α : Type} {f : α → List Event1} {g : α → List String} {as : List α}
    (h : ∀ x ∈ as, printed (f x) = textOf (g x)) : printed (as.flatMap f) = textOf (as.flatMap g) := by
  induction as with
  | nil => rfl
  | cons x as ih =>
    rw [List.flatMap_cons, List.flatMap_cons, printed_append, textOf_append, h x (by simp),
      ih fun y hy => h y (by simp [hy])]

theorem textOf_single (l : String) : textOf [l] = l ++ "\n" := by rw [textOf_cons, textOf_nil]; simp

theorem cfa_text {t : LegacyText} {a : ObjArch} (ht : LegacyNames t a) {c : CfaRule} (h : GoodCfa t a c) :
    textOf (Item.lines t a (.cfa c)) = textOf [cfaLine1 t c] := by
  cases c with
  | registerAndOffset r o => rfl
  | expression e =>
    obtain ⟨h1, h2⟩ := h e rfl
    rw [textOf_single]
    show textOf (prepend _ (exprLines t.name _ (opsOf e))) = "    cfa:    " ++ expressionText t.name _ e ++ "\n"
    rw [← expressionText_eq ht.shown indent12 (ops_debug h1 h2), ← decodable_ops h1]

theorem reg_text {t : LegacyText} {a : ObjArch} (ht : LegacyNames t a) {x : Reg × RegRule} (h : GoodRule t a x.2) :
    textOf (Item.lines t a (.reg x)) = textOf [regLine1 t a x] := by
  obtain ⟨r, rule⟩ := x
  by_cases he : ∃ e, rule = .expression e
  · obtain ⟨e, rfl⟩ := he
    obtain ⟨h1, h2⟩ := h e rfl
    rw [textOf_single]
    have hp : ∀ (p q : String) ls, prepend p (prepend q ls) = prepend (p ++ q) ls := by
      intro p q ls
      cases ls with
      | nil => rfl
      | cons l ls => show (p ++ (q ++ l)) :: ls = (p ++ q ++ l) :: ls; rw [String.append_assoc]
    show textOf (prepend _ (prepend _ (exprLines (t.ruleName a) _ (opsOf e)))) =
      "    reg:    " ++ (regText t.name r ++ (" = " ++ expressionText (t.ruleName a) _ e)) ++ "\n"
    rw [hp, ← expressionText_eq ht.rules indent8 (ops_debug h1 h2), ← decodable_ops h1]
    simp only [String.append_assoc]
  · show textOf (prepend _ (prepend _ (ruleLines t a rule))) = _
    rw [ruleLines_eq t a fun e h => he ⟨e, h⟩]
    show textOf ["    reg:    " ++ (regText t.name r ++ " = " ++ t.ruleText a rule)] = _
    unfold regLine1
    simp only [String.append_assoc]

theorem printed_fpMessage (row : DwRow) : printed (legacyFpMessage row) = "" := by
  have h : ∀ rule, printed [.fpRule rule] = "" := fun _ => (show String.join [""] = "" by decide)
  have h0 : printed [] = "" := rfl
  unfold legacyFpMessage fpMessage
  by_cases hc : legacyCfaNote row = none
  · rw [if_pos hc]
    generalize row.register 6 = r
    cases r <;> first | exact h0 | exact h _
  · rw [if_neg hc]; exact h0

/-- What is printed on stdout for a row. -/
theorem row_text {t : LegacyText} {a : ObjArch} (ht : LegacyNames t a) {row : DwRow} (h : GoodRow t a row) :
    printed (legacyRowEvents t a row) = textOf (rowLines1 t a row) := by
  have hg := items_good h
  have h1 : textOf ((row.registers.map Item.reg).flatMap (Item.lines t a)) =
      textOf (row.registers.map (regLine1 t a)) := by
    have : ∀ xs : List (Reg × RegRule), (∀ x ∈ xs, GoodRule t a x.2) →
        textOf ((xs.map Item.reg).flatMap (Item.lines t a)) = textOf (xs.map (regLine1 t a)) := by
      intro xs hx
      induction xs with
      | nil => rfl
      | cons x xs ih =>
        rw [List.map_cons, List.flatMap_cons, textOf_append, reg_text ht (hx x (by simp)),
          ih fun y hy => hx y (by simp [hy]), List.map_cons, ← textOf_append]
        rfl
    exact this _ fun x hx => hg (.reg x) (by unfold items; simp [hx])
  have h2 : printed (legacyOutcome row) = textOf (((legacyTranslate row).toList.map Item.stored).flatMap (Item.lines t a)) := by
    unfold legacyOutcome
    rw [printed_append, printed_fpMessage]
    cases legacyTranslate row with
    | none => cases legacyComplaint row <;> rfl
    | some r =>
      show "" ++ printed ([sframeLine r].map .out) = textOf [sframeLine r]
      rw [printed_out]; simp
  unfold legacyRowEvents legacyLines rowLines1 items
  rw [printed_append, printed_out, h2, textOf_cons, textOf_cons, textOf_cons, List.flatMap_cons, textOf_append,
    List.flatMap_append, textOf_append, h1, cfa_text ht (hg (.cfa row.cfa) (by unfold items; simp)), textOf_single]
  simp only [String.append_assoc]

/-- The lines of a function, one by one. -/
def fdeLines1 (t : LegacyText) (a : ObjArch) (fde : DwFde) : List String :=
  legacyCode t fde ++ ["", "Rows:"] ++ (rowsOf fde).flatMap (rowLines1 t a) ++ [""]

theorem fde_text {t : LegacyText} {a : ObjArch} (ht : LegacyNames t a) {fde : DwFde}
    (h : ∀ r ∈ rowsOf fde, GoodRow t a r) : printed (legacyFdeEvents t a fde) = textOf (fdeLines1 t a fde) := by
  unfold legacyFdeEvents fdeLines1
  rw [printed_append, printed_append, printed_out, printed_flatMap fun r hr => row_text ht (h r hr),
    show [Event1.out ""] = [""].map .out from rfl, printed_out]
  simp only [textOf_append]

theorem fdeLines1_eq (t : LegacyText) (a : ObjArch) (fde : DwFde) (rest : List String) :
    fdeLines1 t a fde ++ rest = legacyCode t fde ++ "" ::
      (("Rows:" :: (rowsOf fde).flatMap (rowLines1 t a)) ++ "" :: rest) := by
  simp [fdeLines1]

/-- A function that can be printed and has good texts. -/
structure GoodFde (t : LegacyText) (a : ObjArch) (fde : DwFde) : Prop where
  debugs : Debugs fde.instructions
  dump : dumpError fde = none
  rows : ∀ r ∈ rowsOf fde, GoodRow t a r

theorem legacyCode_good {t : LegacyText} {a : ObjArch} (ht : LegacyNames t a) {fde : DwFde} (h : Debugs fde.instructions) :
    ∀ x ∈ legacyCode t fde, GoodLine x := by
  intro x hx
  rcases List.mem_append.1 hx with hx | hx
  · exact reportTop_good fde x hx
  · rcases List.mem_cons.1 hx with rfl | hx
    · exact ⟨by decide +kernel, by decide +kernel⟩
    · exact list_good true ht.shown.names ht.error h x hx

theorem legacyRows_good {t : LegacyText} {a : ObjArch} (ht : LegacyNames t a) {rows : List DwRow}
    (h : ∀ r ∈ rows, GoodRow t a r) : ∀ x ∈ "Rows:" :: rows.flatMap (rowLines1 t a), GoodLine x := by
  intro x hx
  rcases List.mem_cons.1 hx with rfl | hx
  · exact ⟨by decide +kernel, by decide +kernel⟩
  · obtain ⟨r, hr, hx⟩ := List.mem_flatMap.1 hx
    exact row_good ht (h r hr) x hx

theorem fdeLines1_newline {t : LegacyText} {a : ObjArch} (ht : LegacyNames t a) {fde : DwFde} (h : GoodFde t a fde) :
    ∀ x ∈ fdeLines1 t a fde, '\n' ∉ x.toList := by
  intro x hx
  rw [← List.append_nil (fdeLines1 t a fde), fdeLines1_eq] at hx
  rcases List.mem_append.1 hx with hx | hx
  · exact (legacyCode_good ht h.debugs x hx).2
  · rcases List.mem_cons.1 hx with rfl | hx
    · decide
    · rcases List.mem_append.1 hx with hx | hx
      · exact (legacyRows_good ht h.rows x hx).2
      · rw [List.mem_singleton.1 hx]; decide

theorem legacyCode_iff {t : LegacyText} {a : ObjArch} (ht : LegacyNames t a) {x y : DwFde} (hx : GoodFde t a x)
    (hy : GoodFde t a y) : legacyCode t x = legacyCode t y ↔
      x.initial = y.initial ∧ x.len = y.len ∧ SameListing true t.error x.instructions y.instructions := by
  have hl : (listInstructions true t.name t.error x.instructions).1 =
      (listInstructions true t.name t.error y.instructions).1 ↔ SameListing true t.error x.instructions y.instructions := by
    rw [← list_iff ht.shown.names true t.error hx.debugs hy.debugs]
    refine ⟨fun h => Prod.ext h ?_, fun h => congrArg Prod.fst h⟩
    rw [C84_control, C84_control, dump_eq, dump_eq, hx.dump, hy.dump]
  constructor
  · intro h
    obtain ⟨h1, h2⟩ := List.append_inj h rfl
    obtain ⟨h3, h4⟩ := reportTop_inj h1
    exact ⟨h3, h4, hl.1 (List.cons.inj h2).2⟩
  · rintro ⟨h1, h2, h3⟩
    unfold legacyCode reportTop
    rw [h1, h2, hl.2 h3]

theorem fdesLines1_iff {t : LegacyText} {a : ObjArch} (ht : LegacyNames t a) {xs ys : List DwFde}
    (hx : ∀ f ∈ xs, GoodFde t a f) (hy : ∀ f ∈ ys, GoodFde t a f) :
    xs.flatMap (fdeLines1 t a) = ys.flatMap (fdeLines1 t a) ↔ Each (SameFunction1 t a) xs ys := by
  constructor
  · intro h
    have hne : ∀ f (fs : List DwFde), (f :: fs).flatMap (fdeLines1 t a) ≠ [] := fun f fs h => by
      cases (show (fdeLines1 t a f ++ _) = [] from h)
    induction xs generalizing ys with
    | nil => cases ys with
      | nil => exact .nil
      | cons y ys => exact absurd h.symm (hne y ys)
    | cons x xs ih => cases ys with
      | nil => exact absurd h (hne x xs)
      | cons y ys =>
        have gx := hx x (by simp)
        have gy := hy y (by simp)
        rw [List.flatMap_cons, List.flatMap_cons, fdeLines1_eq, fdeLines1_eq] at h
        obtain ⟨h1, h2⟩ := split_lines (P := (· ≠ "")) (fun x hx => (legacyCode_good ht gx.debugs x hx).1)
          (fun x hx => (legacyCode_good ht gy.debugs x hx).1) (fun x t e => by rw [← (List.cons.inj e).1]; simp)
          (fun x t e => by rw [← (List.cons.inj e).1]; simp) h
        obtain ⟨h3, h4⟩ := split_lines (P := (· ≠ "")) (fun x hx => (legacyRows_good ht gx.rows x hx).1)
          (fun x hx => (legacyRows_good ht gy.rows x hx).1) (fun x t e => by rw [← (List.cons.inj e).1]; simp)
          (fun x t e => by rw [← (List.cons.inj e).1]; simp) (List.cons.inj h2).2
        obtain ⟨h5, h6, h7⟩ := (legacyCode_iff ht gx gy).1 h1
        exact .cons ⟨h5, h6, h7, (rowsLines1_iff ht gx.rows gy.rows).1 (List.cons.inj h3).2⟩
          (ih (fun f hf => hx f (by simp [hf])) (fun f hf => hy f (by simp [hf])) (List.cons.inj h4).2)
  · intro h
    refine Spec.Each.flatMap_eq (h.imp fun x hmx y hmy hs => ?_)
    unfold fdeLines1
    rw [(legacyCode_iff ht (hx x hmx) (hy y hmy)).2 ⟨hs.initial, hs.len, hs.instructions⟩,
      (rowsLines1_iff ht (hx x hmx).rows (hy y hmy).rows).2 hs.rows]

theorem printed_iff {t : LegacyText} {a : ObjArch} (ht : LegacyNames t a) {xs ys : List DwFde}
    (hx : ∀ f ∈ xs, GoodFde t a f) (hy : ∀ f ∈ ys, GoodFde t a f) :
    printed (xs.flatMap (legacyFdeEvents t a)) = printed (ys.flatMap (legacyFdeEvents t a)) ↔
      Each (SameFunction1 t a) xs ys := by
  rw [printed_flatMap fun f hf => fde_text ht (hx f hf).rows, printed_flatMap fun f hf => fde_text ht (hy f hf).rows,
    ← fdesLines1_iff ht hx hy]
  refine ⟨fun h => textOf_inj ?_ ?_ h, fun h => by rw [h]⟩ <;> intro l hl <;>
    obtain ⟨f, hf, hl⟩ := List.mem_flatMap.1 hl
  · exact fdeLines1_newline ht (hx f hf) l hl
  · exact fdeLines1_newline ht (hy f hf) l hl

/-! ### C97 -/

/-- **C97** (the code does not show all of a function) Two conversions by the legacy converter that succeed
print the same text on stdout iff their functions say the same one by one: the same place, instructions that are
listed alike, and rows with the same ranges, CFAs and registers and with rules that read the same.  What is missing
from equality: a register without a name and the constant of the same value, and what `gimli` does not print of
an expression for a value. -/
theorem C97_text_partial {dbg : Bool} {t : LegacyText} {a : ObjArch} {eh eh' : EhFrame} {bases bases' : Bases}
    {b b' : SFrameBuilder} {fdes fdes' : List DwFde} (ht : LegacyNames t a)
    (h : legacyConvert dbg eh bases = .ok (.ok b)) (h' : legacyConvert dbg eh' bases' = .ok (.ok b'))
    (hi : inputs eh bases = fdes.map .ok) (hi' : inputs eh' bases' = fdes'.map .ok)
    (ho : ∀ f ∈ fdes, Debugs f.instructions ∧ ∀ r ∈ rowsOf f, RowDebugs t a r)
    (ho' : ∀ f ∈ fdes', Debugs f.instructions ∧ ∀ r ∈ rowsOf f, RowDebugs t a r) :
    printed (legacyConvertT dbg t a eh bases).1 = printed (legacyConvertT dbg t a eh' bases').1 ↔
      Each (SameFunction1 t a) fdes fdes' := by
  obtain ⟨fs, h1, h2⟩ := C94_success (t := t) (a := a) h
  obtain ⟨fs', h1', h2'⟩ := C94_success (t := t) (a := a) h'
  obtain rfl := map_ok_inj (hi.symm.trans h1)
  obtain rfl := map_ok_inj (hi'.symm.trans h1')
  obtain ⟨gs, h3, hc, -⟩ := legacyConvert_iff.1 h
  obtain ⟨gs', h3', hc', -⟩ := legacyConvert_iff.1 h'
  obtain rfl := map_ok_inj (hi.symm.trans h3)
  obtain rfl := map_ok_inj (hi'.symm.trans h3')
  rw [h2, h2']
  exact printed_iff ht
    (fun f hf => ⟨(ho f hf).1, (hc f hf).dump, fun r hr => ⟨(hc f hf).printable r hr, (ho f hf).2 r hr⟩⟩)
    (fun f hf => ⟨(ho' f hf).1, (hc' f hf).dump, fun r hr => ⟨(hc' f hf).printable r hr, (ho' f hf).2 r hr⟩⟩)

theorem addressLines_good (file : ObjFile) : ∀ x ∈ addressLines file, GoodLine x ∧ first4 x ≠ first4 "FDE:" := by
  have key : ∀ (p : String) (n : Nat), (p ≠ "" ∧ '\n' ∉ p.toList) → 4 ≤ p.toList.length → first4 p ≠ first4 "FDE:" →
      GoodLine (p ++ fmtAltHexPad 10 n) ∧ first4 (p ++ fmtAltHexPad 10 n) ≠ first4 "FDE:" := by
    intro p n h1 h2 h3
    exact ⟨goodLine_lit _ _ h1 (hexPad_newline _ _), by rw [first4_lit _ _ h2]; exact h3⟩
  intro x hx
  obtain ⟨y, hy, hx⟩ := List.mem_filterMap.1 hx
  cases hs : file.sectionByName y.1 with
  | none => rw [hs] at hx; cases hx
  | some sec =>
    rw [hs] at hx
    cases Option.some.inj hx
    simp only [List.mem_cons, List.not_mem_nil, or_false] at hy
    rcases hy with rfl | rfl | rfl | rfl <;>
      exact key _ _ (by decide +kernel) (by decide +kernel) (by decide +kernel)

/-- The input of a run that succeeds. -/
theorem made_opened {dbg w args file eh b bytes out} (h : Made1 dbg w args file eh b bytes out) :
    Opened1 w args file eh := ⟨h.input, h.section_⟩

/-- **C97** Two runs of the legacy converter that get as far as writing the output print the same text on stdout
iff the sections whose addresses are shown have the same names and addresses, and the functions say the same one
by one. -/
theorem C97_run_partial {dbg : Bool} {t : LegacyText} {w w' : World} {args args' : Args1} {file file' : ObjFile}
    {eh eh' : EhFrame} {b b' : SFrameBuilder} {bytes bytes' out out' : List U8} {fdes fdes' : List DwFde}
    (h : Made1 dbg w args file eh b bytes out) (h' : Made1 dbg w' args' file' eh' b' bytes' out')
    (ha : file.architecture = file'.architecture) (ht : LegacyNames t file.architecture)
    (hi : inputs eh (toolBases file) = fdes.map .ok) (hi' : inputs eh' (toolBases file') = fdes'.map .ok)
    (ho : ∀ f ∈ fdes, Debugs f.instructions ∧ ∀ r ∈ rowsOf f, RowDebugs t file.architecture r)
    (ho' : ∀ f ∈ fdes', Debugs f.instructions ∧ ∀ r ∈ rowsOf f, RowDebugs t file.architecture r) :
    printed (main1Prints dbg t w args) = printed (main1Prints dbg t w' args') ↔
      addressLines file = addressLines file' ∧ Each (SameFunction1 t file.architecture) fdes fdes' := by
  rw [(C94_run dbg t w args).1 _ _ (made_opened h), (C94_run dbg t w' args').1 _ _ (made_opened h'), ← ha]
  obtain ⟨fs, h1, h2⟩ := C94_success (t := t) (a := file.architecture) h.convert
  obtain ⟨fs', h1', h2'⟩ := C94_success (t := t) (a := file.architecture) h'.convert
  obtain rfl := map_ok_inj (hi.symm.trans h1)
  obtain rfl := map_ok_inj (hi'.symm.trans h1')
  obtain ⟨gs, h3, hc, -⟩ := legacyConvert_iff.1 h.convert
  obtain ⟨gs', h3', hc', -⟩ := legacyConvert_iff.1 h'.convert
  obtain rfl := map_ok_inj (hi.symm.trans h3)
  obtain rfl := map_ok_inj (hi'.symm.trans h3')
  have hg : ∀ f ∈ fdes, GoodFde t file.architecture f := fun f hf =>
    ⟨(ho f hf).1, (hc f hf).dump, fun r hr => ⟨(hc f hf).printable r hr, (ho f hf).2 r hr⟩⟩
  have hg' : ∀ f ∈ fdes', GoodFde t file.architecture f := fun f hf =>
    ⟨(ho' f hf).1, (hc' f hf).dump, fun r hr => ⟨(hc' f hf).printable r hr, (ho' f hf).2 r hr⟩⟩
  rw [h2, h2', printed_append, printed_append, printed_out, printed_out,
    printed_flatMap fun f hf => fde_text ht (hg f hf).rows, printed_flatMap fun f hf => fde_text ht (hg' f hf).rows,
    ← textOf_append, ← textOf_append, ← fdesLines1_iff ht hg hg']
  have hn : ∀ (x : ObjFile) {fs : List DwFde}, (∀ f ∈ fs, GoodFde t file.architecture f) →
      ∀ l ∈ addressLines x ++ fs.flatMap (fdeLines1 t file.architecture), '\n' ∉ l.toList := by
    intro x fs hg l hl
    rcases List.mem_append.1 hl with hl | hl
    · exact (addressLines_good x l hl).1.2
    · obtain ⟨f, hf, hl⟩ := List.mem_flatMap.1 hl
      exact fdeLines1_newline ht (hg f hf) l hl
  have hf : ∀ (fs : List DwFde) x r, fs.flatMap (fdeLines1 t file.architecture) = x :: r →
      ¬ first4 x ≠ first4 "FDE:" := by
    intro fs x r hx
    cases fs with
    | nil => cases hx
    | cons f fs =>
      rw [List.flatMap_cons, fdeLines1_eq] at hx
      rw [← (List.cons.inj (show "FDE:" :: _ = x :: r from hx)).1]
      exact fun h => h rfl
  constructor
  · intro he
    exact split_lines (P := fun x => first4 x ≠ first4 "FDE:") (fun x hx => (addressLines_good file x hx).2)
      (fun x hx => (addressLines_good file' x hx).2) (hf _) (hf _) (textOf_inj (hn file hg) (hn file' hg') he)
  · rintro ⟨h4, h5⟩
    rw [h4, h5]

/-- The row of `Samples.fpRuleFde`. -/
def Samples.fpRuleRow (r : RegRule) : DwRow :=
  { dwRow1 with start := 0x1004, end_ := 0x1020, registers := x86Regs r (.offset (-8)) }

/-- What the legacy converter makes of a function whose rule for RBP cannot be expressed. -/
def Samples.fpRuleOut1 : SFrameBuilder :=
  { options := legacyOptions
    fdes := [(0x1000, { FuncDescBuilder.new legacyOptions 0x1000 0x20 with
      fres := [(4, ⟨4, some ⟨8, some (-8), none⟩, false, .sp⟩)] })] }

/-- **C97 is false of the code**: a register without a name, and a constant, as the rule for RBP are shown alike. -/
theorem C97_number (dbg : Bool) (t : LegacyText) (a : ObjArch) (hr : t.ruleName a 200 = none) :
    ∃ b, legacyConvert dbg (Samples.ehOf [Samples.fpRuleFde (.register 200)]) Bases.default = .ok (.ok b) ∧
      legacyConvert dbg (Samples.ehOf [Samples.fpRuleFde (.constant 200)]) Bases.default = .ok (.ok b) ∧
      Samples.fpRuleFde (.register 200) ≠ Samples.fpRuleFde (.constant 200) ∧
      printed (legacyConvertT dbg t a (Samples.ehOf [Samples.fpRuleFde (.register 200)]) Bases.default).1 =
        printed (legacyConvertT dbg t a (Samples.ehOf [Samples.fpRuleFde (.constant 200)]) Bases.default).1 := by
  have h : legacyConvert dbg (Samples.ehOf [Samples.fpRuleFde (.register 200)]) Bases.default =
      .ok (.ok Samples.fpRuleOut1) := by cases dbg <;> decide +kernel
  have h' : legacyConvert dbg (Samples.ehOf [Samples.fpRuleFde (.constant 200)]) Bases.default =
      .ok (.ok Samples.fpRuleOut1) := by cases dbg <;> decide +kernel
  refine ⟨_, h, h', fun e => absurd (congrArg (fun f => (rowsOf f).map (·.registers)) e) (by decide +kernel), ?_⟩
  obtain ⟨fs, h1, h2⟩ := C94_success (t := t) (a := a) h
  obtain ⟨fs', h1', h2'⟩ := C94_success (t := t) (a := a) h'
  obtain rfl := map_ok_inj (show [Samples.fpRuleFde (.register 200)].map Except.ok = fs.map Except.ok from h1)
  obtain rfl := map_ok_inj (show [Samples.fpRuleFde (.constant 200)].map Except.ok = fs'.map Except.ok from h1')
  rw [h2, h2']
  have hr' : t.ruleText a (.register 200) = t.ruleText a (.constant 200) := by
    show regText (t.ruleName a) 200 = fmtNat (200 : U64).toNat
    unfold regText
    rw [hr]; rfl
  have key : ∀ rule, t.ruleText a rule = t.ruleText a (.constant 200) →
      legacyTranslate (Samples.fpRuleRow rule) = some ⟨.sp, 8, none, -8⟩ →
      printed (legacyRowEvents t a (Samples.fpRuleRow rule)) =
        textOf [offsetLine1 (Samples.fpRuleRow rule), cfaLine1 t (.registerAndOffset 7 8),
          "    reg:    " ++ (regText t.name 6 ++ (" = " ++ t.ruleText a (.constant 200))),
          regLine1 t a (16, .offset (-8)), sframeLine ⟨.sp, 8, none, -8⟩] := by
    intro rule h h'
    unfold legacyRowEvents legacyOutcome
    rw [printed_append, printed_append, printed_fpMessage, h', printed_out]
    show textOf [offsetLine1 (Samples.fpRuleRow rule), cfaLine1 t (.registerAndOffset 7 8),
      "    reg:    " ++ (regText t.name 6 ++ (" = " ++ t.ruleText a rule)), regLine1 t a (16, .offset (-8))] ++
      ("" ++ printed ([sframeLine ⟨.sp, 8, none, -8⟩].map .out)) = _
    rw [printed_out, h, String.empty_append, ← textOf_append]
    rfl
  have hrow := (key _ hr' (by decide +kernel)).trans (key _ rfl (by decide +kernel)).symm
  have hf : ∀ rule, [Samples.fpRuleFde rule].flatMap (legacyFdeEvents t a) =
      (legacyCode t (Samples.fpRuleFde (.constant 200)) ++ ["", "Rows:"]).map .out ++
        (legacyRowEvents t a (Samples.fpRuleRow rule) ++ [.out ""]) := by
    intro rule
    show ((legacyCode t (Samples.fpRuleFde (.constant 200)) ++ ["", "Rows:"]).map .out ++
      [Samples.fpRuleRow rule].flatMap (legacyRowEvents t a) ++ [.out ""]) ++ [] = _
    simp
  rw [hf, hf, printed_append, printed_append, printed_append, printed_append, hrow]

/-! ### C98 -/

theorem same_rowOf1 {t : LegacyText} {a : ObjArch} {f f' : DwFde} {x y : DwRow} (hi : f.initial = f'.initial)
    (h : SameDwRow1 t a x y) : rowOf .amd64 (tidyFde f) (tidy x) = rowOf .amd64 (tidyFde f') (tidy y) := by
  unfold rowOf
  rw [tidy_translate, tidy_translate, same_translate1 h, tidy_start, tidy_start, h.start]
  show FrameRowBuilder.mk (BitVec.ofNat 32 (y.start.toNat - f.initial.toNat)) _ _ _ = _
  rw [hi]
  rfl

theorem same_built1 {t : LegacyText} {a : ObjArch} {f f' : DwFde} (so : SFrameOptions) (h : SameFunction1 t a f f') :
    built so .amd64 (tidyFde f) (rowsOf (tidyFde f)) = built so .amd64 (tidyFde f') (rowsOf (tidyFde f')) := by
  have key : ∀ {xs ys : List DwRow} (m : BMap U32 FrameRowBuilder), Each (SameDwRow1 t a) xs ys →
      (xs.map tidy).foldl (fun m r => m.insert ordU32 (rowOf .amd64 (tidyFde f) r).startAddress
        (storedRow so (rowOf .amd64 (tidyFde f) r))) m =
      (ys.map tidy).foldl (fun m r => m.insert ordU32 (rowOf .amd64 (tidyFde f') r).startAddress
        (storedRow so (rowOf .amd64 (tidyFde f') r))) m := by
    intro xs ys m h'
    induction h' generalizing m with
    | nil => rfl
    | cons hab _ ih => rw [List.map_cons, List.map_cons, List.foldl_cons, List.foldl_cons, same_rowOf1 h.initial hab, ih]
  unfold built
  rw [rowsOf_tidy, rowsOf_tidy, live_tidy, live_tidy, key [] h.rows]
  show ({ FuncDescBuilder.new so (f.initial.setWidth 32) (f.len.setWidth 32) with fres := _ } : FuncDescBuilder) = _
  rw [h.initial, h.len]
  rfl

theorem same_output1 {t : LegacyText} {a : ObjArch} {bases bases' : Bases} {xs ys : List DwFde}
    (h : Each (SameFunction1 t a) xs ys) :
    outputOf legacyOptions (legacyLike bases) (xs.map tidyFde) = outputOf legacyOptions (legacyLike bases') (ys.map tidyFde) := by
  have key : ∀ {xs ys : List DwFde} (so : SFrameOptions) (m : BMap I32 FuncDescBuilder),
      Each (SameFunction1 t a) xs ys →
      addAll so (legacyLike bases) m (xs.map tidyFde) = addAll so (legacyLike bases') m (ys.map tidyFde) := by
    intro xs ys so m h
    unfold addAll
    induction h generalizing m with
    | nil => rfl
    | @cons x y _ _ hab _ ih =>
      have h1 : fnFor so (legacyLike bases) (tidyFde x) = fnFor so (legacyLike bases') (tidyFde y) := by
        have := same_built1 so hab
        unfold fnFor
        show (if _ then { built so .amd64 _ _ with fres := mergeKeep (built so .amd64 _ _).fres } else built so .amd64 _ _) =
          (if _ then { built so .amd64 _ _ with fres := mergeKeep (built so .amd64 _ _).fres } else built so .amd64 _ _)
        rw [this]
        rfl
      have h2 : (tidyFde x).initial = (tidyFde y).initial := hab.initial
      rw [List.map_cons, List.map_cons, List.foldl_cons, List.foldl_cons, h1, h2]
      exact ih _
  unfold outputOf SFrameBuilder.more
  rw [key _ _ h]

/-- **C98** What the legacy converter prints on stdout determines the section that it writes: two runs that get as
far as writing the output, for files of the same architecture on hosts of the same byte order, and print the same
text, write the same section. -/
theorem C98_section {dbg : Bool} {t : LegacyText} {w w' : World} {args args' : Args1} {file file' : ObjFile}
    {eh eh' : EhFrame} {b b' : SFrameBuilder} {bytes bytes' out out' : List U8} {fdes fdes' : List DwFde}
    (h : Made1 dbg w args file eh b bytes out) (h' : Made1 dbg w' args' file' eh' b' bytes' out')
    (ha : file.architecture = file'.architecture) (ht : LegacyNames t file.architecture) (hw : w.host = w'.host)
    (hi : inputs eh (toolBases file) = fdes.map .ok) (hi' : inputs eh' (toolBases file') = fdes'.map .ok)
    (ho : ∀ f ∈ fdes, Debugs f.instructions ∧ ∀ r ∈ rowsOf f, RowDebugs t file.architecture r)
    (ho' : ∀ f ∈ fdes', Debugs f.instructions ∧ ∀ r ∈ rowsOf f, RowDebugs t file.architecture r)
    (hp : printed (main1Prints dbg t w args) = printed (main1Prints dbg t w' args')) : bytes = bytes' := by
  have hs := ((C97_run_partial h h' ha ht hi hi' ho ho').1 hp).2
  obtain ⟨gs, h3, -, rfl⟩ := legacyConvert_iff.1 h.convert
  obtain ⟨gs', h3', -, rfl⟩ := legacyConvert_iff.1 h'.convert
  obtain rfl := map_ok_inj (hi.symm.trans h3)
  obtain rfl := map_ok_inj (hi'.symm.trans h3')
  have hb := h.build
  rw [same_output1 (bases' := toolBases file') hs, hw, h'.build] at hb
  cases hb
  rfl

/-! ### Examples -/

namespace Samples

/-- Texts with the `Debug` texts of rules. -/
def legacyText2 : LegacyText := { legacyText with rule := fun r => match r with
  | .valExpression _ => "ValExpression(Expression(..))"
  | _ => "Architectural" }

/-- Expressions for the CFA and for RBX, with operations on lines of their own. -/
def exprRow : DwRow :=
  { dwRow1 with
    cfa := .expression [.ok (.registerOffset 7 8 0), .ok (.other "Piece { .. }"), .ok (.deref 0 8 false)]
    registers := [(3, .expression [.ok (.other "Piece { .. }"), .ok (.plusConstant 5)]), (6, .undefined)] }

theorem legacyNames2 : LegacyNames legacyText2 .x86_64 := by
  have reg : ∀ {r n}, legacyText2.name r = some n → (r = 6 ∧ n = "RBP") ∨ (r = 7 ∧ n = "RSP") ∨ (r = 16 ∧ n = "RA") := by
    intro r n h
    simp only [legacyText2, LegacyText.name, legacyText] at h
    split at h
    · rename_i h6; exact .inl ⟨h6, (Option.some.inj h).symm⟩
    · split at h
      · rename_i h7; exact .inr (.inl ⟨h7, (Option.some.inj h).symm⟩)
      · split at h
        · rename_i h8; exact .inr (.inr ⟨h8, (Option.some.inj h).symm⟩)
        · cases h
  have hn : RuleNames legacyText2.name := by
    refine ⟨⟨?_, ?_, ?_⟩, ?_, ?_, ?_, ?_, ?_⟩
    · intro r r' n h h'
      rcases reg h with ⟨h1, h2⟩ | ⟨h1, h2⟩ | ⟨h1, h2⟩ <;> rcases reg h' with ⟨h3, h4⟩ | ⟨h3, h4⟩ | ⟨h3, h4⟩ <;>
        first | (rw [h1, h3]; done) | exact absurd (h2.symm.trans h4) (by decide)
    · intro r n h
      rcases reg h with ⟨-, rfl⟩ | ⟨-, rfl⟩ | ⟨-, rfl⟩
      · exact ⟨'R', ['B', 'P'], by decide, by decide⟩
      · exact ⟨'R', ['S', 'P'], by decide, by decide⟩
      · exact ⟨'R', ['A'], by decide, by decide⟩
    all_goals
      intro r n h
      rcases reg h with ⟨-, rfl⟩ | ⟨-, rfl⟩ | ⟨-, rfl⟩ <;> decide +kernel
  refine ⟨hn, hn, ?_, ?_, ?_, rfl⟩
  · exact fun _ => show '\n' ∉ "error".toList by decide
  · intro r
    cases r
    case valExpression => exact (show '\n' ∉ "ValExpression(Expression(..))".toList by decide +kernel)
    all_goals exact (show '\n' ∉ "Architectural".toList by decide +kernel)
  · exact fun _ => ⟨"Expression(..))", show "ValExpression(Expression(..))" = _ by decide +kernel⟩

end Samples

-- C97_text_partial: expressions over several lines, with an operation that is not indented.
example (dbg : Bool) :
    legacyConvert dbg (Samples.ehOf [Samples.oneRow Samples.exprRow]) Bases.default = .ok (.ok
      { options := legacyOptions
        fdes := [(0x1000, { FuncDescBuilder.new legacyOptions 0x1000 0x20 with
          fres := [(0, ⟨0, none, false, .fp⟩)] })] }) ∧
    printed (legacyConvertT dbg Samples.legacyText2 .x86_64 (Samples.ehOf [Samples.oneRow Samples.exprRow]) Bases.default).1 =
      textOf ["FDE:", " start_address: 0x00001000", "    range_size: 0x00000020 (end_addr = 0x00001020)",
        "  Instructions:", "", "Rows:", "  - offset: 0x00001000 (end = 0x00001001)",
        "    cfa:    DW_OP_register_offset RSP 8 0", "Piece { .. }", "            DW_OP_deref 0 8 false",
        "    reg:    3 = Piece { .. }", "        DW_OP_plusconstant 5", "    reg:    RBP = <undefined>", ""] := by
  cases dbg <;> decide +kernel

-- Its hypotheses about names and `Debug` texts hold of this.
example : LegacyNames Samples.legacyText2 .x86_64 ∧
    ∀ f ∈ [Samples.oneRow Samples.exprRow], Debugs f.instructions ∧
      ∀ r ∈ rowsOf f, RowDebugs Samples.legacyText2 .x86_64 r := by
  have hn := Samples.legacyNames2
  have hp : OpDebug Samples.legacyText2 .x86_64 "Piece { .. }" := by
    refine ⟨⟨by decide +kernel, by decide +kernel⟩, by decide +kernel, by decide +kernel, ?_, ?_⟩
    · intro r hr h
      have hs : ' ' ∈ (Samples.legacyText2.ruleText .x86_64 r).toList := by rw [← h]; decide +kernel
      revert hs
      cases r with
      | undefined => exact fun hs => absurd hs (show ' ' ∉ "<undefined>".toList by decide +kernel)
      | sameValue => exact fun hs => absurd hs (show ' ' ∉ "<same>".toList by decide +kernel)
      | offset o =>
        have h4 := congrArg (fun s => s.toList.take 1) h
        rw [show Samples.legacyText2.ruleText .x86_64 (.offset o) = "*(CFA" ++ fmtSigned64 o ++ ")" from rfl,
          take_lit2 1 _ _ _ (by decide +kernel)] at h4
        exact absurd h4 (by decide +kernel)
      | valOffset o =>
        have h4 := congrArg (fun s => s.toList.take 1) h
        rw [show Samples.legacyText2.ruleText .x86_64 (.valOffset o) = "CFA" ++ fmtSigned64 o from rfl,
          take_lit 1 _ _ (by decide +kernel)] at h4
        exact absurd h4 (by decide +kernel)
      | register r => exact fun hs => absurd hs (regText_plain hn.rules r).2.2.2.1
      | constant v => exact fun hs => absurd hs (not_mem_fmtNat (by decide) _)
      | expression e => exact absurd rfl (hr e)
      | valExpression e => exact fun hs => absurd hs (show ' ' ∉ "ValExpression(Expression(..))".toList by decide +kernel)
      | architectural => exact fun hs => absurd hs (show ' ' ∉ "Architectural".toList by decide +kernel)
    · intro r o h
      have hs : ' ' ∈ (regText Samples.legacyText2.name r ++ fmtSigned64 o).toList := by rw [← h]; decide +kernel
      refine absurd hs (not_mem_append (regText_plain hn.shown r).2.2.2.1 ?_)
      unfold fmtSigned64
      split <;> exact not_mem_append (by decide) (not_mem_fmtNat (by decide) _)
  refine ⟨hn, fun f hf => ?_⟩
  cases List.mem_singleton.1 hf
  refine ⟨(fun i e d h => by cases h), fun r hr => ?_⟩
  cases List.mem_singleton.1 (show r ∈ [Samples.exprRow] from hr)
  refine ⟨fun e he d hd => ?_, fun x hx e he d hd => ?_⟩
  · cases he
    simp only [List.mem_cons, List.not_mem_nil, or_false, Except.ok.injEq, reduceCtorEq, Op.other.injEq, false_or] at hd
    rw [hd]; exact hp
  · rcases List.mem_cons.1 hx with rfl | hx
    · cases he
      simp only [List.mem_cons, List.not_mem_nil, or_false, Except.ok.injEq, reduceCtorEq, Op.other.injEq] at hd
      rw [hd]; exact hp
    · cases List.mem_singleton.1 hx
      cases he

-- C97: rules that read the same, and rules that do not.
example : SameRule1 Samples.legacyText2 .x86_64 (.register 200) (.constant 200) ∧
    ¬ SameRule1 Samples.legacyText2 .x86_64 (.register 6) (.constant 6) ∧
    ¬ SameRule1 Samples.legacyText2 .x86_64 (.offset 8) (.valOffset 8) := by
  refine ⟨.number (by decide +kernel) (by decide), fun h => ?_, fun h => ?_⟩
  · cases h with
    | number h1 _ => exact absurd h1 (by decide +kernel)
  · cases h

-- C98_section: a run that meets its hypotheses.
example (dbg : Bool) : ∃ out, Made1 dbg (Samples.world1 .x86_64 .little .little) Samples.args1
    { Samples.objFile false with architecture := .x86_64, endianness := .little } Samples.textRel Samples.legacyOne
      (image .little Samples.legacyOne) out ∧
    printed (main1Prints dbg Samples.legacyText2 (Samples.world1 .x86_64 .little .little) Samples.args1) =
      textOf [".eh_frame:     0x00002000", ".text:         0x00001000", "FDE:",
        " start_address: 0x00001010", "    range_size: 0x00000020 (end_addr = 0x00001030)",
        "  Instructions:", "", "Rows:", "  - offset: 0x00001010 (end = 0x00001030)",
        "    cfa:    RSP+8", "    reg:    RBP = <undefined>", "    reg:    RA = *(CFA-8)",
        "    sframe: FrameRowOffsets { cfa: 8, ra: Some(-8), fp: None }", ""] := by
  refine ⟨_, ⟨⟨3, [0x7f], by decide +kernel, rfl, rfl⟩,
    ⟨⟨".eh_frame", 0x2000, some [1, 2, 3]⟩, [1, 2, 3], by decide +kernel, rfl, rfl⟩, ?_, ?_, rfl⟩, ?_⟩
  · cases dbg <;> decide +kernel
  · cases dbg <;> decide +kernel
  · cases dbg <;> decide +kernel

end Verif
