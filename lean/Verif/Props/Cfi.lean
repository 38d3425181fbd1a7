import Verif.Model.Cfi
import Verif.Props.Texts
import Verif.Props.Text
/-!
# The listing of call frame instructions: C84, C85
-/

namespace Verif
open Spec

/-! ### Assumptions and what is to be shown -/

namespace Spec

/-- What is assumed of the names of registers: they are distinct, do not start with a digit and contain
neither spaces, commas nor ends of line. -/
structure RegNames (name : Reg → Option String) : Prop where
  distinct : ∀ {r r' n}, name r = some n → name r' = some n → r = r'
  first : ∀ {r n}, name r = some n → ∃ c t, n.toList = c :: t ∧ c.isDigit = false
  plain : ∀ {r n}, name r = some n → ' ' ∉ n.toList ∧ ',' ∉ n.toList ∧ '\n' ∉ n.toList

/-- What is assumed of the `Debug` text of an operation: it is on one line, starts neither with a space
nor like the message for an instruction that cannot be decoded. -/
structure DebugText (d : String) : Prop where
  first : ∃ c t, d.toList = c :: t ∧ c ≠ ' '
  line : '\n' ∉ d.toList
  message : ¬ "Failed to decode CFI instruction: ".toList <+: d.toList

/-- The operations that are printed by their `Debug` text have such a text. -/
def Debugs (l : List (Except GErr Insn)) : Prop :=
  ∀ i e d, .ok i ∈ l → i.expr? = some e → .ok (.other d) ∈ e → DebugText d

/-- An operation without its base type, unless the listing is full. -/
def seenOp (full : Bool) : Op → Op
  | .deref b s sp => .deref (if full then b else 0) s sp
  | .registerOffset r x b => .registerOffset r x (if full then b else 0)
  | op => op

/-- An instruction without its expression. -/
def headOf : Insn → Insn
  | .defCfaExpression _ => .defCfaExpression []
  | .expression r _ => .expression r []
  | .valExpression r _ => .valExpression r []
  | i => i

/-- Two lists of instructions agree as far as they can be decoded: instructions without expression are
equal; expressions have the same operations, up to base types unless the listing is full.  Both end, or
both have an instruction there that cannot be decoded, for a reason with the same text, or both have an
operation there that cannot be decoded, for the same reason. -/
inductive SameListing (full : Bool) (error : GErr → String) :
    List (Except GErr Insn) → List (Except GErr Insn) → Prop
  | nil : SameListing full error [] []
  | failed {e e' r r'} : error e = error e' → SameListing full error (.error e :: r) (.error e' :: r')
  | plain {i r r'} : i.expr? = none → SameListing full error r r' → SameListing full error (.ok i :: r) (.ok i :: r')
  | expr {i i' r r'} {ops ops' : List Op} : headOf i = headOf i' → i.expr? = some (ops.map .ok) →
      i'.expr? = some (ops'.map .ok) → ops.map (seenOp full) = ops'.map (seenOp full) →
      SameListing full error r r' → SameListing full error (.ok i :: r) (.ok i' :: r')
  | aborted {i i' r r' e t t'} {ops ops' : List Op} : headOf i = headOf i' →
      i.expr? = some (ops.map .ok ++ .error e :: t) → i'.expr? = some (ops'.map .ok ++ .error e :: t') →
      ops.map (seenOp full) = ops'.map (seenOp full) → SameListing full error (.ok i :: r) (.ok i' :: r')

end Spec

/-- The text of some lines. -/
def textOf (ls : List String) : String := String.join (ls.map (· ++ "\n"))

/-! ### Words -/

theorem fields_inj {c : Char} {t w w' : List Char} {as as' : List (List Char)} (hw : c ∉ w) (hw' : c ∉ w')
    (has : ∀ a ∈ as, c ∉ a) (has' : ∀ a ∈ as', c ∉ a)
    (h : w ++ as.flatMap (fun a => c :: (t ++ a)) = w' ++ as'.flatMap (fun a => c :: (t ++ a))) :
    w = w' ∧ as = as' := by
  induction as generalizing w w' as' with
  | nil =>
    cases as' with
    | nil => simpa using h
    | cons b as' =>
      exfalso
      rw [List.flatMap_nil, List.append_nil, List.flatMap_cons] at h
      exact hw (by rw [h]; simp)
  | cons a as ih =>
    cases as' with
    | nil =>
      exfalso
      rw [List.flatMap_nil, List.append_nil, List.flatMap_cons] at h
      exact hw' (by rw [← h]; simp)
    | cons b as' =>
      rw [List.flatMap_cons, List.flatMap_cons, List.cons_append, List.cons_append] at h
      obtain ⟨h1, h2⟩ := sep_inj hw hw' h
      rw [List.append_assoc, List.append_assoc, List.append_cancel_left_eq] at h2
      obtain ⟨h3, h4⟩ := ih (has a (by simp)) (has' b (by simp)) (fun x hx => has x (by simp [hx]))
        (fun x hx => has' x (by simp [hx])) h2
      exact ⟨h1, by rw [h3, h4]⟩

theorem map_toList_inj {as as' : List String} (h : as.map String.toList = as'.map String.toList) : as = as' := by
  induction as generalizing as' with
  | nil => cases as' with
    | nil => rfl
    | cons => simp at h
  | cons a as ih => cases as' with
    | nil => simp at h
    | cons b bs =>
      simp only [List.map_cons, List.cons.injEq] at h
      rw [String.toList_injective h.1, ih h.2]

theorem spaced_toList (w : String) (as : List String) : (spaced (w, as)).toList =
    w.toList ++ (as.map String.toList).flatMap (fun a => ' ' :: ([] ++ a)) := by
  show (w ++ String.join (as.map (" " ++ ·))).toList = _
  rw [String.toList_append, Text.join_toList, List.flatMap_map, List.flatMap_map]
  congr 1
  refine congrArg (fun f => as.flatMap f) ?_
  funext a
  rw [String.toList_append]; rfl

theorem spaced_inj {w w' : String} {as as' : List String} (hw : ' ' ∉ w.toList) (hw' : ' ' ∉ w'.toList)
    (has : ∀ a ∈ as, ' ' ∉ a.toList) (has' : ∀ a ∈ as', ' ' ∉ a.toList)
    (h : spaced (w, as) = spaced (w', as')) : w = w' ∧ as = as' := by
  have h := congrArg String.toList h
  rw [spaced_toList, spaced_toList] at h
  obtain ⟨h1, h2⟩ := fields_inj hw hw' (by simpa using has) (by simpa using has') h
  exact ⟨String.toList_injective h1, map_toList_inj h2⟩

theorem called_nil (w : String) : (called (w, [])).toList = w.toList := rfl

theorem called_cons (w a : String) (as : List String) : (called (w, a :: as)).toList =
    w.toList ++ ' ' :: '(' :: ((a.toList ++ (as.map String.toList).flatMap (fun a => ',' :: ([' '] ++ a))) ++ [')']) := by
  show (w ++ (" (" ++ (a ++ (String.join (as.map (", " ++ ·)) ++ ")")))).toList = _
  rw [String.toList_append, String.toList_append, String.toList_append, String.toList_append, Text.join_toList,
    List.flatMap_map, List.flatMap_map]
  have : (as.flatMap fun a => (", " ++ a).toList) = as.flatMap fun a => ',' :: ([' '] ++ a.toList) := by
    refine congrArg (fun f => as.flatMap f) ?_
    funext a
    rw [String.toList_append]; rfl
  rw [this]
  show w.toList ++ (' ' :: '(' :: _) = _
  simp

theorem called_inj {w w' : String} {as as' : List String} (hw : ' ' ∉ w.toList) (hw' : ' ' ∉ w'.toList)
    (has : ∀ a ∈ as, ',' ∉ a.toList) (has' : ∀ a ∈ as', ',' ∉ a.toList)
    (h : called (w, as) = called (w', as')) : w = w' ∧ as = as' := by
  have h := congrArg String.toList h
  cases as with
  | nil =>
    cases as' with
    | nil => exact ⟨String.toList_injective h, rfl⟩
    | cons b bs =>
      rw [called_nil, called_cons] at h
      exact absurd (by rw [h]; simp) hw
  | cons a as =>
    cases as' with
    | nil =>
      rw [called_nil, called_cons] at h
      exact absurd (by rw [← h]; simp) hw'
    | cons b bs =>
      rw [called_cons, called_cons] at h
      obtain ⟨h1, h2⟩ := sep_inj hw hw' h
      have h2 := List.append_cancel_right (List.cons.inj h2).2
      obtain ⟨h3, h4⟩ := fields_inj (has a (by simp)) (has' b (by simp))
        (by intro x hx; obtain ⟨y, hy, rfl⟩ := List.mem_map.1 hx; exact has y (by simp [hy]))
        (by intro x hx; obtain ⟨y, hy, rfl⟩ := List.mem_map.1 hx; exact has' y (by simp [hy])) h2
      exact ⟨String.toList_injective h1, by rw [String.toList_injective h3, map_toList_inj h4]⟩

theorem spaced_pair {p q : String × List String} (hp : ' ' ∉ p.1.toList) (hq : ' ' ∉ q.1.toList)
    (hp' : ∀ a ∈ p.2, ' ' ∉ a.toList) (hq' : ∀ a ∈ q.2, ' ' ∉ a.toList) (h : spaced p = spaced q) :
    p.1 = q.1 ∧ p.2 = q.2 := spaced_inj hp hq hp' hq' h

theorem called_pair {p q : String × List String} (hp : ' ' ∉ p.1.toList) (hq : ' ' ∉ q.1.toList)
    (hp' : ∀ a ∈ p.2, ',' ∉ a.toList) (hq' : ∀ a ∈ q.2, ',' ∉ a.toList) (h : called p = called q) :
    p.1 = q.1 ∧ p.2 = q.2 := called_inj hp hq hp' hq' h

/-! ### Operands -/

/-- Neither a digit, nor a sign, nor a letter of `true` and `false`. -/
structure Sep (c : Char) : Prop where
  digit : ¬ IsDigit c
  x : c ≠ 'x'
  minus : c ≠ '-'
  bools : c ∉ "truefalse".toList
  refs : c ∉ "UnitRef(UnitOffset(".toList ∧ c ∉ "DebugInfoRef(DebugInfoOffset(".toList ∧ c ≠ ')'
  dots : c ≠ '.'

theorem sep_space : Sep ' ' := ⟨by decide, by decide, by decide, by decide +kernel, by decide +kernel, by decide⟩
theorem sep_comma : Sep ',' := ⟨by decide, by decide, by decide, by decide +kernel, by decide +kernel, by decide⟩
theorem sep_newline : Sep '\n' := ⟨by decide, by decide, by decide, by decide +kernel, by decide +kernel, by decide⟩

theorem Sep.nat {c : Char} (h : Sep c) (n : Nat) : c ∉ (fmtNat n).toList := by
  rw [fmtNat_toList]; exact not_mem_toDigits (by omega) (by omega) h.digit _

theorem Sep.hex {c : Char} (h : Sep c) (n : Nat) : c ∉ (fmtAltHex n).toList := not_mem_altHex h.digit h.x n

theorem Sep.int {c : Char} (h : Sep c) {k : Nat} (x : BitVec k) : c ∉ (fmtInt x).toList := by
  unfold fmtInt
  split
  · rw [String.toList_append]
    simp only [List.mem_append, not_or]
    exact ⟨by simpa using h.minus, h.nat _⟩
  · exact h.nat _

theorem Sep.bool {c : Char} (h : Sep c) (b : Bool) : c ∉ (fmtBool b).toList := by
  have := h.bools
  cases b <;> intro hc <;> apply this <;> revert hc <;> simp [fmtBool] <;> grind

theorem Sep.ref {c : Char} (h : Sep c) (r : DieRef) : c ∉ r.text.toList := by
  obtain ⟨h1, h2, h3⟩ := h.refs
  cases r
  · show c ∉ ("UnitRef(UnitOffset(" ++ _ ++ "))").toList
    rw [String.toList_append, String.toList_append]
    simp only [List.mem_append, not_or]
    exact ⟨⟨h1, h.nat _⟩, by simpa using h3⟩
  · show c ∉ ("DebugInfoRef(DebugInfoOffset(" ++ _ ++ "))").toList
    rw [String.toList_append, String.toList_append]
    simp only [List.mem_append, not_or]
    exact ⟨⟨h2, h.nat _⟩, by simpa using h3⟩

/-- The separators that names do not contain. -/
theorem Sep.reg {c : Char} (h : Sep c) {name : Reg → Option String} (hn : RegNames name)
    (hc : c = ' ' ∨ c = ',' ∨ c = '\n') (r : Reg) : c ∉ (regText name r).toList := by
  unfold regText
  split
  · rename_i n hr
    have := hn.plain hr
    rcases hc with rfl | rfl | rfl
    · exact this.1
    · exact this.2.1
    · exact this.2.2
  · exact h.nat _

theorem fmtInt_inj {k : Nat} {x y : BitVec k} (h : fmtInt x = fmtInt y) : x = y := by
  have key : ∀ m n : Nat, fmtNat m ≠ "-" ++ fmtNat n := by
    intro m n h
    have h := congrArg String.toList h
    rw [String.toList_append] at h
    exact sep_space.digit.elim (absurd (isDigit_toDigits (b := 10) (by omega) (by omega) m '-'
      (by rw [← fmtNat_toList, h]; simp)) (by decide))
  unfold fmtInt at h
  split at h <;> split at h
  · exact toInt_of_sign (by omega) (fmtNat_inj (prefix_cancel h))
  · exact absurd h.symm (key _ _)
  · exact absurd h (key _ _)
  · exact toInt_of_sign (by omega) (fmtNat_inj h)

theorem fmtBool_inj {x y : Bool} (h : fmtBool x = fmtBool y) : x = y := by
  cases x <;> cases y <;> first | rfl | exact absurd h (by decide)

theorem DieRef.text_inj {x y : DieRef} (h : x.text = y.text) : x = y := by
  have key : ∀ a b : String, "UnitRef(UnitOffset(" ++ a ≠ "DebugInfoRef(DebugInfoOffset(" ++ b := by
    intro a b h
    have h := congrArg (fun s => s.toList.take 1) h
    simp only [take_lit 1 "UnitRef(UnitOffset(" a (by decide +kernel),
      take_lit 1 "DebugInfoRef(DebugInfoOffset(" b (by decide +kernel)] at h
    exact absurd h (by decide +kernel)
  cases x <;> cases y
  · rw [BitVec.eq_of_toNat_eq (fmtNat_between h)]
  · exact absurd (suffix_cancel h) (key _ _)
  · exact absurd (suffix_cancel h).symm (key _ _)
  · rw [BitVec.eq_of_toNat_eq (fmtNat_between h)]

theorem regText_inj {name : Reg → Option String} (hn : RegNames name) {r r' : Reg}
    (h : regText name r = regText name r') : r = r' := by
  have key : ∀ {r n} (k : Nat), name r = some n → n ≠ fmtNat k := by
    intro r n k hr hk
    obtain ⟨c, t, h1, h2⟩ := hn.first hr
    obtain ⟨c', t', h3, h4⟩ := fmtNat_head k
    rw [hk, h3] at h1
    rw [(List.cons.inj h1).1, h2] at h4
    exact absurd h4 (by decide)
  unfold regText at h
  split at h <;> split at h
  · rename_i h1 _ _ h2; subst h; exact hn.distinct h1 h2
  · rename_i h1 _ _; exact absurd h (key _ h1)
  · rename_i h1 _ _ h2; exact absurd h.symm (key _ h2)
  · exact BitVec.eq_of_toNat_eq (fmtNat_inj h)


/-! ### Operations -/

/-- A number for each kind of operation. -/
def Op.code : Op → Nat
  | .deref .. => 0 | .drop => 1 | .pick _ => 2 | .swap => 3 | .rot => 4 | .abs => 5 | .and => 6
  | .div => 7 | .mul => 8 | .neg => 9 | .not => 10 | .plus => 11 | .plusConstant _ => 12 | .shl => 13
  | .shr => 14 | .xor => 15 | .bra _ => 16 | .eq => 17 | .ge => 18 | .lt => 19 | .gt => 20 | .le => 21
  | .ne => 22 | .skip _ => 23 | .unsignedConstant _ => 24 | .signedConstant _ => 25 | .register _ => 26
  | .registerOffset .. => 27 | .frameOffset _ => 28 | .nop => 29 | .pushObjectAddress => 30 | .call _ => 31
  | .tls => 32 | .stackValue => 33 | .other _ => 34

/-- The word of each kind of operation. -/
def Op.wordList : List String :=
  ["DW_OP_deref", "DW_OP_drop", "DW_OP_pick", "DW_OP_swap", "DW_OP_rot", "DW_OP_abs", "DW_OP_and",
   "DW_OP_div", "DW_OP_mul", "DW_OP_neg", "DW_OP_not", "DW_OP_plus", "DW_OP_plusconstant", "DW_OP_shl",
   "DW_OP_shr", "DW_OP_xor", "DW_OP_bra", "DW_OP_eq", "DW_OP_ge", "DW_OP_lt", "DW_OP_gt", "DW_OP_le",
   "DW_OP_ne", "DW_OP_skip", "DW_OP_uconst", "DW_OP_sconst", "DW_OP_register", "DW_OP_register_offset",
   "DW_OP_frame_offset", "DW_OP_nop", "DW_OP_push_object_address", "DW_OP_call", "DW_OP_tls",
   "DW_OP_stack_value", ""]

def Op.wordOf (i : Nat) : String := Op.wordList.getD i ""

theorem Op.wordOf_inj : ∀ i < 35, ∀ j < 35, Op.wordOf i = Op.wordOf j → i = j := by decide +kernel
theorem Op.code_lt (a : Op) : a.code < 35 := by cases a <;> simp [Op.code]
theorem Op.wordOf_space' : ∀ i < 35, ' ' ∉ (Op.wordOf i).toList ∧ '\n' ∉ (Op.wordOf i).toList := by decide +kernel
theorem Op.wordOf_space (a : Op) : ' ' ∉ (Op.wordOf a.code).toList ∧ '\n' ∉ (Op.wordOf a.code).toList :=
  Op.wordOf_space' _ a.code_lt

theorem Op.word_eq (full : Bool) (name : Reg → Option String) (op : Op) (h : ∀ d, op ≠ .other d) :
    (op.words full name).1 = wordOf op.code := by
  cases op <;> first | rfl | exact absurd rfl (h _)

seal fmtNat fmtInt fmtBool regText DieRef.text fmtAltHex in
theorem Op.operands {c : Char} (hs : Sep c) (hc : c = ' ' ∨ c = ',' ∨ c = '\n') {name : Reg → Option String}
    (hn : RegNames name) (full : Bool) (op : Op) : ∀ a ∈ (op.words full name).2, c ∉ a.toList := by
  cases op <;> simp only [Op.words, List.not_mem_nil, false_imp_iff, implies_true, List.mem_cons, or_false,
    forall_eq]
  all_goals first
    | (split <;> simp only [List.mem_cons, List.not_mem_nil, or_false, forall_eq_or_imp, forall_eq] <;>
        first | exact ⟨hs.nat _, hs.nat _, hs.bool _⟩ | exact ⟨hs.nat _, hs.bool _⟩
              | exact ⟨hs.reg hn hc _, hs.int _, hs.nat _⟩ | exact ⟨hs.reg hn hc _, hs.int _⟩)
    | exact hs.nat _
    | exact hs.int _
    | exact hs.reg hn hc _
    | exact hs.ref _

seal fmtNat fmtInt fmtBool regText DieRef.text fmtAltHex in
theorem Op.words_inj {name : Reg → Option String} (hn : RegNames name) {full : Bool} {a b : Op}
    (hc : a.code = b.code) (h : (a.words full name).2 = (b.words full name).2) (ho : ∀ d, a ≠ .other d) :
    seenOp full a = seenOp full b := by
  cases a <;> cases b <;> first | rfl | (cases hc; done) | skip
  · cases full
    · simp only [Op.words, Bool.false_eq_true, if_false, List.cons.injEq, and_true] at h
      simp only [seenOp, Bool.false_eq_true, if_false]
      rw [BitVec.eq_of_toNat_eq (fmtNat_inj h.1), fmtBool_inj h.2]
    · simp only [Op.words, if_true, List.cons.injEq, and_true] at h
      simp only [seenOp, if_true]
      rw [BitVec.eq_of_toNat_eq (fmtNat_inj h.1), BitVec.eq_of_toNat_eq (fmtNat_inj h.2.1), fmtBool_inj h.2.2]
  · simp only [Op.words, List.cons.injEq, and_true] at h; rw [BitVec.eq_of_toNat_eq (fmtNat_inj h)]
  · simp only [Op.words, List.cons.injEq, and_true] at h; rw [BitVec.eq_of_toNat_eq (fmtNat_inj h)]
  · simp only [Op.words, List.cons.injEq, and_true] at h; rw [fmtInt_inj h]
  · simp only [Op.words, List.cons.injEq, and_true] at h; rw [fmtInt_inj h]
  · simp only [Op.words, List.cons.injEq, and_true] at h; rw [BitVec.eq_of_toNat_eq (fmtNat_inj h)]
  · simp only [Op.words, List.cons.injEq, and_true] at h; rw [fmtInt_inj h]
  · simp only [Op.words, List.cons.injEq, and_true] at h; rw [regText_inj hn h]
  · cases full
    · simp only [Op.words, Bool.false_eq_true, if_false, List.cons.injEq, and_true] at h
      simp only [seenOp, Bool.false_eq_true, if_false]
      rw [regText_inj hn h.1, fmtInt_inj h.2]
    · simp only [Op.words, if_true, List.cons.injEq, and_true] at h
      simp only [seenOp, if_true]
      rw [regText_inj hn h.1, fmtInt_inj h.2.1, BitVec.eq_of_toNat_eq (fmtNat_inj h.2.2)]
  · simp only [Op.words, List.cons.injEq, and_true] at h; rw [fmtInt_inj h]
  · simp only [Op.words, List.cons.injEq, and_true] at h; rw [DieRef.text_inj h]
  · exact absurd rfl (ho _)

theorem seenOp_code (full : Bool) (a : Op) : (seenOp full a).code = a.code := by cases a <;> rfl

theorem seenOp_words (full : Bool) (name : Reg → Option String) (a : Op) :
    (seenOp full a).words full name = a.words full name := by
  cases a <;> first | rfl | (cases full <;> rfl)

theorem seenOp_line (full : Bool) (name : Reg → Option String) (indent : String) (a : Op) :
    (seenOp full a).line full name indent = a.line full name indent := by
  cases a <;> first | rfl | (cases full <;> rfl)

theorem Op.line_eq (full : Bool) (name : Reg → Option String) (indent : String) (op : Op)
    (h : ∀ d, op ≠ .other d) : op.line full name indent = indent ++ spaced (op.words full name) := by
  cases op <;> first | rfl | exact absurd rfl (h _)

/-- The indentation of operations. -/
def indent18 : String := "                  "

theorem Op.line_iff {name : Reg → Option String} (hn : RegNames name) {full : Bool} {a b : Op}
    (ha : ∀ d, a = .other d → DebugText d) (hb : ∀ d, b = .other d → DebugText d) :
    a.line full name indent18 = b.line full name indent18 ↔ seenOp full a = seenOp full b := by
  have key : ∀ {d : String} {x : String}, DebugText d → d ≠ indent18 ++ x := by
    rintro d x hd rfl
    obtain ⟨c, t, h1, h2⟩ := hd.first
    rw [String.toList_append] at h1
    have : indent18.toList = ' ' :: List.replicate 17 ' ' := by decide +kernel
    rw [this] at h1
    exact h2 (List.cons.inj h1).1.symm
  constructor
  · intro h
    by_cases hao : ∃ d, a = .other d
    · obtain ⟨d, rfl⟩ := hao
      by_cases hbo : ∃ d', b = .other d'
      · obtain ⟨d', rfl⟩ := hbo
        have : d = d' := h
        rw [this]
      · rw [Op.line_eq _ _ _ b (fun d hd => hbo ⟨d, hd⟩)] at h
        exact absurd h (key (ha d rfl))
    · by_cases hbo : ∃ d', b = .other d'
      · obtain ⟨d', rfl⟩ := hbo
        rw [Op.line_eq _ _ _ a (fun d hd => hao ⟨d, hd⟩)] at h
        exact absurd h.symm (key (hb d' rfl))
      · have hao' : ∀ d, a ≠ .other d := fun d hd => hao ⟨d, hd⟩
        have hbo' : ∀ d, b ≠ .other d := fun d hd => hbo ⟨d, hd⟩
        rw [Op.line_eq _ _ _ a hao', Op.line_eq _ _ _ b hbo'] at h
        obtain ⟨h1, h2⟩ := spaced_pair (by rw [Op.word_eq _ _ _ hao']; exact (Op.wordOf_space _).1)
          (by rw [Op.word_eq _ _ _ hbo']; exact (Op.wordOf_space _).1)
          (Op.operands sep_space (.inl rfl) hn full a) (Op.operands sep_space (.inl rfl) hn full b)
          (prefix_cancel h)
        rw [Op.word_eq _ _ _ hao', Op.word_eq _ _ _ hbo'] at h1
        exact Op.words_inj hn (Op.wordOf_inj _ a.code_lt _ b.code_lt h1) h2 hao'
  · intro h
    rw [← seenOp_line, h, seenOp_line]

/-! ### Instructions -/

/-- A number for each kind of instruction. -/
def Insn.code : Insn → Nat
  | .setLoc _ => 0 | .advanceLoc _ => 1 | .defCfa .. => 2 | .defCfaSf .. => 3 | .defCfaRegister _ => 4
  | .defCfaOffset _ => 5 | .defCfaOffsetSf _ => 6 | .defCfaExpression _ => 7 | .undefined _ => 8
  | .sameValue _ => 9 | .offset .. => 10 | .offsetExtendedSf .. => 11 | .valOffset .. => 12
  | .valOffsetSf .. => 13 | .register .. => 14 | .expression .. => 15 | .valExpression .. => 16
  | .restore _ => 17 | .rememberState => 18 | .restoreState => 19 | .argsSize _ => 20 | .negateRaState => 21
  | .nop => 22

/-- The word of each kind of instruction. -/
def Insn.wordList : List String :=
  ["DW_CFA_set_loc", "DW_CFA_advance_loc", "DW_CFA_def_cfa", "DW_CFA_def_cfa_sf",
   "DW_CFA_def_cfa_register", "DW_CFA_def_cfa_offset", "DW_CFA_def_cfa_offset_sf",
   "DW_CFA_def_cfa_expression", "DW_CFA_undefined", "DW_CFA_same_value", "DW_CFA_offset",
   "DW_CFA_offset_extended_sf", "DW_CFA_val_offset", "DW_CFA_val_offset_sf", "DW_CFA_register",
   "DW_CFA_expression", "DW_CFA_val_expression", "DW_CFA_restore", "DW_CFA_remember_state",
   "DW_CFA_restore_state", "DW_CFA_GNU_args_size", "DW_CFA_AARCH64_negate_ra_state", "DW_CFA_nop"]

def Insn.wordOf (i : Nat) : String := Insn.wordList.getD i ""

theorem Insn.wordOf_inj : ∀ i < 23, ∀ j < 23, Insn.wordOf i = Insn.wordOf j → i = j := by decide +kernel
theorem Insn.code_lt (a : Insn) : a.code < 23 := by cases a <;> simp [Insn.code]
theorem Insn.wordOf_space' : ∀ i < 23, ' ' ∉ (Insn.wordOf i).toList ∧ '\n' ∉ (Insn.wordOf i).toList := by decide +kernel
theorem Insn.wordOf_space (a : Insn) : ' ' ∉ (Insn.wordOf a.code).toList ∧ '\n' ∉ (Insn.wordOf a.code).toList :=
  Insn.wordOf_space' _ a.code_lt
theorem Insn.wordOf_first : ∀ i < 23, (Insn.wordOf i).toList.take 1 = ['D'] := by decide +kernel

theorem Insn.word_eq (name : Reg → Option String) (i : Insn) : (i.words name).1 = wordOf i.code := by
  cases i <;> rfl

seal fmtNat fmtInt fmtBool regText DieRef.text fmtAltHex in
theorem Insn.operands {c : Char} (hs : Sep c) (hc : c = ' ' ∨ c = ',' ∨ c = '\n') {name : Reg → Option String}
    (hn : RegNames name) (i : Insn) : ∀ a ∈ (i.words name).2, c ∉ a.toList := by
  have hdots : c ∉ "...".toList := by have := hs.dots; simpa using this
  cases i <;> simp only [Insn.words, List.not_mem_nil, false_imp_iff, implies_true, List.mem_cons, or_false,
    forall_eq, forall_eq_or_imp]
  all_goals first
    | exact hs.nat _ | exact hs.hex _ | exact hs.int _ | exact hs.reg hn hc _ | exact hdots
    | exact ⟨hs.reg hn hc _, hs.nat _⟩ | exact ⟨hs.reg hn hc _, hs.int _⟩
    | exact ⟨hs.reg hn hc _, hs.reg hn hc _⟩ | exact ⟨hs.reg hn hc _, hdots⟩

seal fmtNat fmtInt fmtBool regText DieRef.text fmtAltHex in
theorem Insn.words_inj {name : Reg → Option String} (hn : RegNames name) {a b : Insn}
    (hc : a.code = b.code) (h : (a.words name).2 = (b.words name).2) : headOf a = headOf b := by
  cases a <;> cases b <;> first | rfl | (cases hc; done) | skip
  all_goals simp only [Insn.words, List.cons.injEq, and_true] at h
  all_goals simp only [headOf]
  all_goals first
    | rw [BitVec.eq_of_toNat_eq (fmtAltHex_inj h)]
    | rw [BitVec.eq_of_toNat_eq (fmtNat_inj h)]
    | rw [fmtInt_inj h]
    | rw [regText_inj hn h]
    | rw [regText_inj hn h.1, BitVec.eq_of_toNat_eq (fmtNat_inj h.2)]
    | rw [regText_inj hn h.1, fmtInt_inj h.2]
    | rw [regText_inj hn h.1, regText_inj hn h.2]
    | rw [regText_inj hn h.1]

theorem headOf_words (name : Reg → Option String) (a : Insn) : (headOf a).words name = a.words name := by
  cases a <;> rfl

theorem Insn.line_iff {name : Reg → Option String} (hn : RegNames name) {a b : Insn} :
    a.line name = b.line name ↔ headOf a = headOf b := by
  constructor
  · intro h
    obtain ⟨h1, h2⟩ := called_pair (by rw [Insn.word_eq]; exact (Insn.wordOf_space _).1)
      (by rw [Insn.word_eq]; exact (Insn.wordOf_space _).1)
      (Insn.operands sep_comma (.inr (.inl rfl)) hn a) (Insn.operands sep_comma (.inr (.inl rfl)) hn b)
      (prefix_cancel h)
    rw [Insn.word_eq, Insn.word_eq] at h1
    exact Insn.words_inj hn (Insn.wordOf_inj _ a.code_lt _ b.code_lt h1) h2
  · intro h
    unfold Insn.line
    rw [← headOf_words name a, h, headOf_words]

theorem headOf_plain {i : Insn} (h : i.expr? = none) : headOf i = i := by
  cases i <;> first | rfl | (cases h; done)

theorem headOf_expr {i i' : Insn} (h : headOf i = headOf i') : (i.expr?).isSome = (i'.expr?).isSome := by
  have key : ∀ i : Insn, (i.expr?).isSome = ((headOf i).expr?).isSome := by intro i; cases i <;> rfl
  rw [key, h, ← key]


/-! ### Listings -/

/-- The line of an operation, as opposed to that of an instruction and to the message. -/
def OpLine (s : String) : Prop :=
  s.toList.take 18 = List.replicate 18 ' ' ∨
    (s.toList.head? ≠ some ' ' ∧ ¬ "Failed to decode CFI instruction: ".toList <+: s.toList)

theorem Op.opLine {full : Bool} {name : Reg → Option String} {op : Op} (h : ∀ d, op = .other d → DebugText d) :
    OpLine (op.line full name indent18) := by
  by_cases ho : ∃ d, op = .other d
  · obtain ⟨d, rfl⟩ := ho
    obtain ⟨c, t, h1, h2⟩ := (h d rfl).first
    refine .inr ⟨?_, (h d rfl).message⟩
    show d.toList.head? ≠ some ' '
    rw [h1]
    simpa using h2
  · refine .inl ?_
    rw [Op.line_eq _ _ _ op (fun d hd => ho ⟨d, hd⟩), take_lit 18 indent18 _ (by decide +kernel)]
    decide +kernel

theorem Insn.line_toList (name : Reg → Option String) (i : Insn) : ∃ t, (i.line name).toList =
    List.replicate 16 ' ' ++ 'D' :: t := by
  have hw : ∃ t, (called (i.words name)).toList = 'D' :: t := by
    have h1 := Insn.wordOf_first i.code i.code_lt
    rw [← Insn.word_eq name] at h1
    have key : ∃ t, (called (i.words name)).toList = (i.words name).1.toList ++ t := by
      cases h : (i.words name).2 with
      | nil => exact ⟨[], by rw [show i.words name = ((i.words name).1, []) by rw [← h], called_nil]; simp⟩
      | cons a as =>
        have h2 := called_cons (i.words name).1 a as
        rw [show ((i.words name).1, a :: as) = i.words name by rw [← h]] at h2
        exact ⟨_, h2⟩
    obtain ⟨t, ht⟩ := key
    rw [ht]
    cases hl : (i.words name).1.toList with
    | nil => rw [hl] at h1; simp at h1
    | cons c r => rw [hl] at h1; simp at h1; exact ⟨r ++ t, by rw [h1]; rfl⟩
  obtain ⟨t, ht⟩ := hw
  refine ⟨t, ?_⟩
  unfold Insn.line
  rw [String.toList_append, ht]
  rw [show "                ".toList = List.replicate 16 ' ' by decide +kernel]

theorem Insn.not_opLine (name : Reg → Option String) (i : Insn) : ¬ OpLine (i.line name) := by
  obtain ⟨t, ht⟩ := i.line_toList name
  rintro (h | ⟨h, _⟩)
  · rw [ht] at h
    have := congrArg (fun l => l[16]?) h
    simp at this
  · rw [ht] at h; exact h rfl

/-- The message for an instruction that cannot be decoded. -/
def failedLine (error : GErr → String) (e : GErr) : String := "Failed to decode CFI instruction: " ++ error e

theorem failed_toList (error : GErr → String) (e : GErr) : (failedLine error e).toList =
    "Failed to decode CFI instruction: ".toList ++ (error e).toList := String.toList_append ..

theorem failed_not_opLine (error : GErr → String) (e : GErr) : ¬ OpLine (failedLine error e) := by
  rintro (h | ⟨_, h⟩)
  · have h1 := take_lit 18 "Failed to decode CFI instruction: " (error e) (by decide +kernel)
    rw [show failedLine error e = "Failed to decode CFI instruction: " ++ error e from rfl, h1] at h
    exact absurd h (by decide +kernel)
  · exact h (by rw [failed_toList]; exact List.prefix_append ..)

theorem failed_ne_insn (error : GErr → String) (e : GErr) (name : Reg → Option String) (i : Insn) :
    failedLine error e ≠ i.line name := by
  intro h
  obtain ⟨t, ht⟩ := i.line_toList name
  have h1 := take_lit 1 "Failed to decode CFI instruction: " (error e) (by decide +kernel)
  rw [show "Failed to decode CFI instruction: " ++ error e = failedLine error e from rfl, h, ht] at h1
  rw [show List.take 1 (List.replicate 16 ' ' ++ 'D' :: t) = [' '] from rfl] at h1
  exact absurd h1 (by decide +kernel)

theorem split_lines {P : String → Prop} {l l' r r' : List String} (hl : ∀ x ∈ l, P x) (hl' : ∀ x ∈ l', P x)
    (hr : ∀ x t, r = x :: t → ¬ P x) (hr' : ∀ x t, r' = x :: t → ¬ P x) (h : l ++ r = l' ++ r') :
    l = l' ∧ r = r' := by
  induction l generalizing l' with
  | nil =>
    cases l' with
    | nil => exact ⟨rfl, h⟩
    | cons x l' => exact absurd (hl' x (by simp)) (hr x _ (by simpa using h))
  | cons x l ih =>
    cases l' with
    | nil => exact absurd (hl x (by simp)) (hr' x _ (by simpa using h.symm))
    | cons y l' =>
      simp only [List.cons_append, List.cons.injEq] at h
      obtain ⟨h1, h2⟩ := ih (fun z hz => hl z (by simp [hz])) (fun z hz => hl' z (by simp [hz])) h.2
      exact ⟨by rw [h.1, h1], h2⟩

theorem expr_cases (e : Expr) : (∃ ops : List Op, e = ops.map .ok) ∨
    ∃ (ops : List Op) (x : GErr) (t : Expr), e = ops.map .ok ++ .error x :: t := by
  induction e with
  | nil => exact .inl ⟨[], rfl⟩
  | cons a e ih =>
    cases a with
    | error x => exact .inr ⟨[], x, e, rfl⟩
    | ok op =>
      rcases ih with ⟨ops, rfl⟩ | ⟨ops, x, t, rfl⟩
      · exact .inl ⟨op :: ops, rfl⟩
      · exact .inr ⟨op :: ops, x, t, rfl⟩

theorem listExpression_ok (full : Bool) (name : Reg → Option String) (indent : String) (ops : List Op) :
    listExpression full name indent (ops.map .ok) = (ops.map (Op.line full name indent), .ok ()) := by
  induction ops with
  | nil => rfl
  | cons op ops ih => rw [List.map_cons, listExpression, ih]; rfl

theorem listExpression_error (full : Bool) (name : Reg → Option String) (indent : String) (ops : List Op)
    (x : GErr) (t : Expr) :
    listExpression full name indent (ops.map .ok ++ .error x :: t) = (ops.map (Op.line full name indent), .error x) := by
  induction ops with
  | nil => rfl
  | cons op ops ih => rw [List.map_cons, List.cons_append, listExpression, ih]; rfl

section
variable (full : Bool) (name : Reg → Option String) (error : GErr → String)

theorem list_plain {i : Insn} (h : i.expr? = none) (r : List (Except GErr Insn)) :
    listInstructions full name error (.ok i :: r) =
      (i.line name :: (listInstructions full name error r).1, (listInstructions full name error r).2) := by
  rw [listInstructions, h]

theorem list_expr {i : Insn} {ops : List Op} (h : i.expr? = some (ops.map .ok)) (r : List (Except GErr Insn)) :
    listInstructions full name error (.ok i :: r) =
      (i.line name :: (ops.map (Op.line full name indent18) ++ (listInstructions full name error r).1),
        (listInstructions full name error r).2) := by
  rw [listInstructions, h]
  simp only [show "                  " = indent18 from rfl, listExpression_ok]

theorem list_aborted {i : Insn} {ops : List Op} {x : GErr} {t : Expr}
    (h : i.expr? = some (ops.map .ok ++ .error x :: t)) (r : List (Except GErr Insn)) :
    listInstructions full name error (.ok i :: r) =
      (i.line name :: ops.map (Op.line full name indent18), .error x) := by
  rw [listInstructions, h]
  simp only [show "                  " = indent18 from rfl, listExpression_error]

theorem list_ok (i : Insn) (r : List (Except GErr Insn)) :
    (listInstructions full name error (.ok i :: r)).1.head? = some (i.line name) := by
  cases h : i.expr? with
  | none => rw [list_plain full name error h]; rfl
  | some e =>
    rcases expr_cases e with ⟨ops, rfl⟩ | ⟨ops, x, t, rfl⟩
    · rw [list_expr full name error h]; rfl
    · rw [list_aborted full name error h]; rfl

theorem list_first (l : List (Except GErr Insn)) (x : String) (t : List String)
    (h : (listInstructions full name error l).1 = x :: t) : ¬ OpLine x := by
  cases l with
  | nil => cases h
  | cons a r =>
    cases a with
    | error e =>
      have : failedLine error e = x := (List.cons.inj h).1
      rw [← this]; exact failed_not_opLine error e
    | ok i =>
      have h1 := list_ok full name error i r
      rw [h] at h1
      rw [show x = i.line name from Option.some.inj h1]; exact Insn.not_opLine name i

theorem list_nil_ok (l : List (Except GErr Insn)) (h : (listInstructions full name error l).1 = []) :
    (listInstructions full name error l).2 = .ok () := by
  cases l with
  | nil => rfl
  | cons a r =>
    cases a with
    | error e => cases h
    | ok i => have h1 := list_ok full name error i r; rw [h] at h1; cases h1

end

theorem Spec.Debugs.tail {x : Except GErr Insn} {r : List (Except GErr Insn)} (h : Debugs (x :: r)) : Debugs r :=
  fun i e d hi => h i e d (List.mem_cons_of_mem _ hi)

theorem ops_lines {name : Reg → Option String} (hn : RegNames name) {full : Bool} {ops ops' : List Op}
    (h : ∀ d, .other d ∈ ops → DebugText d) (h' : ∀ d, .other d ∈ ops' → DebugText d) :
    ops.map (Op.line full name indent18) = ops'.map (Op.line full name indent18) ↔
      ops.map (seenOp full) = ops'.map (seenOp full) := by
  induction ops generalizing ops' with
  | nil => cases ops' <;> simp
  | cons a ops ih =>
    cases ops' with
    | nil => simp
    | cons b ops' =>
      simp only [List.map_cons, List.cons.injEq]
      rw [Op.line_iff hn (fun d hd => h d (by simp [hd])) (fun d hd => h' d (by simp [hd])),
        ih (fun d hd => h d (by simp [hd])) (fun d hd => h' d (by simp [hd]))]

/-- The lines and the result tell as much of the instructions as `SameListing` says. -/
theorem list_iff {name : Reg → Option String} (hn : RegNames name) (full : Bool) (error : GErr → String)
    {a b : List (Except GErr Insn)} (ha : Debugs a) (hb : Debugs b) :
    listInstructions full name error a = listInstructions full name error b ↔ SameListing full error a b := by
  constructor
  · intro h
    induction a generalizing b with
    | nil =>
      cases b with
      | nil => exact .nil
      | cons y r =>
        cases y with
        | error e => cases h
        | ok i =>
          have h1 := list_ok full name error i r
          rw [← h] at h1; cases h1
    | cons x r ih =>
      cases b with
      | nil =>
        cases x with
        | error e => cases h
        | ok i =>
          have h1 := list_ok full name error i r
          rw [h] at h1; cases h1
      | cons y r' =>
        cases x with
        | error e =>
          cases y with
          | error e' =>
            have h1 : failedLine error e = failedLine error e' := (List.cons.inj (Prod.mk.inj h).1).1
            exact .failed (prefix_cancel h1)
          | ok i =>
            have h1 := list_ok full name error i r'
            rw [← h] at h1
            exact absurd (Option.some.inj h1) (failed_ne_insn error e name i)
        | ok i =>
          cases y with
          | error e =>
            have h1 := list_ok full name error i r
            rw [h] at h1
            exact absurd (Option.some.inj h1) (failed_ne_insn error e name i)
          | ok i' =>
            have h1 := list_ok full name error i r
            rw [h, list_ok full name error i' r'] at h1
            have hd := (Insn.line_iff hn).1 (Option.some.inj h1).symm
            have hs := headOf_expr hd
            cases hi : i.expr? with
            | none =>
              have hi' : i'.expr? = none := by
                rw [hi] at hs; exact Option.not_isSome_iff_eq_none.1 (by rw [← hs]; simp)
              have : i = i' := by rw [← headOf_plain hi, hd, headOf_plain hi']
              subst this
              rw [list_plain full name error hi, list_plain full name error hi] at h
              obtain ⟨h2, h3⟩ := Prod.mk.inj h
              exact .plain hi (ih ha.tail hb.tail (Prod.ext (List.cons.inj h2).2 h3))
            | some ex =>
              obtain ⟨ex', hi'⟩ : ∃ ex', i'.expr? = some ex' := by
                rw [hi] at hs; exact Option.isSome_iff_exists.1 hs.symm
              have da : ∀ d, .ok (.other d) ∈ ex → DebugText d := fun d => ha i ex d (by simp) hi
              have db : ∀ d, .ok (.other d) ∈ ex' → DebugText d := fun d => hb i' ex' d (by simp) hi'
              have lineP : ∀ {e : Expr} {ops : List Op}, (∀ d, .ok (.other d) ∈ e → DebugText d) →
                  (∀ op ∈ ops, Except.ok op ∈ e) → ∀ x ∈ ops.map (Op.line full name indent18), OpLine x := by
                intro e ops hd ho x hx
                obtain ⟨op, hop, rfl⟩ := List.mem_map.1 hx
                exact Op.opLine (fun d hd' => hd d (hd' ▸ ho op hop))
              rcases expr_cases ex with ⟨ops, he⟩ | ⟨ops, x, t, he⟩ <;>
                rcases expr_cases ex' with ⟨ops', he'⟩ | ⟨ops', x', t', he'⟩
              · have ho : ∀ op ∈ ops, Except.ok op ∈ ex := fun op hop => by
                  rw [he]; exact List.mem_map_of_mem hop
                have ho' : ∀ op ∈ ops', Except.ok op ∈ ex' := fun op hop => by
                  rw [he']; exact List.mem_map_of_mem hop
                rw [list_expr full name error (hi.trans (congrArg some he)),
                  list_expr full name error (hi'.trans (congrArg some he'))] at h
                obtain ⟨h2, h3⟩ := Prod.mk.inj h
                obtain ⟨h4, h5⟩ := split_lines (lineP da ho) (lineP db ho') (list_first full name error r)
                  (list_first full name error r') (List.cons.inj h2).2
                exact .expr hd (hi.trans (congrArg some he)) (hi'.trans (congrArg some he'))
                  ((ops_lines hn (fun d hd => da d (ho _ hd)) (fun d hd => db d (ho' _ hd))).1 h4)
                  (ih ha.tail hb.tail (Prod.ext h5 h3))
              · have ho : ∀ op ∈ ops, Except.ok op ∈ ex := fun op hop => by
                  rw [he]; exact List.mem_map_of_mem hop
                have ho' : ∀ op ∈ ops', Except.ok op ∈ ex' := fun op hop => by
                  rw [he']; exact List.mem_append_left _ (List.mem_map_of_mem hop)
                rw [list_expr full name error (hi.trans (congrArg some he)),
                  list_aborted full name error (hi'.trans (congrArg some he'))] at h
                obtain ⟨h2, h3⟩ := Prod.mk.inj h
                obtain ⟨h4, h5⟩ := split_lines (r' := []) (lineP da ho) (lineP db ho') (list_first full name error r)
                  (fun x t h => by cases h) ((List.cons.inj h2).2.trans (List.append_nil _).symm)
                have := list_nil_ok full name error r h5
                rw [this] at h3; cases h3
              · have ho : ∀ op ∈ ops, Except.ok op ∈ ex := fun op hop => by
                  rw [he]; exact List.mem_append_left _ (List.mem_map_of_mem hop)
                have ho' : ∀ op ∈ ops', Except.ok op ∈ ex' := fun op hop => by
                  rw [he']; exact List.mem_map_of_mem hop
                rw [list_aborted full name error (hi.trans (congrArg some he)),
                  list_expr full name error (hi'.trans (congrArg some he'))] at h
                obtain ⟨h2, h3⟩ := Prod.mk.inj h
                obtain ⟨h4, h5⟩ := split_lines (r := []) (lineP da ho) (lineP db ho') (fun x t h => by cases h)
                  (list_first full name error r') ((List.append_nil _).trans (List.cons.inj h2).2)
                have := list_nil_ok full name error r' h5.symm
                rw [this] at h3; cases h3
              · have ho : ∀ op ∈ ops, Except.ok op ∈ ex := fun op hop => by
                  rw [he]; exact List.mem_append_left _ (List.mem_map_of_mem hop)
                have ho' : ∀ op ∈ ops', Except.ok op ∈ ex' := fun op hop => by
                  rw [he']; exact List.mem_append_left _ (List.mem_map_of_mem hop)
                rw [list_aborted full name error (hi.trans (congrArg some he)),
                  list_aborted full name error (hi'.trans (congrArg some he'))] at h
                obtain ⟨h2, h3⟩ := Prod.mk.inj h
                cases h3
                exact .aborted hd (hi.trans (congrArg some he)) (hi'.trans (congrArg some he'))
                  ((ops_lines hn (fun d hd => da d (ho _ hd)) (fun d hd => db d (ho' _ hd))).1 (List.cons.inj h2).2)
  · intro h
    have lines : ∀ {ops ops' : List Op}, ops.map (seenOp full) = ops'.map (seenOp full) →
        ops.map (Op.line full name indent18) = ops'.map (Op.line full name indent18) := by
      intro ops ops' h
      have : ∀ l : List Op, l.map (Op.line full name indent18) =
          (l.map (seenOp full)).map (Op.line full name indent18) := by
        intro l
        rw [List.map_map]
        exact List.map_congr_left fun op _ => (seenOp_line full name indent18 op).symm
      rw [this, h, ← this]
    induction h with
    | nil => rfl
    | @failed e e' r r' h =>
      show ([failedLine error e], _) = ([failedLine error e'], _)
      unfold failedLine
      rw [h]
    | plain hi _ ih =>
      rw [list_plain full name error hi, list_plain full name error hi, ih ha.tail hb.tail]
    | expr hd hi hi' ho _ ih =>
      rw [list_expr full name error hi, list_expr full name error hi', ih ha.tail hb.tail, lines ho,
        (Insn.line_iff hn).2 hd]
    | aborted hd hi hi' ho =>
      rw [list_aborted full name error hi, list_aborted full name error hi', lines ho, (Insn.line_iff hn).2 hd]

/-! ### Text -/

theorem textOf_toList (ls : List String) : (textOf ls).toList = ls.flatMap fun l => l.toList ++ ['\n'] := by
  unfold textOf
  rw [Text.join_toList, List.flatMap_map]
  refine congrArg (fun f => ls.flatMap f) ?_
  funext l
  rw [String.toList_append]; rfl

/-- A text determines its lines. -/
theorem textOf_inj {ls ls' : List String} (h : ∀ l ∈ ls, '\n' ∉ l.toList) (h' : ∀ l ∈ ls', '\n' ∉ l.toList)
    (ht : textOf ls = textOf ls') : ls = ls' := by
  replace ht := congrArg String.toList ht
  rw [textOf_toList, textOf_toList] at ht
  induction ls generalizing ls' with
  | nil => cases ls' with
    | nil => rfl
    | cons b bs => simp at ht
  | cons a as ih => cases ls' with
    | nil => simp at ht
    | cons b bs =>
      rw [List.flatMap_cons, List.flatMap_cons, List.append_assoc, List.append_assoc] at ht
      obtain ⟨h1, h2⟩ := sep_inj (h a (by simp)) (h' b (by simp)) ht
      rw [String.toList_injective h1, ih (fun l hl => h l (by simp [hl])) (fun l hl => h' l (by simp [hl])) h2]

theorem Op.line_newline {name : Reg → Option String} (hn : RegNames name) (full : Bool) {op : Op}
    (h : ∀ d, op = .other d → DebugText d) : '\n' ∉ (op.line full name indent18).toList := by
  by_cases ho : ∃ d, op = .other d
  · obtain ⟨d, rfl⟩ := ho
    exact (h d rfl).line
  · have ho' : ∀ d, op ≠ .other d := fun d hd => ho ⟨d, hd⟩
    rw [Op.line_eq _ _ _ op ho', String.toList_append, List.mem_append, not_or]
    refine ⟨by decide +kernel, ?_⟩
    have := Op.operands sep_newline (.inr (.inr rfl)) hn full op
    have hw : '\n' ∉ (op.words full name).1.toList := by
      rw [Op.word_eq _ _ _ ho']; exact (Op.wordOf_space _).2
    have hp : (op.words full name) = ((op.words full name).1, (op.words full name).2) := rfl
    rw [hp, spaced_toList]
    simp only [List.mem_append, not_or, List.mem_flatMap, List.mem_map, List.mem_cons, List.nil_append]
    refine ⟨hw, ?_⟩
    rintro ⟨x, ⟨y, hy, rfl⟩, h | h⟩
    · exact absurd h (by decide)
    · exact this y hy h

theorem Insn.line_newline {name : Reg → Option String} (hn : RegNames name) (i : Insn) :
    '\n' ∉ (i.line name).toList := by
  unfold Insn.line
  rw [String.toList_append, List.mem_append, not_or]
  refine ⟨by decide +kernel, ?_⟩
  have := Insn.operands sep_newline (.inr (.inr rfl)) hn i
  have hw : '\n' ∉ (i.words name).1.toList := by rw [Insn.word_eq]; exact (Insn.wordOf_space _).2
  have hp : (i.words name) = ((i.words name).1, (i.words name).2) := rfl
  cases h : (i.words name).2 with
  | nil => rw [hp, h, called_nil]; exact hw
  | cons a as =>
    rw [h] at this
    rw [hp, h, called_cons]
    simp only [List.mem_append, not_or, List.mem_flatMap, List.mem_map, List.mem_cons,
      List.not_mem_nil, or_false]
    refine ⟨hw, by decide, by decide, ⟨this a (by simp), ?_⟩, by decide⟩
    rintro ⟨x, ⟨y, hy, rfl⟩, h | h | h⟩
    · exact absurd h (by decide)
    · exact absurd h (by decide)
    · exact this y (by simp [hy]) h

theorem list_newline {name : Reg → Option String} (hn : RegNames name) (full : Bool) {error : GErr → String}
    (he : ∀ e, '\n' ∉ (error e).toList) {a : List (Except GErr Insn)} (ha : Debugs a) :
    ∀ l ∈ (listInstructions full name error a).1, '\n' ∉ l.toList := by
  induction a with
  | nil => intro l hl; cases hl
  | cons x r ih =>
    cases x with
    | error e =>
      intro l hl
      have : l = failedLine error e := List.mem_singleton.1 (show l ∈ [failedLine error e] from hl)
      rw [this, failed_toList, List.mem_append, not_or]
      exact ⟨by decide +kernel, he e⟩
    | ok i =>
      have ops : ∀ {ops : List Op} {ex : Expr}, i.expr? = some ex → (∀ op ∈ ops, Except.ok op ∈ ex) →
          ∀ l ∈ ops.map (Op.line full name indent18), '\n' ∉ l.toList := by
        intro ops ex hi ho l hl
        obtain ⟨op, hop, rfl⟩ := List.mem_map.1 hl
        exact Op.line_newline hn full (fun d hd => ha i ex d (by simp) hi (hd ▸ ho op hop))
      cases hi : i.expr? with
      | none =>
        rw [list_plain full name error hi]
        intro l hl
        rcases List.mem_cons.1 hl with rfl | hl
        · exact Insn.line_newline hn i
        · exact ih ha.tail l hl
      | some ex =>
        rcases expr_cases ex with ⟨os, hx⟩ | ⟨os, x, t, hx⟩
        · rw [list_expr full name error (hi.trans (congrArg some hx))]
          intro l hl
          rcases List.mem_cons.1 hl with rfl | hl
          · exact Insn.line_newline hn i
          · rcases List.mem_append.1 hl with hl | hl
            · exact ops hi (fun op hop => by rw [hx]; exact List.mem_map_of_mem hop) l hl
            · exact ih ha.tail l hl
        · rw [list_aborted full name error (hi.trans (congrArg some hx))]
          intro l hl
          rcases List.mem_cons.1 hl with rfl | hl
          · exact Insn.line_newline hn i
          · exact ops hi (fun op hop => by rw [hx]; exact List.mem_append_left _ (List.mem_map_of_mem hop)) l hl

theorem text_iff {name : Reg → Option String} (hn : RegNames name) (full : Bool) {error : GErr → String}
    (he : ∀ e, '\n' ∉ (error e).toList) {a b : List (Except GErr Insn)} (ha : Debugs a) (hb : Debugs b) :
    (textOf (listInstructions full name error a).1 = textOf (listInstructions full name error b).1 ∧
      (listInstructions full name error a).2 = (listInstructions full name error b).2) ↔
      SameListing full error a b := by
  rw [← list_iff hn full error ha hb]
  constructor
  · rintro ⟨h1, h2⟩
    exact Prod.ext (textOf_inj (list_newline hn full he ha) (list_newline hn full he hb) h1) h2
  · intro h; rw [h]; exact ⟨rfl, rfl⟩

/-! ### C84, C85 -/

/-- The text of the listing and its result agree with the control flow of the converter. -/
theorem C84_control (full : Bool) (name : Reg → Option String) (error : GErr → String)
    (l : List (Except GErr Insn)) :
    (listInstructions full name error l).2 = dumpCfiInstructions l := by
  have hx : ∀ e : Expr, (listExpression full name indent18 e).2 = dumpExpression e := by
    intro e
    induction e with
    | nil => rfl
    | cons a e ih =>
      cases a with
      | error x => rfl
      | ok op => exact ih
  induction l with
  | nil => rfl
  | cons a r ih =>
    cases a with
    | error e => rfl
    | ok i =>
      cases hi : i.expr? with
      | none =>
        rw [list_plain full name error hi, dumpCfiInstructions, hi]
        exact ih
      | some e =>
        rw [dumpCfiInstructions, hi]
        dsimp only
        rw [← hx e]
        rcases expr_cases e with ⟨os, he⟩ | ⟨os, x, t, he⟩
        · rw [list_expr full name error (hi.trans (congrArg some he)), he, listExpression_ok]
          exact ih
        · rw [list_aborted full name error (hi.trans (congrArg some he)), he, listExpression_error]

/-- **C84 is false of the code**: the listing of `dwarf2sframe2` does not show base types. -/
theorem C84_base_types (name : Reg → Option String) (error : GErr → String) :
    (∀ b b' s sp, listInstructions false name error [.ok (.defCfaExpression [.ok (.deref b s sp)])] =
      listInstructions false name error [.ok (.defCfaExpression [.ok (.deref b' s sp)])]) ∧
    ∀ b b' r x, listInstructions false name error [.ok (.defCfaExpression [.ok (.registerOffset r x b)])] =
      listInstructions false name error [.ok (.defCfaExpression [.ok (.registerOffset r x b')])] :=
  ⟨fun _ _ _ _ => rfl, fun _ _ _ _ => rfl⟩

/-- **C84, what holds**: the text of the listing and its result determine the instructions, as far as they
can be decoded, up to base types. -/
theorem C84_text_partial {name : Reg → Option String} (hn : RegNames name) {error : GErr → String}
    (he : ∀ e, '\n' ∉ (error e).toList) {a b : List (Except GErr Insn)} (ha : Debugs a) (hb : Debugs b) :
    (textOf (listInstructions false name error a).1 = textOf (listInstructions false name error b).1 ∧
      (listInstructions false name error a).2 = (listInstructions false name error b).2) ↔
      SameListing false error a b := text_iff hn false he ha hb

/-- **C85** The listing of `dwarfdump` and of the legacy converter: its text and its result determine the
instructions, as far as they can be decoded. -/
theorem C85_text {name : Reg → Option String} (hn : RegNames name) {error : GErr → String}
    (he : ∀ e, '\n' ∉ (error e).toList) {a b : List (Except GErr Insn)} (ha : Debugs a) (hb : Debugs b) :
    (textOf (listInstructions true name error a).1 = textOf (listInstructions true name error b).1 ∧
      (listInstructions true name error a).2 = (listInstructions true name error b).2) ↔
      SameListing true error a b := text_iff hn true he ha hb

theorem seenOp_full : seenOp true = id := by
  funext op; cases op <;> rfl

/-- **C85** In particular, lists of instructions without errors that are listed alike are equal. -/
theorem C85_equal {name : Reg → Option String} (hn : RegNames name) {error : GErr → String}
    (he : ∀ e, '\n' ∉ (error e).toList) {a b : List Insn}
    (ha : Debugs (a.map .ok)) (hb : Debugs (b.map .ok))
    (hea : ∀ i e x, i ∈ a → i.expr? = some e → x ∈ e → x.isOk = true)
    (heb : ∀ i e x, i ∈ b → i.expr? = some e → x ∈ e → x.isOk = true)
    (h : textOf (listInstructions true name error (a.map .ok)).1 =
      textOf (listInstructions true name error (b.map .ok)).1) : a = b := by
  have hr : ∀ {l : List Insn}, (∀ i e x, i ∈ l → i.expr? = some e → x ∈ e → x.isOk = true) →
      (listInstructions true name error (l.map .ok)).2 = .ok () := by
    intro l hl
    induction l with
    | nil => rfl
    | cons i l ih =>
      rw [List.map_cons]
      cases hi : i.expr? with
      | none => rw [list_plain true name error hi]; exact ih (fun i e x h => hl i e x (by simp [h]))
      | some e =>
        rcases expr_cases e with ⟨os, hx⟩ | ⟨os, x, t, hx⟩
        · rw [list_expr true name error (hi.trans (congrArg some hx))]
          exact ih (fun i e x h => hl i e x (by simp [h]))
        · have := hl i e (.error x) (by simp) hi (by rw [hx]; simp)
          cases this
  have hs := (C85_text hn he ha hb).1 ⟨h, by rw [hr hea, hr heb]⟩
  clear h ha hb
  induction a generalizing b with
  | nil => cases b with
    | nil => rfl
    | cons => cases hs
  | cons i a ih =>
    cases b with
    | nil => cases hs
    | cons i' b =>
      rw [List.map_cons, List.map_cons] at hs
      cases hs with
      | plain _ hs =>
        rw [ih (fun i e x h => hea i e x (by simp [h])) (fun i e x h => heb i e x (by simp [h])) hs]
      | @expr _ _ _ _ ops ops' hd hi hi' ho hs =>
        rw [ih (fun i e x h => hea i e x (by simp [h])) (fun i e x h => heb i e x (by simp [h])) hs]
        rw [seenOp_full, List.map_id, List.map_id] at ho
        subst ho
        congr 1
        cases i <;> cases hi <;> cases i' <;> cases hi' <;> cases hd <;> rfl
      | aborted _ hi =>
        have := hea i _ (.error _) (by simp) hi
          (List.mem_append_right _ (List.mem_cons_self ..))
        cases this

/-! ### Examples -/

/-- Names of registers of x86-64. -/
def Samples.regName (r : Reg) : Option String :=
  ["rax", "rdx", "rcx", "rbx", "rsi", "rdi", "rbp", "rsp", "r8", "r9", "r10", "r11", "r12", "r13", "r14",
    "r15", "RA"][r.toNat]?

theorem Samples.regNames : RegNames Samples.regName := by
  have lt : ∀ {r n}, Samples.regName r = some n → r.toNat < 17 := by
    intro r n h
    exact (List.getElem?_eq_some_iff.1 h).1
  have all : ∀ i : Fin 17, ∀ n, Samples.regName (BitVec.ofNat _ i.val) = some n →
      (∀ j : Fin 17, Samples.regName (BitVec.ofNat _ j.val) = some n → i = j) ∧
      (n.toList.head?.any (fun c => c.isDigit = false)) = true ∧
      ' ' ∉ n.toList ∧ ',' ∉ n.toList ∧ '\n' ∉ n.toList := by
    intro i n h
    have hf : ∀ i : Fin 17, (Samples.regName (BitVec.ofNat _ i.val)).all (fun n =>
      (∀ j : Fin 17, Samples.regName (BitVec.ofNat _ j.val) = some n → i = j) ∧
      (n.toList.head?.any (fun c => c.isDigit = false)) = true ∧
      ' ' ∉ n.toList ∧ ',' ∉ n.toList ∧ '\n' ∉ n.toList) = true := by decide +kernel
    have := hf i
    rw [h] at this
    simpa only [Option.all_some, decide_eq_true_eq] using this
  have of : ∀ {r : Reg}, r.toNat < 17 → r = BitVec.ofNat _ r.toNat := by
    intro r _; simp
  refine ⟨?_, ?_, ?_⟩
  · intro r r' n h h'
    have l := lt h; have l' := lt h'
    rw [of l] at h; rw [of l'] at h'
    have := (all ⟨r.toNat, l⟩ n h).1 ⟨r'.toNat, l'⟩ h'
    exact BitVec.eq_of_toNat_eq (Fin.mk.inj this)
  · intro r n h
    have l := lt h
    rw [of l] at h
    have h2 := (all ⟨r.toNat, l⟩ n h).2.1
    cases hn : n.toList with
    | nil => rw [hn] at h2; cases h2
    | cons c t =>
      rw [hn] at h2
      exact ⟨c, t, rfl, by simpa using h2⟩
  · intro r n h
    have l := lt h
    rw [of l] at h
    exact (all ⟨r.toNat, l⟩ n h).2.2

/-- The instructions of an FDE of a procedure linkage table, and one that gimli has a `Debug` text for. -/
def Samples.pltInsns : List Insn :=
  [.defCfaOffset 16, .advanceLoc 6, .defCfaOffset 24, .advanceLoc 10,
   .defCfaExpression [.ok (.registerOffset 7 8 0), .ok (.registerOffset 16 0 0), .ok (.unsignedConstant 15),
     .ok .and, .ok (.unsignedConstant 11), .ok .ge, .ok (.unsignedConstant 3), .ok .shl, .ok .plus,
     .ok (.other "Piece { size_in_bits: 8, bit_offset: None }")],
   .offset 6 2, .nop]

theorem Samples.pltDebugs : Debugs (Samples.pltInsns.map .ok) := by
  intro i e d hi he hd
  have : ∀ i ∈ Samples.pltInsns, ∀ e, i.expr? = some e → ∀ d, Except.ok (.other d) ∈ e →
      d = "Piece { size_in_bits: 8, bit_offset: None }" := by
    intro i hi
    simp only [Samples.pltInsns, List.mem_cons, List.not_mem_nil, or_false] at hi
    rcases hi with rfl | rfl | rfl | rfl | rfl | rfl | rfl <;> intro e he <;> cases he
    intro d hd
    simpa using hd
  obtain ⟨j, hj, hji⟩ := List.mem_map.1 hi
  cases hji
  rw [this i hj e he d hd]
  exact ⟨⟨_, _, rfl, by decide⟩, by decide +kernel, by decide +kernel⟩

example : (listInstructions true Samples.regName (fun _ => "?") (Samples.pltInsns.map .ok)).1 =
    ["                DW_CFA_def_cfa_offset (16)",
     "                DW_CFA_advance_loc (6)",
     "                DW_CFA_def_cfa_offset (24)",
     "                DW_CFA_advance_loc (10)",
     "                DW_CFA_def_cfa_expression (...)",
     "                  DW_OP_register_offset rsp 8 0",
     "                  DW_OP_register_offset RA 0 0",
     "                  DW_OP_uconst 15",
     "                  DW_OP_and",
     "                  DW_OP_uconst 11",
     "                  DW_OP_ge",
     "                  DW_OP_uconst 3",
     "                  DW_OP_shl",
     "                  DW_OP_plus",
     "Piece { size_in_bits: 8, bit_offset: None }",
     "                DW_CFA_offset (rbp, 2)",
     "                DW_CFA_nop"] := by decide +kernel

-- C84_text_partial, C85_text, C85_equal: the hypotheses hold of it.
example : RegNames Samples.regName ∧ Debugs (Samples.pltInsns.map .ok) ∧
    (∀ e : GErr, '\n' ∉ ((fun _ => "?" : GErr → String) e).toList) ∧
    (∀ i e x, i ∈ Samples.pltInsns → i.expr? = some e → x ∈ e → x.isOk = true) := by
  refine ⟨Samples.regNames, Samples.pltDebugs, fun _ => show '\n' ∉ "?".toList by decide, ?_⟩
  intro i e x hi he hx
  simp only [Samples.pltInsns, List.mem_cons, List.not_mem_nil, or_false] at hi
  rcases hi with rfl | rfl | rfl | rfl | rfl | rfl | rfl <;> cases he
  simp only [List.mem_cons, List.not_mem_nil, or_false] at hx
  rcases hx with rfl | rfl | rfl | rfl | rfl | rfl | rfl | rfl | rfl | rfl <;> rfl

-- C84_base_types: the two expressions are different.
example : (Op.deref 0 8 false ≠ .deref 7 8 false) ∧
    listInstructions true Samples.regName (fun _ => "?") [.ok (.defCfaExpression [.ok (.deref 0 8 false)])] ≠
    listInstructions true Samples.regName (fun _ => "?") [.ok (.defCfaExpression [.ok (.deref 7 8 false)])] := by
  refine ⟨by decide, fun h => absurd (congrArg (·.1) h) (by decide +kernel)⟩

-- C84_control: an operation that cannot be decoded ends the listing with an error.
example : (listInstructions true Samples.regName (fun _ => "?")
      [.ok (.expression 3 [.ok .abs, .error (⟨7⟩ : GErr)]), .ok .nop]).2 = .error (⟨7⟩ : GErr) := rfl

end Verif
