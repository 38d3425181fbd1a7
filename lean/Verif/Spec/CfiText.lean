import Verif.Model.Gimli
import Verif.Spec.Numeral
import Verif.Spec.DebugText
import Verif.Spec.Listing
/-!
# Reading the listing of call frame instructions

The names are those of DWARF 5 (tables 7.9 and 7.29) and of the extensions of GNU and AArch64; the
instructions and operations are those of gimli, which stand for one or more opcodes.
-/

namespace Verif.Spec.CfiText

/-! ### Names -/

/-- The names of call frame instructions by opcode. -/
def cfaNames : List (Nat × String) := [
  (0x00, "DW_CFA_nop"), (0x01, "DW_CFA_set_loc"), (0x02, "DW_CFA_advance_loc1"), (0x03, "DW_CFA_advance_loc2"),
  (0x04, "DW_CFA_advance_loc4"), (0x05, "DW_CFA_offset_extended"), (0x06, "DW_CFA_restore_extended"),
  (0x07, "DW_CFA_undefined"), (0x08, "DW_CFA_same_value"), (0x09, "DW_CFA_register"),
  (0x0a, "DW_CFA_remember_state"), (0x0b, "DW_CFA_restore_state"), (0x0c, "DW_CFA_def_cfa"),
  (0x0d, "DW_CFA_def_cfa_register"), (0x0e, "DW_CFA_def_cfa_offset"), (0x0f, "DW_CFA_def_cfa_expression"),
  (0x10, "DW_CFA_expression"), (0x11, "DW_CFA_offset_extended_sf"), (0x12, "DW_CFA_def_cfa_sf"),
  (0x13, "DW_CFA_def_cfa_offset_sf"), (0x14, "DW_CFA_val_offset"), (0x15, "DW_CFA_val_offset_sf"),
  (0x16, "DW_CFA_val_expression"), (0x2d, "DW_CFA_AARCH64_negate_ra_state"), (0x2e, "DW_CFA_GNU_args_size"),
  (0x40, "DW_CFA_advance_loc"), (0x80, "DW_CFA_offset"), (0xc0, "DW_CFA_restore")]

/-- The names of operations by opcode. -/
def opNames : List (Nat × String) := [
  (0x03, "DW_OP_addr"), (0x06, "DW_OP_deref"), (0x08, "DW_OP_const1u"), (0x09, "DW_OP_const1s"),
  (0x0a, "DW_OP_const2u"), (0x0b, "DW_OP_const2s"), (0x0c, "DW_OP_const4u"), (0x0d, "DW_OP_const4s"),
  (0x0e, "DW_OP_const8u"), (0x0f, "DW_OP_const8s"), (0x10, "DW_OP_constu"), (0x11, "DW_OP_consts"),
  (0x12, "DW_OP_dup"), (0x13, "DW_OP_drop"), (0x14, "DW_OP_over"), (0x15, "DW_OP_pick"), (0x16, "DW_OP_swap"),
  (0x17, "DW_OP_rot"), (0x18, "DW_OP_xderef"), (0x19, "DW_OP_abs"), (0x1a, "DW_OP_and"), (0x1b, "DW_OP_div"),
  (0x1c, "DW_OP_minus"), (0x1d, "DW_OP_mod"), (0x1e, "DW_OP_mul"), (0x1f, "DW_OP_neg"), (0x20, "DW_OP_not"),
  (0x21, "DW_OP_or"), (0x22, "DW_OP_plus"), (0x23, "DW_OP_plus_uconst"), (0x24, "DW_OP_shl"), (0x25, "DW_OP_shr"),
  (0x26, "DW_OP_shra"), (0x27, "DW_OP_xor"), (0x28, "DW_OP_bra"), (0x29, "DW_OP_eq"), (0x2a, "DW_OP_ge"),
  (0x2b, "DW_OP_gt"), (0x2c, "DW_OP_le"), (0x2d, "DW_OP_lt"), (0x2e, "DW_OP_ne"), (0x2f, "DW_OP_skip"),
  (0x30, "DW_OP_lit0"), (0x50, "DW_OP_reg0"), (0x70, "DW_OP_breg0"),
  (0x90, "DW_OP_regx"), (0x91, "DW_OP_fbreg"), (0x92, "DW_OP_bregx"), (0x93, "DW_OP_piece"),
  (0x94, "DW_OP_deref_size"), (0x95, "DW_OP_xderef_size"), (0x96, "DW_OP_nop"), (0x97, "DW_OP_push_object_address"),
  (0x98, "DW_OP_call2"), (0x99, "DW_OP_call4"), (0x9a, "DW_OP_call_ref"), (0x9b, "DW_OP_form_tls_address"),
  (0x9f, "DW_OP_stack_value"), (0xa5, "DW_OP_regval_type"), (0xa6, "DW_OP_deref_type"), (0xa7, "DW_OP_xderef_type"),
  (0xe0, "DW_OP_GNU_push_tls_address")]

/-- The opcodes of an instruction. -/
def opcodes : Insn → List Nat
  | .setLoc _ => [0x01]
  | .advanceLoc _ => [0x40, 0x02, 0x03, 0x04]
  | .defCfa _ _ => [0x0c]
  | .defCfaSf _ _ => [0x12]
  | .defCfaRegister _ => [0x0d]
  | .defCfaOffset _ => [0x0e]
  | .defCfaOffsetSf _ => [0x13]
  | .defCfaExpression _ => [0x0f]
  | .undefined _ => [0x07]
  | .sameValue _ => [0x08]
  | .offset _ _ => [0x80, 0x05]
  | .offsetExtendedSf _ _ => [0x11]
  | .valOffset _ _ => [0x14]
  | .valOffsetSf _ _ => [0x15]
  | .register _ _ => [0x09]
  | .expression _ _ => [0x10]
  | .valExpression _ _ => [0x16]
  | .restore _ => [0xc0, 0x06]
  | .rememberState => [0x0a]
  | .restoreState => [0x0b]
  | .argsSize _ => [0x2e]
  | .negateRaState => [0x2d]
  | .nop => [0x00]

/-- The opcodes of an operation; of an operation that stands for a row of opcodes (`DW_OP_lit0` to
`DW_OP_lit31`) the first.  `none` for the operations that the model does not tell apart. -/
def opOpcodes : Op → Option (List Nat)
  | .deref _ _ _ => some [0x06, 0x94, 0x18, 0x95, 0xa6, 0xa7]
  | .drop => some [0x13]
  | .pick _ => some [0x15, 0x12, 0x14]
  | .swap => some [0x16]
  | .rot => some [0x17]
  | .abs => some [0x19]
  | .and => some [0x1a]
  | .div => some [0x1b]
  | .mul => some [0x1e]
  | .neg => some [0x1f]
  | .not => some [0x20]
  | .plus => some [0x22]
  | .plusConstant _ => some [0x23]
  | .shl => some [0x24]
  | .shr => some [0x25]
  | .xor => some [0x27]
  | .bra _ => some [0x28]
  | .eq => some [0x29]
  | .ge => some [0x2a]
  | .lt => some [0x2d]
  | .gt => some [0x2b]
  | .le => some [0x2c]
  | .ne => some [0x2e]
  | .skip _ => some [0x2f]
  | .unsignedConstant _ => some [0x08, 0x0a, 0x0c, 0x0e, 0x10, 0x30]
  | .signedConstant _ => some [0x09, 0x0b, 0x0d, 0x0f, 0x11]
  | .register _ => some [0x50, 0x90]
  | .registerOffset _ _ _ => some [0x70, 0x92, 0xa5]
  | .frameOffset _ => some [0x91]
  | .nop => some [0x96]
  | .pushObjectAddress => some [0x97]
  | .call _ => some [0x98, 0x99, 0x9a]
  | .tls => some [0x9b, 0xe0]
  | .stackValue => some [0x9f]
  | .other _ => none

/-- The text is the name of one of the opcodes. -/
def IsName (table : List (Nat × String)) (codes : List Nat) (t : List Char) : Prop :=
  ∃ c ∈ codes, ∃ n, table.lookup c = some n ∧ t = n.toList

instance (table : List (Nat × String)) (codes : List Nat) (t : List Char) : Decidable (IsName table codes t) :=
  decidable_of_iff (∃ c ∈ codes, (table.lookup c).map String.toList = some t) (by
    unfold IsName
    constructor
    · rintro ⟨c, hc, h⟩
      cases hl : table.lookup c with
      | none => rw [hl] at h; cases h
      | some n => rw [hl] at h; exact ⟨c, hc, n, hl, by cases h; rfl⟩
    · rintro ⟨c, hc, n, h, rfl⟩
      exact ⟨c, hc, by rw [h]; rfl⟩)

/-! ### Operands -/

/-- What an operand is. -/
inductive Operand
  | reg (r : Reg)
  | unsigned (n : Nat)
  | signed (x : Int)
  | address (n : Nat)
  | truth (b : Bool)
  | unit (offset : Nat)
  | debugInfo (offset : Nat)
  /-- an expression, which is listed on the lines that follow -/
  | more
  deriving DecidableEq

/-- The text shows the operand; a register is shown by its name, or by its number if it has none. -/
def Operand.Shown (name : Reg → Option String) : Operand → List Char → Prop
  | .reg r, t => match name r with
    | some n => t = n.toList
    | none => Numeral.read 10 t = some r.toNat
  | .unsigned n, t => Numeral.read 10 t = some n
  | .signed x, t => Numeral.readInt t = some x
  | .address n, t => Numeral.readHex t = some n
  | .truth b, t => t = (if b then "true" else "false").toList
  | .unit n, t => ((DebugText.wrapped "UnitRef" t).bind (DebugText.wrapped "UnitOffset")).bind (Numeral.read 10) = some n
  | .debugInfo n, t =>
    ((DebugText.wrapped "DebugInfoRef" t).bind (DebugText.wrapped "DebugInfoOffset")).bind (Numeral.read 10) = some n
  | .more, t => t = "...".toList

/-- The operands of an instruction, in the order of DWARF 5, section 6.4.2. -/
def operands : Insn → List Operand
  | .setLoc a => [.address a.toNat]
  | .advanceLoc d => [.unsigned d.toNat]
  | .defCfa r x => [.reg r, .unsigned x.toNat]
  | .defCfaSf r x => [.reg r, .signed x.toInt]
  | .defCfaRegister r => [.reg r]
  | .defCfaOffset x => [.unsigned x.toNat]
  | .defCfaOffsetSf x => [.signed x.toInt]
  | .defCfaExpression _ => [.more]
  | .undefined r => [.reg r]
  | .sameValue r => [.reg r]
  | .offset r x => [.reg r, .unsigned x.toNat]
  | .offsetExtendedSf r x => [.reg r, .signed x.toInt]
  | .valOffset r x => [.reg r, .unsigned x.toNat]
  | .valOffsetSf r x => [.reg r, .signed x.toInt]
  | .register d s => [.reg d, .reg s]
  | .expression r _ => [.reg r, .more]
  | .valExpression r _ => [.reg r, .more]
  | .restore r => [.reg r]
  | .rememberState => []
  | .restoreState => []
  | .argsSize x => [.unsigned x.toNat]
  | .negateRaState => []
  | .nop => []

/-- The operands of an operation; base types only if the listing is `full`. -/
def opOperands (full : Bool) : Op → List Operand
  | .deref b s sp => (if full then [.unsigned b.toNat] else []) ++ [.unsigned s.toNat, .truth sp]
  | .pick i => [.unsigned i.toNat]
  | .plusConstant v => [.unsigned v.toNat]
  | .bra t => [.signed t.toInt]
  | .skip t => [.signed t.toInt]
  | .unsignedConstant v => [.unsigned v.toNat]
  | .signedConstant v => [.signed v.toInt]
  | .register r => [.reg r]
  | .registerOffset r x b => [.reg r, .signed x.toInt] ++ (if full then [.unsigned b.toNat] else [])
  | .frameOffset x => [.signed x.toInt]
  | .call (.unit x) => [.unit x.toNat]
  | .call (.debugInfo x) => [.debugInfo x.toNat]
  | _ => []

/-! ### Lines -/

/-- The name and the operands of an instruction: `NAME` or `NAME (a, b)`. -/
def parts (line : List Char) : Option (List Char × List (List Char)) :=
  match Listing.words line with
  | [] => none
  | [n] => some (n, [])
  | n :: o :: os =>
    match o with
    | '(' :: o =>
      (Listing.before ")" (List.flatten (o :: os))).map fun s => (n, Listing.splitAt ',' [] s)
    | _ => none

/-- How many spaces a line begins with. -/
def indent (line : List Char) : Nat := (line.takeWhile (· == ' ')).length

/-- The line shows the instruction. -/
def ShowsInsn (name : Reg → Option String) (i : Insn) (line : List Char) : Prop :=
  ∃ n os, parts line = some (n, os) ∧ IsName cfaNames (opcodes i) n ∧
    DebugText.Matched (fun x t => x.Shown name t) (operands i) os

/-- The line shows the operands of the operation behind a word. -/
def ShowsOp (full : Bool) (name : Reg → Option String) (op : Op) (line : List Char) : Prop :=
  ∃ n os, Listing.words line = n :: os ∧
    DebugText.Matched (fun x t => x.Shown name t) (opOperands full op) os

/-- The line begins with the name of the operation. -/
def NamesOp (op : Op) (line : List Char) : Prop :=
  ∃ codes n os, opOpcodes op = some codes ∧ Listing.words line = n :: os ∧ IsName opNames codes n

/-- The line of an operation, which is indented further than that of the instruction.  An operation that is printed
by its `Debug` text is not. -/
def OpLine (full : Bool) (name : Reg → Option String) : Op → List Char → Prop
  | .other d, t => t = d.toList
  | op, t => ShowsOp full name op t ∧ indent t = 18

/-- The lines of a list of instructions: behind the line of an instruction those of its operations.  An instruction
that cannot be decoded is reported and ends the list, an operation that cannot be decoded ends it. -/
def Lists (full : Bool) (name : Reg → Option String) (error : GErr → String) :
    List (Except GErr Insn) → List (List Char) → Prop
  | [], ls => ls = []
  | .error e :: _, ls => ls = ["Failed to decode CFI instruction: ".toList ++ (error e).toList]
  | .ok i :: rest, ls => ∃ (l : List Char) (ops : List Op) (texts tail : List (List Char)), ls = l :: (texts ++ tail) ∧
      ShowsInsn name i l ∧ indent l = 16 ∧ DebugText.Matched (fun op t => OpLine full name op t) ops texts ∧
      ((i.expr?.getD [] = ops.map .ok ∧ Lists full name error rest tail) ∨
       (∃ e t, i.expr?.getD [] = ops.map .ok ++ .error e :: t) ∧ tail = [])

end Verif.Spec.CfiText
