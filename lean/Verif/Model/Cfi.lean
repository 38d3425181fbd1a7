import Verif.Model.Texts
/-!
# The listing of call frame instructions

`dwarf2sframe2/src/dump.rs`, `dwarf2sframe/src/dump.rs` and the same functions in
`dwarf2sframe/src/bin/dwarfdump.rs`.  They print the same, except that the first leaves out the base
types of `Deref` and `RegisterOffset`; `full` says which.  `Model/Convert.lean` has the control flow
only (`dumpCfiInstructions`); here is the text.  Each `writeln!` is a line.  Writing is assumed to
succeed.  References are to `dwarf2sframe2/src/dump.rs`.
-/

namespace Verif

/-- `{}` of a signed integer. -/
def fmtInt {n : Nat} (x : BitVec n) : String :=
  if x.toInt < 0 then "-" ++ fmtNat x.toInt.natAbs else fmtNat x.toInt.natAbs

/-- `{}` of a `bool`. -/
def fmtBool (b : Bool) : String := if b then "true" else "false"

/-- `{:?}` of a `DieReference` (derived). -/
def DieRef.text : DieRef → String
  | .unit o => "UnitRef(UnitOffset(" ++ fmtNat o.toNat ++ "))"
  | .debugInfo o => "DebugInfoRef(DebugInfoOffset(" ++ fmtNat o.toNat ++ "))"

/-- A register by its name or number (display.rs:18-30; dwarfdump.rs, `register_name`). -/
def regText (name : Reg → Option String) (r : Reg) : String :=
  match name r with
  | some n => n
  | none => fmtNat r.toNat

/-- 217-258: the word of an operation and its operands (dwarf2sframe/src/dump.rs:222-265). -/
def Op.words (full : Bool) (name : Reg → Option String) : Op → String × List String
  | .deref b s sp => ("DW_OP_deref",
      if full then [fmtNat b.toNat, fmtNat s.toNat, fmtBool sp] else [fmtNat s.toNat, fmtBool sp])
  | .drop => ("DW_OP_drop", [])
  | .pick i => ("DW_OP_pick", [fmtNat i.toNat])
  | .swap => ("DW_OP_swap", [])
  | .rot => ("DW_OP_rot", [])
  | .abs => ("DW_OP_abs", [])
  | .and => ("DW_OP_and", [])
  | .div => ("DW_OP_div", [])
  | .mul => ("DW_OP_mul", [])
  | .neg => ("DW_OP_neg", [])
  | .not => ("DW_OP_not", [])
  | .plus => ("DW_OP_plus", [])
  | .plusConstant v => ("DW_OP_plusconstant", [fmtNat v.toNat])
  | .shl => ("DW_OP_shl", [])
  | .shr => ("DW_OP_shr", [])
  | .xor => ("DW_OP_xor", [])
  | .bra t => ("DW_OP_bra", [fmtInt t])
  | .eq => ("DW_OP_eq", [])
  | .ge => ("DW_OP_ge", [])
  | .lt => ("DW_OP_lt", [])
  | .gt => ("DW_OP_gt", [])
  | .le => ("DW_OP_le", [])
  | .ne => ("DW_OP_ne", [])
  | .skip t => ("DW_OP_skip", [fmtInt t])
  | .unsignedConstant v => ("DW_OP_uconst", [fmtNat v.toNat])
  | .signedConstant v => ("DW_OP_sconst", [fmtInt v])
  | .register r => ("DW_OP_register", [regText name r])
  | .registerOffset r x b => ("DW_OP_register_offset",
      if full then [regText name r, fmtInt x, fmtNat b.toNat] else [regText name r, fmtInt x])
  | .frameOffset x => ("DW_OP_frame_offset", [fmtInt x])
  | .nop => ("DW_OP_nop", [])
  | .pushObjectAddress => ("DW_OP_push_object_address", [])
  | .call x => ("DW_OP_call", [x.text])
  | .tls => ("DW_OP_tls", [])
  | .stackValue => ("DW_OP_stack_value", [])
  | .other d => (d, [])

/-- A word and its operands, separated by spaces. -/
def spaced (w : String × List String) : String := w.1 ++ String.join (w.2.map (" " ++ ·))

/-- 216-258: the line of an operation.  The operations that are not named are printed without the
indentation (258). -/
def Op.line (full : Bool) (name : Reg → Option String) (indent : String) : Op → String
  | .other d => d
  | op => indent ++ spaced (op.words full name)

/-- 31-196: the word of an instruction and its operands. -/
def Insn.words (name : Reg → Option String) : Insn → String × List String
  | .setLoc a => ("DW_CFA_set_loc", [fmtAltHex a.toNat])
  | .advanceLoc d => ("DW_CFA_advance_loc", [fmtNat d.toNat])
  | .defCfa r x => ("DW_CFA_def_cfa", [regText name r, fmtNat x.toNat])
  | .defCfaSf r x => ("DW_CFA_def_cfa_sf", [regText name r, fmtInt x])
  | .defCfaRegister r => ("DW_CFA_def_cfa_register", [regText name r])
  | .defCfaOffset x => ("DW_CFA_def_cfa_offset", [fmtNat x.toNat])
  | .defCfaOffsetSf x => ("DW_CFA_def_cfa_offset_sf", [fmtInt x])
  | .defCfaExpression _ => ("DW_CFA_def_cfa_expression", ["..."])
  | .undefined r => ("DW_CFA_undefined", [regText name r])
  | .sameValue r => ("DW_CFA_same_value", [regText name r])
  | .offset r x => ("DW_CFA_offset", [regText name r, fmtNat x.toNat])
  | .offsetExtendedSf r x => ("DW_CFA_offset_extended_sf", [regText name r, fmtInt x])
  | .valOffset r x => ("DW_CFA_val_offset", [regText name r, fmtNat x.toNat])
  | .valOffsetSf r x => ("DW_CFA_val_offset_sf", [regText name r, fmtInt x])
  | .register d s => ("DW_CFA_register", [regText name d, regText name s])
  | .expression r _ => ("DW_CFA_expression", [regText name r, "..."])
  | .valExpression r _ => ("DW_CFA_val_expression", [regText name r, "..."])
  | .restore r => ("DW_CFA_restore", [regText name r])
  | .rememberState => ("DW_CFA_remember_state", [])
  | .restoreState => ("DW_CFA_restore_state", [])
  | .argsSize x => ("DW_CFA_GNU_args_size", [fmtNat x.toNat])
  | .negateRaState => ("DW_CFA_AARCH64_negate_ra_state", [])
  | .nop => ("DW_CFA_nop", [])

/-- A word, and its operands if any in parentheses. -/
def called : String × List String → String
  | (w, []) => w
  | (w, a :: as) => w ++ (" (" ++ (a ++ (String.join (as.map (", " ++ ·)) ++ ")")))

/-- 31-196: the line of an instruction. -/
def Insn.line (name : Reg → Option String) (i : Insn) : String :=
  "                " ++ called (i.words name)

/-- 202-262 `dump_expression`: the lines and the result. -/
def listExpression (full : Bool) (name : Reg → Option String) (indent : String) :
    Expr → List String × Except GErr Unit
  | [] => ([], .ok ())
  | .error e :: _ => ([], .error e)
  | .ok op :: rest =>
    let r := listExpression full name indent rest
    (op.line full name indent :: r.1, r.2)

/-- 7-200 `dump_cfi_instructions`: the lines and the result.  `error` is the `Display` of gimli's errors. -/
def listInstructions (full : Bool) (name : Reg → Option String) (error : GErr → String) :
    List (Except GErr Insn) → List String × Except GErr Unit
  | [] => ([], .ok ())
  -- 27-30
  | .error e :: _ => (["Failed to decode CFI instruction: " ++ error e], .ok ())
  | .ok i :: rest =>
    match i.expr? with
    | none =>
      let r := listInstructions full name error rest
      (i.line name :: r.1, r.2)
    | some e =>
      match listExpression full name "                  " e with
      | (ls, .error x) => (i.line name :: ls, .error x)
      | (ls, .ok ()) =>
        let r := listInstructions full name error rest
        (i.line name :: (ls ++ r.1), r.2)

end Verif
