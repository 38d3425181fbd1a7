import Verif.Spec.Convert
/-!
# What call frame instructions say

The rules that the instructions of a function establish at an address (DWARF 5, 6.4.2 and 6.4.3), and the
table of rows that `gimli` makes of them.  `gimli` is not part of the code; `Executed` is the contract.
-/

namespace Verif.Spec

/-- What matters of a CIE: the alignment factors and the initial instructions. -/
structure CieInfo where
  codeAlign : U64
  dataAlign : I64
  initial : List Insn

/-- The rules in force: for the CFA, and for every register. -/
structure RuleSet where
  cfa : CfaRule
  reg : Reg → RegRule

/-- The rules in force, and those remembered. -/
structure CfiState where
  rules : RuleSet
  saved : List RuleSet

/-- A new rule for the CFA. -/
def CfiState.setCfa (st : CfiState) (c : CfaRule) : CfiState :=
  { st with rules := { st.rules with cfa := c } }

/-- A new rule for a register. -/
def CfiState.setReg (st : CfiState) (r : Reg) (rule : RegRule) : CfiState :=
  { st with rules := { st.rules with reg := fun x => if x = r then rule else st.rules.reg x } }

/-- What an instruction does to the rules (DWARF 5, 6.4.2.2 to 6.4.2.5; the last but one is of the DWARF for the
Arm 64-bit Architecture).  `init` are the rules after the initial instructions, if these are done. -/
def effect (cie : CieInfo) (init : Option RuleSet) (st : CfiState) : Insn → Option CfiState
  | .setLoc _ => some st
  | .advanceLoc _ => some st
  | .defCfa r x => some (st.setCfa (.registerAndOffset r x))
  | .defCfaSf r x => some (st.setCfa (.registerAndOffset r (x * cie.dataAlign)))
  | .defCfaRegister r =>
    match st.rules.cfa with
    | .registerAndOffset _ x => some (st.setCfa (.registerAndOffset r x))
    | .expression _ => none
  | .defCfaOffset x =>
    match st.rules.cfa with
    | .registerAndOffset r _ => some (st.setCfa (.registerAndOffset r x))
    | .expression _ => none
  | .defCfaOffsetSf x =>
    match st.rules.cfa with
    | .registerAndOffset r _ => some (st.setCfa (.registerAndOffset r (x * cie.dataAlign)))
    | .expression _ => none
  | .defCfaExpression e => some (st.setCfa (.expression e))
  | .undefined r => some (st.setReg r .undefined)
  | .sameValue r => some (st.setReg r .sameValue)
  | .offset r x => some (st.setReg r (.offset (x * cie.dataAlign)))
  | .offsetExtendedSf r x => some (st.setReg r (.offset (x * cie.dataAlign)))
  | .valOffset r x => some (st.setReg r (.valOffset (x * cie.dataAlign)))
  | .valOffsetSf r x => some (st.setReg r (.valOffset (x * cie.dataAlign)))
  | .register d s => some (st.setReg d (.register s))
  | .expression r e => some (st.setReg r (.expression e))
  | .valExpression r e => some (st.setReg r (.valExpression e))
  | .restore r => init.map fun i => st.setReg r (i.reg r)
  | .rememberState => some { st with saved := st.rules :: st.saved }
  | .restoreState =>
    match st.saved with
    | [] => none
    | rs :: saved => some ⟨rs, saved⟩
  | .argsSize _ => some st
  | .negateRaState =>
    match st.rules.reg 34 with
    | .undefined => some (st.setReg 34 (.constant 1))
    | .constant v => some (st.setReg 34 (.constant (v ^^^ 1)))
    | _ => none
  | .nop => some st

/-- The initial instructions, one after the other. -/
def runAll (cie : CieInfo) : List Insn → CfiState → Option CfiState
  | [], st => some st
  | i :: is, st => (effect cie none st i).bind (runAll cie is)

/-- The state after the initial instructions. -/
def initially (cie : CieInfo) : Option CfiState :=
  runAll cie cie.initial ⟨⟨.registerAndOffset 0 0, fun _ => .undefined⟩, []⟩

/-- DWARF 5, 6.4.3, step 3: process the instructions as long as they are for locations up to `a`. -/
def rulesFrom (cie : CieInfo) (init : RuleSet) (a : Nat) : List Insn → Nat → CfiState → Option RuleSet
  | [], _, st => some st.rules
  | .advanceLoc d :: is, loc, st =>
    if a < loc + d.toNat * cie.codeAlign.toNat then some st.rules
    else rulesFrom cie init a is (loc + d.toNat * cie.codeAlign.toNat) st
  | .setLoc x :: is, _, st =>
    if a < x.toNat then some st.rules else rulesFrom cie init a is x.toNat st
  | i :: is, loc, st => (effect cie (some init) st i).bind (rulesFrom cie init a is loc)

/-- DWARF 5, 6.4.3: the rules at an address of a function, by its instructions. -/
def instructionRules (cie : CieInfo) (fde : DwFde) (a : Nat) : Option RuleSet :=
  (initially cie).bind fun st =>
    rulesFrom cie st.rules a (fde.instructions.filterMap Except.toOption) fde.initial.toNat st

/-- The locations do not run over the end of the address space. -/
def LocationsFit (cie : CieInfo) : List Insn → Nat → Prop
  | [], _ => True
  | .advanceLoc d :: is, loc => loc + d.toNat * cie.codeAlign.toNat < 2 ^ 64 ∧
      LocationsFit cie is (loc + d.toNat * cie.codeAlign.toNat)
  | .setLoc x :: is, _ => LocationsFit cie is x.toNat
  | _ :: is, loc => LocationsFit cie is loc

/-- The table of `gimli::UnwindTable`: start, end and rules of every row.  Locations wrap around; a location
must not be set back; the last row ends with the function. -/
def unwindTable (cie : CieInfo) (init : RuleSet) (finish : U64) :
    List Insn → U64 → CfiState → Option (List (U64 × U64 × RuleSet))
  | [], loc, st => some [(loc, finish, st.rules)]
  | .advanceLoc d :: is, loc, st =>
    (unwindTable cie init finish is (loc + d.setWidth 64 * cie.codeAlign) st).map
      ((loc, loc + d.setWidth 64 * cie.codeAlign, st.rules) :: ·)
  | .setLoc x :: is, loc, st =>
    if x.toNat < loc.toNat then none
    else (unwindTable cie init finish is x st).map ((loc, x, st.rules) :: ·)
  | i :: is, loc, st => (effect cie (some init) st i).bind (unwindTable cie init finish is loc)

/-- A row of `gimli` is a row of the table. -/
structure Shows (row : DwRow) (t : U64 × U64 × RuleSet) : Prop where
  start : row.start = t.1
  end_ : row.end_ = t.2.1
  cfa : row.cfa = t.2.2.cfa
  reg : ∀ r, row.register r = t.2.2.reg r

/-- The contract of `gimli`: rows without an error are the table of the instructions. -/
def Executed (cie : CieInfo) (fde : DwFde) : Prop :=
  ∀ rows : List DwRow, fde.rows = .ok (rows.map .ok) →
    ∃ (is : List Insn) (st : CfiState) (table : List (U64 × U64 × RuleSet)),
      fde.instructions = is.map .ok ∧ initially cie = some st ∧
      unwindTable cie st.rules (fde.initial + fde.len) is fde.initial st = some table ∧
      rows.length = table.length ∧ ∀ (i : Nat) row t, rows[i]? = some row → table[i]? = some t → Shows row t

/-- The rules of a rule set, if SFrame can express them: the CFA is stack or frame pointer plus a 32-bit offset,
the frame pointer is saved at a 32-bit offset or not at all, the return address is saved at a 32-bit offset. -/
def expressible (arch : Architecture) (rs : RuleSet) : Option Rules :=
  (match rs.cfa with
    | .registerAndOffset r x =>
      if ¬ Fits32 x.toInt then none
      else if r.toNat = spNum arch then some (BaseReg.sp, x.toInt)
      else if r.toNat = fpNum arch then some (BaseReg.fp, x.toInt)
      else none
    | .expression _ => none).bind fun c =>
  (match rs.reg (BitVec.ofNat 16 (fpNum arch)) with
    | .offset x => if Fits32 x.toInt then some (some x.toInt) else none
    | .sameValue => some none
    | .undefined => some none
    | _ => none).bind fun fp =>
  (match rs.reg (BitVec.ofNat 16 (raNum arch)) with
    | .offset x => if Fits32 x.toInt then some x.toInt else none
    | _ => none).map fun ra =>
  { base := c.1, cfa := c.2, fp := fp, ra := ra }

end Verif.Spec
