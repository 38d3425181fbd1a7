import Verif.Spec.Convert
import Verif.Spec.Lookup
/-!
# Walking a stack, with DWARF rules and with SFrame rules

Both walkers work on the same machine: registers by DWARF number, and memory.  The DWARF walker knows
every rule that DWARF has; the SFrame walker keeps only program counter, stack pointer and frame pointer.
-/

namespace Verif.Spec

/-- Memory: the 64-bit word at an address, if it can be read. -/
abbrev Memory := U64 → Option U64

/-- The registers by DWARF number; `none` if the value was lost on the way. -/
abbrev RegFile := Nat → Option U64

/-- What a DWARF expression yields; left open. -/
abbrev Eval := Expr → RegFile → U64 → Option U64

/-- What a DWARF walker knows about a frame. -/
structure Frame where
  pc : U64
  reg : RegFile

/-- The CFA: a register plus an offset, or the value of an expression. -/
def cfaValue (ev : Eval) (reg : RegFile) : CfaRule → Option U64
  | .registerAndOffset r off => (reg r.toNat).map (· + off)
  | .expression e => ev e reg 0

/-- The value that a register had in the caller, by its rule (DWARF 5, 6.4.1). -/
def ruleValue (mem : Memory) (ev : Eval) (reg : RegFile) (cfa : U64) (r : Nat) : RegRule → Option U64
  | .undefined => none
  | .sameValue => reg r
  | .offset o => mem (cfa + o)
  | .valOffset o => some (cfa + o)
  | .register r' => reg r'.toNat
  | .expression e => (ev e reg cfa).bind mem
  | .valExpression e => ev e reg cfa
  | .architectural => none
  | .constant v => some v

/-- The register file of the caller.  A register without a rule keeps its value, but the stack pointer
is the CFA (psABIs). -/
def callerRegs (arch : Architecture) (mem : Memory) (ev : Eval) (reg : RegFile) (cfa : U64)
    (row : DwRow) : RegFile := fun r =>
  match row.registers.lookup (BitVec.ofNat 16 r) with
  | some rule => ruleValue mem ev reg cfa r rule
  | none => if r = spNum arch then some cfa else reg r

/-- The return address is signed: the pseudo register `RA_SIGN_STATE` is 1 (DWARF for the Arm 64-bit
Architecture, 4.1; `gimli` gives it the rule `Constant(1)`). -/
def SignedRa : Architecture → DwRow → Bool
  | .amd64, _ => false
  | .aarch64, row => decide (row.registers.lookup 34 = some (.constant 1))

/-- How a signed address is turned into the address; left open. -/
abbrev Strip := U64 → U64

/-- The caller of a frame, by a DWARF row. -/
def dwStep (arch : Architecture) (mem : Memory) (ev : Eval) (strip : Strip) (row : DwRow) (m : Frame) :
    Option Frame :=
  (cfaValue ev m.reg row.cfa).bind fun cfa =>
  (callerRegs arch mem ev m.reg cfa row (raNum arch)).map fun ra =>
  ⟨if SignedRa arch row then strip ra else ra, callerRegs arch mem ev m.reg cfa row⟩

/-- What an SFrame walker knows about a frame; the frame pointer may be lost. -/
structure SFrameState where
  pc : U64
  sp : U64
  fp : Option U64
  deriving DecidableEq, Repr

/-- The base register of the CFA. -/
def baseValue (m : SFrameState) : BaseReg → Option U64
  | .sp => some m.sp
  | .fp => m.fp

/-- The frame pointer of the caller: saved in memory, or unchanged. -/
def savedFp (mem : Memory) (cfa : U64) (m : SFrameState) : Option Int → Option U64
  | none => m.fp
  | some off => mem (cfa + BitVec.ofInt 64 off)

/-- The caller of a frame, by SFrame rules and the mangled flag. -/
def sfStep (mem : Memory) (strip : Strip) (t : Rules × Bool) (m : SFrameState) : Option SFrameState :=
  ((baseValue m t.1.base).map (· + BitVec.ofInt 64 t.1.cfa)).bind fun cfa =>
  (mem (cfa + BitVec.ofInt 64 t.1.ra)).map fun ra =>
  ⟨if t.2 then strip ra else ra, cfa, savedFp mem cfa m t.1.fp⟩

/-- The address at which the rules of a frame are looked up: the program counter, or for callers the
call before the return address. -/
def lookupAddress (first : Bool) (pc : U64) : Int :=
  if first then pc.toNat else pc.toNat - 1

/-- The DWARF row for an address: of a function that covers it, a row that covers it. -/
def DwRowAt (fdes : List DwFde) (a : Int) (row : DwRow) : Prop :=
  ∃ fde, LastWith fdes fde ∧ row ∈ rowsOf fde ∧
    fde.initial.toNat ≤ a ∧ a < fde.initial.toNat + fde.len.toNat ∧
    row.start.toNat ≤ a ∧ a < row.end_.toNat

/-- A walk up the stack with DWARF rules, and the rows used. -/
inductive DwWalk (arch : Architecture) (fdes : List DwFde) (mem : Memory) (ev : Eval)
    (strip : Strip) : Bool → Frame → List (DwRow × Frame) → Prop
  | done {first m} : DwWalk arch fdes mem ev strip first m []
  | step {first m row m' rest} : DwRowAt fdes (lookupAddress first m.pc) row →
      dwStep arch mem ev strip row m = some m' → DwWalk arch fdes mem ev strip false m' rest →
      DwWalk arch fdes mem ev strip first m ((row, m') :: rest)

/-- A walk of `n` steps up the stack with SFrame rules. -/
def sfWalk (mem : Memory) (strip : Strip) (rulesAt : Int → Option (Rules × Bool)) :
    Nat → Bool → SFrameState → Option (List SFrameState)
  | 0, _, _ => some []
  | n + 1, first, m =>
    (rulesAt (lookupAddress first m.pc)).bind fun t =>
    (sfStep mem strip t m).bind fun m' =>
    (sfWalk mem strip rulesAt n false m').map fun rest => m' :: rest

/-- The SFrame walker knows what the DWARF walker knows of the three registers. -/
structure Agrees (arch : Architecture) (m : Frame) (m' : SFrameState) : Prop where
  pc : m'.pc = m.pc
  sp : m.reg (spNum arch) = some m'.sp
  fp : ∀ v, m.reg (fpNum arch) = some v → m'.fp = some v

/-- The row leaves the stack pointer of the caller to be the CFA. -/
def PlainSp (arch : Architecture) (row : DwRow) : Prop :=
  row.registers.lookup (BitVec.ofNat 16 (spNum arch)) = none

end Verif.Spec
