import Verif.Spec.Execute2
import Verif.Spec.Legacy
/-!
# What the legacy converter takes from call frame instructions
-/

namespace Verif.Spec

/-- The rule is one that SFrame has words for: "lost", "unchanged" or "saved on the stack". -/
def Plain : RegRule → Prop
  | .undefined => True
  | .sameValue => True
  | .offset _ => True
  | _ => False

instance (rule : RegRule) : Decidable (Plain rule) := by
  unfold Plain; split <;> infer_instance

/-- The rules, if any other rule for RBP is taken for "lost". -/
def forgetRbp (rs : RuleSet) : RuleSet :=
  { rs with reg := fun r => if r = 6 ∧ ¬ Plain (rs.reg 6) then .undefined else rs.reg r }

/-- All operations of the expressions that are printed can be decoded. -/
def PrintableRules (rs : RuleSet) : Prop :=
  (∀ e, rs.cfa = .expression e → Decodable e) ∧ ∀ r e, rs.reg r = .expression e → Decodable e

/-- The instructions suit the legacy converter: every location is after the one before, inside the function
and less than 2^28 bytes into it, and all expressions can be printed. -/
structure LegacySuits (cie : CieInfo) (fde : DwFde) : Prop where
  start : fde.initial.toNat < 2 ^ 31
  len : fde.len.toNat < 2 ^ 31
  dump : dumpError fde = none
  forward : (locations cie (fde.instructions.filterMap Except.toOption) fde.initial.toNat).Pairwise (· < ·)
  inside : ∀ l ∈ locations cie (fde.instructions.filterMap Except.toOption) fde.initial.toNat,
    l < fde.initial.toNat + fde.len.toNat ∧ l < fde.initial.toNat + 2 ^ 28
  printable : ∀ a : Nat, fde.initial.toNat ≤ a → a < fde.initial.toNat + fde.len.toNat →
    ∀ rs, instructionRules cie fde a = some rs → PrintableRules rs

end Verif.Spec
