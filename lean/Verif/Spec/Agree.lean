import Verif.Spec.Legacy
import Verif.Spec.Unwind
/-!
# Where the two converters differ
-/

namespace Verif.Spec

/-- RBP has a rule that SFrame has no words for: neither "lost", nor "unchanged", nor "saved on the
stack". -/
def OddRbp (row : DwRow) : Prop :=
  match row.register 6 with
  | .undefined => False
  | .sameValue => False
  | .offset _ => False
  | _ => True

instance (row : DwRow) : Decidable (OddRbp row) := by
  unfold OddRbp; split <;> infer_instance

/-- The row can be expressed but for the rule for RBP. -/
def Dropped (row : DwRow) : Prop :=
  (cfaRules .amd64 row).isSome ∧ (raRules .amd64 row).isSome ∧ OddRbp row

instance (row : DwRow) : Decidable (Dropped row) := by unfold Dropped; infer_instance

/-- The address is in none of the functions. -/
def Outside (fdes : List DwFde) (a : Int) : Prop :=
  ∀ fde, LastWith fdes fde → ¬ (fde.initial.toNat ≤ a ∧ a < fde.initial.toNat + fde.len.toNat)

end Verif.Spec
