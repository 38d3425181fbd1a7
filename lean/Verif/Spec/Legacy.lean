import Verif.Spec.Convert
/-!
# What the legacy converter makes of a DWARF row
-/

namespace Verif.Spec

/-- The place of the frame pointer, as the legacy tool has it: every rule but `Offset` counts as
"not saved". -/
def legacyFp (row : DwRow) : Option (Option Int) :=
  match row.register 6 with
  | .offset off => if Fits32 off.toInt then some (some off.toInt) else none
  | _ => some none

/-- The rules the legacy tool takes from a row. -/
def legacyTranslate (row : DwRow) : Option Rules :=
  (cfaRules .amd64 row).bind fun c =>
  (legacyFp row).bind fun fp =>
  (raRules .amd64 row).map fun ra =>
  { base := c.1, cfa := c.2, fp := fp, ra := ra }

/-- All operations of an expression can be decoded. -/
def Decodable (e : Expr) : Prop := ∀ x ∈ e, ∃ op, x = .ok op

/-- The row can be printed: all operations of its expressions can be decoded. -/
def Printable (row : DwRow) : Prop :=
  (∀ e, row.cfa = .expression e → Decodable e) ∧
  ∀ x ∈ row.registers, ∀ e, x.2 = .expression e → Decodable e

/-- A function that the legacy tool can handle.  Rows of width zero count. -/
structure LegacyConvertible (fde : DwFde) : Prop where
  start : fde.initial.toNat ≤ 2147483647
  len : fde.len.toNat ≤ 2147483647
  dump : dumpError fde = none
  rows : fde.rows = .ok ((rowsOf fde).map .ok)
  printable : ∀ r ∈ rowsOf fde, Printable r
  inside : ∀ r ∈ rowsOf fde, fde.initial.toNat ≤ r.start.toNat ∧
    r.start.toNat < fde.initial.toNat + fde.len.toNat ∧ r.start.toNat < fde.initial.toNat + 2 ^ 28
  distinct : (rowsOf fde).Pairwise fun r r' => r.start ≠ r'.start

end Verif.Spec
