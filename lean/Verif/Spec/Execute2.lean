import Verif.Spec.Execute
/-!
# Which call frame instructions suit the converter
-/

namespace Verif.Spec

/-- The locations that the instructions go through. -/
def locations (cie : CieInfo) : List Insn → Nat → List Nat
  | [], loc => [loc]
  | .advanceLoc d :: is, loc => loc :: locations cie is (loc + d.toNat * cie.codeAlign.toNat)
  | .setLoc x :: is, loc => loc :: locations cie is x.toNat
  | _ :: is, loc => locations cie is loc

/-- A function of a size and with locations that SFrame can hold. -/
structure Suits (cie : CieInfo) (fde : DwFde) : Prop where
  start : fde.initial.toNat < 2 ^ 31
  len : fde.len.toNat < 2 ^ 31
  inside : ∀ l ∈ locations cie (fde.instructions.filterMap Except.toOption) fde.initial.toNat,
    l ≤ fde.initial.toNat + fde.len.toNat
  near : ∀ l ∈ locations cie (fde.instructions.filterMap Except.toOption) fde.initial.toNat,
    l < fde.initial.toNat + fde.len.toNat → l < fde.initial.toNat + 2 ^ 28

/-- Wherever the rules can be expressed, the return address is saved at the offset `v` from the CFA. -/
def ReturnsAt (cie : CieInfo) (fde : DwFde) (arch : Architecture) (v : Int) : Prop :=
  ∀ a : Nat, fde.initial.toNat ≤ a → a < fde.initial.toNat + fde.len.toNat →
    ∀ rs t, instructionRules cie fde a = some rs → expressible arch rs = some t → t.ra = v

end Verif.Spec
