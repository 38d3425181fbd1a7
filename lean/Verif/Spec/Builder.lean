import Verif.Model.Write
/-!
# What the builder calls must do, in terms of lists of rows and lists of functions
-/

namespace Verif.Spec

/-- The rows of a function builder, in the order of the map. -/
def rows (f : FuncDescBuilder) : List FrameRowBuilder := f.fres.map Prod.snd

/-- The functions of a section builder, in the order of the map. -/
def functions (b : SFrameBuilder) : List FuncDescBuilder := b.fdes.map Prod.snd

/-- The section-wide offset allows the offset of a row: absent, or equal to it. -/
def fixedAllows (fixed : Option NonZeroI8) (stored : Option I32) : Bool :=
  match fixed, stored with
  | some x, some y => decide (x.val.toInt = y.toInt)
  | _, _ => true

/-- The documented rules for a row, in order: the error if it is violated, and whether it holds. -/
def rowRules (f : FuncDescBuilder) (r : FrameRowBuilder) : List (FrameRowError × Bool) := [
  (.startAddressTooLarge, decide (r.startAddress.toNat < 2 ^ 28)),
  (.startAddressLargerThanRepSize, f.repSize.all fun rep => decide (r.startAddress.toNat < rep.toNat)),
  (.startAddressOutsideFde, decide (r.startAddress.toNat < f.size.toNat)),
  (.unexpectedRaOffset, r.offsets.all fun x => fixedAllows f.options.fixedRa x.ra),
  (.unexpectedFpOffset, r.offsets.all fun x => fixedAllows f.options.fixedFp x.fp),
  (.duplicateRow, (rows f).all fun r' => decide (r'.startAddress ≠ r.startAddress))]

/-- The first violated rule. -/
def rowError (f : FuncDescBuilder) (r : FrameRowBuilder) : Option FrameRowError :=
  ((rowRules f r).find? fun x => !x.2).map Prod.fst

/-- A row as it is to be stored: without the offsets that the section header gives. -/
def storedRow (o : SFrameOptions) (r : FrameRowBuilder) : FrameRowBuilder :=
  { r with offsets := r.offsets.map fun x =>
      { cfa := x.cfa
        ra := if o.fixedRa.isSome then none else x.ra
        fp := if o.fixedFp.isSome then none else x.fp } }

/-- The row in force at offset `off`: the last one that starts at or before it. -/
def governingRow (rs : List FrameRowBuilder) (off : Nat) : Option FrameRowBuilder :=
  (rs.filter fun r => decide (r.startAddress.toNat ≤ off)).getLast?

/-- What a row tells the unwinder. -/
def rule (r : FrameRowBuilder) : BaseReg × Bool × Option (Int × Option Int × Option Int) :=
  (r.baseReg, r.mangled, r.offsets.map fun x =>
    (x.cfa.toInt, x.ra.map BitVec.toInt, x.fp.map BitVec.toInt))

/-- Rows in strictly ascending order of start. -/
def RowsAscending (rs : List FrameRowBuilder) : Prop :=
  rs.Pairwise fun r r' => r.startAddress.toNat < r'.startAddress.toNat

/-- Functions in strictly ascending order of start. -/
def FunctionsAscending (fs : List FuncDescBuilder) : Prop :=
  fs.Pairwise fun f f' => f.startAddress.toInt < f'.startAddress.toInt

end Verif.Spec
