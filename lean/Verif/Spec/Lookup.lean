import Verif.Model.Read
/-!
# What the address lookups must return
-/

namespace Verif.Spec

variable {o : Endian}

/-- The address `a` belongs to the function `e`: `start ≤ a < start + size`, as integers. -/
def Covers (e : FuncDescEntry o) (a : I32) : Prop :=
  e.startAddress.toInt ≤ a.toInt ∧ a.toInt < e.startAddress.toInt + e.size.toNat

instance (e : FuncDescEntry o) (a : I32) : Decidable (Covers e a) :=
  inferInstanceAs (Decidable (_ ∧ _))

/-- No `i32` overflow in `a - start` (only builds with overflow checks care). -/
def NoOverflow (dbg : Bool) (e : FuncDescEntry o) (a : I32) : Prop :=
  dbg = true → a.toInt - e.startAddress.toInt ≤ 2147483647

/-- Each function ends before the next one starts. -/
def SortedDisjoint (es : List (FuncDescEntry o)) : Prop :=
  es.Pairwise fun e e' => e.startAddress.toInt + (e.size.toNat : Int) ≤ e'.startAddress.toInt

/-- The row in force at offset `off` of a function: the last one that starts at or before it. -/
def governing (rows : List (FrameRowEntry o)) (off : Nat) : Option (FrameRowEntry o) :=
  (rows.filter fun r => decide (r.startAddressOffset.toNat ≤ off)).getLast?

/-- Rows in strictly ascending order of their start. -/
def Ascending (rows : List (FrameRowEntry o)) : Prop :=
  rows.Pairwise fun r r' => r.startAddressOffset.toNat < r'.startAddressOffset.toNat

end Verif.Spec
