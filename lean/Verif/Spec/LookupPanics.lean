import Verif.Spec.Lookup
import Verif.Spec.Fre
/-!
# When address lookups panic
-/

namespace Verif.Spec

variable {o : Endian}

/-- `a` lies so far behind the start of the function that the difference is no `i32`. -/
def FarBehind (e : FuncDescEntry o) (a : I32) : Prop := 2147483647 < a.toInt - e.startAddress.toInt

instance (e : FuncDescEntry o) (a : I32) : Decidable (FarBehind e a) := inferInstanceAs (Decidable (_ < _))

/-- The first function in the way of a lookup of `a`, in a build with overflow checks: one that covers `a` or one
that `a` is too far from. -/
def firstMet (es : List (FuncDescEntry o)) (a : I32) : Option (FuncDescEntry o) :=
  es.find? fun e => decide (Covers e a) || decide (FarBehind e a)

/-- Decoded rows among which a lookup comes to one that starts outside the function: all rows before it can be
decoded, and none of them applies. -/
def Meets (size : Nat) (applies : FreView → Bool) (vs : List (Except ReadError FreView)) : Prop :=
  ∃ (i : Nat) (v : FreView), vs[i]? = some (.ok v) ∧ size ≤ v.start ∧
    ∀ j < i, ∃ w : FreView, vs[j]? = some (.ok w) ∧ applies w = false

end Verif.Spec
