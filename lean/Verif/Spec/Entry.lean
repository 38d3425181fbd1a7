import Verif.Spec.Layout
import Verif.Model.Read
/-!
# What an entry of the function table must look like, in terms of the bytes of the section
-/

namespace Verif.Spec

/-- Bit `k` of the FDE info byte of function `i`. -/
def infoBit (o : Endian) (s : List U8) (i k : Nat) : Bool :=
  uintAt o s (fdePos o s i + 16) 1 / 2 ^ k % 2 = 1

/-- The function type that version and info byte of function `i` mean (bit 3, raw/v2.rs:128-134; the
specification has bit 4, see C118). -/
def fdeKind (o : Endian) (s : List U8) (i : Nat) : FdeType :=
  if infoBit o s i 3 then (if version o s = 1 then .pcMaskV1 else .pcMask) else .pcInc

/-- Entry number `i` of the table: every accessor returns what is stored at the documented place. -/
structure EntryAt (o : Endian) (s : List U8) (i : Nat) (e : FuncDescEntry o) : Prop where
  start : e.startAddress.toInt = sintAt o s (fdePos o s i) 4
  size : e.size.toNat = uintAt o s (fdePos o s i + 4) 4
  numFres : e.fde.numFres.toNat = uintAt o s (fdePos o s i + 12) 4
  info : e.fde.info.toNat = uintAt o s (fdePos o s i + 16) 1
  fdetype : e.fdetype = fdeKind o s i
  pauthKey : e.pauthKey = if infoBit o s i 4 then .B else .A
  repBlockSize : e.repBlockSize.map BitVec.toNat =
    if version o s = 1 then none else some (uintAt o s (fdePos o s i + 17) 1)
  fres : e.fres = (span s (fresPos o s) (freLen o s)).drop (uintAt o s (fdePos o s i + 8) 4)

end Verif.Spec
