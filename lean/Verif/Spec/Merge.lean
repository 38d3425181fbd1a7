import Verif.Spec.Builder
/-!
# What merging functions must preserve and do
-/

namespace Verif.Spec

/-- Address `a` (any integer) belongs to `f`. -/
def Holds (f : FuncDescBuilder) (a : Int) : Prop :=
  f.startAddress.toInt ≤ a ∧ a < f.startAddress.toInt + f.size.toNat

instance (f : FuncDescBuilder) (a : Int) : Decidable (Holds f a) :=
  inferInstanceAs (Decidable (_ ∧ _))

/-- The offset that selects the row for address `a`: repetitive functions start over every
`repSize` bytes. -/
def rowOffset (f : FuncDescBuilder) (a : Int) : Nat :=
  match f.repSize with
  | some rep => (a - f.startAddress.toInt).toNat % rep.toNat
  | none => (a - f.startAddress.toInt).toNat

/-- What an unwinder learns at address `a`: the key and the row in force, if any. -/
def unwind (fs : List FuncDescBuilder) (a : Int) :
    Option (PauthKey × Option FrameRowBuilder) :=
  (fs.find? fun f => decide (Holds f a)).map fun f =>
    (f.pauthKey, governingRow (rows f) (rowOffset f a))

/-- The period of a function: its repetition size, or its size if it does not repeat. -/
def period (f : FuncDescBuilder) : Nat :=
  match f.repSize with
  | some rep => rep.toNat
  | none => f.size.toNat

/-- The distance between the starts of two functions. -/
def distance (f g : FuncDescBuilder) : Int := g.startAddress.toInt - f.startAddress.toInt

/-- `f` followed by `g`, described as one repetitive function. -/
def joined (f g : FuncDescBuilder) : FuncDescBuilder :=
  { f with size := BitVec.ofNat 32 (f.size.toNat + g.size.toNat)
           repSize := some (BitVec.ofNat 8 (period f)) }

/-- `f` and `g` say the same thing and can be described by one repetitive function, wherever they
are. -/
def Alike (f g : FuncDescBuilder) : Prop :=
  f.pauthKey = g.pauthKey ∧ rows f = rows g ∧ period f = period g ∧ period f ≤ 255 ∧
    f.size.toNat + g.size.toNat < 2 ^ 32

instance (f g : FuncDescBuilder) : Decidable (Alike f g) :=
  inferInstanceAs (Decidable (_ ∧ _))

end Verif.Spec
