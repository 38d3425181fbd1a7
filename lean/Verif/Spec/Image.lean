import Verif.Spec.Builder
import Verif.Spec.Fre
/-!
# What a built section must look like, in terms of the rows and functions of the builder
-/

namespace Verif.Spec

/-! ### Overlap -/

/-- Function `g` starts inside function `f`, addresses as integers. -/
def StartsInside (g f : FuncDescBuilder) : Prop :=
  f.startAddress.toInt < g.startAddress.toInt ∧
    g.startAddress.toInt < f.startAddress.toInt + f.size.toNat

/-- Some function starts inside another one. -/
def Overlapping (fs : List FuncDescBuilder) : Prop := ∃ f ∈ fs, ∃ g ∈ fs, StartsInside g f

/-- Functions number `i` and `i + 1` start more than `i32::MAX` apart. -/
def FarApart (fs : List FuncDescBuilder) (i : Nat) : Prop :=
  ∃ f g, fs[i]? = some f ∧ fs[i + 1]? = some g ∧
    2147483647 < g.startAddress.toInt - f.startAddress.toInt

/-! ### Sizes -/

/-- The offsets a row stores. -/
def values (r : FrameRowBuilder) : List Int :=
  match r.offsets with
  | none => []
  | some x => x.cfa.toInt :: (x.ra.toList ++ x.fp.toList).map BitVec.toInt

/-- `v` can be stored in `n` bytes, two's complement. -/
def FitsIn (n : Nat) (v : Int) : Prop := -(256 ^ n / 2 : Nat) ≤ v ∧ v < (256 ^ n / 2 : Nat)

instance (n : Nat) (v : Int) : Decidable (FitsIn n v) := inferInstanceAs (Decidable (_ ∧ _))

/-- The first value of the largest magnitude. -/
def firstLargest (vs : List Int) : Int :=
  vs.foldl (fun a v => if a.natAbs < v.natAbs then v else a) 0

/-- The offset width of a row: 1, 2 or 4 bytes, the smallest that fits the first value of the
largest magnitude. -/
def rowWidth (r : FrameRowBuilder) : Nat :=
  if FitsIn 1 (firstLargest (values r)) then 1
  else if FitsIn 2 (firstLargest (values r)) then 2 else 4

/-- The width of the row starts of a function. -/
def startWidth (f : FuncDescBuilder) : Nat :=
  let m := ((rows f).map fun r => r.startAddress.toNat).foldl max 0
  if m ≤ 0x7F then 1 else if m ≤ 0x7FFF then 2 else 4

/-- Bytes of one row. -/
def rowSize (f : FuncDescBuilder) (r : FrameRowBuilder) : Nat :=
  startWidth f + 1 + rowWidth r * (values r).length

/-- Bytes of the rows of a function. -/
def fresSize (f : FuncDescBuilder) : Nat := ((rows f).map (rowSize f)).sum

/-- Bytes of the rows of several functions. -/
def totalSize (fs : List FuncDescBuilder) : Nat := (fs.map fresSize).sum

/-- Number of rows of several functions. -/
def totalRows (fs : List FuncDescBuilder) : Nat := (fs.map fun f => (rows f).length).sum

/-- All counts and lengths can be stored in 32 bits. -/
def Representable (fs : List FuncDescBuilder) : Prop :=
  20 * fs.length < 2 ^ 32 ∧ totalRows fs < 2 ^ 32 ∧ totalSize fs < 2 ^ 32

/-- The bytes that are left after `n` decodable rows. -/
def restAfter (o : Endian) (fdeInfo : Nat) : Nat → List U8 → Option (List U8)
  | 0, bs => some bs
  | n + 1, bs => match decodeFre o fdeInfo bs with
    | .error _ => none
    | .ok (_, rest) => restAfter o fdeInfo n rest

/-- A fixed offset as a number: 0 means none. -/
def fixedNum (x : Option NonZeroI8) : Int := match x with | some v => v.val.toInt | none => 0

/-- The FDE at position `p` of `s` describes `f`, whose rows begin at `off`. -/
structure FdeAt (o : Endian) (s : List U8) (p : Nat) (f : FuncDescBuilder) (off : Nat) : Prop where
  start : sintAt o s p 4 = f.startAddress.toInt
  size : uintAt o s (p + 4) 4 = f.size.toNat
  startFreOff : uintAt o s (p + 8) 4 = off
  numFres : uintAt o s (p + 12) 4 = (rows f).length
  info : uintAt o s (p + 16) 1 =
    (match startWidth f with | 1 => 0 | 2 => 1 | _ => 2) + (if f.repSize.isSome then 8 else 0)
      + (if f.pauthKey = .B then 16 else 0)
  repSize : uintAt o s (p + 17) 1 = (match f.repSize with | some x => x.toNat | none => 0)
  padding : uintAt o s (p + 18) 2 = 0

/-! ### Rows -/

/-- Some value has the largest magnitude of the row, this magnitude is just out of the range of
positive numbers of a width, and the first value of that magnitude is the negative one. -/
def WidthTie (vs : List Int) : Prop :=
  ∃ m : Int, (m = 0x80 ∨ m = 0x8000) ∧ (∀ v ∈ vs, (v.natAbs : Int) ≤ m) ∧ m ∈ vs ∧
    vs.find? (fun v => decide ((v.natAbs : Int) = m)) = some (-m)

/-- The rows of a function survive the round trip: each starts inside the function, its offsets fit
the chosen width, and there is no FP offset without RA offset where the RA offset is per row. -/
def Storable (f : FuncDescBuilder) : Prop :=
  ∀ r ∈ rows f, r.startAddress.toNat < f.size.toNat ∧ ¬ WidthTie (values r) ∧
    ∀ x, r.offsets = some x → f.options.fixedRa = none → x.fp.isSome → x.ra.isSome

/-- The reader's row `e` says what row `r` of the builder says. -/
structure SameRow {o : Endian} (s : SFrame o) (opts : SFrameOptions) (e : FrameRowEntry o)
    (r : FrameRowBuilder) : Prop where
  start : e.startAddressOffset = r.startAddress
  base : e.baseReg = r.baseReg
  mangled : e.mangled = r.mangled
  cfa : e.cfaOffset.map BitVec.toInt = orMissing (r.offsets.map fun x => x.cfa.toInt)
  ra : (e.raOffset s).map BitVec.toInt = orMissing (match opts.fixedRa with
    | some x => some x.val.toInt
    | none => r.offsets.bind fun x => x.ra.map BitVec.toInt)
  fp : (e.fpOffset s).map BitVec.toInt = orMissing (match opts.fixedFp with
    | some x => some x.val.toInt
    | none => r.offsets.bind fun x => x.fp.map BitVec.toInt)

/-- Reading the rows of entry `e` gives the rows of `f`, in order. -/
def RowsRead {o : Endian} (s : SFrame o) (opts : SFrameOptions) (f : FuncDescBuilder)
    (e : FuncDescEntry o) : Prop :=
  ∃ rs : List (FrameRowEntry o), e.iter.collect = .ok (rs.map .ok) ∧ rs.length = (rows f).length ∧
    ∀ (j : Nat) r q, (rows f)[j]? = some r → rs[j]? = some q → SameRow s opts q r

/-- What a program learns about a row of a section. -/
structure RowReading where
  start : U32
  base : BaseReg
  mangled : Bool
  cfa : Except ReadError I32
  ra : Except ReadError I32
  fp : Except ReadError I32
  deriving DecidableEq

/-- Running one action after another. -/
def sequence {α : Type} : List (Rust α) → Rust (List α)
  | [] => .ok []
  | x :: xs => x.bind fun a => (sequence xs).bind fun as => .ok (a :: as)

/-- Loading a section and reading all rows of all functions. -/
def readAll (o : Endian) (bytes : List U8) :
    Rust (Except ReadError (List (List (Except ReadError RowReading)))) :=
  (SFrame.load o bytes).bind fun
  | .error e => .ok (.error e)
  | .ok s =>
    s.iter.collect.bind fun es =>
    (sequence (es.map fun e => e.iter.collect)).bind fun rows =>
    .ok (.ok (rows.map (·.map (·.map fun r =>
      { start := r.startAddressOffset, base := r.baseReg, mangled := r.mangled,
        cfa := r.cfaOffset, ra := r.raOffset s, fp := r.fpOffset s }))))

end Verif.Spec
