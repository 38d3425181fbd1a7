import Verif.Spec.Rewrite
/-!
# What has to be kept of a section that any program may have made
-/

namespace Verif.Spec

variable {o : Endian}

/-- What the accessors tell about a row: the base register counts only if there is an offset for the CFA. -/
structure Told where
  start : U32
  mangled : Bool
  cfa : Option (BaseReg × I32)
  ra : Option I32
  fp : Option I32
  deriving DecidableEq, Repr

/-- What row `r` of section `s` tells. -/
def told (s : SFrame o) (r : FrameRowEntry o) : Told :=
  { start := r.startAddressOffset, mangled := r.mangled,
    cfa := r.cfaOffset.toOption.map fun x => (r.baseReg, x),
    ra := (r.raOffset s).toOption, fp := (r.fpOffset s).toOption }

/-- All rows of entry `e` can be read, and tell `l`, in order. -/
def RowsTell (s : SFrame o) (e : FuncDescEntry o) (l : List Told) : Prop :=
  ∃ rs : List (FrameRowEntry o), e.iter.collect = .ok (rs.map .ok) ∧ rs.map (told s) = l

/-- The offsets that a row has to store: not those that the header gives. -/
def Told.stored (s : SFrame o) (t : Told) : List Int :=
  match t.cfa with
  | none => []
  | some (_, cfa) => cfa.toInt ::
    ((if s.fixedRaOffset = none then t.ra.toList else []) ++
     (if s.fixedFpOffset = none then t.fp.toList else [])).map BitVec.toInt

/-- The last of the functions that start at `a`. -/
def lastAt (es : List (FuncDescEntry o)) (a : I32) : Option (FuncDescEntry o) :=
  (es.filter fun e => decide (e.startAddress = a)).getLast?

/-- The builder takes the rows of an entry: all can be read, no two start at the same place, none starts too far. -/
def Copyable (e : FuncDescEntry o) : Prop :=
  ∃ rs : List (FrameRowEntry o), e.iter.collect = .ok (rs.map .ok) ∧
    (rs.map (·.startAddressOffset)).Nodup ∧ ∀ r ∈ rs, r.startAddressOffset.toNat < 2 ^ 28

/-- Entry `e'` of section `s'` is what entry `e` of section `s` is: the same function, and its rows, in order of start,
tell the same exactly if none of them has a width tie. -/
structure KeptFn {o' : Endian} (s : SFrame o) (e : FuncDescEntry o) (s' : SFrame o') (e' : FuncDescEntry o') : Prop where
  start : e'.startAddress = e.startAddress
  size : e'.size = e.size
  key : e'.pauthKey = e.pauthKey
  inc : e.fdetype = .pcInc → e'.fdetype = .pcInc
  mask : e.fdetype ≠ .pcInc → e'.fdetype = .pcMask ∧ e'.repBlockSize = some (e.repBlockSize.getD 0)
  rows : ∃ l l' : List Told, RowsTell s e l ∧ l'.Perm l ∧ l'.Pairwise (fun t u => t.start.toNat < u.start.toNat) ∧
    (RowsTell s' e' l' ↔ ∀ t ∈ l, ¬ WidthTie (t.stored s))

/-- The header of `s'` says what that of `s` says, in version 2, and that the functions are sorted. -/
structure KeptHeader {o' : Endian} (s : SFrame o) (s' : SFrame o') : Prop where
  version : s'.version = 2
  abi : s'.abi = s.abi
  ra : s'.fixedRaOffset = s.fixedRaOffset
  fp : s'.fixedFpOffset = s.fixedFpOffset
  sorted : s'.flags.getLsbD 0 = true
  framePointer : s'.flags.getLsbD 1 = s.flags.getLsbD 1

end Verif.Spec
