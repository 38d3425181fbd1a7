import Verif.Model.Convert
/-!
# What a DWARF row says, and what must become of it

Numbers are integers here; nothing of the converter's control flow is used.
-/

namespace Verif.Spec

/-- DWARF numbers of frame pointer, stack pointer and return address (System V psABIs). -/
def fpNum : Architecture → Nat
  | .amd64 => 6
  | .aarch64 => 29

@[inherit_doc fpNum] def spNum : Architecture → Nat
  | .amd64 => 7
  | .aarch64 => 31

@[inherit_doc fpNum] def raNum : Architecture → Nat
  | .amd64 => 16
  | .aarch64 => 30

/-- The unwind rules SFrame can express: CFA = base + `cfa`, FP saved at CFA + `fp` (or not saved),
RA saved at CFA + `ra`. -/
structure Rules where
  base : BaseReg
  cfa : Int
  fp : Option Int
  ra : Int
  deriving DecidableEq, Repr

/-- The range of a 32-bit offset. -/
def Fits32 (x : Int) : Prop := -2147483648 ≤ x ∧ x ≤ 2147483647

instance (x : Int) : Decidable (Fits32 x) := inferInstanceAs (Decidable (_ ∧ _))

/-- The CFA is stack or frame pointer plus a 32-bit offset. -/
def cfaRules (arch : Architecture) (row : DwRow) : Option (BaseReg × Int) :=
  match row.cfa with
  | .expression _ => none
  | .registerAndOffset reg off =>
    if ¬ Fits32 off.toInt then none
    else if reg.toNat = spNum arch then some (.sp, off.toInt)
    else if reg.toNat = fpNum arch then some (.fp, off.toInt)
    else none

/-- The frame pointer is saved at a 32-bit offset, or not at all. -/
def fpRules (arch : Architecture) (row : DwRow) : Option (Option Int) :=
  match row.register (BitVec.ofNat 16 (fpNum arch)) with
  | .offset off => if Fits32 off.toInt then some (some off.toInt) else none
  | .sameValue => some none
  | .undefined => some none
  | _ => none

/-- The return address is saved at a 32-bit offset. -/
def raRules (arch : Architecture) (row : DwRow) : Option Int :=
  match row.register (BitVec.ofNat 16 (raNum arch)) with
  | .offset off => if Fits32 off.toInt then some off.toInt else none
  | _ => none

/-- The rules of a DWARF row, if SFrame can express them. -/
def translate (arch : Architecture) (row : DwRow) : Option Rules :=
  (cfaRules arch row).bind fun c =>
  (fpRules arch row).bind fun fp =>
  (raRules arch row).map fun ra =>
  { base := c.1, cfa := c.2, fp := fp, ra := ra }

/-- Why the CFA cannot be expressed. -/
def cfaComplaint (arch : Architecture) (row : DwRow) : Option WarnMsg :=
  match row.cfa with
  | .expression _ => some .cfaExpression
  | .registerAndOffset reg off =>
    if reg.toNat ≠ spNum arch ∧ reg.toNat ≠ fpNum arch then some (.cfaRegister reg)
    else if ¬ Fits32 off.toInt then some (.cfaOffset off)
    else none

/-- Why the place of the frame pointer cannot be expressed. -/
def fpComplaint (arch : Architecture) (row : DwRow) : Option WarnMsg :=
  match row.register (BitVec.ofNat 16 (fpNum arch)) with
  | .offset off => if Fits32 off.toInt then none else some (.fpOffset off)
  | .sameValue => none
  | .undefined => none
  | rule => some (.fpRule rule)

/-- Why the place of the return address cannot be expressed. -/
def raComplaint (arch : Architecture) (row : DwRow) : Option WarnMsg :=
  match row.register (BitVec.ofNat 16 (raNum arch)) with
  | .offset off => if Fits32 off.toInt then none else some (.raOffset off)
  | rule => some (.raRule rule)

/-- The first reason, if any, why a row cannot be expressed. -/
def complaint (arch : Architecture) (row : DwRow) : Option WarnMsg :=
  ((cfaComplaint arch row).or (fpComplaint arch row)).or (raComplaint arch row)

/-- The SFrame row for a DWARF row: the same rules at the same offset, or an invalid row. -/
def rowOf (arch : Architecture) (fde : DwFde) (row : DwRow) : FrameRowBuilder :=
  { startAddress := BitVec.ofNat 32 (row.start.toNat - fde.initial.toNat)
    mangled := false
    baseReg := match translate arch row with | some t => t.base | none => .fp
    offsets := (translate arch row).map fun t =>
      { cfa := BitVec.ofInt 32 t.cfa, ra := some (BitVec.ofInt 32 t.ra),
        fp := t.fp.map (BitVec.ofInt 32) } }

/-- The rows that cover at least one address. -/
def live (rs : List DwRow) : List DwRow := rs.filter fun r => decide (r.start ≠ r.end_)

/-- The row starts at an offset that the converter accepts. -/
def Near (fde : DwFde) (row : DwRow) : Prop :=
  fde.initial.toNat ≤ row.start.toNat ∧ row.start.toNat - fde.initial.toNat < 2147483647

instance (fde : DwFde) (row : DwRow) : Decidable (Near fde row) :=
  inferInstanceAs (Decidable (_ ∧ _))

/-- The items that make the converter give up with an error. -/
def itemError (fde : DwFde) : Except GErr DwRow → Option ConvError
  | .error e => some (.invalidUnwindTable e)
  | .ok r =>
    if r.start ≠ r.end_ ∧ ¬ Near fde r then some (.invalidRowOffset r.start (r.start - fde.initial))
    else none

/-- The row can stand in the SFrame function: it starts inside the function, below 2^28, and if the
section header fixes the RA offset, it does not say anything else. -/
structure Placed (so : SFrameOptions) (arch : Architecture) (fde : DwFde) (row : DwRow) : Prop where
  after : fde.initial.toNat ≤ row.start.toNat
  inside : row.start.toNat < fde.initial.toNat + fde.len.toNat
  small : row.start.toNat < fde.initial.toNat + 2 ^ 28
  ra : ∀ t v, translate arch row = some t → so.fixedRa = some v → t.ra = v.val.toInt

/-- The rows can all stand in one function: each by itself, and no two at one place. -/
structure Clean (so : SFrameOptions) (arch : Architecture) (fde : DwFde) (rs : List DwRow) : Prop where
  placed : ∀ r ∈ live rs, Placed so arch fde r
  distinct : (live rs).Pairwise fun r r' => r.start ≠ r'.start

/-- A row that starts before its function. -/
def Before (fde : DwFde) (x : Except GErr DwRow) : Prop :=
  ∃ r, x = .ok r ∧ r.start ≠ r.end_ ∧ r.start.toNat < fde.initial.toNat

/-- A row near its function that cannot stand in it after the rows `pre`. -/
def Misplaced (so : SFrameOptions) (arch : Architecture) (fde : DwFde) (pre : List DwRow)
    (x : Except GErr DwRow) : Prop :=
  ∃ r, x = .ok r ∧ r.start ≠ r.end_ ∧ Near fde r ∧ ¬ Clean so arch fde (pre ++ [r])

/-- What the debug dump chokes on: the first operation that cannot be decoded in an expression
before the first instruction that cannot be decoded. -/
def dumpError (fde : DwFde) : Option GErr :=
  ((fde.instructions.takeWhile Except.isOk).flatMap fun
    | .ok (.defCfaExpression e) => e
    | .ok (.expression _ e) => e
    | .ok (.valExpression _ e) => e
    | _ => []).findSome? fun
    | .error e => some e
    | .ok _ => none

/-- The rows of a function that could be decoded. -/
def rowsOf (fde : DwFde) : List DwRow :=
  match fde.rows with
  | .error _ => []
  | .ok xs => xs.filterMap Except.toOption

/-- The debug dump, if it is on, goes through. -/
def DumpOk (opts : Options) (fde : DwFde) : Prop := opts.debugdump = true → dumpError fde = none

/-- The debug dump, if it is on, overflows on printing the end of the function. -/
def DumpOverflows (opts : Options) (fde : DwFde) : Prop :=
  opts.debugdump = true ∧ 2 ^ 64 ≤ fde.initial.toNat + fde.len.toNat

/-- A function that the converter can handle. -/
structure Convertible (so : SFrameOptions) (opts : Options) (fde : DwFde) : Prop where
  dump : DumpOk opts fde
  start : fde.initial.toNat ≤ 2147483647
  len : fde.len.toNat ≤ 2147483647
  rows : fde.rows = .ok ((rowsOf fde).map .ok)
  clean : Clean so opts.arch fde (rowsOf fde)

/-- The errors of a single function, in order of precedence. -/
inductive FdeFails (dbg : Bool) (so : SFrameOptions) (opts : Options) (fde : DwFde) : ConvError → Prop
  | dump (g : GErr) : opts.debugdump = true → ¬ (dbg = true ∧ DumpOverflows opts fde) →
      dumpError fde = some g → FdeFails dbg so opts fde (.invalidDwarfFde g)
  | start : ¬ (dbg = true ∧ DumpOverflows opts fde) → DumpOk opts fde →
      2147483647 < fde.initial.toNat → FdeFails dbg so opts fde (.invalidStartAddress fde.initial)
  | len : ¬ (dbg = true ∧ DumpOverflows opts fde) → DumpOk opts fde →
      fde.initial.toNat ≤ 2147483647 → 2147483647 < fde.len.toNat →
      FdeFails dbg so opts fde (.invalidFunctionLength fde.initial fde.len)
  | table (g : GErr) : DumpOk opts fde → fde.initial.toNat ≤ 2147483647 →
      fde.len.toNat ≤ 2147483647 → fde.rows = .error g →
      FdeFails dbg so opts fde (.invalidUnwindTable g)
  | row (rs : List DwRow) (x : Except GErr DwRow) (rest : List (Except GErr DwRow)) (e : ConvError) :
      DumpOk opts fde → fde.initial.toNat ≤ 2147483647 → fde.len.toNat ≤ 2147483647 →
      fde.rows = .ok (rs.map .ok ++ x :: rest) → Clean so opts.arch fde rs →
      itemError fde x = some e → ¬ (dbg = true ∧ Before fde x) → FdeFails dbg so opts fde e

/-- What makes the converter panic on a single function. -/
inductive FdePanics (dbg : Bool) (so : SFrameOptions) (opts : Options) (fde : DwFde) : Prop
  | dump : dbg = true → DumpOverflows opts fde → FdePanics dbg so opts fde
  | row (rs : List DwRow) (x : Except GErr DwRow) (rest : List (Except GErr DwRow)) :
      DumpOk opts fde → fde.initial.toNat ≤ 2147483647 → fde.len.toNat ≤ 2147483647 →
      fde.rows = .ok (rs.map .ok ++ x :: rest) → Clean so opts.arch fde rs →
      (dbg = true ∧ Before fde x) ∨ Misplaced so opts.arch fde rs x → FdePanics dbg so opts fde

/-- The FDEs of a section, each parsed with its own CIE, or the error for what cannot be parsed. -/
def inputs (eh : EhFrame) (bases : Bases) : List (Except ConvError DwFde) :=
  (eh.entries bases).filterMap fun
    | .error e => some (.error (.invalidEhFrameEntry e))
    | .ok .cie => none
    | .ok (.fde off parse) =>
      match parse (eh.cieFromOffset bases off) with
      | .error e => some (.error (.invalidDwarfFde e))
      | .ok fde => some (.ok fde)

/-- The input `x` is to blame for the error `e`. -/
def Blame (dbg : Bool) (so : SFrameOptions) (opts : Options) (x : Except ConvError DwFde)
    (e : ConvError) : Prop :=
  x = .error e ∨ ∃ fde, x = .ok fde ∧ FdeFails dbg so opts fde e

/-- The ABI identifiers of the SFrame format. -/
def abiCode : Architecture → Endian → Nat
  | .aarch64, .big => 1
  | .aarch64, .little => 2
  | .amd64, .little => 3
  | .amd64, .big => 0

/-- The byte order asked for, or else that of the section. -/
def endianOf (eh : EhFrame) (opts : Options) : Endian :=
  match opts.endian with
  | some e => e
  | none => if eh.bigEndian then .big else .little

/-- What an SFrame row means in a section with the given header: the rules it gives, or none. -/
def meaning (so : SFrameOptions) (r : FrameRowBuilder) : Option Rules :=
  r.offsets.bind fun x =>
  (match so.fixedRa with
    | some v => some v.val.toInt
    | none => x.ra.map BitVec.toInt).map fun ra =>
  { base := r.baseReg, cfa := x.cfa.toInt, ra := ra,
    fp := match so.fixedFp with
      | some v => some v.val.toInt
      | none => x.fp.map BitVec.toInt }

/-- The rows of a function are in order and do not overlap. -/
def WellFormed (rs : List DwRow) : Prop :=
  (∀ r ∈ rs, r.start.toNat ≤ r.end_.toNat) ∧ rs.Pairwise fun r r' => r.end_.toNat ≤ r'.start.toNat

/-- A section like `eh` with only the function `fde`. -/
def only (eh : EhFrame) (fde : DwFde) : EhFrame :=
  { eh with entries := fun _ => [.ok .cie, .ok (.fde 0 fun _ => .ok fde)] }

/-- `fde` is in the list, and later ones start elsewhere. -/
def LastWith (fdes : List DwFde) (fde : DwFde) : Prop :=
  ∃ pre post, fdes = pre ++ fde :: post ∧ ∀ f ∈ post, f.initial ≠ fde.initial

end Verif.Spec
