import Verif.Base.BMap
import Verif.Model.Raw
/-!
# Model of `crates/sframe/src/write.rs`

`&mut self` methods return the new value.  `dbg` is the build profile.
-/

namespace Verif

/-- `core::num::NonZeroI8`. -/
abbrev NonZeroI8 := { x : I8 // x ≠ 0#8 }

/-- `NonZeroI8::new` -/
def NonZeroI8.new (x : I8) : Option NonZeroI8 := if h : x ≠ 0#8 then some ⟨x, h⟩ else none

/-- write.rs:13-19 `SFrameOptions`. -/
structure SFrameOptions where
  flags : U8
  abiArch : U8
  fixedFp : Option NonZeroI8
  fixedRa : Option NonZeroI8
  deriving DecidableEq, Repr

namespace SFrameOptions

/-- write.rs:22-29 (`Abi` derives `Default`, which is 0). -/
def new : SFrameOptions where
  flags := Flags.FDE_SORTED
  abiArch := 0#8
  fixedFp := none
  fixedRa := none

/-- write.rs:32-35 -/
def framePointer (o : SFrameOptions) (value : Bool) : SFrameOptions :=
  { o with flags := Flags.set o.flags Flags.FRAME_POINTER value }

/-- write.rs:38-41 -/
def abi (o : SFrameOptions) (a : U8) : SFrameOptions := { o with abiArch := a }

/-- write.rs:46-49 -/
def fixedFpOffset (o : SFrameOptions) (offset : Option I8) : SFrameOptions :=
  { o with fixedFp := offset.bind NonZeroI8.new }

/-- write.rs:54-57 -/
def fixedRaOffset (o : SFrameOptions) (offset : Option I8) : SFrameOptions :=
  { o with fixedRa := offset.bind NonZeroI8.new }

end SFrameOptions

/-- write.rs:60-65 `FreAddrSize`. -/
inductive FreAddrSize | u8 | u16 | u32
  deriving DecidableEq, Repr

/-- write.rs:546-571 `FrameRowOffsets`. -/
structure FrameRowOffsets where
  cfa : I32
  ra : Option I32
  fp : Option I32
  deriving DecidableEq, Repr

namespace FrameRowOffsets

/-- `i32::unsigned_abs` -/
def unsignedAbs (x : I32) : Nat := x.toInt.natAbs

/-- write.rs:574-594 `offset_type`. -/
def offsetType (f : FrameRowOffsets) : FreAddrSize :=
  let max := f.cfa
  let max := match f.ra with
    | some ra => if unsignedAbs max < unsignedAbs ra then ra else max
    | none => max
  let max := match f.fp with
    | some fp => if unsignedAbs max < unsignedAbs fp then fp else max
    | none => max
  if -0x80 ≤ max.toInt ∧ max.toInt ≤ 0x7F then .u8
  else if -0x8000 ≤ max.toInt ∧ max.toInt ≤ 0x7FFF then .u16
  else .u32

end FrameRowOffsets

/-- write.rs:494-500 `FrameRowBuilder`. -/
structure FrameRowBuilder where
  startAddress : U32
  offsets : Option FrameRowOffsets
  mangled : Bool
  baseReg : BaseReg
  deriving DecidableEq, Repr

namespace FrameRowBuilder

/-- write.rs:503-510 -/
def new (base : BaseReg) (start : U32) (offsets : FrameRowOffsets) : FrameRowBuilder where
  baseReg := base
  startAddress := start
  offsets := some offsets
  mangled := false

/-- write.rs:512-519 -/
def invalid (start : U32) : FrameRowBuilder where
  baseReg := .fp
  startAddress := start
  offsets := none
  mangled := false

/-- write.rs:521-523 -/
def newFromSp (start : U32) (offsets : FrameRowOffsets) : FrameRowBuilder := new .sp start offsets

/-- write.rs:525-527 -/
def newFromFp (start : U32) (offsets : FrameRowOffsets) : FrameRowBuilder := new .fp start offsets

/-- write.rs:529-532 -/
def mangledRaP (r : FrameRowBuilder) (value : Bool) : FrameRowBuilder := { r with mangled := value }

end FrameRowBuilder

/-- write.rs:600-654 `FrameRowError`. -/
inductive FrameRowError
  | startAddressTooLarge
  | startAddressLargerThanRepSize
  | startAddressOutsideFde
  | missingRaOffset
  | missingFpOffset
  | unexpectedRaOffset
  | unexpectedFpOffset
  | duplicateRow
  deriving DecidableEq, Repr

/-- write.rs:688-701 `EmitError`. -/
inductive EmitError | overlappingFdes | sectionTooLarge
  deriving DecidableEq, Repr

/-- write.rs:345-352 `FuncDescBuilder`. -/
structure FuncDescBuilder where
  options : SFrameOptions
  startAddress : I32
  size : U32
  repSize : Option U8
  pauthKey : PauthKey
  fres : BMap U32 FrameRowBuilder
  deriving DecidableEq, Repr

namespace FuncDescBuilder

/-- write.rs:355-364 -/
def new (options : SFrameOptions) (start : I32) (size : U32) : FuncDescBuilder where
  options := options
  startAddress := start
  repSize := none
  size := size
  pauthKey := .A
  fres := []

/-- write.rs:366-369 -/
def pcinc (b : FuncDescBuilder) : FuncDescBuilder := { b with repSize := none }

/-- write.rs:371-374 -/
def pcmask (b : FuncDescBuilder) (repSize : U8) : FuncDescBuilder := { b with repSize := some repSize }

/-- write.rs:376-379 -/
def setStartAddress (b : FuncDescBuilder) (a : I32) : FuncDescBuilder := { b with startAddress := a }

/-- write.rs:381-384 -/
def setSize (b : FuncDescBuilder) (n : U32) : FuncDescBuilder := { b with size := n }

/-- write.rs:386-389 -/
def setPauthKey (b : FuncDescBuilder) (k : PauthKey) : FuncDescBuilder := { b with pauthKey := k }

/-- write.rs:391-396 -/
def fdetype (b : FuncDescBuilder) : RawFdeType :=
  match b.repSize with
  | some _ => .pcMask
  | none => .pcInc

/-- write.rs:414-445: the loop of `merge_adjacent_fres`. -/
def mergeFresLoop : Nat → BMap U32 FrameRowBuilder → U32 → Rust (BMap U32 FrameRowBuilder)
  | 0, _, _ => .diverge
  | fuel + 1, fres, address =>
    -- 415-423
    match fres.rangeFrom ordU32 address with
    | (_, current) :: (_, next) :: _ =>
      -- 425
      let saved := address
      let address := next.startAddress
      -- 427-438
      if { current with startAddress := 0 } ≠ { next with startAddress := 0 } then
        mergeFresLoop fuel fres address
      else
        -- 443-444
        mergeFresLoop fuel (fres.remove ordU32 address) saved
    | _ => .ok fres

/-- write.rs:408-446 `merge_adjacent_fres`. -/
def mergeAdjacentFres (b : FuncDescBuilder) : Rust FuncDescBuilder :=
  match b.fres.first with
  | none => .ok b
  | some (key, _) =>
    (mergeFresLoop (b.fres.length + 1) b.fres key).bind fun fres => .ok { b with fres := fres }

/-- write.rs:463-472: drop an RA offset that repeats the section-wide one. -/
def normRa (o : SFrameOptions) (offsets : FrameRowOffsets) : Except FrameRowError FrameRowOffsets :=
  match o.fixedRa with
  | none => .ok offsets
  | some fixed =>
    match offsets.ra with
    | some offset =>
      if offset = fixed.val.signExtend 32 then .ok { offsets with ra := none }
      else .error .unexpectedRaOffset
    | none => .ok offsets

/-- write.rs:474-482: drop an FP offset that repeats the section-wide one. -/
def normFp (o : SFrameOptions) (offsets : FrameRowOffsets) : Except FrameRowError FrameRowOffsets :=
  match o.fixedFp with
  | none => .ok offsets
  | some fixed =>
    match offsets.fp with
    | some offset =>
      if offset = fixed.val.signExtend 32 then .ok { offsets with fp := none }
      else .error .unexpectedFpOffset
    | none => .ok offsets

/-- write.rs:448-491 `row`.  On `Err` the builder is untouched (the model returns no new builder). -/
def row (b : FuncDescBuilder) (r : FrameRowBuilder) : Except FrameRowError FuncDescBuilder :=
  -- 449-451
  if r.startAddress.toNat ≥ 0x10000000 then .error .startAddressTooLarge
  -- 453-457
  else if (match b.repSize with
      | some rep => decide (r.startAddress.toNat ≥ rep.toNat)
      | none => false) then
    .error .startAddressLargerThanRepSize
  -- 459-461
  else if r.startAddress.toNat ≥ b.size.toNat then .error .startAddressOutsideFde
  else
    -- 463-483
    (match r.offsets with
      | none => Except.ok r
      | some offsets =>
        match normRa b.options offsets with
        | .error e => .error e
        | .ok offsets =>
          match normFp b.options offsets with
          | .error e => .error e
          | .ok offsets => .ok { r with offsets := some offsets }).bind fun r =>
    -- 485-490
    match b.fres.get ordU32 r.startAddress with
    | some _ => .error .duplicateRow
    | none => .ok { b with fres := b.fres.insert ordU32 r.startAddress r }

end FuncDescBuilder

/-- write.rs:68-71 `SFrameBuilder`. -/
structure SFrameBuilder where
  options : SFrameOptions
  fdes : BMap I32 FuncDescBuilder
  deriving DecidableEq, Repr

namespace SFrameBuilder

/-- write.rs:74-79 -/
def new (options : SFrameOptions) : SFrameBuilder where
  options := options
  fdes := []

/-- write.rs:89-93 `fde`. -/
def fde (b : SFrameBuilder) (f : FuncDescBuilder) : Rust SFrameBuilder :=
  if b.options = f.options then
    .ok { b with fdes := b.fdes.insert ordI32 f.startAddress f }
  else .panic .assertion

/-- write.rs:140-147: the pairs of repetition sizes that forbid a merge. -/
def repMismatch (current next : FuncDescBuilder) : Bool :=
  match current.repSize, next.repSize with
  | some a, some b => decide (a ≠ b)
  | some a, none => decide (a.setWidth 32 ≠ next.size)
  | none, some b => decide (b.setWidth 32 ≠ current.size)
  | none, none => decide (current.size ≠ next.size) || decide (current.size.toNat > 255)

/-- write.rs:153-157: the repetition size of the merged FDE. -/
def mergedRep (current next : FuncDescBuilder) : U8 :=
  match current.repSize, next.repSize with
  | some a, _ => a
  | _, some b => b
  | _, _ => current.size.setWidth 8

/-- write.rs:111-162: the loop of `merge_adjacent_fdes`. -/
def mergeFdesLoop (dbg : Bool) :
    Nat → BMap I32 FuncDescBuilder → I32 → Rust (BMap I32 FuncDescBuilder)
  | 0, _, _ => .diverge
  | fuel + 1, fdes, address =>
    -- 112-120
    match fdes.rangeFrom ordI32 address with
    | (curKey, current) :: (_, next) :: _ =>
      -- 122
      let saved := address
      let address := next.startAddress
      -- 124
      if dbg && decide (current.options ≠ next.options) then .panic .assertion
      -- 125-127
      else if current.pauthKey ≠ next.pauthKey then mergeFdesLoop dbg fuel fdes address
      else
        -- 129-132
        (subI32 dbg current.startAddress next.startAddress).bind fun relative =>
        if relative ≠ current.size then mergeFdesLoop dbg fuel fdes address
        -- 136-138
        else if 2 ^ 32 ≤ current.size.toNat + next.size.toNat then
          mergeFdesLoop dbg fuel fdes address
        -- 140-147
        else if repMismatch current next then mergeFdesLoop dbg fuel fdes address
        -- 149-151
        else if current.fres ≠ next.fres then mergeFdesLoop dbg fuel fdes address
        else
          -- 153-158 (the addition was checked on line 136)
          let merged := { current with
            repSize := some (mergedRep current next), size := current.size + next.size }
          -- 160-161
          mergeFdesLoop dbg fuel ((fdes.setAt ordI32 curKey merged).remove ordI32 address) saved
    | _ => .ok fdes

/-- write.rs:105-163 `merge_adjacent_fdes`. -/
def mergeAdjacentFdes (dbg : Bool) (b : SFrameBuilder) : Rust SFrameBuilder :=
  match b.fdes.first with
  | none => .ok b
  | some (key, _) =>
    (mergeFdesLoop dbg (b.fdes.length + 1) b.fdes key).bind fun fdes => .ok { b with fdes := fdes }

/-- write.rs:731-758 `Pairs` (the iterator over neighbours) followed by `.any(|v| v)` of line 183. -/
def anyPairs {α} (f : α → α → Rust Bool) : List α → Rust Bool
  | a :: b :: rest => (f a b).bind fun v => if v then .ok true else anyPairs f (b :: rest)
  | _ => .ok false

/-- write.rs:179-182: the closure that tells whether two neighbouring FDEs overlap. -/
def overlaps (dbg : Bool) (a b : FuncDescBuilder) : Rust Bool :=
  if dbg && decide (¬ a.startAddress.toInt ≤ b.startAddress.toInt) then .panic .assertion
  else (subI32 dbg b.startAddress a.startAddress).bind fun d =>
    .ok (decide (d.toNat < a.size.toNat))

/-- write.rs:195-207: the width of the FRE start addresses of a function. -/
def addrType (f : FuncDescBuilder) : Rust FreAddrSize :=
  let maxOffset := match f.fres.last with
    | some (_, fre) => fre.startAddress.toNat
    | none => 0
  if maxOffset ≤ 0x7F then .ok .u8
  else if maxOffset ≤ 0x7FFF then .ok .u16
  else if maxOffset ≤ 0x7FFFFFFF then .ok .u32
  else .panic .unreachable

/-- write.rs:224-228 -/
def freTypeOf : FreAddrSize → FreType
  | .u8 => .addr1
  | .u16 => .addr2
  | .u32 => .addr4

/-- write.rs:258-262 -/
def freOffsetOf : FreAddrSize → FreOffset
  | .u8 => .b1
  | .u16 => .b2
  | .u32 => .b4

/-- write.rs:221-231: the FDE info byte. -/
def fdeInfo (f : FuncDescBuilder) (addrTy : FreAddrSize) : U8 :=
  let info : U8 := 0#8
  let info := FdeInfo.setFdetype info f.fdetype
  let info := FdeInfo.setFretype info (freTypeOf addrTy)
  FdeInfo.setPauthKey info f.pauthKey

/-- write.rs:243-255: the offsets to be stored, in order. -/
def rowValues (r : FrameRowBuilder) : List I32 :=
  match r.offsets with
  | none => []
  | some offsets => [offsets.cfa] ++ offsets.ra.toList ++ offsets.fp.toList

/-- write.rs:238-241: the width of the offsets of a row. -/
def rowOffsetType (r : FrameRowBuilder) : FreAddrSize :=
  match r.offsets with
  | some offsets => offsets.offsetType
  | none => .u8

/-- write.rs:257-265: the FRE info byte. -/
def rowInfo (r : FrameRowBuilder) : Rust U8 :=
  let info : U8 := 0#8
  let info := FreInfo.setOffsetSize info (freOffsetOf (rowOffsetType r))
  (FreInfo.setOffsetCount info (BitVec.ofNat 8 (rowValues r).length)).bind fun info =>
  let info := FreInfo.setBaseReg info r.baseReg
  .ok (FreInfo.setMangled info r.mangled)

/-- write.rs:267-292: start address of a row (`v2::FrameRowEntry<T>` is `T` then the info byte). -/
def startBytes (o : Endian) (addrTy : FreAddrSize) (start : U32) : List U8 :=
  match addrTy with
  | .u8 => [start.setWidth 8]
  | .u16 => u16Bytes o (start.setWidth 16)
  | .u32 => u32Bytes o start

/-- write.rs:294-310: one stored offset. -/
def offsetBytes (o : Endian) (ty : FreAddrSize) (x : I32) : List U8 :=
  match ty with
  | .u8 => [x.setWidth 8]
  | .u16 => u16Bytes o (x.setWidth 16)
  | .u32 => u32Bytes o x

/-- write.rs:238-310: the bytes appended to the FRE sub-section for one row. -/
def rowBytes (o : Endian) (addrTy : FreAddrSize) (r : FrameRowBuilder) : Rust (List U8) :=
  (rowInfo r).bind fun info =>
  .ok (startBytes o addrTy r.startAddress ++ [info]
    ++ (rowValues r).flatMap (offsetBytes o (rowOffsetType r)))

/-- write.rs:237-311: the loop over the rows of a function. -/
def emitRows (o : Endian) (addrTy : FreAddrSize) : List FrameRowBuilder → List U8 → Rust (List U8)
  | [], fres => .ok fres
  | r :: rs, fres => (rowBytes o addrTy r).bind fun b => emitRows o addrTy rs (fres ++ b)

/-- write.rs:189-312: the loop over the functions.  State: `output`, `fres`, `fre_count`. -/
def emitFdes (o : Endian) : List FuncDescBuilder → List U8 → List U8 → Nat →
    Rust (Except EmitError (List U8 × List U8 × Nat))
  | [], output, fres, count => .ok (.ok (output, fres, count))
  | f :: fs, output, fres, count =>
    -- 190-193
    match u32TryFrom fres.length with
    | none => .ok (.error .sectionTooLarge)
    | some offset =>
      -- 195-207
      (addrType f).bind fun addrTy =>
      -- 209
      let count := count + f.fres.length
      -- 214-219
      match u32TryFrom f.fres.length with
      | none => .ok (.error .sectionTooLarge)
      | some numFres =>
        -- 210-233
        let header : FdeV2 := {
          startAddress := f.startAddress
          size := f.size
          startFreOff := offset
          numFres := numFres
          repSize := f.repSize.getD 0#8
          info := fdeInfo f addrTy
          padding2 := 0#16 }
        -- 235
        let output := output ++ header.bytes o
        -- 237-311
        (emitRows o addrTy f.fres.values fres).bind fun fres =>
        emitFdes o fs output fres count

/-- write.rs:165-341 `build`. -/
def build (dbg : Bool) (o : Endian) (b : SFrameBuilder) : Rust (Except EmitError (List U8)) :=
  -- 169-174
  let fres : List U8 := []
  let output : List U8 := List.replicate Header.size 0#8
  -- 176-186
  (anyPairs (overlaps dbg) b.fdes.values).bind fun overlapping =>
  if overlapping then .ok (.error .overlappingFdes)
  else
    -- 188-312
    (emitFdes o b.fdes.values output fres 0).bind fun
    | .error e => .ok (.error e)
    | .ok (output, fres, freCount) =>
      -- 314
      match u32TryFrom freCount with
      | none => .ok (.error .sectionTooLarge)
      | some freCount =>
        -- 326-335
        match u32TryFrom b.fdes.length, u32TryFrom fres.length,
            u32TryFrom (output.length - Header.size) with
        | some numFdes, some freLen, some freoff =>
          -- 316-336
          let header : Header := {
            preamble := { magic := MAGIC, version := Version.V2, flags := b.options.flags }
            abiArch := b.options.abiArch
            fixedFpOffset := match b.options.fixedFp with | some x => x.val | none => 0#8
            fixedRaOffset := match b.options.fixedRa with | some x => x.val | none => 0#8
            auxhdrLen := 0#8
            numFdes := numFdes
            numFres := freCount
            freLen := freLen
            fdeoff := 0#32
            freoff := freoff }
          -- 338-340
          .ok (.ok (header.bytes o ++ output.drop Header.size ++ fres))
        | _, _, _ => .ok (.error .sectionTooLarge)

end SFrameBuilder

/-! ### Call sequences

A user holds a builder and calls its `&mut self` methods in any order. -/

/-- A call on a `FuncDescBuilder`. -/
inductive FdeCall
  | pcinc
  | pcmask (rep : U8)
  | startAddress (a : I32)
  | size (n : U32)
  | pauthKey (k : PauthKey)
  | mergeAdjacentFres
  | row (r : FrameRowBuilder)

/-- The effect of one call.  A `row` that returns `Err` leaves the builder as it was. -/
def FuncDescBuilder.call (b : FuncDescBuilder) : FdeCall → Rust FuncDescBuilder
  | .pcinc => .ok b.pcinc
  | .pcmask rep => .ok (b.pcmask rep)
  | .startAddress a => .ok (b.setStartAddress a)
  | .size n => .ok (b.setSize n)
  | .pauthKey k => .ok (b.setPauthKey k)
  | .mergeAdjacentFres => b.mergeAdjacentFres
  | .row r => match b.row r with
    | .ok b' => .ok b'
    | .error _ => .ok b

/-- The builders that a program can hold after any number of calls. -/
inductive FuncDescBuilder.Reachable : FuncDescBuilder → Prop
  | new (options : SFrameOptions) (start : I32) (size : U32) :
      Reachable (FuncDescBuilder.new options start size)
  | call {b b' : FuncDescBuilder} (c : FdeCall) : Reachable b → b.call c = .ok b' → Reachable b'

/-- The section builders that a program can hold after any number of calls, in profile `dbg`. -/
inductive SFrameBuilder.Reachable (dbg : Bool) : SFrameBuilder → Prop
  | new (options : SFrameOptions) : Reachable dbg (SFrameBuilder.new options)
  | fde {b b' : SFrameBuilder} {f : FuncDescBuilder} :
      Reachable dbg b → f.Reachable → b.fde f = .ok b' → Reachable dbg b'
  | mergeAdjacentFdes {b b' : SFrameBuilder} :
      Reachable dbg b → b.mergeAdjacentFdes dbg = .ok b' → Reachable dbg b'

end Verif
