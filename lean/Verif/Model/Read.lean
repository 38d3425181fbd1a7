import Verif.Base.Search
import Verif.Model.Raw
/-!
# Model of `crates/sframe/src/read.rs`

The byte-order type parameter `O` is the index `o` of the structures.  `dbg` is the build
profile (overflow checks and debug assertions).  Slices `&'a [u8]` are lists of bytes.
-/

namespace Verif

/-- read.rs:239-243 `FdeList`. -/
inductive FdeList
  | v1 (l : List FdeV1)
  | v2 (l : List FdeV2)
  deriving DecidableEq, Repr

/-- read.rs:245-249 `Fde`. -/
inductive Fde
  | v1 (f : FdeV1)
  | v2 (f : FdeV2)
  deriving DecidableEq, Repr

/-- read.rs:312-332 `FdeType`. -/
inductive FdeType | pcInc | pcMask | pcMaskV1
  deriving DecidableEq, Repr

namespace Fde

/-- read.rs:253-258 -/
def startAddress : Fde → I32
  | .v1 f => f.startAddress
  | .v2 f => f.startAddress

/-- read.rs:261-266 -/
def size : Fde → U32
  | .v1 f => f.size
  | .v2 f => f.size

/-- read.rs:269-274 -/
def startFreOff : Fde → U32
  | .v1 f => f.startFreOff
  | .v2 f => f.startFreOff

/-- read.rs:277-282 -/
def numFres : Fde → U32
  | .v1 f => f.numFres
  | .v2 f => f.numFres

/-- read.rs:284-289 -/
def info : Fde → U8
  | .v1 f => f.info
  | .v2 f => f.info

/-- read.rs:291-296 -/
def repSize : Fde → Option U8
  | .v1 _ => none
  | .v2 f => some f.repSize

/-- read.rs:298-309 -/
def fdetype : Fde → FdeType
  | .v1 f => match FdeInfo.fdetype f.info with
    | .pcInc => .pcInc
    | .pcMask => .pcMaskV1
  | .v2 f => match FdeInfo.fdetype f.info with
    | .pcInc => .pcInc
    | .pcMask => .pcMask

end Fde

/-- read.rs:11-23 `SFrame`. -/
structure SFrame (o : Endian) where
  preamble : Preamble
  abiArch : U8
  fixedFp : I8
  fixedRa : I8
  numFdes : U32
  numFres : U32
  aux : List U8
  fdes : FdeList
  fres : List U8
  deriving DecidableEq, Repr

/-- read.rs:340-343 `FuncDescEntry`. -/
structure FuncDescEntry (o : Endian) where
  fde : Fde
  fres : List U8
  deriving DecidableEq, Repr

/-- read.rs:511-517 `FrameRowEntry`.  `offsets` has three elements. -/
structure FrameRowEntry (o : Endian) where
  fde : Fde
  startAddressOffset : U32
  info : U8
  offsets : List I32
  deriving DecidableEq, Repr

/-- read.rs:709-718 `FuncDescIter`, `FuncDescIterImpl`.  The inner `slice::Iter` is the list of
remaining elements; the enum of two iterators is one list of `Fde`. -/
structure FuncDescIter (o : Endian) where
  fdes : List Fde
  fres : List U8
  deriving DecidableEq, Repr

/-- read.rs:776-780 `FrameRowIter`. -/
structure FrameRowIter (o : Endian) where
  fde : Fde
  fres : List U8
  index : U32
  deriving DecidableEq, Repr

namespace FdeList

/-- The elements of the table, each tagged with its version (read.rs:161-164, 724-727). -/
def toList : FdeList → List Fde
  | .v1 l => l.map .v1
  | .v2 l => l.map .v2

end FdeList

namespace SFrame
variable {o : Endian}

/-- read.rs:26-95 `SFrame::load`. -/
def load (o : Endian) (section_ : List U8) : Rust (Except ReadError (SFrame o)) :=
  -- 27-33
  match Preamble.refFromPrefix o section_ with
  | none => .ok (.error .unexpectedEof)
  | some preamble =>
    if preamble.magic ≠ MAGIC then .ok (.error .incorrectEndian)
    -- 35-38
    else if ¬ (preamble.version = Version.V1 ∨ preamble.version = Version.V2) then
      .ok (.error (.unsupportedVersion preamble.version))
    else
      -- 40-43
      match Header.refFromPrefix o section_ with
      | none => .ok (.error .unexpectedEof)
      | some header =>
        -- 45
        (sliceFrom section_ Header.size).bind fun data =>
        -- 46-48
        match getTo data header.auxhdrLen.toNat with
        | none => .ok (.error .unexpectedEof)
        | some aux =>
          -- 52
          (sliceFrom data aux.length).bind fun data =>
          -- 54-56
          match getFrom data header.fdeoff.toNat with
          | none => .ok (.error .unexpectedEof)
          | some fdes =>
            -- 58-75; `none` stands for the `ok_or(UnexpectedEof)?`
            (if preamble.version = Version.V1 then
              Rust.ok <| (sliceFromPrefix FdeV1.byteSize (FdeV1.decode o) fdes
                header.numFdes.toNat).map fun r => FdeList.v1 r.1
            else if preamble.version = Version.V2 then
              Rust.ok <| (sliceFromPrefix FdeV2.byteSize (FdeV2.decode o) fdes
                header.numFdes.toNat).map fun r => FdeList.v2 r.1
            else .panic .unreachable).bind fun
            | none => .ok (.error .unexpectedEof)
            | some fdes =>
              -- 77-82
              match getRange data header.freoff.toNat
                  (header.freoff.toNat + header.freLen.toNat) with
              | none => .ok (.error .unexpectedEof)
              | some fres =>
                -- 84-94
                .ok (.ok {
                  preamble := header.preamble
                  abiArch := header.abiArch
                  fixedFp := header.fixedFpOffset
                  fixedRa := header.fixedRaOffset
                  numFdes := header.numFdes
                  numFres := header.numFres
                  aux := aux
                  fdes := fdes
                  fres := fres })

/-- read.rs:98-100 -/
def version (s : SFrame o) : U8 := s.preamble.version

/-- read.rs:103-105 -/
def flags (s : SFrame o) : U8 := s.preamble.flags

/-- read.rs:108-110 -/
def abi (s : SFrame o) : U8 := s.abiArch

/-- read.rs:128-133 -/
def fixedFpOffset (s : SFrame o) : Option I8 := if s.fixedFp = 0 then none else some s.fixedFp

/-- read.rs:142-147 -/
def fixedRaOffset (s : SFrame o) : Option I8 := if s.fixedRa = 0 then none else some s.fixedRa

/-- read.rs:160-170 `SFrame::fdes`. -/
def iter (s : SFrame o) : FuncDescIter o := { fdes := s.fdes.toList, fres := s.fres }

end SFrame

namespace FuncDescIter
variable {o : Endian}

/-- read.rs:723-735 `next`. -/
def next (it : FuncDescIter o) : Option (FuncDescEntry o) × FuncDescIter o :=
  match it.fdes with
  | [] => (none, it)
  | fde :: rest =>
    let offset := fde.startFreOff.toNat
    let fres := (getFrom it.fres offset).getD []
    (some { fde := fde, fres := fres }, { it with fdes := rest })

/-- read.rs:737-747 `nth`. -/
def nth (it : FuncDescIter o) (n : Nat) : Option (FuncDescEntry o) × FuncDescIter o :=
  match it.fdes.drop n with
  | [] => (none, { it with fdes := [] })
  | fde :: rest => (some { fde := fde, fres := it.fres }, { it with fdes := rest })

/-- read.rs:749-754 `size_hint`. -/
def sizeHint (it : FuncDescIter o) : Nat × Option Nat := (it.fdes.length, some it.fdes.length)

/-- read.rs:758-768 `next_back`. -/
def nextBack (it : FuncDescIter o) : Option (FuncDescEntry o) × FuncDescIter o :=
  match it.fdes.getLast? with
  | none => (none, it)
  | some fde => (some { fde := fde, fres := it.fres }, { it with fdes := it.fdes.dropLast })

/-- `for e in it`: repeated `next` until `None` (fuel: number of calls that may return an item). -/
def collectFuel : Nat → FuncDescIter o → Rust (List (FuncDescEntry o))
  | fuel, it =>
    match it.next with
    | (none, _) => .ok []
    | (some e, it') =>
      match fuel with
      | 0 => .diverge
      | fuel + 1 => (collectFuel fuel it').bind fun es => .ok (e :: es)

/-- `it.collect::<Vec<_>>()` -/
def collect (it : FuncDescIter o) : Rust (List (FuncDescEntry o)) :=
  collectFuel it.sizeHint.1 it

/-- `it.rev().collect::<Vec<_>>()` (fuel as above). -/
def collectBackFuel : Nat → FuncDescIter o → Rust (List (FuncDescEntry o))
  | fuel, it =>
    match it.nextBack with
    | (none, _) => .ok []
    | (some e, it') =>
      match fuel with
      | 0 => .diverge
      | fuel + 1 => (collectBackFuel fuel it').bind fun es => .ok (e :: es)

/-- `it.rev().collect::<Vec<_>>()` -/
def collectBack (it : FuncDescIter o) : Rust (List (FuncDescEntry o)) :=
  collectBackFuel it.sizeHint.1 it

/-- `Iterator::find` (default implementation: `next` until the predicate holds). -/
def findFuel (p : FuncDescEntry o → Rust Bool) :
    Nat → FuncDescIter o → Rust (Option (FuncDescEntry o))
  | fuel, it =>
    match it.next with
    | (none, _) => .ok none
    | (some e, it') =>
      (p e).bind fun found =>
        if found then .ok (some e)
        else match fuel with
          | 0 => .diverge
          | fuel + 1 => findFuel p fuel it'

/-- `it.find(p)` -/
def find (it : FuncDescIter o) (p : FuncDescEntry o → Rust Bool) :
    Rust (Option (FuncDescEntry o)) :=
  findFuel p it.sizeHint.1 it

end FuncDescIter

namespace FrameRowEntry
variable {o : Endian}

/-- The fixed part of a FRE (raw/v2.rs:218-223 `FrameRowEntry<T>`) read at the start of `fres`,
with the bytes that follow it: read.rs:522-530, 531-539 and 540-548 for the three FRE types.
`none` is `ok_or(UnexpectedEof)?`. -/
def loadHead (o : Endian) (fres : List U8) : FreType → Option (U32 × U8 × List U8)
  | .addr1 =>
    if fres.length < 2 then none
    else (getFrom fres 2).map fun offsets => ((byteAt fres 0).setWidth 32, byteAt fres 1, offsets)
  | .addr2 =>
    if fres.length < 3 then none
    else (getFrom fres 3).map fun offsets => ((readU16 o fres 0).setWidth 32, byteAt fres 2, offsets)
  | .addr4 =>
    if fres.length < 5 then none
    else (getFrom fres 5).map fun offsets => (readU32 o fres 0, byteAt fres 4, offsets)
  | _ => none

/-- `array::from_fn(|i| offsets.get(i)… or 0)` of read.rs:567-570, 579-582, 591-594. -/
def pad3 (l : List I32) : List I32 := (List.range 3).map fun i => l.getD i 0#32

/-- read.rs:559-598: the `count` offsets at the start of `s`, widened to `i32`, and the rest. -/
def loadOffsets (o : Endian) (s : List U8) (count : Nat) :
    FreOffset → Except ReadError (List I32 × List U8)
  | .b1 =>
    match sliceFromPrefix 1 (fun b => (byteAt b 0).signExtend 32) s count with
    | none => .error .unexpectedEof
    | some (l, rest) => .ok (pad3 l, rest)
  | .b2 =>
    match sliceFromPrefix 2 (fun b => (readU16 o b 0).signExtend 32) s count with
    | none => .error .unexpectedEof
    | some (l, rest) => .ok (pad3 l, rest)
  | .b4 =>
    match sliceFromPrefix 4 (fun b => readU32 o b 0) s count with
    | none => .error .unexpectedEof
    | some (l, rest) => .ok (pad3 l, rest)
  | ty => .error (.unsupportedFreOffset ty)

/-- read.rs:520-615 `FrameRowEntry::load`.  (The second `get(..count)` of lines 563, 575, 587
cannot fail after `slice_from_prefix` and is dropped.) -/
def load (o : Endian) (fde : Fde) (fres : List U8) :
    Rust (Except ReadError (FrameRowEntry o × List U8)) :=
  -- 521-551
  match FdeInfo.fretype fde.info with
  | .reserved3 | .reserved4 | .reserved5 | .reserved6 | .reserved7 =>
    .ok (.error (.unsupportedFreType (FdeInfo.fretype fde.info)))
  | ty =>
    match loadHead o fres ty with
    | none => .ok (.error .unexpectedEof)
    | some (startAddress, info, offsets) =>
      -- 553-555
      if ¬ (FreInfo.offsetCount info).toNat ≤ 3 then
        .ok (.error (.invalidFreOffsetCount (FreInfo.offsetCount info)))
      else
        -- 557-598
        match loadOffsets o offsets (FreInfo.offsetCount info).toNat (FreInfo.offsetSize info) with
        | .error e => .ok (.error e)
        | .ok (offsets, remaining) =>
          -- 600-605
          if startAddress.toNat < fde.size.toNat then
            -- 607-614
            .ok (.ok ({ fde := fde, startAddressOffset := startAddress, info := info,
                        offsets := offsets }, remaining))
          else .panic .assertion

/-- read.rs:618-629 `start_address`.  `checked_add_unsigned(..).expect(..)` in debug builds,
`wrapping_add_unsigned` otherwise. -/
def startAddress (dbg : Bool) (r : FrameRowEntry o) : Rust I32 :=
  if dbg then
    if r.fde.startAddress.toInt + r.startAddressOffset.toNat ≤ 2147483647 then
      .ok (r.fde.startAddress + r.startAddressOffset)
    else .panic .unwrap
  else .ok (r.fde.startAddress + r.startAddressOffset)

/-- read.rs:637-643 `offsets`. -/
def storedOffsets (r : FrameRowEntry o) : List I32 :=
  match getTo r.offsets (FreInfo.offsetCount r.info).toNat with
  | some l => l
  | none => r.offsets

/-- read.rs:646-651 `cfa_offset`. -/
def cfaOffset (r : FrameRowEntry o) : Except ReadError I32 :=
  match r.storedOffsets[0]? with
  | some x => .ok x
  | none => .error .missingFreOffset

/-- read.rs:654-663 `ra_offset`. -/
def raOffset (r : FrameRowEntry o) (s : SFrame o) : Except ReadError I32 :=
  match s.fixedRaOffset with
  | some x => .ok (x.signExtend 32)
  | none => match r.storedOffsets[1]? with
    | some x => .ok x
    | none => .error .missingFreOffset

/-- read.rs:666-681 `fp_offset`. -/
def fpOffset (r : FrameRowEntry o) (s : SFrame o) : Except ReadError I32 :=
  match s.fixedFpOffset with
  | some x => .ok (x.signExtend 32)
  | none =>
    let index := match s.fixedRaOffset with
      | some _ => 1
      | none => 2
    match r.storedOffsets[index]? with
    | some x => .ok x
    | none => .error .missingFreOffset

/-- read.rs:684-686 -/
def baseReg (r : FrameRowEntry o) : BaseReg := FreInfo.baseReg r.info

/-- read.rs:690-692 -/
def mangled (r : FrameRowEntry o) : Bool := FreInfo.mangled r.info

end FrameRowEntry

namespace FrameRowIter
variable {o : Endian}

/-- read.rs:795-813 `next`.  (`index += 1` cannot overflow: `index < num_fres`.) -/
def next (it : FrameRowIter o) :
    Rust (Option (Except ReadError (FrameRowEntry o)) × FrameRowIter o) :=
  if it.fde.numFres.toNat ≤ it.index.toNat then .ok (none, it)
  else
    (FrameRowEntry.load o it.fde it.fres).bind fun
    | .ok (fre, rest) => .ok (some (.ok fre), { it with index := it.index + 1, fres := rest })
    | .error e => .ok (some (.error e), { it with index := u32Max })

/-- read.rs:815-822 `size_hint`. -/
def sizeHint (it : FrameRowIter o) : Nat × Option Nat :=
  if it.fde.numFres.toNat ≤ it.index.toNat then (0, some 0)
  else
    let bound := (it.fde.numFres - it.index).toNat
    (min 1 bound, some bound)

/-- `for fre in it`: repeated `next` until `None`. -/
def collectFuel : Nat → FrameRowIter o → Rust (List (Except ReadError (FrameRowEntry o)))
  | fuel, it =>
    it.next.bind fun
    | (none, _) => .ok []
    | (some e, it') =>
      match fuel with
      | 0 => .diverge
      | fuel + 1 => (collectFuel fuel it').bind fun es => .ok (e :: es)

/-- `it.collect::<Vec<_>>()`; the fuel is the FRE count of the FDE. -/
def collect (it : FrameRowIter o) : Rust (List (Except ReadError (FrameRowEntry o))) :=
  collectFuel it.fde.numFres.toNat it

/-- The loop `for fre in self.fres() { let fre = fre?; if p(fre) { return Ok(Some(fre)) } }`
followed by `Ok(None)`: read.rs:414-420, 429-435, 438-445, 449. -/
def scanFuel (p : FrameRowEntry o → Bool) :
    Nat → FrameRowIter o → Rust (Except ReadError (Option (FrameRowEntry o)))
  | fuel, it =>
    it.next.bind fun
    | (none, _) => .ok (.ok none)
    | (some (.error e), _) => .ok (.error e)
    | (some (.ok fre), it') =>
      if p fre then .ok (.ok (some fre))
      else match fuel with
        | 0 => .diverge
        | fuel + 1 => scanFuel p fuel it'

/-- The loop with enough fuel. -/
def scan (it : FrameRowIter o) (p : FrameRowEntry o → Bool) :
    Rust (Except ReadError (Option (FrameRowEntry o))) :=
  scanFuel p it.fde.numFres.toNat it

end FrameRowIter

namespace FuncDescEntry
variable {o : Endian}

/-- read.rs:349-351 `fres`, with read.rs:783-789 `FrameRowIter::new`. -/
def iter (e : FuncDescEntry o) : FrameRowIter o := { fde := e.fde, fres := e.fres, index := 0 }

/-- read.rs:354-356 -/
def startAddress (e : FuncDescEntry o) : I32 := e.fde.startAddress

/-- read.rs:359-361 -/
def size (e : FuncDescEntry o) : U32 := e.fde.size

/-- read.rs:364-366 -/
def fdetype (e : FuncDescEntry o) : FdeType := e.fde.fdetype

/-- read.rs:369-371 -/
def pauthKey (e : FuncDescEntry o) : PauthKey := FdeInfo.pauthKey e.fde.info

/-- read.rs:375-377 -/
def repBlockSize (e : FuncDescEntry o) : Option U8 := e.fde.repSize

/-- read.rs:380-387 `contains`. -/
def contains (dbg : Bool) (e : FuncDescEntry o) (address : I32) : Rust Bool :=
  let start := e.startAddress
  if address.toInt < start.toInt then .ok false
  else
    (subI32 dbg address start).bind fun d => .ok (decide (d.toNat < e.size.toNat))

/-- read.rs:399-450 `get_fre_for_address`. -/
def getFreForAddress (dbg : Bool) (e : FuncDescEntry o) (address : I32) :
    Rust (Except ReadError (Option (FrameRowEntry o))) :=
  -- 403-405
  if address.toInt < e.startAddress.toInt then .ok (.ok none)
  else
    -- 407-410
    (subI32 dbg address e.startAddress).bind fun relative =>
    if relative.toNat > e.size.toNat then .ok (.ok none)
    else
      -- 412-449
      match e.fdetype with
      | .pcInc => e.iter.scan fun fre => decide (relative.toNat ≥ fre.startAddressOffset.toNat)
      | .pcMask =>
        match e.repBlockSize with
        | none => .panic .unwrap
        | some b =>
          let repBlockSize : U32 := b.setWidth 32
          if repBlockSize = 0#32 then .ok (.error .invalidFdeRepBlockSize)
          else
            let modrel := relative.toNat % repBlockSize.toNat
            e.iter.scan fun fre => decide (modrel ≥ fre.startAddressOffset.toNat)
      | .pcMaskV1 =>
        e.iter.scan fun fre =>
          let mask := fre.startAddressOffset
          decide ((relative &&& mask).toNat ≥ mask.toNat)

end FuncDescEntry

namespace SFrame
variable {o : Endian}

/-- read.rs:183-194 and 197-208: the comparator of the binary search (the two closures are
textually identical, one for each version of the FDE structure). -/
def searchCmp (dbg : Bool) (address : I32) (start : I32) (size : U32) : Rust Ordering :=
  if address.toInt < start.toInt then .ok .lt
  else
    (subI32 dbg address start).bind fun reladdr =>
    if reladdr.toNat ≥ size.toNat then .ok .gt
    else .ok .eq

/-- read.rs:173-214 `fde_for_address`. -/
def fdeForAddress (alg : SearchAlg) (dbg : Bool) (s : SFrame o) (address : I32) :
    Rust (Option (FuncDescEntry o)) :=
  -- 177-179
  if ¬ Flags.contains s.flags Flags.FDE_SORTED then
    s.iter.find fun fde => fde.contains dbg address
  else
    -- 181-210
    (match s.fdes with
      | .v1 fdes => binarySearchBy alg
          (fun (fde : FdeV1) => searchCmp dbg address fde.startAddress fde.size) fdes
      | .v2 fdes => binarySearchBy alg
          (fun (fde : FdeV2) => searchCmp dbg address fde.startAddress fde.size) fdes).bind fun
    | .error _ => .ok none
    -- 212-213
    | .ok index => .ok (s.iter.nth index).1

end SFrame

end Verif
