import Verif.Base.Bytes
/-!
# Model of `crates/sframe/src/raw/`

`raw/mod.rs`, `raw/v2.rs`, `raw/v1.rs`, `error.rs`.
-/

namespace Verif

/-- raw/mod.rs:35 `MAGIC`. -/
def MAGIC : U16 := 0xDEE2#16

/-- raw/mod.rs:44-50 `Version::V1`, `Version::V2`. -/
def Version.V1 : U8 := 1#8
@[inherit_doc Version.V1] def Version.V2 : U8 := 2#8

/-- raw/mod.rs:71-82 `Flags::FDE_SORTED`, `Flags::FRAME_POINTER`. -/
def Flags.FDE_SORTED : U8 := 1#8
@[inherit_doc Flags.FDE_SORTED] def Flags.FRAME_POINTER : U8 := 2#8

/-- `bitflags` `contains`: all bits of `f` are set. -/
def Flags.contains (flags f : U8) : Bool := flags &&& f == f

/-- `bitflags` `set`: insert or remove the bits of `f`. -/
def Flags.set (flags f : U8) (value : Bool) : U8 :=
  if value then flags ||| f else flags &&& ~~~f

/-- raw/v2.rs:60-65 `Abi` constants. -/
def Abi.INVALID : U8 := 0#8
@[inherit_doc Abi.INVALID] def Abi.AARCH64_ENDIAN_BIG : U8 := 1#8
@[inherit_doc Abi.INVALID] def Abi.AARCH64_ENDIAN_LITTLE : U8 := 2#8
@[inherit_doc Abi.INVALID] def Abi.AMD64_ENDIAN_LITTLE : U8 := 3#8

/-- raw/v2.rs:158-162 `Aarch64PauthKey`. -/
inductive PauthKey | A | B
  deriving DecidableEq, Repr

/-- raw/v2.rs:158-162, `as u8`. -/
def PauthKey.toU8 : PauthKey → U8
  | .A => 0 | .B => 1

/-- raw/v2.rs:165-185 `FdeType` (the raw one). -/
inductive RawFdeType | pcInc | pcMask
  deriving DecidableEq, Repr

/-- raw/v2.rs:165-185, `as u8`. -/
def RawFdeType.toU8 : RawFdeType → U8
  | .pcInc => 0 | .pcMask => 1

/-- raw/v2.rs:188-216 `FreType`. -/
inductive FreType
  | addr1 | addr2 | addr4 | reserved3 | reserved4 | reserved5 | reserved6 | reserved7
  deriving DecidableEq, Repr

/-- raw/v2.rs:188-216, `as u8`. -/
def FreType.toU8 : FreType → U8
  | .addr1 => 0 | .addr2 => 1 | .addr4 => 2 | .reserved3 => 3
  | .reserved4 => 4 | .reserved5 => 5 | .reserved6 => 6 | .reserved7 => 7

/-- raw/v2.rs:299-309 `FreOffset`. -/
inductive FreOffset | b1 | b2 | b4 | reserved3
  deriving DecidableEq, Repr

/-- raw/v2.rs:299-309, `as u8`. -/
def FreOffset.toU8 : FreOffset → U8
  | .b1 => 0 | .b2 => 1 | .b4 => 2 | .reserved3 => 3

/-- raw/v2.rs:311-316 `FreBaseRegId`. -/
inductive BaseReg | fp | sp
  deriving DecidableEq, Repr

/-- raw/v2.rs:311-316, `as u8`. -/
def BaseReg.toU8 : BaseReg → U8
  | .fp => 0 | .sp => 1

/-! ### FDE info byte -/

namespace FdeInfo

/-- raw/v2.rs:109-121 `FdeInfo::fretype`.  The last arm of the `match` is `unreachable!()`;
here it is merged with the arm for 7 (`fdeInfo_arms` in `Props/Raw.lean` shows that no other
value occurs). -/
def fretype (b : U8) : FreType :=
  match (b &&& 7#8).toNat with
  | 0 => .addr1
  | 1 => .addr2
  | 2 => .addr4
  | 3 => .reserved3
  | 4 => .reserved4
  | 5 => .reserved5
  | 6 => .reserved6
  | _ => .reserved7

/-- raw/v2.rs:123-126 `FdeInfo::set_fretype`. -/
def setFretype (b : U8) (t : FreType) : U8 := (b &&& ~~~7#8) ||| t.toU8

/-- raw/v2.rs:128-134 `FdeInfo::fdetype` (same remark on the last arm). -/
def fdetype (b : U8) : RawFdeType :=
  match ((b >>> 3) &&& 1#8).toNat with
  | 0 => .pcInc
  | _ => .pcMask

/-- raw/v2.rs:136-139 `FdeInfo::set_fdetype`. -/
def setFdetype (b : U8) (t : RawFdeType) : U8 := (b &&& ~~~(1#8 <<< 3)) ||| (t.toU8 <<< 3)

/-- raw/v2.rs:142-148 `FdeInfo::pauth_key` (same remark). -/
def pauthKey (b : U8) : PauthKey :=
  match ((b >>> 4) &&& 1#8).toNat with
  | 0 => .A
  | _ => .B

/-- raw/v2.rs:150-153 `FdeInfo::set_pauth_key`. -/
def setPauthKey (b : U8) (k : PauthKey) : U8 := (b &&& ~~~(1#8 <<< 4)) ||| (k.toU8 <<< 4)

end FdeInfo

/-! ### FRE info byte -/

namespace FreInfo

/-- raw/v2.rs:235-241 `FreInfo::cfa_base_reg_id` (the `_` arm is `unreachable!()`). -/
def baseReg (b : U8) : BaseReg :=
  match (b &&& 1#8).toNat with
  | 0 => .fp
  | _ => .sp

/-- raw/v2.rs:243-246 `FreInfo::set_cfa_base_reg_id`. -/
def setBaseReg (b : U8) (r : BaseReg) : U8 := (b &&& 0b11111110#8) ||| r.toU8

/-- raw/v2.rs:249-251 `FreInfo::offset_count`. -/
def offsetCount (b : U8) : U8 := (b >>> 1) &&& 0b1111#8

/-- raw/v2.rs:253-258 `FreInfo::set_offset_count`. -/
def setOffsetCount (b count : U8) : Rust U8 :=
  if count.toNat ≤ 0b1111 then
    .ok ((b &&& 0b11100001#8) ||| ((count <<< 1) &&& 0b00011110#8))
  else .panic .assertion

/-- raw/v2.rs:261-269 `FreInfo::offset_size` (the `_` arm is `unreachable!()`). -/
def offsetSize (b : U8) : FreOffset :=
  match ((b >>> 5) &&& 0b11#8).toNat with
  | 0 => .b1
  | 1 => .b2
  | 2 => .b4
  | _ => .reserved3

/-- raw/v2.rs:271-274 `FreInfo::set_offset_size`. -/
def setOffsetSize (b : U8) (s : FreOffset) : U8 :=
  (b &&& 0b10011111#8) ||| ((s.toU8 <<< 5) &&& 0b01100000#8)

/-- raw/v2.rs:278-280 `FreInfo::mangled_ra_p`. -/
def mangled (b : U8) : Bool := ((b >>> 7) &&& 1#8) != 0#8

/-- raw/v2.rs:282-285 `FreInfo::set_mangled_ra_p`. -/
def setMangled (b : U8) (v : Bool) : U8 :=
  (b &&& 0b01111111#8) ||| ((if v then 1#8 else 0#8) <<< 7)

end FreInfo

/-! ### Packed structures -/

/-- raw/mod.rs:14-29 `Preamble`. -/
structure Preamble where
  magic : U16
  version : U8
  flags : U8
  deriving DecidableEq, Repr

namespace Preamble

/-- `size_of::<Preamble<O>>()`: packed, 2 + 1 + 1. -/
def size : Nat := 4

/-- Field reads of a `Preamble<O>` laid over the first bytes of `s`. -/
def decode (o : Endian) (s : List U8) : Preamble where
  magic := readU16 o s 0
  version := byteAt s 2
  flags := byteAt s 3

/-- `Preamble::<O>::ref_from_prefix(s)` -/
def refFromPrefix (o : Endian) (s : List U8) : Option Preamble :=
  if s.length < size then none else some (decode o s)

/-- `preamble.as_bytes()` -/
def bytes (o : Endian) (p : Preamble) : List U8 :=
  u16Bytes o p.magic ++ [p.version, p.flags]

end Preamble

/-- raw/v2.rs:17-53 `Header`. -/
structure Header where
  preamble : Preamble
  abiArch : U8
  fixedFpOffset : I8
  fixedRaOffset : I8
  auxhdrLen : U8
  numFdes : U32
  numFres : U32
  freLen : U32
  fdeoff : U32
  freoff : U32
  deriving DecidableEq, Repr

namespace Header

/-- `size_of::<v2::Header<O>>()`: packed, 4 + 4·1 + 5·4. -/
def size : Nat := 28

/-- Field reads of a `Header<O>` laid over the first bytes of `s`. -/
def decode (o : Endian) (s : List U8) : Header where
  preamble := Preamble.decode o s
  abiArch := byteAt s 4
  fixedFpOffset := byteAt s 5
  fixedRaOffset := byteAt s 6
  auxhdrLen := byteAt s 7
  numFdes := readU32 o s 8
  numFres := readU32 o s 12
  freLen := readU32 o s 16
  fdeoff := readU32 o s 20
  freoff := readU32 o s 24

/-- `v2::Header::<O>::ref_from_prefix(s)` -/
def refFromPrefix (o : Endian) (s : List U8) : Option Header :=
  if s.length < size then none else some (decode o s)

/-- `header.as_bytes()` -/
def bytes (o : Endian) (h : Header) : List U8 :=
  h.preamble.bytes o ++ [h.abiArch, h.fixedFpOffset, h.fixedRaOffset, h.auxhdrLen]
    ++ u32Bytes o h.numFdes ++ u32Bytes o h.numFres ++ u32Bytes o h.freLen
    ++ u32Bytes o h.fdeoff ++ u32Bytes o h.freoff

end Header

/-- raw/v2.rs:73-102 `FuncDescEntry` (version 2). -/
structure FdeV2 where
  startAddress : I32
  size : U32
  startFreOff : U32
  numFres : U32
  info : U8
  repSize : U8
  padding2 : U16
  deriving DecidableEq, Repr

namespace FdeV2

/-- `size_of::<v2::FuncDescEntry<O>>()`: packed, 4·4 + 1 + 1 + 2. -/
def byteSize : Nat := 20

/-- Field reads of a `v2::FuncDescEntry<O>` laid over the first bytes of `s`. -/
def decode (o : Endian) (s : List U8) : FdeV2 where
  startAddress := readU32 o s 0
  size := readU32 o s 4
  startFreOff := readU32 o s 8
  numFres := readU32 o s 12
  info := byteAt s 16
  repSize := byteAt s 17
  padding2 := readU16 o s 18

/-- `header.as_bytes()` of a `v2::FuncDescEntry<O>` -/
def bytes (o : Endian) (f : FdeV2) : List U8 :=
  u32Bytes o f.startAddress ++ u32Bytes o f.size ++ u32Bytes o f.startFreOff
    ++ u32Bytes o f.numFres ++ [f.info, f.repSize] ++ u16Bytes o f.padding2

end FdeV2

/-- raw/v1.rs:19-41 `FuncDescEntry` (version 1). -/
structure FdeV1 where
  startAddress : I32
  size : U32
  startFreOff : U32
  numFres : U32
  info : U8
  deriving DecidableEq, Repr

namespace FdeV1

/-- `size_of::<v1::FuncDescEntry<O>>()`: packed, 4·4 + 1. -/
def byteSize : Nat := 17

/-- Field reads of a `v1::FuncDescEntry<O>` laid over the first bytes of `s`. -/
def decode (o : Endian) (s : List U8) : FdeV1 where
  startAddress := readU32 o s 0
  size := readU32 o s 4
  startFreOff := readU32 o s 8
  numFres := readU32 o s 12
  info := byteAt s 16

end FdeV1

/-- zerocopy `T::slice_from_prefix(s, count)` for a `T` of `sz` bytes: the `count` elements at
the start of `s` and the rest of `s`, or `None` if `s` is too short.  (The `checked_mul` in it
cannot overflow a 64-bit `usize`: `count < 2^32`, `sz ≤ 20`.) -/
def sliceFromPrefix {α} (sz : Nat) (decode : List U8 → α) (s : List U8) (count : Nat) :
    Option (List α × List U8) :=
  if s.length < sz * count then none
  else some ((List.range count).map fun i => decode (s.drop (sz * i)), s.drop (sz * count))

/-- error.rs:6-35 `ReadError`. -/
inductive ReadError
  | unsupportedVersion (v : U8)
  | unsupportedFdeType (t : RawFdeType)
  | unsupportedFreType (t : FreType)
  | unsupportedFreOffset (t : FreOffset)
  | unexpectedEof
  | incorrectEndian
  | invalidFreOffsetCount (n : U8)
  | invalidFdeRepBlockSize
  | missingFreOffset
  deriving DecidableEq, Repr

end Verif
