import Verif.Base.Rust
/-!
# Byte orders

`zerocopy`'s `U16<O>`, `I16<O>`, `U32<O>`, `I32<O>` are byte arrays read and written in
the byte order `O`.  Trusted contract of the `zerocopy`/`byteorder` crates.
-/

namespace Verif

/-- The `ByteOrder` type parameter: `LittleEndian` or `BigEndian` (`NativeEndian` is one of them). -/
inductive Endian | little | big
  deriving DecidableEq, Repr

/-- The other byte order. -/
def Endian.swap : Endian → Endian
  | .little => .big
  | .big => .little

/-- `s[i]`, for an `i` that the caller has checked to be in range. -/
def byteAt (s : List U8) (i : Nat) : U8 := s.getD i 0#8

/-- Two bytes as a 16-bit integer. -/
def u16Of : Endian → U8 → U8 → U16
  | .little, b0, b1 => BitVec.ofNat 16 (b0.toNat + 256 * b1.toNat)
  | .big, b0, b1 => BitVec.ofNat 16 (b1.toNat + 256 * b0.toNat)

/-- Four bytes as a 32-bit integer. -/
def u32Of : Endian → U8 → U8 → U8 → U8 → U32
  | .little, b0, b1, b2, b3 =>
    BitVec.ofNat 32 (b0.toNat + 256 * b1.toNat + 65536 * b2.toNat + 16777216 * b3.toNat)
  | .big, b0, b1, b2, b3 =>
    BitVec.ofNat 32 (b3.toNat + 256 * b2.toNat + 65536 * b1.toNat + 16777216 * b0.toNat)

/-- `U16::<O>::get` of the two bytes at position `i`. -/
def readU16 (o : Endian) (s : List U8) (i : Nat) : U16 :=
  u16Of o (byteAt s i) (byteAt s (i + 1))

/-- `U32::<O>::get` of the four bytes at position `i`. -/
def readU32 (o : Endian) (s : List U8) (i : Nat) : U32 :=
  u32Of o (byteAt s i) (byteAt s (i + 1)) (byteAt s (i + 2)) (byteAt s (i + 3))

/-- `U16::<O>::new(x).as_bytes()` -/
def u16Bytes (o : Endian) (x : U16) : List U8 :=
  match o with
  | .little => [BitVec.ofNat 8 x.toNat, BitVec.ofNat 8 (x.toNat / 256)]
  | .big => [BitVec.ofNat 8 (x.toNat / 256), BitVec.ofNat 8 x.toNat]

/-- `U32::<O>::new(x).as_bytes()` -/
def u32Bytes (o : Endian) (x : U32) : List U8 :=
  match o with
  | .little => [BitVec.ofNat 8 x.toNat, BitVec.ofNat 8 (x.toNat / 256),
      BitVec.ofNat 8 (x.toNat / 65536), BitVec.ofNat 8 (x.toNat / 16777216)]
  | .big => [BitVec.ofNat 8 (x.toNat / 16777216), BitVec.ofNat 8 (x.toNat / 65536),
      BitVec.ofNat 8 (x.toNat / 256), BitVec.ofNat 8 x.toNat]

end Verif
