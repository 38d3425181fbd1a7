import Verif.Model.Read
/-!
# The reader on 32-bit targets

`Model/Read.lean` takes `usize` to have 64 bits.  Here is what changes if it has 32: the multiplication
in zerocopy's `slice_from_prefix` and the addition on line 80 of read.rs can overflow.  The other
conversions to `usize` in read.rs are from `u8` or `u32` and are not followed by arithmetic
(lines 47, 55, 558, 639, 697, 728, 820), except for the addition and multiplication of small
constants, so the other functions are the same.  A slice has at most `isize::MAX` bytes.
-/

namespace Verif

/-- zerocopy's `slice_from_prefix` with a 32-bit `usize`: `None` if the size in bytes overflows. -/
def sliceFromPrefix32 {α} (sz : Nat) (decode : List U8 → α) (s : List U8) (count : Nat) :
    Option (List α × List U8) :=
  if 2 ^ 32 ≤ sz * count then none else sliceFromPrefix sz decode s count

namespace SFrame

/-- read.rs:26-95 `SFrame::load` on a target with 32-bit `usize`: the same text, in which the sum on
line 80 can overflow. -/
def load32 (dbg : Bool) (o : Endian) (section_ : List U8) : Rust (Except ReadError (SFrame o)) :=
  -- 27-33
  match Preamble.refFromPrefix o section_ with
  | none => .ok (.error .unexpectedEof)
  | some preamble =>
    if preamble.magic ≠ MAGIC then .ok (.error .incorrectEndian)
    -- 35-38
    else if ¬ (preamble.version = Version.V1 ∨ preamble.version = Version.V2) then
      .ok (.error (.unsupportedVersion preamble.version))
    else
      -- 40-43
      match Header.refFromPrefix o section_ with
      | none => .ok (.error .unexpectedEof)
      | some header =>
        -- 45
        (sliceFrom section_ Header.size).bind fun data =>
        -- 46-48
        match getTo data header.auxhdrLen.toNat with
        | none => .ok (.error .unexpectedEof)
        | some aux =>
          -- 52
          (sliceFrom data aux.length).bind fun data =>
          -- 54-56
          match getFrom data header.fdeoff.toNat with
          | none => .ok (.error .unexpectedEof)
          | some fdes =>
            -- 58-75; `none` stands for the `ok_or(UnexpectedEof)?`
            (if preamble.version = Version.V1 then
              Rust.ok <| (sliceFromPrefix32 FdeV1.byteSize (FdeV1.decode o) fdes
                header.numFdes.toNat).map fun r => FdeList.v1 r.1
            else if preamble.version = Version.V2 then
              Rust.ok <| (sliceFromPrefix32 FdeV2.byteSize (FdeV2.decode o) fdes
                header.numFdes.toNat).map fun r => FdeList.v2 r.1
            else .panic .unreachable).bind fun
            | none => .ok (.error .unexpectedEof)
            | some fdes =>
              -- 77-82
              (addU32 dbg header.freoff header.freLen).bind fun end_ =>
              match getRange data header.freoff.toNat end_.toNat with
              | none => .ok (.error .unexpectedEof)
              | some fres =>
                -- 84-94
                .ok (.ok {
                  preamble := header.preamble
                  abiArch := header.abiArch
                  fixedFp := header.fixedFpOffset
                  fixedRa := header.fixedRaOffset
                  numFdes := header.numFdes
                  numFres := header.numFres
                  aux := aux
                  fdes := fdes
                  fres := fres })

end SFrame

end Verif
