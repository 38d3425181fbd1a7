import Verif.Model.Read
/-!
# Concrete sections used in the examples and as witnesses
-/

namespace Verif.Samples

/-- Little-endian version 2, amd64, sorted, fixed RA -8: function 0x1000+0x20 with rows at 0 and 4,
function 0x1020+0x10 with a row at 0. -/
def v2 : List U8 := [
  0xE2, 0xDE, 2, 1,  3, 0, 0xF8, 0,  2, 0, 0, 0,  3, 0, 0, 0,  10, 0, 0, 0,  0, 0, 0, 0,  40, 0, 0, 0,
  0x00, 0x10, 0, 0,  0x20, 0, 0, 0,  0, 0, 0, 0,  2, 0, 0, 0,  0, 0, 0, 0,
  0x20, 0x10, 0, 0,  0x10, 0, 0, 0,  7, 0, 0, 0,  1, 0, 0, 0,  0, 0, 0, 0,
  0, 3, 8,  4, 5, 16, 0xF0,
  0, 3, 24]

/-- The same without the sorted flag. -/
def v2unsorted : List U8 := v2.set 3 0

/-- Big-endian version 1, one PcMask function 0x10+0x40 and one row, one byte of auxiliary header,
a gap of one byte before the table, FREs before the FDEs, and a trailing byte. -/
def v1 : List U8 := [
  0xDE, 0xE2, 1, 0,  1, 0, 0, 1,  0, 0, 0, 1,  0, 0, 0, 1,  0, 0, 0, 5,  0, 0, 0, 6,  0, 0, 0, 0,
  0xAA,
  7, 7, 2, 16, 0xF8,
  0xBB,
  0, 0, 0, 0x10,  0, 0, 0, 0x40,  0, 0, 0, 1,  0, 0, 0, 1,  0x18,
  0xCC]

/-- `v2` loaded. -/
def v2F : SFrame .little where
  preamble := { magic := 0xDEE2, version := 2, flags := 1 }
  abiArch := 3
  fixedFp := 0
  fixedRa := 0xF8
  numFdes := 2
  numFres := 3
  aux := []
  fdes := .v2 [
    { startAddress := 0x1000, size := 0x20, startFreOff := 0, numFres := 2, info := 0, repSize := 0,
      padding2 := 0 },
    { startAddress := 0x1020, size := 0x10, startFreOff := 7, numFres := 1, info := 0, repSize := 0,
      padding2 := 0 }]
  fres := [0, 3, 8,  4, 5, 16, 0xF0,  0, 3, 24]

theorem v2_loads : SFrame.load .little v2 = .ok (.ok v2F) := by decide +kernel

/-- `v1` loaded. -/
def v1F : SFrame .big where
  preamble := { magic := 0xDEE2, version := 1, flags := 0 }
  abiArch := 1
  fixedFp := 0
  fixedRa := 0
  numFdes := 1
  numFres := 1
  aux := [0xAA]
  fdes := .v1 [
    { startAddress := 0x10, size := 0x40, startFreOff := 1, numFres := 1, info := 0x18 }]
  fres := [7, 7, 2, 16, 0xF8]

theorem v1_loads : SFrame.load .big v1 = .ok (.ok v1F) := by decide +kernel

/-- The two functions of `v2`, as they are stored. -/
def fde0 : Fde := .v2
  { startAddress := 0x1000, size := 0x20, startFreOff := 0, numFres := 2,
    info := 0, repSize := 0, padding2 := 0 }
@[inherit_doc fde0] def fde1 : Fde := .v2
  { startAddress := 0x1020, size := 0x10, startFreOff := 7, numFres := 1,
    info := 0, repSize := 0, padding2 := 0 }

/-- The entries that `fdes()` yields for `v2`. -/
def e0 : FuncDescEntry .little := { fde := fde0, fres := [0, 3, 8,  4, 5, 16, 0xF0,  0, 3, 24] }
@[inherit_doc e0] def e1 : FuncDescEntry .little := { fde := fde1, fres := [0, 3, 24] }

/-- Function 1 of `v2` with the FRE bytes of the whole section. -/
def e1bad : FuncDescEntry .little := { fde := fde1, fres := [0, 3, 8,  4, 5, 16, 0xF0,  0, 3, 24] }

/-- The rows of function 0. -/
def r00 : FrameRowEntry .little :=
  { fde := fde0, startAddressOffset := 0, info := 3, offsets := [8, 0, 0] }
@[inherit_doc r00] def r04 : FrameRowEntry .little :=
  { fde := fde0, startAddressOffset := 4, info := 5, offsets := [16, -16, 0] }

theorem e0_rows : e0.iter.collect = .ok [.ok r00, .ok r04] := by decide +kernel

/-- The row of function 1. -/
def r1 : FrameRowEntry .little :=
  { fde := fde1, startAddressOffset := 0, info := 3, offsets := [24, 0, 0] }
/-- The first row of function 0, taken for a row of function 1. -/
def r1bad : FrameRowEntry .little :=
  { fde := fde1, startAddressOffset := 0, info := 3, offsets := [8, 0, 0] }

end Verif.Samples
