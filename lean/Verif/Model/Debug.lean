import Verif.Model.Read
/-!
# Model of the `fmt::Debug` instances of `crates/sframe/src/read.rs`

What is printed is data: the fields in order, with their values.  How `core::fmt` lays them out is not
modelled, and writing to the formatter is assumed to succeed; panics on the way are modelled.
-/

namespace Verif

/-- What `Debug` shows of a row (read.rs:699-702). -/
structure RowDebug where
  startAddress : U32
  baseReg : BaseReg
  mangled : Bool
  offsets : List I32
  deriving DecidableEq, Repr

/-- What `Debug` shows of a function (read.rs:457-492).  `repSize` is shown for version 2 only. -/
structure FdeDebug where
  startAddress : I32
  size : U32
  fdetype : RawFdeType
  pauthKey : PauthKey
  repSize : Option U8
  numFres : U32
  startFreOff : U32
  fres : List (Except ReadError RowDebug)
  deriving DecidableEq

/-- What `Debug` shows of a section (read.rs:228-234). -/
structure SFrameDebug where
  preamble : Preamble
  abiArch : U8
  fixedFpOffset : Option I8
  fixedRaOffset : Option I8
  numFdes : U32
  numFres : U32
  fdes : List FdeDebug
  deriving DecidableEq

variable {o : Endian}

/-- read.rs:695-705 `Debug for FrameRowEntry`.  The slice of line 697 is checked. -/
def FrameRowEntry.debug (r : FrameRowEntry o) : Rust RowDebug :=
  match getTo r.offsets (min (FreInfo.offsetCount r.info).toNat 3) with
  | none => .panic .sliceIndex
  | some offsets => .ok ⟨r.startAddressOffset, r.baseReg, r.mangled, offsets⟩

/-- An entry of the list of rows is a `Result`. -/
def debugItem : Except ReadError (FrameRowEntry o) → Rust (Except ReadError RowDebug)
  | .error e => .ok (.error e)
  | .ok r => r.debug.bind fun d => .ok (.ok d)

/-- read.rs:484-490: `debug_list().entries(self.0.fres())`. -/
def debugRowsFuel : Nat → FrameRowIter o → Rust (List (Except ReadError RowDebug))
  | fuel, it =>
    it.next.bind fun
    | (none, _) => .ok []
    | (some x, it') =>
      (debugItem x).bind fun d =>
      match fuel with
      | 0 => .diverge
      | fuel + 1 => (debugRowsFuel fuel it').bind fun ds => .ok (d :: ds)

/-- read.rs:453-494 `Debug for FuncDescEntry`. -/
def FuncDescEntry.debug (e : FuncDescEntry o) : Rust FdeDebug :=
  (debugRowsFuel e.fde.numFres.toNat e.iter).bind fun fres =>
  .ok ⟨e.fde.startAddress, e.fde.size, FdeInfo.fdetype e.fde.info, FdeInfo.pauthKey e.fde.info,
    e.fde.repSize, e.fde.numFres, e.fde.startFreOff, fres⟩

/-- read.rs:219-225: `debug_list().entries(self.0.fdes())`. -/
def debugFdesFuel : Nat → FuncDescIter o → Rust (List FdeDebug)
  | fuel, it =>
    match it.next with
    | (none, _) => .ok []
    | (some e, it') =>
      e.debug.bind fun d =>
      match fuel with
      | 0 => .diverge
      | fuel + 1 => (debugFdesFuel fuel it').bind fun ds => .ok (d :: ds)

/-- read.rs:217-237 `Debug for SFrame`. -/
def SFrame.debug (s : SFrame o) : Rust SFrameDebug :=
  (debugFdesFuel s.iter.sizeHint.1 s.iter).bind fun fdes =>
  .ok ⟨s.preamble, s.abiArch, s.fixedFpOffset, s.fixedRaOffset, s.numFdes, s.numFres, fdes⟩

end Verif
