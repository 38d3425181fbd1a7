import Verif.Spec.Image
/-!
# A program that rewrites sections

It is not part of the repository: it uses the reader and the builder through their public functions.
-/

namespace Verif.Spec

variable {o : Endian}

/-- The options that the header of a section tells. -/
def optionsOf (s : SFrame o) : SFrameOptions :=
  (((SFrameOptions.new.framePointer (s.flags &&& Flags.FRAME_POINTER != 0)).abi s.abi).fixedFpOffset
    s.fixedFpOffset).fixedRaOffset s.fixedRaOffset

/-- What the accessors tell about a row. -/
def readingIn (s : SFrame o) (r : FrameRowEntry o) : RowReading :=
  { start := r.startAddressOffset, base := r.baseReg, mangled := r.mangled,
    cfa := r.cfaOffset, ra := r.raOffset s, fp := r.fpOffset s }

/-- A row of a builder that says the same: without offsets if there is none for the CFA. -/
def rowAgain (r : RowReading) : FrameRowBuilder :=
  (match r.cfa with
    | .error _ => FrameRowBuilder.invalid r.start
    | .ok cfa => FrameRowBuilder.new r.base r.start ⟨cfa, r.ra.toOption, r.fp.toOption⟩).mangledRaP r.mangled

/-- What can be wrong. -/
inductive RewriteError
  | read (e : ReadError)
  | row (e : FrameRowError)
  deriving DecidableEq, Repr

/-- Adding all rows that were read. -/
def copyRows (f : FuncDescBuilder) : List (Except ReadError RowReading) → Except RewriteError FuncDescBuilder
  | [] => .ok f
  | .error e :: _ => .error (.read e)
  | .ok r :: rs => match f.row (rowAgain r) with
    | .error e => .error (.row e)
    | .ok f => copyRows f rs

/-- A function: the rows first, since a repetition size would be checked against their starts. -/
def copyFunction (opts : SFrameOptions) (e : FuncDescEntry o) (rs : List (Except ReadError RowReading)) :
    Except RewriteError FuncDescBuilder :=
  match copyRows (FuncDescBuilder.new opts e.startAddress e.size) rs with
  | .error x => .error x
  | .ok f =>
    let f := f.setPauthKey e.pauthKey
    .ok (if e.fdetype = .pcInc then f else f.pcmask (e.repBlockSize.getD 0))

/-- Adding all functions. -/
def copyFunctions (s : SFrame o) (b : SFrameBuilder) :
    List (FuncDescEntry o) → Rust (Except RewriteError SFrameBuilder)
  | [] => .ok (.ok b)
  | e :: es =>
    (e.iter.collect.bind fun rs => .ok (rs.map (·.map (readingIn s)))).bind fun rs =>
    match copyFunction (optionsOf s) e rs with
    | .error x => .ok (.error x)
    | .ok f => (b.fde f).bind fun b => copyFunctions s b es

/-- Loading a section and building it anew. -/
def rewrite (o : Endian) (bytes : List U8) : Rust (Except RewriteError SFrameBuilder) :=
  (SFrame.load o bytes).bind fun
  | .error e => .ok (.error (.read e))
  | .ok s => s.iter.collect.bind fun es => copyFunctions s (SFrameBuilder.new (optionsOf s)) es

/-- What every row and the options have that are made through the public functions: a row without offsets is relative
to the frame pointer, and the only flags are the two that the builder sets. -/
structure ApiMade (b : SFrameBuilder) : Prop where
  rows : ∀ f ∈ functions b, ∀ r ∈ rows f, r.offsets = none → r.baseReg = .fp
  flags : b.options.flags = Flags.FDE_SORTED ∨ b.options.flags = Flags.FDE_SORTED ||| Flags.FRAME_POINTER

/-- Every row starts inside its function. -/
def RowsInside (b : SFrameBuilder) : Prop :=
  ∀ f ∈ functions b, ∀ r ∈ rows f, r.startAddress.toNat < f.size.toNat

end Verif.Spec
