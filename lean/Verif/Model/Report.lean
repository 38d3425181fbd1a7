import Verif.Model.Cfi
/-!
# What the converter prints

`dwarf2sframe2/src/lib.rs:142-317` once more, with its output: the debug dump on stdout and the warnings
on stderr, in the order in which they are printed, also if the conversion then fails or panics.  The
message of a panic is not part of it.  Printing is assumed to succeed.  That the results are those of
`Model/Convert.lean` is proved (`dwarf2sframeT_result`).
-/

namespace Verif

/-- What is printed: a line on stdout (`println!`) or a warning on stderr (`eprintln!`, lib.rs:289-291). -/
inductive Event
  | out (line : String)
  | err (w : Warning)
  deriving DecidableEq, Repr

/-- A computation with what it prints before it ends or panics. -/
abbrev Traced (α : Type) := List Event × Rust α

namespace Traced

/-- A computation that prints nothing. -/
def lift {α : Type} (x : Rust α) : Traced α := ([], x)

/-- A value. -/
def pure {α : Type} (a : α) : Traced α := ([], .ok a)

/-- `println!`, line by line. -/
def say (ls : List String) : Traced Unit := (ls.map .out, .ok ())

/-- `eprintln!` of warnings. -/
def complain (ws : List Warning) : Traced Unit := (ws.map .err, .ok ())

/-- One computation after the other. -/
def bind {α β : Type} (x : Traced α) (f : α → Traced β) : Traced β :=
  match x.2 with
  | .ok a => (x.1 ++ (f a).1, (f a).2)
  | .panic p => (x.1, .panic p)
  | .diverge => (x.1, .diverge)

end Traced

/-- The lines on stdout. -/
def stdoutOf (es : List Event) : List String := es.filterMap fun
  | .out l => some l
  | .err _ => none

/-- The warnings on stderr. -/
def stderrOf (es : List Event) : List Warning := es.filterMap fun
  | .out _ => none
  | .err w => some w

/-- lib.rs:251-258: the line of the CFA. -/
def cfaLine (g : GimliText) (arch : Architecture) : CfaRule → String
  | .registerAndOffset r o => "    cfa:    " ++ (registerText g arch r ++ fmtSigned64 o)
  | .expression e => "    cfa:    " ++ g.expr e

/-- lib.rs:260-266: the line of a register. -/
def regLine (g : GimliText) (arch : Architecture) (x : Reg × RegRule) : String :=
  "    reg:    " ++ (registerText g arch x.1 ++ (" = " ++ ruleText g arch x.2))

/-- lib.rs:245-267: the lines of a row. -/
def rowLines (g : GimliText) (arch : Architecture) (row : DwRow) : List String :=
  ("  - offset: " ++ (fmtAltHexPad 10 row.start.toNat ++ (" (end = " ++
    (fmtAltHexPad 10 row.end_.toNat ++ ")")))) ::
  cfaLine g arch row.cfa :: row.registers.map (regLine g arch)

/-- lib.rs:244-304: the loop over the rows of a function. -/
def convertRowsT (dbg : Bool) (g : GimliText) (opts : Options) (fde : DwFde) :
    List (Except GErr DwRow) → FuncDescBuilder → Traced (Except ConvError FuncDescBuilder)
  | [], sfde => Traced.pure (.ok sfde)
  | .error e :: _, _ => Traced.pure (.error (.invalidUnwindTable e))
  | .ok row :: rows, sfde =>
    -- 245-267
    (Traced.say (if opts.debugdump then rowLines g opts.arch row else [])).bind fun _ =>
    -- 269-274
    if row.start = row.end_ then convertRowsT dbg g opts fde rows sfde
    else
      -- 276-284
      (Traced.lift (rowStart dbg fde row)).bind fun
      | .error e => Traced.pure (.error e)
      | .ok start =>
        -- 286-296
        (Traced.lift (convertRow dbg opts fde row)).bind fun r =>
        (match r with
          | .ok fre => Traced.pure (Except.ok fre)
          | .error (.warning w) =>
            (Traced.complain w.toList).bind fun _ => Traced.pure (.ok (FrameRowBuilder.invalid start))
          | .error (.fatal e) => Traced.pure (.error e)).bind fun
        | .error e => Traced.pure (.error e)
        | .ok fre =>
          -- 299-303
          match sfde.row fre with
          | .error _ => Traced.lift (.panic .explicit)
          | .ok sfde => convertRowsT dbg g opts fde rows sfde

/-- lib.rs:207-208: the first lines for a function. -/
def fdeTop (fde : DwFde) : List String :=
  ["FDE:", " start_address: " ++ fmtAltHexPad 10 fde.initial.toNat]

/-- lib.rs:209-212: the third line. -/
def fdeRange (fde : DwFde) (end_ : U64) : String :=
  "    range_size: " ++ (fmtAltHexPad 10 fde.len.toNat ++ (" (end_addr = " ++
    (fmtAltHexPad 10 end_.toNat ++ ")")))

/-- lib.rs:206-223: the debug dump of a function before its rows.  The end of the function is computed
after the first two lines are printed. -/
def dumpFdeT (dbg : Bool) (g : GimliText) (arch : Architecture) (fde : DwFde) : Traced (Except ConvError Unit) :=
  -- 207-212
  (Traced.say (fdeTop fde)).bind fun _ =>
  (Traced.lift (addU64 dbg fde.initial fde.len)).bind fun end_ =>
  (Traced.say [fdeRange fde end_]).bind fun _ =>
  -- 214-220
  let r := listInstructions false (g.register arch) g.error fde.instructions
  (Traced.say r.1).bind fun _ =>
  match r.2 with
  | .error e => Traced.pure (.error (.invalidDwarfFde e))
  -- 221-222
  | .ok () => (Traced.say ["", "Rows:"]).bind fun _ => Traced.pure (.ok ())

/-- lib.rs:203-314: one function. -/
def convertFdeT (dbg : Bool) (g : GimliText) (opts : Options) (sframe : SFrameBuilder) (fde : DwFde) :
    Traced (Except ConvError SFrameBuilder) :=
  -- 206-223
  (if opts.debugdump then dumpFdeT dbg g opts.arch fde else Traced.pure (.ok ())).bind fun
  | .error e => Traced.pure (.error e)
  | .ok () =>
    -- 225-229
    if fde.initial.toNat > i32Max then Traced.pure (.error (.invalidStartAddress fde.initial))
    -- 231-236
    else if fde.len.toNat > i32Max then Traced.pure (.error (.invalidFunctionLength fde.initial fde.len))
    else
      -- 238-242
      let sfde := FuncDescBuilder.new sframe.options (fde.initial.setWidth 32) (fde.len.setWidth 32)
      match fde.rows with
      | .error e => Traced.pure (.error (.invalidUnwindTable e))
      | .ok rows =>
        -- 244-304
        (convertRowsT dbg g opts fde rows sfde).bind fun
        | .error e => Traced.pure (.error e)
        | .ok sfde =>
          -- 306-308
          (Traced.lift (if opts.mergeFres then sfde.mergeAdjacentFres else .ok sfde)).bind fun sfde =>
          -- 310
          (Traced.lift (sframe.fde sfde)).bind fun sframe =>
          -- 312-314
          (Traced.say (if opts.debugdump then [""] else [])).bind fun _ =>
          Traced.pure (.ok sframe)

/-- lib.rs:191-315: the loop over the entries. -/
def convertEntriesT (dbg : Bool) (g : GimliText) (opts : Options) (eh : EhFrame) :
    List (Except GErr Entry) → SFrameBuilder → List (Nat × Except GErr Cie) →
    Traced (Except ConvError SFrameBuilder)
  | [], sframe, _ => Traced.pure (.ok sframe)
  | .error e :: _, _, _ => Traced.pure (.error (.invalidEhFrameEntry e))
  | .ok .cie :: entries, sframe, cies => convertEntriesT dbg g opts eh entries sframe cies
  | .ok (.fde offset parse) :: entries, sframe, cies =>
    match parse (lookupCie opts eh cies offset).1 with
    | .error e => Traced.pure (.error (.invalidDwarfFde e))
    | .ok fde =>
      (convertFdeT dbg g opts sframe fde).bind fun
      | .error e => Traced.pure (.error e)
      | .ok sframe => convertEntriesT dbg g opts eh entries sframe (lookupCie opts eh cies offset).2

/-- lib.rs:142-178 `dwarf2sframe`, with what it prints. -/
def dwarf2sframeT (dbg : Bool) (g : GimliText) (eh : EhFrame) (opts : Options) :
    Traced (Except ConvError SFrameBuilder) :=
  -- 165-170
  (convertEntriesT dbg g opts eh (eh.entries opts.bases) (SFrameBuilder.new (sectionOptions eh opts)) []).bind fun
  | .error e => Traced.pure (.error e)
  | .ok sframe =>
    -- 172-177
    (Traced.lift (if opts.mergeFdes then sframe.mergeAdjacentFdes dbg else .ok sframe)).bind fun sframe =>
    Traced.pure (.ok sframe)

end Verif
