import Verif.Spec.Report
import Verif.Proofs.Convert
import Verif.Props.Cfi
/-!
# The converter with its output
-/

namespace Verif
open Spec

namespace Traced

/-- Something printed first. -/
def after {α : Type} (es : List Event) (x : Traced α) : Traced α := (es ++ x.1, x.2)

theorem after_nil {α : Type} (x : Traced α) : after [] x = x := rfl
theorem after_after {α : Type} (a b : List Event) (x : Traced α) : after a (after b x) = after (a ++ b) x := by
  simp [after, List.append_assoc]

theorem say_bind {α : Type} (ls : List String) (f : Unit → Traced α) :
    (say ls).bind f = after (ls.map .out) (f ()) := rfl
theorem complain_bind {α : Type} (ws : List Warning) (f : Unit → Traced α) :
    (complain ws).bind f = after (ws.map .err) (f ()) := rfl
theorem pure_bind {α β : Type} (a : α) (f : α → Traced β) : (pure a).bind f = f a := rfl
theorem lift_ok {α β : Type} (a : α) (f : α → Traced β) : (lift (.ok a)).bind f = f a := rfl
theorem lift_panic {α β : Type} (p : Panic) (f : α → Traced β) : (lift (.panic p)).bind f = ([], .panic p) := rfl
theorem lift_diverge {α β : Type} (f : α → Traced β) : (lift .diverge).bind f = ([], .diverge) := rfl

theorem after_bind {α β : Type} (es : List Event) (x : Traced α) (f : α → Traced β) :
    (after es x).bind f = after es (x.bind f) := by
  obtain ⟨ls, a | p | _⟩ := x
  · simp [after, bind, List.append_assoc]
  · rfl
  · rfl

end Traced

theorem stdoutOf_append (a b : List Event) : stdoutOf (a ++ b) = stdoutOf a ++ stdoutOf b := by simp [stdoutOf]
theorem stderrOf_append (a b : List Event) : stderrOf (a ++ b) = stderrOf a ++ stderrOf b := by simp [stderrOf]
theorem stdoutOf_out (ls : List String) : stdoutOf (ls.map .out) = ls := by
  simp [stdoutOf, List.filterMap_map, Function.comp_def]
theorem stderrOf_out (ls : List String) : stderrOf (ls.map .out) = [] := by
  simp [stderrOf, List.filterMap_map, Function.comp_def]
theorem stdoutOf_err (ws : List Warning) : stdoutOf (ws.map .err) = [] := by
  simp [stdoutOf, List.filterMap_map, Function.comp_def]
theorem stderrOf_err (ws : List Warning) : stderrOf (ws.map .err) = ws := by
  simp [stderrOf, List.filterMap_map, Function.comp_def]

/-- The result of a traced computation with its warnings. -/
def withLog {α : Type} (x : Traced (Except ConvError α)) (log : List Warning) :
    Rust (Except ConvError (α × List Warning)) :=
  x.2.bind fun
  | .error e => .ok (.error e)
  | .ok a => .ok (.ok (a, log ++ stderrOf x.1))

theorem withLog_after {α : Type} (es : List Event) (x : Traced (Except ConvError α)) (log : List Warning) :
    withLog (x.after es) log = withLog x (log ++ stderrOf es) := by
  obtain ⟨ls, (e | a) | p | _⟩ := x <;> simp [withLog, Traced.after, stderrOf_append, Rust.bind, List.append_assoc]

/-! ### The results are those of the model without output -/

theorem convertRowsT_cons (dbg : Bool) (g : GimliText) (opts : Options) (fde : DwFde) (row : DwRow)
    (rows : List (Except GErr DwRow)) (sfde : FuncDescBuilder) :
    convertRowsT dbg g opts fde (.ok row :: rows) sfde =
      Traced.after ((if opts.debugdump then rowLines g opts.arch row else []).map .out)
      (if row.start = row.end_ then convertRowsT dbg g opts fde rows sfde
      else
        (Traced.lift (rowStart dbg fde row)).bind fun
        | .error e => Traced.pure (.error e)
        | .ok start =>
          (Traced.lift (convertRow dbg opts fde row)).bind fun
          | .ok fre =>
            match sfde.row fre with
            | .error _ => Traced.lift (.panic .explicit)
            | .ok sfde => convertRowsT dbg g opts fde rows sfde
          | .error (.warning w) =>
            Traced.after (w.toList.map .err)
            (match sfde.row (FrameRowBuilder.invalid start) with
            | .error _ => Traced.lift (.panic .explicit)
            | .ok sfde => convertRowsT dbg g opts fde rows sfde)
          | .error (.fatal e) => Traced.pure (.error e)) := by
  conv => lhs; rw [convertRowsT]
  rw [Traced.say_bind]
  congr 1
  split
  · rfl
  · congr 1
    funext r
    cases r with
    | error e => rfl
    | ok start =>
      simp only
      congr 1
      funext r
      rcases r with (e | w) | fre
      · rfl
      · simp only [Traced.complain_bind, Traced.after_bind, Traced.pure_bind] <;> rfl
      · rfl

theorem convertRowsT_result (dbg : Bool) (g : GimliText) (opts : Options) (fde : DwFde)
    (rows : List (Except GErr DwRow)) (sfde : FuncDescBuilder) (log : List Warning) :
    withLog (convertRowsT dbg g opts fde rows sfde) log = convertRows dbg opts fde rows sfde log := by
  induction rows generalizing sfde log with
  | nil => simp [convertRowsT, convertRows, withLog, Traced.pure, Rust.bind, stderrOf]
  | cons x rows ih =>
    cases x with
    | error e => rfl
    | ok row =>
      rw [convertRowsT_cons, convertRows_cons, withLog_after, stderrOf_out, List.append_nil]
      split
      · exact ih sfde log
      · cases rowStart dbg fde row with
        | panic p => rfl
        | diverge => rfl
        | ok r =>
          cases r with
          | error e => rfl
          | ok start =>
            rw [Traced.lift_ok, Rust.bind_ok]
            simp only
            cases convertRow dbg opts fde row with
            | panic p => rfl
            | diverge => rfl
            | ok r =>
              rw [Traced.lift_ok, Rust.bind_ok]
              rcases r with (e | w) | fre
              · rfl
              · simp only
                rw [withLog_after, stderrOf_err]
                cases sfde.row (FrameRowBuilder.invalid start) with
                | error e => rfl
                | ok s => exact ih s _
              · simp only
                cases sfde.row fre with
                | error e => rfl
                | ok s => exact ih s _

theorem dumpFdeT_eq (dbg : Bool) (g : GimliText) (arch : Architecture) (fde : DwFde) :
    dumpFdeT dbg g arch fde =
      match addU64 dbg fde.initial fde.len with
      | .panic p => ((fdeTop fde).map .out, .panic p)
      | .diverge => ((fdeTop fde).map .out, .diverge)
      | .ok x => Traced.after ((fdeTop fde ++ fdeRange fde x :: reportCode g arch fde).map .out)
        (match dumpCfiInstructions fde.instructions with
        | .error e => Traced.pure (.error (.invalidDwarfFde e))
        | .ok () => (["", "Rows:"].map Event.out, .ok (.ok ()))) := by
  unfold dumpFdeT
  rw [Traced.say_bind]
  cases addU64 dbg fde.initial fde.len with
  | panic p => simp [Traced.lift_panic, Traced.after]
  | diverge => simp [Traced.lift_diverge, Traced.after]
  | ok x =>
    rw [Traced.lift_ok, Traced.say_bind, Traced.after_after]
    simp only
    rw [Traced.say_bind, Traced.after_after, C84_control, ← List.map_append, ← List.map_append]
    unfold reportCode
    rw [List.append_assoc]
    cases dumpCfiInstructions fde.instructions <;> rfl

/-- `convertFde` after the debug dump. -/
def fdeRest (dbg : Bool) (opts : Options) (st : ConvState) (fde : DwFde) : Rust (Except ConvError ConvState) :=
  if fde.initial.toNat > i32Max then .ok (.error (.invalidStartAddress fde.initial))
  else if fde.len.toNat > i32Max then .ok (.error (.invalidFunctionLength fde.initial fde.len))
  else
    match fde.rows with
    | .error e => .ok (.error (.invalidUnwindTable e))
    | .ok rows =>
      (convertRows dbg opts fde rows
        (FuncDescBuilder.new st.sframe.options (fde.initial.setWidth 32) (fde.len.setWidth 32)) st.log).bind fun
      | .error e => .ok (.error e)
      | .ok (sfde, log) =>
        (if opts.mergeFres then sfde.mergeAdjacentFres else .ok sfde).bind fun sfde =>
        (st.sframe.fde sfde).bind fun sframe =>
        .ok (.ok { st with sframe := sframe, log := log })

/-- `convertFdeT` after the debug dump. -/
def fdeRestT (dbg : Bool) (g : GimliText) (opts : Options) (sframe : SFrameBuilder) (fde : DwFde) :
    Traced (Except ConvError SFrameBuilder) :=
  if fde.initial.toNat > i32Max then Traced.pure (.error (.invalidStartAddress fde.initial))
  else if fde.len.toNat > i32Max then Traced.pure (.error (.invalidFunctionLength fde.initial fde.len))
  else
    match fde.rows with
    | .error e => Traced.pure (.error (.invalidUnwindTable e))
    | .ok rows =>
      (convertRowsT dbg g opts fde rows
        (FuncDescBuilder.new sframe.options (fde.initial.setWidth 32) (fde.len.setWidth 32))).bind fun
      | .error e => Traced.pure (.error e)
      | .ok sfde =>
        (Traced.lift (if opts.mergeFres then sfde.mergeAdjacentFres else .ok sfde)).bind fun sfde =>
        (Traced.lift (sframe.fde sfde)).bind fun sframe =>
        (Traced.say (if opts.debugdump then [""] else [])).bind fun _ =>
        Traced.pure (.ok sframe)

theorem fdeRestT_result (dbg : Bool) (g : GimliText) (opts : Options) (st : ConvState) (fde : DwFde) :
    fdeRest dbg opts st fde =
      (withLog (fdeRestT dbg g opts st.sframe fde) st.log).bind fun
      | .error e => .ok (.error e)
      | .ok (b, log) => .ok (.ok { st with sframe := b, log := log }) := by
  unfold fdeRest fdeRestT
  split
  · rfl
  split
  · rfl
  cases fde.rows with
  | error e => rfl
  | ok rows =>
    simp only
    rw [← convertRowsT_result dbg g]
    generalize convertRowsT dbg g opts fde rows _ = t
    obtain ⟨ls, (e | s) | p | _⟩ := t
    · rfl
    · simp only [Traced.bind, withLog, Rust.bind_ok, Traced.lift]
      generalize (if opts.mergeFres = true then s.mergeAdjacentFres else Rust.ok s) = m
      cases m with
      | panic p => rfl
      | diverge => rfl
      | ok m =>
        simp only [Rust.bind_ok]
        cases st.sframe.fde m with
        | panic p => rfl
        | diverge => rfl
        | ok b =>
          have h0 : stderrOf ((if opts.debugdump then [""] else []).map Event.out) = [] := stderrOf_out _
          simp [Traced.say, Traced.pure, h0, stderrOf_append]
    · rfl
    · rfl

theorem convertFdeT_eq (dbg : Bool) (g : GimliText) (opts : Options) (sframe : SFrameBuilder) (fde : DwFde) :
    convertFdeT dbg g opts sframe fde =
      if opts.debugdump then
        match addU64 dbg fde.initial fde.len with
        | .panic p => ((fdeTop fde).map .out, .panic p)
        | .diverge => ((fdeTop fde).map .out, .diverge)
        | .ok x =>
          match dumpCfiInstructions fde.instructions with
          | .error e => ((fdeTop fde ++ fdeRange fde x :: reportCode g opts.arch fde).map .out, .ok (.error (.invalidDwarfFde e)))
          | .ok () => Traced.after ((fdeTop fde ++ fdeRange fde x :: reportCode g opts.arch fde ++ ["", "Rows:"]).map .out)
            (fdeRestT dbg g opts sframe fde)
      else fdeRestT dbg g opts sframe fde := by
  have h0 : convertFdeT dbg g opts sframe fde =
      (if opts.debugdump then dumpFdeT dbg g opts.arch fde else Traced.pure (.ok ())).bind fun
      | .error e => Traced.pure (.error e)
      | .ok () => fdeRestT dbg g opts sframe fde := rfl
  rw [h0]
  split
  · rw [dumpFdeT_eq]
    cases addU64 dbg fde.initial fde.len with
    | panic p => rfl
    | diverge => rfl
    | ok x =>
      simp only
      rw [Traced.after_bind]
      cases dumpCfiInstructions fde.instructions with
      | error e => simp [Traced.pure, Traced.bind, Traced.after]
      | ok u =>
        simp only
        rw [List.map_append (l₂ := ["", "Rows:"]), ← Traced.after_after]
        congr 1
  · rw [Traced.pure_bind]

theorem convertFdeT_result (dbg : Bool) (g : GimliText) (opts : Options) (st : ConvState) (fde : DwFde) :
    convertFde dbg opts st fde =
      (withLog (convertFdeT dbg g opts st.sframe fde) st.log).bind fun
      | .error e => .ok (.error e)
      | .ok (b, log) => .ok (.ok { st with sframe := b, log := log }) := by
  have h0 : convertFde dbg opts st fde =
      (if opts.debugdump then
        (addU64 dbg fde.initial fde.len).bind fun _ => Rust.ok (dumpCfiInstructions fde.instructions)
      else .ok (.ok ())).bind fun
      | .error e => .ok (.error (.invalidDwarfFde e))
      | .ok () => fdeRest dbg opts st fde := rfl
  rw [h0, convertFdeT_eq]
  split
  · cases addU64 dbg fde.initial fde.len with
    | panic p => rfl
    | diverge => rfl
    | ok x =>
      simp only [Rust.bind_ok]
      cases dumpCfiInstructions fde.instructions with
      | error e => rfl
      | ok u =>
        simp only
        rw [withLog_after, stderrOf_out, List.append_nil]
        exact fdeRestT_result dbg g opts st fde
  · exact fdeRestT_result dbg g opts st fde

/-- The loop over inputs with its output. -/
def convertInputsT (dbg : Bool) (g : GimliText) (opts : Options) :
    List (Except ConvError DwFde) → SFrameBuilder → Traced (Except ConvError SFrameBuilder)
  | [], b => Traced.pure (.ok b)
  | .error e :: _, _ => Traced.pure (.error e)
  | .ok fde :: rest, b =>
    (convertFdeT dbg g opts b fde).bind fun
    | .error e => Traced.pure (.error e)
    | .ok b => convertInputsT dbg g opts rest b

theorem convertEntriesT_eq (dbg : Bool) (g : GimliText) (opts : Options) (eh : EhFrame)
    (es : List (Except GErr Entry)) (b : SFrameBuilder) (cies : List (Nat × Except GErr Cie))
    (hc : CacheOk opts eh cies) :
    convertEntriesT dbg g opts eh es b cies =
      convertInputsT dbg g opts (inputs { eh with entries := fun _ => es } opts.bases) b := by
  induction es generalizing b cies with
  | nil => rfl
  | cons x es ih =>
    cases x with
    | error e => rfl
    | ok x =>
      cases x with
      | cie => exact ih b cies hc
      | fde off parse =>
        obtain ⟨h1, h2⟩ := lookupCie_ok hc off
        rw [convertEntriesT, h1]
        cases hp : parse (eh.cieFromOffset opts.bases off) with
        | error e =>
          have hin : inputs { eh with entries := fun _ => .ok (.fde off parse) :: es } opts.bases =
              .error (.invalidDwarfFde e) :: inputs { eh with entries := fun _ => es } opts.bases := by
            simp [inputs, hp]
          rw [hin]
          rfl
        | ok fde =>
          have hin : inputs { eh with entries := fun _ => .ok (.fde off parse) :: es } opts.bases =
              .ok fde :: inputs { eh with entries := fun _ => es } opts.bases := by
            simp [inputs, hp]
          rw [hin, convertInputsT]
          simp only
          congr 1
          funext r
          cases r with
          | error e => rfl
          | ok b => exact ih b _ h2

theorem convertInputsT_result (dbg : Bool) (g : GimliText) (opts : Options) (xs : List (Except ConvError DwFde))
    (b : SFrameBuilder) (log : List Warning) :
    withLog (convertInputsT dbg g opts xs b) log = convertInputs dbg opts xs b log := by
  induction xs generalizing b log with
  | nil => simp [convertInputsT, convertInputs, withLog, Traced.pure, Rust.bind, stderrOf]
  | cons x xs ih =>
    cases x with
    | error e => rfl
    | ok fde =>
      rw [convertInputsT, convertInputs, convertFdeT_result dbg g]
      simp only
      generalize convertFdeT dbg g opts b fde = t
      obtain ⟨ls, (e | s) | p | _⟩ := t
      · rfl
      · simp only [withLog, Rust.bind_ok]
        rw [← ih]
        exact withLog_after ls (convertInputsT dbg g opts xs s) log
      · rfl
      · rfl

/-- The inputs, with the output. -/
theorem dwarf2sframeT_eq (dbg : Bool) (g : GimliText) (eh : EhFrame) (opts : Options) :
    dwarf2sframeT dbg g eh opts =
      (convertInputsT dbg g opts (inputs eh opts.bases) (SFrameBuilder.new (sectionOptions eh opts))).bind fun
      | .error e => Traced.pure (.error e)
      | .ok sframe =>
        (Traced.lift (if opts.mergeFdes then sframe.mergeAdjacentFdes dbg else .ok sframe)).bind fun sframe =>
        Traced.pure (.ok sframe) := by
  unfold dwarf2sframeT
  rw [convertEntriesT_eq dbg g opts eh (eh.entries opts.bases) _ [] (by simp [CacheOk])]
  rfl

/-- The result is that of the model without output, and so are the warnings if there is one. -/
theorem dwarf2sframeT_result (dbg : Bool) (g : GimliText) (eh : EhFrame) (opts : Options) :
    withLog (dwarf2sframeT dbg g eh opts) [] = dwarf2sframeLog dbg eh opts := by
  have heq := convertEntries_eq dbg opts eh (eh.entries opts.bases)
    { sframe := SFrameBuilder.new (sectionOptions eh opts), cies := [], log := [] } (by simp [CacheOk])
  rw [dwarf2sframeT_eq]
  have hlog : dwarf2sframeLog dbg eh opts =
      (convertInputs dbg opts (inputs eh opts.bases) (SFrameBuilder.new (sectionOptions eh opts)) []).bind fun
      | .error e => .ok (.error e)
      | .ok (b, log) =>
        (if opts.mergeFdes then b.mergeAdjacentFdes dbg else .ok b).bind fun sframe =>
        .ok (.ok (sframe, log)) := by
    have hin : inputs { eh with entries := fun _ => eh.entries opts.bases } opts.bases
        = inputs eh opts.bases := rfl
    rw [hin] at heq
    rw [← heq]
    unfold dwarf2sframeLog
    generalize convertEntries dbg opts eh _ _ = r
    rcases r with (e | st) | p | _ <;> rfl
  rw [hlog, ← convertInputsT_result dbg g]
  generalize convertInputsT dbg g opts _ _ = t
  obtain ⟨ls, (e | s) | p | _⟩ := t
  · rfl
  · simp only [Traced.bind, withLog, Rust.bind_ok, Traced.lift]
    generalize (if opts.mergeFdes = true then s.mergeAdjacentFdes dbg else Rust.ok s) = m
    cases m with
    | panic p => rfl
    | diverge => rfl
    | ok m => simp [Traced.pure]
  · rfl
  · rfl

/-! ### What is printed for the rows -/

/-- The lines of a row, if they are printed. -/
def linesIf (g : GimliText) (opts : Options) (row : DwRow) : List Event :=
  (if opts.debugdump then rowLines g opts.arch row else []).map .out

/-- What is printed for a row that is added. -/
def rowEvents (g : GimliText) (opts : Options) (fde : DwFde) (row : DwRow) : List Event :=
  linesIf g opts row ++ (rowWarning opts fde row).map .err

theorem rowWarning_live {opts : Options} {fde : DwFde} {row : DwRow} (hz : row.start ≠ row.end_) :
    rowWarning opts fde row = warningFor opts fde row := by
  unfold rowWarning warningFor
  by_cases hw : opts.warnings = true
  · rw [if_pos ⟨hw, hz⟩, if_pos hw]
  · rw [if_neg (fun h => hw h.1), if_neg hw]

theorem rowWarning_dead {opts : Options} {fde : DwFde} {row : DwRow} (hz : row.start = row.end_) :
    rowWarning opts fde row = [] := if_neg fun h => h.2 hz

/-- One row near the start of the function. -/
theorem convertRowsT_step (dbg : Bool) (g : GimliText) (opts : Options) (fde : DwFde) (row : DwRow)
    (rows : List (Except GErr DwRow)) (sfde : FuncDescBuilder)
    (hz : row.start ≠ row.end_) (hn : Near fde row)
    (hs : rowStart dbg fde row = .ok (.ok (BitVec.ofNat 32 (row.start.toNat - fde.initial.toNat))))
    (hsize : sfde.size = fde.len.setWidth 32) :
    ((∃ e, sfde.row (rowOf opts.arch fde row) = .error e) ∧
      ∃ p, convertRowsT dbg g opts fde (.ok row :: rows) sfde =
        (linesIf g opts row ++ (if fde.len = 0#64 then [] else rowWarning opts fde row).map .err, .panic p)) ∨
    (∃ sfde', sfde.row (rowOf opts.arch fde row) = .ok sfde' ∧
      convertRowsT dbg g opts fde (.ok row :: rows) sfde
        = Traced.after (rowEvents g opts fde row) (convertRowsT dbg g opts fde rows sfde')) := by
  have he : ∀ t : Traced (Except ConvError FuncDescBuilder), Traced.after (rowEvents g opts fde row) t =
      Traced.after (linesIf g opts row) (Traced.after ((warningFor opts fde row).map .err) t) := by
    intro t
    rw [Traced.after_after, rowEvents, rowWarning_live hz]
  rw [convertRowsT_cons, if_neg hz, hs, Traced.lift_ok]
  simp only [he, rowWarning_live hz]
  show (_ ∧ ∃ p, Traced.after (linesIf g opts row) _ = _) ∨ ∃ s, _ ∧ Traced.after (linesIf g opts row) _ = _
  rcases convertRow_spec dbg opts fde row hs with ⟨_, hc, h⟩ | ⟨msg, ht, hc, h⟩
  · rw [h]
    simp only [Traced.lift_ok]
    have hw : warningFor opts fde row = [] := by simp [warningFor, hc]
    rw [hw]
    cases hr : sfde.row (rowOf opts.arch fde row) with
    | error e => exact .inl ⟨⟨e, rfl⟩, .explicit, by simp [Traced.after, Traced.lift]⟩
    | ok sfde' => exact .inr ⟨sfde', rfl, rfl⟩
  · rw [h, warnErr_near dbg opts fde row msg hn]
    have key : ∀ w : Option Warning, w.toList = warningFor opts fde row →
        (opts.warnings = true → fde.len ≠ 0#64) →
        ((∃ e, sfde.row (rowOf opts.arch fde row) = .error e) ∧ ∃ p,
          Traced.after (linesIf g opts row) (Traced.after (w.toList.map .err)
            (match sfde.row (FrameRowBuilder.invalid (BitVec.ofNat 32 (row.start.toNat - fde.initial.toNat))) with
            | .error _ => Traced.lift (.panic .explicit)
            | .ok sfde => convertRowsT dbg g opts fde rows sfde)) =
            (linesIf g opts row ++ (if fde.len = 0#64 then [] else warningFor opts fde row).map .err, .panic p)) ∨
        (∃ sfde', sfde.row (rowOf opts.arch fde row) = .ok sfde' ∧
          Traced.after (linesIf g opts row) (Traced.after (w.toList.map .err)
            (match sfde.row (FrameRowBuilder.invalid (BitVec.ofNat 32 (row.start.toNat - fde.initial.toNat))) with
            | .error _ => Traced.lift (.panic .explicit)
            | .ok sfde => convertRowsT dbg g opts fde rows sfde)) =
          Traced.after (linesIf g opts row) (Traced.after ((warningFor opts fde row).map .err)
            (convertRowsT dbg g opts fde rows sfde'))) := by
      intro w hw hl
      rw [rowOf_none ht, hw]
      cases hr : sfde.row
          (FrameRowBuilder.invalid (BitVec.ofNat 32 (row.start.toNat - fde.initial.toNat))) with
      | error e =>
        refine .inl ⟨⟨e, rfl⟩, .explicit, ?_⟩
        by_cases h0 : fde.len = 0#64
        · have hwn : opts.warnings = false := by
            cases hh : opts.warnings
            · rfl
            · exact absurd h0 (hl hh)
          have hw0 : warningFor opts fde row = [] := by simp [warningFor, hwn]
          rw [hw0]
          simp [Traced.after, Traced.lift]
        · rw [if_neg h0]
          simp [Traced.after, Traced.lift]
      | ok sfde' => exact .inr ⟨sfde', rfl, rfl⟩
    by_cases hw : (!opts.warnings) = true
    · rw [if_pos hw, Traced.lift_ok]
      have hw' : opts.warnings = false := by simpa using hw
      exact key none (by simp [warningFor, hw']) (by simp [hw'])
    · rw [if_neg hw]
      have hw' : opts.warnings = true := by simpa using hw
      by_cases hl : fde.len = 0#64
      · left
        rw [if_pos hl, if_pos hl]
        refine ⟨?_, .ilog2, by simp [Traced.lift_panic, Traced.after]⟩
        cases hr : sfde.row (rowOf opts.arch fde row) with
        | error e => exact ⟨e, rfl⟩
        | ok sfde' =>
          have := row_start_lt hr
          rw [hsize, hl] at this
          simp at this
      · have hkey := key (some ⟨fde.initial, row.start - fde.initial, (fde.len.toNat.log2 + 3) / 4 + 2, msg⟩)
          (by simp [warningFor, hw', hc]) (fun _ => hl)
        rw [if_neg hl, Traced.lift_ok]
        exact hkey

/-- One item of the table, after the rows `pre`. -/
theorem convertRowsT_item {dbg : Bool} {g : GimliText} {so : SFrameOptions} {opts : Options} {fde : DwFde}
    {pre : List DwRow} (x : Except GErr DwRow) (rest : List (Except GErr DwRow))
    (hfp : so.fixedFp = none) (hi : fde.initial.toNat ≤ i32Max) (hlen : fde.len.toNat ≤ i32Max)
    (hg : Good so opts.arch fde pre) :
    (∃ r, x = .ok r ∧ Good so opts.arch fde (pre ++ [r]) ∧
      convertRowsT dbg g opts fde (x :: rest) (built so opts.arch fde pre)
        = Traced.after (rowEvents g opts fde r) (convertRowsT dbg g opts fde rest (built so opts.arch fde (pre ++ [r])))) ∨
    (∃ e, x = .error e ∧ (convertRowsT dbg g opts fde (x :: rest) (built so opts.arch fde pre)).1 = []) ∨
    (∃ r, x = .ok r ∧ r.start ≠ r.end_ ∧ ¬ Near fde r ∧
      (convertRowsT dbg g opts fde (x :: rest) (built so opts.arch fde pre)).1 = linesIf g opts r) ∨
    (∃ r, x = .ok r ∧ r.start ≠ r.end_ ∧ Near fde r ∧ ¬ Clean so opts.arch fde (pre ++ [r]) ∧
      (convertRowsT dbg g opts fde (x :: rest) (built so opts.arch fde pre)).1 =
        linesIf g opts r ++ (if fde.len = 0#64 then [] else rowWarning opts fde r).map .err) := by
  cases x with
  | error e => exact .inr (.inl ⟨e, rfl, rfl⟩)
  | ok r =>
    by_cases hz : r.start = r.end_
    · refine .inl ⟨r, rfl, hg.dead hz, ?_⟩
      rw [convertRowsT_cons, if_pos hz, built_dead hz, rowEvents, rowWarning_dead hz]
      simp [linesIf]
    · rcases rowStart_cases dbg fde r hi with ⟨h, hd, hn⟩ | ⟨h, hn, hb⟩ | ⟨h, hn⟩
      · refine .inr (.inr (.inl ⟨r, rfl, hz, hn, ?_⟩))
        rw [convertRowsT_cons, if_neg hz, h]
        simp [Traced.lift_panic, Traced.after, linesIf]
      · refine .inr (.inr (.inl ⟨r, rfl, hz, hn, ?_⟩))
        rw [convertRowsT_cons, if_neg hz, h]
        simp [Traced.lift_ok, Traced.after, linesIf, Traced.pure]
      · rcases built_row hg hfp hlen hz hn with ⟨hg', hr⟩ | ⟨hc, hr⟩
        · rcases convertRowsT_step dbg g opts fde r rest (built so opts.arch fde pre) hz hn h rfl
            with ⟨⟨e, he⟩, _⟩ | ⟨sfde', he, hs⟩
          · rw [hr] at he; cases he
          · rw [hr] at he
            cases he
            exact .inl ⟨r, rfl, hg', hs⟩
        · rcases convertRowsT_step dbg g opts fde r rest (built so opts.arch fde pre) hz hn h rfl
            with ⟨_, p, hp⟩ | ⟨sfde', he, hs⟩
          · exact .inr (.inr (.inr ⟨r, rfl, hz, hn, hc, by rw [hp]⟩))
          · obtain ⟨e, hr⟩ := hr
            rw [hr] at he; cases he

/-- The rows that are added. -/
theorem convertRowsT_prefix {dbg : Bool} {g : GimliText} {so : SFrameOptions} {opts : Options} {fde : DwFde}
    {pre rs : List DwRow} (rest : List (Except GErr DwRow))
    (hfp : so.fixedFp = none) (hi : fde.initial.toNat ≤ i32Max) (hlen : fde.len.toNat ≤ i32Max)
    (hg : Good so opts.arch fde pre) (hc : Clean so opts.arch fde (pre ++ rs)) :
    convertRowsT dbg g opts fde (rs.map .ok ++ rest) (built so opts.arch fde pre)
      = Traced.after (rs.flatMap (rowEvents g opts fde))
        (convertRowsT dbg g opts fde rest (built so opts.arch fde (pre ++ rs))) := by
  induction rs generalizing pre with
  | nil => simp [Traced.after_nil]
  | cons r rs ih =>
    have hc' : Clean so opts.arch fde (pre ++ [r]) := clean_prefix (rs' := rs) (by simpa using hc)
    have hfine := clean_fine hc'
    rcases convertRowsT_item (dbg := dbg) (g := g) (.ok r) (rs.map .ok ++ rest) hfp hi hlen hg with
      ⟨r', hr, hg', he⟩ | ⟨e, he, _⟩ | ⟨r', hr, hz, hn, _⟩ | ⟨r', hr, hz, hn, hcc, _⟩
    · cases hr
      have h2 := ih (pre := pre ++ [r]) hg' (by simpa using hc)
      simp only [List.map_cons, List.cons_append]
      rw [he, h2, Traced.after_after]
      simp
    · cases he
    · cases hr
      have h1 := hfine.1
      unfold itemError at h1
      simp only at h1
      rw [if_pos ⟨hz, hn⟩] at h1
      cases h1
    · cases hr
      exact absurd hc' hcc

/-- Where the rows stop. -/
theorem convertRowsT_stop {dbg : Bool} {g : GimliText} {so : SFrameOptions} {opts : Options} {fde : DwFde}
    {rs : List DwRow} {x : Except GErr DwRow} {rest : List (Except GErr DwRow)}
    (hfp : so.fixedFp = none) (hi : fde.initial.toNat ≤ i32Max) (hlen : fde.len.toNat ≤ i32Max)
    (hc : Clean so opts.arch fde rs)
    (hx : ∀ r, x = .ok r → ¬ Clean so opts.arch fde (rs ++ [r])) :
    (∃ e, x = .error e ∧ (convertRowsT dbg g opts fde (rs.map .ok ++ x :: rest) (built so opts.arch fde [])).1 =
      rs.flatMap (rowEvents g opts fde)) ∨
    (∃ r, x = .ok r ∧ r.start ≠ r.end_ ∧ ¬ Near fde r ∧
      (convertRowsT dbg g opts fde (rs.map .ok ++ x :: rest) (built so opts.arch fde [])).1 =
        rs.flatMap (rowEvents g opts fde) ++ linesIf g opts r) ∨
    (∃ r, x = .ok r ∧ r.start ≠ r.end_ ∧ Near fde r ∧ ¬ Clean so opts.arch fde (rs ++ [r]) ∧
      (convertRowsT dbg g opts fde (rs.map .ok ++ x :: rest) (built so opts.arch fde [])).1 =
        rs.flatMap (rowEvents g opts fde) ++
          (linesIf g opts r ++ (if fde.len = 0#64 then [] else rowWarning opts fde r).map .err)) := by
  have hg : Good so opts.arch fde rs := (good_iff hfp hi hlen).2 hc
  rw [convertRowsT_prefix (pre := []) (x :: rest) hfp hi hlen (good_nil ..) hc, List.nil_append]
  unfold Traced.after
  rcases convertRowsT_item (dbg := dbg) (g := g) x rest hfp hi hlen hg with
    ⟨r', hr, hg', he⟩ | ⟨e, he, h⟩ | ⟨r', hr, hz, hn, h⟩ | ⟨r', hr, hz, hn, hcc, h⟩
  · exact absurd hg'.clean (hx r' hr)
  · exact .inl ⟨e, he, by rw [h, List.append_nil]⟩
  · exact .inr (.inl ⟨r', hr, hz, hn, by rw [h]⟩)
  · exact .inr (.inr ⟨r', hr, hz, hn, hcc, by rw [h]⟩)

/-! ### What is printed for a function -/

theorem Traced.bind_success {α β : Type} {x : Traced α} {f : α → Traced β} {r : β} (h : (x.bind f).2 = .ok r) :
    ∃ a, x.2 = .ok a ∧ (f a).2 = .ok r ∧ (x.bind f).1 = x.1 ++ (f a).1 := by
  obtain ⟨ls, a | p | _⟩ := x
  · exact ⟨a, rfl, h, rfl⟩
  · cases h
  · cases h

theorem withLog_success {α : Type} {x : Traced (Except ConvError α)} {log : List Warning} {a : α} {l : List Warning}
    (h : withLog x log = .ok (.ok (a, l))) : x.2 = .ok (.ok a) ∧ l = log ++ stderrOf x.1 := by
  obtain ⟨ls, (e | b) | p | _⟩ := x
  · cases h
  · cases h
    exact ⟨rfl, rfl⟩
  · cases h
  · cases h

theorem rowLines_eq (g : GimliText) (arch : Architecture) : rowLines g arch = reportRow g arch := by
  funext row
  unfold rowLines reportRow cfaLine
  cases row.cfa <;> rfl

theorem stdoutOf_row (g : GimliText) (opts : Options) (fde : DwFde) (rs : List DwRow) :
    stdoutOf (rs.flatMap (rowEvents g opts fde)) =
      if opts.debugdump then rs.flatMap (reportRow g opts.arch) else [] := by
  induction rs with
  | nil => simp [stdoutOf]
  | cons r rs ih =>
    rw [List.flatMap_cons, stdoutOf_append, ih, rowEvents, stdoutOf_append, stdoutOf_err, linesIf, stdoutOf_out,
      rowLines_eq]
    split <;> simp

theorem stderrOf_row (g : GimliText) (opts : Options) (fde : DwFde) (rs : List DwRow) :
    stderrOf (rs.flatMap (rowEvents g opts fde)) = rs.flatMap (rowWarning opts fde) := by
  induction rs with
  | nil => simp [stderrOf]
  | cons r rs ih =>
    rw [List.flatMap_cons, stderrOf_append, ih, rowEvents, stderrOf_append, stderrOf_err, linesIf, stderrOf_out]
    simp

theorem stdoutOf_lines (g : GimliText) (opts : Options) (r : DwRow) :
    stdoutOf (linesIf g opts r) = if opts.debugdump then reportRow g opts.arch r else [] := by
  rw [linesIf, stdoutOf_out, rowLines_eq]

theorem stderrOf_lines (g : GimliText) (opts : Options) (r : DwRow) : stderrOf (linesIf g opts r) = [] :=
  stderrOf_out _

/-- The dump before the rows goes through. -/
theorem convertFdeT_head {dbg : Bool} {g : GimliText} {opts : Options} {b : SFrameBuilder} {fde : DwFde}
    (ho : ¬ (dbg = true ∧ DumpOverflows opts fde)) (hd : DumpOk opts fde) :
    convertFdeT dbg g opts b fde =
      Traced.after ((if opts.debugdump then reportHead g opts.arch fde else []).map .out) (fdeRestT dbg g opts b fde) := by
  rw [convertFdeT_eq]
  by_cases hdd : opts.debugdump = true
  · rw [if_pos hdd, if_pos hdd]
    rcases addU64_cases dbg fde.initial fde.len with ⟨_, h1, h⟩ | ⟨h, _⟩
    · exact absurd ⟨h1, hdd, h⟩ ho
    · rw [h, dump_eq, hd hdd]
      rfl
  · rw [if_neg hdd, if_neg hdd]
    rfl

/-- A function is converted and described, or the output ends with it. -/
theorem convertFdeT_cases (dbg : Bool) (g : GimliText) (opts : Options) (b : SFrameBuilder) (fde : DwFde)
    (hfp : b.options.fixedFp = none) :
    (Convertible b.options opts fde ∧ ∃ b', b'.options = b.options ∧
      (convertFdeT dbg g opts b fde).2 = .ok (.ok b') ∧
      stdoutOf (convertFdeT dbg g opts b fde).1 = (if opts.debugdump then reportFde g opts.arch fde else []) ∧
      stderrOf (convertFdeT dbg g opts b fde).1 = (rowsOf fde).flatMap (rowWarning opts fde)) ∨
    ((∀ b', (convertFdeT dbg g opts b fde).2 ≠ .ok (.ok b')) ∧ ∃ out err,
      Trail dbg g b.options opts (.ok fde) out err ∧
      stdoutOf (convertFdeT dbg g opts b fde).1 = (if opts.debugdump then out else []) ∧
      stderrOf (convertFdeT dbg g opts b fde).1 = err) := by
  have hres := convertFdeT_result dbg g opts { sframe := b, cies := [], log := [] } fde
  dsimp only at hres
  have hno : (∀ st, convertFde dbg opts { sframe := b, cies := [], log := [] } fde ≠ .ok (.ok st)) →
      ∀ b', (convertFdeT dbg g opts b fde).2 ≠ .ok (.ok b') := by
    intro h b' hb
    rw [hres] at h
    generalize convertFdeT dbg g opts b fde = t at hb h
    obtain ⟨ls, t⟩ := t
    simp only at hb
    subst hb
    exact h _ rfl
  have hstop : ∀ {rs : List DwRow} {x : Except GErr DwRow} {rest : List (Except GErr DwRow)},
      DumpOk opts fde → fde.initial.toNat ≤ 2147483647 → fde.len.toNat ≤ 2147483647 →
      fde.rows = .ok (rs.map .ok ++ x :: rest) → Clean b.options opts.arch fde rs →
      (∀ r, x = .ok r → ¬ Clean b.options opts.arch fde (rs ++ [r])) →
      (∀ st, convertFde dbg opts { sframe := b, cies := [], log := [] } fde ≠ .ok (.ok st)) →
      ∃ out err, Trail dbg g b.options opts (.ok fde) out err ∧
        stdoutOf (convertFdeT dbg g opts b fde).1 = (if opts.debugdump then out else []) ∧
        stderrOf (convertFdeT dbg g opts b fde).1 = err := by
    intro rs x rest hd hi hl hr hc hx hn
    rw [convertFdeT_head (fun h => by have := h.2.2; omega) hd]
    have hT : (fdeRestT dbg g opts b fde).1 =
        (convertRowsT dbg g opts fde (rs.map .ok ++ x :: rest) (built b.options opts.arch fde [])).1 := by
      unfold fdeRestT
      rw [if_neg (show ¬ fde.initial.toNat > i32Max by unfold i32Max; omega),
        if_neg (show ¬ fde.len.toNat > i32Max by unfold i32Max; omega), hr]
      simp only
      rw [FuncDescBuilder.new_eq_built b.options opts.arch fde]
      have hrr := convertRowsT_result dbg g opts fde (rs.map .ok ++ x :: rest) (built b.options opts.arch fde []) []
      have hn' : ∀ s l, convertRows dbg opts fde (rs.map .ok ++ x :: rest) (built b.options opts.arch fde []) [] ≠
          .ok (.ok (s, l)) := by
        intro s l h
        have hg : Good b.options opts.arch fde rs := (good_iff hfp hi hl).2 hc
        rw [(convertRows_prefix (pre := []) (x :: rest) [] hfp hi hl (good_nil ..) hc).2, List.nil_append] at h
        rcases convertRows_item (dbg := dbg) x rest ([] ++ warningsFor opts fde rs) hfp hi hl hg with
          ⟨r, hr, hg', _⟩ | ⟨e, _, _, he⟩ | ⟨_, p, hp⟩
        · exact hx r hr hg'.clean
        · rw [he] at h; cases h
        · rw [hp] at h; cases h
      rw [← hrr] at hn'
      generalize convertRowsT dbg g opts fde (rs.map .ok ++ x :: rest) (built b.options opts.arch fde []) = t at hn'
      obtain ⟨ls, (e | s) | p | _⟩ := t
      · exact List.append_nil ls
      · exact absurd rfl (hn' _ _)
      · rfl
      · rfl
    show ∃ out err, _ ∧ stdoutOf (_ ++ (fdeRestT dbg g opts b fde).1) = _ ∧
      stderrOf (_ ++ (fdeRestT dbg g opts b fde).1) = _
    rw [hT]
    rcases convertRowsT_stop (dbg := dbg) (g := g) (rest := rest) hfp hi hl hc hx with
      ⟨e, rfl, h⟩ | ⟨r, rfl, hz, hnear, h⟩ | ⟨r, rfl, hz, hnear, hcc, h⟩
    · refine ⟨_, _, .undecodable fde rs e rest hd hi hl hr hc, ?_, ?_⟩
      · rw [h, stdoutOf_append, stdoutOf_out, stdoutOf_row]
        split <;> simp
      · rw [h, stderrOf_append, stderrOf_out, stderrOf_row, List.nil_append]
    · refine ⟨_, _, .far fde rs r rest hd hi hl hr hc hz hnear, ?_, ?_⟩
      · rw [h, stdoutOf_append, stdoutOf_out, stdoutOf_append, stdoutOf_row, stdoutOf_lines]
        split <;> simp
      · rw [h, stderrOf_append, stderrOf_out, stderrOf_append, stderrOf_row, stderrOf_lines, List.nil_append,
          List.append_nil]
    · refine ⟨_, _, .misplaced fde rs r rest hd hi hl hr hc hz hnear hcc, ?_, ?_⟩
      · rw [h, stdoutOf_append, stdoutOf_out, stdoutOf_append, stdoutOf_row, stdoutOf_append, stdoutOf_lines,
          stdoutOf_err]
        split <;> simp
      · rw [h, stderrOf_append, stderrOf_out, stderrOf_append, stderrOf_row, stderrOf_append, stderrOf_lines,
          stderrOf_err, List.nil_append, List.nil_append]
  rcases fde_cases dbg b.options opts fde hfp with hc | ⟨e, hf⟩ | hp
  · left
    refine ⟨hc, ?_⟩
    rw [convertFde_ok (st := { sframe := b, cies := [], log := [] }) hfp hc] at hres
    have ⟨b', hb'⟩ : ∃ b', (convertFdeT dbg g opts b fde).2 = .ok (.ok b') ∧ b'.options = b.options := by
      generalize convertFdeT dbg g opts b fde = t at hres
      obtain ⟨ls, (e | s) | p | _⟩ := t
      · cases hres
      · refine ⟨s, rfl, ?_⟩
        have h1 := congrArg (fun r : Rust (Except ConvError ConvState) => match r with
          | .ok (.ok st) => st.sframe.options
          | _ => b.options) hres
        exact h1.symm
      · cases hres
      · cases hres
    refine ⟨b', hb'.2, hb'.1, ?_⟩
    have ho : ¬ (dbg = true ∧ DumpOverflows opts fde) := fun h => by
      have h1 := h.2.2; have h2 := hc.start; have h3 := hc.len; omega
    have hrest : (fdeRestT dbg g opts b fde).2 = .ok (.ok b') := by
      have := hb'.1
      rw [convertFdeT_head ho hc.dump] at this
      exact this
    rw [convertFdeT_head ho hc.dump]
    have hT : (fdeRestT dbg g opts b fde).1 = (rowsOf fde).flatMap (rowEvents g opts fde) ++
        (if opts.debugdump then [""] else []).map .out := by
      unfold fdeRestT at hrest ⊢
      have h1 : ¬ fde.initial.toNat > i32Max := by have := hc.start; unfold i32Max; omega
      have h2 : ¬ fde.len.toNat > i32Max := by have := hc.len; unfold i32Max; omega
      rw [if_neg h1, if_neg h2, hc.rows] at hrest ⊢
      dsimp only at hrest ⊢
      rw [FuncDescBuilder.new_eq_built b.options opts.arch fde] at hrest ⊢
      have hrows := convertRowsT_prefix (dbg := dbg) (g := g) (pre := []) (rs := rowsOf fde) [] hfp hc.start hc.len
        (good_nil b.options opts.arch fde) hc.clean
      rw [List.append_nil] at hrows
      rw [hrows] at hrest ⊢
      rw [Traced.after_bind] at hrest ⊢
      have hrest' : ((convertRowsT dbg g opts fde [] (built b.options opts.arch fde ([] ++ rowsOf fde))).bind fun
          | .error e => Traced.pure (.error e)
          | .ok sfde =>
            (Traced.lift (if opts.mergeFres then sfde.mergeAdjacentFres else .ok sfde)).bind fun sfde =>
            (Traced.lift (b.fde sfde)).bind fun sframe =>
            (Traced.say (if opts.debugdump then [""] else [])).bind fun _ =>
            Traced.pure (Except.ok sframe)).2 = .ok (.ok b') := hrest
      show _ ++ Prod.fst (Traced.bind _ _) = _
      congr 1
      obtain ⟨a, h3, h4, h5⟩ := Traced.bind_success hrest'
      rw [h5]
      cases (show Except.ok (built b.options opts.arch fde ([] ++ rowsOf fde)) = a from by
        simpa [convertRowsT, Traced.pure] using h3)
      dsimp only at h4 ⊢
      obtain ⟨a2, h6, h7, h8⟩ := Traced.bind_success h4
      rw [h8]
      obtain ⟨a3, h9, h10, h11⟩ := Traced.bind_success h7
      rw [h11]
      obtain ⟨a4, h12, h13, h14⟩ := Traced.bind_success h10
      rw [h14]
      simp [convertRowsT, Traced.pure, Traced.lift, Traced.say]
    show stdoutOf (_ ++ (fdeRestT dbg g opts b fde).1) = _ ∧ stderrOf (_ ++ (fdeRestT dbg g opts b fde).1) = _
    rw [hT]
    constructor
    · rw [stdoutOf_append, stdoutOf_append, stdoutOf_out, stdoutOf_out, stdoutOf_row]
      unfold reportFde
      split <;> simp
    · rw [stderrOf_append, stderrOf_append, stderrOf_out, stderrOf_out, stderrOf_row]
      simp
  · right
    have hn : ∀ st, convertFde dbg opts { sframe := b, cies := [], log := [] } fde ≠ .ok (.ok st) := by
      intro st h
      rw [convertFde_error (st := { sframe := b, cies := [], log := [] }) hfp hf] at h
      cases h
    refine ⟨hno hn, ?_⟩
    cases hf with
    | dump ge hdd ho he =>
      refine ⟨_, _, .dump fde ho (fun h => by rw [h hdd] at he; cases he), ?_⟩
      rw [convertFdeT_eq, if_pos hdd]
      rcases addU64_cases dbg fde.initial fde.len with ⟨_, h1, h⟩ | ⟨h, _⟩
      · exact absurd ⟨h1, hdd, h⟩ ho
      · rw [h, dump_eq, he]
        dsimp only
        rw [stdoutOf_out, stderrOf_out, if_pos hdd]
        exact ⟨rfl, rfl⟩
    | start ho hd hi =>
      refine ⟨_, _, .refused fde ho hd (.inl hi), ?_⟩
      rw [convertFdeT_head ho hd]
      unfold fdeRestT
      rw [if_pos (show fde.initial.toNat > i32Max from hi)]
      show stdoutOf (_ ++ []) = _ ∧ stderrOf (_ ++ []) = _
      rw [List.append_nil, stdoutOf_out, stderrOf_out]
      exact ⟨rfl, rfl⟩
    | len ho hd hi hl =>
      refine ⟨_, _, .refused fde ho hd (.inr (.inl hl)), ?_⟩
      rw [convertFdeT_head ho hd]
      unfold fdeRestT
      rw [if_neg (show ¬ fde.initial.toNat > i32Max by unfold i32Max; omega),
        if_pos (show fde.len.toNat > i32Max from hl)]
      show stdoutOf (_ ++ []) = _ ∧ stderrOf (_ ++ []) = _
      rw [List.append_nil, stdoutOf_out, stderrOf_out]
      exact ⟨rfl, rfl⟩
    | table ge hd hi hl hr =>
      have ho : ¬ (dbg = true ∧ DumpOverflows opts fde) := fun h => by have := h.2.2; omega
      refine ⟨_, _, .refused fde ho hd (.inr (.inr ⟨ge, hr⟩)), ?_⟩
      rw [convertFdeT_head ho hd]
      unfold fdeRestT
      rw [if_neg (show ¬ fde.initial.toNat > i32Max by unfold i32Max; omega),
        if_neg (show ¬ fde.len.toNat > i32Max by unfold i32Max; omega), hr]
      show stdoutOf (_ ++ []) = _ ∧ stderrOf (_ ++ []) = _
      rw [List.append_nil, stdoutOf_out, stderrOf_out]
      exact ⟨rfl, rfl⟩
    | row rs x rest _ hd hi hl hr hc he hb =>
      refine hstop hd hi hl hr hc (fun r hx hcl => ?_) hn
      subst hx
      rw [(clean_fine hcl).1] at he
      cases he
  · right
    obtain ⟨p, hpp⟩ := convertFde_panics (st := { sframe := b, cies := [], log := [] }) hfp hp
    have hn : ∀ st, convertFde dbg opts { sframe := b, cies := [], log := [] } fde ≠ .ok (.ok st) := by
      intro st h
      rw [hpp] at h
      cases h
    refine ⟨hno hn, ?_⟩
    cases hp with
    | dump hb ho =>
      refine ⟨_, _, .overflow fde hb ho, ?_⟩
      rw [convertFdeT_eq, if_pos ho.1]
      rcases addU64_cases dbg fde.initial fde.len with ⟨h, _⟩ | ⟨_, h⟩
      · rw [h]
        dsimp only
        rw [stdoutOf_out, stderrOf_out, if_pos ho.1]
        exact ⟨rfl, rfl⟩
      · exact absurd ⟨hb, ho.2⟩ h
    | row rs x rest hd hi hl hr hc hx =>
      refine hstop hd hi hl hr hc (fun r hxr hcl => ?_) hn
      subst hxr
      have := clean_fine hcl
      rcases hx with hx | hx
      · exact this.2.1 hx.2
      · exact this.2.2 hx

/-! ### What is printed for a section -/

theorem convertInputsT_cases (dbg : Bool) (g : GimliText) (opts : Options) (xs : List (Except ConvError DwFde))
    (b : SFrameBuilder) (hfp : b.options.fixedFp = none) :
    (∃ fdes : List DwFde, xs = fdes.map .ok ∧ (∀ fde ∈ fdes, Convertible b.options opts fde) ∧
      (∃ b', (convertInputsT dbg g opts xs b).2 = .ok (.ok b')) ∧
      stdoutOf (convertInputsT dbg g opts xs b).1 = (if opts.debugdump then report g opts.arch fdes else []) ∧
      stderrOf (convertInputsT dbg g opts xs b).1 = warningsOf opts fdes) ∨
    (∃ (fdes : List DwFde) (x : Except ConvError DwFde) (rest : List (Except ConvError DwFde)) (out : List String)
      (err : List Warning), xs = fdes.map .ok ++ x :: rest ∧ (∀ fde ∈ fdes, Convertible b.options opts fde) ∧
      (∀ b', (convertInputsT dbg g opts xs b).2 ≠ .ok (.ok b')) ∧ Trail dbg g b.options opts x out err ∧
      stdoutOf (convertInputsT dbg g opts xs b).1 =
        (if opts.debugdump then report g opts.arch fdes ++ out else []) ∧
      stderrOf (convertInputsT dbg g opts xs b).1 = warningsOf opts fdes ++ err) := by
  induction xs generalizing b with
  | nil =>
    refine .inl ⟨[], rfl, by simp, ⟨b, rfl⟩, ?_, rfl⟩
    split <;> rfl
  | cons x xs ih =>
    cases x with
    | error e =>
      refine .inr ⟨[], .error e, xs, [], [], rfl, by simp, (fun b' h => by cases h), .unread e, ?_, rfl⟩
      split <;> rfl
    | ok fde =>
      rw [convertInputsT]
      rcases convertFdeT_cases dbg g opts b fde hfp with ⟨hc, b', hb, h2, h3, h4⟩ | ⟨hn, out, err, ht, h3, h4⟩
      · have hT : ((convertFdeT dbg g opts b fde).bind fun
            | .error e => Traced.pure (Except.error e)
            | .ok b => convertInputsT dbg g opts xs b) =
            Traced.after (convertFdeT dbg g opts b fde).1 (convertInputsT dbg g opts xs b') := by
          unfold Traced.bind
          rw [h2]
          rfl
        rw [hT]
        rcases ih b' (by rw [hb]; exact hfp) with
          ⟨fdes, hx, hcs, ⟨b'', hb''⟩, h5, h6⟩ | ⟨fdes, x, rest, out, err, hx, hcs, hn, ht, h5, h6⟩
        · refine .inl ⟨fde :: fdes, by rw [hx]; rfl, ?_, ⟨b'', hb''⟩, ?_, ?_⟩
          · intro f hf
            rcases List.mem_cons.1 hf with rfl | hf
            · exact hc
            · have := hcs f hf
              rwa [hb] at this
          · show stdoutOf (_ ++ _) = _
            rw [stdoutOf_append, h3, h5]
            split <;> simp [report]
          · show stderrOf (_ ++ _) = _
            rw [stderrOf_append, h4, h6]
            simp [warningsOf]
        · refine .inr ⟨fde :: fdes, x, rest, out, err, by rw [hx]; rfl, ?_, hn, by rwa [hb] at ht, ?_, ?_⟩
          · intro f hf
            rcases List.mem_cons.1 hf with rfl | hf
            · exact hc
            · have := hcs f hf
              rwa [hb] at this
          · show stdoutOf (_ ++ _) = _
            rw [stdoutOf_append, h3, h5]
            split <;> simp [report]
          · show stderrOf (_ ++ _) = _
            rw [stderrOf_append, h4, h6]
            simp [warningsOf]
      · have hT : ((convertFdeT dbg g opts b fde).bind fun
            | .error e => Traced.pure (Except.error e)
            | .ok b => convertInputsT dbg g opts xs b).1 = (convertFdeT dbg g opts b fde).1 ∧
            ∀ b', ((convertFdeT dbg g opts b fde).bind fun
            | .error e => Traced.pure (Except.error e)
            | .ok b => convertInputsT dbg g opts xs b).2 ≠ .ok (.ok b') := by
          generalize convertFdeT dbg g opts b fde = t at hn
          obtain ⟨ls, (e | s) | p | _⟩ := t
          · exact ⟨List.append_nil ls, fun b' h => by cases h⟩
          · exact absurd rfl (hn s)
          · exact ⟨rfl, fun b' h => by cases h⟩
          · exact ⟨rfl, fun b' h => by cases h⟩
        refine .inr ⟨[], .ok fde, xs, out, err, rfl, by simp, hT.2, ht, ?_, ?_⟩
        · rw [hT.1, h3]; rfl
        · rw [hT.1, h4]; rfl

end Verif
