import Verif.Proofs.Printing2
import Verif.Props.Stream2
/-!
# C107, print by print

`runMain2On` and `runMain1On` of `Model/Stream.lean` say what a failing print does to a run.  Here this is derived from a model in which
every print is tried when it is due.
-/

namespace Verif

namespace Spec

/-- A line that `dwarf2sframe2` prints around the instructions of a function. -/
def frameLine (l : String) : Prop :=
  l = "FDE:" ∨ l = "" ∨ l = "Rows:" ∨
  ∃ head, head ∈ [" start_address: ", "    range_size: ", "  - offset: ", "    cfa:    ", "    reg:    "] ∧ ∃ rest, l = head ++ rest

/-- What `dwarf2sframe2` prints, with whether it is in a listing of instructions: a line about a function or a row, a line
about the instructions of a function of the section, or a warning. -/
def printed2 (g : GimliText) (arch : Architecture) (fdes : DwFde → Prop) : Event × Bool → Prop
  | (.out l, false) => frameLine l
  | (.out l, true) => ∃ fde, fdes fde ∧ l ∈ (listInstructions false (g.register arch) g.error fde.instructions).1
  | (.err _, inList) => inList = false

/-- The same for the legacy converter: also the addresses of sections, and the rows of the result. -/
def printed1 (t : LegacyText) (fdes : DwFde → Prop) : Event1 × Bool → Prop
  | (.out l, false) => frameLine l ∨
    ∃ head, head ∈ [".eh_frame_hdr: ", ".eh_frame:     ", ".text:         ", ".got:          ", "    sframe: "] ∧
      ∃ rest, l = head ++ rest
  | (.out l, true) => ∃ fde, fdes fde ∧ l ∈ "  Instructions:" :: (listInstructions true t.name t.error fde.instructions).1
  | (.part l, inList) => inList = false ∧ ∃ rest, l = "    reg:    " ++ rest
  | (.fpRule _, inList) => inList = false
  | (.note _, inList) => inList = false

/-- The input of `dwarf2sframe2`: a file of a supported architecture with a section that can be read. -/
structure Opened2 (w : World) (args : Args2) (file : ObjFile) (arch : Architecture) (eh : EhFrame) : Prop where
  input : ∃ h d, w.openFile args.input = some h ∧ w.mmap h = some d ∧ w.parse d = some file
  supported : file.architecture = (match arch with | .amd64 => .x86_64 | .aarch64 => .aarch64)
  section_ : ∃ s data, file.sectionByName ".eh_frame" = some s ∧ s.data = some data ∧
    eh = w.ehFrame data file.endianness

/-- The functions that the entries of a section may give. -/
def givenBy (entries : List (Except GErr Entry)) (fde : DwFde) : Prop :=
  ∃ offset parse cie, .ok (.fde offset parse) ∈ entries ∧ parse cie = .ok fde

end Spec

open Spec

section
variable {ε α β : Type}

/-- Everything that is printed is of some kind. -/
def OnlyPrints (p : ε × Bool → Prop) (x : Printing ε α) : Prop := ∀ k n e, e ∈ (x k n).1 → p e

theorem prints_lift (p : ε × Bool → Prop) (x : Rust α) : OnlyPrints p (Printing.lift x) := by
  intro k n e he; simp [Printing.lift] at he

theorem prints_pure (p : ε × Bool → Prop) (a : α) : OnlyPrints p (Printing.pure a) := prints_lift _ _

theorem prints_say {p : ε × Bool → Prop} {l : List ε} (h : ∀ e, e ∈ l → p (e, false)) : OnlyPrints p (Printing.say l) := by
  induction l with
  | nil => exact prints_pure _ _
  | cons a l ih =>
    intro k n e he
    simp only [Printing.say] at he
    split at he
    · rcases List.mem_cons.1 he with rfl | he
      · exact h a (by simp)
      · exact ih (fun e he => h e (by simp [he])) k (n + 1) e he
    · simp at he

theorem prints_list {p : ε × Bool → Prop} {l : List ε} (h : ∀ e, e ∈ l → p (e, true)) : OnlyPrints p (Printing.list l) := by
  induction l with
  | nil => exact prints_pure _ _
  | cons a l ih =>
    intro k n e he
    simp only [Printing.list] at he
    split at he
    · rcases List.mem_cons.1 he with rfl | he
      · exact h a (by simp)
      · exact ih (fun e he => h e (by simp [he])) k (n + 1) e he
    · simp at he

theorem prints_bind {p : ε × Bool → Prop} {x : Printing ε α} {f : α → Printing ε β} (hx : OnlyPrints p x)
    (hf : ∀ a, OnlyPrints p (f a)) : OnlyPrints p (x.bind f) := by
  intro k n e he
  unfold Printing.bind at he
  rcases h : x k n with ⟨es, r⟩
  rw [h] at he
  have hx' : ∀ e, e ∈ es → p e := fun e he => hx k n e (by rw [h]; exact he)
  cases r with
  | ok a =>
    rcases List.mem_append.1 he with he | he
    · exact hx' e he
    · exact hf a _ _ e he
  | panic q => exact hx' e he
  | diverge => exact hx' e he

end

theorem printed2_lines {g : GimliText} {arch : Architecture} {fdes : DwFde → Prop} {ls : List String}
    (h : ∀ l, l ∈ ls → frameLine l) : OnlyPrints (printed2 g arch fdes) (Printing.say (ls.map Event.out)) := by
  refine prints_say fun e he => ?_
  obtain ⟨l, hl, rfl⟩ := List.mem_map.1 he
  exact h l hl

theorem frameLine_head {head rest : String}
    (h : head ∈ [" start_address: ", "    range_size: ", "  - offset: ", "    cfa:    ", "    reg:    "]) :
    frameLine (head ++ rest) := .inr (.inr (.inr ⟨head, h, rest, rfl⟩))

theorem rowLines_frame (g : GimliText) (arch : Architecture) (row : DwRow) : ∀ l, l ∈ rowLines g arch row → frameLine l := by
  intro l hl
  simp only [rowLines, List.mem_cons, List.mem_map] at hl
  rcases hl with rfl | rfl | ⟨x, -, rfl⟩
  · exact frameLine_head (by simp)
  · cases row.cfa <;> exact frameLine_head (by simp)
  · exact frameLine_head (by simp)

theorem convertRowsP_prints (dbg : Bool) (g : GimliText) (opts : Options) (fde : DwFde) (fdes : DwFde → Prop) :
    ∀ (rows : List (Except GErr DwRow)) (sfde : FuncDescBuilder),
      OnlyPrints (printed2 g opts.arch fdes) (convertRowsP dbg g opts fde rows sfde)
  | [], _ => prints_pure _ _
  | .error _ :: _, _ => prints_pure _ _
  | .ok row :: rows, sfde => by
    unfold convertRowsP
    refine prints_bind (printed2_lines fun l hl => ?_) fun _ => ?_
    · split at hl
      · exact rowLines_frame g opts.arch row l hl
      · simp at hl
    split
    · exact convertRowsP_prints dbg g opts fde fdes rows sfde
    refine prints_bind (prints_lift _ _) fun r => ?_
    cases r with
    | error e => exact prints_pure _ _
    | ok start =>
      refine prints_bind (prints_lift _ _) fun r => prints_bind ?_ fun r => ?_
      · cases r with
        | ok fre => exact prints_pure _ _
        | error e =>
          cases e with
          | fatal e => exact prints_pure _ _
          | warning w =>
            refine prints_bind (prints_say fun e he => ?_) fun _ => prints_pure _ _
            obtain ⟨l, -, rfl⟩ := List.mem_map.1 he
            exact rfl
      · cases r with
        | error e => exact prints_pure _ _
        | ok fre =>
          dsimp only
          cases sfde.row fre with
          | error _ => exact prints_lift _ _
          | ok sfde => exact convertRowsP_prints dbg g opts fde fdes rows sfde

theorem dumpFdeP_prints (dbg : Bool) (g : GimliText) (io : GErr) (arch : Architecture) (fde : DwFde) (fdes : DwFde → Prop)
    (hf : fdes fde) : OnlyPrints (printed2 g arch fdes) (dumpFdeP dbg g io arch fde) := by
  unfold dumpFdeP
  refine prints_bind (printed2_lines fun l hl => ?_) fun _ => prints_bind (prints_lift _ _) fun end_ =>
    prints_bind (printed2_lines (ls := [_]) fun l hl => ?_) fun _ => prints_bind (prints_list fun e he => ?_) fun b => ?_
  · simp only [fdeTop, List.mem_cons, List.not_mem_nil, or_false] at hl
    rcases hl with rfl | rfl
    · exact .inl rfl
    · exact frameLine_head (by simp)
  · rw [List.mem_singleton] at hl
    subst hl
    exact frameLine_head (by simp)
  · obtain ⟨l, hl, rfl⟩ := List.mem_map.1 he
    exact ⟨fde, hf, hl⟩
  · cases b with
    | false => exact prints_pure _ _
    | true =>
      dsimp only
      cases (listInstructions false (g.register arch) g.error fde.instructions).2 with
      | error e => exact prints_pure _ _
      | ok u =>
        refine prints_bind (printed2_lines (ls := ["", "Rows:"]) fun l hl => ?_) fun _ => prints_pure _ _
        simp only [List.mem_cons, List.not_mem_nil, or_false] at hl
        rcases hl with rfl | rfl
        · exact .inr (.inl rfl)
        · exact .inr (.inr (.inl rfl))

theorem convertFdeP_prints (dbg : Bool) (g : GimliText) (io : GErr) (opts : Options) (sframe : SFrameBuilder) (fde : DwFde)
    (fdes : DwFde → Prop) (hf : fdes fde) :
    OnlyPrints (printed2 g opts.arch fdes) (convertFdeP dbg g io opts sframe fde) := by
  unfold convertFdeP
  refine prints_bind ?_ fun r => ?_
  · split
    · exact dumpFdeP_prints dbg g io opts.arch fde fdes hf
    · exact prints_pure _ _
  cases r with
  | error e => exact prints_pure _ _
  | ok u =>
    dsimp only
    split
    · exact prints_pure _ _
    split
    · exact prints_pure _ _
    cases fde.rows with
    | error e => exact prints_pure _ _
    | ok rows =>
      refine prints_bind (convertRowsP_prints dbg g opts fde fdes rows _) fun r => ?_
      cases r with
      | error e => exact prints_pure _ _
      | ok sfde =>
        refine prints_bind (prints_lift _ _) fun _ => prints_bind (prints_lift _ _) fun _ =>
          prints_bind (printed2_lines fun l hl => ?_) fun _ => prints_pure _ _
        split at hl
        · rw [List.mem_singleton] at hl; exact .inr (.inl hl)
        · simp at hl

theorem convertEntriesP_prints (dbg : Bool) (g : GimliText) (io : GErr) (opts : Options) (eh : EhFrame)
    (all : List (Except GErr Entry)) :
    ∀ (entries : List (Except GErr Entry)), (∀ e, e ∈ entries → e ∈ all) → ∀ (sframe : SFrameBuilder)
      (cies : List (Nat × Except GErr Cie)),
      OnlyPrints (printed2 g opts.arch (givenBy all)) (convertEntriesP dbg g io opts eh entries sframe cies)
  | [], _, _, _ => prints_pure _ _
  | .error _ :: _, _, _, _ => prints_pure _ _
  | .ok .cie :: entries, h, sframe, cies =>
    convertEntriesP_prints dbg g io opts eh all entries (fun e he => h e (by simp [he])) sframe cies
  | .ok (.fde offset parse) :: entries, h, sframe, cies => by
    unfold convertEntriesP
    cases hp : parse (lookupCie opts eh cies offset).1 with
    | error e => exact prints_pure _ _
    | ok fde =>
      refine prints_bind (convertFdeP_prints dbg g io opts sframe fde _ ⟨offset, parse, _, h _ (by simp), hp⟩) fun r => ?_
      cases r with
      | error e => exact prints_pure _ _
      | ok sframe =>
        exact convertEntriesP_prints dbg g io opts eh all entries (fun e he => h e (by simp [he])) sframe _

theorem dwarf2sframeP_prints (dbg : Bool) (g : GimliText) (io : GErr) (eh : EhFrame) (opts : Options) :
    OnlyPrints (printed2 g opts.arch (givenBy (eh.entries opts.bases))) (dwarf2sframeP dbg g io eh opts) := by
  unfold dwarf2sframeP
  refine prints_bind (convertEntriesP_prints dbg g io opts eh _ _ (fun _ h => h) _ _) fun r => ?_
  cases r with
  | error e => exact prints_pure _ _
  | ok sframe => exact prints_bind (prints_lift _ _) fun _ => prints_pure _ _

/-! ### The legacy converter -/

theorem printed1_line {t : LegacyText} {fdes : DwFde → Prop} {l : String} (h : frameLine l) :
    OnlyPrints (printed1 t fdes) (Printing.say [Event1.out l]) := by
  refine prints_say fun e he => ?_
  rw [List.mem_singleton] at he
  subst he
  exact .inl h

theorem cfaP_prints (t : LegacyText) (fdes : DwFde → Prop) (cfa : CfaRule) : OnlyPrints (printed1 t fdes) (t.cfaP cfa) := by
  unfold LegacyText.cfaP
  cases cfa with
  | registerAndOffset r o => exact printed1_line (frameLine_head (by simp))
  | expression e =>
    dsimp only
    cases dumpExpression e with
    | ok u => exact printed1_line (frameLine_head (by simp))
    | error _ => exact prints_lift _ _

theorem registerP_prints (t : LegacyText) (fdes : DwFde → Prop) (a : ObjArch) (x : Reg × RegRule) :
    OnlyPrints (printed1 t fdes) (t.registerP a x) := by
  have part : ∀ r : Rust Unit, OnlyPrints (printed1 t fdes)
      ((Printing.say [Event1.part ("    reg:    " ++ (regText t.name x.1 ++ " = "))]).bind fun _ => Printing.lift r) := by
    intro r
    refine prints_bind (prints_say fun e he => ?_) fun _ => prints_lift _ _
    rw [List.mem_singleton] at he
    subst he
    exact ⟨rfl, _, rfl⟩
  unfold LegacyText.registerP
  cases h : formatRule x.2 with
  | ok u => exact printed1_line (frameLine_head (by simp))
  | panic p => exact part _
  | diverge => exact part _

theorem registersP_prints (t : LegacyText) (fdes : DwFde → Prop) (a : ObjArch) :
    ∀ l : List (Reg × RegRule), OnlyPrints (printed1 t fdes) (t.registersP a l)
  | [] => prints_pure _ _
  | x :: l => prints_bind (registerP_prints t fdes a x) fun _ => registersP_prints t fdes a l

theorem rowP_prints (t : LegacyText) (fdes : DwFde → Prop) (a : ObjArch) (row : DwRow) :
    OnlyPrints (printed1 t fdes) (t.rowP a row) := by
  unfold LegacyText.rowP
  exact prints_bind (printed1_line (frameLine_head (by simp))) fun _ =>
    prints_bind (cfaP_prints t fdes row.cfa) fun _ => registersP_prints t fdes a row.registers

theorem legacyFpP_prints (t : LegacyText) (fdes : DwFde → Prop) (row : DwRow) :
    OnlyPrints (printed1 t fdes) (legacyFpP row) := by
  have said : ∀ rule, OnlyPrints (printed1 t fdes) ((Printing.lift (formatRule rule)).bind fun _ =>
      (Printing.say [Event1.fpRule rule]).bind fun _ => Printing.pure (Except.ok (ε := RowNote) (none : Option I32))) := by
    intro rule
    refine prints_bind (prints_lift _ _) fun _ => prints_bind (prints_say fun e he => ?_) fun _ => prints_pure _ _
    rw [List.mem_singleton] at he
    subst he
    exact rfl
  unfold legacyFpP
  cases row.register Reg.X86_64_RBP with
  | offset offset =>
    dsimp only
    cases i32TryFromI64 offset <;> exact prints_pure _ _
  | undefined => exact prints_pure _ _
  | _ => exact said _

theorem legacyRaP_prints (t : LegacyText) (fdes : DwFde → Prop) (row : DwRow) :
    OnlyPrints (printed1 t fdes) (legacyRaP row) := by
  unfold legacyRaP
  cases row.register Reg.X86_64_RA with
  | offset offset =>
    dsimp only
    cases i32TryFromI64 offset <;> exact prints_pure _ _
  | _ => exact prints_bind (prints_lift _ _) fun _ => prints_pure _ _

theorem legacyRowP_prints (t : LegacyText) (fdes : DwFde → Prop) (start : U32) (row : DwRow) (sfde : FuncDescBuilder) :
    OnlyPrints (printed1 t fdes) (legacyRowP start row sfde) := by
  unfold legacyRowP
  refine prints_bind ?_ fun r => ?_
  · unfold legacyTryP
    cases legacyCfaT row with
    | error n => exact prints_pure _ _
    | ok x =>
      obtain ⟨base, offset⟩ := x
      dsimp only
      cases i32TryFromI64 offset with
      | none => exact prints_pure _ _
      | some cfa =>
        dsimp only
        unfold legacyRestP
        refine prints_bind (legacyFpP_prints t fdes row) fun r => ?_
        cases r with
        | error n => exact prints_pure _ _
        | ok fp =>
          refine prints_bind (legacyRaP_prints t fdes row) fun r => ?_
          cases r with
          | error n => exact prints_pure _ _
          | ok ra =>
            dsimp only
            unfold legacyAddP
            refine prints_bind (prints_say fun e he => ?_) fun _ => ?_
            · rw [List.mem_singleton] at he
              subst he
              exact .inr ⟨"    sframe: ", by simp, _, rfl⟩
            · cases sfde.row _ <;> exact prints_pure _ _
  · cases r with
    | ok sfde => exact prints_pure _ _
    | error n =>
      refine prints_bind (prints_say fun e he => ?_) fun _ => prints_pure _ _
      rw [List.mem_singleton] at he
      subst he
      exact rfl

theorem legacyRowsP_prints (dbg : Bool) (t : LegacyText) (fdes : DwFde → Prop) (a : ObjArch) (fde : DwFde) :
    ∀ (rows : List (Except GErr DwRow)) (sfde : FuncDescBuilder),
      OnlyPrints (printed1 t fdes) (legacyRowsP dbg t a fde rows sfde)
  | [], _ => prints_pure _ _
  | .error _ :: _, _ => prints_pure _ _
  | .ok row :: rows, sfde => by
    unfold legacyRowsP
    refine prints_bind (prints_lift _ _) fun d => ?_
    cases u32TryFromU64 d with
    | none => exact prints_pure _ _
    | some start =>
      dsimp only
      split
      · refine prints_bind (rowP_prints t fdes a row) fun _ => prints_bind (legacyRowP_prints t fdes start row sfde) fun r => ?_
        cases r with
        | error e => exact prints_pure _ _
        | ok sfde => exact legacyRowsP_prints dbg t fdes a fde rows sfde
      · exact prints_pure _ _

theorem printed1_lines {t : LegacyText} {fdes : DwFde → Prop} {ls : List Event1}
    (h : ∀ e, e ∈ ls → ∃ l, e = .out l ∧ frameLine l) : OnlyPrints (printed1 t fdes) (Printing.say ls) := by
  refine prints_say fun e he => ?_
  obtain ⟨l, rfl, hl⟩ := h e he
  exact .inl hl

theorem legacyFdeP_prints (dbg : Bool) (t : LegacyText) (io : GErr) (a : ObjArch) (sframe : SFrameBuilder) (fde : DwFde)
    (fdes : DwFde → Prop) (hf : fdes fde) : OnlyPrints (printed1 t fdes) (legacyFdeP dbg t io a sframe fde) := by
  unfold legacyFdeP
  split
  · exact prints_pure _ _
  split
  · exact prints_pure _ _
  dsimp only
  cases fde.rows with
  | error e => exact prints_pure _ _
  | ok rows =>
    refine prints_bind (printed1_lines fun e he => ?_) fun _ => prints_bind (prints_lift _ _) fun end_ =>
      prints_bind (printed1_line (frameLine_head (by simp))) fun _ => prints_bind (prints_list fun e he => ?_) fun b => ?_
    · simp only [List.mem_cons, List.not_mem_nil, or_false] at he
      rcases he with rfl | rfl
      · exact ⟨_, rfl, .inl rfl⟩
      · exact ⟨_, rfl, frameLine_head (by simp)⟩
    · obtain ⟨l, hl, rfl⟩ := List.mem_map.1 he
      exact ⟨fde, hf, hl⟩
    · cases b with
      | false => exact prints_pure _ _
      | true =>
        dsimp only
        cases (listInstructions true t.name t.error fde.instructions).2 with
        | error e => exact prints_pure _ _
        | ok u =>
          refine prints_bind (printed1_lines fun e he => ?_) fun _ =>
            prints_bind (legacyRowsP_prints dbg t fdes a fde rows _) fun r => ?_
          · simp only [List.mem_cons, List.not_mem_nil, or_false] at he
            rcases he with rfl | rfl
            · exact ⟨_, rfl, .inr (.inl rfl)⟩
            · exact ⟨_, rfl, .inr (.inr (.inl rfl))⟩
          · cases r with
            | error e => exact prints_pure _ _
            | ok sfde =>
              exact prints_bind (prints_lift _ _) fun _ => prints_bind (prints_lift _ _) fun _ =>
                prints_bind (printed1_line (.inr (.inl rfl))) fun _ => prints_pure _ _

theorem legacyEntriesP_prints (dbg : Bool) (t : LegacyText) (io : GErr) (a : ObjArch) (eh : EhFrame) (bases : Bases)
    (all : List (Except GErr Entry)) :
    ∀ (entries : List (Except GErr Entry)), (∀ e, e ∈ entries → e ∈ all) → ∀ (cies : List (Nat × Except GErr Cie))
      (sframe : SFrameBuilder),
      OnlyPrints (printed1 t (givenBy all)) (legacyEntriesP dbg t io a eh bases entries cies sframe)
  | [], _, _, _ => prints_pure _ _
  | .error _ :: _, _, _, _ => prints_pure _ _
  | .ok .cie :: entries, h, cies, sframe =>
    legacyEntriesP_prints dbg t io a eh bases all entries (fun e he => h e (by simp [he])) cies sframe
  | .ok (.fde offset parse) :: entries, h, cies, sframe => by
    unfold legacyEntriesP
    cases hp : parse (lookupCie (Options.new .amd64 bases) eh cies offset).1 with
    | error e => exact prints_pure _ _
    | ok fde =>
      refine prints_bind (legacyFdeP_prints dbg t io a sframe fde _ ⟨offset, parse, _, h _ (by simp), hp⟩) fun r => ?_
      cases r with
      | error e => exact prints_pure _ _
      | ok sframe =>
        exact legacyEntriesP_prints dbg t io a eh bases all entries (fun e he => h e (by simp [he])) _ sframe

theorem legacyP_prints (dbg : Bool) (t : LegacyText) (io : GErr) (file : ObjFile) (eh : EhFrame) (bases : Bases) :
    OnlyPrints (printed1 t (givenBy (eh.entries bases))) (legacyP dbg t io file eh bases) := by
  unfold legacyP
  refine prints_bind (prints_say fun e he => ?_) fun _ => ?_
  · obtain ⟨l, hl, rfl⟩ := List.mem_map.1 he
    refine .inr ?_
    unfold legacyAddresses at hl
    simp only [List.mem_append] at hl
    rcases hl with ((hl | hl) | hl) | hl
    all_goals
      split at hl
      · rw [List.mem_singleton] at hl
        subst hl
        exact ⟨_, by simp, _, rfl⟩
      · simp at hl
  · unfold legacyConvertP
    refine prints_bind (legacyEntriesP_prints dbg t io file.architecture eh bases _ _ (fun _ h => h) _ _) fun r => ?_
    cases r with
    | error e => exact prints_pure _ _
    | ok sframe => exact prints_bind (prints_lift _ _) fun _ => prints_pure _ _

/-! ### C107 -/

/-- What a computation prints and gives on streams that work, and where it stops on others. -/
theorem Follows.runs {ε α : Type} {x : Printing ε α} {y : List ε × Rust α} {fail : Rust α} (h : Follows x y fail) :
    (x (fun _ => true) 0).1.map Prod.fst = y.1 ∧
    (∀ k, (∀ i, i < y.1.length → k i = true) → (x k 0).2 = y.2) ∧
    ∀ k i e, (x (fun _ => true) 0).1[i]? = some e → (∀ j, j < i → k j = true) → k i = false →
      (x k 0).2 = if e.2 then fail else .panic .explicit := by
  obtain ⟨es, h1, h2⟩ := h
  have ho : (x (fun _ => true) 0).1 = es := by rw [h2, cutAt_open _ _ _ _ fun _ _ => rfl]
  have hl : es.length = y.1.length := by rw [← h1, List.length_map]
  refine ⟨by rw [ho, h1], fun k hk => ?_, fun k i e he hj hi => ?_⟩
  · rw [h2, cutAt_open _ _ _ _ fun i hi => by simpa using hk i (hl ▸ hi)]
  · rw [ho] at he
    have hlen : i < es.length := by
      obtain ⟨hlt, -⟩ := List.getElem?_eq_some_iff.1 he
      exact hlt
    have hc : ¬ ∀ i, i < es.length → k (0 + i) = true := fun hc => by
      have := hc i hlen
      rw [Nat.zero_add, hi] at this
      cases this
    obtain ⟨pre, e', post, g1, g2, g3, g4⟩ := cutAt_refused es 0 hc
    have hp : pre.length = i := by
      rcases Nat.lt_trichotomy pre.length i with hlt | heq | hgt
      · have := hj _ hlt
        rw [Nat.zero_add, this] at g3
        cases g3
      · exact heq
      · have := g2 i hgt
        rw [Nat.zero_add, hi] at this
        cases this
    have : e' = e := by
      rw [g1, ← hp] at he
      simpa using he
    rw [h2, g4, this]

/-- **C107 is false of the code**, print by print: what becomes of the sample file depends on whether stdout and stderr take
the report, for both converters. -/
theorem C107_print_by_print (dbg : Bool) :
    (∃ k k' : Nat → Bool, ∃ w args, runMain2P k ⟨0⟩ dbg Samples.names w args ≠ runMain2P k' ⟨0⟩ dbg Samples.names w args) ∧
    ∃ k k' : Nat → Bool, ∃ w args,
      runMain1P k ⟨0⟩ dbg Samples.legacyText w args ≠ runMain1P k' ⟨0⟩ dbg Samples.legacyText w args := by
  refine ⟨⟨fun _ => true, fun _ => false, Samples.worldNop, Samples.args2Dump, ?_⟩,
    fun _ => true, fun _ => false, Samples.world1 .x86_64 .little .little, Samples.args1, ?_⟩ <;>
    cases dbg <;> decide +kernel

/-- **C107**, what holds of `dwarf2sframe2`, in full: it prints certain lines, each of which it prints with a macro that panics or
in a listing of instructions.  The run is that without failures if all of them are taken.  Otherwise nothing is written, and the
first line that is refused decides what happens: in a listing the run fails and blames the input, else it
panics.  Missing: that the streams do not matter, which is false. -/
theorem C107_exact_partial (io : GErr) (dbg : Bool) (g : GimliText) (w : World) (args : Args2) :
    ∃ lines : List (Event × Bool), lines.map Prod.fst = main2Prints dbg g w args ∧
      (∀ line, line ∈ lines → ∃ file arch eh, Opened2 w args file arch eh ∧
        printed2 g arch (givenBy (eh.entries (toolBases file))) line) ∧
      ∀ k, ((∀ i, i < lines.length → k i = true) → runMain2P k io dbg g w args = runMain2 dbg w args) ∧
        ∀ i e, lines[i]? = some e → (∀ j, j < i → k j = true) → k i = false →
          runMain2P k io dbg g w args =
            (if e.2 then .ok (.error (.convert (.invalidDwarfFde io))) else .panic .explicit, []) := by
  rcases main2Via_cases dbg g w args with ⟨h1, h2⟩ | ⟨file, arch, eh, opts, hi, ha, hs, ho, h1, h2, h3, h4⟩
  · refine ⟨[], h1.symm, fun _ h => by simp at h, fun k => ⟨fun _ => ?_, fun i e he => by simp at he⟩⟩
    rw [runMain2_via, runMain2P_via]
    exact h2 _ _
  · obtain ⟨g1, g2, g3⟩ := (dwarf2sframeP_follows dbg g io eh opts).runs
    have hlen : (dwarf2sframeT dbg g eh opts).1.length = (dwarf2sframeP dbg g io eh opts (fun _ => true) 0).1.length := by
      rw [← g1, List.length_map]
    refine ⟨(dwarf2sframeP dbg g io eh opts (fun _ => true) 0).1, by rw [g1, h1], fun line hl => ?_, fun k => ⟨fun hk => ?_,
      fun i e he hj hi => ?_⟩⟩
    · refine ⟨file, arch, eh, ⟨hi, cliArch_eq.1 ha, hs⟩, ?_⟩
      have := dwarf2sframeP_prints dbg g io eh opts _ _ line hl
      rw [ho, cliOptions_eq] at this
      exact this
    · rw [runMain2_via, runMain2P_via]
      refine h2 _ _ ?_
      show (dwarf2sframeP dbg g io eh opts k 0).2 = _
      rw [g2 k fun i hi => hk i (hlen ▸ hi), C91_result]
    · have hr := g3 k i e he hj hi
      rw [runMain2P_via]
      cases hb : e.2 with
      | true =>
        rw [hb] at hr
        exact h3 _ _ hr
      | false =>
        rw [hb] at hr
        exact h4 _ _ hr

/-- **C107**, what holds of `dwarf2sframe2`: without the debug dump and warnings the streams do not matter.  Missing: as
before. -/
theorem C107_quiet_partial (k : Nat → Bool) (io : GErr) (dbg : Bool) (g : GimliText) (w : World) (args : Args2)
    (h1 : args.debugDump = false) (h2 : args.warnings = false) :
    runMain2P k io dbg g w args = runMain2 dbg w args := by
  obtain ⟨lines, g1, -, g3⟩ := C107_exact_partial io dbg g w args
  rw [main2Prints_silent h1 h2] at g1
  refine (g3 k).1 fun i hi => ?_
  rw [← List.length_map (f := Prod.fst), g1] at hi
  cases hi

/-- Such a run on streams that take nothing: it writes the section. -/
example (dbg : Bool) : runMain2P (fun _ => false) ⟨0⟩ dbg Samples.names (Samples.world false)
    { Samples.args2 with warnings := false } = (.ok (.ok ()), [⟨"out", image .little (Samples.oneAt 0x1010)⟩]) := by
  cases dbg <;> decide +kernel

/-- **C107**, what holds of the legacy converter, in full: the same.  Missing: as before. -/
theorem C107_exact1_partial (io : GErr) (dbg : Bool) (t : LegacyText) (w : World) (args : Args1) :
    ∃ lines : List (Event1 × Bool), lines.map Prod.fst = main1Prints dbg t w args ∧
      (∀ line, line ∈ lines → ∃ file eh, Opened1 w args file eh ∧
        printed1 t (givenBy (eh.entries (toolBases file))) line) ∧
      ∀ k, ((∀ i, i < lines.length → k i = true) → runMain1P k io dbg t w args = runMain1 dbg w args) ∧
        ∀ i e, lines[i]? = some e → (∀ j, j < i → k j = true) → k i = false →
          runMain1P k io dbg t w args =
            (if e.2 then .ok (.error (.legacy (.dump io))) else .panic .explicit, []) := by
  rcases main1Via_cases dbg t w args with ⟨h1, h2⟩ | ⟨file, eh, bases, hi, hs, hb, h1, h2, h3, h4⟩
  · refine ⟨[], h1.symm, fun _ h => by simp at h, fun k => ⟨fun _ => ?_, fun i e he => by simp at he⟩⟩
    rw [runMain1_via, runMain1P_via]
    exact h2 _ _
  · obtain ⟨g1, g2, g3⟩ := (legacyP_follows dbg t io file eh bases).runs
    have hlen : ((legacyAddresses file).map Event1.out ++ (legacyConvertT dbg t file.architecture eh bases).1).length =
        (legacyP dbg t io file eh bases (fun _ => true) 0).1.length := by
      rw [← List.length_map (f := Prod.fst) (as := (legacyP dbg t io file eh bases (fun _ => true) 0).1), g1]
    refine ⟨(legacyP dbg t io file eh bases (fun _ => true) 0).1, by rw [g1, h1], fun line hl => ?_, fun k => ⟨fun hk => ?_,
      fun i e he hj hi => ?_⟩⟩
    · refine ⟨file, eh, ⟨hi, hs⟩, ?_⟩
      have := legacyP_prints dbg t io file eh bases _ _ line hl
      rw [hb, cliBases_eq] at this
      exact this
    · rw [runMain1_via, runMain1P_via]
      refine h2 _ _ ?_
      exact g2 k fun i hi => hk i (hlen ▸ hi)
    · have hr := g3 k i e he hj hi
      rw [runMain1P_via]
      cases hb : e.2 with
      | true =>
        rw [hb] at hr
        exact h3 _ _ hr
      | false =>
        rw [hb] at hr
        exact h4 _ _ hr

/-- Runs of both converters in which the fourth print fails, that of an instruction for `dwarf2sframe2` -/
example (dbg : Bool) :
    runMain2P (fun i => decide (i ≠ 3)) ⟨7⟩ dbg Samples.names Samples.worldNop Samples.args2Dump =
      (.ok (.error (.convert (.invalidDwarfFde ⟨7⟩))), []) ∧
    runMain2P (fun i => decide (i ≠ 1)) ⟨7⟩ dbg Samples.names Samples.worldNop Samples.args2Dump = (.panic .explicit, []) ∧
    (runMain2P (fun _ => true) ⟨7⟩ dbg Samples.names Samples.worldNop Samples.args2Dump).1 = .ok (.ok ()) ∧
    runMain1P (fun i => decide (i ≠ 1)) ⟨7⟩ dbg Samples.legacyText (Samples.world1 .x86_64 .little .little) Samples.args1 =
      (.panic .explicit, []) ∧
    runMain1P (fun i => decide (i ≠ 5)) ⟨7⟩ dbg Samples.legacyText (Samples.world1 .x86_64 .little .little) Samples.args1 =
      (.ok (.error (.legacy (.dump ⟨7⟩))), []) := by
  refine ⟨?_, ?_, ?_, ?_, ?_⟩ <;> cases dbg <;> decide +kernel

end Verif
