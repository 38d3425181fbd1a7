import Verif.Props.MovingFail
/-!
# C137: whether an input can be converted is decided entry by entry
-/

namespace Verif
namespace Spec

/-- A section with a single entry, and the CIEs of another. -/
def alone (eh : EhFrame) (x : Except GErr Entry) : EhFrame := { eh with entries := fun _ => [x] }

/-- The first of several computations that does not succeed. -/
def firstEnding {ε : Type} : List (Rust (Except ε Unit)) → Rust (Except ε Unit)
  | [] => .ok (.ok ())
  | .ok (.ok ()) :: rs => firstEnding rs
  | r :: _ => r

end Spec
open Spec

/-- The part of `inputs` that comes from an entry. -/
def inputOf (eh : EhFrame) (bases : Bases) : Except GErr Entry → Option (Except ConvError DwFde)
  | .error e => some (.error (.invalidEhFrameEntry e))
  | .ok .cie => none
  | .ok (.fde off parse) =>
    match parse (eh.cieFromOffset bases off) with
    | .error e => some (.error (.invalidDwarfFde e))
    | .ok fde => some (.ok fde)

theorem inputs_inputOf (eh : EhFrame) (bases : Bases) :
    inputs eh bases = (eh.entries bases).filterMap (inputOf eh bases) := rfl

theorem inputs_alone (eh : EhFrame) (bases : Bases) (x : Except GErr Entry) :
    inputs (alone eh x) bases = [x].filterMap (inputOf eh bases) := rfl

theorem filterMap_split {α β : Type} (f : α → Option β) (l : List α) (Fine Bad : β → Prop) :
    (∃ pre y rest, l.filterMap f = pre ++ y :: rest ∧ (∀ z ∈ pre, Fine z) ∧ Bad y) ↔
      ∃ pre x rest, l = pre ++ x :: rest ∧ (∀ z ∈ pre, ∀ y, f z = some y → Fine y) ∧ ∃ y, f x = some y ∧ Bad y := by
  constructor
  · rintro ⟨pre, y, rest, h, hf, hb⟩
    obtain ⟨l1, l2, rfl, rfl, h2⟩ := List.filterMap_eq_append_iff.1 h
    obtain ⟨l3, a, l4, rfl, h3, h4, rfl⟩ := List.filterMap_eq_cons_iff.1 h2
    refine ⟨l1 ++ l3, a, l4, by simp, ?_, y, h4, hb⟩
    intro z hz w hw
    rcases List.mem_append.1 hz with h | h
    · exact hf w (List.mem_filterMap.2 ⟨z, h, hw⟩)
    · rw [h3 z h] at hw
      cases hw
  · rintro ⟨pre, x, rest, rfl, hf, y, hy, hb⟩
    refine ⟨pre.filterMap f, y, rest.filterMap f, by simp [hy], ?_, hb⟩
    intro z hz
    obtain ⟨a, ha, hz⟩ := List.mem_filterMap.1 hz
    exact hf a ha z hz

/-- The same for a list of one. -/
theorem filterMap_one {α β : Type} (f : α → Option β) (a : α) (Fine Bad : β → Prop) :
    (∃ pre y rest, [a].filterMap f = pre ++ y :: rest ∧ (∀ z ∈ pre, Fine z) ∧ Bad y) ↔
      ∃ y, f a = some y ∧ Bad y := by
  rw [filterMap_split]
  constructor
  · rintro ⟨pre, x, rest, h, _, h'⟩
    cases pre with
    | nil => cases h; exact h'
    | cons p pre => cases pre <;> cases h
  · intro h
    exact ⟨[], a, [], rfl, nofun, h⟩

section
variable {dbg : Bool} {eh : EhFrame} {opts : Options}

theorem oks_iff {P : DwFde → Prop} {xs : List (Except ConvError DwFde)} :
    (∃ fdes : List DwFde, xs = fdes.map .ok ∧ ∀ f ∈ fdes, P f) ↔ ∀ x ∈ xs, ∃ f, x = .ok f ∧ P f := by
  constructor
  · rintro ⟨fdes, rfl, h⟩ x hx
    obtain ⟨f, hf, rfl⟩ := List.mem_map.1 hx
    exact ⟨f, rfl, h f hf⟩
  · intro h
    induction xs with
    | nil => exact ⟨[], rfl, nofun⟩
    | cons x xs ih =>
      obtain ⟨f, rfl, hf⟩ := h x (by simp)
      obtain ⟨fdes, rfl, hfs⟩ := ih fun x hx => h x (List.mem_cons_of_mem _ hx)
      exact ⟨f :: fdes, rfl, List.forall_mem_cons.2 ⟨hf, hfs⟩⟩

theorem converts_iff :
    (∃ b, dwarf2sframe dbg eh opts = .ok (.ok b)) ↔
      ∀ x ∈ inputs eh opts.bases, ∃ f, x = .ok f ∧ Convertible (sectionOptions eh opts) opts f := by
  rw [← oks_iff]
  constructor
  · rintro ⟨b, h⟩
    obtain ⟨fdes, h1, h2, _⟩ := dwarf2sframe_ok_iff.1 h
    exact ⟨fdes, h1, h2⟩
  · rintro ⟨fdes, h1, h2⟩
    exact ⟨_, dwarf2sframe_ok_iff.2 ⟨fdes, h1, h2, rfl⟩⟩

theorem alone_converts (x : Except GErr Entry) :
    (∃ b, dwarf2sframe dbg (alone eh x) opts = .ok (.ok b)) ↔
      ∀ y, inputOf eh opts.bases x = some y → ∃ f, y = .ok f ∧ Convertible (sectionOptions eh opts) opts f := by
  rw [converts_iff, inputs_alone]
  constructor
  · intro h y hy
    exact h y (by simp [hy])
  · intro h y hy
    obtain ⟨a, ha, hy⟩ := List.mem_filterMap.1 hy
    cases List.mem_singleton.1 ha
    exact h y hy

theorem error_split (e : ConvError) :
    dwarf2sframe dbg eh opts = .ok (.error e) ↔
      ∃ pre y rest, inputs eh opts.bases = pre ++ y :: rest ∧
        (∀ z ∈ pre, ∃ f, z = .ok f ∧ Convertible (sectionOptions eh opts) opts f) ∧
        Blame dbg (sectionOptions eh opts) opts y e := by
  rw [dwarf2sframe_error_iff]
  constructor
  · rintro ⟨fdes, x, rest, h1, h2, h3⟩
    exact ⟨_, x, rest, h1, oks_iff.1 ⟨fdes, rfl, h2⟩, h3⟩
  · rintro ⟨pre, y, rest, h1, h2, h3⟩
    obtain ⟨fdes, rfl, h4⟩ := oks_iff.2 h2
    exact ⟨fdes, y, rest, h1, h4, h3⟩

theorem panics_split :
    (dwarf2sframe dbg eh opts).Panics ↔
      ∃ pre y rest, inputs eh opts.bases = pre ++ y :: rest ∧
        (∀ z ∈ pre, ∃ f, z = .ok f ∧ Convertible (sectionOptions eh opts) opts f) ∧
        ∃ f, y = .ok f ∧ FdePanics dbg (sectionOptions eh opts) opts f := by
  rw [dwarf2sframe_panics_iff]
  constructor
  · rintro ⟨fdes, f, rest, h1, h2, h3⟩
    exact ⟨_, _, rest, h1, oks_iff.1 ⟨fdes, rfl, h2⟩, f, rfl, h3⟩
  · rintro ⟨pre, y, rest, h1, h2, f, rfl, h3⟩
    obtain ⟨fdes, rfl, h4⟩ := oks_iff.2 h2
    exact ⟨fdes, f, rest, h1, h4, h3⟩

end

/-- **C137.**  A section is converted exactly if each of its entries is converted when it is the only one.  An
error is reported exactly if the first entry that is not converted when alone is reported with this error; and
the conversion panics exactly if it does for this entry. -/
theorem C137_entries (dbg : Bool) (eh : EhFrame) (opts : Options) :
    ((∃ b, dwarf2sframe dbg eh opts = .ok (.ok b)) ↔
      ∀ x ∈ eh.entries opts.bases, ∃ b, dwarf2sframe dbg (alone eh x) opts = .ok (.ok b)) ∧
    (∀ e, dwarf2sframe dbg eh opts = .ok (.error e) ↔
      ∃ pre x rest, eh.entries opts.bases = pre ++ x :: rest ∧
        (∀ y ∈ pre, ∃ b, dwarf2sframe dbg (alone eh y) opts = .ok (.ok b)) ∧
        dwarf2sframe dbg (alone eh x) opts = .ok (.error e)) ∧
    ((dwarf2sframe dbg eh opts).Panics ↔
      ∃ pre x rest, eh.entries opts.bases = pre ++ x :: rest ∧
        (∀ y ∈ pre, ∃ b, dwarf2sframe dbg (alone eh y) opts = .ok (.ok b)) ∧
        (dwarf2sframe dbg (alone eh x) opts).Panics) := by
  refine ⟨?_, fun e => ?_, ?_⟩
  · simp only [alone_converts]
    rw [converts_iff, inputs_inputOf]
    constructor
    · intro h x hx y hy
      exact h y (List.mem_filterMap.2 ⟨x, hx, hy⟩)
    · intro h y hy
      obtain ⟨x, hx, hy⟩ := List.mem_filterMap.1 hy
      exact h x hx y hy
  · have h1 : ∀ x, dwarf2sframe dbg (alone eh x) opts = .ok (.error e) ↔
        ∃ y, inputOf eh opts.bases x = some y ∧ Blame dbg (sectionOptions eh opts) opts y e := by
      intro x
      rw [error_split, inputs_alone]
      exact filterMap_one _ _ _ _
    simp only [alone_converts, h1]
    rw [error_split, inputs_inputOf]
    exact filterMap_split _ _ _ _
  · have h1 : ∀ x, (dwarf2sframe dbg (alone eh x) opts).Panics ↔
        ∃ y, inputOf eh opts.bases x = some y ∧
          ∃ f, y = .ok f ∧ FdePanics dbg (sectionOptions eh opts) opts f := by
      intro x
      rw [panics_split, inputs_alone]
      exact filterMap_one _ _ _ _
    simp only [alone_converts, h1]
    rw [panics_split, inputs_inputOf]
    exact filterMap_split _ _ _ _

/-- The warnings are those for the inputs. -/
theorem log_inputs {dbg : Bool} {eh : EhFrame} {opts : Options} {b : SFrameBuilder} {log : List Warning}
    (h : dwarf2sframeLog dbg eh opts = .ok (.ok (b, log))) :
    log = (inputs eh opts.bases).flatMap fun
      | .ok f => warningsFor opts f (rowsOf f)
      | .error _ => [] := by
  rcases dwarf2sframe_cases dbg eh opts with ⟨fdes, hin, _, h'⟩ | ⟨_, _, _, _, _, ⟨e, _, h'⟩ | ⟨_, _, _, p, h'⟩⟩
  · rw [h'] at h
    cases h
    rw [hin, List.flatMap_map]
    rfl
  · rw [h'] at h
    cases h
  · rw [h'] at h
    cases h

/-- What is made of the inputs one after the other is made of the entries one after the other. -/
theorem flatMap_alone {α β γ : Type} {f : α → Option β} {g : β → List γ} {out : α → List γ} {l : List α}
    (h : ∀ x ∈ l, out x = ([x].filterMap f).flatMap g) : (l.filterMap f).flatMap g = l.flatMap out := by
  induction l with
  | nil => rfl
  | cons x l ih =>
    rw [List.flatMap_cons, ← ih fun y hy => h y (List.mem_cons_of_mem _ hy), h x (by simp),
      ← List.flatMap_append, ← List.filterMap_append]
    rfl

/-- **C137**, the warnings: those for a section are those for its entries, each alone, in their order. -/
theorem C137_warnings (dbg : Bool) (eh : EhFrame) (opts : Options) (b : SFrameBuilder) (log : List Warning)
    (bs : Except GErr Entry → SFrameBuilder) (logs : Except GErr Entry → List Warning)
    (h : dwarf2sframeLog dbg eh opts = .ok (.ok (b, log)))
    (hs : ∀ x ∈ eh.entries opts.bases, dwarf2sframeLog dbg (alone eh x) opts = .ok (.ok (bs x, logs x))) :
    log = (eh.entries opts.bases).flatMap logs := by
  rw [log_inputs h, inputs_inputOf]
  exact flatMap_alone fun x hx => log_inputs (hs x hx)

/-- Two functions, each with a row that cannot be expressed: a warning for each. -/
example (dbg : Bool) :
    let f : U64 → DwFde := fun a => { Samples.dwFde with
      initial := a, rows := .ok [.ok { Samples.dwRow3 with start := a, end_ := a + 1 }] }
    let log := fun fdes => (dwarf2sframeLog dbg (Samples.ehOf fdes) { Samples.convOpts with warnings := true }).bind
      fun x => .ok (x.map fun y => y.2.map Warning.start)
    log [f 0x1000] = .ok (.ok [0x1000]) ∧ log [f 0x3000] = .ok (.ok [0x3000]) ∧
    log [f 0x1000, f 0x3000] = .ok (.ok [0x1000, 0x3000]) := by
  cases dbg <;> decide +kernel

/-- What is printed on success is printed for the inputs one after the other. -/
theorem printed_inputs {dbg : Bool} {g : GimliText} {eh : EhFrame} {opts : Options}
    (h : ∃ b, dwarf2sframe dbg eh opts = .ok (.ok b)) :
    (stdoutOf (dwarf2sframeT dbg g eh opts).1 = (inputs eh opts.bases).flatMap fun
      | .ok f => if opts.debugdump then report g opts.arch [f] else []
      | .error _ => []) ∧
    (stderrOf (dwarf2sframeT dbg g eh opts).1 = (inputs eh opts.bases).flatMap fun
      | .ok f => warningsOf opts [f]
      | .error _ => []) := by
  obtain ⟨b, h⟩ := h
  obtain ⟨fdes, hin, h1, h2⟩ := C91_success (g := g) h
  rw [h1, h2, hin, List.flatMap_map, List.flatMap_map]
  constructor
  · split
    · simp [report]
    · simp
  · simp [warningsOf]

/-- **C137**, the output: if a section is converted, then what is printed on stdout, and what on stderr, is
what is printed for its entries, each alone, in their order. -/
theorem C137_printed (dbg : Bool) (g : GimliText) (eh : EhFrame) (opts : Options) (b : SFrameBuilder)
    (h : dwarf2sframe dbg eh opts = .ok (.ok b)) :
    stdoutOf (dwarf2sframeT dbg g eh opts).1 =
      (eh.entries opts.bases).flatMap (fun x => stdoutOf (dwarf2sframeT dbg g (alone eh x) opts).1) ∧
    stderrOf (dwarf2sframeT dbg g eh opts).1 =
      (eh.entries opts.bases).flatMap (fun x => stderrOf (dwarf2sframeT dbg g (alone eh x) opts).1) := by
  have hs := (C137_entries dbg eh opts).1.1 ⟨b, h⟩
  rw [(printed_inputs ⟨b, h⟩).1, (printed_inputs ⟨b, h⟩).2, inputs_inputOf]
  exact ⟨flatMap_alone fun x hx => (printed_inputs (hs x hx)).1, flatMap_alone fun x hx => (printed_inputs (hs x hx)).2⟩

/-- The debug dump of two functions, and that of each. -/
example (dbg : Bool) :
    let f : U64 → DwFde := fun a => { Samples.dwFde with
      initial := a, rows := .ok [.ok { Samples.dwRow3 with start := a, end_ := a + 1 }] }
    let out := fun fdes => stdoutOf (dwarf2sframeT dbg Samples.names (Samples.ehOf fdes)
      { Samples.convOpts with debugdump := true }).1
    out [f 0x1000, f 0x3000] = out [f 0x1000] ++ out [f 0x3000] ∧ 3 ≤ (out [f 0x1000]).length ∧
    out [f 0x1000] ≠ out [f 0x3000] := by
  cases dbg <;> decide +kernel

/-! ### The legacy converter -/

theorem legacyFde_ending (dbg : Bool) (fde : DwFde) {b b' : SFrameBuilder} (ho : b'.options = b.options) :
    ending (legacyFde dbg b' fde) = ending (legacyFde dbg b fde) := by
  unfold legacyFde
  rw [ho]
  split
  · rfl
  · split
    · rfl
    · simp only
      cases fde.rows with
      | error e => rfl
      | ok xs =>
        simp only
        cases addU64 dbg fde.initial fde.len with
        | panic p => rfl
        | diverge => rfl
        | ok v =>
          simp only [Rust.bind_ok]
          cases dumpCfiInstructions fde.instructions with
          | error e => rfl
          | ok u =>
            simp only
            cases legacyRows dbg fde xs (FuncDescBuilder.new b.options (fde.initial.setWidth 32) (fde.len.setWidth 32)) with
            | panic p => rfl
            | diverge => rfl
            | ok r =>
              cases r with
              | error e => rfl
              | ok f =>
                simp only [Rust.bind_ok]
                cases f.mergeAdjacentFres with
                | panic p => rfl
                | diverge => rfl
                | ok g =>
                  simp only [Rust.bind_ok]
                  unfold SFrameBuilder.fde
                  rw [ho]
                  split <;> rfl

theorem legacy_alone (dbg : Bool) (eh : EhFrame) (bases : Bases) (x : Except GErr Entry) :
    ending (legacyConvert dbg (alone eh x) bases) =
      match x with
      | .error e => .ok (.error (.entry e))
      | .ok .cie => .ok (.ok ())
      | .ok (.fde off parse) =>
        match parse (eh.cieFromOffset bases off) with
        | .error e => .ok (.error (.parse e))
        | .ok fde => ending (legacyFde dbg (SFrameBuilder.new legacyOptions) fde) := by
  rw [legacyConvert_ending, show (alone eh x).entries bases = [x] from rfl]
  cases x with
  | error e => rfl
  | ok x =>
    cases x with
    | cie => rfl
    | fde off parse =>
      rw [legacyEntries, show (lookupCie (Options.new .amd64 bases) (alone eh (.ok (.fde off parse))) [] off).1 =
        eh.cieFromOffset bases off from rfl]
      simp only
      cases parse (eh.cieFromOffset bases off) with
      | error e => rfl
      | ok fde =>
        simp only
        cases legacyFde dbg (SFrameBuilder.new legacyOptions) fde with
        | panic p => rfl
        | diverge => rfl
        | ok r => cases r <;> rfl

theorem legacyEntries_alone (dbg : Bool) (eh : EhFrame) (bases : Bases) (es : List (Except GErr Entry))
    (cies : List (Nat × Except GErr Cie)) (b : SFrameBuilder) (hc : CacheOk (Options.new .amd64 bases) eh cies)
    (hb : b.options = legacyOptions) :
    ending (legacyEntries dbg eh bases es cies b) =
      firstEnding (es.map fun x => ending (legacyConvert dbg (alone eh x) bases)) := by
  induction es generalizing cies b with
  | nil => rfl
  | cons x es ih =>
    rw [List.map_cons, legacy_alone]
    cases x with
    | error e => rfl
    | ok x =>
      cases x with
      | cie => exact ih cies b hc hb
      | fde off parse =>
        obtain ⟨h1, h2⟩ := lookupCie_ok hc off
        have h1 : (lookupCie (Options.new .amd64 bases) eh cies off).1 = eh.cieFromOffset bases off := h1
        rw [legacyEntries, h1]
        simp only
        cases parse (eh.cieFromOffset bases off) with
        | error e => rfl
        | ok fde =>
          simp only
          rw [← legacyFde_ending dbg fde (b := SFrameBuilder.new legacyOptions) (b' := b) hb]
          cases h3 : legacyFde dbg b fde with
          | panic p => rfl
          | diverge => rfl
          | ok r =>
            cases r with
            | error e => rfl
            | ok c =>
              obtain ⟨_, rfl⟩ := (legacyFde_iff bases hb).1 h3
              exact ih _ _ h2 hb

/-- **C137**, the legacy converter: the conversion ends as the first one of an entry alone that does not
succeed. -/
theorem C137_legacy (dbg : Bool) (eh : EhFrame) (bases : Bases) :
    ending (legacyConvert dbg eh bases) =
      firstEnding ((eh.entries bases).map fun x => ending (legacyConvert dbg (alone eh x) bases)) := by
  rw [legacyConvert_ending]
  exact legacyEntries_alone dbg eh bases _ [] _ (by simp [CacheOk]) rfl

theorem firstEnding_ok {ε : Type} {rs : List (Rust (Except ε Unit))} :
    firstEnding rs = .ok (.ok ()) ↔ ∀ r ∈ rs, r = .ok (.ok ()) := by
  induction rs with
  | nil => exact ⟨fun _ => nofun, fun _ => rfl⟩
  | cons r rs ih =>
    rw [List.forall_mem_cons, ← ih]
    cases r with
    | panic p => exact ⟨nofun, fun h => nomatch h.1⟩
    | diverge => exact ⟨nofun, fun h => nomatch h.1⟩
    | ok x =>
      cases x with
      | error e => exact ⟨nofun, fun h => nomatch h.1⟩
      | ok u => exact ⟨fun h => ⟨rfl, h⟩, fun h => h.2⟩

theorem ending_ok {ε α : Type} {r : Rust (Except ε α)} : ending r = .ok (.ok ()) ↔ ∃ a, r = .ok (.ok a) := by
  cases r with
  | panic p => exact ⟨nofun, nofun⟩
  | diverge => exact ⟨nofun, nofun⟩
  | ok x =>
    cases x with
    | error e => exact ⟨nofun, nofun⟩
    | ok a => exact ⟨fun _ => ⟨a, rfl⟩, fun _ => rfl⟩

theorem printed1_inputs {dbg : Bool} {t : LegacyText} {a : ObjArch} {eh : EhFrame} {bases : Bases}
    (h : ∃ b, legacyConvert dbg eh bases = .ok (.ok b)) :
    (legacyConvertT dbg t a eh bases).1 = (inputs eh bases).flatMap fun
      | .ok f => legacyFdeEvents t a f
      | .error _ => [] := by
  obtain ⟨b, h⟩ := h
  obtain ⟨fdes, hin, h1⟩ := C94_success (t := t) (a := a) h
  rw [h1, hin, List.flatMap_map]

/-- **C137**, the output of the legacy converter: if a section is converted, then all that is printed, on
stdout and stderr, is what is printed for its entries, each alone, in their order. -/
theorem C137_legacy_printed (dbg : Bool) (t : LegacyText) (a : ObjArch) (eh : EhFrame) (bases : Bases)
    (b : SFrameBuilder) (h : legacyConvert dbg eh bases = .ok (.ok b)) :
    (legacyConvertT dbg t a eh bases).1 =
      (eh.entries bases).flatMap fun x => (legacyConvertT dbg t a (alone eh x) bases).1 := by
  have hs := C137_legacy dbg eh bases
  rw [ending_ok.2 ⟨b, h⟩] at hs
  have hs := firstEnding_ok.1 hs.symm
  rw [printed1_inputs ⟨b, h⟩, inputs_inputOf]
  exact flatMap_alone fun x hx => printed1_inputs (ending_ok.1 (hs _ (List.mem_map_of_mem hx)))

/-- The legacy tool on two functions, with the report of each. -/
example (dbg : Bool) :
    let f : U64 → DwFde := fun a => { Samples.dwFde with
      initial := a, rows := .ok [.ok { Samples.dwRow3 with start := a, end_ := a + 1 }] }
    let out := fun fdes => (legacyConvertT dbg Samples.legacyText .x86_64 (Samples.ehOf fdes) Bases.default).1
    out [f 0x1000, f 0x3000] = out [f 0x1000] ++ out [f 0x3000] ∧ 3 ≤ (out [f 0x1000]).length ∧
    out [f 0x1000] ≠ out [f 0x3000] := by
  cases dbg <;> decide +kernel

/-- Three functions: the first can be converted, the second is too long and the third is too far away.  The error
is that of the second. -/
example (dbg : Bool) :
    let long := { Samples.dwFde with initial := 0x5000, len := 0x100000000 }
    let far := { Samples.dwFde with initial := 0x100000000 }
    dwarf2sframe dbg (Samples.ehOf [Samples.dwFde, long, far]) Samples.convOpts =
      .ok (.error (.invalidFunctionLength 0x5000 0x100000000)) ∧
    dwarf2sframe dbg (Samples.ehOf [long]) Samples.convOpts =
      .ok (.error (.invalidFunctionLength 0x5000 0x100000000)) ∧
    dwarf2sframe dbg (Samples.ehOf [far]) Samples.convOpts = .ok (.error (.invalidStartAddress 0x100000000)) ∧
    ending (dwarf2sframe dbg (Samples.ehOf [Samples.dwFde]) Samples.convOpts) = .ok (.ok ()) := by
  cases dbg <;> decide +kernel

/-- A CIE, a function, one that is too far away and one with a row that is defined twice. -/
example (dbg : Bool) :
    let good := { Samples.dwFde with rows := .ok [.ok Samples.dwRow1] }
    let far := { good with initial := 0x100000000 }
    (((Samples.ehOf [good, far, Samples.dwFde]).entries Bases.default).map fun x =>
      ending (legacyConvert dbg (alone (Samples.ehOf [good, far, Samples.dwFde]) x) Bases.default)) =
      [.ok (.ok ()), .ok (.ok ()), .ok (.error (.start 0x100000000)), .ok (.error (.row .duplicateRow))] ∧
    ending (legacyConvert dbg (Samples.ehOf [good, far, Samples.dwFde]) Bases.default) =
      .ok (.error (.start 0x100000000)) := by
  cases dbg <;> decide +kernel

end Verif
