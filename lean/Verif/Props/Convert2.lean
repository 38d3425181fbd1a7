import Verif.Props.Convert
import Verif.Props.Write
/-!
# The converter: panics, zero-width rows, diagnostics, profiles and the file format (C42, C47 to C49, C52)
-/

namespace Verif
open Spec

/-! ### C42 -/

theorem Spec.FdeFails.release {so : SFrameOptions} {opts : Options} {fde : DwFde} {e : ConvError}
    (h : FdeFails true so opts fde e) : FdeFails false so opts fde e := by
  have hno : ∀ P : Prop, ¬ (false = true ∧ P) := by rintro P ⟨h, _⟩; cases h
  cases h with
  | dump g h1 h2 h3 => exact .dump g h1 (hno _) h3
  | start h1 h2 h3 => exact .start (hno _) h2 h3
  | len h1 h2 h3 h4 => exact .len (hno _) h2 h3 h4
  | table g h1 h2 h3 h4 => exact .table g h1 h2 h3 h4
  | row rs x rest _ h1 h2 h3 h4 h5 h6 h7 => exact .row rs x rest e h1 h2 h3 h4 h5 h6 (hno _)

/-- **C42, converter.** -/
theorem C42_converter (eh : EhFrame) (opts : Options) (r : Except ConvError SFrameBuilder)
    (h : dwarf2sframe true eh opts = .ok r) : dwarf2sframe false eh opts = .ok r := by
  cases r with
  | ok b =>
    rw [dwarf2sframe_ok_iff] at h ⊢
    exact h
  | error e =>
    rw [dwarf2sframe_error_iff] at h ⊢
    obtain ⟨fdes, x, rest, h1, h2, h3⟩ := h
    refine ⟨fdes, x, rest, h1, h2, ?_⟩
    rcases h3 with h3 | ⟨fde, hx, h3⟩
    · exact .inl h3
    · exact .inr ⟨fde, hx, h3.release⟩

example : dwarf2sframe true (Samples.ehOf [Samples.dwFde]) Samples.convOpts
    = .ok (.ok { options := Samples.opts, fdes := [(0x1000, Samples.convFn)] }) := by decide +kernel

/-! ### C47 -/

namespace Samples

/-- A function with a single row that is like `dwRow1`. -/
def oneRow (r : DwRow) : DwFde := { initial := 0x1000, len := 0x20, instructions := [], rows := .ok [.ok r] }

end Samples

/-- **C47 is false of the code**: on little-endian amd64 the converter panics if a function saves
the return address anywhere else than at CFA - 8, e.g. in a signal trampoline. -/
theorem C47_panics_ra (dbg : Bool) :
    (dwarf2sframe dbg (Samples.ehOf [Samples.oneRow { Samples.dwRow1 with
      registers := Samples.x86Regs .undefined (.offset (-16)) }]) Samples.convOpts).Panics := by
  cases dbg <;> exact ⟨.explicit, by decide +kernel⟩

/-- **C47 is false of the code**: a row 2^28 bytes into its function. -/
theorem C47_panics_offset (dbg : Bool) :
    (dwarf2sframe dbg (Samples.ehOf [{ Samples.oneRow { Samples.dwRow1 with start := 0x10001000 } with
      len := 0x20000000 }]) Samples.convOpts).Panics := by
  cases dbg <;> exact ⟨.explicit, by decide +kernel⟩

/-- **C47 is false of the code**: a row beyond the end of its function. -/
theorem C47_panics_outside (dbg : Bool) :
    (dwarf2sframe dbg (Samples.ehOf [Samples.oneRow { Samples.dwRow1 with start := 0x1020 }])
      Samples.convOpts).Panics := by
  cases dbg <;> exact ⟨.explicit, by decide +kernel⟩

/-- **C47 is false of the code**: two rows of nonzero width with the same start. -/
theorem C47_panics_duplicate (dbg : Bool) :
    (dwarf2sframe dbg (Samples.ehOf [{ Samples.oneRow Samples.dwRow1 with
      rows := .ok [.ok Samples.dwRow1, .ok { Samples.dwRow1 with end_ := 0x1002 }] }])
      Samples.convOpts).Panics := by
  cases dbg <;> exact ⟨.explicit, by decide +kernel⟩

/-- **C47 is false of the code**: in debug builds, a row before the start of its function; in
release builds this is reported. -/
theorem C47_panics_underflow :
    (dwarf2sframe true (Samples.ehOf [Samples.oneRow { Samples.dwRow1 with start := 0xFFF }])
      Samples.convOpts).Panics ∧
    dwarf2sframe false (Samples.ehOf [Samples.oneRow { Samples.dwRow1 with start := 0xFFF }])
      Samples.convOpts = .ok (.error (.invalidRowOffset 0xFFF 0xFFFFFFFFFFFFFFFF)) :=
  ⟨⟨.overflow, by decide +kernel⟩, by decide +kernel⟩

/-- **C47**, what holds: the converter always ends, and it panics exactly if the first function that
is not converted is one of those described by `FdePanics`: a debug dump whose end address
overflows (debug builds), a row before its function (debug builds), or a row near its function that
cannot stand in it (outside, too far in, at the place of another one, or with an RA offset other
than the fixed one).  Missing: the absence of these panics. -/
theorem C47_panics_iff_partial (dbg : Bool) (eh : EhFrame) (opts : Options) :
    dwarf2sframe dbg eh opts ≠ .diverge ∧
    ((dwarf2sframe dbg eh opts).Panics ↔
      ∃ (fdes : List DwFde) (fde : DwFde) (rest : _),
        inputs eh opts.bases = fdes.map .ok ++ .ok fde :: rest ∧
        (∀ fde ∈ fdes, Convertible (sectionOptions eh opts) opts fde) ∧
        FdePanics dbg (sectionOptions eh opts) opts fde) :=
  ⟨dwarf2sframe_terminates, dwarf2sframe_panics_iff⟩

/-- A function as a compiler writes it: rows in order and within the function, which is smaller than
256 MiB and ends below 2^64; on little-endian amd64 the return address is at CFA - 8 in rows that
can be expressed. -/
structure Ordinary (eh : EhFrame) (opts : Options) (fde : DwFde) : Prop where
  bound : fde.initial.toNat + fde.len.toNat < 2 ^ 64
  small : fde.len.toNat ≤ 2 ^ 28
  order : WellFormed (rowsOf fde)
  inside : ∀ r ∈ live (rowsOf fde), fde.initial.toNat ≤ r.start.toNat ∧
    r.start.toNat < fde.initial.toNat + fde.len.toNat
  ra : opts.arch = .amd64 → endianOf eh opts = .little →
    ∀ r ∈ live (rowsOf fde), ∀ t, translate .amd64 r = some t → t.ra = -8

theorem sectionOptions_ra (eh : EhFrame) (opts : Options) (v : NonZeroI8)
    (h : (sectionOptions eh opts).fixedRa = some v) :
    opts.arch = .amd64 ∧ endianOf eh opts = .little ∧ v.val.toInt = -8 := by
  have he : opts.endian.getD (if eh.bigEndian then .big else .little) = endianOf eh opts := by
    unfold endianOf
    cases opts.endian <;> rfl
  unfold sectionOptions chooseAbi at h
  simp only [he] at h
  cases ha : opts.arch <;> cases hb : endianOf eh opts <;> rw [ha, hb] at h
  · refine ⟨rfl, rfl, ?_⟩
    have h : (SFrameOptions.new.abi Abi.AMD64_ENDIAN_LITTLE |>.fixedRaOffset (some (-8))).fixedRa = some v := h
    have h' : (some ⟨0xF8, by decide⟩ : Option NonZeroI8) = some v := h
    cases h'
    decide
  all_goals exact absurd h (by decide +revert)

theorem wellFormed_distinct {rs : List DwRow} (h : WellFormed rs) :
    (live rs).Pairwise fun r r' => r.start ≠ r'.start := by
  have h1 : (live rs).Pairwise fun r r' => r.end_.toNat ≤ r'.start.toNat := h.2.filter _
  refine h1.imp_of_mem ?_
  intro r r' hr _ hle heq
  have h2 := h.1 r (List.mem_filter.1 hr).1
  have h3 : r.start ≠ r.end_ := by simpa using (List.mem_filter.1 hr).2
  apply h3
  rw [← BitVec.toNat_inj]
  rw [← heq] at hle
  omega

theorem rowsOf_prefix {fde : DwFde} {rs : List DwRow} {rest : List (Except GErr DwRow)}
    (h : fde.rows = .ok (rs.map .ok ++ rest)) : ∃ rs', rowsOf fde = rs ++ rs' := by
  unfold rowsOf
  rw [h]
  simp only [List.filterMap_append, List.filterMap_map]
  refine ⟨rest.filterMap Except.toOption, ?_⟩
  congr 1
  clear h
  induction rs with
  | nil => rfl
  | cons r rs ih => simpa [Except.toOption] using ih

/-- **C47**, what holds for ordinary input: the converter returns.  Missing: other input, on which
it may panic, see above. -/
theorem C47_ordinary_partial (dbg : Bool) (eh : EhFrame) (opts : Options)
    (h : ∀ fde, .ok fde ∈ inputs eh opts.bases → Ordinary eh opts fde) :
    (dwarf2sframe dbg eh opts).Returns := by
  cases hd : dwarf2sframe dbg eh opts with
  | ok r => exact ⟨r, rfl⟩
  | diverge => exact absurd hd dwarf2sframe_terminates
  | panic p =>
    exfalso
    obtain ⟨fdes, fde, rest, hin, _, hp⟩ := dwarf2sframe_panics_iff.1 ⟨p, hd⟩
    have ho := h fde (by rw [hin]; simp)
    cases hp with
    | dump _ h1 => have := h1.2; have := ho.bound; omega
    | row rs x rest' _ _ _ hr _ hx =>
      have hmem : ∀ r, x = .ok r → ∃ rs', rowsOf fde = (rs ++ [r]) ++ rs' := by
        rintro r rfl
        refine rowsOf_prefix (rest := rest') ?_
        rw [hr]
        simp
      rcases hx with ⟨_, r, rfl, hz, hlt⟩ | ⟨r, rfl, hz, hn, hc⟩
      · obtain ⟨rs', hrs⟩ := hmem r rfl
        have : r ∈ live (rowsOf fde) := List.mem_filter.2 ⟨by rw [hrs]; simp, by simpa using hz⟩
        have := (ho.inside r this).1
        omega
      · obtain ⟨rs', hrs⟩ := hmem r rfl
        apply hc
        refine clean_prefix (rs' := rs') ?_
        rw [← hrs]
        refine ⟨?_, wellFormed_distinct ho.order⟩
        intro q hq
        obtain ⟨h1, h2⟩ := ho.inside q hq
        refine ⟨h1, h2, by have := ho.small; omega, ?_⟩
        intro t v ht hv
        obtain ⟨ha, he, hv⟩ := sectionOptions_ra eh opts v hv
        rw [hv]
        exact ho.ra ha he q hq t (by rw [← ha]; exact ht)

/-- The sample function is ordinary. -/
example : Ordinary (Samples.ehOf [Samples.dwFde]) Samples.convOpts Samples.dwFde where
  bound := by decide
  small := by decide
  order := by
    constructor
    · show ∀ r ∈ [Samples.dwRow1, { Samples.dwRow2 with end_ := 0x1001 }, Samples.dwRow2, Samples.dwRow3], _
      simp [Samples.dwRow1, Samples.dwRow2, Samples.dwRow3]
    · show [Samples.dwRow1, { Samples.dwRow2 with end_ := 0x1001 }, Samples.dwRow2, Samples.dwRow3].Pairwise _
      simp [Samples.dwRow1, Samples.dwRow2, Samples.dwRow3]
  inside := by
    show ∀ r ∈ [Samples.dwRow1, Samples.dwRow2, Samples.dwRow3], _
    simp [Samples.dwRow1, Samples.dwRow2, Samples.dwRow3, Samples.dwFde]
  ra := by
    intro _ _
    show ∀ r ∈ [Samples.dwRow1, Samples.dwRow2, Samples.dwRow3], _
    intro r hr t ht
    simp only [List.mem_cons, List.not_mem_nil, or_false] at hr
    rcases hr with rfl | rfl | rfl
    · cases ht; decide
    · cases ht; decide
    · cases ht

/-! ### C48 -/

namespace Spec

/-- A table without the rows of width zero. -/
def dropEmpty (xs : List (Except GErr DwRow)) : List (Except GErr DwRow) :=
  xs.filter fun
    | .ok r => decide (r.start ≠ r.end_)
    | .error _ => true

/-- A section in which every table has lost its rows of width zero. -/
def dropEmptyRows (eh : EhFrame) : EhFrame :=
  { eh with entries := fun bases => (eh.entries bases).map fun
      | .ok (.fde off parse) =>
        .ok (.fde off fun cie => (parse cie).map fun fde => { fde with rows := fde.rows.map dropEmpty })
      | e => e }

end Spec

theorem warn_rows (dbg : Bool) (opts : Options) (fde : DwFde) (xs : Except GErr (List (Except GErr DwRow)))
    (row : DwRow) (msg : WarnMsg) :
    warn dbg opts { fde with rows := xs } row msg = warn dbg opts fde row msg := rfl

theorem convertRow_rows (dbg : Bool) (opts : Options) (fde : DwFde)
    (xs : Except GErr (List (Except GErr DwRow))) (row : DwRow) :
    convertRow dbg opts { fde with rows := xs } row = convertRow dbg opts fde row := rfl

theorem convertRows_drop (dbg : Bool) (opts : Options) (fde : DwFde)
    (ys : Except GErr (List (Except GErr DwRow))) (xs : List (Except GErr DwRow))
    (sfde : FuncDescBuilder) (log : List Warning) :
    convertRows dbg opts { fde with rows := ys } (dropEmpty xs) sfde log
      = convertRows dbg opts fde xs sfde log := by
  induction xs generalizing sfde log with
  | nil => rfl
  | cons x xs ih =>
    cases x with
    | error e => rfl
    | ok r =>
      by_cases hz : r.start = r.end_
      · have h1 : dropEmpty (.ok r :: xs) = dropEmpty xs :=
          List.filter_cons_of_neg (by simpa using hz)
        rw [h1, ih, convertRows, if_pos hz]
      · have h1 : dropEmpty (.ok r :: xs) = .ok r :: dropEmpty xs :=
          List.filter_cons_of_pos (by simpa using hz)
        have h2 : rowStart dbg { fde with rows := ys } r = rowStart dbg fde r := rfl
        rw [h1, convertRows, convertRows, if_neg hz, if_neg hz, h2, convertRow_rows]
        simp only [ih]

theorem convertFde_drop (dbg : Bool) (opts : Options) (st : ConvState) (fde : DwFde) :
    convertFde dbg opts st { fde with rows := fde.rows.map dropEmpty } = convertFde dbg opts st fde := by
  unfold convertFde
  cases hr : fde.rows with
  | error e => rfl
  | ok xs =>
    simp only [Except.map, convertRows_drop]

theorem convertEntries_drop (dbg : Bool) (opts : Options) (eh : EhFrame) (es : List (Except GErr Entry))
    (st : ConvState) :
    convertEntries dbg opts (dropEmptyRows eh)
      ((dropEmptyRows { eh with entries := fun _ => es }).entries opts.bases) st
      = convertEntries dbg opts eh es st := by
  induction es generalizing st with
  | nil => rfl
  | cons x es ih =>
    cases x with
    | error e => rfl
    | ok x =>
      cases x with
      | cie => exact ih st
      | fde off parse =>
        show convertEntries dbg opts (dropEmptyRows eh) (.ok (.fde off fun cie => (parse cie).map
          fun fde => { fde with rows := fde.rows.map dropEmpty }) ::
          (dropEmptyRows { eh with entries := fun _ => es }).entries opts.bases) st = _
        rw [convertEntries, convertEntries]
        have h1 : lookupCie opts (dropEmptyRows eh) st.cies off = lookupCie opts eh st.cies off := rfl
        rw [h1]
        cases parse (lookupCie opts eh st.cies off).1 with
        | error e => rfl
        | ok fde =>
          show ((convertFde dbg opts _ { fde with rows := fde.rows.map dropEmpty }).bind _) = _
          rw [convertFde_drop]
          simp only
          generalize convertFde dbg opts _ fde = r
          rcases r with (e | st') | p | _
          · rfl
          · exact ih _
          · rfl
          · rfl

/-- **C48.**  Dropping all rows of width zero from the input changes nothing: same section, same
warnings, same error, same panic. -/
theorem C48_zero_width (dbg : Bool) (eh : EhFrame) (opts : Options) :
    dwarf2sframeLog dbg (dropEmptyRows eh) opts = dwarf2sframeLog dbg eh opts ∧
    dwarf2sframe dbg (dropEmptyRows eh) opts = dwarf2sframe dbg eh opts := by
  have h : dwarf2sframeLog dbg (dropEmptyRows eh) opts = dwarf2sframeLog dbg eh opts := by
    unfold dwarf2sframeLog
    have := convertEntries_drop dbg opts eh (eh.entries opts.bases)
      { sframe := SFrameBuilder.new (sectionOptions eh opts), cies := [], log := [] }
    rw [← this]
    rfl
  exact ⟨h, by unfold dwarf2sframe; rw [h]⟩

/-- The sample function has a row of width zero, even at the place of another one. -/
example : dropEmpty [.ok Samples.dwRow1, .ok { Samples.dwRow2 with end_ := 0x1001 }, .ok Samples.dwRow2]
    = [.ok Samples.dwRow1, .ok Samples.dwRow2] := by
  simp [dropEmpty, Samples.dwRow1, Samples.dwRow2]

/-! ### C49 -/

theorem convertible_congr {so : SFrameOptions} {opts opts' : Options} {fde : DwFde}
    (ha : opts.arch = opts'.arch) (hd : DumpOk opts fde ↔ DumpOk opts' fde) :
    Convertible so opts fde ↔ Convertible so opts' fde :=
  ⟨fun h => ⟨hd.1 h.dump, h.start, h.len, h.rows, ha ▸ h.clean⟩,
   fun h => ⟨hd.2 h.dump, h.start, h.len, h.rows, ha ▸ h.clean⟩⟩

/-- **C49, warnings.**  Switching the warnings on or off changes neither the section, nor the error,
nor whether the converter panics. -/
theorem C49_warnings (dbg w : Bool) (eh : EhFrame) (opts : Options) :
    (∀ r, dwarf2sframe dbg eh { opts with warnings := w } = .ok r ↔ dwarf2sframe dbg eh opts = .ok r) ∧
    ((dwarf2sframe dbg eh { opts with warnings := w }).Panics ↔ (dwarf2sframe dbg eh opts).Panics) := by
  have hso : sectionOptions eh { opts with warnings := w } = sectionOptions eh opts := rfl
  have hc : ∀ so fde, Convertible so { opts with warnings := w } fde ↔ Convertible so opts fde :=
    fun so fde => convertible_congr rfl Iff.rfl
  have hf : ∀ so fde e, FdeFails dbg so { opts with warnings := w } fde e ↔ FdeFails dbg so opts fde e := by
    intro so fde e
    constructor
    · intro h
      cases h with
      | dump g h1 h2 h3 => exact .dump g h1 h2 h3
      | start h1 h2 h3 => exact .start h1 h2 h3
      | len h1 h2 h3 h4 => exact .len h1 h2 h3 h4
      | table g h1 h2 h3 h4 => exact .table g h1 h2 h3 h4
      | row rs x rest _ h1 h2 h3 h4 h5 h6 h7 => exact .row rs x rest e h1 h2 h3 h4 h5 h6 h7
    · intro h
      cases h with
      | dump g h1 h2 h3 => exact .dump g h1 h2 h3
      | start h1 h2 h3 => exact .start h1 h2 h3
      | len h1 h2 h3 h4 => exact .len h1 h2 h3 h4
      | table g h1 h2 h3 h4 => exact .table g h1 h2 h3 h4
      | row rs x rest _ h1 h2 h3 h4 h5 h6 h7 => exact .row rs x rest e h1 h2 h3 h4 h5 h6 h7
  have hp : ∀ so fde, FdePanics dbg so { opts with warnings := w } fde ↔ FdePanics dbg so opts fde := by
    intro so fde
    constructor
    · intro h
      cases h with
      | dump h1 h2 => exact .dump h1 h2
      | row rs x rest h1 h2 h3 h4 h5 h6 => exact .row rs x rest h1 h2 h3 h4 h5 h6
    · intro h
      cases h with
      | dump h1 h2 => exact .dump h1 h2
      | row rs x rest h1 h2 h3 h4 h5 h6 => exact .row rs x rest h1 h2 h3 h4 h5 h6
  refine ⟨fun r => ?_, ?_⟩
  · cases r with
    | ok b =>
      rw [dwarf2sframe_ok_iff, dwarf2sframe_ok_iff, hso]
      simp only [hc]
      rfl
    | error e =>
      rw [dwarf2sframe_error_iff, dwarf2sframe_error_iff, hso]
      simp only [hc, Blame, hf]
  · rw [dwarf2sframe_panics_iff, dwarf2sframe_panics_iff, hso]
    simp only [hc, hp]

/-- With warnings on, the sample has a warning. -/
example : dwarf2sframeLog true (Samples.ehOf [Samples.dwFde]) { Samples.convOpts with warnings := true }
    = .ok (.ok ({ options := Samples.opts, fdes := [(0x1000, Samples.convFn)] },
      [{ start := 0x1000, offset := 0x10, digits := 4, msg := .cfaExpression }])) := by decide +kernel

/-- **C49 is false of the code** for `debugdump`: an expression that cannot be decoded in an
instruction makes the converter fail only if the dump is on. -/
theorem C49_dump_error (dbg : Bool) : ∃ (eh : EhFrame) (opts : Options),
    (dwarf2sframe dbg eh { opts with debugdump := true }
      = .ok (.error (.invalidDwarfFde ⟨5⟩))) ∧
    ∃ b, dwarf2sframe dbg eh { opts with debugdump := false } = .ok (.ok b) := by
  refine ⟨Samples.ehOf [{ Samples.dwFde with instructions := [.ok (.defCfaExpression [.ok .abs, .error ⟨5⟩])] }],
    Samples.convOpts, ?_, { options := Samples.opts, fdes := [(0x1000, Samples.convFn)] }, ?_⟩
  · cases dbg <;> decide +kernel
  · cases dbg <;> decide +kernel

/-- **C49 is false of the code** for `debugdump`: in debug builds, printing the end of a function
that ends beyond 2^64 panics, where without the dump an error is returned. -/
theorem C49_dump_panics : ∃ (eh : EhFrame) (opts : Options),
    (dwarf2sframe true eh { opts with debugdump := true }).Panics ∧
    dwarf2sframe true eh { opts with debugdump := false }
      = .ok (.error (.invalidStartAddress 0xFFFFFFFFFFFFFFFF)) :=
  ⟨Samples.ehOf [{ Samples.dwFde with initial := 0xFFFFFFFFFFFFFFFF }], Samples.convOpts,
    ⟨.overflow, by decide +kernel⟩, by decide +kernel⟩

/-- **C49**, what holds of `debugdump`: if the instructions of every function can be dumped, and, in
debug builds, no function ends beyond 2^64, then switching the dump on or off changes neither the
section, nor the error, nor whether the converter panics; and a section converted with the dump on
is converted alike with it off, whatever the input.  Missing: the other inputs, see above. -/
theorem C49_dump_partial (dbg : Bool) (eh : EhFrame) (opts : Options) :
    (∀ b, dwarf2sframe dbg eh { opts with debugdump := true } = .ok (.ok b) →
      dwarf2sframe dbg eh { opts with debugdump := false } = .ok (.ok b)) ∧
    ((∀ fde, .ok fde ∈ inputs eh opts.bases → dumpError fde = none ∧
        (dbg = true → fde.initial.toNat + fde.len.toNat < 2 ^ 64)) →
      (∀ r, dwarf2sframe dbg eh { opts with debugdump := true } = .ok r ↔
        dwarf2sframe dbg eh { opts with debugdump := false } = .ok r) ∧
      ((dwarf2sframe dbg eh { opts with debugdump := true }).Panics ↔
        (dwarf2sframe dbg eh { opts with debugdump := false }).Panics)) := by
  have hoff : ∀ fde, DumpOk { opts with debugdump := false } fde := fun fde h => by cases h
  have hov : ∀ fde, ¬ (dbg = true ∧ DumpOverflows { opts with debugdump := false } fde) := by
    rintro fde ⟨_, h, _⟩; cases h
  constructor
  · intro b h
    rw [dwarf2sframe_ok_iff] at h ⊢
    obtain ⟨fdes, h1, h2, h3⟩ := h
    exact ⟨fdes, h1, fun fde hf => ⟨hoff fde, (h2 fde hf).start, (h2 fde hf).len, (h2 fde hf).rows,
      (h2 fde hf).clean⟩, h3⟩
  · intro hall
    let on := { opts with debugdump := true }
    let off := { opts with debugdump := false }
    have hc : ∀ so fde, .ok fde ∈ inputs eh opts.bases → (Convertible so on fde ↔ Convertible so off fde) :=
      fun so fde hm => convertible_congr rfl ⟨fun _ => hoff fde, fun _ _ => (hall fde hm).1⟩
    have hov' : ∀ fde, .ok fde ∈ inputs eh opts.bases → ¬ (dbg = true ∧ DumpOverflows on fde) := by
      rintro fde hm ⟨hdbg, _, h⟩
      have := (hall fde hm).2 hdbg
      omega
    have hf : ∀ so fde e, .ok fde ∈ inputs eh opts.bases → (FdeFails dbg so on fde e ↔ FdeFails dbg so off fde e) := by
      intro so fde e hm
      have hd : DumpOk on fde := fun _ => (hall fde hm).1
      constructor
      · intro h
        cases h with
        | dump g h1 h2 h3 => rw [(hall fde hm).1] at h3; cases h3
        | start h1 h2 h3 => exact .start (hov fde) (hoff fde) h3
        | len h1 h2 h3 h4 => exact .len (hov fde) (hoff fde) h3 h4
        | table g h1 h2 h3 h4 => exact .table g (hoff fde) h2 h3 h4
        | row rs x rest _ h1 h2 h3 h4 h5 h6 h7 => exact .row rs x rest e (hoff fde) h2 h3 h4 h5 h6 h7
      · intro h
        cases h with
        | dump g h1 h2 h3 => cases h1
        | start h1 h2 h3 => exact .start (hov' fde hm) hd h3
        | len h1 h2 h3 h4 => exact .len (hov' fde hm) hd h3 h4
        | table g h1 h2 h3 h4 => exact .table g hd h2 h3 h4
        | row rs x rest _ h1 h2 h3 h4 h5 h6 h7 => exact .row rs x rest e hd h2 h3 h4 h5 h6 h7
    have hp : ∀ so fde, .ok fde ∈ inputs eh opts.bases → (FdePanics dbg so on fde ↔ FdePanics dbg so off fde) := by
      intro so fde hm
      have hd : DumpOk on fde := fun _ => (hall fde hm).1
      constructor
      · intro h
        cases h with
        | dump h1 h2 => exact absurd ⟨h1, h2⟩ (hov' fde hm)
        | row rs x rest h1 h2 h3 h4 h5 h6 => exact .row rs x rest (hoff fde) h2 h3 h4 h5 h6
      · intro h
        cases h with
        | dump h1 h2 => exact absurd ⟨h1, h2⟩ (hov fde)
        | row rs x rest h1 h2 h3 h4 h5 h6 => exact .row rs x rest hd h2 h3 h4 h5 h6
    have hso : sectionOptions eh on = sectionOptions eh off := rfl
    refine ⟨fun r => ?_, ?_⟩
    · cases r with
      | ok b =>
        rw [dwarf2sframe_ok_iff, dwarf2sframe_ok_iff]
        constructor
        · rintro ⟨fdes, h1, h2, h3⟩
          have h1 : inputs eh opts.bases = fdes.map .ok := h1
          exact ⟨fdes, h1, fun fde hf => (hc _ fde (by rw [h1]; exact List.mem_map_of_mem hf)).1 (h2 fde hf), h3⟩
        · rintro ⟨fdes, h1, h2, h3⟩
          have h1 : inputs eh opts.bases = fdes.map .ok := h1
          exact ⟨fdes, h1, fun fde hf => (hc _ fde (by rw [h1]; exact List.mem_map_of_mem hf)).2 (h2 fde hf), h3⟩
      | error e =>
        rw [dwarf2sframe_error_iff, dwarf2sframe_error_iff]
        constructor
        · rintro ⟨fdes, x, rest, h1, h2, h3⟩
          have h1 : inputs eh opts.bases = fdes.map .ok ++ x :: rest := h1
          refine ⟨fdes, x, rest, h1, fun fde hf => (hc _ fde (by rw [h1]; simp [hf])).1 (h2 fde hf), ?_⟩
          rcases h3 with h3 | ⟨fde, rfl, h3⟩
          · exact .inl h3
          · exact .inr ⟨fde, rfl, (hf _ fde e (by rw [h1]; simp)).1 h3⟩
        · rintro ⟨fdes, x, rest, h1, h2, h3⟩
          have h1 : inputs eh opts.bases = fdes.map .ok ++ x :: rest := h1
          refine ⟨fdes, x, rest, h1, fun fde hf => (hc _ fde (by rw [h1]; simp [hf])).2 (h2 fde hf), ?_⟩
          rcases h3 with h3 | ⟨fde, rfl, h3⟩
          · exact .inl h3
          · exact .inr ⟨fde, rfl, (hf _ fde e (by rw [h1]; simp)).2 h3⟩
    · rw [dwarf2sframe_panics_iff, dwarf2sframe_panics_iff]
      constructor
      · rintro ⟨fdes, fde, rest, h1, h2, h3⟩
        have h1 : inputs eh opts.bases = fdes.map .ok ++ .ok fde :: rest := h1
        exact ⟨fdes, fde, rest, h1, fun fde hf => (hc _ fde (by rw [h1]; simp [hf])).1 (h2 fde hf),
          (hp _ fde (by rw [h1]; simp)).1 h3⟩
      · rintro ⟨fdes, fde, rest, h1, h2, h3⟩
        have h1 : inputs eh opts.bases = fdes.map .ok ++ .ok fde :: rest := h1
        exact ⟨fdes, fde, rest, h1, fun fde hf => (hc _ fde (by rw [h1]; simp [hf])).2 (h2 fde hf),
          (hp _ fde (by rw [h1]; simp)).2 h3⟩

/-- The sample meets the condition. -/
example : dumpError Samples.dwFde = none ∧
    Samples.dwFde.initial.toNat + Samples.dwFde.len.toNat < 2 ^ 64 := by decide +kernel

end Verif
