import Verif.Proofs.Convert
/-!
# The converter: C43 to C46, C50, C51
-/

namespace Verif
open Spec

namespace Samples

/-- Register rules of an amd64 row: frame pointer, return address. -/
def x86Regs (fp ra : RegRule) : List (Reg × RegRule) := [(6, fp), (16, ra)]

/-- `push rbp`: CFA is rsp + 16, rbp saved at CFA - 16. -/
def dwRow1 : DwRow :=
  { start := 0x1000, end_ := 0x1001, cfa := .registerAndOffset 7 8, registers := x86Regs .undefined (.offset (-8)) }

@[inherit_doc dwRow1] def dwRow2 : DwRow :=
  { start := 0x1001, end_ := 0x1010, cfa := .registerAndOffset 7 16, registers := x86Regs (.offset (-16)) (.offset (-8)) }

/-- A row whose CFA is an expression. -/
def dwRow3 : DwRow :=
  { start := 0x1010, end_ := 0x1020, cfa := .expression [], registers := x86Regs .undefined (.offset (-8)) }

/-- A function with these rows and one of width zero. -/
def dwFde : DwFde :=
  { initial := 0x1000, len := 0x20, instructions := [.ok .nop],
    rows := .ok [.ok dwRow1, .ok { dwRow2 with end_ := 0x1001 }, .ok dwRow2, .ok dwRow3] }

/-- A section with this function only. -/
def ehOf (fdes : List DwFde) : EhFrame :=
  { bigEndian := false
    entries := fun _ => .ok .cie :: fdes.map fun fde => .ok (.fde 0 fun | .ok _ => .ok fde | .error e => .error e)
    cieFromOffset := fun _ _ => .ok ⟨[]⟩ }

/-- Options without merging. -/
def convOpts : Options := { Options.new .amd64 Bases.default with mergeFres := false, mergeFdes := false }

/-- What becomes of the function. -/
def convFn : FuncDescBuilder :=
  { options := opts, startAddress := 0x1000, size := 0x20, repSize := none, pauthKey := .A,
    fres := [(0, ⟨0, some ⟨8, none, none⟩, false, .sp⟩), (1, ⟨1, some ⟨16, none, some (-16)⟩, false, .sp⟩),
      (16, ⟨16, none, false, .fp⟩)] }

end Samples

example (dbg : Bool) : dwarf2sframe dbg (Samples.ehOf [Samples.dwFde]) Samples.convOpts
    = .ok (.ok { options := Samples.opts, fdes := [(0x1000, Samples.convFn)] }) := by
  cases dbg <;> decide +kernel

/-! ### The functions of the output -/

theorem addAll_get (so : SFrameOptions) (opts : Options) (m : BMap I32 FuncDescBuilder)
    (hm : m.Sorted ordI32) (fdes : List DwFde) (k : I32) :
    (addAll so opts m fdes).get ordI32 k =
      ((fdes.reverse.find? fun fde => decide (fde.initial.setWidth 32 = k)).map (fnFor so opts)).or
        (m.get ordI32 k) := by
  induction fdes generalizing m with
  | nil => rfl
  | cons fde fdes ih =>
    rw [show addAll so opts m (fde :: fdes)
      = addAll so opts (m.insert ordI32 (fde.initial.setWidth 32) (fnFor so opts fde)) fdes from rfl,
      ih _ (BMap.insert_sorted hm), BMap.get_insert hm, List.reverse_cons, List.find?_append]
    cases fdes.reverse.find? _ with
    | some f => rfl
    | none =>
      simp only [Option.map_none, Option.none_or, List.find?_cons, List.find?_nil, ordI32_inj]
      by_cases h : fde.initial.setWidth 32 = k
      · rw [if_pos h.symm]; simp [h]
      · rw [if_neg (Ne.symm h)]; simp [h]

theorem setWidth_inj {x y : U64} (hx : x.toNat ≤ 2147483647) (hy : y.toNat ≤ 2147483647) :
    (x.setWidth 32 : I32) = y.setWidth 32 ↔ x = y := by
  rw [← BitVec.toNat_inj, ← BitVec.toNat_inj, BitVec.toNat_setWidth, BitVec.toNat_setWidth]
  omega

/-- The functions of the output are the conversions of the last inputs with each start. -/
theorem mem_functions {so opts fdes} (hs : ∀ fde ∈ fdes, fde.initial.toNat ≤ 2147483647)
    (f : FuncDescBuilder) :
    f ∈ functions (outputOf so opts fdes) ↔ ∃ fde, LastWith fdes fde ∧ f = fnFor so opts fde := by
  have hsort : (addAll so opts [] fdes).Sorted ordI32 := output_sorted (b := SFrameBuilder.new so)
    (by simp [SFrameBuilder.new, BMap.Sorted])
  have hget := addAll_get so opts [] (by simp [BMap.Sorted]) fdes
  have hmem : f ∈ functions (outputOf so opts fdes) ↔ ∃ k, (k, f) ∈ addAll so opts [] fdes := by
    simp only [functions, List.mem_map, outputOf, SFrameBuilder.more, SFrameBuilder.new]
    constructor
    · rintro ⟨e, he, rfl⟩; exact ⟨e.1, he⟩
    · rintro ⟨k, hk⟩; exact ⟨_, hk, rfl⟩
  rw [hmem]
  have hiff : ∀ k fde, (fdes.reverse.find? fun fde => decide (fde.initial.setWidth 32 = k)) = some fde ↔
      LastWith fdes fde ∧ fde.initial.setWidth 32 = k := by
    intro k fde
    rw [List.find?_eq_some_iff_append]
    constructor
    · rintro ⟨hk, as, bs, hrev, hall⟩
      have hk : fde.initial.setWidth 32 = k := by simpa using hk
      have heq : fdes = bs.reverse ++ fde :: as.reverse := by
        rw [← List.reverse_reverse fdes, hrev]; simp
      refine ⟨⟨bs.reverse, as.reverse, heq, ?_⟩, hk⟩
      intro g hg hgi
      have := hall g (by simpa using hg)
      simp [hgi, hk] at this
    · rintro ⟨⟨pre, post, heq, hall⟩, hk⟩
      refine ⟨by simpa using hk, post.reverse, pre.reverse, by rw [heq]; simp, ?_⟩
      intro g hg
      have hg : g ∈ post := by simpa using hg
      have h1 := hs g (by rw [heq]; simp [hg])
      have h2 := hs fde (by rw [heq]; simp)
      simp only [Bool.not_eq_true', decide_eq_false_iff_not]
      rw [← hk, setWidth_inj h1 h2]
      exact hall g hg
  constructor
  · rintro ⟨k, hk⟩
    rw [← BMap.get_eq_some_iff injI32 hsort, hget] at hk
    simp only [BMap.get, Option.or_none, Option.map_eq_some_iff] at hk
    obtain ⟨fde, h1, h2⟩ := hk
    exact ⟨fde, ((hiff k fde).1 h1).1, h2.symm⟩
  · rintro ⟨fde, h1, rfl⟩
    refine ⟨fde.initial.setWidth 32, ?_⟩
    rw [← BMap.get_eq_some_iff injI32 hsort, hget, (hiff _ fde).2 ⟨h1, rfl⟩]
    rfl

/-- Among the inputs with the same start there is a last one. -/
theorem exists_last {fdes : List DwFde} {a : U64} (h : ∃ f ∈ fdes, f.initial = a) :
    ∃ fde, LastWith fdes fde ∧ fde.initial = a := by
  induction fdes with
  | nil => obtain ⟨f, hf, _⟩ := h; cases hf
  | cons g fdes ih =>
    by_cases hex : ∃ f ∈ fdes, f.initial = a
    · obtain ⟨fde, ⟨pre, post, heq, hall⟩, hi⟩ := ih hex
      exact ⟨fde, ⟨g :: pre, post, by rw [heq]; rfl, hall⟩, hi⟩
    · obtain ⟨f, hf, hfi⟩ := h
      rcases List.mem_cons.1 hf with rfl | hf
      · exact ⟨f, ⟨[], fdes, rfl, fun g hg hgi => hex ⟨g, hg, hgi.trans hfi⟩⟩, hfi⟩
      · exact absurd ⟨f, hf, hfi⟩ hex

theorem Spec.LastWith.mem {fdes : List DwFde} {fde : DwFde} (h : LastWith fdes fde) : fde ∈ fdes := by
  obtain ⟨pre, post, rfl, _⟩ := h
  simp

theorem fnFor_start {so opts fde} (h : Convertible so opts fde) :
    (fnFor so opts fde).startAddress.toInt = fde.initial.toNat := by
  rw [(fnFor_fields so opts fde).2.1]
  exact setWidth_toInt h.start

theorem fnFor_size {so opts fde} (h : Convertible so opts fde) :
    (fnFor so opts fde).size.toNat = fde.len.toNat := by
  rw [(fnFor_fields so opts fde).2.2.1, BitVec.toNat_setWidth]
  have := h.len
  omega

/-! ### C43 -/

/-- **C43.** -/
theorem C43_options (dbg : Bool) (eh : EhFrame) (opts : Options) (b : SFrameBuilder)
    (h : dwarf2sframe dbg eh opts = .ok (.ok b)) :
    b.options.abiArch.toNat = abiCode opts.arch (endianOf eh opts) ∧
    (b.options.fixedRa.map fun v => v.val.toInt)
      = (if opts.arch = .amd64 ∧ endianOf eh opts = .little then some (-8) else none) ∧
    b.options.fixedFp = none ∧ b.options.flags = 1 := by
  obtain ⟨_, _, _, rfl⟩ := dwarf2sframe_ok_iff.1 h
  show (sectionOptions eh opts).abiArch.toNat = _ ∧ ((sectionOptions eh opts).fixedRa.map _) = _ ∧
    (sectionOptions eh opts).fixedFp = _ ∧ (sectionOptions eh opts).flags = _
  have he : opts.endian.getD (if eh.bigEndian then .big else .little) = endianOf eh opts := by
    unfold endianOf
    cases opts.endian <;> rfl
  unfold sectionOptions chooseAbi
  simp only [he]
  cases opts.arch <;> cases endianOf eh opts <;> decide +kernel

/-! ### C44 -/

/-- **C44.**  The converter reports an error exactly if there is a first input that is not converted
and it is one that cannot be parsed (`x = .error e`) or whose function is reported (`FdeFails`). -/
theorem C44_error (dbg : Bool) (eh : EhFrame) (opts : Options) (e : ConvError) :
    dwarf2sframe dbg eh opts = .ok (.error e) ↔
      ∃ (fdes : List DwFde) (x : _) (rest : _), inputs eh opts.bases = fdes.map .ok ++ x :: rest ∧
        (∀ fde ∈ fdes, Convertible (sectionOptions eh opts) opts fde) ∧
        Blame dbg (sectionOptions eh opts) opts x e :=
  dwarf2sframe_error_iff

/-- No partial result: success means that every entry was parsed and every function converted. -/
theorem C44_no_partial_result (dbg : Bool) (eh : EhFrame) (opts : Options) (b : SFrameBuilder)
    (h : dwarf2sframe dbg eh opts = .ok (.ok b)) :
    (∀ x ∈ eh.entries opts.bases, x.isOk) ∧
    ∀ x ∈ inputs eh opts.bases, ∃ fde, x = .ok fde ∧ fde.initial.toNat ≤ 2147483647 ∧
      fde.len.toNat ≤ 2147483647 ∧ ∃ f ∈ functions b, f.startAddress.toInt = fde.initial.toNat := by
  obtain ⟨fdes, hin, hc, rfl⟩ := dwarf2sframe_ok_iff.1 h
  constructor
  · intro x hx
    cases x with
    | ok _ => rfl
    | error g =>
      exfalso
      have : Except.error (ConvError.invalidEhFrameEntry g) ∈ inputs eh opts.bases :=
        List.mem_filterMap.2 ⟨_, hx, rfl⟩
      rw [hin] at this
      simp at this
  · intro x hx
    rw [hin] at hx
    obtain ⟨fde, hf, rfl⟩ := List.mem_map.1 hx
    refine ⟨fde, rfl, (hc fde hf).start, (hc fde hf).len, ?_⟩
    obtain ⟨fde', hl, hi⟩ := exists_last ⟨fde, hf, rfl⟩
    refine ⟨_, (mem_functions (fun g hg => (hc g hg).start) _).2 ⟨fde', hl, rfl⟩, ?_⟩
    rw [fnFor_start (hc fde' hl.mem), hi]

/-- The named errors of the first function that is not converted. -/
theorem C44_named (dbg : Bool) (eh : EhFrame) (opts : Options) (fdes : List DwFde) (fde : DwFde)
    (rest : List (Except ConvError DwFde)) (hd : opts.debugdump = false)
    (hin : inputs eh opts.bases = fdes.map .ok ++ .ok fde :: rest)
    (hc : ∀ fde ∈ fdes, Convertible (sectionOptions eh opts) opts fde) :
    (2147483647 < fde.initial.toNat →
      dwarf2sframe dbg eh opts = .ok (.error (.invalidStartAddress fde.initial))) ∧
    (fde.initial.toNat ≤ 2147483647 → 2147483647 < fde.len.toNat →
      dwarf2sframe dbg eh opts = .ok (.error (.invalidFunctionLength fde.initial fde.len))) ∧
    (fde.initial.toNat ≤ 2147483647 → fde.len.toNat ≤ 2147483647 →
      ∀ g, fde.rows = .error g → dwarf2sframe dbg eh opts = .ok (.error (.invalidUnwindTable g))) := by
  have hno : ¬ (dbg = true ∧ DumpOverflows opts fde) := by
    rintro ⟨_, h, _⟩; rw [hd] at h; cases h
  have hok : DumpOk opts fde := by intro h; rw [hd] at h; cases h
  refine ⟨fun h1 => ?_, fun h1 h2 => ?_, fun h1 h2 g hg => ?_⟩
  · exact dwarf2sframe_error_iff.2 ⟨fdes, _, rest, hin, hc, .inr ⟨fde, rfl, .start hno hok h1⟩⟩
  · exact dwarf2sframe_error_iff.2 ⟨fdes, _, rest, hin, hc, .inr ⟨fde, rfl, .len hno hok h1 h2⟩⟩
  · exact dwarf2sframe_error_iff.2 ⟨fdes, _, rest, hin, hc, .inr ⟨fde, rfl, .table g hok h1 h2 hg⟩⟩

/-- One function converted, then one that starts beyond `i32::MAX`; and a broken entry. -/
example (dbg : Bool) :
    dwarf2sframe dbg (Samples.ehOf [Samples.dwFde, { Samples.dwFde with initial := 0x80000000 }])
      Samples.convOpts = .ok (.error (.invalidStartAddress 0x80000000)) ∧
    dwarf2sframe dbg { Samples.ehOf [] with entries := fun _ => [.ok .cie, .error ⟨7⟩] }
      Samples.convOpts = .ok (.error (.invalidEhFrameEntry ⟨7⟩)) := by
  cases dbg <;> decide +kernel

/-! ### C45 -/

/-- Reading the stored row back with the header in mind gives the rules of the DWARF row. -/
theorem meaning_stored {so : SFrameOptions} {arch : Architecture} {fde : DwFde} {r : DwRow}
    (hfp : so.fixedFp = none) (hp : Placed so arch fde r) :
    meaning so (storedRow so (rowOf arch fde r)) = translate arch r := by
  unfold meaning storedRow rowOf
  cases ht : translate arch r with
  | none => rfl
  | some t =>
    obtain ⟨h1, h2, h3⟩ := translate_fits ht
    have hfpv : (t.fp.map (BitVec.ofInt 32)).map BitVec.toInt = t.fp := by
      cases hv : t.fp with
      | none => rfl
      | some v => simp only [Option.map_some, toInt_ofInt_fits (h3 v hv)]
    cases hra : so.fixedRa with
    | none => simp [hfp, toInt_ofInt_fits h1, toInt_ofInt_fits h2, Option.map_map] at hfpv ⊢; rw [hfpv]
    | some v =>
      have := hp.ra t v ht hra
      simp [hfp, toInt_ofInt_fits h1, Option.map_map, ← this] at hfpv ⊢
      rw [hfpv]

/-- **C45, one row.**  The rules of a row that starts near its function are kept exactly if SFrame
can express them; otherwise the row is given up with a warning (and becomes an invalid row). -/
theorem C45_row (dbg : Bool) (opts : Options) (fde : DwFde) (row : DwRow)
    (hi : fde.initial.toNat ≤ 2147483647) (hn : Near fde row)
    (hl : opts.warnings = true → fde.len ≠ 0) :
    (∀ t, translate opts.arch row = some t → ∃ r x, convertRow dbg opts fde row = .ok (.ok r) ∧
      r.startAddress.toNat = row.start.toNat - fde.initial.toNat ∧ r.baseReg = t.base ∧
      r.mangled = false ∧ r.offsets = some x ∧ x.cfa.toInt = t.cfa ∧
      x.ra.map BitVec.toInt = some t.ra ∧ x.fp.map BitVec.toInt = t.fp) ∧
    (translate opts.arch row = none → ∃ w, convertRow dbg opts fde row = .ok (.error (.warning w))) := by
  have hs : rowStart dbg fde row
      = .ok (.ok (BitVec.ofNat 32 (row.start.toNat - fde.initial.toNat))) := by
    rcases rowStart_cases dbg fde row hi with ⟨_, _, h⟩ | ⟨_, h, _⟩ | ⟨h, _⟩
    · exact absurd hn h
    · exact absurd hn h
    · exact h
  rcases convertRow_spec dbg opts fde row hs with ⟨hsome, _, h⟩ | ⟨msg, ht, _, h⟩
  · refine ⟨fun t ht => ?_, fun ht => by rw [ht] at hsome; cases hsome⟩
    obtain ⟨h1, h2, h3⟩ := translate_fits ht
    refine ⟨rowOf opts.arch fde row, ⟨BitVec.ofInt 32 t.cfa, some (BitVec.ofInt 32 t.ra), t.fp.map (BitVec.ofInt 32)⟩,
      h, rowOf_start hn, ?_, rfl, ?_, toInt_ofInt_fits h1, ?_, ?_⟩
    · simp only [rowOf, ht]
    · simp only [rowOf, ht]; rfl
    · simp only [Option.map_some, toInt_ofInt_fits h2]
    · cases hv : t.fp with
      | none => rfl
      | some v => simp only [Option.map_some, toInt_ofInt_fits (h3 v hv)]
  · refine ⟨fun t ht' => (by rw [ht] at ht'; cases ht'), fun _ => ?_⟩
    rw [h, warnErr_near _ _ _ _ _ hn]
    split
    · exact ⟨_, rfl⟩
    · rename_i hw
      have hl : fde.len ≠ 0#64 := hl (by simpa using hw)
      rw [if_neg hl]
      exact ⟨_, rfl⟩

/-- **C45.**  Without merging, the rows of each converted function are, in ascending order, exactly
the rows of the DWARF function of nonzero width, each at its own offset and with its own rules, or
without rules if SFrame cannot express them. -/
theorem C45_rows (dbg : Bool) (eh : EhFrame) (opts : Options) (b : SFrameBuilder)
    (h : dwarf2sframe dbg eh opts = .ok (.ok b)) (hm : opts.mergeFres = false)
    (f : FuncDescBuilder) (hf : f ∈ functions b) :
    ∃ fde, .ok fde ∈ inputs eh opts.bases ∧ f.startAddress.toInt = fde.initial.toNat ∧
      f.size.toNat = fde.len.toNat ∧ RowsAscending (rows f) ∧
      ((rows f).map fun r => (r.startAddress.toNat, meaning b.options r)).Perm
        ((live (rowsOf fde)).map fun r =>
          (r.start.toNat - fde.initial.toNat, translate opts.arch r)) := by
  obtain ⟨fdes, hin, hc, rfl⟩ := dwarf2sframe_ok_iff.1 h
  obtain ⟨fde, hl, rfl⟩ := (mem_functions (fun g hg => (hc g hg).start) _).1 hf
  have hcv := hc fde hl.mem
  have hfp := sectionOptions_fp eh opts
  have hg := (good_iff hfp hcv.start hcv.len).2 hcv.clean
  refine ⟨fde, by rw [hin]; exact List.mem_map_of_mem hl.mem, fnFor_start hcv, fnFor_size hcv,
    rows_ascending (fnFor_inv hfp hcv), ?_⟩
  have he : fnFor (sectionOptions eh opts) opts fde
      = built (sectionOptions eh opts) opts.arch fde (rowsOf fde) := by
    unfold fnFor; rw [hm]; rfl
  rw [he]
  refine (hg.perm.map _).trans ?_
  rw [List.map_map]
  refine .of_eq (List.map_congr_left fun r hr => ?_)
  have hp := hcv.clean.placed r hr
  exact Prod.ext (rowOf_start (arch := opts.arch) hp.near) (meaning_stored hfp hp)

/-- The rules of the three rows of the sample: two kept, one not expressible. -/
example : translate .amd64 Samples.dwRow1 = some ⟨.sp, 8, none, -8⟩ ∧
    translate .amd64 Samples.dwRow2 = some ⟨.sp, 16, some (-16), -8⟩ ∧
    translate .amd64 Samples.dwRow3 = none ∧
    (rows Samples.convFn).map (fun r => (r.startAddress.toNat, meaning Samples.opts r))
      = [(0, some ⟨.sp, 8, none, -8⟩), (1, some ⟨.sp, 16, some (-16), -8⟩), (16, none)] := by
  decide +kernel

/-! ### C46 -/

theorem meaning_rule {so : SFrameOptions} {r r' : FrameRowBuilder} (h : rule r = rule r') :
    meaning so r = meaning so r' ∧ r.mangled = r'.mangled := by
  have h := (sameRule_iff r r').2 h
  obtain ⟨a, b, c, d⟩ := r
  obtain ⟨a', b', c', d'⟩ := r'
  simp only [SameRule, FrameRowBuilder.mk.injEq, true_and] at h
  obtain ⟨rfl, rfl, rfl⟩ := h
  exact ⟨rfl, rfl⟩

/-- In an ascending list the governing row is the one at or before the offset with none between. -/
theorem governing_of {rs : List FrameRowBuilder} {r : FrameRowBuilder} {off : Nat}
    (hs : RowsAscending rs) (hr : r ∈ rs) (hle : r.startAddress.toNat ≤ off)
    (hno : ∀ r' ∈ rs, r'.startAddress.toNat ≤ off → r'.startAddress.toNat ≤ r.startAddress.toNat) :
    governingRow rs off = some r := by
  obtain ⟨l1, l2, rfl⟩ := List.append_of_mem hr
  unfold RowsAscending at hs
  rw [List.pairwise_append] at hs
  have h2 := List.pairwise_cons.1 hs.2.1
  unfold governingRow
  rw [List.filter_append, List.filter_cons_of_pos (by simpa using hle)]
  have : l2.filter (fun r => decide (r.startAddress.toNat ≤ off)) = [] := by
    rw [List.filter_eq_nil_iff]
    intro x hx
    have h3 := h2.1 x hx
    have h4 := hno x (by simp [hx])
    simp only [decide_eq_true_eq]
    omega
  rw [this]
  simp

/-- The row that governs an address is the one of the last DWARF row that starts at or before it. -/
theorem fnFor_governs {so : SFrameOptions} {opts : Options} {fde : DwFde} (hfp : so.fixedFp = none)
    (hcv : Convertible so opts fde) {row : DwRow} (hlive : row ∈ live (rowsOf fde)) {a : Nat}
    (ha : row.start.toNat ≤ a)
    (hno : ∀ row' ∈ live (rowsOf fde), row'.start.toNat ≤ a → row'.start.toNat ≤ row.start.toNat) :
    ∃ r, governingRow (rows (fnFor so opts fde)) (a - fde.initial.toNat) = some r ∧
      r.mangled = false ∧ meaning so r = translate opts.arch row := by
  have hg := (good_iff hfp hcv.start hcv.len).2 hcv.clean
  have hp := hcv.clean.placed row hlive
  have hgov : governingRow (rows (built so opts.arch fde (rowsOf fde)))
      (a - fde.initial.toNat) = some (storedRow so (rowOf opts.arch fde row)) := by
    refine governing_of (rows_ascending hg.inv)
      (hg.perm.mem_iff.2 (List.mem_map_of_mem (f := fun r => storedRow so (rowOf opts.arch fde r)) hlive)) ?_ ?_
    · show (rowOf opts.arch fde row).startAddress.toNat ≤ _
      rw [rowOf_start hp.near]
      omega
    · intro r' hr' hle
      obtain ⟨row', hrow', rfl⟩ := List.mem_map.1 (hg.perm.mem_iff.1 hr')
      have hp' := hcv.clean.placed row' hrow'
      change (rowOf opts.arch fde row').startAddress.toNat ≤ _ at hle
      show (rowOf opts.arch fde row').startAddress.toNat ≤ (rowOf opts.arch fde row).startAddress.toNat
      rw [rowOf_start hp'.near] at hle ⊢
      rw [rowOf_start hp.near]
      have h1 := hp.after
      have h2 := hp'.after
      have := hno row' hrow' (by omega)
      omega
  have hmean := meaning_stored hfp hp
  have hgm : (governingRow (rows (fnFor so opts fde)) (a - fde.initial.toNat)).map rule
      = some (rule (storedRow so (rowOf opts.arch fde row))) := by
    unfold fnFor
    split
    · show (governingRow ((mergeKeep _).map Prod.snd) _).map rule = _
      rw [mergeKeep_governing _ (rows_ascending hg.inv)]
      show (governingRow (rows (built so opts.arch fde (rowsOf fde))) _).map rule = _
      rw [hgov]
      rfl
    · rw [hgov]
      rfl
  obtain ⟨r, hr, hrule⟩ := Option.map_eq_some_iff.1 hgm
  obtain ⟨h1, h2⟩ := meaning_rule (so := so) hrule
  exact ⟨r, hr, h2, h1.trans hmean⟩

/-- In well-formed rows, no row starts inside another. -/
theorem Spec.WellFormed.no_inner {rs : List DwRow} (hw : WellFormed rs) {row row' : DwRow}
    (hrow : row ∈ rs) (hm' : row' ∈ rs) {a : Nat} (h2 : a < row.end_.toNat)
    (h : row'.start.toNat ≤ a) : row'.start.toNat ≤ row.start.toNat := by
  -- if `row'` started later it would start after the end of `row`
  by_cases hlt : row.start.toNat < row'.start.toNat
  · exfalso
    obtain ⟨i, hi, hi'⟩ := List.mem_iff_getElem.1 hrow
    obtain ⟨j, hj, hj'⟩ := List.mem_iff_getElem.1 hm'
    have hpw := List.pairwise_iff_getElem.1 hw.2
    rcases Nat.lt_trichotomy i j with hij | hij | hij
    · have := hpw i j hi hj hij
      rw [hi', hj'] at this
      omega
    · subst hij
      rw [hi'] at hj'
      rw [hj'] at hlt
      omega
    · have := hpw j i hj hi hij
      rw [hi', hj'] at this
      have := hw.1 row' hm'
      omega
  · omega

/-- **C46.**  Let `fde` be converted (the last input with its start), with rows in order.  Whatever
address one of its rows covers, the row of the converted function that governs this address gives
the rules of that row, or none if SFrame cannot express them; with and without merging. -/
theorem C46_unwinds_alike (dbg : Bool) (eh : EhFrame) (opts : Options) (b : SFrameBuilder)
    (h : dwarf2sframe dbg eh opts = .ok (.ok b)) (fdes : List DwFde)
    (hin : inputs eh opts.bases = fdes.map .ok) (fde : DwFde) (hl : LastWith fdes fde)
    (hw : WellFormed (rowsOf fde)) :
    ∃ f ∈ functions b, f.startAddress.toInt = fde.initial.toNat ∧ f.size.toNat = fde.len.toNat ∧
      ∀ row ∈ rowsOf fde, ∀ a : Nat, row.start.toNat ≤ a → a < row.end_.toNat →
        ∃ r, governingRow (rows f) (a - fde.initial.toNat) = some r ∧ r.mangled = false ∧
          meaning b.options r = translate opts.arch row := by
  obtain ⟨fdes', hin', hc, rfl⟩ := dwarf2sframe_ok_iff.1 h
  rw [hin] at hin'
  cases map_ok_inj hin'
  have hcv := hc fde hl.mem
  refine ⟨_, (mem_functions (fun g hg => (hc g hg).start) _).2 ⟨fde, hl, rfl⟩, fnFor_start hcv,
    fnFor_size hcv, ?_⟩
  intro row hrow a ha1 ha2
  have hlive : row ∈ live (rowsOf fde) := by
    refine List.mem_filter.2 ⟨hrow, ?_⟩
    simp only [ne_eq, decide_eq_true_eq]
    intro heq
    rw [heq] at ha1
    omega
  exact fnFor_governs (sectionOptions_fp eh opts) hcv hlive ha1 fun row' hrow' h =>
    hw.no_inner hrow (List.mem_filter.1 hrow').1 ha2 h

/-- The sample function: its rows are in order, and at 0x1008 both sides say the same. -/
example : LastWith [Samples.dwFde] Samples.dwFde ∧ WellFormed (rowsOf Samples.dwFde) ∧
    inputs (Samples.ehOf [Samples.dwFde]) Samples.convOpts.bases = [Samples.dwFde].map .ok ∧
    (governingRow (rows Samples.convFn) (0x1008 - Samples.dwFde.initial.toNat)).map
      (meaning Samples.opts) = some (translate .amd64 Samples.dwRow2) := by
  refine ⟨⟨[], [], rfl, by simp⟩, ⟨?_, ?_⟩, rfl, by decide +kernel⟩
  · show ∀ r ∈ [Samples.dwRow1, { Samples.dwRow2 with end_ := 0x1001 }, Samples.dwRow2, Samples.dwRow3], _
    simp [Samples.dwRow1, Samples.dwRow2, Samples.dwRow3]
  · show [Samples.dwRow1, { Samples.dwRow2 with end_ := 0x1001 }, Samples.dwRow2, Samples.dwRow3].Pairwise _
    simp [Samples.dwRow1, Samples.dwRow2, Samples.dwRow3]

/-! ### C50 -/

/-- The loop over the entries with the CIE parsed anew each time. -/
def convertEntriesAnew (dbg : Bool) (opts : Options) (eh : EhFrame) :
    List (Except GErr Entry) → ConvState → Rust (Except ConvError ConvState)
  | [], st => .ok (.ok st)
  | .error e :: _, _ => .ok (.error (.invalidEhFrameEntry e))
  | .ok .cie :: entries, st => convertEntriesAnew dbg opts eh entries st
  | .ok (.fde offset parse) :: entries, st =>
    match parse (eh.cieFromOffset opts.bases offset) with
    | .error e => .ok (.error (.invalidDwarfFde e))
    | .ok fde =>
      (convertFde dbg opts st fde).bind fun
      | .error e => .ok (.error e)
      | .ok st => convertEntriesAnew dbg opts eh entries st

theorem convertEntriesAnew_eq (dbg : Bool) (opts : Options) (eh : EhFrame)
    (es : List (Except GErr Entry)) (st : ConvState) :
    ((convertEntriesAnew dbg opts eh es st).bind fun
      | .error e => .ok (.error e)
      | .ok st => .ok (.ok (st.sframe, st.log))) =
    convertInputs dbg opts (inputs { eh with entries := fun _ => es } opts.bases) st.sframe st.log := by
  induction es generalizing st with
  | nil => rfl
  | cons x es ih =>
    cases x with
    | error e => rfl
    | ok x =>
      cases x with
      | cie => exact ih st
      | fde off parse =>
        rw [convertEntriesAnew]
        have hin : inputs { eh with entries := fun _ => .ok (.fde off parse) :: es } opts.bases =
            (match parse (eh.cieFromOffset opts.bases off) with
            | .error e => Except.error (.invalidDwarfFde e)
            | .ok fde => .ok fde) :: inputs { eh with entries := fun _ => es } opts.bases := by
          unfold inputs
          rw [List.filterMap_cons]
          simp only
          cases parse (eh.cieFromOffset opts.bases off) <;> rfl
        rw [hin]
        cases parse (eh.cieFromOffset opts.bases off) with
        | error e => rfl
        | ok fde =>
          simp only [convertInputs]
          rw [show st = { sframe := st.sframe, cies := st.cies, log := st.log } from rfl,
            convertFde_cies dbg opts st.sframe st.log _ []]
          generalize convertFde dbg opts _ fde = r
          rcases r with (e | st') | p | _
          · rfl
          · simp only [Rust.bind_ok]
            exact ih _
          · rfl
          · rfl

/-- **C50.**  The converter gives the same section, warnings, error or panic as one that parses the
CIE anew for each function. -/
theorem C50_cache (dbg : Bool) (eh : EhFrame) (opts : Options) :
    dwarf2sframeLog dbg eh opts =
      ((convertEntriesAnew dbg opts eh (eh.entries opts.bases)
          { sframe := SFrameBuilder.new (sectionOptions eh opts), cies := [], log := [] }).bind fun
        | .error e => .ok (.error e)
        | .ok st =>
          (if opts.mergeFdes then st.sframe.mergeAdjacentFdes dbg else .ok st.sframe).bind fun sframe =>
          .ok (.ok (sframe, st.log))) := by
  have h1 := convertEntries_eq dbg opts eh (eh.entries opts.bases)
    { sframe := SFrameBuilder.new (sectionOptions eh opts), cies := [], log := [] } (by simp [CacheOk])
  rw [← convertEntriesAnew_eq] at h1
  unfold dwarf2sframeLog
  revert h1
  generalize convertEntries dbg opts eh _ _ = x
  generalize convertEntriesAnew dbg opts eh _ _ = y
  intro h1
  rcases x with (e | st) | p | _ <;> rcases y with (e' | st') | p' | _ <;>
    simp only [Rust.bind_ok, Rust.bind_panic, Rust.bind_diverge, Rust.ok.injEq, Except.error.injEq,
      Except.ok.injEq, Prod.mk.injEq, reduceCtorEq, Rust.panic.injEq] at h1 ⊢
  · exact h1
  · obtain ⟨h1, h2⟩ := h1
    rw [h1, h2]
  · exact h1

/-- Two functions with the same CIE, which is parsed once and then taken from the cache. -/
example (dbg : Bool) : (dwarf2sframe dbg
    (Samples.ehOf [Samples.dwFde, { Samples.dwFde with initial := 0x2000, rows := .ok [] }])
    Samples.convOpts).Returns ∧
    (lookupCie Samples.convOpts (Samples.ehOf []) [(0, .ok ⟨[]⟩)] 0).2.length = 1 := by
  cases dbg <;> exact ⟨⟨_, rfl⟩, rfl⟩

/-! ### C51 -/

/-- The conversion of a single function. -/
theorem only_eq {dbg : Bool} {eh : EhFrame} {opts : Options} {fde : DwFde}
    (hc : Convertible (sectionOptions eh opts) opts fde) :
    dwarf2sframe dbg (only eh fde) opts
      = .ok (.ok { options := sectionOptions eh opts, fdes := [(fde.initial.setWidth 32, fnFor (sectionOptions eh opts) opts fde)] }) :=
  dwarf2sframe_ok_iff.2 ⟨[fde], rfl, by
    intro f hf
    rw [List.mem_singleton.1 hf]
    exact hc, rfl⟩

/-- **C51.**  The functions of the result are in strictly ascending order of start, so there is one
per start; and they are exactly the results of converting, each by itself, the last of the inputs
with that start. -/
theorem C51_last_wins (dbg : Bool) (eh : EhFrame) (opts : Options) (b : SFrameBuilder)
    (h : dwarf2sframe dbg eh opts = .ok (.ok b)) (fdes : List DwFde)
    (hin : inputs eh opts.bases = fdes.map .ok) :
    FunctionsAscending (functions b) ∧
    ∀ f, f ∈ functions b ↔ ∃ fde b', LastWith fdes fde ∧
      dwarf2sframe dbg (only eh fde) opts = .ok (.ok b') ∧ functions b' = [f] := by
  obtain ⟨fdes', hin', hc, rfl⟩ := dwarf2sframe_ok_iff.1 h
  rw [hin] at hin'
  cases map_ok_inj hin'
  have hfp := sectionOptions_fp eh opts
  refine ⟨functions_ascending (output_inv hfp hc), fun f => ?_⟩
  rw [mem_functions (fun g hg => (hc g hg).start)]
  constructor
  · rintro ⟨fde, hl, rfl⟩
    exact ⟨fde, _, hl, only_eq (hc fde hl.mem), rfl⟩
  · rintro ⟨fde, b', hl, hb, hf⟩
    rw [only_eq (hc fde hl.mem)] at hb
    cases hb
    refine ⟨fde, hl, ?_⟩
    simpa [functions] using hf.symm

/-- Three functions, two of them at the same start. -/
example (dbg : Bool) : (dwarf2sframe dbg (Samples.ehOf [Samples.dwFde,
    { Samples.dwFde with initial := 0x900, rows := .ok [] }, { Samples.dwFde with len := 0x30, rows := .ok [] }])
    Samples.convOpts).bind (fun r => .ok ((r.map fun b => (functions b).map fun f =>
      (f.startAddress, f.size, (rows f).length)))) = .ok (.ok [(0x900, 0x20, 0), (0x1000, 0x30, 0)]) := by
  cases dbg <;> decide +kernel

end Verif
