import Verif.Props.Ties
import Verif.Props.Rewrite2
import Verif.Props.Pipeline
/-!
# What is read and listed of every row: C31, C62, C63, C100 without exception
-/

namespace Verif
open Spec SFrameBuilder

variable {o : Endian}

namespace Spec

/-- The offsets that are read of a row, in order: those that were stored, but for ties. -/
def readValues (r : FrameRowBuilder) : List Int := (values r).map (asRead (values r))

/-- What is read of a row.  The offsets are told apart by their places only: the first is for the CFA, the second for
the return address unless the header has one, the next for the frame pointer. -/
def readRow (so : SFrameOptions) (r : FrameRowBuilder) : RowReading :=
  let place (i : Nat) : Except ReadError I32 := match (readValues r)[i]? with
    | some x => .ok (BitVec.ofInt 32 x)
    | none => .error .missingFreOffset
  { start := r.startAddress
    base := r.baseReg
    mangled := r.mangled
    cfa := place 0
    ra := match so.fixedRa with
      | some v => .ok (BitVec.ofInt 32 v.val.toInt)
      | none => place 1
    fp := match so.fixedFp with
      | some v => .ok (BitVec.ofInt 32 v.val.toInt)
      | none => place (if so.fixedRa.isSome then 1 else 2) }

/-- The line for what is read of a row of function `f`. -/
def readLine (so : SFrameOptions) (f : FuncDescBuilder) (r : FrameRowBuilder) : DumpLine :=
  .row (BitVec.ofInt 32 (f.startAddress.toInt + r.startAddress.toNat)) r.baseReg
    (readRow so r).cfa.toOption (readRow so r).fp.toOption (readRow so r).ra.toOption r.mangled

end Spec

theorem rowView_offsets (r : FrameRowBuilder) : (rowView r).offsets = readValues r := by
  show (rowValues r).map _ = _
  unfold readValues
  rw [values_eq, List.map_map]
  exact List.map_congr_left fun x hx => by rw [truncTo_asRead r hx, values_eq]; rfl

/-- What a reader makes of a row. -/
theorem reading_row (so : SFrameOptions) (r : FrameRowBuilder) :
    readingOf (so.fixedRa.map (·.val)) (so.fixedFp.map (·.val)) (rowView r) = readRow so r := by
  have h1 : BitVec.ofNat 32 (rowView r).start = r.startAddress := by simp [rowView]
  unfold readingOf readRow
  rw [rowView_offsets]
  simp only [h1]
  cases so.fixedRa <;> cases so.fixedFp <;> rfl

/-- **C31, exactly**: what is read of the rows of a built section, whatever they are.  If all rows of a function start
inside it, as many rows are read, and of each what `readRow` says; otherwise the reader panics. -/
theorem C31_exact_partial (dbg dbg' : Bool) (o : Endian) (b : SFrameBuilder)
    (hb : SFrameBuilder.Reachable dbg' b) (out : List U8) (h : b.build dbg o = .ok (.ok out)) :
    ∃ s es, SFrame.load o out = .ok (.ok s) ∧ s.iter.collect = .ok es ∧
      es.length = (functions b).length ∧
      ∀ (i : Nat) f e, (functions b)[i]? = some f → es[i]? = some e →
        ((∀ r ∈ rows f, r.startAddress.toNat < f.size.toNat) →
          ∃ qs : List (FrameRowEntry o), e.iter.collect = .ok (qs.map .ok) ∧
            qs.map (readingIn s) = (rows f).map (readRow b.options)) ∧
        ((∃ r ∈ rows f, ¬ r.startAddress.toNat < f.size.toNat) → e.iter.collect = .panic .assertion) := by
  obtain ⟨rfl, _, hfits⟩ := build_ok hb.inv h
  obtain ⟨es, hes, hlen, hget⟩ := readBack_entries o b hfits
  obtain ⟨h1, h2⟩ := readBack_fixed (o := o) b
  refine ⟨_, es, load_image o b hfits, hes, by simpa [functions] using hlen, fun i f e hf he => ?_⟩
  obtain ⟨rest, hr⟩ := hget i f hf
  rw [he] at hr
  have hr := Option.some.inj hr
  have hread : (e.iter.collect.bind fun rs => .ok (rs.map (·.map (readingIn (readBack o b))))) =
      readingsOf f.size (b.options.fixedRa.map (·.val)) (b.options.fixedFp.map (·.val))
        ((rows f).map fun r => .ok (rowView r)) := by
    rw [FuncDescEntry.collect_eq]
    have := readRows_readings (readBack o b) e.fde e.fde.numFres.toNat e.fres
    rw [built_decodes hb.inv hfits hf hr, h1, h2] at this
    subst hr
    exact this
  refine ⟨fun hin => ?_, fun ⟨r, hr, hn⟩ => ?_⟩
  · rw [readings_inside _ _ _ _ hin] at hread
    obtain ⟨l, hl, hread⟩ := Rust.bind_eq_ok.1 hread
    have hread : l.map (·.map (readingIn (readBack o b))) = ((rows f).map (readRow b.options)).map .ok := by
      rw [List.map_map]
      refine (Rust.ok.inj hread).trans (List.map_congr_left fun r _ => ?_)
      show Except.ok _ = Except.ok _
      rw [reading_row]
    obtain ⟨qs, rfl, hq⟩ := collect_ok_iff hread
    exact ⟨qs, hl, hq⟩
  · rw [readings_outside _ _ _ _ fun h => hn (h r hr)] at hread
    cases hc : e.iter.collect with
    | panic p => rw [hc] at hread; exact congrArg _ (Rust.panic.inj hread)
    | diverge => rw [hc] at hread; cases hread
    | ok rs => rw [hc] at hread; cases hread

theorem nonzero_toInt (v : NonZeroI8) : v.val.toInt ≠ 0 :=
  fun h => v.2 (BitVec.eq_of_toInt_eq h)

theorem place_toOption (x : Option Int) :
    (match x with
      | some x => Except.ok (ε := ReadError) (BitVec.ofInt 32 x)
      | none => .error .missingFreOffset).toOption = x.map (BitVec.ofInt 32) := by
  cases x <;> rfl

/-- The line of a row is that of what is read of it. -/
theorem rowLine_read (so : SFrameOptions) (f : FuncDescBuilder) (r : FrameRowBuilder) :
    rowLine (match so.fixedFp with | some v => v.val | none => 0#8).toInt
      (match so.fixedRa with | some v => v.val | none => 0#8).toInt f.startAddress.toInt (rowView r)
      = readLine so f r := by
  unfold rowLine readLine
  rw [rowView_offsets]
  congr 1
  · exact (place_toOption _).symm
  · unfold readRow
    cases so.fixedFp with
    | some v => simp only [nonzero_toInt v, ne_eq, not_false_iff, if_true]; rfl
    | none =>
      cases so.fixedRa with
      | some v =>
        rw [if_neg (by decide), if_pos (nonzero_toInt v)]
        exact (place_toOption _).symm
      | none => exact (place_toOption _).symm
  · unfold readRow
    cases so.fixedRa with
    | some v => simp only [nonzero_toInt v, ne_eq, not_false_iff, if_true]; rfl
    | none => exact (place_toOption _).symm

/-- **C62, exactly**: the dump of a built section, whatever its rows are.  Unless it panics, it prints the header, then
function by function the line of the function, for each row the line of what is read of it, and an empty line. -/
theorem C62_exact (dbg dbg' dbg'' : Bool) (o : Endian) (b : SFrameBuilder)
    (hb : SFrameBuilder.Reachable dbg' b) (out : List U8) (h : b.build dbg'' o = .ok (.ok out))
    (hno : ∀ f ∈ functions b, ∀ r ∈ rows f, ¬ Stops dbg f r) :
    ∃ s, SFrame.load o out = .ok (.ok s) ∧
      dump dbg s = (builtHeader b :: ((functions b).mapIdx fun i f =>
        [.func i f.startAddress f.size, .columns (if f.repSize.isSome then .pcMask else .pcInc)] ++
          (rows f).map (readLine b.options f) ++ [.blank]).flatten, .ok ()) := by
  obtain ⟨s, es, h1, h2, v1, v2, v3, v4, v5, _, v6, v7, v8, _, hent⟩ :=
    C30_round_trip dbg'' dbg' o b hb out h
  refine ⟨s, h1, ?_⟩
  obtain ⟨s', k1, k2, _⟩ := C62_dump_of_built dbg dbg' dbg'' o b hb out h
  rw [h1] at k1; cases k1
  have hpr := dump_prints dbg s es h2
  rw [hpr.1 fun hbad => by
    obtain ⟨f, hf, r, hr, hs⟩ := k2.1 (hpr.2 hbad).1
    exact hno f hf r hr hs]
  unfold listing builtHeader
  rw [fnsLines_flatten, v1, v2, v3, v4, v5, ← v6, ← v7, BitVec.ofNat_toNat, BitVec.ofNat_toNat, BitVec.setWidth_eq,
    BitVec.setWidth_eq]
  congr 3
  obtain ⟨rfl, _, hfits⟩ := build_ok hb.inv h
  rw [load_image o b hfits] at h1
  cases h1
  obtain ⟨es', hes, _, hget⟩ := readBack_entries o b hfits
  rw [h2] at hes; cases hes
  apply List.ext_getElem?
  intro i
  rw [List.getElem?_mapIdx, List.getElem?_mapIdx]
  cases hf : (functions b)[i]? with
  | none =>
    rw [List.getElem?_eq_none (by have := List.getElem?_eq_none_iff.1 hf; omega)]
    rfl
  | some f =>
    obtain ⟨hil, _⟩ := List.getElem?_eq_some_iff.1 hf
    have he := List.getElem?_eq_getElem (l := es) (i := i) (by omega)
    obtain ⟨g1, g2, g3, _⟩ := hent i f _ hf he
    obtain ⟨rest, hr⟩ := hget i f hf
    rw [he] at hr ⊢
    have hdec := built_decodes hb.inv hfits hf (Option.some.inj hr)
    simp only [Option.map_some, Option.some.injEq, Nat.zero_add]
    unfold fnLines
    rw [hdec, g1, g2, g3, List.map_map]
    congr 2
    exact List.map_congr_left fun r _ => rowLine_read b.options f r

/-! ### C63 -/

/-- The rules on a line are those that are read. -/
theorem lineRules_readLine (so : SFrameOptions) (f : FuncDescBuilder) (r : FrameRowBuilder) :
    lineRules (readLine so f r) = rulesIn (readRow so r) := by
  unfold readLine rulesIn
  have hb : (readRow so r).base = r.baseReg := rfl
  rw [hb]
  cases (readRow so r).cfa <;> cases (readRow so r).ra <;> rfl

/-- **C63, converter and dumper, exactly**: the listing of a converted section, ties or not. -/
theorem converted_listing_read (dbg dbg' dbg'' : Bool) (o : Endian) (eh : EhFrame) (opts : Options)
    (b : SFrameBuilder) (h : dwarf2sframe dbg eh opts = .ok (.ok b)) (out : List U8)
    (hb : b.build dbg' o = .ok (.ok out)) (fdes : List DwFde)
    (hin : inputs eh opts.bases = fdes.map .ok)
    (hover : dbg'' = true → ∀ fde ∈ fdes, ∀ d ∈ live (rowsOf fde), d.start.toNat ≤ 2147483647) :
    ∃ s lines, SFrame.load o out = .ok (.ok s) ∧ dump dbg'' s = (lines, .ok ()) ∧
      ∀ fde, LastWith fdes fde → ∃ pre idx ls post,
        lines = pre ++ ([.func idx (BitVec.ofNat 32 fde.initial.toNat) (BitVec.ofNat 32 fde.len.toNat),
          .columns .pcInc] ++ ls ++ [.blank]) ++ post ∧
        (WellFormed (rowsOf fde) →
          ∀ row ∈ rowsOf fde, ∀ a : Nat, row.start.toNat ≤ a → a < row.end_.toNat →
            ∃ l, governingLine ls a = some l ∧
              lineRules l = (translate opts.arch row).map (asStored b.options)) := by
  obtain ⟨fdes', hin', hc, hbo⟩ := dwarf2sframe_ok_iff.1 h
  rw [hin] at hin'
  cases map_ok_inj hin'
  have hfp := sectionOptions_fp eh opts
  have hopt : b.options = sectionOptions eh opts := by rw [hbo]; rfl
  have hmem : ∀ f, f ∈ functions b ↔ ∃ fde, LastWith fdes fde ∧ f = fnFor (sectionOptions eh opts) opts fde := by
    rw [hbo]; exact mem_functions fun g hg => (hc g hg).start
  obtain ⟨s, h1, h2⟩ := C62_exact dbg'' dbg dbg' o b (converted_reachable h) out hb (by
    intro f hf r hr
    obtain ⟨fde, hl, rfl⟩ := (hmem f).1 hf
    have hcf := hc fde hl.mem
    obtain ⟨_, d, hd, hd1, hd2⟩ := lineStart_builtRow hfp hcf hr
    rintro (hs | ⟨hdbg, hs⟩)
    · exact hs (by rw [fnFor_size hcf]; exact hd2)
    · have := hover hdbg fde hl.mem d hd
      rw [fnFor_start hcf] at hs
      omega)
  refine ⟨s, _, h1, h2, fun fde hl => ?_⟩
  have hcf := hc fde hl.mem
  have hf := (hmem _).2 ⟨fde, hl, rfl⟩
  obtain ⟨i, hi⟩ := List.mem_iff_getElem?.1 hf
  obtain ⟨f1, f2, f3, f4, f5⟩ := fnFor_fields (sectionOptions eh opts) opts fde
  have hsplit : ∀ (lss : List (List DumpLine)) x, lss[i]? = some x →
      builtHeader b :: lss.flatten = (builtHeader b :: (lss.take i).flatten) ++ x ++ (lss.drop (i + 1)).flatten := by
    intro lss x hx
    obtain ⟨hil, rfl⟩ := List.getElem?_eq_some_iff.1 hx
    have hl : lss = lss.take i ++ lss[i] :: lss.drop (i + 1) := by
      rw [← List.drop_eq_getElem_cons hil, List.take_append_drop]
    rw [congrArg List.flatten hl]
    simp only [List.flatten_append, List.flatten_cons, List.cons_append, List.append_assoc]
  have hstart : (fnFor (sectionOptions eh opts) opts fde).startAddress = BitVec.ofNat 32 fde.initial.toNat := by
    rw [f2]; rfl
  have hsize : (fnFor (sectionOptions eh opts) opts fde).size = BitVec.ofNat 32 fde.len.toNat := by
    rw [f3]; rfl
  refine ⟨_, i, (rows (fnFor (sectionOptions eh opts) opts fde)).map
    (readLine b.options (fnFor (sectionOptions eh opts) opts fde)), _,
    hsplit _ _ (by
      rw [List.getElem?_mapIdx, hi, Option.map_some, hstart, hsize, f4]
      rfl), fun hw => ?_⟩
  intro row hrow a ha1 ha2
  obtain ⟨f, hf', hs', _, hgov⟩ := C46_unwinds_alike dbg eh opts b h fdes hin fde hl hw
  obtain ⟨fde', hl', rfl⟩ := (hmem f).1 hf'
  have : fde' = fde := hl'.unique hl (BitVec.eq_of_toNat_eq (by
    rw [fnFor_start (hc fde' hl'.mem)] at hs'; omega))
  subst this
  obtain ⟨r, hr, _, hmean⟩ := hgov row hrow a ha1 ha2
  have hrm : r ∈ rows (fnFor (sectionOptions eh opts) opts fde') := (List.mem_filter.1 (List.mem_of_getLast? hr)).1
  refine ⟨readLine b.options (fnFor (sectionOptions eh opts) opts fde') r, ?_, by
    rw [lineRules_readLine, ← reading_row, rules_read (by rw [hopt, hfp]), hmean]
    · have hrm' := hrm
      simp only [rows, List.mem_map] at hrm'
      obtain ⟨e, he, rfl⟩ := hrm'
      rw [hopt, ← f1]
      exact (fnFor_inv hfp hcf).dropped e he
    · rw [hopt, ← f1]
      exact (fnFor_whole hfp hcf r hrm).2⟩
  have hlive : row ∈ live (rowsOf fde') := by
    refine List.mem_filter.2 ⟨hrow, ?_⟩
    have : row.start ≠ row.end_ := by intro he; rw [he] at ha1; omega
    simpa using this
  have hafter := (hcf.clean.placed row hlive).after
  unfold governingLine
  unfold governingRow at hr
  rw [List.filter_map, List.getLast?_map]
  have : (rows (fnFor (sectionOptions eh opts) opts fde')).filter
      ((fun l => decide (lineStart l ≤ a)) ∘ readLine b.options (fnFor (sectionOptions eh opts) opts fde'))
      = (rows (fnFor (sectionOptions eh opts) opts fde')).filter
        (fun r => decide (r.startAddress.toNat ≤ a - fde'.initial.toNat)) := by
    apply List.filter_congr
    intro q hq
    have := (lineStart_builtRow hfp hcf hq).1
    simp only [Function.comp]
    rw [hopt, show lineStart (readLine (sectionOptions eh opts) (fnFor (sectionOptions eh opts) opts fde') q)
      = lineStart (builtRow (sectionOptions eh opts) (fnFor (sectionOptions eh opts) opts fde') q) from rfl, this]
    apply decide_eq_decide.2
    omega
  rw [this, hr]
  rfl

/-- **C63, exactly**: both tools, one after the other, ties or not.  At every address that a row of a DWARF function
covers, the line in force shows the rules of the row as they are read back, see `asStored`, or `u` if SFrame cannot
express them. -/
theorem C63_exact (dbg dbg' : Bool) (w w' : World) (args : Args2) (calls : List WriteCall)
    (h : runMain2 dbg w args = (.ok (.ok ()), calls)) (hobj : ReadsBack w w')
    (hfile : ∀ c ∈ calls, ∃ hd, w'.openFile c.path = some hd ∧ w'.mmap hd = some c.data) :
    ∃ file arch eh b bytes out, Made dbg w args file arch eh b bytes out ∧
      ∀ fdes, inputs eh (toolBases file) = fdes.map .ok → w'.host = file.endianness →
        (dbg' = true → ∀ fde ∈ fdes, ∀ d ∈ live (rowsOf fde), d.start.toNat ≤ 2147483647) →
        ∃ lines, sframedump dbg' w' args.output = (lines, .ok (.ok ())) ∧
          ∀ fde, LastWith fdes fde → ∃ pre idx ls post,
            lines = pre ++ ([.func idx (BitVec.ofNat 32 fde.initial.toNat) (BitVec.ofNat 32 fde.len.toNat),
              .columns .pcInc] ++ ls ++ [.blank]) ++ post ∧
            (WellFormed (rowsOf fde) →
              ∀ row ∈ rowsOf fde, ∀ a : Nat, row.start.toNat ≤ a → a < row.end_.toNat →
                ∃ l, governingLine ls a = some l ∧ lineRules l = (translate arch row).map (asStored b.options)) := by
  obtain ⟨file, arch, eh, b, bytes, out, hm, hwr, rfl⟩ := (C54_success dbg w args calls).1 h
  obtain ⟨hd, h1, h2⟩ := hfile _ (List.mem_singleton.2 rfl)
  obtain ⟨file', h3, h4⟩ := hobj _ _ hm.emit
  obtain ⟨s, h5, h6⟩ := h4 _ rfl
  have hread : Readable w' args.output file' bytes := ⟨⟨hd, out, h1, h2, h3⟩, s, h5, h6⟩
  obtain ⟨p1, _, _⟩ := C60_host_order_partial (dbg := dbg') hread
  refine ⟨file, arch, eh, b, bytes, out, hm, ?_⟩
  intro fdes hin hhost hover
  obtain ⟨s, lines, g1, g2, g3⟩ := converted_listing_read dbg dbg dbg' w'.host eh
    (toolOptions args arch file) b hm.convert bytes (by rw [hhost]; exact hm.build) fdes hin hover
  obtain ⟨k1, k2⟩ := p1 s g1
  rw [g2] at k1 k2
  exact ⟨lines, Prod.ext k1 (k2.2 rfl), g3⟩

/-! ### C100 -/

theorem tie_insert {c : Int} {l : List Int} : WidthTie (c :: -8 :: l) ↔ WidthTie (c :: l) := by
  unfold WidthTie
  have hf : ∀ m : Int, m = 0x80 ∨ m = 0x8000 → (c :: -8 :: l).find? (fun v => decide ((v.natAbs : Int) = m))
      = (c :: l).find? (fun v => decide ((v.natAbs : Int) = m)) := by
    intro m hm
    have hn : ¬ (((-8 : Int).natAbs : Int) = m) := by rcases hm with rfl | rfl <;> decide
    rw [List.find?_cons, List.find?_cons, List.find?_cons]
    simp only [hn, decide_false]
  constructor
  · rintro ⟨m, hm, h1, h2, h3⟩
    rw [hf m hm] at h3
    refine ⟨m, hm, fun v hv => h1 v ?_, ?_, h3⟩
    · rcases List.mem_cons.1 hv with rfl | hv
      · simp
      · simp [hv]
    · have hne : m ≠ -8 := by rcases hm with rfl | rfl <;> decide
      simpa [hne] using h2
  · rintro ⟨m, hm, h1, h2, h3⟩
    rw [← hf m hm] at h3
    refine ⟨m, hm, fun v hv => ?_, ?_, h3⟩
    · rcases List.mem_cons.1 hv with rfl | hv
      · exact h1 _ (by simp)
      · rcases List.mem_cons.1 hv with rfl | hv
        · rcases hm with rfl | rfl <;> decide
        · exact h1 v (by simp [hv])
    · rcases List.mem_cons.1 h2 with rfl | h2
      · simp
      · simp [h2]

/-- A return address at -8 has no part in a tie. -/
theorem asRead_insert {c : Int} {l : List Int} (v : Int) : asRead (c :: -8 :: l) v = asRead (c :: l) v := by
  unfold asRead
  by_cases ht : WidthTie (c :: l)
  · have ht' := tie_insert.2 ht
    have : (∀ w ∈ c :: -8 :: l, w.natAbs ≤ v.natAbs) ↔ ∀ w ∈ c :: l, w.natAbs ≤ v.natAbs := by
      obtain ⟨m, hm, _, h2, _⟩ := ht
      constructor
      · intro h w hw
        refine h w ?_
        rcases List.mem_cons.1 hw with rfl | hw
        · simp
        · simp [hw]
      · intro h w hw
        rcases List.mem_cons.1 hw with rfl | hw
        · exact h _ (by simp)
        · rcases List.mem_cons.1 hw with rfl | hw
          · have := h m h2
            rcases hm with rfl | rfl <;> omega
          · exact h w (by simp [hw])
    simp only [ht, ht', this, true_and]
  · have ht' : ¬ WidthTie (c :: -8 :: l) := fun h => ht (tie_insert.1 h)
    simp only [ht, ht', false_and]

theorem asRead_eight {c : Int} {l : List Int} : asRead (c :: l) (-8) = -8 := by
  unfold asRead
  rw [if_neg]
  rintro ⟨⟨m, hm, _, h2, _⟩, h⟩
  have := h m h2
  rcases hm with rfl | rfl <;> omega

/-- It makes no difference for what is read whether a return address at -8 is stored with the row or in the header. -/
theorem asStored_eight {so so' : SFrameOptions} {t : Rules} (h : so.fixedRa.isSome) (h' : so'.fixedRa = none)
    (ht : t.ra = -8) : asStored so t = asStored so' t := by
  have e1 : storedValues so t = t.cfa :: t.fp.toList := by simp [storedValues, h]
  have e2 : storedValues so' t = t.cfa :: -8 :: t.fp.toList := by simp [storedValues, h', ht]
  unfold asStored
  rw [e1, e2]
  simp only [h, h', asRead_insert, if_true, Option.isSome_none, Bool.false_eq_true, if_false, ht, asRead_eight,
    funext fun v => asRead_insert (c := t.cfa) (l := t.fp.toList) v]

/-- A section of the legacy tool gives no rules outside the functions. -/
theorem legacy_outside (dbg dbg' : Bool) (eh : EhFrame) (bases : Bases) (b : SFrameBuilder)
    (h : legacyConvert dbg eh bases = .ok (.ok b)) {out : List U8} (hb : b.build dbg' o = .ok (.ok out))
    (fdes : List DwFde) (hin : inputs eh bases = fdes.map .ok) {s : SFrame o}
    (hs : SFrame.load o out = .ok (.ok s)) {a : Int} (ha : Outside fdes a) : sfRulesAt s a = none := by
  obtain ⟨s', h1, _, h3⟩ := rulesAt_built (legacy_reachable (dbg' := dbg) h).1 hb
  rw [hs] at h1; cases h1
  obtain ⟨fdes', hin', hc, rfl⟩ := legacyConvert_iff.1 h
  rw [hin] at hin'
  cases map_ok_inj hin'
  have hcv : ∀ fde ∈ fdes.map tidyFde, Convertible legacyOptions (legacyLike bases) fde := by
    intro g hg
    obtain ⟨g, hg', rfl⟩ := List.mem_map.1 hg
    exact ((legacyConvertible_iff bases g).1 (hc g hg')).1
  refine h3 a fun f hf => ?_
  obtain ⟨g, hg, rfl⟩ := (mem_functions (fun g hg => (hcv g hg).start) f).1 hf
  rw [fnFor_start (hcv g hg.mem), fnFor_size (hcv g hg.mem)]
  obtain ⟨fde, hl, rfl⟩ := lastWith_unmap hg
  exact ha fde hl

/-- **C100, exactly**: the two converters compared, ties or not. -/
theorem C100_exact (dbg dbg' dbg1 dbg1' : Bool) (o o1 : Endian) (eh : EhFrame) (opts : Options)
    (harch : opts.arch = .amd64) (b b1 : SFrameBuilder)
    (h : dwarf2sframe dbg eh opts = .ok (.ok b)) (h1 : legacyConvert dbg1 eh opts.bases = .ok (.ok b1))
    (out out1 : List U8) (hb : b.build dbg' o = .ok (.ok out)) (hb1 : b1.build dbg1' o1 = .ok (.ok out1))
    (fdes : List DwFde) (hin : inputs eh opts.bases = fdes.map .ok)
    (hw : ∀ fde, LastWith fdes fde → WellFormed (rowsOf fde)) :
    ∃ s s1, SFrame.load o out = .ok (.ok s) ∧ SFrame.load o1 out1 = .ok (.ok s1) ∧
      (∀ a row, DwRowAt fdes a row → (sfRulesAt s a = sfRulesAt s1 a ↔ ¬ Dropped row)) ∧
      (∀ a row, DwRowAt fdes a row → Dropped row → sfRulesAt s a = none ∧
        ∃ t, sfRulesAt s1 a = some (t, false) ∧ t.fp = none) ∧
      ∀ a, Outside fdes a → sfRulesAt s a = none ∧ sfRulesAt s1 a = none := by
  obtain ⟨s, g1, g2⟩ := rulesAt_converted_read dbg dbg' o eh opts b h out hb fdes hin hw
  obtain ⟨s1, k1, k2⟩ := rulesAt_legacy_read dbg1 dbg1' o1 eh opts.bases b1 h1 out1 hb1 fdes hin hw
  rw [harch] at g2
  obtain ⟨fdes', hin', hc, hbo⟩ := dwarf2sframe_ok_iff.1 h
  rw [hin] at hin'
  cases map_ok_inj hin'
  have hopt : b.options = sectionOptions eh opts := by rw [hbo]; rfl
  have hopt1 : b1.options = legacyOptions := by
    obtain ⟨_, _, _, rfl⟩ := legacyConvert_iff.1 h1
    rfl
  have hsame : ∀ a row, DwRowAt fdes a row → ∀ t, translate .amd64 row = some t →
      asStored b.options t = asStored b1.options t := by
    rintro a row ⟨fde, hl, hrow, a1, a2, a3, a4⟩ t ht
    have hlive : row ∈ live (rowsOf fde) := by
      refine List.mem_filter.2 ⟨hrow, ?_⟩
      have : row.start ≠ row.end_ := by intro he; rw [he] at a3; omega
      simpa using this
    cases hra : b.options.fixedRa with
    | none =>
      have e : storedValues b.options t = storedValues b1.options t := by
        unfold storedValues
        rw [hra, hopt1]
        rfl
      unfold asStored
      rw [e, hra, hopt1]
      rfl
    | some v =>
      refine asStored_eight (by rw [hra]; rfl) (by rw [hopt1]; rfl) ?_
      have hp := (hc fde hl.mem).clean.placed row hlive
      rw [hopt] at hra
      rw [hp.ra t v (by rw [harch]; exact ht) hra]
      exact (sectionOptions_ra eh opts v hra).2.2
  refine ⟨s, s1, g1, k1, fun a row hr => ?_, fun a row hr hd => ?_, fun a ha =>
    ⟨rulesAt_outside dbg dbg' eh opts b h hb fdes hin g1 ha,
      legacy_outside dbg1 dbg1' eh opts.bases b1 h1 hb1 fdes hin k1 ha⟩⟩
  · rw [g2 a row hr, k2 a row hr]
    by_cases hd : Dropped row
    · obtain ⟨e1, t, e2, _⟩ := dropped_rules hd
      simp [hd, e1, e2]
    · rw [← (same_iff row).2 hd]
      simp only [hd, not_false_iff, iff_true]
      cases ht : translate .amd64 row with
      | none => rfl
      | some t => simp only [Option.map_some]; rw [hsame a row hr t ht]
  · obtain ⟨e1, t, e2, e3⟩ := dropped_rules hd
    rw [g2 a row hr, k2 a row hr, e1, e2]
    exact ⟨rfl, _, rfl, by simp [asStored, e3]⟩

namespace Samples

/-- A row whose CFA offset and rule for the frame pointer tie. -/
def nearRow : DwRow :=
  { start := 0x1000, end_ := 0x1020, cfa := .registerAndOffset 7 (-128)
    registers := [(16, .offset (-8)), (6, .offset 128)] }

/-- What the newer tool makes of it. -/
def nearB : SFrameBuilder :=
  { options := opts
    fdes := [(0x1000, { FuncDescBuilder.new opts 0x1000 0x20 with
      fres := [(0, ⟨0, some ⟨-128, none, some 128⟩, false, .sp⟩)] })] }

/-- What the legacy tool makes of it. -/
def nearB1 : SFrameBuilder :=
  { options := legacyOptions
    fdes := [(0x1000, { FuncDescBuilder.new legacyOptions 0x1000 0x20 with
      fres := [(0, ⟨0, some ⟨-128, some (-8), some 128⟩, false, .sp⟩)] })] }

/-- The sample world with this row. -/
def nearWorld : World := { worldBefore with ehFrame := fun _ _ => ehOf [oneRow nearRow] }

end Samples

/-- A row of a function that is read with the wrong sign, one that has a frame pointer but no return address, and one
beyond the end of its function. -/
example : readRow SFrameOptions.new ⟨0, some ⟨-128, some 128, none⟩, false, .sp⟩ =
      ⟨0, .sp, false, .ok (-128), .ok (-128), .error .missingFreOffset⟩ ∧
    readRow SFrameOptions.new ⟨0, some ⟨16, none, some (-16)⟩, true, .fp⟩ =
      ⟨0, .fp, true, .ok 16, .ok (-16), .error .missingFreOffset⟩ ∧
    readRow SFrameOptions.new ⟨4, none, false, .fp⟩ =
      ⟨4, .fp, false, .error .missingFreOffset, .error .missingFreOffset, .error .missingFreOffset⟩ ∧
    ¬ (∀ r ∈ rows (Samples.oneFn 4 ⟨8, some ⟨16, none, some (-16)⟩, false, .sp⟩),
      r.startAddress.toNat < (Samples.oneFn 4 ⟨8, some ⟨16, none, some (-16)⟩, false, .sp⟩).size.toNat) := by
  decide +kernel

/-- `C31_exact_partial` and `C62_exact` apply to the section with the tie. -/
example (dbg : Bool) : (∃ s es, SFrame.load .little (image .little Samples.nearB) = .ok (.ok s) ∧
      s.iter.collect = .ok es ∧ ∀ e, es[0]? = some e → ∃ qs : List (FrameRowEntry .little),
        e.iter.collect = .ok (qs.map .ok) ∧
        qs.map (readingIn s) = [⟨0, .sp, false, .ok (-128), .ok (-8), .ok (-128)⟩]) ∧
    ∃ s, SFrame.load .little (image .little Samples.nearB) = .ok (.ok s) ∧
      dump dbg s = ([.header 2 1 1 1 3 none (some (-8)), .func 0 0x1000 0x20, .columns .pcInc,
        .row 0x1000 .sp (some (-128)) (some (-128)) (some (-8)) false, .blank], .ok ()) := by
  have hr : Reachable dbg Samples.nearB := converted_reachable (dbg := dbg)
    (eh := Samples.ehOf [Samples.oneRow Samples.nearRow]) (opts := Samples.convOpts) (by cases dbg <;> decide +kernel)
  refine ⟨?_, ?_⟩
  · obtain ⟨s, es, h1, h2, _, h4⟩ := C31_exact_partial dbg dbg .little Samples.nearB hr (image .little Samples.nearB)
      (by cases dbg <;> decide +kernel)
    exact ⟨s, es, h1, h2, fun e he => (h4 0 _ e rfl he).1 (by decide +kernel)⟩
  · exact C62_exact dbg dbg dbg .little Samples.nearB hr (image .little Samples.nearB) (by cases dbg <;> decide +kernel)
      (by
        have h : ∀ dbg, ∀ f ∈ functions Samples.nearB, ∀ r ∈ rows f,
          ¬ (¬ r.startAddress.toNat < f.size.toNat ∨
            (dbg = true ∧ 2147483647 < f.startAddress.toInt + r.startAddress.toNat)) := by decide +kernel
        exact h dbg)

/-- `C63_exact` applies to the run on the file with the tie: the line shows the rules as they are read. -/
example (dbg : Bool) :
    runMain2 dbg Samples.nearWorld Samples.args2 = (.ok (.ok ()), [⟨"out", image .little Samples.nearB⟩]) ∧
    sframedump dbg (Samples.worldAfter (image .little Samples.nearB)) "out" =
      ([.header 2 1 1 1 3 none (some (-8)), .func 0 0x1000 0x20, .columns .pcInc,
        .row 0x1000 .sp (some (-128)) (some (-128)) (some (-8)) false, .blank], .ok (.ok ())) ∧
    translate .amd64 Samples.nearRow = some ⟨.sp, -128, some 128, -8⟩ ∧
    asStored Samples.nearB.options ⟨.sp, -128, some 128, -8⟩ = ⟨.sp, -128, some (-128), -8⟩ := by
  refine ⟨by cases dbg <;> decide +kernel, by cases dbg <;> decide +kernel, by decide +kernel, by decide +kernel⟩

/-- `C100_exact` applies to the row with the tie: both tools are read with the same wrong sign. -/
example (dbg : Bool) : ∃ s s1, SFrame.load .little (image .little Samples.nearB) = .ok (.ok s) ∧
    SFrame.load .big (image .big Samples.nearB1) = .ok (.ok s1) ∧
    sfRulesAt s 0x1008 = sfRulesAt s1 0x1008 ∧ sfRulesAt s 0x1008 = some (⟨.sp, -128, some (-128), -8⟩, false) := by
  obtain ⟨s, s1, h1, h2, h3, _⟩ := C100_exact dbg dbg dbg dbg .little .big
    (Samples.ehOf [Samples.oneRow Samples.nearRow]) Samples.convOpts rfl Samples.nearB Samples.nearB1
    (by cases dbg <;> decide +kernel) (by cases dbg <;> decide +kernel) (image .little Samples.nearB)
    (image .big Samples.nearB1) (by cases dbg <;> decide +kernel) (by cases dbg <;> decide +kernel)
    [Samples.oneRow Samples.nearRow] rfl (fun fde hl => by
      have : fde = Samples.oneRow Samples.nearRow := by simpa using hl.mem
      subst this
      unfold WellFormed; decide +kernel)
  have hk : SFrame.load .little (image .little Samples.nearB) = .ok (.ok (readBack .little Samples.nearB)) := by
    decide +kernel
  rw [hk] at h1
  cases h1
  exact ⟨_, s1, hk, h2, (h3 0x1008 Samples.nearRow ⟨_, ⟨[], [], rfl, by simp⟩, by decide +kernel⟩).2 (by decide +kernel),
    by decide +kernel⟩

end Verif
