import Verif.Props.Main2
import Verif.Props.Text
/-!
# From the builder, and from DWARF, to the listing: C62, C63
-/

namespace Verif
open Spec

variable {o : Endian}

/-! ### C62 -/

/-- The line for the row `r` of the function `f` in a section with the given options. -/
def Spec.builtRow (so : SFrameOptions) (f : FuncDescBuilder) (r : FrameRowBuilder) : DumpLine :=
  .row (BitVec.ofInt 32 (f.startAddress.toInt + r.startAddress.toNat)) r.baseReg
    (r.offsets.map FrameRowOffsets.cfa)
    (match so.fixedFp with
      | some v => some (BitVec.ofInt 32 v.val.toInt)
      | none => r.offsets.bind FrameRowOffsets.fp)
    (match so.fixedRa with
      | some v => some (BitVec.ofInt 32 v.val.toInt)
      | none => r.offsets.bind FrameRowOffsets.ra)
    r.mangled

/-- The lines for the function `f`. -/
def Spec.builtFn (so : SFrameOptions) (idx : Nat) (f : FuncDescBuilder) : List DumpLine :=
  [.func idx f.startAddress f.size, .columns (if f.repSize.isSome then .pcMask else .pcInc)] ++
    (rows f).map (builtRow so f) ++ [.blank]

/-- The first line for a builder. -/
def Spec.builtHeader (b : SFrameBuilder) : DumpLine :=
  .header 2 b.options.flags (BitVec.ofNat 32 (functions b).length)
    (BitVec.ofNat 32 (totalRows (functions b))) b.options.abiArch
    (b.options.fixedFp.map (·.val)) (b.options.fixedRa.map (·.val))

/-- A row that stops the dump: it starts outside its function (which was made smaller after the row
was added), or, in debug builds, at an address above `i32::MAX`. -/
def Spec.Stops (dbg : Bool) (f : FuncDescBuilder) (r : FrameRowBuilder) : Prop :=
  ¬ r.startAddress.toNat < f.size.toNat ∨
    (dbg = true ∧ 2147483647 < f.startAddress.toInt + r.startAddress.toNat)

/-- The line of a row that says what the builder's row says. -/
theorem rowLine_built {s : SFrame o} {so : SFrameOptions} {f : FuncDescBuilder} {r : FrameRowBuilder}
    {q : FrameRowEntry o} (h : SameRow s so q r) :
    rowLine s.fixedFp.toInt s.fixedRa.toInt f.startAddress.toInt q.view = builtRow so f r := by
  obtain ⟨h1, h2, h3, h4, h5, h6⟩ := h
  obtain ⟨c1, c2, c3⟩ := C21_offset_accessors q s
  have e1 := orMissing_inj.1 (c1.symm.trans h4)
  have e2 := orMissing_inj.1 (c2.symm.trans h5)
  have e3 := orMissing_inj.1 (c3.symm.trans h6)
  unfold rowLine builtRow
  rw [e1, e2, e3]
  have hs : q.view.start = r.startAddress.toNat := by rw [← h1]; rfl
  have hb : q.view.base = r.baseReg := h2
  have hm : q.view.mangled = r.mangled := h3
  rw [hs, hb, hm]
  congr 1
  · cases r.offsets <;> simp
  · cases so.fixedFp with
    | some v => rfl
    | none => cases r.offsets with
      | none => rfl
      | some x => cases hx : x.fp <;> simp [hx]
  · cases so.fixedRa with
    | some v => rfl
    | none => cases r.offsets with
      | none => rfl
      | some x => cases hx : x.ra <;> simp [hx]

/-- The lines of the rows that were read. -/
theorem fnLines_built {s : SFrame o} {so : SFrameOptions} {f : FuncDescBuilder} {e : FuncDescEntry o}
    (idx : Nat) (h : RowsRead s so f e) (h1 : e.startAddress = f.startAddress) (h2 : e.size = f.size)
    (h3 : e.fdetype = if f.repSize.isSome then .pcMask else .pcInc) :
    fnLines s.fixedFp.toInt s.fixedRa.toInt idx e = builtFn so idx f := by
  obtain ⟨rs, hrs, hlen, hsame⟩ := h
  have hp : ∀ v, .ok v ∈ decodeFres o e.fde.info.toNat e.fde.numFres.toNat e.fres →
      v.start < e.size.toNat := by
    intro v hv
    apply Classical.byContradiction
    intro hn
    obtain ⟨p, hp⟩ := (C11_fre_panics_iff_partial e).1.2 ⟨v, hv, hn⟩
    rw [hrs] at hp; cases hp
  obtain ⟨rs', g1, g2, _⟩ := C12_rows_decode e hp
  rw [hrs] at g1
  cases g1
  unfold fnLines builtFn
  rw [← g2, h1, h2, h3]
  congr 2
  apply List.ext_getElem?
  intro j
  simp only [List.map_map, List.getElem?_map]
  rcases Nat.lt_or_ge j rs.length with hj | hj
  · have hj' : j < (rows f).length := by omega
    rw [List.getElem?_eq_getElem hj, List.getElem?_eq_getElem hj']
    simp only [Option.map_some, Option.some.injEq]
    exact rowLine_built (hsame j _ _ (List.getElem?_eq_getElem hj') (List.getElem?_eq_getElem hj))
  · rw [List.getElem?_eq_none hj, List.getElem?_eq_none (by omega)]
    rfl

/-- The lines of the functions, one after the other. -/
theorem fnsLines_flatten (ff fr : Int) (idx : Nat) (es : List (FuncDescEntry o)) :
    fnsLines ff fr idx es = (es.mapIdx fun i e => fnLines ff fr (idx + i) e).flatten := by
  induction es generalizing idx with
  | nil => rfl
  | cons e es ih =>
    rw [fnsLines, ih, List.mapIdx_cons]
    simp only [List.flatten_cons, Nat.add_zero]
    congr 3
    funext i e
    rw [Nat.add_assoc, Nat.add_comm 1 i]

/-- **C62.**  The dump of a built section.  It panics exactly if some row starts outside its function
or, in debug builds, above `i32::MAX`.  Otherwise it prints the header, then function by function the
line of the function, as many lines as it has rows, and an empty line; the lines of the rows are those
of the builder for every function whose rows can be stored (see C31). -/
theorem C62_dump_of_built (dbg dbg' dbg'' : Bool) (o : Endian) (b : SFrameBuilder)
    (hb : SFrameBuilder.Reachable dbg' b) (out : List U8) (h : b.build dbg'' o = .ok (.ok out)) :
    ∃ s, SFrame.load o out = .ok (.ok s) ∧
      ((dump dbg s).2.Panics ↔ ∃ f ∈ functions b, ∃ r ∈ rows f, Stops dbg f r) ∧
      ((∀ f ∈ functions b, ∀ r ∈ rows f, ¬ Stops dbg f r) →
        ∃ lss : List (List DumpLine), lss.length = (functions b).length ∧
          dump dbg s = (builtHeader b :: lss.flatten, .ok ()) ∧
          ∀ (i : Nat) f, (functions b)[i]? = some f →
            (∃ ls, ls.length = (rows f).length ∧ lss[i]? = some ([.func i f.startAddress f.size,
              .columns (if f.repSize.isSome then .pcMask else .pcInc)] ++ ls ++ [.blank])) ∧
            (Storable f → lss[i]? = some (builtFn b.options i f))) := by
  obtain ⟨s, es, h1, h2, v1, v2, v3, v4, v5, _, v6, v7, v8, _, hent⟩ :=
    C30_round_trip dbg'' dbg' o b hb out h
  obtain ⟨s', es', h1', h2', _, hrows⟩ := C31_rows_partial dbg'' dbg' o b hb out h
  rw [h1] at h1'; cases h1'
  rw [h2] at h2'; cases h2'
  have hdec : ∀ (i : Nat) f e, (functions b)[i]? = some f → es[i]? = some e →
      decodeFres o e.fde.info.toNat e.fde.numFres.toNat e.fres = (rows f).map fun r => .ok (rowView r) := by
    obtain ⟨rfl, _, hfits⟩ := build_ok hb.inv h
    rw [load_image o b hfits] at h1
    cases h1
    obtain ⟨es', hes, _, hget⟩ := readBack_entries o b hfits
    rw [h2] at hes; cases hes
    intro i f e hf he
    obtain ⟨rest, hr⟩ := hget i f hf
    rw [he] at hr
    exact built_decodes hb.inv hfits hf (Option.some.inj hr)
  have hbad : (∃ e ∈ es, BadFn dbg e) ↔ ∃ f ∈ functions b, ∃ r ∈ rows f, Stops dbg f r := by
    have hone : ∀ (i : Nat) f e, (functions b)[i]? = some f → es[i]? = some e →
        (BadFn dbg e ↔ ∃ r ∈ rows f, Stops dbg f r) := by
      intro i f e hf he
      obtain ⟨g1, g2, _⟩ := hent i f e hf he
      unfold BadFn
      rw [hdec i f e hf he, g1, g2]
      constructor
      · rintro ⟨v, hv, hb⟩
        obtain ⟨r, hr, hv⟩ := List.mem_map.1 hv
        cases hv
        exact ⟨r, hr, hb⟩
      · rintro ⟨r, hr, hs⟩
        exact ⟨rowView r, List.mem_map.2 ⟨r, hr, rfl⟩, hs⟩
    constructor
    · rintro ⟨e, he, hbe⟩
      obtain ⟨i, hi⟩ := List.mem_iff_getElem?.1 he
      obtain ⟨hil, _⟩ := List.getElem?_eq_some_iff.1 hi
      have hf := List.getElem?_eq_getElem (l := functions b) (i := i) (by omega)
      exact ⟨_, List.getElem_mem _, (hone i _ e hf hi).1 hbe⟩
    · rintro ⟨f, hf, hr⟩
      obtain ⟨i, hi⟩ := List.mem_iff_getElem?.1 hf
      obtain ⟨hil, _⟩ := List.getElem?_eq_some_iff.1 hi
      have he := List.getElem?_eq_getElem (l := es) (i := i) (by omega)
      exact ⟨_, List.getElem_mem _, (hone i f _ hi he).2 hr⟩
  have hpr := dump_prints dbg s es h2
  refine ⟨s, h1, ⟨fun hp => ?_, fun hs => (hpr.2 (hbad.2 hs)).1⟩, fun hno => ?_⟩
  · apply Classical.byContradiction
    intro hn
    rw [hpr.1 (fun h => hn (hbad.1 h))] at hp
    obtain ⟨p, hp⟩ := hp
    cases hp
  · refine ⟨es.mapIdx fun i e => fnLines s.fixedFp.toInt s.fixedRa.toInt i e, by simpa using v8, ?_, ?_⟩
    · rw [hpr.1 (fun h => by obtain ⟨f, hf, r, hr, hs⟩ := hbad.1 h; exact hno f hf r hr hs)]
      unfold listing builtHeader
      rw [fnsLines_flatten, v1, v2, v3, v4, v5, ← v6, ← v7]
      simp
    · intro i f hf
      obtain ⟨hil, _⟩ := List.getElem?_eq_some_iff.1 hf
      have he := List.getElem?_eq_getElem (l := es) (i := i) (by omega)
      obtain ⟨g1, g2, g3, _⟩ := hent i f _ hf he
      simp only [List.getElem?_mapIdx, he, Option.map_some, Option.some.injEq]
      refine ⟨⟨_, ?_, by unfold fnLines; rw [g1, g2, g3]⟩, fun hst => ?_⟩
      · rw [hdec i f _ hf he]; simp
      · exact fnLines_built i ((hrows i f _ hf he).2 hst) g1 g2 g3

/-- The sample section, listed: a PcMask function and an ordinary one. -/
example (dbg : Bool) : ∃ s, SFrame.load .little Samples.secOut = .ok (.ok s) ∧
    dump dbg s = (builtHeader Samples.sec ::
      [builtFn Samples.sec.options 0 (functions Samples.sec)[0],
       builtFn Samples.sec.options 1 (functions Samples.sec)[1]].flatten, .ok ()) ∧
    (∀ f ∈ functions Samples.sec, ∀ r ∈ rows f, ¬ Stops dbg f r) := by
  refine ⟨_, rfl, ?_, ?_⟩
  · cases dbg <;> decide +kernel
  · unfold Stops
    cases dbg <;> decide +kernel

/-! ### C63 -/

/-- The address at the start of a line of a row, as printed (an unsigned hexadecimal number). -/
def Spec.lineStart : DumpLine → Nat
  | .row start .. => start.toNat
  | _ => 0

/-- The line in force at address `a`: the last one that starts at or before it. -/
def Spec.governingLine (ls : List DumpLine) (a : Nat) : Option DumpLine :=
  (ls.filter fun l => decide (lineStart l ≤ a)).getLast?

/-- The rules that a line shows: none if the CFA or the return address is `u`. -/
def Spec.lineRules : DumpLine → Option Rules
  | .row _ base (some cfa) fp (some ra) _ =>
    some { base := base, cfa := cfa.toInt, fp := fp.map BitVec.toInt, ra := ra.toInt }
  | _ => none

/-- The contract of the `object` crate: what `w` emits, `w'` parses, and finds the sections that were
put in. -/
def Spec.ReadsBack (w w' : World) : Prop :=
  ∀ x out, w.emit x = some out → ∃ file, w'.parse out = some file ∧
    ∀ t, x.sections = [t] → ∃ s, file.sectionByName t.name = some s ∧ s.data = some t.data

theorem toInt_ofInt_i8 (x : I8) : (BitVec.ofInt 32 x.toInt).toInt = x.toInt := by
  have h1 := x.toInt_lt
  have h2 := x.le_toInt
  rw [BitVec.toInt_ofInt, Int.bmod_def]
  simp only [Nat.reduceSub, Nat.reducePow] at h1 h2 ⊢
  split <;> omega

/-- The line of a row shows what the row means. -/
theorem lineRules_builtRow (so : SFrameOptions) (f : FuncDescBuilder) (r : FrameRowBuilder) :
    lineRules (builtRow so f r) = meaning so r := by
  unfold builtRow meaning
  cases r.offsets with
  | none => rfl
  | some x =>
    cases so.fixedRa <;> cases so.fixedFp <;> cases hx : x.ra <;>
      simp only [lineRules, hx, toInt_ofInt_i8, Option.map_some, Option.map_none, Option.bind_some]

theorem Spec.LastWith.unique {fdes : List DwFde} {x y : DwFde} (hx : LastWith fdes x)
    (hy : LastWith fdes y) (h : x.initial = y.initial) : x = y := by
  obtain ⟨p1, q1, e1, a1⟩ := hx
  obtain ⟨p2, q2, e2, a2⟩ := hy
  rw [e1] at e2
  rcases List.append_eq_append_iff.1 e2 with ⟨l, hl1, hl2⟩ | ⟨l, hl1, hl2⟩
  · cases l with
    | nil => simp at hl2; exact hl2.1
    | cons z l =>
      simp only [List.cons_append, List.cons.injEq] at hl2
      exact absurd h.symm (a1 y (by rw [hl2.2]; simp))
  · cases l with
    | nil => simp at hl2; exact hl2.1.symm
    | cons z l =>
      simp only [List.cons_append, List.cons.injEq] at hl2
      exact absurd h (a2 x (by rw [hl2.2]; simp))

/-- The address on the line of a row of a converted function. -/
theorem lineStart_builtRow {so opts fde} (hfp : so.fixedFp = none) (h : Convertible so opts fde)
    {r : FrameRowBuilder} (hr : r ∈ rows (fnFor so opts fde)) :
    lineStart (builtRow so (fnFor so opts fde) r) = fde.initial.toNat + r.startAddress.toNat ∧
    ∃ d ∈ live (rowsOf fde), d.start.toNat = fde.initial.toNat + r.startAddress.toNat ∧
      r.startAddress.toNat < fde.len.toNat := by
  obtain ⟨d, hd, rfl⟩ := fnFor_rows hfp h hr
  have hp := h.clean.placed d hd
  have hs : (storedRow so (rowOf opts.arch fde d)).startAddress.toNat = d.start.toNat - fde.initial.toNat :=
    rowOf_start (arch := opts.arch) hp.near
  have := hp.after
  have := hp.inside
  have := h.start
  have := h.len
  refine ⟨?_, d, hd, by omega, by omega⟩
  unfold builtRow lineStart
  simp only []
  rw [fnFor_start h, hs, show (fde.initial.toNat : Int) + ((d.start.toNat - fde.initial.toNat : Nat) : Int)
    = ((d.start.toNat : Nat) : Int) by omega, BitVec.ofInt_natCast, BitVec.toNat_ofNat]
  omega

/-- **C63, converter and dumper.**  The listing of a converted section: every DWARF function in force
(the last one at its start) has its lines, and if its rows are in order and have no width tie, then at
every address that a row of it covers, the line in force there shows the rules of the row, or `u` if
SFrame cannot express them. -/
theorem converted_listing (dbg dbg' dbg'' : Bool) (o : Endian) (eh : EhFrame) (opts : Options)
    (b : SFrameBuilder) (h : dwarf2sframe dbg eh opts = .ok (.ok b)) (out : List U8)
    (hb : b.build dbg' o = .ok (.ok out)) (fdes : List DwFde)
    (hin : inputs eh opts.bases = fdes.map .ok)
    (hover : dbg'' = true → ∀ fde ∈ fdes, ∀ d ∈ live (rowsOf fde), d.start.toNat ≤ 2147483647) :
    ∃ s lines, SFrame.load o out = .ok (.ok s) ∧ dump dbg'' s = (lines, .ok ()) ∧
      ∀ fde, LastWith fdes fde → ∃ pre idx ls post,
        lines = pre ++ ([.func idx (BitVec.ofNat 32 fde.initial.toNat) (BitVec.ofNat 32 fde.len.toNat),
          .columns .pcInc] ++ ls ++ [.blank]) ++ post ∧
        (WellFormed (rowsOf fde) → (∀ d ∈ live (rowsOf fde), ∀ t, translate opts.arch d = some t →
            ¬ WidthTie (storedValues b.options t)) →
          ∀ row ∈ rowsOf fde, ∀ a : Nat, row.start.toNat ≤ a → a < row.end_.toNat →
            ∃ l, governingLine ls a = some l ∧ lineRules l = translate opts.arch row) := by
  obtain ⟨s, h1, _, h2⟩ := C62_dump_of_built dbg'' dbg dbg' o b (converted_reachable h) out hb
  obtain ⟨fdes', hin', hc, hbo⟩ := dwarf2sframe_ok_iff.1 h
  rw [hin] at hin'
  cases map_ok_inj hin'
  have hfp := sectionOptions_fp eh opts
  have hopt : b.options = sectionOptions eh opts := by rw [hbo]; rfl
  have hmem : ∀ f, f ∈ functions b ↔ ∃ fde, LastWith fdes fde ∧ f = fnFor (sectionOptions eh opts) opts fde := by
    rw [hbo]; exact mem_functions fun g hg => (hc g hg).start
  obtain ⟨lss, hl1, hl2, hl3⟩ := h2 (by
    intro f hf r hr
    obtain ⟨fde, hl, rfl⟩ := (hmem f).1 hf
    have hcf := hc fde hl.mem
    obtain ⟨_, d, hd, hd1, hd2⟩ := lineStart_builtRow hfp hcf hr
    rintro (hs | ⟨hdbg, hs⟩)
    · exact hs (by rw [fnFor_size hcf]; exact hd2)
    · have := hover hdbg fde hl.mem d hd
      rw [fnFor_start hcf] at hs
      omega)
  refine ⟨s, _, h1, hl2, fun fde hl => ?_⟩
  have hcf := hc fde hl.mem
  have hf := (hmem _).2 ⟨fde, hl, rfl⟩
  obtain ⟨i, hi⟩ := List.mem_iff_getElem?.1 hf
  obtain ⟨⟨ls, _, hls⟩, hst⟩ := hl3 i _ hi
  obtain ⟨f1, f2, f3, f4, f5⟩ := fnFor_fields (sectionOptions eh opts) opts fde
  have hsplit : ∀ x, lss[i]? = some x →
      builtHeader b :: lss.flatten = (builtHeader b :: (lss.take i).flatten) ++ x ++ (lss.drop (i + 1)).flatten := by
    intro x hx
    obtain ⟨hil, rfl⟩ := List.getElem?_eq_some_iff.1 hx
    have hl : lss = lss.take i ++ lss[i] :: lss.drop (i + 1) := by
      rw [← List.drop_eq_getElem_cons hil, List.take_append_drop]
    rw [congrArg List.flatten hl]
    simp only [List.flatten_append, List.flatten_cons, List.cons_append, List.append_assoc]
  have hstart : (fnFor (sectionOptions eh opts) opts fde).startAddress = BitVec.ofNat 32 fde.initial.toNat := by
    rw [f2]; rfl
  have hsize : (fnFor (sectionOptions eh opts) opts fde).size = BitVec.ofNat 32 fde.len.toNat := by
    rw [f3]; rfl
  rw [hstart, hsize, f4] at hls
  refine ⟨_, i, ls, _, hsplit _ hls, fun hw hties => ?_⟩
  have hst := hst ((fnFor_storable hfp hcf).2 (by
    intro r hr
    obtain ⟨d, hd, rfl⟩ := fnFor_rows hfp hcf hr
    rw [values_stored hfp]
    cases htr : translate opts.arch d with
    | none => exact not_tie_nil
    | some t => rw [← hopt]; exact hties d hd t htr))
  rw [hls] at hst
  unfold builtFn at hst
  rw [hstart, hsize, f4] at hst
  have hls' : ls = (rows (fnFor (sectionOptions eh opts) opts fde)).map
      (builtRow b.options (fnFor (sectionOptions eh opts) opts fde)) := by simpa using hst
  intro row hrow a ha1 ha2
  obtain ⟨f, hf', hs', _, hgov⟩ := C46_unwinds_alike dbg eh opts b h fdes hin fde hl hw
  obtain ⟨fde', hl', rfl⟩ := (hmem f).1 hf'
  have : fde' = fde := hl'.unique hl (BitVec.eq_of_toNat_eq (by
    rw [fnFor_start (hc fde' hl'.mem)] at hs'; omega))
  subst this
  obtain ⟨r, hr, _, hmean⟩ := hgov row hrow a ha1 ha2
  refine ⟨builtRow b.options (fnFor (sectionOptions eh opts) opts fde') r, ?_, by
    rw [lineRules_builtRow]; exact hmean⟩
  have hlive : row ∈ live (rowsOf fde') := by
    refine List.mem_filter.2 ⟨hrow, ?_⟩
    have : row.start ≠ row.end_ := by intro he; rw [he] at ha1; omega
    simpa using this
  have hafter := (hcf.clean.placed row hlive).after
  unfold governingLine
  unfold governingRow at hr
  rw [hls', List.filter_map, List.getLast?_map]
  have : (rows (fnFor (sectionOptions eh opts) opts fde')).filter
      ((fun l => decide (lineStart l ≤ a)) ∘ builtRow b.options (fnFor (sectionOptions eh opts) opts fde'))
      = (rows (fnFor (sectionOptions eh opts) opts fde')).filter
        (fun r => decide (r.startAddress.toNat ≤ a - fde'.initial.toNat)) := by
    apply List.filter_congr
    intro q hq
    have := (lineStart_builtRow hfp hcf hq).1
    simp only [Function.comp]
    rw [hopt, this]
    apply decide_eq_decide.2
    omega
  rw [this, hr]
  rfl

/-- **C63.**  Both tools, one after the other.  If `dwarf2sframe2` succeeds on a file, then `sframedump`
on what it wrote (`w'` is the world after the run) lists, on a host of the file's byte order, every
DWARF function with the rules of its rows; on a host of the other byte order it refuses the file (C60).
In debug builds of `sframedump` this needs that no row starts above `i32::MAX`. -/
theorem C63_end_to_end (dbg dbg' : Bool) (w w' : World) (args : Args2) (calls : List WriteCall)
    (h : runMain2 dbg w args = (.ok (.ok ()), calls)) (hobj : ReadsBack w w')
    (hfile : ∀ c ∈ calls, ∃ hd, w'.openFile c.path = some hd ∧ w'.mmap hd = some c.data) :
    ∃ file arch eh b bytes out, Made dbg w args file arch eh b bytes out ∧
      (w'.host ≠ file.endianness →
        sframedump dbg' w' args.output = ([], .ok (.error (.load .incorrectEndian)))) ∧
      ∀ fdes, inputs eh (toolBases file) = fdes.map .ok → w'.host = file.endianness →
        (dbg' = true → ∀ fde ∈ fdes, ∀ d ∈ live (rowsOf fde), d.start.toNat ≤ 2147483647) →
        ∃ lines, sframedump dbg' w' args.output = (lines, .ok (.ok ())) ∧
          ∀ fde, LastWith fdes fde → ∃ pre idx ls post,
            lines = pre ++ ([.func idx (BitVec.ofNat 32 fde.initial.toNat) (BitVec.ofNat 32 fde.len.toNat),
              .columns .pcInc] ++ ls ++ [.blank]) ++ post ∧
            (WellFormed (rowsOf fde) → (∀ d ∈ live (rowsOf fde), ∀ t, translate arch d = some t →
                ¬ WidthTie (storedValues b.options t)) →
              ∀ row ∈ rowsOf fde, ∀ a : Nat, row.start.toNat ≤ a → a < row.end_.toNat →
                ∃ l, governingLine ls a = some l ∧ lineRules l = translate arch row) := by
  obtain ⟨file, arch, eh, b, bytes, out, hm, hwr, rfl⟩ := (C54_success dbg w args calls).1 h
  obtain ⟨hd, h1, h2⟩ := hfile _ (List.mem_singleton.2 rfl)
  obtain ⟨file', h3, h4⟩ := hobj _ _ hm.emit
  obtain ⟨s, h5, h6⟩ := h4 _ rfl
  have hread : Readable w' args.output file' bytes := ⟨⟨hd, out, h1, h2, h3⟩, s, h5, h6⟩
  obtain ⟨p1, p2, _⟩ := C60_host_order_partial (dbg := dbg') hread
  refine ⟨file, arch, eh, b, bytes, out, hm, ?_, ?_⟩
  · intro hne
    exact p2 _ (C04_wrong_endian dbg dbg file.endianness w'.host (fun e => hne e.symm) b
      (converted_reachable hm.convert) bytes hm.build)
  · intro fdes hin hhost hover
    obtain ⟨s, lines, g1, g2, g3⟩ := converted_listing dbg dbg dbg' w'.host eh
      (toolOptions args arch file) b hm.convert bytes (by rw [hhost]; exact hm.build) fdes hin hover
    obtain ⟨k1, k2⟩ := p1 s g1
    rw [g2] at k1 k2
    exact ⟨lines, Prod.ext k1 (k2.2 rfl), g3⟩

/-- The sample world, with an `emit` that only knows objects with the one section `.sframe`. -/
def Samples.worldBefore : World :=
  { Samples.world false with
    emit := fun x => match x.sections with
      | [t] => if t.name = ".sframe" then some t.data else none
      | _ => none }

/-- The world after a run: the file `out` holds what was written. -/
def Samples.worldAfter (out : List U8) : World :=
  { Samples.worldBefore with
    openFile := fun p => if p = "out" then some 4 else none
    mmap := fun _ => some out
    parse := fun d => some ⟨.little, .x86_64, [⟨".sframe", 0, some d⟩]⟩ }

/-- The sample run, and the listing of what it writes. -/
example (dbg : Bool) :
    runMain2 dbg Samples.worldBefore Samples.args2 =
      (.ok (.ok ()), [⟨"out", image .little (Samples.oneAt 0x1010)⟩]) ∧
    ReadsBack Samples.worldBefore (Samples.worldAfter (image .little (Samples.oneAt 0x1010))) ∧
    sframedump dbg (Samples.worldAfter (image .little (Samples.oneAt 0x1010))) "out" =
      ([.header 2 1 1 1 3 none (some (-8)), .func 0 0x1010 0x20, .columns .pcInc,
        .row 0x1010 .sp (some 8) none (some (-8)) false, .blank], .ok (.ok ())) := by
  refine ⟨by cases dbg <;> decide +kernel, ?_, by cases dbg <;> decide +kernel⟩
  intro x out hx
  refine ⟨_, rfl, fun t ht => ⟨⟨".sframe", 0, some out⟩, ?_, ?_⟩⟩
  all_goals
    simp only [Samples.worldBefore, ht] at hx
    split at hx
    · rename_i hn
      cases hx
      try rw [hn]
      rfl
    · cases hx

end Verif
