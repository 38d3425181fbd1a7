import Verif.Props.WalkExact
import Verif.Props.Exact
import Verif.Props.Rewrite
import Verif.Props.Execute3
/-!
# Rows with a width tie: C52, C69, C99, C101, C103 without exception
-/

namespace Verif
open Spec SFrameBuilder

instance (vs : List Int) : Decidable (WidthTie vs) :=
  decidable_of_iff (∃ m ∈ [(0x80 : Int), 0x8000], (∀ v ∈ vs, (v.natAbs : Int) ≤ m) ∧ m ∈ vs ∧
    vs.find? (fun v => decide ((v.natAbs : Int) = m)) = some (-m)) (by
    constructor
    · rintro ⟨m, hm, h⟩
      exact ⟨m, by simpa using hm, h⟩
    · rintro ⟨m, hm, h⟩
      exact ⟨m, by simpa using hm, h⟩)

namespace Spec

/-- What is read of the offset `v` of a row with the offsets `vs`: where there is a tie, the largest are read as
negative numbers. -/
def asRead (vs : List Int) (v : Int) : Int :=
  if WidthTie vs ∧ ∀ w ∈ vs, w.natAbs ≤ v.natAbs then -v.natAbs else v

/-- What is read of a row with these rules. -/
def asStored (so : SFrameOptions) (t : Rules) : Rules where
  base := t.base
  cfa := asRead (storedValues so t) t.cfa
  fp := t.fp.map (asRead (storedValues so t))
  ra := if so.fixedRa.isSome then t.ra else asRead (storedValues so t) t.ra

/-- The rows of a function start inside it, and there is no FP offset without RA offset where the RA offset is per
row: `Storable` but for the ties. -/
def RowsPlaced (f : FuncDescBuilder) : Prop :=
  ∀ r ∈ rows f, r.startAddress.toNat < f.size.toNat ∧
    ∀ x, r.offsets = some x → f.options.fixedRa = none → x.fp.isSome → x.ra.isSome

/-- The rules that a row gives. -/
def rulesIn (x : RowReading) : Option Rules :=
  match x.cfa, x.ra with
  | .ok cfa, .ok ra =>
    some { base := x.base, cfa := cfa.toInt, ra := ra.toInt, fp := x.fp.toOption.map BitVec.toInt }
  | _, _ => none

end Spec

theorem asRead_not_tie {vs : List Int} (h : ¬ WidthTie vs) (v : Int) : asRead vs v = v := by
  unfold asRead
  rw [if_neg fun h' => h h'.1]

/-- What is left of an offset. -/
theorem truncTo_asRead (r : FrameRowBuilder) {x : I32} (hx : x ∈ rowValues r) :
    truncTo (rowOffsetType r) x = asRead (values r) x.toInt := by
  by_cases ht : WidthTie (values r)
  · have hmem : x.toInt ∈ values r := by rw [values_eq]; exact List.mem_map_of_mem hx
    rw [truncTo_bmod, ← rowWidth_eq, rowWidth_widthFor]
    obtain ⟨h1, h2, h3⟩ := firstLargest_spec (values r)
    have hd : asRead (values r) x.toInt = if ∀ w ∈ values r, w.natAbs ≤ x.toInt.natAbs then -(x.toInt.natAbs : Int)
        else x.toInt := by
      unfold asRead
      simp only [ht, true_and]
    rw [hd]
    obtain ⟨k, hk, hle, hkm, hfind⟩ := ht
    generalize firstLargest (values r) = m at h1 h2 h3
    have hkm' := h1 k hkm
    have hmk : (m.natAbs : Int) ≤ k := by
      rcases h2 with h2 | h2
      · subst h2; rcases hk with rfl | rfl <;> decide
      · exact hle m h2
    have habs : (m.natAbs : Int) = k := by rcases hk with rfl | rfl <;> omega
    have hm : m = -k := by
      have := h3 (by rintro rfl; rcases hk with rfl | rfl <;> simp at habs)
      have heq : (fun v : Int => decide (v.natAbs = m.natAbs))
          = fun v : Int => decide ((v.natAbs : Int) = k) := by
        funext v
        apply decide_eq_decide.2
        omega
      rw [heq, hfind] at this
      simpa using this.symm
    have hlarge : (∀ w ∈ values r, w.natAbs ≤ x.toInt.natAbs) ↔ (x.toInt.natAbs : Int) = k := by
      constructor
      · intro h
        have a1 := h k hkm
        have a2 := hle _ hmem
        omega
      · intro h w hw
        have := hle w hw
        omega
    have hxk := hle _ hmem
    generalize x.toInt = y at hlarge hxk ⊢
    rcases hk with rfl | rfl
    · subst hm
      rw [show widthFor (-128) = 1 by decide]
      unfold Int.bmod
      simp only [show ((256 ^ 1 : Nat) : Int) = 256 from rfl]
      by_cases hl : ∀ w ∈ values r, w.natAbs ≤ y.natAbs
      · have := hlarge.1 hl
        rw [if_pos hl]
        split <;> omega
      · have := mt hlarge.2 hl
        rw [if_neg hl]
        split <;> omega
    · subst hm
      rw [show widthFor (-32768) = 2 by decide]
      unfold Int.bmod
      simp only [show ((256 ^ 2 : Nat) : Int) = 65536 from rfl]
      by_cases hl : ∀ w ∈ values r, w.natAbs ≤ y.natAbs
      · have := hlarge.1 hl
        rw [if_pos hl]
        split <;> omega
      · have := mt hlarge.2 hl
        rw [if_neg hl]
        split <;> omega
  · rw [asRead_not_tie ht]
    exact (truncTo_all r).2 ht x hx

theorem truncTo_small (t : FreAddrSize) (x : I32) : (BitVec.ofInt 32 (truncTo t x)).toInt = truncTo t x := by
  cases t <;> simp only [truncTo] <;> rw [BitVec.toInt_ofInt]
  · have h1 := BitVec.le_toInt (x.setWidth 8)
    have h2 := BitVec.toInt_lt (x := x.setWidth 8)
    unfold Int.bmod
    simp at h1 h2 ⊢
    split <;> omega
  · have h1 := BitVec.le_toInt (x.setWidth 16)
    have h2 := BitVec.toInt_lt (x := x.setWidth 16)
    unfold Int.bmod
    simp at h1 h2 ⊢
    split <;> omega
  · have h1 := BitVec.le_toInt x
    have h2 := BitVec.toInt_lt (x := x)
    unfold Int.bmod
    simp at h1 h2 ⊢
    split <;> omega

/-- What a reader learns from a row: the rules of the row, read back. -/
theorem rules_read {so : SFrameOptions} {r : FrameRowBuilder} (hfp : so.fixedFp = none) (hd : FixedDropped so r)
    (hord : ∀ x, r.offsets = some x → so.fixedRa = none → x.fp.isSome → x.ra.isSome) :
    rulesIn (readingOf (so.fixedRa.map (·.val)) (so.fixedFp.map (·.val)) (rowView r))
      = (meaning so r).map (asStored so) := by
  have key : ∀ y ∈ rowValues r, (BitVec.ofInt 32 (truncTo (rowOffsetType r) y)).toInt = asRead (values r) y.toInt :=
    fun y hy => by rw [truncTo_small, truncTo_asRead r hy]
  rw [hfp]
  cases ho : r.offsets with
  | none =>
    have h1 : (rowView r).offsets = [] := by simp [rowView, rowValues, ho]
    simp [rulesIn, readingOf, meaning, ho, h1]
  | some x =>
    obtain ⟨c, ra, fp⟩ := x
    have hv : (rowView r).offsets = ([c] ++ ra.toList ++ fp.toList).map (truncTo (rowOffsetType r)) := by
      simp [rowView, rowValues, ho]
    have hb : (rowView r).base = r.baseReg := rfl
    have hvals : values r = c.toInt :: (ra.toList ++ fp.toList).map BitVec.toInt := by
      simp [values, ho]
    have hrv : rowValues r = [c] ++ ra.toList ++ fp.toList := by simp [rowValues, ho]
    rw [hrv, hvals] at key
    generalize rowOffsetType r = ty at key hv
    cases hra : so.fixedRa with
    | some v =>
      have h1 := ((hd _ ho).1 (by rw [hra]; rfl))
      simp only at h1
      subst h1
      have k1 := key c (by simp)
      cases fp with
      | none =>
        simp only [Option.toList_none, List.append_nil, List.map_nil] at hv k1
        simp [rulesIn, readingOf, meaning, ho, hv, hra, hfp, hb, asStored, storedValues, k1, Except.toOption]
        rw [BitVec.toInt_signExtend_of_le (by decide)]
      | some f =>
        have k2 := key f (by simp)
        simp at hv k1 k2
        simp [rulesIn, readingOf, meaning, ho, hv, hra, hfp, hb, asStored, storedValues, k1, k2, Except.toOption]
        rw [BitVec.toInt_signExtend_of_le (by decide)]
    | none =>
      have h1 := hord _ ho hra
      simp only at h1
      have k1 := key c (by simp)
      cases ra with
      | none =>
        cases fp with
        | some f => simp at h1
        | none =>
          simp at hv
          simp [rulesIn, readingOf, meaning, ho, hv, hra]
      | some a =>
        have k2 := key a (by simp)
        cases fp with
        | none =>
          simp at hv k1 k2
          simp [rulesIn, readingOf, meaning, ho, hv, hra, hfp, hb, asStored, storedValues, k1, k2, Except.toOption]
        | some f =>
          have k3 := key f (by simp)
          simp at hv k1 k2 k3
          simp [rulesIn, readingOf, meaning, ho, hv, hra, hfp, hb, asStored, storedValues, k1, k2, k3, Except.toOption]

/-- The rows of a function of a built section. -/
theorem rows_read {o : Endian} {b : SFrameBuilder} {d : Bool} (hb : SFrameBuilder.Reachable d b) (hfits : Fits o b)
    (hfp : b.options.fixedFp = none) {i : Nat} {f : FuncDescBuilder} {e : FuncDescEntry o} {rest : List U8}
    (hf : (functions b)[i]? = some f) (he : e = ⟨.v2 (fdeOf f (chunkPos o b.fdes.values i)), chunk o f ++ rest⟩)
    (hwh : RowsPlaced f) :
    ∃ qs : List (FrameRowEntry o), e.iter.collect = .ok (qs.map .ok) ∧ qs.length = (rows f).length ∧
      ∀ (j : Nat) r q, (rows f)[j]? = some r → qs[j]? = some q →
        q.startAddressOffset = r.startAddress ∧ q.mangled = r.mangled ∧
          readRules (readBack o b) q = (meaning b.options r).map (asStored b.options) := by
  obtain ⟨h1, h2⟩ := readBack_fixed (o := o) b
  have hmem := List.mem_of_getElem? hf
  obtain ⟨hfi, hopt⟩ := hb.inv.function hmem
  have hrows : (e.iter.collect.bind fun rs => .ok (rs.map (·.map (readingIn (readBack o b))))) =
      .ok ((rows f).map fun r => .ok (readingOf (b.options.fixedRa.map (·.val)) (b.options.fixedFp.map (·.val))
        (rowView r))) := by
    rw [FuncDescEntry.collect_eq]
    have := readRows_readings (readBack o b) e.fde e.fde.numFres.toNat e.fres
    rw [built_decodes hb.inv hfits hf he, h1, h2] at this
    subst he
    exact this.trans (readings_inside _ _ _ _ fun r hr => (hwh r hr).1)
  cases hc : e.iter.collect with
  | panic => rw [hc] at hrows; cases hrows
  | diverge => rw [hc] at hrows; cases hrows
  | ok rs =>
    rw [hc] at hrows
    replace hrows := Rust.ok.inj hrows
    have hqs : ∃ qs : List (FrameRowEntry o), rs = qs.map .ok := by
      refine ⟨rs.filterMap Except.toOption, ?_⟩
      have hall : ∀ x ∈ rs, ∃ q, x = .ok q := by
        intro x hx
        have : x.map (readingIn (readBack o b)) ∈ (rows f).map fun r => Except.ok (ε := ReadError)
            (readingOf (b.options.fixedRa.map (·.val)) (b.options.fixedFp.map (·.val)) (rowView r)) := by
          rw [← hrows]; exact List.mem_map_of_mem hx
        obtain ⟨r, _, hr⟩ := List.mem_map.1 this
        cases x with
        | error => cases hr
        | ok q => exact ⟨q, rfl⟩
      clear hrows hc
      induction rs with
      | nil => rfl
      | cons x rs ih =>
        obtain ⟨q, rfl⟩ := hall x (by simp)
        simp only [List.filterMap_cons, Except.toOption, List.map_cons]
        rw [← ih fun y hy => hall y (by simp [hy])]
    obtain ⟨qs, rfl⟩ := hqs
    refine ⟨qs, rfl, by simpa using congrArg List.length hrows, fun j r q hr hq => ?_⟩
    have := congrArg (·[j]?) hrows
    simp only [List.getElem?_map, hr, hq, Option.map_some, Except.map, Option.some.injEq, Except.ok.injEq] at this
    have hsm : r.startAddress.toNat < 2 ^ 32 := r.startAddress.isLt
    have k1 := congrArg RowReading.start this
    have k2 := congrArg RowReading.mangled this
    simp only [readingIn, readingOf, rowView, BitVec.ofNat_toNat, BitVec.setWidth_eq] at k1 k2
    refine ⟨k1, k2, ?_⟩
    have hrm := List.mem_of_getElem? hr
    have hdrop : FixedDropped b.options r := by
      have hrm' := hrm
      simp only [rows, List.mem_map] at hrm'
      obtain ⟨e, he, rfl⟩ := hrm'
      rw [← hopt]; exact hfi.dropped e he
    rw [← rules_read hfp hdrop (by rw [← hopt]; exact (hwh r hrm).2), ← this]
    rfl

/-- What can be read of a built section at an address, ties or not. -/
theorem rulesAt_read {o : Endian} {dbg dbg' : Bool} {b : SFrameBuilder} (hb : SFrameBuilder.Reachable dbg' b)
    (hfp : b.options.fixedFp = none) {out : List U8} (h : b.build dbg o = .ok (.ok out)) :
    ∃ s, SFrame.load o out = .ok (.ok s) ∧
      ∀ f ∈ functions b, RowsPlaced f → ∃ es e qs, s.iter.collect = .ok es ∧ e ∈ es ∧
        e.startAddress = f.startAddress ∧ e.size = f.size ∧ e.iter.collect = .ok (qs.map .ok) ∧
        ∀ off r, governingRow (rows f) off = some r → ∃ q, governingEntry qs off = some q ∧ q.mangled = r.mangled ∧
          readRules s q = (meaning b.options r).map (asStored b.options) ∧
          ∀ a : Int, f.startAddress.toInt ≤ a → a < f.startAddress.toInt + f.size.toNat →
            (a - f.startAddress.toInt).toNat = off →
            sfRulesAt s a = (meaning b.options r).map fun t => (asStored b.options t, r.mangled) := by
  obtain ⟨rfl, _, hfits⟩ := build_ok hb.inv h
  obtain ⟨es, hes, hlen, hget⟩ := readBack_entries o b hfits
  have hload := load_image o b hfits
  have hsd := built_sorted hb h hload hes
  refine ⟨readBack o b, hload, fun f hf hwh => ?_⟩
  obtain ⟨i, hi⟩ := List.mem_iff_getElem?.1 hf
  obtain ⟨rest, hr⟩ := hget i f hi
  have hem := List.mem_of_getElem? hr
  generalize he : (⟨.v2 (fdeOf f (chunkPos o b.fdes.values i)), chunk o f ++ rest⟩ : FuncDescEntry o) = e at hr hem
  obtain ⟨qs, k1, k2, k3⟩ := rows_read hb hfits hfp hi he.symm hwh
  have e1 : e.startAddress = f.startAddress := by subst he; rfl
  have e2 : e.size = f.size := by subst he; rfl
  refine ⟨es, e, qs, hes, hem, e1, e2, k1, fun off r hgr => ?_⟩
  obtain ⟨q, hq, hP1, hP2, hP3⟩ := governing_transfer (P := fun q r => q.startAddressOffset = r.startAddress ∧
    q.mangled = r.mangled ∧ readRules (readBack o b) q = (meaning b.options r).map (asStored b.options))
    (fun q r h => h.1) _ qs (rows f) k2 k3 r hgr
  refine ⟨q, hq, hP2, hP3, fun a a1 a2 a3 => ?_⟩
  unfold sfRulesAt
  rw [hes]
  simp only
  rw [found_covering hsd hem (by rw [e1]; exact a1) (by rw [e1, e2]; exact a2), Option.bind_some, k1]
  simp only
  rw [show (qs.map Except.ok : List (Except ReadError (FrameRowEntry o))).filterMap Except.toOption = qs by
    rw [List.filterMap_map]
    exact List.filterMap_some]
  rw [e1, a3, hq]
  simp only [Option.bind_some]
  rw [hP3, hP2, Option.map_map]
  rfl

/-- A converted function starts all its rows inside and has an RA offset where there is one for FP. -/
theorem fnFor_whole {so opts fde} (hfp : so.fixedFp = none) (h : Convertible so opts fde) :
    RowsPlaced (fnFor so opts fde) := by
  intro r hr
  obtain ⟨d, hd, rfl⟩ := fnFor_rows hfp h hr
  refine ⟨?_, ?_⟩
  · have hp := h.clean.placed d hd
    rw [fnFor_size h]
    show (rowOf opts.arch fde d).startAddress.toNat < _
    rw [rowOf_start hp.near]
    have := hp.inside
    have := hp.after
    omega
  · intro x hx hra _
    rw [(fnFor_fields so opts fde).1] at hra
    unfold storedRow rowOf at hx
    cases ht : translate opts.arch d with
    | none => rw [ht] at hx; cases hx
    | some t =>
      rw [ht, hra] at hx
      cases hx
      rfl

/-- **C52, end to end and exactly**: convert, write, load and look at the rows: at every address that a row of the
DWARF function covers, the row of the loaded section in force there gives the rules of the DWARF row as they are read
back, or none if SFrame cannot express them.  Rules are read back as they are but for the largest of the offsets where
there is a tie, which are read as negative numbers.  Missing: that these are the same rules, which is false, see
`C52_tie`. -/
theorem C52_exact_partial (dbg dbg' : Bool) (o : Endian) (eh : EhFrame) (opts : Options)
    (b : SFrameBuilder) (h : dwarf2sframe dbg eh opts = .ok (.ok b)) (out : List U8)
    (hb : b.build dbg' o = .ok (.ok out)) (fdes : List DwFde)
    (hin : inputs eh opts.bases = fdes.map .ok) (fde : DwFde) (hl : LastWith fdes fde)
    (hw : WellFormed (rowsOf fde)) :
    ∃ s es e qs, SFrame.load o out = .ok (.ok s) ∧ s.iter.collect = .ok es ∧ e ∈ es ∧
      e.startAddress.toInt = fde.initial.toNat ∧ e.size.toNat = fde.len.toNat ∧
      e.iter.collect = .ok (qs.map .ok) ∧
      ∀ row ∈ rowsOf fde, ∀ a : Nat, row.start.toNat ≤ a → a < row.end_.toNat →
        ∃ q, governingEntry qs (a - fde.initial.toNat) = some q ∧ q.mangled = false ∧
          readRules s q = (translate opts.arch row).map (asStored b.options) := by
  obtain ⟨f, hf, hstart, hsize, hgov⟩ := C46_unwinds_alike dbg eh opts b h fdes hin fde hl hw
  have hfpwh : b.options.fixedFp = none ∧ RowsPlaced f := by
    obtain ⟨fdes', hin', hc, rfl⟩ := dwarf2sframe_ok_iff.1 h
    obtain ⟨fde', hl', rfl⟩ := (mem_functions (fun g hg => (hc g hg).start) _).1 hf
    exact ⟨sectionOptions_fp eh opts, fnFor_whole (sectionOptions_fp eh opts) (hc fde' hl'.mem)⟩
  obtain ⟨s, h1, h2⟩ := rulesAt_read (converted_reachable (dbg' := dbg) h) hfpwh.1 hb
  obtain ⟨es, e, qs, g1, g2, g3, g4, g5, g6⟩ := h2 f hf hfpwh.2
  refine ⟨s, es, e, qs, h1, g1, g2, by rw [g3]; exact hstart, by rw [g4]; exact hsize, g5, ?_⟩
  intro row hrow a ha1 ha2
  obtain ⟨r, hr, hm, hmean⟩ := hgov row hrow a ha1 ha2
  obtain ⟨q, k1, k2, k3, _⟩ := g6 _ r hr
  exact ⟨q, k1, by rw [k2, hm], by rw [k3, hmean]⟩

/-- What can be read of a converted section at an address, ties or not. -/
theorem rulesAt_converted_read (dbg dbg' : Bool) (o : Endian) (eh : EhFrame) (opts : Options)
    (b : SFrameBuilder) (h : dwarf2sframe dbg eh opts = .ok (.ok b)) (out : List U8)
    (hb : b.build dbg' o = .ok (.ok out)) (fdes : List DwFde)
    (hin : inputs eh opts.bases = fdes.map .ok)
    (hw : ∀ fde, LastWith fdes fde → WellFormed (rowsOf fde)) :
    ∃ s, SFrame.load o out = .ok (.ok s) ∧
      ∀ a row, DwRowAt fdes a row →
        sfRulesAt s a = ((translate opts.arch row).map (asStored b.options)).map fun t => (t, false) := by
  obtain ⟨s, es, h1, h2, _⟩ := C30_round_trip dbg' dbg o b (converted_reachable h) out hb
  have hsd := built_sorted (converted_reachable (dbg' := dbg) h) hb h1 h2
  refine ⟨s, h1, ?_⟩
  rintro a row ⟨fde, hl, hrow, a1, a2, a3, a4⟩
  obtain ⟨s', es', e, qs, g1, g2, g3, g4, g5, g6, g7⟩ :=
    C52_exact_partial dbg dbg' o eh opts b h out hb fdes hin fde hl (hw fde hl)
  rw [h1] at g1; cases g1
  rw [h2] at g2; cases g2
  obtain ⟨q, hq, hm, hr⟩ := g7 row hrow a.toNat (by omega) (by omega)
  unfold sfRulesAt
  rw [h2]
  simp only
  rw [found_covering hsd g3 (by omega) (by omega), Option.bind_some, g6]
  simp only
  rw [show (qs.map Except.ok : List (Except ReadError (FrameRowEntry o))).filterMap Except.toOption = qs by
    rw [List.filterMap_map]
    exact List.filterMap_some]
  rw [g4, show (a - (fde.initial.toNat : Int)).toNat = a.toNat - fde.initial.toNat by omega, hq]
  simp only [Option.bind_some, hr, hm]

/-- What can be read of the section of the legacy tool at an address, ties or not. -/
theorem rulesAt_legacy_read (dbg dbg' : Bool) (o : Endian) (eh : EhFrame) (bases : Bases)
    (b : SFrameBuilder) (h : legacyConvert dbg eh bases = .ok (.ok b)) (out : List U8)
    (hb : b.build dbg' o = .ok (.ok out)) (fdes : List DwFde) (hin : inputs eh bases = fdes.map .ok)
    (hw : ∀ fde, LastWith fdes fde → WellFormed (rowsOf fde)) :
    ∃ s, SFrame.load o out = .ok (.ok s) ∧
      ∀ a row, DwRowAt fdes a row →
        sfRulesAt s a = ((legacyTranslate row).map (asStored b.options)).map fun t => (t, false) := by
  have hre := (legacy_reachable (dbg' := dbg) h).1
  obtain ⟨fdes', hin', hc, rfl⟩ := legacyConvert_iff.1 h
  rw [hin] at hin'
  cases map_ok_inj hin'
  obtain ⟨s, h1, h2⟩ := rulesAt_read hre legacyOptions_fp hb
  have hcv : ∀ fde ∈ fdes.map tidyFde, Convertible legacyOptions (legacyLike bases) fde := by
    intro g hg
    obtain ⟨g, hg', rfl⟩ := List.mem_map.1 hg
    exact ((legacyConvertible_iff bases g).1 (hc g hg')).1
  have hmem := fun f => mem_functions (so := legacyOptions) (opts := legacyLike bases)
    (fun g hg => (hcv g hg).start) f
  refine ⟨s, h1, ?_⟩
  rintro a row ⟨fde, hl, hrow, a1, a2, a3, a4⟩
  have hl' := lastWith_map hl
  have hcv' := hcv _ hl'.mem
  have hlive : tidy row ∈ live (rowsOf (tidyFde fde)) := by
    rw [rowsOf_tidy, live_tidy]
    exact List.mem_map_of_mem hrow
  obtain ⟨r, g1, g2, g3⟩ := fnFor_governs legacyOptions_fp hcv' hlive (a := a.toNat)
    (by show row.start.toNat ≤ _; omega) fun row' hrow' hle => by
      rw [rowsOf_tidy, live_tidy] at hrow'
      obtain ⟨row', hr', rfl⟩ := List.mem_map.1 hrow'
      exact (hw fde hl).no_inner (row := row) (row' := row') hrow hr' (by omega) hle
  have hs := fnFor_start hcv'
  have hz := fnFor_size hcv'
  rw [show (tidyFde fde).initial = fde.initial from rfl] at hs g1
  rw [show (tidyFde fde).len = fde.len from rfl] at hz
  obtain ⟨es, e, qs, _, _, _, _, _, k6⟩ := h2 _ ((hmem _).2 ⟨_, hl', rfl⟩) (fnFor_whole legacyOptions_fp hcv')
  obtain ⟨q, _, _, _, k⟩ := k6 _ r g1
  rw [k a (by omega) (by omega) (by rw [hs]; omega), g2]
  have g3 : meaning legacyOptions r = translate .amd64 (tidy row) := g3
  rw [tidy_translate] at g3
  show (meaning legacyOptions r).map _ = _
  rw [g3, Option.map_map]
  rfl

/-! ### C69 and C101 -/

/-- The rules `u` give of the caller what the row says: its stack pointer is the CFA, the return address and, if `u`
says where, the frame pointer are found in the memory. -/
def Spec.ReadRight (arch : Architecture) (mem : Memory) (ev : Eval) (strip : Strip) (m : Frame) (row : DwRow)
    (u : Rules) : Prop :=
  ∀ cfa ra, cfaValue ev m.reg row.cfa = some cfa → callerRegs arch mem ev m.reg cfa row (raNum arch) = some ra →
    callerRegs arch mem ev m.reg cfa row (spNum arch) = some cfa ∧
    mem (cfa + BitVec.ofInt 64 u.ra) = some (if SignedRa arch row then strip ra else ra) ∧
    ∀ off, u.fp = some off → ∀ v, callerRegs arch mem ev m.reg cfa row (fpNum arch) = some v →
      mem (cfa + BitVec.ofInt 64 off) = some v

/-- The CFA is stored first, so it is never read differently. -/
theorem asStored_cfa (so : SFrameOptions) (t : Rules) : (asStored so t).cfa = t.cfa := by
  show asRead (storedValues so t) t.cfa = t.cfa
  unfold asRead
  split
  · rename_i h
    obtain ⟨⟨k, hk, hle, hkm, hfind⟩, hl⟩ := h
    have h1 := hl k hkm
    have h2 := hle t.cfa (by simp [storedValues])
    have h3 : (t.cfa.natAbs : Int) = k := by omega
    unfold storedValues at hfind
    rw [List.cons_append, List.find?_cons_of_pos (by simpa using h3)] at hfind
    injection hfind with hfind
    omega
  · rfl

/-- A step with the rules as they are read. -/
theorem step_read {arch : Architecture} {mem : Memory} {ev : Eval} {strip : Strip} {row : DwRow}
    {t u : Rules} {m m1 : Frame} {m' : SFrameState} (hc : cfaRules arch row = some (t.base, t.cfa))
    (hra : raRules arch row = some t.ra) (hb : u.base = t.base) (hu : u.cfa = t.cfa) (ha : Agrees arch m m')
    (h : dwStep arch mem ev strip row m = some m1) :
    ∃ cfa ra, cfaValue ev m.reg row.cfa = some cfa ∧ callerRegs arch mem ev m.reg cfa row (raNum arch) = some ra ∧
      m1 = ⟨if SignedRa arch row then strip ra else ra, callerRegs arch mem ev m.reg cfa row⟩ ∧
      sfStep mem strip (u, false) m' =
        (mem (cfa + BitVec.ofInt 64 u.ra)).map fun ra => ⟨ra, cfa, savedFp mem cfa m' u.fp⟩ := by
  obtain ⟨cfa, ra, h1, h2, h3, h4⟩ := step_common hc hra ha h
  refine ⟨cfa, ra, h1, h2, h3, ?_⟩
  unfold sfStep at h4 ⊢
  obtain ⟨c, hc', h4⟩ := Option.bind_eq_some_iff.1 h4
  obtain ⟨_, _, h4⟩ := Option.map_eq_some_iff.1 h4
  have : c = cfa := congrArg SFrameState.sp h4
  subst this
  simp only [hb, hu]
  simp only at hc'
  rw [hc']
  rfl

/-- A whole walk with the rules as they are read. -/
theorem walk_read {arch : Architecture} {fdes : List DwFde} {mem : Memory} {ev : Eval} {strip : Strip}
    {rulesAt : Int → Option (Rules × Bool)} {U : DwRow → Option Rules} {P : Frame → DwRow → Prop}
    {Q : Frame → DwRow → Rules → Prop}
    (hr : ∀ a row, DwRowAt fdes a row → rulesAt a = (U row).map fun t => (t, false))
    (hs : ∀ row u m m1 m', U row = some u → Agrees arch m m' → P m row → dwStep arch mem ev strip row m = some m1 →
      ((∃ m1', sfStep mem strip (u, false) m' = some m1' ∧ Agrees arch m1 m1') ↔ Q m row u))
    {first : Bool} {m : Frame} {m' : SFrameState} {w : List (DwRow × Frame)}
    (h : DwWalk arch fdes mem ev strip first m w) (hp : ∀ p ∈ steps m w, P p.1 p.2) (ha : Agrees arch m m')
    {n : Nat} (hn : n ≤ w.length) :
    WalksAlike arch mem strip rulesAt n first m' w ↔
      ∀ p ∈ (steps m w).take n, ∃ u, U p.2 = some u ∧ Q p.1 p.2 u := by
  induction h generalizing m' n with
  | done =>
    have : n = 0 := by simpa using hn
    subst this
    exact ⟨fun _ p hp => by simp [steps] at hp, fun _ => ⟨[], rfl, fun i x y hx => by cases hx⟩⟩
  | @step first m row m1 rest hrow hstep hrest ih =>
    cases n with
    | zero => exact ⟨fun _ p hp => by simp at hp, fun _ => ⟨[], rfl, fun i x y _ hy => by cases hy⟩⟩
    | succ n =>
      have hw : sfWalk mem strip rulesAt (n + 1) first m' = ((U row).map fun t => (t, false)).bind fun t =>
          (sfStep mem strip t m').bind fun m1' =>
          (sfWalk mem strip rulesAt n false m1').map fun rest => m1' :: rest := by
        rw [sfWalk, ha.pc, hr _ _ hrow]
      unfold WalksAlike
      rw [hw]
      simp only [steps, List.take_succ_cons, List.forall_mem_cons]
      cases ht : U row with
      | none => simp
      | some u =>
        have k := hs row u m m1 m' ht ha (hp (m, row) (by simp [steps])) hstep
        have ih' := fun m1' hag => ih (m' := m1') (fun p hp' => hp p (by simp [steps, hp'])) hag (n := n)
          (by simpa using hn)
        simp only [Option.map_some, Option.bind_some, Option.some.injEq, exists_eq_left']
        constructor
        · rintro ⟨w', h1, h2⟩
          obtain ⟨m1', h3, h1⟩ := Option.bind_eq_some_iff.1 h1
          obtain ⟨w1, h4, rfl⟩ := Option.map_eq_some_iff.1 h1
          have hag : Agrees arch m1 m1' := h2 0 _ _ rfl rfl
          exact ⟨k.1 ⟨m1', h3, hag⟩, (ih' m1' hag).1 ⟨w1, h4, fun i x y hx hy => h2 (i + 1) x y hx hy⟩⟩
        · rintro ⟨hq, hrest'⟩
          obtain ⟨m1', h3, hag⟩ := k.2 hq
          obtain ⟨w1, h4, h5⟩ := (ih' m1' hag).2 hrest'
          refine ⟨m1' :: w1, by rw [h3, Option.bind_some, h4]; rfl, fun i x y hx hy => ?_⟩
          cases i with
          | zero =>
            simp only [List.getElem?_cons_zero, Option.some.injEq] at hx hy
            subst hx hy
            exact hag
          | succ i => exact h5 i x y hx hy

/-- One step, exactly, with the rules as they are read. -/
theorem step_read_exact {so : SFrameOptions} {arch : Architecture} {mem : Memory} {ev : Eval} {strip : Strip}
    {row : DwRow} {t : Rules} {m m1 : Frame} {m' : SFrameState} (hc : cfaRules arch row = some (t.base, t.cfa))
    (hra : raRules arch row = some t.ra) (ha : Agrees arch m m') (h : dwStep arch mem ev strip row m = some m1)
    {S : Prop}
    (hf : ∀ cfa, cfaValue ev m.reg row.cfa = some cfa → t.fp = none →
      ((∀ v, callerRegs arch mem ev m.reg cfa row (fpNum arch) = some v → m'.fp = some v) ↔ S))
    (hS : t.fp ≠ none → S) :
    (∃ m1', sfStep mem strip (asStored so t, false) m' = some m1' ∧ Agrees arch m1 m1') ↔
      ReadRight arch mem ev strip m row (asStored so t) ∧ S := by
  obtain ⟨cfa, ra, h1, h2, rfl, h4⟩ := step_read (u := asStored so t) hc hra rfl (asStored_cfa so t) ha h
  rw [h4]
  constructor
  · rintro ⟨m1', h5, h6⟩
    obtain ⟨pc, hpc, rfl⟩ := Option.map_eq_some_iff.1 h5
    refine ⟨fun c r hc' hr' => ?_, ?_⟩
    · rw [h1] at hc'; cases hc'
      rw [h2] at hr'; cases hr'
      refine ⟨h6.sp, by rw [hpc]; exact congrArg some h6.pc, fun off ho v hv => ?_⟩
      have := h6.fp v hv
      simp only [ho, savedFp] at this
      exact this
    · by_cases hn : t.fp = none
      · refine (hf cfa h1 hn).1 fun v hv => ?_
        have := h6.fp v hv
        rw [show (asStored so t).fp = none by simp [asStored, hn]] at this
        exact this
      · exact hS hn
  · rintro ⟨hR, hs⟩
    obtain ⟨k1, k2, k3⟩ := hR cfa ra h1 h2
    refine ⟨_, by rw [k2]; rfl, rfl, k1, fun v hv => ?_⟩
    cases ho : (asStored so t).fp with
    | none =>
      have hn : t.fp = none := by
        cases hn : t.fp with
        | none => rfl
        | some => simp [asStored, hn] at ho
      exact (hf cfa h1 hn).2 hs v hv
    | some off => exact k3 off ho v hv

/-- **C69, exactly, ties or not**: a walker that reads the converted section sees the frames that a DWARF walker sees
for exactly as long as the rows can be expressed, and their rules as they are read back give of the caller what the
rows say: the stack pointer is the CFA, and at the offsets that are read are the return address, not in need of
stripping, and the frame pointer.  Missing: that all but the first go without saying, which is false, see
`C69_stack_switch`. -/
theorem C69_ties_partial (dbg dbg' : Bool) (o : Endian) (eh : EhFrame) (opts : Options)
    (b : SFrameBuilder) (h : dwarf2sframe dbg eh opts = .ok (.ok b)) (out : List U8)
    (hb : b.build dbg' o = .ok (.ok out)) (fdes : List DwFde)
    (hin : inputs eh opts.bases = fdes.map .ok)
    (hw : ∀ fde, LastWith fdes fde → WellFormed (rowsOf fde)) :
    ∃ s, SFrame.load o out = .ok (.ok s) ∧
      ∀ mem ev strip first m m' w, DwWalk opts.arch fdes mem ev strip first m w → Agrees opts.arch m m' →
        ∀ n, n ≤ w.length →
          (WalksAlike opts.arch mem strip (sfRulesAt s) n first m' w ↔
            ∀ p ∈ (steps m w).take n, ∃ t, translate opts.arch p.2 = some t ∧
              ReadRight opts.arch mem ev strip p.1 p.2 (asStored b.options t)) := by
  obtain ⟨s, h1, h2⟩ := rulesAt_converted_read dbg dbg' o eh opts b h out hb fdes hin hw
  refine ⟨s, h1, fun mem ev strip first m m' w hwalk ha n hn => ?_⟩
  rw [walk_read (P := fun _ _ => True) (Q := fun m row u => ReadRight opts.arch mem ev strip m row u) h2
    (fun row u m m1 m' h1 h2 _ h3 => ?_) hwalk (fun _ _ => trivial) ha hn]
  · constructor
    · intro hh p hp
      obtain ⟨u, hu, hR⟩ := hh p hp
      obtain ⟨t, ht, rfl⟩ := Option.map_eq_some_iff.1 hu
      exact ⟨t, ht, hR⟩
    · intro hh p hp
      obtain ⟨t, ht, hR⟩ := hh p hp
      exact ⟨_, by rw [ht]; rfl, hR⟩
  · obtain ⟨t, ht, rfl⟩ := Option.map_eq_some_iff.1 h1
    obtain ⟨hc, hf, hra⟩ := translate_parts ht
    rw [step_read_exact (S := True) hc hra h2 h3 (fun cfa hcfa hn => ?_) fun _ => trivial, and_true]
    refine ⟨fun _ => trivial, fun _ v hv => ?_⟩
    have := step_fp hf h2 hv
    rw [hn] at this
    exact this

/-- **C101, exactly, ties or not**: a walker that reads the section of the legacy tool sees the frames that a DWARF
walker sees for exactly as long as the rows can be expressed but for the rule for RBP, their rules as they are read back
give of the caller what the rows say, and where the rule for RBP is dropped, the caller has the RBP of the callee.  It
is assumed that the DWARF walker knows RBP where that happens.  Missing: that the walk ends where a rule is dropped,
which is false, see `C101_wrong_frame`. -/
theorem C101_ties_partial (dbg dbg' : Bool) (o : Endian) (eh : EhFrame) (bases : Bases)
    (b : SFrameBuilder) (h : legacyConvert dbg eh bases = .ok (.ok b)) (out : List U8)
    (hb : b.build dbg' o = .ok (.ok out)) (fdes : List DwFde) (hin : inputs eh bases = fdes.map .ok)
    (hw : ∀ fde, LastWith fdes fde → WellFormed (rowsOf fde)) :
    ∃ s, SFrame.load o out = .ok (.ok s) ∧
      ∀ mem ev strip first m m' w, DwWalk .amd64 fdes mem ev strip first m w → Agrees .amd64 m m' →
        (∀ p ∈ steps m w, Dropped p.2 → p.1.reg (fpNum .amd64) ≠ none) →
        ∀ n, n ≤ w.length →
          (WalksAlike .amd64 mem strip (sfRulesAt s) n first m' w ↔
            ∀ p ∈ (steps m w).take n, (∃ t, legacyTranslate p.2 = some t ∧
              ReadRight .amd64 mem ev strip p.1 p.2 (asStored b.options t)) ∧
              (Dropped p.2 → SameFp .amd64 mem ev p.1 p.2)) := by
  obtain ⟨s, h1, h2⟩ := rulesAt_legacy_read dbg dbg' o eh bases b h out hb fdes hin hw
  refine ⟨s, h1, fun mem ev strip first m m' w hwalk ha hk n hn => ?_⟩
  rw [walk_read (P := fun m row => Dropped row → m.reg (fpNum .amd64) ≠ none)
    (Q := fun m row u => ReadRight .amd64 mem ev strip m row u ∧ (Dropped row → SameFp .amd64 mem ev m row)) h2
    (fun row u m m1 m' h1 h2 hp h3 => ?_) hwalk hk ha hn]
  · constructor
    · intro hh p hp
      obtain ⟨u, hu, hR, hS⟩ := hh p hp
      obtain ⟨t, ht, rfl⟩ := Option.map_eq_some_iff.1 hu
      exact ⟨⟨t, ht, hR⟩, hS⟩
    · intro hh p hp
      obtain ⟨⟨t, ht, hR⟩, hS⟩ := hh p hp
      exact ⟨_, by rw [ht]; rfl, hR, hS⟩
  · obtain ⟨t, ht, rfl⟩ := Option.map_eq_some_iff.1 h1
    obtain ⟨hc, hra, hf⟩ := legacy_parts ht
    refine step_read_exact hc hra h2 h3 (fun cfa hcfa hn => ?_) fun hn hd => ?_
    · constructor
      · intro hh hd c hc' v hv
        rw [hcfa] at hc'; cases hc'
        have := hh v hv
        cases hm : m.reg (fpNum .amd64) with
        | none => exact absurd hm (hp hd)
        | some x => rw [← h2.fp x hm, this]
      · intro hS v hv
        rcases hf with ⟨hf, _⟩ | ⟨_, hd⟩
        · have := step_fp hf h2 hv
          rw [hn] at this
          exact this
        · exact h2.fp v (hS hd cfa hcfa v hv)
    · rcases hf with ⟨_, hd'⟩ | ⟨hf, _⟩
      · exact absurd hd hd'
      · exact absurd hf hn

/-! ### C99 and C103 -/

/-- **C99, ties or not**: at every address of a function, a reader finds the rules that the instructions establish
there as they are read back, or none if SFrame cannot express them. -/
theorem C99_ties (dbg dbg' : Bool) (o : Endian) (eh : EhFrame) (opts : Options)
    (b : SFrameBuilder) (h : dwarf2sframe dbg eh opts = .ok (.ok b)) (out : List U8)
    (hb : b.build dbg' o = .ok (.ok out)) (fdes : List DwFde)
    (hin : inputs eh opts.bases = fdes.map .ok) (cie : DwFde → CieInfo)
    (hx : ∀ fde, LastWith fdes fde → Executed (cie fde) fde)
    (hf : ∀ fde, LastWith fdes fde →
      LocationsFit (cie fde) (fde.instructions.filterMap Except.toOption) fde.initial.toNat) :
    ∃ s, SFrame.load o out = .ok (.ok s) ∧
      (∀ fde, LastWith fdes fde → ∀ a : Nat, fde.initial.toNat ≤ a → a < fde.initial.toNat + fde.len.toNat →
        ∃ rs, instructionRules (cie fde) fde a = some rs ∧
          sfRulesAt s a = (expressible opts.arch rs).map fun t => (asStored b.options t, false)) ∧
      ∀ a : Int, Outside fdes a → sfRulesAt s a = none := by
  obtain ⟨fdes', hin', hc, _⟩ := dwarf2sframe_ok_iff.1 h
  rw [hin] at hin'
  cases map_ok_inj hin'
  have hrows := fun fde (hl : LastWith fdes fde) => executed_rows (hc fde hl.mem) (hx fde hl) (hf fde hl)
  obtain ⟨s, hs, hat⟩ := rulesAt_converted_read dbg dbg' o eh opts b h out hb fdes hin (fun fde hl => (hrows fde hl).1)
  refine ⟨s, hs, ?_, fun a ha => rulesAt_outside dbg dbg' eh opts b h hb fdes hin hs ha⟩
  intro fde hl a ha1 ha2
  obtain ⟨rs, h1, row, hrow, h2, h3, h4⟩ := (hrows fde hl).2 a ha1 ha2
  refine ⟨rs, h1, ?_⟩
  rw [hat a row ⟨fde, hl, hrow, by omega, by omega, by omega, by omega⟩, h4, Option.map_map]
  rfl

/-- **C103, ties or not**: at every address of a function, a reader of the section of the legacy tool finds the rules
that the instructions establish there, with any rule for RBP other than "undefined", "same value" and "offset" taken for
"undefined", as they are read back, or none if SFrame cannot express these.  Missing: the rules as they are, where RBP
has another rule; there the claim is false. -/
theorem C103_ties_partial (dbg dbg' : Bool) (o : Endian) (eh : EhFrame) (bases : Bases)
    (b : SFrameBuilder) (h : legacyConvert dbg eh bases = .ok (.ok b)) (out : List U8)
    (hb : b.build dbg' o = .ok (.ok out)) (fdes : List DwFde)
    (hin : inputs eh bases = fdes.map .ok) (cie : DwFde → CieInfo)
    (hx : ∀ fde, LastWith fdes fde → Executed (cie fde) fde)
    (hf : ∀ fde, LastWith fdes fde →
      LocationsFit (cie fde) (fde.instructions.filterMap Except.toOption) fde.initial.toNat) :
    ∃ s, SFrame.load o out = .ok (.ok s) ∧
      ∀ fde, LastWith fdes fde → ∀ a : Nat, fde.initial.toNat ≤ a → a < fde.initial.toNat + fde.len.toNat →
        ∃ rs, instructionRules (cie fde) fde a = some rs ∧
          sfRulesAt s a = (expressible .amd64 (forgetRbp rs)).map fun t => (asStored b.options t, false) := by
  obtain ⟨fdes', hin', hc, _⟩ := legacyConvert_iff.1 h
  rw [hin] at hin'
  cases map_ok_inj hin'
  have htab := fun fde (hl : LastWith fdes fde) =>
    table_of_executed (hx fde hl) (hc fde hl.mem).rows (hf fde hl)
  obtain ⟨s, hs, hat⟩ := rulesAt_legacy_read dbg dbg' o eh bases b h out hb fdes hin
    (fun fde hl => by
      obtain ⟨t, htt⟩ := htab fde hl
      exact htt.wellFormed (legacy_table (hc fde hl.mem) htt).2.1)
  refine ⟨s, hs, ?_⟩
  intro fde hl a ha1 ha2
  obtain ⟨t, htt⟩ := htab fde hl
  obtain ⟨hfin, hord, hlive⟩ := legacy_table (hc fde hl.mem) htt
  obtain ⟨x, hx', h1, h2, h3⟩ := htt.covers a ha1 (by rw [hfin]; exact ha2)
  obtain ⟨r, hr, hsh⟩ := htt.row x hx'
  refine ⟨x.2.2, h3, ?_⟩
  rw [hat a r ⟨fde, hl, hr, by omega, by omega, by rw [hsh.start]; omega, by rw [hsh.end_]; omega⟩,
    hsh.legacyTranslate, Option.map_map]
  rfl

/-! ### Examples -/

/-- Without a tie nothing changes. -/
theorem asStored_not_tie {so : SFrameOptions} {t : Rules} (h : ¬ WidthTie (storedValues so t)) : asStored so t = t := by
  have : asRead (storedValues so t) = id := funext fun v => asRead_not_tie h v
  simp [asStored, this]

/-- A tie at 0x80 and one at 0x8000; no tie: the positive number comes first; no tie: a larger number. -/
example : asStored (SFrameOptions.new.abi 2) ⟨.sp, 16, some 128, -128⟩ = ⟨.sp, 16, some (-128), -128⟩ ∧
    asStored (SFrameOptions.new.abi 2) ⟨.fp, -0x8000, some 0x8000, 0x8000⟩ = ⟨.fp, -0x8000, some (-0x8000), -0x8000⟩ ∧
    asStored (SFrameOptions.new.abi 2) ⟨.sp, 128, some 128, -128⟩ = ⟨.sp, 128, some 128, -128⟩ ∧
    asStored (SFrameOptions.new.abi 2) ⟨.sp, 0x90, some 128, -128⟩ = ⟨.sp, 0x90, some 128, -128⟩ := by
  decide +kernel

namespace Samples

/-- What is made of the row with a tie. -/
def tieB : SFrameBuilder :=
  { options := SFrameOptions.new.abi 2
    fdes := [(0x1000, { FuncDescBuilder.new (SFrameOptions.new.abi 2) 0x1000 0x20 with
      fres := [(0, ⟨0, some ⟨16, some (-128), some 128⟩, false, .sp⟩)] })] }

/-- A stack with the return address at CFA - 128 and the frame pointer of the caller, `v`, at CFA + 128. -/
def tieMem (v : U64) : Memory := fun a =>
  if a = 0x7F90 then some 0x2004 else if a = 0x8090 then some v else none

/-- The registers: SP is 0x8000. -/
def tieRegs : Nat → Option U64 := fun r => if r = 31 then some 0x8000 else none

/-- A walk of one step. -/
theorem tieWalk (v : U64) : DwWalk .aarch64 [oneRow tieRow] (tieMem v) (fun _ _ _ => none) id true ⟨0x1008, tieRegs⟩
    [(tieRow, ⟨0x2004, callerRegs .aarch64 (tieMem v) (fun _ _ _ => none) tieRegs 0x8010 tieRow⟩)] := by
  refine .step ⟨oneRow tieRow, ⟨[], [], rfl, by simp⟩, ?_⟩ rfl .done
  decide +kernel

end Samples

/-- The row with a tie: where the frame pointer of the caller should be, a walker finds the return address, so the walk
goes wrong; unless it happens to be what was saved. -/
example (dbg : Bool) (v : U64) : ∃ s, SFrame.load .little (image .little Samples.tieB) = .ok (.ok s) ∧
    (WalksAlike .aarch64 (Samples.tieMem v) id (sfRulesAt s) 1 true ⟨0x1008, 0x8000, none⟩
      [(Samples.tieRow, ⟨0x2004, callerRegs .aarch64 (Samples.tieMem v) (fun _ _ _ => none) Samples.tieRegs 0x8010
        Samples.tieRow⟩)] ↔ v = 0x2004) := by
  obtain ⟨s, h1, h2⟩ := C69_ties_partial dbg dbg .little (Samples.ehOf [Samples.oneRow Samples.tieRow]) Samples.armOpts
    Samples.tieB (by cases dbg <;> decide +kernel) (image .little Samples.tieB) (by cases dbg <;> decide +kernel)
    [Samples.oneRow Samples.tieRow] rfl (fun fde hl => by
      have : fde = Samples.oneRow Samples.tieRow := by simpa using hl.mem
      subst this
      unfold WellFormed; decide +kernel)
  refine ⟨s, h1, (h2 _ _ id true ⟨0x1008, Samples.tieRegs⟩ _ _ (Samples.tieWalk v) ⟨rfl, rfl, fun v hv => by cases hv⟩ 1
    (by simp)).trans ?_⟩
  have ht : translate .aarch64 Samples.tieRow = some ⟨.sp, 16, some 128, -128⟩ := by decide +kernel
  have hst : asStored Samples.tieB.options ⟨.sp, 16, some 128, -128⟩ = ⟨.sp, 16, some (-128), -128⟩ := by
    decide +kernel
  simp only [steps, List.take_succ_cons, List.take_nil, List.mem_singleton, forall_eq]
  show (∃ t, translate .aarch64 Samples.tieRow = some t ∧ _) ↔ _
  rw [ht]
  simp only [Option.some.injEq, exists_eq_left']
  rw [hst]
  constructor
  · intro h
    have := (h 0x8010 0x2004 rfl rfl).2.2 (-128) rfl v rfl
    have h3 : Samples.tieMem v (0x8010 + BitVec.ofInt 64 (-128)) = some 0x2004 := rfl
    rw [h3] at this
    exact (Option.some.inj this).symm
  · rintro rfl cfa ra hc hr
    cases Option.some.inj (show some 0x8010 = some cfa from hc)
    cases Option.some.inj (show some 0x2004 = some ra from hr)
    refine ⟨rfl, rfl, ?_⟩
    rintro off ho v hv
    cases Option.some.inj (show some (-128) = some off from ho)
    cases Option.some.inj (show some 0x2004 = some v from hv)
    rfl

namespace Samples

/-- The row with a tie, from instructions. -/
def tieInsns : List Insn := [.defCfaOffset 16, .offset 30 16, .offsetExtendedSf 29 (-16)]

@[inherit_doc tieInsns] def tieCie : CieInfo := ⟨1, -8, [.defCfa 31 0]⟩

@[inherit_doc tieInsns] def tieFde : DwFde := { oneRow tieRow with instructions := tieInsns.map .ok }

theorem tie_executed : Executed tieCie tieFde := by
  intro rows hrows
  have hr : rows = [tieRow] := (List.map_inj_right (fun _ _ h => Except.ok.inj h)).1
    (Except.ok.inj (show Except.ok ([tieRow].map Except.ok) = Except.ok (rows.map Except.ok) from hrows)).symm
  subst hr
  refine ⟨tieInsns, _, _, rfl, rfl, rfl, rfl, ?_⟩
  intro i row t h1 h2
  match i with
  | 0 =>
    cases h1; cases h2
    refine ⟨rfl, rfl, rfl, fun r => ?_⟩
    show (([(29, RegRule.offset 128), (30, RegRule.offset (-128))] : List (Reg × RegRule)).lookup r).getD .undefined
      = if r = 29 then RegRule.offset 128 else if r = 30 then RegRule.offset (-128) else .undefined
    by_cases h1 : r = 29
    · subst h1; rfl
    · by_cases h2 : r = 30
      · subst h2; rfl
      · rw [if_neg h1, if_neg h2, List.lookup_cons, beq_false_of_ne h1, List.lookup_cons, beq_false_of_ne h2]
        rfl
  | _ + 1 => cases h1

end Samples

/-- The instructions save the frame pointer at CFA + 128; at each address, CFA - 128 is read. -/
example (dbg : Bool) (a : Nat) (h1 : 0x1000 ≤ a) (h2 : a < 0x1020) :
    ∃ s, SFrame.load .little (image .little Samples.tieB) = .ok (.ok s) ∧
      (instructionRules Samples.tieCie Samples.tieFde a).bind (expressible .aarch64) = some ⟨.sp, 16, some 128, -128⟩ ∧
      sfRulesAt s a = some (⟨.sp, 16, some (-128), -128⟩, false) := by
  obtain ⟨s, g1, g2, _⟩ := C99_ties dbg dbg .little (Samples.ehOf [Samples.tieFde]) Samples.armOpts Samples.tieB
    (by cases dbg <;> decide +kernel) (image .little Samples.tieB) (by cases dbg <;> decide +kernel) [Samples.tieFde]
    rfl (fun _ => Samples.tieCie) (fun fde hl => by
      have : fde = Samples.tieFde := by simpa using hl.mem
      rw [this]; exact Samples.tie_executed) (fun fde hl => by
      have : fde = Samples.tieFde := by simpa using hl.mem
      rw [this]; simp [Samples.tieFde, Samples.tieInsns, LocationsFit, Samples.tieCie, Except.toOption])
  obtain ⟨rs, k1, k2⟩ := g2 Samples.tieFde ⟨[], [], rfl, by simp⟩ a h1 h2
  have h5 : ∀ a ∈ List.range' 0x1000 32, (instructionRules Samples.tieCie Samples.tieFde a).bind
      (expressible .aarch64) = some ⟨.sp, 16, some 128, -128⟩ := by decide +kernel
  have h6 := h5 a (List.mem_range'_1.2 ⟨h1, by omega⟩)
  refine ⟨s, g1, h6, ?_⟩
  rw [k1, Option.bind_some] at h6
  rw [k2, show Samples.armOpts.arch = .aarch64 from rfl, h6, Option.map_some]
  have hst : asStored Samples.tieB.options ⟨.sp, 16, some 128, -128⟩ = ⟨.sp, 16, some (-128), -128⟩ := by
    decide +kernel
  rw [hst]

/-- The function that keeps RBP in RBX, converted by the legacy tool, has no tie. -/
example (dbg : Bool) (a : Nat) (h1 : 0x1001 ≤ a) (h2 : a < 0x1020) :
    ∃ s, SFrame.load .little (image .little Samples.keepB) = .ok (.ok s) ∧
      sfRulesAt s a = some (⟨.sp, 16, none, -8⟩, false) := by
  obtain ⟨s, g1, g2⟩ := C103_ties_partial dbg dbg .little (Samples.ehOf [Samples.keepFde]) Samples.convOpts.bases
    Samples.keepB (by cases dbg <;> decide +kernel) (image .little Samples.keepB) (by cases dbg <;> decide +kernel)
    [Samples.keepFde] rfl (fun _ => Samples.cie64) (fun fde hl => by
      have : fde = Samples.keepFde := by simpa using hl.mem
      rw [this]; exact Samples.keep_executed) (fun fde hl => by
      have : fde = Samples.keepFde := by simpa using hl.mem
      rw [this]
      simp [Samples.keepFde, Samples.keepInsns, LocationsFit, Samples.cie64, Except.toOption])
  obtain ⟨rs, k1, k2⟩ := g2 Samples.keepFde ⟨[], [], rfl, by simp⟩ a (show 0x1000 ≤ a by omega) h2
  have h5 : ∀ a ∈ List.range' 0x1001 31, (instructionRules Samples.cie64 Samples.keepFde a).bind
      (fun rs => expressible .amd64 (forgetRbp rs)) = some ⟨.sp, 16, none, -8⟩ := by decide +kernel
  have h6 := h5 a (List.mem_range'_1.2 ⟨h1, by omega⟩)
  rw [k1, Option.bind_some] at h6
  refine ⟨s, g1, ?_⟩
  rw [k2, h6, Option.map_some]
  have hst : asStored Samples.keepB.options ⟨.sp, 16, none, -8⟩ = ⟨.sp, 16, none, -8⟩ := by decide +kernel
  rw [hst]

namespace Samples

/-- An x86-64 row that saves the return address at CFA - 128 and RBP at CFA + 128. -/
def tieRow64 : DwRow :=
  { start := 0x1000, end_ := 0x1020, cfa := .registerAndOffset 7 16
    registers := [(16, .offset (-128)), (6, .offset 128)] }

/-- What the legacy tool makes of it. -/
def tieB64 : SFrameBuilder :=
  { options := legacyOptions
    fdes := [(0x1000, { FuncDescBuilder.new legacyOptions 0x1000 0x20 with
      fres := [(0, ⟨0, some ⟨16, some (-128), some 128⟩, false, .sp⟩)] })] }

@[inherit_doc tieRegs] def tieRegs64 : Nat → Option U64 := fun r => if r = 7 then some 0x8000 else none

theorem tieWalk64 (v : U64) : DwWalk .amd64 [oneRow tieRow64] (tieMem v) (fun _ _ _ => none) id true
    ⟨0x1008, tieRegs64⟩
    [(tieRow64, ⟨0x2004, callerRegs .amd64 (tieMem v) (fun _ _ _ => none) tieRegs64 0x8010 tieRow64⟩)] := by
  refine .step ⟨oneRow tieRow64, ⟨[], [], rfl, by simp⟩, ?_⟩ rfl .done
  decide +kernel

end Samples

/-- The same with the legacy tool. -/
example (dbg : Bool) (v : U64) : ∃ s, SFrame.load .little (image .little Samples.tieB64) = .ok (.ok s) ∧
    (WalksAlike .amd64 (Samples.tieMem v) id (sfRulesAt s) 1 true ⟨0x1008, 0x8000, none⟩
      [(Samples.tieRow64, ⟨0x2004, callerRegs .amd64 (Samples.tieMem v) (fun _ _ _ => none) Samples.tieRegs64 0x8010
        Samples.tieRow64⟩)] → v = 0x2004) := by
  have hnd : ¬ Dropped Samples.tieRow64 := by decide +kernel
  obtain ⟨s, h1, h2⟩ := C101_ties_partial dbg dbg .little (Samples.ehOf [Samples.oneRow Samples.tieRow64]) Bases.default
    Samples.tieB64 (by cases dbg <;> decide +kernel) (image .little Samples.tieB64) (by cases dbg <;> decide +kernel)
    [Samples.oneRow Samples.tieRow64] rfl (fun fde hl => by
      have : fde = Samples.oneRow Samples.tieRow64 := by simpa using hl.mem
      subst this
      unfold WellFormed; decide +kernel)
  refine ⟨s, h1, fun hw => ?_⟩
  have := (h2 _ _ id true ⟨0x1008, Samples.tieRegs64⟩ _ _ (Samples.tieWalk64 v) ⟨rfl, rfl, fun v hv => by cases hv⟩
    (fun p hp hd => by
      simp only [steps, List.mem_singleton] at hp
      subst hp
      exact absurd hd hnd) 1 (by simp)).1 hw
  obtain ⟨⟨t, ht, hR⟩, _⟩ := this _ (by simp [steps]; rfl)
  have ht' : legacyTranslate Samples.tieRow64 = some ⟨.sp, 16, some 128, -128⟩ := by decide +kernel
  cases Option.some.inj (ht'.symm.trans ht)
  have hst : asStored Samples.tieB64.options ⟨.sp, 16, some 128, -128⟩ = ⟨.sp, 16, some (-128), -128⟩ := by
    decide +kernel
  rw [hst] at hR
  have := (hR 0x8010 0x2004 rfl rfl).2.2 (-128) rfl v rfl
  have h3 : Samples.tieMem v (0x8010 + BitVec.ofInt 64 (-128)) = some 0x2004 := rfl
  rw [h3] at this
  exact (Option.some.inj this).symm

end Verif
