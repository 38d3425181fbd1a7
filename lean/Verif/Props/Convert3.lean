import Verif.Props.Convert2
/-!
# The converter and the file format (C52), merging of functions (C58), warnings (C59)
-/

namespace Verif
open Spec

/-! ### The converter uses the public calls only -/

theorem snoc_induction {α : Type} {P : List α → Prop} (h0 : P [])
    (hs : ∀ xs x, P xs → P (xs ++ [x])) (xs : List α) : P xs := by
  rw [← List.reverse_reverse xs]
  induction xs.reverse with
  | nil => exact h0
  | cons x ys ih => rw [List.reverse_cons]; exact hs _ _ ih

theorem built_reachable {so arch fde} {rs : List DwRow} (hfp : so.fixedFp = none)
    (hi : fde.initial.toNat ≤ 2147483647) (hlen : fde.len.toNat ≤ 2147483647)
    (hc : Clean so arch fde rs) : (built so arch fde rs).Reachable := by
  induction rs using snoc_induction with
  | h0 => exact .new ..
  | hs rs r ih =>
    have hpre := clean_prefix hc
    have hg := (good_iff hfp hi hlen).2 hpre
    by_cases hz : r.start = r.end_
    · rw [built_dead hz]; exact ih hpre
    · have hn := ((clean_live hz).1 hc).2.1.near
      rcases built_row hg hfp hlen hz hn with ⟨_, h⟩ | ⟨h, _⟩
      · refine .call (.row (rowOf arch fde r)) (ih hpre) ?_
        show (match (built so arch fde rs).row (rowOf arch fde r) with
          | .ok b' => Rust.ok b'
          | .error _ => .ok (built so arch fde rs)) = _
        rw [h]
      · exact absurd hc h

theorem fnFor_reachable {so opts fde} (hfp : so.fixedFp = none) (h : Convertible so opts fde) :
    (fnFor so opts fde).Reachable := by
  have hr := built_reachable hfp h.start h.len h.clean
  unfold fnFor
  split
  · exact .call .mergeAdjacentFres hr (mergeAdjacentFres_eq hr.inv)
  · exact hr

theorem more_reachable {dbg opts} {b : SFrameBuilder} {fdes : List DwFde}
    (hfp : b.options.fixedFp = none) (hb : SFrameBuilder.Reachable dbg b)
    (h : ∀ fde ∈ fdes, Convertible b.options opts fde) :
    SFrameBuilder.Reachable dbg (b.more opts fdes) := by
  induction fdes generalizing b with
  | nil => exact hb
  | cons fde fdes ih =>
    have hc := h fde (by simp)
    have hf := fnFor_fields b.options opts fde
    exact ih (b := { b with fdes := b.fdes.insert ordI32 (fde.initial.setWidth 32) (fnFor b.options opts fde) })
      hfp (.fde hb (fnFor_reachable hfp hc) (by
        rw [SFrameBuilder.fde, if_pos hf.1.symm, hf.2.1])) (fun f hf => h f (by simp [hf]))

/-- What the converter returns is a builder that a program could have made itself, so all theorems
about the writer apply to it. -/
theorem converted_reachable {dbg dbg' : Bool} {eh : EhFrame} {opts : Options} {b : SFrameBuilder}
    (h : dwarf2sframe dbg eh opts = .ok (.ok b)) : SFrameBuilder.Reachable dbg' b := by
  obtain ⟨fdes, _, hc, rfl⟩ := dwarf2sframe_ok_iff.1 h
  exact more_reachable (sectionOptions_fp eh opts) (.new _) hc

/-! ### C52 -/

namespace Spec

/-- The offsets that the row of the section stores for these rules. -/
def storedValues (so : SFrameOptions) (t : Rules) : List Int :=
  t.cfa :: (if so.fixedRa.isSome then [] else [t.ra]) ++ t.fp.toList

/-- What a reader learns from a row. -/
def readRules {o : Endian} (s : SFrame o) (q : FrameRowEntry o) : Option Rules :=
  match q.cfaOffset, q.raOffset s with
  | .ok cfa, .ok ra =>
    some { base := q.baseReg, cfa := cfa.toInt, ra := ra.toInt, fp := (q.fpOffset s).toOption.map BitVec.toInt }
  | _, _ => none

/-- The row of a reader in force at offset `off`. -/
def governingEntry {o : Endian} (qs : List (FrameRowEntry o)) (off : Nat) : Option (FrameRowEntry o) :=
  (qs.filter fun q => decide (q.startAddressOffset.toNat ≤ off)).getLast?

end Spec

/-- The stored values of a converted row. -/
theorem values_stored {so : SFrameOptions} {arch : Architecture} {fde : DwFde} {r : DwRow}
    (hfp : so.fixedFp = none) :
    values (storedRow so (rowOf arch fde r)) = ((translate arch r).map (storedValues so)).getD [] := by
  unfold values storedRow rowOf storedValues
  cases ht : translate arch r with
  | none => rfl
  | some t =>
    obtain ⟨h1, h2, h3⟩ := translate_fits ht
    have h4 : (t.fp.map (BitVec.ofInt 32)).toList.map BitVec.toInt = t.fp.toList := by
      cases hv : t.fp with
      | none => rfl
      | some v => simp [toInt_ofInt_fits (h3 _ hv)]
    cases hra : so.fixedRa <;> simp [hfp, toInt_ofInt_fits h1, toInt_ofInt_fits h2, h4]

theorem not_tie_nil : ¬ WidthTie [] := by
  rintro ⟨m, _, _, h, _⟩; cases h

/-- Every row of a converted function comes from a row of the DWARF function. -/
theorem fnFor_rows {so opts fde} (hfp : so.fixedFp = none) (h : Convertible so opts fde)
    {r : FrameRowBuilder} (hr : r ∈ rows (fnFor so opts fde)) :
    ∃ d ∈ live (rowsOf fde), r = storedRow so (rowOf opts.arch fde d) := by
  have hg := (good_iff hfp h.start h.len).2 h.clean
  have hr' : r ∈ rows (built so opts.arch fde (rowsOf fde)) := by
    unfold fnFor at hr
    split at hr
    · exact ((mergeKeep_sublist _).map Prod.snd).subset hr
    · exact hr
  obtain ⟨d, hd, rfl⟩ := List.mem_map.1 (hg.perm.mem_iff.1 hr')
  exact ⟨d, hd, rfl⟩

/-- A converted function is storable exactly if none of its rows has a width tie. -/
theorem fnFor_storable {so opts fde} (hfp : so.fixedFp = none) (h : Convertible so opts fde) :
    Storable (fnFor so opts fde) ↔ ∀ r ∈ rows (fnFor so opts fde), ¬ WidthTie (values r) := by
  refine ⟨fun hs r hr => (hs r hr).2.1, fun hs r hr => ⟨?_, hs r hr, ?_⟩⟩
  · obtain ⟨d, hd, rfl⟩ := fnFor_rows hfp h hr
    have hp := h.clean.placed d hd
    rw [fnFor_size h]
    show (rowOf opts.arch fde d).startAddress.toNat < _
    rw [rowOf_start hp.near]
    have := hp.inside
    have := hp.after
    omega
  · obtain ⟨d, hd, rfl⟩ := fnFor_rows hfp h hr
    intro x hx hra _
    rw [(fnFor_fields so opts fde).1] at hra
    unfold storedRow rowOf at hx
    cases ht : translate opts.arch d with
    | none => rw [ht] at hx; cases hx
    | some t =>
      rw [ht, hra] at hx
      cases hx
      rfl

theorem orMissing_some {x : Except ReadError I32} {v : Int} (h : x.map BitVec.toInt = orMissing (some v)) :
    ∃ y, x = .ok y ∧ y.toInt = v := by
  cases x with
  | error e => cases h
  | ok y => exact ⟨y, rfl, Except.ok.inj h⟩

theorem orMissing_none {x : Except ReadError I32} (h : x.map BitVec.toInt = orMissing none) :
    ∃ e, x = .error e := by
  cases x with
  | error e => exact ⟨e, rfl⟩
  | ok y => cases h

theorem orMissing_toOption {x : Except ReadError I32} {v : Option Int}
    (h : x.map BitVec.toInt = orMissing v) : x.toOption.map BitVec.toInt = v := by
  cases v with
  | none => obtain ⟨e, rfl⟩ := orMissing_none h; rfl
  | some v => obtain ⟨y, rfl, rfl⟩ := orMissing_some h; rfl

/-- What is read from a row that says what the builder's row says. -/
theorem readRules_eq {o : Endian} {s : SFrame o} {so : SFrameOptions} {q : FrameRowEntry o}
    {r : FrameRowBuilder} (h : SameRow s so q r) : readRules s q = meaning so r := by
  obtain ⟨_, hb, _, hc, hra, hfp⟩ := h
  have hfp := orMissing_toOption hfp
  unfold readRules meaning
  rw [hfp]
  cases ho : r.offsets with
  | none =>
    rw [ho] at hc
    obtain ⟨e, hc⟩ := orMissing_none hc
    rw [hc]
    rfl
  | some x =>
    rw [ho] at hc hra
    obtain ⟨c, hc, hc'⟩ := orMissing_some hc
    rw [hc]
    cases hf : so.fixedRa with
    | some v =>
      rw [hf] at hra
      obtain ⟨y, hy, hy'⟩ := orMissing_some hra
      rw [hy]
      cases so.fixedFp <;> simp [hb, hc', hy']
    | none =>
      rw [hf] at hra
      simp only [Option.bind_some] at hra
      cases hx : x.ra with
      | none =>
        rw [hx] at hra
        obtain ⟨e, hra⟩ := orMissing_none hra
        rw [hra]
        cases so.fixedFp <;> simp [hx]
      | some v =>
        rw [hx] at hra
        obtain ⟨y, hy, hy'⟩ := orMissing_some hra
        rw [hy]
        cases so.fixedFp <;> simp [hb, hc', hy', hx]

/-- The governing row of two lists that agree row by row. -/
theorem governing_transfer {o : Endian} {P : FrameRowEntry o → FrameRowBuilder → Prop}
    (hP : ∀ q r, P q r → q.startAddressOffset = r.startAddress) (off : Nat)
    (qs : List (FrameRowEntry o)) (rs : List FrameRowBuilder) (hlen : qs.length = rs.length)
    (h : ∀ (j : Nat) r q, rs[j]? = some r → qs[j]? = some q → P q r) (r : FrameRowBuilder)
    (hr : governingRow rs off = some r) : ∃ q, governingEntry qs off = some q ∧ P q r := by
  induction rs generalizing qs with
  | nil => cases hr
  | cons r0 rs ih =>
    cases qs with
    | nil => cases hlen
    | cons q0 qs =>
      have h0 : P q0 r0 := h 0 r0 q0 rfl rfl
      have hih := ih qs (by simpa using hlen) (fun j r q h1 h2 => h (j + 1) r q (by simpa using h1) (by simpa using h2))
      unfold governingRow at hr hih
      unfold governingEntry at hih ⊢
      -- the rest has a governing row on one side iff on the other
      have hnil : ∀ (rs : List FrameRowBuilder) (qs : List (FrameRowEntry o)), qs.length = rs.length →
          (∀ (j : Nat) r q, rs[j]? = some r → qs[j]? = some q → P q r) →
          rs.filter (fun r => decide (r.startAddress.toNat ≤ off)) = [] →
          qs.filter (fun q => decide (q.startAddressOffset.toNat ≤ off)) = [] := by
        intro rs qs hl hp he
        rw [List.filter_eq_nil_iff] at he ⊢
        intro q hq
        obtain ⟨j, hj⟩ := List.mem_iff_getElem?.1 hq
        obtain ⟨hjl, _⟩ := List.getElem?_eq_some_iff.1 hj
        have hrj : rs[j]? = some rs[j] := List.getElem?_eq_getElem (by omega)
        have := he rs[j] (List.getElem_mem _)
        rw [hP q _ (hp j _ q hrj hj)]
        exact this
      by_cases hp : r0.startAddress.toNat ≤ off
      · rw [List.filter_cons_of_pos (by simpa using hp)] at hr
        rw [List.filter_cons_of_pos (by rw [hP _ _ h0]; simpa using hp)]
        rw [List.getLast?_cons] at hr ⊢
        cases hlast : (rs.filter fun r => decide (r.startAddress.toNat ≤ off)).getLast? with
        | none =>
          rw [hlast] at hr
          rw [hnil rs qs (by simpa using hlen) (fun j r q h1 h2 => h (j + 1) r q (by simpa using h1) (by simpa using h2))
            (List.getLast?_eq_none_iff.1 hlast)]
          cases hr
          exact ⟨q0, rfl, h0⟩
        | some r' =>
          rw [hlast] at hr
          cases hr
          obtain ⟨q, hq, hPq⟩ := hih hlast
          exact ⟨q, by rw [hq]; rfl, hPq⟩
      · rw [List.filter_cons_of_neg (by simpa using hp)] at hr
        rw [List.filter_cons_of_neg (by rw [hP _ _ h0]; simpa using hp)]
        exact hih hr

namespace Samples

/-- An AArch64 row that saves the return address at CFA - 128 and the frame pointer at CFA + 128. -/
def tieRow : DwRow :=
  { start := 0x1000, end_ := 0x1020, cfa := .registerAndOffset 31 16
    registers := [(29, .offset 128), (30, .offset (-128))] }

/-- Options for AArch64. -/
def armOpts : Options := Options.new .aarch64 Bases.default

end Samples

/-- **C52 is false of the code**: the frame pointer at CFA + 128 is read back as CFA - 128. -/
theorem C52_tie (dbg : Bool) :
    translate .aarch64 Samples.tieRow = some ⟨.sp, 16, some 128, -128⟩ ∧
    ∃ b out q, dwarf2sframe dbg (Samples.ehOf [Samples.oneRow Samples.tieRow]) Samples.armOpts = .ok (.ok b) ∧
      b.build dbg .little = .ok (.ok out) ∧
      readAll .little out = .ok (.ok [[.ok q]]) ∧ q.fp = .ok (-128) := by
  let b : SFrameBuilder :=
    { options := SFrameOptions.new.abi 2
      fdes := [(0x1000, { FuncDescBuilder.new (SFrameOptions.new.abi 2) 0x1000 0x20 with
        fres := [(0, ⟨0, some ⟨16, some (-128), some 128⟩, false, .sp⟩)] })] }
  refine ⟨by decide +kernel, b, image .little b, ⟨0, .sp, false, .ok 16, .ok (-128), .ok (-128)⟩, ?_, ?_, ?_, rfl⟩
  · cases dbg <;> decide +kernel
  · cases dbg <;> decide +kernel
  · decide +kernel

/-- **C52**, what holds: the rows of a converted function are read back as they are if, and only if,
none of them has a width tie.  Missing: rows with a width tie. -/
theorem C52_rows_partial (dbg dbg' : Bool) (o : Endian) (eh : EhFrame) (opts : Options)
    (b : SFrameBuilder) (h : dwarf2sframe dbg eh opts = .ok (.ok b)) (out : List U8)
    (hb : b.build dbg' o = .ok (.ok out)) :
    ∃ s es, SFrame.load o out = .ok (.ok s) ∧ s.iter.collect = .ok es ∧
      es.length = (functions b).length ∧
      ∀ (i : Nat) f e, (functions b)[i]? = some f → es[i]? = some e →
        (RowsRead s b.options f e ↔ ∀ r ∈ rows f, ¬ WidthTie (values r)) := by
  obtain ⟨s, es, h1, h2, h3, h4⟩ := C31_rows_partial dbg' dbg o b (converted_reachable h) out hb
  refine ⟨s, es, h1, h2, h3, fun i f e hf he => ?_⟩
  rw [h4 i f e hf he]
  obtain ⟨fdes, hin, hc, rfl⟩ := dwarf2sframe_ok_iff.1 h
  obtain ⟨fde, hl, rfl⟩ := (mem_functions (fun g hg => (hc g hg).start) _).1 (List.mem_of_getElem? hf)
  exact fnFor_storable (sectionOptions_fp eh opts) (hc fde hl.mem)

/-- **C52, end to end**: convert, write, load and look at the rows: at every address that a row of the
DWARF function covers, the row of the loaded section in force there gives the rules of the DWARF
row, or none if SFrame cannot express them.  Missing: functions with a width tie, for which see `C52_exact_partial`. -/
theorem C52_unwinds_partial (dbg dbg' : Bool) (o : Endian) (eh : EhFrame) (opts : Options)
    (b : SFrameBuilder) (h : dwarf2sframe dbg eh opts = .ok (.ok b)) (out : List U8)
    (hb : b.build dbg' o = .ok (.ok out)) (fdes : List DwFde)
    (hin : inputs eh opts.bases = fdes.map .ok) (fde : DwFde) (hl : LastWith fdes fde)
    (hw : WellFormed (rowsOf fde))
    (ht : ∀ d ∈ live (rowsOf fde), ∀ t, translate opts.arch d = some t →
      ¬ WidthTie (storedValues b.options t)) :
    ∃ s es e qs, SFrame.load o out = .ok (.ok s) ∧ s.iter.collect = .ok es ∧ e ∈ es ∧
      e.startAddress.toInt = fde.initial.toNat ∧ e.size.toNat = fde.len.toNat ∧
      e.iter.collect = .ok (qs.map .ok) ∧
      ∀ row ∈ rowsOf fde, ∀ a : Nat, row.start.toNat ≤ a → a < row.end_.toNat →
        ∃ q, governingEntry qs (a - fde.initial.toNat) = some q ∧ q.mangled = false ∧
          readRules s q = translate opts.arch row := by
  obtain ⟨f, hf, hstart, hsize, hgov⟩ := C46_unwinds_alike dbg eh opts b h fdes hin fde hl hw
  obtain ⟨s, es, h1, h2, h3, h4⟩ := C52_rows_partial dbg dbg' o eh opts b h out hb
  obtain ⟨s', es', h1', h2', _, _, _, _, _, _, _, _, _, _, h4'⟩ :=
    C30_round_trip dbg' dbg o b (converted_reachable h) out hb
  rw [h1] at h1'
  cases h1'
  rw [h2] at h2'
  cases h2'
  obtain ⟨i, hi⟩ := List.mem_iff_getElem?.1 hf
  obtain ⟨hil, _⟩ := List.getElem?_eq_some_iff.1 hi
  have hei : es[i]? = some es[i] := List.getElem?_eq_getElem (by omega)
  obtain ⟨g1, g2, _⟩ := h4' i f _ hi hei
  have hties : ∀ r ∈ rows f, ¬ WidthTie (values r) := by
    obtain ⟨fdes', hin', hc, rfl⟩ := dwarf2sframe_ok_iff.1 h
    rw [hin] at hin'
    cases map_ok_inj hin'
    have hfp := sectionOptions_fp eh opts
    obtain ⟨fde', hl', rfl⟩ := (mem_functions (fun g hg => (hc g hg).start) _).1 hf
    have heq : fde' = fde := by
      rw [fnFor_start (hc fde' hl'.mem)] at hstart
      have hst : fde'.initial = fde.initial := BitVec.eq_of_toNat_eq (by omega)
      obtain ⟨p1, q1, e1, a1⟩ := hl
      obtain ⟨p2, q2, e2, a2⟩ := hl'
      rw [e1] at e2
      rcases List.append_eq_append_iff.1 e2 with ⟨l, hl1, hl2⟩ | ⟨l, hl1, hl2⟩
      · cases l with
        | nil => simp at hl2; exact hl2.1.symm
        | cons x l =>
          simp only [List.cons_append, List.cons.injEq] at hl2
          exact absurd hst (a1 fde' (by rw [hl2.2]; simp))
      · cases l with
        | nil => simp at hl2; exact hl2.1
        | cons x l =>
          simp only [List.cons_append, List.cons.injEq] at hl2
          exact absurd hst.symm (a2 fde (by rw [hl2.2]; simp))
    subst heq
    intro r hr
    obtain ⟨d, hd, rfl⟩ := fnFor_rows hfp (hc fde' hl.mem) hr
    rw [values_stored hfp]
    cases htr : translate opts.arch d with
    | none => exact not_tie_nil
    | some t => exact ht d hd t htr
  obtain ⟨qs, k1, k2, k3⟩ := (h4 i f _ hi hei).2 hties
  refine ⟨s, es, es[i], qs, h1, h2, List.getElem_mem _, by rw [g1]; exact hstart, by rw [g2]; exact hsize, k1, ?_⟩
  intro row hrow a ha1 ha2
  obtain ⟨r, hr, hm, hmean⟩ := hgov row hrow a ha1 ha2
  obtain ⟨q, hq, hP⟩ := governing_transfer (P := fun q r => SameRow s b.options q r)
    (fun q r h => h.start) _ qs (rows f) k2 k3 r hr
  exact ⟨q, hq, by rw [hP.mangled, hm], by rw [readRules_eq hP]; exact hmean⟩

/-- Rules as compilers emit them have no width tie: nothing is saved above the CFA. -/
theorem C52_usual_partial (so : SFrameOptions) (t : Rules) (h2 : t.ra ≤ 0)
    (h3 : ∀ v, t.fp = some v → v ≤ 0) : ¬ WidthTie (storedValues so t) := by
  rintro ⟨m, hm, _, hmem, hfind⟩
  have hpos : 0 < m := by omega
  unfold storedValues at hmem hfind
  have hcfa : t.cfa = m := by
    simp only [List.cons_append, List.mem_cons, List.mem_append, Option.mem_toList] at hmem
    rcases hmem with h | h | h
    · exact h.symm
    · split at h
      · cases h
      · simp at h; omega
    · have := h3 m h; omega
  rw [List.cons_append, List.find?_cons_of_pos (by simp [hcfa]; omega)] at hfind
  have := Option.some.inj hfind
  omega

/-- The sample function meets the hypotheses. -/
example (dbg : Bool) : (∃ b out, dwarf2sframe dbg (Samples.ehOf [Samples.dwFde]) Samples.convOpts = .ok (.ok b) ∧
      b.build dbg .little = .ok (.ok out) ∧ b.options = Samples.opts ∧
      readAll .little out = .ok (.ok [
        [.ok ⟨0, .sp, false, .ok 8, .ok (-8), .error .missingFreOffset⟩,
         .ok ⟨1, .sp, false, .ok 16, .ok (-8), .ok (-16)⟩,
         .ok ⟨16, .fp, false, .error .missingFreOffset, .ok (-8), .error .missingFreOffset⟩]])) ∧
    ¬ WidthTie (storedValues Samples.opts ⟨.sp, 16, some (-16), -8⟩) := by
  refine ⟨⟨{ options := Samples.opts, fdes := [(0x1000, Samples.convFn)] },
    image .little { options := Samples.opts, fdes := [(0x1000, Samples.convFn)] }, ?_, ?_, rfl, ?_⟩,
    C52_usual_partial _ _ (by decide) (by simp)⟩
  · cases dbg <;> decide +kernel
  · cases dbg <;> decide +kernel
  · decide +kernel

/-! ### C58 -/

/-- Options that differ in nothing but the merging. -/
theorem merge_options {dbg : Bool} {opts : Options} {m m' : Bool} :
    let opts' := { opts with mergeFres := m, mergeFdes := m' }
    (∀ so fde, Convertible so opts' fde ↔ Convertible so opts fde) ∧
    (∀ so fde e, FdeFails dbg so opts' fde e ↔ FdeFails dbg so opts fde e) ∧
    (∀ so fde, FdePanics dbg so opts' fde ↔ FdePanics dbg so opts fde) := by
  refine ⟨fun so fde => convertible_congr rfl Iff.rfl, fun so fde e => ⟨fun h => ?_, fun h => ?_⟩,
    fun so fde => ⟨fun h => ?_, fun h => ?_⟩⟩
  · cases h with
    | dump g h1 h2 h3 => exact .dump g h1 h2 h3
    | start h1 h2 h3 => exact .start h1 h2 h3
    | len h1 h2 h3 h4 => exact .len h1 h2 h3 h4
    | table g h1 h2 h3 h4 => exact .table g h1 h2 h3 h4
    | row rs x rest _ h1 h2 h3 h4 h5 h6 h7 => exact .row rs x rest e h1 h2 h3 h4 h5 h6 h7
  · cases h with
    | dump g h1 h2 h3 => exact .dump g h1 h2 h3
    | start h1 h2 h3 => exact .start h1 h2 h3
    | len h1 h2 h3 h4 => exact .len h1 h2 h3 h4
    | table g h1 h2 h3 h4 => exact .table g h1 h2 h3 h4
    | row rs x rest _ h1 h2 h3 h4 h5 h6 h7 => exact .row rs x rest e h1 h2 h3 h4 h5 h6 h7
  · cases h with
    | dump h1 h2 => exact .dump h1 h2
    | row rs x rest h1 h2 h3 h4 h5 h6 => exact .row rs x rest h1 h2 h3 h4 h5 h6
  · cases h with
    | dump h1 h2 => exact .dump h1 h2
    | row rs x rest h1 h2 h3 h4 h5 h6 => exact .row rs x rest h1 h2 h3 h4 h5 h6

theorem functions_addAll (so : SFrameOptions) (opts opts' : Options) (g : FuncDescBuilder → FuncDescBuilder)
    (hg : ∀ fde, fnFor so opts' fde = g (fnFor so opts fde)) (m : BMap I32 FuncDescBuilder)
    (fdes : List DwFde) :
    addAll so opts' (m.map fun e => (e.1, g e.2)) fdes
      = (addAll so opts m fdes).map fun e => (e.1, g e.2) := by
  induction fdes generalizing m with
  | nil => rfl
  | cons fde fdes ih =>
    have hins : ∀ (m : BMap I32 FuncDescBuilder) k v,
        BMap.insert ordI32 k (g v) (m.map fun e => (e.1, g e.2))
          = (m.insert ordI32 k v).map fun e => (e.1, g e.2) := by
      intro m k v
      induction m with
      | nil => rfl
      | cons e m ih' =>
        obtain ⟨k', v'⟩ := e
        simp only [List.map_cons, BMap.insert]
        split
        · rfl
        · split
          · rfl
          · rw [ih']; rfl
    show addAll so opts' (BMap.insert ordI32 (fde.initial.setWidth 32) (fnFor so opts' fde)
      (m.map fun e => (e.1, g e.2))) fdes = _
    rw [hg, hins, ih]
    rfl

/-- **C58.**  The two merging options change neither the error nor whether the converter panics.
Merging of functions never changes the result; merging of rows changes it as if
`merge_adjacent_fres` were called on each function of the unmerged result. -/
theorem C58_merge_options (dbg m m' : Bool) (eh : EhFrame) (opts : Options) :
    (∀ e, dwarf2sframe dbg eh { opts with mergeFres := m, mergeFdes := m' } = .ok (.error e) ↔
      dwarf2sframe dbg eh opts = .ok (.error e)) ∧
    ((dwarf2sframe dbg eh { opts with mergeFres := m, mergeFdes := m' }).Panics ↔
      (dwarf2sframe dbg eh opts).Panics) ∧
    (∀ b, dwarf2sframe dbg eh { opts with mergeFdes := m' } = .ok (.ok b) ↔
      dwarf2sframe dbg eh opts = .ok (.ok b)) ∧
    (∀ b, dwarf2sframe dbg eh { opts with mergeFres := false } = .ok (.ok b) →
      ∃ fs, (functions b).map FuncDescBuilder.mergeAdjacentFres = fs.map Rust.ok ∧
        ∃ b', dwarf2sframe dbg eh { opts with mergeFres := true } = .ok (.ok b') ∧
          b'.options = b.options ∧ functions b' = fs) := by
  obtain ⟨hc, hf, hp⟩ := merge_options (dbg := dbg) (opts := opts) (m := m) (m' := m')
  have hso : sectionOptions eh { opts with mergeFres := m, mergeFdes := m' } = sectionOptions eh opts := rfl
  refine ⟨fun e => ?_, ?_, fun b => ?_, fun b h => ?_⟩
  · rw [dwarf2sframe_error_iff, dwarf2sframe_error_iff, hso]
    simp only [hc, Blame, hf]
  · rw [dwarf2sframe_panics_iff, dwarf2sframe_panics_iff, hso]
    simp only [hc, hp]
  · obtain ⟨hc, hf, hp⟩ := merge_options (dbg := dbg) (opts := opts) (m := opts.mergeFres) (m' := m')
    rw [dwarf2sframe_ok_iff, dwarf2sframe_ok_iff]
    exact ⟨fun ⟨fdes, h1, h2, h3⟩ => ⟨fdes, h1, fun fde hf => (hc _ fde).1 (h2 fde hf), h3⟩,
      fun ⟨fdes, h1, h2, h3⟩ => ⟨fdes, h1, fun fde hf => (hc _ fde).2 (h2 fde hf), h3⟩⟩
  · obtain ⟨fdes, h1, h2, rfl⟩ := dwarf2sframe_ok_iff.1 h
    let g : FuncDescBuilder → FuncDescBuilder := fun f => { f with fres := mergeKeep f.fres }
    let off := { opts with mergeFres := false }
    let on := { opts with mergeFres := true }
    have hmap : (outputOf (sectionOptions eh opts) on fdes).fdes
        = (outputOf (sectionOptions eh opts) off fdes).fdes.map fun e => (e.1, g e.2) :=
      functions_addAll (sectionOptions eh opts) off on g (fun fde => rfl) [] fdes
    have hfun : functions (outputOf (sectionOptions eh opts) on fdes)
        = (functions (outputOf (sectionOptions eh opts) off fdes)).map g := by
      unfold functions
      rw [hmap, List.map_map, List.map_map]
      rfl
    refine ⟨functions (outputOf (sectionOptions eh opts) on fdes), ?_,
      outputOf (sectionOptions eh opts) on fdes, ?_, rfl, rfl⟩
    · rw [hfun, List.map_map]
      refine List.map_congr_left fun f hf => ?_
      have hinv := (output_inv (sectionOptions_fp eh opts) h2).function hf
      exact mergeAdjacentFres_eq hinv.1
    · refine dwarf2sframe_ok_iff.2 ⟨fdes, h1, fun fde hf => ?_, rfl⟩
      exact (convertible_congr (opts := off) (opts' := on) rfl Iff.rfl).1 (h2 fde hf)

/-- Two functions that touch, each with two rows of the same rules. -/
example (dbg : Bool) : let fde (a : U64) : DwFde := { initial := a, len := 0x10, instructions := [], rows := .ok [.ok { Samples.dwRow1 with start := a, end_ := a + 4 }, .ok { Samples.dwRow1 with start := a + 4, end_ := a + 16 }] }
    ∀ m, (dwarf2sframe dbg (Samples.ehOf [fde 0x1000, fde 0x1010]) { Samples.convOpts with mergeFdes := m, mergeFres := true }).bind
      (fun r => .ok (r.map fun b => (functions b).map fun f => (f.startAddress, f.size, (rows f).length)))
      = .ok (.ok [(0x1000, 0x10, 1), (0x1010, 0x10, 1)]) := by
  cases dbg <;> decide +kernel

/-! ### C59 -/

/-- A row is complained about exactly if it cannot be expressed. -/
theorem complaint_iff (arch : Architecture) (row : DwRow) :
    (complaint arch row).isSome ↔ translate arch row = none := by
  let fde : DwFde := { initial := row.start, len := 1, instructions := [], rows := .ok [] }
  have hs : rowStart false { fde with initial := 0 } { row with start := 0 }
      = .ok (.ok (BitVec.ofNat 32 0)) := by
    show (subU64 false 0 0).bind _ = _
    rw [show subU64 false 0 0 = Rust.ok 0 from rfl, Rust.bind_ok]
    rfl
  have h1 : translate arch { row with start := 0 } = translate arch row := rfl
  have h2 : complaint arch { row with start := 0 } = complaint arch row := rfl
  rcases convertRow_spec false (Options.new arch Bases.default) { fde with initial := 0 } { row with start := 0 } hs with
    ⟨h3, h4, _⟩ | ⟨msg, h3, h4, _⟩
  · change (translate arch { row with start := 0 }).isSome at h3
    change complaint arch { row with start := 0 } = none at h4
    rw [h1] at h3
    rw [h2] at h4
    rw [h4]
    constructor
    · intro h; cases h
    · intro h; rw [h] at h3; cases h3
  · change translate arch { row with start := 0 } = none at h3
    change complaint arch { row with start := 0 } = some msg at h4
    rw [h1] at h3
    rw [h2] at h4
    rw [h3, h4]
    simp

/-- **C59.**  If the conversion succeeds, the warnings are off and nothing is printed, or there is one
warning for each row of nonzero width that SFrame cannot express, in the order of the input and for
no other row; it names the function, the offset of the row and the first reason. -/
theorem C59_warnings (dbg : Bool) (eh : EhFrame) (opts : Options) (b : SFrameBuilder)
    (log : List Warning) (h : dwarf2sframeLog dbg eh opts = .ok (.ok (b, log))) (fdes : List DwFde)
    (hin : inputs eh opts.bases = fdes.map .ok) :
    (opts.warnings = false → log = []) ∧
    (opts.warnings = true →
      log.map (fun w => (w.start.toNat, w.offset.toNat, some w.msg)) =
        fdes.flatMap fun fde => ((live (rowsOf fde)).filter fun r => (translate opts.arch r).isNone).map
          fun r => (fde.initial.toNat, r.start.toNat - fde.initial.toNat, complaint opts.arch r)) := by
  rcases dwarf2sframe_cases dbg eh opts with ⟨fdes', hx, hc, h'⟩ | ⟨fdes', x, rest, hx, _, h'⟩
  case inr =>
    rcases h' with ⟨e, _, h'⟩ | ⟨fde, _, _, p, h'⟩
    · rw [h] at h'; cases h'
    · rw [h] at h'; cases h'
  rw [hin] at hx
  cases map_ok_inj hx
  rw [h] at h'
  have hlog : log = logFor opts fdes := by
    simp only [Rust.ok.injEq, Except.ok.injEq, Prod.mk.injEq] at h'
    exact h'.2
  subst hlog
  constructor
  · intro hw
    unfold logFor warningsFor
    rw [List.flatMap_eq_nil_iff]
    intro fde _
    rw [List.flatMap_eq_nil_iff]
    intro r _
    unfold warningFor
    rw [hw]
    rfl
  · intro hw
    unfold logFor
    rw [List.map_flatMap, List.flatMap_def, List.flatMap_def]
    congr 1
    refine List.map_congr_left fun fde hf => ?_
    have hcl := (hc fde hf).clean.placed
    unfold warningsFor
    revert hcl
    generalize live (rowsOf fde) = rs
    intro hcl
    induction rs with
    | nil => rfl
    | cons r rs ih =>
      have hp := hcl r (by simp)
      have hsub : (r.start - fde.initial).toNat = r.start.toNat - fde.initial.toNat :=
        sub_toNat_of_le hp.after
      rw [List.flatMap_cons, List.map_append, ih fun q hq => hcl q (by simp [hq])]
      unfold warningFor
      rw [if_pos hw]
      have hci := complaint_iff opts.arch r
      cases hcm : complaint opts.arch r with
      | none =>
        rw [hcm] at hci
        have : (translate opts.arch r).isNone = false := by
          cases ht : translate opts.arch r with
          | none => exact absurd (hci.2 ht) (by simp)
          | some t => rfl
        rw [List.filter_cons_of_neg (by simp [this])]
        rfl
      | some msg =>
        rw [hcm] at hci
        have : (translate opts.arch r).isNone = true := by rw [hci.1 rfl]; rfl
        rw [List.filter_cons_of_pos (by simp [this])]
        simp [hsub, hcm]

/-- The sample function: its third row cannot be expressed, and the log has the one warning. -/
example (dbg : Bool) : ∃ b msg digits,
    dwarf2sframeLog dbg (Samples.ehOf [Samples.dwFde]) { Samples.convOpts with warnings := true } =
      .ok (.ok (b, [⟨0x1000, 0x10, digits, msg⟩])) ∧
    inputs (Samples.ehOf [Samples.dwFde]) Samples.convOpts.bases = [Samples.dwFde].map .ok ∧
    ((live (rowsOf Samples.dwFde)).filter fun r => (translate .amd64 r).isNone) = [Samples.dwRow3] ∧
    complaint .amd64 Samples.dwRow3 = some msg :=
  ⟨{ options := Samples.opts, fdes := [(0x1000, Samples.convFn)] }, .cfaExpression, 4,
    by cases dbg <;> decide +kernel, rfl, by decide +kernel, by decide +kernel⟩

end Verif
