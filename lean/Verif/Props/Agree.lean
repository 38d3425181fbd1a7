import Verif.Props.Unwind
import Verif.Props.Main1
import Verif.Spec.Agree
/-!
# The two converters compared, and walking the stack with a legacy section: C100, C101
-/

namespace Verif
open Spec

variable {o : Endian}

theorem not_found {es : List (FuncDescEntry o)} {a : Int}
    (h : ∀ e ∈ es, ¬ (e.startAddress.toInt ≤ a ∧ a < e.startAddress.toInt + e.size.toNat)) :
    (es.find? fun e => decide (e.startAddress.toInt ≤ a ∧ a < e.startAddress.toInt + e.size.toNat)) = none := by
  rw [List.find?_eq_none]
  intro e he hd
  exact h e he (by simpa only [decide_eq_true_eq] using hd)

/-- What can be read of a built section at an address: the meaning of the row that governs it, and
nothing outside the functions. -/
theorem rulesAt_built {dbg dbg' : Bool} {b : SFrameBuilder} (hb : SFrameBuilder.Reachable dbg' b)
    {out : List U8} (h : b.build dbg o = .ok (.ok out)) :
    ∃ s, SFrame.load o out = .ok (.ok s) ∧
      (∀ f ∈ functions b, Storable f → ∀ a : Int, f.startAddress.toInt ≤ a →
        a < f.startAddress.toInt + f.size.toNat → ∀ r,
        governingRow (rows f) (a - f.startAddress.toInt).toNat = some r →
        sfRulesAt s a = (meaning b.options r).map fun t => (t, r.mangled)) ∧
      ∀ a : Int, (∀ f ∈ functions b, ¬ (f.startAddress.toInt ≤ a ∧ a < f.startAddress.toInt + f.size.toNat)) →
        sfRulesAt s a = none := by
  obtain ⟨s, es, h1, h2, hlen, h4⟩ := C31_rows_partial dbg dbg' o b hb out h
  obtain ⟨s', es', h1', h2', _, _, _, _, _, _, _, _, _, _, h4'⟩ := C30_round_trip dbg dbg' o b hb out h
  rw [h1] at h1'; cases h1'
  rw [h2] at h2'; cases h2'
  have hsd := built_sorted hb h h1 h2
  refine ⟨s, h1, fun f hf hs a a1 a2 r hr => ?_, fun a ha => ?_⟩
  · obtain ⟨i, hi⟩ := List.mem_iff_getElem?.1 hf
    obtain ⟨hil, _⟩ := List.getElem?_eq_some_iff.1 hi
    have hei : es[i]? = some es[i] := List.getElem?_eq_getElem (by omega)
    obtain ⟨g1, g2, _⟩ := h4' i f _ hi hei
    obtain ⟨qs, k1, k2, k3⟩ := (h4 i f _ hi hei).2 hs
    obtain ⟨q, hq, hP⟩ := governing_transfer (P := fun q r => SameRow s b.options q r)
      (fun q r h => h.start) _ qs (rows f) k2 k3 r hr
    unfold sfRulesAt
    rw [h2]
    simp only
    rw [found_covering hsd (List.getElem_mem _) (e := es[i]) (by rw [g1]; exact a1) (by rw [g1, g2]; exact a2),
      Option.bind_some, k1]
    simp only
    rw [show (qs.map Except.ok : List (Except ReadError (FrameRowEntry o))).filterMap Except.toOption = qs by
      rw [List.filterMap_map]
      exact List.filterMap_some]
    rw [g1, hq]
    simp only [Option.bind_some]
    rw [readRules_eq hP, hP.mangled]
  · unfold sfRulesAt
    rw [h2]
    simp only
    rw [not_found, Option.bind_none]
    intro e he
    obtain ⟨i, hi⟩ := List.mem_iff_getElem?.1 he
    obtain ⟨hil, _⟩ := List.getElem?_eq_some_iff.1 hi
    have hfi : (functions b)[i]? = some (functions b)[i] := List.getElem?_eq_getElem (by omega)
    obtain ⟨g1, g2, _⟩ := h4' i _ e hfi hi
    rw [g1, g2]
    exact ha _ (List.getElem_mem _)

/-- A converted section gives no rules outside the functions. -/
theorem rulesAt_outside (dbg dbg' : Bool) (eh : EhFrame) (opts : Options) (b : SFrameBuilder)
    (h : dwarf2sframe dbg eh opts = .ok (.ok b)) {out : List U8} (hb : b.build dbg' o = .ok (.ok out))
    (fdes : List DwFde) (hin : inputs eh opts.bases = fdes.map .ok) {s : SFrame o}
    (hs : SFrame.load o out = .ok (.ok s)) {a : Int} (ha : Outside fdes a) : sfRulesAt s a = none := by
  obtain ⟨s', h1, _, h3⟩ := rulesAt_built (converted_reachable (dbg' := dbg) h) hb
  rw [hs] at h1; cases h1
  obtain ⟨fdes', hin', hc, rfl⟩ := dwarf2sframe_ok_iff.1 h
  rw [hin] at hin'
  cases map_ok_inj hin'
  refine h3 a fun f hf => ?_
  obtain ⟨fde, hl, rfl⟩ := (mem_functions (fun g hg => (hc g hg).start) _).1 hf
  rw [fnFor_start (hc fde hl.mem), fnFor_size (hc fde hl.mem)]
  exact ha fde hl

theorem lastWith_unmap {fdes : List DwFde} {g : DwFde} (h : LastWith (fdes.map tidyFde) g) :
    ∃ fde, LastWith fdes fde ∧ g = tidyFde fde := by
  obtain ⟨pre, post, heq, hpost⟩ := h
  obtain ⟨pre', rest', rfl, hpre, hrest⟩ := List.map_eq_append_iff.1 heq
  obtain ⟨fde, post', rfl, rfl, rfl⟩ := List.map_eq_cons_iff.1 hrest
  exact ⟨fde, ⟨pre', post', rfl, fun x hx => hpost (tidyFde x) (List.mem_map_of_mem hx)⟩, rfl⟩

/-- What can be read of the section of the legacy tool at an address. -/
theorem rulesAt_legacy (dbg dbg' : Bool) (o : Endian) (eh : EhFrame) (bases : Bases)
    (b : SFrameBuilder) (h : legacyConvert dbg eh bases = .ok (.ok b)) (out : List U8)
    (hb : b.build dbg' o = .ok (.ok out)) (fdes : List DwFde) (hin : inputs eh bases = fdes.map .ok)
    (hw : ∀ fde, LastWith fdes fde → WellFormed (rowsOf fde))
    (ht : ∀ fde, LastWith fdes fde → ∀ d ∈ rowsOf fde, ∀ t, legacyTranslate d = some t →
      ¬ WidthTie (storedValues b.options t)) :
    ∃ s, SFrame.load o out = .ok (.ok s) ∧
      (∀ a row, DwRowAt fdes a row → sfRulesAt s a = (legacyTranslate row).map fun t => (t, false)) ∧
      ∀ a, Outside fdes a → sfRulesAt s a = none := by
  obtain ⟨s, h1, h2, h3⟩ := rulesAt_built (legacy_reachable (dbg' := dbg) h).1 hb
  obtain ⟨fdes', hin', hc, rfl⟩ := legacyConvert_iff.1 h
  rw [hin] at hin'
  cases map_ok_inj hin'
  have hcv : ∀ fde ∈ fdes.map tidyFde, Convertible legacyOptions (legacyLike bases) fde := by
    intro g hg
    obtain ⟨g, hg', rfl⟩ := List.mem_map.1 hg
    exact ((legacyConvertible_iff bases g).1 (hc g hg')).1
  have hmem := fun f => mem_functions (so := legacyOptions) (opts := legacyLike bases)
    (fun g hg => (hcv g hg).start) f
  refine ⟨s, h1, ?_, fun a ha => h3 a fun f hf => ?_⟩
  · rintro a row ⟨fde, hl, hrow, a1, a2, a3, a4⟩
    have hl' := lastWith_map hl
    have hcv' := hcv _ hl'.mem
    have hlive : tidy row ∈ live (rowsOf (tidyFde fde)) := by
      rw [rowsOf_tidy, live_tidy]
      exact List.mem_map_of_mem hrow
    obtain ⟨r, g1, g2, g3⟩ := fnFor_governs legacyOptions_fp hcv' hlive (a := a.toNat)
      (by show row.start.toNat ≤ _; omega) fun row' hrow' hle => by
        rw [rowsOf_tidy, live_tidy] at hrow'
        obtain ⟨row', hr', rfl⟩ := List.mem_map.1 hrow'
        exact (hw fde hl).no_inner (row := row) (row' := row') hrow hr' (by omega) hle
    have hst : Storable (fnFor legacyOptions (legacyLike bases) (tidyFde fde)) := by
      refine (fnFor_storable legacyOptions_fp hcv').2 fun r hr => ?_
      obtain ⟨d, hd, rfl⟩ := fnFor_rows legacyOptions_fp hcv' hr
      rw [values_stored legacyOptions_fp]
      rw [rowsOf_tidy, live_tidy] at hd
      obtain ⟨d, hd', rfl⟩ := List.mem_map.1 hd
      rw [show translate (legacyLike bases).arch (tidy d) = legacyTranslate d from tidy_translate d]
      cases htr : legacyTranslate d with
      | none => exact not_tie_nil
      | some t => exact ht fde hl d hd' t htr
    have hs := fnFor_start hcv'
    have hz := fnFor_size hcv'
    rw [show (tidyFde fde).initial = fde.initial from rfl] at hs g1
    rw [show (tidyFde fde).len = fde.len from rfl] at hz
    have := h2 _ ((hmem _).2 ⟨_, hl', rfl⟩) hst a (by omega) (by omega) r
      (by rw [hs, show (a - (fde.initial.toNat : Int)).toNat = a.toNat - fde.initial.toNat by omega]; exact g1)
    rw [this, g2]
    have g3 : meaning legacyOptions r = translate .amd64 (tidy row) := g3
    rw [tidy_translate] at g3
    show (meaning legacyOptions r).map _ = _
    rw [g3]
  · obtain ⟨g, hg, rfl⟩ := (hmem f).1 hf
    rw [fnFor_start (hcv g hg.mem), fnFor_size (hcv g hg.mem)]
    obtain ⟨fde, hl, rfl⟩ := lastWith_unmap hg
    exact ha fde hl

/-! ### C100 -/

theorem odd_none {row : DwRow} : OddRbp row → fpRules .amd64 row = none ∧ legacyFp row = some none := by
  unfold OddRbp fpRules legacyFp
  rw [show BitVec.ofNat 16 (fpNum .amd64) = (6 : Reg) from rfl]
  cases row.register 6 with
  | undefined => exact False.elim
  | sameValue => exact False.elim
  | offset _ => exact False.elim
  | _ => exact fun _ => ⟨rfl, rfl⟩

theorem not_odd {row : DwRow} : ¬ OddRbp row → legacyFp row = fpRules .amd64 row := by
  unfold OddRbp fpRules legacyFp
  rw [show BitVec.ofNat 16 (fpNum .amd64) = (6 : Reg) from rfl]
  cases row.register 6 with
  | undefined => exact fun _ => rfl
  | sameValue => exact fun _ => rfl
  | offset _ => exact fun _ => rfl
  | _ => exact fun h => absurd trivial h

/-- The two readings of a row differ exactly if its rule for RBP is dropped. -/
theorem same_iff (row : DwRow) : translate .amd64 row = legacyTranslate row ↔ ¬ Dropped row := by
  unfold Dropped
  by_cases ho : OddRbp row
  · obtain ⟨h1, h2⟩ := odd_none ho
    unfold translate legacyTranslate
    rw [h1, h2]
    cases cfaRules .amd64 row with
    | none => simp
    | some c =>
      cases raRules .amd64 row with
      | none => simp
      | some r => simp [ho]
  · unfold translate legacyTranslate
    rw [not_odd ho]
    exact ⟨fun _ h => ho h.2.2, fun _ => rfl⟩

theorem dropped_rules {row : DwRow} (h : Dropped row) : translate .amd64 row = none ∧
    ∃ t, legacyTranslate row = some t ∧ t.fp = none := by
  obtain ⟨hc, hr, ho⟩ := h
  obtain ⟨h1, h2⟩ := odd_none ho
  obtain ⟨c, hc⟩ := Option.isSome_iff_exists.1 hc
  obtain ⟨r, hr⟩ := Option.isSome_iff_exists.1 hr
  unfold translate legacyTranslate
  rw [h1, h2, hc, hr]
  exact ⟨rfl, _, rfl, rfl⟩

/-- **C100**: let both tools convert the same input (the newer one for AMD64), with rows in order and
without width ties.  The two sections, read back, give the same rules at every address that a DWARF row
covers, exactly unless the row is expressible but for its rule for RBP; there the newer one gives none
and the legacy one says that RBP is unchanged.  Outside the functions both give none. -/
theorem C100_agree (dbg dbg' dbg1 dbg1' : Bool) (o o1 : Endian) (eh : EhFrame) (opts : Options)
    (harch : opts.arch = .amd64) (b b1 : SFrameBuilder)
    (h : dwarf2sframe dbg eh opts = .ok (.ok b)) (h1 : legacyConvert dbg1 eh opts.bases = .ok (.ok b1))
    (out out1 : List U8) (hb : b.build dbg' o = .ok (.ok out)) (hb1 : b1.build dbg1' o1 = .ok (.ok out1))
    (fdes : List DwFde) (hin : inputs eh opts.bases = fdes.map .ok)
    (hw : ∀ fde, LastWith fdes fde → WellFormed (rowsOf fde))
    (ht : ∀ fde, LastWith fdes fde → ∀ d ∈ rowsOf fde, ∀ t, legacyTranslate d = some t →
      ¬ WidthTie (storedValues b.options t) ∧ ¬ WidthTie (storedValues b1.options t)) :
    ∃ s s1, SFrame.load o out = .ok (.ok s) ∧ SFrame.load o1 out1 = .ok (.ok s1) ∧
      (∀ a row, DwRowAt fdes a row → (sfRulesAt s a = sfRulesAt s1 a ↔ ¬ Dropped row)) ∧
      (∀ a row, DwRowAt fdes a row → Dropped row → sfRulesAt s a = none ∧
        ∃ t, sfRulesAt s1 a = some (t, false) ∧ t.fp = none) ∧
      ∀ a, Outside fdes a → sfRulesAt s a = none ∧ sfRulesAt s1 a = none := by
  have htr : ∀ d t, translate .amd64 d = some t → legacyTranslate d = some t := by
    intro d t hd
    by_cases hdr : Dropped d
    · rw [(dropped_rules hdr).1] at hd; cases hd
    · rw [← (same_iff d).2 hdr]; exact hd
  obtain ⟨s, g1, g2⟩ := rulesAt_converted dbg dbg' o eh opts b h out hb fdes hin hw fun fde hl d hd t htd =>
    (ht fde hl d (List.mem_filter.1 hd).1 t (htr d t (harch ▸ htd))).1
  obtain ⟨s1, k1, k2, k3⟩ := rulesAt_legacy dbg1 dbg1' o1 eh opts.bases b1 h1 out1 hb1 fdes hin hw
    fun fde hl d hd t htd => (ht fde hl d hd t htd).2
  rw [harch] at g2
  refine ⟨s, s1, g1, k1, fun a row hr => ?_, fun a row hr hd => ?_, fun a ha =>
    ⟨rulesAt_outside dbg dbg' eh opts b h hb fdes hin g1 ha, k3 a ha⟩⟩
  · rw [g2 a row hr, k2 a row hr, ← same_iff]
    refine ⟨fun he => ?_, fun he => by rw [he]⟩
    cases hx : translate .amd64 row <;> cases hy : legacyTranslate row <;> rw [hx, hy] at he
    · cases he
    · cases he
    · simpa using he
  · obtain ⟨e1, t, e2, e3⟩ := dropped_rules hd
    rw [g2 a row hr, k2 a row hr, e1, e2]
    exact ⟨rfl, t, rfl, e3⟩

namespace Samples

/-- Rules of AMD64 rows with nothing above the CFA have no width ties. -/
theorem no_ties {fde : DwFde} {so so1 : SFrameOptions} (h : ∀ d ∈ rowsOf fde, ∀ t ∈ legacyTranslate d,
      t.ra ≤ 0 ∧ ∀ v ∈ t.fp, v ≤ 0) : ∀ d ∈ rowsOf fde, ∀ t, legacyTranslate d = some t →
      ¬ WidthTie (storedValues so t) ∧ ¬ WidthTie (storedValues so1 t) :=
  fun d hd t ht => ⟨C52_usual_partial so t (h d hd t ht).1 (h d hd t ht).2,
    C52_usual_partial so1 t (h d hd t ht).1 (h d hd t ht).2⟩

/-- What the newer tool makes of the function that keeps RBP in RBX. -/
def rbxB : SFrameBuilder :=
  { options := opts, fdes := [(0x1000, { FuncDescBuilder.new opts 0x1000 0x20 with
      fres := [(0, ⟨0, some ⟨8, none, none⟩, false, .sp⟩), (1, ⟨1, none, false, .fp⟩)] })] }

/-- What the legacy tool makes of it. -/
def rbxB1 : SFrameBuilder :=
  { options := legacyOptions, fdes := [(0x1000, legacyFn ⟨16, some (-8), none⟩)] }

theorem dwRow1_legacy : legacyTranslate dwRow1 = some ⟨.sp, 8, none, -8⟩ := by decide +kernel
theorem rbxRow_legacy : legacyTranslate rbxRow = some ⟨.sp, 16, none, -8⟩ := by decide +kernel

theorem rbx_rows {so so1 : SFrameOptions} (fde : DwFde) (hl : LastWith [fdeWith rbxRow] fde) :
    WellFormed (rowsOf fde) ∧ ∀ d ∈ rowsOf fde, ∀ t, legacyTranslate d = some t →
      ¬ WidthTie (storedValues so t) ∧ ¬ WidthTie (storedValues so1 t) := by
  have : fde = fdeWith rbxRow := by simpa using hl.mem
  subst this
  refine ⟨by unfold WellFormed; decide +kernel, no_ties fun d hd t ht => ?_⟩
  have hd' : d ∈ [dwRow1, rbxRow] := hd
  simp only [List.mem_cons, List.not_mem_nil, or_false] at hd'
  rcases hd' with rfl | rfl
  · cases Option.some.inj (dwRow1_legacy.symm.trans ht); exact ⟨by decide, by simp⟩
  · cases Option.some.inj (rbxRow_legacy.symm.trans ht); exact ⟨by decide, by simp⟩

end Samples

/-- The function that keeps RBP in RBX meets the hypotheses; the tools agree in its first row and differ in
its second. -/
example (dbg : Bool) :
    dwarf2sframe dbg (Samples.ehOf [Samples.fdeWith Samples.rbxRow]) Samples.convOpts = .ok (.ok Samples.rbxB) ∧
    legacyConvert dbg (Samples.ehOf [Samples.fdeWith Samples.rbxRow]) Samples.convOpts.bases = .ok (.ok Samples.rbxB1) ∧
    Samples.rbxB.build dbg .little = .ok (.ok (image .little Samples.rbxB)) ∧
    Samples.rbxB1.build dbg .big = .ok (.ok (image .big Samples.rbxB1)) ∧
    (∀ fde, LastWith [Samples.fdeWith Samples.rbxRow] fde → WellFormed (rowsOf fde) ∧
      ∀ d ∈ rowsOf fde, ∀ t, legacyTranslate d = some t →
      ¬ WidthTie (storedValues Samples.rbxB.options t) ∧ ¬ WidthTie (storedValues Samples.rbxB1.options t)) ∧
    (∃ s s1, SFrame.load .little (image .little Samples.rbxB) = .ok (.ok s) ∧
      SFrame.load .big (image .big Samples.rbxB1) = .ok (.ok s1) ∧
      sfRulesAt s 0x1000 = sfRulesAt s1 0x1000 ∧ sfRulesAt s 0x1008 = none ∧
      sfRulesAt s1 0x1008 = some (⟨.sp, 16, none, -8⟩, false)) ∧
    ¬ Dropped Samples.dwRow1 ∧ Dropped Samples.rbxRow ∧
    DwRowAt [Samples.fdeWith Samples.rbxRow] 0x1000 Samples.dwRow1 ∧
    DwRowAt [Samples.fdeWith Samples.rbxRow] 0x1008 Samples.rbxRow ∧
    Outside [Samples.fdeWith Samples.rbxRow] 0x1020 := by
  refine ⟨by cases dbg <;> decide +kernel, by cases dbg <;> decide +kernel, by cases dbg <;> decide +kernel,
    by cases dbg <;> decide +kernel, fun fde hl => Samples.rbx_rows fde hl,
    ⟨_, _, rfl, rfl, by decide +kernel, by decide +kernel, by decide +kernel⟩, by decide +kernel, by decide +kernel,
    ⟨_, ⟨[], [], rfl, by simp⟩, ?_, ?_⟩, ⟨_, ⟨[], [], rfl, by simp⟩, ?_, ?_⟩, fun fde hl => ?_⟩
  · decide +kernel
  · decide +kernel
  · decide +kernel
  · decide +kernel
  · have : fde = Samples.fdeWith Samples.rbxRow := by simpa using hl.mem
    subst this
    decide +kernel

/-! ### C101 -/

/-- A walk with SFrame rules along a DWARF walk by rows without rules for the stack pointer and with unsigned
return addresses: where the section gives the rules of the DWARF row, or none if there are no such,
the SFrame walk sees the same frames as far as it gets. -/
theorem walk_sound {arch : Architecture} {fdes : List DwFde} {mem : Memory} {ev : Eval} {strip : Strip}
    {rulesAt : Int → Option (Rules × Bool)} {P : DwRow → Prop}
    (hr : ∀ a row, DwRowAt fdes a row → P row → rulesAt a = (translate arch row).map fun t => (t, false))
    {first : Bool} {m : Frame} {m' : SFrameState} {w : List (DwRow × Frame)}
    (h : DwWalk arch fdes mem ev strip first m w)
    (hw : ∀ x ∈ w, P x.1 ∧ PlainSp arch x.1 ∧ SignedRa arch x.1 = false) (ha : Agrees arch m m')
    {n : Nat} (hn : n ≤ w.length) {w' : List SFrameState}
    (hs : sfWalk mem strip rulesAt n first m' = some w') :
    ∀ (i : Nat) x y, w[i]? = some x → w'[i]? = some y → Agrees arch x.2 y := by
  induction h generalizing m' n w' with
  | done => exact fun i x y hx => (by cases hx)
  | @step first m row m1 rest hrow hstep hrest ih =>
    obtain ⟨hp, hsp, hsg⟩ := hw _ (List.mem_cons_self ..)
    cases n with
    | zero => cases hs; exact fun i x y _ hy => (by cases hy)
    | succ n =>
      rw [sfWalk, ha.pc, hr _ _ hrow hp] at hs
      obtain ⟨t, ht, hs⟩ := Option.bind_eq_some_iff.1 hs
      obtain ⟨t', ht', rfl⟩ := Option.map_eq_some_iff.1 ht
      obtain ⟨m1', h1, hs⟩ := Option.bind_eq_some_iff.1 hs
      obtain ⟨w1, h3, rfl⟩ := Option.map_eq_some_iff.1 hs
      obtain ⟨m2', k1, k2⟩ := step_agrees ht' hsp hsg ha hstep
      rw [h1] at k1; cases k1
      have h5 := ih (fun x hx => hw x (List.mem_cons_of_mem _ hx)) k2 (by simpa using hn) h3
      intro i x y hx hy
      cases i with
      | zero =>
        simp only [List.getElem?_cons_zero, Option.some.injEq] at hx hy
        subst hx hy
        exact k2
      | succ i =>
        simp only [List.getElem?_cons_succ] at hx hy
        exact h5 i x y hx hy

/-- How far the SFrame walk gets: to the first row that cannot be expressed. -/
theorem walk_reach {arch : Architecture} {fdes : List DwFde} {mem : Memory} {ev : Eval} {strip : Strip}
    {rulesAt : Int → Option (Rules × Bool)} {P : DwRow → Prop}
    (hr : ∀ a row, DwRowAt fdes a row → P row → rulesAt a = (translate arch row).map fun t => (t, false))
    {first : Bool} {m : Frame} {m' : SFrameState} {w : List (DwRow × Frame)}
    (h : DwWalk arch fdes mem ev strip first m w)
    (hw : ∀ x ∈ w, P x.1 ∧ PlainSp arch x.1 ∧ SignedRa arch x.1 = false) (ha : Agrees arch m m')
    {n : Nat} (hn : n ≤ w.length) :
    (sfWalk mem strip rulesAt n first m').isSome ↔ ∀ x ∈ w.take n, (translate arch x.1).isSome := by
  induction h generalizing m' n with
  | done =>
    have : n = 0 := by simpa using hn
    subst this
    exact ⟨fun _ x hx => (by cases hx), fun _ => rfl⟩
  | @step first m row m1 rest hrow hstep hrest ih =>
    obtain ⟨hp, hsp, hsg⟩ := hw _ (List.mem_cons_self ..)
    cases n with
    | zero => exact ⟨fun _ x hx => (by cases hx), fun _ => rfl⟩
    | succ n =>
      rw [sfWalk, ha.pc, hr _ _ hrow hp, List.take_succ_cons, List.forall_mem_cons]
      cases ht : translate arch row with
      | none => simp
      | some t =>
        obtain ⟨m2', k1, k2⟩ := step_agrees ht hsp hsg ha hstep
        rw [Option.map_some, Option.bind_some, k1, Option.bind_some, Option.isSome_map,
          ih (fun x hx => hw x (List.mem_cons_of_mem _ hx)) k2 (by simpa using hn)]
        simp

/-- **C69**, never wrong: whatever the rows can or cannot express, a walker that reads the converted section
gets exactly to the first row that cannot be expressed, and what it sees up to there is right.  Missing:
rows with rules for the stack pointer, signed return addresses (C68), width ties. -/
theorem C69_never_wrong_partial (dbg dbg' : Bool) (o : Endian) (eh : EhFrame) (opts : Options)
    (b : SFrameBuilder) (h : dwarf2sframe dbg eh opts = .ok (.ok b)) (out : List U8)
    (hb : b.build dbg' o = .ok (.ok out)) (fdes : List DwFde)
    (hin : inputs eh opts.bases = fdes.map .ok)
    (hw : ∀ fde, LastWith fdes fde → WellFormed (rowsOf fde))
    (ht : ∀ fde, LastWith fdes fde → ∀ d ∈ live (rowsOf fde), ∀ t, translate opts.arch d = some t →
      ¬ WidthTie (storedValues b.options t)) :
    ∃ s, SFrame.load o out = .ok (.ok s) ∧
      ∀ mem ev strip first m m' w, DwWalk opts.arch fdes mem ev strip first m w →
        (∀ x ∈ w, PlainSp opts.arch x.1 ∧ SignedRa opts.arch x.1 = false) → Agrees opts.arch m m' →
        ∀ n, n ≤ w.length →
          ((sfWalk mem strip (sfRulesAt s) n first m').isSome ↔ ∀ x ∈ w.take n, (translate opts.arch x.1).isSome) ∧
          ∀ w', sfWalk mem strip (sfRulesAt s) n first m' = some w' →
            ∀ (i : Nat) x y, w[i]? = some x → w'[i]? = some y → Agrees opts.arch x.2 y := by
  obtain ⟨s, h1, h2⟩ := rulesAt_converted dbg dbg' o eh opts b h out hb fdes hin hw ht
  have hr : ∀ a row, DwRowAt fdes a row → True → sfRulesAt s a = (translate opts.arch row).map fun t => (t, false) :=
    fun a row hrow _ => h2 a row hrow
  exact ⟨s, h1, fun mem ev strip first m m' w hwalk hx ha n hn =>
    ⟨walk_reach hr hwalk (fun x hxm => ⟨trivial, hx x hxm⟩) ha hn,
      fun w' hs => walk_sound hr hwalk (fun x hxm => ⟨trivial, hx x hxm⟩) ha hn hs⟩⟩

/-- The function that keeps RBP in RBX, at its first row in the innermost frame and at its second in the next: the
walk gets one step far. -/
example (dbg : Bool) : ∃ s m1 m2,
    dwarf2sframe dbg (Samples.ehOf [Samples.fdeWith Samples.rbxRow]) Samples.convOpts = .ok (.ok Samples.rbxB) ∧
    Samples.rbxB.build dbg .little = .ok (.ok (image .little Samples.rbxB)) ∧
    SFrame.load .little (image .little Samples.rbxB) = .ok (.ok s) ∧
    DwWalk .amd64 [Samples.fdeWith Samples.rbxRow] Samples.callMem (fun _ _ _ => none) id true
      ⟨0x1000, Samples.callRegs⟩ [(Samples.dwRow1, m1), (Samples.rbxRow, m2)] ∧
    PlainSp .amd64 Samples.dwRow1 ∧ PlainSp .amd64 Samples.rbxRow ∧
    Agrees .amd64 ⟨0x1000, Samples.callRegs⟩ ⟨0x1000, 0x7000, none⟩ ∧
    (translate .amd64 Samples.dwRow1).isSome ∧ (translate .amd64 Samples.rbxRow).isNone ∧
    sfWalk Samples.callMem id (sfRulesAt s) 1 true ⟨0x1000, 0x7000, none⟩ = some [⟨0x1006, 0x7008, none⟩] ∧
    sfWalk Samples.callMem id (sfRulesAt s) 2 true ⟨0x1000, 0x7000, none⟩ = none := by
  refine ⟨_, ⟨0x1006, callerRegs .amd64 Samples.callMem (fun _ _ _ => none) Samples.callRegs 0x7008 Samples.dwRow1⟩,
    ⟨0x4444, callerRegs .amd64 Samples.callMem (fun _ _ _ => none)
      (callerRegs .amd64 Samples.callMem (fun _ _ _ => none) Samples.callRegs 0x7008 Samples.dwRow1) 0x7018 Samples.rbxRow⟩,
    by cases dbg <;> decide +kernel, by cases dbg <;> decide +kernel, rfl, ?_,
    by unfold PlainSp; decide +kernel, by unfold PlainSp; decide +kernel, ?_, by decide +kernel,
    by decide +kernel, by decide +kernel, by decide +kernel⟩
  · refine .step ⟨_, ⟨[], [], rfl, by simp⟩, ?_, ?_⟩ rfl (.step ⟨_, ⟨[], [], rfl, by simp⟩, ?_, ?_⟩ rfl .done)
      <;> decide +kernel
  · exact ⟨rfl, by decide +kernel, fun v hv => by cases hv⟩

namespace Samples

/-- Memory: the return address 0x1009 at 0x7008. -/
def rbxMem : Memory := fun a => if a = 0x7008 then some 0x1009 else none

/-- The registers: stack pointer 0x7000, RBP 0x1111, RBX 0x8000. -/
def rbxRegs : RegFile := fun r => if r = 7 then some 0x7000 else if r = 6 then some 0x1111 else
  if r = 3 then some 0x8000 else none

end Samples

/-- **C101 is false of the code**: the caller had the frame pointer that is now in RBX; a walker that
reads the section of the legacy tool takes that of the callee, where with the section of the newer tool it
stops. -/
theorem C101_wrong_frame (dbg : Bool) :
    ∃ b b1 s s1 m1, dwarf2sframe dbg (Samples.ehOf [Samples.fdeWith Samples.rbxRow]) Samples.convOpts = .ok (.ok b) ∧
      legacyConvert dbg (Samples.ehOf [Samples.fdeWith Samples.rbxRow]) Samples.convOpts.bases = .ok (.ok b1) ∧
      b.build dbg .little = .ok (.ok (image .little b)) ∧ b1.build dbg .little = .ok (.ok (image .little b1)) ∧
      SFrame.load .little (image .little b) = .ok (.ok s) ∧ SFrame.load .little (image .little b1) = .ok (.ok s1) ∧
      DwWalk .amd64 [Samples.fdeWith Samples.rbxRow] Samples.rbxMem (fun _ _ _ => none) id true
        ⟨0x1008, Samples.rbxRegs⟩ [(Samples.rbxRow, m1)] ∧
      Agrees .amd64 ⟨0x1008, Samples.rbxRegs⟩ ⟨0x1008, 0x7000, some 0x1111⟩ ∧
      m1.pc = 0x1009 ∧ m1.reg (fpNum .amd64) = some 0x8000 ∧
      sfWalk Samples.rbxMem id (sfRulesAt s1) 1 true ⟨0x1008, 0x7000, some 0x1111⟩
        = some [⟨0x1009, 0x7010, some 0x1111⟩] ∧
      sfWalk Samples.rbxMem id (sfRulesAt s) 1 true ⟨0x1008, 0x7000, some 0x1111⟩ = none := by
  refine ⟨Samples.rbxB, Samples.rbxB1, _, _,
    ⟨0x1009, callerRegs .amd64 Samples.rbxMem (fun _ _ _ => none) Samples.rbxRegs 0x7010 Samples.rbxRow⟩,
    by cases dbg <;> decide +kernel, by cases dbg <;> decide +kernel, by cases dbg <;> decide +kernel,
    by cases dbg <;> decide +kernel, rfl, rfl, ?_, ?_, rfl, by decide +kernel, by decide +kernel, by decide +kernel⟩
  · refine .step ⟨_, ⟨[], [], rfl, by simp⟩, ?_, ?_⟩ rfl .done <;> decide +kernel
  · refine ⟨rfl, by decide +kernel, fun v hv => ?_⟩
    have : (some 0x1111 : Option U64) = some v := (show Samples.rbxRegs (fpNum .amd64) = some 0x1111 by decide +kernel).symm.trans hv
    exact this

/-- **C101**, what holds: along a DWARF walk by rows none of which has its rule for RBP dropped, a walker that
reads the section of the legacy tool gets exactly to the first row that cannot be expressed, and what it
sees up to there is right.  Missing: rows with a dropped rule for RBP, rules for the stack pointer
(as C69), width ties. -/
theorem C101_walk_partial (dbg dbg' : Bool) (o : Endian) (eh : EhFrame) (bases : Bases)
    (b : SFrameBuilder) (h : legacyConvert dbg eh bases = .ok (.ok b)) (out : List U8)
    (hb : b.build dbg' o = .ok (.ok out)) (fdes : List DwFde) (hin : inputs eh bases = fdes.map .ok)
    (hw : ∀ fde, LastWith fdes fde → WellFormed (rowsOf fde))
    (ht : ∀ fde, LastWith fdes fde → ∀ d ∈ rowsOf fde, ∀ t, legacyTranslate d = some t →
      ¬ WidthTie (storedValues b.options t)) :
    ∃ s, SFrame.load o out = .ok (.ok s) ∧
      ∀ mem ev strip first m m' w, DwWalk .amd64 fdes mem ev strip first m w →
        (∀ x ∈ w, ¬ Dropped x.1 ∧ PlainSp .amd64 x.1) → Agrees .amd64 m m' →
        ∀ n, n ≤ w.length →
          ((sfWalk mem strip (sfRulesAt s) n first m').isSome ↔ ∀ x ∈ w.take n, (translate .amd64 x.1).isSome) ∧
          ∀ w', sfWalk mem strip (sfRulesAt s) n first m' = some w' →
            ∀ (i : Nat) x y, w[i]? = some x → w'[i]? = some y → Agrees .amd64 x.2 y := by
  obtain ⟨s, h1, h2, _⟩ := rulesAt_legacy dbg dbg' o eh bases b h out hb fdes hin hw ht
  have hr : ∀ a row, DwRowAt fdes a row → ¬ Dropped row →
      sfRulesAt s a = (translate .amd64 row).map fun t => (t, false) := fun a row hrow hd => by
    rw [h2 a row hrow, (same_iff row).2 hd]
  exact ⟨s, h1, fun mem ev strip first m m' w hwalk hx ha n hn =>
    ⟨walk_reach hr hwalk (fun x hxm => ⟨(hx x hxm).1, (hx x hxm).2, rfl⟩) ha hn,
      fun w' hs => walk_sound hr hwalk (fun x hxm => ⟨(hx x hxm).1, (hx x hxm).2, rfl⟩) ha hn hs⟩⟩

/-- The sample stack: one step by the first row of the sample function, read in the section of the legacy tool. -/
example (dbg : Bool) : ∃ s m1,
    legacyConvert dbg (Samples.ehOf [Samples.fdeWith Samples.rbxRow]) Bases.default = .ok (.ok Samples.rbxB1) ∧
    Samples.rbxB1.build dbg .little = .ok (.ok (image .little Samples.rbxB1)) ∧
    SFrame.load .little (image .little Samples.rbxB1) = .ok (.ok s) ∧
    (∀ fde, LastWith [Samples.fdeWith Samples.rbxRow] fde → WellFormed (rowsOf fde) ∧
      ∀ d ∈ rowsOf fde, ∀ t, legacyTranslate d = some t → ¬ WidthTie (storedValues Samples.rbxB1.options t)) ∧
    DwWalk .amd64 [Samples.fdeWith Samples.rbxRow] Samples.callMem (fun _ _ _ => none) id true
      ⟨0x1000, Samples.callRegs⟩ [(Samples.dwRow1, m1)] ∧
    ¬ Dropped Samples.dwRow1 ∧ PlainSp .amd64 Samples.dwRow1 ∧
    Agrees .amd64 ⟨0x1000, Samples.callRegs⟩ ⟨0x1000, 0x7000, none⟩ ∧ m1.pc = 0x1006 ∧
    sfWalk Samples.callMem id (sfRulesAt s) 1 true ⟨0x1000, 0x7000, none⟩ = some [⟨0x1006, 0x7008, none⟩] := by
  refine ⟨_, ⟨0x1006, callerRegs .amd64 Samples.callMem (fun _ _ _ => none) Samples.callRegs 0x7008 Samples.dwRow1⟩,
    by cases dbg <;> decide +kernel, by cases dbg <;> decide +kernel, rfl, fun fde hl => ?_, ?_,
    by decide +kernel, by unfold PlainSp; decide +kernel, ?_, rfl, by decide +kernel⟩
  · obtain ⟨h1, h2⟩ := Samples.rbx_rows (so := legacyOptions) (so1 := Samples.rbxB1.options) fde hl
    exact ⟨h1, fun d hd t ht => (h2 d hd t ht).2⟩
  · refine .step ⟨_, ⟨[], [], rfl, by simp⟩, ?_, ?_⟩ rfl .done <;> decide +kernel
  · exact ⟨rfl, by decide +kernel, fun v hv => by cases hv⟩

end Verif
