import Verif.Props.Unwind
import Verif.Spec.Execute
/-!
# From call frame instructions to the SFrame section: C99
-/

namespace Verif
open Spec

theorem translate_expressible (arch : Architecture) (row : DwRow) :
    translate arch row = expressible arch ⟨row.cfa, row.register⟩ := by
  unfold translate expressible cfaRules fpRules raRules
  congr 1
  cases row.cfa <;> rfl

/-- The rows of a table follow each other from `loc` to `finish`. -/
def Chain (finish : U64) : U64 → List (U64 × U64 × RuleSet) → Prop
  | _, [] => False
  | loc, [x] => x.1 = loc ∧ x.2.1 = finish
  | loc, x :: y :: r => x.1 = loc ∧ loc.toNat ≤ x.2.1.toNat ∧ Chain finish x.2.1 (y :: r)

theorem Chain.ne_nil {finish loc : U64} {t} (h : Chain finish loc t) : t ≠ [] := by
  rintro rfl; exact h

theorem Chain.cons {finish loc loc' : U64} {rs : RuleSet} {t} (h : Chain finish loc' t)
    (hle : loc.toNat ≤ loc'.toNat) : Chain finish loc ((loc, loc', rs) :: t) := by
  cases t with
  | nil => exact h.elim
  | cons y r => exact ⟨rfl, hle, h⟩

theorem advance_toNat {loc : U64} {d : U32} {c : U64} (h : loc.toNat + d.toNat * c.toNat < 2 ^ 64) :
    (loc + d.setWidth 64 * c).toNat = loc.toNat + d.toNat * c.toNat := by
  have h1 : (d.setWidth 64).toNat = d.toNat := by
    rw [BitVec.toNat_setWidth]; exact Nat.mod_eq_of_lt (by have := d.isLt; omega)
  rw [BitVec.toNat_add, BitVec.toNat_mul, h1]
  generalize d.toNat * c.toNat = p at h ⊢
  omega

theorem chain_of_table {cie : CieInfo} {init : RuleSet} {finish : U64} (is : List Insn) {loc : U64}
    {st : CfiState} {t} (hf : LocationsFit cie is loc.toNat)
    (h : unwindTable cie init finish is loc st = some t) : Chain finish loc t := by
  induction is generalizing loc st t with
  | nil => cases h; exact ⟨rfl, rfl⟩
  | cons i is ih =>
    cases i
    case advanceLoc d =>
      obtain ⟨t', h1, rfl⟩ := Option.map_eq_some_iff.1 h
      have h2 := advance_toNat hf.1
      exact (ih (by rw [h2]; exact hf.2) h1).cons (by omega)
    case setLoc x =>
      rw [unwindTable] at h
      split at h
      · cases h
      · rename_i hx
        obtain ⟨t', h1, rfl⟩ := Option.map_eq_some_iff.1 h
        exact (ih hf h1).cons (by omega)
    all_goals
      obtain ⟨st', _, h1⟩ := Option.bind_eq_some_iff.1 h
      exact ih hf h1

theorem table_covers {cie : CieInfo} {init : RuleSet} {finish : U64} {a : Nat} (ha : a < finish.toNat)
    (is : List Insn) {loc : U64} {st : CfiState} {t} (hf : LocationsFit cie is loc.toNat) (hl : loc.toNat ≤ a)
    (h : unwindTable cie init finish is loc st = some t) :
    ∃ x ∈ t, x.1.toNat ≤ a ∧ a < x.2.1.toNat ∧ rulesFrom cie init a is loc.toNat st = some x.2.2 := by
  induction is generalizing loc st t with
  | nil => cases h; exact ⟨_, List.mem_cons_self .., hl, ha, rfl⟩
  | cons i is ih =>
    cases i
    case advanceLoc d =>
      obtain ⟨t', h1, rfl⟩ := Option.map_eq_some_iff.1 h
      have h2 := advance_toNat hf.1
      rw [rulesFrom]
      split
      · exact ⟨_, List.mem_cons_self .., hl, by simp only []; omega, rfl⟩
      · obtain ⟨x, hx, hx'⟩ := ih (by rw [h2]; exact hf.2) (by omega) h1
        rw [h2] at hx'
        exact ⟨x, List.mem_cons_of_mem _ hx, hx'⟩
    case setLoc y =>
      rw [unwindTable] at h
      split at h
      · cases h
      · obtain ⟨t', h1, rfl⟩ := Option.map_eq_some_iff.1 h
        rw [rulesFrom]
        split
        · exact ⟨_, List.mem_cons_self .., hl, by assumption, rfl⟩
        · obtain ⟨x, hx, hx'⟩ := ih hf (by omega) h1
          exact ⟨x, List.mem_cons_of_mem _ hx, hx'⟩
    all_goals
      obtain ⟨st', h0, h1⟩ := Option.bind_eq_some_iff.1 h
      obtain ⟨x, hx, hx1, hx2, hx3⟩ := ih hf hl h1
      refine ⟨x, hx, hx1, hx2, ?_⟩
      rw [rulesFrom, h0]
      · exact hx3
      all_goals (intros; exact Insn.noConfusion ‹_›)

theorem Chain.starts {finish loc : U64} {t} (h : Chain finish loc t) : ∀ x ∈ t, loc.toNat ≤ x.1.toNat := by
  induction t generalizing loc with
  | nil => exact h.elim
  | cons x t ih =>
    cases t with
    | nil =>
      intro y hy
      rw [List.mem_singleton] at hy
      rw [hy, h.1]
      exact Nat.le_refl _
    | cons z r =>
      intro y hy
      rcases List.mem_cons.1 hy with rfl | hy
      · rw [h.1]; exact Nat.le_refl _
      · exact Nat.le_trans h.2.1 (ih h.2.2 y hy)

/-- The rows of a table are in order. -/
theorem Chain.ordered {finish loc : U64} {t} (h : Chain finish loc t)
    (hlast : ∀ x ∈ t, x.1 ≠ x.2.1 → x.1.toNat < finish.toNat) :
    (∀ x ∈ t, x.1.toNat ≤ x.2.1.toNat) ∧ t.Pairwise fun x y => x.2.1.toNat ≤ y.1.toNat := by
  induction t generalizing loc with
  | nil => exact h.elim
  | cons x t ih =>
    cases t with
    | nil =>
      refine ⟨?_, by simp⟩
      intro y hy
      rw [List.mem_singleton] at hy
      subst hy
      by_cases he : y.1 = y.2.1
      · rw [he]; exact Nat.le_refl _
      · have := hlast y (List.mem_singleton.2 rfl) he
        rw [h.2]; omega
    | cons z r =>
      obtain ⟨i1, i2⟩ := ih h.2.2 fun y hy => hlast y (List.mem_cons_of_mem _ hy)
      refine ⟨?_, List.pairwise_cons.2 ⟨fun y hy => h.2.2.starts y hy, i2⟩⟩
      intro y hy
      rcases List.mem_cons.1 hy with rfl | hy
      · rw [h.1]; exact h.2.1
      · exact i1 y hy

/-- What a converted function with executed instructions looks like. -/
theorem executed_rows {so : SFrameOptions} {opts : Options} {cie : CieInfo} {fde : DwFde}
    (hc : Convertible so opts fde) (hx : Executed cie fde)
    (hf : LocationsFit cie (fde.instructions.filterMap Except.toOption) fde.initial.toNat) :
    WellFormed (rowsOf fde) ∧
    ∀ a : Nat, fde.initial.toNat ≤ a → a < fde.initial.toNat + fde.len.toNat →
      ∃ rs, instructionRules cie fde a = some rs ∧ ∃ row ∈ rowsOf fde, row.start.toNat ≤ a ∧ a < row.end_.toNat ∧
        ∀ arch, translate arch row = expressible arch rs := by
  obtain ⟨is, st, t, h1, h2, h3, h4, h5⟩ := hx _ hc.rows
  have his : fde.instructions.filterMap Except.toOption = is := by
    rw [h1, List.filterMap_map]
    exact List.filterMap_some
  rw [his] at hf
  have hfin : (fde.initial + fde.len).toNat = fde.initial.toNat + fde.len.toNat := by
    have := hc.start
    have := hc.len
    rw [BitVec.toNat_add]
    omega
  have hch := chain_of_table is hf h3
  have hmap : (rowsOf fde).map (fun r => (r.start, r.end_)) = t.map (fun x => (x.1, x.2.1)) := by
    apply List.ext_getElem?
    intro i
    rw [List.getElem?_map, List.getElem?_map]
    by_cases hi : i < t.length
    · have a1 := List.getElem?_eq_getElem hi
      have a2 := List.getElem?_eq_getElem (l := rowsOf fde) (i := i) (by omega)
      have hs := h5 i _ _ a2 a1
      rw [a1, a2, Option.map_some, Option.map_some, hs.start, hs.end_]
    · rw [List.getElem?_eq_none (by omega), List.getElem?_eq_none (by omega)]
      rfl
  have hord := hch.ordered (by
    intro x hx' hne
    have : (x.1, x.2.1) ∈ (rowsOf fde).map (fun r => (r.start, r.end_)) := by
      rw [hmap]; exact List.mem_map_of_mem (f := fun x : U64 × U64 × RuleSet => (x.1, x.2.1)) hx'
    obtain ⟨r, hr, he⟩ := List.mem_map.1 this
    simp only [Prod.mk.injEq] at he
    have hp := hc.clean.placed r (List.mem_filter.2 ⟨hr, by simpa [he.1, he.2] using hne⟩)
    have := hp.inside
    rw [← he.1, hfin]
    exact this)
  refine ⟨⟨?_, ?_⟩, ?_⟩
  · intro r hr
    have : (r.start, r.end_) ∈ t.map (fun x => (x.1, x.2.1)) := by
      rw [← hmap]; exact List.mem_map_of_mem (f := fun r : DwRow => (r.start, r.end_)) hr
    obtain ⟨x, hx', he⟩ := List.mem_map.1 this
    simp only [Prod.mk.injEq] at he
    rw [← he.1, ← he.2]
    exact hord.1 x hx'
  · have h6 : (t.map (fun x => (x.1, x.2.1))).Pairwise fun x y => x.2.toNat ≤ y.1.toNat :=
      List.pairwise_map.2 hord.2
    rw [← hmap] at h6
    exact List.pairwise_map.1 h6
  · intro a ha1 ha2
    obtain ⟨x, hx', hx1, hx2, hx3⟩ := table_covers (by omega) is hf ha1 h3
    refine ⟨x.2.2, ?_, ?_⟩
    · unfold instructionRules
      rw [h2, Option.bind_some, his]
      exact hx3
    · obtain ⟨i, hi⟩ := List.mem_iff_getElem?.1 hx'
      obtain ⟨hil, _⟩ := List.getElem?_eq_some_iff.1 hi
      have hri := List.getElem?_eq_getElem (l := rowsOf fde) (i := i) (by omega)
      have hs := h5 i _ _ hri hi
      refine ⟨_, List.mem_of_getElem? hri, by rw [hs.start]; exact hx1, by rw [hs.end_]; exact hx2, fun arch => ?_⟩
      rw [translate_expressible, hs.cfa, show (rowsOf fde)[i].register = x.2.2.reg from funext hs.reg]

/-- **C99.**  Let all functions of a section be converted, written and read back, their rows being the table of
their instructions.  At every address of a function, a reader finds the rules that the instructions establish
there, or none if SFrame cannot express them; and at all other addresses, none.  (For the hypothesis on the
stored offsets see C52.) -/
theorem C99_instructions (dbg dbg' : Bool) (o : Endian) (eh : EhFrame) (opts : Options)
    (b : SFrameBuilder) (h : dwarf2sframe dbg eh opts = .ok (.ok b)) (out : List U8)
    (hb : b.build dbg' o = .ok (.ok out)) (fdes : List DwFde)
    (hin : inputs eh opts.bases = fdes.map .ok) (cie : DwFde → CieInfo)
    (hx : ∀ fde, LastWith fdes fde → Executed (cie fde) fde)
    (hf : ∀ fde, LastWith fdes fde →
      LocationsFit (cie fde) (fde.instructions.filterMap Except.toOption) fde.initial.toNat)
    (ht : ∀ fde, LastWith fdes fde → ∀ a : Nat, fde.initial.toNat ≤ a → a < fde.initial.toNat + fde.len.toNat →
      ∀ rs t, instructionRules (cie fde) fde a = some rs → expressible opts.arch rs = some t →
        ¬ WidthTie (storedValues b.options t)) :
    ∃ s, SFrame.load o out = .ok (.ok s) ∧
      (∀ fde, LastWith fdes fde → ∀ a : Nat, fde.initial.toNat ≤ a → a < fde.initial.toNat + fde.len.toNat →
        ∃ rs, instructionRules (cie fde) fde a = some rs ∧
          sfRulesAt s a = (expressible opts.arch rs).map fun t => (t, false)) ∧
      ∀ a : Int, (∀ fde, LastWith fdes fde → a < fde.initial.toNat ∨ (fde.initial.toNat + fde.len.toNat : Int) ≤ a) →
        sfRulesAt s a = none := by
  obtain ⟨fdes', hin', hc, hbo⟩ := dwarf2sframe_ok_iff.1 h
  rw [hin] at hin'
  cases map_ok_inj hin'
  have hrows := fun fde (hl : LastWith fdes fde) => executed_rows (hc fde hl.mem) (hx fde hl) (hf fde hl)
  have htie : ∀ fde, LastWith fdes fde → ∀ d ∈ live (rowsOf fde), ∀ t, translate opts.arch d = some t →
      ¬ WidthTie (storedValues b.options t) := by
    intro fde hl d hd t hdt
    obtain ⟨hw, hcov⟩ := hrows fde hl
    have hp := (hc fde hl.mem).clean.placed d hd
    obtain ⟨rs, h1, row, hrow, h2, h3, h4⟩ := hcov d.start.toNat hp.after hp.inside
    obtain ⟨hd1, hd2⟩ := List.mem_filter.1 hd
    have hlt : d.start.toNat < d.end_.toNat := by
      have := hw.1 d hd1
      have hne : d.start ≠ d.end_ := by simpa using hd2
      have : d.start.toNat ≠ d.end_.toNat := fun he => hne (BitVec.eq_of_toNat_eq he)
      omega
    have heq : translate opts.arch row = some t := by
      obtain ⟨i, hi⟩ := List.mem_iff_getElem?.1 hd1
      obtain ⟨j, hj⟩ := List.mem_iff_getElem?.1 hrow
      obtain ⟨hi', rfl⟩ := List.getElem?_eq_some_iff.1 hi
      obtain ⟨hj', rfl⟩ := List.getElem?_eq_some_iff.1 hj
      rcases Nat.lt_trichotomy i j with hij | rfl | hij
      · have := List.pairwise_iff_getElem.1 hw.2 i j hi' hj' hij
        omega
      · exact hdt
      · have := List.pairwise_iff_getElem.1 hw.2 j i hj' hi' hij
        omega
    rw [h4] at heq
    exact ht fde hl _ hp.after hp.inside rs t h1 heq
  obtain ⟨s, hs, hat⟩ := rulesAt_converted dbg dbg' o eh opts b h out hb fdes hin (fun fde hl => (hrows fde hl).1) htie
  refine ⟨s, hs, ?_, ?_⟩
  · intro fde hl a ha1 ha2
    obtain ⟨rs, h1, row, hrow, h2, h3, h4⟩ := (hrows fde hl).2 a ha1 ha2
    refine ⟨rs, h1, ?_⟩
    rw [hat a row ⟨fde, hl, hrow, by omega, by omega, by omega, by omega⟩, h4]
  · intro a ha
    obtain ⟨s', es, g1, g2, _, _, _, _, _, _, _, _, g3, _, g4⟩ :=
      C30_round_trip dbg' dbg o b (converted_reachable h) out hb
    rw [hs] at g1
    cases g1
    unfold sfRulesAt
    rw [g2]
    simp only
    rw [List.find?_eq_none.2]
    · rfl
    · intro e he
      obtain ⟨i, hi⟩ := List.mem_iff_getElem?.1 he
      obtain ⟨hil, _⟩ := List.getElem?_eq_some_iff.1 hi
      have hfi := List.getElem?_eq_getElem (l := functions b) (i := i) (by omega)
      obtain ⟨k1, k2, _⟩ := g4 i _ e hfi hi
      have hmem := List.mem_of_getElem? hfi
      generalize (functions b)[i] = f at hmem k1 k2
      rw [hbo] at hmem
      obtain ⟨fde, hl, rfl⟩ := (mem_functions (fun g hg => (hc g hg).start) _).1 hmem
      have := ha fde hl
      rw [k1, k2, fnFor_start (hc fde hl.mem), fnFor_size (hc fde hl.mem)]
      simp only [decide_eq_true_eq]
      omega

namespace Samples

/-- The usual CIE of x86-64: CFA = rsp + 8, return address at CFA - 8. -/
def cie64 : CieInfo := ⟨1, -8, [.defCfa 7 8, .offset 16 1, .nop]⟩

/-- `push rbp; mov rbp, rsp; …; leave; ret; …` -/
def prologue : List Insn :=
  [.advanceLoc 1, .defCfaOffset 16, .offset 6 2, .advanceLoc 3, .defCfaRegister 6, .rememberState,
   .advanceLoc 16, .defCfa 7 8, .restore 6, .advanceLoc 1, .restoreState, .nop]

/-- Its rows. -/
def prologueRows : List DwRow :=
  [⟨0x1000, 0x1001, .registerAndOffset 7 8, [(16, .offset (-8))]⟩,
   ⟨0x1001, 0x1004, .registerAndOffset 7 16, [(16, .offset (-8)), (6, .offset (-16))]⟩,
   ⟨0x1004, 0x1014, .registerAndOffset 6 16, [(16, .offset (-8)), (6, .offset (-16))]⟩,
   ⟨0x1014, 0x1015, .registerAndOffset 7 8, [(16, .offset (-8))]⟩,
   ⟨0x1015, 0x1020, .registerAndOffset 6 16, [(16, .offset (-8)), (6, .offset (-16))]⟩]

/-- The function. -/
def prologueFde : DwFde :=
  { initial := 0x1000, len := 0x20, instructions := prologue.map .ok, rows := .ok (prologueRows.map .ok) }

/-- Two register rules, as a list and as a function. -/
theorem two_rules (a b : RegRule) (r : Reg) :
    (([(16, a), (6, b)] : List (Reg × RegRule)).lookup r).getD .undefined
      = if r = 6 then b else if r = 16 then a else .undefined := by
  by_cases h1 : r = 16
  · subst h1; rfl
  · by_cases h2 : r = 6
    · subst h2; rfl
    · rw [if_neg h2, if_neg h1]
      have e1 : (r == 16) = false := beq_false_of_ne h1
      have e2 : (r == 6) = false := beq_false_of_ne h2
      simp only [List.lookup, e1, e2, Option.getD_none]

theorem one_rule (a : RegRule) (r : Reg) :
    (([(16, a)] : List (Reg × RegRule)).lookup r).getD .undefined
      = if r = 16 then a else .undefined := by
  by_cases h1 : r = 16
  · subst h1; rfl
  · rw [if_neg h1]
    have e1 : (r == 16) = false := beq_false_of_ne h1
    simp only [List.lookup, e1, Option.getD_none]

theorem prologue_executed : Executed cie64 prologueFde := by
  intro rows hrows
  have hr : rows = prologueRows := (List.map_inj_right (fun _ _ h => Except.ok.inj h)).1
    (Except.ok.inj (show Except.ok (prologueRows.map Except.ok) = Except.ok (rows.map Except.ok) from hrows)).symm
  subst hr
  refine ⟨prologue, _, _, rfl, rfl, rfl, rfl, ?_⟩
  intro i row t h1 h2
  match i with
  | 0 => cases h1; cases h2; exact ⟨rfl, rfl, rfl, fun r => one_rule _ r⟩
  | 1 => cases h1; cases h2; exact ⟨rfl, rfl, rfl, fun r => two_rules _ _ r⟩
  | 2 => cases h1; cases h2; exact ⟨rfl, rfl, rfl, fun r => two_rules _ _ r⟩
  | 3 =>
    cases h1; cases h2
    refine ⟨rfl, rfl, rfl, fun r => (one_rule _ r).trans ?_⟩
    show _ = if r = 6 then RegRule.undefined else if r = 6 then _ else if r = 16 then RegRule.offset (-8) else .undefined
    by_cases h : r = 6
    · subst h; rfl
    · rw [if_neg h, if_neg h]
  | 4 => cases h1; cases h2; exact ⟨rfl, rfl, rfl, fun r => two_rules _ _ r⟩
  | _ + 5 => cases h1

end Samples

/-- The sample function meets the hypotheses. -/
example (dbg : Bool) :
    (∃ b out, dwarf2sframe dbg (Samples.ehOf [Samples.prologueFde]) Samples.convOpts = .ok (.ok b) ∧
      b.build dbg .little = .ok (.ok out)) ∧
    inputs (Samples.ehOf [Samples.prologueFde]) Samples.convOpts.bases = [Samples.prologueFde].map .ok ∧
    Executed Samples.cie64 Samples.prologueFde ∧
    LocationsFit Samples.cie64 Samples.prologue 0x1000 ∧
    ((instructionRules Samples.cie64 Samples.prologueFde 0x1014).bind (expressible .amd64) = some ⟨.sp, 8, none, -8⟩) ∧
    ((instructionRules Samples.cie64 Samples.prologueFde 0x101f).bind (expressible .amd64) = some ⟨.fp, 16, some (-16), -8⟩) ∧
    ∀ a : Nat, 0x1000 ≤ a → a < 0x1000 + 0x20 → ∀ rs t,
      instructionRules Samples.cie64 Samples.prologueFde a = some rs → expressible .amd64 rs = some t →
      ¬ WidthTie (storedValues Samples.opts t) := by
  refine ⟨?_, rfl, Samples.prologue_executed, ?_, by decide +kernel, by decide +kernel, ?_⟩
  · have h1 : (match dwarf2sframe dbg (Samples.ehOf [Samples.prologueFde]) Samples.convOpts with
        | .ok (.ok b) => (match b.build dbg .little with | .ok (.ok _) => true | _ => false)
        | _ => false) = true := by cases dbg <;> decide +kernel
    split at h1
    · rename_i b hb
      split at h1
      · rename_i out hout
        exact ⟨b, out, hb, hout⟩
      · cases h1
    · cases h1
  · simp [Samples.prologue, LocationsFit, Samples.cie64]
  · intro a h1 h2 rs t h3 h4
    have h5 : ∀ a ∈ List.range' 0x1000 32,
        ((instructionRules Samples.cie64 Samples.prologueFde a).bind (expressible .amd64)).all fun t =>
          decide (t.ra ≤ 0) && t.fp.all fun v => decide (v ≤ 0) := by decide +kernel
    have h6 := h5 a (List.mem_range'_1.2 ⟨h1, h2⟩)
    rw [h3, Option.bind_some, h4] at h6
    simp only [Option.all_some, Bool.and_eq_true, decide_eq_true_eq] at h6
    refine C52_usual_partial _ _ h6.1 fun v hv => ?_
    have h7 := h6.2
    rw [hv] at h7
    simpa using h7

end Verif
