import Verif.Props.Execute2
import Verif.Props.Agree
import Verif.Spec.Execute3
/-!
# From call frame instructions to the section of the legacy converter: C103, C104
-/

namespace Verif
open Spec

theorem legacyTranslate_expressible (row : DwRow) :
    legacyTranslate row = expressible .amd64 (forgetRbp ⟨row.cfa, row.register⟩) := by
  have h16 : (forgetRbp ⟨row.cfa, row.register⟩).reg 16 = row.register 16 := by
    show (if (16 : Reg) = 6 ∧ ¬ Plain (row.register 6) then RegRule.undefined else row.register 16) = _
    exact if_neg fun h => absurd h.1 (by decide)
  have h6 : (forgetRbp ⟨row.cfa, row.register⟩).reg 6
      = if ¬ Plain (row.register 6) then .undefined else row.register 6 := by
    unfold forgetRbp
    simp only [true_and]
  unfold legacyTranslate expressible cfaRules legacyFp raRules
  rw [show BitVec.ofNat 16 (fpNum .amd64) = (6 : Reg) from rfl,
    show BitVec.ofNat 16 (raNum .amd64) = (16 : Reg) from rfl, h16, h6]
  generalize row.register 6 = q
  generalize row.register 16 = w
  congr 1
  · unfold forgetRbp
    cases row.cfa <;> rfl
  · funext c
    cases q <;> rfl

theorem Spec.Shows.legacyTranslate {row : DwRow} {x : U64 × U64 × RuleSet} (h : Shows row x) :
    Spec.legacyTranslate row = expressible .amd64 (forgetRbp x.2.2) := by
  rw [legacyTranslate_expressible, h.cfa, show row.register = x.2.2.reg from funext h.reg]

theorem Chain.all_live {finish loc : U64} {t} (h : Chain finish loc t)
    (hd : t.Pairwise fun x y => x.1 ≠ y.1) (hi : ∀ x ∈ t, x.1.toNat < finish.toNat) :
    ∀ x ∈ t, x.1 ≠ x.2.1 := by
  induction t generalizing loc with
  | nil => exact h.elim
  | cons x t ih =>
    cases t with
    | nil =>
      intro y hy
      have h1 := hi y hy
      rw [List.mem_singleton] at hy
      subst hy
      intro he
      rw [he, h.2] at h1
      omega
    | cons z r =>
      have i1 := ih h.2.2 (List.pairwise_cons.1 hd).2 fun y hy => hi y (List.mem_cons_of_mem _ hy)
      intro y hy
      rcases List.mem_cons.1 hy with rfl | hy
      · have h3 : z.1 = y.2.1 := by
          have := h.2.2
          cases r with
          | nil => exact this.1
          | cons _ _ => exact this.1
        rw [← h3]
        exact (List.pairwise_cons.1 hd).1 z (List.mem_cons_self ..)
      · exact i1 y hy

theorem Table.starts_eq {cie : CieInfo} {fde : DwFde} {t} (ht : Table cie fde t) :
    (rowsOf fde).map (fun r => r.start) = t.map fun x => x.1 := by
  have h := congrArg (List.map Prod.fst) ht.bounds
  rw [List.map_map, List.map_map] at h
  exact h

theorem Table.wellFormed {cie : CieInfo} {fde : DwFde} {t} (ht : Table cie fde t)
    (hord : (∀ x ∈ t, x.1.toNat ≤ x.2.1.toNat) ∧ t.Pairwise fun x y => x.2.1.toNat ≤ y.1.toNat) :
    WellFormed (rowsOf fde) := by
  refine ⟨?_, ?_⟩
  · intro r hr'
    obtain ⟨x, hx', hsh⟩ := ht.entry r hr'
    rw [hsh.start, hsh.end_]
    exact hord.1 x hx'
  · have h6 : (t.map (fun x => (x.1, x.2.1))).Pairwise fun x y => x.2.toNat ≤ y.1.toNat :=
      List.pairwise_map.2 hord.2
    rw [← ht.bounds] at h6
    exact List.pairwise_map.1 h6

/-- The table of a function that the legacy tool can handle. -/
theorem legacy_table {cie : CieInfo} {fde : DwFde} (hc : LegacyConvertible fde) {t} (ht : Table cie fde t) :
    (fde.initial + fde.len).toNat = fde.initial.toNat + fde.len.toNat ∧
    ((∀ x ∈ t, x.1.toNat ≤ x.2.1.toNat) ∧ t.Pairwise fun x y => x.2.1.toNat ≤ y.1.toNat) ∧
    (∀ x ∈ t, x.1 ≠ x.2.1 ∧ x.1.toNat < fde.initial.toNat + fde.len.toNat) := by
  have hfin : (fde.initial + fde.len).toNat = fde.initial.toNat + fde.len.toNat := by
    have := hc.start
    have := hc.len
    rw [BitVec.toNat_add]
    omega
  have hin : ∀ x ∈ t, x.1.toNat < fde.initial.toNat + fde.len.toNat := by
    intro x hx
    obtain ⟨r, hr, hs⟩ := ht.row x hx
    rw [← hs.start]
    exact (hc.inside r hr).2.1
  have hd : t.Pairwise fun x y => x.1 ≠ y.1 := by
    have h6 : ((rowsOf fde).map fun r => r.start).Pairwise fun x y => x ≠ y := List.pairwise_map.2 hc.distinct
    rw [ht.starts_eq] at h6
    exact List.pairwise_map.1 h6
  have hlive := ht.chain.all_live hd (by rw [hfin]; exact hin)
  exact ⟨hfin, ht.chain.ordered (fun x hx _ => by rw [hfin]; exact hin x hx), fun x hx => ⟨hlive x hx, hin x hx⟩⟩

/-- **C103**, what holds: let all functions of a section be converted by the legacy tool, written and read back, their
rows being the table of their instructions.  At every address of a function, a reader finds the rules that the
instructions establish there, with any rule for RBP other than "undefined", "same value" and "offset" taken for
"undefined", or none if SFrame cannot express these; and at all other addresses, none.  Missing: the rules as they are,
where RBP has another rule; there the claim is false. -/
theorem C103_instructions_partial (dbg dbg' : Bool) (o : Endian) (eh : EhFrame) (bases : Bases)
    (b : SFrameBuilder) (h : legacyConvert dbg eh bases = .ok (.ok b)) (out : List U8)
    (hb : b.build dbg' o = .ok (.ok out)) (fdes : List DwFde)
    (hin : inputs eh bases = fdes.map .ok) (cie : DwFde → CieInfo)
    (hx : ∀ fde, LastWith fdes fde → Executed (cie fde) fde)
    (hf : ∀ fde, LastWith fdes fde →
      LocationsFit (cie fde) (fde.instructions.filterMap Except.toOption) fde.initial.toNat)
    (ht : ∀ fde, LastWith fdes fde → ∀ a : Nat, fde.initial.toNat ≤ a → a < fde.initial.toNat + fde.len.toNat →
      ∀ rs t, instructionRules (cie fde) fde a = some rs → expressible .amd64 (forgetRbp rs) = some t →
        ¬ WidthTie (storedValues b.options t)) :
    ∃ s, SFrame.load o out = .ok (.ok s) ∧
      (∀ fde, LastWith fdes fde → ∀ a : Nat, fde.initial.toNat ≤ a → a < fde.initial.toNat + fde.len.toNat →
        ∃ rs, instructionRules (cie fde) fde a = some rs ∧
          sfRulesAt s a = (expressible .amd64 (forgetRbp rs)).map (fun t => (t, false)) ∧
          (Plain (rs.reg 6) → sfRulesAt s a = (expressible .amd64 rs).map fun t => (t, false))) ∧
      ∀ a : Int, Outside fdes a → sfRulesAt s a = none := by
  obtain ⟨fdes', hin', hc, _⟩ := legacyConvert_iff.1 h
  rw [hin] at hin'
  cases map_ok_inj hin'
  have htab := fun fde (hl : LastWith fdes fde) =>
    table_of_executed (hx fde hl) (hc fde hl.mem).rows (hf fde hl)
  obtain ⟨s, hs, hat, hout⟩ := rulesAt_legacy dbg dbg' o eh bases b h out hb fdes hin
    (fun fde hl => by
      obtain ⟨t, htt⟩ := htab fde hl
      exact htt.wellFormed (legacy_table (hc fde hl.mem) htt).2.1)
    (fun fde hl d hd q hq => by
      obtain ⟨t, htt⟩ := htab fde hl
      obtain ⟨hfin, hord, hlive⟩ := legacy_table (hc fde hl.mem) htt
      obtain ⟨x, hx', hsh⟩ := htt.entry d hd
      obtain ⟨h1, h2⟩ := hlive x hx'
      exact ht fde hl x.1.toNat (htt.chain.starts x hx') h2 x.2.2 q
        (htt.at_start hord hx' h1 (by rw [hfin]; exact h2)) (by rw [← hsh.legacyTranslate]; exact hq))
  refine ⟨s, hs, ?_, hout⟩
  intro fde hl a ha1 ha2
  obtain ⟨t, htt⟩ := htab fde hl
  obtain ⟨hfin, hord, hlive⟩ := legacy_table (hc fde hl.mem) htt
  obtain ⟨x, hx', h1, h2, h3⟩ := htt.covers a ha1 (by rw [hfin]; exact ha2)
  obtain ⟨r, hr, hsh⟩ := htt.row x hx'
  have hrule : sfRulesAt s a = (expressible .amd64 (forgetRbp x.2.2)).map fun t => (t, false) := by
    rw [hat a r ⟨fde, hl, hr, by omega, by omega, by rw [hsh.start]; omega, by rw [hsh.end_]; omega⟩,
      hsh.legacyTranslate]
  refine ⟨x.2.2, h3, hrule, fun hp => ?_⟩
  have : forgetRbp x.2.2 = x.2.2 := by
    unfold forgetRbp
    simp only [hp, not_true_eq_false, and_false, if_false]
  rw [this] at hrule
  exact hrule

namespace Samples

/-- A function that keeps RBP in RBX. -/
def keepInsns : List Insn := [.advanceLoc 1, .defCfaOffset 16, .register 6 3]

@[inherit_doc keepInsns] def keepRows : List DwRow :=
  [⟨0x1000, 0x1001, .registerAndOffset 7 8, [(16, .offset (-8))]⟩,
   ⟨0x1001, 0x1020, .registerAndOffset 7 16, [(16, .offset (-8)), (6, .register 3)]⟩]

@[inherit_doc keepInsns] def keepFde : DwFde :=
  { initial := 0x1000, len := 0x20, instructions := keepInsns.map .ok, rows := .ok (keepRows.map .ok) }

theorem keep_executed : Executed cie64 keepFde := by
  intro rows hrows
  have hr : rows = keepRows := (List.map_inj_right (fun _ _ h => Except.ok.inj h)).1
    (Except.ok.inj (show Except.ok (keepRows.map Except.ok) = Except.ok (rows.map Except.ok) from hrows)).symm
  subst hr
  refine ⟨keepInsns, _, _, rfl, rfl, rfl, rfl, ?_⟩
  intro i row t h1 h2
  match i with
  | 0 => cases h1; cases h2; exact ⟨rfl, rfl, rfl, fun r => one_rule _ r⟩
  | 1 => cases h1; cases h2; exact ⟨rfl, rfl, rfl, fun r => two_rules _ _ r⟩
  | _ + 2 => cases h1

/-- What the legacy tool makes of it. -/
def keepB : SFrameBuilder :=
  { options := legacyOptions, fdes := [(0x1000, legacyFn ⟨16, some (-8), none⟩)] }

end Samples

/-- **C103 is false of the code**: the instructions say that RBP is in RBX, which SFrame cannot express; the section
says that RBP is unchanged. -/
theorem C103_wrong_rules (dbg : Bool) :
    legacyConvert dbg (Samples.ehOf [Samples.keepFde]) Samples.convOpts.bases = .ok (.ok Samples.keepB) ∧
    ∃ out s rs, Samples.keepB.build dbg .little = .ok (.ok out) ∧ SFrame.load .little out = .ok (.ok s) ∧
      Executed Samples.cie64 Samples.keepFde ∧
      instructionRules Samples.cie64 Samples.keepFde 0x1001 = some rs ∧
      expressible .amd64 rs = none ∧ sfRulesAt s 0x1001 = some (⟨.sp, 16, none, -8⟩, false) := by
  refine ⟨by cases dbg <;> decide +kernel, image .little Samples.keepB, _, _,
    by cases dbg <;> decide +kernel, rfl, Samples.keep_executed, rfl, ?_, ?_⟩
  · decide +kernel
  · decide +kernel

/-- The same function meets the hypotheses; before RBP is moved, the rules are right. -/
example (dbg : Bool) :
    Samples.keepB.build dbg .little = .ok (.ok (image .little Samples.keepB)) ∧
    LocationsFit Samples.cie64 Samples.keepInsns 0x1000 ∧
    ((instructionRules Samples.cie64 Samples.keepFde 0x1000).bind (expressible .amd64)) = some ⟨.sp, 8, none, -8⟩ ∧
    ((instructionRules Samples.cie64 Samples.keepFde 0x1000).any fun rs => decide (Plain (rs.reg 6))) ∧
    ∀ a : Nat, 0x1000 ≤ a → a < 0x1000 + 0x20 → ∀ rs t,
      instructionRules Samples.cie64 Samples.keepFde a = some rs → expressible .amd64 (forgetRbp rs) = some t →
      ¬ WidthTie (storedValues Samples.keepB.options t) := by
  refine ⟨by cases dbg <;> decide +kernel, by simp [Samples.keepInsns, LocationsFit, Samples.cie64],
    by decide +kernel, by decide +kernel, ?_⟩
  intro a h1 h2 rs t h3 h4
  have h5 : ∀ a ∈ List.range' 0x1000 32,
      ((instructionRules Samples.cie64 Samples.keepFde a).bind fun rs => expressible .amd64 (forgetRbp rs)).all fun t =>
        decide (t.ra ≤ 0) && t.fp.all fun v => decide (v ≤ 0) := by decide +kernel
  have h6 := h5 a (List.mem_range'_1.2 ⟨h1, h2⟩)
  rw [h3, Option.bind_some, h4] at h6
  simp only [Option.all_some, Bool.and_eq_true, decide_eq_true_eq] at h6
  refine C52_usual_partial _ _ h6.1 fun v hv => ?_
  have h7 := h6.2
  rw [hv] at h7
  simpa using h7

/-! ### C104 -/

theorem lookup_of_mem {l : List (Reg × RegRule)} (hn : (l.map Prod.fst).Nodup) {x : Reg × RegRule} (hx : x ∈ l) :
    l.lookup x.1 = some x.2 := by
  induction l with
  | nil => cases hx
  | cons y l ih =>
    rw [List.map_cons, List.nodup_cons] at hn
    rcases List.mem_cons.1 hx with rfl | hx
    · rw [List.lookup_cons, beq_self_eq_true]
    · have hne : x.1 ≠ y.1 := fun he => hn.1 (he ▸ List.mem_map_of_mem (f := Prod.fst) hx)
      rw [List.lookup_cons, beq_false_of_ne hne]
      exact ih hn.2 hx

theorem Spec.Shows.printable {row : DwRow} {x : U64 × U64 × RuleSet} (h : Shows row x)
    (hn : (row.registers.map Prod.fst).Nodup) : Printable row ↔ PrintableRules x.2.2 := by
  unfold Printable PrintableRules
  rw [h.cfa]
  refine and_congr_right fun _ => ⟨fun hp r e hr => ?_, fun hp y hy e he => ?_⟩
  · rw [← h.reg] at hr
    unfold DwRow.register at hr
    cases hl : row.registers.lookup r with
    | none => rw [hl] at hr; cases hr
    | some q =>
      rw [hl, Option.getD_some] at hr
      exact hp _ (mem_of_lookup hl) e hr
  · refine hp y.1 e ?_
    rw [← h.reg]
    unfold DwRow.register
    rw [lookup_of_mem hn hy, Option.getD_some, he]

/-- A function with executed instructions can be converted by the legacy tool exactly if they suit. -/
theorem legacyConvertible_iff_suits {cie : CieInfo} {fde : DwFde}
    (hx : Executed cie fde) (hr : fde.rows = .ok ((rowsOf fde).map .ok))
    (hn : ∀ r ∈ rowsOf fde, (r.registers.map Prod.fst).Nodup)
    (hf : LocationsFit cie (fde.instructions.filterMap Except.toOption) fde.initial.toNat) :
    LegacyConvertible fde ↔ LegacySuits cie fde := by
  obtain ⟨t, ht⟩ := table_of_executed hx hr hf
  constructor
  · intro hc
    obtain ⟨hfin, hord, hlive⟩ := legacy_table hc ht
    refine ⟨by have := hc.start; omega, by have := hc.len; omega, hc.dump, ?_, ?_, ?_⟩
    · rw [ht.locs]
      refine List.pairwise_map.2 ?_
      refine hord.2.imp_of_mem fun {x y} hx' _ h => ?_
      have h1 := hord.1 x hx'
      have h2 : x.1.toNat ≠ x.2.1.toNat := fun he => (hlive x hx').1 (BitVec.eq_of_toNat_eq he)
      omega
    · intro l hl
      rw [ht.locs] at hl
      obtain ⟨x, hx', rfl⟩ := List.mem_map.1 hl
      obtain ⟨r, hr', hs⟩ := ht.row x hx'
      have := hc.inside r hr'
      rw [hs.start] at this
      exact this.2
    · intro a ha1 ha2 rs hrs
      obtain ⟨x, hx', h1, h2, h3⟩ := ht.covers a ha1 (by rw [hfin]; exact ha2)
      rw [hrs] at h3
      cases h3
      obtain ⟨r, hr', hs⟩ := ht.row x hx'
      exact (hs.printable (hn r hr')).1 (hc.printable r hr')
  · intro hs
    have hfin : (fde.initial + fde.len).toNat = fde.initial.toNat + fde.len.toNat := by
      have := hs.start
      have := hs.len
      rw [BitVec.toNat_add]
      omega
    have hin : ∀ x ∈ t, x.1.toNat < fde.initial.toNat + fde.len.toNat ∧ x.1.toNat < fde.initial.toNat + 2 ^ 28 := by
      intro x hx'
      exact hs.inside _ (by rw [ht.locs]; exact List.mem_map_of_mem (f := fun x : U64 × U64 × RuleSet => x.1.toNat) hx')
    have hpw : t.Pairwise fun x y => x.1 ≠ y.1 := by
      have h1 := hs.forward
      rw [ht.locs] at h1
      refine (List.pairwise_map.1 h1).imp fun {x y} h he => ?_
      rw [he] at h
      omega
    have hord := ht.chain.ordered fun x hx' _ => by rw [hfin]; exact (hin x hx').1
    have hlive := ht.chain.all_live hpw fun x hx' => by rw [hfin]; exact (hin x hx').1
    refine ⟨by have := hs.start; omega, by have := hs.len; omega, hs.dump, hr, ?_, ?_, ?_⟩
    · intro r hr'
      obtain ⟨x, hx', hsh⟩ := ht.entry r hr'
      exact (hsh.printable (hn r hr')).2 (hs.printable x.1.toNat (ht.chain.starts x hx') (hin x hx').1 _
        (ht.at_start hord hx' (hlive x hx') (by rw [hfin]; exact (hin x hx').1)))
    · intro r hr'
      obtain ⟨x, hx', hsh⟩ := ht.entry r hr'
      rw [hsh.start]
      exact ⟨ht.chain.starts x hx', hin x hx'⟩
    · have h6 : (t.map fun x => x.1).Pairwise fun x y => x ≠ y := List.pairwise_map.2 hpw
      rw [← ht.starts_eq] at h6
      exact List.pairwise_map.1 h6

/-- **C104.**  Let the rows of all functions be the tables of their instructions.  The legacy tool converts the section
exactly if for each function start and length are below 2^31, every location is after the one before, inside the function
and less than 2^28 bytes into it, and all expressions that are printed can be decoded. -/
theorem C104_converts_iff (dbg : Bool) (eh : EhFrame) (bases : Bases) (fdes : List DwFde)
    (hin : inputs eh bases = fdes.map .ok) (cie : DwFde → CieInfo)
    (hr : ∀ fde ∈ fdes, ∃ rows : List DwRow, fde.rows = .ok (rows.map .ok) ∧
      ∀ r ∈ rows, (r.registers.map Prod.fst).Nodup)
    (hx : ∀ fde ∈ fdes, Executed (cie fde) fde)
    (hf : ∀ fde ∈ fdes,
      LocationsFit (cie fde) (fde.instructions.filterMap Except.toOption) fde.initial.toNat) :
    (∃ b, legacyConvert dbg eh bases = .ok (.ok b)) ↔ ∀ fde ∈ fdes, LegacySuits (cie fde) fde := by
  have hr' : ∀ fde ∈ fdes, fde.rows = .ok ((rowsOf fde).map .ok) ∧
      ∀ r ∈ rowsOf fde, (r.registers.map Prod.fst).Nodup := by
    intro fde hm
    obtain ⟨rows, h, hn⟩ := hr fde hm
    have : rowsOf fde = rows := by
      unfold rowsOf
      rw [h]
      simp only [List.filterMap_map]
      exact List.filterMap_some
    rw [this]
    exact ⟨h, hn⟩
  have hiff := fun fde (hm : fde ∈ fdes) =>
    legacyConvertible_iff_suits (hx fde hm) (hr' fde hm).1 (hr' fde hm).2 (hf fde hm)
  constructor
  · rintro ⟨b, hb⟩ fde hm
    obtain ⟨fdes', hin', hc, _⟩ := legacyConvert_iff.1 hb
    rw [hin] at hin'
    cases map_ok_inj hin'
    exact (hiff fde hm).1 (hc fde hm)
  · intro h
    exact ⟨_, legacyConvert_iff.2 ⟨fdes, hin, fun fde hm => (hiff fde hm).2 (h fde hm), rfl⟩⟩

/-- The function with a prologue meets the hypotheses and suits; with an empty advance it suits the other converter,
but not the legacy one. -/
example :
    (∃ rows : List DwRow, Samples.prologueFde.rows = .ok (rows.map .ok) ∧
      ∀ r ∈ rows, (r.registers.map Prod.fst).Nodup) ∧
    LegacySuits Samples.cie64 Samples.prologueFde ∧
    ¬ LegacySuits Samples.cie64 { Samples.prologueFde with instructions := (Insn.advanceLoc 0 :: Samples.prologue).map .ok } ∧
    Suits Samples.cie64 { Samples.prologueFde with instructions := (Insn.advanceLoc 0 :: Samples.prologue).map .ok } := by
  have hl : locations Samples.cie64 (Samples.prologueFde.instructions.filterMap Except.toOption)
      Samples.prologueFde.initial.toNat = [0x1000, 0x1001, 0x1004, 0x1014, 0x1015] := by decide +kernel
  have hl2 : locations Samples.cie64
      ({ Samples.prologueFde with instructions := (Insn.advanceLoc 0 :: Samples.prologue).map .ok }.instructions.filterMap Except.toOption)
      { Samples.prologueFde with instructions := (Insn.advanceLoc 0 :: Samples.prologue).map .ok }.initial.toNat
        = [0x1000, 0x1000, 0x1001, 0x1004, 0x1014, 0x1015] := by decide +kernel
  refine ⟨⟨_, rfl, by decide +kernel⟩, ⟨by decide, by decide, by decide +kernel, ?_, ?_, ?_⟩, ?_,
    ⟨by decide, by decide, ?_, ?_⟩⟩
  · rw [hl]; decide
  · rw [hl]; decide
  · intro a h1 h2 rs h3
    obtain ⟨t, ht⟩ := table_of_executed Samples.prologue_executed rfl
      (show LocationsFit Samples.cie64 Samples.prologue 0x1000 by simp [Samples.prologue, LocationsFit, Samples.cie64])
    obtain ⟨x, hx', _, _, h4⟩ := ht.covers a h1 (show a < 0x1000 + 0x20 from h2)
    rw [h3] at h4
    cases h4
    obtain ⟨r, hr, hs⟩ := ht.row x hx'
    have hp : Printable r ∧ (r.registers.map Prod.fst).Nodup := by
      have hr' : r ∈ Samples.prologueRows := hr
      clear hr hs
      simp only [Samples.prologueRows, List.mem_cons, List.not_mem_nil, or_false] at hr'
      rcases hr' with rfl | rfl | rfl | rfl | rfl <;>
      · refine ⟨⟨nofun, ?_⟩, by decide⟩
        simp
    exact (hs.printable hp.2).1 hp.1
  · intro h
    have := h.forward
    rw [hl2] at this
    exact absurd this (by decide)
  · rw [hl2]; decide
  · rw [hl2]; decide

end Verif
