import Verif.Props.Convert3
import Verif.Spec.Unwind
/-!
# Walking the stack with a converted section: C68, C69
-/

namespace Verif
open Spec

variable {o : Endian}

/-- What a reader that goes through all functions and all rows finds for an address. -/
def Spec.sfRulesAt (s : SFrame o) (a : Int) : Option (Rules × Bool) :=
  match s.iter.collect with
  | .ok es =>
    (es.find? fun e => decide (e.startAddress.toInt ≤ a ∧ a < e.startAddress.toInt + e.size.toNat)).bind fun e =>
    match e.iter.collect with
    | .ok rs => (governingEntry (rs.filterMap Except.toOption) (a - e.startAddress.toInt).toNat).bind fun q =>
        (readRules s q).map fun t => (t, q.mangled)
    | _ => none
  | _ => none

theorem ofInt_toInt64 (x : I64) : BitVec.ofInt 64 x.toInt = x := BitVec.ofInt_toInt

/-- One step: if the row is expressible and leaves the stack pointer alone, the SFrame rules lead to
the same caller. -/
theorem step_agrees {arch : Architecture} {mem : Memory} {ev : Eval} {strip : Strip} {row : DwRow}
    {t : Rules} {m m1 : Frame} {m' : SFrameState} (ht : translate arch row = some t) (hsp : PlainSp arch row)
    (hsg : SignedRa arch row = false) (ha : Agrees arch m m') (h : dwStep arch mem ev strip row m = some m1) :
    ∃ m1', sfStep mem strip (t, false) m' = some m1' ∧ Agrees arch m1 m1' := by
  unfold translate at ht
  obtain ⟨c, hc, ht⟩ := Option.bind_eq_some_iff.1 ht
  obtain ⟨f, hf, ht⟩ := Option.bind_eq_some_iff.1 ht
  obtain ⟨ra, hra, rfl⟩ := Option.map_eq_some_iff.1 ht
  unfold dwStep at h
  obtain ⟨cfa, hcfa, h⟩ := Option.bind_eq_some_iff.1 h
  obtain ⟨pc, hpc, rfl⟩ := Option.map_eq_some_iff.1 h
  rw [hsg]
  -- the CFA
  have h1 : (baseValue m' c.1).map (· + BitVec.ofInt 64 c.2) = some cfa := by
    unfold cfaRules at hc
    unfold cfaValue at hcfa
    split at hc
    · cases hc
    · rename_i reg off heq
      rw [heq] at hcfa
      simp only at hcfa
      obtain ⟨base, hb, rfl⟩ := Option.map_eq_some_iff.1 hcfa
      split at hc
      · cases hc
      · split at hc
        · rename_i hr
          cases hc
          rw [hr, ha.sp] at hb
          simp only [baseValue, hb, Option.map_some, ofInt_toInt64]
        · split at hc
          · rename_i hr
            cases hc
            rw [hr] at hb
            simp only [baseValue, ha.fp _ hb, Option.map_some, ofInt_toInt64]
          · cases hc
  -- the return address
  have h2 : mem (cfa + BitVec.ofInt 64 ra) = some pc := by
    unfold raRules DwRow.register at hra
    unfold callerRegs at hpc
    cases hl : row.registers.lookup (BitVec.ofNat 16 (raNum arch)) with
    | none => rw [hl] at hra; cases hra
    | some rule =>
      rw [hl] at hra hpc
      simp only [Option.getD_some] at hra hpc
      cases rule <;> try (cases hra; done)
      rename_i off
      simp only at hra
      split at hra
      · cases hra
        rw [ofInt_toInt64]
        exact hpc
      · cases hra
  refine ⟨⟨pc, cfa, savedFp mem cfa m' f⟩, ?_, ⟨rfl, ?_, ?_⟩⟩
  · unfold sfStep
    simp only []
    rw [h1, Option.bind_some, h2, Option.map_some]
    rfl
  · show callerRegs arch mem ev m.reg cfa row (spNum arch) = some cfa
    unfold callerRegs
    rw [show row.registers.lookup (BitVec.ofNat 16 (spNum arch)) = none from hsp]
    simp
  · intro v hv
    change callerRegs arch mem ev m.reg cfa row (fpNum arch) = some v at hv
    show savedFp mem cfa m' f = some v
    unfold fpRules DwRow.register at hf
    unfold callerRegs at hv
    cases hl : row.registers.lookup (BitVec.ofNat 16 (fpNum arch)) with
    | none =>
      rw [hl] at hf hv
      cases hf
      rw [if_neg (by cases arch <;> decide)] at hv
      exact ha.fp v hv
    | some rule =>
      rw [hl] at hf hv
      rw [Option.getD_some] at hf
      cases rule with
      | offset off =>
        simp only at hf
        split at hf
        · cases hf
          show mem (cfa + BitVec.ofInt 64 off.toInt) = some v
          rw [ofInt_toInt64]
          exact hv
        · cases hf
      | sameValue => cases hf; exact ha.fp v hv
      | undefined => cases hv
      | _ => cases hf

/-- A whole walk. -/
theorem walk_agrees {arch : Architecture} {fdes : List DwFde} {mem : Memory} {ev : Eval} {strip : Strip}
    {rulesAt : Int → Option (Rules × Bool)}
    (hr : ∀ a row, DwRowAt fdes a row → rulesAt a = (translate arch row).map fun t => (t, false))
    {first : Bool} {m : Frame} {m' : SFrameState} {w : List (DwRow × Frame)}
    (h : DwWalk arch fdes mem ev strip first m w)
    (hw : ∀ x ∈ w, (translate arch x.1).isSome ∧ PlainSp arch x.1 ∧ SignedRa arch x.1 = false) (ha : Agrees arch m m') :
    ∃ w', sfWalk mem strip rulesAt w.length first m' = some w' ∧ w'.length = w.length ∧
      ∀ (i : Nat) x y, w[i]? = some x → w'[i]? = some y → Agrees arch x.2 y := by
  induction h generalizing m' with
  | done => exact ⟨[], rfl, rfl, fun i x y hx => (by cases hx)⟩
  | @step first m row m1 rest hrow hstep hrest ih =>
    obtain ⟨hsome, hsp, hsg⟩ := hw _ (List.mem_cons_self ..)
    obtain ⟨t, ht⟩ := Option.isSome_iff_exists.1 hsome
    obtain ⟨m1', h1, h2⟩ := step_agrees ht hsp hsg ha hstep
    obtain ⟨w', h3, h4, h5⟩ := ih (fun x hx => hw x (List.mem_cons_of_mem _ hx)) h2
    refine ⟨m1' :: w', ?_, by simp [h4], ?_⟩
    · rw [List.length_cons, sfWalk, ha.pc, hr _ _ hrow]
      simp only [] at ht
      rw [ht, Option.map_some, Option.bind_some, h1, Option.bind_some, h3]
      rfl
    · intro i x y hx hy
      cases i with
      | zero =>
        simp only [List.getElem?_cons_zero, Option.some.injEq] at hx hy
        subst hx hy
        exact h2
      | succ i =>
        simp only [List.getElem?_cons_succ] at hx hy
        exact h5 i x y hx hy

/-- The functions of a built section do not overlap, so at most one covers an address. -/
theorem found_covering {es : List (FuncDescEntry o)} {a : Int} {e : FuncDescEntry o} (hsd : SortedDisjoint es)
    (he : e ∈ es) (h1 : e.startAddress.toInt ≤ a) (h2 : a < e.startAddress.toInt + e.size.toNat) :
    (es.find? fun e => decide (e.startAddress.toInt ≤ a ∧ a < e.startAddress.toInt + e.size.toNat)) = some e := by
  induction es with
  | nil => cases he
  | cons x es ih =>
    obtain ⟨hx, hsd⟩ := List.pairwise_cons.1 hsd
    rcases List.mem_cons.1 he with rfl | he
    · rw [List.find?_cons_of_pos (by simp only [decide_eq_true_eq]; exact ⟨h1, h2⟩)]
    · have := hx e he
      rw [List.find?_cons_of_neg (by simp only [decide_eq_true_eq]; omega)]
      exact ih hsd he

/-- The functions of a built section, as the reader enumerates them, are sorted and disjoint. -/
theorem built_sorted {dbg dbg' : Bool} {b : SFrameBuilder} (hb : SFrameBuilder.Reachable dbg' b)
    {out : List U8} (h : b.build dbg o = .ok (.ok out)) {s : SFrame o} {es : List (FuncDescEntry o)}
    (hs : SFrame.load o out = .ok (.ok s)) (hes : s.iter.collect = .ok es) : SortedDisjoint es := by
  obtain ⟨s', es', h1, h2, _, _, _, _, _, _, _, _, hlen, hasc, hent⟩ := C30_round_trip dbg dbg' o b hb out h
  rw [hs] at h1; cases h1
  rw [hes] at h2; cases h2
  obtain ⟨_, hno, _⟩ := build_ok hb.inv h
  apply List.pairwise_iff_getElem.2
  intro i j hi hj hij
  have gi := List.getElem?_eq_getElem (l := functions b) (i := i) (by omega)
  have gj := List.getElem?_eq_getElem (l := functions b) (i := j) (by omega)
  obtain ⟨i1, i2, _⟩ := hent i _ _ gi (List.getElem?_eq_getElem hi)
  obtain ⟨j1, j2, _⟩ := hent j _ _ gj (List.getElem?_eq_getElem hj)
  have hlt := List.pairwise_iff_getElem.1 hasc i j (by omega) (by omega) hij
  rw [i1, i2, j1]
  apply Classical.byContradiction
  intro hn
  exact hno ⟨_, List.getElem_mem _, _, List.getElem_mem _, hlt, by omega⟩

/-- What can be read of a converted section at an address is what DWARF says there. -/
theorem rulesAt_converted (dbg dbg' : Bool) (o : Endian) (eh : EhFrame) (opts : Options)
    (b : SFrameBuilder) (h : dwarf2sframe dbg eh opts = .ok (.ok b)) (out : List U8)
    (hb : b.build dbg' o = .ok (.ok out)) (fdes : List DwFde)
    (hin : inputs eh opts.bases = fdes.map .ok)
    (hw : ∀ fde, LastWith fdes fde → WellFormed (rowsOf fde))
    (ht : ∀ fde, LastWith fdes fde → ∀ d ∈ live (rowsOf fde), ∀ t, translate opts.arch d = some t →
      ¬ WidthTie (storedValues b.options t)) :
    ∃ s, SFrame.load o out = .ok (.ok s) ∧
      ∀ a row, DwRowAt fdes a row → sfRulesAt s a = (translate opts.arch row).map fun t => (t, false) := by
  obtain ⟨s, es, h1, h2, _⟩ := C30_round_trip dbg' dbg o b (converted_reachable h) out hb
  have hsd := built_sorted (converted_reachable (dbg' := dbg) h) hb h1 h2
  refine ⟨s, h1, ?_⟩
  rintro a row ⟨fde, hl, hrow, a1, a2, a3, a4⟩
  obtain ⟨s', es', e, qs, g1, g2, g3, g4, g5, g6, g7⟩ :=
    C52_unwinds_partial dbg dbg' o eh opts b h out hb fdes hin fde hl (hw fde hl) (ht fde hl)
  rw [h1] at g1; cases g1
  rw [h2] at g2; cases g2
  obtain ⟨q, hq, hm, hr⟩ := g7 row hrow a.toNat (by omega) (by omega)
  unfold sfRulesAt
  rw [h2]
  simp only
  rw [found_covering hsd g3 (by omega) (by omega), Option.bind_some, g6]
  simp only
  rw [show (qs.map Except.ok : List (Except ReadError (FrameRowEntry o))).filterMap Except.toOption = qs by
    rw [List.filterMap_map]
    exact List.filterMap_some]
  rw [g4, show (a - (fde.initial.toNat : Int)).toNat = a.toNat - fde.initial.toNat by omega, hq]
  simp only [Option.bind_some, hr, hm]

/-! ### C68 -/

namespace Samples

/-- A row of an AArch64 function with a signed return address: `paciasp` was executed, and FP and LR
were stored (`DW_CFA_AARCH64_negate_ra_state; DW_CFA_def_cfa_offset 16; DW_CFA_offset x29 -16; x30 -8`). -/
def signedRow : DwRow :=
  { start := 0x1000, end_ := 0x1020, cfa := .registerAndOffset 31 16
    registers := [(29, .offset (-16)), (30, .offset (-8)), (34, .constant 1)] }

end Samples

/-- **C68 is false of the code**: the row with a signed return address is converted to a row that says
that the return address is not signed. -/
theorem C68_signed_unmarked (dbg : Bool) :
    SignedRa .aarch64 Samples.signedRow = true ∧
    ∃ b f r, dwarf2sframe dbg (Samples.ehOf [Samples.oneRow Samples.signedRow]) Samples.armOpts = .ok (.ok b) ∧
      functions b = [f] ∧ rows f = [r] ∧ (meaning b.options r).isSome ∧ r.mangled = false := by
  let so := SFrameOptions.new.abi 2
  let r : FrameRowBuilder := ⟨0, some ⟨16, some (-8), some (-16)⟩, false, .sp⟩
  let f : FuncDescBuilder := { FuncDescBuilder.new so 0x1000 0x20 with fres := [(0, r)] }
  refine ⟨by decide +kernel, { options := so, fdes := [(0x1000, f)] }, f, r, ?_, rfl, rfl, rfl, rfl⟩
  cases dbg <;> decide +kernel

/-- **C68**, what holds: no row is ever marked, so the flag is right exactly where the return address is
not signed.  Missing: rows with a signed return address. -/
theorem C68_unsigned_partial (dbg : Bool) (eh : EhFrame) (opts : Options) (b : SFrameBuilder)
    (h : dwarf2sframe dbg eh opts = .ok (.ok b)) (fdes : List DwFde)
    (hin : inputs eh opts.bases = fdes.map .ok) :
    (∀ f ∈ functions b, ∀ r ∈ rows f, r.mangled = false) ∧
    ∀ fde, LastWith fdes fde → WellFormed (rowsOf fde) →
      ∃ f ∈ functions b, f.startAddress.toInt = fde.initial.toNat ∧ f.size.toNat = fde.len.toNat ∧
        ∀ row ∈ rowsOf fde, ∀ a : Nat, row.start.toNat ≤ a → a < row.end_.toNat →
          ∃ r, governingRow (rows f) (a - fde.initial.toNat) = some r ∧
            (r.mangled = SignedRa opts.arch row ↔ SignedRa opts.arch row = false) := by
  constructor
  · intro f hf r hr
    obtain ⟨fdes', _, hc, rfl⟩ := dwarf2sframe_ok_iff.1 h
    obtain ⟨fde, hl, rfl⟩ := (mem_functions (fun g hg => (hc g hg).start) _).1 hf
    obtain ⟨d, _, rfl⟩ := fnFor_rows (sectionOptions_fp eh opts) (hc fde hl.mem) hr
    rfl
  · intro fde hl hw
    obtain ⟨f, hf, h1, h2, h3⟩ := C46_unwinds_alike dbg eh opts b h fdes hin fde hl hw
    refine ⟨f, hf, h1, h2, fun row hrow a ha1 ha2 => ?_⟩
    obtain ⟨r, hr, hm, _⟩ := h3 row hrow a ha1 ha2
    exact ⟨r, hr, by rw [hm]; exact eq_comm⟩

/-- The sample function meets the hypotheses. -/
example (dbg : Bool) : (∃ b, dwarf2sframe dbg (Samples.ehOf [Samples.dwFde]) Samples.convOpts = .ok (.ok b)) ∧
    inputs (Samples.ehOf [Samples.dwFde]) Samples.convOpts.bases = [Samples.dwFde].map .ok ∧
    WellFormed (rowsOf Samples.dwFde) ∧ SignedRa .amd64 Samples.dwRow1 = false :=
  ⟨⟨{ options := Samples.opts, fdes := [(0x1000, Samples.convFn)] }, by cases dbg <;> decide +kernel⟩, rfl,
    by unfold WellFormed; decide +kernel, rfl⟩

/-! ### C69 -/

namespace Samples

/-- A function that switches stacks: the stack pointer of the caller was saved at CFA - 16. -/
def switchRow : DwRow :=
  { start := 0x1000, end_ := 0x1020, cfa := .registerAndOffset 7 8
    registers := [(16, .offset (-8)), (7, .offset (-16))] }

/-- Memory: the return address 0x1015 at 0x7000, the stack pointer 0x9000 at 0x6FF8. -/
def switchMem : Memory := fun a => if a = 0x7000 then some 0x1015 else if a = 0x6FF8 then some 0x9000 else none

/-- The registers: stack pointer 0x7000. -/
def switchRegs : RegFile := fun r => if r = 7 then some 0x7000 else none

/-- What it is converted to. -/
def switchB : SFrameBuilder :=
  { options := opts, fdes := [(0x1000, { FuncDescBuilder.new opts 0x1000 0x20 with
      fres := [(0, ⟨0, some ⟨8, none, none⟩, false, .sp⟩)] })] }

end Samples

/-- **C69 is false of the code**: a row with a rule for the stack pointer is converted as if it had none,
and the stack pointer of the caller is wrong. -/
theorem C69_stack_switch (dbg : Bool) :
    ∃ b out s m1 m1', dwarf2sframe dbg (Samples.ehOf [Samples.oneRow Samples.switchRow]) Samples.convOpts = .ok (.ok b) ∧
      b.build dbg .little = .ok (.ok out) ∧ SFrame.load .little out = .ok (.ok s) ∧
      DwWalk .amd64 [Samples.oneRow Samples.switchRow] Samples.switchMem (fun _ _ _ => none) id true
        ⟨0x1010, Samples.switchRegs⟩ [(Samples.switchRow, m1)] ∧
      (translate .amd64 Samples.switchRow).isSome ∧
      Agrees .amd64 ⟨0x1010, Samples.switchRegs⟩ ⟨0x1010, 0x7000, none⟩ ∧
      sfWalk Samples.switchMem id (sfRulesAt s) 1 true ⟨0x1010, 0x7000, none⟩ = some [m1'] ∧
      m1'.pc = m1.pc ∧ m1.reg (spNum .amd64) = some 0x9000 ∧ m1'.sp = 0x7008 := by
  refine ⟨Samples.switchB, image .little Samples.switchB, _,
    ⟨0x1015, callerRegs .amd64 Samples.switchMem (fun _ _ _ => none) Samples.switchRegs 0x7008 Samples.switchRow⟩,
    ⟨0x1015, 0x7008, none⟩, ?_, ?_, rfl, ?_, by decide +kernel, ?_, by decide +kernel, rfl, by decide +kernel, rfl⟩
  · cases dbg <;> decide +kernel
  · cases dbg <;> decide +kernel
  · refine .step ⟨_, ⟨[], [], rfl, by simp⟩, List.mem_singleton.2 rfl, ?_⟩ rfl .done
    decide +kernel
  · exact ⟨rfl, by decide +kernel, fun v hv => by cases hv⟩

/-- **C69**, what holds: let the DWARF rows of the converted functions be in order and have no width
tie (C52).  Whenever a DWARF walker gets up the stack by rows that SFrame can express, that give no rule
for the stack pointer and do not sign the return address, then a walker that reads the converted
section gets up as far and sees the same program counters and stack pointers, and the same frame
pointers as far as DWARF knows them.  Missing: rows with rules for the stack pointer, signed return
addresses (C68), width ties. -/
theorem C69_walk_partial (dbg dbg' : Bool) (o : Endian) (eh : EhFrame) (opts : Options)
    (b : SFrameBuilder) (h : dwarf2sframe dbg eh opts = .ok (.ok b)) (out : List U8)
    (hb : b.build dbg' o = .ok (.ok out)) (fdes : List DwFde)
    (hin : inputs eh opts.bases = fdes.map .ok)
    (hw : ∀ fde, LastWith fdes fde → WellFormed (rowsOf fde))
    (ht : ∀ fde, LastWith fdes fde → ∀ d ∈ live (rowsOf fde), ∀ t, translate opts.arch d = some t →
      ¬ WidthTie (storedValues b.options t)) :
    ∃ s, SFrame.load o out = .ok (.ok s) ∧
      ∀ mem ev strip first m m' w, DwWalk opts.arch fdes mem ev strip first m w →
        (∀ x ∈ w, (translate opts.arch x.1).isSome ∧ PlainSp opts.arch x.1 ∧ SignedRa opts.arch x.1 = false) →
        Agrees opts.arch m m' →
        ∃ w', sfWalk mem strip (sfRulesAt s) w.length first m' = some w' ∧ w'.length = w.length ∧
          ∀ (i : Nat) x y, w[i]? = some x → w'[i]? = some y → Agrees opts.arch x.2 y := by
  obtain ⟨s, h1, h2⟩ := rulesAt_converted dbg dbg' o eh opts b h out hb fdes hin hw ht
  exact ⟨s, h1, fun mem ev strip first m m' w hwalk hx ha => walk_agrees h2 hwalk hx ha⟩

namespace Samples

/-- Two frames of the sample function: called at 0x1005, it calls itself and is at its first instruction. -/
def callMem : Memory := fun a =>
  if a = 0x7000 then some 0x1006 else if a = 0x7008 then some 0xBEEF else if a = 0x7010 then some 0x4444 else none

/-- The registers: stack pointer 0x7000, frame pointer lost. -/
def callRegs : RegFile := fun r => if r = 7 then some 0x7000 else none

end Samples

/-- The sample function meets the hypotheses, and the two walks of the sample stack. -/
example (dbg : Bool) : (∃ b out s, dwarf2sframe dbg (Samples.ehOf [Samples.dwFde]) Samples.convOpts = .ok (.ok b) ∧
      b.build dbg .little = .ok (.ok out) ∧ SFrame.load .little out = .ok (.ok s) ∧
      b.options = Samples.opts ∧
      sfWalk Samples.callMem id (sfRulesAt s) 2 true ⟨0x1000, 0x7000, none⟩ =
        some [⟨0x1006, 0x7008, none⟩, ⟨0x4444, 0x7018, some 0xBEEF⟩]) ∧
    (∀ fde, LastWith [Samples.dwFde] fde → WellFormed (rowsOf fde) ∧
      ∀ d ∈ live (rowsOf fde), ∀ t, translate .amd64 d = some t → ¬ WidthTie (storedValues Samples.opts t)) ∧
    (∃ m1 m2, DwWalk .amd64 [Samples.dwFde] Samples.callMem (fun _ _ _ => none) id true
      ⟨0x1000, Samples.callRegs⟩ [(Samples.dwRow1, m1), (Samples.dwRow2, m2)] ∧
      m2.pc = 0x4444 ∧ m2.reg 6 = some 0xBEEF) ∧
    (∀ row ∈ [Samples.dwRow1, Samples.dwRow2], (translate .amd64 row).isSome ∧ PlainSp .amd64 row ∧
      SignedRa .amd64 row = false) ∧
    Agrees .amd64 ⟨0x1000, Samples.callRegs⟩ ⟨0x1000, 0x7000, none⟩ := by
  refine ⟨⟨{ options := Samples.opts, fdes := [(0x1000, Samples.convFn)] },
    image .little { options := Samples.opts, fdes := [(0x1000, Samples.convFn)] }, _, ?_, ?_, rfl, rfl,
    by decide +kernel⟩, ?_, ?_, ?_, ?_⟩
  · cases dbg <;> decide +kernel
  · cases dbg <;> decide +kernel
  · intro fde hl
    have : fde = Samples.dwFde := by simpa using hl.mem
    subst this
    refine ⟨by unfold WellFormed; decide +kernel, fun d hd t ht => ?_⟩
    have hd' : d ∈ [Samples.dwRow1, Samples.dwRow2, Samples.dwRow3] := hd
    simp only [List.mem_cons, List.not_mem_nil, or_false] at hd'
    have : t = ⟨.sp, 8, none, -8⟩ ∨ t = ⟨.sp, 16, some (-16), -8⟩ := by
      rcases hd' with rfl | rfl | rfl
      · exact .inl (Option.some.inj (ht.symm.trans (by decide +kernel)))
      · exact .inr (Option.some.inj (ht.symm.trans (by decide +kernel)))
      · cases ht
    rcases this with rfl | rfl
    · exact C52_usual_partial _ _ (by decide) (by simp)
    · exact C52_usual_partial _ _ (by decide) (by simp)
  · refine ⟨_, _, .step ⟨_, ⟨[], [], rfl, by simp⟩, ?_, ?_⟩ rfl (.step ⟨_, ⟨[], [], rfl, by simp⟩, ?_, ?_⟩ rfl .done), ?_, ?_⟩
    all_goals decide +kernel
  · unfold PlainSp; decide +kernel
  · exact ⟨rfl, by decide +kernel, fun v hv => by cases hv⟩

end Verif
