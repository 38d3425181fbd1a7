import Verif.Props.Agree
/-!
# Exactly where a walk goes wrong: C69, C101
-/

namespace Verif
open Spec SFrameBuilder

/-- SFrame says of the caller what the row says: the stack pointer is the CFA, and the return address needs no
stripping. -/
def Spec.Harmless (arch : Architecture) (mem : Memory) (ev : Eval) (strip : Strip) (m : Frame) (row : DwRow) : Prop :=
  ∀ cfa, cfaValue ev m.reg row.cfa = some cfa →
    callerRegs arch mem ev m.reg cfa row (spNum arch) = some cfa ∧
    (SignedRa arch row = true → ∀ ra, callerRegs arch mem ev m.reg cfa row (raNum arch) = some ra → strip ra = ra)

/-- The caller has the frame pointer of the callee, as far as it is known. -/
def Spec.SameFp (arch : Architecture) (mem : Memory) (ev : Eval) (m : Frame) (row : DwRow) : Prop :=
  ∀ cfa, cfaValue ev m.reg row.cfa = some cfa → ∀ v,
    callerRegs arch mem ev m.reg cfa row (fpNum arch) = some v → m.reg (fpNum arch) = some v

/-- The steps of a walk: the frame, and the row for it. -/
def Spec.steps : Frame → List (DwRow × Frame) → List (Frame × DwRow)
  | _, [] => []
  | m, (row, m1) :: w => (m, row) :: steps m1 w

/-- The first `n` steps lead to the same frames. -/
def Spec.WalksAlike (arch : Architecture) (mem : Memory) (strip : Strip) (rulesAt : Int → Option (Rules × Bool))
    (n : Nat) (first : Bool) (m' : SFrameState) (w : List (DwRow × Frame)) : Prop :=
  ∃ w', sfWalk mem strip rulesAt n first m' = some w' ∧
    ∀ (i : Nat) x y, w[i]? = some x → w'[i]? = some y → Agrees arch x.2 y

/-- A row that gives no rule for the stack pointer and does not sign the return address. -/
theorem harmless_plain {arch : Architecture} {mem : Memory} {ev : Eval} {strip : Strip} {m : Frame} {row : DwRow}
    (hsp : PlainSp arch row) (hsg : SignedRa arch row = false) : Harmless arch mem ev strip m row := by
  intro cfa _
  refine ⟨?_, fun h => by rw [hsg] at h; cases h⟩
  unfold callerRegs
  rw [show row.registers.lookup (BitVec.ofNat 16 (spNum arch)) = none from hsp]
  simp

/-- What a step of both walkers has in common. -/
theorem step_common {arch : Architecture} {mem : Memory} {ev : Eval} {strip : Strip} {row : DwRow}
    {t : Rules} {m m1 : Frame} {m' : SFrameState} (hc : cfaRules arch row = some (t.base, t.cfa))
    (hra : raRules arch row = some t.ra) (ha : Agrees arch m m') (h : dwStep arch mem ev strip row m = some m1) :
    ∃ cfa ra, cfaValue ev m.reg row.cfa = some cfa ∧ callerRegs arch mem ev m.reg cfa row (raNum arch) = some ra ∧
      m1 = ⟨if SignedRa arch row then strip ra else ra, callerRegs arch mem ev m.reg cfa row⟩ ∧
      sfStep mem strip (t, false) m' = some ⟨ra, cfa, savedFp mem cfa m' t.fp⟩ := by
  unfold dwStep at h
  obtain ⟨cfa, hcfa, h⟩ := Option.bind_eq_some_iff.1 h
  obtain ⟨pc, hpc, rfl⟩ := Option.map_eq_some_iff.1 h
  have h1 : (baseValue m' t.base).map (· + BitVec.ofInt 64 t.cfa) = some cfa := by
    unfold cfaRules at hc
    unfold cfaValue at hcfa
    split at hc
    · cases hc
    · rename_i reg off heq
      rw [heq] at hcfa
      simp only at hcfa
      obtain ⟨base, hb, rfl⟩ := Option.map_eq_some_iff.1 hcfa
      split at hc
      · cases hc
      · split at hc
        · rename_i hr
          injection hc with hc
          injection hc with h2 h3
          rw [hr, ha.sp] at hb
          rw [← h2, ← h3]
          simp only [baseValue, hb, Option.map_some, ofInt_toInt64]
        · split at hc
          · rename_i hr
            injection hc with hc
            injection hc with h2 h3
            rw [hr] at hb
            rw [← h2, ← h3]
            simp only [baseValue, ha.fp _ hb, Option.map_some, ofInt_toInt64]
          · cases hc
  have h2 : mem (cfa + BitVec.ofInt 64 t.ra) = some pc := by
    have hpc' := hpc
    unfold raRules DwRow.register at hra
    unfold callerRegs at hpc'
    cases hl : row.registers.lookup (BitVec.ofNat 16 (raNum arch)) with
    | none => rw [hl] at hra; cases hra
    | some rule =>
      rw [hl] at hra hpc'
      simp only [Option.getD_some] at hra hpc'
      cases rule <;> try (cases hra; done)
      rename_i off
      simp only at hra
      split at hra
      · injection hra with hra
        rw [← hra, ofInt_toInt64]
        exact hpc'
      · cases hra
  refine ⟨cfa, pc, hcfa, hpc, rfl, ?_⟩
  unfold sfStep
  simp only []
  rw [h1, Option.bind_some, h2, Option.map_some]
  rfl

/-- The frame pointer of the caller is right if there is a rule for it that SFrame has. -/
theorem step_fp {arch : Architecture} {mem : Memory} {ev : Eval} {row : DwRow} {f : Option Int} {m : Frame}
    {m' : SFrameState} {cfa : U64} (hf : fpRules arch row = some f) (ha : Agrees arch m m') {v : U64}
    (hv : callerRegs arch mem ev m.reg cfa row (fpNum arch) = some v) : savedFp mem cfa m' f = some v := by
  unfold fpRules DwRow.register at hf
  unfold callerRegs at hv
  cases hl : row.registers.lookup (BitVec.ofNat 16 (fpNum arch)) with
  | none =>
    rw [hl] at hf hv
    cases hf
    rw [if_neg (by cases arch <;> decide)] at hv
    exact ha.fp v hv
  | some rule =>
    rw [hl] at hf hv
    rw [Option.getD_some] at hf
    cases rule with
    | offset off =>
      simp only at hf
      split at hf
      · cases hf
        show mem (cfa + BitVec.ofInt 64 off.toInt) = some v
        rw [ofInt_toInt64]
        exact hv
      · cases hf
    | sameValue => cases hf; exact ha.fp v hv
    | undefined => cases hv
    | _ => cases hf

theorem translate_parts {arch : Architecture} {row : DwRow} {t : Rules} (ht : translate arch row = some t) :
    cfaRules arch row = some (t.base, t.cfa) ∧ fpRules arch row = some t.fp ∧ raRules arch row = some t.ra := by
  unfold translate at ht
  obtain ⟨c, hc, ht⟩ := Option.bind_eq_some_iff.1 ht
  obtain ⟨f, hf, ht⟩ := Option.bind_eq_some_iff.1 ht
  obtain ⟨ra, hra, rfl⟩ := Option.map_eq_some_iff.1 ht
  exact ⟨hc, hf, hra⟩

/-- One step, exactly. -/
theorem step_exact {arch : Architecture} {mem : Memory} {ev : Eval} {strip : Strip} {row : DwRow}
    {t : Rules} {m m1 : Frame} {m' : SFrameState} (ht : translate arch row = some t) (ha : Agrees arch m m')
    (h : dwStep arch mem ev strip row m = some m1) :
    ∃ m1', sfStep mem strip (t, false) m' = some m1' ∧ (Agrees arch m1 m1' ↔ Harmless arch mem ev strip m row) := by
  obtain ⟨hc, hf, hra⟩ := translate_parts ht
  obtain ⟨cfa, ra, h1, h2, rfl, h4⟩ := step_common hc hra ha h
  refine ⟨_, h4, fun hg c hc' => ?_, fun hh => ⟨?_, (hh cfa h1).1, fun v hv => step_fp hf ha hv⟩⟩
  · rw [h1] at hc'
    cases hc'
    refine ⟨hg.sp, fun hs r hr => ?_⟩
    rw [h2] at hr
    cases hr
    have := hg.pc
    simp only [hs, if_true] at this
    exact this.symm
  · show ra = if SignedRa arch row then strip ra else ra
    split
    · rename_i hs
      exact ((hh cfa h1).2 hs ra h2).symm
    · rfl

/-- A whole walk, exactly. -/
theorem walk_exact {arch : Architecture} {fdes : List DwFde} {mem : Memory} {ev : Eval} {strip : Strip}
    {rulesAt : Int → Option (Rules × Bool)} {T : DwRow → Option Rules} {P Q : Frame → DwRow → Prop}
    (hr : ∀ a row, DwRowAt fdes a row → rulesAt a = (T row).map fun t => (t, false))
    (hs : ∀ row t m m1 m', T row = some t → Agrees arch m m' → P m row → dwStep arch mem ev strip row m = some m1 →
      ∃ m1', sfStep mem strip (t, false) m' = some m1' ∧ (Agrees arch m1 m1' ↔ Q m row))
    {first : Bool} {m : Frame} {m' : SFrameState} {w : List (DwRow × Frame)}
    (h : DwWalk arch fdes mem ev strip first m w) (hp : ∀ p ∈ steps m w, P p.1 p.2) (ha : Agrees arch m m')
    {n : Nat} (hn : n ≤ w.length) :
    WalksAlike arch mem strip rulesAt n first m' w ↔
      ∀ p ∈ (steps m w).take n, (T p.2).isSome ∧ Q p.1 p.2 := by
  induction h generalizing m' n with
  | done =>
    have : n = 0 := by simpa using hn
    subst this
    exact ⟨fun _ p hp => by simp [steps] at hp, fun _ => ⟨[], rfl, fun i x y hx => by cases hx⟩⟩
  | @step first m row m1 rest hrow hstep hrest ih =>
    cases n with
    | zero => exact ⟨fun _ p hp => by simp at hp, fun _ => ⟨[], rfl, fun i x y _ hy => by cases hy⟩⟩
    | succ n =>
      have hw : sfWalk mem strip rulesAt (n + 1) first m' = ((T row).map fun t => (t, false)).bind fun t =>
          (sfStep mem strip t m').bind fun m1' =>
          (sfWalk mem strip rulesAt n false m1').map fun rest => m1' :: rest := by
        rw [sfWalk, ha.pc, hr _ _ hrow]
      unfold WalksAlike
      rw [hw]
      simp only [steps, List.take_succ_cons, List.forall_mem_cons]
      cases ht : T row with
      | none => simp
      | some t =>
        obtain ⟨m1', k1, k2⟩ := hs row t m m1 m' ht ha (hp (m, row) (by simp [steps])) hstep
        have ih' := fun hag => ih (m' := m1') (fun p hp' => hp p (by simp [steps, hp'])) hag (n := n) (by simpa using hn)
        simp only [Option.map_some, Option.bind_some, k1, Option.isSome_some, true_and]
        constructor
        · rintro ⟨w', h1, h2⟩
          obtain ⟨w1, h3, rfl⟩ := Option.map_eq_some_iff.1 h1
          have hag : Agrees arch m1 m1' := h2 0 _ _ rfl rfl
          exact ⟨k2.1 hag, (ih' hag).1 ⟨w1, h3, fun i x y hx hy => h2 (i + 1) x y hx hy⟩⟩
        · rintro ⟨hq, hrest'⟩
          have hag := k2.2 hq
          obtain ⟨w1, h3, h4⟩ := (ih' hag).2 hrest'
          refine ⟨m1' :: w1, by rw [h3]; rfl, fun i x y hx hy => ?_⟩
          cases i with
          | zero =>
            simp only [List.getElem?_cons_zero, Option.some.injEq] at hx hy
            subst hx hy
            exact hag
          | succ i => exact h4 i x y hx hy

/-- **C69, exactly**: a walker that reads the converted section sees the frames that a DWARF walker sees for exactly as
long as the rows can be expressed, leave the stack pointer of the caller to be the CFA, and the return address does not
have to be stripped.  Missing: that the last two go without saying, which is false, see `C69_stack_switch`; rows with a
width tie, for which see `C69_ties_partial`. -/
theorem C69_exact_partial (dbg dbg' : Bool) (o : Endian) (eh : EhFrame) (opts : Options)
    (b : SFrameBuilder) (h : dwarf2sframe dbg eh opts = .ok (.ok b)) (out : List U8)
    (hb : b.build dbg' o = .ok (.ok out)) (fdes : List DwFde)
    (hin : inputs eh opts.bases = fdes.map .ok)
    (hw : ∀ fde, LastWith fdes fde → WellFormed (rowsOf fde))
    (ht : ∀ fde, LastWith fdes fde → ∀ d ∈ live (rowsOf fde), ∀ t, translate opts.arch d = some t →
      ¬ WidthTie (storedValues b.options t)) :
    ∃ s, SFrame.load o out = .ok (.ok s) ∧
      ∀ mem ev strip first m m' w, DwWalk opts.arch fdes mem ev strip first m w → Agrees opts.arch m m' →
        ∀ n, n ≤ w.length →
          (WalksAlike opts.arch mem strip (sfRulesAt s) n first m' w ↔
            ∀ p ∈ (steps m w).take n, (translate opts.arch p.2).isSome ∧
              Harmless opts.arch mem ev strip p.1 p.2) := by
  obtain ⟨s, h1, h2⟩ := rulesAt_converted dbg dbg' o eh opts b h out hb fdes hin hw ht
  refine ⟨s, h1, fun mem ev strip first m m' w hwalk ha n hn => ?_⟩
  exact walk_exact (P := fun _ _ => True) h2 (fun row t m m1 m' h1 h2 _ h3 => step_exact h1 h2 h3) hwalk
    (fun _ _ => trivial) ha hn

/-! ### C101 -/

theorem legacy_parts {row : DwRow} {t : Rules} (ht : legacyTranslate row = some t) :
    cfaRules .amd64 row = some (t.base, t.cfa) ∧ raRules .amd64 row = some t.ra ∧
      ((fpRules .amd64 row = some t.fp ∧ ¬ Dropped row) ∨ (t.fp = none ∧ Dropped row)) := by
  by_cases hd : Dropped row
  · have ⟨_, h2⟩ := odd_none hd.2.2
    unfold legacyTranslate at ht
    obtain ⟨c, hc, ht⟩ := Option.bind_eq_some_iff.1 ht
    rw [h2, Option.bind_some] at ht
    obtain ⟨ra, hra, rfl⟩ := Option.map_eq_some_iff.1 ht
    exact ⟨hc, hra, .inr ⟨rfl, hd⟩⟩
  · rw [← (same_iff row).2 hd] at ht
    obtain ⟨h1, h2, h3⟩ := translate_parts ht
    exact ⟨h1, h3, .inl ⟨h2, hd⟩⟩

theorem legacy_isSome (row : DwRow) :
    (legacyTranslate row).isSome = true ↔ (translate .amd64 row).isSome = true ∨ Dropped row := by
  by_cases hd : Dropped row
  · obtain ⟨c, hc⟩ := Option.isSome_iff_exists.1 hd.1
    obtain ⟨r, hr⟩ := Option.isSome_iff_exists.1 hd.2.1
    simp [hd, legacyTranslate, hc, hr, (odd_none hd.2.2).2]
  · rw [← (same_iff row).2 hd]
    simp [hd]

/-- One step with the rules of the legacy tool, exactly. -/
theorem step_exact_legacy {mem : Memory} {ev : Eval} {strip : Strip} {row : DwRow}
    {t : Rules} {m m1 : Frame} {m' : SFrameState} (ht : legacyTranslate row = some t) (ha : Agrees .amd64 m m')
    (hk : Dropped row → m.reg (fpNum .amd64) ≠ none) (h : dwStep .amd64 mem ev strip row m = some m1) :
    ∃ m1', sfStep mem strip (t, false) m' = some m1' ∧
      (Agrees .amd64 m1 m1' ↔ Harmless .amd64 mem ev strip m row ∧ (Dropped row → SameFp .amd64 mem ev m row)) := by
  obtain ⟨hc, hra, hf⟩ := legacy_parts ht
  obtain ⟨cfa, ra, h1, h2, rfl, h4⟩ := step_common hc hra ha h
  have hpc : ra = if SignedRa .amd64 row then strip ra else ra := rfl
  refine ⟨_, h4, fun hg => ⟨fun c hc' => ?_, fun hd c hc' v hv => ?_⟩, fun hh => ⟨hpc, (hh.1 cfa h1).1, fun v hv => ?_⟩⟩
  · rw [h1] at hc'
    cases hc'
    exact ⟨hg.sp, fun hs => by cases hs⟩
  · rw [h1] at hc'
    cases hc'
    have hfp := hg.fp v hv
    rcases hf with ⟨_, hf⟩ | ⟨hf, _⟩
    · exact absurd hd hf
    · simp only [hf, savedFp] at hfp
      cases hm : m.reg (fpNum .amd64) with
      | none => exact absurd hm (hk hd)
      | some x => rw [← ha.fp x hm, hfp]
  · rcases hf with ⟨hf, _⟩ | ⟨hf, hd⟩
    · exact step_fp hf ha hv
    · show savedFp mem cfa m' t.fp = some v
      rw [hf]
      exact ha.fp v (hh.2 hd cfa h1 v hv)

/-- **C101, exactly**: a walker that reads the section of the legacy tool sees the frames that a DWARF walker sees for
exactly as long as the rows can be expressed but for the rule for RBP, leave the stack pointer of the caller to be the
CFA, and where the rule for RBP is dropped, the caller has the RBP of the callee.  It is assumed that the DWARF walker
knows RBP where that happens.  Missing: that the walk ends where a rule is dropped, which is false, see
`C101_wrong_frame`; rows with a width tie, for which see `C101_ties_partial`. -/
theorem C101_exact_partial (dbg dbg' : Bool) (o : Endian) (eh : EhFrame) (bases : Bases)
    (b : SFrameBuilder) (h : legacyConvert dbg eh bases = .ok (.ok b)) (out : List U8)
    (hb : b.build dbg' o = .ok (.ok out)) (fdes : List DwFde) (hin : inputs eh bases = fdes.map .ok)
    (hw : ∀ fde, LastWith fdes fde → WellFormed (rowsOf fde))
    (ht : ∀ fde, LastWith fdes fde → ∀ d ∈ rowsOf fde, ∀ t, legacyTranslate d = some t →
      ¬ WidthTie (storedValues b.options t)) :
    ∃ s, SFrame.load o out = .ok (.ok s) ∧
      ∀ mem ev strip first m m' w, DwWalk .amd64 fdes mem ev strip first m w → Agrees .amd64 m m' →
        (∀ p ∈ steps m w, Dropped p.2 → p.1.reg (fpNum .amd64) ≠ none) →
        ∀ n, n ≤ w.length →
          (WalksAlike .amd64 mem strip (sfRulesAt s) n first m' w ↔
            ∀ p ∈ (steps m w).take n, ((translate .amd64 p.2).isSome ∨ Dropped p.2) ∧
              Harmless .amd64 mem ev strip p.1 p.2 ∧ (Dropped p.2 → SameFp .amd64 mem ev p.1 p.2)) := by
  obtain ⟨s, h1, h2, _⟩ := rulesAt_legacy dbg dbg' o eh bases b h out hb fdes hin hw ht
  refine ⟨s, h1, fun mem ev strip first m m' w hwalk ha hk n hn => ?_⟩
  rw [walk_exact (P := fun m row => Dropped row → m.reg (fpNum .amd64) ≠ none) h2
    (fun row t m m1 m' h1 h2 hp h3 => step_exact_legacy h1 h2 hp h3) hwalk hk ha hn]
  simp only [legacy_isSome]

/-- The sample that switches stacks: the row can be expressed, but the stack pointer of the caller is not the CFA. -/
example : (translate .amd64 Samples.switchRow).isSome ∧
    ¬ Harmless .amd64 Samples.switchMem (fun _ _ _ => none) id ⟨0x1010, Samples.switchRegs⟩ Samples.switchRow ∧
    Harmless .amd64 Samples.rbxMem (fun _ _ _ => none) id ⟨0x1008, Samples.rbxRegs⟩ Samples.rbxRow := by
  refine ⟨by decide +kernel, fun h => ?_, harmless_plain (by unfold PlainSp; decide +kernel) rfl⟩
  exact absurd (h 0x7008 (by decide +kernel)).1 (by decide +kernel)

/-- A rule for the stack pointer that says what is so anyway, as glibc has it: nothing is lost. -/
example (mem : Memory) (m : Frame) :
    ¬ PlainSp .amd64 { Samples.dwRow1 with registers := (7, .valOffset 0) :: Samples.dwRow1.registers } ∧
    Harmless .amd64 mem (fun _ _ _ => none) id m
      { Samples.dwRow1 with registers := (7, .valOffset 0) :: Samples.dwRow1.registers } := by
  refine ⟨by unfold PlainSp; decide +kernel, fun cfa _ => ⟨?_, fun h => by cases h⟩⟩
  show some (cfa + 0) = some cfa
  simp

/-- The function that keeps RBP in RBX: right exactly if RBX has the value of RBP. -/
example (v : U64) : Dropped Samples.rbxRow ∧
    (SameFp .amd64 Samples.rbxMem (fun _ _ _ => none)
      ⟨0x1008, fun r => if r = 7 then some 0x7000 else if r = 6 then some 0x1111 else if r = 3 then some v else none⟩
      Samples.rbxRow ↔ v = 0x1111) := by
  refine ⟨by decide +kernel, fun h => ?_, fun h => ?_⟩
  · have := h 0x7010 rfl v rfl
    injection this with this
    exact this.symm
  · subst h
    intro cfa _ x hx
    exact hx

end Verif
