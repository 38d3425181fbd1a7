import Verif.Spec.Report1
import Verif.Proofs.Main1
import Verif.Proofs.Report
/-!
# The legacy converter with its output
-/

namespace Verif
open Spec

namespace Shown

/-- Something printed first. -/
def after {α : Type} (es : List Event1) (x : Shown α) : Shown α := (es ++ x.1, x.2)

theorem after_nil {α : Type} (x : Shown α) : after [] x = x := rfl
theorem after_after {α : Type} (a b : List Event1) (x : Shown α) : after a (after b x) = after (a ++ b) x := by
  simp [after, List.append_assoc]

theorem say_bind {α : Type} (es : List Event1) (f : Unit → Shown α) : (say es).bind f = after es (f ()) := rfl
theorem pure_bind {α β : Type} (a : α) (f : α → Shown β) : (pure a).bind f = f a := rfl
theorem lift_ok {α β : Type} (a : α) (f : α → Shown β) : (lift (.ok a)).bind f = f a := rfl
theorem lift_panic {α β : Type} (p : Panic) (f : α → Shown β) : (lift (.panic p)).bind f = ([], .panic p) := rfl
theorem lift_diverge {α β : Type} (f : α → Shown β) : (lift .diverge).bind f = ([], .diverge) := rfl

theorem after_bind {α β : Type} (es : List Event1) (x : Shown α) (f : α → Shown β) :
    (after es x).bind f = after es (x.bind f) := by
  obtain ⟨ls, a | p | _⟩ := x
  · simp [after, bind, List.append_assoc]
  · rfl
  · rfl

theorem ok_bind {α β : Type} (es : List Event1) (a : α) (f : α → Shown β) :
    bind (es, .ok a) f = after es (f a) := rfl
theorem panic_bind {α β : Type} (es : List Event1) (p : Panic) (f : α → Shown β) :
    bind (es, .panic p) f = (es, .panic p) := rfl

theorem bind_snd {α β : Type} (x : Shown α) (f : α → Shown β) : (x.bind f).2 = x.2.bind fun a => (f a).2 := by
  obtain ⟨ls, a | p | _⟩ := x <;> rfl

theorem say_snd (es : List Event1) : (say es).2 = .ok () := rfl
theorem pure_snd {α : Type} (a : α) : (pure a : Shown α).2 = .ok a := rfl
theorem lift_snd {α : Type} (x : Rust α) : (lift x).2 = x := rfl

end Shown

/-! ### The results are those of the model without output -/

theorem cfaT_snd (t : LegacyText) (c : CfaRule) : (t.cfaT c).2 =
    match c with
    | .registerAndOffset _ _ => Rust.ok ()
    | .expression e =>
      match dumpExpression e with
      | .ok () => .ok ()
      | .error _ => .panic .unwrap := by
  cases c with
  | registerAndOffset r o => rfl
  | expression e =>
    unfold LegacyText.cfaT
    simp only
    cases dumpExpression e <;> rfl

theorem registerT_snd (t : LegacyText) (a : ObjArch) (x : Reg × RegRule) : (t.registerT a x).2 = formatRule x.2 := by
  unfold LegacyText.registerT
  cases h : formatRule x.2 with
  | ok u => rfl
  | panic p => rfl
  | diverge => rfl

theorem registersT_snd (t : LegacyText) (a : ObjArch) (xs : List (Reg × RegRule)) :
    (t.registersT a xs).2 = printRegisters xs := by
  induction xs with
  | nil => rfl
  | cons x xs ih =>
    obtain ⟨r, rule⟩ := x
    rw [LegacyText.registersT, Shown.bind_snd, registerT_snd, printRegisters]
    simp only [ih]

theorem rowT_snd (t : LegacyText) (a : ObjArch) (row : DwRow) : (t.rowT a row).2 = printRow row := by
  unfold LegacyText.rowT printRow
  rw [Shown.bind_snd, Shown.say_snd, Rust.bind_ok, Shown.bind_snd, cfaT_snd]
  simp only [registersT_snd]
  cases row.cfa with
  | registerAndOffset r o => rfl
  | expression e =>
    simp only
    cases dumpExpression e <;> rfl

theorem legacyCfaT_eq (row : DwRow) : (legacyCfaT row).toOption = legacyCfa row := by
  unfold legacyCfaT legacyCfa
  cases row.cfa with
  | expression e => rfl
  | registerAndOffset r o =>
    simp only
    split
    · rfl
    · split <;> rfl

theorem legacyFpT_snd (row : DwRow) : (legacyFpT row).2.bind (fun x => .ok x.toOption) = legacyFpOf row := by
  unfold legacyFpT legacyFpOf
  cases row.register Reg.X86_64_RBP with
  | offset o => simp only; cases i32TryFromI64 o <;> rfl
  | undefined => rfl
  | expression e =>
    simp only [Shown.bind_snd, Shown.lift_snd, Shown.say_snd, Shown.pure_snd]
    cases formatRule (.expression e) <;> rfl
  | _ => rfl

theorem legacyRaT_snd (row : DwRow) : (legacyRaT row).2.bind (fun x => .ok x.toOption) = legacyRaOf row := by
  unfold legacyRaT legacyRaOf
  cases row.register Reg.X86_64_RA with
  | offset o => simp only; cases i32TryFromI64 o <;> rfl
  | expression e =>
    simp only [Shown.bind_snd, Shown.lift_snd, Shown.pure_snd]
    cases formatRule (.expression e) <;> rfl
  | _ => rfl

theorem legacyRowT_snd (start : U32) (row : DwRow) (sfde : FuncDescBuilder) :
    (legacyRowT start row sfde).2 = legacyRow start row sfde := by
  unfold legacyRowT legacyRow legacyTryT legacyRules
  rw [Shown.bind_snd]
  rw [← legacyCfaT_eq]
  cases legacyCfaT row with
  | error n => rfl
  | ok c =>
    obtain ⟨base, offset⟩ := c
    simp only [Except.toOption]
    cases i32TryFromI64 offset with
    | none => rfl
    | some cfa =>
      simp only
      unfold legacyRestT
      rw [Shown.bind_snd, ← legacyFpT_snd]
      generalize (legacyFpT row).2 = x
      rcases x with (n | fp) | p | _
      · rfl
      · simp only [Rust.bind_ok, Except.toOption]
        rw [Shown.bind_snd, ← legacyRaT_snd]
        generalize (legacyRaT row).2 = y
        rcases y with (n | ra) | p | _
        · rfl
        · simp only [legacyAddT, Rust.bind_ok, Except.toOption, Shown.bind_snd, Shown.say_snd]
          cases sfde.row (FrameRowBuilder.new base start { cfa := cfa, fp := fp, ra := some ra }) <;> rfl
        · rfl
        · rfl
      · rfl
      · rfl

theorem legacyRowsT_snd (dbg : Bool) (t : LegacyText) (a : ObjArch) (fde : DwFde)
    (xs : List (Except GErr DwRow)) (sfde : FuncDescBuilder) :
    (legacyRowsT dbg t a fde xs sfde).2 = legacyRows dbg fde xs sfde := by
  induction xs generalizing sfde with
  | nil => rfl
  | cons x xs ih =>
    cases x with
    | error e => rfl
    | ok row =>
      rw [legacyRowsT, legacyRows, Shown.bind_snd, Shown.lift_snd]
      cases subU64 dbg row.start fde.initial with
      | panic p => rfl
      | diverge => rfl
      | ok d =>
        simp only [Rust.bind_ok]
        cases u32TryFromU64 d with
        | none => rfl
        | some start =>
          simp only
          split
          · rw [Shown.bind_snd, rowT_snd]
            cases printRow row with
            | panic p => rfl
            | diverge => rfl
            | ok u =>
              simp only [Rust.bind_ok]
              rw [Shown.bind_snd, legacyRowT_snd]
              generalize legacyRow start row sfde = y
              rcases y with (e | s) | p | _
              · rfl
              · exact ih s
              · rfl
              · rfl
          · rfl

theorem legacyFdeT_snd (dbg : Bool) (t : LegacyText) (a : ObjArch) (b : SFrameBuilder) (fde : DwFde) :
    (legacyFdeT dbg t a b fde).2 = legacyFde dbg b fde := by
  unfold legacyFdeT legacyFde
  split
  · rfl
  split
  · rfl
  simp only
  cases fde.rows with
  | error e => rfl
  | ok xs =>
    simp only [Shown.bind_snd, Shown.say_snd, Rust.bind_ok, Shown.lift_snd]
    cases addU64 dbg fde.initial fde.len with
    | panic p => rfl
    | diverge => rfl
    | ok x =>
      simp only [Rust.bind_ok]
      rw [C84_control]
      cases dumpCfiInstructions fde.instructions with
      | error e => rfl
      | ok u =>
        simp only [Shown.bind_snd, Shown.say_snd, Rust.bind_ok, legacyRowsT_snd]
        generalize legacyRows dbg fde xs _ = y
        rcases y with (e | s) | p | _
        · rfl
        · simp only [Rust.bind_ok, Shown.bind_snd, Shown.lift_snd, Shown.say_snd]
          cases s.mergeAdjacentFres with
          | panic p => rfl
          | diverge => rfl
          | ok s =>
            simp only [Rust.bind_ok]
            cases b.fde s <;> rfl
        · rfl
        · rfl

theorem legacyEntriesT_snd (dbg : Bool) (t : LegacyText) (a : ObjArch) (eh : EhFrame) (bases : Bases)
    (es : List (Except GErr Entry)) (cies : List (Nat × Except GErr Cie)) (b : SFrameBuilder) :
    (legacyEntriesT dbg t a eh bases es cies b).2 = legacyEntries dbg eh bases es cies b := by
  induction es generalizing cies b with
  | nil => rfl
  | cons x es ih =>
    cases x with
    | error e => rfl
    | ok x =>
      cases x with
      | cie => exact ih cies b
      | fde off parse =>
        rw [legacyEntriesT, legacyEntries]
        cases parse (lookupCie (Options.new .amd64 bases) eh cies off).1 with
        | error e => rfl
        | ok fde =>
          simp only
          rw [Shown.bind_snd, legacyFdeT_snd]
          generalize legacyFde dbg b fde = y
          rcases y with (e | s) | p | _
          · rfl
          · exact ih _ s
          · rfl
          · rfl

theorem legacyConvertT_snd (dbg : Bool) (t : LegacyText) (a : ObjArch) (eh : EhFrame) (bases : Bases) :
    (legacyConvertT dbg t a eh bases).2 = legacyConvert dbg eh bases := by
  unfold legacyConvertT legacyConvert
  rw [Shown.bind_snd, legacyEntriesT_snd]
  generalize legacyEntries dbg eh bases _ _ _ = y
  rcases y with (e | s) | p | _
  · rfl
  · simp only [Rust.bind_ok, Shown.bind_snd, Shown.lift_snd]
    cases s.mergeAdjacentFdes dbg <;> rfl
  · rfl
  · rfl

/-! ### The lines of a row -/

theorem formatRule_ok {rule : RegRule} (h : ∀ e, rule = .expression e → Decodable e) : formatRule rule = .ok () := by
  rcases formatRule_cases rule with ⟨h', -⟩ | ⟨-, e, he, hd⟩
  · exact h'
  · exact absurd (h e he) hd

theorem registersT_cases (t : LegacyText) (a : ObjArch) (rs : List (Reg × RegRule)) :
    ((∀ x ∈ rs, ∀ e, x.2 = .expression e → Decodable e) ∧
      t.registersT a rs = ((rs.map (regLine1 t a)).map .out, .ok ())) ∨
    (∃ xs r e ys, rs = xs ++ (r, .expression e) :: ys ∧ (∀ x ∈ xs, ∀ e, x.2 = .expression e → Decodable e) ∧
      ¬ Decodable e ∧ t.registersT a rs = ((xs.map (regLine1 t a)).map .out ++
        [.part ("    reg:    " ++ (regText t.name r ++ " = "))], .panic .explicit)) := by
  induction rs with
  | nil => exact .inl ⟨nofun, rfl⟩
  | cons x rs ih =>
    obtain ⟨r, rule⟩ := x
    rw [LegacyText.registersT]
    rcases formatRule_cases rule with ⟨h, hd⟩ | ⟨h, e, rfl, hd⟩
    · have h1 : t.registerT a (r, rule) = ([.out (regLine1 t a (r, rule))], .ok ()) := by
        unfold LegacyText.registerT
        rw [h]
        rfl
      rw [h1, Shown.ok_bind]
      have key : ∀ xs : List (Reg × RegRule), (∀ x ∈ xs, ∀ e, x.2 = .expression e → Decodable e) →
          ∀ x ∈ (r, rule) :: xs, ∀ e, x.2 = .expression e → Decodable e := by
        intro xs hxs x hx
        rcases List.mem_cons.1 hx with rfl | hx
        · exact hd
        · exact hxs x hx
      rcases ih with ⟨h2, h3⟩ | ⟨xs, r', e, ys, h2, h3, h4, h5⟩
      · exact .inl ⟨key _ h2, by rw [h3]; rfl⟩
      · refine .inr ⟨(r, rule) :: xs, r', e, ys, by rw [h2]; rfl, key _ h3, h4, by rw [h5]; rfl⟩
    · refine .inr ⟨[], r, e, rs, rfl, nofun, hd, ?_⟩
      have h1 : t.registerT a (r, .expression e) =
          ([.part ("    reg:    " ++ (regText t.name r ++ " = "))], .panic .explicit) := by
        unfold LegacyText.registerT
        rw [h]
      rw [h1]
      rfl

theorem cfaT_ok {t : LegacyText} {c : CfaRule} (h : ∀ e, c = .expression e → Decodable e) :
    t.cfaT c = ([.out (cfaLine1 t c)], .ok ()) := by
  cases c with
  | registerAndOffset r o => rfl
  | expression e =>
    unfold LegacyText.cfaT
    simp only [(dumpExpression_ok_iff e).2 (h e rfl)]
    rfl

theorem rowT_cases (t : LegacyText) (a : ObjArch) (row : DwRow) :
    (Printable row ∧ t.rowT a row = ((legacyLines t a row).map .out, .ok ())) ∨
    (∃ e, row.cfa = .expression e ∧ ¬ Decodable e ∧ t.rowT a row = ([.out (offsetLine1 row)], .panic .unwrap)) ∨
    (∃ xs r e ys, Printable { row with registers := xs } ∧ row.registers = xs ++ (r, .expression e) :: ys ∧
      ¬ Decodable e ∧ t.rowT a row = ((legacyLines t a { row with registers := xs }).map .out ++
        [.part ("    reg:    " ++ (regText t.name r ++ " = "))], .panic .explicit)) := by
  have h0 : t.rowT a row = Shown.after [.out (offsetLine1 row)]
      ((t.cfaT row.cfa).bind fun _ => t.registersT a row.registers) := rfl
  by_cases hc : ∀ e, row.cfa = .expression e → Decodable e
  · rw [h0, cfaT_ok hc, Shown.ok_bind]
    rcases registersT_cases t a row.registers with ⟨h1, h2⟩ | ⟨xs, r, e, ys, h1, h2, h3, h4⟩
    · exact .inl ⟨⟨hc, h1⟩, by rw [h2]; rfl⟩
    · exact .inr (.inr ⟨xs, r, e, ys, ⟨hc, h2⟩, h1, h3, by rw [h4]; rfl⟩)
  · rw [Classical.not_forall] at hc
    obtain ⟨e, hc⟩ := hc
    rw [Classical.not_imp] at hc
    refine .inr (.inl ⟨e, hc.1, hc.2, ?_⟩)
    rw [h0, hc.1]
    have : dumpExpression e ≠ .ok () := fun h => hc.2 ((dumpExpression_ok_iff e).1 h)
    unfold LegacyText.cfaT
    simp only
    cases h : dumpExpression e with
    | ok u => exact absurd h this
    | error g => rfl

/-! ### The rules of a row -/

theorem fmtInt_ofInt {x : Int} (h : Fits32 x) : fmtInt (BitVec.ofInt 32 x) = intText x := by
  unfold fmtInt intText
  rw [toInt_ofInt_fits h]

theorem sframeLine_eq {r : Rules} (hc : Fits32 r.cfa) (hr : Fits32 r.ra) (hf : ∀ x, r.fp = some x → Fits32 x) :
    "    sframe: " ++ FrameRowOffsets.text (legacyStored r).2 = sframeLine r := by
  obtain ⟨base, cfa, fp, ra⟩ := r
  unfold legacyStored FrameRowOffsets.text sframeLine
  simp only
  rw [fmtInt_ofInt hc]
  have h2 : optionText (some (BitVec.ofInt 32 ra)) = "Some(" ++ (intText ra ++ ")") := by
    unfold optionText
    simp only
    rw [fmtInt_ofInt hr]
  rw [h2]
  have h1 : optionText (fp.map (BitVec.ofInt 32)) = placeText fp := by
    cases fp with
    | none => rfl
    | some x => simp only [Option.map_some, optionText, placeText]; rw [fmtInt_ofInt (hf x rfl)]
  rw [h1]
  have ha : "    sframe: FrameRowOffsets { cfa: " = "    sframe: " ++ "FrameRowOffsets { cfa: " := by decide +kernel
  have hb : ", ra: Some(" = ", ra: " ++ "Some(" := by decide +kernel
  have hc : "), fp: " = ")" ++ ", fp: " := by decide +kernel
  rw [ha, hb, hc]
  simp only [String.append_assoc]

theorem legacyFp_fits {row : DwRow} {fp : Option Int} (h : legacyFp row = some fp) : ∀ x, fp = some x → Fits32 x := by
  unfold legacyFp at h
  intro x hx
  subst hx
  split at h
  · split at h
    · cases h; assumption
    · cases h
  · cases h

theorem legacyCfaT_cases (row : DwRow) :
    (∃ n, legacyCfaT row = .error n ∧ legacyCfaNote row = some n ∧ cfaRules .amd64 row = none) ∨
    (∃ b o, legacyCfaT row = .ok (b, o) ∧ i32TryFromI64 o = none ∧ legacyCfaNote row = some (.cfaOffset o) ∧
      cfaRules .amd64 row = none) ∨
    (∃ b o, legacyCfaT row = .ok (b, o) ∧ i32TryFromI64 o = some (BitVec.ofInt 32 o.toInt) ∧ Fits32 o.toInt ∧
      legacyCfaNote row = none ∧ cfaRules .amd64 row = some (b, o.toInt)) := by
  rw [legacyCfa_eq, ← legacyCfaT_eq]
  unfold legacyCfaT legacyCfaNote
  cases row.cfa with
  | expression e => exact .inl ⟨_, rfl, rfl, rfl⟩
  | registerAndOffset r o =>
    simp only
    have h6 : r = Reg.X86_64_RBP ↔ r.toNat = 6 := by
      rw [← BitVec.toNat_inj]; rfl
    have h7 : r = Reg.X86_64_RSP ↔ r.toNat = 7 := by
      rw [← BitVec.toNat_inj]; rfl
    by_cases h1 : r = Reg.X86_64_RBP
    · rw [if_pos h1, if_neg (fun h => h.1 (h6.1 h1))]
      by_cases hf : Fits32 o.toInt
      · refine .inr (.inr ⟨.fp, o, rfl, ?_, hf, ?_, ?_⟩)
        · rw [i32TryFromI64_eq, if_pos hf]
        · rw [if_pos hf]
        · simp [Except.toOption, hf]
      · refine .inr (.inl ⟨.fp, o, rfl, ?_, ?_, ?_⟩)
        · rw [i32TryFromI64_eq, if_neg hf]
        · rw [if_neg hf]
        · simp [Except.toOption, hf]
    · rw [if_neg h1]
      by_cases h2 : r = Reg.X86_64_RSP
      · rw [if_pos h2, if_neg (fun h => h.2 (h7.1 h2))]
        by_cases hf : Fits32 o.toInt
        · refine .inr (.inr ⟨.sp, o, rfl, ?_, hf, ?_, ?_⟩)
          · rw [i32TryFromI64_eq, if_pos hf]
          · rw [if_pos hf]
          · simp [Except.toOption, hf]
        · refine .inr (.inl ⟨.sp, o, rfl, ?_, ?_, ?_⟩)
          · rw [i32TryFromI64_eq, if_neg hf]
          · rw [if_neg hf]
          · simp [Except.toOption, hf]
      · rw [if_neg h2, if_pos ⟨fun h => h1 (h6.2 h), fun h => h2 (h7.2 h)⟩]
        exact .inl ⟨_, rfl, rfl, rfl⟩

theorem legacyFpT_cases {row : DwRow} (hp : Printable row) :
    (∃ n, legacyFpT row = (fpMessage row, .ok (.error n)) ∧ legacyFpNote row = some n ∧ legacyFp row = none) ∨
    (∃ fp, legacyFpT row = (fpMessage row, .ok (.ok (fp.map (BitVec.ofInt 32)))) ∧ legacyFpNote row = none ∧
      legacyFp row = some fp) := by
  have hf := hp.format Reg.X86_64_RBP
  have h6 : Reg.X86_64_RBP = (6 : Reg) := rfl
  unfold legacyFpT legacyFpNote legacyFp fpMessage
  rw [h6] at hf ⊢
  cases hr : row.register 6 with
  | offset o =>
    simp only [i32TryFromI64_eq]
    by_cases hf : Fits32 o.toInt
    · simp only [if_pos hf]; exact .inr ⟨some o.toInt, rfl, by trivial, by trivial⟩
    · simp only [if_neg hf]; exact .inl ⟨_, rfl, by trivial, by trivial⟩
  | undefined => exact .inr ⟨none, rfl, rfl, rfl⟩
  | _ =>
    rw [hr] at hf
    refine .inr ⟨none, ?_, rfl, rfl⟩
    simp only [hf]
    rfl

theorem legacyRaT_cases {row : DwRow} (hp : Printable row) :
    (∃ n, legacyRaT row = ([], .ok (.error n)) ∧ legacyRaNote row = some n ∧ raRules .amd64 row = none) ∨
    (∃ ra, legacyRaT row = ([], .ok (.ok (BitVec.ofInt 32 ra))) ∧ legacyRaNote row = none ∧
      raRules .amd64 row = some ra) := by
  have hf := hp.format Reg.X86_64_RA
  have h16 : Reg.X86_64_RA = (16 : Reg) := rfl
  have h16' : (BitVec.ofNat 16 (raNum .amd64)) = (16 : Reg) := rfl
  unfold legacyRaT legacyRaNote raRules
  rw [h16'] 
  rw [h16] at hf ⊢
  cases hr : row.register 16 with
  | offset o =>
    simp only [i32TryFromI64_eq]
    by_cases hf : Fits32 o.toInt
    · simp only [if_pos hf]; exact .inr ⟨o.toInt, rfl, by trivial, by trivial⟩
    · simp only [if_neg hf]; exact .inl ⟨_, rfl, by trivial, by trivial⟩
  | _ =>
    rw [hr] at hf
    refine .inl ⟨_, ?_, rfl, rfl⟩
    simp only [hf]
    rfl

/-- The closure, with what it prints. -/
theorem legacyTryT_cases {row : DwRow} (hp : Printable row) (start : U32) (sfde : FuncDescBuilder) :
    (∃ n, legacyTranslate row = none ∧ legacyComplaint row = some n ∧
      legacyTryT start row sfde = (legacyFpMessage row, .ok (.error n))) ∨
    (∃ r, legacyTranslate row = some r ∧ legacyComplaint row = none ∧
      legacyTryT start row sfde = (legacyFpMessage row ++ [.out (sframeLine r)],
        .ok (match sfde.row (FrameRowBuilder.new (legacyStored r).1 start (legacyStored r).2) with
          | .ok s => .ok s
          | .error e => .error (.add e)))) := by
  unfold legacyTranslate legacyComplaint legacyFpMessage
  rcases legacyCfaT_cases row with ⟨n, h1, h2, h3⟩ | ⟨b, o, h1, h1', h2, h3⟩ | ⟨b, o, h1, h1', hfit, h2, h3⟩
  · refine .inl ⟨n, by rw [h3]; rfl, by rw [h2]; rfl, ?_⟩
    unfold legacyTryT
    rw [h1, h2]
    rfl
  · refine .inl ⟨_, by rw [h3]; rfl, by rw [h2]; rfl, ?_⟩
    unfold legacyTryT
    rw [h1, h2]
    show (match i32TryFromI64 o with
      | none => Shown.pure (Except.error (RowNote.cfaOffset o))
      | some cfa => legacyRestT start row sfde b cfa) = _
    rw [h1']
    rfl
  · have h0 : legacyTryT start row sfde = legacyRestT start row sfde b (BitVec.ofInt 32 o.toInt) := by
      unfold legacyTryT
      rw [h1]
      show (match i32TryFromI64 o with
        | none => Shown.pure (Except.error (RowNote.cfaOffset o))
        | some cfa => legacyRestT start row sfde b cfa) = _
      rw [h1']
    rw [h0, h2, h3, if_pos rfl]
    unfold legacyRestT
    rcases legacyFpT_cases hp with ⟨n, h4, h5, h6⟩ | ⟨fp, h4, h5, h6⟩
    · rw [h4, h5, h6]
      refine .inl ⟨n, rfl, rfl, ?_⟩
      rw [Shown.ok_bind]
      simp [Shown.after, Shown.pure]
    · rw [h4, h5, h6, Shown.ok_bind]
      simp only
      rcases legacyRaT_cases hp with ⟨n, h7, h8, h9⟩ | ⟨ra, h7, h8, h9⟩
      · rw [h7, h8, h9]
        refine .inl ⟨n, rfl, rfl, ?_⟩
        rw [Shown.ok_bind]
        simp [Shown.after, Shown.pure]
      · rw [h7, h8, h9, Shown.ok_bind]
        refine .inr ⟨_, rfl, rfl, ?_⟩
        rw [← sframeLine_eq (r := { base := b, cfa := o.toInt, fp := fp, ra := ra }) hfit (raRules_fits h9) (legacyFp_fits h6)]
        simp only
        unfold legacyAddT legacyStored
        rw [Shown.say_bind]
        simp only
        cases sfde.row (FrameRowBuilder.new b start
          { cfa := BitVec.ofInt 32 o.toInt, fp := fp.map (BitVec.ofInt 32), ra := some (BitVec.ofInt 32 ra) }) with
        | ok s => simp [Shown.after, Shown.pure]
        | error e => simp [Shown.after, Shown.pure]

/-! ### Adding a row -/

theorem settled_iff {fde : DwFde} {rs : List DwRow} :
    Settled fde rs ↔ (∀ r ∈ rs, Printable r) ∧ Clean legacyOptions .amd64 fde (rs.map tidy) := by
  constructor
  · rintro ⟨h1, h2, h3⟩
    refine ⟨h1, ?_, ?_⟩
    · rw [live_tidy]
      intro r hr
      obtain ⟨r, hr', rfl⟩ := List.mem_map.1 hr
      obtain ⟨a, b, c⟩ := h2 r hr'
      exact ⟨a, b, c, nofun⟩
    · rw [live_tidy, List.pairwise_map]
      exact h3
  · rintro ⟨h1, h2, h3⟩
    rw [live_tidy] at h2 h3
    rw [List.pairwise_map] at h3
    refine ⟨h1, fun r hr => ?_, h3⟩
    have := h2 (tidy r) (List.mem_map_of_mem hr)
    exact ⟨this.after, this.inside, this.small⟩

/-- What becomes of a row depends on its place. -/
theorem row_misplacement {fde : DwFde} {rs : List DwRow} {row : DwRow} {x : FrameRowBuilder}
    (hg : Good legacyOptions .amd64 fde (rs.map tidy)) (hlen : fde.len.toNat ≤ i32Max) (hn : Near fde row)
    (hx : x.startAddress = BitVec.ofNat 32 (row.start.toNat - fde.initial.toNat)) :
    (∀ e, misplacement fde rs row = some e →
      (built legacyOptions .amd64 fde (rs.map tidy)).row x = .error e) ∧
    (misplacement fde rs row = none → ∃ f, (built legacyOptions .amd64 fde (rs.map tidy)).row x = .ok f) := by
  have hst : x.startAddress.toNat = row.start.toNat - fde.initial.toNat := by
    rw [hx, BitVec.toNat_ofNat]
    have := hn.2
    omega
  have hsz : (built legacyOptions .amd64 fde (rs.map tidy)).size.toNat = fde.len.toNat := by
    show (fde.len.setWidth 32).toNat = _
    rw [BitVec.toNat_setWidth]
    unfold i32Max at hlen
    omega
  have hrep : (built legacyOptions .amd64 fde (rs.map tidy)).repSize = none := rfl
  have hopt : (built legacyOptions .amd64 fde (rs.map tidy)).options = legacyOptions := rfl
  have hra : (x.offsets.all fun y => fixedAllows legacyOptions.fixedRa y.ra) = true := by
    cases x.offsets <;> rfl
  have hfp : (x.offsets.all fun y => fixedAllows legacyOptions.fixedFp y.fp) = true := by
    cases x.offsets <;> rfl
  have hnear : ∀ r ∈ rs, Near fde (tidy r) := fun r hr =>
    (hg.clean.placed (tidy r) (by rw [live_tidy]; exact List.mem_map_of_mem hr)).near
  have hdup : ((rows (built legacyOptions .amd64 fde (rs.map tidy))).all fun r' =>
        decide (r'.startAddress ≠ x.startAddress)) = true ↔ row.start ∉ rs.map DwRow.start := by
    have hp := hg.perm
    rw [live_tidy] at hp
    have hrow : x.startAddress = (rowOf .amd64 fde (tidy row)).startAddress := hx
    simp only [List.all_eq_true, decide_eq_true_eq]
    constructor
    · intro h hm
      obtain ⟨r', hr', heq⟩ := List.mem_map.1 hm
      refine h (storedRow legacyOptions (rowOf .amd64 fde (tidy r')))
        (hp.mem_iff.2 (List.mem_map_of_mem (f := fun r => storedRow legacyOptions (rowOf .amd64 fde r))
          (List.mem_map_of_mem hr'))) ?_
      rw [hrow]
      exact (start_eq_iff (arch := .amd64) (r' := tidy row) (hnear r' hr') hn).2 heq
    · intro h y hy heq
      obtain ⟨z, hz, rfl⟩ := List.mem_map.1 (hp.mem_iff.1 hy)
      obtain ⟨r', hr', rfl⟩ := List.mem_map.1 hz
      rw [hrow] at heq
      exact h (List.mem_map.2 ⟨r', hr', (start_eq_iff (arch := .amd64) (r' := tidy row) (hnear r' hr') hn).1 heq⟩)
  have hcases := rowError_cases (built legacyOptions .amd64 fde (rs.map tidy)) x
  have hspec := row_spec hg.inv x
  rw [hrep, hopt, hsz, hst] at hcases
  have heq : rowError (built legacyOptions .amd64 fde (rs.map tidy)) x = misplacement fde rs row := by
    rw [hcases]
    unfold misplacement
    by_cases h1 : row.start.toNat - fde.initial.toNat < 2 ^ 28
    case neg => rw [if_pos h1, if_pos (by omega)]
    rw [if_neg (by simpa using h1), if_neg (by simp), if_neg (c := 2 ^ 28 ≤ _) (by omega)]
    by_cases h2 : row.start.toNat - fde.initial.toNat < fde.len.toNat
    case neg => rw [if_pos h2, if_pos (by omega)]
    rw [if_neg (fun h => h h2), if_neg (by simpa using hra), if_neg (by simpa using hfp), if_neg (c := fde.len.toNat ≤ _) (by omega)]
    by_cases h3 : row.start ∈ rs.map DwRow.start
    · rw [if_pos h3, if_pos (fun h => hdup.1 h h3)]
    · rw [if_neg h3, if_neg (fun h => h (hdup.2 h3))]
  rw [heq] at hspec
  constructor
  · intro e he
    rw [hspec, he]
  · intro he
    rw [hspec, he]
    exact ⟨_, rfl⟩

theorem settled_snoc {fde : DwFde} {rs : List DwRow} {row : DwRow} (hs : Settled fde rs) (hp : Printable row)
    (hn : Near fde row) (hm : misplacement fde rs row = none) : Settled fde (rs ++ [row]) := by
  unfold misplacement at hm
  split at hm
  · cases hm
  split at hm
  · cases hm
  split at hm
  · cases hm
  rename_i h1 h2 h3
  have hle := hn.1
  refine ⟨?_, ?_, ?_⟩
  · intro r hr
    rcases List.mem_append.1 hr with hr | hr
    · exact hs.printable r hr
    · cases List.mem_singleton.1 hr; exact hp
  · intro r hr
    rcases List.mem_append.1 hr with hr | hr
    · exact hs.inside r hr
    · cases List.mem_singleton.1 hr
      refine ⟨hle, ?_, ?_⟩ <;> omega
  · rw [List.pairwise_append]
    refine ⟨hs.distinct, List.pairwise_singleton _ _, ?_⟩
    intro a ha b hb heq
    cases List.mem_singleton.1 hb
    exact h3 (List.mem_map.2 ⟨a, ha, heq⟩)

theorem legacyRowT_cases {fde : DwFde} {rs : List DwRow} {row : DwRow} (hi : fde.initial.toNat ≤ i32Max)
    (hlen : fde.len.toNat ≤ i32Max) (hs : Settled fde rs) (hp : Printable row) (hn : Near fde row) :
    (Settled fde (rs ++ [row]) ∧
      legacyRowT (BitVec.ofNat 32 (row.start.toNat - fde.initial.toNat)) row
        (built legacyOptions .amd64 fde (rs.map tidy)) =
      (legacyOutcome row, .ok (.ok (built legacyOptions .amd64 fde ((rs ++ [row]).map tidy))))) ∨
    (∃ e, misplacement fde rs row = some e ∧
      legacyRowT (BitVec.ofNat 32 (row.start.toNat - fde.initial.toNat)) row
        (built legacyOptions .amd64 fde (rs.map tidy)) =
      (legacyOutcome row ++ (if (legacyTranslate row).isSome then [.note (.add e)] else []), .ok (.error e))) := by
  have hg := (good_iff legacyOptions_fp hi hlen).2 (settled_iff.1 hs).2
  have hT : ∀ start sfde, legacyRowT start row sfde = (legacyTryT start row sfde).bind fun
      | .ok sfde => Shown.pure (.ok sfde)
      | .error n => (Shown.say [.note n]).bind fun _ => Shown.pure (sfde.row (FrameRowBuilder.invalid start)) :=
    fun _ _ => rfl
  cases hm : misplacement fde rs row with
  | some e =>
    refine .inr ⟨e, rfl, ?_⟩
    have hinv := (row_misplacement (x := FrameRowBuilder.invalid
      (BitVec.ofNat 32 (row.start.toNat - fde.initial.toNat))) hg hlen hn rfl).1 e hm
    rw [hT]
    unfold legacyOutcome
    rcases legacyTryT_cases hp (BitVec.ofNat 32 (row.start.toNat - fde.initial.toNat))
      (built legacyOptions .amd64 fde (rs.map tidy)) with ⟨n, h1, h2, h3⟩ | ⟨r, h1, h2, h3⟩
    · rw [h3, h1, h2, Shown.ok_bind]
      simp only [Shown.say_bind, hinv]
      simp [Shown.after, Shown.pure]
    · rw [(row_misplacement hg hlen hn rfl).1 e hm] at h3
      rw [h3, h1, Shown.ok_bind]
      simp only [Shown.say_bind, hinv]
      simp [Shown.after, Shown.pure]
  | none =>
    have hs' := settled_snoc hs hp hn hm
    refine .inl ⟨hs', ?_⟩
    have h2 : (legacyRowT (BitVec.ofNat 32 (row.start.toNat - fde.initial.toNat)) row
        (built legacyOptions .amd64 fde (rs.map tidy))).2 =
        .ok (.ok (built legacyOptions .amd64 fde ((rs ++ [row]).map tidy))) := by
      rw [legacyRowT_snd, List.map_append]
      rcases legacyRow_cases hp hg hlen hn with ⟨_, h⟩ | ⟨h, _⟩
      · exact h
      · exact absurd (by simpa using (settled_iff.1 hs').2) h
    refine Prod.ext ?_ h2
    obtain ⟨f, hf⟩ := (row_misplacement (x := FrameRowBuilder.invalid
      (BitVec.ofNat 32 (row.start.toNat - fde.initial.toNat))) hg hlen hn rfl).2 hm
    rw [hT]
    unfold legacyOutcome
    rcases legacyTryT_cases hp (BitVec.ofNat 32 (row.start.toNat - fde.initial.toNat))
      (built legacyOptions .amd64 fde (rs.map tidy)) with ⟨n, h1, h2, h3⟩ | ⟨r, h1, h2, h3⟩
    · rw [h3, h1, h2, Shown.ok_bind]
      simp only [Shown.say_bind]
      simp [Shown.after, Shown.pure]
    · obtain ⟨f', hf'⟩ := (row_misplacement (x := FrameRowBuilder.new (legacyStored r).1
        (BitVec.ofNat 32 (row.start.toNat - fde.initial.toNat)) (legacyStored r).2) hg hlen hn rfl).2 hm
      rw [hf'] at h3
      rw [h3, h1, Shown.ok_bind]
      simp [Shown.after, Shown.pure]

/-! ### The rows of a function -/

/-- The end of the loop over the rows. -/
inductive RowsTrail (dbg : Bool) (t : LegacyText) (a : ObjArch) (fde : DwFde) (rs : List DwRow) :
    List (Except GErr DwRow) → List Event1 → Rust LegacyError → Prop
  | undecodable (e rest) : RowsTrail dbg t a fde rs (.error e :: rest) [] (.ok (.nextRow e))
  | far (row rest) : ¬ Near fde row → RowsTrail dbg t a fde rs (.ok row :: rest) []
      (if dbg = true ∧ row.start.toNat < fde.initial.toNat then .panic .overflow else .ok .rowOffset)
  | badCfa (row rest e) : Near fde row → row.cfa = .expression e → ¬ Decodable e →
      RowsTrail dbg t a fde rs (.ok row :: rest) [.out (offsetLine1 row)] (.panic .unwrap)
  | badRule (row rest xs r e ys) : Near fde row → Printable { row with registers := xs } →
      row.registers = xs ++ (r, .expression e) :: ys → ¬ Decodable e →
      RowsTrail dbg t a fde rs (.ok row :: rest) ((legacyLines t a { row with registers := xs }).map .out ++
        [.part ("    reg:    " ++ (regText t.name r ++ " = "))]) (.panic .explicit)
  | misplaced (row rest e) : Near fde row → Printable row → misplacement fde rs row = some e →
      RowsTrail dbg t a fde rs (.ok row :: rest) (legacyRowEvents t a row ++
        if (legacyTranslate row).isSome then [.note (.add e)] else []) (.ok (.row e))

theorem legacyRowsT_cons (dbg : Bool) (t : LegacyText) (a : ObjArch) (fde : DwFde) (row : DwRow)
    (xs : List (Except GErr DwRow)) (sfde : FuncDescBuilder) :
    legacyRowsT dbg t a fde (.ok row :: xs) sfde =
      (Shown.lift (rowStart dbg fde row)).bind fun
      | .error _ => Shown.pure (.error .rowOffset)
      | .ok start =>
        (t.rowT a row).bind fun _ =>
        (legacyRowT start row sfde).bind fun
        | .error e => Shown.pure (.error (.row e))
        | .ok sfde => legacyRowsT dbg t a fde xs sfde := by
  rw [legacyRowsT]
  unfold rowStart
  cases subU64 dbg row.start fde.initial with
  | panic p => rfl
  | diverge => rfl
  | ok d =>
    rw [Shown.lift_ok, Rust.bind_ok]
    cases u32TryFromU64 d with
    | none => rfl
    | some start =>
      simp only
      by_cases h : start.toNat < i32Max
      · rw [if_pos h, if_pos h, Shown.lift_ok]
        rfl
      · rw [if_neg h, if_neg h]
        rfl

theorem legacyRowsT_cases (dbg : Bool) (t : LegacyText) (a : ObjArch) {fde : DwFde} (xs : List (Except GErr DwRow))
    (rs : List DwRow) (hi : fde.initial.toNat ≤ i32Max) (hlen : fde.len.toNat ≤ i32Max) (hs : Settled fde rs) :
    (∃ rs' : List DwRow, xs = rs'.map .ok ∧ Settled fde (rs ++ rs') ∧
      legacyRowsT dbg t a fde xs (built legacyOptions .amd64 fde (rs.map tidy)) =
        (rs'.flatMap (legacyRowEvents t a), .ok (.ok (built legacyOptions .amd64 fde ((rs ++ rs').map tidy))))) ∨
    (∃ (rs' : List DwRow) (ys : List (Except GErr DwRow)) (es : List Event1) (r : Rust LegacyError),
      xs = rs'.map .ok ++ ys ∧ Settled fde (rs ++ rs') ∧ RowsTrail dbg t a fde (rs ++ rs') ys es r ∧
      legacyRowsT dbg t a fde xs (built legacyOptions .amd64 fde (rs.map tidy)) =
        (rs'.flatMap (legacyRowEvents t a) ++ es, r.bind fun e => .ok (.error e))) := by
  induction xs generalizing rs with
  | nil => exact .inl ⟨[], rfl, by simpa using hs, by simp [legacyRowsT, Shown.pure]⟩
  | cons x xs ih =>
    cases x with
    | error e =>
      exact .inr ⟨[], _, [], _, rfl, by simpa using hs, .undecodable e xs, rfl⟩
    | ok row =>
      have stop : ∀ es r, RowsTrail dbg t a fde rs (.ok row :: xs) es r →
          legacyRowsT dbg t a fde (.ok row :: xs) (built legacyOptions .amd64 fde (rs.map tidy)) =
            (es, r.bind fun e => .ok (.error e)) →
          ∃ (rs' : List DwRow) (ys : List (Except GErr DwRow)) (es : List Event1) (r : Rust LegacyError),
            .ok row :: xs = rs'.map .ok ++ ys ∧ Settled fde (rs ++ rs') ∧ RowsTrail dbg t a fde (rs ++ rs') ys es r ∧
            legacyRowsT dbg t a fde (.ok row :: xs) (built legacyOptions .amd64 fde (rs.map tidy)) =
              (rs'.flatMap (legacyRowEvents t a) ++ es, r.bind fun e => .ok (.error e)) := by
        intro es r h1 h2
        exact ⟨[], _, es, r, rfl, by simpa using hs, by simpa using h1, h2⟩
      rw [legacyRowsT_cons] at stop ⊢
      rcases rowStart_cases dbg fde row hi with ⟨h1, h2, h3⟩ | ⟨h1, h2, h3⟩ | ⟨h1, hn⟩
      · refine .inr (stop _ _ (.far row xs h3) ?_)
        have hlt : row.start.toNat < fde.initial.toNat := by
          rcases Nat.lt_or_ge row.start.toNat fde.initial.toNat with h | h
          · exact h
          · exfalso
            unfold rowStart at h1
            rcases subU64_cases dbg row.start fde.initial with ⟨_, _, h4⟩ | ⟨h4, _⟩
            · omega
            · rw [h4, Rust.bind_ok] at h1
              cases hu : u32TryFromU64 (row.start - fde.initial) with
              | none => rw [hu] at h1; cases h1
              | some s =>
                rw [hu] at h1
                simp only at h1
                split at h1 <;> cases h1
        rw [h1, if_pos ⟨h2, hlt⟩]
        rfl
      · refine .inr (stop _ _ (.far row xs h2) ?_)
        rw [h1, if_neg h3]
        rfl
      · rw [h1, Shown.lift_ok] at stop ⊢
        simp only at stop ⊢
        rcases rowT_cases t a row with ⟨hp, h2⟩ | ⟨e, h2, h3, h4⟩ | ⟨ys, r, e, zs, h2, h3, h4, h5⟩
        · rw [h2, Shown.ok_bind] at stop ⊢
          rcases legacyRowT_cases hi hlen hs hp hn with ⟨hs', h3⟩ | ⟨e, h3, h4⟩
          · rw [h3, Shown.ok_bind, Shown.after_after]
            simp only
            have hcat : ∀ rs' : List DwRow, rs ++ [row] ++ rs' = rs ++ row :: rs' := by simp
            rcases ih _ hs' with ⟨rs', hx, h4, h5⟩ | ⟨rs', ys, es, r, hx, h4, h5, h6⟩
            · rw [hcat] at h4 h5
              refine .inl ⟨row :: rs', by rw [hx]; rfl, h4, ?_⟩
              rw [h5]
              rfl
            · rw [hcat] at h4 h5
              refine .inr ⟨row :: rs', ys, es, r, by rw [hx]; rfl, h4, h5, ?_⟩
              rw [h6]
              simp [Shown.after, legacyRowEvents]
          · refine .inr (stop _ _ (.misplaced row xs e hn hp h3) ?_)
            rw [h4, Shown.ok_bind, Shown.after_after]
            simp [Shown.after, legacyRowEvents, Shown.pure]
        · refine .inr (stop _ _ (.badCfa row xs e hn h2 h3) ?_)
          rw [h4]
          rfl
        · refine .inr (stop _ _ (.badRule row xs ys r e zs hn h2 h3 h4) ?_)
          rw [h5]
          rfl

/-! ### One function -/

theorem legacyFdeT_eq (dbg : Bool) (t : LegacyText) (a : ObjArch) (b : SFrameBuilder) {fde : DwFde}
    {xs : List (Except GErr DwRow)} (hi : fde.initial.toNat ≤ i32Max) (hlen : fde.len.toNat ≤ i32Max)
    (hr : fde.rows = .ok xs) :
    legacyFdeT dbg t a b fde = Shown.after ((legacyCode t fde).map .out)
      (match dumpError fde with
      | some e => Shown.pure (.error (.dump e))
      | none => Shown.after [.out "", .out "Rows:"]
        ((legacyRowsT dbg t a fde xs (FuncDescBuilder.new b.options (fde.initial.setWidth 32) (fde.len.setWidth 32))).bind fun
        | .error e => Shown.pure (.error e)
        | .ok sfde =>
          (Shown.lift sfde.mergeAdjacentFres).bind fun sfde =>
          (Shown.lift (b.fde sfde)).bind fun sframe =>
          (Shown.say [.out ""]).bind fun _ => Shown.pure (.ok sframe))) := by
  unfold legacyFdeT
  rw [if_neg (by omega), if_neg (by omega)]
  simp only [hr]
  have hadd : addU64 dbg fde.initial fde.len = .ok (fde.initial + fde.len) := by
    rcases addU64_cases dbg fde.initial fde.len with ⟨_, _, h⟩ | ⟨h, _⟩
    · unfold i32Max at hi hlen; omega
    · exact h
  rw [hadd, Shown.say_bind, Shown.lift_ok, Shown.say_bind, Shown.say_bind, Shown.after_after, Shown.after_after]
  rw [C84_control, dump_eq]
  have h0 : (legacyCode t fde).map Event1.out = [Event1.out "FDE:", .out (" start_address: " ++ fmtAltHexPad 10 fde.initial.toNat)] ++
      [.out ("    range_size: " ++ (fmtAltHexPad 10 fde.len.toNat ++ (" (end_addr = " ++
        (fmtAltHexPad 10 (fde.initial + fde.len).toNat ++ ")"))))] ++
      ("  Instructions:" :: (listInstructions true t.name t.error fde.instructions).1).map .out := by
    simp [legacyCode, reportTop]
  rw [h0]
  cases dumpError fde with
  | some e => rfl
  | none => rfl

theorem legacyFdeT_cases (dbg : Bool) (t : LegacyText) (a : ObjArch) (bases : Bases) (b : SFrameBuilder) (fde : DwFde)
    (hb : b.options = legacyOptions) :
    (LegacyConvertible fde ∧
      legacyFdeT dbg t a b fde = (legacyFdeEvents t a fde, .ok (.ok (b.more (legacyLike bases) [tidyFde fde])))) ∨
    (∃ es r, Trail1 dbg t a (.ok fde) es r ∧ legacyFdeT dbg t a b fde = (es, r.bind fun e => .ok (.error e))) := by
  by_cases hi : fde.initial.toNat ≤ i32Max
  case neg =>
    refine .inr ⟨_, _, .start fde (by unfold i32Max at hi; omega), ?_⟩
    unfold legacyFdeT
    rw [if_pos (by omega)]
    rfl
  by_cases hlen : fde.len.toNat ≤ i32Max
  case neg =>
    refine .inr ⟨_, _, .len fde hi (by unfold i32Max at hlen; omega), ?_⟩
    unfold legacyFdeT
    rw [if_neg (by omega), if_pos (by omega)]
    rfl
  cases hr : fde.rows with
  | error e =>
    refine .inr ⟨_, _, .rows fde e hi hlen hr, ?_⟩
    unfold legacyFdeT
    rw [if_neg (by omega), if_neg (by omega)]
    simp only [hr]
    rfl
  | ok xs =>
    have heq := legacyFdeT_eq dbg t a b hi hlen hr
    cases hd : dumpError fde with
    | some e =>
      refine .inr ⟨_, _, .dump fde xs e hi hlen hr hd, ?_⟩
      rw [heq, hd]
      simp [Shown.after, Shown.pure]
    | none =>
      rw [hd, hb, FuncDescBuilder.new_eq_built legacyOptions .amd64 fde] at heq
      simp only [Shown.after_after] at heq
      have hhead : (legacyCode t fde).map Event1.out ++ [.out "", .out "Rows:"] =
          (legacyCode t fde ++ ["", "Rows:"]).map .out := by simp
      rw [hhead] at heq
      rcases legacyRowsT_cases dbg t a xs [] hi hlen ⟨nofun, nofun, .nil⟩ with
        ⟨rs, hx, hs, h⟩ | ⟨rs, ys, es, r, hx, hs, ht, h⟩
      · have hrs : rowsOf fde = rs := rowsOf_map (by rw [hr, hx])
        rw [List.nil_append] at hs h
        have hlc : LegacyConvertible fde :=
          ⟨hi, hlen, hd, by rw [hrs, hr, hx], by rw [hrs]; exact hs.printable, by rw [hrs]; exact hs.inside,
            by rw [hrs]; exact hs.distinct⟩
        refine .inl ⟨hlc, Prod.ext ?_ ?_⟩
        · have h2 := legacyFdeT_snd dbg t a b fde
          rw [(legacyFde_iff bases hb).2 ⟨hlc, rfl⟩] at h2
          rw [heq] at h2 ⊢
          rw [List.map_nil] at h
          rw [h, Shown.ok_bind] at h2 ⊢
          simp only [Shown.after_after] at h2 ⊢
          unfold legacyFdeEvents
          rw [hrs]
          cases hm : (built legacyOptions .amd64 fde (rs.map tidy)).mergeAdjacentFres with
          | panic p => rw [hm] at h2; cases h2
          | diverge => rw [hm] at h2; cases h2
          | ok s =>
            rw [hm, Shown.lift_ok] at h2
            rw [Shown.lift_ok]
            cases hf : b.fde s with
            | panic p => rw [hf] at h2; cases h2
            | diverge => rw [hf] at h2; cases h2
            | ok s' => rfl
        · rw [legacyFdeT_snd]
          exact (legacyFde_iff bases hb).2 ⟨hlc, rfl⟩
      · rw [List.nil_append] at hs ht
        rw [List.map_nil] at h
        have hread : TableRead fde (rs.map .ok ++ ys) := ⟨hi, hlen, by rw [hr, hx], hd⟩
        refine .inr ⟨legacyPart t a fde rs ++ es, r, ?_, ?_⟩
        · cases ht with
          | undecodable e rest => rw [List.append_nil]; exact .undecodable fde rs e rest hread hs
          | far row rest hn => rw [List.append_nil]; exact .far fde rs row rest hread hs hn
          | badCfa row rest e hn h1 h2 => exact .badCfa fde rs row rest e hread hs hn h1 h2
          | badRule row rest zs x e ws hn h1 h2 h3 => exact .badRule fde rs row rest zs x e ws hread hs hn h1 h2 h3
          | misplaced row rest e hn h1 h2 => exact .misplaced fde rs row rest e hread hs hn h1 h2
        · rw [heq, h]
          cases r with
          | ok e => simp [Rust.bind, Shown.bind, Shown.after, Shown.pure, legacyPart]
          | panic p => simp [Rust.bind, Shown.bind, Shown.after, legacyPart]
          | diverge => simp [Rust.bind, Shown.bind, Shown.after, legacyPart]

/-! ### The section -/

theorem legacyEntriesT_cases (dbg : Bool) (t : LegacyText) (a : ObjArch) {eh : EhFrame} {bases : Bases}
    (es : List (Except GErr Entry)) (cies : List (Nat × Except GErr Cie)) (b : SFrameBuilder)
    (hc : CacheOk (Options.new .amd64 bases) eh cies) (hb : b.options = legacyOptions) :
    (∃ fdes : List DwFde, inputs { eh with entries := fun _ => es } bases = fdes.map .ok ∧
      (∀ fde ∈ fdes, LegacyConvertible fde) ∧
      legacyEntriesT dbg t a eh bases es cies b =
        (fdes.flatMap (legacyFdeEvents t a), .ok (.ok (b.more (legacyLike bases) (fdes.map tidyFde))))) ∨
    (∃ (fdes : List DwFde) (x : Except ConvError DwFde) (rest : List (Except ConvError DwFde)) (out : List Event1)
      (r : Rust LegacyError), inputs { eh with entries := fun _ => es } bases = fdes.map .ok ++ x :: rest ∧
      (∀ fde ∈ fdes, LegacyConvertible fde) ∧ Trail1 dbg t a x out r ∧
      legacyEntriesT dbg t a eh bases es cies b =
        (fdes.flatMap (legacyFdeEvents t a) ++ out, r.bind fun e => .ok (.error e))) := by
  induction es generalizing cies b with
  | nil => exact .inl ⟨[], rfl, by simp, rfl⟩
  | cons x es ih =>
    cases x with
    | error e => exact .inr ⟨[], _, _, [], _, rfl, by simp, .entry e, rfl⟩
    | ok x =>
      cases x with
      | cie => exact ih cies b hc hb
      | fde off parse =>
        obtain ⟨h1, h2⟩ := lookupCie_ok hc off
        have h1 : (lookupCie (Options.new .amd64 bases) eh cies off).1 = eh.cieFromOffset bases off := h1
        rw [legacyEntriesT, h1]
        cases hp : parse (eh.cieFromOffset bases off) with
        | error e =>
          have hin : inputs { eh with entries := fun _ => .ok (.fde off parse) :: es } bases =
              .error (.invalidDwarfFde e) :: inputs { eh with entries := fun _ => es } bases := by
            simp [inputs, hp]
          rw [hin]
          exact .inr ⟨[], _, _, [], _, rfl, by simp, .parse e, rfl⟩
        | ok fde =>
          have hin : inputs { eh with entries := fun _ => .ok (.fde off parse) :: es } bases =
              .ok fde :: inputs { eh with entries := fun _ => es } bases := by
            simp [inputs, hp]
          rw [hin]
          simp only
          rcases legacyFdeT_cases dbg t a bases b fde hb with ⟨hlc, h3⟩ | ⟨out, r, ht, h3⟩
          · rw [h3, Shown.ok_bind]
            simp only
            have hall : ∀ fdes : List DwFde, (∀ f ∈ fdes, LegacyConvertible f) →
                ∀ f ∈ fde :: fdes, LegacyConvertible f := by
              intro fdes h f hf
              rcases List.mem_cons.1 hf with rfl | hf
              · exact hlc
              · exact h f hf
            rcases ih _ (b.more (legacyLike bases) [tidyFde fde]) h2 hb with
              ⟨fdes, hx, h4, h5⟩ | ⟨fdes, x, rest, out, r, hx, h4, h5, h6⟩
            · refine .inl ⟨fde :: fdes, by rw [hx]; rfl, hall _ h4, ?_⟩
              rw [h5]
              rfl
            · refine .inr ⟨fde :: fdes, x, rest, out, r, by rw [hx]; rfl, hall _ h4, h5, ?_⟩
              rw [h6]
              simp [Shown.after]
          · refine .inr ⟨[], .ok fde, _, out, r, rfl, by simp, ht, ?_⟩
            rw [h3]
            cases r with
            | ok e => simp [Rust.bind, Shown.bind, Shown.pure]
            | panic p => rfl
            | diverge => rfl

/-- The legacy conversion with its output. -/
theorem legacyConvertT_cases (dbg : Bool) (t : LegacyText) (a : ObjArch) (eh : EhFrame) (bases : Bases) :
    (∃ fdes : List DwFde, inputs eh bases = fdes.map .ok ∧ (∀ fde ∈ fdes, LegacyConvertible fde) ∧
      legacyConvertT dbg t a eh bases = (fdes.flatMap (legacyFdeEvents t a),
        .ok (.ok (outputOf legacyOptions (legacyLike bases) (fdes.map tidyFde))))) ∨
    (∃ (fdes : List DwFde) (x : Except ConvError DwFde) (rest : List (Except ConvError DwFde)) (out : List Event1)
      (r : Rust LegacyError), inputs eh bases = fdes.map .ok ++ x :: rest ∧
      (∀ fde ∈ fdes, LegacyConvertible fde) ∧ Trail1 dbg t a x out r ∧
      legacyConvertT dbg t a eh bases =
        (fdes.flatMap (legacyFdeEvents t a) ++ out, r.bind fun e => .ok (.error e))) := by
  have hin : inputs { eh with entries := fun _ => eh.entries bases } bases = inputs eh bases := rfl
  have h := legacyEntriesT_cases dbg t a (eh := eh) (bases := bases) (eh.entries bases) []
    (SFrameBuilder.new legacyOptions) (by simp [CacheOk]) rfl
  rw [hin] at h
  unfold legacyConvertT
  rcases h with ⟨fdes, h1, h2, h3⟩ | ⟨fdes, x, rest, out, r, h1, h2, h3, h4⟩
  · refine .inl ⟨fdes, h1, h2, ?_⟩
    have hs := legacyConvertT_snd dbg t a eh bases
    rw [(legacyConvert_iff).2 ⟨fdes, h1, h2, rfl⟩] at hs
    unfold legacyConvertT at hs
    refine Prod.ext ?_ hs
    rw [h3, Shown.ok_bind] at hs ⊢
    simp only at hs ⊢
    generalize SFrameBuilder.mergeAdjacentFdes dbg _ = m at hs ⊢
    cases m with
    | panic p => cases hs
    | diverge => cases hs
    | ok m => exact List.append_nil _
  · refine .inr ⟨fdes, x, rest, out, r, h1, h2, h3, ?_⟩
    rw [h4]
    cases r with
    | ok e => simp [Rust.bind, Shown.bind, Shown.pure]
    | panic p => rfl
    | diverge => rfl

end Verif
