import Verif.Proofs.Report
import Verif.Props.Dwarfdump2
/-!
# C91–C93: what the converter prints
-/

namespace Verif

open Spec

/-! ### C91 -/

/-- **C91** The converter with its output gives the results of the converter. -/
theorem C91_result (dbg : Bool) (g : GimliText) (eh : EhFrame) (opts : Options) :
    (dwarf2sframeT dbg g eh opts).2 = dwarf2sframe dbg eh opts := by
  unfold dwarf2sframe
  rw [← dwarf2sframeT_result dbg g eh opts]
  obtain ⟨ls, (e | s) | p | _⟩ := dwarf2sframeT dbg g eh opts <;> rfl

/-- What is printed is printed by the loop over the entries, and the conversion succeeds if the loop does. -/
theorem dwarf2sframeT_loop (dbg : Bool) (g : GimliText) (eh : EhFrame) (opts : Options) :
    (dwarf2sframeT dbg g eh opts).1 =
      (convertInputsT dbg g opts (inputs eh opts.bases) (SFrameBuilder.new (sectionOptions eh opts))).1 := by
  rw [dwarf2sframeT_eq]
  generalize convertInputsT dbg g opts (inputs eh opts.bases) (SFrameBuilder.new (sectionOptions eh opts)) = t
  obtain ⟨ls, (e | s) | p | _⟩ := t
  · exact List.append_nil ls
  · show (ls ++ _) = ls
    refine (congrArg (ls ++ ·) ?_).trans (List.append_nil ls)
    dsimp only
    generalize (if opts.mergeFdes then s.mergeAdjacentFdes dbg else .ok s) = m
    cases m <;> rfl
  · rfl
  · rfl

theorem dwarf2sframeT_stop {dbg : Bool} {g : GimliText} {eh : EhFrame} {opts : Options}
    (h : ∀ b, (convertInputsT dbg g opts (inputs eh opts.bases)
      (SFrameBuilder.new (sectionOptions eh opts))).2 ≠ .ok (.ok b)) :
    ∀ b, (dwarf2sframeT dbg g eh opts).2 ≠ .ok (.ok b) := by
  rw [dwarf2sframeT_eq]
  generalize convertInputsT dbg g opts (inputs eh opts.bases) (SFrameBuilder.new (sectionOptions eh opts)) = t at h
  obtain ⟨ls, (e | s) | p | _⟩ := t
  · intro b hb; cases hb
  · exact absurd rfl (h s)
  · intro b hb; cases hb
  · intro b hb; cases hb

/-- **C91** On success, stdout is the debug dump of all functions of the section in the order of the input,
if it is asked for, and nothing else; stderr is the warnings for their rows, in this order. -/
theorem C91_success {dbg : Bool} {g : GimliText} {eh : EhFrame} {opts : Options} {b : SFrameBuilder}
    (h : dwarf2sframe dbg eh opts = .ok (.ok b)) :
    ∃ fdes : List DwFde, inputs eh opts.bases = fdes.map .ok ∧
      stdoutOf (dwarf2sframeT dbg g eh opts).1 = (if opts.debugdump then report g opts.arch fdes else []) ∧
      stderrOf (dwarf2sframeT dbg g eh opts).1 = warningsOf opts fdes := by
  rcases convertInputsT_cases dbg g opts (inputs eh opts.bases) (SFrameBuilder.new (sectionOptions eh opts))
    (sectionOptions_fp eh opts) with ⟨fdes, h1, -, -, h2, h3⟩ | ⟨_, _, _, _, _, -, -, hn, -⟩
  · rw [dwarf2sframeT_loop]
    exact ⟨fdes, h1, h2, h3⟩
  · exact absurd ((C91_result dbg g eh opts).trans h) (dwarf2sframeT_stop hn b)

/-- **C91** Otherwise there is an input at which the conversion stops: stdout is the dump of the functions
before it and of the part of it that `Trail` says, and stderr their warnings. -/
theorem C91_stopped {dbg : Bool} {g : GimliText} {eh : EhFrame} {opts : Options}
    (h : ∀ b, dwarf2sframe dbg eh opts ≠ .ok (.ok b)) :
    ∃ (fdes : List DwFde) (x : Except ConvError DwFde) (rest : List (Except ConvError DwFde)) (out : List String)
      (err : List Warning), inputs eh opts.bases = fdes.map .ok ++ x :: rest ∧
      (∀ fde ∈ fdes, Convertible (sectionOptions eh opts) opts fde) ∧
      Trail dbg g (sectionOptions eh opts) opts x out err ∧
      stdoutOf (dwarf2sframeT dbg g eh opts).1 =
        (if opts.debugdump then report g opts.arch fdes ++ out else []) ∧
      stderrOf (dwarf2sframeT dbg g eh opts).1 = warningsOf opts fdes ++ err := by
  have hl := dwarf2sframeT_loop dbg g eh opts
  rcases convertInputsT_cases dbg g opts (inputs eh opts.bases) (SFrameBuilder.new (sectionOptions eh opts))
    (sectionOptions_fp eh opts) with ⟨fdes, h1, hc, -, -⟩ | ⟨fdes, x, rest, out, err, h1, h2, -, h4, h5, h6⟩
  · exact absurd (dwarf2sframe_ok_iff.2 ⟨fdes, h1, hc, rfl⟩) (h _)
  · rw [hl]
    exact ⟨fdes, x, rest, out, err, h1, h2, h4, h5, h6⟩

theorem rowWarning_off {opts : Options} (h : opts.warnings = false) (fde : DwFde) (row : DwRow) :
    rowWarning opts fde row = [] := if_neg fun hw => by rw [h] at hw; exact absurd hw.1 (by decide)

theorem warningsOf_off {opts : Options} (h : opts.warnings = false) (fdes : List DwFde) : warningsOf opts fdes = [] := by
  simp [warningsOf, rowWarning_off h]

/-- **C91** Nothing is printed that is not asked for, whatever becomes of the conversion. -/
theorem C91_silent (dbg : Bool) (g : GimliText) (eh : EhFrame) (opts : Options) :
    (opts.debugdump = false → stdoutOf (dwarf2sframeT dbg g eh opts).1 = []) ∧
    (opts.warnings = false → stderrOf (dwarf2sframeT dbg g eh opts).1 = []) := by
  by_cases h : ∃ b, dwarf2sframe dbg eh opts = .ok (.ok b)
  · obtain ⟨b, h⟩ := h
    obtain ⟨fdes, -, h1, h2⟩ := C91_success (g := g) h
    rw [h1, h2]
    exact ⟨fun h => by rw [h]; rfl, fun h => warningsOf_off h fdes⟩
  · obtain ⟨fdes, x, rest, out, err, -, -, ht, h1, h2⟩ := C91_stopped (g := g) (fun b hb => h ⟨b, hb⟩)
    rw [h1, h2]
    refine ⟨fun h => by rw [h]; rfl, fun h => ?_⟩
    rw [warningsOf_off h]
    cases ht <;> simp [rowWarning_off h]

/-! ### C92 -/

/-- What is assumed of the texts that `gimli` contributes to the debug dump: `Names` and `RegNames`, all on
one line, and the `Debug` text of an expression has a parenthesis. -/
structure Spec.ReportNames (g : GimliText) (arch : Architecture) : Prop where
  names : Spec.Names g arch
  registers : RegNames (g.register arch)
  error : ∀ e, '\n' ∉ (g.error e).toList
  rule : ∀ r, '\n' ∉ (g.rule r).toList
  expr : ∀ e, '(' ∈ (g.expr e).toList ∧ '\n' ∉ (g.expr e).toList

/-- Two lists of the same length whose elements are related one by one. -/
inductive Spec.Each {α β : Type} (R : α → β → Prop) : List α → List β → Prop
  | nil : Each R [] []
  | cons {a b as bs} : R a b → Each R as bs → Each R (a :: as) (b :: bs)

/-- The same register and offset, or expressions that `gimli` prints the same. -/
inductive Spec.SameCfa (g : GimliText) : CfaRule → CfaRule → Prop
  | register (r o) : SameCfa g (.registerAndOffset r o) (.registerAndOffset r o)
  | expression {e e'} : g.expr e = g.expr e' → SameCfa g (.expression e) (.expression e')

/-- The same register with rules that read the same. -/
def Spec.SameRegister (g : GimliText) (arch : Architecture) (x y : Reg × RegRule) : Prop :=
  x.1 = y.1 ∧ SameRule g arch x.2 y.2

/-- Rows that say the same for the same range. -/
structure Spec.SameDwRow (g : GimliText) (arch : Architecture) (a b : DwRow) : Prop where
  start : a.start = b.start
  end_ : a.end_ = b.end_
  cfa : SameCfa g a.cfa b.cfa
  registers : Each (SameRegister g arch) a.registers b.registers

/-- Functions at the same place whose instructions and rows say the same. -/
structure Spec.SameFunction (g : GimliText) (arch : Architecture) (a b : DwFde) : Prop where
  initial : a.initial = b.initial
  len : a.len = b.len
  instructions : SameListing false g.error a.instructions b.instructions
  rows : Each (SameDwRow g arch) (rowsOf a) (rowsOf b)

theorem Spec.Each.imp {α β : Type} {R S : α → β → Prop} {as bs} (h : Each R as bs)
    (hi : ∀ a ∈ as, ∀ b ∈ bs, R a b → S a b) : Each S as bs := by
  induction h with
  | nil => exact .nil
  | cons h _ ih =>
    exact .cons (hi _ (by simp) _ (by simp) h)
      (ih fun a ha b hb => hi a (List.mem_cons_of_mem _ ha) b (List.mem_cons_of_mem _ hb))

theorem each_map {α β : Type} {f : α → β} {as bs : List α} (h : as.map f = bs.map f) :
    Each (fun a b => f a = f b) as bs := by
  induction as generalizing bs with
  | nil => cases bs with
    | nil => exact .nil
    | cons b bs => cases h
  | cons a as ih => cases bs with
    | nil => cases h
    | cons b bs => exact .cons (List.cons.inj h).1 (ih (List.cons.inj h).2)

theorem Spec.Each.map_eq {α β : Type} {f : α → β} {as bs : List α} (h : Each (fun a b => f a = f b) as bs) :
    as.map f = bs.map f := by
  induction h with
  | nil => rfl
  | cons h _ ih => rw [List.map_cons, List.map_cons, h, ih]

theorem Spec.Each.flatMap_eq {α β : Type} {f : α → List β} {as bs : List α}
    (h : Each (fun a b => f a = f b) as bs) : as.flatMap f = bs.flatMap f := by
  induction h with
  | nil => rfl
  | cons h _ ih => rw [List.flatMap_cons, List.flatMap_cons, h, ih]

/-- Blocks that start with a line that differs from their other lines can be told apart. -/
theorem each_flatMap {α : Type} {f : α → List String} {P : String → Prop} {as bs : List α}
    (hf : ∀ a, ∃ h t, f a = h :: t ∧ ¬ P h ∧ ∀ x ∈ t, P x) (h : as.flatMap f = bs.flatMap f) :
    Each (fun a b => f a = f b) as bs := by
  have key : ∀ (cs : List α) x t, cs.flatMap f = x :: t → ¬ P x := by
    intro cs x t hx
    cases cs with
    | nil => cases hx
    | cons c cs =>
      obtain ⟨h, t', h1, h2, -⟩ := hf c
      rw [List.flatMap_cons, h1] at hx
      rw [← (List.cons.inj hx).1]; exact h2
  induction as generalizing bs with
  | nil => cases bs with
    | nil => exact .nil
    | cons b bs =>
      obtain ⟨h', t, h1, -⟩ := hf b
      rw [List.flatMap_cons, h1] at h
      cases h
  | cons a as ih => cases bs with
    | nil =>
      obtain ⟨h', t, h1, -⟩ := hf a
      rw [List.flatMap_cons, h1] at h
      cases h
    | cons b bs =>
      obtain ⟨x, t, h1, -, h2⟩ := hf a
      obtain ⟨x', t', h1', -, h2'⟩ := hf b
      rw [List.flatMap_cons, List.flatMap_cons, h1, h1'] at h
      obtain ⟨h3, h4⟩ := List.cons.inj h
      obtain ⟨h5, h6⟩ := split_lines h2 h2' (key as) (key bs) h4
      exact .cons (by rw [h1, h1', h3, h5]) (ih h6)

theorem not_mem_fmtNat {c : Char} (hc : c.isDigit = false) (n : Nat) : c ∉ (fmtNat n).toList := by
  rw [fmtNat_toList]
  intro h
  rw [Nat.isDigit_of_mem_toDigits (b := 10) (by decide) (by decide) h] at hc
  cases hc

theorem registerText_plain {g : GimliText} {arch : Architecture} (hg : ReportNames g arch) (r : Reg) :
    '+' ∉ (registerText g arch r).toList ∧ '-' ∉ (registerText g arch r).toList ∧
    '(' ∉ (registerText g arch r).toList ∧ ' ' ∉ (registerText g arch r).toList ∧
    '\n' ∉ (registerText g arch r).toList := by
  unfold registerText
  cases h : g.register arch r with
  | some n =>
    obtain ⟨h1, h2, h3⟩ := hg.names.plain h
    obtain ⟨h4, -, h5⟩ := hg.registers.plain h
    exact ⟨h1, h2, h3, h4, h5⟩
  | none =>
    exact ⟨not_mem_fmtNat (by decide) _, not_mem_fmtNat (by decide) _, not_mem_fmtNat (by decide) _,
      not_mem_fmtNat (by decide) _, not_mem_fmtNat (by decide) _⟩

theorem fmtSigned64_newline (x : I64) : '\n' ∉ (fmtSigned64 x).toList := by
  unfold fmtSigned64
  split <;> rw [String.toList_append, List.mem_append, not_or] <;>
    exact ⟨by decide, not_mem_fmtNat (by decide) _⟩

/-- A text without sign and a number with its sign. -/
theorem signed_inj {a a' : String} {x y : I64} (h1 : '+' ∉ a.toList) (h2 : '-' ∉ a.toList)
    (h1' : '+' ∉ a'.toList) (h2' : '-' ∉ a'.toList) (h : a ++ fmtSigned64 x = a' ++ fmtSigned64 y) :
    a = a' ∧ x = y := by
  have key : ∀ {x y : I64} {a a' : String}, '+' ∉ a'.toList → ¬ x.toInt < 0 → y.toInt < 0 →
      a ++ fmtSigned64 x ≠ a' ++ fmtSigned64 y := by
    intro x y a a' h1' hx hy h
    unfold fmtSigned64 at h
    rw [if_neg hx, if_pos hy] at h
    have : '+' ∈ (a ++ ("+" ++ fmtNat x.toInt.natAbs)).toList := by
      simp only [String.toList_append, List.mem_append]; exact .inr (.inl (by decide))
    rw [h] at this
    simp only [String.toList_append, List.mem_append] at this
    rcases this with h | h | h
    · exact h1' h
    · exact absurd h (by decide)
    · exact not_mem_fmtNat (by decide) _ h
  have h0 := h
  unfold fmtSigned64 at h
  split at h <;> split at h
  · rename_i hx hy
    obtain ⟨h3, h4⟩ := sep_string '-' "" h2 h2' h
    exact ⟨h3, toInt_of_sign (by omega) (fmtNat_inj h4)⟩
  · rename_i hx hy; exact absurd h0.symm (key h1 hy hx)
  · rename_i hx hy; exact absurd h0 (key h1' hx hy)
  · rename_i hx hy
    obtain ⟨h3, h4⟩ := sep_string '+' "" h1 h1' h
    exact ⟨h3, toInt_of_sign (by omega) (fmtNat_inj h4)⟩

theorem cfaLine_iff {g : GimliText} {arch : Architecture} (hg : ReportNames g arch) (c c' : CfaRule) :
    cfaLine g arch c = cfaLine g arch c' ↔ SameCfa g c c' := by
  have key : ∀ r o e, registerText g arch r ++ fmtSigned64 o ≠ g.expr e := by
    intro r o e h
    have := (hg.expr e).1
    rw [← h, String.toList_append, List.mem_append] at this
    rcases this with h | h
    · exact (registerText_plain hg r).2.2.1 h
    · exact (fmtSigned64_sign o).1 h
  constructor
  · intro h
    cases c with
    | registerAndOffset r o =>
      cases c' with
      | registerAndOffset r' o' =>
        obtain ⟨h1, h2, -⟩ := registerText_plain hg r
        obtain ⟨h1', h2', -⟩ := registerText_plain hg r'
        obtain ⟨h3, rfl⟩ := signed_inj h1 h2 h1' h2' (prefix_cancel h)
        rw [registerText_inj hg.names h3]
        exact .register _ _
      | expression e => exact absurd (prefix_cancel h) (key r o e)
    | expression e =>
      cases c' with
      | registerAndOffset r' o' => exact absurd (prefix_cancel h).symm (key r' o' e)
      | expression e' => exact .expression (prefix_cancel h)
  · intro h
    cases h with
    | register => rfl
    | expression h => exact congrArg ("    cfa:    " ++ ·) h

theorem regLine_iff {g : GimliText} {arch : Architecture} (hg : ReportNames g arch) (x y : Reg × RegRule) :
    regLine g arch x = regLine g arch y ↔ SameRegister g arch x y := by
  constructor
  · intro h
    obtain ⟨h1, h2⟩ := sep_string ' ' "= " (registerText_plain hg x.1).2.2.2.1 (registerText_plain hg y.1).2.2.2.1
      (prefix_cancel h)
    exact ⟨registerText_inj hg.names h1, (ruleText_iff hg.names _ _).1 h2⟩
  · rintro ⟨h1, h2⟩
    unfold regLine
    rw [h1, (ruleText_iff hg.names _ _).2 h2]

/-- Two numbers in a line. -/
theorem range_inj {p m s : String} {a a' b b' : U64} (hm : ∃ t, m = String.ofList (' ' :: t))
    (h : p ++ (fmtAltHexPad 10 a.toNat ++ (m ++ (fmtAltHexPad 10 b.toNat ++ s))) =
      p ++ (fmtAltHexPad 10 a'.toNat ++ (m ++ (fmtAltHexPad 10 b'.toNat ++ s)))) : a = a' ∧ b = b' := by
  obtain ⟨t, rfl⟩ := hm
  have hs : ' ' ∉ (fmtAltHexPad 10 a.toNat).toList := not_mem_altHexPad (by decide) (by decide) _ _
  have hs' : ' ' ∉ (fmtAltHexPad 10 a'.toNat).toList := not_mem_altHexPad (by decide) (by decide) _ _
  have h1 := sep_string (a := fmtAltHexPad 10 a.toNat) (a' := fmtAltHexPad 10 a'.toNat) ' ' (String.ofList t) hs hs'
    (by rw [String.toList_ofList]; exact prefix_cancel h)
  exact ⟨hexPad_bv h1.1, hexPad_bv (suffix_cancel h1.2)⟩

theorem reportRow_iff {g : GimliText} {arch : Architecture} (hg : ReportNames g arch) (a b : DwRow) :
    reportRow g arch a = reportRow g arch b ↔ SameDwRow g arch a b := by
  rw [← rowLines_eq]
  constructor
  · intro h
    obtain ⟨h1, h⟩ := List.cons.inj h
    obtain ⟨h2, h3⟩ := List.cons.inj h
    obtain ⟨h4, h5⟩ := range_inj ⟨"(end = ".toList, by decide +kernel⟩ h1
    exact ⟨h4, h5, (cfaLine_iff hg _ _).1 h2, (each_map h3).imp fun a _ b _ => (regLine_iff hg a b).1⟩
  · rintro ⟨h1, h2, h3, h4⟩
    unfold rowLines
    rw [h1, h2, (cfaLine_iff hg _ _).2 h3, Spec.Each.map_eq (h4.imp fun a _ b _ => (regLine_iff hg a b).2)]

theorem reportRow_block (g : GimliText) (arch : Architecture) (a : DwRow) :
    ∃ h t, reportRow g arch a = h :: t ∧ ¬ first4 h = first4 "    " ∧ ∀ x ∈ t, first4 x = first4 "    " := by
  rw [← rowLines_eq]
  refine ⟨_, _, rfl, ?_, ?_⟩
  · rw [first4_lit "  - offset: " _ (by decide +kernel)]
    decide +kernel
  · intro x hx
    rcases List.mem_cons.1 hx with rfl | hx
    · cases a.cfa with
      | registerAndOffset r o => exact (first4_lit "    cfa:    " _ (by decide +kernel)).trans (by decide +kernel)
      | expression e => exact (first4_lit "    cfa:    " _ (by decide +kernel)).trans (by decide +kernel)
    · obtain ⟨y, -, rfl⟩ := List.mem_map.1 hx
      exact (first4_lit "    reg:    " _ (by decide +kernel)).trans (by decide +kernel)

theorem reportRows_iff {g : GimliText} {arch : Architecture} (hg : ReportNames g arch) (as bs : List DwRow) :
    as.flatMap (reportRow g arch) = bs.flatMap (reportRow g arch) ↔ Each (SameDwRow g arch) as bs :=
  ⟨fun h => (each_flatMap (reportRow_block g arch) h).imp fun a _ b _ => (reportRow_iff hg a b).1,
   fun h => Spec.Each.flatMap_eq (h.imp fun a _ b _ => (reportRow_iff hg a b).2)⟩

theorem not_mem_append {c : Char} {a b : String} (ha : c ∉ a.toList) (hb : c ∉ b.toList) : c ∉ (a ++ b).toList := by
  rw [String.toList_append, List.mem_append, not_or]; exact ⟨ha, hb⟩

theorem ruleText_newline {g : GimliText} {arch : Architecture} (hg : ReportNames g arch) (r : RegRule) :
    '\n' ∉ (ruleText g arch r).toList := by
  cases r with
  | undefined => exact (show '\n' ∉ "<undefined>".toList by decide +kernel)
  | sameValue => exact (show '\n' ∉ "<same>".toList by decide +kernel)
  | offset o =>
    exact not_mem_append (not_mem_append (by decide +kernel) (fmtSigned64_newline o)) (by decide +kernel)
  | valOffset o => exact not_mem_append (by decide +kernel) (fmtSigned64_newline o)
  | register r => exact (registerText_plain hg r).2.2.2.2
  | constant v => exact not_mem_fmtNat (by decide) _
  | expression e => exact hg.rule _
  | valExpression e => exact hg.rule _
  | architectural => exact hg.rule _

theorem reportRow_good {g : GimliText} {arch : Architecture} (hg : ReportNames g arch) (a : DwRow) :
    ∀ x ∈ reportRow g arch a, GoodLine x := by
  rw [← rowLines_eq]
  intro x hx
  rcases List.mem_cons.1 hx with rfl | hx
  · exact goodLine_lit _ _ ⟨by decide +kernel, by decide +kernel⟩ (not_mem_append (hexPad_newline _ _)
      (not_mem_append (by decide +kernel) (not_mem_append (hexPad_newline _ _) (by decide +kernel))))
  · rcases List.mem_cons.1 hx with rfl | hx
    · cases a.cfa with
      | registerAndOffset r o =>
        exact goodLine_lit _ _ ⟨by decide +kernel, by decide +kernel⟩
          (not_mem_append (registerText_plain hg r).2.2.2.2 (fmtSigned64_newline o))
      | expression e => exact goodLine_lit _ _ ⟨by decide +kernel, by decide +kernel⟩ (hg.expr e).2
    · obtain ⟨y, -, rfl⟩ := List.mem_map.1 hx
      exact goodLine_lit _ _ ⟨by decide +kernel, by decide +kernel⟩
        (not_mem_append (registerText_plain hg _).2.2.2.2 (not_mem_append (by decide +kernel) (ruleText_newline hg _)))

theorem reportTop_good (fde : DwFde) : ∀ x ∈ reportTop fde, GoodLine x := by
  intro x hx
  simp only [reportTop, List.mem_cons, List.not_mem_nil, or_false] at hx
  rcases hx with rfl | rfl | rfl
  · exact ⟨by decide +kernel, by decide +kernel⟩
  · exact goodLine_lit _ _ ⟨by decide +kernel, by decide +kernel⟩ (hexPad_newline _ _)
  · exact goodLine_lit _ _ ⟨by decide +kernel, by decide +kernel⟩ (not_mem_append (hexPad_newline _ _)
      (not_mem_append (by decide +kernel) (not_mem_append (hexPad_newline _ _) (by decide +kernel))))

theorem reportRows_good {g : GimliText} {arch : Architecture} (hg : ReportNames g arch) (as : List DwRow) :
    ∀ x ∈ "Rows:" :: as.flatMap (reportRow g arch), GoodLine x := by
  intro x hx
  rcases List.mem_cons.1 hx with rfl | hx
  · exact ⟨by decide +kernel, by decide +kernel⟩
  · obtain ⟨a, -, hx⟩ := List.mem_flatMap.1 hx
    exact reportRow_good hg a x hx

theorem reportCode_good {g : GimliText} {arch : Architecture} (hg : ReportNames g arch) {fde : DwFde}
    (hd : Debugs fde.instructions) : ∀ x ∈ reportTop fde ++ reportCode g arch fde, GoodLine x := by
  intro x hx
  rcases List.mem_append.1 hx with hx | hx
  · exact reportTop_good fde x hx
  · exact list_good false hg.registers hg.error hd x hx

theorem reportFde_eq (g : GimliText) (arch : Architecture) (fde : DwFde) (rest : List String) :
    reportFde g arch fde ++ rest = (reportTop fde ++ reportCode g arch fde) ++ "" ::
      (("Rows:" :: (rowsOf fde).flatMap (reportRow g arch)) ++ "" :: rest) := by
  simp [reportFde, reportHead]

theorem reportFde_newline {g : GimliText} {arch : Architecture} (hg : ReportNames g arch) {fde : DwFde}
    (hd : Debugs fde.instructions) : ∀ x ∈ reportFde g arch fde, '\n' ∉ x.toList := by
  intro x hx
  rw [← List.append_nil (reportFde g arch fde), reportFde_eq] at hx
  rcases List.mem_append.1 hx with hx | hx
  · exact (reportCode_good hg hd x hx).2
  · rcases List.mem_cons.1 hx with rfl | hx
    · decide
    · rcases List.mem_append.1 hx with hx | hx
      · exact (reportRows_good hg _ x hx).2
      · rw [List.mem_singleton.1 hx]; decide

/-- The lines for a function, and what follows them, can be told apart. -/
theorem reportFde_split {g : GimliText} {arch : Architecture} (hg : ReportNames g arch) {a b : DwFde}
    {r r' : List String} (ha : Debugs a.instructions) (hb : Debugs b.instructions)
    (h : reportFde g arch a ++ r = reportFde g arch b ++ r') :
    (reportTop a = reportTop b ∧ reportCode g arch a = reportCode g arch b ∧
      (rowsOf a).flatMap (reportRow g arch) = (rowsOf b).flatMap (reportRow g arch)) ∧ r = r' := by
  rw [reportFde_eq, reportFde_eq] at h
  obtain ⟨h1, h2⟩ := split_lines (P := (· ≠ "")) (fun x hx => (reportCode_good hg ha x hx).1)
    (fun x hx => (reportCode_good hg hb x hx).1) (fun x t e => by rw [← (List.cons.inj e).1]; simp)
    (fun x t e => by rw [← (List.cons.inj e).1]; simp) h
  obtain ⟨h3, h4⟩ := split_lines (P := (· ≠ "")) (fun x hx => (reportRows_good hg _ x hx).1)
    (fun x hx => (reportRows_good hg _ x hx).1) (fun x t e => by rw [← (List.cons.inj e).1]; simp)
    (fun x t e => by rw [← (List.cons.inj e).1]; simp) (List.cons.inj h2).2
  obtain ⟨h5, h6⟩ := List.append_inj h1 rfl
  exact ⟨⟨h5, h6, (List.cons.inj h3).2⟩, (List.cons.inj h4).2⟩

theorem reportTop_inj {a b : DwFde} (h : reportTop a = reportTop b) : a.initial = b.initial ∧ a.len = b.len := by
  obtain ⟨h1, h⟩ := List.cons.inj (List.cons.inj h).2
  exact ⟨hexPad_bv (prefix_cancel h1), (range_inj ⟨"(end_addr = ".toList, by decide +kernel⟩ (List.cons.inj h).1).1⟩

theorem reportCode_iff {g : GimliText} {arch : Architecture} (hg : ReportNames g arch) {a b : DwFde}
    (ha : Debugs a.instructions) (hb : Debugs b.instructions) (hea : dumpError a = none) (heb : dumpError b = none) :
    reportCode g arch a = reportCode g arch b ↔ SameListing false g.error a.instructions b.instructions := by
  rw [← list_iff hg.registers false g.error ha hb]
  refine ⟨fun h => Prod.ext h ?_, fun h => congrArg Prod.fst h⟩
  rw [C84_control, C84_control, dump_eq, dump_eq, hea, heb]

/-- The dumps of some functions are equal iff the functions say the same one by one. -/
theorem report_iff {g : GimliText} {arch : Architecture} (hg : ReportNames g arch) {as bs : List DwFde}
    (ha : ∀ f ∈ as, Debugs f.instructions ∧ dumpError f = none)
    (hb : ∀ f ∈ bs, Debugs f.instructions ∧ dumpError f = none) :
    report g arch as = report g arch bs ↔ Each (SameFunction g arch) as bs := by
  constructor
  · intro h
    have hne : ∀ f fs, report g arch (f :: fs) ≠ [] := fun f fs h => by
      cases (show (reportFde g arch f ++ _) = [] from h)
    induction as generalizing bs with
    | nil => cases bs with
      | nil => exact .nil
      | cons b bs => exact absurd h.symm (hne b bs)
    | cons a as ih => cases bs with
      | nil => exact absurd h (hne a as)
      | cons b bs =>
        obtain ⟨ha1, ha2⟩ := ha a (by simp)
        obtain ⟨hb1, hb2⟩ := hb b (by simp)
        obtain ⟨⟨h1, h2, h3⟩, h4⟩ := reportFde_split hg ha1 hb1 h
        obtain ⟨h5, h6⟩ := reportTop_inj h1
        exact .cons ⟨h5, h6, (reportCode_iff hg ha1 hb1 ha2 hb2).1 h2, (reportRows_iff hg _ _).1 h3⟩
          (ih (fun f hf => ha f (List.mem_cons_of_mem _ hf)) (fun f hf => hb f (List.mem_cons_of_mem _ hf)) h4)
  · intro h
    refine Spec.Each.flatMap_eq (h.imp fun a hma b hmb hs => ?_)
    obtain ⟨ha1, ha2⟩ := ha a hma
    obtain ⟨hb1, hb2⟩ := hb b hmb
    unfold reportFde reportHead reportTop
    rw [hs.initial, hs.len, (reportCode_iff hg ha1 hb1 ha2 hb2).2 hs.instructions, (reportRows_iff hg _ _).2 hs.rows]

/-- The text of the dump is as good as its lines. -/
theorem report_text {g : GimliText} {arch : Architecture} (hg : ReportNames g arch) {as bs : List DwFde}
    (ha : ∀ f ∈ as, Debugs f.instructions) (hb : ∀ f ∈ bs, Debugs f.instructions) :
    textOf (report g arch as) = textOf (report g arch bs) ↔ report g arch as = report g arch bs := by
  refine ⟨fun h => textOf_inj ?_ ?_ h, fun h => by rw [h]⟩ <;> intro l hl <;>
    obtain ⟨f, hf, hl⟩ := List.mem_flatMap.1 hl
  · exact reportFde_newline hg (ha f hf) l hl
  · exact reportFde_newline hg (hb f hf) l hl

/-- **C92** (the code does not show all of a function) Two conversions that succeed with the debug dump on
print the same text iff their functions say the same one by one: the same place, instructions that are
listed alike, and rows with the same ranges and with rules that read the same.  What is missing from
equality: base types of operations, a register without a name and the constant of the same value, and what
`gimli` does not print of an expression. -/
theorem C92_text_partial {dbg : Bool} {g : GimliText} {eh eh' : EhFrame} {opts opts' : Options} {b b' : SFrameBuilder}
    {fdes fdes' : List DwFde} (hg : ReportNames g opts.arch) (harch : opts'.arch = opts.arch)
    (hd : opts.debugdump = true) (hd' : opts'.debugdump = true)
    (h : dwarf2sframe dbg eh opts = .ok (.ok b)) (h' : dwarf2sframe dbg eh' opts' = .ok (.ok b'))
    (hi : inputs eh opts.bases = fdes.map .ok) (hi' : inputs eh' opts'.bases = fdes'.map .ok)
    (ho : ∀ f ∈ fdes, Debugs f.instructions) (ho' : ∀ f ∈ fdes', Debugs f.instructions) :
    textOf (stdoutOf (dwarf2sframeT dbg g eh opts).1) = textOf (stdoutOf (dwarf2sframeT dbg g eh' opts').1) ↔
      Each (SameFunction g opts.arch) fdes fdes' := by
  obtain ⟨fs, h1, h2, -⟩ := C91_success (g := g) h
  obtain ⟨fs', h1', h2', -⟩ := C91_success (g := g) h'
  obtain rfl := map_ok_inj (hi.symm.trans h1)
  obtain rfl := map_ok_inj (hi'.symm.trans h1')
  obtain ⟨gs, h3, hc, -⟩ := dwarf2sframe_ok_iff.1 h
  obtain ⟨gs', h3', hc', -⟩ := dwarf2sframe_ok_iff.1 h'
  obtain rfl := map_ok_inj (hi.symm.trans h3)
  obtain rfl := map_ok_inj (hi'.symm.trans h3')
  rw [h2, h2', if_pos hd, if_pos hd', harch, report_text hg ho ho',
    report_iff hg (fun f hf => ⟨ho f hf, (hc f hf).dump hd⟩) (fun f hf => ⟨ho' f hf, (hc' f hf).dump hd'⟩)]

/-- **C92 is false of the code**: two functions whose frame pointer is in a register without a name, and
a constant, are shown alike. -/
theorem C92_number (dbg : Bool) (g : GimliText) (hg : g.register .amd64 200 = none) :
    ∃ b, dwarf2sframe dbg (Samples.ehOf [Samples.fpRuleFde (.register 200)])
        { Samples.convOpts with debugdump := true } = .ok (.ok b) ∧
      dwarf2sframe dbg (Samples.ehOf [Samples.fpRuleFde (.constant 200)])
        { Samples.convOpts with debugdump := true } = .ok (.ok b) ∧
      Samples.fpRuleFde (.register 200) ≠ Samples.fpRuleFde (.constant 200) ∧
      stdoutOf (dwarf2sframeT dbg g (Samples.ehOf [Samples.fpRuleFde (.register 200)])
        { Samples.convOpts with debugdump := true }).1 =
      stdoutOf (dwarf2sframeT dbg g (Samples.ehOf [Samples.fpRuleFde (.constant 200)])
        { Samples.convOpts with debugdump := true }).1 := by
  have h : dwarf2sframe dbg (Samples.ehOf [Samples.fpRuleFde (.register 200)])
      { Samples.convOpts with debugdump := true } = .ok (.ok Samples.fpRuleOut) := by cases dbg <;> decide +kernel
  have h' : dwarf2sframe dbg (Samples.ehOf [Samples.fpRuleFde (.constant 200)])
      { Samples.convOpts with debugdump := true } = .ok (.ok Samples.fpRuleOut) := by cases dbg <;> decide +kernel
  refine ⟨_, h, h', fun e => absurd (congrArg (fun f => (rowsOf f).map (·.registers)) e) (by decide +kernel), ?_⟩
  obtain ⟨fs, h1, h2, -⟩ := C91_success (g := g) h
  obtain ⟨fs', h1', h2', -⟩ := C91_success (g := g) h'
  obtain rfl := map_ok_inj (show [Samples.fpRuleFde (.register 200)].map Except.ok = fs.map Except.ok from h1)
  obtain rfl := map_ok_inj (show [Samples.fpRuleFde (.constant 200)].map Except.ok = fs'.map Except.ok from h1')
  rw [h2, h2', if_pos rfl, if_pos rfl]
  have hr : registerText g .amd64 200 = fmtNat (200 : U64).toNat := by
    unfold registerText
    rw [hg]; rfl
  have : reportRow g .amd64 { Samples.dwRow1 with
      start := 0x1004, end_ := 0x1020, registers := Samples.x86Regs (.register 200) (.offset (-8)) } =
    reportRow g .amd64 { Samples.dwRow1 with
      start := 0x1004, end_ := 0x1020, registers := Samples.x86Regs (.constant 200) (.offset (-8)) } := by
    refine congrArg (fun s => _ :: _ :: ("    reg:    " ++ (registerText g .amd64 6 ++ (" = " ++ s))) :: _) hr
  exact congrArg (fun l => reportTop (Samples.fpRuleFde (.constant 200)) ++ [] ++ ["", "Rows:"] ++ (l ++ []) ++ [""] ++ []) this

/-! ### C93 -/

theorem each_lookup {g : GimliText} {arch : Architecture} {as bs : List (Reg × RegRule)}
    (h : Each (SameRegister g arch) as bs) (r : Reg) :
    Spec.SameRule g arch ((as.lookup r).getD .undefined) ((bs.lookup r).getD .undefined) := by
  induction h with
  | nil => exact .refl _
  | @cons a b as bs hab _ ih =>
    obtain ⟨ra, va⟩ := a
    obtain ⟨rb, vb⟩ := b
    obtain ⟨h1, h2⟩ := hab
    dsimp only at h1 h2
    subst h1
    rw [List.lookup_cons, List.lookup_cons]
    cases r == ra
    · exact ih
    · exact h2

/-- Rows that read the same are translated alike. -/
theorem same_translate {g : GimliText} {arch : Architecture} {a b : DwRow} (h : SameDwRow g arch a b) :
    translate arch a = translate arch b := by
  have hc : cfaRules arch a = cfaRules arch b := by
    unfold cfaRules
    have := h.cfa
    cases a; cases b; dsimp only at this ⊢
    cases this <;> rfl
  have hf : fpRules arch a = fpRules arch b := by
    have := each_lookup h.registers (BitVec.ofNat 16 (fpNum arch))
    unfold fpRules DwRow.register
    generalize ((a.registers.lookup _).getD _) = x at this ⊢
    generalize ((b.registers.lookup _).getD _) = y at this ⊢
    cases this <;> rfl
  have hr : raRules arch a = raRules arch b := by
    have := each_lookup h.registers (BitVec.ofNat 16 (raNum arch))
    unfold raRules DwRow.register
    generalize ((a.registers.lookup _).getD _) = x at this ⊢
    generalize ((b.registers.lookup _).getD _) = y at this ⊢
    cases this <;> rfl
  unfold translate
  rw [hc, hf, hr]

/-- Rows that read the same give cause for the same messages. -/
theorem same_complaint {g : GimliText} {arch : Architecture} (hg : Spec.Names g arch) {a b : DwRow}
    (h : SameDwRow g arch a b) :
    (complaint arch a).map (WarnMsg.text g arch) = (complaint arch b).map (WarnMsg.text g arch) := by
  have hc : cfaComplaint arch a = cfaComplaint arch b := by
    unfold cfaComplaint
    have := h.cfa
    cases a; cases b; dsimp only at this ⊢
    cases this <;> rfl
  have hf : (fpComplaint arch a).map (WarnMsg.text g arch) = (fpComplaint arch b).map (WarnMsg.text g arch) := by
    have := each_lookup h.registers (BitVec.ofNat 16 (fpNum arch))
    unfold fpComplaint DwRow.register
    generalize ((a.registers.lookup _).getD _) = x at this ⊢
    generalize ((b.registers.lookup _).getD _) = y at this ⊢
    have h2 := (warnText_iff hg _ _).2 (.fpRule this)
    cases this <;> first | rfl | exact congrArg some h2
  have hr : (raComplaint arch a).map (WarnMsg.text g arch) = (raComplaint arch b).map (WarnMsg.text g arch) := by
    have := each_lookup h.registers (BitVec.ofNat 16 (raNum arch))
    unfold raComplaint DwRow.register
    generalize ((a.registers.lookup _).getD _) = x at this ⊢
    generalize ((b.registers.lookup _).getD _) = y at this ⊢
    have h2 := (warnText_iff hg _ _).2 (.raRule this)
    cases this <;> first | rfl | exact congrArg some h2
  have hor : ∀ {x y : Option WarnMsg}, (x.or y).map (WarnMsg.text g arch) =
      (x.map (WarnMsg.text g arch)).or (y.map (WarnMsg.text g arch)) := by
    intro x y; cases x <;> rfl
  unfold complaint
  rw [hor, hor, hor, hor, hc, hf, hr]

theorem same_rowOf {g : GimliText} {arch : Architecture} {f f' : DwFde} {a b : DwRow} (hi : f.initial = f'.initial)
    (h : SameDwRow g arch a b) : rowOf arch f a = rowOf arch f' b := by
  unfold rowOf
  rw [same_translate h, h.start, hi]

theorem same_live {g : GimliText} {arch : Architecture} {as bs : List DwRow} (h : Each (SameDwRow g arch) as bs) :
    Each (SameDwRow g arch) (live as) (live bs) := by
  induction h with
  | nil => exact .nil
  | @cons a b as bs h _ ih =>
    unfold live
    rw [List.filter_cons, List.filter_cons, h.start, h.end_]
    split
    · exact .cons h ih
    · exact ih

theorem same_built {g : GimliText} {so : SFrameOptions} {arch : Architecture} {f f' : DwFde}
    (h : SameFunction g arch f f') : built so arch f (rowsOf f) = built so arch f' (rowsOf f') := by
  have key : ∀ {as bs : List DwRow} (m : BMap U32 FrameRowBuilder), Each (SameDwRow g arch) as bs →
      as.foldl (fun m r => m.insert ordU32 (rowOf arch f r).startAddress (storedRow so (rowOf arch f r))) m =
      bs.foldl (fun m r => m.insert ordU32 (rowOf arch f' r).startAddress (storedRow so (rowOf arch f' r))) m := by
    intro as bs m h'
    induction h' generalizing m with
    | nil => rfl
    | cons hab _ ih => rw [List.foldl_cons, List.foldl_cons, same_rowOf h.initial hab, ih]
  unfold built
  rw [key [] (same_live h.rows), h.initial, h.len]

/-- **C93** The debug dump shows all that matters: two conversions with the same options that print the same
dump give the same section and the same texts of warnings. -/
theorem C93_section {dbg : Bool} {g : GimliText} {eh eh' : EhFrame} {opts : Options} {b b' : SFrameBuilder}
    {fdes fdes' : List DwFde} (hg : ReportNames g opts.arch) (hd : opts.debugdump = true)
    (he : eh.bigEndian = eh'.bigEndian)
    (h : dwarf2sframe dbg eh opts = .ok (.ok b)) (h' : dwarf2sframe dbg eh' opts = .ok (.ok b'))
    (hi : inputs eh opts.bases = fdes.map .ok) (hi' : inputs eh' opts.bases = fdes'.map .ok)
    (ho : ∀ f ∈ fdes, Debugs f.instructions) (ho' : ∀ f ∈ fdes', Debugs f.instructions)
    (ht : textOf (stdoutOf (dwarf2sframeT dbg g eh opts).1) = textOf (stdoutOf (dwarf2sframeT dbg g eh' opts).1)) :
    b = b' ∧ (stderrOf (dwarf2sframeT dbg g eh opts).1).map (Warning.text g opts.arch) =
      (stderrOf (dwarf2sframeT dbg g eh' opts).1).map (Warning.text g opts.arch) := by
  have hs := (C92_text_partial hg rfl hd hd h h' hi hi' ho ho').1 ht
  obtain ⟨fs, h1, -, h2⟩ := C91_success (g := g) h
  obtain ⟨fs', h1', -, h2'⟩ := C91_success (g := g) h'
  obtain rfl := map_ok_inj (hi.symm.trans h1)
  obtain rfl := map_ok_inj (hi'.symm.trans h1')
  obtain ⟨gs, h3, -, hb⟩ := dwarf2sframe_ok_iff.1 h
  obtain ⟨gs', h3', -, hb'⟩ := dwarf2sframe_ok_iff.1 h'
  obtain rfl := map_ok_inj (hi.symm.trans h3)
  obtain rfl := map_ok_inj (hi'.symm.trans h3')
  have hso : sectionOptions eh opts = sectionOptions eh' opts := by
    unfold sectionOptions chooseAbi
    rw [he]
  constructor
  · rw [hb, hb', hso]
    have key : ∀ {as bs : List DwFde} (so : SFrameOptions) (m : BMap I32 FuncDescBuilder),
        Each (SameFunction g opts.arch) as bs → addAll so opts m as = addAll so opts m bs := by
      intro as bs so m h
      unfold addAll
      induction h generalizing m with
      | nil => rfl
      | cons hab _ ih =>
        rw [List.foldl_cons, List.foldl_cons, hab.initial]
        unfold fnFor
        rw [same_built hab]
        exact ih _
    unfold outputOf SFrameBuilder.more
    rw [key _ _ hs]
  · rw [h2, h2']
    unfold warningsOf
    rw [List.map_flatMap, List.map_flatMap]
    have key : ∀ {as bs : List DwFde}, Each (SameFunction g opts.arch) as bs →
        as.flatMap (fun f => ((rowsOf f).flatMap (rowWarning opts f)).map (Warning.text g opts.arch)) =
        bs.flatMap (fun f => ((rowsOf f).flatMap (rowWarning opts f)).map (Warning.text g opts.arch)) := by
      intro as bs h
      refine Spec.Each.flatMap_eq (h.imp fun f _ f' _ hff => ?_)
      have inner : ∀ {rs rs' : List DwRow}, Each (SameDwRow g opts.arch) rs rs' →
          (rs.flatMap (rowWarning opts f)).map (Warning.text g opts.arch) =
          (rs'.flatMap (rowWarning opts f')).map (Warning.text g opts.arch) := by
        intro rs rs' h
        induction h with
        | nil => rfl
        | @cons r r' rs rs' hr _ ih =>
          rw [List.flatMap_cons, List.flatMap_cons, List.map_append, List.map_append, ih]
          congr 1
          unfold rowWarning
          rw [hr.start, hr.end_, hff.initial, hff.len]
          split
          · have := same_complaint hg.names hr
            generalize complaint opts.arch r = x at this ⊢
            generalize complaint opts.arch r' = y at this ⊢
            cases x <;> cases y <;> first | rfl | (cases this; done) | skip
            exact congrArg (fun s => ["warning: FDE for " ++ fmtAltHexPad 10 _ ++ "+" ++ fmtAltHexPad _ _ ++ ": " ++ s])
              (Option.some.inj this)
          · rfl
      exact inner hff.rows
    exact key hs

/-! ### Examples -/

/-- The options of the examples with the debug dump and warnings. -/
def Samples.dumpOpts : Options := { Samples.convOpts with debugdump := true, warnings := true }

theorem Samples.reportNames : ReportNames Samples.names .amd64 := by
  have reg : ∀ {r n}, Samples.names.register .amd64 r = some n → (r = 6 ∧ n = "RBP") ∨ (r = 7 ∧ n = "RSP") := by
    intro r n h
    simp only [Samples.names] at h
    split at h
    · rename_i h6; exact .inl ⟨h6, (Option.some.inj h).symm⟩
    · split at h
      · rename_i h7; exact .inr ⟨h7, (Option.some.inj h).symm⟩
      · cases h
  have inj : ∀ {r r' n}, Samples.names.register .amd64 r = some n → Samples.names.register .amd64 r' = some n →
      r = r' := by
    intro r r' n h h'
    rcases reg h with ⟨h1, h2⟩ | ⟨h1, h2⟩ <;> rcases reg h' with ⟨h3, h4⟩ | ⟨h3, h4⟩
    · rw [h1, h3]
    · exact absurd (h2.symm.trans h4) (by decide)
    · exact absurd (h2.symm.trans h4) (by decide)
    · rw [h1, h3]
  refine ⟨⟨inj, ?_, ?_, ?_, ?_, ?_, rfl⟩, ⟨inj, ?_, ?_⟩, ?_, ?_, ?_⟩
  · intro r n h
    rcases reg h with ⟨-, rfl⟩ | ⟨-, rfl⟩
    · exact ⟨'R', ['B', 'P'], by decide, by decide, by decide, by decide⟩
    · exact ⟨'R', ['S', 'P'], by decide, by decide, by decide, by decide⟩
  · intro r n h
    rcases reg h with ⟨-, rfl⟩ | ⟨-, rfl⟩ <;> decide
  · intro r n h
    rcases reg h with ⟨-, rfl⟩ | ⟨-, rfl⟩ <;> decide
  · exact fun _ => ⟨"Expression(..))", show "Expression(Expression(..))" = _ by decide +kernel⟩
  · exact fun _ => ⟨"Expression(..))", show "ValExpression(Expression(..))" = _ by decide +kernel⟩
  · intro r n h
    rcases reg h with ⟨-, rfl⟩ | ⟨-, rfl⟩
    · exact ⟨'R', ['B', 'P'], by decide, by decide⟩
    · exact ⟨'R', ['S', 'P'], by decide, by decide⟩
  · intro r n h
    rcases reg h with ⟨-, rfl⟩ | ⟨-, rfl⟩ <;> decide
  · exact fun _ => show '\n' ∉ "error".toList by decide
  · intro r
    cases r
    case expression => exact (show '\n' ∉ "Expression(Expression(..))".toList by decide +kernel)
    case valExpression => exact (show '\n' ∉ "ValExpression(Expression(..))".toList by decide +kernel)
    all_goals exact (show '\n' ∉ "Architectural".toList by decide +kernel)
  · exact fun _ => show '(' ∈ "Expression(..)".toList ∧ '\n' ∉ "Expression(..)".toList by decide +kernel

-- C91_success: the whole output for a function with a row of width zero and one that SFrame cannot express.
example (dbg : Bool) : dwarf2sframe dbg (Samples.ehOf [Samples.dwFde]) Samples.dumpOpts
      = .ok (.ok { options := Samples.opts, fdes := [(0x1000, Samples.convFn)] }) ∧
    stdoutOf (dwarf2sframeT dbg Samples.names (Samples.ehOf [Samples.dwFde]) Samples.dumpOpts).1 =
    ["FDE:",
     " start_address: 0x00001000",
     "    range_size: 0x00000020 (end_addr = 0x00001020)",
     "                DW_CFA_nop",
     "",
     "Rows:",
     "  - offset: 0x00001000 (end = 0x00001001)",
     "    cfa:    RSP+8",
     "    reg:    RBP = <undefined>",
     "    reg:    16 = *(CFA-8)",
     "  - offset: 0x00001001 (end = 0x00001001)",
     "    cfa:    RSP+16",
     "    reg:    RBP = *(CFA-16)",
     "    reg:    16 = *(CFA-8)",
     "  - offset: 0x00001001 (end = 0x00001010)",
     "    cfa:    RSP+16",
     "    reg:    RBP = *(CFA-16)",
     "    reg:    16 = *(CFA-8)",
     "  - offset: 0x00001010 (end = 0x00001020)",
     "    cfa:    Expression(..)",
     "    reg:    RBP = <undefined>",
     "    reg:    16 = *(CFA-8)",
     ""] ∧
    stderrOf (dwarf2sframeT dbg Samples.names (Samples.ehOf [Samples.dwFde]) Samples.dumpOpts).1 =
      [⟨0x1000, 0x10, 4, .cfaExpression⟩] := by
  cases dbg <;> decide +kernel

-- C91_stopped: the first of two functions is dumped, and the second up to the row that is too far away.
example (dbg : Bool) :
    dwarf2sframe dbg (Samples.ehOf [Samples.oneRow Samples.dwRow3, Samples.farFde 0x1000]) Samples.dumpOpts
      = .ok (.error (.invalidRowOffset 0x80001000 0x80000000)) ∧
    stdoutOf (dwarf2sframeT dbg Samples.names (Samples.ehOf [Samples.oneRow Samples.dwRow3, Samples.farFde 0x1000])
      Samples.dumpOpts).1 =
      report Samples.names .amd64 [Samples.oneRow Samples.dwRow3] ++
      reportHead Samples.names .amd64 (Samples.farFde 0x1000) ++
      (rowsOf (Samples.farFde 0x1000)).flatMap (reportRow Samples.names .amd64) ∧
    stderrOf (dwarf2sframeT dbg Samples.names (Samples.ehOf [Samples.oneRow Samples.dwRow3, Samples.farFde 0x1000])
      Samples.dumpOpts).1 = [⟨0x1000, 0x10, 4, .cfaExpression⟩] := by
  cases dbg <;> decide +kernel

-- C91_stopped: a debug build panics after two lines if the end of the function overflows.
example :
    (dwarf2sframe true (Samples.ehOf [{ Samples.dwFde with len := -1 }]) Samples.dumpOpts) = .panic .overflow ∧
    stdoutOf (dwarf2sframeT true Samples.names (Samples.ehOf [{ Samples.dwFde with len := -1 }]) Samples.dumpOpts).1 =
      ["FDE:", " start_address: 0x00001000"] := by
  decide +kernel

-- C92_text_partial, C93_section: the hypotheses hold of the section of C91_success, and of two sections that
-- are not the same.
example (dbg : Bool) : ReportNames Samples.names .amd64 ∧ Debugs Samples.dwFde.instructions ∧
    inputs (Samples.ehOf [Samples.dwFde]) Samples.dumpOpts.bases = [Samples.dwFde].map .ok ∧
    (∃ b, dwarf2sframe dbg (Samples.ehOf [Samples.dwFde]) Samples.dumpOpts = .ok (.ok b)) := by
  refine ⟨Samples.reportNames, ?_, rfl, ⟨{ options := Samples.opts, fdes := [(0x1000, Samples.convFn)] },
    by cases dbg <;> decide +kernel⟩⟩
  intro i e d hi he _
  obtain rfl : i = .nop := by simpa [Samples.dwFde] using hi
  cases he

example : SameFunction Samples.names .amd64 (Samples.fpRuleFde (.register 200)) (Samples.fpRuleFde (.constant 200)) ∧
    ¬ SameFunction Samples.names .amd64 (Samples.fpRuleFde (.register 200)) (Samples.fpRuleFde (.constant 201)) := by
  refine ⟨⟨rfl, rfl, .nil, .cons ⟨rfl, rfl, .register _ _, .cons ⟨rfl, .number (by decide +kernel) (by decide)⟩
    (.cons ⟨rfl, .refl _⟩ .nil)⟩ .nil⟩, fun h => ?_⟩
  have h := h.rows
  rw [show rowsOf (Samples.fpRuleFde (.register 200)) = [{ Samples.dwRow1 with
      start := 0x1004, end_ := 0x1020, registers := Samples.x86Regs (.register 200) (.offset (-8)) }] from rfl,
    show rowsOf (Samples.fpRuleFde (.constant 201)) = [{ Samples.dwRow1 with
      start := 0x1004, end_ := 0x1020, registers := Samples.x86Regs (.constant 201) (.offset (-8)) }] from rfl] at h
  cases h with
  | cons h _ =>
    have h := h.registers
    cases h with
    | cons h _ =>
      have h := h.2
      cases h with
      | number _ h => exact absurd h (by decide)

end Verif
