import Verif.Model.Dwarfdump
import Verif.Props.Cfi
import Verif.Props.Main2
/-!
# `dwarfdump`: C86 to C90
-/

namespace Verif
open Spec

/-! ### What is to be shown -/

namespace Spec

/-- An entry of the section; an FDE with the result of parsing it with its CIE. -/
inductive Shown
  | cie (c : DumpCie)
  | fde (offset entryLen cieOffset : U64) (f : Except GErr DumpFde)

/-- An entry with its CIE looked up. -/
def resolve (frame : DumpFrame) (bases : Bases) : DumpEntry → Shown
  | .cie c => .cie c
  | .fde o l p parse => .fde o l p (parse (frame.cieFromOffset bases p))

/-- The instructions of an entry. -/
def Shown.insns : Shown → List (Except GErr Insn)
  | .cie c => c.instructions
  | .fde _ _ _ (.ok f) => f.instructions
  | .fde _ _ _ (.error _) => []

/-- All operations of the expression of an instruction can be decoded. -/
def Whole (i : Insn) : Prop := ∀ e x, i.expr? = some e → x ∈ e → x.isOk = true

/-- An operation that cannot be decoded, for the reason `e`, is met in the instructions. -/
def Fails (l : List (Except GErr Insn)) (e : GErr) : Prop :=
  ∃ (pre : List Insn) (i : Insn) (rest : List (Except GErr Insn)) (ops : List Op) (t : Expr),
    l = pre.map .ok ++ .ok i :: rest ∧ (∀ j ∈ pre, Whole j) ∧ i.expr? = some (ops.map .ok ++ .error e :: t)

/-- The end of the function is beyond the address space. -/
def Shown.Overflows : Shown → Prop
  | .fde _ _ _ (.ok f) => 2 ^ 64 ≤ f.initial.toNat + f.len.toNat
  | _ => False

/-- The dump comes to the end of the entry. -/
def Shown.Passes (dbg : Bool) (s : Shown) : Prop :=
  (∀ e, ¬ Fails s.insns e) ∧ (dbg = true → ¬ s.Overflows)

end Spec

/-! ### Blocks -/

/-- What follows the lines of an entry. -/
inductive Ending
  /-- the next entry -/
  | next
  /-- a blank line and the next entry -/
  | blank
  /-- nothing -/
  | stop (r : Rust (Except GErr Unit))

section
variable (w : DumpWorld) (dbg : Bool) (name : Reg → Option String)

/-- The lines of a CIE after the first, up to the instructions. -/
def DumpWorld.cieBody (c : DumpCie) : List String :=
  (fmtAltHexPad 10 c.offset.toNat ++ ": CIE") ::
  ("        length: " ++ fmtAltHexPad 10 c.entryLen.toNat) ::
  ("       version: " ++ fmtAltHexPad 4 c.version.toNat) ::
  ("    code_align: " ++ fmtNat c.codeAlign.toNat) ::
  ("    data_align: " ++ fmtInt c.dataAlign) ::
  ("   ra_register: " ++ regText name c.raRegister) ::
  ((c.lsdaEncoding.map fun e => " lsda_encoding: " ++ w.encodingText e).toList ++
   ((c.personality.map fun p => "   personality: " ++ w.encodingText p.1 ++ " " ++ p.2.text).toList ++
    (c.fdeEncoding.map fun e => "  fde_encoding: " ++ w.encodingText e).toList))

theorem cieLines_eq (c : DumpCie) : w.cieLines name c = "" :: w.cieBody name c := by
  unfold DumpWorld.cieLines DumpWorld.cieBody
  cases c.lsdaEncoding <;> cases c.personality <;> cases c.fdeEncoding <;> rfl

/-- The lines of an FDE after its first three. -/
def DumpWorld.fdeBody (f : DumpFde) (end_ : U64) : List String :=
  ("    start_addr: " ++ fmtAltHexPad 18 f.initial.toNat) ::
  ("    range_size: " ++ fmtAltHexPad 18 f.len.toNat ++ " (end_addr = " ++ fmtAltHexPad 18 end_.toNat ++ ")") ::
  ((f.lsda.map fun p => "          lsda: " ++ p.text).toList ++ (w.cfiLines name false f.instructions).1)

/-- What follows instructions. -/
def endingOf : Except GErr Unit → Ending
  | .ok () => .blank
  | .error e => .stop (.ok (.error e))

/-- The first lines of an FDE. -/
def fdeHead (o l p : U64) (r : List String) : List String :=
  (fmtAltHexPad 10 o.toNat ++ ": FDE") ::
  ("        length: " ++ fmtAltHexPad 10 l.toNat) ::
  ("   CIE_pointer: " ++ fmtAltHexPad 10 p.toNat) :: r

/-- The lines of an entry after the first, and what follows. -/
def DumpWorld.body : Shown → List String × Ending
  | .cie c => (w.cieBody name c ++ (w.cfiLines name true c.instructions).1,
      endingOf (w.cfiLines name true c.instructions).2)
  | .fde o l p (.error e) => (fdeHead o l p ["Failed to parse FDE: " ++ w.error e], .next)
  | .fde o l p (.ok f) =>
    if dbg = true ∧ 2 ^ 64 ≤ f.initial.toNat + f.len.toNat then
      (fdeHead o l p ["    start_addr: " ++ fmtAltHexPad 18 f.initial.toNat], .stop (.panic .overflow))
    else (fdeHead o l p (w.fdeBody name f (f.initial + f.len)), endingOf (w.cfiLines name false f.instructions).2)

/-- The lines of a dump. -/
def DumpWorld.dumpList : List (Except GErr Shown) → List String × Rust (Except GErr Unit)
  | [] => ([], .ok (.ok ()))
  | .error e :: _ => ([], .ok (.error e))
  | .ok s :: rest =>
    match w.body dbg name s with
    | (ls, .next) => ("" :: (ls ++ (dumpList rest).1), (dumpList rest).2)
    | (ls, .blank) => ("" :: (ls ++ "" :: (dumpList rest).1), (dumpList rest).2)
    | (ls, .stop r) => ("" :: ls, r)

theorem cfi_pair (b : Bool) (l : List (Except GErr Insn)) :
    w.cfiLines name b l = ((w.cfiLines name b l).1, (w.cfiLines name b l).2) := rfl

/-- The model of the loop, with the cache gone. -/
theorem entryLines_eq (frame : DumpFrame) (bases : Bases) (l : List (Except GErr DumpEntry))
    (cies : List (U64 × Except GErr Cie))
    (hc : ∀ o c, cies.lookup o = some c → c = frame.cieFromOffset bases o) :
    w.entryLines dbg name frame bases l cies =
      w.dumpList dbg name (l.map (·.map (resolve frame bases))) := by
  induction l generalizing cies with
  | nil => rfl
  | cons a l ih =>
    cases a with
    | error e => rfl
    | ok a =>
      rw [List.map_cons, show (Except.ok a : Except GErr DumpEntry).map (resolve frame bases) =
        .ok (resolve frame bases a) from rfl]
      cases a with
      | cie c =>
        rw [DumpWorld.entryLines, DumpWorld.dumpList, resolve, DumpWorld.body, cieLines_eq, ih cies hc]
        cases h : w.cfiLines name true c.instructions with
        | mk ls r =>
          cases r with
          | error e => rfl
          | ok u => simp only [endingOf, List.cons_append, List.append_assoc, List.nil_append]
      | fde o ln p parse =>
        have hf : (dumpLookup frame bases cies p).1 = frame.cieFromOffset bases p ∧
            ∀ o c, (dumpLookup frame bases cies p).2.lookup o = some c → c = frame.cieFromOffset bases o := by
          unfold dumpLookup
          cases h : cies.lookup p with
          | some c => exact ⟨hc _ _ h, hc⟩
          | none =>
            refine ⟨rfl, fun o c h' => ?_⟩
            rw [List.lookup_cons] at h'
            split at h'
            · rename_i heq
              rw [beq_iff_eq.1 heq]; exact (Option.some.inj h').symm
            · exact hc _ _ h'
        rw [DumpWorld.entryLines, DumpWorld.dumpList, resolve]
        simp only [hf.1, ih _ hf.2]
        cases parse (frame.cieFromOffset bases p) with
        | error e =>
          simp only [DumpWorld.body, fdeHead, List.cons_append, List.nil_append]
        | ok f =>
          simp only [DumpWorld.body, fdeHead, addU64]
          by_cases ho : dbg = true ∧ 2 ^ 64 ≤ f.initial.toNat + f.len.toNat
          · rw [if_pos ho, if_pos (by simpa using ho)]
            rfl
          · rw [if_neg ho, if_neg (by simpa using ho)]
            unfold DumpWorld.fdeBody
            cases h : w.cfiLines name false f.instructions with
            | mk ls r =>
              cases f.lsda <;> cases r <;>
                simp [endingOf, List.cons_append, List.append_assoc, List.nil_append]

end

/-! ### Endings -/

theorem whole_none {i : Insn} (h : i.expr? = none) : Whole i := fun e x he => by rw [h] at he; cases he

theorem whole_ops {i : Insn} {ops : List Op} (h : i.expr? = some (ops.map .ok)) : Whole i := by
  intro e x he hx
  rw [h] at he
  rw [← Option.some.inj he] at hx
  obtain ⟨op, _, rfl⟩ := List.mem_map.1 hx
  rfl

theorem not_whole {i : Insn} {ops : List Op} {e : GErr} {t : Expr}
    (h : i.expr? = some (ops.map .ok ++ .error e :: t)) : ¬ Whole i := by
  intro hw
  have := hw _ (.error e) h (List.mem_append_right _ (List.mem_cons_self ..))
  cases this

theorem first_error {ops ops' : List Op} {e e' : GErr} {t t' : Expr}
    (h : ops.map Except.ok ++ Except.error e :: t = ops'.map Except.ok ++ Except.error e' :: t') : e = e' := by
  induction ops generalizing ops' with
  | nil => cases ops' with
    | nil => cases h; rfl
    | cons => cases h
  | cons a ops ih => cases ops' with
    | nil => cases h
    | cons b ops' => exact ih (List.cons.inj h).2

theorem fails_nil (e : GErr) : ¬ Fails [] e := by
  rintro ⟨pre, i, rest, ops, t, h, -, -⟩
  cases pre <;> cases h

theorem fails_error (x : GErr) (r : List (Except GErr Insn)) (e : GErr) : ¬ Fails (.error x :: r) e := by
  rintro ⟨pre, i, rest, ops, t, h, -, -⟩
  cases pre <;> cases h

theorem fails_whole {i : Insn} (hi : Whole i) (r : List (Except GErr Insn)) (e : GErr) :
    Fails (.ok i :: r) e ↔ Fails r e := by
  constructor
  · rintro ⟨pre, j, rest, ops, t, h, hp, hj⟩
    cases pre with
    | nil => cases h; exact absurd hi (not_whole hj)
    | cons a pre =>
      cases h
      exact ⟨pre, j, rest, ops, t, rfl, fun k hk => hp k (List.mem_cons_of_mem _ hk), hj⟩
  · rintro ⟨pre, j, rest, ops, t, rfl, hp, hj⟩
    refine ⟨i :: pre, j, rest, ops, t, rfl, fun k hk => ?_, hj⟩
    rcases List.mem_cons.1 hk with rfl | hk
    · exact hi
    · exact hp k hk

theorem fails_here {i : Insn} {ops : List Op} {x : GErr} {t : Expr}
    (h : i.expr? = some (ops.map .ok ++ .error x :: t)) (r : List (Except GErr Insn)) (e : GErr) :
    Fails (.ok i :: r) e ↔ x = e := by
  constructor
  · rintro ⟨pre, j, rest, ops', t', h', hp, hj⟩
    cases pre with
    | nil => cases h'; exact first_error (Option.some.inj (h.symm.trans hj))
    | cons a pre => cases h'; exact absurd (hp i (List.mem_cons_self ..)) (not_whole h)
  · rintro rfl
    exact ⟨[], i, r, ops, t, rfl, fun _ h => (by cases h), h⟩

/-- The listing ends with an error exactly if an operation that cannot be decoded is met. -/
theorem list_fails (full : Bool) (name : Reg → Option String) (error : GErr → String)
    (l : List (Except GErr Insn)) (e : GErr) :
    (listInstructions full name error l).2 = .error e ↔ Fails l e := by
  induction l with
  | nil => exact ⟨fun h => (by cases h), fun h => absurd h (fails_nil e)⟩
  | cons a r ih =>
    cases a with
    | error x => exact ⟨fun h => (by cases h), fun h => absurd h (fails_error x r e)⟩
    | ok i =>
      cases hi : i.expr? with
      | none => rw [list_plain full name error hi, fails_whole (whole_none hi)]; exact ih
      | some ex =>
        rcases expr_cases ex with ⟨os, hx⟩ | ⟨os, x, t, hx⟩
        · rw [list_expr full name error (hi.trans (congrArg some hx)),
            fails_whole (whole_ops (hi.trans (congrArg some hx)))]; exact ih
        · rw [list_aborted full name error (hi.trans (congrArg some hx)),
            fails_here (hi.trans (congrArg some hx))]
          exact ⟨fun h => (by cases h; rfl), fun h => by rw [h]⟩

theorem list_passes (full : Bool) (name : Reg → Option String) (error : GErr → String)
    (l : List (Except GErr Insn)) : (listInstructions full name error l).2 = .ok () ↔ ∀ e, ¬ Fails l e := by
  cases h : (listInstructions full name error l).2 with
  | ok u =>
    refine ⟨fun _ e he => ?_, fun _ => rfl⟩
    rw [(list_fails full name error l e).2 he] at h; cases h
  | error e => exact ⟨fun h => (by cases h), fun h' => absurd ((list_fails full name error l e).1 h) (h' e)⟩

section
variable (w : DumpWorld) (dbg : Bool) (name : Reg → Option String)

theorem cfi_result (b : Bool) (l : List (Except GErr Insn)) :
    (w.cfiLines name b l).2 = (listInstructions true name w.error l).2 := rfl

theorem endingOf_fails {b : Bool} {l : List (Except GErr Insn)} {e : GErr} (h : Fails l e) :
    endingOf (w.cfiLines name b l).2 = .stop (.ok (.error e)) := by
  rw [cfi_result, (list_fails true name w.error l e).2 h]; rfl

theorem endingOf_passes {b : Bool} {l : List (Except GErr Insn)} (h : ∀ e, ¬ Fails l e) :
    endingOf (w.cfiLines name b l).2 = .blank := by
  rw [cfi_result, (list_passes true name w.error l).2 h]; rfl

/-- A function that overflows in a build with checks is the end of the dump. -/
theorem body_overflows {s : Shown} (hd : dbg = true) (h : s.Overflows) :
    (w.body dbg name s).2 = .stop (.panic .overflow) := by
  match s, h with
  | .fde o l p (.ok f), h => rw [DumpWorld.body, if_pos ⟨hd, h⟩]

theorem body_fails {s : Shown} {e : GErr} (hd : dbg = true → ¬ s.Overflows) (h : Fails s.insns e) :
    (w.body dbg name s).2 = .stop (.ok (.error e)) := by
  match s, hd, h with
  | .cie c, hd, h => exact endingOf_fails w name h
  | .fde o l p (.error x), hd, h => exact absurd h (fails_nil e)
  | .fde o l p (.ok f), hd, h =>
    rw [DumpWorld.body, if_neg (fun h => hd h.1 h.2)]
    exact endingOf_fails w name h

theorem body_passes {s : Shown} (h : s.Passes dbg) :
    (w.body dbg name s).2 = .next ∨ (w.body dbg name s).2 = .blank := by
  match s, h with
  | .cie c, h => exact .inr (endingOf_passes w name h.1)
  | .fde o l p (.error x), h => exact .inl rfl
  | .fde o l p (.ok f), h =>
    rw [DumpWorld.body, if_neg (fun h' => h.2 h'.1 h'.2)]
    exact .inr (endingOf_passes w name h.1)

/-- How an entry ends. -/
theorem shown_cases (s : Shown) : s.Passes dbg ∨ (dbg = true ∧ s.Overflows) ∨
    ((dbg = true → ¬ s.Overflows) ∧ ∃ e, Fails s.insns e) := by
  by_cases h : dbg = true ∧ s.Overflows
  · exact .inr (.inl h)
  · have h' : dbg = true → ¬ s.Overflows := fun h1 h2 => h ⟨h1, h2⟩
    by_cases hf : ∃ e, Fails s.insns e
    · exact .inr (.inr ⟨h', hf⟩)
    · exact .inl ⟨fun e he => hf ⟨e, he⟩, h'⟩

/-- The lines of an entry that is passed. -/
def DumpWorld.block (s : Shown) : List String :=
  match w.body dbg name s with
  | (ls, .next) => "" :: ls
  | (ls, .blank) => "" :: (ls ++ [""])
  | (ls, .stop _) => "" :: ls

theorem dumpList_passes {pre : List Shown} (h : ∀ s ∈ pre, s.Passes dbg) (rest : List (Except GErr Shown)) :
    w.dumpList dbg name (pre.map .ok ++ rest) =
      (pre.flatMap (w.block dbg name) ++ (w.dumpList dbg name rest).1, (w.dumpList dbg name rest).2) := by
  induction pre with
  | nil => rfl
  | cons s pre ih =>
    have ih := ih (fun s hs => h s (List.mem_cons_of_mem _ hs))
    have hs := body_passes w dbg name (h s (List.mem_cons_self ..))
    rw [List.map_cons, List.cons_append, DumpWorld.dumpList, ih, List.flatMap_cons, DumpWorld.block]
    cases hb : w.body dbg name s with
    | mk ls en =>
      rw [hb] at hs
      rcases hs with hs | hs <;> cases hs <;> simp

theorem dumpList_stop {s : Shown} {r : Rust (Except GErr Unit)} (h : (w.body dbg name s).2 = .stop r)
    (rest : List (Except GErr Shown)) :
    w.dumpList dbg name (.ok s :: rest) = (w.block dbg name s, r) := by
  rw [DumpWorld.dumpList, DumpWorld.block]
  cases hb : w.body dbg name s with
  | mk ls en => rw [hb] at h; cases h; rfl

end

namespace Spec

/-- All entries are passed. -/
def AllPass (dbg : Bool) (l : List (Except GErr Shown)) : Prop :=
  ∃ pre : List Shown, l = pre.map .ok ∧ ∀ s ∈ pre, s.Passes dbg

/-- The entries are passed up to one that cannot be read, for the reason `e`, or that has an operation
that cannot be decoded. -/
def DumpStops (dbg : Bool) (l : List (Except GErr Shown)) (e : GErr) : Prop :=
  ∃ (pre : List Shown) (x : Except GErr Shown) (rest : List (Except GErr Shown)),
    l = pre.map .ok ++ x :: rest ∧ (∀ s ∈ pre, s.Passes dbg) ∧
    (x = .error e ∨ ∃ s, x = .ok s ∧ (dbg = true → ¬ s.Overflows) ∧ Fails s.insns e)

/-- The entries are passed up to a function whose end is beyond the address space. -/
def Overflow (l : List (Except GErr Shown)) : Prop :=
  ∃ (pre : List Shown) (s : Shown) (rest : List (Except GErr Shown)),
    l = pre.map .ok ++ .ok s :: rest ∧ (∀ s ∈ pre, s.Passes true) ∧ s.Overflows

end Spec

section
variable (w : DumpWorld) (dbg : Bool) (name : Reg → Option String)

theorem dump_cases (l : List (Except GErr Shown)) :
    AllPass dbg l ∨ (dbg = true ∧ Overflow l) ∨ ∃ e, DumpStops dbg l e := by
  induction l with
  | nil => exact .inl ⟨[], rfl, fun _ h => (by cases h)⟩
  | cons a l ih =>
    cases a with
    | error e => exact .inr (.inr ⟨e, [], _, l, rfl, fun _ h => (by cases h), .inl rfl⟩)
    | ok s =>
      have ext : s.Passes dbg → ∀ {pre : List Shown}, (∀ s ∈ pre, s.Passes dbg) →
          ∀ t ∈ s :: pre, t.Passes dbg := by
        intro hs pre hp t ht
        rcases List.mem_cons.1 ht with rfl | ht
        · exact hs
        · exact hp t ht
      rcases shown_cases dbg s with hs | ⟨hd, hs⟩ | ⟨hd, e, hs⟩
      · rcases ih with ⟨pre, rfl, hp⟩ | ⟨hd, pre, t, rest, rfl, hp, ht⟩ | ⟨e, pre, x, rest, rfl, hp, hx⟩
        · exact .inl ⟨s :: pre, rfl, ext hs hp⟩
        · subst hd
          exact .inr (.inl ⟨rfl, s :: pre, t, rest, rfl, ext hs hp, ht⟩)
        · exact .inr (.inr ⟨e, s :: pre, x, rest, rfl, ext hs hp, hx⟩)
      · exact .inr (.inl ⟨hd, [], s, l, rfl, fun _ h => (by cases h), hs⟩)
      · exact .inr (.inr ⟨e, [], _, l, rfl, fun _ h => (by cases h), .inr ⟨s, rfl, hd, hs⟩⟩)

theorem dumpList_all {l : List (Except GErr Shown)} (h : AllPass dbg l) :
    (w.dumpList dbg name l).2 = .ok (.ok ()) := by
  obtain ⟨pre, rfl, hp⟩ := h
  have := dumpList_passes w dbg name hp []
  rw [List.append_nil] at this
  rw [this]; rfl

theorem dumpList_stops {l : List (Except GErr Shown)} {e : GErr} (h : DumpStops dbg l e) :
    (w.dumpList dbg name l).2 = .ok (.error e) := by
  obtain ⟨pre, x, rest, rfl, hp, hx⟩ := h
  rw [dumpList_passes w dbg name hp]
  rcases hx with rfl | ⟨s, rfl, hd, hs⟩
  · rfl
  · rw [dumpList_stop w dbg name (body_fails w dbg name hd hs)]

theorem dumpList_overflow {l : List (Except GErr Shown)} (hd : dbg = true) (h : Overflow l) :
    (w.dumpList dbg name l).2 = .panic .overflow := by
  obtain ⟨pre, s, rest, rfl, hp, hs⟩ := h
  subst hd
  rw [dumpList_passes w true name hp, dumpList_stop w true name (body_overflows w true name rfl hs)]

/-- How a dump ends. -/
theorem dumpList_result (l : List (Except GErr Shown)) :
    ((w.dumpList dbg name l).2 = .ok (.ok ()) ↔ AllPass dbg l) ∧
    (∀ e, (w.dumpList dbg name l).2 = .ok (.error e) ↔ DumpStops dbg l e) ∧
    ((w.dumpList dbg name l).2.Panics ↔ dbg = true ∧ Overflow l) ∧
    (w.dumpList dbg name l).2 ≠ .diverge := by
  have ha := @dumpList_all w dbg name l
  have hs := fun e => @dumpList_stops w dbg name l e
  have ho := @dumpList_overflow w dbg name l
  rcases dump_cases dbg l with h | ⟨h1, h2⟩ | ⟨e, h⟩
  · have hr := ha h
    refine ⟨⟨fun _ => h, ha⟩, fun e => ⟨fun h' => ?_, hs e⟩, ⟨fun ⟨p, h'⟩ => ?_, fun h' => ⟨_, ho h'.1 h'.2⟩⟩, ?_⟩
    · rw [hr] at h'; cases h'
    · rw [hr] at h'; cases h'
    · rw [hr]; exact fun h => by cases h
  · have hr := ho h1 h2
    refine ⟨⟨fun h' => ?_, ha⟩, fun e => ⟨fun h' => ?_, hs e⟩, ⟨fun _ => ⟨h1, h2⟩, fun h' => ⟨_, ho h'.1 h'.2⟩⟩, ?_⟩
    · rw [hr] at h'; cases h'
    · rw [hr] at h'; cases h'
    · rw [hr]; exact fun h => by cases h
  · have hr := hs e h
    refine ⟨⟨fun h' => ?_, ha⟩, fun e' => ⟨fun h' => ?_, hs e'⟩, ⟨fun ⟨p, h'⟩ => ?_, fun h' => ⟨_, ho h'.1 h'.2⟩⟩, ?_⟩
    · rw [hr] at h'; cases h'
    · rw [hr] at h'; cases h'; exact h
    · rw [hr] at h'; cases h'
    · rw [hr]; exact fun h => by cases h

end

/-! ### Runs -/

namespace Spec

/-- The file `path` can be opened, is an object file, and `data` is the content of its first section
`.eh_frame`, or empty if it has none. -/
def Opened (w : DumpWorld) (path : String) (file : ObjFile) (data : List U8) : Prop :=
  (∃ h d, w.world.openFile path = some h ∧ w.world.mmap h = some d ∧ w.world.parse d = some file) ∧
  (file.sections.find? (fun s => s.name == ".eh_frame")).elim (some []) ObjSection.data = some data

/-- The file is an object file whose `.eh_frame` cannot be decompressed. -/
def Corrupt (w : DumpWorld) (path : String) : Prop :=
  ∃ h d file s, w.world.openFile path = some h ∧ w.world.mmap h = some d ∧ w.world.parse d = some file ∧
    file.sections.find? (fun s => s.name == ".eh_frame") = some s ∧ s.data = none

/-- The section as gimli is to be told to read it: with the address size of the architecture (8 if that is
not known) and the extensions of AArch64 only there. -/
def frameOf (w : DumpWorld) (file : ObjFile) (data : List U8) : DumpFrame :=
  w.frame data file.endianness ((w.addressSize file.architecture).getD 8)
    (if file.architecture = .aarch64 then .aarch64 else .default)

/-- The entries of the section, with the base addresses of the sections of the file. -/
def entriesOf (w : DumpWorld) (file : ObjFile) (data : List U8) : List (Except GErr Shown) :=
  ((frameOf w file data).entries (properBases file)).map
    (·.map (resolve (frameOf w file data) (properBases file)))

end Spec

/-- **C88** The base addresses that are passed to gimli are those of the sections. -/
theorem C88_bases (file : ObjFile) : dumpBases file = properBases file := by
  simp only [properBases, ← sectionByName_address]
  unfold dumpBases
  cases file.sectionByName ".eh_frame_hdr" <;> cases file.sectionByName ".eh_frame" <;>
    cases file.sectionByName ".text" <;> cases file.sectionByName ".got" <;> rfl

theorem dumpEhFrame_eq (w : DumpWorld) (dbg : Bool) (file : ObjFile) (data : List U8) :
    w.dumpEhFrame dbg file data =
      ("Exception handling frame information for section .eh_frame" ::
        (w.dumpList dbg (w.archRegisterName file.architecture) (entriesOf w file data)).1,
       (w.dumpList dbg (w.archRegisterName file.architecture) (entriesOf w file data)).2) := by
  unfold DumpWorld.dumpEhFrame
  simp only [C88_bases]
  rw [entryLines_eq w dbg _ _ _ _ [] (fun o c h => by cases h)]
  rfl

theorem load_section (file : ObjFile) : loadFileSection file =
    (file.sections.find? (fun s => s.name == ".eh_frame")).elim (some []) ObjSection.data := by
  unfold loadFileSection ObjFile.sectionByName
  cases file.sections.find? (fun s => s.name == ".eh_frame") <;> rfl

theorem dwarfdump_opened {w : DumpWorld} {path : String} {file : ObjFile} {data : List U8}
    (h : Opened w path file data) (dbg : Bool) :
    dwarfdump dbg w (some path) = w.report path (w.dumpEhFrame dbg file data) := by
  obtain ⟨⟨hd, d, h1, h2, h3⟩, h4⟩ := h
  unfold dwarfdump
  rw [← load_section] at h4
  simp only [h1, h2, h3, h4]

/-- How a run of the tool can begin. -/
theorem dwarfdump_cases (dbg : Bool) (w : DumpWorld) (arg : Option String) :
    (arg = none ∧ dwarfdump dbg w arg = .fail (.panic .unwrap)) ∨
    (∃ path, arg = some path ∧ Corrupt w path ∧ dwarfdump dbg w arg = .fail (.panic .unwrap)) ∨
    (∃ e, (∀ path file data, arg = some path → ¬ Opened w path file data) ∧
      dwarfdump dbg w arg = .fail (.ok (.error e))) ∨
    ∃ path file data, arg = some path ∧ Opened w path file data ∧
      dwarfdump dbg w arg = w.report path (w.dumpEhFrame dbg file data) := by
  cases arg with
  | none => exact .inl ⟨rfl, rfl⟩
  | some path =>
    cases h1 : w.world.openFile path with
    | none =>
      refine .inr (.inr (.inl ⟨.open_, ?_, by simp only [dwarfdump, h1]⟩))
      rintro p f d hp ⟨⟨hd, b, a1, -, -⟩, -⟩
      cases hp; rw [h1] at a1; cases a1
    | some hd =>
    cases h2 : w.world.mmap hd with
    | none =>
      refine .inr (.inr (.inl ⟨.mmap, ?_, by simp only [dwarfdump, h1, h2]⟩))
      rintro p f d hp ⟨⟨hd', b, a1, a2, -⟩, -⟩
      cases hp; rw [h1] at a1; cases a1; rw [h2] at a2; cases a2
    | some b =>
    cases h3 : w.world.parse b with
    | none =>
      refine .inr (.inr (.inl ⟨.parse, ?_, by simp only [dwarfdump, h1, h2, h3]⟩))
      rintro p f d hp ⟨⟨hd', b', a1, a2, a3⟩, -⟩
      cases hp; rw [h1] at a1; cases a1; rw [h2] at a2; cases a2; rw [h3] at a3; cases a3
    | some file =>
    cases h4 : loadFileSection file with
    | none =>
      refine .inr (.inl ⟨path, rfl, ?_, by simp only [dwarfdump, h1, h2, h3, h4]⟩)
      rw [load_section] at h4
      cases h5 : file.sections.find? (fun s => s.name == ".eh_frame") with
      | none => rw [h5] at h4; cases h4
      | some sec => rw [h5] at h4; exact ⟨hd, b, file, sec, h1, h2, h3, h5, h4⟩
    | some data =>
      have ho : Opened w path file data := ⟨⟨hd, b, h1, h2, h3⟩, by rw [← load_section]; exact h4⟩
      exact .inr (.inr (.inr ⟨path, file, data, rfl, ho, dwarfdump_opened ho dbg⟩))

theorem opened_unique {w : DumpWorld} {path : String} {file file' : ObjFile} {data data' : List U8}
    (h : Opened w path file data) (h' : Opened w path file' data') : file = file' ∧ data = data' := by
  obtain ⟨⟨hd, d, h1, h2, h3⟩, h4⟩ := h
  obtain ⟨⟨hd', d', h1', h2', h3'⟩, h4'⟩ := h'
  rw [h1] at h1'; cases h1'
  rw [h2] at h2'; cases h2'
  rw [h3] at h3'; cases h3'
  rw [h4] at h4'; cases h4'
  exact ⟨rfl, rfl⟩

theorem corrupt_not_opened {w : DumpWorld} {path : String} {file : ObjFile} {data : List U8}
    (h : Corrupt w path) : ¬ Opened w path file data := by
  rintro ⟨⟨hd', d', h1', h2', h3'⟩, h4'⟩
  obtain ⟨hd, d, f, s, h1, h2, h3, h4, h5⟩ := h
  rw [h1] at h1'; cases h1'
  rw [h2] at h2'; cases h2'
  rw [h3] at h3'; cases h3'
  rw [h4] at h4'
  rw [show (some s).elim (some []) ObjSection.data = s.data from rfl, h5] at h4'
  cases h4'

theorem report_ok (w : DumpWorld) (path : String) (ls : List String) (r : Rust (Except GErr Unit)) :
    ((w.report path (ls, r)).result = .ok (.ok ()) ↔ ∃ x, r = .ok x) ∧
    ((w.report path (ls, r)).result.Panics ↔ r.Panics) ∧
    (w.report path (ls, r)).stdout = ls ∧
    ((w.report path (ls, r)).stderr = [] ↔ ∀ e, r ≠ .ok (.error e)) ∧
    (∀ e, r = .ok (.error e) → (w.report path (ls, r)).stderr = [w.failedText path e]) := by
  cases r with
  | ok x =>
    cases x with
    | ok u =>
      refine ⟨⟨fun _ => ⟨_, rfl⟩, fun _ => rfl⟩, ⟨fun ⟨p, h⟩ => (by cases h), fun ⟨p, h⟩ => (by cases h)⟩, rfl,
        ⟨fun _ e h => (by cases h), fun _ => rfl⟩, fun e h => (by cases h)⟩
    | error e =>
      refine ⟨⟨fun _ => ⟨_, rfl⟩, fun _ => rfl⟩, ⟨fun ⟨p, h⟩ => (by cases h), fun ⟨p, h⟩ => (by cases h)⟩, rfl,
        ⟨fun h => (by cases h), fun h => absurd rfl (h e)⟩, fun e h => (by cases h; rfl)⟩
  | panic p =>
    refine ⟨⟨fun h => (by cases h), fun ⟨x, h⟩ => (by cases h)⟩, ⟨fun _ => ⟨p, rfl⟩, fun _ => ⟨p, rfl⟩⟩, rfl,
      ⟨fun _ e h => (by cases h), fun _ => rfl⟩, fun e h => (by cases h)⟩
  | diverge =>
    refine ⟨⟨fun h => (by cases h), fun ⟨x, h⟩ => (by cases h)⟩,
      ⟨fun ⟨p, h⟩ => (by cases h), fun ⟨p, h⟩ => (by cases h)⟩, rfl,
      ⟨fun _ e h => (by cases h), fun _ => rfl⟩, fun e h => (by cases h)⟩

/-! ### C88, C89 -/

/-- **C88** What gimli would say with other base addresses, another address size or another vendor has no
effect. -/
theorem C88_only_these (dbg : Bool) (w : DumpWorld) (arg : Option String)
    (frame' : List U8 → Endian → U8 → Vendor → DumpFrame)
    (h : ∀ path file data, arg = some path → Opened w path file data →
      (frameOf { w with frame := frame' } file data).entries (properBases file) =
        (frameOf w file data).entries (properBases file) ∧
      ∀ o, (frameOf { w with frame := frame' } file data).cieFromOffset (properBases file) o =
        (frameOf w file data).cieFromOffset (properBases file) o) :
    dwarfdump dbg { w with frame := frame' } arg = dwarfdump dbg w arg := by
  rcases dwarfdump_cases dbg w arg with ⟨rfl, h1⟩ | ⟨path, rfl, hc, h1⟩ | ⟨e, hn, h1⟩ | ⟨path, file, data, rfl, ho, h1⟩
  · rfl
  · have hc' : Corrupt { w with frame := frame' } path := hc
    rw [h1]
    rcases dwarfdump_cases dbg { w with frame := frame' } (some path) with
      ⟨h2, _⟩ | ⟨_, _, _, h2⟩ | ⟨e, h2, h3⟩ | ⟨p, f, d, hp, h2, _⟩
    · cases h2
    · exact h2
    · obtain ⟨hd, d, f, s, a1, a2, a3, a4, a5⟩ := hc
      unfold dwarfdump
      simp only [a1, a2, a3, loadFileSection, ObjFile.sectionByName, a4, a5]
    · cases hp; exact absurd h2 (corrupt_not_opened hc')
  · unfold dwarfdump at h1 ⊢
    cases arg with
    | none => rfl
    | some path =>
      dsimp only at h1 ⊢
      cases a1 : w.world.openFile path with
      | none => rfl
      | some hd =>
      cases a2 : w.world.mmap hd with
      | none => simp only [a2]
      | some b =>
      cases a3 : w.world.parse b with
      | none => simp only [a2, a3]
      | some file =>
      cases a4 : loadFileSection file with
      | none => simp only [a2, a3, a4]
      | some data => exact absurd ⟨⟨hd, b, a1, a2, a3⟩, by rw [← load_section]; exact a4⟩ (hn path file data rfl)
  · have ho' : Opened { w with frame := frame' } path file data := ho
    obtain ⟨he, hc⟩ := h path file data rfl ho
    have hx : entriesOf { w with frame := frame' } file data = entriesOf w file data := by
      unfold entriesOf
      rw [he]
      refine congrArg (fun f => List.map f _) ?_
      funext x
      cases x with
      | error e => rfl
      | ok x =>
        cases x with
        | cie c => rfl
        | fde o l p parse =>
          show Except.ok (Shown.fde o l p _) = Except.ok (Shown.fde o l p _)
          rw [hc]
    rw [h1, dwarfdump_opened ho' dbg, dumpEhFrame_eq, dumpEhFrame_eq, hx]
    have hd : ∀ l, DumpWorld.dumpList { w with frame := frame' } dbg
        (DumpWorld.archRegisterName { w with frame := frame' } file.architecture) l =
        w.dumpList dbg (w.archRegisterName file.architecture) l := by
      intro l
      induction l with
      | nil => rfl
      | cons a l ih =>
        cases a with
        | error e => rfl
        | ok s =>
          rw [DumpWorld.dumpList, DumpWorld.dumpList, ih]
          have : DumpWorld.body { w with frame := frame' } dbg
            (DumpWorld.archRegisterName { w with frame := frame' } file.architecture) s =
            w.body dbg (w.archRegisterName file.architecture) s := by
            match s with
            | .cie c => rfl
            | .fde o l p (.error e) => rfl
            | .fde o l p (.ok f) => rfl
          rw [this]
    rw [hd]
    rfl

namespace Spec

/-- The table of registers of an architecture. -/
def tableOf : ObjArch → Option RegTable
  | .x86_64 => some .x86_64
  | .aarch64 => some .aarch64
  | a => if a = .arm then some .arm else if a = .i386 then some .x86 else none

/-- The name of a register of an architecture. -/
def nameOf (w : DumpWorld) (a : ObjArch) (r : Reg) : Option String :=
  (tableOf a).bind fun t => w.registerName t r

end Spec

/-- **C89**, what holds: on all architectures but AArch64 the names of registers that the dump uses are
those of the architecture.  Missing: AArch64. -/
theorem C89_names_partial (w : DumpWorld) (dbg : Bool) (file : ObjFile) (data : List U8)
    (ha : file.architecture ≠ .aarch64) :
    w.archRegisterName file.architecture = nameOf w file.architecture ∧
    (w.dumpEhFrame dbg file data).1 =
      "Exception handling frame information for section .eh_frame" ::
        (w.dumpList dbg (nameOf w file.architecture) (entriesOf w file data)).1 := by
  have key : w.archRegisterName file.architecture = nameOf w file.architecture := by
    funext r
    unfold DumpWorld.archRegisterName nameOf
    cases h : file.architecture with
    | x86_64 => rfl
    | aarch64 => exact absurd h ha
    | other n =>
      by_cases h0 : n = 0
      · subst h0; rfl
      · by_cases h1 : n = 1
        · subst h1; rfl
        · have hn : ∀ k, k ≠ n → ObjArch.other n ≠ ObjArch.other k := fun k hk h => hk (ObjArch.other.inj h).symm
          unfold Spec.tableOf
          simp only [ObjArch.arm, ObjArch.i386, ObjArch.other.injEq, h0, h1, reduceCtorEq, or_self, if_false]
          rfl
  exact ⟨key, by rw [dumpEhFrame_eq, key]⟩

/-! ### C86, C87 -/

namespace Spec

/-- The line with the offset of an entry. -/
def offsetLine : Shown → String
  | .cie c => fmtAltHexPad 10 c.offset.toNat ++ ": CIE"
  | .fde o _ _ _ => fmtAltHexPad 10 o.toNat ++ ": FDE"

/-- Some lines begin with the line of an entry and contain the listing of its instructions. -/
def Describes (name : Reg → Option String) (error : GErr → String) (s : Shown) (ls : List String) : Prop :=
  ∃ rest, ls = "" :: offsetLine s :: rest ∧ (listInstructions true name error s.insns).1 <:+: rest

end Spec

theorem block_describes (w : DumpWorld) (dbg : Bool) (name : Reg → Option String) {s : Shown}
    (h : s.Passes dbg) : Describes name w.error s (w.block dbg name s) := by
  unfold DumpWorld.block
  match s, h with
  | .cie c, h =>
    have he := endingOf_passes w name (b := true) h.1
    rw [DumpWorld.body]
    rw [show (Shown.cie c).insns = c.instructions from rfl] at he
    simp only [he]
    refine ⟨_, rfl, ?_⟩
    refine ⟨("        length: " ++ fmtAltHexPad 10 c.entryLen.toNat) :: (w.cieBody name c).drop 2, ?_, ?_⟩
    · exact (match (w.cfiLines name true c.instructions).2 with
      | .ok () => if true && listedAll c.instructions then ["  Instructions: Init State:"] else []
      | .error _ => []) ++ [""]
    · unfold DumpWorld.cfiLines DumpWorld.cieBody
      simp [Shown.insns]
      all_goals cases (listInstructions true name w.error c.instructions).2 <;> rfl
  | .fde o l p (.error e), h =>
    exact ⟨_, rfl, by
      show [] <:+: _
      exact List.nil_infix⟩
  | .fde o l p (.ok f), h =>
    have he := endingOf_passes w name (b := false) h.1
    rw [DumpWorld.body, if_neg (fun h' => h.2 h'.1 h'.2)]
    rw [show (Shown.fde o l p (.ok f)).insns = f.instructions from rfl] at he
    simp only [he]
    refine ⟨_, rfl, ?_⟩
    refine ⟨("        length: " ++ fmtAltHexPad 10 l.toNat) :: ("   CIE_pointer: " ++ fmtAltHexPad 10 p.toNat) ::
      ("    start_addr: " ++ fmtAltHexPad 18 f.initial.toNat) ::
      ("    range_size: " ++ fmtAltHexPad 18 f.len.toNat ++ " (end_addr = " ++
        fmtAltHexPad 18 (f.initial + f.len).toNat ++ ")") ::
      ((f.lsda.map fun p => "          lsda: " ++ p.text).toList ++ ["  Instructions:"]), ?_, ?_⟩
    · exact (match (w.cfiLines name false f.instructions).2 with
      | .ok () => []
      | .error _ => []) ++ [""]
    · unfold DumpWorld.cfiLines DumpWorld.fdeBody
      simp [Shown.insns, DumpWorld.cfiLines]
      all_goals cases (listInstructions true name w.error f.instructions).2 <;> rfl

/-- **C86**, what holds: if the run succeeds and nothing is printed to stderr then stdout describes all
entries of the section in their order, each with all its instructions.  Missing: a run that succeeds may have
stopped early, and only a line on stderr tells. -/
theorem C86_complete_partial (dbg : Bool) (w : DumpWorld) (arg : Option String)
    (hr : (dwarfdump dbg w arg).result = .ok (.ok ())) (he : (dwarfdump dbg w arg).stderr = []) :
    ∃ path file data, arg = some path ∧ Opened w path file data ∧
    ∃ (entries : List Shown) (block : Shown → List String), entriesOf w file data = entries.map .ok ∧
      (dwarfdump dbg w arg).stdout =
        "Exception handling frame information for section .eh_frame" :: entries.flatMap block ∧
      ∀ s ∈ entries, Describes (w.archRegisterName file.architecture) w.error s (block s) ∧
        ∀ e, ¬ Fails s.insns e := by
  rcases dwarfdump_cases dbg w arg with ⟨-, h1⟩ | ⟨path, -, hc, h1⟩ | ⟨e, hn, h1⟩ | ⟨path, file, data, rfl, ho, h1⟩
  · rw [h1] at hr; cases hr
  · rw [h1] at hr; cases hr
  · rw [h1] at hr; cases hr
  · refine ⟨path, file, data, rfl, ho, ?_⟩
    rw [h1, dumpEhFrame_eq] at hr he ⊢
    obtain ⟨r1, -, r3, r4, -⟩ := report_ok w path ("Exception handling frame information for section .eh_frame" ::
      (w.dumpList dbg (w.archRegisterName file.architecture) (entriesOf w file data)).1)
      (w.dumpList dbg (w.archRegisterName file.architecture) (entriesOf w file data)).2
    obtain ⟨x, hx⟩ := r1.1 hr
    have ha : AllPass dbg (entriesOf w file data) := by
      rw [← (dumpList_result w dbg (w.archRegisterName file.architecture) _).1, hx]
      cases x with
      | ok u => rfl
      | error e => exact absurd hx (r4.1 he e)
    obtain ⟨pre, hp, hq⟩ := ha
    refine ⟨pre, w.block dbg (w.archRegisterName file.architecture), hp, ?_, fun s hs =>
      ⟨block_describes w dbg _ (hq s hs), (hq s hs).1⟩⟩
    rw [r3, hp]
    have := dumpList_passes w dbg (w.archRegisterName file.architecture) hq []
    rw [List.append_nil] at this
    rw [this]
    simp [DumpWorld.dumpList]

/-- **C86** When the run succeeds although the dump stopped early, and what is printed then. -/
theorem C86_stops (dbg : Bool) (w : DumpWorld) (path : String) :
    ((dwarfdump dbg w (some path)).result = .ok (.ok ()) ∧ (dwarfdump dbg w (some path)).stderr ≠ []) ↔
      ∃ file data e, Opened w path file data ∧ DumpStops dbg (entriesOf w file data) e ∧
        (dwarfdump dbg w (some path)).stderr = [w.failedText path e] := by
  rcases dwarfdump_cases dbg w (some path) with ⟨h, -⟩ | ⟨_, hp, hc, h1⟩ | ⟨e, hn, h1⟩ | ⟨_, file, data, hp, ho, h1⟩
  · cases h
  · cases hp
    rw [h1]
    exact ⟨fun h => (by cases h.1), fun ⟨f, d, e, ho, _⟩ => absurd ho (corrupt_not_opened hc)⟩
  · rw [h1]
    exact ⟨fun h => (by cases h.1), fun ⟨f, d, e, ho, _⟩ => absurd ho (hn path f d rfl)⟩
  · cases hp
    rw [h1, dumpEhFrame_eq]
    obtain ⟨r1, -, -, r4, r5⟩ := report_ok w path ("Exception handling frame information for section .eh_frame" ::
      (w.dumpList dbg (w.archRegisterName file.architecture) (entriesOf w file data)).1)
      (w.dumpList dbg (w.archRegisterName file.architecture) (entriesOf w file data)).2
    have hs := (dumpList_result w dbg (w.archRegisterName file.architecture) (entriesOf w file data)).2.1
    constructor
    · rintro ⟨_, h3⟩
      have : ∃ e, (w.dumpList dbg (w.archRegisterName file.architecture) (entriesOf w file data)).2 =
          .ok (.error e) := by
        refine Classical.byContradiction fun hc => h3 (r4.2 fun e he => hc ⟨e, he⟩)
      obtain ⟨e, he⟩ := this
      exact ⟨file, data, e, ho, (hs e).1 he, r5 e he⟩
    · rintro ⟨f, d, e, ho', hst, hx⟩
      obtain ⟨rfl, rfl⟩ := opened_unique ho ho'
      have := (hs e).2 hst
      refine ⟨r1.2 ⟨_, this⟩, ?_⟩
      rw [r5 e this]
      exact fun h => by cases h

/-- **C87**, what holds: `dwarfdump` panics exactly if it is called without an argument, if `.eh_frame` cannot
be decompressed, or, in builds with overflow checks, if the dump comes to a function whose end is beyond the
address space.  Missing: it does panic. -/
theorem C87_panics_partial (dbg : Bool) (w : DumpWorld) (arg : Option String) :
    (dwarfdump dbg w arg).result.Panics ↔
      arg = none ∨ (∃ path, arg = some path ∧ Corrupt w path) ∨
      ∃ path file data, arg = some path ∧ Opened w path file data ∧ dbg = true ∧
        Overflow (entriesOf w file data) := by
  rcases dwarfdump_cases dbg w arg with ⟨h, h1⟩ | ⟨path, hp, hc, h1⟩ | ⟨e, hn, h1⟩ | ⟨path, file, data, rfl, ho, h1⟩
  · exact ⟨fun _ => .inl h, fun _ => h1 ▸ ⟨_, rfl⟩⟩
  · exact ⟨fun _ => .inr (.inl ⟨path, hp, hc⟩), fun _ => h1 ▸ ⟨_, rfl⟩⟩
  · refine ⟨fun ⟨p, h⟩ => ?_, ?_⟩
    · rw [h1] at h; cases h
    · rintro (rfl | ⟨path, rfl, hc⟩ | ⟨path, f, d, hp, ho, _⟩)
      · cases h1
      · obtain ⟨hd, d, f, s, a1, a2, a3, a4, a5⟩ := hc
        unfold dwarfdump at h1
        simp only [a1, a2, a3, loadFileSection, ObjFile.sectionByName, a4, a5] at h1
        cases h1
      · exact absurd ho (hn path f d hp)
  · rw [h1, dumpEhFrame_eq, (report_ok w path _ _).2.1,
      (dumpList_result w dbg (w.archRegisterName file.architecture) _).2.2.1]
    constructor
    · rintro ⟨h2, h3⟩
      exact .inr (.inr ⟨path, file, data, rfl, ho, h2, h3⟩)
    · rintro (h | ⟨p, hp, hc⟩ | ⟨p, f, d, hp, ho', h2, h3⟩)
      · cases h
      · cases hp; exact absurd ho (corrupt_not_opened hc)
      · cases hp
        obtain ⟨rfl, rfl⟩ := opened_unique ho ho'
        exact ⟨h2, h3⟩

/-- **C86** Whatever happens, all entries before the place where the dump stops are described. -/
theorem C86_prefix (dbg : Bool) {w : DumpWorld} {path : String} {file : ObjFile} {data : List U8}
    (ho : Opened w path file data) {pre : List Shown} {rest : List (Except GErr Shown)}
    (h : entriesOf w file data = pre.map .ok ++ rest) (hp : ∀ s ∈ pre, s.Passes dbg) :
    ∃ (block : Shown → List String) (tail : List String),
      (dwarfdump dbg w (some path)).stdout =
        "Exception handling frame information for section .eh_frame" :: (pre.flatMap block ++ tail) ∧
      ∀ s ∈ pre, Describes (w.archRegisterName file.architecture) w.error s (block s) := by
  refine ⟨w.block dbg (w.archRegisterName file.architecture),
    (w.dumpList dbg (w.archRegisterName file.architecture) rest).1, ?_,
    fun s hs => block_describes w dbg _ (hp s hs)⟩
  · rw [dwarfdump_opened ho, dumpEhFrame_eq, (report_ok w path _ _).2.2.1, h,
      dumpList_passes w dbg (w.archRegisterName file.architecture) hp]

/-! ### Samples -/

namespace Samples

/-- An object file with a section `.eh_frame`. -/
def dumpFile (arch : ObjArch) (data : Option (List U8)) : ObjFile where
  endianness := .little
  architecture := arch
  sections := [⟨".text", 0x1000, some []⟩, ⟨".eh_frame", 0x2000, data⟩, ⟨".got", 0x4000, some []⟩]

/-- A world in which the file `"x"` has these entries. -/
def dwWorld (arch : ObjArch) (data : Option (List U8)) (entries : List (Except GErr DumpEntry)) : DumpWorld where
  world := { Samples.dumpWorld .little .little [] with
    openFile := fun p => if p = "x" then some 0 else none
    mmap := fun _ => some []
    parse := fun _ => some (dumpFile arch data) }
  addressSize := fun _ => some 8
  frame := fun _ _ _ _ => { entries := fun _ => entries, cieFromOffset := fun _ _ => .ok ⟨[]⟩ }
  registerName
    | .x86_64, r => Samples.regName r
    | .aarch64, r => if r.toNat < 31 then some ("X" ++ fmtNat r.toNat) else none
    | .arm, r => if r.toNat < 16 then some ("R" ++ fmtNat r.toNat) else none
    | _, _ => none
  encoding e := "DW_EH_PE_" ++ fmtNat e.toNat
  error _ := "error"
  debugError _ := "Error"

/-- A CIE as compilers make them. -/
def dwCie (insns : List (Except GErr Insn)) : DumpCie where
  offset := 0
  entryLen := 0x14
  version := 1
  codeAlign := 1
  dataAlign := -8
  raRegister := 16
  lsdaEncoding := none
  personality := some (0x9b, .indirect 0x5010)
  fdeEncoding := some 0x1b
  instructions := insns

/-- An FDE. -/
def dwFdeEntry (start len : U64) (insns : List (Except GErr Insn)) : DumpEntry :=
  .fde 0x18 0x1c 0 fun _ => .ok { initial := start, len := len, lsda := some (.direct 0x6000), instructions := insns }

end Samples

example : (dwarfdump true (Samples.dwWorld .x86_64 (some [])
      [.ok (.cie (Samples.dwCie [.ok (.defCfa 7 8), .ok (.offset 16 1)])),
       .ok (Samples.dwFdeEntry 0x1010 0x20 [.ok (.advanceLoc 4), .ok (.defCfaOffset 16)])]) (some "x")).stdout =
    ["Exception handling frame information for section .eh_frame",
     "",
     "0x00000000: CIE",
     "        length: 0x00000014",
     "       version: 0x01",
     "    code_align: 1",
     "    data_align: -8",
     "   ra_register: RA",
     "   personality: DW_EH_PE_16/DW_EH_PE_11 (0x0000000000005010)",
     "  fde_encoding: DW_EH_PE_16/DW_EH_PE_11",
     "                DW_CFA_def_cfa (rsp, 8)",
     "                DW_CFA_offset (RA, 1)",
     "  Instructions: Init State:",
     "",
     "",
     "0x00000018: FDE",
     "        length: 0x0000001c",
     "   CIE_pointer: 0x00000000",
     "    start_addr: 0x0000000000001010",
     "    range_size: 0x0000000000000020 (end_addr = 0x0000000000001030)",
     "          lsda: 0x0000000000006000",
     "  Instructions:",
     "                DW_CFA_advance_loc (4)",
     "                DW_CFA_def_cfa_offset (16)",
     ""] := by decide +kernel

/-- A section whose first entry has an expression that cannot be decoded. -/
def Samples.stopped : DumpWorld := Samples.dwWorld .x86_64 (some [])
  [.ok (.cie (Samples.dwCie [.ok (.defCfaExpression [.ok .abs, .error ⟨1⟩])])),
   .ok (Samples.dwFdeEntry 0x1010 0x20 [])]

/-- **C86 is false of the code**: the tool succeeds although an FDE of the section is not printed. -/
theorem C86_success (dbg : Bool) :
    (dwarfdump dbg Samples.stopped (some "x")).result = .ok (.ok ()) ∧
    (dwarfdump dbg Samples.stopped (some "x")).stderr = ["Failed to dump 'x': GimliError(Error)"] ∧
    (∃ s, .ok s ∈ entriesOf Samples.stopped (Samples.dumpFile .x86_64 (some [])) [] ∧
      offsetLine s ∉ (dwarfdump dbg Samples.stopped (some "x")).stdout) := by
  refine ⟨by cases dbg <;> decide +kernel, by cases dbg <;> decide +kernel,
    .fde 0x18 0x1c 0 (.ok { initial := 0x1010, len := 0x20, lsda := some (.direct 0x6000), instructions := [] }),
    .tail _ (.head _), by cases dbg <;> decide +kernel⟩

/-- **C87 is false of the code**: it panics without an argument; on a section that cannot be decompressed; in
builds with checks, on a function whose end is beyond the address space. -/
theorem C87_panics (w : DumpWorld) :
    (∀ dbg, (dwarfdump dbg w none).result = .panic .unwrap) ∧
    (∀ dbg, (dwarfdump dbg (Samples.dwWorld .x86_64 none []) (some "x")).result = .panic .unwrap) ∧
    (dwarfdump true (Samples.dwWorld .x86_64 (some [])
      [.ok (Samples.dwFdeEntry 0xfffffffffffffff0 0x10 [])]) (some "x")).result = .panic .overflow := by
  refine ⟨fun _ => rfl, fun dbg => ?_, by decide +kernel⟩
  cases dbg <;> decide +kernel

/-- **C89 is false of the code**: on AArch64, registers are given names of 32-bit Arm. -/
theorem C89_aarch64 (dbg : Bool) :
    ((dwarfdump dbg (Samples.dwWorld .aarch64 (some []) [.ok (.cie (Samples.dwCie [.ok (.offset 13 2), .ok (.offset 29 2)]))])
      (some "x")).stdout.drop 10) =
      ["                DW_CFA_offset (R13, 2)", "                DW_CFA_offset (29, 2)",
       "  Instructions: Init State:", ""] ∧
    nameOf (Samples.dwWorld .aarch64 (some []) []) .aarch64 13 = some "X13" ∧
    nameOf (Samples.dwWorld .aarch64 (some []) []) .aarch64 29 = some "X29" := by
  cases dbg <;> decide +kernel

-- C86_complete_partial: the hypotheses hold of a run; C88_only_these: of a file.
example : (dwarfdump true (Samples.dwWorld .x86_64 (some []) [.ok (.cie (Samples.dwCie []))]) (some "x")).result =
      .ok (.ok ()) ∧
    (dwarfdump true (Samples.dwWorld .x86_64 (some []) [.ok (.cie (Samples.dwCie []))]) (some "x")).stderr = [] ∧
    Opened (Samples.dwWorld .x86_64 (some [7]) []) "x" (Samples.dumpFile .x86_64 (some [7])) [7] ∧
    properBases (Samples.dumpFile .x86_64 (some [7])) =
      { ehFrameHdr := ⟨none, some 0x1000, none⟩, ehFrame := ⟨some 0x2000, some 0x1000, some 0x4000⟩ } := by
  refine ⟨by decide +kernel, by decide +kernel, ⟨⟨0, [], by decide +kernel, rfl, rfl⟩, by decide +kernel⟩,
    by decide +kernel⟩

end Verif
