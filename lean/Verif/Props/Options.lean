import Verif.Model.Main2

/-!
# C117: the options of the converter

`Options` (dwarf2sframe2/src/lib.rs:25-107) can be built only with `new` and the seven setters (its
fields are private).  A value made by any sequence of calls holds, for each setting, what the last
call for that setting gave, and for a setting without a call what `new` gives.
-/

namespace Verif

/-- One call of a setter of `Options`. -/
inductive OptionsCall
  | mergeFres (merge : Bool)
  | mergeFdes (merge : Bool)
  | endian (e : Option Endian)
  | arch (a : Architecture)
  | bases (b : Bases)
  | debugdump (dump : Bool)
  | warnings (w : Bool)
  deriving DecidableEq

/-- The effect of one call. -/
def Options.call (o : Options) : OptionsCall → Options
  | .mergeFres m => o.setMergeFres m
  | .mergeFdes m => o.setMergeFdes m
  | .endian e => o.setEndian e
  | .arch a => o.setArch a
  | .bases b => o.setBases b
  | .debugdump d => o.setDebugdump d
  | .warnings w => o.setWarnings w

/-- The effect of a sequence of calls, first to last. -/
def Options.calls (o : Options) (cs : List OptionsCall) : Options := cs.foldl Options.call o

namespace Spec

/-- What a call gives for the setting `s`: nothing when it is a call for another setting. -/
structure Setting (α : Type) where
  given : OptionsCall → Option α

/-- The value of the last call for a setting, or `d` when there is none. -/
def Setting.last {α : Type} (s : Setting α) (d : α) (cs : List OptionsCall) : α :=
  ((cs.filterMap s.given).getLast?).getD d

def mergeFres : Setting Bool where given | .mergeFres m => some m | _ => none
def mergeFdes : Setting Bool where given | .mergeFdes m => some m | _ => none
def endian : Setting (Option Endian) where given | .endian e => some e | _ => none
def arch : Setting Architecture where given | .arch a => some a | _ => none
def bases : Setting Bases where given | .bases b => some b | _ => none
def debugdump : Setting Bool where given | .debugdump d => some d | _ => none
def warnings : Setting Bool where given | .warnings w => some w | _ => none

end Spec

/-- A field that every call sets to what it gives, if it gives something, holds the last one given. -/
theorem last_of_calls {α : Type} (s : Spec.Setting α) (f : Options → α)
    (h : ∀ o c, f (o.call c) = (s.given c).getD (f o)) (cs : List OptionsCall) (o : Options) :
    f (o.calls cs) = s.last (f o) cs := by
  induction cs generalizing o with
  | nil => rfl
  | cons c cs ih =>
    have e : o.calls (c :: cs) = (o.call c).calls cs := rfl
    rw [e, ih, h]
    unfold Spec.Setting.last
    cases hc : s.given c with
    | none => simp [hc]
    | some v =>
      simp only [List.filterMap_cons, hc, Option.getD_some]
      cases hl : cs.filterMap s.given with
      | nil => rfl
      | cons x xs => simp [List.getLast?_cons]

/-- Beginning with `Options::new(arch, bases)`, after any calls of setters each setting is what the
last call for it gave; without such a call merging of rows and of functions are on, warnings and the
dump are off, no endian is chosen, and the architecture and base addresses are the arguments. -/
theorem C117_last (a : Architecture) (b : Bases) (cs : List OptionsCall) :
    let o := (Options.new a b).calls cs
    o.mergeFres = Spec.mergeFres.last true cs ∧ o.mergeFdes = Spec.mergeFdes.last true cs ∧
    o.endian = Spec.endian.last none cs ∧ o.arch = Spec.arch.last a cs ∧
    o.bases = Spec.bases.last b cs ∧ o.debugdump = Spec.debugdump.last false cs ∧
    o.warnings = Spec.warnings.last false cs := by
  refine ⟨last_of_calls Spec.mergeFres Options.mergeFres ?_ cs _,
    last_of_calls Spec.mergeFdes Options.mergeFdes ?_ cs _,
    last_of_calls Spec.endian Options.endian ?_ cs _,
    last_of_calls Spec.arch Options.arch ?_ cs _,
    last_of_calls Spec.bases Options.bases ?_ cs _,
    last_of_calls Spec.debugdump Options.debugdump ?_ cs _,
    last_of_calls Spec.warnings Options.warnings ?_ cs _⟩ <;>
  · intro o c
    cases c <;> rfl

/-- The options the program passes: the architecture, base addresses and endian of the file; both
kinds of merging exactly without `--no-opt`; the dump and the warnings as the flags say. -/
theorem C117_program (args : Args2) (a : Architecture) (e : Endian) (b : Bases) :
    let o := cliOptions args a e b
    o.arch = a ∧ o.bases = b ∧ o.endian = some e ∧
    (o.mergeFres = true ↔ args.noOpt = false) ∧ (o.mergeFdes = true ↔ args.noOpt = false) ∧
    o.debugdump = args.debugDump ∧ o.warnings = args.warnings := by
  refine ⟨rfl, rfl, rfl, ?_, ?_, rfl, rfl⟩ <;>
  · show (!args.noOpt) = true ↔ _
    cases args.noOpt <;> simp

/-- Do two calls set the same setting? -/
def Spec.sameSetting : OptionsCall → OptionsCall → Prop
  | .mergeFres _, .mergeFres _ => True
  | .mergeFdes _, .mergeFdes _ => True
  | .endian _, .endian _ => True
  | .arch _, .arch _ => True
  | .bases _, .bases _ => True
  | .debugdump _, .debugdump _ => True
  | .warnings _, .warnings _ => True
  | _, _ => False

/-- Anywhere in a sequence of calls: two neighbouring calls for different settings may change places,
and the earlier one of two neighbouring calls for the same setting may be left out. -/
theorem C117_order (o : Options) (pre post : List OptionsCall) (c c' : OptionsCall) :
    (¬ Spec.sameSetting c c' → o.calls (pre ++ c :: c' :: post) = o.calls (pre ++ c' :: c :: post)) ∧
    (Spec.sameSetting c c' → o.calls (pre ++ c :: c' :: post) = o.calls (pre ++ c' :: post)) := by
  unfold Options.calls
  simp only [List.foldl_append, List.foldl_cons]
  refine ⟨fun h => ?_, fun h => ?_⟩
  · congr 1
    cases c <;> cases c' <;> first | rfl | exact absurd trivial h
  · congr 1
    cases c <;> cases c' <;> first | rfl | exact h.elim

/-- Every combination of settings can be made. -/
theorem C117_all (o : Options) : ∃ cs, (Options.new o.arch o.bases).calls cs = o :=
  ⟨[.mergeFres o.mergeFres, .mergeFdes o.mergeFdes, .endian o.endian, .debugdump o.debugdump,
    .warnings o.warnings], by cases o; rfl⟩

example : (Options.new .amd64 Bases.default).calls
      [.warnings true, .arch .aarch64, .endian (some .big), .warnings false, .debugdump true] =
    { arch := .aarch64, mergeFres := true, mergeFdes := true, warnings := false, debugdump := true,
      endian := some .big, bases := Bases.default } := by decide +kernel

example : ¬ Spec.sameSetting (.mergeFres true) (.mergeFdes true) ∧
    Spec.sameSetting (.warnings true) (.warnings false) := ⟨id, trivial⟩

end Verif
