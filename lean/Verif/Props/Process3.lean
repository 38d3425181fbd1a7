import Verif.Props.Process2
/-!
# The cause of an error is reported: C109
-/

namespace Verif
open Spec

/-- The text of the error that made a step fail, if it was one of the operating system, of another crate, or of the
`sframe` crate. -/
def Spec.causeOf (t : OtherText) : CliError → Option String
  | .open_ => some (t.cause .open_)
  | .mmap => some (t.cause .mmap)
  | .parse => some (t.cause .parse)
  | .decompress => some (t.cause .decompress)
  | .emit => some (t.cause .emit)
  | .write => some (t.cause .write)
  | .build e => some e.text
  | .load e => some e.text
  | .convert (.invalidEhFrameEntry e) | .convert (.invalidDwarfFde e) | .convert (.invalidUnwindTable e) =>
    some (t.gimli.error e)
  | .legacy (.entry e) | .legacy (.parse e) | .legacy (.rows e) | .legacy (.dump e) | .legacy (.nextRow e) =>
    some (t.gimli.error e)
  | .legacy (.row e) => some e.text
  | _ => none

/-- The report ends with the cause, if there is one. -/
def Spec.TellsCause (t : OtherText) (e : CliError) (report : List String) : Prop :=
  ∀ c, causeOf t e = some c → ∃ pre, report.getLast? = some (pre ++ c)

theorem last_two (x c : String) : ∃ pre, [x, c].getLast? = some (pre ++ c) :=
  ⟨"", by simp⟩

/-- **C109** The report of the newer converter ends with the text of the cause. -/
theorem C109_cause_newer {dbg : Bool} {w : World} {args : Args2} {e : CliError} (t : OtherText)
    (h : (runMain2 dbg w args).1 = .ok (.error e)) : TellsCause t e (ended2 dbg t w args).1 := by
  have he := ((C109_step_newer _ _ _ _).1 h).newer
  intro c hc
  simp only [ended2, h, reportOf]
  cases e with
  | legacy => exact absurd he id
  | load => exact absurd he id
  | architecture a => cases hc
  | noSection => cases hc
  | convert e =>
    cases e <;> cases hc
    · exact ⟨"invalid .eh_frame entry: ", rfl⟩
    · exact ⟨"invalid DWARF FDE: ", rfl⟩
    · exact ⟨"invalid DWARF unwind table: ", rfl⟩
  | _ => cases hc; exact last_two _ _

/-- **C109** The report of the legacy converter ends with the text of the cause. -/
theorem C109_cause_legacy {dbg : Bool} {w : World} {args : Args1} {e : CliError} (t : OtherText)
    (h : (runMain1 dbg w args).1 = .ok (.error e)) : TellsCause t e (ended1 dbg t w args).1 := by
  have he := ((C109_step_legacy _ _ _ _).1 h).legacy
  intro c hc
  simp only [ended1, h, reportOf]
  cases e with
  | convert => exact absurd he id
  | load => exact absurd he id
  | architecture => exact absurd he id
  | noSection => cases hc
  | legacy e =>
    cases e with
    | dump e => cases hc; exact ⟨"", by simp [report1, LegacyError.report]⟩
    | start => cases hc
    | len => cases hc
    | rowOffset => cases hc
    | _ => cases hc; exact last_two _ _
  | _ => cases hc; exact last_two _ _

/-- **C109** The report of `sframedump` ends with the text of the cause. -/
theorem C109_cause_dump {dbg : Bool} {w : World} {parse : List String → Except String Matches} {args : List String}
    {path : String} {e : CliError} (t : OtherText) (hp : parse args = .ok ⟨false, [path]⟩)
    (h : (sframedump dbg w path).2 = .ok (.error e)) :
    TellsCause t e (sframedumpMain dbg t w parse args).report := by
  have he := ((C109_step_dump _ _ _ _).1 h).dumper
  intro c hc
  rw [sframedumpMain_one hp, h]
  simp only [reportOf]
  cases e with
  | noSection => cases hc
  | open_ => cases hc; exact last_two _ _
  | mmap => cases hc; exact last_two _ _
  | parse => cases hc; exact last_two _ _
  | decompress => cases hc; exact last_two _ _
  | load => cases hc; exact last_two _ _
  | _ => exact absurd he id

/-- **C109** The report that `sframedump` makes of an error is the one that the other theorems are about. -/
theorem C109_report_dump {dbg : Bool} {w : World} {parse : List String → Except String Matches} {args : List String}
    {path : String} {e : CliError} (t : OtherText) (hp : parse args = .ok ⟨false, [path]⟩)
    (h : (sframedump dbg w path).2 = .ok (.error e)) :
    (sframedumpMain dbg t w parse args).report = reportDump t path e := by
  rw [sframedumpMain_one hp, h]
  rfl

/-- A run told by its report and exit code: 0 and no report exactly if it succeeded, 1 and a report exactly if it failed
with an error, 101 and no report exactly if it panicked. -/
def Spec.CodeTells {α : Type} (r : Rust (Except CliError α)) (ended : List String × Option Nat) : Prop :=
  (ended.2 = some 0 ↔ ∃ v, r = .ok (.ok v)) ∧
  (ended.2 = some 1 ↔ ∃ e, r = .ok (.error e)) ∧
  (ended.2 = some 101 ↔ r.Panics) ∧
  (ended.1 ≠ [] ↔ ∃ e, r = .ok (.error e))

theorem codeTells {α : Type} {r : Rust (Except CliError α)} {text : CliError → List String}
    (h : ∀ e, r = .ok (.error e) → text e ≠ []) : CodeTells r (reportOf text r, exitCode r) := by
  unfold CodeTells
  match r, h with
  | .ok (.ok v), _ => simp [reportOf, exitCode, Rust.Panics]
  | .ok (.error e), h => simpa [reportOf, exitCode, Rust.Panics] using h
  | .panic p, _ => simp [reportOf, exitCode, Rust.Panics]
  | .diverge, _ => simp [reportOf, exitCode, Rust.Panics]

/-- **C109** The newer converter ends with code 1 exactly if it reports an error. -/
theorem C109_code_newer (dbg : Bool) (t : OtherText) (w : World) (args : Args2) :
    CodeTells (runMain2 dbg w args).1 (ended2 dbg t w args) := by
  refine codeTells fun e h => ?_
  have he := ((C109_step_newer _ _ _ _).1 h).newer
  cases e with
  | legacy => exact absurd he id
  | load => exact absurd he id
  | _ => simp [report2]

/-- **C109** The legacy converter ends with code 1 exactly if it reports an error. -/
theorem C109_code_legacy (dbg : Bool) (t : OtherText) (w : World) (args : Args1) :
    CodeTells (runMain1 dbg w args).1 (ended1 dbg t w args) := by
  refine codeTells fun e h => ?_
  have he := ((C109_step_legacy _ _ _ _).1 h).legacy
  cases e with
  | convert => exact absurd he id
  | load => exact absurd he id
  | architecture => exact absurd he id
  | legacy e => cases e <;> simp [report1, LegacyError.report]
  | _ => simp [report1]

/-- Both converters, on a file that they can convert and on one that cannot be written. -/
example (dbg : Bool) :
    (ended2 dbg Samples.otherText (Samples.stepWorld .x86_64 (Samples.ehOf [Samples.dwFde]) true true)
      ⟨"x", "out", false, false, false⟩) = ([], some 0) ∧
    (ended1 dbg Samples.otherText (Samples.stepWorld .x86_64 (Samples.ehOf [Samples.dwFde]) true false)
      ⟨"x", "out"⟩).2 = some 1 := by
  cases dbg <;> decide +kernel

/-- A section that cannot be converted, and an output that cannot be written, with their causes. -/
example (dbg : Bool) :
    causeOf Samples.otherText .write = some "No such file or directory (os error 2)" ∧
    (runMain2 dbg (Samples.stepWorld .x86_64 (Samples.ehOf [Samples.dwFde]) true false)
      ⟨"x", "out", false, false, false⟩).1 = .ok (.error .write) ∧
    causeOf Samples.otherText (.legacy (.dump ⟨5⟩)) = some "unexpected end of input" ∧
    (runMain1 dbg (Samples.stepWorld .x86_64 Samples.badListing true true) ⟨"x", "y"⟩).1 =
      .ok (.error (.legacy (.dump ⟨5⟩))) := by
  cases dbg <;> decide +kernel

/-- A packed section. -/
example (dbg : Bool) : (sframedump dbg Samples.packedWorld "x").2 = .ok (.error .decompress) ∧
    (sframedumpMain dbg Samples.otherText Samples.packedWorld (fun _ => .ok ⟨false, ["x"]⟩) []).report
      = ["failed to decompress the .eh_frame section", "No such file or directory (os error 2)"] := by
  cases dbg <;> decide +kernel

end Verif
