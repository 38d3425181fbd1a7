import Verif.Proofs.Printing1
import Verif.Proofs.Report
import Verif.Props.Report1
/-!
# The programs around the conversion
-/

namespace Verif

open Spec

/-- `main2` with another conversion. -/
def main2Via (conv : EhFrame → Options → Rust (Except ConvError SFrameBuilder)) (dbg : Bool) (w : World) (args : Args2) :
    Prog Unit := do
  let file ← Prog.orFail (w.openFile args.input) .open_
  let data ← Prog.orFail (w.mmap file) .mmap
  let file ← Prog.orFail (w.parse data) .parse
  let endian := file.endianness
  let arch ← Prog.orFail (cliArch file.architecture) (.architecture file.architecture)
  let section_ ← Prog.orFail (file.sectionByName ".eh_frame") .noSection
  let data ← Prog.orFail section_.data .decompress
  let ehFrame := w.ehFrame data endian
  let bases := cliBases file
  let options := cliOptions args arch endian bases
  let sframe ← Prog.lift ((conv ehFrame options).bind fun r => .ok (r.mapError .convert))
  let bytes ← Prog.lift ((sframe.build dbg endian).bind fun r => .ok (r.mapError .build))
  let outobj := OutObject.new file.architecture file.endianness
  let (outobj, section_) := outobj.addSection ".sframe"
  let outobj := outobj.setSectionData section_ bytes 8
  let data ← Prog.orFail (w.emit outobj) .emit
  Prog.fsWrite w args.output data

theorem runMain2_via (dbg : Bool) (w : World) (args : Args2) :
    runMain2 dbg w args = main2Via (dwarf2sframe dbg) dbg w args [] := rfl

theorem runMain2P_via (k : Nat → Bool) (io : GErr) (dbg : Bool) (g : GimliText) (w : World) (args : Args2) :
    runMain2P k io dbg g w args = main2Via (fun eh opts => (dwarf2sframeP dbg g io eh opts k 0).2) dbg w args [] := rfl

theorem orFail_some_bind {α β : Type} (a : α) (e : CliError) (f : α → Prog β) : (Prog.orFail (some a) e >>= f) = f a := rfl

theorem orFail_none_bind {α β : Type} (e : CliError) (f : α → Prog β) : (Prog.orFail none e >>= f) = Prog.fail e := rfl

/-- Either the conversion is not reached, and nothing printed, or it is that of one section with some options. -/
theorem main2Via_cases (dbg : Bool) (g : GimliText) (w : World) (args : Args2) :
    (main2Prints dbg g w args = [] ∧ ∀ conv conv', main2Via conv dbg w args [] = main2Via conv' dbg w args []) ∨
    ∃ file arch eh opts, (∃ h d, w.openFile args.input = some h ∧ w.mmap h = some d ∧ w.parse d = some file) ∧
      cliArch file.architecture = some arch ∧
      (∃ s data, file.sectionByName ".eh_frame" = some s ∧ s.data = some data ∧ eh = w.ehFrame data file.endianness) ∧
      opts = cliOptions args arch file.endianness (cliBases file) ∧
      main2Prints dbg g w args = (dwarf2sframeT dbg g eh opts).1 ∧
      (∀ conv conv', conv eh opts = conv' eh opts → main2Via conv dbg w args [] = main2Via conv' dbg w args []) ∧
      (∀ conv e, conv eh opts = .ok (.error e) → main2Via conv dbg w args [] = (.ok (.error (.convert e)), [])) ∧
      (∀ conv p, conv eh opts = .panic p → main2Via conv dbg w args [] = (.panic p, [])) := by
  unfold main2Prints
  cases h1 : w.openFile args.input with
  | none => exact .inl ⟨rfl, fun _ _ => by simp only [main2Via, h1, orFail_none_bind]⟩
  | some f =>
  cases h2 : w.mmap f with
  | none => exact .inl ⟨by simp [h2], fun _ _ => by simp only [main2Via, h1, h2, orFail_some_bind, orFail_none_bind]⟩
  | some data =>
  cases h3 : w.parse data with
  | none => exact .inl ⟨by simp [h2, h3], fun _ _ => by simp only [main2Via, h1, h2, h3, orFail_some_bind, orFail_none_bind]⟩
  | some file =>
  cases h4 : cliArch file.architecture with
  | none => exact .inl ⟨by simp [h2, h3, h4], fun _ _ => by simp only [main2Via, h1, h2, h3, h4, orFail_some_bind, orFail_none_bind]⟩
  | some arch =>
  cases h5 : file.sectionByName ".eh_frame" with
  | none => exact .inl ⟨by simp [h2, h3, h4, h5], fun _ _ => by simp only [main2Via, h1, h2, h3, h4, h5, orFail_some_bind, orFail_none_bind]⟩
  | some s =>
  cases h6 : s.data with
  | none => exact .inl ⟨by simp [h2, h3, h4, h5, h6], fun _ _ => by simp only [main2Via, h1, h2, h3, h4, h5, h6, orFail_some_bind, orFail_none_bind]⟩
  | some data =>
  refine .inr ⟨file, arch, w.ehFrame data file.endianness, cliOptions args arch file.endianness (cliBases file),
    ⟨f, _, rfl, h2, h3⟩, h4, ⟨s, data, h5, h6, rfl⟩, rfl, by simp [h2, h3, h4, h5, h6], fun conv conv' h => ?_, fun conv e h => ?_, fun conv p h => ?_⟩
  · simp only [main2Via, h1, h2, h3, h4, h5, h6, orFail_some_bind]
    show Prog.bind (Prog.lift ((conv _ _).bind _)) _ [] = Prog.bind (Prog.lift ((conv' _ _).bind _)) _ []
    rw [h]
  · simp only [main2Via, h1, h2, h3, h4, h5, h6, orFail_some_bind]
    show Prog.bind (Prog.lift ((conv _ _).bind _)) _ [] = _
    rw [h]; rfl
  · simp only [main2Via, h1, h2, h3, h4, h5, h6, orFail_some_bind]
    show Prog.bind (Prog.lift ((conv _ _).bind _)) _ [] = _
    rw [h]; rfl

/-- `main1` with another conversion. -/
def main1Via (conv : ObjFile → EhFrame → Bases → Rust (Except LegacyError SFrameBuilder)) (dbg : Bool) (w : World)
    (args : Args1) : Prog Unit := do
  let file ← Prog.orFail (w.openFile args.input) .open_
  let data ← Prog.orFail (w.mmap file) .mmap
  let file ← Prog.orFail (w.parse data) .parse
  let endian := file.endianness
  let section_ ← Prog.orFail (file.sectionByName ".eh_frame") .noSection
  let data ← Prog.orFail section_.data .decompress
  let ehFrame := w.ehFrame data endian
  let bases := cliBases file
  let sframe ← Prog.lift ((conv file ehFrame bases).bind fun r => .ok (r.mapError .legacy))
  let bytes ← Prog.lift ((sframe.build dbg w.host).bind fun r => .ok (r.mapError .build))
  let outobj := OutObject.new file.architecture file.endianness
  let (outobj, section_) := outobj.addSection ".sframe"
  let outobj := outobj.setSectionData section_ bytes 8
  let data ← Prog.orFail (w.emit outobj) .emit
  Prog.fsWrite w args.output data

theorem runMain1_via (dbg : Bool) (w : World) (args : Args1) :
    runMain1 dbg w args = main1Via (fun _ => legacyConvert dbg) dbg w args [] := rfl

/-- dwarf2sframe/src/main.rs:60-316: what prints. -/
def legacyP (dbg : Bool) (t : LegacyText) (io : GErr) (file : ObjFile) (eh : EhFrame) (bases : Bases) :
    Printing Event1 (Except LegacyError SFrameBuilder) :=
  (Printing.say ((legacyAddresses file).map Event1.out)).bind fun _ => legacyConvertP dbg t io file.architecture eh bases

theorem legacyP_follows (dbg : Bool) (t : LegacyText) (io : GErr) (file : ObjFile) (eh : EhFrame) (bases : Bases) :
    Follows (legacyP dbg t io file eh bases)
      ((legacyAddresses file).map .out ++ (legacyConvertT dbg t file.architecture eh bases).1,
        legacyConvert dbg eh bases) (.ok (.error (.dump io))) := by
  have h := shown_follow_say (es := (legacyAddresses file).map .out)
    (f := fun _ => legacyConvertP dbg t io file.architecture eh bases)
    (g := fun _ => legacyConvertT dbg t file.architecture eh bases)
    (legacyConvertP_follows dbg t io file.architecture eh bases)
  rw [← C94_result dbg t file.architecture eh bases]
  exact h

theorem runMain1P_via (k : Nat → Bool) (io : GErr) (dbg : Bool) (t : LegacyText) (w : World) (args : Args1) :
    runMain1P k io dbg t w args = main1Via (fun file eh bases => (legacyP dbg t io file eh bases k 0).2) dbg w args [] := rfl

/-- Either the conversion is not reached, and nothing printed, or it is that of one section of one file. -/
theorem main1Via_cases (dbg : Bool) (t : LegacyText) (w : World) (args : Args1) :
    (main1Prints dbg t w args = [] ∧ ∀ conv conv', main1Via conv dbg w args [] = main1Via conv' dbg w args []) ∨
    ∃ file eh bases, (∃ h d, w.openFile args.input = some h ∧ w.mmap h = some d ∧ w.parse d = some file) ∧
      (∃ s data, file.sectionByName ".eh_frame" = some s ∧ s.data = some data ∧ eh = w.ehFrame data file.endianness) ∧
      bases = cliBases file ∧ main1Prints dbg t w args =
        (legacyAddresses file).map .out ++ (legacyConvertT dbg t file.architecture eh bases).1 ∧
      (∀ conv conv', conv file eh bases = conv' file eh bases →
        main1Via conv dbg w args [] = main1Via conv' dbg w args []) ∧
      (∀ conv e, conv file eh bases = .ok (.error e) → main1Via conv dbg w args [] = (.ok (.error (.legacy e)), [])) ∧
      (∀ conv p, conv file eh bases = .panic p → main1Via conv dbg w args [] = (.panic p, [])) := by
  unfold main1Prints
  cases h1 : w.openFile args.input with
  | none => exact .inl ⟨rfl, fun _ _ => by simp only [main1Via, h1, orFail_none_bind]⟩
  | some f =>
  cases h2 : w.mmap f with
  | none => exact .inl ⟨by simp [h2], fun _ _ => by simp only [main1Via, h1, h2, orFail_some_bind, orFail_none_bind]⟩
  | some data =>
  cases h3 : w.parse data with
  | none =>
    exact .inl ⟨by simp [h2, h3], fun _ _ => by simp only [main1Via, h1, h2, h3, orFail_some_bind, orFail_none_bind]⟩
  | some file =>
  cases h5 : file.sectionByName ".eh_frame" with
  | none =>
    exact .inl ⟨by simp [h2, h3, h5], fun _ _ => by
      simp only [main1Via, h1, h2, h3, h5, orFail_some_bind, orFail_none_bind]⟩
  | some s =>
  cases h6 : s.data with
  | none =>
    exact .inl ⟨by simp [h2, h3, h5, h6], fun _ _ => by
      simp only [main1Via, h1, h2, h3, h5, h6, orFail_some_bind, orFail_none_bind]⟩
  | some data =>
  refine .inr ⟨file, w.ehFrame data file.endianness, cliBases file,
    ⟨f, _, rfl, h2, h3⟩, ⟨s, data, h5, h6, rfl⟩, rfl, by simp [h2, h3, h5, h6], fun conv conv' h => ?_, fun conv e h => ?_, fun conv p h => ?_⟩
  · simp only [main1Via, h1, h2, h3, h5, h6, orFail_some_bind]
    show Prog.bind (Prog.lift ((conv _ _ _).bind _)) _ [] = Prog.bind (Prog.lift ((conv' _ _ _).bind _)) _ []
    rw [h]
  · simp only [main1Via, h1, h2, h3, h5, h6, orFail_some_bind]
    show Prog.bind (Prog.lift ((conv _ _ _).bind _)) _ [] = _
    rw [h]; rfl
  · simp only [main1Via, h1, h2, h3, h5, h6, orFail_some_bind]
    show Prog.bind (Prog.lift ((conv _ _ _).bind _)) _ [] = _
    rw [h]; rfl

end Verif
