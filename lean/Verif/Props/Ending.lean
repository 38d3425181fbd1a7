import Verif.Props.Printing
import Verif.Props.Convert3
import Verif.Props.Write
/-!
# How the converters end

C129, on the model of `Model/Printing.lean`: what the exit code of a converter says, whatever stdout and stderr take.
-/

namespace Verif
open Spec

/-! ### The converters always end -/

theorem ends_orFail {α β : Type} {x : Option α} {e : CliError} {f : α → Prog β} {cs : List WriteCall}
    (h : ∀ a, (f a cs).1 ≠ .diverge) : (Prog.bind (Prog.orFail x e) f cs).1 ≠ .diverge := by
  cases x with
  | none => exact nofun
  | some a => exact h a

theorem ends_lift {α β ε : Type} {x : Rust (Except ε α)} {g : ε → CliError} {f : α → Prog β} {cs : List WriteCall}
    (hx : x ≠ .diverge) (h : ∀ a, x = .ok (.ok a) → (f a cs).1 ≠ .diverge) :
    (Prog.bind (Prog.lift (x.bind fun r => .ok (r.mapError g))) f cs).1 ≠ .diverge := by
  rcases x with (e | a) | p | _
  · exact nofun
  · exact h a rfl
  · exact nofun
  · exact absurd rfl hx

theorem legacyConvert_ends (dbg : Bool) (eh : EhFrame) (bases : Bases) : legacyConvert dbg eh bases ≠ .diverge := by
  rw [← legacyConvertT_snd dbg Samples.legacyText .x86_64]
  rcases legacyConvertT_cases dbg Samples.legacyText .x86_64 eh bases with
    ⟨fdes, _, _, h⟩ | ⟨fdes, x, rest, out, r, _, _, ht, h⟩ <;> rw [h]
  · exact nofun
  · cases ht with
    | far => split <;> exact nofun
    | _ => exact nofun

theorem runMain2_ends (dbg : Bool) (w : World) (args : Args2) : (runMain2 dbg w args).1 ≠ .diverge := by
  unfold runMain2 main2
  simp only [Bind.bind]
  refine ends_orFail fun _ => ends_orFail fun _ => ends_orFail fun _ => ends_orFail fun _ => ends_orFail fun _ =>
    ends_orFail fun _ => ends_lift dwarf2sframe_terminates fun b hb =>
      ends_lift (C27_build_total dbg dbg _ b (converted_reachable hb)).1 fun _ _ => ends_orFail fun _ => ?_
  unfold Prog.fsWrite
  split <;> exact nofun

theorem runMain1_ends (dbg : Bool) (w : World) (args : Args1) : (runMain1 dbg w args).1 ≠ .diverge := by
  unfold runMain1 main1
  simp only [Bind.bind]
  refine ends_orFail fun _ => ends_orFail fun _ => ends_orFail fun _ => ends_orFail fun _ => ends_orFail fun _ =>
    ends_lift (legacyConvert_ends _ _ _) fun b hb =>
      ends_lift (C27_build_total dbg dbg _ b (legacy_reachable hb).1).1 fun _ _ => ends_orFail fun _ => ?_
  unfold Prog.fsWrite
  split <;> exact nofun

/-! ### C129 -/

/-- What a process says of its run: `made` are the objects that the input gives, `path` the file to write and `quiet` that nothing
was refused. -/
structure Spec.Ends (w : World) (path : String) (made : List U8 → Prop) (quiet : Prop) (p : Option Nat × List WriteCall) :
    Prop where
  /-- It ends, with one of three codes. -/
  ends : p.1 = some 0 ∨ p.1 = some 1 ∨ p.1 = some 101
  /-- Code 0 says that the whole object was written. -/
  success : p.1 = some 0 ↔ ∃ out, made out ∧ w.write path out = true ∧ p.2 = [⟨path, out⟩]
  /-- Otherwise nothing was, or writing it failed. -/
  failure : p.1 ≠ some 0 → p.2 = [] ∨ p.1 = some 1 ∧ ∃ out, made out ∧ w.write path out = false ∧ p.2 = [⟨path, out⟩]
  /-- Code 0 also says that everything was printed. -/
  told : p.1 = some 0 → quiet

/-- A run either is that without failures, or it stops and writes nothing. -/
theorem ends_of {w : World} {path : String} {made : List U8 → Prop} {quiet : Prop}
    {r r' : Rust (Except CliError Unit) × List WriteCall} (hd : r.1 ≠ .diverge)
    (hr : (r.2 = [] ∧ (∀ a, r.1 ≠ .ok (.ok a)) ∧ ¬ ∃ out, made out) ∨
      ∃ out, made out ∧ r = (if w.write path out then .ok (.ok ()) else .ok (.error .write), [⟨path, out⟩]))
    (h1 : quiet → r' = r) (h2 : ¬ quiet → (∃ e, r' = (.ok (.error e), [])) ∨ ∃ p, r' = (.panic p, [])) :
    Ends w path made quiet (exitCode r'.1, r'.2) := by
  by_cases hq : quiet
  · rw [h1 hq]
    rcases hr with ⟨g1, g2, g3⟩ | ⟨out, g1, g2⟩
    · have hne : exitCode r.1 ≠ some 0 := by
        rcases h : r.1 with (e | a) | p | _
        · simp [exitCode]
        · exact absurd h (g2 a)
        · simp [exitCode]
        · simp [exitCode]
      refine ⟨?_, ⟨fun h => absurd h hne, fun ⟨out, hm, _⟩ => absurd ⟨out, hm⟩ g3⟩, fun _ => .inl g1, fun _ => hq⟩
      rcases h : r.1 with (e | a) | p | _
      · exact .inr (.inl rfl)
      · exact .inl rfl
      · exact .inr (.inr rfl)
      · exact absurd h hd
    · rw [g2]
      cases hw : w.write path out with
      | true =>
        exact ⟨.inl rfl, ⟨fun _ => ⟨out, g1, hw, rfl⟩, fun _ => rfl⟩, fun h => absurd rfl h, fun _ => hq⟩
      | false =>
        refine ⟨.inr (.inl rfl), ⟨fun h => by simp [exitCode] at h, fun ⟨out', _, hw', ho⟩ => ?_⟩,
          fun _ => .inr ⟨rfl, out, g1, hw, rfl⟩, fun _ => hq⟩
        simp only [List.cons.injEq, WriteCall.mk.injEq, true_and, and_true] at ho
        rw [ho, hw'] at hw
        cases hw
  · rcases h2 hq with ⟨e, h⟩ | ⟨p, h⟩ <;> rw [h]
    · exact ⟨.inr (.inl rfl), ⟨fun h => by simp [exitCode] at h, fun ⟨_, _, _, h⟩ => by cases h⟩, fun _ => .inl rfl,
        fun h => by simp [exitCode] at h⟩
    · exact ⟨.inr (.inr rfl), ⟨fun h => by simp [exitCode] at h, fun ⟨_, _, _, h⟩ => by cases h⟩, fun _ => .inl rfl,
        fun h => by simp [exitCode] at h⟩

/-- The first print that is refused. -/
theorem first_refused {k : Nat → Bool} {n : Nat} (h : ¬ ∀ i, i < n → k i = true) :
    ∃ i, i < n ∧ k i = false ∧ ∀ j, j < i → k j = true := by
  induction n with
  | zero => exact absurd (fun i hi => absurd hi (Nat.not_lt_zero i)) h
  | succ n ih =>
    by_cases hn : ∀ i, i < n → k i = true
    · refine ⟨n, Nat.lt_succ_self n, ?_, hn⟩
      cases hk : k n with
      | false => rfl
      | true =>
        refine absurd (fun i hi => ?_) h
        rcases Nat.lt_or_eq_of_le (Nat.le_of_lt_succ hi) with hlt | rfl
        · exact hn i hlt
        · exact hk
    · obtain ⟨i, h1, h2⟩ := ih hn
      exact ⟨i, Nat.lt_succ_of_lt h1, h2⟩

/-- **C129** Whatever stdout and stderr take: `dwarf2sframe2` ends, with code 0, 1 or 101; code 0 says exactly that it has written
the whole object with the section it made, and that everything was printed; otherwise it has written nothing, or
writing the object failed. -/
theorem C129_newer (k : Nat → Bool) (io : GErr) (dbg : Bool) (g : GimliText) (w : World) (args : Args2) :
    Ends w args.output (fun out => ∃ file arch eh b bytes, Made dbg w args file arch eh b bytes out)
      (∀ i, i < (main2Prints dbg g w args).length → k i = true) (process2 k io dbg g w args) := by
  obtain ⟨lines, g1, -, g3⟩ := C107_exact_partial io dbg g w args
  have hlen : (main2Prints dbg g w args).length = lines.length := by rw [← g1, List.length_map]
  rw [hlen]
  refine ends_of (runMain2_ends dbg w args) ?_ (g3 k).1 fun hq => ?_
  · rcases runMain2_cases dbg w args with ⟨h1, h2, -, h4⟩ | ⟨file, arch, eh, b, bytes, out, hm, h⟩
    · exact .inl ⟨h1, fun _ => h2, fun ⟨out, file, arch, eh, b, bytes, hm⟩ => h4 ⟨file, arch, eh, b, bytes, out, hm⟩⟩
    · exact .inr ⟨out, ⟨file, arch, eh, b, bytes, hm⟩, h⟩
  · obtain ⟨i, h1, h2, h3⟩ := first_refused hq
    have := (g3 k).2 i _ (List.getElem?_eq_getElem h1) h3 h2
    rw [this]
    cases lines[i].2 with
    | true => exact .inl ⟨_, rfl⟩
    | false => exact .inr ⟨_, rfl⟩

/-- **C129** The same of the legacy converter. -/
theorem C129_legacy (k : Nat → Bool) (io : GErr) (dbg : Bool) (t : LegacyText) (w : World) (args : Args1) :
    Ends w args.output (fun out => ∃ file eh b bytes, Made1 dbg w args file eh b bytes out)
      (∀ i, i < (main1Prints dbg t w args).length → k i = true) (process1 k io dbg t w args) := by
  obtain ⟨lines, g1, -, g3⟩ := C107_exact1_partial io dbg t w args
  have hlen : (main1Prints dbg t w args).length = lines.length := by rw [← g1, List.length_map]
  rw [hlen]
  refine ends_of (runMain1_ends dbg w args) ?_ (g3 k).1 fun hq => ?_
  · rcases runMain1_cases dbg w args with ⟨h1, h2, -, h4⟩ | ⟨file, eh, b, bytes, out, hm, h⟩
    · exact .inl ⟨h1, h2, fun ⟨out, file, eh, b, bytes, hm⟩ => h4 ⟨file, eh, b, bytes, out, hm⟩⟩
    · exact .inr ⟨out, ⟨file, eh, b, bytes, hm⟩, h⟩
  · obtain ⟨i, h1, h2, h3⟩ := first_refused hq
    have := (g3 k).2 i _ (List.getElem?_eq_getElem h1) h3 h2
    rw [this]
    cases lines[i].2 with
    | true => exact .inl ⟨_, rfl⟩
    | false => exact .inr ⟨_, rfl⟩

/-- **C129** What is written does not depend on the streams: on any streams it is what is written if everything is
taken, or nothing. -/
theorem C129_same (k : Nat → Bool) (io : GErr) (dbg : Bool) :
    (∀ g w args, (process2 k io dbg g w args).2 = [] ∨
      process2 k io dbg g w args = process2 (fun _ => true) io dbg g w args) ∧
    ∀ t w args, (process1 k io dbg t w args).2 = [] ∨
      process1 k io dbg t w args = process1 (fun _ => true) io dbg t w args := by
  refine ⟨fun g w args => ?_, fun t w args => ?_⟩
  · obtain ⟨lines, -, -, g3⟩ := C107_exact_partial io dbg g w args
    by_cases hq : ∀ i, i < lines.length → k i = true
    · exact .inr (by rw [process2, process2, (g3 k).1 hq, (g3 _).1 fun _ _ => rfl])
    · obtain ⟨i, h1, h2, h3⟩ := first_refused hq
      exact .inl (by rw [process2, (g3 k).2 i _ (List.getElem?_eq_getElem h1) h3 h2])
  · obtain ⟨lines, -, -, g3⟩ := C107_exact1_partial io dbg t w args
    by_cases hq : ∀ i, i < lines.length → k i = true
    · exact .inr (by rw [process1, process1, (g3 k).1 hq, (g3 _).1 fun _ _ => rfl])
    · obtain ⟨i, h1, h2, h3⟩ := first_refused hq
      exact .inl (by rw [process1, (g3 k).2 i _ (List.getElem?_eq_getElem h1) h3 h2])

/-- Runs with each of the codes: a section is written; a listing is refused; another line is refused; the file cannot be
written. -/
example (dbg : Bool) :
    process2 (fun _ => false) ⟨0⟩ dbg Samples.names (Samples.world false) { Samples.args2 with warnings := false } =
      (some 0, [⟨"out", image .little (Samples.oneAt 0x1010)⟩]) ∧
    process2 (fun i => decide (i ≠ 3)) ⟨7⟩ dbg Samples.names Samples.worldNop Samples.args2Dump = (some 1, []) ∧
    process1 (fun i => decide (i ≠ 1)) ⟨7⟩ dbg Samples.legacyText (Samples.world1 .x86_64 .little .little) Samples.args1 =
      (some 101, []) ∧
    process2 (fun _ => false) ⟨0⟩ dbg Samples.names { Samples.world false with write := fun _ _ => false }
      { Samples.args2 with warnings := false } = (some 1, [⟨"out", image .little (Samples.oneAt 0x1010)⟩]) := by
  refine ⟨?_, ?_, ?_, ?_⟩ <;> cases dbg <;> decide +kernel

end Verif
