import Verif.Props.Stream
import Verif.Props.Text
import Verif.Props.Dwarfdump
import Verif.Props.Main1
import Verif.Props.Main2
import Verif.Props.Report
import Verif.Props.Report1
/-!
# The tools on streams that fail: C105, C106, C107
-/

namespace Verif
open Spec

/-! ### C105: sframedump -/

/-- What `sframedump` prints if nothing fails. -/
def Spec.listingOf (abiText : U8 → String) (dbg : Bool) (w : World) (path : String) : List UInt8 :=
  utf8 (stdoutText abiText (sframedump dbg w path).1)

/-- The line is the one about a section that cannot be decoded. -/
def DumpLine.isDecodeError : DumpLine → Bool
  | .decodeError _ => true
  | _ => false

theorem flush_mem {abiText : U8 → String} {cut : Cut} {ls : List DumpLine} (h : .flush ∈ dumpOps abiText cut ls) :
    ∃ e, .decodeError e ∈ ls := by
  unfold dumpOps at h
  rw [List.mem_flatMap] at h
  obtain ⟨l, hl, h⟩ := h
  cases l with
  | decodeError e => exact ⟨e, hl⟩
  | _ =>
    simp only [List.mem_flatMap, writeLine, List.mem_map] at h
    obtain ⟨_, _, _, _, h⟩ := h
    cases h

/-- The run, in terms of the writer. -/
theorem sframedumpOn_eq (k : Sink) (abiText : U8 → String) (cut : Cut) (dbg : Bool) (w : World) (path : String) :
    sframedumpOn k abiText cut dbg w path =
      (if (runOps k (dumpOps abiText cut (sframedump dbg w path).1) BufWriter.new).1 then
          (sframedump dbg w path).2.bind fun x => .ok (x.mapError some) else .ok (.error none),
        ((runOps k (dumpOps abiText cut (sframedump dbg w path).1) BufWriter.new).2.drop k).sent) := rfl

namespace Samples

/-- A name for every ABI. -/
def abiName (_ : U8) : String := "AMD64_ENDIAN_LITTLE"

/-- A stream that takes nothing. -/
def full : Sink := { takes := fun _ _ => 0, flushes := fun _ => false }

end Samples

/-- On a stdout that takes nothing, every listing of less than 8192 bytes that ends well is lost, and the tool reports
success. -/
theorem sframedumpOn_short {abiText : U8 → String} {cut : Cut} (hc : Faithful cut) {dbg : Bool} {w : World} {path : String}
    (hok : (sframedump dbg w path).2 = .ok (.ok ()))
    (hd : ((sframedump dbg w path).1.all fun l => !l.isDecodeError) = true)
    (hl : (listingOf abiText dbg w path).length < 8192) :
    sframedumpOn Samples.full abiText cut dbg w path = (.ok (.ok ()), []) := by
  unfold listingOf at hl
  rw [sframedumpOn_eq, hok]
  generalize (sframedump dbg w path).1 = ls at hd hl ⊢
  have hr := runOps_short Samples.full (dumpOps abiText cut ls) BufWriter.new
    (fun hm => by
      obtain ⟨e, he⟩ := flush_mem hm
      cases List.all_eq_true.1 hd _ he)
    (by
      rw [bytesOf_dumpOps hc]
      show 0 + _ < 8192
      omega)
  rw [hr]
  refine Prod.ext rfl ?_
  simp [BufWriter.drop, BufWriter.flushBuf, BufWriter.handOver, Samples.full, BufWriter.new]

theorem Samples.v2_ok (dbg : Bool) : (sframedump dbg (Samples.dumpWorld .little .little Samples.v2) "x").2 = .ok (.ok ()) := by
  cases dbg <;> decide +kernel

theorem Samples.v2_lines (dbg : Bool) :
    ((sframedump dbg (Samples.dumpWorld .little .little Samples.v2) "x").1.all fun l => !l.isDecodeError) = true := by
  cases dbg <;> decide +kernel

theorem Samples.v2_length (dbg : Bool) : (listingOf Samples.abiName dbg (Samples.dumpWorld .little .little Samples.v2) "x").length = 502 := by
  cases dbg <;> decide +kernel

/-- **C105 is false of the code**: the writer is not flushed before `main` returns (main.rs:63-66), and the failure of
the flush when it is dropped is ignored.  On a stdout that takes nothing the listing of the sample section is lost, and the
tool reports success. -/
theorem C105_unwritten (dbg : Bool) (cut : Cut) (hc : Faithful cut) :
    sframedumpOn Samples.full Samples.abiName cut dbg (Samples.dumpWorld .little .little Samples.v2) "x" = (.ok (.ok ()), []) ∧
    (listingOf Samples.abiName dbg (Samples.dumpWorld .little .little Samples.v2) "x").length = 502 := by
  exact ⟨sframedumpOn_short hc (Samples.v2_ok dbg) (Samples.v2_lines dbg)
    (Nat.lt_of_le_of_lt (Nat.le_of_eq (Samples.v2_length dbg)) (by decide)), Samples.v2_length dbg⟩

/-- **C105**, what holds: what stdout has taken is always the start of the listing, also if the run fails or panics; if the
run succeeds, at most the last 8192 bytes of the listing are missing; and none if stdout takes everything, which
then changes nothing in the result.  A stdout that fails does not cause a panic.  Missing: that
nothing is missing after a success, which is false. -/
theorem C105_written_partial (k : Sink) (abiText : U8 → String) (cut : Cut) (hc : Faithful cut) (dbg : Bool) (w : World)
    (path : String) :
    (∃ lost, listingOf abiText dbg w path = (sframedumpOn k abiText cut dbg w path).2 ++ lost ∧
      ((sframedumpOn k abiText cut dbg w path).1 = .ok (.ok ()) → lost.length ≤ 8192)) ∧
    (Reliable k → sframedumpOn k abiText cut dbg w path =
      ((sframedump dbg w path).2.bind fun x => .ok (x.mapError some), listingOf abiText dbg w path)) ∧
    (∀ p, (sframedumpOn k abiText cut dbg w path).1 = .panic p → (sframedump dbg w path).2 = .panic p) := by
  obtain ⟨⟨rest, h1, h2⟩, h3⟩ := runOps_all k (dumpOps abiText cut (sframedump dbg w path).1) BufWriter.new (by decide)
  obtain ⟨lost, g1, g2, g3⟩ := drop_sent k (runOps k (dumpOps abiText cut (sframedump dbg w path).1) BufWriter.new).2
  rw [bytesOf_dumpOps hc] at h1
  replace h1 : listingOf abiText dbg w path = _ := h1
  rw [g1] at h1
  rw [sframedumpOn_eq]
  refine ⟨⟨lost ++ rest, by rw [h1, List.append_assoc], fun hok => ?_⟩, fun hk => ?_, fun p hp => ?_⟩
  · have hr : (runOps k (dumpOps abiText cut (sframedump dbg w path).1) BufWriter.new).1 = true := by
      cases hx : (runOps k (dumpOps abiText cut (sframedump dbg w path).1) BufWriter.new).1 with
      | true => rfl
      | false => rw [hx] at hok; cases hok
    rw [h2 hr, List.append_nil]
    exact Nat.le_trans g2 h3
  · have hr := runOps_reliable hk (dumpOps abiText cut (sframedump dbg w path).1) BufWriter.new
    rw [if_pos hr, h1, h2 hr, g3 (hk.1 _ _), List.append_nil, List.append_nil]
  · revert hp
    cases (runOps k (dumpOps abiText cut (sframedump dbg w path).1) BufWriter.new).1 with
    | false => intro h; cases h
    | true =>
      simp only [if_true]
      cases (sframedump dbg w path).2 with
      | ok x => intro h; cases h
      | panic q => intro h; cases h; rfl
      | diverge => intro h; cases h

/-- A way to cut lines, and streams: one that takes all, one that takes 100 bytes at a time (so that the flush
fails). -/
example (dbg : Bool) :
    Faithful (fun s => [utf8 s]) ∧
    Reliable ⟨fun _ bs => bs.length, fun _ => true⟩ ∧
    (sframedumpOn ⟨fun _ _ => 100, fun _ => true⟩ Samples.abiName (fun s => [utf8 s]) dbg
      (Samples.dumpWorld .little .little Samples.v2) "x").2.length = 100 ∧
    (sframedumpOn ⟨fun _ bs => bs.length, fun _ => true⟩ Samples.abiName (fun s => [utf8 s]) dbg
      (Samples.dumpWorld .little .little Samples.v2) "x").2.length = 502 := by
  refine ⟨fun s => by simp, ⟨fun _ _ => Nat.le_refl _, fun _ => rfl⟩, ?_, ?_⟩ <;> cases dbg <;> decide +kernel

/-! ### C106: dwarfdump -/

/-- **C106.**  If `dwarfdump` returns without a line on stderr, everything that it prints has been taken by stdout; in any
case what has been taken is the start of it; and a stdout that takes everything changes nothing. -/
theorem C106_written (k : Sink) (cut : Cut) (hc : Faithful cut) (dbg : Bool) (w : DumpWorld) (arg : Option String) :
    ((dwarfdumpOn k cut dbg w arg).1.result = .ok (.ok ()) → (dwarfdumpOn k cut dbg w arg).1.stderr = [] →
      (dwarfdumpOn k cut dbg w arg).1 = dwarfdump dbg w arg ∧
      (dwarfdumpOn k cut dbg w arg).2 = utf8 (String.join ((dwarfdump dbg w arg).stdout.map (· ++ "\n")))) ∧
    (∃ lost, utf8 (String.join ((dwarfdump dbg w arg).stdout.map (· ++ "\n"))) = (dwarfdumpOn k cut dbg w arg).2 ++ lost) ∧
    (Reliable k → dwarfdumpOn k cut dbg w arg =
      (dwarfdump dbg w arg, utf8 (String.join ((dwarfdump dbg w arg).stdout.map (· ++ "\n"))))) := by
  unfold dwarfdumpOn
  rw [← bytesOf_lines hc]
  generalize dwarfdump dbg w arg = run
  obtain ⟨⟨rest, h1, h2⟩, h3⟩ := runOps_all k (run.stdout.flatMap (writeLine cut)) BufWriter.new (by decide)
  have hrel : Reliable k → (runOps k (run.stdout.flatMap (writeLine cut)) BufWriter.new).1 = true :=
    fun hk => runOps_reliable hk _ _
  cases hx : runOps k (run.stdout.flatMap (writeLine cut)) BufWriter.new with
  | mk ok bw =>
    rw [hx] at h1 h2 h3 hrel
    simp only [BufWriter.new, List.nil_append, List.append_nil] at h1 h2 h3 hrel
    simp only []
    obtain ⟨lost, g1, g2, g3⟩ := drop_sent k bw
    cases ok with
    | false =>
      simp only [hx, Bool.not_false, if_true]
      exact ⟨(fun _ h => by cases h), ⟨lost ++ rest, by rw [h1, g1, List.append_assoc]⟩, fun hk => by cases hrel hk⟩
    | true =>
      rw [h2 rfl, List.append_nil] at h1
      simp only [hx, Bool.not_true, Bool.false_eq_true, if_false]
      by_cases hs : run.stderr = [] ∧ run.result = .ok (.ok ())
      · simp only [if_pos hs]
        obtain ⟨f1, f2, f3⟩ := flush_all k bw h3
        have f4 : Reliable k → (bw.flush k).1 = true := fun hk => flush_reliable hk bw
        cases hf : bw.flush k with
        | mk ok bw' =>
          rw [hf] at f1 f2 f3 f4
          simp only at f1 f2 f3 f4 ⊢
          obtain ⟨lost', e1, e2, -⟩ := drop_sent k bw'
          cases ok with
          | false => exact ⟨(fun _ h => by cases h), ⟨lost', by rw [h1, ← f1, e1]⟩, fun hk => by cases f4 hk⟩
          | true =>
            simp only [if_true]
            have hl : lost' = [] := List.eq_nil_of_length_eq_zero (by rw [f3 rfl] at e2; simpa using e2)
            have hout : bytesOf (run.stdout.flatMap (writeLine cut)) = (bw'.drop k).sent := by
              rw [h1, ← f1, e1, hl, List.append_nil]
            exact ⟨fun _ _ => ⟨trivial, hout.symm⟩, ⟨[], by rw [List.append_nil, hout]⟩, fun _ => by rw [hout]⟩
      · simp only [if_neg hs]
        exact ⟨fun a b => absurd ⟨b, a⟩ hs, ⟨lost, by rw [h1, g1]⟩,
          fun hk => by rw [h1, g1, g3 (hk.1 _ _), List.append_nil]⟩

/-- The whole of a small dump on a stdout that takes it; nothing of it on one that takes nothing, and a message. -/
example (dbg : Bool) :
    (dwarfdumpOn ⟨fun _ bs => bs.length, fun _ => true⟩ (fun s => [utf8 s]) dbg
      (Samples.dwWorld .x86_64 (some []) [.ok (.cie (Samples.dwCie [.ok .nop]))]) (some "x")).1.stderr = [] ∧
    (dwarfdumpOn Samples.full (fun s => [utf8 s]) dbg
      (Samples.dwWorld .x86_64 (some []) [.ok (.cie (Samples.dwCie [.ok .nop]))]) (some "x")).1.stderr =
        ["Failed to dump 'x': IoError"] ∧
    (dwarfdumpOn Samples.full (fun s => [utf8 s]) dbg
      (Samples.dwWorld .x86_64 (some []) [.ok (.cie (Samples.dwCie [.ok .nop]))]) (some "x")).2 = [] := by
  refine ⟨?_, ?_, ?_⟩ <;> cases dbg <;> decide +kernel

/-! ### C107: the converters -/

theorem firstFailure_none {c : Console} {n : Nat} : c.firstFailure n = none ↔ ∀ i, i < n → c.works i = true := by
  unfold Console.firstFailure
  rw [List.find?_eq_none]
  simp

theorem firstFailure_some {c : Console} {n i : Nat} (h : c.firstFailure n = some i) :
    i < n ∧ c.works i = false ∧ ∀ j, j < i → c.works j = true := by
  unfold Console.firstFailure at h
  have h1 := List.find?_some h
  have h2 := List.mem_of_find?_eq_some h
  refine ⟨by simpa using h2, by simpa using h1, fun j hj => ?_⟩
  rw [List.find?_range_eq_some] at h
  simpa using h.2.2 j hj

/-- Without `--debug-dump` and `--warnings` nothing is printed. -/
theorem main2Prints_silent {dbg : Bool} {g : GimliText} {w : World} {args : Args2} (h1 : args.debugDump = false)
    (h2 : args.warnings = false) : main2Prints dbg g w args = [] := by
  unfold main2Prints
  split
  · rfl
  split
  · rfl
  split
  · rfl
  split
  · rfl
  rename_i file _ _ arch _ _ data _
  obtain ⟨g1, g2⟩ := C91_silent dbg g (w.ehFrame data file.endianness)
    (cliOptions args arch file.endianness (cliBases file))
  have g1 := g1 h1
  have g2 := g2 h2
  generalize (dwarf2sframeT dbg g (w.ehFrame data file.endianness)
    (cliOptions args arch file.endianness (cliBases file))).1 = es at g1 g2
  cases es with
  | nil => rfl
  | cons e _ => cases e <;> simp [stdoutOf, stderrOf] at g1 g2

namespace Samples

/-- Streams on which nothing can be printed. -/
def refusing (listing : Nat → Bool) : Console := ⟨fun _ => false, listing⟩

/-- Streams on which everything can be printed. -/
def opened : Console := ⟨fun _ => true, fun _ => false⟩

/-- The input has the function of the examples of C91, with one instruction. -/
def worldNop : World := { world false with ehFrame := fun _ _ => ehOf [dwFde] }

/-- `args2` with the debug dump. -/
def args2Dump : Args2 := { args2 with debugDump := true }

end Samples

/-- **C107 is false of the code**: `dwarf2sframe2 --debug-dump` converts the sample file if its report can be printed, and
otherwise panics and writes nothing; the legacy converter prints its report without being asked, with the same
effect. -/
theorem C107_depends (dbg : Bool) :
    (runMain2On Samples.opened ⟨0⟩ dbg Samples.names (Samples.world false) Samples.args2Dump =
      (.ok (.ok ()), [⟨"out", image .little (Samples.oneAt 0x1010)⟩]) ∧
    runMain2On (Samples.refusing fun _ => false) ⟨0⟩ dbg Samples.names (Samples.world false) Samples.args2Dump =
      (.panic .explicit, [])) ∧
    runMain1On Samples.opened ⟨0⟩ dbg Samples.legacyText (Samples.world1 .x86_64 .little .little) Samples.args1 =
      (.ok (.ok ()), [⟨"out", image .little Samples.legacyOne⟩]) ∧
    runMain1On (Samples.refusing fun _ => false) ⟨0⟩ dbg Samples.legacyText (Samples.world1 .x86_64 .little .little)
      Samples.args1 = (.panic .explicit, []) := by
  refine ⟨⟨?_, ?_⟩, ?_, ?_⟩ <;> cases dbg <;> decide +kernel

/-- **C107**, what holds of `dwarf2sframe2`: if a file is written, or the run succeeds, then everything has been printed and
the run is that without failures; otherwise something could not be printed and nothing is written.
Without `--debug-dump` and `--warnings` the streams do not matter.  Missing: that they do not matter with
these options, which is false. -/
theorem C107_converter_partial (c : Console) (io : GErr) (dbg : Bool) (g : GimliText) (w : World) (args : Args2) :
    (((∀ i, i < (main2Prints dbg g w args).length → c.works i = true) ∧
        runMain2On c io dbg g w args = runMain2 dbg w args) ∨
      ((∃ i, i < (main2Prints dbg g w args).length ∧ c.works i = false) ∧
        (runMain2On c io dbg g w args).1 ≠ .ok (.ok ()) ∧ (runMain2On c io dbg g w args).2 = [])) ∧
    (args.debugDump = false → args.warnings = false → runMain2On c io dbg g w args = runMain2 dbg w args) := by
  constructor
  · unfold runMain2On
    cases h : c.firstFailure (main2Prints dbg g w args).length with
    | none => exact .inl ⟨firstFailure_none.1 h, rfl⟩
    | some i =>
      obtain ⟨h1, h2, -⟩ := firstFailure_some h
      refine .inr ⟨⟨i, h1, h2⟩, ?_, rfl⟩
      simp only []; split <;> simp
  · intro h1 h2
    unfold runMain2On
    rw [main2Prints_silent h1 h2]
    rfl

/-- **C107**, what holds of the legacy converter: the same, without the options.  It always prints the address of
`.eh_frame`, so it converts nothing at all if stdout refuses that.  Missing: as before. -/
theorem C107_legacy_partial (c : Console) (io : GErr) (dbg : Bool) (t : LegacyText) (w : World) (args : Args1) :
    (((∀ i, i < (main1Prints dbg t w args).length → c.works i = true) ∧
        runMain1On c io dbg t w args = runMain1 dbg w args) ∨
      ((∃ i, i < (main1Prints dbg t w args).length ∧ c.works i = false) ∧
        (runMain1On c io dbg t w args).1 ≠ .ok (.ok ()) ∧ (runMain1On c io dbg t w args).2 = [])) ∧
    (c.works 0 = false → (runMain1On c io dbg t w args).1 ≠ .ok (.ok ()) ∧ (runMain1On c io dbg t w args).2 = []) := by
  have main : ((∀ i, i < (main1Prints dbg t w args).length → c.works i = true) ∧
        runMain1On c io dbg t w args = runMain1 dbg w args) ∨
      ((∃ i, i < (main1Prints dbg t w args).length ∧ c.works i = false) ∧
        (runMain1On c io dbg t w args).1 ≠ .ok (.ok ()) ∧ (runMain1On c io dbg t w args).2 = []) := by
    unfold runMain1On
    cases h : c.firstFailure (main1Prints dbg t w args).length with
    | none => exact .inl ⟨firstFailure_none.1 h, rfl⟩
    | some i =>
      obtain ⟨h1, h2, -⟩ := firstFailure_some h
      refine .inr ⟨⟨i, h1, h2⟩, ?_, rfl⟩
      simp only []; split <;> simp
  refine ⟨main, fun h0 => ?_⟩
  rcases main with ⟨hw, he⟩ | ⟨-, h1, h2⟩
  · rw [he]
    rcases runMain1_cases dbg w args with ⟨h1, h2, -, -⟩ | ⟨file, eh, b, bytes, out, hm, -⟩
    · exact ⟨h2 (), h1⟩
    · exfalso
      obtain ⟨s, data, hs, -, -⟩ := hm.section_
      have hp := (C94_run dbg t w args).1 file eh ⟨hm.input, hm.section_⟩
      rw [← legacyAddresses_eq] at hp
      have hlen : 0 < (main1Prints dbg t w args).length := by
        rw [hp]
        simp only [legacyAddresses, hs, List.length_append, List.length_map, List.length_cons]
        omega
      rw [hw 0 hlen] at h0
      cases h0
  · exact ⟨h1, h2⟩

/-- A run of `dwarf2sframe2` whose streams do not matter, and one in which the listing of instructions cannot be
printed: it blames the input. -/
example (dbg : Bool) :
    runMain2On (Samples.refusing fun _ => false) ⟨0⟩ dbg Samples.names (Samples.world false)
      { Samples.args2 with warnings := false } = (.ok (.ok ()), [⟨"out", image .little (Samples.oneAt 0x1010)⟩]) ∧
    runMain2On ⟨fun i => decide (i < 3), fun i => decide (i = 3)⟩ ⟨0⟩ dbg Samples.names Samples.worldNop
      Samples.args2Dump = (.ok (.error (.convert (.invalidDwarfFde ⟨0⟩))), []) ∧
    (main2Prints dbg Samples.names Samples.worldNop Samples.args2Dump)[3]? =
      some (.out "                DW_CFA_nop") := by
  refine ⟨?_, ?_, ?_⟩ <;> cases dbg <;> decide +kernel

end Verif
