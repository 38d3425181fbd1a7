import Verif.Model.Stderr
import Verif.Props.Stream2
/-!
# A stderr that fails: C126, C127; crates/bpfunwind: C128
-/

namespace Verif
open Spec

namespace Spec

/-- The number of messages in a listing. -/
def messages (ls : List DumpLine) : Nat := ls.countP DumpLine.isDecodeError

/-- The listing up to message number `n`. -/
def untilMessage : Nat → List DumpLine → List DumpLine
  | _, [] => []
  | n, l :: ls =>
    if l.isDecodeError then
      match n with
      | 0 => [l]
      | n + 1 => l :: untilMessage n ls
    else l :: untilMessage n ls

end Spec

/-! ### The steps -/

theorem untilMessage_line {l : DumpLine} (hl : ¬ l.isDecodeError = true) (n : Nat) (ls : List DumpLine) :
    untilMessage n (l :: ls) = l :: untilMessage n ls := by
  cases n <;> simp only [untilMessage, hl, Bool.false_eq_true, if_false]

theorem runOps_append (k : Sink) (xs ys : List StreamOp) (w : BufWriter) :
    runOps k (xs ++ ys) w =
      if (runOps k xs w).1 then runOps k ys (runOps k xs w).2 else (false, (runOps k xs w).2) := by
  induction xs generalizing w with
  | nil => rfl
  | cons op xs ih =>
    cases op with
    | write bytes =>
      cases hx : w.writeAll k bytes with
      | mk ok w1 => cases ok <;> simp [runOps, hx, ih]
    | flush =>
      cases hx : w.flush k with
      | mk ok w1 => cases ok <;> simp [runOps, hx, ih]

theorem runSteps_out (k : Sink) (e : Stderr) (ops : List StreamOp) (rest : List DumpStep) (n : Nat) (w : BufWriter) :
    runSteps k e (ops.map .out ++ rest) n w =
      if (runOps k ops w).1 then runSteps k e rest n (runOps k ops w).2 else (.stdout, (runOps k ops w).2) := by
  induction ops generalizing w with
  | nil => rfl
  | cons op ops ih =>
    cases op with
    | write bytes =>
      cases hx : w.writeAll k bytes with
      | mk ok w1 => cases ok <;> simp [runOps, runSteps, hx, ih]
    | flush =>
      cases hx : w.flush k with
      | mk ok w1 => cases ok <;> simp [runOps, runSteps, hx, ih]

theorem dumpOps_cons (abiText : U8 → String) (cut : Cut) (l : DumpLine) (ls : List DumpLine) :
    dumpOps abiText cut (l :: ls) = dumpOps abiText cut [l] ++ dumpOps abiText cut ls := by
  unfold dumpOps
  rw [List.flatMap_cons, List.flatMap_cons, List.flatMap_nil, List.append_nil]

theorem dumpSteps_cons (abiText : U8 → String) (cut : Cut) (l : DumpLine) (ls : List DumpLine) :
    dumpSteps abiText cut (l :: ls) = (dumpOps abiText cut [l]).map .out ++
      ((if l.isDecodeError then [.message] else []) ++ dumpSteps abiText cut ls) := by
  unfold dumpSteps dumpOps
  rw [List.flatMap_cons, List.flatMap_cons, List.flatMap_nil, List.append_nil]
  cases l <;> rfl

/-- If all messages are taken, stderr makes no difference. -/
theorem runSteps_taken (k : Sink) (e : Stderr) (abiText : U8 → String) (cut : Cut) (ls : List DumpLine) (n : Nat)
    (w : BufWriter) (h : ∀ i, i < messages ls → e (n + i) = true) :
    runSteps k e (dumpSteps abiText cut ls) n w =
      (if (runOps k (dumpOps abiText cut ls) w).1 then .done else .stdout, (runOps k (dumpOps abiText cut ls) w).2) := by
  induction ls generalizing n w with
  | nil => rfl
  | cons l ls ih =>
    rw [dumpSteps_cons, dumpOps_cons _ _ l ls, runSteps_out, runOps_append]
    generalize runOps k (dumpOps abiText cut [l]) w = x
    obtain ⟨ok, w'⟩ := x
    cases ok with
    | false => rfl
    | true =>
      simp only [if_true]
      unfold messages at h ih
      rw [List.countP_cons] at h
      by_cases hl : l.isDecodeError = true
      · simp only [hl, if_true] at h ⊢
        have h0 : e n = true := h 0 (by omega)
        rw [List.singleton_append, runSteps, h0, if_pos rfl]
        exact ih (n + 1) w' fun i hi => by
          have := h (i + 1) (by omega)
          rwa [show n + 1 + i = n + (i + 1) by omega]
      · simp only [hl, Bool.false_eq_true, if_false, List.nil_append] at h ⊢
        exact ih n w' h

/-- At the first message that is refused, the run ends, unless stdout has failed before. -/
theorem runSteps_refused (k : Sink) (e : Stderr) (abiText : U8 → String) (cut : Cut) (ls : List DumpLine) (n j : Nat)
    (w : BufWriter) (hj : j < messages ls) (h : ∀ i, i < j → e (n + i) = true) (hn : e (n + j) = false) :
    runSteps k e (dumpSteps abiText cut ls) n w =
      if (runOps k (dumpOps abiText cut (untilMessage j ls)) w).1 then
        (.stderr, (runOps k (dumpOps abiText cut (untilMessage j ls)) w).2)
      else (.stdout, (runOps k (dumpOps abiText cut ls) w).2) := by
  induction ls generalizing n j w with
  | nil => cases hj
  | cons l ls ih =>
    rw [dumpSteps_cons, dumpOps_cons _ _ l ls, runSteps_out, runOps_append k (dumpOps abiText cut [l])]
    unfold messages at hj ih
    rw [List.countP_cons] at hj
    by_cases hl : l.isDecodeError = true
    · simp only [hl, if_true] at hj ⊢
      cases j with
      | zero =>
        simp only [untilMessage, hl, if_true]
        cases hx : runOps k (dumpOps abiText cut [l]) w with
        | mk ok w' =>
          cases ok with
          | false => rfl
          | true =>
            simp only [if_true]
            rw [List.singleton_append, runSteps, show e n = false from hn]
            rfl
      | succ j =>
        simp only [untilMessage, hl, if_true]
        rw [dumpOps_cons _ _ _ (untilMessage j ls), runOps_append]
        cases hx : runOps k (dumpOps abiText cut [l]) w with
        | mk ok w' =>
          cases ok with
          | false => rfl
          | true =>
            simp only [if_true]
            have h0 : e n = true := h 0 (by omega)
            rw [List.singleton_append, runSteps, h0, if_pos rfl]
            exact ih (n + 1) j w' (by omega) (fun i hi => by
              have := h (i + 1) (by omega)
              rwa [show n + 1 + i = n + (i + 1) by omega]) (by rwa [show n + 1 + j = n + (j + 1) by omega])
    · simp only [hl, Bool.false_eq_true, if_false, List.nil_append] at hj ⊢
      rw [untilMessage_line hl, dumpOps_cons _ _ _ (untilMessage j ls), runOps_append]
      cases hx : runOps k (dumpOps abiText cut [l]) w with
      | mk ok w' =>
        cases ok with
        | false => rfl
        | true =>
          simp only [if_true]
          exact ih n j w' hj h hn

/-- What is listed up to a message ends with a flush. -/
theorem untilMessage_flush (abiText : U8 → String) (cut : Cut) (ls : List DumpLine) (j : Nat) (hj : j < messages ls) :
    ∃ ops, dumpOps abiText cut (untilMessage j ls) = ops ++ [.flush] := by
  induction ls generalizing j with
  | nil => cases hj
  | cons l ls ih =>
    unfold messages at hj ih
    rw [List.countP_cons] at hj
    by_cases hl : l.isDecodeError = true
    · simp only [hl, if_true] at hj
      cases j with
      | zero =>
        simp only [untilMessage, hl, if_true]
        cases l with
        | decodeError e => exact ⟨[], rfl⟩
        | _ => cases hl
      | succ j =>
        simp only [untilMessage, hl, if_true]
        obtain ⟨ops, h⟩ := ih j (by omega)
        exact ⟨_ ++ ops, by rw [dumpOps_cons, h, List.append_assoc]⟩
    · simp only [hl, Bool.false_eq_true, if_false] at hj
      rw [untilMessage_line hl]
      obtain ⟨ops, h⟩ := ih j hj
      exact ⟨_ ++ ops, by rw [dumpOps_cons, h, List.append_assoc]⟩

theorem untilMessage_prefix (n : Nat) (ls : List DumpLine) : untilMessage n ls <+: ls := by
  induction ls generalizing n with
  | nil => exact List.prefix_refl _
  | cons l ls ih =>
    by_cases hl : l.isDecodeError = true
    · cases n with
      | zero =>
        simp only [untilMessage, hl, if_true]
        exact ⟨ls, rfl⟩
      | succ n =>
        simp only [untilMessage, hl, if_true]
        exact (List.prefix_cons_inj l).2 (ih n)
    · rw [untilMessage_line hl]
      exact (List.prefix_cons_inj l).2 (ih n)

theorem dumpOps_append (abiText : U8 → String) (cut : Cut) (xs ys : List DumpLine) :
    dumpOps abiText cut (xs ++ ys) = dumpOps abiText cut xs ++ dumpOps abiText cut ys := by
  unfold dumpOps
  rw [List.flatMap_append]

/-- After operations that end with a flush and all succeed, everything has been handed over. -/
theorem runOps_flushed (k : Sink) (ops : List StreamOp) (h : (runOps k (ops ++ [.flush]) BufWriter.new).1 = true) :
    ((runOps k (ops ++ [.flush]) BufWriter.new).2.drop k).sent = bytesOf (ops ++ [.flush]) := by
  obtain ⟨⟨rest, h1, h2⟩, _⟩ := runOps_all k (ops ++ [.flush]) BufWriter.new (by decide)
  have hb : (runOps k (ops ++ [.flush]) BufWriter.new).2.buf = [] := by
    rw [runOps_append] at h ⊢
    obtain ⟨_, h3⟩ := runOps_all k ops BufWriter.new (by decide)
    cases hx : runOps k ops BufWriter.new with
    | mk ok w =>
      rw [hx] at h h3
      cases ok with
      | false => cases h
      | true =>
        simp only [if_true] at h ⊢
        have := (flush_all k w h3).2.2
        unfold runOps at h ⊢
        cases hf : w.flush k with
        | mk ok w' =>
          rw [hf] at this
          simp only [hf] at h ⊢
          cases ok with
          | false => cases h
          | true => exact this rfl
  have h3 := h2 h
  rw [h3, hb] at h1
  rw [List.append_nil, List.append_nil] at h1
  rw [show bytesOf (ops ++ [.flush]) = _ from h1]
  generalize (runOps k (ops ++ [.flush]) BufWriter.new).2 = bw at hb
  simp [BufWriter.drop, BufWriter.flushBuf, BufWriter.handOver, hb]

/-! ### C126 -/

/-- **C126**, what holds: stderr makes a difference exactly in two cases.  If it refuses the help text, the tool panics
instead of succeeding.  If it refuses message number `n` about an undecodable row, and has taken those before, the
tool panics when it comes to it; stdout has then taken the listing up to this row, all that comes after
is missing.  Missing: that it makes no difference, which is false. -/
theorem C126_exact_partial (k : Sink) (e : Stderr) (abiText : U8 → String) (cut : Cut) (hc : Faithful cut) (dbg : Bool)
    (w : World) (parse : List String → Except String Matches) (args : List String) :
    (∀ m, parse args = .ok m → m.help = true →
      sframedumpProcess k e abiText cut dbg w parse args = (if e 0 then some 0 else some 101, [])) ∧
    (∀ m path, parse args = .ok m → m.help = false → m.free = [path] →
      ((∀ i, i < messages (sframedump dbg w path).1 → e i = true) →
        sframedumpProcess k e abiText cut dbg w parse args =
          (codeOf (sframedumpOn k abiText cut dbg w path).1, (sframedumpOn k abiText cut dbg w path).2)) ∧
      ∀ n, n < messages (sframedump dbg w path).1 → (∀ i, i < n → e i = true) → e n = false →
        sframedumpProcess k e abiText cut dbg w parse args =
          if (runOps k (dumpOps abiText cut (untilMessage n (sframedump dbg w path).1)) BufWriter.new).1 then
            (some 101, utf8 (stdoutText abiText (untilMessage n (sframedump dbg w path).1)))
          else (codeOf (sframedumpOn k abiText cut dbg w path).1, (sframedumpOn k abiText cut dbg w path).2)) ∧
    ((∀ m, parse args = .ok m → m.help = false ∧ m.free.length ≠ 1) →
      sframedumpProcess k e abiText cut dbg w parse args = (some 1, [])) := by
  refine ⟨fun m hm hh => ?_, fun m path hm hh hf => ?_, fun hm => ?_⟩
  · unfold sframedumpProcess
    rw [hm]
    simp only [hh, if_true]
  · have hp : sframedumpProcess k e abiText cut dbg w parse args =
        (codeOf (sframedumpWith k e abiText cut dbg w path).1, (sframedumpWith k e abiText cut dbg w path).2) := by
      unfold sframedumpProcess
      rw [hm]
      simp [hh, hf]
    rw [hp, sframedumpOn_eq]
    have hw : sframedumpWith k e abiText cut dbg w path =
        (match (runSteps k e (dumpSteps abiText cut (sframedump dbg w path).1) 0 BufWriter.new).1 with
          | .done => (sframedump dbg w path).2.bind fun x => .ok (x.mapError some)
          | .stdout => .ok (.error none)
          | .stderr => .panic .explicit,
          ((runSteps k e (dumpSteps abiText cut (sframedump dbg w path).1) 0 BufWriter.new).2.drop k).sent) := rfl
    rw [hw]
    refine ⟨fun ht => ?_, fun n hn ht hr => ?_⟩
    · rw [runSteps_taken k e abiText cut _ 0 _ fun i hi => by rw [Nat.zero_add]; exact ht i hi]
      cases (runOps k (dumpOps abiText cut (sframedump dbg w path).1) BufWriter.new).1 <;> rfl
    · rw [runSteps_refused k e abiText cut _ 0 n _ hn (fun i hi => by rw [Nat.zero_add]; exact ht i hi)
        (by rw [Nat.zero_add]; exact hr)]
      obtain ⟨ops, ho⟩ := untilMessage_flush abiText cut _ n hn
      by_cases hx : (runOps k (dumpOps abiText cut (untilMessage n (sframedump dbg w path).1)) BufWriter.new).1 = true
      · simp only [hx, if_true]
        rw [← bytesOf_dumpOps hc, ho]
        rw [ho] at hx
        rw [runOps_flushed k ops hx]
        rfl
      · have hy : (runOps k (dumpOps abiText cut (sframedump dbg w path).1) BufWriter.new).1 = false := by
          obtain ⟨rest, hrest⟩ := untilMessage_prefix n (sframedump dbg w path).1
          rw [← hrest, dumpOps_append, runOps_append, if_neg hx]
        simp only [hx, Bool.false_eq_true, if_false, hy]
  · unfold sframedumpProcess
    cases hp : parse args with
    | error x => rfl
    | ok m =>
      obtain ⟨h1, h2⟩ := hm m hp
      simp [h1, h2]

namespace Samples

/-- A stdout that takes everything. -/
def allOut : Sink := ⟨fun _ bs => bs.length, fun _ => true⟩

/-- The sample section with an undecodable second row in its first function. -/
def torn : List U8 := v2.set (v2.length - v2F.fres.length + 4) 0x65

/-- Arguments that are a path. -/
def onePath : List String → Except String Matches := fun args => .ok ⟨args = ["-h"], args⟩

theorem torn_lines (dbg : Bool) : (sframedump dbg (dumpWorld .little .little torn) "x") =
    ([.header 2 1 2 3 3 none (some (-8)), .func 0 0x1000 0x20, .columns .pcInc,
      .row 0x1000 .sp (some 8) none (some (-8)) false, .decodeError (.unsupportedFreOffset .reserved3), .blank,
      .func 1 0x1020 0x10, .columns .pcInc, .row 0x1020 .sp (some 24) none (some (-8)) false, .blank], .ok (.ok ())) := by
  cases dbg <;> decide +kernel

end Samples

/-- **C126 is false of the code**: `eprintln!` panics if stderr does not take the message about an undecodable row
(main.rs:115), so that the second function of the section is not listed and the exit code is another; likewise for the help
text (main.rs:33). -/
theorem C126_depends (dbg : Bool) (cut : Cut) (hc : Faithful cut) :
    (∀ e, sframedumpProcess Samples.allOut e Samples.abiName cut dbg (Samples.dumpWorld .little .little Samples.torn)
      Samples.onePath ["x"] =
      if e 0 then (some 0, utf8 (stdoutText Samples.abiName (sframedump dbg (Samples.dumpWorld .little .little Samples.torn) "x").1))
      else (some 101, utf8 (stdoutText Samples.abiName [.header 2 1 2 3 3 none (some (-8)), .func 0 0x1000 0x20,
        .columns .pcInc, .row 0x1000 .sp (some 8) none (some (-8)) false]))) ∧
    ∀ e, sframedumpProcess Samples.allOut e Samples.abiName cut dbg (Samples.dumpWorld .little .little Samples.torn)
      Samples.onePath ["-h"] = (if e 0 then some 0 else some 101, []) := by
  have hk : Reliable Samples.allOut := ⟨fun _ _ => Nat.le_refl _, fun _ => rfl⟩
  refine ⟨fun e => ?_, fun e => ?_⟩
  · obtain ⟨_, h, _⟩ := C126_exact_partial Samples.allOut e Samples.abiName cut hc dbg
      (Samples.dumpWorld .little .little Samples.torn) Samples.onePath ["x"]
    obtain ⟨h1, h2⟩ := h ⟨false, ["x"]⟩ "x" rfl rfl rfl
    have hm : messages (sframedump dbg (Samples.dumpWorld .little .little Samples.torn) "x").1 = 1 := by
      rw [Samples.torn_lines]; rfl
    rw [hm] at h1 h2
    cases he : e 0 with
    | true =>
      rw [h1 fun i hi => by rw [show i = 0 by omega]; exact he,
        (C105_written_partial Samples.allOut Samples.abiName cut hc dbg _ "x").2.1 hk, Samples.torn_lines]
      simp only [listingOf, Samples.torn_lines, if_true]
      rfl
    | false =>
      rw [h2 0 (by decide) (fun i hi => by omega) he, if_pos (runOps_reliable hk _ _), Samples.torn_lines]
      rfl
  · obtain ⟨h, _⟩ := C126_exact_partial Samples.allOut e Samples.abiName cut hc dbg
      (Samples.dumpWorld .little .little Samples.torn) Samples.onePath ["-h"]
    exact h ⟨true, ["-h"]⟩ rfl rfl

/-! ### C127 -/

theorem failedText_names (w : DumpWorld) (path : String) (e : GErr) :
    ("Failed to dump '" ++ path ++ "': ").toList <+: (w.failedText path e).toList := by
  unfold DumpWorld.failedText
  simp only [String.toList_append, List.append_assoc]
  have h : "': GimliError(".toList = "': ".toList ++ "GimliError(".toList := by decide +kernel
  rw [h, List.append_assoc]
  refine (List.prefix_append_right_inj _).2 ((List.prefix_append_right_inj _).2 ?_)
  exact List.prefix_append _ _

/-- The messages of a run. -/
theorem dwarfdump_stderr (dbg : Bool) (w : DumpWorld) (path : String) :
    (dwarfdump dbg w (some path)).stderr = [] ∨
    ∃ m, (dwarfdump dbg w (some path)).stderr = [m] ∧ (dwarfdump dbg w (some path)).result = .ok (.ok ()) ∧
      ("Failed to dump '" ++ path ++ "': ").toList <+: m.toList := by
  unfold dwarfdump
  simp only
  cases w.world.openFile path with
  | none => exact .inl rfl
  | some h =>
    simp only
    cases w.world.mmap h with
    | none => exact .inl rfl
    | some bytes =>
      simp only
      cases w.world.parse bytes with
      | none => exact .inl rfl
      | some file =>
        simp only
        cases loadFileSection file with
        | none => exact .inl rfl
        | some data =>
          simp only
          cases w.dumpEhFrame dbg file data with
          | mk ls r =>
            cases r with
            | panic p => exact .inl rfl
            | diverge => exact .inl rfl
            | ok x =>
              cases x with
              | ok u => exact .inl rfl
              | error e =>
                exact .inr ⟨w.failedText path e, rfl, rfl, failedText_names w path e⟩

theorem dwarfdumpOn_stderr (k : Sink) (cut : Cut) (dbg : Bool) (w : DumpWorld) (arg : Option String) :
    (dwarfdumpOn k cut dbg w arg).1.stderr = [] ∨
    ∃ path m, arg = some path ∧ (dwarfdumpOn k cut dbg w arg).1.stderr = [m] ∧
      (dwarfdumpOn k cut dbg w arg).1.result = .ok (.ok ()) ∧ ("Failed to dump '" ++ path ++ "': ").toList <+: m.toList := by
  cases arg with
  | none => exact .inl rfl
  | some path =>
    have hs := dwarfdump_stderr dbg w path
    have hf : ("Failed to dump '" ++ path ++ "': ").toList <+:
        ("Failed to dump '" ++ ((some path).getD "" ++ "': IoError")).toList := by
      simp only [String.toList_append, List.append_assoc, Option.getD_some]
      refine (List.prefix_append_right_inj _).2 ((List.prefix_append_right_inj _).2 ?_)
      exact ⟨"IoError".toList, by decide +kernel⟩
    unfold dwarfdumpOn
    generalize dwarfdump dbg w (some path) = run at hs
    simp only
    cases runOps k (run.stdout.flatMap (writeLine cut)) BufWriter.new with
    | mk ok bw =>
      simp only
      cases ok with
      | false => exact .inr ⟨path, _, rfl, rfl, rfl, hf⟩
      | true =>
        simp only [Bool.not_true, Bool.false_eq_true, if_false]
        by_cases hr : run.stderr = [] ∧ run.result = .ok (.ok ())
        · simp only [if_pos hr]
          cases bw.flush k with
          | mk ok bw =>
            cases ok with
            | true => exact .inl hr.1
            | false => exact .inr ⟨path, _, rfl, rfl, rfl, hf⟩
        · simp only [if_neg hr]
          rcases hs with h | ⟨m, h1, h2, h3⟩
          · exact .inl h
          · exact .inr ⟨path, m, rfl, h1, h2, h3⟩

/-- **C127.**  If `dwarfdump` ends with exit code 0, then stdout has taken all that is printed of the section, and
the section was dumped to its end; or stderr has taken a message that names the file and says that the dump failed.  What stdout has
taken does not depend on stderr, and the exit code does only if there is such a message and it is refused. -/
theorem C127_told (k : Sink) (e : Stderr) (cut : Cut) (hc : Faithful cut) (dbg : Bool) (w : DumpWorld)
    (arg : Option String) :
    ((dwarfdumpProcess k e cut dbg w arg).1 = some 0 →
      ((dwarfdump dbg w arg).result = .ok (.ok ()) ∧ (dwarfdump dbg w arg).stderr = [] ∧
        (dwarfdumpProcess k e cut dbg w arg).2 =
          (utf8 (String.join ((dwarfdump dbg w arg).stdout.map (· ++ "\n"))), [])) ∨
      ∃ path m, arg = some path ∧ (dwarfdumpProcess k e cut dbg w arg).2.2 = [m] ∧
        ("Failed to dump '" ++ path ++ "': ").toList <+: m.toList) ∧
    (∀ e', (dwarfdumpProcess k e cut dbg w arg).2.1 = (dwarfdumpProcess k e' cut dbg w arg).2.1) ∧
    (∀ e', e' 0 = true → (dwarfdumpProcess k e cut dbg w arg).1 =
      if e 0 = false ∧ (dwarfdumpProcess k e' cut dbg w arg).2.2 ≠ [] then some 101
      else (dwarfdumpProcess k e' cut dbg w arg).1) := by
  have hd := (C106_written k cut hc dbg w arg).1
  rcases dwarfdumpOn_stderr k cut dbg w arg with hs | ⟨path, m, ha, hs, hr, hm⟩
  · have hp : ∀ e, dwarfdumpProcess k e cut dbg w arg =
        (codeOf (dwarfdumpOn k cut dbg w arg).1.result, (dwarfdumpOn k cut dbg w arg).2, []) := by
      intro e
      unfold dwarfdumpProcess
      simp only [hs]
    refine ⟨fun h0 => .inl ?_, fun e' => by rw [hp, hp], fun e' _ => by simp [hp]⟩
    rw [hp] at h0 ⊢
    have h1 : (dwarfdumpOn k cut dbg w arg).1.result = .ok (.ok ()) := by
      cases hx : (dwarfdumpOn k cut dbg w arg).1.result with
      | ok x =>
        cases x with
        | ok _ => rfl
        | error _ => rw [hx] at h0; cases h0
      | panic p => rw [hx] at h0; cases h0
      | diverge => rw [hx] at h0; cases h0
    obtain ⟨h2, h3⟩ := hd h1 hs
    rw [h2] at h1 hs
    exact ⟨h1, hs, by rw [h3]⟩
  · have hp : ∀ e, dwarfdumpProcess k e cut dbg w arg =
        if e 0 then (some 0, (dwarfdumpOn k cut dbg w arg).2, [m]) else (some 101, (dwarfdumpOn k cut dbg w arg).2, []) := by
      intro e
      unfold dwarfdumpProcess
      simp only [hs, hr]
      rfl
    refine ⟨fun h0 => .inr ⟨path, m, ha, ?_, hm⟩, fun e' => ?_, fun e' he' => ?_⟩
    · rw [hp] at h0 ⊢
      cases he : e 0 with
      | true => rfl
      | false => rw [he] at h0; cases h0
    · rw [hp, hp]
      cases e 0 <;> cases e' 0 <;> rfl
    · rw [hp, hp, he']
      cases e 0 <;> rfl

/-- A run that stops in the middle of the section, with both kinds of stderr: the code is 0 only if the message is taken. -/
example (dbg : Bool) : ∀ e : Stderr,
    (dwarfdumpProcess Samples.allOut e (fun s => [utf8 s]) dbg Samples.stopped (some "x")).1 =
      (if e 0 then some 0 else some 101) ∧
    (dwarfdumpProcess Samples.allOut e (fun s => [utf8 s]) dbg Samples.stopped (some "x")).2.2 =
      if e 0 then ["Failed to dump 'x': GimliError(Error)"] else [] := by
  intro e
  have h : (dwarfdumpOn Samples.allOut (fun s => [utf8 s]) dbg Samples.stopped (some "x")).1 =
      dwarfdump dbg Samples.stopped (some "x") := by
    rw [(C106_written Samples.allOut (fun s => [utf8 s]) (fun s => by simp) dbg Samples.stopped (some "x")).2.2
      ⟨fun _ _ => Nat.le_refl _, fun _ => rfl⟩]
  obtain ⟨h1, h2, _⟩ := C86_success dbg
  unfold dwarfdumpProcess
  simp only [h, h1, h2]
  cases e 0 <;> exact ⟨rfl, rfl⟩

/-- A stdout that takes nothing is told as well. -/
example (dbg : Bool) : ∀ e : Stderr,
    dwarfdumpProcess Samples.full e (fun s => [utf8 s]) dbg (Samples.dwWorld .x86_64 (some []) []) (some "x") =
      if e 0 then (some 0, [], ["Failed to dump 'x': IoError"]) else (some 101, [], []) := by
  intro e
  have h : dwarfdumpOn Samples.full (fun s => [utf8 s]) dbg (Samples.dwWorld .x86_64 (some []) []) (some "x") =
      (⟨(dwarfdump dbg (Samples.dwWorld .x86_64 (some []) []) (some "x")).stdout, ["Failed to dump 'x': IoError"],
        .ok (.ok ())⟩, []) := by
    cases dbg <;> decide +kernel
  unfold dwarfdumpProcess
  rw [h]
  rfl

/-! ### C128 -/

/-- **C128.**  `add` of `bpfunwind` returns the sum of its arguments if it is a `usize`; if not, it panics in builds with
overflow checks and returns the sum less 2^64 in others. -/
theorem C128_add (dbg : Bool) (left right : U64) :
    (left.toNat + right.toNat < 2 ^ 64 → ∃ r, bpfAdd dbg left right = .ok r ∧ r.toNat = left.toNat + right.toNat) ∧
    (2 ^ 64 ≤ left.toNat + right.toNat →
      bpfAdd true left right = .panic .overflow ∧
      ∃ r, bpfAdd false left right = .ok r ∧ r.toNat + 2 ^ 64 = left.toNat + right.toNat) := by
  have h1 := left.isLt
  have h2 := right.isLt
  unfold bpfAdd
  refine ⟨fun h => ⟨left + right, ?_, ?_⟩, fun h => ⟨?_, left + right, rfl, ?_⟩⟩
  · rw [if_neg]
    simp only [Bool.and_eq_true, decide_eq_true_eq]
    omega
  · rw [BitVec.toNat_add]; omega
  · rw [if_pos]
    simp only [Bool.and_eq_true, decide_eq_true_eq]
    exact ⟨trivial, h⟩
  · rw [BitVec.toNat_add]; omega

/-- The test of the crate (bpfunwind/src/lib.rs:9-13), and the largest `usize` plus one. -/
example (dbg : Bool) : bpfAdd dbg 2 2 = .ok 4 ∧ bpfAdd true 0xFFFFFFFFFFFFFFFF 1 = .panic .overflow ∧
    bpfAdd false 0xFFFFFFFFFFFFFFFF 1 = .ok 0 := by
  cases dbg <;> decide

end Verif
