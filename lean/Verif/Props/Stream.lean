import Verif.Model.Stream
import Verif.Props.Dump
/-!
# Streams that fail: C105, C106, C107
-/

namespace Verif

/-! ### The writer -/

namespace Spec

/-- A stream that takes everything. -/
def Reliable (k : Sink) : Prop := (∀ i bytes, bytes.length ≤ k.takes i bytes) ∧ ∀ i, k.flushes i = true

/-- The pieces of a text are the text. -/
def Faithful (cut : Cut) : Prop := ∀ s, (cut s).flatten = utf8 s

/-- The bytes that are written. -/
def bytesOf (ops : List StreamOp) : List UInt8 := ops.flatMap fun
  | .write bytes => bytes
  | .flush => []

end Spec
open Spec

theorem handOver_all (k : Sink) (w : BufWriter) (bytes : List UInt8) :
    (w.handOver k bytes).2.sent ++ (w.handOver k bytes).2.buf = w.sent ++ bytes := by
  simp [BufWriter.handOver, List.append_assoc]

theorem handOver_ok {k : Sink} {w : BufWriter} {bytes : List UInt8} (h : (w.handOver k bytes).1 = true) :
    (w.handOver k bytes).2.buf = [] := by
  simp only [BufWriter.handOver, decide_eq_true_eq] at h ⊢
  exact List.drop_eq_nil_of_le h

theorem handOver_length (k : Sink) (w : BufWriter) (bytes : List UInt8) :
    (w.handOver k bytes).2.buf.length ≤ bytes.length := by
  simp [BufWriter.handOver]

/-- Whatever happens, what is sent and kept is the start of what was sent, kept and written; if the call succeeds, all of
it; and no more is kept than the capacity. -/
theorem writeAll_all (k : Sink) (w : BufWriter) (bytes : List UInt8) (hw : w.buf.length ≤ BufWriter.capacity) :
    (∃ rest, w.sent ++ w.buf ++ bytes = (w.writeAll k bytes).2.sent ++ (w.writeAll k bytes).2.buf ++ rest ∧
      ((w.writeAll k bytes).1 = true → rest = [])) ∧
    (w.writeAll k bytes).2.buf.length ≤ BufWriter.capacity := by
  unfold BufWriter.writeAll
  by_cases h1 : bytes.length < BufWriter.capacity - w.buf.length
  · rw [if_pos h1]
    exact ⟨⟨[], by simp [List.append_assoc], fun _ => rfl⟩, by simp only [List.length_append]; omega⟩
  · rw [if_neg h1]
    by_cases h2 : bytes.length > BufWriter.capacity - w.buf.length
    · simp only [if_pos h2]
      have ha := handOver_all k w w.buf
      have hl := handOver_length k w w.buf
      cases hf : w.flushBuf k with
      | mk ok w1 =>
        unfold BufWriter.flushBuf at hf
        rw [hf] at ha hl
        simp only at ha hl
        cases ok with
        | false =>
          simp only [Bool.not_false, if_true]
          exact ⟨⟨bytes, by rw [← ha], fun h => by cases h⟩, by omega⟩
        | true =>
          have hb : w1.buf = [] := by
            have := handOver_ok (k := k) (w := w) (bytes := w.buf) (by rw [hf])
            rwa [hf] at this
          simp only [Bool.not_true, Bool.false_eq_true, if_false]
          by_cases h3 : bytes.length ≥ BufWriter.capacity
          · rw [if_pos h3]
            have ha' := handOver_all k w1 bytes
            refine ⟨⟨(w1.handOver k bytes).2.buf, ?_, fun h => ?_⟩, by simp⟩
            · simp only [List.append_nil]
              rw [ha', ← ha, hb, List.append_nil]
            · exact handOver_ok h
          · rw [if_neg h3]
            refine ⟨⟨[], ?_, fun _ => rfl⟩, ?_⟩
            · simp only [List.append_nil]
              rw [← List.append_assoc, ha]
            · simp only [List.length_append, hb, List.length_nil]
              omega
    · simp only [if_neg h2, Bool.not_true, Bool.false_eq_true, if_false]
      by_cases h3 : bytes.length ≥ BufWriter.capacity
      · rw [if_pos h3]
        have hb : w.buf = [] := List.eq_nil_of_length_eq_zero (by omega)
        have ha' := handOver_all k w bytes
        refine ⟨⟨(w.handOver k bytes).2.buf, ?_, fun h => ?_⟩, by simp⟩
        · simp only [List.append_nil]
          rw [ha', hb, List.append_nil]
        · exact handOver_ok h
      · rw [if_neg h3]
        exact ⟨⟨[], by simp [List.append_assoc], fun _ => rfl⟩, by simp only [List.length_append]; omega⟩

theorem flush_all (k : Sink) (w : BufWriter) (hw : w.buf.length ≤ BufWriter.capacity) :
    (w.flush k).2.sent ++ (w.flush k).2.buf = w.sent ++ w.buf ∧
    (w.flush k).2.buf.length ≤ BufWriter.capacity ∧ ((w.flush k).1 = true → (w.flush k).2.buf = []) := by
  unfold BufWriter.flush BufWriter.flushBuf
  refine ⟨handOver_all k w w.buf, Nat.le_trans (handOver_length k w w.buf) hw, fun h => ?_⟩
  simp only [Bool.and_eq_true] at h
  exact handOver_ok h.1

theorem runOps_all (k : Sink) (ops : List StreamOp) (w : BufWriter) (hw : w.buf.length ≤ BufWriter.capacity) :
    (∃ rest, w.sent ++ w.buf ++ bytesOf ops = (runOps k ops w).2.sent ++ (runOps k ops w).2.buf ++ rest ∧
      ((runOps k ops w).1 = true → rest = [])) ∧
    (runOps k ops w).2.buf.length ≤ BufWriter.capacity := by
  induction ops generalizing w with
  | nil => exact ⟨⟨[], by simp [runOps, bytesOf], fun _ => rfl⟩, hw⟩
  | cons op ops ih =>
    cases op with
    | write bytes =>
      obtain ⟨⟨rest, h1, h2⟩, h3⟩ := writeAll_all k w bytes hw
      have hb : bytesOf (.write bytes :: ops) = bytes ++ bytesOf ops := rfl
      simp only [runOps]
      cases hx : w.writeAll k bytes with
      | mk ok w1 =>
        rw [hx] at h1 h2 h3
        simp only at h1 h2 h3
        cases ok with
        | false =>
          simp only
          exact ⟨⟨rest ++ bytesOf ops, by rw [hb, ← List.append_assoc, h1, List.append_assoc], fun h => by cases h⟩, h3⟩
        | true =>
          simp only
          obtain ⟨⟨rest', g1, g2⟩, g3⟩ := ih w1 h3
          rw [h2 rfl, List.append_nil] at h1
          exact ⟨⟨rest', by rw [hb, ← List.append_assoc, h1, g1], g2⟩, g3⟩
    | flush =>
      obtain ⟨h1, h2, h3⟩ := flush_all k w hw
      have hb : bytesOf (.flush :: ops) = bytesOf ops := rfl
      simp only [runOps]
      cases hx : w.flush k with
      | mk ok w1 =>
        rw [hx] at h1 h2 h3
        simp only at h1 h2 h3
        cases ok with
        | false =>
          simp only
          exact ⟨⟨bytesOf ops, by rw [hb, h1], fun h => by cases h⟩, h2⟩
        | true =>
          simp only
          obtain ⟨⟨rest', g1, g2⟩, g3⟩ := ih w1 h2
          exact ⟨⟨rest', by rw [hb, ← h1, g1], g2⟩, g3⟩

theorem drop_sent (k : Sink) (w : BufWriter) :
    ∃ lost, w.sent ++ w.buf = (w.drop k).sent ++ lost ∧ lost.length ≤ w.buf.length ∧
      (w.buf.length ≤ k.takes w.attempts w.buf → lost = []) := by
  refine ⟨w.buf.drop (k.takes w.attempts w.buf), ?_, by simp, fun h => List.drop_eq_nil_of_le h⟩
  simp [BufWriter.drop, BufWriter.flushBuf, BufWriter.handOver, List.append_assoc]

theorem writeAll_reliable {k : Sink} (hk : Reliable k) (w : BufWriter) (bytes : List UInt8) :
    (w.writeAll k bytes).1 = true := by
  have hall : ∀ w' : BufWriter, (if bytes.length ≥ BufWriter.capacity then
      ((w'.handOver k bytes).1, { (w'.handOver k bytes).2 with buf := [] })
      else (true, { w' with buf := w'.buf ++ bytes })).1 = true := by
    intro w'
    by_cases h : bytes.length ≥ BufWriter.capacity
    · rw [if_pos h]; exact decide_eq_true (hk.1 _ _)
    · rw [if_neg h]
  unfold BufWriter.writeAll
  by_cases h1 : bytes.length < BufWriter.capacity - w.buf.length
  · rw [if_pos h1]
  · rw [if_neg h1]
    by_cases h2 : bytes.length > BufWriter.capacity - w.buf.length
    · have h : (w.flushBuf k).1 = true := decide_eq_true (hk.1 _ _)
      simp only [if_pos h2]
      cases hx : w.flushBuf k with
      | mk ok w1 =>
        rw [hx] at h
        simp only at h
        subst h
        exact hall w1
    · simp only [if_neg h2]
      exact hall w

theorem flush_reliable {k : Sink} (hk : Reliable k) (w : BufWriter) : (w.flush k).1 = true := by
  unfold BufWriter.flush BufWriter.flushBuf BufWriter.handOver
  simp [hk.1, hk.2]

theorem runOps_reliable {k : Sink} (hk : Reliable k) (ops : List StreamOp) (w : BufWriter) :
    (runOps k ops w).1 = true := by
  induction ops generalizing w with
  | nil => rfl
  | cons op ops ih =>
    cases op with
    | write bytes =>
      have h := writeAll_reliable hk w bytes
      simp only [runOps]
      cases hx : w.writeAll k bytes with
      | mk ok w1 => rw [hx] at h; simp only at h; subst h; exact ih w1
    | flush =>
      have h := flush_reliable hk w
      simp only [runOps]
      cases hx : w.flush k with
      | mk ok w1 => rw [hx] at h; simp only at h; subst h; exact ih w1

/-- Less than the capacity, without a flush: nothing is handed over. -/
theorem runOps_short (k : Sink) (ops : List StreamOp) (w : BufWriter) (hf : .flush ∉ ops)
    (h : w.buf.length + (bytesOf ops).length < BufWriter.capacity) :
    runOps k ops w = (true, { w with buf := w.buf ++ bytesOf ops }) := by
  induction ops generalizing w with
  | nil => simp [runOps, bytesOf]
  | cons op ops ih =>
    cases op with
    | flush => exact absurd (List.mem_cons_self ..) hf
    | write bytes =>
      have hb : bytesOf (.write bytes :: ops) = bytes ++ bytesOf ops := rfl
      rw [hb, List.length_append] at h
      simp only [runOps]
      have hx : w.writeAll k bytes = (true, { w with buf := w.buf ++ bytes }) := by
        unfold BufWriter.writeAll
        rw [if_pos (by omega)]
      rw [hx]
      simp only
      rw [ih _ (fun hm => hf (List.mem_cons_of_mem _ hm)) (by simp only [List.length_append]; omega), hb]
      simp [List.append_assoc]

/-! ### Texts -/

theorem utf8_append (s t : String) : utf8 (s ++ t) = utf8 s ++ utf8 t := by
  simp [utf8, String.toList_append]

theorem utf8_join (xs : List String) : utf8 (String.join xs) = xs.flatMap utf8 := by
  simp only [utf8, String.toList_join, List.flatMap_assoc]
  rfl

theorem bytesOf_append (xs ys : List StreamOp) : bytesOf (xs ++ ys) = bytesOf xs ++ bytesOf ys := by
  simp [bytesOf]

theorem bytesOf_write (ps : List (List UInt8)) : bytesOf (ps.map .write) = ps.flatten := by
  induction ps with
  | nil => rfl
  | cons p ps ih =>
    rw [List.map_cons, List.flatten_cons, ← ih]
    rfl

theorem bytesOf_writeLine {cut : Cut} (hc : Faithful cut) (l : String) :
    bytesOf (writeLine cut l) = utf8 (l ++ "\n") := by
  rw [writeLine, bytesOf_write, hc]

theorem bytesOf_lines {cut : Cut} (hc : Faithful cut) (ls : List String) :
    bytesOf (ls.flatMap (writeLine cut)) = utf8 (String.join (ls.map (· ++ "\n"))) := by
  rw [utf8_join]
  induction ls with
  | nil => rfl
  | cons l ls ih => rw [List.flatMap_cons, bytesOf_append, bytesOf_writeLine hc, ih]; rfl

theorem bytesOf_dumpOps {cut : Cut} (hc : Faithful cut) (abiText : U8 → String) (ls : List DumpLine) :
    bytesOf (dumpOps abiText cut ls) = utf8 (stdoutText abiText ls) := by
  unfold stdoutText
  induction ls with
  | nil => rfl
  | cons l ls ih =>
    have hd : dumpOps abiText cut (l :: ls) = dumpOps abiText cut [l] ++ dumpOps abiText cut ls := by
      simp [dumpOps]
    rw [hd, bytesOf_append, ih, List.flatMap_cons, List.map_append]
    rw [utf8_join, utf8_join, List.flatMap_append, ← utf8_join]
    congr 1
    have hl : ∀ x : List String, bytesOf (x.flatMap (writeLine cut) ++ []) = (x.map (· ++ "\n")).flatMap utf8 := by
      intro x
      rw [List.append_nil, bytesOf_lines hc, utf8_join]
    cases l with
    | decodeError e => rfl
    | header v f n m a fp ra => exact hl (DumpLine.stdout abiText (.header v f n m a fp ra))
    | func i pc size => exact hl (DumpLine.stdout abiText (.func i pc size))
    | columns ty => exact hl (DumpLine.stdout abiText (.columns ty))
    | row s b c f r m => exact hl (DumpLine.stdout abiText (.row s b c f r m))
    | blank => exact hl (DumpLine.stdout abiText .blank)

namespace Samples

/-- A stream that takes two bytes at its first attempt, none at its second, all at later ones; a flush
after the third attempt or later succeeds. -/
def slow : Sink where
  takes k _ := if k = 0 then 2 else if k = 1 then 0 else 100
  flushes k := decide (3 ≤ k)

end Samples

/-- Each attempt counts: two flushes fail, with a part and with nothing taken; the third one succeeds. -/
example :
    let w := (BufWriter.new.writeAll Samples.slow [1, 2, 3]).2
    let a := w.flush Samples.slow
    let b := a.2.flush Samples.slow
    let c := b.2.flush Samples.slow
    a = (false, ⟨[3], [1, 2], 1⟩) ∧ b = (false, ⟨[3], [1, 2], 2⟩) ∧ c = (true, ⟨[], [1, 2, 3], 3⟩) := by
  decide +kernel

end Verif
