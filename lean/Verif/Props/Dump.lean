import Verif.Model.Dump
import Verif.Props.Fre
import Verif.Props.Load
/-!
# The dump tool: C55
-/

namespace Verif
open Spec

variable {o : Endian}

/-- The line for a row with the view `v` in a function at `start` of a section with the given fixed
offsets (0 = not fixed). -/
def Spec.rowLine (fixedFp fixedRa start : Int) (v : FreView) : DumpLine :=
  .row (BitVec.ofInt 32 (start + v.start)) v.base
    (v.offsets[0]?.map (BitVec.ofInt 32))
    ((if fixedFp ≠ 0 then some fixedFp
      else if fixedRa ≠ 0 then v.offsets[1]? else v.offsets[2]?).map (BitVec.ofInt 32))
    ((if fixedRa ≠ 0 then some fixedRa else v.offsets[1]?).map (BitVec.ofInt 32))
    v.mangled

/-- The line for an item of the decoded rows. -/
def Spec.itemLine (fixedFp fixedRa start : Int) : Except ReadError FreView → DumpLine
  | .ok v => rowLine fixedFp fixedRa start v
  | .error e => .decodeError e

/-- The lines for a function: its header, then its rows up to the first that cannot be decoded, then
an empty line. -/
def Spec.fnLines (fixedFp fixedRa : Int) (idx : Nat) (e : FuncDescEntry o) : List DumpLine :=
  [.func idx e.startAddress e.size, .columns e.fdetype] ++
  (decodeFres o e.fde.info.toNat e.fde.numFres.toNat e.fres).map
    (itemLine fixedFp fixedRa e.startAddress.toInt) ++
  [.blank]

/-- The lines for the functions `es`, numbered from `idx`. -/
def Spec.fnsLines (fixedFp fixedRa : Int) : Nat → List (FuncDescEntry o) → List DumpLine
  | _, [] => []
  | idx, e :: es => fnLines fixedFp fixedRa idx e ++ fnsLines fixedFp fixedRa (idx + 1) es

/-- The lines for a section with the functions `es`. -/
def Spec.listing (s : SFrame o) (es : List (FuncDescEntry o)) : List DumpLine :=
  .header s.version s.flags s.numFdes s.numFres s.abi s.fixedFpOffset s.fixedRaOffset ::
    fnsLines s.fixedFp.toInt s.fixedRa.toInt 0 es

/-- A row that stops the dump: it starts at or after the end of the function; or, in debug builds, at
an address above `i32::MAX`. -/
def Spec.BadRow (dbg : Bool) (size : Nat) (start : Int) (v : FreView) : Prop :=
  ¬ v.start < size ∨ (dbg = true ∧ 2147483647 < start + v.start)

/-- A function with such a row. -/
def Spec.BadFn (dbg : Bool) (e : FuncDescEntry o) : Prop :=
  ∃ v, .ok v ∈ decodeFres o e.fde.info.toNat e.fde.numFres.toNat e.fres ∧
    BadRow dbg e.size.toNat e.startAddress.toInt v

/-- Prints all of `full` unless `bad`, and else panics after printing a part of it. -/
def Prints (x : Printed) (full : List DumpLine) (bad : Prop) : Prop :=
  (¬ bad → x = (full, .ok ())) ∧ (bad → x.2.Panics ∧ x.1 <+: full)

theorem Prints.andThen {x y : Printed} {f g : List DumpLine} {b c : Prop} (hx : Prints x f b)
    (hy : Prints y g c) : Prints (x.andThen y) (f ++ g) (b ∨ c) := by
  by_cases hb : b
  · obtain ⟨⟨p, hp⟩, h2⟩ := hx.2 hb
    obtain ⟨ls, r⟩ := x
    simp only at hp; subst hp
    exact ⟨fun h => absurd (.inl hb) h, fun _ => ⟨⟨p, rfl⟩, h2.trans (List.prefix_append _ _)⟩⟩
  · rw [hx.1 hb]
    by_cases hc : c
    · obtain ⟨h1, h2⟩ := hy.2 hc
      exact ⟨fun h => absurd (.inr hc) h, fun _ => ⟨h1, (List.prefix_append_right_inj _).2 h2⟩⟩
    · rw [hy.1 hc]
      exact ⟨fun _ => rfl, fun h => absurd h (by simp [hb, hc])⟩

theorem Prints.congr {x : Printed} {f : List DumpLine} {b c : Prop} (h : Prints x f b) (hc : b ↔ c) :
    Prints x f c := by
  rw [← show b = c from propext hc]; exact h

theorem prints_lines (ls : List DumpLine) : Prints (ls, .ok ()) ls False :=
  ⟨fun _ => rfl, fun h => h.elim⟩

theorem toOption_of_map {e : Except ReadError I32} {x : Option Int}
    (h : e.map BitVec.toInt = orMissing x) : e.toOption = x.map (BitVec.ofInt 32) := by
  cases e with
  | error e => cases x <;> simp_all [Except.map, orMissing, Except.toOption]
  | ok a =>
    cases x with
    | none => simp [Except.map, orMissing] at h
    | some v =>
      simp only [Except.map, orMissing, Except.ok.injEq] at h
      subst h
      simp [Except.toOption]

/-- The line of a single row. -/
theorem dumpRow_prints (dbg : Bool) (s : SFrame o) (r : FrameRowEntry o) :
    Prints (dumpRow dbg s r)
      [rowLine s.fixedFp.toInt s.fixedRa.toInt r.fde.startAddress.toInt r.view]
      (dbg = true ∧ 2147483647 < r.fde.startAddress.toInt + r.view.start) := by
  obtain ⟨c1, c2, c3⟩ := C21_offset_accessors r s
  obtain ⟨h1, h2, h3⟩ := C22_start_address dbg r
  have hline : ∀ a, r.startAddress dbg = .ok a → a = BitVec.ofInt 32 (r.fde.startAddress.toInt + r.view.start) →
      dumpRow dbg s r = ([rowLine s.fixedFp.toInt s.fixedRa.toInt r.fde.startAddress.toInt r.view], .ok ()) := by
    intro a ha hab
    unfold dumpRow rowLine
    rw [ha]
    simp only
    rw [toOption_of_map c1, toOption_of_map c2, toOption_of_map c3, hab]
    rfl
  constructor
  · intro hb
    by_cases hle : r.fde.startAddress.toInt + r.view.start ≤ 2147483647
    · obtain ⟨a, ha, hab⟩ := h1 hle
      exact hline a ha (by rw [← hab, BitVec.ofInt_toInt])
    · have hd : dbg = false := by
        cases dbg with
        | false => rfl
        | true => exact absurd ⟨rfl, by omega⟩ hb
      obtain ⟨a, ha, hab⟩ := h3 (by omega) hd
      refine hline a ha ?_
      apply BitVec.eq_of_toInt_eq
      rw [hab, BitVec.toInt_ofInt]
      have := r.fde.startAddress.toInt_lt
      have := r.startAddressOffset.isLt
      have : r.view.start < 2 ^ 32 := this
      rw [Int.bmod_def]
      split <;> omega
  · rintro ⟨hd, hlt⟩
    obtain ⟨p, hp⟩ := h2 hlt hd
    unfold dumpRow
    rw [hp]
    exact ⟨⟨p, rfl⟩, List.nil_prefix⟩

/-- The lines of the rows. -/
theorem dumpRowsFuel_prints (dbg : Bool) (s : SFrame o) (fuel n : Nat) (it : FrameRowIter o)
    (hn : it.fde.numFres.toNat - it.index.toNat = n) (hf : n ≤ fuel) :
    Prints (dumpRowsFuel dbg s fuel it)
      ((decodeFres o it.fde.info.toNat n it.fres).map
        (itemLine s.fixedFp.toInt s.fixedRa.toInt it.fde.startAddress.toInt))
      (∃ v, .ok v ∈ decodeFres o it.fde.info.toNat n it.fres ∧
        BadRow dbg it.fde.size.toNat it.fde.startAddress.toInt v) := by
  induction n generalizing fuel it with
  | zero =>
    unfold dumpRowsFuel
    rw [FrameRowIter.next_done (by omega)]
    refine (prints_lines _).congr ?_
    simp [decodeFres]
  | succ n ih =>
    obtain ⟨fuel, rfl⟩ : ∃ f, fuel = f + 1 := ⟨fuel - 1, by omega⟩
    have hs := freLoad_spec o it.fde it.fres
    unfold dumpRowsFuel FrameRowIter.next decodeFres
    rw [if_neg (by omega)]
    cases hd : decodeFre o it.fde.info.toNat it.fres with
    | error e =>
      rw [hd] at hs
      simp only at hs
      rw [hs]
      refine (prints_lines _).congr ?_
      simp
    | ok p =>
      obtain ⟨v, rest⟩ := p
      rw [hd] at hs
      simp only at hs
      by_cases hv : v.start < it.fde.size.toNat
      · rw [if_pos hv] at hs
        obtain ⟨r, h1, h2, h3, _⟩ := hs
        rw [h1]
        simp only [Rust.bind_ok, List.map_cons]
        have hi := index_succ (i := it.index) (n := it.fde.numFres) (by omega)
        have hrow := dumpRow_prints dbg s r
        rw [h2, h3] at hrow
        have hrest := ih fuel { it with index := it.index + 1, fres := rest }
          (by show it.fde.numFres.toNat - (it.index + 1).toNat = n; omega) (by omega)
        refine (hrow.andThen hrest).congr ?_
        simp only [List.mem_cons, Except.ok.injEq]
        constructor
        · rintro (h | ⟨w, h, hb⟩)
          · exact ⟨v, .inl rfl, .inr h⟩
          · exact ⟨w, .inr h, hb⟩
        · rintro ⟨w, rfl | h, hb⟩
          · exact .inl (hb.resolve_left (fun h => h hv))
          · exact .inr ⟨w, h, hb⟩
      · rw [if_neg hv] at hs
        rw [hs]
        refine ⟨fun h => absurd ⟨v, by simp, .inl hv⟩ h, fun _ => ⟨⟨_, rfl⟩, List.nil_prefix⟩⟩

theorem dumpFde_prints (dbg : Bool) (s : SFrame o) (idx : Nat) (e : FuncDescEntry o) :
    Prints (dumpFde dbg s idx e) (fnLines s.fixedFp.toInt s.fixedRa.toInt idx e) (BadFn dbg e) := by
  have h := dumpRowsFuel_prints dbg s e.fde.numFres.toNat e.fde.numFres.toNat e.iter rfl (Nat.le_refl _)
  have h := (prints_lines [.func idx e.startAddress e.size, .columns e.fdetype]).andThen
    (h.andThen (prints_lines [.blank]))
  rw [← List.append_assoc] at h
  refine h.congr ?_
  simp only [false_or, or_false]
  rfl

theorem dumpFdesFuel_prints (dbg : Bool) (s : SFrame o) (fuel idx : Nat) (l : List Fde) (fres : List U8)
    (hf : l.length ≤ fuel) :
    Prints (dumpFdesFuel dbg s fuel idx ⟨l, fres⟩)
      (fnsLines s.fixedFp.toInt s.fixedRa.toInt idx (l.map (entryOf o fres)))
      (∃ e ∈ l.map (entryOf o fres), BadFn dbg e) := by
  induction l generalizing fuel idx with
  | nil =>
    unfold dumpFdesFuel
    rw [FuncDescIter.next_nil]
    refine (prints_lines _).congr ?_
    simp
  | cons a l ih =>
    obtain ⟨fuel, rfl⟩ : ∃ f, fuel = f + 1 := ⟨fuel - 1, by simp at hf; omega⟩
    unfold dumpFdesFuel
    rw [FuncDescIter.next_cons]
    simp only [List.map_cons, fnsLines]
    refine ((dumpFde_prints dbg s idx (entryOf o fres a)).andThen
      (ih fuel (idx + 1) (by simp at hf; omega))).congr ?_
    simp

/-- The dump as a whole. -/
theorem dump_prints (dbg : Bool) (s : SFrame o) (es : List (FuncDescEntry o))
    (hes : s.iter.collect = .ok es) :
    Prints (dump dbg s) (listing s es) (∃ e ∈ es, BadFn dbg e) := by
  rw [FuncDescIter.collect_eq] at hes
  cases hes
  refine ((prints_lines [_]).andThen (dumpFdesFuel_prints dbg s _ 0 _ _ (Nat.le_refl _))).congr ?_
  simp
  rfl

/-! ### C55 -/

/-- **C55 is false of the code**: a row that starts at the end of its function stops the whole dump by
a panic; the second function of this section is not listed. -/
theorem C55_bad_row_stops_dump (dbg : Bool) :
    ∃ f, SFrame.load .little (Samples.v2.set 71 0x20) = .ok (.ok f) ∧ f.numFdes = 2 ∧
      (dump dbg f).2 = .panic .assertion ∧
      (dump dbg f).1.filter (fun | .func .. => true | _ => false) = [.func 0 0x1000 0x20] := by
  refine ⟨{ Samples.v2F with fres := Samples.v2F.fres.set 3 0x20 }, ?_⟩
  cases dbg <;> decide +kernel

/-- **C55 is false of the code** in debug builds: so does a row at an address above `i32::MAX`. -/
theorem C55_address_overflow :
    ∃ f, SFrame.load .little ((Samples.v2.set 30 0xFF).set 31 0x7F |>.set 29 0xFF |>.set 28 0xFE) = .ok (.ok f) ∧
      (dump true f).2 = .panic .unwrap ∧
      (dump false f).2 = .ok () ∧
      ∃ cfa fp ra m, .row (-0x7FFFFFFE) .sp cfa fp ra m ∈ (dump false f).1 := by
  refine ⟨{ Samples.v2F with fdes := .v2 [
    { startAddress := 0x7FFFFFFE, size := 0x20, startFreOff := 0, numFres := 2, info := 0, repSize := 0,
      padding2 := 0 },
    { startAddress := 0x1020, size := 0x10, startFreOff := 7, numFres := 1, info := 0, repSize := 0,
      padding2 := 0 }] }, ?_, ?_, ?_, ⟨some 16, some (-16), some (-8), false, ?_⟩⟩ <;> decide +kernel

/-- **C55**, what holds for every loaded section: unless some decodable row starts at or after the end
of its function (or, in debug builds, at an address above `i32::MAX`), the dump prints the header,
then per function and in order the line of the function, one line for each row up to the first
undecodable one, and an empty line; otherwise it panics, after printing a part of that.  Missing:
the sections with such rows. -/
theorem C55_dump_partial (dbg : Bool) {bytes : List U8} {f : SFrame o}
    (h : SFrame.load o bytes = .ok (.ok f)) :
    ∃ es, f.iter.collect = .ok es ∧ es.length = f.numFdes.toNat ∧
      (∀ i e, es[i]? = some e → EntryAt o bytes i e) ∧
      ((¬ ∃ e ∈ es, BadFn dbg e) → dump dbg f = (listing f es, .ok ())) ∧
      ((∃ e ∈ es, BadFn dbg e) → (dump dbg f).2.Panics ∧ (dump dbg f).1 <+: listing f es) := by
  obtain ⟨es, h1, h2, h3, _⟩ := C06_fdes_enumerates h
  exact ⟨es, h1, h2, h3, (dump_prints dbg f es h1).1, (dump_prints dbg f es h1).2⟩

/-- The dump of the sample section; and of one whose first function has an undecodable second row,
with the second function still listed. -/
example (dbg : Bool) :
    dump dbg Samples.v2F = ([.header 2 1 2 3 3 none (some (-8)),
      .func 0 0x1000 0x20, .columns .pcInc,
      .row 0x1000 .sp (some 8) none (some (-8)) false,
      .row 0x1004 .sp (some 16) (some (-16)) (some (-8)) false, .blank,
      .func 1 0x1020 0x10, .columns .pcInc,
      .row 0x1020 .sp (some 24) none (some (-8)) false, .blank], .ok ()) ∧
    dump (o := .little) dbg { Samples.v2F with fres := Samples.v2F.fres.set 4 0x65 } =
      ([.header 2 1 2 3 3 none (some (-8)),
      .func 0 0x1000 0x20, .columns .pcInc,
      .row 0x1000 .sp (some 8) none (some (-8)) false,
      .decodeError (.unsupportedFreOffset .reserved3), .blank,
      .func 1 0x1020 0x10, .columns .pcInc,
      .row 0x1020 .sp (some 24) none (some (-8)) false, .blank], .ok ()) := by
  cases dbg <;> decide +kernel

/-- The text of lines. -/
example :
    (DumpLine.func 1 (-16) 0x20).text = some "  func idx [1]: pc = 0xfffffff0, size = 32 bytes" ∧
    (DumpLine.columns .pcMask).text = some "  STARTPC [m]      CFA          FP           RA" ∧
    (DumpLine.row 0x1004 .sp (some 16) (some (-16)) none true).text
      = some "  0000000000001004 sp+16        cfa-16       u [s]" := by
  decide +kernel

end Verif
