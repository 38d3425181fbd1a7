import Verif.Props.Convert2
import Verif.Props.Texts
import Verif.Props.Dwarfdump
/-!
# Exactly how the debug dump changes the result (C49), which warnings read the same (C75), and when the
names of registers are right (C89)
-/

namespace Verif
open Spec

namespace Spec

/-- The debug dump of a function does not go through: an operation of an expression cannot be decoded, or, in
builds with checks, the function ends beyond the address space. -/
def DumpTrouble (dbg : Bool) (fde : DwFde) : Prop :=
  dumpError fde ≠ none ∨ (dbg = true ∧ 2 ^ 64 ≤ fde.initial.toNat + fde.len.toNat)

end Spec

theorem trouble_none {dbg : Bool} {fde : DwFde} (h : ¬ DumpTrouble dbg fde) :
    dumpError fde = none ∧ ¬ (dbg = true ∧ 2 ^ 64 ≤ fde.initial.toNat + fde.len.toNat) := by
  refine ⟨?_, fun h' => h (.inr h')⟩
  cases hd : dumpError fde with
  | none => rfl
  | some g => exact absurd (.inl (by rw [hd]; exact fun h => nomatch h)) h

theorem dump_convertible {dbg : Bool} {so : SFrameOptions} {opts : Options} {fde : DwFde}
    (h : ¬ DumpTrouble dbg fde) : Convertible so { opts with debugdump := true } fde ↔
      Convertible so { opts with debugdump := false } fde :=
  convertible_congr rfl ⟨fun _ hd => (nomatch hd), fun _ _ => (trouble_none h).1⟩

theorem convertible_off {so : SFrameOptions} {opts : Options} {fde : DwFde}
    (h : Convertible so { opts with debugdump := true } fde) :
    Convertible so { opts with debugdump := false } fde :=
  ⟨(fun h => nomatch h), h.start, h.len, h.rows, h.clean⟩

theorem dump_fails {dbg : Bool} {so : SFrameOptions} {opts : Options} {fde : DwFde} {e : ConvError}
    (h : ¬ DumpTrouble dbg fde) : FdeFails dbg so { opts with debugdump := true } fde e ↔
      FdeFails dbg so { opts with debugdump := false } fde e := by
  obtain ⟨t1, t2⟩ := trouble_none h
  have hov : ¬ (dbg = true ∧ DumpOverflows { opts with debugdump := false } fde) := by
    rintro ⟨_, h, _⟩; cases h
  have hov' : ¬ (dbg = true ∧ DumpOverflows { opts with debugdump := true } fde) := by
    rintro ⟨h1, _, h⟩; exact t2 ⟨h1, h⟩
  have hoff : DumpOk { opts with debugdump := false } fde := fun h => by cases h
  have hon : DumpOk { opts with debugdump := true } fde := fun _ => t1
  constructor
  · intro h
    cases h with
    | dump g h1 h2 h3 => rw [t1] at h3; cases h3
    | start h1 h2 h3 => exact .start hov hoff h3
    | len h1 h2 h3 h4 => exact .len hov hoff h3 h4
    | table g h1 h2 h3 h4 => exact .table g hoff h2 h3 h4
    | row rs x rest _ h1 h2 h3 h4 h5 h6 h7 => exact .row rs x rest e hoff h2 h3 h4 h5 h6 h7
  · intro h
    cases h with
    | dump g h1 h2 h3 => cases h1
    | start h1 h2 h3 => exact .start hov' hon h3
    | len h1 h2 h3 h4 => exact .len hov' hon h3 h4
    | table g h1 h2 h3 h4 => exact .table g hon h2 h3 h4
    | row rs x rest _ h1 h2 h3 h4 h5 h6 h7 => exact .row rs x rest e hon h2 h3 h4 h5 h6 h7

theorem dump_panics {dbg : Bool} {so : SFrameOptions} {opts : Options} {fde : DwFde}
    (h : ¬ DumpTrouble dbg fde) : FdePanics dbg so { opts with debugdump := true } fde ↔
      FdePanics dbg so { opts with debugdump := false } fde := by
  obtain ⟨t1, t2⟩ := trouble_none h
  constructor
  · intro h
    cases h with
    | dump h1 h2 => exact absurd ⟨h1, h2.2⟩ t2
    | row rs x rest h1 h2 h3 h4 h5 h6 => exact .row rs x rest (fun h => nomatch h) h2 h3 h4 h5 h6
  · intro h
    cases h with
    | dump h1 h2 => cases h2.1
    | row rs x rest h1 h2 h3 h4 h5 h6 => exact .row rs x rest (fun _ => t1) h2 h3 h4 h5 h6

/-- **C49, exactly, for success**: the converter succeeds with the debug dump on exactly if it succeeds with the
dump off and all operations of the expressions can be decoded; the section is then the same.  Missing: that it
succeeds with the dump on whenever it does with it off, which is false, see `C49_dump_error`. -/
theorem C49_success_iff_partial (dbg : Bool) (eh : EhFrame) (opts : Options) (b : SFrameBuilder) :
    dwarf2sframe dbg eh { opts with debugdump := true } = .ok (.ok b) ↔
      dwarf2sframe dbg eh { opts with debugdump := false } = .ok (.ok b) ∧
      ∀ fde, .ok fde ∈ inputs eh opts.bases → dumpError fde = none := by
  rw [dwarf2sframe_ok_iff, dwarf2sframe_ok_iff]
  constructor
  · rintro ⟨fdes, h1, h2, h3⟩
    have h1 : inputs eh opts.bases = fdes.map .ok := h1
    refine ⟨⟨fdes, h1, fun fde hf => convertible_off (h2 fde hf), h3⟩, ?_⟩
    intro fde hm
    rw [h1, List.mem_map] at hm
    obtain ⟨f, hf, he⟩ := hm
    cases he
    exact (h2 _ hf).dump rfl
  · rintro ⟨⟨fdes, h1, h2, h3⟩, hall⟩
    have h1 : inputs eh opts.bases = fdes.map .ok := h1
    refine ⟨fdes, h1, fun fde hf => ?_, h3⟩
    have h := h2 fde hf
    exact ⟨fun _ => hall fde (by rw [h1]; exact List.mem_map_of_mem hf), h.start, h.len, h.rows, h.clean⟩

/-- A failure comes from the part of the input where something cannot be converted. -/
theorem split_inside {so : SFrameOptions} {opts : Options} {pre rest rest' : List (Except ConvError DwFde)}
    {fdes : List DwFde} {x : Except ConvError DwFde}
    (hin : fdes.map .ok ++ x :: rest' = pre ++ rest) (hc : ∀ f ∈ fdes, Convertible so opts f)
    (hno : ¬ ∀ y ∈ pre, ∃ f, y = .ok f ∧ Convertible so opts f) :
    x ∈ pre ∧ ∀ f ∈ fdes, .ok f ∈ pre := by
  have hlt : fdes.length < pre.length := by
    by_cases hlt : fdes.length < pre.length
    · exact hlt
    · exfalso
      apply hno
      intro y hy
      have hp : pre = (fdes.map Except.ok).take pre.length := by
        have h1 := congrArg (List.take pre.length) hin
        rw [List.take_append_of_le_length (by simp; omega), List.take_left] at h1
        exact h1.symm
      rw [hp] at hy
      obtain ⟨f, hf, rfl⟩ := List.mem_map.1 (List.mem_of_mem_take hy)
      exact ⟨f, rfl, hc f hf⟩
  have hp : pre = fdes.map .ok ++ x :: (rest'.take (pre.length - fdes.length - 1)) := by
    have h1 := congrArg (List.take pre.length) hin
    rw [List.take_left, List.take_append, List.length_map] at h1
    rw [List.take_of_length_le (by simp; omega)] at h1
    obtain ⟨k, hk⟩ : ∃ k, pre.length - fdes.length = k + 1 := ⟨pre.length - fdes.length - 1, by omega⟩
    rw [hk, List.take_succ_cons] at h1
    rw [hk]
    exact h1.symm
  rw [hp]
  exact ⟨by simp, fun f hf => by simp [hf]⟩

/-- **C49, exactly**: let `fde` be the first function whose debug dump does not go through.  If everything before
it can be converted, then with the dump on the converter panics or fails with the error of the dump; otherwise it
does the same with the dump on and off.  Missing: the first case, for which C49 is false. -/
theorem C49_first_trouble_partial (dbg : Bool) (eh : EhFrame) (opts : Options)
    (pre rest : List (Except ConvError DwFde)) (fde : DwFde)
    (hin : inputs eh opts.bases = pre ++ .ok fde :: rest)
    (hpre : ∀ f, .ok f ∈ pre → ¬ DumpTrouble dbg f) (ht : DumpTrouble dbg fde) :
    ((∀ x ∈ pre, ∃ f, x = .ok f ∧ Convertible (sectionOptions eh opts) { opts with debugdump := false } f) →
      (if dbg = true ∧ 2 ^ 64 ≤ fde.initial.toNat + fde.len.toNat then
        (dwarf2sframe dbg eh { opts with debugdump := true }).Panics
      else ∃ g, dumpError fde = some g ∧
        dwarf2sframe dbg eh { opts with debugdump := true } = .ok (.error (.invalidDwarfFde g)))) ∧
    ((¬ ∀ x ∈ pre, ∃ f, x = .ok f ∧ Convertible (sectionOptions eh opts) { opts with debugdump := false } f) →
      (∀ r, dwarf2sframe dbg eh { opts with debugdump := true } = .ok r ↔
        dwarf2sframe dbg eh { opts with debugdump := false } = .ok r) ∧
      ((dwarf2sframe dbg eh { opts with debugdump := true }).Panics ↔
        (dwarf2sframe dbg eh { opts with debugdump := false }).Panics)) := by
  let on := { opts with debugdump := true }
  let off := { opts with debugdump := false }
  have hson : sectionOptions eh on = sectionOptions eh opts := rfl
  have hsoff : sectionOptions eh off = sectionOptions eh opts := rfl
  have hinon : inputs eh on.bases = pre ++ .ok fde :: rest := hin
  have hinoff : inputs eh off.bases = pre ++ .ok fde :: rest := hin
  constructor
  · intro hall
    obtain ⟨fdes, hfdes⟩ : ∃ fdes : List DwFde, pre = fdes.map .ok := by
      refine ⟨pre.filterMap Except.toOption, ?_⟩
      clear hin hpre hinon hinoff
      induction pre with
      | nil => rfl
      | cons x pre ih =>
        obtain ⟨f, rfl, _⟩ := hall x (by simp)
        simp only [List.filterMap_cons, Except.toOption, List.map_cons]
        rw [← ih fun y hy => hall y (by simp [hy])]
    subst hfdes
    have hc : ∀ f ∈ fdes, Convertible (sectionOptions eh on) on f := by
      intro f hf
      have hm : Except.ok f ∈ fdes.map (Except.ok (ε := ConvError)) := List.mem_map_of_mem hf
      obtain ⟨f', he, hf'⟩ := hall _ hm
      cases he
      exact (dump_convertible (hpre f hm)).2 hf'
    split
    · rename_i h
      exact dwarf2sframe_panics_iff.2 ⟨fdes, fde, rest, hinon, hc, .dump h.1 ⟨rfl, h.2⟩⟩
    · rename_i h
      cases hd : dumpError fde with
      | none => exact absurd ht fun ht => ht.elim (fun h => h hd) h
      | some g =>
        refine ⟨g, rfl, dwarf2sframe_error_iff.2 ⟨fdes, .ok fde, rest, hinon, hc, .inr ⟨fde, rfl, ?_⟩⟩⟩
        exact .dump g rfl (fun h' => h ⟨h'.1, h'.2.2⟩) hd
  · intro hno
    have hno' : ¬ ∀ x ∈ pre, ∃ f, x = .ok f ∧ Convertible (sectionOptions eh opts) on f := fun h =>
      hno fun x hx => (h x hx).imp fun f hf => ⟨hf.1, convertible_off hf.2⟩
    refine ⟨fun r => ?_, ?_⟩
    · cases r with
      | ok b =>
        have key : ∀ o : Options, inputs eh o.bases = pre ++ .ok fde :: rest →
            (¬ ∀ x ∈ pre, ∃ f, x = .ok f ∧ Convertible (sectionOptions eh o) o f) →
            dwarf2sframe dbg eh o ≠ .ok (.ok b) := by
          intro o hi hn h
          obtain ⟨fdes, h1, h2, _⟩ := dwarf2sframe_ok_iff.1 h
          rw [hi] at h1
          apply hn
          intro x hx
          have : x ∈ fdes.map (Except.ok (ε := ConvError)) := by rw [← h1]; simp [hx]
          obtain ⟨f, hf, rfl⟩ := List.mem_map.1 this
          exact ⟨f, rfl, h2 f hf⟩
        exact ⟨fun h => absurd h (key on hinon hno'), fun h => absurd h (key off hinoff hno)⟩
      | error e =>
        rw [dwarf2sframe_error_iff, dwarf2sframe_error_iff]
        constructor
        · rintro ⟨fdes, x, rest', h1, h2, h3⟩
          obtain ⟨hx, hf⟩ := split_inside (h1.symm.trans hinon) h2 hno'
          refine ⟨fdes, x, rest', h1, fun f m => convertible_off (h2 f m), ?_⟩
          rcases h3 with h3 | ⟨f, rfl, h3⟩
          · exact .inl h3
          · exact .inr ⟨f, rfl, (dump_fails (hpre f hx)).1 h3⟩
        · rintro ⟨fdes, x, rest', h1, h2, h3⟩
          obtain ⟨hx, hf⟩ := split_inside (h1.symm.trans hinoff) h2 hno
          refine ⟨fdes, x, rest', h1, fun f m => (dump_convertible (hpre f (hf f m))).2 (h2 f m), ?_⟩
          rcases h3 with h3 | ⟨f, rfl, h3⟩
          · exact .inl h3
          · exact .inr ⟨f, rfl, (dump_fails (hpre f hx)).2 h3⟩
    · rw [dwarf2sframe_panics_iff, dwarf2sframe_panics_iff]
      constructor
      · rintro ⟨fdes, f, rest', h1, h2, h3⟩
        obtain ⟨hx, hf⟩ := split_inside (h1.symm.trans hinon) h2 hno'
        exact ⟨fdes, f, rest', h1, fun f m => convertible_off (h2 f m), (dump_panics (hpre f hx)).1 h3⟩
      · rintro ⟨fdes, f, rest', h1, h2, h3⟩
        obtain ⟨hx, hf⟩ := split_inside (h1.symm.trans hinoff) h2 hno
        exact ⟨fdes, f, rest', h1, fun f m => (dump_convertible (hpre f (hf f m))).2 (h2 f m),
          (dump_panics (hpre f hx)).2 h3⟩

namespace Samples

/-- A function that cannot be dumped. -/
def undumpable : DwFde := { dwFde with instructions := [.ok (.defCfaExpression [.ok .abs, .error ⟨5⟩])] }

end Samples

/-- Both cases of the theorem occur: the first function that cannot be dumped comes after one that is converted,
and after one that starts beyond the limit. -/
example (dbg : Bool) :
    DumpTrouble dbg Samples.undumpable ∧ ¬ DumpTrouble dbg Samples.dwFde ∧
    dwarf2sframe dbg (Samples.ehOf [Samples.dwFde, Samples.undumpable]) { Samples.convOpts with debugdump := true } =
      .ok (.error (.invalidDwarfFde ⟨5⟩)) ∧
    dwarf2sframe dbg (Samples.ehOf [{ Samples.dwFde with initial := 0x80000000 }, Samples.undumpable])
      { Samples.convOpts with debugdump := true } = .ok (.error (.invalidStartAddress 0x80000000)) := by
  refine ⟨.inl (by decide +kernel), ?_, ?_, ?_⟩
  · rintro (h | ⟨_, h⟩)
    · revert h; decide +kernel
    · revert h; decide +kernel
  all_goals cases dbg <;> decide +kernel

/-! ### C75 -/

/-- **C75, exactly**: two warnings have the same text exactly if the start, the offset and the number of its digits
are the same, and the reasons are the same up to a register without a name and the constant that is its number.  Missing: that they are then of the same reason, which is false, see `C75_number`. -/
theorem C75_exact_partial {g : GimliText} {arch : Architecture} (hg : Spec.Names g arch) (w w' : Warning) :
    w.text g arch = w'.text g arch ↔
      w.start = w'.start ∧ w.offset = w'.offset ∧
      max (w.digits - 2) (Nat.toDigits 16 w.offset.toNat).length =
        max (w'.digits - 2) (Nat.toDigits 16 w.offset.toNat).length ∧
      Spec.SameMsg g arch w.msg w'.msg := by
  constructor
  · intro h
    obtain ⟨h1, h2, h3⟩ := C75_text_partial hg w w' h
    refine ⟨h1, h2, ?_, h3⟩
    unfold Warning.text at h
    rw [h1, h2, (warnText_iff hg _ _).2 h3, append_five, append_five] at h
    have h := prefix_cancel (prefix_cancel (prefix_cancel h))
    have h := congrArg (fun s => s.toList.length) h
    simp only [String.toList_append, List.length_append, fmtAltHexPad_toList, List.length_cons,
      List.length_replicate] at h
    rw [h2]
    omega
  · rintro ⟨h1, h2, h3, h4⟩
    unfold Warning.text
    rw [h1, ← h2, (warnText_iff hg _ _).2 h4]
    have : fmtAltHexPad w.digits w.offset.toNat = fmtAltHexPad w'.digits w.offset.toNat := by
      unfold fmtAltHexPad
      have : w.digits - 2 - (Nat.toDigits 16 w.offset.toNat).length =
          w'.digits - 2 - (Nat.toDigits 16 w.offset.toNat).length := by omega
      rw [this]
    rw [this]

/-- The number of digits shows only if it is larger than needed. -/
example (hg : Spec.Names Samples.names .amd64) :
    Warning.text Samples.names .amd64 ⟨0x1000, 0x20, 3, .cfaExpression⟩ =
      Warning.text Samples.names .amd64 ⟨0x1000, 0x20, 4, .cfaExpression⟩ ∧
    Warning.text Samples.names .amd64 ⟨0x1000, 0x20, 4, .cfaExpression⟩ ≠
      Warning.text Samples.names .amd64 ⟨0x1000, 0x20, 5, .cfaExpression⟩ := by
  rw [C75_exact_partial hg, Ne, C75_exact_partial hg]
  exact ⟨⟨rfl, rfl, by decide +kernel, .refl _⟩, fun h => absurd h.2.2.1 (by decide +kernel)⟩

/-! ### C89 -/

/-- **C89, exactly**: the names that the dump uses are those of the architecture exactly if it is not AArch64, or
the names of 32-bit Arm happen to be the same.  Missing: AArch64 with the names it has, see `C89_aarch64`. -/
theorem C89_exact_partial (w : DumpWorld) (a : ObjArch) :
    w.archRegisterName a = nameOf w a ↔
      (a = .aarch64 → ∀ r, w.registerName .arm r = w.registerName .aarch64 r) := by
  by_cases ha : a = .aarch64
  · subst ha
    constructor
    · intro h _ r
      exact congrFun h r
    · intro h
      funext r
      exact h rfl r
  · refine ⟨fun _ h => absurd h ha, fun _ => ?_⟩
    exact (C89_names_partial w true ⟨.little, a, []⟩ [] ha).1

/-- The names of the sample differ, so that they are wrong. -/
example : ¬ (Samples.dwWorld .aarch64 (some []) []).archRegisterName .aarch64 =
    nameOf (Samples.dwWorld .aarch64 (some []) []) .aarch64 := by
  rw [C89_exact_partial]
  intro h
  have := h rfl 13
  revert this
  decide +kernel

end Verif
