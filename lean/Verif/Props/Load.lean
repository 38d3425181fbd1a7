import Verif.Proofs.Iter
import Verif.Props.Samples
/-!
# Loading a section and enumerating its functions: C01, C02, C03, C05, C06, C07, C08
-/

namespace Verif
open Spec

/-- **C01** `SFrame::load` never panics and never hangs; it returns a section or one of three
errors, and `UnsupportedVersion` carries a version that is indeed neither 1 nor 2. -/
theorem C01_load_total (o : Endian) (s : List U8) :
    (∃ f, SFrame.load o s = .ok (.ok f)) ∨
    SFrame.load o s = .ok (.error .unexpectedEof) ∨
    SFrame.load o s = .ok (.error .incorrectEndian) ∨
    (∃ v : U8, v ≠ 1 ∧ v ≠ 2 ∧ SFrame.load o s = .ok (.error (.unsupportedVersion v))) := by
  rw [load_eq]
  generalize he : loadError o s = e
  unfold loadError at he
  split at he
  · subst he; exact .inr (.inl rfl)
  split at he
  · subst he; exact .inr (.inr (.inl rfl))
  split at he
  · rename_i h4 _ hv
    subst he
    refine .inr (.inr (.inr ⟨BitVec.ofNat 8 (version o s), ?_, ?_, rfl⟩))
    all_goals
      have hlt : version o s < 256 := by
        rw [show version o s = _ from (byteAt_toNat o (p := 2) (by omega)).symm]; omega
      intro h
      have := congrArg BitVec.toNat h
      simp at this
      omega
  split at he
  · subst he; exact .inr (.inl rfl)
  split at he
  · subst he; exact .inr (.inl rfl)
  split at he
  · subst he; exact .inr (.inl rfl)
  split at he
  · subst he; exact .inr (.inl rfl)
  subst he
  exact .inl ⟨_, rfl⟩

/-- **C02** The error returned is the one of the first condition that fails. -/
theorem C02_load_error (o : Endian) (s : List U8) (e : ReadError) :
    SFrame.load o s = .ok (.error e) ↔ loadError o s = some e := by
  rw [load_eq]; cases loadError o s <;> simp

/-- **C02** Loading succeeds exactly when magic and version are right and all parts lie inside the
input. -/
theorem C02_load_succeeds_iff (o : Endian) (s : List U8) :
    (∃ f, SFrame.load o s = .ok (.ok f)) ↔ Loads o s := by
  simp only [load_ok_iff]
  exact ⟨fun ⟨_, h, _⟩ => h, fun h => ⟨_, h, rfl⟩⟩

/-- **C04** A section that can be loaded in one byte order is refused in the other one. -/
theorem C04_valid_refused {o o' : Endian} (ho : o ≠ o') {s : List U8} {f : SFrame o}
    (h : SFrame.load o s = .ok (.ok f)) : SFrame.load o' s = .ok (.error .incorrectEndian) := by
  have hl := (C02_load_succeeds_iff o s).1 ⟨f, h⟩
  have h1 := hl.header
  have h2 := hl.magic
  rw [C02_load_error, loadError, if_neg (by omega), if_pos]
  match s, h1 with
  | a :: b :: rest, _ =>
    have ha := a.isLt
    have hb := b.isLt
    cases o <;> cases o' <;>
      first
      | exact absurd rfl ho
      | (simp [magic, uintAt, natOf] at h2 ⊢; omega)

example : SFrame.load .big Samples.v2 = .ok (.error .incorrectEndian) :=
  C04_valid_refused (by decide) Samples.v2_loads

/-- The value of an optional fixed offset: zero means none. -/
def fixedValue (x : Option I8) : Int := match x with | some v => v.toInt | none => 0

/-- **C02** The accessors of a loaded section return the integers at the documented positions, and
`fdes()` returns the entries of the table. -/
theorem C02_load_fields {o : Endian} {s : List U8} {f : SFrame o}
    (h : SFrame.load o s = .ok (.ok f)) :
    f.version.toNat = uintAt o s 2 1 ∧
    f.flags.toNat = uintAt o s 3 1 ∧
    f.abi.toNat = uintAt o s 4 1 ∧
    fixedValue f.fixedFpOffset = sintAt o s 5 1 ∧ f.fixedFpOffset ≠ some 0 ∧
    fixedValue f.fixedRaOffset = sintAt o s 6 1 ∧ f.fixedRaOffset ≠ some 0 ∧
    f.aux = span s 28 (uintAt o s 7 1) ∧
    f.numFdes.toNat = uintAt o s 8 4 ∧
    f.numFres.toNat = uintAt o s 12 4 ∧
    ∃ es, f.iter.collect = .ok es ∧ es.length = uintAt o s 8 4 ∧
      ∀ i e, es[i]? = some e → EntryAt o s i e := by
  obtain ⟨hl, rfl⟩ := load_ok_iff.1 h
  have h28 := hl.header
  refine ⟨byteAt_toNat o (by omega), byteAt_toNat o (by omega), byteAt_toNat o (by omega),
    ?_, ?_, ?_, ?_, rfl, readU32_toNat o (by omega), readU32_toNat o (by omega), ?_⟩
  · rw [← byteAt_toInt o (p := 5) (by omega)]
    simp only [SFrame.fixedFpOffset, sectionOf, fixedValue]
    by_cases hz : byteAt s 5 = 0#8 <;> simp [hz]
  · simp only [SFrame.fixedFpOffset, sectionOf]
    by_cases hz : byteAt s 5 = 0#8 <;> simp [hz]
  · rw [← byteAt_toInt o (p := 6) (by omega)]
    simp only [SFrame.fixedRaOffset, sectionOf, fixedValue]
    by_cases hz : byteAt s 6 = 0#8 <;> simp [hz]
  · simp only [SFrame.fixedRaOffset, sectionOf]
    by_cases hz : byteAt s 6 = 0#8 <;> simp [hz]
  · refine ⟨_, FuncDescIter.collect_eq _, ?_, ?_⟩
    · rw [List.length_map]; exact sectionOf_fdes_length o s
    · intro i e he
      rw [List.getElem?_map] at he
      obtain ⟨fde, hfde, rfl⟩ := Option.map_eq_some_iff.1 he
      have hi : i < Spec.numFdes o s := by
        rw [← sectionOf_fdes_length]
        exact (List.getElem?_eq_some_iff.1 hfde).1
      exact entryAt_of_loads hl hi hfde

/-- The samples load, so the hypotheses of C02 are met. -/
example : (∃ f, SFrame.load .little Samples.v2 = .ok (.ok f)) ∧
    (∃ f, SFrame.load .big Samples.v1 = .ok (.ok f)) ∧
    SFrame.load .big Samples.v2 = .ok (.error .incorrectEndian) ∧
    SFrame.load .little (Samples.v2.set 2 3) = .ok (.error (.unsupportedVersion 3)) ∧
    SFrame.load .little (Samples.v2.take 77) = .ok (.error .unexpectedEof) := by
  refine ⟨⟨_, Samples.v2_loads⟩, ⟨_, Samples.v1_loads⟩, ?_, ?_, ?_⟩ <;> decide +kernel

/-- **C03** Trailing bytes are ignored. -/
theorem C03_trailing_bytes {o : Endian} {s t : List U8} {f : SFrame o}
    (h : SFrame.load o s = .ok (.ok f)) : SFrame.load o (s ++ t) = .ok (.ok f) := by
  obtain ⟨hl, rfl⟩ := load_ok_iff.1 h
  have h28 := hl.header
  have hu : ∀ p n, p + n ≤ s.length → uintAt o (s ++ t) p n = uintAt o s p n := by
    intro p n hp
    simp only [uintAt]
    rw [List.drop_append_of_le_length (by omega), List.take_append_of_le_length (by simp; omega)]
  have hs : ∀ p n, p + n ≤ s.length → span (s ++ t) p n = span s p n := by
    intro p n hp
    simp only [span]
    rw [List.drop_append_of_le_length (by omega), List.take_append_of_le_length (by simp; omega)]
  have hmag : magic o (s ++ t) = magic o s := hu _ _ (by omega)
  have hver : version o (s ++ t) = version o s := hu _ _ (by omega)
  have haux : auxLen o (s ++ t) = auxLen o s := hu _ _ (by omega)
  have hnum : Spec.numFdes o (s ++ t) = Spec.numFdes o s := hu _ _ (by omega)
  have hfl : Spec.freLen o (s ++ t) = Spec.freLen o s := hu _ _ (by omega)
  have hfo : fdeOff o (s ++ t) = fdeOff o s := hu _ _ (by omega)
  have hro : freOff o (s ++ t) = freOff o s := hu _ _ (by omega)
  have hbody : bodyPos o (s ++ t) = bodyPos o s := by simp only [bodyPos, haux]
  have htab : tablePos o (s ++ t) = tablePos o s := by simp only [tablePos, hbody, hfo]
  have hfre : fresPos o (s ++ t) = fresPos o s := by simp only [fresPos, hbody, hro]
  have hsz : fdeSize o (s ++ t) = fdeSize o s := by simp only [fdeSize, hver]
  have hpos : ∀ i, fdePos o (s ++ t) i = fdePos o s i := by
    intro i; simp only [fdePos, htab, hsz]
  have e1 := hl.aux
  have e2 := hl.table
  have e3 := hl.fres
  refine load_ok_iff.2 ⟨⟨by rw [hmag]; exact hl.magic, by rw [hver]; exact hl.version,
    by simp; omega, by rw [hbody]; simp; omega,
    by rw [htab, hsz, hnum]; simp; omega, by rw [hfre, hfl]; simp; omega⟩, ?_⟩
  have htable : tableOf o (s ++ t) = tableOf o s := by
    unfold tableOf
    rw [hver, hnum]
    split
    · congr 1
      apply List.map_congr_left
      intro i hi
      have hp := fdePos_le hl (List.mem_range.1 hi)
      have hsz' : fdeSize o s = 17 := by simp [fdeSize, *]
      rw [hsz'] at hp
      rw [hpos]
      simp only [FdeV1.decode, readU32_drop, byteAt_drop]
      rw [readU32_append_left o (by omega), readU32_append_left o (by omega),
        readU32_append_left o (by omega), readU32_append_left o (by omega),
        byteAt_append_left (by omega)]
    · congr 1
      apply List.map_congr_left
      intro i hi
      have hp := fdePos_le hl (List.mem_range.1 hi)
      have hsz' : fdeSize o s = 20 := by simp [fdeSize, *]
      rw [hsz'] at hp
      rw [hpos]
      simp only [FdeV2.decode, readU32_drop, readU16_drop, byteAt_drop]
      rw [readU32_append_left o (by omega), readU32_append_left o (by omega),
        readU32_append_left o (by omega), readU32_append_left o (by omega),
        byteAt_append_left (by omega), byteAt_append_left (by omega),
        readU16_append_left o (by omega)]
  have hb : bodyPos o s = 28 + auxLen o s := rfl
  simp only [sectionOf, htable, hfre, hfl, haux, Preamble.decode]
  rw [hs _ _ (by omega), hs _ _ (by omega), byteAt_append_left (by omega),
    byteAt_append_left (by omega), byteAt_append_left (by omega), byteAt_append_left (by omega),
    byteAt_append_left (by omega), readU16_append_left o (by omega),
    readU32_append_left o (by omega), readU32_append_left o (by omega)]

example : ∃ f, SFrame.load .big (Samples.v1 ++ [1, 2, 3]) = .ok (.ok f) ∧
    SFrame.load .big Samples.v1 = .ok (.ok f) := ⟨Samples.v1F, by decide +kernel, Samples.v1_loads⟩

/-- **C05** A version 2 section has no PcMaskV1 function and always a repetition size; a version 1
section has no PcMask function and never a repetition size.  A loaded section is one of the two. -/
theorem C05_versions_kept_apart {o : Endian} {s : List U8} {f : SFrame o}
    (h : SFrame.load o s = .ok (.ok f)) :
    ∃ es, f.iter.collect = .ok es ∧
      ((f.version = 2 ∧ ∀ e ∈ es, e.fdetype ≠ .pcMaskV1 ∧ e.repBlockSize.isSome) ∨
       (f.version = 1 ∧ ∀ e ∈ es, e.fdetype ≠ .pcMask ∧ e.repBlockSize = none)) := by
  obtain ⟨hver, _, _, _, _, _, _, _, _, _, es, hes, _, hall⟩ := C02_load_fields h
  obtain ⟨hl, _⟩ := load_ok_iff.1 h
  refine ⟨es, hes, ?_⟩
  have hv' : f.version.toNat = version o s := hver
  rcases hl.version with hv | hv
  · right
    refine ⟨BitVec.eq_of_toNat_eq (by simpa [hv] using hv'), fun e he => ?_⟩
    obtain ⟨i, hi⟩ := List.getElem?_of_mem he
    have := hall i e hi
    refine ⟨?_, ?_⟩
    · rw [this.fdetype, fdeKind]; split <;> simp
    · have := this.repBlockSize
      rw [if_pos hv] at this
      simpa using this
  · left
    refine ⟨BitVec.eq_of_toNat_eq (by simpa [hv] using hv'), fun e he => ?_⟩
    obtain ⟨i, hi⟩ := List.getElem?_of_mem he
    have := hall i e hi
    refine ⟨?_, ?_⟩
    · rw [this.fdetype, fdeKind]; split <;> simp [hv]
    · have := this.repBlockSize
      rw [if_neg (by omega)] at this
      cases h : e.repBlockSize <;> simp_all

/-- Both cases occur, with masked functions. -/
example : (∃ f, SFrame.load .big Samples.v1 = .ok (.ok f) ∧
      f.iter.next.1.map (·.fdetype) = some .pcMaskV1) ∧
    (∃ f, SFrame.load .little (Samples.v2.set 44 8) = .ok (.ok f) ∧
      f.iter.next.1.map (·.fdetype) = some .pcMask) := by
  refine ⟨⟨_, Samples.v1_loads, by decide +kernel⟩, ⟨_, rfl, by decide +kernel⟩⟩

/-- **C06** `fdes()` yields `num_fdes()` entries in table order, each the one the bytes describe; the
`k`-th call of `next` returns entry `k`, or `None` from the end on, and `size_hint` before it is
exact. -/
theorem C06_fdes_enumerates {o : Endian} {s : List U8} {f : SFrame o}
    (h : SFrame.load o s = .ok (.ok f)) :
    ∃ es, f.iter.collect = .ok es ∧ es.length = f.numFdes.toNat ∧
      (∀ i e, es[i]? = some e → EntryAt o s i e) ∧
      ∀ k, (f.iter.after k).next.1 = es[k]? ∧
        (f.iter.after k).sizeHint = (f.numFdes.toNat - k, some (f.numFdes.toNat - k)) := by
  obtain ⟨_, _, _, _, _, _, _, _, hn, _, es, hes, hlen, hall⟩ := C02_load_fields h
  refine ⟨es, hes, by rw [hn, hlen], hall, fun k => ?_⟩
  rw [FuncDescIter.collect_eq] at hes
  simp only [Rust.ok.injEq] at hes
  rw [FuncDescIter.after_eq, FuncDescIter.next_fst]
  constructor
  · rw [← hes]; simp
  · have : f.iter.fdes.length = f.numFdes.toNat := by
      rw [hn, ← hlen, ← hes, List.length_map]
    simp [FuncDescIter.sizeHint, this]

example : ∃ f a b, SFrame.load .little Samples.v2 = .ok (.ok f) ∧ f.iter.collect = .ok [a, b] ∧
    a.startAddress = 0x1000 ∧ b.startAddress = 0x1020 ∧ a.fres ≠ b.fres := by
  refine ⟨_, Samples.e0, Samples.e1, Samples.v2_loads, ?_, ?_, ?_, ?_⟩ <;> decide +kernel

/-- **C07** is false: `nth` hands out an entry with the wrong rows (read.rs:742-746 does not apply
the start offset).  In the sample, function 1 has one row with CFA offset 24; `nth(1)` shows it
with the row of function 0, CFA offset 8. -/
theorem C07_nth_disagrees :
    ∃ (s : List U8) (f : SFrame .little) (a b : FuncDescEntry .little),
      SFrame.load .little s = .ok (.ok f) ∧
      (f.iter.nth 1).1 = some a ∧ (f.iter.after 1).next.1 = some b ∧
      ∃ ra rb, a.iter.collect = .ok [.ok ra] ∧ b.iter.collect = .ok [.ok rb] ∧
        ra.cfaOffset = .ok 8 ∧ rb.cfaOffset = .ok 24 := by
  refine ⟨Samples.v2, _, Samples.e1bad, Samples.e1, Samples.v2_loads, ?_, ?_, Samples.r1bad,
    Samples.r1, ?_, ?_, ?_, ?_⟩ <;> decide +kernel

/-- **C07**, what holds: `nth(n)` returns an entry exactly when stepping does, with the same header,
and leaves the iterator in the same state; the whole entry (rows included) is the same exactly when
the start offset of that function is 0 or there are no FRE bytes.  Missing: agreement of the rows
for other functions, which is false. -/
theorem C07_nth_agrees_partial {o : Endian} (it : FuncDescIter o) (n : Nat) :
    (it.nth n).1.map (·.fde) = (it.after n).next.1.map (·.fde) ∧
    (it.nth n).2 = it.after (n + 1) ∧
    ((it.nth n).1 = (it.after n).next.1 ↔
      ∀ e, (it.after n).next.1 = some e → e.fde.startFreOff = 0 ∨ it.fres = []) := by
  rw [FuncDescIter.after_eq, FuncDescIter.after_eq, FuncDescIter.next_fst]
  unfold FuncDescIter.nth
  rcases hd : it.fdes.drop n with _ | ⟨fde, rest⟩
  · have : it.fdes.drop (n + 1) = [] := by rw [← List.drop_drop, hd]; rfl
    simp [this]
  · have hr : it.fdes.drop (n + 1) = rest := by rw [← List.drop_drop, hd]; rfl
    refine ⟨rfl, by simp [hr], ?_⟩
    simp only [List.head?_cons, Option.map_some, Option.some.injEq, entryOf,
      FuncDescEntry.mk.injEq, true_and]
    constructor
    · rintro h e rfl
      have hlen := congrArg List.length h
      rw [List.length_drop] at hlen
      by_cases hf : it.fres = []
      · exact .inr hf
      · left
        have : it.fres.length ≠ 0 := by simpa using hf
        apply BitVec.eq_of_toNat_eq
        simp
        omega
    · intro h
      rcases h _ rfl with h | h
      · simp only at h; simp [h]
      · simp [h]

example : ∃ f a, SFrame.load .little Samples.v2 = .ok (.ok f) ∧ (f.iter.nth 0).1 = some a ∧
    (f.iter.after 0).next.1 = some a :=
  ⟨_, Samples.e0, Samples.v2_loads, by decide +kernel, by decide +kernel⟩

theorem FuncDescIter.collectBackFuel_eq {o : Endian} (l : List Fde) (fres : List U8) (fuel : Nat)
    (h : l.length ≤ fuel) :
    FuncDescIter.collectBackFuel fuel (FuncDescIter.mk (o := o) l fres)
      = .ok (l.reverse.map fun fde => { fde := fde, fres := fres }) := by
  induction fuel generalizing l with
  | zero =>
    have : l = [] := by simpa using h
    subst this; rfl
  | succ fuel ih =>
    unfold FuncDescIter.collectBackFuel
    rcases List.eq_nil_or_concat l with rfl | ⟨init, last, rfl⟩
    · rfl
    · simp only [List.concat_eq_append, FuncDescIter.nextBack, List.getLast?_append,
        List.getLast?_singleton, Option.some_or, List.dropLast_concat]
      simp at h
      rw [ih init (by omega)]
      simp

/-- **C08** is false: `next_back` hands out entries with the wrong rows (read.rs:758-768). -/
theorem C08_next_back_disagrees :
    ∃ (s : List U8) (f : SFrame .little) (a0 a1 b0 b1 : FuncDescEntry .little),
      SFrame.load .little s = .ok (.ok f) ∧
      f.iter.collect = .ok [a0, a1] ∧ f.iter.collectBack = .ok [b1, b0] ∧
      ∃ ra rb, a1.iter.collect = .ok [.ok ra] ∧ b1.iter.collect = .ok [.ok rb] ∧
        ra.cfaOffset = .ok 24 ∧ rb.cfaOffset = .ok 8 := by
  refine ⟨Samples.v2, _, Samples.e0, Samples.e1, Samples.e0, Samples.e1bad, Samples.v2_loads,
    ?_, ?_, Samples.r1, Samples.r1bad, ?_, ?_, ?_, ?_⟩ <;> decide +kernel

/-- **C08**, what holds: backward iteration terminates and yields the headers in reverse order; the
entries are the reverse of the forward ones exactly when every start offset is 0 or there are no FRE
bytes.  Missing: the rows in the general case, which is false. -/
theorem C08_next_back_partial {o : Endian} (it : FuncDescIter o) :
    ∃ es bs, it.collect = .ok es ∧ it.collectBack = .ok bs ∧
      bs.map (·.fde) = (es.map (·.fde)).reverse ∧
      (bs = es.reverse ↔ ∀ e ∈ es, e.fde.startFreOff = 0 ∨ it.fres = []) := by
  refine ⟨_, _, FuncDescIter.collect_eq it, FuncDescIter.collectBackFuel_eq _ _ _ (Nat.le_refl _),
    ?_, ?_⟩
  · simp [List.map_reverse, entryOf, Function.comp_def]
  · rw [List.map_reverse, List.reverse_inj]
    simp only [List.mem_map, forall_exists_index, and_imp, forall_apply_eq_imp_iff₂]
    rw [List.map_inj_left]
    constructor
    · intro h fde hm
      have h := h fde hm
      simp only [entryOf, FuncDescEntry.mk.injEq, true_and] at h
      have hlen := congrArg List.length h
      rw [List.length_drop] at hlen
      by_cases hf : it.fres = []
      · exact .inr hf
      · left
        have : it.fres.length ≠ 0 := by simpa using hf
        apply BitVec.eq_of_toNat_eq
        simp [entryOf]
        omega
    · intro h fde hm
      rcases h fde hm with h | h
      · simp only [entryOf] at h; simp [entryOf, h]
      · simp [entryOf, h]

/-- A non-trivial iterator on which backward iteration is right: two functions sharing their rows. -/
example : ∃ f es, SFrame.load .little (Samples.v2.set 56 0) = .ok (.ok f) ∧
    f.iter.collect = .ok es ∧ f.iter.collectBack = .ok es.reverse ∧ es.length = 2 :=
  ⟨_, _, rfl, rfl, rfl, rfl⟩

end Verif
