import Verif.Spec.Published
import Verif.Props.Load
import Verif.Props.Main2
import Verif.Props.Main1
/-!
# C118: the function info byte is not that of the format

raw/v2.rs:108-153 keeps the row type in three bits, so that the bits for the type of function and for the
key are one place lower than in the format.
-/

namespace Verif
open Verif.Spec Verif.Spec.Published

namespace Samples

/-- A procedure linkage table as a linker describes it: one function 0x1000+0x30, PCMASK with blocks of
16 bytes, key A, one row that begins 8 bytes into each block. -/
def plt : List U8 := [
  0xE2, 0xDE, 2, 1,  3, 0, 0xF8, 0,  1, 0, 0, 0,  1, 0, 0, 0,  3, 0, 0, 0,  0, 0, 0, 0,  20, 0, 0, 0,
  0x00, 0x10, 0, 0,  0x30, 0, 0, 0,  0, 0, 0, 0,  1, 0, 0, 0,  0x10, 16, 0, 0,
  8, 3, 16]

/-- Its function as the reader gives it. -/
def pltFn : FuncDescEntry .little :=
  { fde := .v2 { startAddress := 0x1000, size := 0x30, startFreOff := 0, numFres := 1, info := 0x10,
                 repSize := 16, padding2 := 0 }
    fres := [8, 3, 16] }

end Samples

theorem info_byte : ∀ b : U8,
    (FdeInfo.fretype b).toU8.toNat = b.toNat % 8 ∧
    (FdeInfo.fdetype b = .pcMask ↔ b.toNat / 8 % 2 = 1) ∧
    (FdeInfo.pauthKey b = .B ↔ b.toNat / 16 % 2 = 1) := by decide +kernel

/-- The accessors of an entry, in terms of the info byte. -/
theorem entry_info {o : Endian} (e : FuncDescEntry o) :
    (FdeInfo.fretype e.fde.info).toU8.toNat = e.fde.info.toNat % 8 ∧
    (e.fdetype ≠ .pcInc ↔ e.fde.info.toNat / 8 % 2 = 1) ∧
    (e.pauthKey = .B ↔ e.fde.info.toNat / 16 % 2 = 1) := by
  obtain ⟨h1, h2, h3⟩ := info_byte e.fde.info
  refine ⟨h1, ?_, h3⟩
  rw [← h2]
  unfold FuncDescEntry.fdetype Fde.fdetype
  cases e.fde with
  | v1 f => simp only [Fde.info]; cases FdeInfo.fdetype f.info <;> simp
  | v2 f => simp only [Fde.info]; cases FdeInfo.fdetype f.info <;> simp

/-- **C118 is false of the code**: the reader takes a procedure linkage table for an ordinary function
whose return addresses are signed with key B, and at the third byte of its second block, where the
format has no row, it finds one. -/
theorem C118_misread :
    isPcMask (infoOf .little Samples.plt 0) ∧ ¬ isKeyB (infoOf .little Samples.plt 0) ∧
    ∃ s, SFrame.load .little Samples.plt = .ok (.ok s) ∧ s.iter.collect = .ok [Samples.pltFn] ∧
      Samples.pltFn.fdetype = .pcInc ∧ Samples.pltFn.pauthKey = .B ∧
      ∀ dbg, ∃ r, Samples.pltFn.getFreForAddress dbg 0x1012 = .ok (.ok (some r)) ∧
        (0x1012 - 0x1000) % 16 < r.startAddressOffset.toNat := by
  refine ⟨by decide +kernel, by decide +kernel, _, rfl, by decide +kernel, by decide +kernel, by decide +kernel,
    fun dbg => ⟨{ fde := Samples.pltFn.fde, startAddressOffset := 8, info := 3, offsets := [16, 0, 0] }, ?_, ?_⟩⟩
  · cases dbg <;> decide +kernel
  · decide

/-- **C118**, reading: in every section that loads, exactly the functions that are PCINC, use key A and
have a row type below 8 are taken for what the format says they are. -/
theorem C118_reads_partial {o : Endian} {s : List U8} {f : SFrame o} (h : SFrame.load o s = .ok (.ok f)) :
    ∃ es, f.iter.collect = .ok es ∧ ∀ i e, es[i]? = some e →
      (TakenAs e (infoOf o s i) ↔
        ¬ isPcMask (infoOf o s i) ∧ ¬ isKeyB (infoOf o s i) ∧ freType (infoOf o s i) < 8) := by
  obtain ⟨es, hes, _, hall, _⟩ := C06_fdes_enumerates h
  refine ⟨es, hes, fun i e he => ?_⟩
  have hi : e.fde.info.toNat = infoOf o s i := (hall i e he).info
  obtain ⟨h1, h2, h3⟩ := entry_info e
  rw [hi] at h1 h2 h3
  constructor
  · rintro ⟨k1, k2, k3⟩
    rw [h2] at k1
    rw [h3] at k2
    rw [h1] at k3
    unfold isPcMask isKeyB freType at *
    omega
  · rintro ⟨k1, k2, k3⟩
    refine ⟨?_, ?_, ?_⟩
    · rw [h2]; unfold isPcMask freType at *; omega
    · rw [h3]; unfold isPcMask isKeyB at *; omega
    · rw [h1]; unfold freType at *; omega

/-- **C118**, reading: in a section that follows the format no function is ever taken for one with
repeated blocks, and those with repeated blocks are the ones shown with key B; the key is not shown. -/
theorem C118_masks_lost {o : Endian} {s : List U8} {f : SFrame o} (h : SFrame.load o s = .ok (.ok f))
    (hv : ∀ i < numFdes o s, Valid (infoOf o s i)) :
    ∃ es, f.iter.collect = .ok es ∧ ∀ i e, es[i]? = some e →
      e.fdetype = .pcInc ∧ (e.pauthKey = .B ↔ isPcMask (infoOf o s i)) := by
  obtain ⟨_, _, _, _, _, _, _, _, _, _, es, hes, hlen, hall⟩ := C02_load_fields h
  refine ⟨es, hes, fun i e he => ?_⟩
  have hi : e.fde.info.toNat = infoOf o s i := (hall i e he).info
  have hlt : i < es.length := (List.getElem?_eq_some_iff.1 he).1
  have hvi := hv i (by have : es.length = numFdes o s := hlen; omega)
  obtain ⟨_, h2, h3⟩ := entry_info e
  rw [hi] at h2 h3
  constructor
  · refine Classical.byContradiction fun hne => ?_
    have := h2.1 hne
    unfold Valid freType at hvi
    omega
  · exact h3

/-- The info byte of a function of a section that is built. -/
theorem info_written (dbg dbg' : Bool) (o : Endian) (b : SFrameBuilder)
    (hb : SFrameBuilder.Reachable dbg' b) (out : List U8) (h : b.build dbg o = .ok (.ok out))
    (i : Nat) (f : FuncDescBuilder) (hf : (functions b)[i]? = some f) :
    infoOf o out i = typeOfWidth (startWidth f) + (if f.repSize.isSome then 8 else 0)
      + (if f.pauthKey = .B then 16 else 0) ∧ typeOfWidth (startWidth f) ≤ 2 := by
  obtain ⟨⟨_, hver, _, _, _, _, haux, _, _, _, hoff, _⟩, _, _, hall⟩ := C28_layout dbg dbg' o b hb out h
  have hpos : fdePos o out i = 28 + 20 * i := by
    unfold fdePos tablePos bodyPos fdeSize
    rw [haux, hoff, hver]
    simp only [if_neg (show ¬ (2 : Nat) = 1 by decide)]
    omega
  refine ⟨?_, ?_⟩
  · unfold infoOf
    rw [hpos]
    exact (hall i f hf).1.info
  · unfold typeOfWidth
    split <;> omega

/-- **C118**, writing: of the functions of a section that is built, the info byte says what the function
is exactly if it is PcInc with key A. -/
theorem C118_writes_partial (dbg dbg' : Bool) (o : Endian) (b : SFrameBuilder)
    (hb : SFrameBuilder.Reachable dbg' b) (out : List U8) (h : b.build dbg o = .ok (.ok out))
    (i : Nat) (f : FuncDescBuilder) (hf : (functions b)[i]? = some f) :
    Says (infoOf o out i) f ↔ f.repSize = none ∧ f.pauthKey = .A := by
  obtain ⟨hi, ht⟩ := info_written dbg dbg' o b hb out h i f hf
  rw [hi]
  constructor
  · rintro ⟨k1, k2, k3⟩
    unfold isPcMask at k1
    unfold isKeyB at k2
    unfold freType at k3
    cases hr : f.repSize <;> cases hk : f.pauthKey <;> simp [hr, hk] at k1 k2 k3 ⊢ <;> omega
  · rintro ⟨hr, hk⟩
    refine ⟨?_, ?_, ?_⟩ <;> simp [isPcMask, isKeyB, freType, hr, hk] <;> omega

/-- **C118 is false of the code**, writing: to a program that follows the format, a PcMask function has a
row type that does not exist, and an ordinary function with key B is a PCMASK function with key A. -/
theorem C118_unreadable (dbg dbg' : Bool) (o : Endian) (b : SFrameBuilder)
    (hb : SFrameBuilder.Reachable dbg' b) (out : List U8) (h : b.build dbg o = .ok (.ok out))
    (i : Nat) (f : FuncDescBuilder) (hf : (functions b)[i]? = some f) :
    (f.repSize.isSome → ¬ Valid (infoOf o out i)) ∧
    (f.repSize = none → f.pauthKey = .B → isPcMask (infoOf o out i) ∧ ¬ isKeyB (infoOf o out i)) := by
  obtain ⟨hi, ht⟩ := info_written dbg dbg' o b hb out h i f hf
  rw [hi]
  refine ⟨fun hr => ?_, fun hr hk => ?_⟩
  · unfold Valid freType
    rw [if_pos hr]
    split <;> omega
  · simp [isPcMask, isKeyB, hr, hk]
    omega

/-- A section with a PcMask function, followed by an ordinary one. -/
example : (∀ dbg, Samples.sec.build dbg .little = .ok (.ok Samples.secOut)) ∧
    Samples.fnMask.repSize = some 0x10 ∧ Samples.fn2.repSize = none ∧ Samples.fn2.pauthKey = .A ∧
    functions Samples.sec = [Samples.fnMask, Samples.fn2] ∧
    infoOf .little Samples.secOut 0 = 24 ∧ infoOf .little Samples.secOut 1 < 8 :=
  ⟨Samples.sec_build, by decide +kernel, by decide +kernel, by decide +kernel, by decide +kernel, by decide +kernel,
    by decide +kernel⟩

/-- A section whose functions are as the format says, and one that follows the format. -/
example : (∃ f, SFrame.load .little Samples.v2 = .ok (.ok f)) ∧
    (∀ i < numFdes .little Samples.v2, infoOf .little Samples.v2 i = 0) ∧
    ∀ i < numFdes .little Samples.plt, Valid (infoOf .little Samples.plt i) := by
  refine ⟨⟨_, Samples.v2_loads⟩, ?_, ?_⟩
  · have h : numFdes .little Samples.v2 = 2 := by decide +kernel
    rw [h]; decide +kernel
  · have h : numFdes .little Samples.plt = 1 := by decide +kernel
    rw [h]; decide +kernel

/-- **C118**, the converter: every function of the sections it makes is what the format says. -/
theorem C118_converted (dbg dbg' : Bool) (o : Endian) (eh : EhFrame) (opts : Options) (b : SFrameBuilder)
    (h : dwarf2sframe dbg eh opts = .ok (.ok b)) (out : List U8) (hb : b.build dbg' o = .ok (.ok out))
    (i : Nat) (f : FuncDescBuilder) (hf : (functions b)[i]? = some f) : Says (infoOf o out i) f := by
  refine (C118_writes_partial dbg' dbg' o b (converted_reachable h) out hb i f hf).2 ?_
  obtain ⟨fdes, _, hc, rfl⟩ := dwarf2sframe_ok_iff.1 h
  obtain ⟨fde, _, rfl⟩ := (mem_functions (fun fde hfde => (hc fde hfde).start) f).1 (List.mem_of_getElem? hf)
  exact (fnFor_fields _ _ fde).2.2.2

/-- **C118**, the legacy converter: likewise. -/
theorem C118_legacy (dbg dbg' : Bool) (o : Endian) (eh : EhFrame) (bases : Bases) (b : SFrameBuilder)
    (h : legacyConvert dbg eh bases = .ok (.ok b)) (out : List U8) (hb : b.build dbg' o = .ok (.ok out))
    (i : Nat) (f : FuncDescBuilder) (hf : (functions b)[i]? = some f) : Says (infoOf o out i) f := by
  refine (C118_writes_partial dbg' dbg' o b (legacy_reachable h).1 out hb i f hf).2 ?_
  obtain ⟨fdes, _, hc, rfl⟩ := legacyConvert_iff.1 h
  have hs : ∀ fde ∈ fdes.map tidyFde, fde.initial.toNat ≤ 2147483647 := by
    intro fde hfde
    obtain ⟨g, hg, rfl⟩ := List.mem_map.1 hfde
    exact ((legacyConvertible_iff bases g).1 (hc g hg)).1.start
  obtain ⟨fde, _, rfl⟩ := (mem_functions hs f).1 (List.mem_of_getElem? hf)
  exact (fnFor_fields _ _ fde).2.2.2

example : ∃ b out, dwarf2sframe true (Samples.ehOf [Samples.dwFde]) Samples.convOpts = .ok (.ok b) ∧
    b.build true .little = .ok (.ok out) ∧ (functions b).length = 1 ∧ infoOf .little out 0 = 0 := by
  refine ⟨{ options := Samples.opts, fdes := [(0x1000, Samples.convFn)] }, _, by decide +kernel, rfl,
    by decide +kernel, by decide +kernel⟩

end Verif
