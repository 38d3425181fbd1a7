import Verif.Proofs.Unused
import Verif.Spec.Image
/-!
# C130: bytes that mean nothing do not matter to the reader
-/

namespace Verif
namespace Spec

/-- Two sections of the same length that may differ only in bytes without a meaning: the gaps between
the parts, what follows the last part, the two bytes of padding that end a version 2 function, and
the top three bits of the info byte of a function (raw/v2.rs:105-154 gives a meaning to the low
five). -/
structure SameMeaning (o : Endian) (s s' : List U8) : Prop where
  length : s'.length = s.length
  header : span s' 0 28 = span s 0 28
  aux : span s' 28 (auxLen o s) = span s 28 (auxLen o s)
  fields : ∀ i < numFdes o s, span s' (fdePos o s i) 16 = span s (fdePos o s i) 16
  info : ∀ i < numFdes o s, uintAt o s' (fdePos o s i + 16) 1 % 32 = uintAt o s (fdePos o s i + 16) 1 % 32
  rep : version o s = 2 → ∀ i < numFdes o s,
    span s' (fdePos o s i + 17) 1 = span s (fdePos o s i + 17) 1
  fres : span s' (fresPos o s) (freLen o s) = span s (fresPos o s) (freLen o s)

/-- What a program sees of a row. -/
structure RowSeen where
  start : Rust I32
  offset : U32
  base : BaseReg
  mangled : Bool
  cfa : Except ReadError I32
  ra : Except ReadError I32
  fp : Except ReadError I32
  debug : Rust RowDebug

/-- What a program sees of a function. -/
structure FuncSeen where
  start : I32
  size : U32
  type : FdeType
  key : PauthKey
  rep : Option U8
  rows : Rust (List (Except ReadError RowSeen))
  contains : I32 → Rust Bool
  lookup : I32 → Rust (Except ReadError (Option RowSeen))
  debug : Rust FdeDebug

variable {o : Endian}

/-- Each method of a row, called once. -/
def rowSeen (dbg : Bool) (f : SFrame o) (r : FrameRowEntry o) : RowSeen where
  start := r.startAddress dbg
  offset := r.startAddressOffset
  base := r.baseReg
  mangled := r.mangled
  cfa := r.cfaOffset
  ra := r.raOffset f
  fp := r.fpOffset f
  debug := r.debug

/-- Each method of a function, called on every address. -/
def funcSeen (dbg : Bool) (f : SFrame o) (e : FuncDescEntry o) : FuncSeen where
  start := e.startAddress
  size := e.size
  type := e.fdetype
  key := e.pauthKey
  rep := e.repBlockSize
  rows := e.iter.collect.bind fun rs => .ok (rs.map (·.map (rowSeen dbg f)))
  contains := e.contains dbg
  lookup := fun a => (e.getFreForAddress dbg a).bind fun x => .ok (x.map (·.map (rowSeen dbg f)))
  debug := e.debug

/-- What a program sees of a section. -/
structure SectionSeen where
  version : U8
  flags : U8
  abi : U8
  fixedFp : Option I8
  fixedRa : Option I8
  numFdes : U32
  numFres : U32
  aux : List U8
  funcs : Rust (List FuncSeen)
  /-- from the back -/
  back : Rust (List FuncSeen)
  nth : Nat → Option FuncSeen
  lookup : I32 → Rust (Option FuncSeen)
  dump : Printed
  debug : Rust SFrameDebug

/-- Each method of a section. -/
def sectionSeen (alg : SearchAlg) (dbg : Bool) (f : SFrame o) : SectionSeen where
  version := f.version
  flags := f.flags
  abi := f.abi
  fixedFp := f.fixedFpOffset
  fixedRa := f.fixedRaOffset
  numFdes := f.numFdes
  numFres := f.numFres
  aux := f.aux
  funcs := f.iter.collect.bind fun es => .ok (es.map (funcSeen dbg f))
  back := f.iter.collectBack.bind fun es => .ok (es.map (funcSeen dbg f))
  nth := fun n => (f.iter.nth n).1.map (funcSeen dbg f)
  lookup := fun a => (f.fdeForAddress alg dbg a).bind fun x => .ok (x.map (funcSeen dbg f))
  dump := Verif.dump dbg f
  debug := f.debug

end Spec
open Spec

variable {o : Endian}

/-! ### Nothing of what is seen depends on the cleared bits -/

theorem rowSeen_clean (dbg : Bool) (f : SFrame o) (r : FrameRowEntry o) :
    rowSeen dbg f.clean r.clean = rowSeen dbg f r := by
  have h : r.clean.startAddress dbg = r.startAddress dbg := by
    unfold FrameRowEntry.startAddress
    show (if dbg = true then (if r.fde.clean.startAddress.toInt + _ ≤ _ then
      Rust.ok (r.fde.clean.startAddress + _) else _) else .ok (r.fde.clean.startAddress + _)) = _
    rw [r.fde.clean_startAddress]; rfl
  unfold rowSeen
  rw [h]; rfl

theorem funcSeen_clean (dbg : Bool) (f : SFrame o) (e : FuncDescEntry o) :
    funcSeen dbg f.clean e.clean = funcSeen dbg f e := by
  have h1 : e.clean.startAddress = e.startAddress := e.fde.clean_startAddress
  have h2 : e.clean.size = e.size := e.fde.clean_size
  have h3 : e.clean.fdetype = e.fdetype := e.fde.clean_fdetype
  have h4 : e.clean.repBlockSize = e.repBlockSize := e.fde.clean_repSize
  have h5 : e.clean.pauthKey = e.pauthKey := e.fde.clean_pauthKey
  have h6 : (e.clean.iter.collect.bind fun rs =>
      Rust.ok (rs.map (·.map (rowSeen dbg f.clean)))) =
      e.iter.collect.bind fun rs => .ok (rs.map (·.map (rowSeen dbg f))) := by
    show (e.iter.clean.collect.bind _) = _
    rw [FrameRowIter.collect_clean]
    cases e.iter.collect with
    | panic p => rfl
    | diverge => rfl
    | ok rs =>
      simp only [Rust.bind, List.map_map]
      congr 2
      funext x
      cases x with
      | error e => rfl
      | ok r => simp only [Function.comp, Except.map, rowSeen_clean]
  have h7 : e.clean.contains dbg = e.contains dbg := funext (contains_clean dbg e)
  have h8 : (fun a => (e.clean.getFreForAddress dbg a).bind fun x =>
      Rust.ok (x.map (·.map (rowSeen dbg f.clean)))) =
      fun a => (e.getFreForAddress dbg a).bind fun x => .ok (x.map (·.map (rowSeen dbg f))) := by
    funext a
    rw [getFre_clean]
    cases e.getFreForAddress dbg a with
    | panic p => rfl
    | diverge => rfl
    | ok x =>
      rcases x with e | _ | r
      · rfl
      · rfl
      · simp only [Rust.bind, Except.map, Option.map, rowSeen_clean]
  unfold funcSeen
  rw [h1, h2, h3, h4, h5, h6, h7, h8, debug_entry_clean]

theorem sectionSeen_clean (alg : SearchAlg) (dbg : Bool) (f : SFrame o) :
    sectionSeen alg dbg f.clean = sectionSeen alg dbg f := by
  have hm : ∀ es : List (FuncDescEntry o),
      (es.map FuncDescEntry.clean).map (funcSeen dbg f.clean) = es.map (funcSeen dbg f) := by
    intro es
    rw [List.map_map]
    congr 1
    funext e
    exact funcSeen_clean dbg f e
  have ho : ∀ x : Option (FuncDescEntry o),
      (x.map FuncDescEntry.clean).map (funcSeen dbg f.clean) = x.map (funcSeen dbg f) := by
    intro x
    cases x with
    | none => rfl
    | some e => simp only [Option.map, funcSeen_clean]
  have h1 : (f.clean.iter.collect.bind fun es => Rust.ok (es.map (funcSeen dbg f.clean))) =
      f.iter.collect.bind fun es => .ok (es.map (funcSeen dbg f)) := by
    rw [iter_clean, FuncDescIter.collect_clean]
    cases f.iter.collect with
    | panic p => rfl
    | diverge => rfl
    | ok es => simp only [Rust.bind, hm]
  have h2 : (f.clean.iter.collectBack.bind fun es => Rust.ok (es.map (funcSeen dbg f.clean))) =
      f.iter.collectBack.bind fun es => .ok (es.map (funcSeen dbg f)) := by
    rw [iter_clean, FuncDescIter.collectBack_clean]
    cases f.iter.collectBack with
    | panic p => rfl
    | diverge => rfl
    | ok es => simp only [Rust.bind, hm]
  have h3 : (fun n => (f.clean.iter.nth n).1.map (funcSeen dbg f.clean)) =
      fun n => (f.iter.nth n).1.map (funcSeen dbg f) := by
    funext n
    rw [iter_clean, FuncDescIter.nth_clean]
    exact ho _
  have h4 : (fun a => (f.clean.fdeForAddress alg dbg a).bind fun x =>
      Rust.ok (x.map (funcSeen dbg f.clean))) =
      fun a => (f.fdeForAddress alg dbg a).bind fun x => .ok (x.map (funcSeen dbg f)) := by
    funext a
    rw [fdeForAddress_clean]
    cases f.fdeForAddress alg dbg a with
    | panic p => rfl
    | diverge => rfl
    | ok x => simp only [Rust.bind, ho]
  unfold sectionSeen
  rw [h1, h2, h3, h4, dump_clean, debug_clean]
  rfl

/-! ### Bytes -/

theorem byteAt_span {s : List U8} {p n k : Nat} (hk : k < n) :
    byteAt (span s p n) k = byteAt s (p + k) := by
  simp [byteAt, span, List.getD_eq_getElem?_getD, hk]

theorem byteAt_of_span {s s' : List U8} {p n : Nat} (h : span s' p n = span s p n) {k : Nat}
    (hk : k < n) : byteAt s' (p + k) = byteAt s (p + k) := by
  rw [← byteAt_span hk, h, byteAt_span hk]

theorem span_span {s : List U8} {p n q m : Nat} (h : q + m ≤ n) :
    span (span s p n) q m = span s (p + q) m := by
  unfold span
  rw [List.drop_take, List.take_take, List.drop_drop]
  congr 1
  omega

theorem uintAt_of_span {s s' : List U8} {p n : Nat} (h : span s' p n = span s p n) (o : Endian)
    {q m : Nat} (hq : q + m ≤ n) : uintAt o s' (p + q) m = uintAt o s (p + q) m := by
  show natOf o (span s' (p + q) m) = natOf o (span s (p + q) m)
  rw [← span_span hq, h, span_span hq]

theorem readU32_of_bytes {s s' : List U8} (o : Endian) {p p' : Nat}
    (h : ∀ k < 4, byteAt s' (p' + k) = byteAt s (p + k)) : readU32 o s' p' = readU32 o s p := by
  unfold readU32
  rw [show byteAt s' p' = byteAt s p from h 0 (by omega), h 1 (by omega), h 2 (by omega),
    h 3 (by omega)]

theorem and31_of_mod {a b : U8} (h : a.toNat % 32 = b.toNat % 32) : a &&& 31 = b &&& 31 := by
  apply BitVec.eq_of_toNat_eq
  rw [BitVec.toNat_and, BitVec.toNat_and]
  have h31 : BitVec.toNat (31 : U8) = 2 ^ 5 - 1 := rfl
  rw [h31, Nat.and_two_pow_sub_one_eq_mod, Nat.and_two_pow_sub_one_eq_mod]
  exact h

namespace Spec.SameMeaning
variable {s s' : List U8} (h : SameMeaning o s s')
include h

theorem at_header {q m : Nat} (hq : q + m ≤ 28) : uintAt o s' q m = uintAt o s q m := by
  have := uintAt_of_span h.header o hq
  simpa using this

theorem layout : magic o s' = magic o s ∧ version o s' = version o s ∧ auxLen o s' = auxLen o s ∧
    numFdes o s' = numFdes o s ∧ freLen o s' = freLen o s ∧ fdeOff o s' = fdeOff o s ∧
    freOff o s' = freOff o s :=
  ⟨h.at_header (by omega), h.at_header (by omega), h.at_header (by omega), h.at_header (by omega),
    h.at_header (by omega), h.at_header (by omega), h.at_header (by omega)⟩

theorem loadError_eq : loadError o s' = loadError o s := by
  obtain ⟨h1, h2, h3, h4, h5, h6, h7⟩ := h.layout
  unfold loadError tablePos fresPos bodyPos fdeSize
  rw [h.length, h1, h2, h3, h4, h5, h6, h7]

theorem fdePos_eq (i : Nat) : fdePos o s' i = fdePos o s i := by
  obtain ⟨_, h2, h3, _, _, h6, _⟩ := h.layout
  unfold fdePos tablePos bodyPos fdeSize
  rw [h2, h3, h6]

theorem readField {i : Nat} (hi : i < numFdes o s) {q : Nat} (hq : q + 4 ≤ 16) :
    readU32 o (s'.drop (fdePos o s' i)) q = readU32 o (s.drop (fdePos o s i)) q := by
  apply readU32_of_bytes
  intro k hk
  rw [byteAt_drop, byteAt_drop, h.fdePos_eq]
  exact byteAt_of_span (h.fields i hi) (by omega)

theorem info_eq {i : Nat} (hi : i < numFdes o s) (hl : fdePos o s i + 17 ≤ s.length) :
    byteAt (s'.drop (fdePos o s' i)) 16 &&& 31 = byteAt (s.drop (fdePos o s i)) 16 &&& 31 := by
  apply and31_of_mod
  rw [byteAt_drop, byteAt_drop, h.fdePos_eq, byteAt_toNat o (by rw [h.length]; omega),
    byteAt_toNat o (by omega)]
  exact h.info i hi

theorem table_clean (hl : Loads o s) : (tableOf o s').clean = (tableOf o s).clean := by
  obtain ⟨_, hv, _, hn, _, _, _⟩ := h.layout
  have hfit : ∀ i < numFdes o s, fdePos o s i + fdeSize o s ≤ s.length := by
    intro i hi
    have h1 := hl.table
    have h2 : i * fdeSize o s + fdeSize o s ≤ numFdes o s * fdeSize o s := by
      rw [← Nat.succ_mul]; exact Nat.mul_le_mul_right _ hi
    unfold fdePos
    omega
  unfold tableOf
  rw [hv, hn]
  split
  · rename_i h1
    simp only [FdeList.clean, List.map_map, FdeList.v1.injEq]
    apply List.map_congr_left
    intro i hi
    have hi := List.mem_range.1 hi
    have hf := hfit i hi
    rw [fdeSize, if_pos h1] at hf
    simp only [Function.comp, FdeV1.clean, FdeV1.decode, FdeV1.mk.injEq]
    exact ⟨h.readField hi (by omega), h.readField hi (by omega), h.readField hi (by omega),
      h.readField hi (by omega), h.info_eq hi (by omega)⟩
  · rename_i h1
    have h2 : version o s = 2 := by
      have := hl.version
      omega
    simp only [FdeList.clean, List.map_map, FdeList.v2.injEq]
    apply List.map_congr_left
    intro i hi
    have hi := List.mem_range.1 hi
    have hf := hfit i hi
    rw [fdeSize, if_neg h1] at hf
    simp only [Function.comp, FdeV2.clean, FdeV2.decode, FdeV2.mk.injEq]
    refine ⟨h.readField hi (by omega), h.readField hi (by omega), h.readField hi (by omega),
      h.readField hi (by omega), h.info_eq hi (by omega), ?_, trivial⟩
    rw [byteAt_drop, byteAt_drop, h.fdePos_eq]
    exact byteAt_of_span (h.rep h2 i hi) (k := 0) (by omega)

theorem section_clean (hl : Loads o s) : (sectionOf o s').clean = (sectionOf o s).clean := by
  obtain ⟨_, _, h3, _, h5, _, h7⟩ := h.layout
  have hb : ∀ k < 28, byteAt s' k = byteAt s k := by
    intro k hk
    have := byteAt_of_span h.header hk
    simpa using this
  have hp : Preamble.decode o s' = Preamble.decode o s := by
    unfold Preamble.decode readU16
    rw [hb 0 (by omega), hb (0 + 1) (by omega), hb 2 (by omega), hb 3 (by omega)]
  have hr : ∀ q, q + 4 ≤ 28 → readU32 o s' q = readU32 o s q := fun q hq =>
    readU32_of_bytes o fun k hk => hb _ (by omega)
  have ha : span s' 28 (auxLen o s') = span s 28 (auxLen o s) := by rw [h3]; exact h.aux
  have hf : span s' (fresPos o s') (freLen o s') = span s (fresPos o s) (freLen o s) := by
    have : fresPos o s' = fresPos o s := by unfold fresPos bodyPos; rw [h3, h7]
    rw [this, h5]; exact h.fres
  show SFrame.mk (Preamble.decode o s') (byteAt s' 4) (byteAt s' 5) (byteAt s' 6) (readU32 o s' 8)
    (readU32 o s' 12) (span s' 28 (auxLen o s')) (tableOf o s').clean
    (span s' (fresPos o s') (freLen o s')) = _
  rw [hp, hb 4 (by omega), hb 5 (by omega), hb 6 (by omega), hr 8 (by omega), hr 12 (by omega), ha,
    h.table_clean hl, hf]
  rfl

end Spec.SameMeaning

/-- **C130.**  Two byte strings that differ only in bytes without a meaning are loaded alike: `load`
returns the same error on both, or it accepts both and then every method of the section, of its
functions and of their rows returns the same, lookups by address, the dump and `Debug` included. -/
theorem C130_unused_bytes (alg : SearchAlg) (dbg : Bool) {s s' : List U8}
    (h : SameMeaning o s s') :
    (∃ e, SFrame.load o s = .ok (.error e) ∧ SFrame.load o s' = .ok (.error e)) ∨
    ∃ f f', SFrame.load o s = .ok (.ok f) ∧ SFrame.load o s' = .ok (.ok f') ∧
      sectionSeen alg dbg f' = sectionSeen alg dbg f := by
  cases hl : loadError o s with
  | some e =>
    refine .inl ⟨e, ?_, ?_⟩
    · rw [load_eq, hl]
    · rw [load_eq, h.loadError_eq, hl]
  | none =>
    refine .inr ⟨sectionOf o s, sectionOf o s', ?_, ?_, ?_⟩
    · rw [load_eq, hl]
    · rw [load_eq, h.loadError_eq, hl]
    · rw [← sectionSeen_clean alg dbg (sectionOf o s'),
        h.section_clean ((loadError_eq_none_iff o s).1 hl), sectionSeen_clean]

/-! ### Non-vacuity -/

namespace Samples

/-- A version 2 section, little endian: two auxiliary bytes, three bytes of gap, one function with a
row of one byte offsets, two bytes of gap, the row, and one byte at the end.  The bytes without a
meaning are `g`, `p` and the top of `i`. -/
def loose (g p i : U8) : List U8 :=
  [0xE2, 0xDE, 2, 1, 3, 0, 0xF8, 2, 1, 0, 0, 0, 1, 0, 0, 0, 3, 0, 0, 0, 3, 0, 0, 0, 25, 0, 0, 0,
    0xAA, 0xBB, g, g, g,
    0, 16, 0, 0, 64, 0, 0, 0, 0, 0, 0, 0, 1, 0, 0, 0, i, 0, p, p, g, g,
    0, 3, 8, g]

theorem loose_same : SameMeaning .little (loose 0 0 0) (loose 7 9 0xE0) where
  length := by decide +kernel
  header := by decide +kernel
  aux := by decide +kernel
  fields := by decide +kernel
  info := by decide +kernel
  rep := by decide +kernel
  fres := by decide +kernel

/-- The hypothesis of `C130_unused_bytes` for different bytes, and the case of a success. -/
example : ∃ f f', SFrame.load .little (loose 0 0 0) = .ok (.ok f) ∧
    SFrame.load .little (loose 7 9 0xE0) = .ok (.ok f') ∧ f ≠ f' ∧
    (sectionSeen .v182 true f').dump = (sectionSeen .v182 true f).dump ∧
    (sectionSeen .v182 true f).dump.1.length = 5 :=
  ⟨sectionOf .little (loose 0 0 0), sectionOf .little (loose 7 9 0xE0), by decide +kernel,
    by decide +kernel, by decide +kernel, by decide +kernel, by decide +kernel⟩

/-- Bit 3 of the info byte has a meaning: the two are not the same to the reader. -/
example : ∃ f f', SFrame.load .little (loose 0 0 0) = .ok (.ok f) ∧
    SFrame.load .little (loose 0 0 8) = .ok (.ok f') ∧
    (sectionSeen .v182 true f').dump ≠ (sectionSeen .v182 true f).dump :=
  ⟨sectionOf .little (loose 0 0 0), sectionOf .little (loose 0 0 8), by decide +kernel,
    by decide +kernel, by decide +kernel⟩

end Samples

end Verif
