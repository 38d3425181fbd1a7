import Verif.Props.Load
import Verif.Model.Narrow
/-!
# The reader on 32-bit targets (C83)
-/

namespace Verif
open Spec

namespace Spec

/-- Everything up to the row area can be loaded. -/
structure TablesFit (o : Endian) (s : List U8) : Prop where
  magic : magic o s = 0xDEE2
  version : version o s = 1 ∨ version o s = 2
  header : 28 ≤ s.length
  aux : bodyPos o s ≤ s.length
  table : tablePos o s + numFdes o s * fdeSize o s ≤ s.length

end Spec

theorem sliceFromPrefix32_eq {α} {sz : Nat} {dec : List U8 → α} {s : List U8} {n : Nat}
    (h : s.length < 2 ^ 31) : sliceFromPrefix32 sz dec s n = sliceFromPrefix sz dec s n := by
  unfold sliceFromPrefix32 sliceFromPrefix
  split
  · rw [if_pos (by omega)]
  · rfl

theorem addU32_end (dbg : Bool) (a b : U32) :
    (2 ^ 32 ≤ a.toNat + b.toNat ∧ dbg = true ∧ addU32 dbg a b = .panic .overflow) ∨
    (¬ (dbg = true ∧ 2 ^ 32 ≤ a.toNat + b.toNat) ∧ ∃ e : U32, e.toNat = (a.toNat + b.toNat) % 2 ^ 32 ∧
      addU32 dbg a b = .ok e) := by
  unfold addU32
  by_cases h : dbg = true ∧ 2 ^ 32 ≤ a.toNat + b.toNat
  · exact .inl ⟨h.2, h.1, if_pos (by simp [h])⟩
  · exact .inr ⟨h, a + b, BitVec.toNat_add .., if_neg (by simpa using h)⟩

theorem load32_steps (dbg : Bool) (o : Endian) (s : List U8) (hs : s.length < 2 ^ 31) :
    SFrame.load32 dbg o s = if s.length < 4 then .ok (.error .unexpectedEof)
      else if magic o s ≠ 0xDEE2 then .ok (.error .incorrectEndian)
      else if version o s ≠ 1 ∧ version o s ≠ 2 then
        .ok (.error (.unsupportedVersion (BitVec.ofNat 8 (version o s))))
      else if s.length < 28 then .ok (.error .unexpectedEof)
      else if s.length < bodyPos o s then .ok (.error .unexpectedEof)
      else if s.length < tablePos o s + numFdes o s * fdeSize o s then .ok (.error .unexpectedEof)
      else if dbg = true ∧ 2 ^ 32 ≤ freOff o s + freLen o s then .panic .overflow
      else if s.length < fresPos o s + freLen o s then .ok (.error .unexpectedEof)
      else .ok (.ok (sectionOf o s)) := by
  unfold SFrame.load32 Preamble.refFromPrefix
  by_cases h4 : s.length < 4
  · simp [Preamble.size, h4]
  · have hm : (readU16 o s 0).toNat = magic o s := readU16_toNat o (by omega)
    have hv : (byteAt s 2).toNat = version o s := byteAt_toNat o (by omega)
    have e1 : ((Preamble.decode o s).magic ≠ MAGIC) ↔ magic o s ≠ 0xDEE2 := by
      rw [← hm]
      simp only [Preamble.decode, MAGIC, ne_eq, ← BitVec.toNat_inj]
      simp
    have e2 : (Preamble.decode o s).version = Version.V1 ↔ version o s = 1 := by
      rw [← hv]
      simp only [Preamble.decode, Version.V1, ← BitVec.toNat_inj]
      simp
    have e3 : (Preamble.decode o s).version = Version.V2 ↔ version o s = 2 := by
      rw [← hv]
      simp only [Preamble.decode, Version.V2, ← BitVec.toNat_inj]
      simp
    have e4 : (Preamble.decode o s).version = BitVec.ofNat 8 (version o s) := by
      rw [← hv]; simp [Preamble.decode]
    simp only [Preamble.size, h4, if_false, e1, e2, e3]
    by_cases hmag : magic o s = 0xDEE2
    · simp only [hmag, ne_eq, not_true_eq_false, if_false]
      by_cases hver : version o s = 1 ∨ version o s = 2
      · have hver' : ¬ (¬version o s = 1 ∧ ¬version o s = 2) := by omega
        simp only [hver, hver', not_true_eq_false, if_false]
        unfold Header.refFromPrefix
        by_cases h28 : s.length < 28
        · simp [Header.size, h28]
        · have ha : (byteAt s 7).toNat = auxLen o s := byteAt_toNat o (by omega)
          have hn : (readU32 o s 8).toNat = numFdes o s := readU32_toNat o (by omega)
          have hl : (readU32 o s 16).toNat = freLen o s := readU32_toNat o (by omega)
          have hf : (readU32 o s 20).toNat = fdeOff o s := readU32_toNat o (by omega)
          have hr : (readU32 o s 24).toNat = freOff o s := readU32_toNat o (by omega)
          simp only [Header.size, h28, if_false]
          simp only [sliceFrom, show 28 ≤ s.length by omega, if_true, Rust.bind_ok, Header.decode,
            ha, hn, hf, hr, getTo, List.length_drop]
          by_cases haux : s.length < bodyPos o s
          · have : ¬ auxLen o s ≤ s.length - 28 := by simp only [bodyPos] at haux; omega
            simp [haux, this]
          · have h2 : auxLen o s ≤ s.length - 28 := by simp only [bodyPos] at haux; omega
            simp only [haux, if_false, h2, if_true, List.length_take, List.length_drop,
              Nat.min_eq_left h2, Rust.bind_ok, List.drop_drop, getFrom]
            have hb : 28 + auxLen o s = bodyPos o s := rfl
            by_cases hfd : fdeOff o s ≤ s.length - (28 + auxLen o s)
            · simp only [hfd, if_true]
              have hpos : 28 + auxLen o s + fdeOff o s = tablePos o s := rfl
              rcases hver with hv1 | hv2
              · simp only [hv1, if_true, Rust.bind_ok]
                rw [sliceFromPrefix32_eq (by rw [List.length_drop]; omega)]
                unfold sliceFromPrefix
                simp only [FdeV1.byteSize, hpos, List.length_drop]
                have hsz : fdeSize o s = 17 := by simp [fdeSize, hv1]
                rw [hsz]
                by_cases ht : s.length < tablePos o s + numFdes o s * 17
                · have : s.length - tablePos o s < 17 * numFdes o s := by
                    simp only [bodyPos, tablePos] at *; omega
                  simp [ht, this]
                · have : ¬ s.length - tablePos o s < 17 * numFdes o s := by
                    simp only [bodyPos, tablePos] at *; omega
                  simp only [ht, this, if_false, Option.map_some]
                  rcases addU32_end dbg (readU32 o s 24) (readU32 o s 16) with ⟨hov, hd, hp⟩ | ⟨hov, e, he, hp⟩
                  · rw [hp, if_pos ⟨hd, by rw [← hr, ← hl]; exact hov⟩]
                    rfl
                  rw [hp, if_neg (by rw [← hr, ← hl]; exact hov)]
                  rw [hr, hl] at he
                  simp only [Rust.bind_ok, getRange, List.length_drop]
                  by_cases hfr : s.length < fresPos o s + freLen o s
                  · have : ¬ (freOff o s ≤ e.toNat ∧ e.toNat ≤ s.length - (28 + auxLen o s)) := by
                      simp only [bodyPos, fresPos] at *; omega
                    simp only [hfr, this, if_true, if_false]
                  · have : (freOff o s ≤ e.toNat ∧ e.toNat ≤ s.length - (28 + auxLen o s)) := by
                      simp only [bodyPos, fresPos] at *; omega
                    have he' : e.toNat = freOff o s + freLen o s := by
                      simp only [bodyPos, fresPos] at *; omega
                    simp only [hfr, this, if_false, and_self, if_true]
                    simp only [sectionOf, tableOf, hv1, if_true, Rust.ok.injEq, Except.ok.injEq,
                      SFrame.mk.injEq, true_and, span, List.drop_drop, fdePos, hsz,
                      Nat.mul_comm]
                    rw [he', List.drop_take, List.drop_drop, Nat.add_sub_cancel_left]
                    rfl
              · have hv1 : ¬ version o s = 1 := by omega
                simp only [hv2, if_true, if_false, Rust.bind_ok, show ¬ (2 = 1) by omega]
                rw [sliceFromPrefix32_eq (by rw [List.length_drop]; omega)]
                unfold sliceFromPrefix
                simp only [FdeV2.byteSize, hpos, List.length_drop]
                have hsz : fdeSize o s = 20 := by simp [fdeSize, hv1]
                rw [hsz]
                by_cases ht : s.length < tablePos o s + numFdes o s * 20
                · have : s.length - tablePos o s < 20 * numFdes o s := by
                    simp only [bodyPos, tablePos] at *; omega
                  simp [ht, this]
                · have : ¬ s.length - tablePos o s < 20 * numFdes o s := by
                    simp only [bodyPos, tablePos] at *; omega
                  simp only [ht, this, if_false, Option.map_some]
                  rcases addU32_end dbg (readU32 o s 24) (readU32 o s 16) with ⟨hov, hd, hp⟩ | ⟨hov, e, he, hp⟩
                  · rw [hp, if_pos ⟨hd, by rw [← hr, ← hl]; exact hov⟩]
                    rfl
                  rw [hp, if_neg (by rw [← hr, ← hl]; exact hov)]
                  rw [hr, hl] at he
                  simp only [Rust.bind_ok, getRange, List.length_drop]
                  by_cases hfr : s.length < fresPos o s + freLen o s
                  · have : ¬ (freOff o s ≤ e.toNat ∧ e.toNat ≤ s.length - (28 + auxLen o s)) := by
                      simp only [bodyPos, fresPos] at *; omega
                    simp only [hfr, this, if_true, if_false]
                  · have : (freOff o s ≤ e.toNat ∧ e.toNat ≤ s.length - (28 + auxLen o s)) := by
                      simp only [bodyPos, fresPos] at *; omega
                    have he' : e.toNat = freOff o s + freLen o s := by
                      simp only [bodyPos, fresPos] at *; omega
                    simp only [hfr, this, if_false, and_self, if_true]
                    simp only [sectionOf, tableOf, hv1, if_false, Rust.ok.injEq, Except.ok.injEq,
                      SFrame.mk.injEq, true_and, span, List.drop_drop, fdePos, hsz,
                      Nat.mul_comm]
                    rw [he', List.drop_take, List.drop_drop, Nat.add_sub_cancel_left]
                    rfl
            · have : s.length < tablePos o s + numFdes o s * fdeSize o s := by
                simp only [bodyPos, tablePos] at *; omega
              simp [hfd, this]
      · have hver' : (¬version o s = 1 ∧ ¬version o s = 2) := by omega
        simp [hver', e4]
    · simp [hmag]


/-- **C83** is false: in a debug build for a 32-bit target a section of 28 bytes panics the reader; all
other builds report `UnexpectedEof`. -/
theorem C83_load_panics : ∃ s : List U8, s.length = 28 ∧
    SFrame.load32 true .little s = .panic .overflow ∧
    SFrame.load32 false .little s = .ok (.error .unexpectedEof) ∧
    SFrame.load .little s = .ok (.error .unexpectedEof) :=
  ⟨[0xE2, 0xDE, 2, 0,  3, 0, 0xF8, 0,  0, 0, 0, 0,  0, 0, 0, 0,  0xFF, 0xFF, 0xFF, 0xFF,  0, 0, 0, 0,  1, 0, 0, 0],
    by decide +kernel⟩

/-- **C83**, partial: on a 32-bit target `load` gives what it gives on a 64-bit target for every input,
except that debug builds panic exactly if everything up to the row area is in order and the end of the
row area, as announced by the header, is 2^32 or more. -/
theorem C83_load_partial (dbg : Bool) (o : Endian) (s : List U8) (hs : s.length < 2 ^ 31) :
    SFrame.load32 false o s = SFrame.load o s ∧
    ((SFrame.load32 dbg o s).Panics ↔
      dbg = true ∧ TablesFit o s ∧ 2 ^ 32 ≤ freOff o s + freLen o s) ∧
    (¬ (SFrame.load32 dbg o s).Panics → SFrame.load32 dbg o s = SFrame.load o s) := by
  have hl : SFrame.load o s = if s.length < 4 then .ok (.error .unexpectedEof)
      else if magic o s ≠ 0xDEE2 then .ok (.error .incorrectEndian)
      else if version o s ≠ 1 ∧ version o s ≠ 2 then
        .ok (.error (.unsupportedVersion (BitVec.ofNat 8 (version o s))))
      else if s.length < 28 then .ok (.error .unexpectedEof)
      else if s.length < bodyPos o s then .ok (.error .unexpectedEof)
      else if s.length < tablePos o s + numFdes o s * fdeSize o s then .ok (.error .unexpectedEof)
      else if s.length < fresPos o s + freLen o s then .ok (.error .unexpectedEof)
      else .ok (.ok (sectionOf o s)) := by
    rw [load_eq]
    unfold loadError
    by_cases h1 : s.length < 4
    · simp only [if_pos h1]
    by_cases h2 : magic o s ≠ 0xDEE2
    · simp only [if_neg h1, if_pos h2]
    by_cases h3 : version o s ≠ 1 ∧ version o s ≠ 2
    · simp only [if_neg h1, if_neg h2, if_pos h3]
    by_cases h4 : s.length < 28
    · simp only [if_neg h1, if_neg h2, if_neg h3, if_pos h4]
    by_cases h5 : s.length < bodyPos o s
    · simp only [if_neg h1, if_neg h2, if_neg h3, if_neg h4, if_pos h5]
    by_cases h6 : s.length < tablePos o s + numFdes o s * fdeSize o s
    · simp only [if_neg h1, if_neg h2, if_neg h3, if_neg h4, if_neg h5, if_pos h6]
    by_cases h7 : s.length < fresPos o s + freLen o s
    · simp only [if_neg h1, if_neg h2, if_neg h3, if_neg h4, if_neg h5, if_neg h6, if_pos h7]
    · simp only [if_neg h1, if_neg h2, if_neg h3, if_neg h4, if_neg h5, if_neg h6, if_neg h7]
  have key : ∀ dbg, ((SFrame.load32 dbg o s).Panics ∧ dbg = true ∧ TablesFit o s ∧
      2 ^ 32 ≤ freOff o s + freLen o s) ∨
      (SFrame.load32 dbg o s = SFrame.load o s ∧
        ¬ (dbg = true ∧ TablesFit o s ∧ 2 ^ 32 ≤ freOff o s + freLen o s)) := by
    intro dbg
    rw [load32_steps dbg o s hs, hl]
    by_cases h1 : s.length < 4
    · exact .inr ⟨by rw [if_pos h1, if_pos h1], fun h => by have := h.2.1.header; omega⟩
    rw [if_neg h1, if_neg h1]
    by_cases h2 : magic o s ≠ 0xDEE2
    · exact .inr ⟨by rw [if_pos h2, if_pos h2], fun h => h2 h.2.1.magic⟩
    rw [if_neg h2, if_neg h2]
    by_cases h3 : version o s ≠ 1 ∧ version o s ≠ 2
    · exact .inr ⟨by rw [if_pos h3, if_pos h3], fun h => by have := h.2.1.version; omega⟩
    rw [if_neg h3, if_neg h3]
    by_cases h4 : s.length < 28
    · exact .inr ⟨by rw [if_pos h4, if_pos h4], fun h => by have := h.2.1.header; omega⟩
    rw [if_neg h4, if_neg h4]
    by_cases h5 : s.length < bodyPos o s
    · exact .inr ⟨by rw [if_pos h5, if_pos h5], fun h => by have := h.2.1.aux; omega⟩
    rw [if_neg h5, if_neg h5]
    by_cases h6 : s.length < tablePos o s + numFdes o s * fdeSize o s
    · exact .inr ⟨by rw [if_pos h6, if_pos h6], fun h => by have := h.2.1.table; omega⟩
    rw [if_neg h6, if_neg h6]
    by_cases h7 : dbg = true ∧ 2 ^ 32 ≤ freOff o s + freLen o s
    · exact .inl ⟨by rw [if_pos h7]; exact ⟨_, rfl⟩, h7.1, ⟨by omega, by omega, by omega, by omega, by omega⟩, h7.2⟩
    · exact .inr ⟨by rw [if_neg h7], fun h => h7 ⟨h.1, h.2.2⟩⟩
  have hret : ∀ r : Except ReadError (SFrame o), ¬ (Rust.ok r).Panics := by
    rintro r ⟨p, h⟩
    cases h
  have hnot : ¬ (SFrame.load o s).Panics := by rw [load_eq]; exact hret _
  refine ⟨?_, ?_, ?_⟩
  · rcases key false with ⟨_, h, _⟩ | ⟨h, _⟩
    · cases h
    · exact h
  · rcases key dbg with ⟨h, h'⟩ | ⟨h, h'⟩
    · exact ⟨fun _ => h', fun _ => h⟩
    · exact ⟨fun hp => absurd (h ▸ hp) hnot, fun hp => absurd hp h'⟩
  · intro hp
    rcases key dbg with ⟨h, _⟩ | ⟨h, _⟩
    · exact absurd h hp
    · exact h

/-- A section that loads on both. -/
example (dbg : Bool) : SFrame.load32 dbg .little Samples.v2 = .ok (.ok (Samples.v2F)) ∧
    Samples.v2.length < 2 ^ 31 := by
  cases dbg <;> decide +kernel

end Verif
