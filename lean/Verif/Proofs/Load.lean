import Verif.Proofs.Bytes
import Verif.Model.Read
/-!
# `SFrame::load` in closed form
-/

namespace Verif
open Spec

/-- The FDE table as `load` decodes it. -/
def tableOf (o : Endian) (s : List U8) : FdeList :=
  if version o s = 1 then
    .v1 ((List.range (numFdes o s)).map fun i => FdeV1.decode o (s.drop (fdePos o s i)))
  else
    .v2 ((List.range (numFdes o s)).map fun i => FdeV2.decode o (s.drop (fdePos o s i)))

/-- What `load` returns on success. -/
def sectionOf (o : Endian) (s : List U8) : SFrame o where
  preamble := Preamble.decode o s
  abiArch := byteAt s 4
  fixedFp := byteAt s 5
  fixedRa := byteAt s 6
  numFdes := readU32 o s 8
  numFres := readU32 o s 12
  aux := span s 28 (auxLen o s)
  fdes := tableOf o s
  fres := span s (fresPos o s) (freLen o s)

theorem sliceFromPrefix_eq {α} (sz : Nat) (dec : List U8 → α) (s : List U8) (n : Nat) :
    (sliceFromPrefix sz dec s n).map Prod.fst =
      if s.length < sz * n then none
      else some ((List.range n).map fun i => dec (s.drop (sz * i))) := by
  unfold sliceFromPrefix; split <;> rfl

theorem loadError_eq_none_iff (o : Endian) (s : List U8) : loadError o s = none ↔ Loads o s := by
  unfold loadError
  constructor
  · intro h
    repeat' split at h
    all_goals first | contradiction | skip
    all_goals first | (constructor <;> omega)
  · rintro ⟨h1, h2, h3, h4, h5, h6⟩
    rw [if_neg (by omega), if_neg (by omega), if_neg (by omega), if_neg (by omega),
      if_neg (by omega), if_neg (by omega), if_neg (by omega)]

theorem load_eq (o : Endian) (s : List U8) :
    SFrame.load o s = .ok (match loadError o s with
      | some e => .error e
      | none => .ok (sectionOf o s)) := by
  unfold SFrame.load Preamble.refFromPrefix loadError
  by_cases h4 : s.length < 4
  · simp [Preamble.size, h4]
  · have hm : (readU16 o s 0).toNat = magic o s := readU16_toNat o (by omega)
    have hv : (byteAt s 2).toNat = version o s := byteAt_toNat o (by omega)
    have e1 : ((Preamble.decode o s).magic ≠ MAGIC) ↔ magic o s ≠ 0xDEE2 := by
      rw [← hm]
      simp only [Preamble.decode, MAGIC, ne_eq, ← BitVec.toNat_inj]
      simp
    have e2 : (Preamble.decode o s).version = Version.V1 ↔ version o s = 1 := by
      rw [← hv]
      simp only [Preamble.decode, Version.V1, ← BitVec.toNat_inj]
      simp
    have e3 : (Preamble.decode o s).version = Version.V2 ↔ version o s = 2 := by
      rw [← hv]
      simp only [Preamble.decode, Version.V2, ← BitVec.toNat_inj]
      simp
    have e4 : (Preamble.decode o s).version = BitVec.ofNat 8 (version o s) := by
      rw [← hv]; simp [Preamble.decode]
    simp only [Preamble.size, h4, if_false, e1, e2, e3]
    by_cases hmag : magic o s = 0xDEE2
    · simp only [hmag, ne_eq, not_true_eq_false, if_false]
      by_cases hver : version o s = 1 ∨ version o s = 2
      · have hver' : ¬ (¬version o s = 1 ∧ ¬version o s = 2) := by omega
        simp only [hver, hver', not_true_eq_false, if_false]
        unfold Header.refFromPrefix
        by_cases h28 : s.length < 28
        · simp [Header.size, h28]
        · have ha : (byteAt s 7).toNat = auxLen o s := byteAt_toNat o (by omega)
          have hn : (readU32 o s 8).toNat = numFdes o s := readU32_toNat o (by omega)
          have hl : (readU32 o s 16).toNat = freLen o s := readU32_toNat o (by omega)
          have hf : (readU32 o s 20).toNat = fdeOff o s := readU32_toNat o (by omega)
          have hr : (readU32 o s 24).toNat = freOff o s := readU32_toNat o (by omega)
          simp only [Header.size, h28, if_false]
          simp only [sliceFrom, show 28 ≤ s.length by omega, if_true, Rust.bind_ok, Header.decode,
            ha, hn, hl, hf, hr, getTo, List.length_drop]
          by_cases haux : s.length < bodyPos o s
          · have : ¬ auxLen o s ≤ s.length - 28 := by simp only [bodyPos] at haux; omega
            simp [haux, this]
          · have h2 : auxLen o s ≤ s.length - 28 := by simp only [bodyPos] at haux; omega
            simp only [haux, if_false, h2, if_true, List.length_take, List.length_drop,
              Nat.min_eq_left h2, Rust.bind_ok, List.drop_drop, getFrom]
            have hb : 28 + auxLen o s = bodyPos o s := rfl
            by_cases hfd : fdeOff o s ≤ s.length - (28 + auxLen o s)
            · simp only [hfd, if_true]
              have hpos : 28 + auxLen o s + fdeOff o s = tablePos o s := rfl
              rcases hver with hv1 | hv2
              · simp only [hv1, if_true, Rust.bind_ok]
                unfold sliceFromPrefix
                simp only [FdeV1.byteSize, hpos, List.length_drop]
                have hsz : fdeSize o s = 17 := by simp [fdeSize, hv1]
                rw [hsz]
                by_cases ht : s.length < tablePos o s + numFdes o s * 17
                · have : s.length - tablePos o s < 17 * numFdes o s := by
                    simp only [bodyPos, tablePos] at *; omega
                  simp [ht, this]
                · have : ¬ s.length - tablePos o s < 17 * numFdes o s := by
                    simp only [bodyPos, tablePos] at *; omega
                  simp only [ht, this, if_false, Option.map_some, getRange, List.length_drop]
                  by_cases hfr : s.length < fresPos o s + freLen o s
                  · have : ¬ (freOff o s ≤ freOff o s + freLen o s ∧
                        freOff o s + freLen o s ≤ s.length - (28 + auxLen o s)) := by
                      simp only [bodyPos, fresPos] at *; omega
                    simp only [hfr, this, if_true, if_false]
                  · have : (freOff o s ≤ freOff o s + freLen o s ∧
                        freOff o s + freLen o s ≤ s.length - (28 + auxLen o s)) := by
                      simp only [bodyPos, fresPos] at *; omega
                    simp only [hfr, this, if_false, and_self, if_true]
                    simp only [sectionOf, tableOf, hv1, if_true, Rust.ok.injEq, Except.ok.injEq,
                      SFrame.mk.injEq, true_and, span, List.drop_drop, fdePos, hsz,
                      Nat.mul_comm]
                    rw [List.drop_take, List.drop_drop, Nat.add_sub_cancel_left]
                    rfl
              · have hv1 : ¬ version o s = 1 := by omega
                simp only [hv2, if_true, if_false, Rust.bind_ok, show ¬ (2 = 1) by omega]
                unfold sliceFromPrefix
                simp only [FdeV2.byteSize, hpos, List.length_drop]
                have hsz : fdeSize o s = 20 := by simp [fdeSize, hv1]
                rw [hsz]
                by_cases ht : s.length < tablePos o s + numFdes o s * 20
                · have : s.length - tablePos o s < 20 * numFdes o s := by
                    simp only [bodyPos, tablePos] at *; omega
                  simp [ht, this]
                · have : ¬ s.length - tablePos o s < 20 * numFdes o s := by
                    simp only [bodyPos, tablePos] at *; omega
                  simp only [ht, this, if_false, Option.map_some, getRange, List.length_drop]
                  by_cases hfr : s.length < fresPos o s + freLen o s
                  · have : ¬ (freOff o s ≤ freOff o s + freLen o s ∧
                        freOff o s + freLen o s ≤ s.length - (28 + auxLen o s)) := by
                      simp only [bodyPos, fresPos] at *; omega
                    simp only [hfr, this, if_true, if_false]
                  · have : (freOff o s ≤ freOff o s + freLen o s ∧
                        freOff o s + freLen o s ≤ s.length - (28 + auxLen o s)) := by
                      simp only [bodyPos, fresPos] at *; omega
                    simp only [hfr, this, if_false, and_self, if_true]
                    simp only [sectionOf, tableOf, hv1, if_false, Rust.ok.injEq, Except.ok.injEq,
                      SFrame.mk.injEq, true_and, span, List.drop_drop, fdePos, hsz,
                      Nat.mul_comm]
                    rw [List.drop_take, List.drop_drop, Nat.add_sub_cancel_left]
                    rfl
            · have : s.length < tablePos o s + numFdes o s * fdeSize o s := by
                simp only [bodyPos, tablePos] at *; omega
              simp [hfd, this]
      · have hver' : (¬version o s = 1 ∧ ¬version o s = 2) := by omega
        simp [hver', e4]
    · simp [hmag]

/-- A loaded section is the one described by the input. -/
theorem load_ok_iff {o : Endian} {s : List U8} {f : SFrame o} :
    SFrame.load o s = .ok (.ok f) ↔ Loads o s ∧ f = sectionOf o s := by
  rw [load_eq, ← loadError_eq_none_iff]
  cases h : loadError o s <;> simp [eq_comm]

end Verif
